import Verif.Props.Str
import Verif.Props.StrIO
import Verif.Props.BitOps
import Verif.Props.MemncpyMulti
import Verif.Props.Sha256
import Verif.Props.StringArray
import Verif.Props.MemBlock
import Verif.Props.Lexer
import Verif.Props.Json
import Verif.Props.JsonHeap
import Verif.Props.FastThreshold
import Verif.Props.VecMax
import Verif.Props.Usac
import Verif.Props.Keypoint
import Verif.Props.Getline
import Verif.Props.Brief
import Verif.Props.Graph
import Verif.Props.Transpose
import Verif.Props.Statistics
import Verif.Props.FastNonmax
import Verif.Props.Fast9
import Verif.Props.Filter
import Verif.Props.Csv
import Verif.Props.DataFrame
import Verif.Props.DataFrameIO
import Verif.Props.Options
import Verif.Props.Sample
import Verif.Props.Pnm
import Verif.Props.JsonBundle
import Verif.Props.Mat
import Verif.Props.Rotation
import Verif.Props.SmallGeometry
import Verif.Props.Transform2D
import Verif.Props.Homography
import Verif.Props.Dlt
import Verif.Props.Mark
import Verif.Props.MatchStats
import Verif.Props.Fundamental
import Verif.Props.Essential
import Verif.Props.Chirality
import Verif.Props.UniformSampler
import Verif.Props.HomRansac
import Verif.Props.FundRansac
import Verif.Props.Pinhole
import Verif.Props.Gaussian
import Verif.Props.Sfmt
import Verif.Props.ImageArith
import Verif.Props.ImageFilter
import Verif.Props.Warp
import Verif.Props.ImageMem
import Verif.Props.Pyramid
import Verif.Props.Harris
import Verif.Props.HarrisPyr
import Verif.Props.SiftMatch
import Verif.Props.SiftFiles
import Verif.Props.SiftDesc
import Verif.Props.SiftOri
import Verif.Props.SiftDog
import Verif.Props.SiftPeak
import Verif.Props.SiftStore
import Verif.Props.Vector
import Verif.Props.MatIO
import Verif.Props.AffineWarp
import Verif.Props.DescMap
import Verif.Props.ImageConv
import Verif.Props.FastDetector
import Verif.Props.Kitti
import Verif.Props.UsacHomography
import Verif.Props.Temple
import Verif.Props.Checkers
import Verif.Props.ImageIo
import Verif.Props.Panorama
import Verif.Props.PanoramaNet
import Verif.Props.Composite
import Verif.Props.Stereo
import Verif.Props.StereoRefine
import Verif.Props.StereoSteps
import Verif.Props.SiftSpace
import Verif.Props.OptionsPrint
import Verif.Props.Correspondence
import Verif.Props.Alloc
import Verif.Props.OptionsMem
import Verif.Props.DataFrameMem
import Verif.Props.CsvMem
import Verif.Props.PngJpeg
import Verif.Props.JsonMem
import Verif.Props.BriefPyr
import Verif.Props.FitHomography
import Verif.Props.Graphics
import Verif.Props.Gnuplot
import Verif.Props.Log
import Verif.Props.Filesystem
import Verif.Props.FileIO
import Verif.Props.Erf
import Verif.Props.DetectorMem
import Verif.Props.GraphMem
import Verif.Props.PanoramaMem
import Verif.Props.Moments
import Verif.Props.SvdWrap
import Verif.Props.StereoFit
import Verif.Props.VggBench
import Verif.Props.VgImage
import Verif.Props.Samplers
import Verif.Props.SiftOptions
import Verif.Props.InPlace
import Verif.Props.InPlaceArith
import Verif.Props.SfmtKey
import Verif.Props.SfmtKeyLong
import Verif.Props.SfmtSse
import Verif.Props.GlProjection
import Verif.Props.Gl
import Verif.Props.PyrLevel0
import Verif.Props.InPlaceColor
import Verif.Props.VgPyr
import Verif.Props.InPlaceScale
import Verif.Props.InPlaceSmooth
import Verif.Props.BriefRandom
import Verif.Props.VgBrief
import Verif.Props.FloatOrder
import Verif.Props.KeyPos
import Verif.Props.GrayFloat
import Verif.Props.ScaleFloat
import Verif.Props.MeanFloat
import Verif.Props.UniformFloat
import Verif.Props.BoxFloat
import Verif.Props.SmoothFloat
import Verif.Props.Timing
import Verif.Props.AlignedAlloc
import Verif.Props.DerivFloat
import Verif.Props.NormFloat
import Verif.Props.AxpyFloat
import Verif.Props.WarpFloat
import Verif.Props.RotateFloat
import Verif.Props.RotateF32
import Verif.Props.AwpFloat
import Verif.Props.AwpFillFloat
