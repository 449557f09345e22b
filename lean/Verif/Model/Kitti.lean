import Verif.Model.CNum
import Verif.Model.SiftFiles

/-!
# Model of the reader of KITTI SLAM sequences, `src/nx_kitti_slam.c`

`scan` is one `%lf` conversion of `fscanf` on what is left of a stream: white space is skipped,
and the number and the remaining text are the result, or there is no number. `files` gives the
contents of the files that can be opened, `dirs` tells whether a directory exists. Arrays of
`double` are lists; `junk` fills memory without initialisation. Memory does not run out.
-/

namespace Nx

/-- `%0wd` of a number that is not negative. -/
def padText (w n : Nat) : Bytes := List.replicate (w - (natText n).length) 48 ++ natText n

/-- `NX_KITTI_SLAM_SEQUENCE_DIR_FORMAT`, `src/nx_kitti_slam.c:37`. -/
def kittiSeqDir (base : Bytes) (s : Nat) : Bytes := base ++ bytesOf "/sequences/" ++ padText 2 s

/-- `NX_KITTI_SLAM_POSE_FILE_FORMAT`, `src/nx_kitti_slam.c:38`. -/
def kittiPoseFile (base : Bytes) (s : Nat) : Bytes := base ++ bytesOf "/poses/" ++ padText 2 s ++ bytesOf ".txt"

/-- `NX_KITTI_SLAM_SEQ_FILE_FORMAT`, `src/nx_kitti_slam.c:39`. -/
def kittiSeqFile (base : Bytes) (s : Nat) (name : Bytes) : Bytes := kittiSeqDir base s ++ bytesOf "/" ++ name

/-- `NX_KITTI_SLAM_CAM_DIR_FORMAT`, `src/nx_kitti_slam.c:40`. -/
def kittiCamDir (base : Bytes) (s cam : Nat) : Bytes := kittiSeqDir base s ++ bytesOf "/image_" ++ natText cam

/-- `NX_KITTI_SLAM_LIDAR_DIR_FORMAT`, `src/nx_kitti_slam.c:41`. -/
def kittiLidarDir (base : Bytes) (s : Nat) : Bytes := kittiSeqDir base s ++ bytesOf "/velodyne"

/-- `NX_KITTI_SLAM_FRAME_FORMAT`, `src/nx_kitti_slam.c:42`. -/
def kittiFrame (base : Bytes) (s cam frame : Nat) : Bytes :=
  kittiCamDir base s cam ++ bytesOf "/" ++ padText 6 frame ++ bytesOf ".png"

/-- `struct NXKittiSLAM`, `include/virg/nexus/nx_kitti_slam.h:37-40`. -/
structure Kitti where
  base : Bytes
  avail : List Bool
deriving DecidableEq, Repr

/-- `nx_kitti_slam_new`, `src/nx_kitti_slam.c:44-62`. -/
def kittiNew (dirs : Bytes → Bool) (base : Bytes) : Res Kitti :=
  if dirs base then .ok ⟨base, (List.range 22).map (fun i => dirs (kittiSeqDir base i))⟩ else .fatal

section
variable {D : Type}

/-- `fscanf(fp, "%lf … %lf", &A[i0], &A[i1], …)`: the numbers are stored at the positions given, until one cannot be
read; the number of conversions, the array and what is left of the stream. -/
def scanInto (scan : Bytes → Option (D × Bytes)) : List Nat → Nat → List D → Bytes → Res (Nat × List D × Bytes)
  | [], n, A, st => .ok (n, A, st)
  | i :: is, n, A, st =>
    match scan st with
    | none => .ok (n, A, st)
    | some (d, st) => do
      let A ← writeAt A i d
      scanInto scan is (n + 1) A st

/-- The order of the twelve addresses, `src/nx_kitti_slam.c:80-83,168-171`: rows of a column-major matrix. -/
def kittiOrder : List Nat := [0, 3, 6, 9, 1, 4, 7, 10, 2, 5, 8, 11]

/-- `nx_read_poses_from_pose_file`, `src/nx_kitti_slam.c:72-97`, from the `n`-th pose on: the poses, their number.
`none` are pointers without initialisation, `P` is the local array. There are at most as many rounds as bytes. -/
def readPoses (scan : Bytes → Option (D × Bytes)) : Nat → List D → Nat → List (Option (List D)) → Nat → Bytes →
    Res (List (Option (List D)) × Nat)
  | 0, _, _, _, _, _ => .ub
  | fuel + 1, P, cap, poses, n, st => do
    let (k, P, st) ← scanInto scan kittiOrder 0 P st
    if k = 12 then do
      let (poses, cap) := if n ≥ cap then (reallocMem (fun _ => none) poses (cap + 1000), cap + 1000) else (poses, cap)
      let poses ← writeAt poses n (some P)
      readPoses scan fuel P cap poses (n + 1) st
    else pure (poses, n)

/-- `nx_read_times_from_times_file`, `src/nx_kitti_slam.c:99-120`, from the `n`-th number on. -/
def readTimes (scan : Bytes → Option (D × Bytes)) (junk : Nat → D) : Nat → Nat → List D → Nat → Bytes → Res (List D × Nat)
  | 0, _, _, _, _ => .ub
  | fuel + 1, cap, times, n, st =>
    match scan st with
    | none => .ok (times, n)
    | some (t, st) => do
      let (times, cap) := if n ≥ cap then (reallocMem junk times (cap + 1000), cap + 1000) else (times, cap)
      let times ← writeAt times n t
      readTimes scan junk fuel cap times (n + 1) st

/-- `fscanf(calib_in, "Pi: %lf … %lf\\n", …)`, `src/nx_kitti_slam.c:168-171` and the like: the array and what is left. -/
def readCalib (scan : Bytes → Option (D × Bytes)) (i : Nat) (A : List D) (st : Bytes) : Res (List D × Bytes) :=
  let lit := bytesOf "P" ++ natText i ++ bytesOf ":"
  if lit.isPrefixOf st then do
    let (k, A, st) ← scanInto scan kittiOrder 0 A (st.drop lit.length)
    if k = 12 then pure (A, st.dropWhile isSpaceB) else .fatal
  else .fatal

/-- `struct NXKittiSLAMSequence`, `include/virg/nexus/nx_kitti_slam.h:42-52`. -/
structure KittiSeq (D : Type) where
  base : Bytes
  seqId : Nat
  length : Nat
  poses : List (Option (List D))
  times : List D
  calib : List (List D)
  gt : Bool
  cams : List Bool
  lidar : Bool
deriving DecidableEq, Repr

/-- `nx_kitti_slam_sequence_new`, `src/nx_kitti_slam.c:122-208`. `is_gt_available` is set from the name of the pose file,
which is never null; `fscanf` on the null stream of a missing file is undefined. -/
def kittiSeqNew (scan : Bytes → Option (D × Bytes)) (junk : Nat → D) (files : Files) (dirs : Bytes → Bool) (ds : Kitti)
    (s : Int) : Res (KittiSeq D) :=
  if s < 0 ∨ s ≥ 22 then .fatal
  else do
    let s := s.toNat
    let a ← readAt ds.avail s
    if !a then .fatal
    else do
      let (poses, len) ← match files (kittiPoseFile ds.base s) with
        | none => .ub
        | some st => readPoses scan (st.length + 1) ((List.range 12).map junk) 300 (List.replicate 300 none) 0 st
      match files (kittiSeqFile ds.base s (bytesOf "times.txt")) with
      | none => .fatal
      | some st => do
        let (times, n) ← readTimes scan junk (st.length + 1) 300 ((List.range 300).map junk) 0 st
        if n ≠ len then .fatal
        else
          match files (kittiSeqFile ds.base s (bytesOf "calib.txt")) with
          | none => .fatal
          | some st => do
            let (c0, st) ← readCalib scan 0 ((List.range 12).map junk) st
            let (c1, st) ← readCalib scan 1 ((List.range 12).map junk) st
            let (c2, st) ← readCalib scan 2 ((List.range 12).map junk) st
            let (c3, _) ← readCalib scan 3 ((List.range 12).map junk) st
            pure ⟨ds.base, s, n, poses, times, [c0, c1, c2, c3], true,
              (List.range 4).map (fun i => dirs (kittiCamDir ds.base s i)), dirs (kittiLidarDir ds.base s)⟩

/-- `nx_kitti_slam_sequence_free`, `src/nx_kitti_slam.c:210-221`: the poses that are freed, by their places. A pointer without
initialisation must not be freed. -/
def kittiSeqFree (q : KittiSeq D) : Res (List Nat) :=
  forLoop q.length (fun i fr => do
    match ← readAt q.poses i with
    | none => .ub
    | some _ => pure (fr ++ [i])) 0 []

/-- `nx_kitti_slam_sequence_xload_frame`, `src/nx_kitti_slam.c:223-244`: the name of the file that is loaded. -/
def kittiLoadFrame (q : KittiSeq D) (cam frame : Int) : Res Bytes :=
  if cam < 0 ∨ cam ≥ 4 then .fatal
  else if frame < 0 ∨ frame ≥ q.length then .fatal
  else do
    let a ← readAt q.cams cam.toNat
    if a then pure (kittiFrame q.base q.seqId cam.toNat frame.toNat) else .fatal

end

end Nx
