import Verif.Model.SiftFiles
import Verif.Spec.Sha256

/-!
# Specification of the files of SIFT keypoints
-/

namespace Nx

/-- The rows of an image. -/
def ByteImage.rows (img : ByteImage) : List Bytes :=
  (List.range img.height).map (fun y => (img.data.drop (y * img.stride)).take img.width)

/-- The memory of an image contains its rows, and its samples are bytes. -/
def ByteImage.Readable (img : ByteImage) : Prop :=
  img.uchar = true ∧ ∀ y, y < img.height → y * img.stride + img.width ≤ img.data.length

/-- What the digest is computed from. -/
def ByteImage.message (img : ByteImage) (param : Bytes) : Bytes := img.rows.flatten ++ param

/-- The length of the message is admissible for the digest: it is not a multiple of the
block length (which makes the code read out of bounds, C11) and not too long. -/
def FileHashable (m : Bytes) : Prop := m.length % 64 ≠ 0 ∧ m.length < 2 ^ 61

/-- The arrays have the size that is given. -/
def KeyBuf.Ok (b : KeyBuf) : Prop := b.keys.length = b.max * 48 ∧ b.desc.length = b.max * 128

/-- The arrays contain `n` keypoints `K` and descriptors `D`. -/
def KeyBuf.Holds (b : KeyBuf) (n : Nat) (K D : Bytes) : Prop :=
  b.Ok ∧ n ≤ b.max ∧ b.keys.take (n * 48) = K ∧ b.desc.take (n * 128) = D

/-- The detector: for each image and parameters it returns a result that is `Good` for them. -/
def Detects (compute : ByteImage → Bytes → KeyBuf → Res (Nat × KeyBuf))
    (Good : ByteImage → Bytes → Nat → Bytes → Bytes → Prop) : Prop :=
  ∀ img param buf, img.Readable → buf.Ok → ∃ n buf' K D, compute img param buf = .ok (n, buf') ∧ buf'.Holds n K D ∧
    n * 128 ≤ 2147483647 ∧ Good img param n K D

/-- A call: image, parameters, arrays. -/
structure SiftCall where
  img : ByteImage
  param : Bytes
  buf : KeyBuf

/-- Admissible calls. -/
def SiftCall.Ok (c : SiftCall) : Prop := c.img.Readable ∧ c.buf.Ok ∧ c.param ≠ [] ∧ FileHashable (c.img.message c.param)

/-- Calls one after the other: the results, as number and arrays, and the files. -/
def runCalls (compute : ByteImage → Bytes → KeyBuf → Res (Nat × KeyBuf)) (block0 : Bytes) (junk : Nat → Byte) (dir : Bytes) :
    List SiftCall → Files → Res (List (Nat × KeyBuf) × Files)
  | [], fs => .ok ([], fs)
  | c :: cs, fs => do
    let (n, buf, fs) ← siftWithCache compute block0 junk dir c.img c.param c.buf fs
    let (rs, fs) ← runCalls compute block0 junk dir cs fs
    pure ((n, buf) :: rs, fs)

end Nx
