import Verif.Model.ImageMem
import Verif.Spec.MemBlock

/-!
# What a user sees of images
-/

namespace Nx

/-- Image number `i` exists and has header `hd`. -/
def ImIs (w : IWorld) (i : Nat) (hd : ImHdr) : Prop := w.hdrs[i]? = some (some hd)

/-- The part of a header that describes the picture. -/
structure Shape where
  width : Nat
  height : Nat
  rgba : Bool
  float : Bool
  stride : Nat
deriving DecidableEq, Repr

def ImHdr.shape (hd : ImHdr) : Shape := ⟨hd.width, hd.height, hd.rgba, hd.float, hd.stride⟩

/-- Colour images have four samples for every pixel. -/
def Shape.perPixel (s : Shape) : Nat := if s.rgba then 4 else 1

/-- A `float` has four bytes. -/
def Shape.perSample (s : Shape) : Nat := if s.float then 4 else 1

/-- Byte `k` of sample `c` of the pixel in column `x` and row `y` exists. -/
def Shape.Has (s : Shape) (x y c k : Nat) : Prop := x < s.width ∧ y < s.height ∧ c < s.perPixel ∧ k < s.perSample

/-- The offset of such a byte, as computed by all functions for images. -/
def Shape.at (s : Shape) (x y c k : Nat) : Nat := (y * s.stride + s.perPixel * x + c) * s.perSample + k

/-- Shape of image `i`. -/
def imShape (w : IWorld) (i : Nat) : Option Shape :=
  match w.hdrs[i]? with
  | some (some hd) => some hd.shape
  | _ => none

/-- The byte at offset `o` from the pointer to the samples of image `i`; `none` if it may not be accessed, `some none` if it was never
written. -/
def imByte (w : IWorld) (i o : Nat) : Option (Option Byte) :=
  match w.hdrs[i]? with
  | some (some hd) =>
    match hd.data with
    | some p =>
      match w.mem.heap[p]? with
      | some (some c) => c.data[o]?
      | _ => none
    | none => none
  | _ => none

/-- Image `j` of `w'` is the same picture as image `i` of `w`, or neither exists. -/
structure Same (w : IWorld) (i : Nat) (w' : IWorld) (j : Nat) : Prop where
  shape : imShape w' j = imShape w i
  bytes : ∀ s, imShape w i = some s → ∀ x y c k, s.Has x y c k → imByte w' j (s.at x y c k) = imByte w i (s.at x y c k)

/-- The samples of such an image can be counted by an `int`. -/
def Fit (wd ht st : Int) (rgba : Bool) : Prop :=
  let rs := (if rgba then 4 else 1) * wd
  0 ≤ wd ∧ 0 ≤ ht ∧ rs ≤ 2147483647 ∧ (max st rs) * ht ≤ 2147483647

/-- The rules a user has to follow. -/
def ImAllowed (w : IWorld) : IOp → Prop
  | .alloc => True
  | .new wd ht rgba _ => Fit wd ht (-1) rgba
  | .newLike s => ∃ hd, ImIs w s hd
  | .resize i wd ht st rgba _ => (∃ hd, ImIs w i hd) ∧ Fit wd ht st rgba
  | .resizeLike i s => (∃ hd, ImIs w i hd) ∧ ∃ hd, ImIs w s hd
  | .release i | .setZero i | .free i | .copy0 i => ∃ hd, ImIs w i hd
  | .copy d s => (∃ hd, ImIs w d hd) ∧ (∃ hd, ImIs w s hd) ∧ d ≠ s
  | .wrap i data wd ht st rgba float _ => (∃ hd, ImIs w i hd) ∧ (if rgba then 4 else 1) * wd ≤ st ∧ st * ht ≤ 2147483647 ∧
      (if rgba then 4 else 1) * wd ≤ 2147483647 ∧ st * ht * (if float then 4 else 1) ≤ data.length
  | .swap i j => (∃ hd, ImIs w i hd) ∧ ∃ hd, ImIs w j hd

/-- States reached from the empty program by allowed calls. -/
inductive IReach : IWorld → Prop
  | init : IReach { mem := { heap := [], blocks := [] }, hdrs := [] }
  | step {w w' op} : IReach w → ImAllowed w op → imStep w op = .ok w' → IReach w'

/-- A shape with rows as short as possible. -/
def packed (wd ht : Nat) (rgba float : Bool) : Shape := ⟨wd, ht, rgba, float, (if rgba then 4 else 1) * wd⟩

/-- What a call must do. -/
def ImEffect (w w' : IWorld) : IOp → Prop
  | .alloc => imShape w' w.hdrs.length = some (packed 0 0 false false) ∧ ∀ j, j ≠ w.hdrs.length → Same w j w' j
  | .new wd ht rgba float => imShape w' w.hdrs.length = some (packed wd.toNat ht.toNat rgba float) ∧
      ∀ j, j ≠ w.hdrs.length → Same w j w' j
  | .newLike s => (∃ t, imShape w s = some t ∧ imShape w' w.hdrs.length = some (packed t.width t.height t.rgba t.float)) ∧
      ∀ j, j ≠ w.hdrs.length → Same w j w' j
  | .resize i wd ht st rgba float =>
      imShape w' i = some ⟨wd.toNat, ht.toNat, rgba, float, max st.toNat ((if rgba then 4 else 1) * wd.toNat)⟩ ∧
      (imShape w' i = imShape w i → Same w i w' i) ∧ ∀ j, j ≠ i → Same w j w' j
  | .resizeLike i s => (∃ t, imShape w s = some t ∧ imShape w' i = some (packed t.width t.height t.rgba t.float)) ∧
      (imShape w' i = imShape w i → Same w i w' i) ∧ ∀ j, j ≠ i → Same w j w' j
  | .release i => imShape w' i = some (packed 0 0 false false) ∧ ∀ j, j ≠ i → Same w j w' j
  | .copy d s => Same w s w' d ∧ ∀ j, j ≠ d → Same w j w' j
  | .copy0 s => Same w s w' w.hdrs.length ∧ ∀ j, j ≠ w.hdrs.length → Same w j w' j
  | .wrap i data wd ht st rgba float _ => imShape w' i = some ⟨wd, ht, rgba, float, st⟩ ∧
      (∀ x y c k, (Shape.mk wd ht rgba float st).Has x y c k → ∃ b, data[(Shape.mk wd ht rgba float st).at x y c k]? = some b ∧
        imByte w' i ((Shape.mk wd ht rgba float st).at x y c k) = some (some b)) ∧ ∀ j, j ≠ i → Same w j w' j
  | .swap i j => Same w j w' i ∧ Same w i w' j ∧ ∀ l, l ≠ i → l ≠ j → Same w l w' l
  | .setZero i => imShape w' i = imShape w i ∧
      (∀ s, imShape w i = some s → ∀ x y c k, s.Has x y c k → imByte w' i (s.at x y c k) = some (some 0)) ∧ ∀ j, j ≠ i → Same w j w' j
  | .free i => imShape w' i = none ∧ ∀ j, j ≠ i → Same w j w' j

end Nx
