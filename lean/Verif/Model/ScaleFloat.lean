import Verif.Model.Fround
import Verif.Model.Warp

/-!
# Model of the scaling of images in `float`: `src/nx_image.c:535-582` and `620-662`

As `gScale` in `Model/Warp.lean`, but every result of an operation on `float` is rounded, and so are integers that are converted.
-/

namespace Nx

/-- `Ix0*(1.0f - dx) + Ix1*dx`, `src/nx_image.c:570-571` and `656-657`. -/
def mixF (u a b : Rat) : Rat := f32 (f32 (a * f32 (1 - u)) + f32 (b * u))

/-- `int dest_width = src->width * scale_f;`, `src/nx_image.c:541-542` and `627-628`. -/
def scaleLenF (n : Nat) (s : Rat) : Res Int := truncInt (f32 (f32 n * s))

/-- `float xp = x * inv_scale;` with `float inv_scale = 1.0f / scale_f;`, `src/nx_image.c:547-558` and `633-644`. -/
def scalePosF (s : Rat) (x : Nat) : Rat := f32 (f32 x * f32 (1 / s))

/-- `float dx = xp - xpi;`, `src/nx_image.c:553`, `560`, `639` and `646`. -/
def scaleFracF (xp : Rat) (xi : Int) : Rat := f32 (xp - f32 xi)

/-- One pixel, `src/nx_image.c:551-580` and `637-660`: the samples at `(xp, yp)` and to the right and below are read always. -/
def scalePixelF {α : Type} (conv : α → Rat) (store : Rat → Res α) (src : List α) (stride : Nat) (xp yp : Rat) : Res α := do
  let yi ← truncInt yp
  let xi ← truncInt xp
  let p ← readFour src stride (xi, xi + 1) (yi, yi + 1)
  store (mixF (scaleFracF yp yi) (mixF (scaleFracF xp xi) (conv p.1) (conv p.2.1)) (mixF (scaleFracF xp xi) (conv p.2.2.1) (conv p.2.2.2)))

/-- `nx_image_scale_uc`/`_f32`, `src/nx_image.c:535-581` and `620-662`. A scale of zero gives no pixels, so that its inverse is not
used. -/
def gScaleF {α : Type} (conv : α → Rat) (store : Rat → Res α) (junk : Nat → α) (dest src : GImage α) (s : Rat) : Res (GImage α) := do
  let dw ← scaleLenF src.width s
  let dh ← scaleLenF src.height s
  if dw < 0 ∨ dh < 0 then .fatal
  else do
    let dest ← gResize junk dest dw.toNat dh.toNat dw.toNat
    let d ← forLoop dest.height (fun y d => forLoop dest.width (fun x d => do
      let v ← scalePixelF conv store src.data src.stride (scalePosF s x) (scalePosF s y)
      writeAt d (y * dest.stride + x) v) 0 d) 0 dest.data
    pure { dest with data := d }

end Nx
