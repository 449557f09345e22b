import Verif.Model.ImageMem

/-!
# Model of how the first level of a pyramid gets the image, `src/nx_image_pyr.c:84-105`, `src/nx_image_pyr_builder.c:159-199`

Memory and headers as in `Verif.Model.ImageMem`. The smoothing that follows, the other levels and the numbers stored in the levels
are not in this model (`Verif.Model.Pyramid` has them, for 8-bit images only).
-/

namespace Nx

/-- `nx_image_pyr_copy_to_level0`, `src/nx_image_pyr.c:97-105`, with `nx_image_pyr_create_level`, `src/nx_image_pyr.c:84-95`; image `i`
is that of level 0, image `s` is the one given. -/
def pyrCopyTo0 (w : IWorld) (i s : Nat) : Res IWorld := do
  let hs ← hdrAt w s
  let w ← imResize w i hs.width hs.height 0 false false
  imCopy w i s

/-- The first iteration of the loop of `nx_image_pyr_builder_init_levels`, `src/nx_image_pyr_builder.c:201-220`, as called by
`nx_image_pyr_builder_update`, `:182-184`; the scale of level 0 is the power 0 of the factor, 1. -/
def pyrInit0 (w : IWorld) (i : Nat) : Res IWorld := do
  let h0 ← hdrAt w i
  if h0.width = 0 ∨ h0.height = 0 then .fatal
  else imResize w i h0.width h0.height 0 false false

/-- `nx_image_pyr_builder_build`, `src/nx_image_pyr_builder.c:159-170`, up to there, for a pyramid that has its levels already. -/
def pyrStart (w : IWorld) (i s : Nat) : Res IWorld := do
  let hs ← hdrAt w s
  if hs.rgba then .fatal
  else do
    let w ← pyrCopyTo0 w i s
    pyrInit0 w i

end Nx
