import Verif.Model.Fround
import Verif.Model.Sample

/-!
# Model of the sizes of the levels of pyramids and of the positions of keypoints, in `float`

`src/nx_image_pyr_builder.c:201-217` and `include/virg/nexus/nx_keypoint.h:53-71`. In `Model/Pyramid.lean` and `Model/Stereo.lean` the
numbers are exact; here they are rounded as those of the program. The scale of a level, `float si = pow(scale_factor, …)` in line 211,
is a parameter, so that nothing is said about `pow`. Conversions of numbers that do not fit an `int` are undefined behaviour.
-/

namespace Nx

/-- The conversion of a `float` to `int`: towards zero. -/
def floatToInt (q : Rat) : Res Int := if InI32 (ratTrunc q) then .ok (ratTrunc q) else .ub

/-- `int wi = width0 / si;`, `src/nx_image_pyr_builder.c:213`, and `int hi = height0 / si;`, line 214. The integer is converted to
`float`; the division by zero gives infinity, or no number, and then the conversion is undefined. -/
def levelLength (w : Int) (s : Rat) : Res Int := if s = 0 then .ub else floatToInt (f32 (f32 w / s))

/-- `nx_keypoint_x0`, `include/virg/nexus/nx_keypoint.h:53-56`, and `nx_keypoint_y0`, `58-61`: `key->x * key->scale` as an `int`. -/
def keyPos0 (x : Int) (s : Rat) : Res Int := floatToInt (f32 (f32 x * s))

/-- `nx_keypoint_xs0`, `include/virg/nexus/nx_keypoint.h:63-66`, and `nx_keypoint_ys0`, `68-71`: `key->xs * key->scale`. -/
def keySub0 (xs s : Rat) : Rat := f32 (xs * s)

end Nx
