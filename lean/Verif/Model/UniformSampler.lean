import Verif.Model.Epipolar

/-!
# Model of the sampling of matches: `src/nx_uniform_sampler.c`, `src/SFMT/SFMT.h`, `src/nx_homography.c`,
`src/nx_usac_homography.c`, `src/nx_epipolar.c`

The 32 bit numbers that the generator will deliver are a list. The arithmetic of `float` is exact here: a
`float` in [0, 1] is given by its numerator over 2^32.
-/

namespace Nx

/-- `nx_uniform_sampler_sample_s`, `src/nx_uniform_sampler.c:114-117`, with `sfmt_genrand_real2` and `sfmt_to_real2`,
`src/SFMT/SFMT.h:237-251`: the `double` `v / 2^32` is exact, it is rounded to `float` when it is returned. The result is the
numerator over 2^32. -/
def sampleS (v : BitVec 32) : Nat := round24 v.toNat

/-- `(int)(NX_UNIFORM_SAMPLE_S*n_top)`, e.g. `src/nx_homography.c:261`: `n_top` is converted to `float`, the product is rounded. -/
def sampleIndex (n : Nat) (v : BitVec 32) : Nat := round24 (sampleS v * round24 n) / 4294967296

/-- `do { id = (int)(NX_UNIFORM_SAMPLE_S*n_top); } while (bad)`; `none` if the loop has not ended with the given numbers. -/
def drawUntil (n : Nat) (bad : Nat → Bool) : List (BitVec 32) → Option (Nat × List (BitVec 32))
  | [] => none
  | v :: vs => if bad (sampleIndex n v) then drawUntil n bad vs else some (sampleIndex n v, vs)

/-- `nx_select_prosac_candidates`, `src/nx_homography.c:259-274`, and `nx_usac_homography_sampling`,
`src/nx_usac_homography.c:48-65`, which has the same text: the four indices and what is left of the numbers. -/
def selectProsac4 (n : Nat) (vs : List (BitVec 32)) : Option ((Nat × Nat × Nat × Nat) × List (BitVec 32)) := do
  let (a, vs) ← drawUntil n (fun _ => false) vs
  let (b, vs) ← drawUntil n (fun i => i == a) vs
  let (c, vs) ← drawUntil n (fun i => i == b || i == a) vs
  let (d, vs) ← drawUntil n (fun i => i == b || i == b || i == a) vs
  pure ((a, b, c, d), vs)

/-- The loop of `nx_select_prosac_candidates`, `src/nx_epipolar.c:196-203`, with `k` indices still to be found. The indices
so far are `first` and `rest`, in this order; the inner loop compares with those in `rest` only, as it ends before index 0.
If there is an equal one, `i` is decremented and incremented again. -/
def select8Loop (n first : Nat) : Nat → List Nat → List (BitVec 32) → Option (List Nat × List (BitVec 32))
  | 0, rest, vs => some (first :: rest, vs)
  | _ + 1, _, [] => none
  | k + 1, rest, v :: vs =>
    if rest.contains (sampleIndex n v) then select8Loop n first (k + 1) rest vs
    else select8Loop n first k (rest ++ [sampleIndex n v]) vs

/-- `nx_select_prosac_candidates`, `src/nx_epipolar.c:193-204`. -/
def selectProsac8 (n : Nat) (vs : List (BitVec 32)) : Option (List Nat × List (BitVec 32)) := do
  let (a, vs) ← drawUntil n (fun _ => false) vs
  select8Loop n a 7 [] vs

end Nx
