import Verif.Model.Brief
import Verif.Model.UniformSampler

/-!
# Model of the random tests of a BRIEF extractor: `src/nx_brief_extractor.c`, `src/vg_brief_extractor.cc`

The numbers of the generator for a seed are a list (C70 and others are about the generator); `none` means that the function has not
ended when these are used up. The arithmetic of `float` is exact as in C69: numbers are given by their numerators over 2^32, rounded to
24 bits.
-/

namespace Nx

/-- `x0 = 2*radius*(nx_uniform_sampler_sample_s(sampler) - 0.5f)`, `src/nx_brief_extractor.c:151`: the difference and the product are
rounded, the conversion to `int` is towards zero. -/
def briefDraw (r : Nat) (v : BitVec 32) : Int :=
  if 2147483648 ≤ sampleS v then ((round24 (round24 (sampleS v - 2147483648) * round24 (2 * r)) / 4294967296 : Nat) : Int)
  else -((round24 (round24 (2147483648 - sampleS v) * round24 (2 * r)) / 4294967296 : Nat) : Int)

/-- The loop for the second point, `src/nx_brief_extractor.c:155-162`; `NX_BRIEF_TEST_PAIR_MIN_DISTANCE2` is 9. -/
def briefSecond (r : Nat) (x0 y0 : Int) : List (BitVec 32) → Res (Option ((Int × Int) × List (BitVec 32)))
  | v :: u :: vs =>
    let x1 := briefDraw r v
    let y1 := briefDraw r u
    let dx := x1 - x0
    let dy := y1 - y0
    if InI32 (dx * dx) ∧ InI32 (dy * dy) ∧ InI32 (dx * dx + dy * dy) then
      if dx * dx + dy * dy < 9 then briefSecond r x0 y0 vs
      else .ok (some ((x1, y1), vs))
    else .ub
  | _ => .ok none

/-- One test, `src/nx_brief_extractor.c:150-162`. -/
def briefPair (r : Nat) : List (BitVec 32) → Res (Option ((Int × Int × Int × Int) × List (BitVec 32)))
  | v :: u :: vs => do
    match ← briefSecond r (briefDraw r v) (briefDraw r u) vs with
    | none => pure none
    | some (p, vs) => pure (some ((briefDraw r v, briefDraw r u, p.1, p.2), vs))
  | _ => .ok none

/-- The loop over the tests, `src/nx_brief_extractor.c:149-168`, with `k` of them still to come from `i` on. -/
def briefFill (r : Nat) : Nat → Nat → List Int → List (BitVec 32) → Res (Option (List Int × List (BitVec 32)))
  | 0, _, o, vs => .ok (some (o, vs))
  | k + 1, i, o, vs => do
    match ← briefPair r vs with
    | none => pure none
    | some (t, vs) =>
      let o ← writeAt o (4 * i) t.1
      let o ← writeAt o (4 * i + 1) t.2.1
      let o ← writeAt o (4 * i + 2) t.2.2.1
      let o ← writeAt o (4 * i + 3) t.2.2.2
      briefFill r k (i + 1) o vs

/-- `nx_brief_extractor_randomize_with_seed`, `src/nx_brief_extractor.c:140-173`, for the numbers of the seed. The radius is positive in
every extractor with offsets. -/
def briefSeeded (vs : List (BitVec 32)) (be : Brief) : Res (Option Brief) :=
  match be.offsets with
  | none => .fatal
  | some o =>
    if InI32 (2 * be.radius) then do
      match ← briefFill be.radius.toNat (be.nOctets * 8).toNat 0 o vs with
      | none => pure none
      | some (o, _) => do
        let be ← briefUpdateLimits { be with offsets := some o }
        pure (some be)
    else .ub

/-- `nx_brief_extractor_resize`, `src/nx_brief_extractor.c:82-102`, for the numbers of the time as a seed. -/
def briefSized (vs : List (BitVec 32)) (be : Brief) (nOctets radius : Int) : Res (Option Brief) :=
  if nOctets > 0 then
    if radius > 0 then
      if InI32 (nOctets * 8 * 4) then
        briefSeeded vs { be with offsets := some (briefReserve be nOctets), nOctets := nOctets, radius := radius }
      else .ub
    else .fatal
  else .fatal

/-- `VGBriefExtractor::pick_good_seed`, `src/vg_brief_extractor.cc:34-43`, with the seeds of
`include/virg/nexus/nx_brief_extractor.h:36-37`. -/
def briefGood (gen : BitVec 32 → List (BitVec 32)) (be : Brief) : Res (Option Brief) :=
  if be.radius = 16 then briefSeeded (gen 1431142416#32) be else briefSeeded (gen 1431228807#32) be

/-- `VGBriefExtractor::VGBriefExtractor` and `VGBriefExtractor::resize`, `src/vg_brief_extractor.cc:45-59`, with
`nx_brief_extractor_new`, `src/nx_brief_extractor.c:60-65`, at the time `now`. -/
def vgBriefNew (gen : BitVec 32 → List (BitVec 32)) (now : BitVec 32) (nOctets radius : Int) : Res (Option Brief) := do
  match ← briefSized (gen now) briefAlloc nOctets radius with
  | none => pure none
  | some be => briefGood gen be

end Nx
