import Verif.Model.SiftDesc

/-!
# Model of the orientations of SIFT keypoints, `src/nx_sift_detector.c`

Exact arithmetic as for the descriptors. `NX_SIFT_N_ORI_BINS` is 36; arrays have two more elements.
-/

namespace Nx

section
variable {K : Type} [Field K] [LinearOrder K] [IsStrictOrderedRing K] [FloorRing K]

/-- `memcpy(&dst[doff], &src[soff], n * sizeof(*dst))` of different arrays. -/
def copyElems (dst : List K) (doff : Nat) (src : List K) (soff n : Nat) : Res (List K) :=
  forLoop n (fun i dst => do
    let x ← readAt src (soff + i)
    writeAt dst (doff + i) x) 0 dst

/-- `nx_svec_set_zero`, `include/virg/nexus/nx_vec.h`, of the bins, `src/nx_sift_detector.c:299`. -/
def zeroBins (hist : List K) : Res (List K) :=
  forLoop 36 (fun i hist => writeAt hist (1 + i) 0) 0 hist

/-- The bin of a direction, `src/nx_sift_detector.c:329-332`; `NX_PI` is exact. -/
def oriBin (m : FloatMath K) (gori : K) : Int :=
  let bin := cTrunc (36 * (gori + m.pi + 1 / 100000) / (2 * m.pi))
  if bin ≥ 36 then 35 else bin

/-- The body of the inner loop, `src/nx_sift_detector.c:316-334`; `sigma` is already enlarged. -/
def oriSample (m : FloatMath K) (gx gy : GImage K) (x y sigma : K) (r u v : Int) (hist : List K) : Res (List K) :=
  if u ≤ 0 ∨ u ≥ (gx.width : Int) - 2 then pure hist
  else
    let dr := ((u : K) - x) * (u - x) + (v - y) * (v - y)
    if dr > (r : K) * r + 1 / 2 then pure hist
    else do
      let a ← readI gx.data (v * gx.stride + u)
      let b ← readI gy.data (v * gy.stride + u)
      let gmag := m.sqrt (a * a + -b * -b)
      let gori := m.atan2 (-b) a
      addAtI hist (oriBin m gori + 1) (m.exp (-(1 / 2) / (sigma * sigma) * dr) * gmag)

/-- The bins before smoothing, `src/nx_sift_detector.c:299-336`. -/
def oriRaw (m : FloatMath K) (hist : List K) (gx gy : GImage K) (x y sigma : K) : Res (List K) := do
  let hist ← zeroBins hist
  let sigma := sigma * (3 / 2)
  let r := cTrunc (sigma * 3)
  let xi := cTrunc (x + 1 / 2)
  let yi := cTrunc (y + 1 / 2)
  forLoop (2 * r + 1).toNat (fun k hist =>
    let v := yi - r + k
    if v ≤ 0 ∨ v ≥ (gx.height : Int) - 2 then pure hist
    else forLoop (2 * r + 1).toNat (fun l hist => oriSample m gx gy x y sigma r (xi - r + l) v hist) 0 hist) 0 hist

/-- The body of the smoothing loop, `src/nx_sift_detector.c:341-349`. -/
def smoothStep (s : List K × List K) : Res (List K × List K) := do
  let buf ← copyElems s.2 1 s.1 1 36
  let last ← readAt buf 36
  let buf ← writeAt buf 0 last
  let first ← readAt buf 1
  let buf ← writeAt buf 37 first
  let buf ← forLoop 36 (fun i buf => do
    let j := i + 1
    let a ← readAt buf (j - 1)
    let b ← readAt buf j
    let c ← readAt buf (j + 1)
    writeAt buf (j - 1) ((a + b + c) / 3)) 0 buf
  let hist ← copyElems s.1 1 buf 0 36
  pure (hist, buf)

/-- Smoothing and the border, `src/nx_sift_detector.c:338-353`; `buf` is the array without initialisation. -/
def oriSmooth (hist buf : List K) : Res (List K) := do
  let s ← forLoop 6 (fun _ s => smoothStep s) 0 (hist, buf)
  let last ← readAt s.2 36
  let hist ← writeAt s.1 0 last
  let first ← readAt hist 1
  writeAt hist 37 first

/-- The highest bin, `src/nx_sift_detector.c:355-359`. -/
def oriPeak (hist : List K) : Res K := do
  let p ← readAt hist 1
  forLoop 35 (fun k p => do
    let x ← readAt hist (k + 2)
    pure (if x > p then x else p)) 0 p

/-- `nx_sift_compute_ori_hist`, `src/nx_sift_detector.c:295-362`. -/
def oriHist (m : FloatMath K) (hist buf : List K) (gx gy : GImage K) (x y sigma : K) : Res (List K × K) := do
  let hist ← oriRaw m hist gx gy x y sigma
  let hist ← oriSmooth hist buf
  let p ← oriPeak hist
  pure (hist, p)

/-- The interpolated direction, `src/nx_sift_detector.c:385-390`. -/
def oriInterp (m : FloatMath K) (l c r : K) (b : Nat) : K :=
  let d := 1 / 2 * (r - l)
  let two_c := l + r - 2 * c
  let peak_offset := -d / two_c
  m.pi * (2 * (b - 1 / 2 + peak_offset) / 36 - 1)

/-- The directions for which keypoints are created, in this order, `src/nx_sift_detector.c:380-390`. -/
def oriKeys (m : FloatMath K) (hist : List K) (peak : K) : Res (List (Nat × K)) :=
  forLoop 36 (fun i out => do
    let b := i + 1
    let c ← readAt hist b
    let l ← readAt hist (b - 1)
    let r ← readAt hist (b + 1)
    if c > l ∧ c > r ∧ c > peak * (4 / 5) then pure (out ++ [(b, oriInterp m l c r b)]) else pure out) 0 []

end

end Nx
