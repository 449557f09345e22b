import Verif.Model.Fast9
import Verif.Model.FastNonmax
import Verif.Model.Sample

/-!
# Model of the FAST detector, `src/nx_fast_detector.c`

Detection, scoring and suppression on one image and on the levels of a pyramid, and the
orientation by the intensity centroid. The buffers of keypoints are the lists of the entries
stored, from their start on; the pointers are not null and the images 8-bit (the assertions).
Scores are integers (`Verif.Model.Fast9`). Orientations, scales and sigmas are values of any
type with 0 and 1; `at2 m01 m10` is `(float)atan2((double)m01, (double)m10)`.
-/

namespace Nx

/-- `struct NXKeypoint`, as far as this file sets it, `include/virg/nexus/nx_keypoint.h:35-50`. -/
structure FKey (K : Type) where
  x : Nat
  y : Nat
  xs : Nat
  ys : Nat
  level : Nat
  scale : K
  sigma : K
  score : Int
  ori : K
  id : Nat
deriving DecidableEq, Repr

/-- The fields `fast_nonmax_suppression` looks at. -/
def FKey.corner {K : Type} (k : FKey K) : Corner := ⟨k.x, k.y, k.score⟩

/-- `nx_fast_detect_keypoints`, `src/nx_fast_detector.c:41-69`. -/
def fastDetectKeys {K : Type} [Zero K] [One K] (img : UcImage) (thr : Int) (nmax : Nat) : Res (List (FKey K)) :=
  if nmax = 0 then .ok []
  else do
    let ps ← fast9Detect img thr nmax nmax
    pure (ps.mapIdx (fun i p =>
      { x := p.1, y := p.2, xs := p.1, ys := p.2, level := 0, scale := 1, sigma := 0, score := 0, ori := 0, id := i }))

/-- `nx_fast_score_keypoints`, `src/nx_fast_detector.c:71-80`. -/
def fastScoreKeys {K : Type} (img : UcImage) (thr : Int) (keys : List (FKey K)) : Res (List (FKey K)) := do
  let ss ← fast9Score 256 img thr (keys.map (fun k => (k.x, k.y)))
  pure (List.zipWith (fun k s => { k with score := s }) keys ss)

/-- The whole keypoints that `fast_nonmax_suppression` copies (`src/fast/fast_nonmax.c:134`), given
the positions and scores of the ones it copies: they are copied in order. -/
def pickKeys {K : Type} : List (FKey K) → List Corner → List (FKey K)
  | k :: ks, c :: cs => if k.corner = c then k :: pickKeys ks cs else pickKeys ks (c :: cs)
  | _, _ => []

/-- `nx_fast_suppress_keypoints`, `src/nx_fast_detector.c:137-149`. -/
def fastSuppressKeys {K : Type} (limit : Int) (keys : List (FKey K)) : Res (List (FKey K)) := do
  let cs ← nonmax (keys.map FKey.corner) limit
  pure ((pickKeys keys cs).mapIdx (fun i k => { k with id := i }))

/-- `struct NXFastDetectorICData`, `src/nx_fast_detector.c:151-155`; `table` are the pairs of
`offset_table`, of length `n_offsets`. -/
structure ICData where
  radius : Nat
  table : List (Int × Int)
deriving DecidableEq, Repr

/-- `x*x+y*y < r2`, `src/nx_fast_detector.c:165,168-169,179-180`. -/
def icTest (r : Nat) (x y : Int) : Res Bool :=
  if InI32 (r * r) ∧ InI32 (x * x) ∧ InI32 (y * y) ∧ InI32 (x * x + y * y) then .ok (decide (x * x + y * y < r * r))
  else .ub

/-- The loop counting the offsets, `src/nx_fast_detector.c:166-172`. -/
def icCount (r : Nat) : Res Nat :=
  forLoop (2 * r) (fun j n => forLoop (2 * r) (fun i n => do
    let t ← icTest r ((i : Int) - r) ((j : Int) - r)
    if t then (if InI32 (n + 1) then pure (n + 1) else .ub) else pure n) 0 n) 0 0

/-- The loop filling the table of `n` entries, `src/nx_fast_detector.c:176-186`; the state is
the number of entries that `tp` has passed and the table. -/
def icFill (r n : Nat) : Res (Nat × List (Int × Int)) :=
  forLoop (2 * r) (fun j s => forLoop (2 * r) (fun i s => do
    let t ← icTest r ((i : Int) - r) ((j : Int) - r)
    if t then do
      let tab ← writeAt s.2 s.1 ((i : Int) - r, (j : Int) - r)
      pure (s.1 + 1, tab)
    else pure s) 0 s) 0 (0, List.replicate n (0, 0))

/-- `nx_fast_detector_ic_data_new`, `src/nx_fast_detector.c:157-189`. -/
def icDataNew (r : Nat) : Res ICData := do
  let n ← icCount r
  if InI32 (n * 2) then do
    let s ← icFill r n
    pure ⟨r, s.2⟩
  else .ub

/-- The loop of `nx_keypoint_ori_ic`, `src/nx_fast_detector.c:228-232`; the result is
`(m10, m01)`. -/
def icMoments (data : Bytes) (center : Int) (offsets : List Int) (table : List (Int × Int)) : Res (Int × Int) :=
  forLoop table.length (fun i m => do
    let o ← readAt offsets i
    let p ← readI data (center + o)
    let t ← readAt table i
    let m10 := m.1 + t.1 * p.toNat
    let m01 := m.2 + t.2 * p.toNat
    if InI32 (t.1 * p.toNat) ∧ InI32 m10 ∧ InI32 (t.2 * p.toNat) ∧ InI32 m01 then pure (m10, m01) else .ub) 0 (0, 0)

/-- The loop over the keypoints, `src/nx_fast_detector.c:255-262`. -/
def icKeys {K : Type} (at2 : Int → Int → K) (img : UcImage) (d : ICData) (offsets : List Int) :
    List (FKey K) → Res (List (FKey K))
  | [] => .ok []
  | k :: ks => do
    let k' ← (if (k.x : Int) ≥ d.radius ∧ (k.x : Int) < (img.width : Int) - d.radius ∧
        (k.y : Int) ≥ d.radius ∧ (k.y : Int) < (img.height : Int) - d.radius then do
      let center ← pixelBase img.stride k.x k.y
      let m ← icMoments img.data center offsets d.table
      pure { k with ori := at2 m.2 m.1 }
    else pure k)
    let r ← icKeys at2 img d offsets ks
    pure (k' :: r)

/-- `nx_fast_detector_compute_keypoint_ori_ic`, `src/nx_fast_detector.c:237-265`. -/
def icOrient {K : Type} (at2 : Int → Int → K) (img : UcImage) (d : ICData) (keys : List (FKey K)) :
    Res (List (FKey K)) := do
  let offsets ← makeOffsets img.stride d.table
  icKeys at2 img d offsets keys

/-- The orientations, when `compute_ori` is set, `src/nx_fast_detector.c:288-290,324-326`. -/
def fastOrient {K : Type} (at2 : Int → Int → K) (img : UcImage) (ic : Option ICData) (keys : List (FKey K)) :
    Res (List (FKey K)) :=
  match ic with
  | none => .ok keys
  | some d => icOrient at2 img d keys

/-- `nx_fast_detector_detect`, `src/nx_fast_detector.c:267-293`; `mult` is `work_multiplier`,
`ic` the data when `compute_ori` is set. -/
def fastDetector {K : Type} [Zero K] [One K] (at2 : Int → Int → K) (thr : Int) (mult : Nat) (ic : Option ICData)
    (max : Nat) (img : UcImage) : Res (List (FKey K)) :=
  if InI32 (max * mult) then do
    let keys ← fastDetectKeys img thr (max * mult)
    let keys ← fastScoreKeys img thr keys
    let keys ← fastSuppressKeys max keys
    fastOrient at2 img ic keys
  else .ub

/-- `struct NXImagePyrLevel`, `include/virg/nexus/nx_image_pyr.h:35-40`. -/
structure FLevel (K : Type) where
  img : UcImage
  sigma : K
  scale : K

/-- One round of the loop over the levels, `src/nx_fast_detector.c:312-334` (and `106-124`
without orientations): the keypoints stored for level `i`. -/
def fastLevel {K : Type} [Zero K] [One K] (at2 : Int → Int → K) (thr : Int) (work : Nat) (ic : Option ICData)
    (room : Int) (nSupp i : Nat) (l : FLevel K) : Res (List (FKey K)) := do
  let keys ← fastDetectKeys l.img thr work
  let keys ← fastScoreKeys l.img thr keys
  let keys ← fastSuppressKeys room keys
  let keys ← fastOrient at2 l.img ic keys
  pure (keys.mapIdx (fun j k => { k with level := i, sigma := l.sigma, scale := l.scale, id := nSupp + j }))

/-- The loop over the levels, `src/nx_fast_detector.c:311-342` (and `105-132`): levels `n-1` down
to 0; `keys` are the keypoints stored so far, `room` is `n_level_keys_max`. -/
def fastLevels {K : Type} [Zero K] [One K] (at2 : Int → Int → K) (thr : Int) (work : Nat) (ic : Option ICData)
    (levels : List (FLevel K)) : Nat → Int → List (FKey K) → Res (List (FKey K))
  | 0, _, keys => .ok keys
  | n + 1, room, keys => do
    let l ← readAt levels n
    let new ← fastLevel at2 thr work ic room keys.length n l
    let room := room - new.length
    if room ≤ 0 then pure (keys ++ new) else fastLevels at2 thr work ic levels n room (keys ++ new)

/-- The number of levels used, `src/nx_fast_detector.c:98-100,304-306`. -/
def keyLevels (n : Int) (total : Nat) : Nat := if n ≤ 0 ∨ n > total then total else n.toNat

/-- `nx_fast_detector_detect_pyr`, `src/nx_fast_detector.c:295-345`. -/
def fastDetectorPyr {K : Type} [Zero K] [One K] (at2 : Int → Int → K) (thr : Int) (mult : Nat) (ic : Option ICData)
    (max : Nat) (levels : List (FLevel K)) (n : Int) : Res (List (FKey K)) :=
  if InI32 (max * mult) then fastLevels at2 thr (max * mult) ic levels (keyLevels n levels.length) max []
  else .ub

/-- `nx_fast_detect_keypoints_pyr`, `src/nx_fast_detector.c:82-135`: `suppMax` keypoints at most,
`max` the size of the work buffer. -/
def fastDetectKeysPyr {K : Type} [Zero K] [One K] (at2 : Int → Int → K) (thr : Int) (suppMax max : Nat)
    (levels : List (FLevel K)) (n : Int) : Res (List (FKey K)) :=
  if suppMax = 0 ∨ max = 0 then .ok []
  else fastLevels at2 thr max none levels (keyLevels n levels.length) suppMax []

end Nx
