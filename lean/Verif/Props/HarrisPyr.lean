import Verif.Props.Harris
import Verif.Lemmas.DataFrame

/-!
# C82: Harris corners in pyramids, and limits
-/

namespace Nx

theorem relabel_loop (level : Nat) (l : HarrisLevel) (pre mid post : List NumKey) :
    forLoop (pre.length + mid.length) (relabel level l) pre.length (pre ++ mid ++ post) =
      .ok (pre ++ mid.mapIdx (fun i q => { q with level := level, scale := l.scale, sigma := l.sigma, id := pre.length + i }) ++ post) := by
  induction mid generalizing pre with
  | nil =>
    rw [forLoop, if_neg (by simp)]
    simp
  | cons q mid ih =>
    rw [forLoop, if_pos (by simp)]
    have hr : relabel level l pre.length (pre ++ q :: mid ++ post) =
        .ok ((pre ++ [{ q with level := level, scale := l.scale, sigma := l.sigma, id := pre.length }]) ++ mid ++ post) := by
      unfold relabel
      have : (pre ++ q :: mid ++ post)[pre.length]? = some q := by simp
      rw [readAt_some this]
      simp only [Res.ok_bind]
      rw [writeAt_ok _ (by simp)]
      simp
    rw [hr]
    simp only [Res.ok_bind]
    have := ih (pre ++ [{ q with level := level, scale := l.scale, sigma := l.sigma, id := pre.length }])
    rw [List.length_append, List.length_singleton] at this
    rw [List.length_cons, show pre.length + (mid.length + 1) = pre.length + 1 + mid.length by omega, this]
    simp [Nat.add_assoc, Nat.add_comm 1]

/-- Keypoints of the levels below `nl`, the coarsest level first. -/
def pyrKeys (S : Nat → Nat → Nat → Rat) (pyr : Nat → HarrisLevel) (Ps : Nat → List (Nat × Nat)) (nl : Nat) : List NumKey :=
  (List.range nl).reverse.flatMap fun l => (Ps l).map (levelKey (S l) l (pyr l))

section
variable {p : HarrisParam} {pyr : List HarrisLevel} {L : Nat → HarrisLevel} {W H : Nat → Nat} {F : Nat → Nat → Nat → Byte}
  {r : Nat} {wt : Nat → Rat}

theorem corners_exist {img : GImage Byte} {w h : Nat} {f : Nat → Nat → Byte} (hi : PlainImage img w h f) (hgood : GoodWindow p.window)
    (hwin : IsWindow p.window r wt) {det : HarrisDetector} (hd : det.Ok) (thr : Rat) :
    ∃ P, AllCorners w h (harrisMap w h r wt p.k f) thr P := by
  obtain ⟨det1, _, _, _, s1⟩ := updateScore_ok hd hi hgood hwin
  obtain ⟨P, hP, _⟩ := c82_detect s1 thr 0 (keys := []) (Nat.le_refl _)
  exact ⟨P, hP⟩

theorem pyrKeys_succ (S : Nat → Nat → Nat → Rat) (Ps : Nat → List (Nat × Nat)) (nl : Nat) :
    pyrKeys S L Ps (nl + 1) = (Ps nl).map (levelKey (S nl) nl (L nl)) ++ pyrKeys S L Ps nl := by
  unfold pyrKeys
  rw [List.range_succ, List.reverse_append]
  rfl

theorem pyrLoop_ok (hgood : GoodWindow p.window) (hwin : IsWindow p.window r wt) {N : Nat} {thr : Rat} :
    ∀ (nl : Nat) (det : HarrisDetector) (keys found : List NumKey), det.Ok → det.threshold = thr →
      (∀ l, l < nl → pyr[l]? = some (L l) ∧ PlainImage (L l).img (W l) (H l) (F l)) →
      keys.length = N → keys.take (min found.length N) = (found.take N).mapIdx withId →
      ∃ Ps : Nat → List (Nat × Nat),
        (∀ l, l < nl → AllCorners (W l) (H l) (harrisMap (W l) (H l) r wt p.k (F l)) thr (Ps l)) ∧
        ∃ all, all = found ++ pyrKeys (fun l => harrisMap (W l) (H l) r wt p.k (F l)) L Ps nl ∧
        ∃ det' keys', pyrLoop p pyr nl det keys (min found.length N) (N - min found.length N) = .ok (det', keys', min all.length N) ∧
          det'.Ok ∧ det'.threshold = thr ∧ keys'.length = N ∧ keys'.take (min all.length N) = (all.take N).mapIdx withId := by
  intro nl
  induction nl with
  | zero =>
    intro det keys found hd ht _ hl hk
    refine ⟨fun _ => [], by intro l h; omega, found, by simp [pyrKeys], det, keys, ?_, hd, ht, hl, hk⟩
    unfold pyrLoop
    rfl
  | succ nl ih =>
    intro det keys found hd ht hpyr hl hk
    obtain ⟨hget, hplain⟩ := hpyr nl (by omega)
    by_cases hroom : N - min found.length N > 0
    · obtain ⟨det1, e1, ok1, t1, s1⟩ := updateScore_ok hd hplain hgood hwin
      have hmin : min found.length N = found.length := by omega
      rw [hmin] at hk hroom ⊢
      rw [List.take_of_length_le (by omega : found.length ≤ N)] at hk
      obtain ⟨P, hP, eP⟩ := c82_detect s1 det1.threshold (N - found.length) (keys := keys.drop found.length)
        (by rw [List.length_drop, hl])
      rw [t1, ht] at hP
      obtain ⟨Q, hQ⟩ : ∃ Q, P.map (levelKey (harrisMap (W nl) (H nl) r wt p.k (F nl)) nl (L nl)) = Q := ⟨_, rfl⟩
      have hQl : Q.length = P.length := by rw [← hQ, List.length_map]
      have htl : (keys.take found.length).length = found.length := by rw [List.length_take]; omega
      -- the keypoints after the new numbers are set
      have hlab := relabel_loop nl (L nl) (keys.take found.length)
        ((P.take (N - found.length)).mapIdx (keyAt (harrisMap (W nl) (H nl) r wt p.k (F nl))))
        ((keys.drop found.length).drop (min P.length (N - found.length)))
      rw [htl, List.length_mapIdx, List.length_take, Nat.min_comm (N - found.length)] at hlab
      obtain ⟨keys2, hkeys2⟩ : ∃ keys2, keys.take found.length ++
          ((P.take (N - found.length)).mapIdx (keyAt (harrisMap (W nl) (H nl) r wt p.k (F nl)))).mapIdx
            (fun i q => { q with level := (nl : Int), scale := (L nl).scale, sigma := (L nl).sigma, id := found.length + i }) ++
          (keys.drop found.length).drop (min P.length (N - found.length)) = keys2 := ⟨_, rfl⟩
      rw [hkeys2] at hlab
      have hmid : ((P.take (N - found.length)).mapIdx (keyAt (harrisMap (W nl) (H nl) r wt p.k (F nl)))).mapIdx
            (fun i q => ({ q with level := (nl : Int), scale := (L nl).scale, sigma := (L nl).sigma, id := found.length + i } : NumKey)) =
          (Q.take (N - found.length)).mapIdx (fun i q => withId (i + found.length) q) := by
        rw [← hQ, List.map_take.symm]
        apply List.ext_getElem?
        intro i
        simp only [List.getElem?_mapIdx, List.getElem?_map, Option.map_map]
        congr 1
        funext q
        simp [levelKey, keyAt, withId, Nat.add_comm]
      have hk2l : keys2.length = N := by
        rw [← hkeys2]
        simp only [List.length_append, List.length_mapIdx, List.length_drop, List.length_take]
        omega
      have hk2 : keys2.take (min (found ++ Q).length N) = ((found ++ Q).take N).mapIdx withId := by
        rw [← hkeys2, hmid, List.take_append (l₁ := found), List.mapIdx_append, List.take_of_length_le (l := found) (by omega), ← hk,
          List.take_append_of_le_length]
        · rw [List.take_of_length_le]
          · simp only [List.length_append, htl, List.length_mapIdx, List.length_take (i := N - found.length)]
            omega
        · simp only [List.length_append, htl, List.length_mapIdx, List.length_take (i := N - found.length)]
          omega
      obtain ⟨Ps, hPs, all, hall, det', keys', e', ok', t', l', k'⟩ := ih det1 keys2 (found ++ Q) ok1 (by rw [t1, ht])
        (fun l h => hpyr l (by omega)) hk2l hk2
      have hsame : pyrKeys (fun l => harrisMap (W l) (H l) r wt p.k (F l)) L (fun l => if l = nl then P else Ps l) nl =
          pyrKeys (fun l => harrisMap (W l) (H l) r wt p.k (F l)) L Ps nl := by
        unfold pyrKeys
        apply List.flatMap_congr
        intro l hlm
        rw [List.mem_reverse, List.mem_range] at hlm
        simp only
        rw [if_neg (by omega)]
      refine ⟨fun l => if l = nl then P else Ps l, ?_, all, ?_, det', keys', ?_, ok', t', l', k'⟩
      · intro l hlt
        by_cases hc : l = nl
        · subst hc
          simp only [if_true]
          exact hP
        · simp only [hc, if_false]
          exact hPs l (by omega)
      · rw [hall, pyrKeys_succ, hsame]
        simp only [if_true]
        rw [hQ, List.append_assoc]
      · unfold pyrLoop
        rw [if_pos hroom, readAt_some hget]
        simp only [Res.ok_bind]
        rw [e1]
        simp only [Res.ok_bind]
        rw [eP]
        simp only [Res.ok_bind]
        rw [← List.append_assoc, hlab]
        simp only [Res.ok_bind]
        rw [← e']
        have hfl : (found ++ Q).length = found.length + P.length := by rw [List.length_append, hQl]
        rw [hfl]
        congr 1 <;> omega
    · have hN : min found.length N = N := by omega
      have hex : ∀ l, ∃ P, l < nl + 1 → AllCorners (W l) (H l) (harrisMap (W l) (H l) r wt p.k (F l)) thr P := by
        intro l
        by_cases hc : l < nl + 1
        · obtain ⟨P, hP⟩ := corners_exist (p := p) (r := r) (wt := wt) (hpyr l hc).2 hgood hwin hd thr
          exact ⟨P, fun _ => hP⟩
        · exact ⟨[], fun h => absurd h hc⟩
      choose Ps hPs using hex
      refine ⟨Ps, hPs, _, rfl, det, keys, ?_, hd, ht, hl, ?_⟩
      · unfold pyrLoop
        rw [if_neg hroom, hN]
        congr 3
        rw [List.length_append]
        omega
      · have e1 : min (found ++ pyrKeys (fun l => harrisMap (W l) (H l) r wt p.k (F l)) L Ps (nl + 1)).length N = N := by
          rw [List.length_append]
          omega
        rw [hN] at hk
        rw [e1, List.take_append_of_le_length (by omega), hk]

/-- C82. `detect_pyr` gives the corners of the levels, the coarsest level first and each in reading order, with the number, scale and
sigma of their level and numbered from zero; at most `max` of them. -/
theorem c82_vg_detect_pyr_partial (hgood : GoodWindow p.window) (hwin : IsWindow p.window r wt) {det : HarrisDetector} (hd : det.Ok)
    {nl max : Nat} (hnl : 0 < nl) (hpyr : ∀ l, l < nl → pyr[l]? = some (L l) ∧ PlainImage (L l).img (W l) (H l) (F l))
    (hmax : 0 < max) (hmax' : 2 * max ≤ 2147483647) (keys : List NumKey) (adapt : Bool) :
    ∃ Ps : Nat → List (Nat × Nat),
      (∀ l, l < nl → AllCorners (W l) (H l) (harrisMap (W l) (H l) r wt p.k (F l)) det.threshold (Ps l)) ∧
      ∃ all, all = pyrKeys (fun l => harrisMap (W l) (H l) r wt p.k (F l)) L Ps nl ∧
      ∃ det', vgDetectPyr p det pyr keys nl max adapt = .ok (det', (all.take max).mapIdx withId, min all.length max) ∧ det'.Ok ∧
        det'.threshold = if adapt then harrisAdapt det.threshold (min all.length (2 * max) : Nat) max else det.threshold := by
  obtain ⟨Ps, hPs, all, hall, det', keys', e, ok', t', l', k'⟩ := pyrLoop_ok (N := 2 * max) hgood hwin nl det
    (vecResize p.blank keys (2 * max)) [] hd rfl hpyr (vecResize_length _ _ _) (by simp)
  rw [List.nil_append] at hall
  refine ⟨Ps, hPs, all, hall, if adapt then { det' with threshold := harrisAdapt det'.threshold (min all.length (2 * max) : Nat) max } else det', ?_, ?_, ?_⟩
  · unfold vgDetectPyr
    have hlen : pyr.length ≥ nl := by
      have := (hpyr (nl - 1) (by omega)).1
      have := lt_of_get this
      omega
    rw [if_pos ⟨hnl, hlen, hmax⟩, if_pos hmax']
    simp only [List.length_nil, Nat.zero_min, Nat.sub_zero] at e
    rw [e]
    simp only [Res.ok_bind]
    have en : (if min all.length (2 * max) > max then max else min all.length (2 * max)) = min all.length max := by
      split <;> omega
    rw [en]
    have el : vecResize p.blank keys' (min all.length max) = (all.take max).mapIdx withId := by
      rw [vecResize_le _ (by omega)]
      have h1 : keys'.take (min all.length max) = (keys'.take (min all.length (2 * max))).take (min all.length max) := by
        rw [List.take_take]
        congr 1
        omega
      rw [h1, k', take_mapIdx', List.take_take]
      congr 1
      have h2 : min (min all.length max) (2 * max) = min all.length max := by omega
      rw [h2]
      rcases Nat.le_total all.length max with hc | hc
      · rw [Nat.min_eq_left hc, List.take_length, List.take_of_length_le hc]
      · rw [Nat.min_eq_right hc]
    rw [el]
    rfl
  · split
    · exact ⟨ok'.d0, ok'.d1, ok'.d2, ok'.s⟩
    · exact ok'
  · rw [← t']
    split <;> rfl

end

/-! ## Limits -/

/-- C82. An image that is one pixel wide is read outside of its memory. -/
theorem c82_narrow {junk junkB : Nat → Rat} {dimg : Option (GImage Rat) × Option (GImage Rat) × Option (GImage Rat)} {img : GImage Byte}
    (h0 : ∀ d, dimg.1 = some d → d.Wf) (hw : img.Wf) (hsz : img.data.length ≤ 2147483647) (h1 : img.width ≤ 1) (hh : 0 < img.height)
    (window : Option (Int × (Nat → Rat))) : harrisDeriv junk junkB dimg img window = .ub := by
  unfold harrisDeriv
  rw [c75_deriv_x_narrow (orAlloc_wf h0) hw hsz h1 hh]
  rfl

/-- C82. For an image with padding the last row of the vertical derivative is wrong: here the square of 2 becomes 0. -/
theorem c82_padded :
    (harrisDeriv (fun _ => 0) (fun _ => 0) (none, none, none) (⟨2, 2, 3, [0, 0, 0, 255, 255, 0]⟩ : GImage Byte) none).bind
        (fun r => .ok r.2.1.data) = .ok [4, 4, 0, 4] ∧
      gradY 2 (fun x y => ((([0, 0, 0, 255, 255, 0] : List Byte))[y * 3 + x]?).getD 0) 0 1 = 2 := by decide +kernel

/-! ## Examples -/

/-- Window of nine pixels: kernel 1/4, 1/2, 1/4. -/
def sampleWindow : Option (Int × (Nat → Rat)) := some (1, fun k => if k = 0 then 2 else 1)

example : GoodWindow sampleWindow := by
  intro t g h
  cases h
  refine ⟨by omega, by decide +kernel, ?_⟩
  intro j
  simp only
  split <;> decide +kernel

/-- A detector for the examples. -/
def sampleDetector : HarrisDetector := ⟨(⟨0, 0, 0, []⟩, ⟨0, 0, 0, []⟩, ⟨0, 0, 0, []⟩), ⟨0, 0, 0, []⟩, 1 / 100⟩

/-- A bright square of one pixel in the middle of a dark image of seven times seven: its centre is the only corner. -/
example : (vgDetect ⟨sampleWindow, 6 / 100, fun _ => 0, fun _ => 0, ⟨0, 0, 0, 0, 0, 0, 0, 0, 0, 0⟩⟩ sampleDetector
      ⟨7, 7, 7, (List.range 49).map (fun i => if i = 24 then 255 else 0)⟩ [] 5 false).bind
        (fun r => .ok (r.2.1.map (fun q => (q.x, q.y, q.id)), r.2.2)) = .ok ([(3, 3, 0)], 1) := by decide +kernel

example : harrisAdapt 1 30 10 = 4 ∧ harrisAdapt 1 10 10 = 1 ∧ harrisAdapt 1 1 10 = 1 / 4 := by decide +kernel

end Nx
