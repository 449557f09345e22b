import Verif.Model.VggBench
import Verif.Lemmas.Mark
import Verif.Props.SiftMatch
import Verif.Props.ImageIo

/-! # C128: the benchmark of the SIFT detector -/

namespace Nx

/-- The point `p` is mapped by the matrix (nine numbers, column by column) to a finite point that is nearer to `q` than `t`. -/
def MapsNear (h : List Rat) (p q : Rat × Rat) (t : Rat) : Prop :=
  ∃ a b c, c ≠ 0 ∧
    some a = (do pure ((← h[0]?) * p.1 + (← h[3]?) * p.2 + (← h[6]?)) : Option Rat) ∧
    some b = (do pure ((← h[1]?) * p.1 + (← h[4]?) * p.2 + (← h[7]?)) : Option Rat) ∧
    some c = (do pure ((← h[2]?) * p.1 + (← h[5]?) * p.2 + (← h[8]?)) : Option Rat) ∧
    (a / c - q.1) ^ 2 + (b / c - q.2) ^ 2 < t ^ 2

theorem closeTo_mapsNear {e0 e1 e2 e3 e4 e5 e6 e7 e8 : Rat} (r : List Rat) (p q : Rat × Rat) (t : Rat) :
    closeTo (transferFwd ⟨e0, e1, e2, e3, e4, e5, e6, e7, e8⟩ p).1 q (t * t) = true ↔
      MapsNear (e0 :: e1 :: e2 :: e3 :: e4 :: e5 :: e6 :: e7 :: e8 :: r) p q t := by
  unfold MapsNear closeTo transferFwd
  simp only [List.getElem?_cons_zero, List.getElem?_cons_succ]
  by_cases h : e2 * p.1 + e5 * p.2 + e8 = 0
  · rw [if_pos h]
    simp only [Bool.false_eq_true, false_iff]
    rintro ⟨a, b, c, hc, _, _, e, _⟩
    exact hc ((Option.some.inj e).trans h)
  · rw [if_neg h]
    simp only [decide_eq_true_eq]
    constructor
    · intro hlt
      refine ⟨_, _, _, h, rfl, rfl, rfl, ?_⟩
      rw [div_eq_mul_one_div (e0 * p.1 + e3 * p.2 + e6), div_eq_mul_one_div (e1 * p.1 + e4 * p.2 + e7), sq, sq, sq]
      exact hlt
    · rintro ⟨a, b, c, _, ea, eb, ec, hlt⟩
      obtain rfl := Option.some.inj ea
      obtain rfl := Option.some.inj eb
      obtain rfl := Option.some.inj ec
      rw [div_eq_mul_one_div (e0 * p.1 + e3 * p.2 + e6), div_eq_mul_one_div (e1 * p.1 + e4 * p.2 + e7), sq, sq, sq] at hlt
      exact hlt

theorem m3OfNums_ok {h : List Rat} {H : M3 Rat} (e : m3OfNums h = .ok H) :
    ∃ e0 e1 e2 e3 e4 e5 e6 e7 e8 r, h = e0 :: e1 :: e2 :: e3 :: e4 :: e5 :: e6 :: e7 :: e8 :: r ∧ H = ⟨e0, e1, e2, e3, e4, e5, e6, e7,
      e8⟩ := by
  unfold m3OfNums at e
  split at e
  · cases e
    exact ⟨_, _, _, _, _, _, _, _, _, _, rfl, rfl⟩
  · cases e

open Classical in
/-- The number of matches that are mapped near to their partner. -/
noncomputable def nearCount (h : List Rat) (ms : List (PMatch Rat)) (t : Rat) : Nat :=
  (ms.filter fun m => decide (MapsNear h m.x m.xp t)).length

theorem nearCount_mono (h : List Rat) (ms : List (PMatch Rat)) {s t : Rat} (h0 : 0 ≤ s) (hst : s ≤ t) : nearCount h ms s ≤ nearCount h ms
  t := by
  classical
  unfold nearCount
  apply List.Sublist.length_le
  apply List.monotone_filter_right
  intro m hm
  simp only [decide_eq_true_eq] at hm ⊢
  obtain ⟨a, b, c, hc, ea, eb, ec, hlt⟩ := hm
  exact ⟨a, b, c, hc, ea, eb, ec, lt_of_lt_of_le hlt (by nlinarith)⟩

theorem nearCount_le (h : List Rat) (ms : List (PMatch Rat)) (t : Rat) : nearCount h ms t ≤ ms.length := by
  classical
  exact List.length_filter_le _ _

/-- Marks are not looked at. -/
theorem nearCount_marked (h : List Rat) (ms : List (PMatch Rat)) (test : PMatch Rat → Bool) (t : Rat) :
    nearCount h (marked test ms) t = nearCount h ms t := by
  classical
  unfold nearCount marked
  rw [List.filter_map, List.length_map]
  rfl

theorem mark_near {h : List Rat} {H : M3 Rat} (e : m3OfNums h = .ok H) (n : Nat) (pm : List (PMatch Rat)) (t : Rat) (hn : n ≤ pm.length) :
    ∃ pm', markInliers H n pm t = .ok (pm', nearCount h (pm.take n) t) ∧ n ≤ pm'.length ∧
      ∀ t', nearCount h (pm'.take n) t' = nearCount h (pm.take n) t' := by
  classical
  obtain ⟨e0, e1, e2, e3, e4, e5, e6, e7, e8, r, rfl, rfl⟩ := m3OfNums_ok e
  obtain ⟨test, ht⟩ : ∃ test : PMatch Rat → Bool, test = fun c : PMatch Rat =>
    closeTo (transferFwd (⟨e0, e1, e2, e3, e4, e5, e6, e7, e8⟩ : M3 Rat) c.x).1 c.xp (t * t) := ⟨_, rfl⟩
  have hl : (marked test (pm.take n)).length = n := by simp [marked, hn]
  refine ⟨marked test (pm.take n) ++ pm.drop n, ?_, by simp [hl], ?_⟩
  · unfold markInliers
    rw [← ht, Int.toNat_natCast, markLoop_ok _ _ _ _ hn, Nat.zero_add]
    have : (pm.take n).filter test = (pm.take n).filter fun m => decide (MapsNear (e0 :: e1 :: e2 :: e3 :: e4 :: e5 :: e6 :: e7 :: e8 :: r)
        m.x m.xp t) := ?_
    · rw [this]
      unfold nearCount
      rfl
    congr 1
    funext m
    rw [ht, Bool.eq_iff_iff, decide_eq_true_eq]
    exact closeTo_mapsNear r m.x m.xp t
  · intro t'
    rw [List.take_append_of_le_length (by omega), List.take_of_length_le (by omega), nearCount_marked]

/-- The three counts. -/
theorem vbCounts {h : List Rat} {H : M3 Rat} (e : m3OfNums h = .ok H) (n : Nat) (pm : List (PMatch Rat)) (hn : n ≤ pm.length) :
    ∃ pm', forLoop 3 (vbCount H n) 0 (pm, [0, 0, 0]) =
      .ok (pm', [nearCount h (pm.take n) 3, nearCount h (pm.take n) 2, nearCount h (pm.take n) 1]) := by
  have step : ∀ (i : Nat) (t : Rat) (pm1 : List (PMatch Rat)) (l : List Nat), vbTols[i]? = some t → i < l.length → n ≤ pm1.length →
      ∃ pm', vbCount H n i (pm1, l) = .ok (pm', l.set i (nearCount h (pm1.take n) t)) ∧ n ≤ pm'.length ∧
      ∀ t', nearCount h (pm'.take n) t' = nearCount h (pm1.take n) t' := by
    intro i t pm1 l ht hi hl
    obtain ⟨pm', e1, e2, e3⟩ := mark_near e n pm1 t hl
    refine ⟨pm', ?_, e2, e3⟩
    unfold vbCount readAt
    rw [ht]
    simp only [Res.ok_bind, e1]
    rw [writeAt_ok _ hi]
    rfl
  obtain ⟨p1, e1, l1, k1⟩ := step 0 3 pm [0, 0, 0] rfl (by simp) hn
  obtain ⟨p2, e2, l2, k2⟩ := step 1 2 p1 [nearCount h (pm.take n) 3, 0, 0] rfl (by simp) l1
  obtain ⟨p3, e3, l3, k3⟩ := step 2 1 p2 [nearCount h (pm.take n) 3, nearCount h (p1.take n) 2, 0] rfl (by simp) l2
  refine ⟨p3, ?_⟩
  rw [forLoop_three, e1]
  simp only [Res.ok_bind, List.set_cons_zero]
  rw [e2]
  simp only [Res.ok_bind, List.set_cons_zero, List.set_cons_succ]
  rw [e3]
  simp only [List.set_cons_zero, List.set_cons_succ, k2, k1]

section
variable {rd : Rat → Rat} {detect : UImg → Res (Nat × List NumKey × List Byte)} {C : Codecs} {junk : Nat → Byte} {files : Files}

/-- C128. One pair with the check of the ratio: the line has the name, the number of the frame, the numbers of keypoints, the number of
the clear matches, and how many of them the matrix of the frame maps nearer to their partner than three, two and one. -/
theorem c128_pair (hr : FloatRound rd) {thr : Rat} (h0 : 0 < thr) (h1 : thr < 1) {q : VggSeq Rat} {pair n ni : Nat} {keys ki : List NumKey}
    {desc di : List Byte} {img : UImg} {h : List Rat} (hl : vggLoadFrame C junk files q pair .gray = .ok img)
    (hdet : detect img = .ok (ni, ki, di)) (hk : n ≤ keys.length) (hd : 128 * n ≤ desc.length) (hki : ni ≤ ki.length)
    (hdi : 128 * ni ≤ di.length) (hn : n ≤ 16777216) (hni : ni ≤ 16777216) (hh : q.h[pair]? = some h) (h9 : h.length = 9) :
    ∃ (pairs : List (Nat × Nat)) (ms : List (PMatch Rat)),
      vbPair rd detect C junk files thr q (n, keys, desc) pair = .ok ⟨q.name, pair, n, ni, pairs.length, nearCount h ms 3, nearCount h ms 2,
        nearCount h ms 1⟩ ∧
      pairs.Pairwise (fun p q => p.1 < q.1) ∧
      (∀ p : Nat × Nat, p ∈ pairs ↔ p.1 < n ∧
        ClearNearest (fun j => vecDistSq (descAt desc p.1) (descAt di j)) ni (ratioPart rd thr) p.2) ∧
      ms.map some = pairs.map (keyMatch rd keys ki desc di) := by
  obtain ⟨pairs, ms, e, p1, p2, p3⟩ := c83_ratio rd hr n ni keys ki desc di (List.replicate n freshMatch) thr h0 h1 hk hki hd hdi hn hni
    (by simp)
  have hlen : ms.length = pairs.length := by
    have := congrArg List.length p3
    simpa using this
  obtain ⟨H, eH⟩ : ∃ H, m3OfNums h = .ok H := by
    match h, h9 with
    | [a0, a1, a2, a3, a4, a5, a6, a7, a8], _ => exact ⟨_, rfl⟩
  obtain ⟨pm', ec⟩ := vbCounts eH pairs.length (ms ++ (List.replicate n freshMatch).drop pairs.length) (by simp [hlen])
  rw [List.take_append_of_le_length (by omega), List.take_of_length_le (by omega)] at ec
  refine ⟨pairs, ms, ?_, p1, p2, p3⟩
  unfold vbPair
  simp only [hl, Res.ok_bind, hdet, e, readAt, hh, eH, ec]
  rfl

theorem siftMatch_le {n np : Nat} {keys keyps : List NumKey} {desc descp : List Byte} {corr : List (PMatch Rat)} {thr : Rat}
    {r : Nat × List (PMatch Rat)} (h : siftMatch rd n keys desc np keyps descp corr thr = .ok r) (hc : n ≤ corr.length) :
    r.1 ≤ n ∧ r.1 ≤ r.2.length := by
  unfold siftMatch at h
  split at h
  · have := forLoop_inv (fun i (s : Nat × List (PMatch Rat)) => s.1 ≤ i ∧ s.2.length = corr.length) (by
      rintro i s s' _ ⟨h1, h2⟩ hb
      unfold ratioBody at hb
      simp only [Res.bind_eq_ok] at hb
      obtain ⟨oi, -, t, -, hb⟩ := hb
      split at hb
      · simp only [Res.bind_eq_ok] at hb
        obtain ⟨k, -, kp, -, c, hw, hb⟩ := hb
        cases hb
        unfold writeAt at hw
        split at hw
        · cases hw
          exact ⟨by simp only; omega, by simp [h2]⟩
        · cases hw
      · cases hb
        exact ⟨by omega, h2⟩) n 0 (0, corr) r rfl (by omega) ⟨by simp, rfl⟩ h
    omega
  · rw [Res.bind_eq_ok] at h
    obtain ⟨c, h, e⟩ := h
    cases e
    have := forLoop_inv (fun _ (s : List (PMatch Rat)) => s.length = corr.length) (by
      intro i s s' _ h1 hb
      unfold plainBody at hb
      simp only [Res.bind_eq_ok] at hb
      obtain ⟨oi, -, t, -, k, -, kp, -, hw⟩ := hb
      unfold writeAt at hw
      split at hw
      · cases hw
        simp [h1]
      · cases hw) n 0 corr c rfl (by omega) rfl h
    exact ⟨Nat.le_refl _, by simp only; omega⟩

/-- What holds for every line. -/
def VbRow.Sound (r : VbRow) : Prop := r.in2 ≤ r.in1 ∧ r.in1 ≤ r.in0 ∧ r.in0 ≤ r.nPm ∧ r.nPm ≤ r.nKeys0

theorem vbPair_sound {thr : Rat} {q : VggSeq Rat} {k0 : Nat × List NumKey × List Byte} {pair : Nat} {r : VbRow}
    (h : vbPair rd detect C junk files thr q k0 pair = .ok r) : r.name = q.name ∧ r.pair = pair ∧ r.nKeys0 = k0.1 ∧ r.Sound := by
  unfold vbPair at h
  simp only [Res.bind_eq_ok] at h
  obtain ⟨img, -, ki, -, ⟨nPm, pm⟩, em, hm, -, H, eH, ⟨pm', l⟩, ec, a, ea, b, eb, c, ecc, e⟩ := h
  obtain ⟨l1, l2⟩ := siftMatch_le em (by simp)
  obtain ⟨pm'', ec'⟩ := vbCounts eH nPm pm l2
  rw [ec'] at ec
  cases ec
  cases ea
  cases eb
  cases ecc
  cases e
  refine ⟨rfl, rfl, rfl, nearCount_mono _ _ (by norm_num) (by norm_num), nearCount_mono _ _ (by norm_num) (by norm_num), ?_, l1⟩
  refine (nearCount_le _ _ _).trans ?_
  rw [List.length_take]
  exact Nat.min_le_left _ _

variable {scan : Bytes → Option (Rat × Bytes)} {fresh : Rat} {dirs : Bytes → Bool} {base : Bytes} {thr : Rat}

theorem vggNew_fields {D : Type} {scan : Bytes → Option (D × Bytes)} {junk zero one : D} {base name : Bytes} {q : VggSeq D}
    (h : vggNew scan junk zero one files dirs base name = .ok q) : q.name = name ∧ q.length = 6 := by
  unfold vggNew at h
  split at h
  · cases h
  split at h
  · cases h
  split at h
  · cases h
  rw [Res.bind_eq_ok] at h
  obtain ⟨hh, -, e⟩ := h
  cases e
  exact ⟨rfl, rfl⟩

/-- C128. Whenever the benchmark ends: five lines for each of the eight sequences in order, one for each further frame, with the same
number of keypoints of the first frame in each; the numbers of inliers do not grow with smaller tolerances, and are at most the number of
matches, which is at most the number of keypoints of the first frame. -/
theorem c128_report {rows : List VbRow} (h : vbRun rd detect C junk files scan fresh dirs base thr = .ok rows) :
    ∃ blocks : List (List VbRow), rows = blocks.flatten ∧ blocks.length = 8 ∧
      ∀ (k : Nat) (block : List VbRow), blocks[k]? = some block → block.map VbRow.pair = [1, 2, 3, 4, 5] ∧
        (∃ n, ∀ r ∈ block, some r.name = (vggNames[k]?).map bytesOf ∧ r.nKeys0 = n) ∧ ∀ r ∈ block, r.Sound := by
  unfold vbRun at h
  refine forLoop_inv (fun i (s : List VbRow) => ∃ blocks : List (List VbRow), s = blocks.flatten ∧ blocks.length = i ∧
      ∀ (k : Nat) (block : List VbRow), blocks[k]? = some block → block.map VbRow.pair = [1, 2, 3, 4, 5] ∧
        (∃ n, ∀ r ∈ block, some r.name = (vggNames[k]?).map bytesOf ∧ r.nKeys0 = n) ∧ ∀ r ∈ block, r.Sound) ?_ 8 0 [] rows rfl (by omega)
    ⟨[], rfl, rfl, by intro k b hb; simp at hb⟩ h
  rintro i s s' hi ⟨blocks, rfl, hlen, hbl⟩ hb
  unfold vbSeq at hb
  simp only [Res.bind_eq_ok] at hb
  obtain ⟨name, en, q, eq, img0, -, k0, -, hb⟩ := hb
  obtain ⟨qn, ql⟩ := vggNew_fields eq
  have en' : vggNames[i]? = some name := by
    unfold readAt at en
    split at en
    · rename_i v hv
      cases en
      exact hv
    · cases en
  rw [ql] at hb
  obtain ⟨block, e1, -, e2, e3⟩ := forLoop_inv (fun j (s : List VbRow) => ∃ block : List VbRow, s = blocks.flatten ++ block ∧
      1 ≤ j ∧ block.map VbRow.pair = List.range' 1 (j - 1) ∧ ∀ r ∈ block, r.name = q.name ∧ r.nKeys0 = k0.1 ∧ r.Sound) (by
      rintro j s s' _ ⟨block, rfl, hj, h2, h3⟩ hp
      rw [Res.bind_eq_ok] at hp
      obtain ⟨r, er, e⟩ := hp
      cases e
      obtain ⟨p1, p2, p3, p4⟩ := vbPair_sound er
      obtain ⟨m, rfl⟩ : ∃ m, j = m + 1 := ⟨j - 1, by omega⟩
      refine ⟨block ++ [r], by simp, by omega, ?_, ?_⟩
      · rw [List.map_append, h2, List.map_singleton, p2]
        simp only [Nat.add_sub_cancel]
        rw [List.range'_1_concat, Nat.add_comm 1 m]
      · intro x hx
        rcases List.mem_append.mp hx with hx | hx
        · exact h3 x hx
        · rw [List.mem_singleton.mp hx]
          exact ⟨p1, p3, p4⟩) 5 1 blocks.flatten s' rfl (by omega) ⟨[], by simp, Nat.le_refl _, rfl, by simp⟩ hb
  refine ⟨blocks ++ [block], by simp [e1], by simp [hlen], ?_⟩
  intro k b hk
  rcases Nat.lt_or_ge k i with g | g
  · rw [List.getElem?_append_left (by omega)] at hk
    exact hbl k b hk
  · rw [List.getElem?_append_right (by omega), hlen] at hk
    have hk0 : k - i = 0 := by
      by_contra hne
      rw [List.getElem?_eq_none (by simp; omega)] at hk
      cases hk
    obtain rfl : k = i := by omega
    rw [hk0] at hk
    cases hk
    refine ⟨e2, ⟨k0.1, fun r hr => ⟨?_, (e3 r hr).2.1⟩⟩, fun r hr => (e3 r hr).2.2⟩
    rw [(e3 r hr).1, qn, en']
    rfl

/-- C128. The benchmark ends when all that it needs is there: the sequences with six matrices of nine numbers each (C101), their frames,
and a detector that gives a descriptor of 128 bytes for each keypoint, at most 16777216 of them (C106). -/
theorem c128_ends_partial (hr : FloatRound rd) (h0 : 0 < rd thr) (h1 : rd thr < 1)
    (hseq : ∀ s ∈ vggNames, ∃ q, vggNew scan fresh 0 1 files dirs base (bytesOf s) = .ok q ∧ q.h.length = 6 ∧
      (∀ h ∈ q.h, h.length = 9) ∧ ∀ i : Nat, i < 6 → ∃ img, vggLoadFrame C junk files q i .gray = .ok img)
    (hdet : ∀ img, ∃ n keys desc, detect img = .ok (n, keys, desc) ∧ n ≤ keys.length ∧ 128 * n ≤ desc.length ∧ n ≤ 16777216) :
    ∃ rows, vbRun rd detect C junk files scan fresh dirs base thr = .ok rows ∧ rows.length = 40 := by
  have hrun : ∃ rows, vbRun rd detect C junk files scan fresh dirs base thr = .ok rows ∧ True := by
    refine forLoop_spec (fun _ _ => True) (by omega) trivial ?_
    intro i s _ hi _
    have hi' : i < vggNames.length := hi
    obtain ⟨q, eq, l6, l9, hfr⟩ := hseq vggNames[i] (List.getElem_mem hi')
    obtain ⟨qn, ql⟩ := vggNew_fields eq
    obtain ⟨img0, e0⟩ := hfr 0 (by omega)
    obtain ⟨n, keys, desc, ed, d1, d2, d3⟩ := hdet img0
    obtain ⟨rows, er, -⟩ := forLoop_spec (fun _ (_ : List VbRow) => True) (n := 6) (i0 := 1) (s := s)
      (body := fun i rows => do
        let r ← vbPair rd detect C junk files (rd thr) q (n, keys, desc) i
        pure (rows ++ [r])) (by omega) trivial (by
        intro j s hj1 hj2 _
        obtain ⟨img, ei⟩ := hfr j hj2
        obtain ⟨ni, ki, di, edi, f1, f2, f3⟩ := hdet img
        obtain ⟨pairs, ms, e, -⟩ := c128_pair hr h0 h1 (q := q) (h := q.h[j]) (keys := keys) (desc := desc) ei edi d1 d2 f1 f2 d3 f3
          (List.getElem?_eq_getElem _) (l9 _ (List.getElem_mem _))
        rw [e]
        exact ⟨_, rfl, trivial⟩)
    refine ⟨rows, ?_, trivial⟩
    unfold vbSeq
    rw [readAt_ok hi']
    simp only [Res.ok_bind, eq]
    have e0' : vggLoadFrame C junk files q 0 .gray = .ok img0 := e0
    simp only [e0', Res.ok_bind, ed, ql]
    exact er
  obtain ⟨rows, e, -⟩ := hrun
  refine ⟨rows, e, ?_⟩
  obtain ⟨blocks, rfl, h8, hb⟩ := c128_report e
  have hlen : ∀ b ∈ blocks, b.length = 5 := by
    intro b hm
    obtain ⟨k, hk⟩ := List.mem_iff_getElem?.mp hm
    have := congrArg List.length (hb k b hk).1
    simpa using this
  rw [List.length_flatten, List.map_congr_left hlen, List.map_const', List.sum_replicate, h8]
  rfl

/-- C128 fails for a threshold that turns the check of the ratio off: a frame without keypoints makes the benchmark undefined. -/
theorem c128_no_check {q : VggSeq Rat} {pair n : Nat} {keys ki : List NumKey} {desc di : List Byte} {img : UImg}
    (ht : ¬(0 < thr ∧ thr < 1)) (hl : vggLoadFrame C junk files q pair .gray = .ok img) (hdet : detect img = .ok (0, ki, di))
    (hk : n ≤ keys.length) (hn : 0 < n) : vbPair rd detect C junk files thr q (n, keys, desc) pair = .ub := by
  unfold vbPair
  simp only [hl, Res.ok_bind, hdet]
  rw [c83_plain_empty rd n keys ki desc di _ thr ht hk hn]
  rfl

end

/-! ## Examples -/

/-- Two keypoints with clearly different descriptors. -/
def demoDetect : UImg → Res (Nat × List NumKey × List Byte) := fun _ =>
  .ok (2, [⟨5, 6, 5, 6, 0, 1, 1, 1, 0, 0⟩, ⟨9, 6, 9, 6, 0, 1, 1, 1, 0, 1⟩], List.replicate 128 0 ++ List.replicate 128 200)

example : vbPair id demoDetect demoCodecs (fun _ => 0) (fun _ => some (bytesOf "P5\n1 1 255\n7")) (3 / 5)
    ⟨bytesOf "b", bytesOf "graf", 6, List.replicate 6 [1, 0, 0, 0, 1, 0, 3 / 2, 0, 1]⟩
    (2, [⟨5, 6, 5, 6, 0, 1, 1, 1, 0, 0⟩, ⟨9, 6, 8, 6, 0, 1, 1, 1, 0, 1⟩], List.replicate 128 0 ++ List.replicate 128 200) 3 =
    .ok ⟨bytesOf "graf", 3, 2, 2, 2, 2, 2, 1⟩ := by decide +kernel

/-- A whole run; each number read from a file is `1`, so that no point is mapped to its partner. -/
example : (do
      let rows ← vbRun id demoDetect demoCodecs (fun _ => 0) (fun _ => some (bytesOf "P5\n1 1 255\n7")) (fun t => some (1, t)) 0 (fun _
        => true)
        (bytesOf "b") (3 / 5)
      pure (rows.length, rows[12]?, rows.all fun r => decide (r.nPm = 2))) =
    .ok (40, some ⟨bytesOf "boat", 3, 2, 2, 2, 0, 0, 0⟩, true) := by decide +kernel

end Nx
