import Verif.Model.FastNonmax

/-! # C42: non-maximum suppression keeps exactly the local maxima -/

namespace Nx

/-- `d` is one of the eight neighbours of `c`. -/
def Neighbour (d c : Corner) : Prop :=
  -1 ≤ d.x - c.x ∧ d.x - c.x ≤ 1 ∧ -1 ≤ d.y - c.y ∧ d.y - c.y ≤ 1 ∧ ¬ (d.x = c.x ∧ d.y = c.y)

instance (d c : Corner) : Decidable (Neighbour d c) := by unfold Neighbour; infer_instance

/-- No neighbour has a score greater or equal. -/
def LocalMax (cs : List Corner) (c : Corner) : Prop := ∀ d ∈ cs, Neighbour d c → d.score < c.score

instance (cs : List Corner) (c : Corner) : Decidable (LocalMax cs c) := by unfold LocalMax; infer_instance

/-- Raster order: by rows, from left to right, no position twice. -/
def Raster (cs : List Corner) : Prop := cs.Pairwise (fun a b => a.y < b.y ∨ (a.y = b.y ∧ a.x < b.x))

section
variable {cs : List Corner}

theorem Raster.lt (hr : Raster cs) {i j : Nat} (hj : j < cs.length) (h : i < j) :
    cs[i].y < cs[j].y ∨ (cs[i].y = cs[j].y ∧ cs[i].x < cs[j].x) :=
  (List.pairwise_iff_getElem.mp hr) i j (by omega) hj h

/-- Corner `k` satisfies `P` and has a score of at least that of `pos`. -/
def Beats (cs : List Corner) (pos : Corner) (P : Corner → Prop) : Prop :=
  ∃ k, ∃ h : k < cs.length, P cs[k] ∧ pos.score ≤ cs[k].score

/-- The position is one of the three above (dy = -1) or below (dy = 1). -/
def InRow (pos : Corner) (dy : Int) (d : Corner) : Prop :=
  d.y = pos.y + dy ∧ pos.x - 1 ≤ d.x ∧ d.x ≤ pos.x + 1

theorem nmLeft_ok (hr : Raster cs) {i : Nat} (hi : i < cs.length) :
    ∃ b, nmLeft cs i cs[i] = .ok b ∧
      (b = true ↔ Beats cs cs[i] (fun d => d.y = cs[i].y ∧ d.x = cs[i].x - 1)) := by
  unfold nmLeft
  by_cases h0 : i > 0
  · rw [if_pos h0, readAt_ok (by omega)]
    refine ⟨_, rfl, ?_⟩
    simp only [decide_eq_true_eq]
    constructor
    · rintro ⟨h1, h2, h3⟩
      exact ⟨i - 1, by omega, ⟨h2, h1⟩, h3⟩
    · rintro ⟨k, hk, ⟨h1, h2⟩, h3⟩
      have hki : k = i - 1 := by
        rcases Nat.lt_trichotomy k (i - 1) with h | h | h
        · have a := hr.lt (j := i - 1) (by omega) h
          have b := hr.lt hi (i := i - 1) (by omega)
          omega
        · exact h
        · by_cases hk2 : k = i
          · subst hk2; omega
          · have a := hr.lt hk (i := i) (by omega)
            omega
      subst hki
      exact ⟨h2, h1, h3⟩
  · rw [if_neg h0]
    refine ⟨false, rfl, ?_⟩
    simp only [Bool.false_eq_true, false_iff]
    rintro ⟨k, hk, ⟨h1, h2⟩, _⟩
    by_cases hk2 : k = i
    · subst hk2; omega
    · have a := hr.lt hk (i := i) (by omega)
      omega

theorem nmRight_ok (hr : Raster cs) {i : Nat} (hi : i < cs.length) :
    ∃ b, nmRight cs i cs[i] = .ok b ∧
      (b = true ↔ Beats cs cs[i] (fun d => d.y = cs[i].y ∧ d.x = cs[i].x + 1)) := by
  unfold nmRight
  by_cases h0 : (i : Int) < (cs.length : Int) - 1
  · rw [if_pos h0, readAt_ok (by omega)]
    refine ⟨_, rfl, ?_⟩
    simp only [decide_eq_true_eq]
    constructor
    · rintro ⟨h1, h2, h3⟩
      exact ⟨i + 1, by omega, ⟨h2, h1⟩, h3⟩
    · rintro ⟨k, hk, ⟨h1, h2⟩, h3⟩
      have hki : k = i + 1 := by
        rcases Nat.lt_trichotomy k (i + 1) with h | h | h
        · by_cases hk2 : k = i
          · subst hk2; omega
          · have a := hr.lt hi (i := k) (by omega)
            omega
        · exact h
        · have a := hr.lt hk (i := i + 1) h
          have b := hr.lt (j := i + 1) (by omega) (i := i) (by omega)
          omega
      subst hki
      exact ⟨h2, h1, h3⟩
  · rw [if_neg h0]
    refine ⟨false, rfl, ?_⟩
    simp only [Bool.false_eq_true, false_iff]
    rintro ⟨k, hk, ⟨h1, h2⟩, _⟩
    by_cases hk2 : k = i
    · subst hk2; omega
    · have a := hr.lt hi (i := k) (by omega)
      omega

/-! ## Above -/

/-- Corner `k` cannot be above the corner `pos`, nor above any that follows. -/
def PastAbove (pos d : Corner) : Prop := d.y < pos.y - 1 ∨ (d.y = pos.y - 1 ∧ d.x < pos.x - 1)

theorem skipAbove_ok (hr : Raster cs) {i : Nat} (hi : i < cs.length) :
    ∀ (m pa : Nat), m = i - pa → pa ≤ i → cs[i].y - 1 ≤ (cs[pa]?.map (·.y)).getD 0 →
      (∀ k (h : k < cs.length), k < pa → PastAbove cs[i] cs[k]) →
      ∃ pa', skipAbove cs cs[i] pa = .ok pa' ∧ pa' ≤ i ∧ pa ≤ pa' ∧
        (∀ k (h : k < cs.length), k < pa' → PastAbove cs[i] cs[k]) := by
  intro m
  induction m with
  | zero =>
    intro pa hm hle hy hp
    have : pa = i := by omega
    subst this
    rw [skipAbove, dif_pos hi, if_neg (by omega)]
    exact ⟨pa, rfl, Nat.le_refl _, Nat.le_refl _, hp⟩
  | succ m ih =>
    intro pa hm hle hy hp
    have hpa : pa < cs.length := by omega
    rw [List.getElem?_eq_getElem hpa] at hy
    simp only [Option.map_some, Option.getD_some] at hy
    rw [skipAbove, dif_pos hpa]
    by_cases hc : cs[pa].y < cs[i].y ∧ cs[pa].x < cs[i].x - 1
    · rw [if_pos hc]
      have hlt1 : pa + 1 < cs.length := by omega
      obtain ⟨pa', g1, g2, g3, g4⟩ := ih (pa + 1) (by omega) (by omega) (by
        rw [List.getElem?_eq_getElem hlt1]
        simp only [Option.map_some, Option.getD_some]
        have := hr.lt hlt1 (i := pa) (by omega)
        omega) (by
        intro k hk hkp
        by_cases hkpa : k = pa
        · subst hkpa
          right
          omega
        · exact hp k hk (by omega))
      exact ⟨pa', g1, g2, by omega, g4⟩
    · rw [if_neg hc]
      exact ⟨pa, rfl, hle, Nat.le_refl _, hp⟩

theorem scanAbove_ok (hr : Raster cs) {i : Nat} (hi : i < cs.length) :
    ∀ (m j : Nat), m = i - j → j ≤ i → cs[i].y - 1 ≤ (cs[j]?.map (·.y)).getD 0 →
      (∀ k (h : k < cs.length), k < j → InRow cs[i] (-1) cs[k] → cs[k].score < cs[i].score) →
      ∃ b, scanAbove cs cs[i] j = .ok b ∧ (b = true ↔ Beats cs cs[i] (InRow cs[i] (-1))) := by
  intro m
  induction m with
  | zero =>
    intro j hm hle hy hp
    have : j = i := by omega
    subst this
    rw [scanAbove, dif_pos hi, if_neg (by omega)]
    refine ⟨false, rfl, ?_⟩
    simp only [Bool.false_eq_true, false_iff]
    rintro ⟨k, hk, h1, h2⟩
    by_cases hkj : k < j
    · have := hp k hk hkj h1; omega
    · by_cases hkj2 : k = j
      · subst hkj2
        unfold InRow at h1; omega
      · have := hr.lt hk (i := j) (by omega)
        unfold InRow at h1; omega
  | succ m ih =>
    intro j hm hle hy hp
    have hj : j < cs.length := by omega
    rw [List.getElem?_eq_getElem hj] at hy
    simp only [Option.map_some, Option.getD_some] at hy
    rw [scanAbove, dif_pos hj]
    by_cases hc : cs[j].y < cs[i].y ∧ cs[j].x ≤ cs[i].x + 1
    · rw [if_pos hc]
      by_cases hb : (cs[j].x = cs[i].x - 1 ∨ cs[j].x = cs[i].x ∨ cs[j].x = cs[i].x + 1) ∧ cs[j].score ≥ cs[i].score
      · rw [if_pos hb]
        refine ⟨true, rfl, ?_⟩
        simp only [true_iff]
        exact ⟨j, hj, ⟨by omega, by omega, by omega⟩, hb.2⟩
      · rw [if_neg hb]
        have hlt1 : j + 1 < cs.length := by omega
        refine ih (j + 1) (by omega) (by omega) ?_ ?_
        · rw [List.getElem?_eq_getElem hlt1]
          simp only [Option.map_some, Option.getD_some]
          have := hr.lt hlt1 (i := j) (by omega)
          omega
        · intro k hk hkj hrow
          by_cases hkj2 : k = j
          · subst hkj2
            unfold InRow at hrow
            omega
          · exact hp k hk (by omega) hrow
    · rw [if_neg hc]
      refine ⟨false, rfl, ?_⟩
      simp only [Bool.false_eq_true, false_iff]
      rintro ⟨k, hk, h1, h2⟩
      by_cases hkj : k < j
      · have := hp k hk hkj h1; omega
      · unfold InRow at h1
        by_cases hkj2 : k = j
        · subst hkj2; omega
        · have := hr.lt hk (i := j) (by omega)
          omega

/-- `row_start` is right: the first corner of each row, -1 for rows without. -/
def RowStartOk (cs : List Corner) (rs : List Int) (lastRow : Int) : Prop :=
  ∀ y, 0 ≤ y → y ≤ lastRow → ∃ v, rowAt rs y = .ok v ∧
    ((v = -1 ∧ ∀ k (h : k < cs.length), cs[k].y ≠ y) ∨
     (∃ s, ∃ h : s < cs.length, v = (s : Int) ∧ cs[s].y = y ∧ ∀ k (hk : k < cs.length), k < s → cs[k].y < y))

theorem nmAbove_ok (hr : Raster cs) (hnn : ∀ k (h : k < cs.length), 0 ≤ cs[k].y) {rs : List Int} {lastRow : Int} (hrs : RowStartOk cs rs lastRow)
    {i : Nat} (hi : i < cs.length) (hy0 : 0 ≤ cs[i].y) (hyl : cs[i].y ≤ lastRow) {pa : Nat} (hpa : pa ≤ i)
    (hp : ∀ k (h : k < cs.length), k < pa → PastAbove cs[i] cs[k]) :
    ∃ b pa', nmAbove cs rs cs[i] pa = .ok (b, pa') ∧ pa' ≤ i ∧
      (∀ k (h : k < cs.length), k < pa' → PastAbove cs[i] cs[k]) ∧
      (b = true ↔ Beats cs cs[i] (InRow cs[i] (-1))) := by
  unfold nmAbove
  by_cases h0 : cs[i].y ≠ 0
  · rw [if_pos h0]
    obtain ⟨v, v1, v2⟩ := hrs (cs[i].y - 1) (by omega) (by omega)
    rw [v1]
    simp only [Res.ok_bind]
    rcases v2 with ⟨hv, hno⟩ | ⟨s, hs, hv, hsy, hsk⟩
    · rw [if_neg (by omega)]
      refine ⟨false, pa, rfl, hpa, hp, ?_⟩
      simp only [Bool.false_eq_true, false_iff]
      rintro ⟨k, hk, h1, _⟩
      exact hno k hk h1.1
    · rw [if_pos (by omega)]
      unfold resetAbove
      have hpl : pa < cs.length := by omega
      rw [readAt_ok hpl]
      simp only [Res.ok_bind, Res.pure_eq]
      have hsi : s < i := by
        rcases Nat.lt_trichotomy s i with h | h | h
        · exact h
        · subst h; omega
        · have := hr.lt hs h; omega
      have hex : ∃ p, (if cs[pa].y < cs[i].y - 1 then v.toNat else pa) = p ∧ p ≤ i ∧
          cs[i].y - 1 ≤ (cs[p]?.map (·.y)).getD 0 ∧
          (∀ k (h : k < cs.length), k < p → PastAbove cs[i] cs[k]) := by
        split
        · refine ⟨s, by omega, by omega, ?_, ?_⟩
          · rw [List.getElem?_eq_getElem hs]
            simp only [Option.map_some, Option.getD_some]
            omega
          · intro k hk hks
            exact Or.inl (hsk k hk hks)
        · refine ⟨pa, rfl, hpa, ?_, hp⟩
          rw [List.getElem?_eq_getElem hpl]
          simp only [Option.map_some, Option.getD_some]
          omega
      obtain ⟨p, p1, p2, p3, p4⟩ := hex
      rw [p1]
      obtain ⟨q, q1, q2, q3, q4⟩ := skipAbove_ok hr hi _ p rfl p2 p3 p4
      rw [q1]
      simp only [Res.ok_bind]
      obtain ⟨b, b1, b2⟩ := scanAbove_ok hr hi _ q rfl q2 (by
          have hql : q < cs.length := by omega
          have hpl' : p < cs.length := by omega
          rw [List.getElem?_eq_getElem hql]
          rw [List.getElem?_eq_getElem hpl'] at p3
          simp only [Option.map_some, Option.getD_some] at p3 ⊢
          by_cases hqp : q = p
          · subst hqp; exact p3
          · have := hr.lt hql (i := p) (by omega)
            omega) (by
          intro k hk hkq hrow
          have := q4 k hk hkq
          unfold PastAbove at this; unfold InRow at hrow
          omega)
      rw [b1]
      exact ⟨b, q, rfl, q2, q4, b2⟩
  · rw [if_neg h0]
    refine ⟨false, pa, rfl, hpa, hp, ?_⟩
    simp only [Bool.false_eq_true, false_iff]
    rintro ⟨k, hk, h1, _⟩
    unfold InRow at h1
    have := hnn k hk
    omega

/-! ## Below -/

/-- Corner `k` cannot be below the corner `pos`, nor below any that follows. -/
def PastBelow (pos d : Corner) : Prop := d.y < pos.y + 1 ∨ (d.y = pos.y + 1 ∧ d.x < pos.x - 1)

theorem skipBelow_ok {pos : Corner} :
    ∀ (m pb : Nat), m = cs.length - pb → pb ≤ cs.length →
      (∀ k (h : k < cs.length), k < pb → PastBelow pos cs[k]) →
      skipBelow cs pos pb ≤ cs.length ∧
        (∀ k (h : k < cs.length), k < skipBelow cs pos pb → PastBelow pos cs[k]) := by
  intro m
  induction m with
  | zero =>
    intro pb hm hle hp
    rw [skipBelow, dif_neg (by omega)]
    exact ⟨hle, hp⟩
  | succ m ih =>
    intro pb hm hle hp
    have hpb : pb < cs.length := by omega
    rw [skipBelow, dif_pos hpb]
    by_cases hc : cs[pb].y = pos.y + 1 ∧ cs[pb].x < pos.x - 1
    · rw [if_pos hc]
      refine ih (pb + 1) (by omega) (by omega) ?_
      intro k hk hkp
      by_cases hkpb : k = pb
      · subst hkpb
        exact Or.inr hc
      · exact hp k hk (by omega)
    · rw [if_neg hc]
      exact ⟨hle, hp⟩

theorem scanBelow_ok (hr : Raster cs) {pos : Corner} :
    ∀ (m j : Nat), m = cs.length - j → (∀ h : j < cs.length, pos.y + 1 ≤ cs[j].y) →
      (∀ k (h : k < cs.length), k < j → InRow pos 1 cs[k] → cs[k].score < pos.score) →
      (scanBelow cs pos j = true ↔ Beats cs pos (InRow pos 1)) := by
  intro m
  induction m with
  | zero =>
    intro j hm hy hp
    rw [scanBelow, dif_neg (by omega)]
    simp only [Bool.false_eq_true, false_iff]
    rintro ⟨k, hk, h1, h2⟩
    have := hp k hk (by omega) h1
    omega
  | succ m ih =>
    intro j hm hy hp
    have hj : j < cs.length := by omega
    have hy' := hy hj
    rw [scanBelow, dif_pos hj]
    by_cases hc : cs[j].y = pos.y + 1 ∧ cs[j].x ≤ pos.x + 1
    · rw [if_pos hc]
      by_cases hb : (cs[j].x = pos.x - 1 ∨ cs[j].x = pos.x ∨ cs[j].x = pos.x + 1) ∧ cs[j].score ≥ pos.score
      · rw [if_pos hb]
        simp only [true_iff]
        exact ⟨j, hj, ⟨by omega, by omega, by omega⟩, hb.2⟩
      · rw [if_neg hb]
        refine ih (j + 1) (by omega) ?_ ?_
        · intro h1
          have := hr.lt h1 (i := j) (by omega)
          omega
        · intro k hk hkj hrow
          by_cases hkj2 : k = j
          · subst hkj2
            unfold InRow at hrow
            omega
          · exact hp k hk (by omega) hrow
    · rw [if_neg hc]
      simp only [Bool.false_eq_true, false_iff]
      rintro ⟨k, hk, h1, h2⟩
      by_cases hkj : k < j
      · have := hp k hk hkj h1; omega
      · unfold InRow at h1
        by_cases hkj2 : k = j
        · subst hkj2; omega
        · have := hr.lt hk (i := j) (by omega)
          omega

theorem nmBelow_ok (hr : Raster cs) {rs : List Int} {lastRow : Int} (hrs : RowStartOk cs rs lastRow)
    (hlast : ∀ k (h : k < cs.length), cs[k].y ≤ lastRow)
    {pos : Corner} (hy0 : 0 ≤ pos.y) (hyl : pos.y ≤ lastRow) {pb : Nat} (hpb : pb ≤ cs.length)
    (hp : ∀ k (h : k < cs.length), k < pb → PastBelow pos cs[k]) :
    ∃ b pb', nmBelow cs rs lastRow pos pb = .ok (b, pb') ∧ pb' ≤ cs.length ∧
      (∀ k (h : k < cs.length), k < pb' → PastBelow pos cs[k]) ∧
      (b = true ↔ Beats cs pos (InRow pos 1)) := by
  unfold nmBelow
  by_cases h0 : pos.y ≠ lastRow
  · rw [if_pos h0]
    obtain ⟨v, v1, v2⟩ := hrs (pos.y + 1) (by omega) (by omega)
    rw [v1]
    simp only [Res.ok_bind]
    by_cases hc : v ≠ -1 ∧ pb < cs.length
    · rw [if_pos hc]
      rcases v2 with ⟨hv, hno⟩ | ⟨s, hs, hv, hsy, hsk⟩
      · omega
      · unfold resetBelow
        rw [readAt_ok hc.2]
        simp only [Res.ok_bind, Res.pure_eq]
        have hex : ∃ p, (if cs[pb].y < pos.y + 1 then v.toNat else pb) = p ∧ ∃ hp : p < cs.length,
            pos.y + 1 ≤ cs[p].y ∧
            (∀ k (h : k < cs.length), k < p → PastBelow pos cs[k]) := by
          split
          · refine ⟨s, by omega, hs, by omega, ?_⟩
            intro k hk hks
            exact Or.inl (hsk k hk hks)
          · exact ⟨pb, rfl, hc.2, by omega, hp⟩
        obtain ⟨p, p1, p2, p3, p4⟩ := hex
        rw [p1]
        obtain ⟨q2, q4⟩ := skipBelow_ok (pos := pos) _ p rfl (by omega) p4
        refine ⟨_, _, rfl, q2, q4, ?_⟩
        refine scanBelow_ok hr _ _ rfl ?_ ?_
        · intro hql
          by_cases hqp : skipBelow cs pos p < p
          · exact absurd hqp (by
              have : ∀ (m p : Nat), m = cs.length - p → p ≤ skipBelow cs pos p := by
                intro m
                induction m with
                | zero => intro p hm; rw [skipBelow, dif_neg (by omega)]; exact Nat.le_refl _
                | succ m ih =>
                  intro p hm
                  rw [skipBelow, dif_pos (by omega)]
                  split
                  · have := ih (p + 1) (by omega); omega
                  · exact Nat.le_refl _
              have := this _ p rfl
              omega)
          · by_cases hqp2 : skipBelow cs pos p = p
            · simp only [hqp2]; exact p3
            · have := hr.lt hql (i := p) (by omega)
              omega
        · intro k hk hkq hrow
          have := q4 k hk hkq
          unfold PastBelow at this; unfold InRow at hrow
          omega
    · rw [if_neg hc]
      refine ⟨false, pb, rfl, hpb, hp, ?_⟩
      simp only [Bool.false_eq_true, false_iff]
      rintro ⟨k, hk, h1, _⟩
      rcases v2 with ⟨hv, hno⟩ | ⟨s, hs, hv, hsy, hsk⟩
      · exact hno k hk h1.1
      · have := hp k hk (by omega)
        unfold PastBelow at this; unfold InRow at h1
        omega
  · rw [if_neg h0]
    refine ⟨false, pb, rfl, hpb, hp, ?_⟩
    simp only [Bool.false_eq_true, false_iff]
    rintro ⟨k, hk, h1, _⟩
    unfold InRow at h1
    have := hlast k hk
    omega

/-! ## The loop -/

theorem localMax_iff {i : Nat} (hi : i < cs.length) :
    LocalMax cs cs[i] ↔
      ¬ Beats cs cs[i] (fun d => d.y = cs[i].y ∧ d.x = cs[i].x - 1) ∧
      ¬ Beats cs cs[i] (fun d => d.y = cs[i].y ∧ d.x = cs[i].x + 1) ∧
      ¬ Beats cs cs[i] (InRow cs[i] (-1)) ∧ ¬ Beats cs cs[i] (InRow cs[i] 1) := by
  constructor
  · intro h
    refine ⟨?_, ?_, ?_, ?_⟩ <;>
    · rintro ⟨k, hk, h1, h2⟩
      try unfold InRow at h1
      have := h _ (List.getElem_mem hk) (by unfold Neighbour; omega)
      omega
  · rintro ⟨a, b, c, d⟩ e he hn
    obtain ⟨k, hk, rfl⟩ := List.getElem_of_mem he
    apply Classical.byContradiction
    intro hs
    unfold Neighbour at hn
    by_cases h1 : cs[k].y = cs[i].y
    · by_cases h2 : cs[k].x = cs[i].x - 1
      · exact a ⟨k, hk, ⟨h1, h2⟩, by omega⟩
      · exact b ⟨k, hk, ⟨h1, by omega⟩, by omega⟩
    · by_cases h2 : cs[k].y = cs[i].y - 1
      · exact c ⟨k, hk, ⟨by omega, by omega, by omega⟩, by omega⟩
      · exact d ⟨k, hk, ⟨by omega, by omega, by omega⟩, by omega⟩

theorem nmBody_ok (hr : Raster cs) (hnn : ∀ k (h : k < cs.length), 0 ≤ cs[k].y) {rs : List Int} {lastRow : Int}
    (hrs : RowStartOk cs rs lastRow) (hlast : ∀ k (h : k < cs.length), cs[k].y ≤ lastRow)
    {i : Nat} (hi : i < cs.length) {pa pb : Nat} (hpa : pa ≤ i) (hpb : pb ≤ cs.length)
    (hp : ∀ k (h : k < cs.length), k < pa → PastAbove cs[i] cs[k])
    (hq : ∀ k (h : k < cs.length), k < pb → PastBelow cs[i] cs[k]) :
    ∃ pa' pb', nmBody cs rs lastRow i pa pb = .ok (decide (LocalMax cs cs[i]), pa', pb') ∧
      pa' ≤ i ∧ pb' ≤ cs.length ∧ (∀ k (h : k < cs.length), k < pa' → PastAbove cs[i] cs[k]) ∧
      (∀ k (h : k < cs.length), k < pb' → PastBelow cs[i] cs[k]) := by
  unfold nmBody
  rw [readAt_ok hi]
  simp only [Res.ok_bind, Res.pure_eq]
  have hm := localMax_iff (cs := cs) hi
  obtain ⟨l, l1, l2⟩ := nmLeft_ok hr hi
  rw [l1]
  simp only [Res.ok_bind]
  cases l with
  | true =>
    have : ¬ LocalMax cs cs[i] := fun h => (hm.mp h).1 (l2.mp rfl)
    exact ⟨pa, pb, by simp [this], hpa, hpb, hp, hq⟩
  | false =>
    obtain ⟨r, r1, r2⟩ := nmRight_ok hr hi
    simp only [Bool.false_eq_true, if_false, r1, Res.ok_bind]
    cases r with
    | true =>
      have : ¬ LocalMax cs cs[i] := fun h => (hm.mp h).2.1 (r2.mp rfl)
      exact ⟨pa, pb, by simp [this], hpa, hpb, hp, hq⟩
    | false =>
      obtain ⟨a, pa', a1, a2, a3, a4⟩ := nmAbove_ok hr hnn hrs hi (hnn i hi) (hlast i hi) hpa hp
      simp only [Bool.false_eq_true, if_false, a1, Res.ok_bind]
      cases a with
      | true =>
        have : ¬ LocalMax cs cs[i] := fun h => (hm.mp h).2.2.1 (a4.mp rfl)
        exact ⟨pa', pb, by simp [this], a2, hpb, a3, hq⟩
      | false =>
        obtain ⟨b, pb', b1, b2, b3, b4⟩ := nmBelow_ok hr hrs hlast (hnn i hi) (hlast i hi) hpb hq
        simp only [Bool.false_eq_true, if_false, b1, Res.ok_bind]
        refine ⟨pa', pb', ?_, a2, b2, a3, b3⟩
        have : (!b) = decide (LocalMax cs cs[i]) := by
          rw [Bool.eq_iff_iff, decide_eq_true_eq, hm]
          cases b
          · simp only [Bool.not_false, true_iff]
            refine ⟨fun h => absurd (l2.mpr h) (by decide), fun h => absurd (r2.mpr h) (by decide),
              fun h => absurd (a4.mpr h) (by decide), fun h => absurd (b4.mpr h) (by decide)⟩
          · simp only [Bool.not_true, Bool.false_eq_true, false_iff]
            exact fun h => h.2.2.2 (b4.mp rfl)
        rw [this]

theorem nmLoop_ok (hr : Raster cs) (hnn : ∀ k (h : k < cs.length), 0 ≤ cs[k].y) {rs : List Int} {lastRow : Int}
    (hrs : RowStartOk cs rs lastRow) (hlast : ∀ k (h : k < cs.length), cs[k].y ≤ lastRow) :
    ∀ (m i pa pb room : Nat), m = cs.length - i → 0 < room → pa ≤ i → pb ≤ cs.length →
    (∀ (hi : i < cs.length) k (h : k < cs.length), k < pa → PastAbove cs[i] cs[k]) →
    (∀ (hi : i < cs.length) k (h : k < cs.length), k < pb → PastBelow cs[i] cs[k]) →
    nmLoop cs rs lastRow i pa pb room = .ok (((cs.drop i).filter (fun c => decide (LocalMax cs c))).take room) := by
  intro m
  induction m with
  | zero =>
    intro i pa pb room hm _ _ _ _ _
    rw [nmLoop, if_neg (by omega), List.drop_eq_nil_of_le (by omega)]
    simp
  | succ m ih =>
    intro i pa pb room hm hroom hpa hpb hp hq
    have hi : i < cs.length := by omega
    rw [nmLoop, if_pos hi, readAt_ok hi]
    obtain ⟨pa', pb', n1, n2, n3, n4, n5⟩ := nmBody_ok hr hnn hrs hlast hi hpa hpb (hp hi) (hq hi)
    rw [n1]
    simp only [Res.ok_bind, Res.pure_eq]
    have hA : ∀ (hi : i + 1 < cs.length) k (h : k < cs.length), k < pa' → PastAbove cs[i + 1] cs[k] := by
      intro hi1 k hk hkp
      have a := n4 k hk hkp
      have b := hr.lt hi1 (i := i) (by omega)
      unfold PastAbove at a ⊢
      omega
    have hB : ∀ (hi : i + 1 < cs.length) k (h : k < cs.length), k < pb' → PastBelow cs[i + 1] cs[k] := by
      intro hi1 k hk hkp
      have a := n5 k hk hkp
      have b := hr.lt hi1 (i := i) (by omega)
      unfold PastBelow at a ⊢
      omega
    rw [List.drop_eq_getElem_cons hi, List.filter_cons]
    by_cases hmx : LocalMax cs cs[i]
    · simp only [hmx, decide_true, if_true]
      by_cases h1 : room = 1
      · subst h1
        simp
      · rw [if_neg h1, ih (i + 1) pa' pb' (room - 1) (by omega) (by omega) (by omega) n3 hA hB]
        obtain ⟨r, rfl⟩ : ∃ r, room = r + 1 := ⟨room - 1, by omega⟩
        simp
    · simp only [hmx, decide_false, Bool.false_eq_true, if_false]
      exact ih (i + 1) pa' pb' room (by omega) hroom (by omega) n3 hA hB

/-! ## The row table -/

/-- The row table after the first `i` corners. -/
def RowInv (cs : List Corner) (i : Nat) (rs : List Int) : Prop :=
  ∀ y : Nat, ∀ h : y < rs.length,
    (rs[y] = -1 ∧ ∀ k (hk : k < cs.length), k < i → cs[k].y ≠ y) ∨
    (∃ s, ∃ hs : s < cs.length, s < i ∧ rs[y] = (s : Int) ∧ cs[s].y = y ∧
      ∀ k (hk : k < cs.length), k < s → cs[k].y < y)

theorem rowStartLoop_ok (hr : Raster cs) (hnn : ∀ k (h : k < cs.length), 0 ≤ cs[k].y) :
    ∀ (m i : Nat) (prev : Int) (rs : List Int), m = cs.length - i → i ≤ cs.length →
    (∀ k (h : k < cs.length), cs[k].y < rs.length) →
    (i = 0 ∧ prev = -1 ∨ ∃ h : i - 1 < cs.length, 0 < i ∧ prev = cs[i - 1].y) → RowInv cs i rs →
    ∃ rs', rowStartLoop (cs.drop i) i prev rs = .ok rs' ∧ rs'.length = rs.length ∧ RowInv cs cs.length rs' := by
  intro m
  induction m with
  | zero =>
    intro i prev rs hm hle hl hpv hinv
    have : i = cs.length := by omega
    subst this
    rw [List.drop_eq_nil_of_le (Nat.le_refl _), rowStartLoop]
    exact ⟨rs, rfl, rfl, hinv⟩
  | succ m ih =>
    intro i prev rs hm hle hl hpv hinv
    have hi : i < cs.length := by omega
    rw [List.drop_eq_getElem_cons hi, rowStartLoop]
    have hm1 : m = cs.length - (i + 1) := by clear hpv; omega
    have hyi := hnn i hi
    have hli := hl i hi
    by_cases hc : cs[i].y ≠ prev
    · rw [if_pos hc, if_pos hyi, writeAt_ok _ (show cs[i].y.toNat < rs.length by omega)]
      simp only [Res.ok_bind]
      obtain ⟨rs', g1, g2, g3⟩ := ih (i + 1) cs[i].y (rs.set cs[i].y.toNat i) hm1 (by omega)
        (by simpa using hl) (Or.inr ⟨by simpa using hi, by omega, by simp⟩) (by
          intro y hy
          rw [List.getElem_set]
          split
          · rename_i hyy
            right
            refine ⟨i, hi, by omega, rfl, by omega, ?_⟩
            intro k hk hki
            rcases hpv with ⟨h0, _⟩ | ⟨hq, h0, hpv⟩
            · omega
            · have h2 := hr.lt hi (i := i - 1) (by omega)
              by_cases hki1 : k = i - 1
              · subst hki1; omega
              · have h1 := hr.lt hq (i := k) (by omega)
                omega
          · rename_i hyy
            rw [List.length_set] at hy
            rcases hinv y hy with ⟨h1, h2⟩ | ⟨s, hs, hsi, h3, h4⟩
            · left
              refine ⟨h1, ?_⟩
              intro k hk hki
              by_cases hki1 : k = i
              · subst hki1; omega
              · exact h2 k hk (by omega)
            · exact Or.inr ⟨s, hs, by omega, h3, h4⟩)
      exact ⟨rs', g1, by simpa using g2, g3⟩
    · rw [if_neg hc]
      have hc' : cs[i].y = prev := by omega
      refine ih (i + 1) prev rs hm1 (by omega) hl
        (Or.inr ⟨by simpa using hi, by omega, by simpa using hc'.symm⟩) ?_
      intro y hy
      rcases hinv y hy with ⟨h1, h2⟩ | ⟨s, hs, hsi, h3, h4⟩
      · left
        refine ⟨h1, ?_⟩
        intro k hk hki
        by_cases hki1 : k = i
        · subst hki1
          rcases hpv with ⟨h0, hpv⟩ | ⟨hq, h0, hpv⟩
          · omega
          · have := h2 (k - 1) hq (by omega)
            omega
        · exact h2 k hk (by omega)
      · exact Or.inr ⟨s, hs, by omega, h3, h4⟩

/-- C42. For corners in raster order with rows from 0 on, suppression returns, in
order, the corners none of whose eight neighbouring corners has a score greater or
equal, cut to the number asked for. It reads only inside the corner list and the row
table (the model yields `ub` otherwise). -/
theorem c42_nonmax (cs : List Corner) (limit : Int) (hr : Raster cs) (hnn : ∀ c ∈ cs, 0 ≤ c.y) :
    nonmax cs limit = .ok ((cs.filter (fun c => decide (LocalMax cs c))).take limit.toNat) := by
  unfold nonmax
  by_cases h0 : (cs.length : Int) < 1 ∨ limit ≤ 0
  · rw [if_pos h0]
    rcases h0 with h | h
    · have : cs = [] := List.eq_nil_of_length_eq_zero (by omega)
      subst this
      simp
    · have : limit.toNat = 0 := by omega
      simp [this]
  · rw [if_neg h0]
    have hl : cs.length - 1 < cs.length := by omega
    have hnn' : ∀ k (h : k < cs.length), 0 ≤ cs[k].y := fun k h => hnn _ (List.getElem_mem h)
    rw [readAt_ok hl]
    simp only [Res.ok_bind]
    have hlast : ∀ k (h : k < cs.length), cs[k].y ≤ cs[cs.length - 1].y := by
      intro k hk
      by_cases hkl : k = cs.length - 1
      · subst hkl; exact Int.le_refl _
      · have := hr.lt hl (i := k) (by omega)
        omega
    have hlen : (List.replicate (cs[cs.length - 1].y + 1).toNat (-1 : Int)).length = (cs[cs.length - 1].y + 1).toNat := by simp
    obtain ⟨rs, g1, g2, g3⟩ := rowStartLoop_ok hr hnn' _ 0 (-1)
      (List.replicate (cs[cs.length - 1].y + 1).toNat (-1)) rfl (by omega)
      (by intro k hk; rw [hlen]; have := hlast k hk; have := hnn' k hk; omega)
      (Or.inl ⟨rfl, rfl⟩) (by
        intro y hy
        left
        refine ⟨by simp, ?_⟩
        intro k hk hk0; omega)
    rw [List.drop_zero] at g1
    rw [g1]
    simp only [Res.ok_bind]
    have hfin := nmLoop_ok hr hnn' (rs := rs) (lastRow := cs[cs.length - 1].y) (by
      intro y hy0 hyl
      rw [hlen] at g2
      have hylt : y.toNat < rs.length := by omega
      refine ⟨rs[y.toNat], ?_, ?_⟩
      · unfold rowAt
        rw [if_pos hy0, readAt_ok hylt]
      · have hcast : ((y.toNat : Nat) : Int) = y := by omega
        rcases g3 y.toNat hylt with ⟨h1, h2⟩ | ⟨s, hs, _, h3, h4, h5⟩
        · left
          refine ⟨h1, ?_⟩
          intro k hk
          have := h2 k hk hk
          omega
        · right
          refine ⟨s, hs, h3, by omega, ?_⟩
          intro k hk hks
          have := h5 k hk hks
          omega) hlast _ 0 0 0 limit.toNat rfl (by omega) (Nat.le_refl _) (by omega)
      (by intro _ k _ h; omega) (by intro _ k _ h; omega)
    rw [hfin, List.drop_zero]

/-- A plateau of two equal neighbours loses both, isolated corners stay. -/
example : nonmax [⟨2, 0, 5⟩, ⟨1, 1, 7⟩, ⟨5, 1, 3⟩, ⟨6, 1, 3⟩, ⟨9, 3, 1⟩] 10 = .ok [⟨1, 1, 7⟩, ⟨9, 3, 1⟩] ∧
    Raster [⟨2, 0, 5⟩, ⟨1, 1, 7⟩, ⟨5, 1, 3⟩, ⟨6, 1, 3⟩, ⟨9, 3, 1⟩] := by
  constructor
  · decide +kernel
  · unfold Raster; decide +kernel

end
end Nx
