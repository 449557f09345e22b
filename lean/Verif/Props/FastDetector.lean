import Verif.Spec.FastDetector
import Verif.Model.FastDetector
import Verif.Lemmas.Sample
import Mathlib.Algebra.BigOperators.Group.Finset.Piecewise
import Mathlib.Algebra.Order.BigOperators.Group.List
import Mathlib.Tactic.Linarith
import Mathlib.Algebra.BigOperators.Ring.Finset
import Mathlib.Tactic.Ring

/-! # C95: the FAST detector returns the maxima of all levels, with the orientation of their patches -/

namespace Nx

open scoped BigOperators

section Table

/-- Entries of row `j` up to column `i`. -/
def icRow (r j i : Nat) : List (Int × Int) :=
  (List.range i).flatMap (fun (i : Nat) =>
    if ((i : Int) - r) * ((i : Int) - r) + ((j : Int) - r) * ((j : Int) - r) < r * r then [((i : Int) - r, (j : Int) - r)] else [])

/-- Entries of the rows before `j`. -/
def icRows (r j : Nat) : List (Int × Int) := (List.range j).flatMap (fun j => icRow r j (2 * r))

theorem icRow_succ (r j i : Nat) : icRow r j (i + 1) = icRow r j i ++
    (if ((i : Int) - r) * ((i : Int) - r) + ((j : Int) - r) * ((j : Int) - r) < r * r then [((i : Int) - r, (j : Int) - r)] else []) := by
  unfold icRow
  rw [List.range_succ, List.flatMap_append]
  simp

theorem icRows_succ (r j : Nat) : icRows r (j + 1) = icRows r j ++ icRow r j (2 * r) := by
  unfold icRows
  rw [List.range_succ, List.flatMap_append]
  simp

theorem icRow_mono (r j : Nat) {i i' : Nat} (h : i ≤ i') : ∃ t, icRow r j i' = icRow r j i ++ t := by
  induction i' with
  | zero => exact ⟨[], by rw [show i = 0 by omega]; simp⟩
  | succ k ih =>
    by_cases hk : i ≤ k
    · obtain ⟨t, ht⟩ := ih hk
      exact ⟨t ++ _, by rw [icRow_succ, ht, List.append_assoc]⟩
    · exact ⟨[], by rw [show i = k + 1 by omega]; simp⟩

theorem icRows_mono (r : Nat) {j j' : Nat} (h : j ≤ j') : ∃ t, icRows r j' = icRows r j ++ t := by
  induction j' with
  | zero => exact ⟨[], by rw [show j = 0 by omega]; simp⟩
  | succ k ih =>
    by_cases hk : j ≤ k
    · obtain ⟨t, ht⟩ := ih hk
      exact ⟨t ++ _, by rw [icRows_succ, ht, List.append_assoc]⟩
    · exact ⟨[], by rw [show j = k + 1 by omega]; simp⟩

theorem icRow_length (r j i : Nat) : (icRow r j i).length ≤ i := by
  induction i with
  | zero => simp [icRow]
  | succ k ih =>
    rw [icRow_succ, List.length_append]
    split <;> simp <;> omega

theorem icRows_length (r j : Nat) : (icRows r j).length ≤ j * (2 * r) := by
  induction j with
  | zero => simp [icRows]
  | succ k ih =>
    rw [icRows_succ, List.length_append]
    have := icRow_length r k (2 * r)
    have e : (k + 1) * (2 * r) = k * (2 * r) + 2 * r := by ring
    omega

theorem mem_icRow {r j i : Nat} {p : Int × Int} : p ∈ icRow r j i ↔
    p.1 * p.1 + p.2 * p.2 < r * r ∧ p.2 = (j : Int) - r ∧ -(r : Int) ≤ p.1 ∧ p.1 < (i : Int) - r := by
  unfold icRow
  rw [List.mem_flatMap]
  constructor
  · rintro ⟨k, hk, hp⟩
    rw [List.mem_range] at hk
    split at hp
    · rename_i hc
      simp only [List.mem_singleton] at hp
      subst hp
      exact ⟨hc, rfl, by simp only; omega, by simp only; omega⟩
    · simp at hp
  · rintro ⟨h1, h2, h3, h4⟩
    refine ⟨(p.1 + r).toNat, by rw [List.mem_range]; omega, ?_⟩
    have e : (((p.1 + r).toNat : Nat) : Int) - r = p.1 := by omega
    rw [e, ← h2, if_pos h1]
    simp

theorem mem_icRows {r j : Nat} {p : Int × Int} : p ∈ icRows r j ↔
    p.1 * p.1 + p.2 * p.2 < r * r ∧ -(r : Int) ≤ p.2 ∧ p.2 < (j : Int) - r ∧ -(r : Int) ≤ p.1 ∧ p.1 < r := by
  unfold icRows
  rw [List.mem_flatMap]
  constructor
  · rintro ⟨k, hk, hp⟩
    rw [List.mem_range] at hk
    rw [mem_icRow] at hp
    obtain ⟨h1, h2, h3, h4⟩ := hp
    exact ⟨h1, by omega, by omega, h3, by push_cast at h4; omega⟩
  · rintro ⟨h1, h2, h3, h4, h5⟩
    refine ⟨(p.2 + r).toNat, by rw [List.mem_range]; omega, ?_⟩
    rw [mem_icRow]
    exact ⟨h1, by omega, h4, by push_cast; omega⟩

theorem icRow_nodup (r j i : Nat) : (icRow r j i).Nodup := by
  induction i with
  | zero => simp [icRow]
  | succ k ih =>
    rw [icRow_succ]
    split
    · rw [List.nodup_append]
      refine ⟨ih, by simp, ?_⟩
      intro a ha b hb
      rw [mem_icRow] at ha
      simp only [List.mem_singleton] at hb
      subst hb
      rintro rfl
      simp only at ha
      omega
    · simpa using ih

theorem icRows_nodup (r j : Nat) : (icRows r j).Nodup := by
  induction j with
  | zero => simp [icRows]
  | succ k ih =>
    rw [icRows_succ, List.nodup_append]
    refine ⟨ih, icRow_nodup _ _ _, ?_⟩
    intro a ha b hb
    rw [mem_icRow] at hb
    rw [mem_icRows] at ha
    rintro rfl
    omega

theorem sq_le_of {r : Nat} {a : Int} (h : -(r : Int) ≤ a) (h2 : a ≤ r) : a * a ≤ r * r := by nlinarith

theorem icTest_ok {r : Nat} (hr : 2 * (r * r) ≤ 2147483647) {x y : Int} (hx : -(r : Int) ≤ x) (hx2 : x ≤ r)
    (hy : -(r : Int) ≤ y) (hy2 : y ≤ r) : icTest r x y = .ok (decide (x * x + y * y < r * r)) := by
  have h1 := sq_le_of hx hx2
  have h2 := sq_le_of hy hy2
  have h3 : 0 ≤ x * x := mul_self_nonneg x
  have h4 : 0 ≤ y * y := mul_self_nonneg y
  have h5 : (2 * ((r : Int) * r)) ≤ 2147483647 := by exact_mod_cast hr
  have h6 : 0 ≤ (r : Int) * r := mul_self_nonneg _
  unfold icTest InI32
  rw [if_pos (by omega)]

theorem icCount_ok {r : Nat} (hr : 8 * (r * r) ≤ 2147483647) : icCount r = .ok (icRows r (2 * r)).length := by
  unfold icCount
  obtain ⟨s, hs, h⟩ := forLoop_spec (fun j (n : Nat) => n = (icRows r j).length) (n := 2 * r) (i0 := 0) (s := 0)
    (body := fun j n => forLoop (2 * r) (fun i n => do
      let t ← icTest r ((i : Int) - r) ((j : Int) - r)
      if t then (if InI32 (n + 1) then pure (n + 1) else .ub) else pure n) 0 n) (by omega) (by simp [icRows]) (by
    intro j n _ hj hn
    obtain ⟨s, hs, h⟩ := forLoop_spec (fun i (n : Nat) => n = (icRows r j).length + (icRow r j i).length)
      (n := 2 * r) (i0 := 0) (s := n)
      (body := fun i n => do
        let t ← icTest r ((i : Int) - r) ((j : Int) - r)
        if t then (if InI32 (n + 1) then pure (n + 1) else .ub) else pure n) (by omega)
      (by rw [hn]; simp [icRow]) (by
      intro i n _ hi hn
      rw [icTest_ok (by omega) (by omega) (by omega) (by omega) (by omega)]
      simp only [Res.ok_bind]
      have l1 := icRows_length r j
      have l2 := icRow_length r j i
      have l3 : j * (2 * r) ≤ (2 * r) * (2 * r) := Nat.mul_le_mul_right _ (by omega)
      have l4 : (2 * r) * (2 * r) = 4 * (r * r) := by ring
      have l5 : r ≤ r * r := Nat.le_mul_self r
      by_cases hc : ((i : Int) - r) * ((i : Int) - r) + ((j : Int) - r) * ((j : Int) - r) < r * r
      · rw [if_pos (by simpa using hc), if_pos (by unfold InI32; omega)]
        refine ⟨_, rfl, ?_⟩
        rw [icRow_succ, if_pos hc, List.length_append, hn]
        simp; omega
      · rw [if_neg (by simpa using hc)]
        refine ⟨_, rfl, ?_⟩
        rw [icRow_succ, if_neg hc, hn]
        simp)
    refine ⟨s, hs, ?_⟩
    rw [h, icRows_succ, List.length_append])
  rw [hs, h]

theorem icFill_ok {r : Nat} (hr : 8 * (r * r) ≤ 2147483647) :
    icFill r (icRows r (2 * r)).length = .ok ((icRows r (2 * r)).length, icRows r (2 * r)) := by
  generalize hN : (icRows r (2 * r)).length = N
  unfold icFill
  obtain ⟨s, hs, h⟩ := forLoop_spec
    (fun j (s : Nat × List (Int × Int)) => s.1 = (icRows r j).length ∧
      s.2 = icRows r j ++ List.replicate (N - (icRows r j).length) (0, 0))
    (n := 2 * r) (i0 := 0) (s := (0, List.replicate N (0, 0)))
    (body := fun j s => forLoop (2 * r) (fun i s => do
      let t ← icTest r ((i : Int) - r) ((j : Int) - r)
      if t then do
        let tab ← writeAt s.2 s.1 ((i : Int) - r, (j : Int) - r)
        pure (s.1 + 1, tab)
      else pure s) 0 s) (by omega) (by simp [icRows]) (by
    intro j s _ hj hs
    obtain ⟨s', hs', h⟩ := forLoop_spec
      (fun i (s : Nat × List (Int × Int)) => s.1 = (icRows r j ++ icRow r j i).length ∧
        s.2 = (icRows r j ++ icRow r j i) ++ List.replicate (N - (icRows r j ++ icRow r j i).length) (0, 0))
      (n := 2 * r) (i0 := 0) (s := s)
      (body := fun i s => do
        let t ← icTest r ((i : Int) - r) ((j : Int) - r)
        if t then do
          let tab ← writeAt s.2 s.1 ((i : Int) - r, (j : Int) - r)
          pure (s.1 + 1, tab)
        else pure s) (by omega)
      (by have e : icRow r j 0 = [] := by simp [icRow]
          rw [e, List.append_nil]; exact hs) (by
      intro i s _ hi hs
      rw [icTest_ok (by omega) (by omega) (by omega) (by omega) (by omega)]
      simp only [Res.ok_bind]
      by_cases hc : ((i : Int) - r) * ((i : Int) - r) + ((j : Int) - r) * ((j : Int) - r) < r * r
      · rw [if_pos (by simpa using hc)]
        obtain ⟨t1, ht1⟩ := icRow_mono r j (i := i + 1) (i' := 2 * r) (by omega)
        obtain ⟨t2, ht2⟩ := icRows_mono r (j := j + 1) (j' := 2 * r) (by omega)
        have hlen : (icRows r j ++ icRow r j i).length < N := by
          rw [← hN, ht2, icRows_succ, ht1, icRow_succ, if_pos hc]
          simp only [List.length_append, List.length_singleton]
          omega
        have hl : s.2.length = N := by
          rw [hs.2, List.length_append, List.length_replicate]; omega
        rw [writeAt_ok _ (by rw [hl, hs.1]; exact hlen)]
        simp only [Res.ok_bind]
        refine ⟨_, rfl, ?_, ?_⟩
        · simp only
          rw [hs.1, icRow_succ, if_pos hc]
          simp only [List.length_append, List.length_singleton]
          omega
        · simp only
          rw [hs.1, hs.2, List.set_append_right _ _ (by omega), Nat.sub_self]
          have e : N - (icRows r j ++ icRow r j i).length = (N - (icRows r j ++ icRow r j (i + 1)).length) + 1 := by
            rw [icRow_succ, if_pos hc]
            simp only [List.length_append, List.length_singleton] at hlen ⊢
            omega
          rw [e, List.replicate_succ, List.set_cons_zero, icRow_succ, if_pos hc]
          simp
      · rw [if_neg (by simpa using hc)]
        refine ⟨_, rfl, ?_⟩
        rw [icRow_succ, if_neg hc, List.append_nil]
        exact hs)
    refine ⟨s', hs', ?_⟩
    rw [icRows_succ]
    exact h)
  rw [hs]
  obtain ⟨h1, h2⟩ := h
  rw [hN, Nat.sub_self, List.replicate_zero, List.append_nil] at h2
  rw [hN] at h1
  rw [← h1, ← h2]

/-- The table of offsets is the open disc, every point once; the second loop writes exactly the
entries that the first has counted. -/
theorem c95_table (r : Nat) (hr : 8 * (r * r) ≤ 2147483647) :
    ∃ t, icDataNew r = .ok ⟨r, t⟩ ∧ t.Nodup ∧ t.toFinset = disc r ∧
      ∀ p : Int × Int, p ∈ t ↔ p.1 ^ 2 + p.2 ^ 2 < (r : Int) ^ 2 := by
  have hm : ∀ p : Int × Int, p ∈ icRows r (2 * r) ↔ p.1 ^ 2 + p.2 ^ 2 < (r : Int) ^ 2 := by
    intro p
    rw [mem_icRows]
    constructor
    · intro h
      have := h.1
      nlinarith
    · intro h
      have h1 : -(r : Int) < p.1 ∧ p.1 < r := by
        constructor <;> nlinarith [sq_nonneg p.2]
      have h2 : -(r : Int) < p.2 ∧ p.2 < r := by
        constructor <;> nlinarith [sq_nonneg p.1]
      refine ⟨by nlinarith, by omega, by push_cast; omega, by omega, by omega⟩
  refine ⟨icRows r (2 * r), ?_, icRows_nodup _ _, ?_, hm⟩
  · unfold icDataNew
    rw [icCount_ok hr]
    simp only [Res.ok_bind]
    have l1 := icRows_length r (2 * r)
    have l4 : (2 * r) * (2 * r) = 4 * (r * r) := by ring
    rw [if_pos (by unfold InI32; omega), icFill_ok hr]
    rfl
  · ext p
    rw [List.mem_toFinset, hm]
    unfold disc
    rw [Finset.mem_filter, Finset.mem_product, Finset.mem_Icc, Finset.mem_Icc]
    constructor
    · intro h
      have h1 : -(r : Int) < p.1 ∧ p.1 < r := by
        constructor <;> nlinarith [sq_nonneg p.2]
      have h2 : -(r : Int) < p.2 ∧ p.2 < r := by
        constructor <;> nlinarith [sq_nonneg p.1]
      exact ⟨⟨⟨by omega, by omega⟩, by omega, by omega⟩, h⟩
    · exact fun h => h.2

example : icDataNew 2 = .ok ⟨2, [(-1, -1), (0, -1), (1, -1), (-1, 0), (0, 0), (1, 0), (-1, 1), (0, 1), (1, 1)]⟩ := by
  decide +kernel

end Table

section Moments

theorem makeOffsets_gen {st : Nat} : ∀ (t : List (Int × Int)),
    (∀ o ∈ t, InI32 ((st : Int) * o.2) ∧ InI32 (o.1 + st * o.2)) →
    makeOffsets st t = .ok (t.map (fun o => o.1 + st * o.2)) := by
  intro t
  induction t with
  | nil => intro _; rfl
  | cons o t ih =>
    obtain ⟨dx, dy⟩ := o
    intro h
    rw [makeOffsets, if_pos (h _ List.mem_cons_self), ih (fun o ho => h o (List.mem_cons_of_mem _ ho))]
    rfl

/-- Sums over the first `i` entries stay small. -/
theorem sum_take_bound (t : List (Int × Int)) (f : Int × Int → Int) (B : Int) (hf : ∀ p ∈ t, -B ≤ f p ∧ f p ≤ B)
    (i : Nat) (hi : i ≤ t.length) : -(B * i) ≤ ((t.take i).map f).sum ∧ ((t.take i).map f).sum ≤ B * i := by
  induction i with
  | zero => simp
  | succ k ih =>
    have hk : k < t.length := by omega
    obtain ⟨h1, h2⟩ := ih (by omega)
    obtain ⟨h3, h4⟩ := hf t[k] (List.getElem_mem hk)
    rw [List.take_succ_eq_append_getElem hk, List.map_append, List.sum_append]
    push_cast
    simp only [List.map_cons, List.map_nil, List.sum_cons, List.sum_nil]
    constructor <;> nlinarith

theorem brightness_read {img : UcImage} (hw : img.Wf) {x y : Int} (hx : 0 ≤ x) (hx2 : x < img.width) (hy : 0 ≤ y)
    (hy2 : y < img.height) : ∃ v : UInt8, readI img.data (y * img.stride + x) = .ok v ∧ brightness img x y = v.toNat := by
  obtain ⟨xn, rfl⟩ := Int.eq_ofNat_of_zero_le hx
  obtain ⟨yn, rfl⟩ := Int.eq_ofNat_of_zero_le hy
  have hi : img.stride * yn + xn < img.data.length := by
    have h1 : img.stride * (yn + 1) ≤ img.stride * img.height := Nat.mul_le_mul_left _ (by omega)
    have h2 := hw.1
    have h3 := hw.2
    rw [Nat.mul_add, Nat.mul_one] at h1
    omega
  refine ⟨img.data[img.stride * yn + xn], ?_, ?_⟩
  · unfold readI
    have e : ((yn : Int) * img.stride + xn) = ((img.stride * yn + xn : Nat) : Int) := by push_cast; ring
    rw [e, if_pos (by omega), Int.toNat_natCast, readAt_ok hi]
  · unfold brightness UcImage.pixel
    rw [if_pos ⟨hx, hx2, hy, hy2⟩, Int.toNat_natCast, Int.toNat_natCast, List.getElem?_eq_getElem hi]

theorem icMoments_ok {img : UcImage} (hw : img.Wf) {r : Nat} (hr : r ≤ 128) {t : List (Int × Int)}
    (hlen : t.length ≤ 4 * (r * r)) (ht : ∀ p ∈ t, -(r : Int) ≤ p.1 ∧ p.1 ≤ r ∧ -(r : Int) ≤ p.2 ∧ p.2 ≤ r)
    {x y : Int} (hx : (r : Int) ≤ x) (hx2 : x + r < img.width) (hy : (r : Int) ≤ y) (hy2 : y + r < img.height) :
    icMoments img.data (y * img.stride + x) (t.map (fun o => o.1 + img.stride * o.2)) t =
      .ok ((t.map (fun p => p.1 * brightness img (x + p.1) (y + p.2))).sum,
        (t.map (fun p => p.2 * brightness img (x + p.1) (y + p.2))).sum) := by
  have hb : ∀ p ∈ t, 0 ≤ brightness img (x + p.1) (y + p.2) ∧ brightness img (x + p.1) (y + p.2) ≤ 255 := by
    intro p hp
    obtain ⟨h1, h2, h3, h4⟩ := ht p hp
    obtain ⟨v, _, hv⟩ := brightness_read hw (x := x + p.1) (y := y + p.2) (by omega) (by omega) (by omega) (by omega)
    rw [hv]
    have := v.toNat_lt
    omega
  have hB : 1020 * ((r : Int) * (r * r)) ≤ 2147483647 := by
    have h1 : r * (r * r) ≤ 128 * (128 * 128) := Nat.mul_le_mul hr (Nat.mul_le_mul hr hr)
    have : ((r * (r * r) : Nat) : Int) ≤ 128 * (128 * 128) := by exact_mod_cast h1
    push_cast at this
    omega
  have bound : ∀ (g : Int × Int → Int), (∀ p ∈ t, -(r : Int) ≤ g p ∧ g p ≤ r) → ∀ i ≤ t.length,
      InI32 (((t.take i).map (fun p => g p * brightness img (x + p.1) (y + p.2))).sum) := by
    intro g hg i hi
    have h := sum_take_bound t (fun p => g p * brightness img (x + p.1) (y + p.2)) (255 * r) (by
      intro p hp
      obtain ⟨h1, h2⟩ := hb p hp
      obtain ⟨h3, h4⟩ := hg p hp
      constructor <;> nlinarith) i hi
    have hi2 : (i : Int) ≤ 4 * (r * r) := by exact_mod_cast (le_trans hi hlen)
    have h5 : 255 * (r : Int) * i ≤ 255 * r * (4 * (r * r)) := mul_le_mul_of_nonneg_left hi2 (by positivity)
    have h6 : 255 * (r : Int) * (4 * (r * r)) = 1020 * (r * (r * r)) := by ring
    unfold InI32
    omega
  have bound1 : ∀ (g : Int), (-(r : Int) ≤ g ∧ g ≤ r) → ∀ p ∈ t, InI32 (g * brightness img (x + p.1) (y + p.2)) := by
    intro g hg p hp
    obtain ⟨h1, h2⟩ := hb p hp
    have hr2 : (r : Int) ≤ 128 := by exact_mod_cast hr
    unfold InI32
    constructor <;> nlinarith
  unfold icMoments
  obtain ⟨s, hs, h⟩ := forLoop_spec
    (fun i (m : Int × Int) => m = (((t.take i).map (fun p => p.1 * brightness img (x + p.1) (y + p.2))).sum,
      ((t.take i).map (fun p => p.2 * brightness img (x + p.1) (y + p.2))).sum))
    (n := t.length) (i0 := 0) (s := ((0 : Int), (0 : Int)))
    (body := fun i m => do
      let o ← readAt (t.map (fun o => o.1 + (img.stride : Int) * o.2)) i
      let p ← readI img.data (y * img.stride + x + o)
      let tt ← readAt t i
      let m10 := m.1 + tt.1 * p.toNat
      let m01 := m.2 + tt.2 * p.toNat
      if InI32 (tt.1 * p.toNat) ∧ InI32 m10 ∧ InI32 (tt.2 * p.toNat) ∧ InI32 m01 then pure (m10, m01) else .ub)
    (by omega) (by simp) (by
    intro i m _ hi hm
    have hmem := List.getElem_mem hi
    obtain ⟨h1, h2, h3, h4⟩ := ht _ hmem
    obtain ⟨v, hv, hbv⟩ := brightness_read hw (x := x + t[i].1) (y := y + t[i].2) (by omega) (by omega) (by omega) (by omega)
    rw [readAt_ok (by rw [List.length_map]; exact hi)]
    simp only [Res.ok_bind, List.getElem_map]
    have e : (y * img.stride + x + (t[i].1 + img.stride * t[i].2) : Int) = (y + t[i].2) * img.stride + (x + t[i].1) := by ring
    rw [e, hv, readAt_ok hi]
    simp only [Res.ok_bind]
    have s1 := bound (fun p => p.1) (fun p hp => ⟨(ht p hp).1, (ht p hp).2.1⟩) (i + 1) (by omega)
    have s2 := bound (fun p => p.2) (fun p hp => ⟨(ht p hp).2.2.1, (ht p hp).2.2.2⟩) (i + 1) (by omega)
    have b1 := bound1 t[i].1 ⟨h1, h2⟩ _ hmem
    have b2 := bound1 t[i].2 ⟨h3, h4⟩ _ hmem
    rw [List.take_succ_eq_append_getElem hi, List.map_append, List.sum_append] at s1 s2
    simp only [List.map_cons, List.map_nil, List.sum_cons, List.sum_nil, add_zero] at s1 s2
    rw [hbv] at s1 s2 b1 b2
    rw [hm]
    simp only
    rw [if_pos ⟨b1, s1, b2, s2⟩]
    refine ⟨_, rfl, ?_⟩
    rw [List.take_succ_eq_append_getElem hi]
    simp only [List.map_append, List.sum_append, List.map_cons, List.map_nil, List.sum_cons, List.sum_nil, add_zero, hbv])
  rw [hs, h, List.take_length]

end Moments

section Detect
variable {K : Type} [Zero K] [One K]

/-- A keypoint at a corner. -/
def cornerKey (level : Nat) (scale sigma ori : K) (id : Nat) (c : Corner) : FKey K :=
  { x := c.x.toNat, y := c.y.toNat, xs := c.x.toNat, ys := c.y.toNat, level := level, scale := scale, sigma := sigma,
    score := c.score, ori := ori, id := id }

/-- Detecting and scoring: the first `work` corners in raster order with their scores. -/
theorem detect_score {img : UcImage} (hw : img.Wf) (hsm : img.Small) {thr : Int} (hb : 0 ≤ thr) (hb2 : thr ≤ 2147483392)
    (work : Nat) : ∃ l : List (Nat × Nat), RasterPos l ∧
      (∀ x y : Nat, (x, y) ∈ l ↔ Inside img x y ∧ FastCorner img thr x y) ∧
      ∃ cs : List Corner, cs.map (fun c => (c.x, c.y)) = (l.take work).map (fun p => ((p.1 : Int), (p.2 : Int))) ∧
        (∀ c ∈ cs, IsScore img c.x.toNat c.y.toNat c.score) ∧
        (do let keys ← (fastDetectKeys img thr work : Res (List (FKey K)))
            fastScoreKeys img thr keys) = .ok (cs.mapIdx (fun i c => cornerKey 0 1 0 0 i c)) := by
  obtain ⟨l, hl, hr, hm⟩ := c43_detect img hw hsm thr hb hb2 work work (le_refl _)
  obtain ⟨ss, hss, hlen, hsc⟩ := c44_score img hw hsm thr hb (l.take work) (by
    intro p hp
    exact (hm p.1 p.2).mp (List.mem_of_mem_take hp))
  refine ⟨l, hr, hm, List.zipWith (fun p s => ⟨(p.1 : Int), (p.2 : Int), s⟩) (l.take work) ss, ?_, ?_, ?_⟩
  · apply List.ext_getElem?
    intro i
    simp only [List.getElem?_map, List.getElem?_zipWith]
    cases h1 : (l.take work)[i]? with
    | none => simp
    | some p =>
      have hi : i < ss.length := by
        rw [hlen]; exact (List.getElem?_eq_some_iff.mp h1).1
      rw [List.getElem?_eq_getElem hi]
      simp
  · intro c hc
    obtain ⟨i, hi, rfl⟩ := List.mem_iff_getElem.mp hc
    rw [List.length_zipWith] at hi
    rw [List.getElem_zipWith]
    simp only [Int.toNat_natCast]
    exact hsc i _ _ _ (by rw [List.getElem?_eq_getElem (by omega)]) (by rw [List.getElem?_eq_getElem (by omega)])
  · unfold fastDetectKeys
    by_cases h0 : work = 0
    · subst h0
      rw [if_pos rfl]
      simp only [Res.ok_bind]
      unfold fastScoreKeys
      simp only [List.take_zero, List.map_nil] at hss ⊢
      rw [hss]
      rfl
    · rw [if_neg h0, hl]
      simp only [Res.ok_bind, Res.pure_eq]
      unfold fastScoreKeys
      have e : (((l.take work).mapIdx (fun i p => (
          { x := p.1, y := p.2, xs := p.1, ys := p.2, level := 0, scale := 1, sigma := 0, score := 0, ori := 0, id := i } :
          FKey K))).map (fun k => (k.x, k.y))) = l.take work := by
        apply List.ext_getElem?
        intro i
        simp only [List.getElem?_map, List.getElem?_mapIdx]
        cases (l.take work)[i]? <;> rfl
      rw [e, hss]
      simp only [Res.ok_bind, Res.pure_eq]
      congr 1
      apply List.ext_getElem?
      intro i
      simp only [List.getElem?_zipWith, List.getElem?_mapIdx]
      cases (l.take work)[i]? <;> cases ss[i]? <;> rfl

omit [Zero K] [One K] in
theorem pickKeys_spec : ∀ (ks : List (FKey K)) (cs : List Corner), List.Sublist cs (ks.map FKey.corner) →
    (pickKeys ks cs).map FKey.corner = cs ∧ List.Sublist (pickKeys ks cs) ks := by
  intro ks
  induction ks with
  | nil =>
    intro cs h
    simp only [List.map_nil, List.sublist_nil] at h
    subst h
    simp [pickKeys]
  | cons k ks ih =>
    intro cs h
    cases cs with
    | nil => simp [pickKeys]
    | cons c cs =>
      unfold pickKeys
      by_cases hc : k.corner = c
      · rw [if_pos hc]
        subst hc
        rw [List.map_cons] at h
        obtain ⟨h1, h2⟩ := ih cs (List.Sublist.of_cons_cons h)
        exact ⟨by rw [List.map_cons, h1], h2.cons_cons k⟩
      · rw [if_neg hc]
        have h' : List.Sublist (c :: cs) (ks.map FKey.corner) := by
          rw [List.map_cons] at h
          cases h with
          | cons _ h => exact h
          | cons_cons _ h => exact absurd rfl hc
        obtain ⟨h1, h2⟩ := ih _ h'
        exact ⟨h1, h2.cons k⟩

theorem raster_corners {l : List (Nat × Nat)} {work : Nat} {cs : List Corner} (hr : RasterPos l)
    (hp : cs.map (fun c => (c.x, c.y)) = (l.take work).map (fun p => ((p.1 : Int), (p.2 : Int)))) :
    Raster cs ∧ ∀ c ∈ cs, 0 ≤ c.x ∧ 0 ≤ c.y := by
  constructor
  · have h1 : ((l.take work).map (fun p => ((p.1 : Int), (p.2 : Int)))).Pairwise
        (fun a b => a.2 < b.2 ∨ (a.2 = b.2 ∧ a.1 < b.1)) := by
      rw [List.pairwise_map]
      refine (List.Pairwise.sublist (List.take_sublist _ _) hr).imp ?_
      intro a b h
      simp only
      omega
    rw [← hp, List.pairwise_map] at h1
    exact h1
  · intro c hc
    have : (c.x, c.y) ∈ (l.take work).map (fun p => ((p.1 : Int), (p.2 : Int))) := by
      rw [← hp]; exact List.mem_map_of_mem hc
    obtain ⟨p, _, he⟩ := List.mem_map.mp this
    simp only [Prod.mk.injEq] at he
    omega

/-- Suppression of the scored corners. -/
theorem suppress_ok {cs : List Corner} (hr : Raster cs) (hn : ∀ c ∈ cs, 0 ≤ c.x ∧ 0 ≤ c.y) (limit : Nat) :
    fastSuppressKeys limit (cs.mapIdx (fun i c => cornerKey (K := K) 0 1 0 0 i c)) =
      .ok (((cs.filter (fun c => decide (LocalMax cs c))).take limit).mapIdx (fun i c => cornerKey 0 1 0 0 i c)) := by
  unfold fastSuppressKeys
  have e : (cs.mapIdx (fun i c => cornerKey (K := K) 0 1 0 0 i c)).map FKey.corner = cs := by
    apply List.ext_getElem?
    intro i
    simp only [List.getElem?_map, List.getElem?_mapIdx]
    cases h : cs[i]? with
    | none => rfl
    | some c =>
      have := hn c (List.mem_of_getElem? h)
      simp only [Option.map_some, cornerKey, FKey.corner]
      congr 1
      cases c
      simp only at this ⊢
      congr 1 <;> omega
  rw [e, c42_nonmax cs limit hr (fun c hc => (hn c hc).2)]
  simp only [Res.ok_bind, Res.pure_eq, Int.toNat_natCast]
  congr 1
  generalize hms : (cs.filter (fun c => decide (LocalMax cs c))).take limit = ms
  have hsub : List.Sublist ms cs := by
    rw [← hms]; exact (List.take_sublist _ _).trans List.filter_sublist
  obtain ⟨h1, h2⟩ := pickKeys_spec (cs.mapIdx (fun i c => cornerKey (K := K) 0 1 0 0 i c)) ms (by rw [e]; exact hsub)
  apply List.ext_getElem?
  intro i
  rw [List.getElem?_mapIdx, List.getElem?_mapIdx]
  have hi : ((pickKeys (cs.mapIdx (fun i c => cornerKey (K := K) 0 1 0 0 i c)) ms).map FKey.corner)[i]? = ms[i]? := by rw [h1]
  rw [List.getElem?_map] at hi
  cases hk : (pickKeys (cs.mapIdx (fun i c => cornerKey (K := K) 0 1 0 0 i c)) ms)[i]? with
  | none =>
    rw [hk] at hi
    rw [← hi]; rfl
  | some k =>
    rw [hk] at hi
    rw [← hi]
    have hmem := h2.subset (List.mem_of_getElem? hk)
    obtain ⟨j, hj, hjk⟩ := List.mem_iff_getElem.mp hmem
    rw [List.getElem_mapIdx] at hjk
    simp only [Option.map_some, Option.some.injEq]
    subst hjk
    simp [cornerKey, FKey.corner]
    constructor <;> omega

/-- Data for orientations as made by `nx_fast_detector_ic_data_new`, for a radius of at most 128,
whose offsets in the image fit into `int`. -/
def ICFits (img : UcImage) (ic : Option ICData) : Prop :=
  ∀ d, ic = some d → icDataNew d.radius = .ok d ∧ d.radius ≤ 128 ∧ img.stride * d.radius + d.radius ≤ 2147483647

theorem orient_ok {at2 : Int → Int → K} {img : UcImage} (hw : img.Wf) (hsm : img.Small) {ic : Option ICData}
    (hic : ICFits img ic) {ms : List Corner} (hms : ∀ c ∈ ms, 0 ≤ c.x ∧ 0 ≤ c.y) :
    fastOrient at2 img ic (ms.mapIdx (fun i c => cornerKey 0 1 0 0 i c)) =
      .ok (ms.mapIdx (fun i c => cornerKey 0 1 0 (cornerOri at2 img (ic.map ICData.radius) c.x c.y) i c)) := by
  cases ic with
  | none => rfl
  | some d =>
    obtain ⟨hd, hr, hst⟩ := hic d rfl
    obtain ⟨r, t⟩ := d
    simp only at hd hr hst
    have hrr : r * r ≤ 128 * 128 := Nat.mul_le_mul hr hr
    obtain ⟨t', ht', hnd, hfin, hmem⟩ := c95_table r (by omega)
    rw [ht'] at hd
    simp only [Res.ok.injEq, ICData.mk.injEq, true_and] at hd
    subst hd
    have hbd : ∀ p ∈ t', -(r : Int) ≤ p.1 ∧ p.1 ≤ r ∧ -(r : Int) ≤ p.2 ∧ p.2 ≤ r := by
      intro p hp
      rw [hmem] at hp
      refine ⟨?_, ?_, ?_, ?_⟩ <;> nlinarith [sq_nonneg p.1, sq_nonneg p.2]
    have hlen : t'.length ≤ 4 * (r * r) := by
      have h1 := icRows_length r (2 * r)
      have h2 : icDataNew r = .ok ⟨r, icRows r (2 * r)⟩ := by
        unfold icDataNew
        rw [icCount_ok (by omega)]
        simp only [Res.ok_bind]
        have l4 : (2 * r) * (2 * r) = 4 * (r * r) := by ring
        rw [if_pos (by unfold InI32; omega), icFill_ok (by omega)]
        rfl
      rw [ht'] at h2
      simp only [Res.ok.injEq, ICData.mk.injEq, true_and] at h2
      rw [h2]
      have l4 : (2 * r) * (2 * r) = 4 * (r * r) := by ring
      omega
    simp only [fastOrient, icOrient]
    rw [makeOffsets_gen t' (by
      intro o ho
      obtain ⟨h1, h2, h3, h4⟩ := hbd o ho
      have a1 : (img.stride : Int) * (-(r : Int)) ≤ img.stride * o.2 := mul_le_mul_of_nonneg_left h3 (by omega)
      have a2 : (img.stride : Int) * o.2 ≤ img.stride * r := mul_le_mul_of_nonneg_left h4 (by omega)
      have a3 : (img.stride : Int) * r + r ≤ 2147483647 := by exact_mod_cast hst
      have a4 : (img.stride : Int) * (-(r : Int)) = -(img.stride * r) := by ring
      unfold InI32
      omega)]
    simp only [Res.ok_bind, Option.map_some]
    -- key by key
    have key : ∀ (ms : List Corner) (o : Nat), (∀ c ∈ ms, 0 ≤ c.x ∧ 0 ≤ c.y) →
        icKeys at2 img ⟨r, t'⟩ (t'.map (fun o => o.1 + img.stride * o.2))
          (ms.mapIdx (fun i c => cornerKey (K := K) 0 1 0 0 (o + i) c)) =
        .ok (ms.mapIdx (fun i c => cornerKey 0 1 0 (cornerOri at2 img (some r) c.x c.y) (o + i) c)) := by
      intro ms
      induction ms with
      | nil => intro o _; rfl
      | cons c ms ih =>
        intro o h
        have hc := h c List.mem_cons_self
        rw [List.mapIdx_cons, List.mapIdx_cons, icKeys]
        have ih' := ih (o + 1) (fun c hc => h c (List.mem_cons_of_mem _ hc))
        have e : ∀ i, o + 1 + i = o + (i + 1) := fun i => by omega
        simp only [e] at ih'
        rw [ih']
        have ex : ((cornerKey (K := K) 0 1 0 0 (o + 0) c).x : Int) = c.x := by simp only [cornerKey]; omega
        have ey : ((cornerKey (K := K) 0 1 0 0 (o + 0) c).y : Int) = c.y := by simp only [cornerKey]; omega
        simp only [ex, ey]
        by_cases hin : (r : Int) ≤ c.x ∧ c.x + r < img.width ∧ (r : Int) ≤ c.y ∧ c.y + r < img.height
        · rw [if_pos (by omega)]
          have hp : pixelBase img.stride c.x c.y = .ok (c.y * img.stride + c.x) := by
            have h1 : c.y * (img.stride : Int) ≤ img.height * img.stride :=
              mul_le_mul_of_nonneg_right (by omega) (by omega)
            have h2 : (img.stride : Int) * img.height ≤ 2147483647 := by exact_mod_cast hsm.1
            have h3 : (0 : Int) ≤ c.y * img.stride := mul_nonneg hc.2 (by omega)
            have h4 : (img.height : Int) * img.stride = img.stride * img.height := by ring
            unfold pixelBase
            rw [if_pos (by unfold InI32; omega)]
          rw [hp]
          simp only [Res.ok_bind]
          rw [icMoments_ok hw hr hlen hbd hin.1 hin.2.1 hin.2.2.1 hin.2.2.2]
          simp only [Res.ok_bind, Res.pure_eq, cornerOri]
          rw [if_pos hin]
          unfold discMoments
          rw [← hfin, List.sum_toFinset _ hnd, List.sum_toFinset _ hnd]
          rfl
        · rw [if_neg (by omega)]
          simp only [Res.ok_bind, Res.pure_eq, cornerOri]
          rw [if_neg hin]
    have := key ms 0 hms
    simpa using this

omit [Zero K] [One K] in
theorem ok_of_eq {α : Type} {a b : α} (h : a = b) : (Res.ok a) = .ok b := by rw [h]

/-- The detector returns the first `max` of the maxima (of the score, among neighbours) of the
first `max * mult` FAST corners in raster order, at level 0 with the scale 1, numbered, each with its
score and with the orientation of the intensity centroid of the disc around it. -/
theorem c95_detect (at2 : Int → Int → K) (thr : Int) (hb : 0 ≤ thr) (hb2 : thr ≤ 2147483392) (mult max : Nat)
    (hm : max * mult ≤ 2147483647) (ic : Option ICData) (img : UcImage) (hw : img.Wf) (hsm : img.Small)
    (hic : ICFits img ic) :
    ∃ ms, FastMaxima img thr (max * mult) ms ∧
      fastDetector at2 thr mult ic max img =
        .ok ((ms.take max).mapIdx (fun i c =>
          cornerKey 0 1 0 (cornerOri at2 img (ic.map ICData.radius) c.x c.y) i c)) := by
  obtain ⟨l, hr, hmem, cs, hp, hsc, hk⟩ := detect_score (K := K) hw hsm hb hb2 (max * mult)
  obtain ⟨hra, hnn⟩ := raster_corners hr hp
  refine ⟨_, ⟨l, hr, hmem, cs, hp, hsc, rfl⟩, ?_⟩
  unfold fastDetector
  rw [if_pos (by unfold InI32; have e : ((max : Int) * mult) = ((max * mult : Nat) : Int) := by push_cast; rfl
                 rw [e]; omega)]
  rw [Res.bind_eq_ok] at hk
  obtain ⟨k1, hk1, hk2⟩ := hk
  rw [hk1]
  simp only [Res.ok_bind]
  rw [hk2]
  simp only [Res.ok_bind]
  rw [suppress_ok hra hnn]
  simp only [Res.ok_bind]
  exact orient_ok hw hsm hic (fun c hc => hnn c (List.mem_of_mem_filter (List.mem_of_mem_take hc)))

/-- The levels `n-1`, …, 0 with their maxima. -/
def levelMaxima (ms : Nat → List Corner) (n : Nat) : List (Nat × Corner) :=
  (List.range n).reverse.flatMap (fun i => (ms i).map (fun c => (i, c)))

theorem levelMaxima_succ (ms : Nat → List Corner) (n : Nat) :
    levelMaxima ms (n + 1) = (ms n).map (fun c => (n, c)) ++ levelMaxima ms n := by
  unfold levelMaxima
  rw [List.range_succ, List.reverse_append, List.flatMap_append]
  simp

theorem levels_ok {at2 : Int → Int → K} {thr : Int} (hb : 0 ≤ thr) (hb2 : thr ≤ 2147483392) {work : Nat}
    {ic : Option ICData} {levels : List (FLevel K)}
    (hl : ∀ l ∈ levels, l.img.Wf ∧ l.img.Small ∧ ICFits l.img ic) :
    ∃ ms : Nat → List Corner, (∀ (i : Nat) (l : FLevel K), levels[i]? = some l → FastMaxima l.img thr work (ms i)) ∧
      ∀ (lv : Nat → FLevel K) (n room : Nat) (acc : List (FKey K)), (∀ i < n, levels[i]? = some (lv i)) →
        fastLevels at2 thr work ic levels n room acc =
          .ok (acc ++ ((levelMaxima ms n).take room).mapIdx (fun j p =>
            cornerKey p.1 (lv p.1).scale (lv p.1).sigma
              (cornerOri at2 (lv p.1).img (ic.map ICData.radius) p.2.x p.2.y) (acc.length + j) p.2)) := by
  have hex : ∀ i : Nat, ∃ ms : List Corner, ∀ l : FLevel K, levels[i]? = some l → FastMaxima l.img thr work ms ∧
      ∀ (room nSupp : Nat), fastLevel at2 thr work ic room nSupp i l =
        .ok ((ms.take room).mapIdx (fun j c => cornerKey i l.scale l.sigma
          (cornerOri at2 l.img (ic.map ICData.radius) c.x c.y) (nSupp + j) c)) := by
    intro i
    cases hli : levels[i]? with
    | none => exact ⟨[], by intro l h; cases h⟩
    | some l =>
      obtain ⟨hw, hsm, hic⟩ := hl l (List.mem_of_getElem? hli)
      obtain ⟨lp, hr, hmem, cs, hp, hsc, hk⟩ := detect_score (K := K) hw hsm hb hb2 work
      obtain ⟨hra, hnn⟩ := raster_corners hr hp
      refine ⟨cs.filter (fun c => decide (LocalMax cs c)), ?_⟩
      intro l' hl'
      simp only [Option.some.injEq] at hl'
      subst hl'
      refine ⟨⟨lp, hr, hmem, cs, hp, hsc, rfl⟩, ?_⟩
      intro room nSupp
      unfold fastLevel
      rw [Res.bind_eq_ok] at hk
      obtain ⟨k1, hk1, hk2⟩ := hk
      rw [hk1]
      simp only [Res.ok_bind]
      rw [hk2]
      simp only [Res.ok_bind]
      rw [suppress_ok hra hnn]
      simp only [Res.ok_bind]
      rw [orient_ok hw hsm hic (fun c hc => hnn c (List.mem_of_mem_filter (List.mem_of_mem_take hc)))]
      simp only [Res.ok_bind, Res.pure_eq]
      apply ok_of_eq
      apply List.ext_getElem?
      intro j
      simp only [List.getElem?_mapIdx]
      cases (List.take room (cs.filter (fun c => decide (LocalMax cs c))))[j]? <;> rfl
  choose ms hms using hex
  refine ⟨ms, fun i l h => (hms i l h).1, ?_⟩
  intro lv n
  induction n with
  | zero =>
    intro room acc _
    simp [fastLevels, levelMaxima]
  | succ n ih =>
    intro room acc hlv
    obtain ⟨hn, _⟩ := List.getElem?_eq_some_iff.mp (hlv n (by omega))
    have hn2 : levels[n] = lv n := by
      have := hlv n (by omega)
      rw [List.getElem?_eq_getElem hn] at this
      exact Option.some.inj this
    rw [fastLevels, readAt_ok hn]
    simp only [Res.ok_bind]
    rw [hn2, (hms n (lv n) (hlv n (by omega))).2 room acc.length]
    simp only [Res.ok_bind, Res.pure_eq, List.length_mapIdx, List.length_take]
    rw [levelMaxima_succ, List.take_append, List.mapIdx_append, List.length_map, ← List.map_take]
    have e1 : ((((ms n).take room).map (fun c => (n, c))).mapIdx (fun j p =>
        cornerKey p.1 (lv p.1).scale (lv p.1).sigma
          (cornerOri at2 (lv p.1).img (ic.map ICData.radius) p.2.x p.2.y) (acc.length + j) p.2)) =
        ((ms n).take room).mapIdx (fun j c => cornerKey n (lv n).scale (lv n).sigma
          (cornerOri at2 (lv n).img (ic.map ICData.radius) c.x c.y) (acc.length + j) c) := by
      apply List.ext_getElem?
      intro j
      simp only [List.getElem?_mapIdx, List.getElem?_map]
      cases ((ms n).take room)[j]? <;> rfl
    rw [e1]
    by_cases hroom : room ≤ (ms n).length
    · rw [if_pos (by omega), show room - (ms n).length = 0 by omega]
      simp
    · have er : ((room : Int) - ((min room (ms n).length : Nat) : Int)) = ((room - (ms n).length : Nat) : Int) := by omega
      rw [if_neg (by omega), er, ih _ _ (fun i hi => hlv i (by omega))]
      apply ok_of_eq
      rw [List.append_assoc]
      congr 2
      apply List.ext_getElem?
      intro j
      simp only [List.getElem?_mapIdx]
      cases ((levelMaxima ms n).take (room - (ms n).length))[j]? with
      | none => rfl
      | some p =>
        simp only [Option.map_some, List.length_append, List.length_mapIdx, List.length_take, List.length_map]
        rw [Nat.add_assoc, Nat.add_comm j]

/-- With a pyramid: the first `max` of all maxima of the levels `n-1`, …, 0 in this order, each with the
number, scale and sigma of its level, with the orientation in the image of its level, numbered from
0 on; never more than `max`. -/
theorem c95_pyr (at2 : Int → Int → K) (thr : Int) (hb : 0 ≤ thr) (hb2 : thr ≤ 2147483392) (mult max : Nat)
    (hm : max * mult ≤ 2147483647) (ic : Option ICData) (levels : List (FLevel K)) (n : Int)
    (hl : ∀ l ∈ levels, l.img.Wf ∧ l.img.Small ∧ ICFits l.img ic) (lv : Nat → FLevel K)
    (hlv : ∀ i < levels.length, levels[i]? = some (lv i)) :
    ∃ ms : Nat → List Corner, (∀ i < levels.length, FastMaxima (lv i).img thr (max * mult) (ms i)) ∧
      fastDetectorPyr at2 thr mult ic max levels n =
        .ok (((levelMaxima ms (if 0 < n ∧ n ≤ levels.length then n.toNat else levels.length)).take max).mapIdx (fun j p =>
          cornerKey p.1 (lv p.1).scale (lv p.1).sigma
            (cornerOri at2 (lv p.1).img (ic.map ICData.radius) p.2.x p.2.y) j p.2)) := by
  obtain ⟨ms, h1, h2⟩ := levels_ok (at2 := at2) (work := max * mult) hb hb2 hl
  refine ⟨ms, fun i hi => h1 i _ (hlv i hi), ?_⟩
  unfold fastDetectorPyr
  rw [if_pos (by unfold InI32; have e : ((max : Int) * mult) = ((max * mult : Nat) : Int) := by push_cast; rfl
                 rw [e]; omega)]
  have e : keyLevels n levels.length = (if 0 < n ∧ n ≤ levels.length then n.toNat else levels.length) := by
    unfold keyLevels
    by_cases h : 0 < n ∧ n ≤ levels.length
    · rw [if_pos h, if_neg (by omega)]
    · rw [if_neg h, if_pos (by omega)]
  have hle : keyLevels n levels.length ≤ levels.length := by
    unfold keyLevels; split <;> omega
  rw [← e, h2 lv _ max [] (fun i hi => hlv i (by omega))]
  simp

/-- The same for the function without a detector: `work` is the size of the buffer for the
corners of a level. -/
theorem c95_keys_pyr (at2 : Int → Int → K) (thr : Int) (hb : 0 ≤ thr) (hb2 : thr ≤ 2147483392) (work max : Nat)
    (levels : List (FLevel K)) (n : Int) (hl : ∀ l ∈ levels, l.img.Wf ∧ l.img.Small) (lv : Nat → FLevel K)
    (hlv : ∀ i < levels.length, levels[i]? = some (lv i)) :
    ∃ ms : Nat → List Corner, (∀ i < levels.length, FastMaxima (lv i).img thr work (ms i)) ∧
      fastDetectKeysPyr at2 thr max work levels n =
        .ok (((levelMaxima ms (if 0 < n ∧ n ≤ levels.length then n.toNat else levels.length)).take max).mapIdx (fun j p =>
          cornerKey p.1 (lv p.1).scale (lv p.1).sigma 0 j p.2)) := by
  obtain ⟨ms, h1, h2⟩ := levels_ok (at2 := at2) (work := work) (ic := none) hb hb2
    (fun l h => ⟨(hl l h).1, (hl l h).2, fun d hd => by cases hd⟩)
  refine ⟨ms, fun i hi => h1 i _ (hlv i hi), ?_⟩
  have e : keyLevels n levels.length = (if 0 < n ∧ n ≤ levels.length then n.toNat else levels.length) := by
    unfold keyLevels
    by_cases h : 0 < n ∧ n ≤ levels.length
    · rw [if_pos h, if_neg (by omega)]
    · rw [if_neg h, if_pos (by omega)]
  have hle : keyLevels n levels.length ≤ levels.length := by
    unfold keyLevels; split <;> omega
  rw [← e]
  unfold fastDetectKeysPyr
  by_cases h0 : max = 0 ∨ work = 0
  · rw [if_pos h0]
    rcases h0 with h0 | h0
    · subst h0; simp
    · subst h0
      have hnil : ∀ i < levels.length, ms i = [] := by
        intro i hi
        obtain ⟨l, _, _, cs, hp, _, hms⟩ := h1 i _ (hlv i hi)
        simp only [List.take_zero, List.map_nil, List.map_eq_nil_iff] at hp
        rw [hms, hp]; rfl
      have : levelMaxima ms (keyLevels n levels.length) = [] := by
        unfold levelMaxima
        rw [List.flatMap_eq_nil_iff]
        intro i hi
        rw [List.mem_reverse, List.mem_range] at hi
        rw [hnil i (by omega)]; rfl
      rw [this]; simp
  · rw [if_neg h0, h2 lv _ max [] (fun i hi => hlv i (by omega))]
    simp [cornerOri]

end Detect

/-- The maxima are determined by the image: there is exactly one list of them. -/
theorem c95_unique (img : UcImage) (thr : Int) (work : Nat) (ms ms' : List Corner) (h : FastMaxima img thr work ms)
    (h' : FastMaxima img thr work ms') : ms = ms' := by
  obtain ⟨l, hr, hm, cs, hp, hs, rfl⟩ := h
  obtain ⟨l', hr', hm', cs', hp', hs', rfl⟩ := h'
  have nodup : ∀ {l : List (Nat × Nat)}, RasterPos l → l.Nodup := by
    intro l h
    refine List.Pairwise.imp ?_ h
    rintro a b hab rfl
    omega
  have hl : l = l' := by
    refine List.Perm.eq_of_pairwise ?_ hr hr' ((List.perm_ext_iff_of_nodup (nodup hr) (nodup hr')).mpr ?_)
    · intro a b _ _ h1 h2
      omega
    · rintro ⟨x, y⟩
      rw [hm, hm']
  subst hl
  rw [← hp'] at hp
  have hcs : cs = cs' := by
    apply List.ext_getElem?
    intro i
    have hi : (cs.map (fun c => (c.x, c.y)))[i]? = (cs'.map (fun c => (c.x, c.y)))[i]? := by rw [hp]
    rw [List.getElem?_map, List.getElem?_map] at hi
    cases h1 : cs[i]? with
    | none =>
      cases h2 : cs'[i]? with
      | none => rfl
      | some c => rw [h1, h2] at hi; cases hi
    | some c =>
      cases h2 : cs'[i]? with
      | none => rw [h1, h2] at hi; cases hi
      | some c' =>
        rw [h1, h2] at hi
        simp only [Option.map_some, Option.some.injEq, Prod.mk.injEq] at hi
        have a := hs c (List.mem_of_getElem? h1)
        have b := hs' c' (List.mem_of_getElem? h2)
        rw [← hi.1, ← hi.2] at b
        have e1 := a.2 _ b.1
        have e2 := b.2 _ a.1
        cases c; cases c'
        simp only at hi e1 e2 ⊢
        rw [Option.some.injEq, Corner.mk.injEq]
        omega
  rw [hcs]

section Centroid

theorem mem_disc {r : Nat} {p : Int × Int} : p ∈ disc r ↔ p.1 ^ 2 + p.2 ^ 2 < (r : Int) ^ 2 := by
  unfold disc
  rw [Finset.mem_filter, Finset.mem_product, Finset.mem_Icc, Finset.mem_Icc]
  constructor
  · exact fun h => h.2
  · intro h
    refine ⟨⟨⟨?_, ?_⟩, ?_, ?_⟩, h⟩ <;> nlinarith [sq_nonneg p.1, sq_nonneg p.2]

/-- The moments turn with the patch: turning the patch by a right angle turns the vector to its
centroid by a right angle. -/
theorem c95_rotate (I J : Int → Int → Int) (r : Nat) (x y : Int)
    (h : ∀ p ∈ disc r, J (x - p.2) (y + p.1) = I (x + p.1) (y + p.2)) :
    discMoments J r x y = (-(discMoments I r x y).2, (discMoments I r x y).1) := by
  unfold discMoments
  have hm : ∀ p ∈ disc r, (-p.2, p.1) ∈ disc r := by
    intro p hp
    rw [mem_disc] at hp ⊢
    simp only
    nlinarith
  have hm' : ∀ p ∈ disc r, (p.2, -p.1) ∈ disc r := by
    intro p hp
    rw [mem_disc] at hp ⊢
    simp only
    nlinarith
  refine Prod.ext ?_ ?_
  · simp only
    rw [← Finset.sum_neg_distrib]
    symm
    refine Finset.sum_nbij' (fun p => (-p.2, p.1)) (fun p => (p.2, -p.1)) hm hm' ?_ ?_ ?_
    · intro p _; simp
    · intro p _; simp
    · intro p hp
      simp only
      rw [← h p hp, ← sub_eq_add_neg]
      ring
  · simp only
    symm
    refine Finset.sum_nbij' (fun p => (-p.2, p.1)) (fun p => (p.2, -p.1)) hm hm' ?_ ?_ ?_
    · intro p _; simp
    · intro p _; simp
    · intro p hp
      simp only
      rw [← h p hp, ← sub_eq_add_neg]

/-- A patch that is the same after half a turn has the centroid in its middle. -/
theorem c95_symmetric (I : Int → Int → Int) (r : Nat) (x y : Int)
    (h : ∀ p ∈ disc r, I (x - p.1) (y - p.2) = I (x + p.1) (y + p.2)) : discMoments I r x y = (0, 0) := by
  have hm : ∀ p ∈ disc r, (-p.1, -p.2) ∈ disc r := by
    intro p hp
    rw [mem_disc] at hp ⊢
    simp only
    nlinarith
  have key : ∀ g : Int × Int → Int, (∀ p, g (-p.1, -p.2) = -g p) → ∑ p ∈ disc r, g p * I (x + p.1) (y + p.2) = 0 := by
    intro g hg
    have : ∑ p ∈ disc r, g p * I (x + p.1) (y + p.2) = -∑ p ∈ disc r, g p * I (x + p.1) (y + p.2) := by
      rw [← Finset.sum_neg_distrib]
      refine Finset.sum_nbij' (fun p => (-p.1, -p.2)) (fun p => (-p.1, -p.2)) hm hm ?_ ?_ ?_
      · intro p _; simp
      · intro p _; simp
      · intro p hp
        simp only
        rw [hg, ← h p hp, ← sub_eq_add_neg, ← sub_eq_add_neg]
        ring
    omega
  unfold discMoments
  rw [key (fun p => p.1) (fun p => rfl), key (fun p => p.2) (fun p => rfl)]

/-- Brighter or darker by a constant, and contrast: the moments do not see the former and are
scaled by the latter. -/
theorem c95_illumination (I : Int → Int → Int) (a b : Int) (r : Nat) (x y : Int) :
    discMoments (fun u v => a * I u v + b) r x y = (a * (discMoments I r x y).1, a * (discMoments I r x y).2) := by
  have h0 := c95_symmetric (fun _ _ => b) r x y (fun _ _ => rfl)
  unfold discMoments at h0 ⊢
  simp only [Prod.mk.injEq] at h0 ⊢
  rw [Finset.mul_sum, Finset.mul_sum]
  constructor
  · rw [← add_zero (∑ i ∈ disc r, a * (i.1 * I (x + i.1) (y + i.2))), ← h0.1, ← Finset.sum_add_distrib]
    refine Finset.sum_congr rfl (fun p _ => by ring)
  · rw [← add_zero (∑ i ∈ disc r, a * (i.2 * I (x + i.1) (y + i.2))), ← h0.2, ← Finset.sum_add_distrib]
    refine Finset.sum_congr rfl (fun p _ => by ring)

end Centroid

/-- A bright spot, with a brighter pixel to its right. -/
def demoDet : UcImage := ⟨9, 7, 9,
  [0, 0, 0, 0, 0, 0, 0, 0, 0,
   0, 0, 0, 0, 0, 0, 0, 0, 0,
   0, 0, 0, 0, 0, 0, 0, 0, 0,
   0, 0, 0, 90, 200, 60, 0, 0, 0,
   0, 0, 0, 0, 0, 0, 0, 0, 0,
   0, 0, 0, 0, 0, 0, 0, 0, 0,
   0, 0, 0, 0, 0, 0, 0, 0, 0]⟩

/-- Three corners, of which the middle one is kept; its orientation is that of (-30, 0). -/
example : fastDetector (fun a b => 1000 * a + b) 15 3 (some ⟨2, [(-1, -1), (0, -1), (1, -1), (-1, 0), (0, 0), (1, 0), (-1, 1), (0, 1), (1, 1)]⟩)
    4 demoDet = .ok [⟨4, 3, 4, 3, 0, (1 : Int), 0, 199, -30, 0⟩] := by decide +kernel

example : (match (fastDetectKeys demoDet 15 12 : Res (List (FKey Int))) with
    | .ok l => decide (l.map (fun k => (k.x, k.y)) = [(3, 3), (4, 3), (5, 3)]) | _ => false) = true := by decide +kernel

/-- On two levels with room for one keypoint only the upper level gets it. -/
example : fastDetectorPyr (fun a b => 1000 * a + b) 15 3 none 1 [⟨demoDet, 0, 1⟩, ⟨demoDet, 5, 2⟩] 0 =
      .ok [⟨4, 3, 4, 3, 1, (2 : Int), 5, 199, 0, 0⟩] ∧
    fastDetectorPyr (fun a b => 1000 * a + b) 15 3 none 2 [⟨demoDet, 0, 1⟩, ⟨demoDet, 5, 2⟩] 0 =
      .ok [⟨4, 3, 4, 3, 1, (2 : Int), 5, 199, 0, 0⟩, ⟨4, 3, 4, 3, 0, 1, 0, 199, 0, 1⟩] := by decide +kernel

example : demoDet.Wf ∧ demoDet.Small := by unfold UcImage.Wf UcImage.Small demoDet; decide +kernel

example : ICFits demoDet (some ⟨2, [(-1, -1), (0, -1), (1, -1), (-1, 0), (0, 0), (1, 0), (-1, 1), (0, 1), (1, 1)]⟩) := by
  intro d hd
  simp only [Option.some.injEq] at hd
  subst hd
  decide +kernel

end Nx
