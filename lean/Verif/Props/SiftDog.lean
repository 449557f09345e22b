import Mathlib.Tactic.Linarith
import Mathlib.Tactic.Ring
import Mathlib.Tactic.LinearCombination
import Mathlib.Data.List.Nodup
import Verif.Model.SiftDog
import Verif.Spec.SiftDog
import Verif.Spec.Sample
import Verif.Lemmas.Sample

/-!
# Search for extrema in differences of Gaussians (C87)
-/

namespace Nx

section
set_option linter.unusedSectionVars false
variable {K : Type} [Field K] [LinearOrder K] [IsStrictOrderedRing K]

/-- The memory of an image of `h` rows of `s` elements: `f x y` is the element `x` from the beginning of row `y`, whether or not it belongs to
this row. -/
structure GImage.Rows (img : GImage K) (s h : Nat) (f : Nat → Nat → K) : Prop where
  stride_eq : img.stride = s
  at_eq : ∀ x y, y * s + x < s * h → img.data[y * s + x]? = some (f x y)

theorem dogAt_ok {img : GImage K} {s h : Nat} {f : Nat → Nat → K} (hr : img.Rows s h f) {x y : Nat} (hk : y * s + x < s * h) :
    dogAt img x y = .ok (f x y) := by
  unfold dogAt readI readAt
  have e : (y : Int) * img.stride + x = ((y * s + x : Nat) : Int) := by rw [hr.stride_eq]; push_cast; rfl
  rw [e, if_pos (by omega), Int.toNat_natCast, hr.at_eq x y hk]

theorem compareAll_spec (d : Dogs K) (x y : Int) (cmp : K → Bool) (val : Int × Int × Int → K) (l : List (Int × Int × Int))
    (h : ∀ e ∈ l, dogAt (d.at e.1) (x + e.2.1) (y + e.2.2) = .ok (val e)) :
    compareAll d x y cmp l = .ok (l.all (fun e => cmp (val e))) := by
  induction l with
  | nil => rfl
  | cons e l ih =>
    obtain ⟨s, dx, dy⟩ := e
    have h0 := h (s, dx, dy) List.mem_cons_self
    unfold compareAll
    simp only at h0
    rw [h0, Res.ok_bind, ih (fun e he => h e (List.mem_cons_of_mem _ he)), List.all_cons]
    cases cmp (val (s, dx, dy)) <;> rfl

/-- The value of a neighbour. -/
def nbVal (fm f fp : Nat → Nat → K) (x y : Nat) (e : Int × Int × Int) : K :=
  (if e.1 = 0 then f else if e.1 < 0 then fm else fp) ((x : Int) + e.2.1).toNat ((y : Int) + e.2.2).toNat

theorem neighbours_near : ∀ e ∈ dogNeighbours, -1 ≤ e.2.1 ∧ e.2.1 ≤ 1 ∧ -1 ≤ e.2.2 ∧ e.2.2 ≤ 1 := by decide

theorem nbVal_ok {d : Dogs K} {s h : Nat} {fm f fp : Nat → Nat → K} (hm : d.m.Rows s h fm) (hc : d.c.Rows s h f) (hp : d.p.Rows s h fp)
    {x y : Nat} (hx : 1 ≤ x) (hy : 1 ≤ y) (hk : (y + 1) * s + (x + 1) < s * h) {e : Int × Int × Int} (he : e ∈ dogNeighbours) :
    dogAt (d.at e.1) ((x : Int) + e.2.1) ((y : Int) + e.2.2) = .ok (nbVal fm f fp x y e) := by
  have hn := neighbours_near e he
  have ex : (x : Int) + e.2.1 = (((x : Int) + e.2.1).toNat : Int) := by omega
  have ey : (y : Int) + e.2.2 = (((y : Int) + e.2.2).toNat : Int) := by omega
  have hk' : ((y : Int) + e.2.2).toNat * s + ((x : Int) + e.2.1).toNat < s * h := by
    have h1 : ((y : Int) + e.2.2).toNat ≤ y + 1 := by omega
    have h2 : ((x : Int) + e.2.1).toNat ≤ x + 1 := by omega
    have := Nat.mul_le_mul_right s h1
    omega
  unfold Dogs.at nbVal
  rw [ex, ey, Int.toNat_natCast, Int.toNat_natCast]
  split
  · exact dogAt_ok hc hk'
  · split
    · exact dogAt_ok hm hk'
    · exact dogAt_ok hp hk'

theorem forall_lt3 {p : Nat → Prop} : (∀ i, i < 3 → p i) ↔ p 0 ∧ p 1 ∧ p 2 := by
  constructor
  · intro h
    exact ⟨h 0 (by omega), h 1 (by omega), h 2 (by omega)⟩
  · rintro ⟨h0, h1, h2⟩ i hi
    have : i = 0 ∨ i = 1 ∨ i = 2 := by omega
    rcases this with rfl | rfl | rfl <;> assumption

theorem neighbours_iff (R : K → Prop) (fm f fp : Nat → Nat → K) {x y : Nat} (hx : 1 ≤ x) (hy : 1 ≤ y) :
    (∀ e ∈ dogNeighbours, R (nbVal fm f fp x y e)) ↔
      ∀ dx, dx < 3 → ∀ dy, dy < 3 → R (fm (x + dx - 1) (y + dy - 1)) ∧ R (fp (x + dx - 1) (y + dy - 1)) ∧
        (dx = 1 ∧ dy = 1 ∨ R (f (x + dx - 1) (y + dy - 1))) := by
  obtain ⟨x, rfl⟩ : ∃ n, x = n + 1 := ⟨x - 1, by omega⟩
  obtain ⟨y, rfl⟩ : ∃ n, y = n + 1 := ⟨y - 1, by omega⟩
  have e1 : ∀ n : Nat, (((n + 1 : Nat) : Int) + -1).toNat = n := fun n => by omega
  have e2 : ∀ n : Nat, (((n + 1 : Nat) : Int) + 0).toNat = n + 1 := fun n => by omega
  have e3 : ∀ n : Nat, (((n + 1 : Nat) : Int) + 1).toNat = n + 2 := fun n => by omega
  have e4 : ∀ n : Nat, n + 1 + 0 - 1 = n := fun n => by omega
  have c2 : ¬ (-1 : Int) = 0 := by omega
  have c3 : (-1 : Int) < 0 := by omega
  have c4 : ¬ (1 : Int) = 0 := by omega
  have c5 : ¬ (1 : Int) < 0 := by omega
  simp only [forall_lt3, e4]
  simp only [dogNeighbours, List.forall_mem_cons, nbVal, e1, e2, e3, if_neg c2, if_pos c3, if_neg c4, if_neg c5, ite_true]
  constructor
  · rintro ⟨a1, a2, a3, a4, a5, a6, a7, a8, b1, b2, b3, b4, b5, b6, b7, b8, b9, d1, d2, d3, d4, d5, d6, d7, d8, d9, _⟩
    refine ⟨⟨⟨?_, ?_, Or.inr ?_⟩, ⟨?_, ?_, Or.inr ?_⟩, ⟨?_, ?_, Or.inr ?_⟩⟩, ⟨⟨?_, ?_, Or.inr ?_⟩, ⟨?_, ?_, Or.inl (by simp)⟩, ⟨?_, ?_, Or.inr ?_⟩⟩,
      ⟨⟨?_, ?_, Or.inr ?_⟩, ⟨?_, ?_, Or.inr ?_⟩, ⟨?_, ?_, Or.inr ?_⟩⟩⟩ <;> assumption
  · rintro ⟨⟨⟨a1, a2, a3⟩, ⟨a4, a5, a6⟩, ⟨a7, a8, a9⟩⟩, ⟨⟨b1, b2, b3⟩, ⟨b4, b5, _⟩, ⟨b7, b8, b9⟩⟩, ⟨⟨d1, d2, d3⟩, ⟨d4, d5, d6⟩, ⟨d7, d8, d9⟩⟩⟩
    simp only [Nat.zero_ne_one, false_and, and_false, false_or, OfNat.ofNat_ne_one] at a3 a6 a9 b3 b9 d3 d6 d9
    refine ⟨?_, ?_, ?_, ?_, ?_, ?_, ?_, ?_, ?_, ?_, ?_, ?_, ?_, ?_, ?_, ?_, ?_, ?_, ?_, ?_, ?_, ?_, ?_, ?_, ?_, ?_, ?_⟩
    all_goals first | assumption | (intro e he; exact absurd he List.not_mem_nil)

theorem edgeCheck_spec {img : GImage K} {s h : Nat} {f : Nat → Nat → K} (hr : img.Rows s h f) {x y : Nat} (hx : 1 ≤ x) (hy : 1 ≤ y)
    (hk : (y + 1) * s + (x + 1) < s * h) (r : K) : edgeCheck img x y r = .ok (decide (EdgeOk r f x y)) := by
  have ex1 : (x : Int) - 1 = ((x - 1 : Nat) : Int) := by omega
  have ey1 : (y : Int) - 1 = ((y - 1 : Nat) : Int) := by omega
  have ex2 : (x : Int) + 1 = ((x + 1 : Nat) : Int) := by omega
  have ey2 : (y : Int) + 1 = ((y + 1 : Nat) : Int) := by omega
  have hk1 := Nat.mul_le_mul_right s (show y - 1 ≤ y + 1 by omega)
  have hk2 := Nat.mul_le_mul_right s (show y ≤ y + 1 by omega)
  unfold edgeCheck
  rw [ex1, ey1, ex2, ey2]
  rw [dogAt_ok hr (by omega), Res.ok_bind, dogAt_ok hr (by omega), Res.ok_bind, dogAt_ok hr (by omega), Res.ok_bind,
    dogAt_ok hr (by omega), Res.ok_bind, dogAt_ok hr (by omega), Res.ok_bind, dogAt_ok hr (by omega), Res.ok_bind,
    dogAt_ok hr (by omega), Res.ok_bind, dogAt_ok hr (by omega), Res.ok_bind, dogAt_ok hr (by omega), Res.ok_bind]
  simp only [Res.pure_eq]
  congr 1
  rw [decide_eq_decide]
  unfold EdgeOk dogXX dogYY dogXY
  have h1 : (f x (y - 1) - 2 * f x y + f x (y + 1)) * (f (x - 1) y - 2 * f x y + f (x + 1) y) -
      (f (x + 1) (y + 1) - f (x - 1) (y + 1) - (f (x + 1) (y - 1) - f (x - 1) (y - 1))) / 4 *
        ((f (x + 1) (y + 1) - f (x - 1) (y + 1) - (f (x + 1) (y - 1) - f (x - 1) (y - 1))) / 4)
      = (f (x - 1) y - 2 * f x y + f (x + 1) y) * (f x (y - 1) - 2 * f x y + f x (y + 1)) -
        ((f (x + 1) (y + 1) - f (x - 1) (y + 1) - f (x + 1) (y - 1) + f (x - 1) (y - 1)) / 4) ^ 2 := by ring
  rw [h1, gt_iff_lt]
  constructor <;> intro hh <;> linarith

theorem dogTest_spec {d : Dogs K} {s h : Nat} {fm f fp : Nat → Nat → K} (hm : d.m.Rows s h fm) (hc : d.c.Rows s h f) (hp : d.p.Rows s h fp)
    {x y : Nat} (hx : 1 ≤ x) (hy : 1 ≤ y) (hk : (y + 1) * s + (x + 1) < s * h) (thr r : K) :
    dogTest d thr r x y = .ok (decide (Candidate thr r fm f fp x y)) := by
  have hk2 := Nat.mul_le_mul_right s (show y ≤ y + 1 by omega)
  have hcmp := fun cmp => compareAll_spec d x y cmp (nbVal fm f fp x y) dogNeighbours (fun e he => nbVal_ok hm hc hp hx hy hk he)
  have hmax := neighbours_iff (fun u => u < f x y) fm f fp hx hy
  have hmin := neighbours_iff (fun u => f x y < u) fm f fp hx hy
  have hmax' : (dogNeighbours.all fun e => decide (f x y > nbVal fm f fp x y e)) = decide (DogMax fm f fp x y) := by
    rw [Bool.eq_iff_iff, List.all_eq_true, decide_eq_true_iff]
    unfold DogMax
    rw [← hmax]
    simp only [decide_eq_true_iff, gt_iff_lt]
  have hmin' : (dogNeighbours.all fun e => decide (f x y < nbVal fm f fp x y e)) = decide (DogMin fm f fp x y) := by
    rw [Bool.eq_iff_iff, List.all_eq_true, decide_eq_true_iff]
    unfold DogMin
    rw [← hmin]
    simp only [decide_eq_true_iff]
  unfold dogTest
  rw [dogAt_ok hc (by omega), Res.ok_bind, hcmp, hcmp, hmax', hmin', edgeCheck_spec hc hx hy hk]
  unfold Candidate
  by_cases h1 : 4 / 5 * thr < |f x y|
  · rw [if_pos h1]
    by_cases h2 : 0 < f x y
    · have h3 : ¬ f x y < 0 := not_lt.mpr h2.le
      by_cases hM : DogMax fm f fp x y <;> simp [h1, h2, h3, hM]
    · by_cases h3 : f x y < 0
      · by_cases hM : DogMin fm f fp x y <;> simp [h1, h2, h3, hM]
      · simp [h1, h2, h3]
  · rw [if_neg h1]
    simp [h1]

/-- The columns of one row that are searched. -/
def rowCandidates (thr r : K) (fm f fp : Nat → Nat → K) (B n y : Nat) : List (Int × Int) :=
  ((List.range n).filter (fun l => decide (Candidate thr r fm f fp (B + l) y))).map (fun l => (((B + l : Nat) : Int), (y : Int)))

/-- C87: with a border of at least two pixels no memory outside the images is read, and the positions are exactly the candidates, row by
row, from column `B` to column `w + B - 1`. Missing: the columns from `w - B` on should not be searched, see `c87_wrapped`. -/
theorem c87_candidates_partial (d : Dogs K) (s w h B : Nat) (fm f fp : Nat → Nat → K) (hm : d.m.Rows s h fm) (hc : d.c.Rows s h f)
    (hp : d.p.Rows s h fp) (hw : d.c.width = w) (hh : d.c.height = h) (hs : w ≤ s) (hB : 2 ≤ B) (hwB : 3 ≤ w) (hBw : B ≤ w) (thr r : K) :
    processDog d B thr r = .ok ((List.range (h - 2 * B)).flatMap (fun k => rowCandidates thr r fm f fp B w (B + k))) := by
  unfold processDog
  rw [hw, hh, show ((h : Int) - B - B).toNat = h - 2 * B by omega, show ((w : Int) + B - B).toNat = w by omega]
  obtain ⟨out, e, ho⟩ := forLoop_spec (n := h - 2 * B) (i0 := 0) (s := ([] : List (Int × Int)))
    (body := fun k out =>
      let y := (B : Int) + (k : Nat)
      forLoop w (fun l out => do
        let x := (B : Int) + (l : Nat)
        let c ← dogTest d thr r x y
        if c then pure (out ++ [(x, y)]) else pure out) 0 out)
    (fun k out => out = (List.range k).flatMap (fun k => rowCandidates thr r fm f fp B w (B + k)))
    (Nat.zero_le _) rfl (by
      intro k out _ hk ho
      simp only
      obtain ⟨out', e, ho'⟩ := forLoop_spec (n := w) (i0 := 0) (s := out)
        (body := fun l out => do
          let x := (B : Int) + (l : Nat)
          let c ← dogTest d thr r x ((B : Int) + (k : Nat))
          if c then pure (out ++ [(x, (B : Int) + (k : Nat))]) else pure out)
        (fun l out' => out' = out ++ rowCandidates thr r fm f fp B l (B + k))
        (Nat.zero_le _) (by simp [rowCandidates]) (by
          intro l out' _ hl ho'
          have hk1 : (B + k + 1) * s + (B + l + 1) < s * h := by
            have h1 : (B + k + 1) * s ≤ (h - B) * s := Nat.mul_le_mul_right s (by omega)
            have h2 : (h - B) * s + B * s = s * h := by rw [← Nat.add_mul, Nat.sub_add_cancel (by omega), Nat.mul_comm]
            have h3 : 2 * s ≤ B * s := Nat.mul_le_mul_right s hB
            by_cases hB2 : B = 2
            · subst hB2; omega
            · have h4 : 3 * s ≤ B * s := Nat.mul_le_mul_right s (by omega)
              omega
          have ht := dogTest_spec hm hc hp (x := B + l) (y := B + k) (by omega) (by omega) hk1 thr r
          push_cast at ht
          simp only
          rw [ht, Res.ok_bind]
          refine ⟨out ++ rowCandidates thr r fm f fp B (l + 1) (B + k), ?_, rfl⟩
          rw [ho']
          unfold rowCandidates
          rw [List.range_succ, List.filter_append, List.map_append]
          by_cases hC : Candidate thr r fm f fp (B + l) (B + k)
          · simp [hC]
          · simp [hC])
      refine ⟨out', e, ?_⟩
      rw [ho', ho, List.range_succ, List.flatMap_append, List.flatMap_singleton])
  rw [← ho]
  exact e

/-- C87: in the columns that should be searched, the positions are exactly the pixels that are candidates. -/
theorem c87_inside (d : Dogs K) (s w h B : Nat) (fm f fp : Nat → Nat → K) (hm : d.m.Rows s h fm) (hc : d.c.Rows s h f)
    (hp : d.p.Rows s h fp) (hw : d.c.width = w) (hh : d.c.height = h) (hs : w ≤ s) (hB : 2 ≤ B) (hwB : 2 * B + 2 < w) (thr r : K) :
    ∃ out, processDog d B thr r = .ok out ∧ out.Nodup ∧ ∀ x y : Nat, x < w - B →
      (((x : Int), (y : Int)) ∈ out ↔ B ≤ x ∧ B ≤ y ∧ y < h - B ∧ Candidate thr r fm f fp x y) := by
  refine ⟨_, c87_candidates_partial d s w h B fm f fp hm hc hp hw hh hs hB (by omega) (by omega) thr r, ?_, ?_⟩
  · rw [List.nodup_flatMap]
    refine ⟨?_, ?_⟩
    · intro k _
      unfold rowCandidates
      refine List.Nodup.map ?_ (List.nodup_range.filter _)
      intro a b hab
      have := (Prod.mk.inj hab).1
      omega
    · refine List.Pairwise.imp ?_ List.nodup_range
      intro a b hab e he he'
      unfold rowCandidates at he he'
      rw [List.mem_map] at he he'
      obtain ⟨_, _, rfl⟩ := he
      obtain ⟨_, _, e2⟩ := he'
      have := (Prod.mk.inj e2).2
      omega
  · intro x y hx
    rw [List.mem_flatMap]
    unfold rowCandidates
    constructor
    · rintro ⟨k, hk, hm⟩
      rw [List.mem_map] at hm
      obtain ⟨l, hl, e⟩ := hm
      rw [List.mem_filter, decide_eq_true_iff] at hl
      have hk := List.mem_range.mp hk
      obtain ⟨e1, e2⟩ := Prod.mk.inj e
      have e1 : B + l = x := by omega
      have e2 : B + k = y := by omega
      rw [← e1, ← e2]
      exact ⟨by omega, by omega, by omega, hl.2⟩
    · rintro ⟨h1, h2, h3, h4⟩
      refine ⟨y - B, List.mem_range.mpr (by omega), ?_⟩
      rw [List.mem_map]
      refine ⟨x - B, ?_, ?_⟩
      · rw [List.mem_filter, decide_eq_true_iff, show B + (x - B) = x by omega, show B + (y - B) = y by omega]
        exact ⟨List.mem_range.mpr (by omega), h4⟩
      · rw [show B + (x - B) = x by omega, show B + (y - B) = y by omega]

/-- C87, finding: the search continues behind the end of a row. In images without padding each candidate in the left border, except in the first column, is
reported outside of the image, one row above. -/
theorem c87_wrapped (d : Dogs K) (w h B : Nat) (fm f fp : Nat → Nat → K) (hm : d.m.Rows w h fm) (hc : d.c.Rows w h f)
    (hp : d.p.Rows w h fp) (hw : d.c.width = w) (hh : d.c.height = h) (hB : 2 ≤ B) (hwB : 2 * B + 2 < w) (thr r : K)
    (c y : Nat) (h1 : 1 ≤ c) (h2 : c < B) (h3 : B ≤ y) (h4 : y + B < h) (hC : Candidate thr r fm f fp c (y + 1)) :
    ∃ out, processDog d B thr r = .ok out ∧ (((w + c : Nat) : Int), (y : Int)) ∈ out := by
  refine ⟨_, c87_candidates_partial d w w h B fm f fp hm hc hp hw hh (le_refl w) hB (by omega) (by omega) thr r, ?_⟩
  -- the same memory
  have hsame : ∀ (g : Nat → Nat → K) (img : GImage K), img.Rows w h g → ∀ a b, b ≤ y + 1 → a ≤ B → g (w + a) b = g a (b + 1) := by
    intro g img hr a b hb ha
    have hlt : (b + 1) * w + a < w * h := by
      have e1 : (b + 1) * w ≤ (y + 2) * w := Nat.mul_le_mul_right w (by omega)
      have e2 : (y + 2) * w + w ≤ w * h := by
        rw [← Nat.succ_mul, Nat.mul_comm]
        exact Nat.mul_le_mul_left w (by omega)
      omega
    have ei : b * w + (w + a) = (b + 1) * w + a := by ring
    have g1 := hr.at_eq (w + a) b (by rw [ei]; exact hlt)
    have g2 := hr.at_eq a (b + 1) hlt
    rw [ei, g2] at g1
    exact (Option.some.inj g1).symm
  have hC' : Candidate thr r fm f fp (w + c) y := by
    have es : ∀ (g : Nat → Nat → K) (img : GImage K), img.Rows w h g → ∀ dx, dx < 3 → ∀ dy, dy < 3 →
        g (w + c + dx - 1) (y + dy - 1) = g (c + dx - 1) (y + 1 + dy - 1) := by
      intro g img hr dx hdx dy hdy
      rw [show w + c + dx - 1 = w + (c + dx - 1) by omega, hsame g img hr _ _ (by omega) (by omega)]
      congr 1
      omega
    have e0 : f (w + c) y = f c (y + 1) := hsame f d.c hc c y (by omega) (by omega)
    have eF : ∀ dx, dx < 3 → ∀ dy, dy < 3 → f (w + c + dx - 1) (y + dy - 1) = f (c + dx - 1) (y + 1 + dy - 1) := es f d.c hc
    obtain ⟨c1, c2, c3⟩ := hC
    refine ⟨by rw [e0]; exact c1, ?_, ?_⟩
    · rcases c2 with ⟨p1, p2⟩ | ⟨p1, p2⟩
      · refine Or.inl ⟨by rw [e0]; exact p1, ?_⟩
        intro dx hdx dy hdy
        rw [e0, es fm d.m hm dx hdx dy hdy, es fp d.p hp dx hdx dy hdy, eF dx hdx dy hdy]
        exact p2 dx hdx dy hdy
      · refine Or.inr ⟨by rw [e0]; exact p1, ?_⟩
        intro dx hdx dy hdy
        rw [e0, es fm d.m hm dx hdx dy hdy, es fp d.p hp dx hdx dy hdy, eF dx hdx dy hdy]
        exact p2 dx hdx dy hdy
    · have a1 : f (w + c - 1) y = f (c - 1) (y + 1) := eF 0 (by omega) 1 (by omega)
      have a2 : f (w + c + 1) y = f (c + 1) (y + 1) := by rw [show w + c + 1 = w + (c + 1) by omega]; exact hsame f d.c hc _ _ (by omega) (by omega)
      have a3 : f (w + c) (y - 1) = f c y := by
        have := hsame f d.c hc c (y - 1) (by omega) (by omega); rwa [show y - 1 + 1 = y by omega] at this
      have a4 : f (w + c) (y + 1) = f c (y + 1 + 1) := hsame f d.c hc c (y + 1) (by omega) (by omega)
      have a5 : f (w + c + 1) (y + 1) = f (c + 1) (y + 1 + 1) := by rw [show w + c + 1 = w + (c + 1) by omega]; exact hsame f d.c hc _ _ (by omega) (by omega)
      have a6 : f (w + c - 1) (y + 1) = f (c - 1) (y + 1 + 1) := by rw [show w + c - 1 = w + (c - 1) by omega]; exact hsame f d.c hc _ _ (by omega) (by omega)
      have a7 : f (w + c + 1) (y - 1) = f (c + 1) y := by
        have := hsame f d.c hc (c + 1) (y - 1) (by omega) (by omega); rwa [show y - 1 + 1 = y by omega] at this
      have a8 : f (w + c - 1) (y - 1) = f (c - 1) y := by
        have := hsame f d.c hc (c - 1) (y - 1) (by omega) (by omega)
        rwa [show y - 1 + 1 = y by omega, show w + (c - 1) = w + c - 1 by omega] at this
      unfold EdgeOk dogXX dogYY dogXY at c3 ⊢
      rw [e0, a1, a2, a3, a4, a5, a6, a7, a8]
      exact c3
  rw [List.mem_flatMap]
  refine ⟨y - B, List.mem_range.mpr (by omega), ?_⟩
  unfold rowCandidates
  rw [List.mem_map]
  refine ⟨w + c - B, ?_, ?_⟩
  · rw [List.mem_filter, decide_eq_true_iff, show B + (w + c - B) = w + c by omega, show B + (y - B) = y by omega]
    exact ⟨List.mem_range.mpr (by omega), hC'⟩
  · rw [show B + (w + c - B) = w + c by omega, show B + (y - B) = y by omega]

/-- C87: the condition on the second derivatives in terms of the two curvatures `a` and `b` (the eigenvalues): they have the same sign and
each is less than `r` times the other. -/
theorem c87_edge (r : K) (hr : 1 ≤ r) (f : Nat → Nat → K) (x y : Nat) (a b : K) (h1 : a + b = dogXX f x y + dogYY f x y)
    (h2 : a * b = dogXX f x y * dogYY f x y - dogXY f x y ^ 2) :
    EdgeOk r f x y ↔ 0 < a * b ∧ |a| < r * |b| ∧ |b| < r * |a| := by
  unfold EdgeOk
  rw [← h1, ← h2]
  have key : (r + 1) ^ 2 * (a * b) - r * (a + b) ^ 2 = (r * b - a) * (r * a - b) := by ring
  have hlt : r * (a + b) ^ 2 < (r + 1) ^ 2 * (a * b) ↔ 0 < (r * b - a) * (r * a - b) := by rw [← key, sub_pos]
  rw [hlt]
  constructor
  · intro h
    rcases pos_and_pos_or_neg_and_neg_of_mul_pos h with ⟨p1, p2⟩ | ⟨p1, p2⟩
    · have ha : 0 < a := by
        by_contra hn
        have hn := not_lt.mp hn
        have : b < a := by nlinarith
        nlinarith
      have hb : 0 < b := by
        by_contra hn
        nlinarith
      rw [abs_of_pos ha, abs_of_pos hb]
      exact ⟨mul_pos ha hb, by linarith, by linarith⟩
    · have ha : a < 0 := by
        by_contra hn
        have hn := not_lt.mp hn
        have : a < b := by nlinarith
        nlinarith
      have hb : b < 0 := by
        by_contra hn
        nlinarith
      rw [abs_of_neg ha, abs_of_neg hb]
      exact ⟨mul_pos_of_neg_of_neg ha hb, by linarith, by linarith⟩
  · rintro ⟨h0, ha, hb⟩
    rcases pos_and_pos_or_neg_and_neg_of_mul_pos h0 with ⟨p1, p2⟩ | ⟨p1, p2⟩
    · rw [abs_of_pos p1, abs_of_pos p2] at ha hb
      exact mul_pos (by linarith) (by linarith)
    · rw [abs_of_neg p1, abs_of_neg p2] at ha hb
      exact mul_pos_of_neg_of_neg (by linarith) (by linarith)

end

/-! ## Findings and examples -/

/-- An image of a single number except for one pixel. -/
def spike (w h : Nat) (x y : Nat) (v : Rat) : GImage Rat :=
  ⟨w, h, w, (List.range (w * h)).map (fun k => if k = y * w + x then v else 0)⟩

/-- C87, finding: with a border of one pixel memory behind the images is read. -/
theorem c87_small_border : processDog ⟨spike 5 5 0 0 0, spike 5 5 0 4 1, spike 5 5 0 0 0⟩ 1 (1 / 2) 10 = .ub := by
  decide +kernel

/-- C87, finding: a column that does not exist. -/
example : processDog ⟨spike 8 8 0 0 0, spike 8 8 1 4 1, spike 8 8 0 0 0⟩ 2 (1 / 2) 10 = .ok [(9, 3)] := by
  decide +kernel

example : processDog ⟨spike 8 8 0 0 0, spike 8 8 3 4 (-1), spike 8 8 0 0 0⟩ 2 (1 / 2) 10 = .ok [(3, 4)] := by
  decide +kernel

theorem spike_rows (w h x y : Nat) (v : Rat) : (spike w h x y v).Rows w h (fun a b => if b * w + a = y * w + x then v else 0) := by
  refine ⟨rfl, ?_⟩
  intro a b hab
  unfold spike
  rw [List.getElem?_map, List.getElem?_range hab]
  rfl

/-- The hypotheses of `c87_inside`. -/
example : ∃ out, processDog ⟨spike 8 8 0 0 0, spike 8 8 3 4 (-1), spike 8 8 0 0 0⟩ 2 (1 / 2) 10 = .ok out ∧ ((3 : Int), (4 : Int)) ∈ out := by
  obtain ⟨out, e, _, h⟩ := c87_inside ⟨spike 8 8 0 0 0, spike 8 8 3 4 (-1), spike 8 8 0 0 0⟩ 8 8 8 2 _ _ _
    (spike_rows 8 8 0 0 0) (spike_rows 8 8 3 4 (-1)) (spike_rows 8 8 0 0 0) rfl rfl (by decide) (by decide)
    (by decide) (1 / 2) 10
  exact ⟨out, e, (h 3 4 (by decide)).mpr (by decide +kernel)⟩

/-- The hypotheses of `c87_wrapped`. -/
example : ∃ out, processDog ⟨spike 8 8 0 0 0, spike 8 8 1 4 1, spike 8 8 0 0 0⟩ 2 (1 / 2) 10 = .ok out ∧ ((9 : Int), (3 : Int)) ∈ out :=
  c87_wrapped ⟨spike 8 8 0 0 0, spike 8 8 1 4 1, spike 8 8 0 0 0⟩ 8 8 2 _ _ _
    (spike_rows 8 8 0 0 0) (spike_rows 8 8 1 4 1) (spike_rows 8 8 0 0 0) rfl rfl (by decide) (by decide)
    (1 / 2) 10 1 3 (by decide) (by decide) (by decide) (by decide) (by decide +kernel)

/-- Curvatures -3 and -1. -/
example : EdgeOk (10 : ℚ) (fun x y => if x = 1 ∧ y = 1 then 1 else if x = 1 then 1 / 2 else -(1 / 2)) 1 1 := by decide +kernel

end Nx
