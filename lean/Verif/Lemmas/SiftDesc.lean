import Mathlib.Tactic.Linarith
import Mathlib.Tactic.Ring
import Mathlib.Tactic.Positivity
import Mathlib.Tactic.FieldSimp
import Mathlib.Tactic.LinearCombination
import Mathlib.Algebra.BigOperators.Intervals
import Verif.Model.SiftDesc
import Verif.Spec.SiftDesc
import Verif.Lemmas.Sample
import Verif.Lemmas.DataFrame

/-!
# Lemmas for SIFT descriptors
-/

namespace Nx

section
set_option linter.unusedSectionVars false
variable {K : Type} [Field K] [LinearOrder K] [IsStrictOrderedRing K] [FloorRing K]

theorem cFloor_le (x : K) : (cFloor x : K) ≤ x ∧ x ≤ cFloor x + 1 := by
  unfold cFloor cTrunc
  split_ifs with h1 h2 h3
  · exact ⟨Int.floor_le x, (Int.lt_floor_add_one x).le⟩
  · exact absurd h1.le h2
  · exact absurd h3 (by rw [gt_iff_lt, not_lt] at h1; intro h; linarith)
  · have e := Int.ceil_lt_add_one (x - 1)
    have g := Int.le_ceil (x - 1)
    constructor <;> linarith

theorem cFloor_pos {h : K} (h0 : 0 < h) (h8 : h ≤ 8) : 0 ≤ cFloor h ∧ cFloor h ≤ 8 := by
  unfold cFloor cTrunc
  rw [if_pos h0, if_pos h0.le]
  constructor
  · exact Int.floor_nonneg.mpr h0.le
  · have := Int.floor_le_floor h8
    have e : ⌊(8 : K)⌋ = 8 := by simp
    omega

theorem cFloor_zero : cFloor (0 : K) = -1 := by
  unfold cFloor cTrunc
  rw [if_neg (lt_irrefl _), if_neg (by simp)]
  have := Int.ceil_intCast (R := K) (-1)
  simpa using this

theorem tent_of_ge {t : K} (h : 1 ≤ |t|) : tent t = 0 := max_eq_left (by linarith)
theorem tent_of_le {t : K} (h : |t| ≤ 1) : tent t = 1 - |t| := max_eq_right (by linarith)

theorem tent_cases {x : K} {f : Int} (h1 : (f : K) ≤ x) (h2 : x ≤ f + 1) (c : Int) :
    tent (x - c) = (if c = f then 1 - (x - f) else 0) + if c = f + 1 then x - f else 0 := by
  rcases lt_trichotomy c f with h | rfl | h
  · rw [if_neg (by omega), if_neg (by omega), add_zero]
    have hc : (c : K) + 1 ≤ f := by exact_mod_cast h
    exact tent_of_ge (le_abs.mpr (Or.inl (by linarith)))
  · rw [if_pos rfl, if_neg (by omega), add_zero]
    have : |x - c| = x - c := abs_of_nonneg (by linarith)
    rw [tent_of_le (by rw [this]; linarith), this]
  · rw [if_neg (by omega), zero_add]
    by_cases hc : c = f + 1
    · subst hc
      rw [if_pos rfl]
      push_cast
      have : |x - (f + 1)| = f + 1 - x := by rw [abs_of_nonpos (by linarith)]; ring
      rw [tent_of_le (by rw [this]; linarith), this]
      ring
    · rw [if_neg hc]
      have hc : (f : K) + 2 ≤ c := by exact_mod_cast (by omega : f + 2 ≤ c)
      exact tent_of_ge (le_abs.mpr (Or.inr (by linarith)))

theorem tent_floor (x : K) (c : Nat) :
    tent (x - c) = (if (c : Int) = cFloor x then 1 - (x - cFloor x) else 0) + if (c : Int) = cFloor x + 1 then x - cFloor x else 0 := by
  have := tent_cases (cFloor_le x).1 (cFloor_le x).2 (c : Int)
  rwa [Int.cast_natCast] at this

theorem tent8_floor {h : K} (h0 : 0 < h) (h8 : h ≤ 8) (o : Nat) (ho : o < 8) :
    tent8 h o = (if (o : Int) = (if cFloor h ≥ 8 then 0 else cFloor h) then 1 - (h - cFloor h) else 0) +
      if (o : Int) = (if (if cFloor h ≥ 8 then 0 else cFloor h) + 1 ≥ 8 then 0 else (if cFloor h ≥ 8 then 0 else cFloor h) + 1)
        then h - cFloor h else 0 := by
  have hf := cFloor_pos h0 h8
  have hl := cFloor_le h
  have e1 := tent_floor h o
  have e2 := tent_floor h 8
  unfold tent8
  have e8 : ((8 : Nat) : K) = 8 := by norm_num
  rw [e8] at e2
  rw [e1, e2]
  generalize hg : cFloor h = f at *
  obtain ⟨f, rfl⟩ : ∃ n : Nat, f = n := ⟨f.toNat, by omega⟩
  have hf8 : f ≤ 8 := by omega
  rcases Nat.lt_or_ge f 8 with h7 | h7
  · have c8 : ¬ ((f : Int) ≥ 8) := by omega
    rw [if_neg c8]
    rcases Nat.lt_or_ge f 7 with h6 | h6
    · rw [if_neg (by omega : ¬ ((f : Int) + 1 ≥ 8)), if_neg (by omega : ¬ (((8 : Nat) : Int) = f)),
        if_neg (by omega : ¬ (((8 : Nat) : Int) = f + 1))]
      simp
    · obtain rfl : f = 7 := by omega
      rw [if_pos (by omega : (((7 : Nat) : Int) + 1 ≥ 8)), if_neg (by omega : ¬ (((8 : Nat) : Int) = (7 : Nat))), if_pos (by omega : (((8 : Nat) : Int) = (7 : Nat) + 1))]
      rw [if_neg (by omega : ¬ ((o : Int) = (7 : Nat) + 1))]
      by_cases h00 : o = 0
      · subst h00; simp
      · rw [if_neg h00, if_neg (by omega : ¬ (o : Int) = 0), add_zero]
  · obtain rfl : f = 8 := by omega
    have h88 : h = 8 := le_antisymm h8 (by have := hl.1; push_cast at this; exact this)
    subst h88
    rw [if_neg (by omega : ¬ ((o : Int) = (8 : Nat)))]
    rw [if_neg (by omega : ¬ ((o : Int) = (8 : Nat) + 1))]
    by_cases h00 : o = 0
    · subst h00; simp
    · rw [if_neg h00, if_pos (by omega : (((8 : Nat) : Int) ≥ 8)), if_neg (by omega : ¬ (o : Int) = 0)]
      simp

/-! ## Adding to the histogram -/

/-- `d'` is `d` with `A r c o` added in each cell. -/
def Adds (d d' : List K) (A : Nat → Nat → Nat → K) : Prop :=
  d.length = 128 ∧ d'.length = 128 ∧ ∀ r c o, r < 4 → c < 4 → o < 8 → ∀ v, d[(r * 4 + c) * 8 + o]? = some v →
    d'[(r * 4 + c) * 8 + o]? = some (v + A r c o)

theorem Adds.refl {d : List K} (h : d.length = 128) : Adds d d (fun _ _ _ => 0) :=
  ⟨h, h, fun r c o _ _ _ v hv => by simpa using hv⟩

theorem Adds.trans {d d' d'' : List K} {A B : Nat → Nat → Nat → K} (h : Adds d d' A) (h' : Adds d' d'' B) :
    Adds d d'' (fun r c o => A r c o + B r c o) :=
  ⟨h.1, h'.2.1, fun r c o hr hc ho v hv => by
    have := h'.2.2 r c o hr hc ho _ (h.2.2 r c o hr hc ho v hv)
    rwa [add_assoc] at this⟩

theorem Adds.congr {d d' : List K} {A B : Nat → Nat → Nat → K} (h : Adds d d' A)
    (e : ∀ r c o, r < 4 → c < 4 → o < 8 → A r c o = B r c o) : Adds d d' B :=
  ⟨h.1, h.2.1, fun r c o hr hc ho v hv => by rw [← e r c o hr hc ho]; exact h.2.2 r c o hr hc ho v hv⟩

theorem addAtI_spec {d : List K} (hd : d.length = 128) {row col hi : Int} (hr : 0 ≤ row ∧ row < 4) (hc : 0 ≤ col ∧ col < 4)
    (hh : 0 ≤ hi ∧ hi < 8) (v : K) :
    ∃ d', addAtI d (row * 4 * 8 + (col * 8 + hi)) v = .ok d' ∧
      Adds d d' (fun r c o => if (r : Int) = row ∧ (c : Int) = col ∧ (o : Int) = hi then v else 0) := by
  obtain ⟨row, rfl⟩ : ∃ n : Nat, row = n := ⟨row.toNat, by omega⟩
  obtain ⟨col, rfl⟩ : ∃ n : Nat, col = n := ⟨col.toNat, by omega⟩
  obtain ⟨hi, rfl⟩ : ∃ n : Nat, hi = n := ⟨hi.toNat, by omega⟩
  have hidx : ((row : Int) * 4 * 8 + ((col : Int) * 8 + (hi : Int))).toNat = row * 4 * 8 + (col * 8 + hi) := by omega
  have hlt : row * 4 * 8 + (col * 8 + hi) < d.length := by omega
  unfold addAtI readI writeI
  rw [if_pos (by omega), hidx, readAt_ok hlt, Res.ok_bind, if_pos (by omega), writeAt_ok _ hlt]
  refine ⟨_, rfl, hd, by rw [List.length_set, hd], ?_⟩
  intro r c o hr' hc' ho' w hw
  simp only
  by_cases h1 : (r * 4 + c) * 8 + o = row * 4 * 8 + (col * 8 + hi)
  · rw [if_pos (by omega), h1, List.getElem?_set_self hlt]
    rw [h1, List.getElem?_eq_getElem hlt] at hw
    rw [Option.some.inj hw]
  · rw [if_neg (by omega), List.getElem?_set_ne (by omega), hw, add_zero]

/-- What one cell update adds. -/
theorem cellAdd_spec {d : List K} (hd : d.length = 128) {row : Int} (col : Int) {hi0 hi1 : Int} (hr : 0 ≤ row ∧ row < 4)
    (h0 : 0 ≤ hi0 ∧ hi0 < 8) (h1 : 0 ≤ hi1 ∧ hi1 < 8) (ww heps : K) :
    ∃ d', cellAdd d row col hi0 hi1 ww heps = .ok d' ∧
      Adds d d' (fun r c o => if (r : Int) = row then (if (c : Int) = col then
        ww * ((if (o : Int) = hi0 then 1 - heps else 0) + if (o : Int) = hi1 then heps else 0) else 0) else 0) := by
  unfold cellAdd
  by_cases hc : 0 ≤ col ∧ col < 4
  · rw [if_pos hc]
    simp only
    obtain ⟨d1, e1, a1⟩ := addAtI_spec hd hr hc h0 (ww - ww * heps)
    obtain ⟨d2, e2, a2⟩ := addAtI_spec a1.2.1 hr hc h1 (ww * heps)
    rw [e1, Res.ok_bind, e2]
    refine ⟨d2, rfl, (a1.trans a2).congr ?_⟩
    intro r c o _ _ _
    by_cases g1 : (r : Int) = row
    · by_cases g2 : (c : Int) = col
      · simp only [g1, g2, true_and, if_true]
        by_cases g3 : (o : Int) = hi0
        · rw [if_pos g3, if_pos g3]
          by_cases g4 : (o : Int) = hi1
          · rw [if_pos g4, if_pos g4]; ring
          · rw [if_neg g4, if_neg g4]; ring
        · rw [if_neg g3, if_neg g3]
          by_cases g4 : (o : Int) = hi1
          · rw [if_pos g4, if_pos g4]; ring
          · rw [if_neg g4, if_neg g4]; ring
      · simp only [g2, false_and, and_false, if_false, ite_self, add_zero]
    · simp only [g1, false_and, if_false, add_zero]
  · rw [if_neg hc]
    refine ⟨d, rfl, (Adds.refl hd).congr ?_⟩
    intro r c o _ hc' _
    rw [if_neg (by omega : ¬ (c : Int) = col), ite_self]

theorem rowAdd_spec {d : List K} (hd : d.length = 128) (row pxi : Int) {hi0 hi1 : Int}
    (h0 : 0 ≤ hi0 ∧ hi0 < 8) (h1 : 0 ≤ hi1 ∧ hi1 < 8) (w xeps heps : K) :
    ∃ d', rowAdd d row pxi hi0 hi1 w xeps heps = .ok d' ∧
      Adds d d' (fun r c o => if (r : Int) = row then w *
        ((if (c : Int) = pxi then 1 - xeps else 0) + if (c : Int) = pxi + 1 then xeps else 0) *
        ((if (o : Int) = hi0 then 1 - heps else 0) + if (o : Int) = hi1 then heps else 0) else 0) := by
  unfold rowAdd
  by_cases hr : 0 ≤ row ∧ row < 4
  · rw [if_pos hr]
    obtain ⟨d1, e1, a1⟩ := cellAdd_spec hd pxi hr h0 h1 (w * (1 - xeps)) heps
    obtain ⟨d2, e2, a2⟩ := cellAdd_spec a1.2.1 (pxi + 1) hr h0 h1 (w * xeps) heps
    rw [e1, Res.ok_bind, e2]
    refine ⟨d2, rfl, (a1.trans a2).congr ?_⟩
    intro r c o _ _ _
    by_cases g1 : (r : Int) = row
    · simp only [g1, if_true]
      by_cases g2 : (c : Int) = pxi
      · have g3 : ¬ (c : Int) = pxi + 1 := by omega
        rw [if_pos g2, if_pos g2, if_neg g3, if_neg g3]; ring
      · rw [if_neg g2, if_neg g2]
        by_cases g3 : (c : Int) = pxi + 1
        · rw [if_pos g3, if_pos g3]; ring
        · rw [if_neg g3, if_neg g3]; ring
    · simp only [g1, if_false, add_zero]
  · rw [if_neg hr]
    refine ⟨d, rfl, (Adds.refl hd).congr ?_⟩
    intro r c o hr' _ _
    rw [if_neg (by omega : ¬ (r : Int) = row)]

/-- One sample: trilinear interpolation. -/
theorem deposit_spec {d : List K} (hd : d.length = 128) (px py : K) {h : K} (h0 : 0 < h) (h8 : h ≤ 8) (w : K) :
    ∃ d', deposit d px py h w = .ok d' ∧ Adds d d' (fun r c o => w * share px py h r c o) := by
  unfold deposit
  simp only
  have hf := cFloor_pos h0 h8
  have hb := tent8_floor h0 h8
  revert hb
  generalize hg0 : (if cFloor h ≥ 8 then 0 else cFloor h) = hi0
  generalize hg1 : (if hi0 + 1 ≥ 8 then 0 else hi0 + 1) = hi1
  intro hb
  have r0 : 0 ≤ hi0 ∧ hi0 < 8 := by
    rw [← hg0]; split_ifs <;> omega
  have r1 : 0 ≤ hi1 ∧ hi1 < 8 := by
    rw [← hg1]; split_ifs <;> omega
  obtain ⟨d1, e1, a1⟩ := rowAdd_spec hd (cFloor py) (cFloor px) r0 r1 (w * (1 - (py - cFloor py))) (px - cFloor px) (h - cFloor h)
  obtain ⟨d2, e2, a2⟩ := rowAdd_spec a1.2.1 (cFloor py + 1) (cFloor px) r0 r1 (w * (py - cFloor py)) (px - cFloor px) (h - cFloor h)
  rw [e1, Res.ok_bind, e2]
  refine ⟨d2, rfl, (a1.trans a2).congr ?_⟩
  intro r c o hr hc ho
  unfold share
  rw [hb o ho, tent_floor py r, tent_floor px c]
  by_cases g2 : (r : Int) = cFloor py
  · have g3 : ¬ (r : Int) = cFloor py + 1 := by omega
    rw [if_pos g2, if_pos g2, if_neg g3, if_neg g3]; ring
  · rw [if_neg g2, if_neg g2]
    by_cases g3 : (r : Int) = cFloor py + 1
    · rw [if_pos g3, if_pos g3]; ring
    · rw [if_neg g3, if_neg g3]; ring

/-! ## Directions -/

theorem wrapDown_spec (p : K) (hp : 0 < p) (o : K) : ∃ k : Nat, wrapDown p hp o = o - k * p ∧ wrapDown p hp o ≤ p ∧
    (k = 0 ∨ 0 < wrapDown p hp o) := by
  fun_induction wrapDown p hp o with
  | case1 o h ih =>
    obtain ⟨k, e, h1, h2⟩ := ih
    refine ⟨k + 1, ?_, h1, Or.inr ?_⟩
    · rw [e]; push_cast; ring
    · rcases h2 with rfl | h2
      · rw [e]; push_cast; linarith
      · exact h2
  | case2 o h => exact ⟨0, by simp, not_lt.mp h, Or.inl rfl⟩

theorem wrapUp_spec (p : K) (hp : 0 < p) (o : K) : ∃ k : Nat, wrapUp p hp o = o + k * p ∧ 0 ≤ wrapUp p hp o ∧
    (k = 0 ∨ wrapUp p hp o < p) := by
  fun_induction wrapUp p hp o with
  | case1 o h ih =>
    obtain ⟨k, e, h1, h2⟩ := ih
    refine ⟨k + 1, ?_, h1, Or.inr ?_⟩
    · rw [e]; push_cast; ring
    · rcases h2 with rfl | h2
      · rw [e]; push_cast; linarith
      · exact h2
  | case2 o h => exact ⟨0, by simp, not_lt.mp h, Or.inl rfl⟩

/-- The direction of a sample relative to the keypoint, in units of 45 degrees. -/
theorem sampleBin_spec (m : FloatMath K) (hp : 0 < 2 * m.pi) (key : SiftKey K) (gx gy : K) :
    0 ≤ sampleBin m hp key gx gy ∧ sampleBin m hp key gx gy ≤ 8 ∧
      ∃ k : Int, sampleBin m hp key gx gy * (2 * m.pi / 8) = m.atan2 gy gx - key.ori + k * (2 * m.pi) := by
  obtain ⟨k, e, h1, h2⟩ := wrapDown_spec (2 * m.pi) hp (m.atan2 gy gx - key.ori)
  obtain ⟨l, e', h3, h4⟩ := wrapUp_spec (2 * m.pi) hp (wrapDown (2 * m.pi) hp (m.atan2 gy gx - key.ori))
  have h5 : wrapUp (2 * m.pi) hp (wrapDown (2 * m.pi) hp (m.atan2 gy gx - key.ori)) ≤ 2 * m.pi := by
    rcases h4 with rfl | h4
    · rw [e']; simpa using h1
    · exact h4.le
  unfold sampleBin
  refine ⟨by positivity, ?_, (l : Int) - k, ?_⟩
  · have := (div_le_one hp).mpr h5
    linarith
  · have hpi : m.pi ≠ 0 := fun h0 => by rw [h0, mul_zero] at hp; exact lt_irrefl _ hp
    rw [e', e]
    field_simp
    push_cast
    ring

end

end Nx
