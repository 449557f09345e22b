import Verif.Props.SfmtKey
import Mathlib.Data.Fintype.BigOperators
import Mathlib.Data.Fintype.Pigeonhole

/-!
# C134: long keys

There are more keys of 625 words than states.
-/

namespace Nx

/-- The key with given words. -/
def keyOf {n : Nat} (f : Fin n → Fin (2 ^ 32)) : List (BitVec 32) := List.ofFn fun i => BitVec.ofFin (f i)

theorem keyOf_inj {n : Nat} {f g : Fin n → Fin (2 ^ 32)} (h : keyOf f = keyOf g) : f = g := by
  have := List.ofFn_injective h
  funext i
  have := congrFun this i
  exact BitVec.ofFin.inj this

/-- A state is determined by its words. -/
theorem WordsAre.unique {st st' : List W128} {m m' : Nat → BitVec 32} (h1 : WordsAre st m) (h1' : WordsAre st' m')
    (hm : ∀ j, j < 624 → m j = m' j) : st = st' := by
  apply List.ext_getElem?
  intro i
  by_cases hi : i < 156
  · have hi1 : i < st.length := by rw [h1.1]; exact hi
    have hi2 : i < st'.length := by rw [h1'.1]; exact hi
    rw [List.getElem?_eq_getElem hi1, List.getElem?_eq_getElem hi2, Option.some.injEq]
    have hl : ∀ j, j < 4 → lane st[i].bv j = lane st'[i].bv j := by
      intro j hj
      have a := h1.2 (4 * i + j) (by omega)
      have b := h1'.2 (4 * i + j) (by omega)
      rw [hm _ (by omega), ← b] at a
      unfold wordAt at a
      rw [show (4 * i + j) / 4 = i by omega, show (4 * i + j) % 4 = j by omega, List.getElem?_eq_getElem hi1,
        List.getElem?_eq_getElem hi2] at a
      simpa using a
    obtain ⟨a0, a1, a2, a3⟩ := lane_bv st[i]
    obtain ⟨b0, b1, b2, b3⟩ := lane_bv st'[i]
    exact W128.ext (by rw [← a0, ← b0]; exact hl 0 (by decide)) (by rw [← a1, ← b1]; exact hl 1 (by decide))
      (by rw [← a2, ← b2]; exact hl 2 (by decide)) (by rw [← a3, ← b3]; exact hl 3 (by decide))
  · rw [List.getElem?_eq_none (by rw [h1.1]; omega), List.getElem?_eq_none (by rw [h1'.1]; omega)]

theorem card_words_lt {b m n : Nat} (hb : 1 < b) (h : m < n) : Fintype.card (Fin m → Fin b) < Fintype.card (Fin n → Fin b) := by
  rw [Fintype.card_fun, Fintype.card_fun, Fintype.card_fin, Fintype.card_fin, Fintype.card_fin]
  exact Nat.pow_lt_pow_right hb h

/-- C134 is false for long keys: from 625 words on there are two keys that are expanded to the same state, and give the same generator. -/
theorem c134_long_false {n : Nat} (h0 : 625 ≤ n) (hn : n < 2147483647) :
    ∃ key key' : List (BitVec 32), key.length = n ∧ key'.length = n ∧ key ≠ key' ∧ expandKey key n = expandKey key' n ∧
      initByArray key n = initByArray key' n := by
  have hc : Fintype.card (Fin 624 → Fin (2 ^ 32)) < Fintype.card (Fin n → Fin (2 ^ 32)) :=
    card_words_lt (by decide) (by omega)
  obtain ⟨f, g, hne, he⟩ := Fintype.exists_ne_map_eq_of_card_lt
    (fun (f : Fin n → Fin (2 ^ 32)) (i : Fin 624) => (expanded (keyOf f) n i.val).toFin) hc
  have len : ∀ f : Fin n → Fin (2 ^ 32), (keyOf f).length = n := fun f => by unfold keyOf; exact List.length_ofFn
  obtain ⟨sa, ea, wa⟩ := expandKey_words (key := keyOf f) (n := n) (by omega) (by rw [len])
  obtain ⟨sb, eb, wb⟩ := expandKey_words (key := keyOf g) (n := n) (by omega) (by rw [len])
  have hs : expandKey (keyOf f) n = expandKey (keyOf g) n := by
    rw [ea, eb]
    congr 1
    exact wa.unique wb fun j hj => BitVec.toFin_inj.mp (congrFun he ⟨j, hj⟩)
  exact ⟨keyOf f, keyOf g, len f, len g, fun h => hne (keyOf_inj h), hs, by unfold initByArray; rw [hs]⟩

/-- A length that meets the hypotheses. -/
example : ∃ key key' : List (BitVec 32), key.length = 1000 ∧ key'.length = 1000 ∧ key ≠ key' ∧ expandKey key 1000 = expandKey key' 1000 ∧
    initByArray key 1000 = initByArray key' 1000 :=
  c134_long_false (by decide) (by decide)

end Nx
