import Verif.Spec.Harris
import Verif.Lemmas.ImageArith

/-!
# Lemmas about the detection of Harris corners
-/

namespace Nx

theorem forLoop_max {σ : Type} (P : Nat → σ → Prop) {n : Nat} {body : Nat → σ → Res σ} {i0 : Nat} {s : σ}
    (h0 : P i0 s) (hb : ∀ i s, i0 ≤ i → i < n → P i s → ∃ s', body i s = .ok s' ∧ P (i + 1) s') :
    ∃ s', forLoop n body i0 s = .ok s' ∧ P (max i0 n) s' := by
  by_cases hle : i0 ≤ n
  · rw [Nat.max_eq_right hle]
    exact forLoop_spec P hle h0 hb
  · refine ⟨s, by rw [forLoop, if_neg (by omega)], ?_⟩
    rw [Nat.max_eq_left (by omega)]
    exact h0

theorem aboveAll_spec {d : List Rat} {c : Rat} {l : List Nat} {v : Nat → Rat} (h : ∀ i ∈ l, d[i]? = some (v i)) :
    ∃ b, aboveAll d c l = .ok b ∧ (b = true ↔ ∀ i ∈ l, v i < c) := by
  induction l with
  | nil => exact ⟨true, rfl, by simp⟩
  | cons i is ih =>
    obtain ⟨b, e, hb⟩ := ih (fun j hj => h j (List.mem_cons_of_mem _ hj))
    unfold aboveAll
    rw [readAt_some (h i List.mem_cons_self)]
    simp only [Res.ok_bind]
    by_cases hc : c > v i
    · rw [if_pos hc]
      refine ⟨b, e, ?_⟩
      rw [hb]
      constructor
      · intro hall j hj
        rcases List.mem_cons.1 hj with rfl | hj
        · exact hc
        · exact hall j hj
      · intro hall j hj
        exact hall j (List.mem_cons_of_mem _ hj)
    · rw [if_neg hc]
      refine ⟨false, rfl, ?_⟩
      constructor
      · intro hf
        cases hf
      · intro hall
        exact absurd (hall i List.mem_cons_self) hc

theorem harrisPeak_spec {simg : GImage Rat} {w h : Nat} {s : Nat → Nat → Rat} (hs : simg.Shows w h s) (thr : Rat) {x y : Nat}
    (hx : 2 ≤ x) (hx' : x + 2 < w) (hy : 2 ≤ y) (hy' : y + 2 < h) :
    ∃ b, harrisPeak simg thr x y = .ok b ∧ (b = true ↔ IsCorner w h s thr (x, y)) := by
  have key : ∀ x' y', x' < w → y' < h → simg.data[y' * simg.stride + x']? = some (s x' y') := hs.pixel_eq
  have hat : ∀ x' y', x' < w → y' < h → ∀ v : Nat → Rat, (∀ a b, a < w → b < h → v (b * simg.stride + a) = s a b) →
      simg.data[y' * simg.stride + x']? = some (v (y' * simg.stride + x')) := by
    intro x' y' h1 h2 v hv
    rw [hv x' y' h1 h2]
    exact key x' y' h1 h2
  obtain ⟨v, hv⟩ : ∃ v : Nat → Rat, ∀ a b, a < w → b < h → v (b * simg.stride + a) = s a b := by
    refine ⟨fun i => (simg.data[i]?).getD 0, ?_⟩
    intro a b ha hb
    simp only
    rw [key a b ha hb]
    rfl
  unfold harrisPeak
  rw [readAt_some (key x y (by omega) (by omega))]
  simp only [Res.ok_bind]
  by_cases hc : s x y > thr
  · rw [if_pos hc]
    obtain ⟨b, e, hb⟩ := aboveAll_spec (d := simg.data) (c := s x y) (v := v)
      (l := [y * simg.stride + (x - 1), y * simg.stride + (x + 1),
      (y - 1) * simg.stride + (x - 1), (y - 1) * simg.stride + x, (y - 1) * simg.stride + (x + 1),
      (y + 1) * simg.stride + (x - 1), (y + 1) * simg.stride + x, (y + 1) * simg.stride + (x + 1)]) (by
        intro i hi
        simp only [List.mem_cons, List.not_mem_nil, or_false] at hi
        rcases hi with rfl | rfl | rfl | rfl | rfl | rfl | rfl | rfl <;> exact hat _ _ (by omega) (by omega) v hv)
    refine ⟨b, e, ?_⟩
    rw [hb]
    simp only [List.forall_mem_cons, List.not_mem_nil, false_imp_iff, implies_true, and_true]
    rw [hv (x - 1) y (by omega) (by omega), hv (x + 1) y (by omega) (by omega), hv (x - 1) (y - 1) (by omega) (by omega),
      hv x (y - 1) (by omega) (by omega), hv (x + 1) (y - 1) (by omega) (by omega), hv (x - 1) (y + 1) (by omega) (by omega),
      hv x (y + 1) (by omega) (by omega), hv (x + 1) (y + 1) (by omega) (by omega)]
    constructor
    · rintro ⟨h1, h2, h3, h4, h5, h6, h7, h8⟩
      refine ⟨hx, hx', hy, hy', hc, ?_⟩
      intro x' y' a1 a2 a3 a4 hne
      simp only at a1 a2 a3 a4 hne ⊢
      have cx : x' = x - 1 ∨ x' = x ∨ x' = x + 1 := by omega
      have cy : y' = y - 1 ∨ y' = y ∨ y' = y + 1 := by omega
      rcases cx with rfl | rfl | rfl <;> rcases cy with rfl | rfl | rfl <;> first | assumption | (exact absurd ⟨rfl, rfl⟩ hne)
    · intro hcor
      have hp := hcor.peak
      simp only at hp
      refine ⟨?_, ?_, ?_, ?_, ?_, ?_, ?_, ?_⟩ <;> apply hp <;> omega
  · rw [if_neg hc]
    refine ⟨false, rfl, ?_⟩
    constructor
    · intro hf
      cases hf
    · intro hcor
      exact absurd hcor.high hc

/-- Before position `(x, y)`. -/
def Before (y x : Nat) (p : Nat × Nat) : Prop := p.2 < y ∨ (p.2 = y ∧ p.1 < x)

/-- The state of the detection before position `(x, y)`. -/
def DetInv (w h : Nat) (s : Nat → Nat → Rat) (thr : Rat) (nmax : Nat) (keys0 : List NumKey) (y x : Nat) (d : Detection) : Prop :=
  ∃ P : List (Nat × Nat), P.Pairwise ReadingOrder ∧ (∀ p, p ∈ P ↔ IsCorner w h s thr p ∧ Before y x p) ∧
    d = ⟨min P.length nmax, (P.take nmax).mapIdx (keyAt s) ++ keys0.drop (min P.length nmax), decide (nmax ≤ P.length)⟩

theorem DetInv.body {simg : GImage Rat} {w h : Nat} {s : Nat → Nat → Rat} (hs : simg.Shows w h s) {thr : Rat} {nmax : Nat}
    {keys0 : List NumKey} (hk : nmax ≤ keys0.length) {x y : Nat} (hx : 2 ≤ x) (hx' : x + 2 < w) (hy : 2 ≤ y) (hy' : y + 2 < h)
    {d : Detection} (hd : DetInv w h s thr nmax keys0 y x d) :
    ∃ d', detectBody simg thr nmax y x d = .ok d' ∧ DetInv w h s thr nmax keys0 y (x + 1) d' := by
  obtain ⟨P, hP, hm, rfl⟩ := hd
  obtain ⟨b, eb, hb⟩ := harrisPeak_spec hs thr hx hx' hy hy'
  have step : ∀ p, IsCorner w h s thr p ∧ Before y (x + 1) p ↔ (IsCorner w h s thr p ∧ Before y x p) ∨ (IsCorner w h s thr (x, y) ∧ p = (x, y)) := by
    rintro ⟨a, c⟩
    unfold Before
    simp only
    constructor
    · rintro ⟨h1, h2⟩
      by_cases he : a = x ∧ c = y
      · obtain ⟨rfl, rfl⟩ := he
        exact Or.inr ⟨h1, rfl⟩
      · exact Or.inl ⟨h1, by omega⟩
    · rintro (⟨h1, h2⟩ | ⟨h1, h2⟩)
      · exact ⟨h1, by omega⟩
      · cases h2
        exact ⟨h1, by omega⟩
  by_cases hc : IsCorner w h s thr (x, y)
  · have hP' : (P ++ [(x, y)]).Pairwise ReadingOrder := by
      rw [List.pairwise_append]
      refine ⟨hP, List.pairwise_singleton _ _, ?_⟩
      intro p hp q hq
      rw [List.mem_singleton] at hq
      subst hq
      exact ((hm p).1 hp).2
    have hm' : ∀ p, p ∈ P ++ [(x, y)] ↔ IsCorner w h s thr p ∧ Before y (x + 1) p := by
      intro p
      rw [List.mem_append, List.mem_singleton, step p, hm p]
      constructor
      · rintro (h1 | h1)
        · exact Or.inl h1
        · exact Or.inr ⟨hc, h1⟩
      · rintro (h1 | h1)
        · exact Or.inl h1
        · exact Or.inr h1.2
    unfold detectBody
    by_cases hst : nmax ≤ P.length
    · simp only [hst, decide_true, if_true]
      refine ⟨_, rfl, P ++ [(x, y)], hP', hm', ?_⟩
      rw [List.length_append, List.length_singleton, List.take_append_of_le_length hst]
      rw [Nat.min_eq_right hst, Nat.min_eq_right (by omega), decide_eq_true (show nmax ≤ P.length + 1 by omega)]
    · simp only [hst, decide_false, Bool.false_eq_true, if_false]
      rw [eb, hb.2 hc]
      simp only [Res.ok_bind, if_true]
      rw [hs.read (by omega) (by omega)]
      simp only [Res.ok_bind]
      have e1 : min P.length nmax = P.length := Nat.min_eq_left (by omega)
      have e2 : P.take nmax = P := List.take_of_length_le (by omega)
      rw [e1, e2]
      have hlt : P.length < (P.mapIdx (keyAt s) ++ keys0.drop P.length).length := by
        rw [List.length_append, List.length_mapIdx, List.length_drop]
        omega
      rw [writeAt_ok _ hlt]
      refine ⟨_, rfl, P ++ [(x, y)], hP', hm', ?_⟩
      have e3 : min (P.length + 1) nmax = P.length + 1 := Nat.min_eq_left (by omega)
      have e4 : (P ++ [(x, y)]).take nmax = P ++ [(x, y)] := List.take_of_length_le (by rw [List.length_append, List.length_singleton]; omega)
      rw [e4]
      rw [List.length_append, List.length_singleton, e3, List.mapIdx_append, List.set_append_right _ _ (by rw [List.length_mapIdx]),
        List.length_mapIdx, Nat.sub_self]
      congr 1
      rw [List.append_assoc]
      congr 1
      have hk' : P.length < keys0.length := by omega
      rw [List.drop_eq_getElem_cons hk', List.set_cons_zero]
      simp [keyAt]
  · unfold detectBody
    have hm' : ∀ p, p ∈ P ↔ IsCorner w h s thr p ∧ Before y (x + 1) p := by
      intro p
      rw [step p, hm p]
      constructor
      · exact Or.inl
      · rintro (h1 | h1)
        · exact h1
        · exact absurd h1.1 hc
    have hb' : b = false := by
      cases b with
      | false => rfl
      | true => exact absurd (hb.1 rfl) hc
    rw [eb, hb']
    simp only [Res.ok_bind, Bool.false_eq_true, if_false]
    by_cases hst : nmax ≤ P.length
    · simp only [hst, decide_true, if_true]
      exact ⟨_, rfl, P, hP, hm', by simp [hst]⟩
    · simp only [hst, decide_false, Bool.false_eq_true, if_false]
      exact ⟨_, rfl, P, hP, hm', by simp [hst]⟩

theorem harrisDetect_ok {simg : GImage Rat} {w h : Nat} {s : Nat → Nat → Rat} (hs : simg.Shows w h s) (thr : Rat) (nmax : Nat)
    {keys0 : List NumKey} (hk : nmax ≤ keys0.length) :
    ∃ P, AllCorners w h s thr P ∧ harrisDetect nmax keys0 simg thr =
      .ok (min P.length nmax, (P.take nmax).mapIdx (keyAt s) ++ keys0.drop (min P.length nmax)) := by
  obtain ⟨d, e, P, h1, h2, h3⟩ := forLoop_max (n := simg.height - 2)
    (body := fun y d => forLoop (simg.width - 2) (detectBody simg thr nmax y) 2 d) (i0 := 2) (s := ⟨0, keys0, decide (nmax ≤ 0)⟩)
    (fun y d => DetInv w h s thr nmax keys0 y 2 d)
    ⟨[], List.Pairwise.nil, by
      intro p
      constructor
      · intro hp
        cases hp
      · rintro ⟨hc, hb⟩
        have h1 := hc.top
        have h2 := hc.left
        unfold Before at hb
        omega, by simp⟩
    (by
      intro y d hy hyn hd
      obtain ⟨d', e, hd'⟩ := forLoop_max (n := simg.width - 2) (body := detectBody simg thr nmax y) (i0 := 2) (s := d)
        (fun x d => DetInv w h s thr nmax keys0 y x d) hd (by
          intro x d hx hxn hd
          rw [hs.width_eq] at hxn
          rw [hs.height_eq] at hyn
          exact hd.body hs hk hx (by omega) hy (by omega))
      refine ⟨d', e, ?_⟩
      obtain ⟨P, h1, h2, h3⟩ := hd'
      refine ⟨P, h1, ?_, h3⟩
      intro p
      rw [h2 p]
      constructor
      · rintro ⟨hc, hb⟩
        refine ⟨hc, ?_⟩
        unfold Before at hb ⊢
        omega
      · rintro ⟨hc, hb⟩
        refine ⟨hc, ?_⟩
        have h1 := hc.left
        have h2 := hc.right
        have h3 := hs.width_eq
        unfold Before at hb ⊢
        omega)
  refine ⟨P, ⟨h1, ?_⟩, ?_⟩
  · intro p
    rw [h2 p]
    constructor
    · exact fun h => h.1
    · intro hc
      refine ⟨hc, ?_⟩
      have h1 := hc.bottom
      have h3 := hs.height_eq
      have h4 := hc.top
      unfold Before
      omega
  · unfold harrisDetect
    by_cases hn : nmax = 0
    · subst hn
      rw [if_pos (by omega)]
      simp
    · rw [if_neg (by omega), Int.toNat_natCast]
      have : decide (nmax ≤ 0) = false := by simp; omega
      rw [this] at e
      rw [e, h3]
      rfl

end Nx
