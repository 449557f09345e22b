import Verif.Model.BriefRandom
import Verif.Props.UniformSampler
import Verif.Props.Brief
import Verif.Lemmas.Sample

/-!
# C143: the random tests of a BRIEF extractor
-/

namespace Nx

/-- The first `n` tests of an array: the points are in the square of the radius and at least three pixels apart. -/
def GoodTests (r : Int) (n : Nat) (o : List Int) : Prop :=
  ∀ i, i < n → ∃ x0 y0 x1 y1, o[4 * i]? = some x0 ∧ o[4 * i + 1]? = some y0 ∧ o[4 * i + 2]? = some x1 ∧ o[4 * i + 3]? = some y1 ∧
    (-r ≤ x0 ∧ x0 ≤ r) ∧ (-r ≤ y0 ∧ y0 ≤ r) ∧ (-r ≤ x1 ∧ x1 ≤ r) ∧ (-r ≤ y1 ∧ y1 ≤ r) ∧ 3 * 3 ≤ (x1 - x0) * (x1 - x0) + (y1 - y0) * (y1 - y0)

theorem sampleS_le (v : BitVec 32) : sampleS v ≤ 4294967296 := by
  by_cases h : 4294967168 ≤ v.toNat
  · rw [(c69_sample v).1 h]
  · have := (c69_sample v).2 (by omega)
    omega

theorem round24_half {x : Nat} (h : x ≤ 2147483648) : round24 x ≤ 2147483648 := by
  rcases Nat.lt_or_ge x 2147483648 with h1 | h1
  · by_cases h2 : x < 2147483584
    · have := round24_up x 31 (by omega) (by decide)
      omega
    · have hl : Nat.log2 x = 30 := by
        rw [Nat.log2_eq_iff (by omega)]
        omega
      unfold round24
      rw [hl]
      simp only
      rw [if_neg (by decide)]
      split <;> omega
  · have : x = 2147483648 := by omega
    subst this
    decide +kernel

/-- The size of a coordinate. -/
theorem briefSize_le {r a : Nat} (hr : r ≤ 8388608) (ha : a ≤ 2147483648) : round24 (round24 a * round24 (2 * r)) / 4294967296 ≤ r := by
  rw [round24_small (2 * r) (by omega)]
  have h := round24_half ha
  have hP : round24 a * (2 * r) ≤ 2147483648 * (2 * r) := Nat.mul_le_mul_right _ h
  have hr2 := round24_up (round24 a * (2 * r)) 56 (by omega) (by decide)
  generalize round24 (round24 a * (2 * r)) = z at *
  have : z < (r + 1) * 4294967296 := by omega
  have := (Nat.div_lt_iff_lt_mul (by decide)).mpr this
  omega

theorem briefDraw_bounds {r : Nat} (hr : r ≤ 8388608) (v : BitVec 32) : -(r : Int) ≤ briefDraw r v ∧ briefDraw r v ≤ r := by
  unfold briefDraw
  have := sampleS_le v
  split
  · have := briefSize_le hr (a := sampleS v - 2147483648) (by omega)
    omega
  · have := briefSize_le hr (a := 2147483648 - sampleS v) (by omega)
    omega

theorem sq_bound {a R : Int} (h0 : -R ≤ a) (h1 : a ≤ R) : 0 ≤ a * a ∧ a * a ≤ R * R := by
  refine ⟨?_, ?_⟩
  · rcases Int.le_total 0 a with h | h
    · exact Int.mul_nonneg h h
    · exact Int.mul_nonneg_of_nonpos_of_nonpos h h
  · have h2 : 0 ≤ (R - a) * (R + a) := Int.mul_nonneg (by omega) (by omega)
    have e : (R - a) * (R + a) = R * R - a * a := by
      rw [Int.sub_mul, Int.mul_add, Int.mul_add, Int.mul_comm a R]
      omega
    omega

/-- The squares of the distances do not overflow. -/
theorem sq_fits {r : Nat} (hr : r ≤ 16383) {a b : Int} (ha : -(2 * (r : Int)) ≤ a ∧ a ≤ 2 * r) (hb : -(2 * (r : Int)) ≤ b ∧ b ≤ 2 * r) :
    InI32 (a * a) ∧ InI32 (b * b) ∧ InI32 (a * a + b * b) := by
  have h1 := sq_bound ha.1 ha.2
  have h2 := sq_bound hb.1 hb.2
  have h3 : (2 * (r : Int)) * (2 * (r : Int)) ≤ 32766 * 32766 :=
    Int.mul_le_mul (by omega) (by omega) (by omega) (by omega)
  unfold InI32
  omega

theorem briefSecond_spec {r : Nat} (hr : r ≤ 16383) {x0 y0 : Int} (hx : -(r : Int) ≤ x0 ∧ x0 ≤ r) (hy : -(r : Int) ≤ y0 ∧ y0 ≤ r) :
    ∀ (k : Nat) (vs : List (BitVec 32)), vs.length ≤ k → briefSecond r x0 y0 vs = .ok none ∨
      ∃ x1 y1 ws, briefSecond r x0 y0 vs = .ok (some ((x1, y1), ws)) ∧ (-(r : Int) ≤ x1 ∧ x1 ≤ r) ∧ (-(r : Int) ≤ y1 ∧ y1 ≤ r) ∧
        9 ≤ (x1 - x0) * (x1 - x0) + (y1 - y0) * (y1 - y0) := by
  intro k
  induction k with
  | zero =>
    intro vs h
    match vs, h with
    | [], _ => exact Or.inl rfl
  | succ k ih =>
    intro vs h
    match vs, h with
    | [], _ => exact Or.inl rfl
    | [_], _ => exact Or.inl rfl
    | v :: u :: vs, h =>
      have b1 := briefDraw_bounds (r := r) (by omega) v
      have b2 := briefDraw_bounds (r := r) (by omega) u
      rw [briefSecond]
      rw [if_pos (sq_fits hr (by omega) (by omega))]
      split
      · exact ih vs (by simp only [List.length_cons] at h; omega)
      · exact Or.inr ⟨_, _, vs, rfl, b1, b2, by omega⟩

theorem briefPair_spec {r : Nat} (hr : r ≤ 16383) (vs : List (BitVec 32)) : briefPair r vs = .ok none ∨
    ∃ x0 y0 x1 y1 ws, briefPair r vs = .ok (some ((x0, y0, x1, y1), ws)) ∧ (-(r : Int) ≤ x0 ∧ x0 ≤ r) ∧ (-(r : Int) ≤ y0 ∧ y0 ≤ r) ∧
      (-(r : Int) ≤ x1 ∧ x1 ≤ r) ∧ (-(r : Int) ≤ y1 ∧ y1 ≤ r) ∧ 9 ≤ (x1 - x0) * (x1 - x0) + (y1 - y0) * (y1 - y0) := by
  match vs with
  | [] => exact Or.inl rfl
  | [_] => exact Or.inl rfl
  | v :: u :: vs =>
    have b1 := briefDraw_bounds (r := r) (by omega) v
    have b2 := briefDraw_bounds (r := r) (by omega) u
    rw [briefPair]
    rcases briefSecond_spec hr b1 b2 _ vs (Nat.le_refl _) with e | ⟨x1, y1, ws, e, h1, h2, h3⟩ <;> rw [e]
    · exact Or.inl rfl
    · exact Or.inr ⟨_, _, _, _, ws, rfl, b1, b2, h1, h2, h3⟩

/-- What the loop writes is the same for all arrays. -/
theorem briefFill_spec {r : Nat} (hr : r ≤ 16383) : ∀ (k i : Nat) (vs : List (BitVec 32)),
    (∀ o : List Int, 4 * (i + k) ≤ o.length → briefFill r k i o vs = .ok none) ∨
    ∃ (ts : List (Int × Int × Int × Int)) (ws : List (BitVec 32)), ts.length = k ∧
      (∀ t ∈ ts, (-(r : Int) ≤ t.1 ∧ t.1 ≤ r) ∧ (-(r : Int) ≤ t.2.1 ∧ t.2.1 ≤ r) ∧ (-(r : Int) ≤ t.2.2.1 ∧ t.2.2.1 ≤ r) ∧
        (-(r : Int) ≤ t.2.2.2 ∧ t.2.2.2 ≤ r) ∧ 9 ≤ (t.2.2.1 - t.1) * (t.2.2.1 - t.1) + (t.2.2.2 - t.2.1) * (t.2.2.2 - t.2.1)) ∧
      ∀ o : List Int, 4 * (i + k) ≤ o.length → ∃ o', briefFill r k i o vs = .ok (some (o', ws)) ∧ o'.length = o.length ∧
        (∀ j t, ts[j]? = some t → o'[4 * (i + j)]? = some t.1 ∧ o'[4 * (i + j) + 1]? = some t.2.1 ∧ o'[4 * (i + j) + 2]? = some t.2.2.1 ∧
          o'[4 * (i + j) + 3]? = some t.2.2.2) ∧
        ∀ j : Nat, j < 4 * i ∨ 4 * (i + k) ≤ j → o'[j]? = o[j]? := by
  intro k
  induction k with
  | zero =>
    intro i vs
    exact Or.inr ⟨[], vs, rfl, by simp, fun o _ => ⟨o, rfl, rfl, by simp, fun _ _ => rfl⟩⟩
  | succ k ih =>
    intro i vs
    rcases briefPair_spec hr vs with e | ⟨x0, y0, x1, y1, us, e, g0, g1, g2, g3, g4⟩
    · refine Or.inl fun o _ => ?_
      rw [briefFill, e]
      rfl
    · have step : ∀ o : List Int, 4 * (i + (k + 1)) ≤ o.length → briefFill r (k + 1) i o vs =
          briefFill r k (i + 1) ((((o.set (4 * i) x0).set (4 * i + 1) y0).set (4 * i + 2) x1).set (4 * i + 3) y1) us := by
        intro o ho
        rw [briefFill, e]
        simp only [Res.ok_bind]
        rw [writeAt_ok _ (by omega)]
        simp only [Res.ok_bind]
        rw [writeAt_ok _ (by rw [List.length_set]; omega)]
        simp only [Res.ok_bind]
        rw [writeAt_ok _ (by simp only [List.length_set]; omega)]
        simp only [Res.ok_bind]
        rw [writeAt_ok _ (by simp only [List.length_set]; omega)]
        rfl
      rcases ih (i + 1) us with h | ⟨ts, ws, hk, hts, h⟩
      · refine Or.inl fun o ho => ?_
        rw [step o ho]
        exact h _ (by simp only [List.length_set]; omega)
      · refine Or.inr ⟨(x0, y0, x1, y1) :: ts, ws, by rw [List.length_cons, hk], ?_, ?_⟩
        · intro t ht
          rcases List.mem_cons.mp ht with rfl | ht
          · exact ⟨g0, g1, g2, g3, g4⟩
          · exact hts t ht
        · intro o ho
          obtain ⟨o', e', hl, hv, hkeep⟩ := h ((((o.set (4 * i) x0).set (4 * i + 1) y0).set (4 * i + 2) x1).set (4 * i + 3) y1)
            (by simp only [List.length_set]; omega)
          refine ⟨o', by rw [step o ho, e'], by rw [hl]; simp only [List.length_set], ?_, ?_⟩
          · intro j t hj
            match j with
            | 0 =>
              simp only [List.getElem?_cons_zero, Option.some.injEq] at hj
              subst hj
              rw [Nat.add_zero]
              rw [hkeep _ (Or.inl (by omega)), hkeep _ (Or.inl (by omega)), hkeep _ (Or.inl (by omega)), hkeep _ (Or.inl (by omega))]
              simp only [List.getElem?_set, List.length_set]
              repeat' apply And.intro
              all_goals simp only [show ∀ a : Nat, a + 3 ≠ a by omega, show ∀ a : Nat, a + 2 ≠ a by omega, show ∀ a : Nat, a + 1 ≠ a by omega,
                Nat.add_left_cancel_iff, Nat.reduceEqDiff, if_false, if_true]
              all_goals rw [if_pos (by omega)]
            | j + 1 =>
              simp only [List.getElem?_cons_succ] at hj
              have := hv j t hj
              rw [show i + (j + 1) = i + 1 + j by omega]
              exact this
          · intro j hj
            rw [hkeep j (by omega)]
            simp only [List.getElem?_set]
            rw [if_neg (by omega), if_neg (by omega), if_neg (by omega), if_neg (by omega)]

theorem limitLoop_within {r : Int} (o : List Int) : ∀ (m length i : Nat) (l l' : Int × Int × Int × Int), m = length - i →
    GoodTests r length o → limitLoop o length i l = .ok l' → -r ≤ l.1 → l.2.1 ≤ r → -r ≤ l.2.2.1 → l.2.2.2 ≤ r →
    -r ≤ l'.1 ∧ l'.2.1 ≤ r ∧ -r ≤ l'.2.2.1 ∧ l'.2.2.2 ≤ r := by
  intro m
  induction m with
  | zero =>
    intro length i l l' hm _ h h1 h2 h3 h4
    rw [limitLoop, if_neg (by omega)] at h
    cases h
    exact ⟨h1, h2, h3, h4⟩
  | succ m ih =>
    intro length i l l' hm hg h h1 h2 h3 h4
    rw [limitLoop, if_pos (by omega)] at h
    obtain ⟨x0, y0, x1, y1, e0, e1, e2, e3, b0, b1, b2, b3, -⟩ := hg i (by omega)
    rw [readAt_some e0, Res.ok_bind, readAt_some e1, Res.ok_bind, readAt_some e2, Res.ok_bind, readAt_some e3, Res.ok_bind] at h
    refine ih length (i + 1) _ l' (by omega) hg h ?_ ?_ ?_ ?_ <;> simp only [limitStep, minI, maxI] <;> (repeat' split) <;> omega

/-- C143: for every radius that does not overflow, whatever the numbers of the generator are, all accesses are in the array; if the function
ends, all tests are in the square of the radius, their points are three pixels apart, the limits are in the square too, and nothing else has
changed. -/
theorem c143_tests {be : Brief} {o : List Int} {r n : Nat} (ho : be.offsets = some o) (hr : be.radius = r) (hn : be.nOctets = n)
    (hr1 : 1 ≤ r) (hr2 : r ≤ 16383) (hl : 32 * n ≤ o.length) (vs : List (BitVec 32)) :
    briefSeeded vs be = .ok none ∨ ∃ o' lim, briefSeeded vs be = .ok (some { be with offsets := some o', limits := lim }) ∧
      GoodTests r (8 * n) o' ∧ o'.length = o.length ∧ (∀ j : Nat, 32 * n ≤ j → o'[j]? = o[j]?) ∧
      InLimits lim o' (8 * n) ∧ -(r : Int) ≤ lim.1 ∧ lim.2.1 ≤ r ∧ -(r : Int) ≤ lim.2.2.1 ∧ lim.2.2.2 ≤ r := by
  obtain ⟨radius, nOct, offs, lims, plo⟩ := be
  simp only at ho hr hn
  subst ho hr hn
  unfold briefSeeded
  simp only
  rw [if_pos (by unfold InI32; omega), Int.toNat_natCast, show ((n : Int) * 8).toNat = 8 * n by omega]
  rcases briefFill_spec hr2 (8 * n) 0 vs with h | ⟨ts, ws, hk, hts, h⟩
  · rw [h o (by omega)]
    exact Or.inl rfl
  · obtain ⟨o', e, hlen, hv, hkeep⟩ := h o (by omega)
    rw [e]
    simp only [Res.ok_bind]
    have hg : GoodTests r (8 * n) o' := by
      intro i hi
      have ht : ts[i]? = some ts[i] := List.getElem?_eq_getElem (by omega)
      obtain ⟨a, b, c, d⟩ := hv i _ ht
      rw [Nat.zero_add] at a b c d
      obtain ⟨g0, g1, g2, g3, g4⟩ := hts _ (List.mem_of_getElem? ht)
      exact ⟨_, _, _, _, a, b, c, d, g0, g1, g2, g3, g4⟩
    obtain ⟨lim, el⟩ := briefUpdateLimits_ok ⟨r, n, some o', lims, plo⟩ o' rfl (by simp only; omega)
    rw [el]
    simp only [Res.ok_bind]
    refine Or.inr ⟨o', lim, rfl, hg, hlen, fun j hj => hkeep j (Or.inr (by omega)), ?_, ?_⟩
    · have := briefUpdateLimits_bounds el rfl
      simp only at this
      rw [show ((n : Int) * 8).toNat = 8 * n by omega] at this
      exact this
    · unfold briefUpdateLimits at el
      simp only at el
      rw [show ((n : Int) * 8).toNat = 8 * n by omega] at el
      obtain ⟨l', e1, e2⟩ := Res.bind_eq_ok.mp el
      simp only [Res.pure_eq, Res.ok.injEq, Brief.mk.injEq, true_and, and_true] at e2
      subst e2
      exact limitLoop_within o' _ _ _ _ _ rfl hg e1 (by simp only; omega) (by simp only; omega) (by simp only; omega) (by simp only; omega)

theorem briefSecond_none {r : Nat} (hr : r ≤ 16383) {x0 y0 : Int} (hx : -(r : Int) ≤ x0 ∧ x0 ≤ r) (hy : -(r : Int) ≤ y0 ∧ y0 ≤ r)
    (hnear : ∀ a b : Int, -1 ≤ a → a ≤ 1 → -1 ≤ b → b ≤ 1 → (a - x0) * (a - x0) + (b - y0) * (b - y0) < 9) :
    ∀ (k : Nat) (vs : List (BitVec 32)), vs.length ≤ k → (∀ v ∈ vs, -1 ≤ briefDraw r v ∧ briefDraw r v ≤ 1) →
      briefSecond r x0 y0 vs = .ok none := by
  intro k
  induction k with
  | zero =>
    intro vs h _
    match vs, h with
    | [], _ => rfl
  | succ k ih =>
    intro vs h hv
    match vs, h, hv with
    | [], _, _ => rfl
    | [_], _, _ => rfl
    | v :: u :: vs, h, hv =>
      have b1 := hv v (by simp)
      have b2 := hv u (by simp)
      have c1 := briefDraw_bounds (r := r) (by omega) v
      have c2 := briefDraw_bounds (r := r) (by omega) u
      rw [briefSecond]
      rw [if_pos (sq_fits hr (by omega) (by omega)), if_pos (hnear _ _ b1.1 b1.2 b2.1 b2.2)]
      exact ih vs (by simp only [List.length_cons] at h; omega) (fun w hw => hv w (by simp [hw]))

theorem briefPair_none {r : Nat} (hr : r ≤ 16383) {vs : List (BitVec 32)} (hv : ∀ v ∈ vs, -1 ≤ briefDraw r v ∧ briefDraw r v ≤ 1) :
    briefPair r vs = .ok none := by
  match vs, hv with
  | [], _ => rfl
  | [_], _ => rfl
  | v :: u :: vs, hv =>
    have b1 := hv v (by simp)
    have b2 := hv u (by simp)
    rw [briefPair, briefSecond_none hr (briefDraw_bounds (by omega) v) (briefDraw_bounds (by omega) u) (by
      intro a b a1 a2 a3 a4
      have h1 := sq_bound (a := a - briefDraw r v) (R := 2) (by omega) (by omega)
      have h2 := sq_bound (a := b - briefDraw r u) (R := 2) (by omega) (by omega)
      omega) _ vs (Nat.le_refl _) (fun w hw => hv w (by simp [hw]))]
    rfl

theorem briefSized_none {r n : Nat} (hr0 : 1 ≤ r) (hr : r ≤ 16383) (hn : 1 ≤ n) (hn2 : n ≤ 67108863) {be : Brief} {vs : List (BitVec 32)}
    (hv : ∀ v ∈ vs, -1 ≤ briefDraw r v ∧ briefDraw r v ≤ 1) : briefSized vs be n r = .ok none := by
  unfold briefSized
  rw [if_pos (by omega), if_pos (by omega), if_pos (by unfold InI32; omega)]
  unfold briefSeeded
  simp only
  rw [if_pos (by unfold InI32; omega), Int.toNat_natCast, show ((n : Int) * 8).toNat = 8 * n - 1 + 1 by omega, briefFill, briefPair_none hr hv]
  rfl

/-- C143 is false: with the radius one the function never ends, whatever the numbers are. -/
theorem c143_one_false {n : Nat} (hn : 1 ≤ n) (hn2 : n ≤ 67108863) (be : Brief) (vs : List (BitVec 32)) :
    briefSized vs be n 1 = .ok none :=
  briefSized_none (r := 1) (by decide) (by decide) hn hn2 (fun v _ => briefDraw_bounds (by decide) v)

theorem round24_below {x : Nat} (h : x ≤ 2147483583) : round24 x ≤ 2147483520 := by
  by_cases h2 : x < 2147483392
  · have := round24_up x 31 (by omega) (by decide)
    omega
  · have hl : Nat.log2 x = 30 := by
      rw [Nat.log2_eq_iff (by omega)]
      omega
    unfold round24
    rw [hl]
    simp only
    rw [if_neg (by decide)]
    split <;> omega

theorem briefDraw_two {v : BitVec 32} (h0 : 65 ≤ v.toNat) (h1 : v.toNat < 4294967168) : -1 ≤ briefDraw 2 v ∧ briefDraw 2 v ≤ 1 := by
  have hs := (c69_sample v).2 h1
  have hlow : 65 ≤ sampleS v := by
    have := (round24_bounds v.toNat).1
    unfold sampleS
    by_cases h : v.toNat ≤ 16777216
    · rw [round24_small _ h]
      exact h0
    · omega
  have key : ∀ a, a ≤ 2147483583 → round24 (round24 a * round24 (2 * 2)) / 4294967296 ≤ 1 := by
    intro a ha
    have hb := round24_below ha
    rw [round24_small (2 * 2) (by decide)]
    have h2 := round24_up (round24 a * (2 * 2)) 33 (by omega) (by decide)
    omega
  unfold briefDraw
  split
  · have := key (sampleS v - 2147483648) (by omega)
    omega
  · have := key (2147483648 - sampleS v) (by omega)
    omega

/-- C143 is false: with the radius two the function does not end before one of the numbers is among the 65 smallest or 128 largest. -/
theorem c143_two_false {n : Nat} (hn : 1 ≤ n) (hn2 : n ≤ 67108863) (be : Brief) (vs : List (BitVec 32))
    (hv : ∀ v ∈ vs, 65 ≤ v.toNat ∧ v.toNat < 4294967168) : briefSized vs be n 2 = .ok none :=
  briefSized_none (r := 2) (by decide) (by decide) hn hn2 (fun v h => briefDraw_two (hv v h).1 (hv v h).2)

theorem round24_shift {r : Nat} (hr : r ≤ 8388608) : round24 (2147483648 * (2 * r)) / 4294967296 = r := by
  by_cases h0 : r = 0
  · subst h0
    decide
  · have e : round24 (2147483648 * (2 * r)) = 2147483648 * (2 * r) := by
      apply round24_exact
      have hl : Nat.log2 (2147483648 * (2 * r)) < 56 := (Nat.log2_lt (by omega)).mpr (by omega)
      have h1 : 2 ^ (Nat.log2 (2147483648 * (2 * r)) + 1 - 24) ∣ 2 ^ 32 := Nat.pow_dvd_pow 2 (by omega)
      exact Nat.dvd_trans h1 ⟨r, by omega⟩
    rw [e]
    omega

theorem briefDraw_zero {r : Nat} (hr : r ≤ 8388608) : briefDraw r 0#32 = -(r : Int) := by
  have e : sampleS 0#32 = 0 := by decide
  unfold briefDraw
  rw [e, if_neg (by decide), Nat.sub_zero, show round24 2147483648 = 2147483648 by decide +kernel, round24_small (2 * r) (by omega),
    round24_shift hr]

theorem briefDraw_max {r : Nat} (hr : r ≤ 8388608) : briefDraw r 4294967295#32 = r := by
  have e : sampleS 4294967295#32 = 4294967296 := (c69_sample _).1 (by decide)
  unfold briefDraw
  rw [e, if_pos (by decide), show round24 (4294967296 - 2147483648) = 2147483648 by decide +kernel, round24_small (2 * r) (by omega),
    round24_shift hr]

/-- C143 is false: from the radius 16384 on the square of the distance can overflow. -/
theorem c143_far_false {r n : Nat} (hr : 16384 ≤ r) (hr2 : r ≤ 8388608) (hn : 1 ≤ n) (hn2 : n ≤ 67108863) (be : Brief)
    (vs : List (BitVec 32)) : briefSized (0#32 :: 0#32 :: 4294967295#32 :: 4294967295#32 :: vs) be n r = .ub := by
  unfold briefSized
  rw [if_pos (by omega), if_pos (by omega), if_pos (by unfold InI32; omega)]
  unfold briefSeeded
  simp only
  rw [if_pos (by unfold InI32; omega), Int.toNat_natCast, show ((n : Int) * 8).toNat = 8 * n - 1 + 1 by omega, briefFill, briefPair,
    briefDraw_zero hr2, briefSecond, briefDraw_max hr2, if_neg]
  · rfl
  · have h : (32768 : Int) * 32768 ≤ ((r : Int) - -r) * ((r : Int) - -r) := Int.mul_le_mul (by omega) (by omega) (by omega) (by omega)
    unfold InI32
    omega

/-! ## The loop can end -/

theorem briefSecond_more {r : Nat} {x0 y0 : Int} : ∀ (k : Nat) (vs us : List (BitVec 32)) (p : Int × Int) (ws : List (BitVec 32)),
    vs.length ≤ k → briefSecond r x0 y0 vs = .ok (some (p, us)) → briefSecond r x0 y0 (vs ++ ws) = .ok (some (p, us ++ ws)) := by
  intro k
  induction k with
  | zero =>
    intro vs us p ws h e
    match vs, h with
    | [], _ => cases e
  | succ k ih =>
    intro vs us p ws h e
    match vs, h with
    | [], _ => cases e
    | [_], _ => cases e
    | v :: u :: vs, h =>
      rw [briefSecond] at e
      rw [List.cons_append, List.cons_append, briefSecond]
      split at e
      · rename_i h1
        rw [if_pos h1]
        split at e
        · rename_i h2
          rw [if_pos h2]
          exact ih vs us p ws (by simp only [List.length_cons] at h; omega) e
        · rename_i h2
          rw [if_neg h2]
          cases e
          rfl
      · cases e

theorem briefSecond_now {r : Nat} (hr3 : 3 ≤ r) (hr : r ≤ 16383) {x0 y0 : Int} (hx : -(r : Int) ≤ x0 ∧ x0 ≤ r)
    (hy : -(r : Int) ≤ y0 ∧ y0 ≤ r) : ∃ ws p, briefSecond r x0 y0 ws = .ok (some (p, [])) := by
  rcases Int.le_total 0 x0 with h | h
  · refine ⟨[0#32, 0#32], (-r, -r), ?_⟩
    rw [briefSecond, briefDraw_zero (by omega), if_pos (sq_fits hr (by omega) (by omega)), if_neg]
    have h1 : (3 : Int) * 3 ≤ (x0 - -r) * (x0 - -r) := Int.mul_le_mul (by omega) (by omega) (by omega) (by omega)
    have e : (-(r : Int) - x0) * (-(r : Int) - x0) = (x0 - -r) * (x0 - -r) := by
      rw [← Int.neg_mul_neg (x0 - -r), show -(x0 - -(r : Int)) = -r - x0 by omega]
    have h2 := sq_bound (a := -(r : Int) - y0) (R := 2 * r) (by omega) (by omega)
    omega
  · refine ⟨[4294967295#32, 4294967295#32], (r, r), ?_⟩
    rw [briefSecond, briefDraw_max (by omega), if_pos (sq_fits hr (by omega) (by omega)), if_neg]
    have h1 : (3 : Int) * 3 ≤ ((r : Int) - x0) * (r - x0) := Int.mul_le_mul (by omega) (by omega) (by omega) (by omega)
    have h2 := sq_bound (a := (r : Int) - y0) (R := 2 * r) (by omega) (by omega)
    omega

theorem briefSecond_can {r : Nat} (hr3 : 3 ≤ r) (hr : r ≤ 16383) {x0 y0 : Int} (hx : -(r : Int) ≤ x0 ∧ x0 ≤ r)
    (hy : -(r : Int) ≤ y0 ∧ y0 ≤ r) : ∀ (k : Nat) (vs : List (BitVec 32)), vs.length ≤ k →
      ∃ ws p us, briefSecond r x0 y0 (vs ++ ws) = .ok (some (p, us)) := by
  have two : ∀ (v u : BitVec 32) (vs : List (BitVec 32)), (∃ ws p us, briefSecond r x0 y0 (vs ++ ws) = .ok (some (p, us))) →
      ∃ ws p us, briefSecond r x0 y0 (v :: u :: (vs ++ ws)) = .ok (some (p, us)) := by
    intro v u vs ⟨ws, p, us, e⟩
    have b1 := briefDraw_bounds (r := r) (by omega) v
    have b2 := briefDraw_bounds (r := r) (by omega) u
    refine ⟨ws, ?_⟩
    rw [briefSecond, if_pos (sq_fits hr (by omega) (by omega))]
    split
    · exact ⟨p, us, e⟩
    · exact ⟨_, _, rfl⟩
  intro k
  induction k with
  | zero =>
    intro vs h
    match vs, h with
    | [], _ =>
      obtain ⟨ws, p, e⟩ := briefSecond_now hr3 hr hx hy
      exact ⟨ws, p, [], e⟩
  | succ k ih =>
    intro vs h
    match vs, h with
    | [], _ => exact ih [] (Nat.zero_le _)
    | [v], _ =>
      obtain ⟨ws, p, us, e⟩ := two v 0#32 [] (ih [] (Nat.zero_le _))
      exact ⟨0#32 :: ws, p, us, e⟩
    | v :: u :: vs, h => exact two v u vs (ih vs (by simp only [List.length_cons] at h; omega))

theorem briefPair_more {r : Nat} {vs us : List (BitVec 32)} {t : Int × Int × Int × Int} (ws : List (BitVec 32))
    (e : briefPair r vs = .ok (some (t, us))) : briefPair r (vs ++ ws) = .ok (some (t, us ++ ws)) := by
  match vs with
  | [] => cases e
  | [_] => cases e
  | v :: u :: vs =>
    rw [briefPair] at e
    rw [List.cons_append, List.cons_append, briefPair]
    obtain ⟨o, e1, e2⟩ := Res.bind_eq_ok.mp e
    match o with
    | none => cases e2
    | some (p, us') =>
      rw [briefSecond_more _ vs us' p ws (Nat.le_refl _) e1]
      cases e2
      rfl

theorem briefPair_can {r : Nat} (hr3 : 3 ≤ r) (hr : r ≤ 16383) (vs : List (BitVec 32)) :
    ∃ ws t us, briefPair r (vs ++ ws) = .ok (some (t, us)) := by
  have two : ∀ (v u : BitVec 32) (vs : List (BitVec 32)), ∃ ws t us, briefPair r (v :: u :: (vs ++ ws)) = .ok (some (t, us)) := by
    intro v u vs
    obtain ⟨ws, p, us, e⟩ := briefSecond_can hr3 hr (briefDraw_bounds (r := r) (by omega) v) (briefDraw_bounds (r := r) (by omega) u) _ vs
      (Nat.le_refl _)
    refine ⟨ws, (briefDraw r v, briefDraw r u, p.1, p.2), us, ?_⟩
    rw [briefPair, e]
    rfl
  match vs with
  | [] =>
    obtain ⟨ws, t, us, e⟩ := two 0#32 0#32 []
    exact ⟨0#32 :: 0#32 :: ws, t, us, e⟩
  | [v] =>
    obtain ⟨ws, t, us, e⟩ := two v 0#32 []
    exact ⟨0#32 :: ws, t, us, e⟩
  | v :: u :: vs => exact two v u vs

theorem briefFill_can {r : Nat} (hr3 : 3 ≤ r) (hr : r ≤ 16383) : ∀ (k i : Nat) (vs : List (BitVec 32)) (o : List Int),
    4 * (i + k) ≤ o.length → ∃ ws x, briefFill r k i o (vs ++ ws) = .ok (some x) := by
  intro k
  induction k with
  | zero =>
    intro i vs o _
    exact ⟨[], _, rfl⟩
  | succ k ih =>
    intro i vs o ho
    obtain ⟨ws, t, us, e⟩ := briefPair_can hr3 hr vs
    obtain ⟨ws', x, e'⟩ := ih (i + 1) us ((((o.set (4 * i) t.1).set (4 * i + 1) t.2.1).set (4 * i + 2) t.2.2.1).set (4 * i + 3) t.2.2.2)
      (by simp only [List.length_set]; omega)
    refine ⟨ws ++ ws', x, ?_⟩
    rw [← List.append_assoc, briefFill, briefPair_more ws' e]
    simp only [Res.ok_bind]
    rw [writeAt_ok _ (by omega)]
    simp only [Res.ok_bind]
    rw [writeAt_ok _ (by rw [List.length_set]; omega)]
    simp only [Res.ok_bind]
    rw [writeAt_ok _ (by simp only [List.length_set]; omega)]
    simp only [Res.ok_bind]
    rw [writeAt_ok _ (by simp only [List.length_set]; omega)]
    exact e'

/-- C143: from the radius three on, whatever the numbers have been so far, there are further ones with which the function ends; missing: how
likely they are. -/
theorem c143_ends_partial {be : Brief} {o : List Int} {r n : Nat} (ho : be.offsets = some o) (hr : be.radius = r) (hn : be.nOctets = n)
    (hr3 : 3 ≤ r) (hr2 : r ≤ 16383) (hl : 32 * n ≤ o.length) (vs : List (BitVec 32)) :
    ∃ ws be', briefSeeded (vs ++ ws) be = .ok (some be') := by
  obtain ⟨ws, x, e⟩ := briefFill_can hr3 hr2 (8 * n) 0 vs o (by omega)
  refine ⟨ws, ?_⟩
  rcases c143_tests ho hr hn (by omega) hr2 hl (vs ++ ws) with h | ⟨_, _, h, -⟩
  · exfalso
    unfold briefSeeded at h
    rw [ho] at h
    simp only at h
    rw [if_pos (by unfold InI32; omega), hr, hn, Int.toNat_natCast, show ((n : Int) * 8).toNat = 8 * n by omega, e] at h
    simp only [Res.ok_bind] at h
    obtain ⟨_, _, h2⟩ := Res.bind_eq_ok.mp h
    cases h2
  · exact ⟨_, h⟩

/-! ## The C++ class -/

/-- The result for two arrays that have exactly the room for the tests. -/
theorem briefSeeded_same {a b a' b' : Brief} {o1 o2 : List Int} {r n : Nat} (ha : a.offsets = some o1) (hb : b.offsets = some o2)
    (hra : a.radius = r) (hrb : b.radius = r) (hna : a.nOctets = n) (hnb : b.nOctets = n) (hp : a.pyrLevelOffset = b.pyrLevelOffset)
    (hr2 : r ≤ 16383) (h1 : o1.length = 32 * n) (h2 : o2.length = 32 * n)
    {vs : List (BitVec 32)} (ea : briefSeeded vs a = .ok (some a')) (eb : briefSeeded vs b = .ok (some b')) : a' = b' := by
  unfold briefSeeded at ea eb
  rw [ha] at ea
  rw [hb] at eb
  simp only at ea eb
  rw [if_pos (by unfold InI32; omega), hra, hna, Int.toNat_natCast, show ((n : Int) * 8).toNat = 8 * n by omega] at ea
  rw [if_pos (by unfold InI32; omega), hrb, hnb, Int.toNat_natCast, show ((n : Int) * 8).toNat = 8 * n by omega] at eb
  rcases briefFill_spec hr2 (8 * n) 0 vs with h | ⟨ts, ws, hk, -, h⟩
  · rw [h o1 (by omega)] at ea
    cases ea
  · obtain ⟨p1, e1, l1, v1, -⟩ := h o1 (by omega)
    obtain ⟨p2, e2, l2, v2, -⟩ := h o2 (by omega)
    have hp12 : p1 = p2 := by
      apply List.ext_getElem?
      intro j
      by_cases hj : j < 32 * n
      · obtain ⟨t, ht⟩ : ∃ t, ts[j / 4]? = some t := ⟨_, List.getElem?_eq_getElem (by omega)⟩
        have a1 := v1 _ _ ht
        have a2 := v2 _ _ ht
        rw [Nat.zero_add] at a1 a2
        have hj4 : j = 4 * (j / 4) ∨ j = 4 * (j / 4) + 1 ∨ j = 4 * (j / 4) + 2 ∨ j = 4 * (j / 4) + 3 := by omega
        generalize j / 4 = q at *
        rcases hj4 with rfl | rfl | rfl | rfl
        · rw [a1.1, a2.1]
        · rw [a1.2.1, a2.2.1]
        · rw [a1.2.2.1, a2.2.2.1]
        · rw [a1.2.2.2, a2.2.2.2]
      · rw [List.getElem?_eq_none (by omega), List.getElem?_eq_none (by omega)]
    subst hp12
    rw [e1] at ea
    rw [e2] at eb
    simp only [Res.ok_bind] at ea eb
    unfold briefUpdateLimits at ea eb
    simp only at ea
    simp only at eb
    cases hl : limitLoop p1 ((n : Int) * 8).toNat 0 (2147483647, -2147483647, 2147483647, -2147483647) with
    | ok l =>
      rw [hl] at ea eb
      simp only [Res.ok_bind, Res.pure_eq, Res.ok.injEq, Option.some.injEq] at ea eb
      rw [← ea, ← eb, hp]
    | fatal => rw [hl] at ea; cases ea
    | ub => rw [hl] at ea; cases ea

/-- C143: extractors of the C++ class with the same sizes have the same tests and limits, whenever they are made. -/
theorem c143_clock {gen : BitVec 32 → List (BitVec 32)} {now now' : BitVec 32} {n r : Int} (hr : r ≤ 16383) {a b : Brief}
    (ea : vgBriefNew gen now n r = .ok (some a)) (eb : vgBriefNew gen now' n r = .ok (some b)) : a = b := by
  have made : ∀ (t : BitVec 32) (c : Brief), vgBriefNew gen t n r = .ok (some c) → 0 < n ∧ 0 < r ∧ ∃ (m : Brief) (o : List Int),
      m.offsets = some o ∧ o.length = 32 * n.toNat ∧ m.radius = r ∧ m.nOctets = n ∧ m.pyrLevelOffset = 2 ∧
      briefGood gen m = .ok (some c) := by
    intro t c e
    unfold vgBriefNew at e
    obtain ⟨x, e1, e2⟩ := Res.bind_eq_ok.mp e
    match x with
    | none => cases e2
    | some m =>
      unfold briefSized at e1
      split at e1
      · rename_i hn
        split at e1
        · rename_i hr0
          split at e1
          · rename_i hI
            have hlen : (briefReserve briefAlloc n).length = 32 * n.toNat := by
              unfold briefReserve
              rw [if_pos (show briefAlloc.nOctets < n by simp only [briefAlloc]; omega), List.length_replicate]
              omega
            rcases c143_tests (be := ⟨r, n, some (briefReserve briefAlloc n), briefAlloc.limits, briefAlloc.pyrLevelOffset⟩) (r := r.toNat)
              (n := n.toNat) rfl (by simp only; omega) (by simp only; omega) (by omega) (by omega) (by rw [hlen]) (gen t) with
              h | ⟨o', lim, h, -, hl, -⟩
            · rw [h] at e1
              cases e1
            · rw [h] at e1
              cases e1
              exact ⟨hn, hr0, _, o', rfl, by rw [hl, hlen], rfl, rfl, rfl, e2⟩
          · cases e1
        · cases e1
      · cases e1
  obtain ⟨hn, hr0, m1, o1, a1, a2, a3, a4, a5, a6⟩ := made now a ea
  obtain ⟨-, -, m2, o2, b1, b2, b3, b4, b5, b6⟩ := made now' b eb
  unfold briefGood at a6 b6
  rw [a3] at a6
  rw [b3] at b6
  split at a6
  · rename_i h
    rw [if_pos h] at b6
    exact briefSeeded_same (r := r.toNat) (n := n.toNat) a1 b1 (by omega) (by omega) (by omega) (by omega) (by rw [a5, b5]) (by omega)
      a2 b2 a6 b6
  · rename_i h
    rw [if_neg h] at b6
    exact briefSeeded_same (r := r.toNat) (n := n.toNat) a1 b1 (by omega) (by omega) (by omega) (by omega) (by rw [a5, b5]) (by omega)
      a2 b2 a6 b6

/-! ## Examples -/

example : briefDraw 24 2147483648#32 = 0 ∧ briefDraw 24 3000000000#32 = 9 ∧ briefDraw 24 1000000000#32 = -12 := by decide +kernel

/-- Eight tests with the radius 24, each from the same four numbers. -/
example : ∃ be, briefSized (List.flatten (List.replicate 8 [0#32, 1000000000#32, 3000000000#32, 3000000000#32])) briefAlloc 1 24 = .ok (some be) ∧
    be.limits = (-24, 9, -12, 9) := by
  refine ⟨⟨24, 1, some (List.flatten (List.replicate 8 [-24, -12, 9, 9])), (-24, 9, -12, 9), 2⟩, ?_, rfl⟩
  decide +kernel

example : ∃ be, vgBriefNew (fun _ => List.flatten (List.replicate 8 [0#32, 1000000000#32, 3000000000#32, 3000000000#32])) 5#32 1 24 =
    .ok (some be) ∧ be.offsets = some (List.flatten (List.replicate 8 [-24, -12, 9, 9])) := by
  refine ⟨⟨24, 1, some (List.flatten (List.replicate 8 [-24, -12, 9, 9])), (-24, 9, -12, 9), 2⟩, ?_, rfl⟩
  decide +kernel

/-- The radius two with one of the smallest numbers. -/
example : briefPair 2 [0#32, 0#32, 3000000000#32, 3000000000#32] = .ok none ∧
    briefPair 2 [0#32, 0#32, 4000000000#32, 4000000000#32] = .ok (some ((-2, -2, 1, 1), [])) := ⟨rfl, rfl⟩

end Nx
