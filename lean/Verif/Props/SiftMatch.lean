import Mathlib.Tactic.Linarith
import Mathlib.Tactic.Ring
import Mathlib.Tactic.Positivity
import Verif.Model.SiftMatch
import Verif.Spec.SiftMatch
import Verif.Lemmas.Sample
import Verif.Lemmas.DataFrame

/-!
# Matching of SIFT descriptors (C83)
-/

namespace Nx

theorem sq_byte_le (x y : Byte) : (((x.toNat : Int) - y.toNat) ^ 2).toNat ≤ 65025 := by
  have hx := x.toNat_lt
  have hy := y.toNat_lt
  have h : ((x.toNat : Int) - y.toNat) ^ 2 ≤ 65025 := by nlinarith
  omega

theorem vecDistSq_append {a b : List Byte} (h : a.length = b.length) (x y : Byte) :
    vecDistSq (a ++ [x]) (b ++ [y]) = vecDistSq a b + (((x.toNat : Int) - y.toNat) ^ 2).toNat := by
  unfold vecDistSq
  rw [List.zipWith_append h]
  simp

theorem vecDistSq_le (a b : List Byte) : vecDistSq a b ≤ 65025 * a.length := by
  induction a generalizing b with
  | nil => simp [vecDistSq]
  | cons x a ih =>
    cases b with
    | nil => simp [vecDistSq]
    | cons y b =>
      have h1 := ih b
      have h2 := sq_byte_le x y
      simp only [vecDistSq, List.zipWith_cons_cons, List.sum_cons, List.length_cons] at h1 ⊢
      omega

theorem descAt_length (desc : List Byte) (i n : Nat) (h : 128 * n ≤ desc.length) (hi : i < n) : (descAt desc i).length = 128 := by
  unfold descAt
  rw [List.length_take, List.length_drop]
  omega

theorem ucDistSq_spec (v0 : List Byte) (o0 : Nat) (v1 : List Byte) (o1 n : Nat) (h0 : o0 + n ≤ v0.length)
    (h1 : o1 + n ≤ v1.length) (hn : n ≤ 33025) :
    ucDistSq n v0 o0 v1 o1 = .ok (vecDistSq ((v0.drop o0).take n) ((v1.drop o1).take n) : Nat) := by
  obtain ⟨s, e, hs⟩ := forLoop_spec
    (P := fun i (d : Int) => d = (vecDistSq ((v0.drop o0).take i) ((v1.drop o1).take i) : Nat))
    (n := n) (body := distSqBody v0 o0 v1 o1) (i0 := 0) (s := 0) (by omega) (by simp [vecDistSq]) (by
      rintro i d _ hi rfl
      have hl0 : o0 + i < v0.length := by omega
      have hl1 : o1 + i < v1.length := by omega
      unfold distSqBody
      rw [readAt_ok hl0, readAt_ok hl1]
      simp only [Res.ok_bind]
      have e0 : (v0.drop o0).take (i + 1) = (v0.drop o0).take i ++ [v0[o0 + i]] := by
        rw [List.take_add_one, List.getElem?_drop, List.getElem?_eq_getElem hl0]; rfl
      have e1 : (v1.drop o1).take (i + 1) = (v1.drop o1).take i ++ [v1[o1 + i]] := by
        rw [List.take_add_one, List.getElem?_drop, List.getElem?_eq_getElem hl1]; rfl
      have hlen : ((v0.drop o0).take i).length = i := by
        rw [List.length_take, List.length_drop]; omega
      have hlen1 : ((v1.drop o1).take i).length = i := by
        rw [List.length_take, List.length_drop]; omega
      have ea := vecDistSq_append (hlen.trans hlen1.symm) v0[o0 + i] v1[o1 + i]
      rw [← e0, ← e1] at ea
      have hb := vecDistSq_le ((v0.drop o0).take (i + 1)) ((v1.drop o1).take (i + 1))
      rw [e0, List.length_append, hlen, List.length_singleton, ← e0] at hb
      have hsq : 0 ≤ ((v0[o0 + i].toNat : Int) - v1[o1 + i].toNat) ^ 2 := by positivity
      have eq : ((v0[o0 + i].toNat : Int) - v1[o1 + i].toNat) * ((v0[o0 + i].toNat : Int) - v1[o1 + i].toNat)
        = ((v0[o0 + i].toNat : Int) - v1[o1 + i].toNat) ^ 2 := by ring
      rw [eq, if_pos (by omega)]
      exact ⟨_, rfl, by omega⟩)
  unfold ucDistSq
  rw [e, hs]

/-- The distances from vector `i` of one array to those of another. -/
def distTo (desc descp : List Byte) (i j : Nat) : Nat := vecDistSq (descAt desc i) (descAt descp j)

theorem distTo_le (desc descp : List Byte) (i j : Nat) : distTo desc descp i j ≤ 8323200 := by
  have h := vecDistSq_le (descAt desc i) (descAt descp j)
  have h2 : (descAt desc i).length ≤ 128 := by
    unfold descAt
    rw [List.length_take]
    omega
  unfold distTo
  omega

theorem descDist_spec {desc descp : List Byte} {i j n np : Nat} (h : 128 * n ≤ desc.length) (hp : 128 * np ≤ descp.length)
    (hi : i < n) (hj : j < np) :
    ucDistSq siftDim desc (i * siftDim) descp (j * siftDim) = .ok (distTo desc descp i j : Nat) := by
  unfold siftDim
  rw [ucDistSq_spec _ _ _ _ _ (by omega) (by omega) (by omega)]
  unfold distTo descAt
  rw [Nat.mul_comm i, Nat.mul_comm j]

theorem descOffset_ok {i : Nat} (h : i < 16777216) : descOffset i = .ok (i * siftDim) := by
  unfold descOffset siftDim
  rw [if_pos (by omega)]

/-! ## The two nearest candidates -/

/-- What the variables contain after the candidates below `j`. -/
def TwoInv (f : Nat → Nat) (j : Nat) (s : TwoNearest) : Prop :=
  (j = 0 ∧ s.id0 = -1 ∧ s.d0 = 2147483647 ∧ s.d1 = 2147483647) ∨
  ∃ a : Nat, a < j ∧ s.id0 = a ∧ s.d0 = f a ∧ (∀ k, k < j → f a ≤ f k) ∧ (∀ k, k < a → f a < f k) ∧
    ((j = 1 ∧ s.d1 = 2147483647) ∨ ∃ b, b < j ∧ b ≠ a ∧ s.d1 = f b ∧ ∀ k, k < j → k ≠ a → f b ≤ f k)

theorem twoNearest_step {f : Nat → Nat} {j : Nat} {s : TwoNearest} (hf : f j < 2147483647) (h : TwoInv f j s) :
    TwoInv f (j + 1) (if (f j : Int) < s.d0 then ⟨j, s.id0, f j, s.d0⟩
      else if (f j : Int) < s.d1 then { s with d1 := f j, id1 := j } else s) := by
  right
  rcases h with ⟨rfl, h1, h2, h3⟩ | ⟨a, ha, h1, h2, h3, h4, h5⟩
  · rw [if_pos (by omega)]
    refine ⟨0, by omega, rfl, rfl, ?_, by omega, Or.inl ⟨rfl, h2⟩⟩
    intro k hk
    obtain rfl : k = 0 := by omega
    exact Nat.le_refl _
  · by_cases hd : (f j : Int) < s.d0
    · rw [if_pos hd]
      have hja : f j < f a := by omega
      refine ⟨j, by omega, rfl, rfl, ?_, ?_, Or.inr ⟨a, by omega, by omega, h2, ?_⟩⟩
      · intro k hk
        rcases Nat.lt_or_ge k j with hkj | hkj
        · have := h3 k hkj; omega
        · obtain rfl : k = j := by omega
          exact Nat.le_refl _
      · intro k hk
        have := h3 k hk
        omega
      · intro k hk hne
        exact h3 k (by omega)
    · rw [if_neg hd]
      have haj : f a ≤ f j := by omega
      have h3' : ∀ k, k < j + 1 → f a ≤ f k := by
        intro k hk
        rcases Nat.lt_or_ge k j with hkj | hkj
        · exact h3 k hkj
        · obtain rfl : k = j := by omega
          exact haj
      by_cases hd1 : (f j : Int) < s.d1
      · rw [if_pos hd1]
        refine ⟨a, by omega, h1, h2, h3', h4, Or.inr ⟨j, by omega, by omega, rfl, ?_⟩⟩
        intro k hk hne
        rcases Nat.lt_or_ge k j with hkj | hkj
        · rcases h5 with ⟨rfl, h5⟩ | ⟨b, hb, hba, h5, h6⟩
          · omega
          · have := h6 k hkj hne
            omega
        · obtain rfl : k = j := by omega
          exact Nat.le_refl _
      · rw [if_neg hd1]
        refine ⟨a, by omega, h1, h2, h3', h4, Or.inr ?_⟩
        rcases h5 with ⟨rfl, h5⟩ | ⟨b, hb, hba, h5, h6⟩
        · omega
        · refine ⟨b, by omega, hba, h5, ?_⟩
          intro k hk hne
          rcases Nat.lt_or_ge k j with hkj | hkj
          · exact h6 k hkj hne
          · obtain rfl : k = j := by omega
            omega

theorem twoNearest_spec {desc descp : List Byte} {i n np : Nat} (h : 128 * n ≤ desc.length) (hp : 128 * np ≤ descp.length)
    (hi : i < n) (hnp : np ≤ 16777216) :
    ∃ s, forLoop np (twoNearestBody desc (i * siftDim) descp) 0 ⟨-1, -1, 2147483647, 2147483647⟩ = .ok s ∧
      TwoInv (distTo desc descp i) np s := by
  refine forLoop_spec (P := TwoInv (distTo desc descp i)) (by omega) (Or.inl ⟨rfl, rfl, rfl, rfl⟩) ?_
  intro j s _ hj hs
  have hl := distTo_le desc descp i j
  refine ⟨_, ?_, twoNearest_step (by omega) hs⟩
  unfold twoNearestBody
  rw [descOffset_ok (by omega), Res.ok_bind, descDist_spec h hp hi hj, Res.ok_bind]
  simp only [Res.pure_eq]
  split_ifs <;> rfl

/-- The test on the two smallest distances decides whether there is a clear nearest candidate. -/
theorem twoNearest_test {f : Nat → Nat} {np : Nat} {s : TwoNearest} {rd : Rat → Rat} (hr : FloatRound rd) {t : Rat}
    (ht0 : 0 ≤ t) (ht1 : t ≤ 1) (hf : ∀ j, f j ≤ 16777216) (h : TwoInv f np s) (j : Nat) :
    (rd s.d0 < rd (t * rd s.d1) ∧ s.id0 = j) ↔ ClearNearest f np (fun d => rd (t * rd d)) j := by
  have hpart : ∀ a b : Rat, a ≤ b → rd (t * rd a) ≤ rd (t * rd b) := fun a b hab =>
    hr.mono _ _ (mul_le_mul_of_nonneg_left (hr.mono _ _ hab) ht0)
  have hself : ∀ k, rd (t * rd (f k : Rat)) ≤ f k := by
    intro k
    have e := hr.exact (f k) (hf k)
    calc rd (t * rd (f k : Rat)) ≤ rd (f k : Rat) := by
          refine hr.mono _ _ ?_
          rw [e]
          have : (0 : Rat) ≤ f k := by positivity
          nlinarith
      _ = f k := e
  have hmax : ∀ k, rd (t * rd (f k : Rat)) ≤ rd (t * rd 2147483647) := by
    intro k
    refine hpart _ _ ?_
    have h1 : (f k : Rat) ≤ (16777216 : Nat) := by exact_mod_cast hf k
    have h2 : ((16777216 : Nat) : Rat) ≤ 2147483647 := by norm_num
    exact h1.trans h2
  rcases h with ⟨rfl, h1, h2, h3⟩ | ⟨a, ha, h1, h2, h3, h4, h5⟩
  · constructor
    · rintro ⟨_, h5⟩; omega
    · rintro ⟨h5, _⟩; omega
  · rw [h1, h2, Int.cast_natCast, hr.exact _ (hf a)]
    have hc : (f a : Rat) < rd (t * rd s.d1) ↔ ClearNearest f np (fun d => rd (t * rd d)) a := by
      rcases h5 with ⟨rfl, h5⟩ | ⟨b, hb, hba, h5, h6⟩
      · rw [h5]
        have e : ((2147483647 : Int) : Rat) = 2147483647 := by norm_num
        rw [e]
        constructor
        · intro hlt
          exact ⟨ha, fun k hk hne => by omega, hlt⟩
        · exact fun hcl => hcl.2.2
      · rw [h5, Int.cast_natCast]
        constructor
        · intro hlt
          refine ⟨ha, fun k hk hne => lt_of_lt_of_le hlt (hpart _ _ ?_), lt_of_lt_of_le hlt (hmax b)⟩
          exact_mod_cast h6 k hk hne
        · exact fun hcl => hcl.2.1 b hb hba
    constructor
    · rintro ⟨hlt, hj⟩
      obtain rfl : a = j := by omega
      exact hc.mp hlt
    · intro hcl
      have hja : j = a := by
        by_contra hne
        have h7 := hcl.2.1 a ha (fun e => hne e.symm)
        have h8 := lt_of_lt_of_le h7 (hself a)
        have h9 : f j < f a := by exact_mod_cast h8
        have := h3 j hcl.1
        omega
      subst hja
      exact ⟨hc.mpr hcl, rfl⟩

/-! ## The matches -/

/-- The match that is reported for the keypoints `i` and `j`. -/
def keyMatch (rd : Rat → Rat) (keys keyps : List NumKey) (desc descp : List Byte) (p : Nat × Nat) : Option (PMatch Rat) := do
  let k ← keys[p.1]?
  let kp ← keyps[p.2]?
  pure {
    x := (rd (k.xs * k.scale), rd (k.ys * k.scale))
    xp := (rd (kp.xs * kp.scale), rd (kp.ys * kp.scale))
    cost := vecDistSq (descAt desc p.1) (descAt descp p.2)
    sigmaX := rd (siftStdDev * k.scale)
    sigmaXp := rd (siftStdDev * kp.scale)
    id := BitVec.ofNat 64 k.id
    idp := BitVec.ofNat 64 kp.id
    inlier := false }

/-- The part of a distance that is compared, as it is computed with rounding. -/
def ratioPart (rd : Rat → Rat) (thr : Rat) (d : Rat) : Rat := rd (rd (thr * thr) * rd d)

theorem thrSq_range {rd : Rat → Rat} (hr : FloatRound rd) {thr : Rat} (h0 : 0 < thr) (h1 : thr < 1) :
    0 ≤ rd (thr * thr) ∧ rd (thr * thr) ≤ 1 := by
  have e0 := hr.exact 0 (by omega)
  have e1 := hr.exact 1 (by omega)
  have g0 := hr.mono ((0 : Nat) : Rat) (thr * thr) (by push_cast; positivity)
  have g1 := hr.mono (thr * thr) ((1 : Nat) : Rat) (by push_cast; nlinarith)
  rw [e0] at g0
  rw [e1] at g1
  push_cast at g0 g1
  exact ⟨g0, g1⟩

theorem set_append_here {α : Type} (l r : List α) (n : Nat) (x : α) (h : l.length = n) (hr : n < (l ++ r).length) :
    (l ++ r).set n x = (l ++ [x]) ++ r.drop 1 := by
  subst h
  cases r with
  | nil => simp at hr
  | cons a r => simp

/-- C83: with a threshold between 0 and 1, exactly the pairs are reported in which the
second keypoint is clearly the nearest one of the first, in the order of the first
keypoints; what lies behind in the array stays as it was. -/
theorem c83_ratio (rd : Rat → Rat) (hr : FloatRound rd) (n np : Nat) (keys keyps : List NumKey) (desc descp : List Byte)
    (corr : List (PMatch Rat)) (thr : Rat) (h0 : 0 < thr) (h1 : thr < 1) (hk : n ≤ keys.length) (hkp : np ≤ keyps.length)
    (hd : 128 * n ≤ desc.length) (hdp : 128 * np ≤ descp.length) (hn : n ≤ 16777216) (hnp : np ≤ 16777216)
    (hc : n ≤ corr.length) :
    ∃ (pairs : List (Nat × Nat)) (ms : List (PMatch Rat)),
      siftMatch rd n keys desc np keyps descp corr thr = .ok (pairs.length, ms ++ corr.drop pairs.length) ∧
      pairs.Pairwise (fun p q => p.1 < q.1) ∧
      (∀ p : Nat × Nat, p ∈ pairs ↔ p.1 < n ∧
        ClearNearest (fun j => vecDistSq (descAt desc p.1) (descAt descp j)) np (ratioPart rd thr) p.2) ∧
      ms.map some = pairs.map (keyMatch rd keys keyps desc descp) := by
  obtain ⟨ht0, ht1⟩ := thrSq_range hr h0 h1
  obtain ⟨s, e, pairs, ms, hs, hp, hm, hmap⟩ := forLoop_spec
    (P := fun i (s : Nat × List (PMatch Rat)) => ∃ (pairs : List (Nat × Nat)) (ms : List (PMatch Rat)),
      s = (pairs.length, ms ++ corr.drop pairs.length) ∧ pairs.Pairwise (fun p q => p.1 < q.1) ∧
      (∀ p : Nat × Nat, p ∈ pairs ↔ p.1 < i ∧
        ClearNearest (fun j => vecDistSq (descAt desc p.1) (descAt descp j)) np (ratioPart rd thr) p.2) ∧
      ms.map some = pairs.map (keyMatch rd keys keyps desc descp))
    (n := n) (body := ratioBody rd keys desc np keyps descp (rd (thr * thr))) (i0 := 0) (s := (0, corr)) (by omega)
    ⟨[], [], by simp, by simp, by simp, rfl⟩ (by
      rintro i s _ hi ⟨pairs, ms, rfl, hp, hm, hmap⟩
      obtain ⟨t, et, ht⟩ := twoNearest_spec hd hdp hi hnp
      have htest := twoNearest_test hr ht0 ht1 (fun j => (distTo_le desc descp i j).trans (by omega)) ht
      have hms : ms.length = pairs.length := by
        have := congrArg List.length hmap
        simpa using this
      have hle : pairs.length ≤ i := by
        have hnd : (pairs.map Prod.fst).Nodup := by
          rw [List.nodup_iff_pairwise_ne, List.pairwise_map]
          exact hp.imp (fun h => by omega)
        have hsub : (pairs.map Prod.fst) ⊆ List.range i := by
          intro a ha
          obtain ⟨p, hpm, rfl⟩ := List.mem_map.mp ha
          exact List.mem_range.mpr ((hm p).mp hpm).1
        have := (hnd.subperm hsub).length_le
        simpa using this
      unfold ratioBody
      rw [descOffset_ok (by omega), Res.ok_bind, et, Res.ok_bind]
      by_cases hlt : rd t.d0 < rd (rd (thr * thr) * rd t.d1)
      · rw [if_pos hlt]
        have hid : ∃ j : Nat, t.id0 = j := by
          rcases ht with ⟨rfl, g1, g2, g3⟩ | ⟨a, _, g, _⟩
          · exfalso
            rw [g2, g3] at hlt
            have hM : (0 : Rat) ≤ rd ((2147483647 : Int) : Rat) := by
              have := hr.mono ((0 : Nat) : Rat) ((2147483647 : Int) : Rat) (by norm_num)
              rw [hr.exact 0 (by omega)] at this
              simpa using this
            have h2 := hr.mono (rd (thr * thr) * rd ((2147483647 : Int) : Rat)) (rd ((2147483647 : Int) : Rat)) (by nlinarith)
            rw [hr.idem] at h2
            exact absurd hlt (not_lt.mpr h2)
          · exact ⟨a, g⟩
        obtain ⟨j, hj⟩ := hid
        have hcl := (htest j).mp ⟨hlt, hj⟩
        have hjl : j < keyps.length := by have := hcl.1; omega
        have hil : i < keys.length := by omega
        have hd0 : rd t.d0 = (distTo desc descp i j : Nat) := by
          rcases ht with ⟨rfl, g1, g2, g3⟩ | ⟨a, _, g1, g2, _⟩
          · have := hcl.1; omega
          · obtain rfl : a = j := by omega
            rw [g2, Int.cast_natCast, hr.exact _ ((distTo_le desc descp i a).trans (by omega))]
        rw [readAt_ok hil, Res.ok_bind, hj]
        unfold readI
        rw [if_pos (by omega), Int.toNat_natCast, readAt_ok hjl, Res.ok_bind]
        have hwl : pairs.length < (ms ++ corr.drop pairs.length).length := by
          rw [List.length_append, List.length_drop]; omega
        simp only
        rw [writeAt_ok _ hwl, Res.ok_bind]
        refine ⟨_, rfl, pairs ++ [(i, j)], ms ++ [matchFromKeys rd keys[i] keyps[j] siftStdDev (rd t.d0) false], ?_, ?_, ?_, ?_⟩
        · rw [set_append_here _ _ _ _ hms hwl, List.drop_drop]
          simp
        · rw [List.pairwise_append]
          refine ⟨hp, by simp, ?_⟩
          intro p hpm q hq
          rw [List.mem_singleton] at hq
          subst hq
          exact ((hm p).mp hpm).1
        · intro p
          rw [List.mem_append, List.mem_singleton, hm p]
          constructor
          · rintro (⟨g1, g2⟩ | rfl)
            · exact ⟨by omega, g2⟩
            · exact ⟨by simp, hcl⟩
          · rintro ⟨g1, g2⟩
            rcases Nat.lt_or_ge p.1 i with g3 | g3
            · exact Or.inl ⟨g3, g2⟩
            · right
              obtain rfl : p.1 = i := by omega
              have := ((htest p.2).mpr g2).2
              obtain rfl : p.2 = j := by omega
              rfl
        · rw [List.map_append, List.map_append, hmap, List.map_singleton, List.map_singleton, hd0]
          congr 2
          unfold keyMatch
          simp only [List.getElem?_eq_getElem hil, List.getElem?_eq_getElem hjl]
          rfl
      · rw [if_neg hlt]
        refine ⟨_, rfl, pairs, ms, rfl, hp, ?_, hmap⟩
        intro p
        rw [hm p]
        constructor
        · rintro ⟨g1, g2⟩
          exact ⟨by omega, g2⟩
        · rintro ⟨g1, g2⟩
          rcases Nat.lt_or_ge p.1 i with g3 | g3
          · exact ⟨g3, g2⟩
          · obtain rfl : p.1 = i := by omega
            exact absurd ((htest p.2).mpr g2).1 hlt)
  subst hs
  refine ⟨pairs, ms, ?_, hp, hm, hmap⟩
  unfold siftMatch
  rw [if_pos ⟨h0, h1⟩, e]

/-! ## Matching without a check -/

/-- What the variables contain after the candidates below `j`. -/
def OneInv (f : Nat → Nat) (j : Nat) (s : Int × Int) : Prop :=
  (j = 0 ∧ s = (-1, 2147483647)) ∨ ∃ a : Nat, FirstNearest f j a ∧ s = ((a : Int), (f a : Int))

theorem nearest_spec {desc descp : List Byte} {i n np : Nat} (h : 128 * n ≤ desc.length) (hp : 128 * np ≤ descp.length)
    (hi : i < n) (hnp : np ≤ 16777216) :
    ∃ s, forLoop np (nearestBody desc (i * siftDim) descp) 0 (-1, 2147483647) = .ok s ∧ OneInv (distTo desc descp i) np s := by
  refine forLoop_spec (P := OneInv (distTo desc descp i)) (by omega) (Or.inl ⟨rfl, rfl⟩) ?_
  intro j s _ hj hs
  have hl := distTo_le desc descp i j
  unfold nearestBody
  rw [descOffset_ok (by omega), Res.ok_bind, descDist_spec h hp hi hj, Res.ok_bind]
  rcases hs with ⟨rfl, rfl⟩ | ⟨a, ⟨ha, h1, h2⟩, rfl⟩
  · rw [if_pos (by simp only; omega)]
    refine ⟨_, rfl, Or.inr ⟨0, ⟨by omega, ?_, by omega⟩, rfl⟩⟩
    intro k hk
    obtain rfl : k = 0 := by omega
    exact Nat.le_refl _
  · by_cases hd : ((distTo desc descp i j : Nat) : Int) < ((distTo desc descp i a : Nat) : Int)
    · rw [if_pos hd]
      refine ⟨_, rfl, Or.inr ⟨j, ⟨by omega, ?_, ?_⟩, rfl⟩⟩
      · intro k hk
        rcases Nat.lt_or_ge k j with g | g
        · have := h1 k g; omega
        · obtain rfl : k = j := by omega
          exact Nat.le_refl _
      · intro k hk
        have := h1 k hk
        omega
    · rw [if_neg hd]
      refine ⟨_, rfl, Or.inr ⟨a, ⟨by omega, ?_, h2⟩, rfl⟩⟩
      intro k hk
      rcases Nat.lt_or_ge k j with g | g
      · exact h1 k g
      · obtain rfl : k = j := by omega
        omega

/-- C83: without a check of the ratio each keypoint is matched with the first of its
nearest candidates. -/
theorem c83_plain (rd : Rat → Rat) (hr : FloatRound rd) (n np : Nat) (keys keyps : List NumKey) (desc descp : List Byte)
    (corr : List (PMatch Rat)) (thr : Rat) (h0 : ¬(0 < thr ∧ thr < 1)) (hk : n ≤ keys.length) (hkp : np ≤ keyps.length)
    (hd : 128 * n ≤ desc.length) (hdp : 128 * np ≤ descp.length) (hn : n ≤ 16777216) (hnp : np ≤ 16777216)
    (hc : n ≤ corr.length) (hpos : 0 < np) :
    ∃ (js : List Nat) (ms : List (PMatch Rat)),
      siftMatch rd n keys desc np keyps descp corr thr = .ok (n, ms ++ corr.drop n) ∧ js.length = n ∧
      (∀ i j, js[i]? = some j → FirstNearest (fun j => vecDistSq (descAt desc i) (descAt descp j)) np j) ∧
      ms.map some = js.mapIdx (fun i j => keyMatch rd keys keyps desc descp (i, j)) := by
  obtain ⟨s, e, js, ms, hs, hlen, hm, hmap⟩ := forLoop_spec
    (P := fun i (s : List (PMatch Rat)) => ∃ (js : List Nat) (ms : List (PMatch Rat)),
      s = ms ++ corr.drop i ∧ js.length = i ∧
      (∀ i j, js[i]? = some j → FirstNearest (fun j => vecDistSq (descAt desc i) (descAt descp j)) np j) ∧
      ms.map some = js.mapIdx (fun i j => keyMatch rd keys keyps desc descp (i, j)))
    (n := n) (body := plainBody rd keys desc np keyps descp) (i0 := 0) (s := corr) (by omega)
    ⟨[], [], by simp, rfl, by simp, rfl⟩ (by
      rintro i s _ hi ⟨js, ms, rfl, hlen, hm, hmap⟩
      obtain ⟨t, et, ht⟩ := nearest_spec hd hdp hi hnp
      have hms : ms.length = i := by
        have := congrArg List.length hmap
        simpa [hlen] using this
      unfold plainBody
      rw [descOffset_ok (by omega), Res.ok_bind, et, Res.ok_bind]
      rcases ht with ⟨rfl, _⟩ | ⟨j, hj, rfl⟩
      · omega
      have hjl : j < keyps.length := by have := hj.1; omega
      have hil : i < keys.length := by omega
      rw [readAt_ok hil, Res.ok_bind]
      unfold readI
      simp only
      rw [if_pos (by omega), Int.toNat_natCast, readAt_ok hjl, Res.ok_bind]
      have hwl : i < (ms ++ corr.drop i).length := by
        rw [List.length_append, List.length_drop]; omega
      rw [writeAt_ok _ hwl]
      refine ⟨_, rfl, js ++ [j], ms ++ [matchFromKeys rd keys[i] keyps[j] siftStdDev (rd ((distTo desc descp i j : Nat) : Int)) false],
        ?_, by simp [hlen], ?_, ?_⟩
      · rw [set_append_here _ _ _ _ hms hwl, List.drop_drop]
      · intro a b hab
        rcases Nat.lt_or_ge a i with g | g
        · rw [List.getElem?_append_left (by omega)] at hab
          exact hm a b hab
        · have ha : a < (js ++ [j]).length := lt_of_get hab
          rw [List.length_append, List.length_singleton] at ha
          obtain rfl : a = i := by omega
          rw [List.getElem?_append_right (by omega), hlen] at hab
          simp only [Nat.sub_self, List.getElem?_cons_zero, Option.some.injEq] at hab
          subst hab
          exact hj
      · rw [List.map_append, List.mapIdx_append, hmap, List.map_singleton, hlen]
        congr 1
        simp only [List.mapIdx_cons, List.mapIdx_nil, Nat.zero_add, keyMatch, List.getElem?_eq_getElem hil, List.getElem?_eq_getElem hjl,
          Int.cast_natCast, hr.exact _ ((distTo_le desc descp i j).trans (by omega : 8323200 ≤ 16777216))]
        rfl)
  subst hs
  refine ⟨js, ms, ?_, hlen, hm, hmap⟩
  unfold siftMatch
  rw [if_neg h0, e]
  rfl

/-- C83, finding: without a check of the ratio and without candidates, the keypoint in
front of the array is read. -/
theorem c83_plain_empty (rd : Rat → Rat) (n : Nat) (keys keyps : List NumKey) (desc descp : List Byte)
    (corr : List (PMatch Rat)) (thr : Rat) (h0 : ¬(0 < thr ∧ thr < 1)) (hk : n ≤ keys.length) (hn : 0 < n) :
    siftMatch rd n keys desc 0 keyps descp corr thr = .ub := by
  unfold siftMatch
  rw [if_neg h0, forLoop_ub hn]
  · rfl
  · unfold plainBody
    rw [descOffset_ok (by omega), Res.ok_bind, forLoop, if_neg (by omega), Res.ok_bind, readAt_ok (by omega), Res.ok_bind]
    rfl

/-- C83: with a check of the ratio, no candidates means no matches. -/
theorem c83_ratio_empty (rd : Rat → Rat) (hr : FloatRound rd) (n : Nat) (keys keyps : List NumKey) (desc descp : List Byte)
    (corr : List (PMatch Rat)) (thr : Rat) (h0 : 0 < thr) (h1 : thr < 1) (hk : n ≤ keys.length)
    (hd : 128 * n ≤ desc.length) (hn : n ≤ 16777216) (hc : n ≤ corr.length) :
    siftMatch rd n keys desc 0 keyps descp corr thr = .ok (0, corr) := by
  obtain ⟨pairs, ms, e, _, hm, hmap⟩ := c83_ratio rd hr n 0 keys keyps desc descp corr thr h0 h1 hk (by omega) hd (by omega)
    hn (by omega) hc
  obtain rfl : pairs = [] := by
    rw [List.eq_nil_iff_forall_not_mem]
    intro p hp
    have := ((hm p).mp hp).2.1
    omega
  obtain rfl : ms = [] := by simpa using hmap
  simpa using e

/-- C83: the threshold has no effect from 1 on: the ratio is not checked. -/
theorem c83_large_threshold (rd : Rat → Rat) (n np : Nat) (keys keyps : List NumKey) (desc descp : List Byte)
    (corr : List (PMatch Rat)) (thr thr' : Rat) (h : 1 ≤ thr) (h' : thr' ≤ 0) :
    siftMatch rd n keys desc np keyps descp corr thr = siftMatch rd n keys desc np keyps descp corr thr' := by
  unfold siftMatch
  rw [if_neg (fun g => absurd g.2 (not_lt.mpr h)), if_neg (fun g => absurd g.1 (not_lt.mpr h'))]

/-! ## Consequences for the check of the ratio -/

/-- C83: a clear nearest candidate is the only one, and nearer than all others. -/
theorem c83_unique (rd : Rat → Rat) (hr : FloatRound rd) (f : Nat → Nat) (hf : ∀ j, f j ≤ 16777216) (np : Nat) (thr : Rat)
    (h0 : 0 < thr) (h1 : thr < 1) (j : Nat) (h : ClearNearest f np (ratioPart rd thr) j) :
    (∀ k, k < np → k ≠ j → f j < f k) ∧ ∀ k, ClearNearest f np (ratioPart rd thr) k → k = j := by
  obtain ⟨ht0, ht1⟩ := thrSq_range hr h0 h1
  have hself : ∀ k, ratioPart rd thr (f k : Rat) ≤ f k := by
    intro k
    have e := hr.exact (f k) (hf k)
    unfold ratioPart
    calc rd (rd (thr * thr) * rd (f k : Rat)) ≤ rd (f k : Rat) := by
          refine hr.mono _ _ ?_
          rw [e]
          have : (0 : Rat) ≤ f k := by positivity
          nlinarith
      _ = f k := e
  have key : ∀ j, ClearNearest f np (ratioPart rd thr) j → ∀ k, k < np → k ≠ j → f j < f k := by
    intro j h k hk hne
    have := lt_of_lt_of_le (h.2.1 k hk hne) (hself k)
    exact_mod_cast this
  refine ⟨key j h, ?_⟩
  intro k hk
  by_contra hne
  have g1 := key j h k hk.1 hne
  have g2 := key k hk j h.1 (fun e => hne e.symm)
  omega

/-- C83: raising the threshold keeps the matches. -/
theorem c83_monotone (rd : Rat → Rat) (hr : FloatRound rd) (f : Nat → Nat) (np : Nat) (thr thr' : Rat) (h0 : 0 < thr)
    (hle : thr ≤ thr') (j : Nat) (h : ClearNearest f np (ratioPart rd thr) j) : ClearNearest f np (ratioPart rd thr') j := by
  have hp : ∀ d : Rat, 0 ≤ d → ratioPart rd thr d ≤ ratioPart rd thr' d := by
    intro d hd
    unfold ratioPart
    refine hr.mono _ _ (mul_le_mul_of_nonneg_right (hr.mono _ _ (by nlinarith)) ?_)
    have := hr.mono ((0 : Nat) : Rat) d (by simpa using hd)
    rw [hr.exact 0 (by omega)] at this
    simpa using this
  exact ⟨h.1, fun k hk hne => lt_of_lt_of_le (h.2.1 k hk hne) (hp _ (by positivity)),
    lt_of_lt_of_le h.2.2 (hp _ (by norm_num))⟩

/-- C83: equally near candidates are no matches, in particular not those that occur twice. -/
theorem c83_ambiguous (rd : Rat → Rat) (hr : FloatRound rd) (f : Nat → Nat) (hf : ∀ j, f j ≤ 16777216) (np : Nat) (thr : Rat)
    (h0 : 0 < thr) (h1 : thr < 1) (j k : Nat) (hk : k < np) (hne : k ≠ j) (he : f k = f j) :
    ¬ ClearNearest f np (ratioPart rd thr) j := by
  intro h
  have := (c83_unique rd hr f hf np thr h0 h1 j h).1 k hk hne
  omega

theorem vecDistSq_eq_zero {a b : List Byte} (h : a.length = b.length) : vecDistSq a b = 0 ↔ a = b := by
  induction a generalizing b with
  | nil =>
    cases b with
    | nil => simp [vecDistSq]
    | cons y b => simp at h
  | cons x a ih =>
    cases b with
    | nil => simp at h
    | cons y b =>
      have ih' := ih (b := b) (by simpa using h)
      simp only [vecDistSq, List.zipWith_cons_cons, List.sum_cons, List.cons.injEq] at ih' ⊢
      rw [Nat.add_eq_zero_iff, ih']
      have hx : (((x.toNat : Int) - y.toNat) ^ 2).toNat = 0 ↔ x = y := by
        rw [Int.toNat_eq_zero]
        constructor
        · intro hle
          have : ((x.toNat : Int) - y.toNat) ^ 2 = 0 := le_antisymm hle (by positivity)
          have h2 := pow_eq_zero_iff (two_ne_zero) |>.mp this
          exact UInt8.toNat_inj.mp (by omega)
        · rintro rfl
          simp
      rw [hx]

/-- C83: with exact arithmetic, a keypoint whose descriptor occurs exactly once among the candidates is
matched with that one, whatever the threshold. -/
theorem c83_identical (n np : Nat) (desc descp : List Byte) (hd : 128 * n ≤ desc.length) (hdp : 128 * np ≤ descp.length)
    (thr : Rat) (h0 : 0 < thr) (i j : Nat) (hi : i < n) (hj : j < np) (he : descAt desc i = descAt descp j)
    (ho : ∀ k, k < np → k ≠ j → descAt descp k ≠ descAt descp j) :
    ClearNearest (fun j => vecDistSq (descAt desc i) (descAt descp j)) np (ratioPart id thr) j := by
  have hl := descAt_length desc i n hd hi
  have e0 : vecDistSq (descAt desc i) (descAt descp j) = 0 :=
    (vecDistSq_eq_zero (by rw [hl, descAt_length descp j np hdp hj])).mpr he
  refine ⟨hj, ?_, ?_⟩
  · intro k hk hne
    simp only [e0, ratioPart, id]
    have hpos : 0 < vecDistSq (descAt desc i) (descAt descp k) := by
      rw [Nat.pos_iff_ne_zero]
      intro h
      have := (vecDistSq_eq_zero (by rw [hl, descAt_length descp k np hdp hk])).mp h
      exact ho k hk hne (by rw [← this, he])
    have : (0 : Rat) < (vecDistSq (descAt desc i) (descAt descp k) : Nat) := by exact_mod_cast hpos
    push_cast
    positivity
  · simp only [e0, ratioPart, id]
    push_cast
    positivity

/-! ## Examples -/

/-- Exact arithmetic is a rounding in the sense of the theorems. -/
theorem floatRound_id : FloatRound id := ⟨fun _ _ h => h, fun _ => rfl, fun _ _ => rfl⟩

/-- Rounding downwards is a rounding in the sense of the theorems, so that they are not about exact arithmetic only. -/
example : FloatRound (fun x => (x.floor : Rat)) :=
  ⟨fun a b h => by exact_mod_cast Rat.floor_monotone h, fun a => by simp only [Rat.floor_intCast], fun n _ => by
    have h : (((n : Int) : Rat)).floor = n := Rat.floor_intCast n
    rw [Int.cast_natCast] at h
    simp only [h, Int.cast_natCast]⟩

/-- A keypoint with a given place. -/
def exampleKey (x : Rat) (id : Nat) : NumKey := ⟨0, 0, x, 1, 0, 2, 1, 0, 0, id⟩

/-- The descriptor with all values equal to `v`. -/
def exampleDesc (v : Byte) : List Byte := List.replicate 128 v

/-- The first keypoint has a clear nearest candidate, the second one has two near ones; without the
check both are matched. -/
example :
    let keys := [exampleKey 1 10, exampleKey 2 11]
    let desc := exampleDesc 9 ++ exampleDesc 20
    let keyps := [exampleKey 3 20, exampleKey 4 21, exampleKey 5 22]
    let descp := exampleDesc 21 ++ exampleDesc 10 ++ exampleDesc 19
    let junk : PMatch Rat := ⟨(0, 0), (0, 0), 0, 0, 0, 0, 0, true⟩
    (siftMatch id 2 keys desc 3 keyps descp [junk, junk] (4 / 5) =
      .ok (1, [matchFromKeys id (exampleKey 1 10) (exampleKey 4 21) siftStdDev 128 false, junk])) ∧
    siftMatch id 2 keys desc 3 keyps descp [junk, junk] 0 =
      .ok (2, [matchFromKeys id (exampleKey 1 10) (exampleKey 4 21) siftStdDev 128 false,
        matchFromKeys id (exampleKey 2 11) (exampleKey 3 20) siftStdDev 128 false]) := by
  decide +kernel

end Nx
