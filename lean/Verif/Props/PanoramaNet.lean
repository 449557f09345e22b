import Verif.Props.Panorama
import Verif.Spec.PanoramaNet
import Verif.Props.VecMax
import Verif.Props.Mat

/-! # C102: homographies to the reference image -/

namespace Nx

section
variable {K : Type} {est : Nat → Nat → M3 K × Int} {nCorr : Nat → Nat → Int} {expCost : Int → Rat} {n : Nat}
  {H0 : List (Option (M3 K))}

theorem fitInitial_eq (e : M3 K × Int) (hp : Option (M3 K)) (c : Int) :
    fitInitial e hp c = (if 0 < inliersOf c e.2 then some e.1 else none, inliersOf c e.2) := by
  unfold fitInitial inliersOf
  by_cases h1 : 20 ≤ c
  · by_cases h2 : 20 ≤ e.2
    · simp only [ge_iff_le, h1, h2, and_self, if_true]
      rw [if_pos (by omega)]
    · simp [h1, h2]
  · simp [h1]

/-- The inliers of a pair. -/
def pairInl (est : Nat → Nat → M3 K × Int) (nCorr : Nat → Nat → Int) (i j : Nat) : Int := inliersOf (nCorr i j) (est i j).2

theorem pairInl_nonneg (i j : Nat) : 0 ≤ pairInl est nCorr i j := by
  unfold pairInl inliersOf
  split <;> omega

/-- What a pair adds to the sum of image `k`. -/
def pairGain (inl : Nat → Nat → Int) (k a b : Nat) : Int :=
  if a = b then 0 else (if a = k then inl a b else 0) + (if b = k then inl a b else 0)

theorem pairIdx_inj {n a b a' b' : Nat} (ha : a < n) (ha' : a' < n) (h : b * n + a = b' * n + a') : b = b' ∧ a = a' := by
  have h1 : (b * n + a) / n = b := by
    rw [Nat.mul_comm, Nat.mul_add_div (by omega), Nat.div_eq_of_lt ha, Nat.add_zero]
  have h2 : (b' * n + a') / n = b' := by
    rw [Nat.mul_comm, Nat.mul_add_div (by omega), Nat.div_eq_of_lt ha', Nat.add_zero]
  have : b = b' := by rw [← h1, ← h2, h]
  subst this
  exact ⟨rfl, by omega⟩

theorem pairIdx_lt {n a b : Nat} (ha : a < n) (hb : b < n) : b * n + a < n * n := by
  calc b * n + a < b * n + n := by omega
    _ = (b + 1) * n := by rw [Nat.succ_mul]
    _ ≤ n * n := Nat.mul_le_mul_right _ hb

/-- What holds after the pairs before `(i, j)`. -/
structure PairInv (est : Nat → Nat → M3 K × Int) (nCorr : Nat → Nat → Int) (expCost : Int → Rat) (n : Nat) (H0 : List (Option (M3 K)))
    (i j : Nat) (s : PanNet K) : Prop where
  lH : s.H.length = n * n
  lt : s.total.length = n
  lc : s.cost.length = n * n
  done : ∀ a b, a < n → b < n → a ≠ b → (a < i ∨ a = i ∧ b < j) →
    s.H[b * n + a]? = some (if 0 < pairInl est nCorr a b then some (est a b).1 else none) ∧
    s.cost[b * n + a]? = some (if 0 < pairInl est nCorr a b then expCost (pairInl est nCorr a b) else -1)
  diag : ∀ a, a < n → s.H[a * n + a]? = H0[a * n + a]? ∧ s.cost[a * n + a]? = some 0
  sum : ∀ k, k < n → s.total[k]? = some (∑ a ∈ Finset.range i, ∑ b ∈ Finset.range n, pairGain (pairInl est nCorr) k a b +
    ∑ b ∈ Finset.range j, pairGain (pairInl est nCorr) k i b)

theorem pairStep_spec {i j : Nat} (hi : i < n) (hj : j < n) {s : PanNet K} (h : PairInv est nCorr expCost n H0 i j s) :
    ∃ t, pairStep est nCorr expCost n i j s = .ok t ∧ PairInv est nCorr expCost n H0 i (j + 1) t := by
  unfold pairStep
  by_cases hij : i = j
  · rw [if_pos hij]
    refine ⟨s, rfl, h.lH, h.lt, h.lc, ?_, h.diag, ?_⟩
    · intro a b ha hb hab hd
      exact h.done a b ha hb hab (by omega)
    · intro k hk
      rw [h.sum k hk, Finset.sum_range_succ, pairGain, if_pos hij, add_zero]
  · have hlt := pairIdx_lt hi hj
    have eH : ∃ x, s.H[j * n + i]? = some x := ⟨s.H[j * n + i]'(by rw [h.lH]; exact hlt), by simp⟩
    obtain ⟨x, ex⟩ := eH
    rw [if_neg hij, readAt_some ex]
    simp only [Res.ok_bind, fitInitial_eq]
    change ∃ t, (writeAt s.H (j * n + i) (if 0 < pairInl est nCorr i j then some (est i j).1 else none) >>= _) = _ ∧ _
    rw [writeAt_ok _ (by rw [h.lH]; exact hlt)]
    simp only [Res.ok_bind]
    rw [readAt_some (h.sum i hi)]
    simp only [Res.ok_bind]
    rw [writeAt_ok _ (by rw [h.lt]; exact hi)]
    simp only [Res.ok_bind]
    rw [readAt_some ((List.getElem?_set_ne (by omega)).trans (h.sum j hj))]
    simp only [Res.ok_bind]
    rw [writeAt_ok _ (by rw [List.length_set, h.lt]; exact hj)]
    simp only [Res.ok_bind]
    rw [writeAt_ok _ (by rw [h.lc]; exact hlt)]
    simp only [Res.ok_bind, Res.pure_eq]
    refine ⟨_, rfl, ?_, ?_, ?_, ?_, ?_, ?_⟩
    · simp [h.lH]
    · simp [h.lt]
    · simp [h.lc]
    · intro a b ha hb hab hd
      by_cases hp : b = j ∧ a = i
      · obtain ⟨rfl, rfl⟩ := hp
        simp only
        rw [List.getElem?_set_self (by rw [h.lH]; exact hlt), List.getElem?_set_self (by rw [h.lc]; exact hlt)]
        exact ⟨rfl, rfl⟩
      · have hne : j * n + i ≠ b * n + a := fun he => hp (by obtain ⟨h1, h2⟩ := pairIdx_inj hi ha he; exact ⟨h1.symm, h2.symm⟩)
        simp only
        rw [List.getElem?_set_ne hne, List.getElem?_set_ne hne]
        exact h.done a b ha hb hab (by omega)
    · intro a ha
      have hne : j * n + i ≠ a * n + a := fun he => by obtain ⟨h1, h2⟩ := pairIdx_inj hi ha he; omega
      simp only
      rw [List.getElem?_set_ne hne, List.getElem?_set_ne hne]
      exact h.diag a ha
    · intro k hk
      have hsum : ∑ b ∈ Finset.range (j + 1), pairGain (pairInl est nCorr) k i b =
          ∑ b ∈ Finset.range j, pairGain (pairInl est nCorr) k i b +
            ((if i = k then pairInl est nCorr i j else 0) + (if j = k then pairInl est nCorr i j else 0)) := by
        rw [Finset.sum_range_succ]
        congr 1
        unfold pairGain
        rw [if_neg hij]
      rw [hsum]
      simp only
      by_cases hkj : j = k
      · subst hkj
        rw [List.getElem?_set_self (by rw [List.length_set, h.lt]; exact hj), if_neg hij, if_pos rfl, zero_add, add_assoc]
        rfl
      · rw [List.getElem?_set_ne hkj]
        by_cases hki : i = k
        · subst hki
          rw [List.getElem?_set_self (by rw [h.lt]; exact hi), if_pos rfl, if_neg hkj, add_zero, add_assoc]
          rfl
        · rw [List.getElem?_set_ne hki, h.sum k hk, if_neg hki, if_neg hkj, add_zero, add_zero]

theorem pairGain_total (n : Nat) (inl : Nat → Nat → Int) {k : Nat} (hk : k < n) :
    ∑ a ∈ Finset.range n, ∑ b ∈ Finset.range n, pairGain inl k a b = totalInliers n inl k := by
  have h1 : ∀ a b, pairGain inl k a b = (if a = k then (if b = k then 0 else inl k b) else 0) +
      (if b = k then (if a = k then 0 else inl a k) else 0) := by
    intro a b
    unfold pairGain
    by_cases ha : a = k
    · by_cases hb : b = k
      · simp [ha, hb]
      · rw [if_neg (by omega)]
        simp [ha, hb]
    · by_cases hb : b = k
      · rw [if_neg (by omega)]
        simp [ha, hb]
      · simp [ha, hb]
  have h2 : ∀ a ∈ Finset.range n, ∑ b ∈ Finset.range n, pairGain inl k a b =
      (if a = k then ∑ b ∈ Finset.range n, (if b = k then 0 else inl k b) else 0) + (if a = k then 0 else inl a k) := by
    intro a _
    simp only [h1]
    rw [Finset.sum_add_distrib]
    congr 1
    · by_cases ha : a = k
      · simp [ha]
      · simp [ha]
    · rw [Finset.sum_ite_eq', if_pos (Finset.mem_range.mpr hk)]
  rw [Finset.sum_congr rfl h2, Finset.sum_add_distrib, Finset.sum_ite_eq', if_pos (Finset.mem_range.mpr hk), ← Finset.sum_add_distrib]
  unfold totalInliers
  refine Finset.sum_congr rfl fun j _ => ?_
  split <;> simp

/-- The homographies, the lengths of the edges and the sums of inliers of all pairs of images. -/
theorem c102_network (hl : H0.length = n * n) :
    ∃ s, pairLoop est nCorr expCost n H0 = .ok s ∧ s.H.length = n * n ∧ s.total.length = n ∧
      HasWeights s.cost n (edgeCost expCost (pairInl est nCorr)) ∧
      (∀ i j, i < n → j < n → i ≠ j → s.H[j * n + i]? = some (if 0 < pairInl est nCorr i j then some (est i j).1 else none)) ∧
      ∀ k, k < n → s.total[k]? = some (totalInliers n (pairInl est nCorr) k) := by
  obtain ⟨s, e, h⟩ := forLoop_spec (fun i s => PairInv est nCorr expCost n H0 i 0 s) (n := n) (i0 := 0) (Nat.zero_le _)
    (s := ⟨H0, List.replicate n 0, List.replicate (n * n) 0⟩)
    (body := fun i s => forLoop n (pairStep est nCorr expCost n i) 0 s) (by
      refine ⟨hl, by simp, by simp, fun a b _ _ _ hd => by omega, fun a ha => ⟨rfl, ?_⟩, fun k hk => ?_⟩
      · simp only
        rw [List.getElem?_replicate, if_pos (pairIdx_lt ha ha)]
      · simp only [Finset.range_zero, Finset.sum_empty, add_zero]
        rw [List.getElem?_replicate, if_pos hk]) (by
      intro i s _ hi hp
      obtain ⟨t, et, ht⟩ := forLoop_spec (fun j s => PairInv est nCorr expCost n H0 i j s) (n := n) (i0 := 0) (Nat.zero_le _) hp
        (body := pairStep est nCorr expCost n i) (fun j s _ hj hp => pairStep_spec hi hj hp)
      refine ⟨t, et, ht.lH, ht.lt, ht.lc, fun a b ha hb hab hd => ht.done a b ha hb hab (by omega), ht.diag, fun k hk => ?_⟩
      rw [ht.sum k hk, Finset.sum_range_zero, add_zero, Finset.sum_range_succ])
  refine ⟨s, e, h.lH, h.lt, ?_, fun i j hi hj hij => (h.done i j hi hj hij (Or.inl hi)).1, fun k hk => ?_⟩
  · intro u v hu hv
    unfold edgeCost
    by_cases huv : u = v
    · subst huv
      rw [if_pos rfl]
      exact (h.diag u hu).2
    · rw [if_neg huv]
      exact (h.done v u hv hu (by omega) (Or.inl hv)).2
  · rw [h.sum k hk, Finset.sum_range_zero, add_zero, pairGain_total n _ hk]

theorem totalInliers_nonneg {inl : Nat → Nat → Int} (h : ∀ i j, 0 ≤ inl i j) (k : Nat) : 0 ≤ totalInliers n inl k := by
  unfold totalInliers
  refine Finset.sum_nonneg fun j _ => ?_
  split
  · exact le_refl _
  · have := h k j
    have := h j k
    omega

theorem ref_spec {total : List Int} {inl : Nat → Nat → Int} (h0 : ∀ i j, 0 ≤ inl i j) (hl : total.length = n)
    (ht : ∀ k, k < n → total[k]? = some (totalInliers n inl k)) {r : Nat} (hr : IsReference n inl r) : ivecMaxIdx total = r := by
  have hm : totalInliers n inl r ∈ total := List.mem_of_getElem? (ht r hr.1)
  have hn := totalInliers_nonneg (n := n) h0 r
  obtain ⟨k, e, x, kx, h1, h2, h3, h4⟩ := c52_ivec_partial total ⟨_, hm, by omega⟩
  rw [e]
  cases h2
  have hk : k < n := by
    have := (List.getElem?_eq_some_iff.mp h1).1
    omega
  have hx := ht k hk
  rw [h1] at hx
  cases hx
  have h5 := h3 _ hm _ rfl
  rcases Nat.lt_trichotomy k r with hlt | heq | hgt
  · have := hr.2.2 k hlt
    omega
  · rw [heq]
  · have := h4 r _ _ hgt (ht r hr.1) rfl
    have := hr.2.1 k hk
    omega

variable [Field K] {add : Rat → Rat → Rat} {big : Rat} {src : Nat} {H : List (Option (M3 K))} {next : List Int}

theorem tree_not_self {w : Nat → Nat → Rat} {v : Nat} {c : Rat} (h : TreeCost add w src next v c) (hn : next[v]? = some (v : Int)) :
    v = src := by
  induction h with
  | root => rfl
  | @step u v c hu hs he hw ih =>
    have : u = v := by
      rw [he] at hn
      simp only [Option.some.injEq, Int.natCast_inj] at hn
      exact hn
    subst this
    exact ih hn

theorem mul_assoc3 (A B C : M3 K) : dmat3Mul (dmat3Mul A B) C = dmat3Mul A (dmat3Mul B C) := by
  simp only [dmat3Mul, M3.mk.injEq]
  refine ⟨?_, ?_, ?_, ?_, ?_, ?_, ?_, ?_, ?_⟩ <;> ring

theorem eye_mul3 (A : M3 K) : dmat3Mul dmat3Eye A = A := by
  cases A
  simp [dmat3Mul, dmat3Eye, dmat3SetZero]

theorem mul_eye3 (A : M3 K) : dmat3Mul A dmat3Eye = A := by
  cases A
  simp [dmat3Mul, dmat3Eye, dmat3SetZero]

/-- Along a path of the tree the loop ends with the product of the homographies. -/
theorem chain_spec {inl : Nat → Nat → Int} {Hf : Nat → Nat → M3 K} (hl : next.length = n)
    (hroot : next[src]? = some (src : Int))
    (hH : ∀ i j, i < n → j < n → i ≠ j → H[j * n + i]? = some (if 0 < inl i j then some (Hf i j) else none))
    {v : Nat} {c : Rat} (h : TreeCost add (edgeCost expCost inl) src next v c) :
    ∃ d M nx, next[v]? = some nx ∧ (∀ fuel, d ≤ fuel → ∀ acc, chainLoop n H next fuel v nx acc = .ok (some (dmat3Mul M acc))) ∧
      ∀ x, SentTo Hf src next v x (M.mat.mulVec x) := by
  induction h with
  | root =>
    refine ⟨1, dmat3Eye, (src : Int), hroot, ?_, fun x => ?_⟩
    · intro fuel hf acc
      obtain ⟨f, rfl⟩ := Nat.exists_eq_add_of_le' hf
      rw [chainLoop, if_pos rfl, eye_mul3]
    · rw [c57_eye.1, Matrix.one_mulVec]
      exact .here
  | @step u v c hu hvs he hw ih =>
    obtain ⟨d, M, nx, h1, h2, h3⟩ := ih
    have hun : u < n := by
      have := (List.getElem?_eq_some_iff.mp h1).1
      omega
    have hvn : v < n := by
      have := (List.getElem?_eq_some_iff.mp he).1
      omega
    have huv : u ≠ v := by
      rintro rfl
      exact hvs (tree_not_self hu he)
    have hpos : 0 < inl v u := by
      unfold edgeCost at hw
      rw [if_neg huv] at hw
      by_contra hn
      rw [if_neg hn] at hw
      exact absurd hw (by norm_num)
    refine ⟨d + 1, dmat3Mul M (Hf v u), (u : Int), he, ?_, fun x => ?_⟩
    · intro fuel hf acc
      obtain ⟨f, rfl⟩ := Nat.exists_eq_add_of_le' (show 1 ≤ fuel by omega)
      rw [chainLoop, if_neg (by omega)]
      have ei : (u : Int) * n + v = ((u * n + v : Nat) : Int) := by push_cast; rfl
      have e1 : readI H ((u : Int) * n + v) = .ok (some (Hf v u)) := by
        rw [ei]
        unfold readI
        rw [if_pos (by omega)]
        refine readAt_some ((hH v u hvn hun (by omega)).trans ?_)
        rw [if_pos hpos]
      have e2 : readI next (u : Int) = .ok nx := by
        unfold readI
        rw [if_pos (by omega)]
        exact readAt_some h1
      rw [e1]
      simp only [Res.ok_bind]
      rw [e2]
      simp only [Res.ok_bind]
      rw [h2 f (by omega), mul_assoc3]
    · rw [c57_mul, ← Matrix.mulVec_mulVec]
      exact .step hvs he (h3 _)

theorem forLoop_succ_right {σ : Type} {body : Nat → σ → Res σ} {m : Nat} : ∀ (k i : Nat) (s : σ), m - i = k → i ≤ m →
    forLoop (m + 1) body i s = (forLoop m body i s >>= body m) := by
  intro k
  induction k with
  | zero =>
    intro i s hk hi
    have : i = m := by omega
    subst this
    rw [forLoop, if_pos (by omega), forLoop, if_neg (by omega)]
    simp only [Res.ok_bind]
    cases body i s with
    | ok a => simp only [Res.ok_bind]; rw [forLoop, if_neg (by omega)]
    | fatal => rfl
    | ub => rfl
  | succ k ih =>
    intro i s hk hi
    rw [forLoop, if_pos (by omega)]
    conv => rhs; rw [forLoop, if_pos (by omega)]
    cases body i s with
    | ok a => exact ih (i + 1) a (by omega) (by omega)
    | fatal => rfl
    | ub => rfl

theorem ref_exists {inl : Nat → Nat → Int} (hn : 0 < n) : ∃ r, IsReference n inl r := by
  have key : ∀ m, 0 < m → ∃ r, r < m ∧ (∀ k, k < m → totalInliers n inl k ≤ totalInliers n inl r) ∧
      ∀ k, k < r → totalInliers n inl k < totalInliers n inl r := by
    intro m hm
    induction m with
    | zero => omega
    | succ m ih =>
      rcases Nat.eq_zero_or_pos m with rfl | hm'
      · exact ⟨0, by omega, fun k hk => by rw [show k = 0 by omega], fun k hk => by omega⟩
      · obtain ⟨r, h1, h2, h3⟩ := ih hm'
        by_cases hc : totalInliers n inl m ≤ totalInliers n inl r
        · refine ⟨r, by omega, fun k hk => ?_, h3⟩
          by_cases hkm : k = m
          · rw [hkm]; exact hc
          · exact h2 k (by omega)
        · refine ⟨m, by omega, fun k hk => ?_, fun k hk => ?_⟩
          · by_cases hkm : k = m
            · rw [hkm]
            · have := h2 k (by omega)
              omega
          · have := h2 k hk
            omega
  exact key n hn

/-- If every image is connected to the reference, which is the first image with the most inliers, the initialisation ends, and the matrix of
every image takes its points to the reference along a shortest path of homographies. -/
theorem c102_init (ha : RoundedAdd add big) (hl : H0.length = n * n) {r : Nat} (hr : IsReference n (pairInl est nCorr) r)
    (hc : ∀ v, v < n → ∃ c, WalkCost add (edgeCost expCost (pairInl est nCorr)) n r v c ∧ c < big) :
    ∃ d q, (∀ fuel, d ≤ fuel → panInit add big est nCorr expCost fuel n H0 = .ok (some q)) ∧ q.ref = r ∧ q.next.length = n ∧
      q.toRef.length = n ∧ ∀ v, v < n → ∃ M c, q.toRef[v]? = some M ∧
        (∀ x, SentTo (fun i j => (est i j).1) r q.next v x (M.mat.mulVec x)) ∧
        TreeCost add (edgeCost expCost (pairInl est nCorr)) r q.next v c ∧
        ∀ c', WalkCost add (edgeCost expCost (pairInl est nCorr)) n r v c' → c ≤ c' := by
  obtain ⟨s, es, s1, s2, s3, s4, s5⟩ := c102_network (est := est) (nCorr := nCorr) (expCost := expCost) hl
  have er := ref_spec pairInl_nonneg s2 s5 hr
  obtain ⟨next, en, n1, n2, n3⟩ := c102_paths ha s3 hr.1 hc
  have hch : ∀ v, v < n → ∃ d M nx, next[v]? = some nx ∧
      (∀ fuel, d ≤ fuel → chainLoop n s.H next fuel v nx dmat3Eye = .ok (some M)) ∧
      ∀ x, SentTo (fun i j => (est i j).1) r next v x (M.mat.mulVec x) := by
    intro v hv
    obtain ⟨c, h1, -⟩ := n3 v hv
    obtain ⟨d, M, nx, q1, q2, q3⟩ := chain_spec n1 n2 s4 h1
    refine ⟨d, M, nx, q1, fun fuel hf => ?_, q3⟩
    rw [q2 fuel hf, mul_eye3]
  have hall : ∀ m, m ≤ n → ∃ d l, l.length = m ∧ (∀ v, v < m → ∃ M, l[v]? = some M ∧
      ∀ x, SentTo (fun i j => (est i j).1) r next v x (M.mat.mulVec x)) ∧
      ∀ fuel, d ≤ fuel → forLoop m (chainStep fuel n s.H next) 0 (some []) = .ok (some l) := by
    intro m
    induction m with
    | zero =>
      intro _
      refine ⟨0, [], rfl, fun v hv => by omega, fun fuel _ => ?_⟩
      rw [forLoop, if_neg (by omega)]
    | succ m ih =>
      intro hm
      obtain ⟨d, l, l1, l2, l3⟩ := ih (by omega)
      obtain ⟨d', M, nx, q1, q2, q3⟩ := hch m (by omega)
      refine ⟨max d d', l ++ [M], by simp [l1], fun v hv => ?_, fun fuel hf => ?_⟩
      · by_cases hvm : v < m
        · obtain ⟨M', g1, g2⟩ := l2 v hvm
          refine ⟨M', ?_, g2⟩
          rw [List.getElem?_append_left (by omega)]
          exact g1
        · have : v = m := by omega
          subst this
          refine ⟨M, ?_, q3⟩
          rw [List.getElem?_append_right (by omega), l1, Nat.sub_self]
          rfl
      · rw [forLoop_succ_right m 0 _ (by omega) (by omega), l3 fuel (by omega)]
        simp only [Res.ok_bind]
        unfold chainStep
        simp only
        rw [readAt_some q1]
        simp only [Res.ok_bind]
        rw [q2 fuel (by omega)]
        rfl
  obtain ⟨d, l, l1, l2, l3⟩ := hall n (le_refl _)
  refine ⟨d, ⟨s, r, next, l⟩, fun fuel hf => ?_, rfl, n1, l1, fun v hv => ?_⟩
  · unfold panInit
    rw [es]
    simp only [Res.ok_bind]
    rw [er, en]
    simp only [Res.ok_bind]
    rw [l3 fuel hf]
    rfl
  · obtain ⟨M, g1, g2⟩ := l2 v hv
    obtain ⟨c, g3, g4⟩ := n3 v hv
    exact ⟨M, c, g1, g2, g3, g4⟩

/-- If an image is not connected to the reference, the initialisation writes outside of an array. -/
theorem c102_init_unconnected (ha : RoundedAdd add big) (hl : H0.length = n * n) {r : Nat}
    (hr : IsReference n (pairInl est nCorr) r) {v : Nat} (hv : v < n)
    (hc : ∀ c, WalkCost add (edgeCost expCost (pairInl est nCorr)) n r v c → big ≤ c) (fuel : Nat) :
    panInit add big est nCorr expCost fuel n H0 = .ub := by
  obtain ⟨s, es, s1, s2, s3, s4, s5⟩ := c102_network (est := est) (nCorr := nCorr) (expCost := expCost) hl
  have er := ref_spec pairInl_nonneg s2 s5 hr
  unfold panInit
  rw [es]
  simp only [Res.ok_bind]
  rw [er, c102_unconnected ha s3 hr.1 hv hc]
  rfl

end

/-! ## Examples -/

/-- The exact addition and one rounded upwards to multiples of 1/8. -/
example : RoundedAdd (fun a b => a + b) 1000 where
  mono a b w h := by simpa using h
  infl a w _ h := by simpa using h
  top := by norm_num
  pos := by norm_num

theorem roundedAdd_eighth : RoundedAdd (fun a b => (⌈(a + b) * 8⌉ : Rat) / 8) 1000 where
  mono a b w h := by
    have : ⌈(a + w) * 8⌉ ≤ ⌈(b + w) * 8⌉ := Int.ceil_le_ceil (by linarith)
    have : ((⌈(a + w) * 8⌉ : Int) : Rat) ≤ ⌈(b + w) * 8⌉ := by exact_mod_cast this
    linarith
  infl a w _ h := by
    have := Int.le_ceil ((a + w) * 8)
    linarith
  top := by
    have := Int.le_ceil (((0 : Rat) + 1000) * 8)
    linarith
  pos := by norm_num

/-- Images 0 and 1 and images 1 and 2 have 100 inliers, images 0 and 2 too few. The homographies move by 10. -/
def panEst (i j : Nat) : M3 Rat × Int :=
  (⟨1, 0, 0, 0, 1, 0, 10 * ((i : Rat) - j), 0, 1⟩, if i + 1 = j ∨ j + 1 = i then 100 else 7)

example : ∃ d q, (∀ fuel, d ≤ fuel →
    panInit (fun a b => (⌈(a + b) * 8⌉ : Rat) / 8) 1000 panEst (fun _ _ => 200) (fun k => 1 / k) fuel 3 (List.replicate 9 none) = .ok (some q)) ∧
      q.ref = ((1 : Nat) : Int) := by
  have h01 : (0 : Rat) ≤ edgeCost (fun k => 1 / k) (pairInl panEst (fun _ _ => 200)) 1 0 := by decide +kernel
  have h21 : (0 : Rat) ≤ edgeCost (fun k => 1 / k) (pairInl panEst (fun _ _ => 200)) 1 2 := by decide +kernel
  obtain ⟨d, q, h1, h2, -⟩ := c102_init (est := panEst) (nCorr := fun _ _ => 200) (expCost := fun k => 1 / k) (n := 3) (r := 1)
    (H0 := List.replicate 9 none) roundedAdd_eighth (by decide) ⟨by decide, by decide +kernel, by decide +kernel⟩ (by
      intro v hv
      match v, hv with
      | 0, _ => exact ⟨_, .step .start (by decide) h01, by decide +kernel⟩
      | 1, _ => exact ⟨0, .start, by norm_num⟩
      | 2, _ => exact ⟨_, .step .start (by decide) h21, by decide +kernel⟩)
  exact ⟨d, q, h1, h2⟩

/-- The matrices for the images of the example, with any fuel above two. -/
example : ∃ q, panInit (fun a b => a + b) 1000 panEst (fun _ _ => 200) (fun k => 1 / k) 5 3 (List.replicate 9 none) = .ok (some q) ∧
    q.ref = 1 ∧ q.next = [1, 1, 1] ∧ q.toRef.map (fun M => M.e6) = [-10, 0, 10] := by
  have h : ((match panInit (fun a b => a + b) 1000 panEst (fun _ _ => 200) (fun k => 1 / k) 5 3 (List.replicate 9 none) with
      | .ok (some q) => decide (q.ref = 1 ∧ q.next = [1, 1, 1] ∧ q.toRef.map (fun M => M.e6) = [-10, 0, 10])
      | _ => false) = true) := by decide +kernel
  split at h
  · rename_i q e
    exact ⟨q, e, of_decide_eq_true h⟩
  · cases h

/-- With two images and too few inliers the initialisation is undefined. -/
example (fuel : Nat) : panInit (fun a b => a + b) 1000 (fun _ _ => ((dmat3Eye : M3 Rat), 7)) (fun _ _ => 200) (fun k => 1 / k) fuel 2
    (List.replicate 4 none) = .ub := by
  refine c102_init_unconnected (r := 0) (v := 1) ⟨fun a b w h => by simpa using h, fun a w _ h => by simpa using h, by norm_num, by norm_num⟩
    (by decide) ⟨by decide, by decide +kernel, by decide⟩ (by decide) ?_ fuel
  intro c hc
  have key : ∀ v c, WalkCost (fun a b => a + b) (edgeCost (fun k => 1 / k) (pairInl (fun _ _ => ((dmat3Eye : M3 Rat), 7)) (fun _ _ => 200))) 2 0 v c →
      v = 0 := by
    intro v c h
    induction h with
    | start => rfl
    | @step u v c hu hv hw ih =>
      subst ih
      unfold edgeCost pairInl inliersOf at hw
      by_contra hne
      rw [if_neg (by omega), if_neg (by simp)] at hw
      exact absurd hw (by norm_num)
  exact absurd (key 1 c hc) (by decide)

end Nx
