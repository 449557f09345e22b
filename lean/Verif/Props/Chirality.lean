import Verif.Props.Essential

/-!
# C68: signs of the depths and the choice among the four pairs
-/

namespace Nx

/-- The match `c` is explained by the rotation `R`, the translation `t` and the depths `a`, `b`: the point on the ray of `c.x`
at depth `a` of the first camera is the one on the ray of `c.xp` at depth `b` of the second camera. The base line is not the
ray. -/
def Explained (R : M3 ℝ) (t : V3 ℝ) (c : PMatch ℝ) (a b : ℝ) : Prop :=
  a ≠ 0 ∧ b ≠ 0 ∧ R.mat.mulVec (a • hom2 c.x) + t.vec = b • hom2 c.xp ∧
    crossProduct t.vec (R.mat.mulVec (hom2 c.x)) ≠ 0

theorem signum_pos {d : ℝ} (h : 0 < d) : signum d = 1 := by
  simp [signum, h, h.le]

theorem signum_neg {d : ℝ} (h : d < 0) : signum d = -1 := by
  simp [signum, h, h.le]

theorem signum_mul_pos {k d : ℝ} (hk : 0 < k) : signum (k * d) = signum d := by
  rcases lt_trichotomy d 0 with h | h | h
  · rw [signum_neg h, signum_neg (mul_neg_of_pos_of_neg hk h)]
  · rw [h, mul_zero]
  · rw [signum_pos h, signum_pos (mul_pos hk h)]

theorem signum_inv (d : ℝ) : signum d⁻¹ = signum d := by
  rcases lt_trichotomy d 0 with h | h | h
  · rw [signum_neg h, signum_neg (inv_lt_zero.mpr h)]
  · rw [h, inv_zero]
  · rw [signum_pos h, signum_pos (inv_pos.mpr h)]

/-- The two signs for vectors `u` and `r` of which one is, up to the factors `a` and `b`, the other one shifted by a multiple
of `v`. -/
theorem signs_of_shift (v u r : V3 ℝ) (a b k : ℝ) (hb : b ≠ 0)
    (h : b * r.e0 = a * u.e0 - k * v.e0 ∧ b * r.e1 = a * u.e1 - k * v.e1 ∧ b * r.e2 = a * u.e2 - k * v.e2)
    (hp : 0 < dvec3NormSq (dvec3Cross v u)) :
    signum (dmat3Det ⟨v.e0, v.e1, v.e2, (dvec3ToUnit Real.sqrt (dvec3Cross (dvec3Cross v u) v)).1.e0,
        (dvec3ToUnit Real.sqrt (dvec3Cross (dvec3Cross v u) v)).1.e1,
        (dvec3ToUnit Real.sqrt (dvec3Cross (dvec3Cross v u) v)).1.e2, (dvec3Cross u r).e0, (dvec3Cross u r).e1,
        (dvec3Cross u r).e2⟩) = signum (b⁻¹ * k) ∧
      signum (dvec3Dot (dvec3ToUnit Real.sqrt (dvec3Cross (dvec3Cross v u) v)).1 r) = signum (b⁻¹ * a) := by
  have hv : 0 < dvec3NormSq v := by
    have h0 : 0 ≤ dvec3NormSq v := by
      simp only [dvec3NormSq]
      nlinarith [mul_self_nonneg v.e0, mul_self_nonneg v.e1, mul_self_nonneg v.e2]
    rcases h0.lt_or_eq with h1 | h1
    · exact h1
    · exfalso
      simp only [dvec3NormSq] at h1
      have e0 : v.e0 = 0 := mul_self_eq_zero.mp (by
        nlinarith [mul_self_nonneg v.e0, mul_self_nonneg v.e1, mul_self_nonneg v.e2])
      have e1 : v.e1 = 0 := mul_self_eq_zero.mp (by
        nlinarith [mul_self_nonneg v.e0, mul_self_nonneg v.e1, mul_self_nonneg v.e2])
      have e2 : v.e2 = 0 := mul_self_eq_zero.mp (by
        nlinarith [mul_self_nonneg v.e0, mul_self_nonneg v.e1, mul_self_nonneg v.e2])
      simp [dvec3NormSq, dvec3Cross, e0, e1, e2] at hp
  have hq : dvec3NormSq (dvec3Cross (dvec3Cross v u) v) = dvec3NormSq (dvec3Cross v u) * dvec3NormSq v := by
    simp only [dvec3NormSq, dvec3Cross]
    ring
  have hn : 0 < Real.sqrt (dvec3NormSq (dvec3Cross (dvec3Cross v u) v)) := by
    rw [hq]
    exact Real.sqrt_pos.mpr (mul_pos hp hv)
  simp only [dvec3ToUnit, if_pos hn.ne']
  generalize Real.sqrt (dvec3NormSq (dvec3Cross (dvec3Cross v u) v)) = n at hn
  obtain ⟨h0, h1, h2⟩ := h
  have r0 : r.e0 = b⁻¹ * (a * u.e0 - k * v.e0) := by rw [← h0, inv_mul_cancel_left₀ hb]
  have r1 : r.e1 = b⁻¹ * (a * u.e1 - k * v.e1) := by rw [← h1, inv_mul_cancel_left₀ hb]
  have r2 : r.e2 = b⁻¹ * (a * u.e2 - k * v.e2) := by rw [← h2, inv_mul_cancel_left₀ hb]
  constructor
  · rw [← signum_mul_pos (d := b⁻¹ * k) (mul_pos (mul_pos hv hp) (inv_pos.mpr hn))]
    congr 1
    simp only [dmat3Det, dvec3Cross, r0, r1, r2, dvec3NormSq, div_eq_mul_inv]
    ring
  · rw [← signum_mul_pos (d := b⁻¹ * a) (mul_pos hp (inv_pos.mpr hn))]
    congr 1
    simp only [dvec3Dot, dvec3Cross, r0, r1, r2, dvec3NormSq, div_eq_mul_inv]
    ring

theorem signum_sign (a b : ℝ) (hb : b ≠ 0) : signum b * signum (b⁻¹ * a) = signum a := by
  rcases lt_or_gt_of_ne hb with h | h
  · rcases lt_trichotomy a 0 with g | g | g
    · rw [signum_neg h, signum_neg g, signum_pos (mul_pos_of_neg_of_neg (inv_lt_zero.mpr h) g)]
      rfl
    · rw [g, mul_zero]
      simp [signum]
    · rw [signum_neg h, signum_pos g, signum_neg (mul_neg_of_neg_of_pos (inv_lt_zero.mpr h) g)]
      rfl
  · rw [signum_pos h, signum_mul_pos (inv_pos.mpr h), one_mul]

/-- The two signs of a match whose rays are related by a multiple of the translation. -/
theorem signs_of_relation (R : M3 ℝ) (t : V3 ℝ) (hR : IsRotation R.mat) (c : PMatch ℝ) (a b k : ℝ) (hb : b ≠ 0)
    (he : R.mat.mulVec (a • hom2 c.x) + k • t.vec = b • hom2 c.xp)
    (hc : crossProduct t.vec (R.mat.mulVec (hom2 c.x)) ≠ 0) :
    zSigns Real.sqrt R (baseVec R t) c = (signum (b⁻¹ * k) * signum (b⁻¹ * a), signum (b⁻¹ * k)) := by
  have hRR := mul_eq_one_comm.mp hR.1
  have hbv : (baseVec R t).vec = -R.mat.transpose.mulVec t.vec := by
    ext i
    fin_cases i <;> simp [baseVec, V3.vec, M3.mat, Matrix.mulVec, dotProduct, Fin.sum_univ_three] <;> ring
  have hRb : R.mat.mulVec (baseVec R t).vec = -t.vec := by
    rw [hbv, Matrix.mulVec_neg, Matrix.mulVec_mulVec, hR.1, Matrix.one_mulVec]
  -- the ray of the second camera in the coordinates of the first
  have hshift : b • R.mat.transpose.mulVec (hom2 c.xp) = a • hom2 c.x - k • (baseVec R t).vec := by
    rw [← Matrix.mulVec_smul, ← he, Matrix.mulVec_add, Matrix.mulVec_mulVec, hRR, Matrix.one_mulVec, hbv, smul_neg,
      sub_neg_eq_add, Matrix.mulVec_smul]
  have hp : (crossMat (baseVec R t).vec).mulVec (hom2 c.x) ≠ 0 := by
    intro h0
    apply hc
    have h1 := crossMat_rot hR (baseVec R t).vec
    have h2 := congrArg (fun M => M.mulVec (hom2 c.x)) h1
    simp only [← Matrix.mulVec_mulVec, h0, Matrix.mulVec_zero, hRb] at h2
    rw [← crossMat_mulVec]
    have h3 : crossMat (-t.vec) = -crossMat t.vec := by
      ext i j
      fin_cases i <;> fin_cases j <;> simp [crossMat]
    rw [h3, Matrix.neg_mulVec, neg_eq_zero] at h2
    exact h2
  have hpos : 0 < dvec3NormSq (dvec3Cross (baseVec R t) ⟨c.x.1, c.x.2, 1⟩) := by
    have := dot_pos hp
    rw [crossMat_mulVec] at this
    have e : crossProduct (baseVec R t).vec (hom2 c.x) = (dvec3Cross (baseVec R t) ⟨c.x.1, c.x.2, 1⟩).vec :=
      ((c57_cross_dot (baseVec R t) ⟨c.x.1, c.x.2, 1⟩).1).symm
    rw [e] at this
    simpa [dvec3NormSq, V3.vec, dotProduct, Fin.sum_univ_three] using this
  have s0 := congrFun hshift 0
  have s1 := congrFun hshift 1
  have s2 := congrFun hshift 2
  simp [V3.vec, M3.mat, hom2, Matrix.mulVec, dotProduct, Fin.sum_univ_three] at s0 s1 s2
  have key := signs_of_shift (baseVec R t) ⟨c.x.1, c.x.2, 1⟩
    ⟨R.e0 * c.xp.1 + R.e1 * c.xp.2 + R.e2, R.e3 * c.xp.1 + R.e4 * c.xp.2 + R.e5, R.e6 * c.xp.1 + R.e7 * c.xp.2 + R.e8⟩
    a b k hb ⟨s0, s1, by simpa using s2⟩ hpos
  simp only [zSigns, key.1, key.2]

/-- The two signs of a match are those of its depths. -/
theorem c68_signs (R : M3 ℝ) (t : V3 ℝ) (hR : IsRotation R.mat) (c : PMatch ℝ) (a b : ℝ) (h : Explained R t c a b) :
    zSigns Real.sqrt R (baseVec R t) c = (signum a, signum b) := by
  obtain ⟨_, hb, he, hc⟩ := h
  rw [signs_of_relation R t hR c a b 1 hb (by rw [one_smul]; exact he) hc, mul_one, signum_inv, signum_sign a b hb]

/-- The sum over the matches. -/
theorem zSignLoop_ok (R : M3 ℝ) (v : V3 ℝ) : ∀ (n : Nat) (corr : List (PMatch ℝ)) (acc : Int × Int), n ≤ corr.length →
    zSignLoop Real.sqrt R v n corr acc = .ok (acc.1 + ((corr.take n).map fun c => (zSigns Real.sqrt R v c).1).sum,
      acc.2 + ((corr.take n).map fun c => (zSigns Real.sqrt R v c).2).sum)
  | 0, corr, acc, _ => by simp [zSignLoop]
  | n + 1, [], _, h => by simp at h
  | n + 1, c :: cs, acc, h => by
    simp only [zSignLoop]
    rw [zSignLoop_ok R v n cs _ (by simpa using h)]
    simp [add_assoc]

theorem zSignSum_eq (R : M3 ℝ) (t : V3 ℝ) (n : Nat) (corr : List (PMatch ℝ)) (hn : n ≤ corr.length) :
    zSignSum Real.sqrt n corr R t = .ok ((corr.take n).map fun c =>
      (zSigns Real.sqrt R (baseVec R t) c).1 + (zSigns Real.sqrt R (baseVec R t) c).2).sum := by
  rw [zSignSum, Int.toNat_natCast, zSignLoop_ok R _ n corr _ hn]
  simp only [Res.ok_bind, Res.pure_eq, zero_add, Res.ok.injEq]
  generalize corr.take n = l
  induction l with
  | nil => rfl
  | cons c cs ih =>
    simp only [List.map_cons, List.sum_cons] at *
    omega

/-- `nx_epipolar_get_z_sign_sum` is the sum of the signs of the depths of all matches, in both cameras. -/
theorem c68_sum (R : M3 ℝ) (t : V3 ℝ) (hR : IsRotation R.mat) (n : Nat) (corr : List (PMatch ℝ)) (hn : n ≤ corr.length)
    (a b : PMatch ℝ → ℝ) (h : ∀ c ∈ corr.take n, Explained R t c (a c) (b c)) :
    zSignSum Real.sqrt n corr R t = .ok ((corr.take n).map fun c => signum (a c) + signum (b c)).sum := by
  rw [zSignSum_eq R t n corr hn]
  congr 2
  apply List.map_congr_left
  intro c hc
  rw [c68_signs R t hR c _ _ (h c hc)]

/-- Signs are at most one. -/
theorem signum_le (d : ℝ) : signum d ≤ 1 ∧ -1 ≤ signum d := by
  rcases lt_trichotomy d 0 with h | h | h
  · rw [signum_neg h]; decide
  · rw [h]; simp [signum]
  · rw [signum_pos h]; decide

theorem signs_le (R : M3 ℝ) (v : V3 ℝ) (c : PMatch ℝ) :
    (zSigns Real.sqrt R v c).1 + (zSigns Real.sqrt R v c).2 ≤ 2 := by
  have key : ∀ d e : ℝ, signum d * signum e + signum d ≤ 2 := by
    intro d e
    rcases lt_trichotomy d 0 with h | h | h
    · rw [signum_neg h]
      have := signum_le e
      omega
    · rw [h]
      simp [signum]
    · rw [signum_pos h]
      have := signum_le e
      omega
  exact key _ _

/-- The loop of the choice: the first of the largest sums. -/
theorem pickLoop_spec (n : Nat) (corr : List (PMatch ℝ)) (f : M3 ℝ × V3 ℝ → Int)
    (hf : ∀ p, zSignSum Real.sqrt n corr p.1 p.2 = .ok (f p)) : ∀ (ps done : List (M3 ℝ × V3 ℝ)) (best : Nat × Int),
    (∃ p, done[best.1]? = some p ∧ f p = best.2 ∧ (∀ i q, done[i]? = some q → f q ≤ best.2 ∧ (i < best.1 → f q < best.2))) →
    ∃ r, pickLoop Real.sqrt n corr ps done.length best = .ok r ∧
      ∃ p, (done ++ ps)[r.1]? = some p ∧ f p = r.2 ∧
        ∀ i q, (done ++ ps)[i]? = some q → f q ≤ r.2 ∧ (i < r.1 → f q < r.2)
  | [], done, best, h => ⟨best, rfl, by simpa using h⟩
  | p :: ps, done, best, h => by
    obtain ⟨p', hp', hfp', hall⟩ := h
    have hb : best.1 < done.length := (List.getElem?_eq_some_iff.mp hp').1
    simp only [pickLoop, hf, Res.ok_bind]
    have := pickLoop_spec n corr f hf ps (done ++ [p]) (if f p > best.2 then (done.length, f p) else best) ?_
    · simpa using this
    · have hsplit : ∀ i q, (done ++ [p])[i]? = some q → done[i]? = some q ∨ (i = done.length ∧ q = p) := by
        intro i q hi
        by_cases hlt : i < done.length
        · left
          rwa [List.getElem?_append_left hlt] at hi
        · right
          rw [List.getElem?_append_right (by omega)] at hi
          have hz : i - done.length = 0 := by
            by_contra hne
            rw [List.getElem?_eq_none (by simp; omega)] at hi
            cases hi
          rw [hz] at hi
          simp at hi
          exact ⟨by omega, hi.symm⟩
      by_cases hgt : f p > best.2
      · rw [if_pos hgt]
        refine ⟨p, by simp, rfl, ?_⟩
        intro i q hi
        rcases hsplit i q hi with h1 | ⟨rfl, rfl⟩
        · have := (hall i q h1).1
          simp only
          omega
        · simp
      · rw [if_neg hgt]
        refine ⟨p', by rw [List.getElem?_append_left hb]; exact hp', hfp', ?_⟩
        intro i q hi
        rcases hsplit i q hi with h1 | ⟨rfl, rfl⟩
        · exact hall i q h1
        · refine ⟨by omega, fun hlt => by omega⟩

/-- `nx_epipolar_pick_best_Rt` yields the first of the pairs with the largest sum of signs. -/
theorem c68_best (ps : List (M3 ℝ × V3 ℝ)) (hps : ps ≠ []) (n : Nat) (hn0 : 0 < n) (corr : List (PMatch ℝ))
    (hn : n ≤ corr.length) :
    ∃ idx sum p, pickBestRt Real.sqrt ps n corr = .ok (idx, sum) ∧ ps[idx]? = some p ∧
      zSignSum Real.sqrt n corr p.1 p.2 = .ok sum ∧
      ∀ i q s, ps[i]? = some q → zSignSum Real.sqrt n corr q.1 q.2 = .ok s → s ≤ sum ∧ (i < idx → s < sum) := by
  have hf : ∀ p : M3 ℝ × V3 ℝ, zSignSum Real.sqrt n corr p.1 p.2 = .ok _ := fun p => zSignSum_eq p.1 p.2 n corr hn
  cases ps with
  | nil => exact absurd rfl hps
  | cons p ps =>
    obtain ⟨r, hr, q, hq, hfq, hall⟩ := pickLoop_spec n corr _ hf ps [p] (0, _) ⟨p, rfl, rfl, by
      intro i q hi
      have : i = 0 := by
        by_contra hne
        rw [List.getElem?_eq_none (by simp; omega)] at hi
        cases hi
      subst this
      simp at hi
      subst hi
      exact ⟨le_rfl, fun h => absurd h (by simp)⟩⟩
    refine ⟨r.1, r.2, q, ?_, hq, by rw [hf, hfq], ?_⟩
    · rw [pickBestRt, if_neg (by omega)]
      simp only [hf, Res.ok_bind]
      exact hr
    · intro i q' s hi hs
      rw [hf, Res.ok.injEq] at hs
      rw [← hs]
      exact hall i q' hi

/-- If one of the pairs has all matched points in front of both cameras, the sum of signs is twice the number of matches, and the chosen pair
has all matched points that it explains in front of both cameras. -/
theorem c68_chirality (ps : List (M3 ℝ × V3 ℝ)) (n : Nat) (hn0 : 0 < n) (corr : List (PMatch ℝ)) (hn : n ≤ corr.length)
    (p : M3 ℝ × V3 ℝ) (hp : p ∈ ps) (hR : IsRotation p.1.mat) (a b : PMatch ℝ → ℝ)
    (h : ∀ c ∈ corr.take n, Explained p.1 p.2 c (a c) (b c) ∧ 0 < a c ∧ 0 < b c) :
    ∃ idx q, pickBestRt Real.sqrt ps n corr = .ok (idx, 2 * n) ∧ ps[idx]? = some q ∧
      (IsRotation q.1.mat → ∀ c ∈ corr.take n, ∀ a' b', Explained q.1 q.2 c a' b' → 0 < a' ∧ 0 < b') := by
  obtain ⟨idx, sum, q, hpick, hq, hsum, hall⟩ := c68_best ps (List.ne_nil_of_mem hp) n hn0 corr hn
  have hlen : (corr.take n).length = n := by simp [hn]
  -- the largest possible value
  have hle : ∀ (R : M3 ℝ) (t : V3 ℝ) (l : List (PMatch ℝ)), (l.map fun c => (zSigns Real.sqrt R (baseVec R t) c).1
      + (zSigns Real.sqrt R (baseVec R t) c).2).sum ≤ 2 * l.length ∧
      ((l.map fun c => (zSigns Real.sqrt R (baseVec R t) c).1 + (zSigns Real.sqrt R (baseVec R t) c).2).sum = 2 * l.length →
        ∀ c ∈ l, (zSigns Real.sqrt R (baseVec R t) c).1 + (zSigns Real.sqrt R (baseVec R t) c).2 = 2) := by
    intro R t l
    induction l with
    | nil => simp
    | cons c cs ih =>
      have h2 := signs_le R (baseVec R t) c
      simp only [List.map_cons, List.sum_cons, List.length_cons, Nat.cast_add, Nat.cast_one, List.mem_cons,
        forall_eq_or_imp]
      refine ⟨by omega, fun he => ⟨by omega, ih.2 (by omega)⟩⟩
  have hmax : zSignSum Real.sqrt n corr p.1 p.2 = .ok (2 * n) := by
    rw [c68_sum p.1 p.2 hR n corr hn a b fun c hc => (h c hc).1]
    congr 1
    have : ((corr.take n).map fun c => signum (a c) + signum (b c)) = (corr.take n).map fun _ => (2 : Int) := by
      apply List.map_congr_left
      intro c hc
      rw [signum_pos (h c hc).2.1, signum_pos (h c hc).2.2]
      rfl
    rw [this]
    simp [hn]
    omega
  obtain ⟨i, hi⟩ := List.mem_iff_getElem?.mp hp
  have h1 := (hall i p _ hi hmax).1
  rw [zSignSum_eq q.1 q.2 n corr hn, Res.ok.injEq] at hsum
  obtain ⟨h2, h3⟩ := hle q.1 q.2 (corr.take n)
  rw [hsum, hlen] at h2 h3
  have hs : sum = 2 * n := le_antisymm h2 h1
  refine ⟨idx, q, by rw [hpick, hs], hq, ?_⟩
  intro hQ c hc a' b' he
  have h4 := h3 hs c hc
  rw [c68_signs q.1 q.2 hQ c a' b' he] at h4
  have ha := signum_le a'
  have hb := signum_le b'
  simp only at h4
  constructor
  · by_contra hneg
    rcases (not_lt.mp hneg).lt_or_eq with g | g
    · rw [signum_neg g] at h4; omega
    · exact he.1 g
  · by_contra hneg
    rcases (not_lt.mp hneg).lt_or_eq with g | g
    · rw [signum_neg g] at h4; omega
    · exact he.2.1 g

/-- The four pairs have the same translation up to sign, and the same rotation up to half a turn about it. -/
theorem decompose_pairs (svd3 : M3 ℝ → M3 ℝ × V3 ℝ × M3 ℝ) (E : M3 ℝ)
    (hs : IsSvd3 E.mat (svd3 E).1.mat (svd3 E).2.2.mat (svd3 E).2.1.vec) (p q : M3 ℝ × V3 ℝ)
    (hp : p ∈ (essentialDecompose svd3 E).1) (hq : q ∈ (essentialDecompose svd3 E).1) :
    (q.2.vec = p.2.vec ∨ q.2.vec = -p.2.vec) ∧
      (q.1.mat = p.1.mat ∨ q.1.mat = (2 • Matrix.vecMulVec p.2.vec p.2.vec - 1) * p.1.mat) := by
  obtain ⟨hU, -, -⟩ := hs
  obtain ⟨rU, -⟩ := fixSign_rot _ hU
  obtain ⟨R0, R2, t0, t1, eq, h0, h2, ht0, ht1⟩ := decompose_mat svd3 E
  rw [eq] at hp hq
  generalize (fixSign (svd3 E).1).mat = U at *
  generalize (fixSign (svd3 E).2.2).mat = V at *
  have hUU := mul_eq_one_comm.mp rU.1
  have hneg : t1.vec = -t0.vec := by
    rw [ht0, ht1, ← Matrix.mulVec_neg]
    congr 1
    funext i
    fin_cases i <;> simp
  have hH : 2 • Matrix.vecMulVec t0.vec t0.vec - 1 = U * Matrix.diagonal ![-1, -1, 1] * U.transpose := by
    have e1 : Matrix.vecMulVec t0.vec t0.vec = U * Matrix.vecMulVec ![0, 0, 1] ![0, 0, 1] * U.transpose := by
      rw [ht0, Matrix.mul_vecMulVec, Matrix.vecMulVec_mul, Matrix.vecMul_transpose]
    have e2 : (Matrix.diagonal ![-1, -1, 1] : Matrix (Fin 3) (Fin 3) ℝ)
        = 2 • Matrix.vecMulVec ![0, 0, 1] ![0, 0, 1] - 1 := by
      ext i j
      fin_cases i <;> fin_cases j <;> simp
      norm_num
    rw [e1, e2, Matrix.mul_sub, Matrix.sub_mul, Matrix.mul_one, rU.1, Matrix.mul_smul, Matrix.smul_mul]
  have hd : ∀ W : Matrix (Fin 3) (Fin 3) ℝ, (U * Matrix.diagonal ![-1, -1, 1] * U.transpose) * (U * W * V)
      = U * (Matrix.diagonal ![-1, -1, 1] * W) * V := by
    intro W
    calc (U * Matrix.diagonal ![-1, -1, 1] * U.transpose) * (U * W * V)
        = U * Matrix.diagonal ![-1, -1, 1] * (U.transpose * U) * W * V := by simp only [Matrix.mul_assoc]
      _ = _ := by rw [hUU, Matrix.mul_one]; simp only [Matrix.mul_assoc]
  have hT : (quarter : Matrix (Fin 3) (Fin 3) ℝ).transpose = !![0, 1, 0; -1, 0, 0; 0, 0, 1] := by
    ext i j
    fin_cases i <;> fin_cases j <;> simp [quarter]
  have h20 : R2.mat = (2 • Matrix.vecMulVec t0.vec t0.vec - 1) * R0.mat := by
    rw [hH, h0, h2, hd, hT]
    congr 2
    ext i j
    fin_cases i <;> fin_cases j <;> simp [quarter]
  have h02 : R0.mat = (2 • Matrix.vecMulVec t0.vec t0.vec - 1) * R2.mat := by
    rw [hH, h0, h2, hd, hT]
    congr 2
    ext i j
    fin_cases i <;> fin_cases j <;> simp [quarter]
  have hv : Matrix.vecMulVec (-t0.vec) (-t0.vec) = Matrix.vecMulVec t0.vec t0.vec := by
    ext i j
    simp [Matrix.vecMulVec_apply]
  simp only [List.mem_cons, List.not_mem_nil, or_false] at hp hq
  rcases hp with rfl | rfl | rfl | rfl <;> rcases hq with rfl | rfl | rfl | rfl <;>
    simp only [hneg, hv, neg_neg, true_or, or_true, true_and, and_true] <;>
    first
      | exact Or.inr h20
      | exact Or.inr h02

/-- From the essential matrix of a rotation `R` and a unit vector `t` and matches of points in front of both cameras, the
decomposition and the choice recover exactly `R` and `t`. -/
theorem c68_recover (svd3 : M3 ℝ → M3 ℝ × V3 ℝ × M3 ℝ) (hs : Svd3Contract svd3) (R : M3 ℝ) (t : V3 ℝ)
    (hR : IsRotation R.mat) (ht : IsUnit3 t.vec) (n : Nat) (hn0 : 0 < n) (corr : List (PMatch ℝ)) (hn : n ≤ corr.length)
    (a b : PMatch ℝ → ℝ) (h : ∀ c ∈ corr.take n, Explained R t c (a c) (b c) ∧ 0 < a c ∧ 0 < b c) :
    ∃ idx, pickBestRt Real.sqrt (essentialDecompose svd3 (essentialFromRt R t)).1 n corr = .ok (idx, 2 * n) ∧
      (essentialDecompose svd3 (essentialFromRt R t)).1[idx]? = some (R, t) := by
  have hmem := (c67_recover svd3 hs R t hR ht).1
  obtain ⟨idx, q, hpick, hq, -⟩ := c68_chirality _ n hn0 corr hn (R, t) hmem hR a b h
  refine ⟨idx, hpick, ?_⟩
  rw [hq]
  have hqm := List.mem_of_getElem? hq
  obtain ⟨hqt, hqR⟩ := decompose_pairs svd3 _ (hs _) (R, t) q hmem hqm
  have hQ := ((c67_decompose_rotations svd3 (essentialFromRt R t) (hs _)).2 q hqm).1
  -- the sum of the chosen pair
  obtain ⟨idx', sum', q', hpick', hq', hsum', -⟩ := c68_best _ (List.ne_nil_of_mem hmem) n hn0 corr hn
  rw [hpick] at hpick'
  simp only [Res.ok.injEq, Prod.mk.injEq] at hpick'
  obtain ⟨rfl, rfl⟩ := hpick'
  rw [hq, Option.some.injEq] at hq'
  subst hq'
  rw [zSignSum_eq q.1 q.2 n corr hn, Res.ok.injEq] at hsum'
  -- no other pair has a positive sum for any match
  by_contra hne
  have hlow : ∀ c ∈ corr.take n,
      (zSigns Real.sqrt q.1 (baseVec q.1 q.2) c).1 + (zSigns Real.sqrt q.1 (baseVec q.1 q.2) c).2 ≤ 0 := by
    intro c hc
    obtain ⟨⟨_, hb, he, hx⟩, ha0, hb0⟩ := h c hc
    generalize a c = a at *
    generalize b c = b at *
    rcases hqR with hqR | hqR
    · rcases hqt with hqt | hqt
      · exact absurd (by
          rw [Option.some.injEq]
          exact Prod.ext (mat_injective hqR) (vec_injective hqt)) hne
      · rw [signs_of_relation q.1 q.2 hQ c a b (-1) hb (by rw [hqR, hqt, smul_neg, neg_smul, neg_neg, one_smul]; exact he)
          (by rw [hqR, hqt, map_neg, LinearMap.neg_apply, neg_ne_zero]; exact hx)]
        have h1 : signum (b⁻¹ * -1) = -1 := signum_neg (mul_neg_of_pos_of_neg (inv_pos.mpr hb0) (by norm_num))
        have h2 : signum (b⁻¹ * a) = 1 := signum_pos (mul_pos (inv_pos.mpr hb0) ha0)
        rw [h1, h2]
        norm_num
    · -- half a turn about the translation
      have hu : ∀ u : Fin 3 → ℝ, q.1.mat.mulVec u
          = (2 * dotProduct t.vec (R.mat.mulVec u)) • t.vec - R.mat.mulVec u := by
        intro u
        rw [hqR, ← Matrix.mulVec_mulVec, Matrix.sub_mulVec, Matrix.one_mulVec, Matrix.smul_mulVec,
          Matrix.vecMulVec_mulVec]
        congr 1
        funext i
        simp
        ring
      have key : ∀ g : ℝ, q.2.vec = g • t.vec → g * g = 1 →
          (zSigns Real.sqrt q.1 (baseVec q.1 q.2) c).1 + (zSigns Real.sqrt q.1 (baseVec q.1 q.2) c).2 = 0 := by
        intro g hg hgg
        rw [signs_of_relation q.1 q.2 hQ c a (-b) (g * (-(2 * dotProduct t.vec (R.mat.mulVec (a • hom2 c.x))) - 1))
          (neg_ne_zero.mpr hb) ?_ ?_]
        · have h2 : signum ((-b)⁻¹ * a) = -1 :=
            signum_neg (mul_neg_of_neg_of_pos (inv_lt_zero.mpr (neg_neg_of_pos hb0)) ha0)
          simp only [h2]
          omega
        · rw [hu, hg, smul_smul, neg_smul, ← he]
          have : g * (-(2 * dotProduct t.vec (R.mat.mulVec (a • hom2 c.x))) - 1) * g
              = -(2 * dotProduct t.vec (R.mat.mulVec (a • hom2 c.x))) - 1 := by
            linear_combination (-(2 * dotProduct t.vec (R.mat.mulVec (a • hom2 c.x))) - 1) * hgg
          rw [this]
          funext i
          simp
          ring
        · rw [hu, hg]
          intro h0
          apply hx
          have hg0 : g ≠ 0 := by rintro rfl; simp at hgg
          rw [map_smul, LinearMap.smul_apply, smul_eq_zero] at h0
          rcases h0 with h0 | h0
          · exact absurd h0 hg0
          · rw [map_sub, map_smul, cross_self, smul_zero, zero_sub, neg_eq_zero] at h0
            exact h0
      rcases hqt with hqt | hqt
      · exact (key 1 (by rw [one_smul]; exact hqt) (by norm_num)).le
      · exact (key (-1) (by rw [neg_smul, one_smul]; exact hqt) (by norm_num)).le
  have hle : ∀ l : List (PMatch ℝ), (∀ c ∈ l,
      (zSigns Real.sqrt q.1 (baseVec q.1 q.2) c).1 + (zSigns Real.sqrt q.1 (baseVec q.1 q.2) c).2 ≤ 0) →
      (l.map fun c => (zSigns Real.sqrt q.1 (baseVec q.1 q.2) c).1 + (zSigns Real.sqrt q.1 (baseVec q.1 q.2) c).2).sum ≤ 0 := by
    intro l hl
    induction l with
    | nil => simp
    | cons c cs ih =>
      have h1 := hl c (by simp)
      have h2 := ih fun c' hc' => hl c' (by simp [hc'])
      simp only [List.map_cons, List.sum_cons]
      omega
  have := hle _ hlow
  omega

/-- Without matches the choice ends the program. -/
theorem c68_none (sqrt : ℝ → ℝ) (ps : List (M3 ℝ × V3 ℝ)) (n : Int) (hn : n ≤ 0) (corr : List (PMatch ℝ)) :
    pickBestRt sqrt ps n corr = .fatal := by
  rw [pickBestRt.eq_def, if_pos hn]

/-- A match of a camera that moves sideways. -/
example : Explained ⟨1, 0, 0, 0, 1, 0, 0, 0, 1⟩ ⟨1, 0, 0⟩ ⟨(0, 1), (1 / 2, 1), 0, 1, 1, 0, 0, false⟩ 2 2 := by
  refine ⟨two_ne_zero, two_ne_zero, ?_, ?_⟩
  · ext i
    fin_cases i <;> simp [M3.mat, V3.vec, hom2]
  · intro h
    have := congrFun h 2
    simp [M3.mat, V3.vec, hom2, cross_apply] at this

end Nx
