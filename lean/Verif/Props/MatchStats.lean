import Verif.Lemmas.MatchStats
import Verif.Props.Mark

/-!
# C65: normalisation of matches
-/

namespace Nx

/-- Specification of the normalisation of a point: `m` becomes the origin, the distance `d` the unit. -/
def normPt {K : Type} [Field K] (m : K × K) (d : K) (p : K × K) : K × K := ((p.1 - m.1) / d, (p.2 - m.2) / d)

/-- The matrix of the normalisation. -/
def normMat {K : Type} [Field K] (m : K × K) (d : K) : Matrix (Fin 3) (Fin 3) K :=
  scale2 (1 / d) (1 / d) * transl2 (-m.1) (-m.2)

section
variable {K : Type} [Field K]

theorem normMat_eq (m : K × K) (d : K) :
    normMat m d = !![1 / d, 0, -m.1 * (1 / d); 0, 1 / d, -m.2 * (1 / d); 0, 0, 1] := by
  ext i j
  fin_cases i <;> fin_cases j <;> simp [normMat, scale2, transl2, Matrix.mul_apply, Fin.sum_univ_three] <;> ring

/-- The matrix of the normalisation is that of the normalisation. -/
theorem normMat_hom2 (m : K × K) (d : K) (p : K × K) : (normMat m d).mulVec (hom2 p) = hom2 (normPt m d p) := by
  rw [normMat_eq]
  ext i
  fin_cases i <;> simp [hom2, normPt, Matrix.mulVec, dotProduct, Fin.sum_univ_three] <;> ring

/-- `nx_point_match_2d_stats_denormalize_homography` conjugates with the normalisations. -/
theorem c65_homography_mat (st : MStats K) (h : M3 K) (hd' : st.dp ≠ 0) :
    normMat st.mp st.dp * (denormalizeHomography st h).mat = h.mat * normMat st.m st.d := by
  rw [normMat_eq, normMat_eq]
  ext i j
  fin_cases i <;> fin_cases j <;>
    simp [denormalizeHomography, M3.mat, Matrix.mul_apply, Fin.sum_univ_three] <;> field_simp <;> ring

/-- The denormalised homography takes a point to another iff the homography takes the normalised point to the other
normalised point. -/
theorem c65_homography (st : MStats K) (h : M3 K) (hd' : st.dp ≠ 0) (p q : K × K) :
    Projects (denormalizeHomography st h).mat p q ↔ Projects h.mat (normPt st.m st.d p) (normPt st.mp st.dp q) := by
  have e : ∀ s : K, (denormalizeHomography st h).mat.mulVec (hom2 p) = s • hom2 q ↔
      h.mat.mulVec (hom2 (normPt st.m st.d p)) = s • hom2 (normPt st.mp st.dp q) := by
    intro s
    rw [← normMat_hom2, ← normMat_hom2, Matrix.mulVec_mulVec, ← c65_homography_mat st h hd', ← Matrix.mulVec_mulVec,
      ← Matrix.mulVec_smul]
    refine ⟨fun h => by rw [h], fun h => ?_⟩
    have hinj : (transl2 st.mp.1 st.mp.2 * scale2 st.dp st.dp) * normMat st.mp st.dp = 1 := by
      rw [normMat_eq]
      ext i j
      fin_cases i <;> fin_cases j <;>
        simp [scale2, transl2, Matrix.mul_apply, Fin.sum_univ_three, hd'] <;> field_simp <;> ring
    have := congrArg (transl2 st.mp.1 st.mp.2 * scale2 st.dp st.dp).mulVec h
    rwa [Matrix.mulVec_mulVec (s • hom2 q), Matrix.mulVec_mulVec (Matrix.mulVec _ (hom2 p)), hinj, Matrix.one_mulVec,
      Matrix.one_mulVec] at this
  exact ⟨fun ⟨s, hs, h1⟩ => ⟨s, hs, (e s).mp h1⟩, fun ⟨s, hs, h1⟩ => ⟨s, hs, (e s).mpr h1⟩⟩

/-- `nx_point_match_2d_stats_denormalize_fundamental`: the bilinear form of the denormalised matrix is that of the
matrix on the normalised points. -/
theorem c65_fundamental (st : MStats K) (f : M3 K) (p q : K × K) :
    dotProduct (hom2 q) ((denormalizeFundamental st f).mat.mulVec (hom2 p))
      = dotProduct (hom2 (normPt st.mp st.dp q)) (f.mat.mulVec (hom2 (normPt st.m st.d p))) := by
  simp only [denormalizeFundamental, M3.mat, hom2, normPt, Matrix.mulVec, dotProduct, Fin.sum_univ_three]
  simp
  ring

/-- Its matrix. -/
theorem c65_fundamental_mat (st : MStats K) (f : M3 K) :
    (denormalizeFundamental st f).mat = (normMat st.mp st.dp).transpose * f.mat * normMat st.m st.d := by
  rw [normMat_eq, normMat_eq]
  ext i j
  fin_cases i <;> fin_cases j <;>
    simp [denormalizeFundamental, M3.mat, Matrix.mul_apply, Fin.sum_univ_three] <;> ring

/-- The statistics after `nx_point_match_2d_stats_reset` change nothing. -/
theorem c65_reset (h : M3 K) (c : PMatch K) :
    denormalizeHomography statsReset h = h ∧ denormalizeFundamental statsReset h = h ∧
      unscaleMatch statsReset c = c := by
  refine ⟨?_, ?_, ?_⟩
  · cases h
    simp [denormalizeHomography, statsReset]
  · cases h
    simp [denormalizeFundamental, statsReset]
  · simp [unscaleMatch, statsReset]

/-- One match, normalised and back. -/
theorem unscale_norm (st : MStats K) (h1 : st.d ≠ 0) (h2 : st.dp ≠ 0) (c : PMatch K) :
    unscaleMatch st (normMatch st c) = c := by
  simp [unscaleMatch, normMatch, mul_div_cancel₀ _ h1, mul_div_cancel₀ _ h2, div_mul_cancel₀ _ h1,
    div_mul_cancel₀ _ h2]

variable [DecidableEq K]

/-- Normalisation changes only the points and their deviations, of the first `n` matches, and
`nx_point_match_2d_stats_denormalize_matches` undoes it. -/
theorem c65_round_trip (sqrt : K → K) (n : Nat) (hn : 0 < n) (corr corr' : List (PMatch K)) (hc : n ≤ corr.length)
    (st : MStats K) (h : normalizeMatches sqrt n corr = .ok (some (st, corr'))) :
    st.d ≠ 0 ∧ st.dp ≠ 0 ∧ corr'.length = corr.length ∧
      (∀ i c, corr[i]? = some c → corr'[i]? = some (if i < n then
        { c with
          x := normPt st.m st.d c.x
          xp := normPt st.mp st.dp c.xp
          sigmaX := c.sigmaX / st.d
          sigmaXp := c.sigmaXp / st.dp } else c)) ∧
      denormalizeMatches st n corr' = .ok corr := by
  rw [normalizeMatches_eq sqrt n hn corr hc] at h
  split at h
  · simp at h
  · rename_i hd
    simp only [Res.ok.injEq, Option.some.injEq, Prod.mk.injEq] at h
    obtain ⟨h1, h2⟩ := h
    rw [h1] at hd h2
    rw [not_or] at hd
    have hl : ((corr.take n).map (normMatch st)).length = n := by simp [hc]
    refine ⟨hd.1, hd.2, ?_, ?_, ?_⟩
    · rw [← h2, List.length_append, hl, List.length_drop]
      omega
    · intro i c hi
      rw [← h2]
      by_cases hin : i < n
      · rw [List.getElem?_append_left (by omega), List.getElem?_map, List.getElem?_take_of_lt hin, hi, if_pos hin]
        rfl
      · rw [List.getElem?_append_right (by omega), hl, List.getElem?_drop, Nat.add_sub_cancel' (by omega), hi,
          if_neg hin]
    · rw [denormalizeMatches, ← h2, Int.toNat_natCast, mapLoop_ok _ _ _ (by rw [List.length_append, hl]; omega),
        List.take_append_of_le_length hl.ge, List.take_of_length_le hl.le, List.drop_append_of_le_length hl.ge,
        List.drop_of_length_le hl.le, List.map_map, List.nil_append]
      have hid : (unscaleMatch st ∘ normMatch st) = id := by
        funext c
        exact unscale_norm st hd.1 hd.2 c
      rw [hid, List.map_id, List.take_append_drop]

end

section
variable {K : Type} [Field K] [LinearOrder K] [IsStrictOrderedRing K]

/-- The tolerance scales with the distances. -/
theorem c65_tolerance (st : MStats K) (h : M3 K) (hd' : 0 < st.dp) (p q : K × K) (tol : K) :
    Within (denormalizeHomography st h).mat p q (tol * tol) ↔
      Within h.mat (normPt st.m st.d p) (normPt st.mp st.dp q) (tol / st.dp * (tol / st.dp)) := by
  have h2 : 0 < st.dp * st.dp := mul_pos hd' hd'
  have key : ∀ m : K × K, (m.1 - q.1) ^ 2 + (m.2 - q.2) ^ 2 < tol * tol ↔
      ((normPt st.mp st.dp m).1 - (normPt st.mp st.dp q).1) ^ 2
        + ((normPt st.mp st.dp m).2 - (normPt st.mp st.dp q).2) ^ 2 < tol / st.dp * (tol / st.dp) := by
    intro m
    have e1 : ((normPt st.mp st.dp m).1 - (normPt st.mp st.dp q).1) ^ 2
        + ((normPt st.mp st.dp m).2 - (normPt st.mp st.dp q).2) ^ 2
          = ((m.1 - q.1) ^ 2 + (m.2 - q.2) ^ 2) / (st.dp * st.dp) := by
      simp only [normPt]
      field_simp
      ring
    rw [e1, div_mul_div_comm, div_lt_div_iff_of_pos_right h2]
  constructor
  · rintro ⟨m, hm, hlt⟩
    exact ⟨_, (c65_homography st h hd'.ne' p m).mp hm, (key m).mp hlt⟩
  · rintro ⟨m, hm, hlt⟩
    have e : normPt st.mp st.dp (st.dp * m.1 + st.mp.1, st.dp * m.2 + st.mp.2) = m := by
      simp [normPt, hd'.ne']
    rw [← e] at hm hlt
    exact ⟨_, (c65_homography st h hd'.ne' p _).mpr hm, (key _).mpr hlt⟩

/-- Marking the normalised matches with the homography and the scaled tolerance, then denormalising the matches, gives
the marks and the count of marking the matches with the denormalised homography and the tolerance. -/
theorem c65_inliers (sqrt : K → K) (n : Nat) (hn : 0 < n) (corr corr' : List (PMatch K)) (hc : n ≤ corr.length)
    (st : MStats K) (h : normalizeMatches sqrt n corr = .ok (some (st, corr'))) (hd' : 0 < st.dp) (A : M3 K) (tol : K) :
    (do
      let r ← markInliers A n corr' (tol / st.dp)
      let c ← denormalizeMatches st n r.1
      pure (c, r.2)) = markInliers (denormalizeHomography st A) n corr tol := by
  obtain ⟨hd, -, hlen, hel, hback⟩ := c65_round_trip sqrt n hn corr corr' hc st h
  have hc' : n ≤ corr'.length := by omega
  have e' : corr'.take n = (corr.take n).map (normMatch st) := by
    rw [normalizeMatches_eq sqrt n hn corr hc] at h
    split at h
    · simp at h
    · simp only [Res.ok.injEq, Option.some.injEq, Prod.mk.injEq] at h
      obtain ⟨h1, h2⟩ := h
      rw [h1] at h2
      have hl : ((corr.take n).map (normMatch st)).length = n := by simp [hc]
      rw [← h2, List.take_append_of_le_length hl.ge, List.take_of_length_le hl.le]
  have e'' : corr'.drop n = corr.drop n := by
    apply List.ext_getElem?
    intro i
    rw [List.getElem?_drop, List.getElem?_drop]
    cases hi : corr[n + i]? with
    | none => rw [List.getElem?_eq_none_iff] at hi ⊢; omega
    | some c => rw [hel _ _ hi, if_neg (by omega)]
  simp only [markInliers, Int.toNat_natCast]
  rw [markLoop_ok _ _ _ _ hc', markLoop_ok _ _ _ _ hc, e', e'']
  have hl : ((corr.take n).map (normMatch st)).length = n := by simp [hc]
  have htest : ∀ c : PMatch K, closeTo (transferFwd A (normMatch st c).x).1 (normMatch st c).xp
      (tol / st.dp * (tol / st.dp)) = closeTo (transferFwd (denormalizeHomography st A) c.x).1 c.xp (tol * tol) := by
    intro c
    rw [Bool.eq_iff_iff, closeTo_iff, closeTo_iff, c65_tolerance st A hd']
    rfl
  have hmark : ∀ c : PMatch K, unscaleMatch st { normMatch st c with inlier := (closeTo (transferFwd A
      (normMatch st c).x).1 (normMatch st c).xp (tol / st.dp * (tol / st.dp))) }
      = { c with inlier := closeTo (transferFwd (denormalizeHomography st A) c.x).1 c.xp (tol * tol) } := by
    intro c
    rw [htest]
    have := unscale_norm st hd hd'.ne' c
    generalize closeTo (transferFwd (denormalizeHomography st A) c.x).1 c.xp (tol * tol) = b
    conv_rhs => rw [← this]
    rfl
  simp only [Res.ok_bind, denormalizeMatches, Int.toNat_natCast]
  rw [mapLoop_ok _ _ _ (by simp [marked]; omega), List.take_append_of_le_length (by simp [marked, hc]),
    List.take_of_length_le (by simp [marked]), List.drop_append_of_le_length (by simp [marked, hc]),
    List.drop_of_length_le (by simp [marked])]
  simp only [Res.ok_bind, Res.pure_eq, List.nil_append, Res.ok.injEq, Prod.mk.injEq]
  refine ⟨?_, ?_⟩
  · congr 1
    rw [marked, marked, List.map_map, List.map_map]
    apply List.map_congr_left
    intro c _
    exact hmark c
  · rw [List.filter_map, List.length_map]
    congr 2
    apply List.filter_congr
    intro c _
    exact htest c

end

/-- The mean of a list of numbers. -/
noncomputable def meanR (l : List ℝ) : ℝ := l.sum / l.length

theorem sum_map_sub (l : List (PMatch ℝ)) (f : PMatch ℝ → ℝ) (m : ℝ) :
    (l.map fun c => f c - m).sum = (l.map f).sum - l.length * m := by
  induction l with
  | nil => simp
  | cons c cs ih => simp only [List.map_cons, List.sum_cons, ih, List.length_cons]; push_cast; ring

theorem sum_map_div (l : List (PMatch ℝ)) (f : PMatch ℝ → ℝ) (d : ℝ) :
    (l.map fun c => f c / d).sum = (l.map f).sum / d := by
  induction l with
  | nil => simp
  | cons c cs ih => simp only [List.map_cons, List.sum_cons, ih]; ring

/-- The sum of nonnegative numbers vanishes iff all of them do. -/
theorem sum_map_eq_zero (l : List (PMatch ℝ)) (f : PMatch ℝ → ℝ) (hf : ∀ c, 0 ≤ f c) :
    0 ≤ (l.map f).sum ∧ ((l.map f).sum = 0 ↔ ∀ c ∈ l, f c = 0) := by
  induction l with
  | nil => simp
  | cons c cs ih =>
    simp only [List.map_cons, List.sum_cons, List.mem_cons, forall_eq_or_imp]
    refine ⟨add_nonneg (hf c) ih.1, ?_⟩
    rw [← ih.2]
    exact add_eq_zero_iff_of_nonneg (hf c) ih.1

/-- One of the two sides of the normalisation. -/
theorem side_norm (l : List (PMatch ℝ)) (hl : l ≠ []) (f : PMatch ℝ → ℝ × ℝ) (m : ℝ × ℝ) (d : ℝ)
    (hm : m = ((l.map fun c => (f c).1).sum / l.length, (l.map fun c => (f c).2).sum / l.length))
    (hd : d = (l.map fun c => Real.sqrt (((f c).1 - m.1) * ((f c).1 - m.1) + ((f c).2 - m.2) * ((f c).2 - m.2))).sum
      / l.length) :
    0 ≤ d ∧ (d = 0 ↔ ∀ c ∈ l, ∀ c' ∈ l, f c = f c') ∧ (d ≠ 0 →
      meanR (l.map fun c => (normPt m d (f c)).1) = 0 ∧ meanR (l.map fun c => (normPt m d (f c)).2) = 0 ∧
      meanR (l.map fun c => Real.sqrt ((normPt m d (f c)).1 ^ 2 + (normPt m d (f c)).2 ^ 2)) = 1) := by
  have hk : (0 : ℝ) < l.length := by
    rw [Nat.cast_pos]
    exact List.length_pos_of_ne_nil hl
  have hs := sum_map_eq_zero l (fun c => Real.sqrt (((f c).1 - m.1) * ((f c).1 - m.1)
    + ((f c).2 - m.2) * ((f c).2 - m.2))) (fun c => Real.sqrt_nonneg _)
  have hd0 : 0 ≤ d := by rw [hd]; exact div_nonneg hs.1 hk.le
  have hz : ∀ c, Real.sqrt (((f c).1 - m.1) * ((f c).1 - m.1) + ((f c).2 - m.2) * ((f c).2 - m.2)) = 0 ↔ f c = m := by
    intro c
    rw [Real.sqrt_eq_zero (add_nonneg (mul_self_nonneg _) (mul_self_nonneg _)), Prod.ext_iff]
    constructor
    · intro h
      constructor <;> nlinarith [sq_nonneg ((f c).1 - m.1), sq_nonneg ((f c).2 - m.2)]
    · rintro ⟨h1, h2⟩
      rw [h1, h2]
      ring
  refine ⟨hd0, ?_, ?_⟩
  · rw [hd, div_eq_zero_iff, or_iff_left hk.ne', hs.2]
    simp only [hz]
    constructor
    · intro h c hc c' hc'
      rw [h c hc, h c' hc']
    · intro h c hc
      have e1 : (l.map fun c => (f c).1) = l.map fun _ => (f c).1 :=
        List.map_congr_left fun c' hc' => by rw [h c hc c' hc']
      have e2 : (l.map fun c => (f c).2) = l.map fun _ => (f c).2 :=
        List.map_congr_left fun c' hc' => by rw [h c hc c' hc']
      rw [hm, e1, e2]
      ext <;> simp [hk.ne']
  · intro hne
    have hdp : 0 < d := lt_of_le_of_ne hd0 (Ne.symm hne)
    have h3 : ∀ c, Real.sqrt ((normPt m d (f c)).1 ^ 2 + (normPt m d (f c)).2 ^ 2)
        = Real.sqrt (((f c).1 - m.1) * ((f c).1 - m.1) + ((f c).2 - m.2) * ((f c).2 - m.2)) / d := by
      intro c
      have : (normPt m d (f c)).1 ^ 2 + (normPt m d (f c)).2 ^ 2
          = (((f c).1 - m.1) * ((f c).1 - m.1) + ((f c).2 - m.2) * ((f c).2 - m.2)) / (d * d) := by
        simp only [normPt]
        field_simp
      rw [this, Real.sqrt_div (add_nonneg (mul_self_nonneg _) (mul_self_nonneg _)), Real.sqrt_mul_self hd0]
    refine ⟨?_, ?_, ?_⟩
    · simp only [meanR, normPt]
      rw [sum_map_div, sum_map_sub, hm]
      field_simp
      simp
    · simp only [meanR, normPt]
      rw [sum_map_div, sum_map_sub, hm]
      field_simp
      simp
    · simp only [meanR, h3]
      rw [sum_map_div, List.length_map]
      have hS : (l.map fun c => Real.sqrt (((f c).1 - m.1) * ((f c).1 - m.1)
          + ((f c).2 - m.2) * ((f c).2 - m.2))).sum = d * l.length := by
        conv_rhs => rw [hd]
        rw [div_mul_cancel₀ _ hk.ne']
      rw [hS]
      field_simp

/-- After normalisation the points of both images have their centroid at the origin and their mean distance from the
origin is one; it fails by a division by zero iff the points of one of the images all coincide. -/
theorem c65_normalized (n : Nat) (hn : 0 < n) (corr : List (PMatch ℝ)) (hc : n ≤ corr.length) :
    (normalizeMatches Real.sqrt n corr = .ok none ∧
      ((∀ c ∈ corr.take n, ∀ c' ∈ corr.take n, c.x = c'.x) ∨ (∀ c ∈ corr.take n, ∀ c' ∈ corr.take n, c.xp = c'.xp))) ∨
    (¬ (∀ c ∈ corr.take n, ∀ c' ∈ corr.take n, c.x = c'.x) ∧
      ¬ (∀ c ∈ corr.take n, ∀ c' ∈ corr.take n, c.xp = c'.xp) ∧
      ∃ st corr', normalizeMatches Real.sqrt n corr = .ok (some (st, corr')) ∧ 0 < st.d ∧ 0 < st.dp ∧
        meanR ((corr'.take n).map fun c => c.x.1) = 0 ∧ meanR ((corr'.take n).map fun c => c.x.2) = 0 ∧
        meanR ((corr'.take n).map fun c => c.xp.1) = 0 ∧ meanR ((corr'.take n).map fun c => c.xp.2) = 0 ∧
        meanR ((corr'.take n).map fun c => Real.sqrt (c.x.1 ^ 2 + c.x.2 ^ 2)) = 1 ∧
        meanR ((corr'.take n).map fun c => Real.sqrt (c.xp.1 ^ 2 + c.xp.2 ^ 2)) = 1) := by
  have hlen : (corr.take n).length = n := by simp [hc]
  have hl : corr.take n ≠ [] := by
    intro h
    rw [h] at hlen
    simp at hlen
    omega
  have e := normalizeMatches_eq Real.sqrt n hn corr hc
  have a := side_norm (corr.take n) hl (fun c => c.x) (statsOf Real.sqrt (n : ℝ) (corr.take n)).m
    (statsOf Real.sqrt (n : ℝ) (corr.take n)).d (by rw [hlen]; rfl) (by rw [hlen]; rfl)
  have b := side_norm (corr.take n) hl (fun c => c.xp) (statsOf Real.sqrt (n : ℝ) (corr.take n)).mp
    (statsOf Real.sqrt (n : ℝ) (corr.take n)).dp (by rw [hlen]; rfl) (by rw [hlen]; rfl)
  by_cases hd : (statsOf Real.sqrt (n : ℝ) (corr.take n)).d = 0 ∨ (statsOf Real.sqrt (n : ℝ) (corr.take n)).dp = 0
  · left
    rw [if_pos hd] at e
    refine ⟨e, ?_⟩
    rcases hd with hd | hd
    · exact Or.inl (a.2.1.mp hd)
    · exact Or.inr (b.2.1.mp hd)
  · right
    rw [if_neg hd] at e
    rw [not_or] at hd
    refine ⟨fun h => hd.1 (a.2.1.mpr h), fun h => hd.2 (b.2.1.mpr h), _, _, e, lt_of_le_of_ne a.1 (Ne.symm hd.1),
      lt_of_le_of_ne b.1 (Ne.symm hd.2), ?_⟩
    have ht : ((corr.take n).map (normMatch (statsOf Real.sqrt (n : ℝ) (corr.take n))) ++ corr.drop n).take n
        = (corr.take n).map (normMatch (statsOf Real.sqrt (n : ℝ) (corr.take n))) := by
      rw [List.take_append_of_le_length (by simp [hc]), List.take_of_length_le (by simp)]
    obtain ⟨a1, a2, a3⟩ := a.2.2 hd.1
    obtain ⟨b1, b2, b3⟩ := b.2.2 hd.2
    rw [ht]
    simp only [List.map_map]
    exact ⟨a1, a2, b1, b2, a3, b3⟩

/-- No matches at all: a division by zero. -/
theorem c65_empty (corr : List (PMatch ℝ)) : normalizeMatches Real.sqrt 0 corr = .ok none := by
  simp [normalizeMatches, sumLoop]

/-- Two matches. -/
def twoMatches : List (PMatch ℚ) :=
  [⟨(0, 0), (1, 1), 0, 1, 1, 0, 0, false⟩, ⟨(6, 8), (7, 9), 0, 1, 1, 1, 1, false⟩]

example : normalizeMatches (fun x => if x = 25 then 5 else 0) 2 twoMatches
    = .ok (some (⟨(3, 4), (4, 5), 5, 5⟩,
      [⟨(-3/5, -4/5), (-3/5, -4/5), 0, 1/5, 1/5, 0, 0, false⟩,
        ⟨(3/5, 4/5), (3/5, 4/5), 0, 1/5, 1/5, 1, 1, false⟩])) := by
  decide +kernel

end Nx
