import Verif.Props.UsacHomography
import Verif.Props.HomRansac
import Verif.Props.MatIO
import Verif.Props.DataFrameMem
import Verif.Model.FitHomography

/-!
# C116: the tool that fits a homography
-/

namespace Nx

section
variable {svd : List (Fin 9 → ℝ) → (Fin 9 → Fin 9 → ℝ) × List ℝ} {qsort : List (PMatch ℝ) → List (PMatch ℝ)}

/-- `nWith` depends only on the first matches without their marks. -/
theorem nWith_perm {P : PMatch ℝ → Prop} (hP : ∀ c, P c.clear ↔ P c) {n : Nat} {a b : List (PMatch ℝ)}
    (h : ((a.take n).map PMatch.clear).Perm ((b.take n).map PMatch.clear)) : nWith P n a = nWith P n b := by
  classical
  have e : ∀ l : List (PMatch ℝ), nWith P n l = ((l.take n).map PMatch.clear).countP fun c => decide (P c) := by
    intro l
    rw [nWith, List.countP_map]
    apply List.countP_congr
    intro c _
    simp only [Function.comp_apply, decide_eq_true_eq, hP]
  rw [e, e, h.countP_eq]

/-- A finished fit. -/
theorem fitRansac_done {m : ℝ} {undef : Option Int} {n : Int} {corr : List (PMatch ℝ)} {tol : ℝ} {maxIter : Int}
    {rnd : List (BitVec 32)} {o : ROut ℝ} (he : fitRansac Real.sqrt svd qsort m undef n corr tol maxIter rnd = .ok (.done o)) :
    4 ≤ n ∧ ∃ st corr1 o1, normalizeMatches Real.sqrt n corr = .ok (some (st, corr1)) ∧
      usacHomography svd qsort m undef zeroModel n corr1 (tol / st.dp) maxIter rnd = .ok (.done o1) ∧
      denormalizeMatches st n o1.corr = .ok o.corr ∧ o.h = denormalizeHomography st o1.h ∧ o.count = o1.count := by
  rw [fitRansac] at he
  obtain ⟨r, hr, he⟩ := Res.bind_eq_ok.mp he
  cases r with
  | none =>
    obtain ⟨_, _, he⟩ := Res.bind_eq_ok.mp he
    cases he
  | some p =>
    obtain ⟨st, corr1⟩ := p
    simp only at he
    obtain ⟨q, hq', he⟩ := Res.bind_eq_ok.mp he
    cases q with
    | starved => cases he
    | nan => cases he
    | done o1 =>
      simp only at he
      obtain ⟨h, hh, he⟩ := Res.bind_eq_ok.mp he
      obtain ⟨c, hc, he⟩ := Res.bind_eq_ok.mp he
      rw [readEstimated] at hh
      split at hh
      · cases hh
      · cases hh
        cases he
        exact ⟨by omega, st, corr1, o1, hr, hq', hc, rfl, rfl⟩

/-- C116: after a fit the matches have their own coordinates again, and they are marked iff the homography takes the point of the
left image to less than the given number of pixels from the point of the right image; the number of the marks is
returned, or zero. Missing: with less than four matches indeterminate numbers are used (`c116_few`), and, as in C97, the
first test for termination is undefined unless the conversion has some value. -/
theorem c116_fit_partial (hq : ∀ l, (qsort l).Perm l) (m : ℝ) (undef : Option Int) (n : Nat) (corr : List (PMatch ℝ))
    (hn : n ≤ corr.length) (tol : ℝ) (maxIter : Int) (rnd : List (BitVec 32)) (o : ROut ℝ)
    (he : fitRansac Real.sqrt svd qsort m undef n corr tol maxIter rnd = .ok (.done o)) :
    MarkedBy (fun c => Within o.h.mat c.x c.xp (tol ^ 2)) n corr o.corr ∧
      nMarked n o.corr = nWith (fun c => Within o.h.mat c.x c.xp (tol ^ 2)) n corr ∧
      (o.count = nMarked n o.corr ∨ o.count = 0) := by
  obtain ⟨h4, st, corr1, o1, e1, e2, e3, e4, e5⟩ := fitRansac_done he
  have h4 : 4 ≤ n := by omega
  obtain ⟨hd, hdp⟩ := normalize_pos (by omega) hn e1
  obtain ⟨t1, t2, t3⟩ := normalizeMatches_take (by omega) hn e1
  obtain ⟨r1, r2, r3, r4⟩ := c97_result_partial hq m undef _ n h4 corr1 (by omega) _ maxIter rnd o1 e2
  obtain ⟨corr3, f1, f2, f3⟩ := denormalize_markedBy (P := fun c => Within o.h.mat c.x c.xp (tol ^ 2)) hd.ne' hdp.ne' t1 t2
    (by rw [r1.length]; omega) (by
      intro c
      rw [e4, sq, sq, c65_tolerance st o1.h hdp]
      obtain ⟨n1, n2⟩ := norm_unscale st hd.ne' hdp.ne' c
      rw [n1, n2]) r1
  rw [f1] at e3
  cases e3
  refine ⟨f2, ?_, ?_⟩
  · classical
    rw [← nWith_perm (P := fun c => Within o.h.mat c.x c.xp (tol ^ 2)) (fun c => Iff.rfl) f2.perm, nMarked, nWith]
    apply List.countP_congr
    intro c hc
    rw [f2.mark c hc, decide_eq_true_eq]
  · rw [e5, f3]
    cases hc : homographyCheck o1.h m
    · exact .inr (r4 hc)
    · exact .inl (r3 hc)

/-- C116 is false for images with less than four matches: the tool goes on with an array that nothing has written. -/
theorem c116_few (m : ℝ) (undef : Option Int) (n : Nat) (h4 : n < 4) (corr : List (PMatch ℝ)) (hn : n ≤ corr.length)
    (tol : ℝ) (maxIter : Int) (rnd : List (BitVec 32)) :
    fitRansac Real.sqrt svd qsort m undef n corr tol maxIter rnd = .ub ∧
    ∀ rnds, ransacBenchmark Real.sqrt svd qsort m undef n corr tol maxIter (rnd :: rnds) = .ub := by
  have hr : ∀ h : M3 ℝ, readEstimated (n : Int) h = .ub := fun h => if_pos (by omega)
  have hsome : ∃ r, normalizeMatches Real.sqrt n corr = .ok r := by
    by_cases h0 : n = 0
    · subst h0
      exact ⟨_, c65_empty corr⟩
    · exact ⟨_, normalizeMatches_eq Real.sqrt n (by omega) corr hn⟩
  obtain ⟨r, e⟩ := hsome
  cases r with
  | none =>
    constructor
    · rw [fitRansac, e]
      simp only [Res.bind, hr]
    · intro rnds
      unfold ransacBenchmark
      rw [e]
      simp only [Res.bind, hr]
  | some p =>
    obtain ⟨st, corr1⟩ := p
    have h0 : 0 < n := by
      rcases Nat.eq_zero_or_pos n with h | h
      · subst h
        have := c65_empty corr
        rw [Nat.cast_zero, this] at e
        cases e
      · exact h
    have hl : n ≤ corr1.length := by rw [(c65_round_trip Real.sqrt n h0 corr corr1 hn st e).2.2.1]; exact hn
    constructor
    · rw [fitRansac, e]
      simp only [Res.bind]
      rw [c97_few m undef _ n (by omega)]
      simp only [hr]
    · intro rnds
      have hs : ∀ rs : List (List (BitVec 32)), benchSteps svd qsort m undef n (tol / st.dp) maxIter rs corr1
          = .ok (.done (rs.map fun _ => (zeroModel, 0), corr1)) := by
        intro rs
        induction rs with
        | nil => rfl
        | cons r rs ih =>
          rw [benchSteps, c97_few m undef _ n (by omega)]
          simp only [Res.bind]
          rw [ih]
          rfl
      unfold ransacBenchmark
      rw [e]
      simp only [Res.bind]
      rw [hs]
      simp only
      rw [denormalizeMatches, Int.toNat_natCast, mapLoop_ok _ _ _ hl]
      simp only [List.map_cons, benchDenorm, hr]
      rfl

/-- The steps of the benchmark. -/
theorem benchSteps_done (hq : ∀ l, (qsort l).Perm l) {m : ℝ} {undef : Option Int} {n : Nat} (h4 : 4 ≤ n) {tol : ℝ} {maxIter : Int} :
    ∀ (rnds : List (List (BitVec 32))) (corr : List (PMatch ℝ)), n ≤ corr.length → ∀ r,
    benchSteps svd qsort m undef n tol maxIter rnds corr = .ok (.done r) →
    r.1.length = rnds.length ∧ ((r.2.take n).map PMatch.clear).Perm ((corr.take n).map PMatch.clear) ∧ r.2.drop n = corr.drop n ∧
      r.2.length = corr.length ∧
      ∀ e ∈ r.1, e.2 = nWith (fun c => Within e.1.mat c.x c.xp (tol ^ 2)) n corr ∨ e.2 = 0
  | [], corr, _, r, h => by
    cases h
    exact ⟨rfl, .refl _, rfl, rfl, fun e he => by cases he⟩
  | rnd :: rnds, corr, hn, r, h => by
    rw [benchSteps] at h
    obtain ⟨q, hq1, h⟩ := Res.bind_eq_ok.mp h
    cases q with
    | starved => cases h
    | nan => cases h
    | done o =>
      simp only at h
      obtain ⟨q, hq2, h⟩ := Res.bind_eq_ok.mp h
      cases q with
      | starved => cases h
      | nan => cases h
      | done r' =>
        cases h
        obtain ⟨r1, r2, r3, r4⟩ := c97_result_partial hq m undef _ n h4 corr hn _ maxIter rnd o hq1
        obtain ⟨i1, i2, i3, i4, i5⟩ := benchSteps_done hq h4 rnds o.corr (by rw [r1.length]; exact hn) r' hq2
        refine ⟨by simp [i1], i2.trans r1.perm, i3.trans r1.rest, i4.trans r1.length, ?_⟩
        intro e he
        rcases List.mem_cons.mp he with rfl | he
        · simp only
          cases hc : homographyCheck o.h m
          · exact .inr (r4 hc)
          · left
            rw [r3 hc, r2]
        · rcases i5 e he with h | h
          · left
            rw [h]
            exact nWith_perm (fun c => Iff.rfl) r1.perm
          · exact .inr h

theorem benchDenorm_ok {st : MStats ℝ} {n : Int} (h4 : 4 ≤ n) (l : List (M3 ℝ × Nat)) :
    benchDenorm st n l = .ok (l.map fun e => (denormalizeHomography st e.1, e.2)) := by
  induction l with
  | nil => rfl
  | cons e l ih =>
    obtain ⟨h, k⟩ := e
    rw [benchDenorm, readEstimated, if_neg (by omega), ih]
    rfl

/-- C116: the benchmark makes the given number of estimations; the matches are the given ones afterwards, in some order, and
every number of inliers is the number of matches that the homography of the step takes to less than the given number of
pixels from their counterpart, or zero. -/
theorem c116_bench_partial (hq : ∀ l, (qsort l).Perm l) (m : ℝ) (undef : Option Int) (n : Nat) (h4 : 4 ≤ n) (corr : List (PMatch ℝ))
    (hn : n ≤ corr.length) (tol : ℝ) (maxIter : Int) (rnds : List (List (BitVec 32))) (r : List (M3 ℝ × Nat) × List (PMatch ℝ))
    (he : ransacBenchmark Real.sqrt svd qsort m undef n corr tol maxIter rnds = .ok (.done r)) :
    r.1.length = rnds.length ∧ ((r.2.take n).map PMatch.clear).Perm ((corr.take n).map PMatch.clear) ∧ r.2.drop n = corr.drop n ∧
      ∀ e ∈ r.1, e.2 = nWith (fun c => Within e.1.mat c.x c.xp (tol ^ 2)) n corr ∨ e.2 = 0 := by
  classical
  unfold ransacBenchmark at he
  obtain ⟨q, hq1, he⟩ := Res.bind_eq_ok.mp he
  cases q with
  | none =>
    simp only at he
    split at he
    · cases he
    · obtain ⟨_, _, he⟩ := Res.bind_eq_ok.mp he
      cases he
  | some p =>
    obtain ⟨st, corr1⟩ := p
    simp only at he
    obtain ⟨q, hq2, he⟩ := Res.bind_eq_ok.mp he
    cases q with
    | starved => cases he
    | nan => cases he
    | done r1 =>
      simp only at he
      obtain ⟨c, hc, he⟩ := Res.bind_eq_ok.mp he
      rw [benchDenorm_ok (by omega)] at he
      cases he
      obtain ⟨hd, hdp⟩ := normalize_pos (by omega) hn hq1
      obtain ⟨t1, t2, t3⟩ := normalizeMatches_take (by omega) hn hq1
      obtain ⟨b1, b2, b3, b4, b5⟩ := benchSteps_done hq h4 rnds corr1 (by omega) r1 hq2
      obtain ⟨corr3, f1, f2, f3⟩ := denormalize_markedBy (P := fun c => c.inlier = true) (P1 := fun c => c.inlier = true)
        hd.ne' hdp.ne' t1 t2 (by omega) (fun c => Iff.rfl) ⟨b2, b3, fun c _ => Iff.rfl⟩
      rw [f1] at hc
      cases hc
      refine ⟨by simp [b1], f2.perm, f2.rest, ?_⟩
      intro e he
      obtain ⟨e1, he1, rfl⟩ := List.mem_map.mp he
      simp only
      rcases b5 e1 he1 with h | h
      · left
        rw [h, nWith, nWith, t1, List.countP_map]
        apply List.countP_congr
        intro c _
        simp only [Function.comp_apply, decide_eq_true_eq]
        rw [sq, sq, c65_tolerance st e1.1 hdp]
        rfl
      · exact .inr h

end

section
variable {K : Type} [Field K] [LinearOrder K]

/-- C116: the validation points are the columns of a text with six rows. The third and the sixth row, which hold the homogeneous
coordinates, are not used, so that the points are right only if all of these are one. Any other number of rows ends the program. -/
theorem c116_validation_partial (junk : Nat → K) (junkB : Nat → Byte) (scan : Bytes → Option (K × Nat)) (hs : ScanOk scan) (tenth : K)
    (st : Bytes) (hst : st.length < 1073741824) (rows : List (List K)) (hr : TextRows scan st rows) (n : Nat) (h0 : 0 < n)
    (hrow : ∀ r ∈ rows, r.length = n) (hmax : n * rows.length ≤ 2147483647) :
    (rows.length ≠ 6 → 0 < rows.length → loadValidation junk junkB scan tenth (some st) = .fatal) ∧
    ∀ r0 r1 r2 r3 r4 r5 : List K, rows = [r0, r1, r2, r3, r4, r5] →
      ∃ corr : List (PMatch K), loadValidation junk junkB scan tenth (some st) = .ok (some corr) ∧ corr.length = n ∧
        ∀ (i : Nat) (x y w x' y' w' : K), r0[i]? = some x → r1[i]? = some y → r2[i]? = some w → r3[i]? = some x' → r4[i]? = some y' →
          r5[i]? = some w' → ∃ c : PMatch K, corr[i]? = some c ∧ c.inlier = true ∧ c.x = (x, y) ∧ c.xp = (x', y') ∧
            (w = 1 → w' = 1 → c.x = (x / w, y / w) ∧ c.xp = (x' / w', y' / w')) := by
  obtain ⟨-, -, h3⟩ := c91_read junk junkB scan hs st hst rows hr
  constructor
  · intro h6 hpos
    obtain ⟨A, e, -⟩ := h3 n h0 hpos hrow hmax
    rw [loadValidation, e]
    simp only [Res.ok_bind]
    rw [if_pos h6]
  · intro r0 r1 r2 r3 r4 r5 hrows
    have hlen : rows.length = 6 := by rw [hrows]; rfl
    obtain ⟨A, e, hA⟩ := h3 n h0 (by omega) hrow hmax
    rw [hlen] at e hA
    have l0 : r0.length = n := hrow r0 (by rw [hrows]; simp)
    have l1 : r1.length = n := hrow r1 (by rw [hrows]; simp)
    have l3 : r3.length = n := hrow r3 (by rw [hrows]; simp)
    have l4 : r4.length = n := hrow r4 (by rw [hrows]; simp)
    have hp : ∀ i, (hi : i < n) → validationPoint A tenth i
        = .ok ⟨(r0[i], r1[i]), (r3[i], r4[i]), 0, tenth, tenth, 0, 0, true⟩ := by
      intro i hi
      have a0 := hA 0 i r0 (by rw [hrows]; rfl) hi
      have a1 := hA 1 i r1 (by rw [hrows]; rfl) hi
      have a3 := hA 3 i r3 (by rw [hrows]; rfl) hi
      have a4 := hA 4 i r4 (by rw [hrows]; rfl) hi
      rw [List.getElem?_eq_getElem (l := r0) (by omega)] at a0
      rw [List.getElem?_eq_getElem (l := r1) (by omega)] at a1
      rw [List.getElem?_eq_getElem (l := r3) (by omega)] at a3
      rw [List.getElem?_eq_getElem (l := r4) (by omega)] at a4
      have rd : ∀ (j : Nat) (v : K), A[j]? = some v → readAt A j = .ok v := by
        intro j v h
        obtain ⟨hj, h⟩ := List.getElem?_eq_some_iff.mp h
        rw [readAt_ok hj, h]
      rw [validationPoint, rd _ _ a0, rd _ _ a1, rd _ _ a3, rd _ _ a4]
      rfl
    obtain ⟨corr, ec, hc1, hc2⟩ := forLoop_spec (n := n) (i0 := 0) (s := ([] : List (PMatch K)))
      (body := fun i acc => do
          let c ← validationPoint A tenth i
          pure (acc ++ [c]))
      (fun i acc => acc.length = i ∧ ∀ j, (hj : j < i) → (hj' : j < n) →
        acc[j]? = some ⟨(r0[j], r1[j]), (r3[j], r4[j]), 0, tenth, tenth, 0, 0, true⟩)
      (Nat.zero_le n) ⟨rfl, fun j hj _ => by omega⟩ (by
        intro i acc _ hi ⟨ha, hb⟩
        refine ⟨_, by rw [hp i hi]; rfl, by simp [ha], ?_⟩
        intro j hj hj'
        by_cases h : j < i
        · rw [List.getElem?_append_left (by omega)]
          exact hb j h hj'
        · obtain rfl : j = i := by omega
          rw [List.getElem?_append_right (by omega), ha]
          simp)
    refine ⟨corr, ?_, hc1, ?_⟩
    · rw [loadValidation, e]
      simp only [Res.ok_bind]
      rw [if_neg (by simp), ec]
      rfl
    · intro i x y w x' y' w' g0 g1 g2 g3 g4 g5
      obtain ⟨hi0, g0⟩ := List.getElem?_eq_some_iff.mp g0
      obtain ⟨_, g1⟩ := List.getElem?_eq_some_iff.mp g1
      obtain ⟨_, g3⟩ := List.getElem?_eq_some_iff.mp g3
      obtain ⟨_, g4⟩ := List.getElem?_eq_some_iff.mp g4
      refine ⟨_, hc2 i (by omega) (by omega), rfl, ?_, ?_, ?_⟩
      · simp only [g0, g1]
      · simp only [g3, g4]
      · rintro rfl rfl
        simp only [g0, g1, g3, g4, div_one, and_self]

/-- C116 is false for validation points with other homogeneous coordinates: whenever the coordinate is neither zero nor one and
the point is not the origin, another point is loaded than the one in the file. -/
theorem c116_homogeneous_false (junk : Nat → K) (junkB : Nat → Byte) (scan : Bytes → Option (K × Nat)) (hs : ScanOk scan) (tenth : K)
    (st : Bytes) (hst : st.length < 1073741824) (r0 r1 r2 r3 r4 r5 : List K) (hr : TextRows scan st [r0, r1, r2, r3, r4, r5])
    (n : Nat) (hrow : ∀ r ∈ [r0, r1, r2, r3, r4, r5], r.length = n) (hmax : n * 6 ≤ 2147483647) (i : Nat) (x y w : K)
    (g0 : r0[i]? = some x) (g1 : r1[i]? = some y) (g2 : r2[i]? = some w) (hw0 : w ≠ 0) (hw1 : w ≠ 1) (hxy : (x, y) ≠ (0, 0)) :
    ∃ corr c, loadValidation junk junkB scan tenth (some st) = .ok (some corr) ∧ corr[i]? = some c ∧ c.x ≠ (x / w, y / w) := by
  have hi : i < n := by
    have := (List.getElem?_eq_some_iff.mp g0).1
    rwa [hrow r0 (by simp)] at this
  obtain ⟨-, h⟩ := c116_validation_partial junk junkB scan hs tenth st hst _ hr n (by omega) hrow hmax
  obtain ⟨corr, e, -, hc⟩ := h r0 r1 r2 r3 r4 r5 rfl
  have g : ∀ r ∈ [r0, r1, r2, r3, r4, r5], ∃ v, r[i]? = some v := by
    intro r hr
    exact ⟨_, List.getElem?_eq_getElem (by rw [hrow r hr]; exact hi)⟩
  obtain ⟨x', g3⟩ := g r3 (by simp)
  obtain ⟨y', g4⟩ := g r4 (by simp)
  obtain ⟨w', g5⟩ := g r5 (by simp)
  obtain ⟨c, k1, -, k2, -⟩ := hc i x y w x' y' w' g0 g1 g2 g3 g4 g5
  refine ⟨corr, c, e, k1, ?_⟩
  rw [k2]
  intro h
  have e1 : x = x / w := congrArg Prod.fst h
  have e2 : y = y / w := congrArg Prod.snd h
  rw [eq_div_iff hw0] at e1 e2
  have hw : w - 1 ≠ 0 := sub_ne_zero.mpr hw1
  apply hxy
  have z1 : x * (w - 1) = 0 := by rw [mul_sub, mul_one, e1, sub_self]
  have z2 : y * (w - 1) = 0 := by rw [mul_sub, mul_one, e2, sub_self]
  rw [(mul_eq_zero.mp z1).resolve_right hw, (mul_eq_zero.mp z2).resolve_right hw]

omit [Field K] [LinearOrder K] in
/-- C116: the ground truth is the matrix whose rows are the lines of the text; anything but three rows of three numbers ends the
program. -/
theorem c116_ground_truth (junk : Nat → K) (junkB : Nat → Byte) (scan : Bytes → Option (K × Nat)) (hs : ScanOk scan)
    (st : Bytes) (hst : st.length < 1073741824) (rows : List (List K)) (hr : TextRows scan st rows)
    (hmax : (rows.headD []).length * rows.length ≤ 2147483647) :
    ((¬ ∃ a b c d e f g h i, rows = [[a, b, c], [d, e, f], [g, h, i]]) → loadGroundTruth junk junkB scan (some st) = .fatal) ∧
    ∀ a b c d e f g h i, rows = [[a, b, c], [d, e, f], [g, h, i]] →
      ∃ H, loadGroundTruth junk junkB scan (some st) = .ok (some H) ∧ H.mat = !![a, b, c; d, e, f; g, h, i] := by
  obtain ⟨h1, h2, h3⟩ := c91_read junk junkB scan hs st hst rows hr
  constructor
  · intro hne
    by_cases hu : ∃ r ∈ rows, r.length ≠ (rows.headD []).length
    · rw [loadGroundTruth, h2 hu]
      rfl
    · have hu' : ∀ r ∈ rows, r.length = (rows.headD []).length := by
        intro r hr
        by_contra h
        exact hu ⟨r, hr, h⟩
      by_cases he : ∀ r ∈ rows, r = []
      · rw [loadGroundTruth, h1 he]
        rfl
      · have hpos : 0 < rows.length := by
          cases rows with
          | nil => exact absurd (fun r hr => by cases hr) he
          | cons r rs => simp
        have hn : 0 < (rows.headD []).length := by
          rcases Nat.eq_zero_or_pos (rows.headD []).length with h | h
          · exfalso
            apply he
            intro r hr
            exact List.length_eq_zero_iff.mp (by rw [hu' r hr, h])
          · exact h
        obtain ⟨A, e, -⟩ := h3 _ hn hpos hu' hmax
        rw [loadGroundTruth, e]
        simp only [Res.ok_bind]
        rw [if_pos]
        by_contra hc
        apply hne
        rw [not_or, not_ne_iff, not_ne_iff] at hc
        match rows, hc, hu' with
        | [x, y, z], hc, hu' =>
          have lx : x.length = 3 := hc.2
          have ly : y.length = 3 := (hu' y (by simp)).trans hc.2
          have lz : z.length = 3 := (hu' z (by simp)).trans hc.2
          match x, lx, y, ly, z, lz with
          | [a, b, c], _, [d, e, f], _, [g, h, i], _ => exact ⟨a, b, c, d, e, f, g, h, i, rfl⟩
  · intro a b c d e f g h i hrows
    subst hrows
    obtain ⟨A, eA, hA⟩ := h3 3 (by omega) (by simp) (by intro r hr; fin_cases hr <;> rfl) (by simp)
    have rd : ∀ (k : Nat) (v : K), A[k]? = some v → readAt A k = .ok v := by
      intro k v h
      obtain ⟨hk, h⟩ := List.getElem?_eq_some_iff.mp h
      rw [readAt_ok hk, h]
    have q0 := rd _ _ (hA 0 0 [a, b, c] rfl (by omega))
    have q1 := rd _ _ (hA 1 0 [d, e, f] rfl (by omega))
    have q2 := rd _ _ (hA 2 0 [g, h, i] rfl (by omega))
    have q3 := rd _ _ (hA 0 1 [a, b, c] rfl (by omega))
    have q4 := rd _ _ (hA 1 1 [d, e, f] rfl (by omega))
    have q5 := rd _ _ (hA 2 1 [g, h, i] rfl (by omega))
    have q6 := rd _ _ (hA 0 2 [a, b, c] rfl (by omega))
    have q7 := rd _ _ (hA 1 2 [d, e, f] rfl (by omega))
    have q8 := rd _ _ (hA 2 2 [g, h, i] rfl (by omega))
    simp only [List.length_cons, List.length_nil, Nat.reduceAdd, Nat.reduceMul] at q0 q1 q2 q3 q4 q5 q6 q7 q8
    refine ⟨⟨a, d, g, b, e, h, c, f, i⟩, ?_, ?_⟩
    · rw [loadGroundTruth, eA]
      simp only [Res.ok_bind]
      rw [if_neg (by simp), matOfArray, q0, q1, q2, q3, q4, q5, q6, q7, q8]
      rfl
    · rfl

end

theorem fitAllocs_owns : ∀ (n : Nat) {σ : Mem} {l : List Nat}, Owns σ l → Owns (fitAllocs n σ).1 ((fitAllocs n σ).2 ++ l)
  | 0, _, _, h => h
  | n + 1, σ, l, h => by
    have := fitAllocs_owns n (alloc_owns h)
    refine this.swap ?_
    intro q
    simp only [fitAllocs, List.count_append, List.count_cons]
    omega

theorem fitFrees_owns : ∀ (ps : List Nat) {σ : Mem} {l : List Nat}, Owns σ (ps ++ l) → ∃ σ', fitFrees ps σ = .ok σ' ∧ Owns σ' l
  | [], σ, _, h => ⟨σ, rfl, h⟩
  | p :: ps, _, _, h => by
    obtain ⟨σ1, e1, h1⟩ := free_owns h
    obtain ⟨σ2, e2, h2⟩ := fitFrees_owns ps h1
    exact ⟨σ2, by rw [fitFrees, e1, Res.ok_bind, e2], h2⟩

theorem benchMem_owns (steps : Nat) {σ : Mem} {l : List Nat} (h : Owns σ l) : ∃ σ', benchMem steps σ = .ok σ' ∧ Owns σ' l := by
  unfold benchMem
  have h1 := fitAllocs_owns steps (alloc_owns (alloc_owns (alloc_owns (alloc_owns (alloc_owns h)))))
  simp only
  generalize hA : memAlloc σ = A at h1
  generalize hB : memAlloc A.1 = B at h1
  generalize hC : memAlloc B.1 = C at h1
  generalize hD : memAlloc C.1 = D at h1
  generalize hE : memAlloc D.1 = E at h1
  generalize hF : fitAllocs steps E.1 = F at h1
  obtain ⟨s1, e1, h2⟩ := free_owns (p := A.2) (l := B.2 :: C.2 :: D.2 :: (F.2 ++ E.2 :: l)) (h1.swap (by
    intro q; simp only [List.count_append, List.count_cons]; omega))
  obtain ⟨s2, e2, h3⟩ := free_owns h2
  obtain ⟨s3, e3, h4⟩ := free_owns h3
  obtain ⟨s4, e4, h5⟩ := free_owns h4
  obtain ⟨s5, e5, h6⟩ := fitFrees_owns F.2 h5
  obtain ⟨s6, e6, h7⟩ := free_owns h6
  refine ⟨s6, ?_, h7⟩
  rw [e1, Res.ok_bind, e2, Res.ok_bind, e3, Res.ok_bind, e4, Res.ok_bind, e5, Res.ok_bind, e6]

theorem fitRansacMem_owns {σ : Mem} {l : List Nat} (h : Owns σ l) : ∃ σ', fitRansacMem σ = .ok σ' ∧ Owns σ' l := by
  unfold fitRansacMem
  exact free_owns (alloc_owns h)

theorem storeMem_owns (grow : Bool) {σ : Mem} {l : List Nat} (h : Owns σ l) :
    ∃ r, storeMem grow σ = .ok r ∧ Owns r.1 (r.2.1 :: r.2.2 :: l) := by
  unfold storeMem
  have h1 := alloc_owns (alloc_owns h)
  simp only
  generalize hA : memAlloc σ = A at h1
  generalize hB : memAlloc A.1 = B at h1
  cases grow with
  | false => exact ⟨(B.1, A.2, B.2), rfl, h1.swap (by intro q; simp only [List.count_cons]; omega)⟩
  | true =>
    obtain ⟨s1, e1, h2⟩ := free_owns (p := A.2) (l := B.2 :: l) (h1.swap (by intro q; simp only [List.count_cons]; omega))
    have h3 := alloc_owns h2
    obtain ⟨s2, e2, h4⟩ := free_owns (p := B.2) (l := (memAlloc s1).2 :: l)
      (h3.swap (by intro q; simp only [List.count_cons]; omega))
    have h5 := alloc_owns h4
    refine ⟨((memAlloc s2).1, (memAlloc s1).2, (memAlloc s2).2), ?_, h5.swap (by intro q; simp only [List.count_cons]; omega)⟩
    rw [if_pos rfl, memRealloc, e1, Res.ok_bind, Res.pure_eq, Res.ok_bind]
    rw [memRealloc, e2, Res.ok_bind, Res.pure_eq, Res.ok_bind]
    rfl

theorem validationMem_owns (given : Bool) {σ : Mem} {l : List Nat} (h : Owns σ l) :
    ∃ r, validationMem given σ = .ok r ∧ Owns r.1 (r.2.toList ++ l) := by
  unfold validationMem
  cases given with
  | false => exact ⟨(σ, none), rfl, h⟩
  | true =>
    have h1 := alloc_owns (alloc_owns h)
    simp only [if_true]
    generalize hA : memAlloc σ = A at h1
    generalize hB : memAlloc A.1 = B at h1
    obtain ⟨s1, e1, h2⟩ := free_owns (p := A.2) (l := B.2 :: l) (h1.swap (by intro q; simp only [List.count_cons]; omega))
    obtain ⟨s2, e2, h3⟩ := free_owns (p := B.2) (l := (memAlloc s1).2 :: l)
      ((alloc_owns h2).swap (by intro q; simp only [List.count_cons]; omega))
    refine ⟨(s2, some (memAlloc s1).2), ?_, h3⟩
    rw [e1, Res.ok_bind]
    rw [e2]
    rfl

theorem groundTruthMem_owns (given : Bool) {σ : Mem} {l : List Nat} (h : Owns σ l) :
    ∃ leak : List Nat, leak.length = (if given then 1 else 0) ∧
      Owns (groundTruthMem given σ).1 ((groundTruthMem given σ).2.toList ++ (leak ++ l)) := by
  cases given with
  | false => exact ⟨[], rfl, h⟩
  | true => exact ⟨[(memAlloc σ).2], rfl, alloc_owns (alloc_owns h)⟩

/-- C116 is false for the memory: when the tool ends, everything has been freed once except the detector, which is never freed, and
the streams of the ground truth files, which are never closed; this holds for every run, with or without the benchmark. -/
theorem c116_leak (r : FitRun) (σ : Mem) (l : List Nat) (h : Owns σ l) :
    ∃ σ' leak, fitMain r σ = .ok σ' ∧ Owns σ' (leak ++ l) ∧
      leak.length = 1 + (if r.l2r then 1 else 0) + (if r.r2l then 1 else 0) := by
  unfold fitMain
  have h1 := alloc_owns (alloc_owns (alloc_owns (alloc_owns (alloc_owns (alloc_owns h)))))
  simp only
  generalize memAlloc σ = A at h1 ⊢
  generalize memAlloc A.1 = B at h1 ⊢
  generalize memAlloc B.1 = C at h1 ⊢
  generalize memAlloc C.1 = D at h1 ⊢
  generalize memAlloc D.1 = E at h1 ⊢
  generalize memAlloc E.1 = F at h1 ⊢
  obtain ⟨S, eS, h2⟩ := storeMem_owns r.grow0 h1
  rw [eS, Res.ok_bind]
  obtain ⟨T, eT, h3⟩ := storeMem_owns r.grow1 h2
  rw [eT, Res.ok_bind]
  have h4 := alloc_owns h3
  generalize memAlloc T.1 = M at h4 ⊢
  obtain ⟨V, eV, h5⟩ := validationMem_owns r.validation h4
  rw [eV, Res.ok_bind]
  obtain ⟨k1, n1, h6⟩ := groundTruthMem_owns r.l2r h5
  generalize groundTruthMem r.l2r V.1 = G at h6 ⊢
  obtain ⟨k2, n2, h7⟩ := groundTruthMem_owns r.r2l h6
  generalize groundTruthMem r.r2l G.1 = H at h7 ⊢
  obtain ⟨s0, e0, h8⟩ : ∃ s0, fitOrBench r.bench H.1 = .ok s0 ∧ Owns s0 (H.2.toList ++ (k2 ++ (G.2.toList ++ (k1 ++ (V.2.toList ++ (M.2 :: T.2.1 :: T.2.2 ::
        S.2.1 :: S.2.2 :: F.2 :: E.2 :: D.2 :: C.2 :: B.2 :: A.2 :: l)))))) := by
    cases r.bench with
    | none => exact fitRansacMem_owns h7
    | some k => exact benchMem_owns k h7
  rw [e0, Res.ok_bind]
  obtain ⟨s1, e1, h9⟩ := freeOpt_owns (d := G.2) (l := H.2.toList ++ (V.2.toList ++ (M.2 :: S.2.1 :: S.2.2 :: T.2.1 :: T.2.2 :: F.2 ::
    C.2 :: D.2 :: B.2 :: A.2 :: ((E.2 :: (k1 ++ k2)) ++ l)))) (h8.swap (by
      intro q; simp only [List.count_append, List.count_cons]; omega))
  rw [e1, Res.ok_bind]
  obtain ⟨s2, e2, h10⟩ := freeOpt_owns h9
  rw [e2, Res.ok_bind]
  obtain ⟨s3, e3, h11⟩ := freeOpt_owns h10
  rw [e3, Res.ok_bind]
  obtain ⟨s4, e4, h12⟩ := free_owns h11
  rw [e4, Res.ok_bind]
  obtain ⟨s5, e5, h13⟩ := free_owns h12
  rw [e5, Res.ok_bind]
  obtain ⟨s6, e6, h14⟩ := free_owns h13
  rw [e6, Res.ok_bind]
  obtain ⟨s7, e7, h15⟩ := free_owns h14
  rw [e7, Res.ok_bind]
  obtain ⟨s8, e8, h16⟩ := free_owns h15
  rw [e8, Res.ok_bind]
  obtain ⟨s9, e9, h17⟩ := free_owns h16
  rw [e9, Res.ok_bind]
  obtain ⟨s10, e10, h18⟩ := free_owns h17
  rw [e10, Res.ok_bind]
  obtain ⟨s11, e11, h19⟩ := free_owns h18
  rw [e11, Res.ok_bind]
  obtain ⟨s12, e12, h20⟩ := free_owns h19
  rw [e12, Res.ok_bind]
  obtain ⟨s13, e13, h21⟩ := free_owns h20
  refine ⟨s13, E.2 :: (k1 ++ k2), e13, h21, ?_⟩
  simp only [List.length_cons, List.length_append, n1, n2]
  omega

/-- A run with a ground truth file. -/
example : ∃ σ', fitMain ⟨true, false, true, true, false, some 3⟩ ⟨[], 0⟩ = .ok σ' ∧ σ'.live.length = 2 := ⟨_, rfl, by decide +kernel⟩

/-- Seven exact matches of a translation: the homography is found, and the matches have their own coordinates. -/
example :
    let corr := [(1, 1), (4, 2), (5, 6), (0, 4), (7, 3), (2, 9), (8, 8)].map (matchOf fun p => (p.1 + 1, p.2 + 2))
    (match fitRansac (fun _ => (2 : ℚ)) (fun _ => (fun _ => ![1, 0, 0, 0, 1, 0, 0, 0, 1], [])) id (249 / 250) (some (-2147483648)) 7 corr 3 2
        [100000000, 700000000, 1300000000, 2000000000] with
      | .ok (.done o) => decide (o.corr = corr.map (fun c => { c with inlier := true }) ∧ o.count = 7 ∧
          o.h.e0 = o.h.e8 ∧ o.h.e6 = o.h.e8 ∧ o.h.e7 = 2 * o.h.e8 ∧ o.h.e8 ≠ 0)
      | _ => false) = true := by
  decide +kernel

/-- Two steps of the benchmark. -/
example :
    let corr := [(1, 1), (4, 2), (5, 6), (0, 4), (7, 3), (2, 9), (8, 8)].map (matchOf fun p => (p.1 + 1, p.2 + 2))
    (match ransacBenchmark (fun _ => (2 : ℚ)) (fun _ => (fun _ => ![1, 0, 0, 0, 1, 0, 0, 0, 1], [])) id (249 / 250) (some (-2147483648)) 7
        corr 3 2 [[100000000, 700000000, 1300000000, 2000000000], [700000000, 100000000, 1300000000, 2000000000]] with
      | .ok (.done r) => decide (r.1.map Prod.snd = [7, 7] ∧ r.2 = corr.map (fun c => { c with inlier := true }))
      | _ => false) = true := by
  decide +kernel

/-- Digits as rational numbers. -/
def ratScan (s : Bytes) : Option (ℚ × Nat) := (digitScan s).map fun p => ((p.1.val : ℚ), p.2)

theorem ratScan_ok : ScanOk ratScan := by
  intro s d k h
  unfold ratScan at h
  rw [Option.map_eq_some_iff] at h
  obtain ⟨⟨a, b⟩, h1, h2⟩ := h
  cases h2
  exact digitScan_ok s a _ h1

/-- A file with one validation point, `(4 : 6 : 2)` and `(3 : 5 : 1)`. -/
def onePoint : Bytes := [52, 10, 54, 10, 50, 10, 51, 10, 53, 10, 49, 10]

theorem onePoint_rows : TextRows ratScan onePoint [[4], [6], [2], [3], [5], [1]] := by
  have h : splitLines onePoint = [[52, 10], [54, 10], [50, 10], [51, 10], [53, 10], [49, 10]] := by decide +kernel
  unfold TextRows
  rw [h]
  refine .cons ?_ (.cons ?_ (.cons ?_ (.cons ?_ (.cons ?_ (.cons ?_ .nil))))) <;>
    exact .more (k := 1) (by decide +kernel) (.stop (by decide +kernel))

/-- The left point is the point with coordinates 2 and 3, another one is loaded. -/
example : ∃ corr c, loadValidation (fun _ => 0) (fun _ => 0) ratScan (1 / 10) (some onePoint) = .ok (some corr) ∧ corr[0]? = some c ∧
    c.x ≠ (4 / 2, 6 / 2) :=
  c116_homogeneous_false _ _ ratScan ratScan_ok _ onePoint (by decide) [4] [6] [2] [3] [5] [1] onePoint_rows 1 (by simp) (by decide) 0 4 6 2
    rfl rfl rfl (by decide +kernel) (by decide +kernel) (by decide +kernel)

example : ∃ corr, loadValidation (fun _ => 0) (fun _ => 0) ratScan (1 / 10) (some onePoint) = .ok (some corr) ∧ corr.length = 1 := by
  obtain ⟨corr, e, h, -⟩ := (c116_validation_partial (fun _ => 0) (fun _ => 0) ratScan ratScan_ok (1 / 10) onePoint (by decide) _ onePoint_rows 1
    (by decide) (by simp) (by decide)).2 [4] [6] [2] [3] [5] [1] rfl
  exact ⟨corr, e, h⟩

/-- A ground truth file. -/
def oneTruth : Bytes := [49, 32, 48, 32, 53, 10, 48, 32, 49, 32, 55, 10, 48, 32, 48, 32, 49, 10]

example : ∃ H, loadGroundTruth (fun _ => 0) (fun _ => 0) ratScan (some oneTruth) = .ok (some H) ∧
    H.mat = !![1, 0, 5; 0, 1, 7; 0, 0, 1] := by
  have h : splitLines oneTruth = [[49, 32, 48, 32, 53, 10], [48, 32, 49, 32, 55, 10], [48, 32, 48, 32, 49, 10]] := by decide +kernel
  refine (c116_ground_truth (fun _ => 0) (fun _ => 0) ratScan ratScan_ok oneTruth (by decide) [[1, 0, 5], [0, 1, 7], [0, 0, 1]] ?_
    (by decide)).2 _ _ _ _ _ _ _ _ _ rfl
  unfold TextRows
  rw [h]
  refine .cons ?_ (.cons ?_ (.cons ?_ .nil)) <;>
    exact .more (k := 1) (by decide +kernel) (.more (k := 2) (by decide +kernel) (.more (k := 2) (by decide +kernel) (.stop (by decide +kernel))))

end Nx
