import Verif.Lemmas.StereoFit
import Verif.Props.StereoSteps

/-!
# C127: the homography of the stereo matcher
-/

namespace Nx

variable {svd : List (Fin 9 → ℝ) → (Fin 9 → Fin 9 → ℝ) × List ℝ} {qsort : List (PMatch ℝ) → List (PMatch ℝ)}

/-- The object `i` has these matches now; every other object, and all statistics but its own, are as before, its own are
reset. -/
def Became (w w' : CorrWorld ℝ) (i : Nat) (o : CorrObj ℝ) (ms : List (PMatch ℝ)) : Prop :=
  w'.objs = w.objs.set i ⟨o.st, ms⟩ ∧ w'.heap = w.heap.set o.st ⟨(0, 0), (0, 0), 1, 1⟩

/-- C127. The first estimation leaves the matches with their coordinates in pixels, marked iff the homography, also in pixels, takes their
point to less than three pixels from the other one, and returns the number of marks or zero. -/
theorem c127_initial (hq : ∀ l, (qsort l).Perm l) (m : ℝ) (h : M3 ℝ) {w w' : CorrWorld ℝ} {i : Nat} {o : CorrObj ℝ}
    (hi : w.objs[i]? = some o) (hs : o.st < w.heap.length) (rnd : List (BitVec 32)) {h' : M3 ℝ} {k : Nat}
    (he : initialHomography Real.sqrt svd qsort m h w i rnd = .ok (.done (w', h', k))) :
    ∃ ms, Became w w' i o ms ∧ ((ms.map PMatch.clear).Perm (o.ms.map PMatch.clear)) ∧
      (4 ≤ o.ms.length → (∀ c ∈ ms, c.inlier = true ↔ Within h'.mat c.x c.xp 9) ∧ (k = (ms.filter PMatch.inlier).length ∨ k = 0)) ∧
      (o.ms.length < 4 → ms = o.ms ∧ k = 0) := by
  rw [initial_eq hq m h hi hs] at he
  obtain ⟨r, hr, he⟩ := Res.bind_eq_ok.mp he
  cases r with
  | starved => cases he
  | nan => cases he
  | done r =>
    simp only [Res.ok.injEq, Run.done.injEq, Prod.mk.injEq] at he
    obtain ⟨rfl, rfl, rfl⟩ := he
    by_cases h4 : 4 ≤ o.ms.length
    · obtain ⟨m1, m2⟩ := c71_norm hq m h o.ms.length h4 o.ms le_rfl 3 10000 rnd r hr
      have hl := m1.length
      have hp := m1.perm
      have hm := m1.mark
      rw [List.take_of_length_le hl.le, List.take_length] at hp
      rw [List.take_of_length_le hl.le] at hm
      refine ⟨r.corr, ⟨rfl, rfl⟩, hp, fun _ => ⟨?_, ?_⟩, fun h => absurd h (by omega)⟩
      · intro c hc
        have := hm c hc
        norm_num at this
        exact this
      · rw [nMarked, List.take_of_length_le hl.le, List.countP_eq_length_filter] at m2
        exact m2
    · obtain ⟨st, c1, o1, e1, e2, e3, e4, e5, e6⟩ := homographyNormRansac_done hr
      have h0 : 0 < o.ms.length := by
        by_contra h0
        rw [show o.ms.length = 0 by omega, Nat.cast_zero, c65_empty] at e1
        cases e1
      have := (c71_norm_few (svd := svd) (qsort := qsort) m h o.ms.length (by omega) o.ms le_rfl 3 10000 rnd).2 h0 st c1 e1
      rw [this] at hr
      cases hr
      exact ⟨o.ms, ⟨rfl, rfl⟩, .rfl, fun h => absurd h h4, fun _ => ⟨rfl, rfl⟩⟩

/-- C127. It is the estimation with normalisation of C71, with a tolerance of three pixels and at most 10000 hypotheses; without the class
of correspondences, that is. -/
theorem c127_initial_c71 (hq : ∀ l, (qsort l).Perm l) (m : ℝ) (h : M3 ℝ) {w : CorrWorld ℝ} {i : Nat} {o : CorrObj ℝ}
    (hi : w.objs[i]? = some o) (hs : o.st < w.heap.length) (rnd : List (BitVec 32)) (r : ROut ℝ) :
    homographyNormRansac Real.sqrt svd qsort m h (o.ms.length : Int) o.ms 3 10000 rnd = .ok (.done r) →
    ∃ w', initialHomography Real.sqrt svd qsort m h w i rnd = .ok (.done (w', r.h, r.count)) ∧ Became w w' i o r.corr := by
  intro e
  rw [initial_eq hq m h hi hs, e]
  exact ⟨_, rfl, rfl, rfl⟩

/-- The matches that remain after marking. -/
theorem mark_facts (A : M3 ℝ) (ms : List (PMatch ℝ)) :
    ∃ r, markInliers A (ms.length : Int) ms 3 = .ok r ∧ r.1.map PMatch.clear = ms.map PMatch.clear ∧
      (∀ c ∈ r.1, c.inlier = true ↔ Within A.mat c.x c.xp 9) ∧ r.2 = (r.1.filter PMatch.inlier).length := by
  unfold markInliers
  rw [Int.toNat_natCast, markLoop_ok _ _ _ _ le_rfl, List.take_length, List.drop_length, List.append_nil, Nat.zero_add]
  refine ⟨_, rfl, ?_, ?_, ?_⟩
  · simp only [marked, List.map_map]
    rfl
  · intro c hc
    simp only [marked, List.mem_map] at hc
    obtain ⟨d, -, rfl⟩ := hc
    simp only
    rw [closeTo_iff]
    norm_num
  · simp only [marked]
    rw [List.filter_map, List.length_map]
    rfl

/-- The matches whose marks are used. -/
theorem filter_norm (st : MStats ℝ) (l : List (PMatch ℝ)) :
    (l.map (normMatch st)).filter PMatch.inlier = (l.filter PMatch.inlier).map (normMatch st) := by
  rw [List.filter_map]
  rfl

/-- C127. The second estimation finds the matrix that fits the marked matches best in normalised coordinates, takes it back to pixels and
marks the matches anew, iff they are nearer than three pixels. It fails iff the points of one of the views all coincide. -/
theorem c127_guided (hsvd : SvdContract svd) (h : M3 ℝ) {w : CorrWorld ℝ} {i : Nat} {o : CorrObj ℝ}
    (hi : w.objs[i]? = some o) (hs : o.st < w.heap.length) (h4 : 4 ≤ (o.ms.filter PMatch.inlier).length) :
    (guidedHomography Real.sqrt svd h w i = .ok .nan ∧
      ((∀ c ∈ o.ms, ∀ c' ∈ o.ms, c.x = c'.x) ∨ (∀ c ∈ o.ms, ∀ c' ∈ o.ms, c.xp = c'.xp))) ∨
    (¬ (∀ c ∈ o.ms, ∀ c' ∈ o.ms, c.x = c'.x) ∧ ¬ (∀ c ∈ o.ms, ∀ c' ∈ o.ms, c.xp = c'.xp) ∧
    ∃ w' h' ms k st A, guidedHomography Real.sqrt svd h w i = .ok (.done (w', h', k)) ∧ Became w w' i o ms ∧
      ms.map PMatch.clear = o.ms.map PMatch.clear ∧ (∀ c ∈ ms, c.inlier = true ↔ Within h'.mat c.x c.xp 9) ∧
      k = (ms.filter PMatch.inlier).length ∧
      (∃ ms1, normalizeMatches Real.sqrt (o.ms.length : Int) o.ms = .ok (some (st, ms1))) ∧
      normMat st.mp st.dp * h'.mat = A * normMat st.m st.d ∧ frobSq A = 1 ∧
      ∀ A', frobSq A' = 1 → algError A ((o.ms.filter PMatch.inlier).map (normMatch st)) ≤
        algError A' ((o.ms.filter PMatch.inlier).map (normMatch st))) := by
  have h0 : 0 < o.ms.length := by
    have := List.length_filter_le PMatch.inlier o.ms
    omega
  rw [guided_eq h hi hs]
  rcases c65_normalized o.ms.length h0 o.ms le_rfl with ⟨e, hc⟩ | ⟨n1, n2, st, c1, e, p1, p2, -⟩
  · rw [List.take_length] at hc
    rw [e]
    exact Or.inl ⟨rfl, hc⟩
  · rw [List.take_length] at n1 n2
    refine Or.inr ⟨n1, n2, ?_⟩
    obtain ⟨t1, t2, t3⟩ := normalizeMatches_take h0 le_rfl e
    rw [List.take_length, List.take_of_length_le t3.le] at t1
    rw [e]
    simp only [Res.bind]
    have hd := c62_dlt_inliers (svd := svd) h o.ms.length c1 t3.ge
    rw [List.take_of_length_le t3.le, t1] at hd
    obtain ⟨A, s, ea, fa, ma⟩ := c62_dlt hsvd h ((o.ms.filter PMatch.inlier).map (normMatch st)) (by simpa using h4)
    have hd' : estimateDltInliers svd h (o.ms.length : Int) c1 = .ok (A, s) := by
      rw [t1, hd, ← ea]
      have : ((o.ms.map (normMatch st)).filter fun c => c.inlier) = (o.ms.filter PMatch.inlier).map (normMatch st) := filter_norm st o.ms
      rw [this]
    rw [hd']
    simp only
    obtain ⟨r, er, r1, r2, r3⟩ := mark_facts (denormalizeHomography st A) o.ms
    rw [er]
    exact ⟨_, _, r.1, r.2, st, A.mat, rfl, ⟨rfl, rfl⟩, r1, r2, r3, ⟨c1, rfl⟩, c65_homography_mat st A p2.ne', fa, ma⟩

/-- A transformation of pixels in normalised coordinates. -/
theorem norm_conj (st : MStats ℝ) (hd : st.d ≠ 0) (hdp : st.dp ≠ 0) (B : Matrix (Fin 3) (Fin 3) ℝ) (hB : B.det ≠ 0) :
    ∃ B1 : Matrix (Fin 3) (Fin 3) ℝ, B1.det ≠ 0 ∧
      (∀ c : PMatch ℝ, Projects B c.x c.xp → Projects B1 (normMatch st c).x (normMatch st c).xp) ∧
      ∀ (A : M3 ℝ) (k : ℝ), A.mat = k • B1 → (denormalizeHomography st A).mat = k • B := by
  have hi := normMat_inv st.m hd
  have hip := normMat_inv st.mp hdp
  have hi' := mul_eq_one_comm.mp hi
  generalize hNi : transl2 st.m.1 st.m.2 * scale2 st.d st.d = Ni at hi hi'
  generalize hNpi : transl2 st.mp.1 st.mp.2 * scale2 st.dp st.dp = Npi at hip
  refine ⟨normMat st.mp st.dp * B * Ni, ?_, ?_, ?_⟩
  · have d1 := congrArg Matrix.det hi
    have d2 := congrArg Matrix.det hip
    rw [Matrix.det_mul, Matrix.det_one] at d1 d2
    rw [Matrix.det_mul, Matrix.det_mul]
    refine mul_ne_zero (mul_ne_zero ?_ hB) ?_
    · intro h0
      rw [h0, mul_zero] at d2
      exact zero_ne_one d2
    · intro h0
      rw [h0, zero_mul] at d1
      exact zero_ne_one d1
  · intro c p2
    have p1 : Projects Ni (normPt st.m st.d c.x) c.x := (normMat_projects st.m st.d c.x).inv hi
    have p3 := normMat_projects st.mp st.dp c.xp
    rw [Matrix.mul_assoc]
    exact (p1.comp p2).comp p3
  · intro A k hk
    have e := c65_homography_mat st A hdp
    rw [hk] at e
    calc (denormalizeHomography st A).mat = Npi * (normMat st.mp st.dp * (denormalizeHomography st A).mat) := by
          rw [← Matrix.mul_assoc, hip, Matrix.one_mul]
      _ = k • (Npi * normMat st.mp st.dp * B * (Ni * normMat st.m st.d)) := by
        rw [e, Matrix.smul_mul, Matrix.mul_smul]
        simp only [Matrix.mul_assoc]
      _ = k • B := by rw [hip, hi, Matrix.one_mul, Matrix.mul_one]

/-- A regular transformation takes two points to two points. -/
theorem projects_inj {B : Matrix (Fin 3) (Fin 3) ℝ} (hd : B.det ≠ 0) {p p' q : ℝ × ℝ} (h : Projects B p q) (h' : Projects B p' q) :
    p = p' := by
  obtain ⟨s, hs, e⟩ := h
  obtain ⟨s', hs', e'⟩ := h'
  have hz : B.mulVec (s' • hom2 p - s • hom2 p') = 0 := by
    rw [Matrix.mulVec_sub, Matrix.mulVec_smul, Matrix.mulVec_smul, e, e', smul_smul, smul_smul, mul_comm, sub_self]
  have := Matrix.eq_zero_of_mulVec_eq_zero hd hz
  have c0 := congrFun this 0
  have c1 := congrFun this 1
  have c2 := congrFun this 2
  simp [hom2] at c0 c1 c2
  have hss : s' = s := by linarith
  rw [hss] at c0 c1
  have d0 : s * (p.1 - p'.1) = 0 := by linarith
  have d1 : s * (p.2 - p'.2) = 0 := by linarith
  rcases mul_eq_zero.mp d0 with h | h
  · exact absurd h hs
  · rcases mul_eq_zero.mp d1 with h1 | h1
    · exact absurd h1 hs
    · exact Prod.ext (by linarith) (by linarith)

/-- Points in general position do not coincide. -/
theorem general_ne {p : Fin 4 → ℝ × ℝ} (hg : General p) (h : ∀ a b, p a = p b) : False := by
  obtain ⟨h0, -⟩ := hg
  apply h0
  rw [h 1 0, h 2 0]
  simp only [area2]
  ring

/-- C127. If all marked matches agree with one regular transformation, which four of them determine, the second estimation finds it, and
every match is marked iff it agrees with it up to three pixels. -/
theorem c127_guided_exact (hsvd : SvdContract svd) (h : M3 ℝ) {w : CorrWorld ℝ} {i : Nat} {o : CorrObj ℝ}
    (hi : w.objs[i]? = some o) (hs : o.st < w.heap.length) (B : Matrix (Fin 3) (Fin 3) ℝ) (hd : B.det ≠ 0)
    (hB : ∀ c ∈ o.ms, c.inlier = true → Projects B c.x c.xp) (c : Fin 4 → PMatch ℝ) (hc : ∀ j, c j ∈ o.ms ∧ (c j).inlier = true)
    (hne : 4 ≤ (o.ms.filter PMatch.inlier).length) (hg : General fun j => (c j).x) :
    ∃ w' h' ms k, ∃ t : ℝ, guidedHomography Real.sqrt svd h w i = .ok (.done (w', h', k)) ∧ Became w w' i o ms ∧ t ≠ 0 ∧ h'.mat = t • B ∧
      ms.map PMatch.clear = o.ms.map PMatch.clear ∧ (∀ d ∈ ms, d.inlier = true ↔ Within B d.x d.xp 9) ∧
      k = (ms.filter PMatch.inlier).length := by
  have h0 : 0 < o.ms.length := by
    have := List.length_filter_le PMatch.inlier o.ms
    omega
  rw [guided_eq h hi hs]
  rcases c65_normalized o.ms.length h0 o.ms le_rfl with ⟨e, hx⟩ | ⟨n1, n2, st, c1, e, p1, p2, -⟩
  · exfalso
    rw [List.take_length] at hx
    rcases hx with hx | hx
    · exact general_ne hg fun a b => hx _ (hc a).1 _ (hc b).1
    · exact general_ne hg fun a b => projects_inj hd (hB _ (hc a).1 (hc a).2)
        ((hx _ (hc a).1 _ (hc b).1).symm ▸ hB _ (hc b).1 (hc b).2)
  · obtain ⟨t1, t2, t3⟩ := normalizeMatches_take h0 le_rfl e
    rw [List.take_length, List.take_of_length_le t3.le] at t1
    rw [e]
    simp only [Res.bind]
    have hdl := c62_dlt_inliers (svd := svd) h o.ms.length c1 t3.ge
    rw [List.take_of_length_le t3.le, t1] at hdl
    obtain ⟨B1, b1, b2, b3⟩ := norm_conj st p1.ne' p2.ne' B hd
    obtain ⟨A, s, t, ea, ht, eA, -⟩ := c62_dlt_exact hsvd h ((o.ms.filter PMatch.inlier).map (normMatch st)) (by simpa using hne)
      B1 (by
        intro d hd
        rw [List.mem_map] at hd
        obtain ⟨a, ha, rfl⟩ := hd
        rw [List.mem_filter] at ha
        exact b2 a (hB a ha.1 ha.2)) b1 (fun j => normMatch st (c j))
      (fun j => List.mem_map_of_mem (List.mem_filter.mpr (hc j))) (general_norm hg st.m p1.ne')
    have hd' : estimateDltInliers svd h (o.ms.length : Int) c1 = .ok (A, s) := by
      rw [t1, hdl, ← ea]
      have : ((o.ms.map (normMatch st)).filter fun c => c.inlier) = (o.ms.filter PMatch.inlier).map (normMatch st) := filter_norm st o.ms
      rw [this]
    rw [hd']
    simp only
    obtain ⟨r, er, r1, r2, r3⟩ := mark_facts (denormalizeHomography st A) o.ms
    rw [er]
    have eh := b3 A t eA
    refine ⟨_, _, r.1, r.2, t, rfl, ⟨rfl, rfl⟩, ht, eh, r1, ?_, r3⟩
    intro d hd
    rw [r2 d hd, eh]
    constructor
    · rintro ⟨q, hq, hlt⟩
      exact ⟨q, Projects.unscale ht hq, hlt⟩
    · rintro ⟨q, ⟨s, hs0, hq⟩, hlt⟩
      exact ⟨q, ⟨t * s, mul_ne_zero ht hs0, by rw [Matrix.smul_mulVec, hq, smul_smul]⟩, hlt⟩

/-- The arrays of the refinement have the sizes that they are allocated with. -/
structure Scratch.Sized (mem : Scratch ℝ) : Prop where
  e_len : ∀ N, (mem.e N).length = 2 * N
  jt_len : ∀ N, (mem.jt N).length = 18 * N
  jte_len : mem.jte.length = 9
  a_len : mem.A.length = 81

/-- What is known when the first estimation has found inliers. -/
theorem initial_many (hq : ∀ l, (qsort l).Perm l) {m : ℝ} {h : M3 ℝ} {w w1 : CorrWorld ℝ} {i : Nat} {o : CorrObj ℝ}
    (hi : w.objs[i]? = some o) (hs : o.st < w.heap.length) {rnd : List (BitVec 32)} {h1 : M3 ℝ} {k : Nat}
    (he : initialHomography Real.sqrt svd qsort m h w i rnd = .ok (.done (w1, h1, k))) (hk : 15 ≤ k) :
    ∃ ms, Became w w1 i o ms ∧ ms.length = o.ms.length ∧ 15 ≤ (ms.filter PMatch.inlier).length ∧
      ¬ (∀ c ∈ ms, ∀ c' ∈ ms, c.x = c'.x) ∧ ¬ (∀ c ∈ ms, ∀ c' ∈ ms, c.xp = c'.xp) := by
  obtain ⟨ms, hb, hp, h4, hf⟩ := c127_initial hq m h hi hs rnd he
  have hlen : ms.length = o.ms.length := by simpa using hp.length_eq
  by_cases hl : 4 ≤ o.ms.length
  · obtain ⟨-, hc⟩ := h4 hl
    have hmem : ∀ c ∈ o.ms, ∃ d ∈ ms, d.x = c.x ∧ d.xp = c.xp := by
      intro c hc
      have : c.clear ∈ ms.map PMatch.clear := hp.symm.mem_iff.mp (List.mem_map_of_mem hc)
      obtain ⟨d, hd, e⟩ := List.mem_map.mp this
      exact ⟨d, hd, show d.clear.x = c.clear.x by rw [e], show d.clear.xp = c.clear.xp by rw [e]⟩
    rw [initial_eq hq m h hi hs] at he
    obtain ⟨r, hr, he⟩ := Res.bind_eq_ok.mp he
    cases r with
    | starved => cases he
    | nan => cases he
    | done r =>
      obtain ⟨st, c1, o1, e1, -⟩ := homographyNormRansac_done hr
      rcases c65_normalized o.ms.length (by omega) o.ms le_rfl with ⟨e, -⟩ | ⟨n1, n2, -⟩
      · rw [e] at e1
        cases e1
      · rw [List.take_length] at n1 n2
        refine ⟨ms, hb, hlen, by omega, ?_, ?_⟩
        · intro hx
          apply n1
          intro c hc c' hc'
          obtain ⟨d, hd, e1, -⟩ := hmem c hc
          obtain ⟨d', hd', e2, -⟩ := hmem c' hc'
          rw [← e1, ← e2]
          exact hx d hd d' hd'
        · intro hx
          apply n2
          intro c hc c' hc'
          obtain ⟨d, hd, -, e1⟩ := hmem c hc
          obtain ⟨d', hd', -, e2⟩ := hmem c' hc'
          rw [← e1, ← e2]
          exact hx d hd d' hd'
  · have := (hf (by omega)).2
    omega

/-- C127. Without 15 inliers the program ends with the first estimate. -/
theorem c127_few {m : ℝ} {dsysv : List ℝ → List ℝ → Int × List ℝ} {guided : M3 ℝ → List (PMatch ℝ)} {mem : Scratch ℝ}
    {w w1 : CorrWorld ℝ} {i : Nat} {rnd : List (BitVec 32)} {h1 : M3 ℝ} {k : Nat}
    (he : initialHomography Real.sqrt svd qsort m ⟨1, 0, 0, 0, 1, 0, 0, 0, 1⟩ w i rnd = .ok (.done (w1, h1, k))) (hk : k < 15) :
    stereoFit Real.sqrt svd qsort m dsysv guided mem w i rnd = .ok (.done (w1, h1, k)) := by
  unfold stereoFit idHomography
  rw [he, Res.ok_bind]
  simp only
  rw [if_neg (by omega)]

/-- C127. With 15 inliers or more the matches for this homography are added, the second estimate is made from all that are marked then,
and the program ends with an error, or with a homography whose mean squared error over the inliers of the second estimate is smaller than
that of the second estimate. Nothing undefined happens after the first estimation. -/
theorem c127_program (hsvd : SvdContract svd) (hq : ∀ l, (qsort l).Perm l) {m : ℝ} {dsysv : List ℝ → List ℝ → Int × List ℝ}
    (hdsysv : KeepsSize dsysv) {guided : M3 ℝ → List (PMatch ℝ)} {mem : Scratch ℝ} (hmem : mem.Sized)
    {w w1 : CorrWorld ℝ} {i : Nat} {o : CorrObj ℝ} (hi : w.objs[i]? = some o) (hs : o.st < w.heap.length) {rnd : List (BitVec 32)}
    {h1 : M3 ℝ} {k : Nat}
    (he : initialHomography Real.sqrt svd qsort m ⟨1, 0, 0, 0, 1, 0, 0, 0, 1⟩ w i rnd = .ok (.done (w1, h1, k))) (hk : 15 ≤ k)
    (hsize : 18 * (o.ms.length + (guided h1).length) ≤ 2147483647) :
    ∃ ms1 ms2 w2 w3 h2, Became w w1 i o ms1 ∧ Became w w2 i o (ms1 ++ guided h1) ∧
      guidedHomography Real.sqrt svd h1 w2 i = .ok (.done (w3, h2, (ms2.filter PMatch.inlier).length)) ∧ Became w w3 i o ms2 ∧
      ((stereoFit Real.sqrt svd qsort m dsysv guided mem w i rnd = .fatal) ∨
      ∃ w4 h3 ms3 E E', stereoFit Real.sqrt svd qsort m dsysv guided mem w i rnd
          = .ok (.done (w4, h3, (ms3.filter PMatch.inlier).length)) ∧ Became w w4 i o ms3 ∧
        ms3.map PMatch.clear = (ms1 ++ guided h1).map PMatch.clear ∧
        (∀ c ∈ ms3, c.inlier = true ↔ Within h3.mat c.x c.xp 9) ∧
        MeanError (refineScale h2) (ms2.filter PMatch.inlier) E ∧ MeanError h3 (ms2.filter PMatch.inlier) E' ∧ E' < E) ∧
      ((∀ A b, (dsysv A b).1 = 0) → stereoFit Real.sqrt svd qsort m dsysv guided mem w i rnd = .fatal) := by
  obtain ⟨ms1, hb1, hlen, h15, nx, nxp⟩ := initial_many hq hi hs he hk
  obtain ⟨hl, -⟩ := List.getElem?_eq_some_iff.mp hi
  obtain ⟨ho1, hh1⟩ := hb1
  have hl1 : i < w1.objs.length := by rw [ho1]; simpa using hl
  have hr1 : readAt w1.objs i = .ok ⟨o.st, ms1⟩ := by rw [ho1, readAt_set hl]
  -- the object with the matches that are added
  have hadd : withMatches w1 i (fun ms => .ok (ms ++ guided h1))
      = .ok ⟨w.heap.set o.st statsReset, w.objs.set i ⟨o.st, ms1 ++ guided h1⟩⟩ := by
    unfold withMatches
    rw [hr1, Res.ok_bind, Res.ok_bind, writeAt_ok _ hl1, Res.ok_bind, ho1, hh1, List.set_set]
    rfl
  generalize hw2 : (⟨w.heap.set o.st statsReset, w.objs.set i ⟨o.st, ms1 ++ guided h1⟩⟩ : CorrWorld ℝ) = w2 at hadd
  have hi2 : w2.objs[i]? = some ⟨o.st, ms1 ++ guided h1⟩ := by rw [← hw2]; simp [hl]
  have hs2 : o.st < w2.heap.length := by rw [← hw2]; simpa using hs
  have hcount : 4 ≤ ((ms1 ++ guided h1).filter PMatch.inlier).length := by
    rw [List.filter_append, List.length_append]
    omega
  rcases c127_guided hsvd h1 hi2 hs2 hcount with ⟨-, hbad⟩ | ⟨-, -, w3, h2, ms2, k2, st, A, e3, hb3, hms2, hmark2, hk2, -⟩
  · exfalso
    rcases hbad with hbad | hbad
    · exact nx fun c hc c' hc' => hbad c (List.mem_append_left _ hc) c' (List.mem_append_left _ hc')
    · exact nxp fun c hc c' hc' => hbad c (List.mem_append_left _ hc) c' (List.mem_append_left _ hc')
  · have hb3' : Became w w3 i o ms2 := by
      obtain ⟨a, b⟩ := hb3
      rw [← hw2] at a b
      simp only [List.set_set] at a b
      exact ⟨a, b⟩
    subst hk2
    have hl3 : i < w3.objs.length := by rw [hb3'.1]; simpa using hl
    have hr3 : readAt w3.objs i = .ok ⟨o.st, ms2⟩ := by rw [hb3'.1, readAt_set hl]
    have hlen2 : ms2.length = o.ms.length + (guided h1).length := by
      have := congrArg List.length hms2
      simp only [List.length_map, List.length_append] at this
      omega
    have hfit : stereoFit Real.sqrt svd qsort m dsysv guided mem w i rnd = (do
        let f ← refineHomography dsysv ms2.length ms2 h2 (mem.e (ms2.filter PMatch.inlier).length)
          (mem.jt (ms2.filter PMatch.inlier).length) mem.jte mem.A
        let w ← withMatches w3 i fun _ => .ok f.2.1
        .ok (.done (w, f.1, f.2.2))) := by
      unfold stereoFit idHomography
      rw [he, Res.ok_bind]
      simp only
      rw [if_pos hk, hadd, Res.ok_bind, e3, Res.ok_bind]
      simp only
      rw [hr3, Res.ok_bind]
      simp only
      rw [countInliers_ok _ _ _ le_rfl, List.take_length, Nat.zero_add, Res.ok_bind]
    have hN : 18 * ((ms2.take ms2.length).filter PMatch.inlier).length ≤ 2147483647 := by
      rw [List.take_length]
      have := List.length_filter_le PMatch.inlier ms2
      omega
    refine ⟨ms1, ms2, w2, w3, h2, ⟨ho1, hh1⟩, ?_, e3, hb3', ?_, ?_⟩
    · rw [← hw2]
      exact ⟨rfl, rfl⟩
    · have href := c105_refine hdsysv (n := ms2.length) (pm := ms2) le_rfl h2
        (e0 := mem.e (ms2.filter PMatch.inlier).length) (jt0 := mem.jt (ms2.filter PMatch.inlier).length) (jte0 := mem.jte) (A := mem.A)
        (by rw [List.take_length, hmem.e_len]) (by rw [List.take_length, hmem.jt_len]) hmem.jte_len hmem.a_len hN
      rw [hfit]
      rcases href with hf | ⟨h3, ms3, k3, E, E', ef, m1, m2, hlt, em⟩
      · rw [hf]
        exact Or.inl rfl
      · rw [List.take_length] at m1 m2
        obtain ⟨r, er, r1, r2, r3⟩ := mark_facts h3 ms2
        rw [er] at em
        cases em
        rw [ef, Res.ok_bind]
        have hst : withMatches w3 i (fun _ => .ok ms3) = .ok ⟨w3.heap, w3.objs.set i ⟨o.st, ms3⟩⟩ := by
          unfold withMatches
          rw [hr3, Res.ok_bind, Res.ok_bind, writeAt_ok _ hl3, Res.ok_bind]
          rfl
        simp only
        rw [hst, Res.ok_bind]
        simp only at r1 r2 r3
        rw [r3]
        refine Or.inr ⟨_, h3, ms3, E, E', rfl, ⟨?_, hb3'.2⟩, r1.trans hms2, r2, m1, m2, hlt⟩
        simp only
        rw [hb3'.1, List.set_set]
    · intro hsolve
      rw [hfit, c105_solved hsolve (n := ms2.length) (pm := ms2) le_rfl h2
        (by rw [List.take_length, hmem.e_len]) (by rw [List.take_length, hmem.jt_len]) hmem.jte_len hmem.a_len hN]
      rfl

/-- Two hundred matches of the identity. -/
def manyMatches : List (PMatch ℚ) := (List.range 200).map fun (j : Nat) => matchOf id ((j : ℚ), (j : ℚ) * j)

def manyWorld : CorrWorld ℚ := ⟨[statsReset], [⟨0, manyMatches⟩]⟩

def flatSvd : List (Fin 9 → ℚ) → (Fin 9 → Fin 9 → ℚ) × List ℚ := fun _ => (fun _ => ![1, 0, 0, 0, 1, 0, 0, 0, 1], [])

set_option maxRecDepth 100000 in
/-- All of them are found to be inliers, which are enough for the rest of the program. -/
example :
    (match initialHomography (fun _ => 1) flatSvd id (24 / 25) idHomography manyWorld 0 [100000000, 700000000, 1300000000, 2000000000] with
      | .ok (.done r) => (r.2.2, r.2.1) | _ => (0, ⟨0, 0, 0, 0, 0, 0, 0, 0, 0⟩)) = (200, ⟨1, 0, 0, 0, 1, 0, 0, 0, 1⟩) := by
  decide +kernel

end Nx
