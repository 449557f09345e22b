import Verif.Model.StereoRefine
import Verif.Spec.StereoRefine
import Verif.Lemmas.Sample
import Verif.Lemmas.Dlt
import Verif.Props.Mat
import Verif.Props.Vector
import Mathlib.Tactic.Ring
import Mathlib.Tactic.FieldSimp
import Mathlib.Tactic.LinearCombination

/-! # C105: refinement of a homography -/

namespace Nx

section
variable {K : Type} [Field K] [DecidableEq K]

/-- The inliers among the first `n` matches. -/
def inlierList (n : Nat) (pm : List (PMatch K)) : List (PMatch K) := (pm.take n).filter PMatch.inlier

/-- The two residuals as they are stored. -/
def residRow (h : M3 K) (c : PMatch K) : List K :=
  [c.xp.1 - (refineHx h c.x).1 / (refineHx h c.x).2.2, c.xp.2 - (refineHx h c.x).2.1 / (refineHx h c.x).2.2]

/-- The residual as a pair. -/
def residPair (h : M3 K) (c : PMatch K) : K × K :=
  (c.xp.1 - (refineHx h c.x).1 / (refineHx h c.x).2.2, c.xp.2 - (refineHx h c.x).2.1 / (refineHx h c.x).2.2)

omit [DecidableEq K] in
theorem projects_refine (h : M3 K) (x : K × K) (hw : (refineHx h x).2.2 ≠ 0) :
    Projects h.mat x ((refineHx h x).1 / (refineHx h x).2.2, (refineHx h x).2.1 / (refineHx h x).2.2) := by
  rw [projects_iff]
  simp only [refineHx] at hw ⊢
  refine ⟨hw, ?_, ?_⟩
  · rw [mul_div_cancel₀ _ hw]
  · rw [mul_div_cancel₀ _ hw]

omit [DecidableEq K] in
theorem projects_refine_eq {h : M3 K} {x q : K × K} (hp : Projects h.mat x q) :
    (refineHx h x).2.2 ≠ 0 ∧ q = ((refineHx h x).1 / (refineHx h x).2.2, (refineHx h x).2.1 / (refineHx h x).2.2) := by
  rw [projects_iff] at hp
  obtain ⟨hw, h1, h2⟩ := hp
  simp only [refineHx]
  refine ⟨hw, ?_⟩
  rw [h1, h2]
  apply Prod.ext
  · simp only
    field_simp
  · simp only
    field_simp

omit [DecidableEq K] in
theorem not_projects {h : M3 K} {x : K × K} (hw : (refineHx h x).2.2 = 0) : ∀ q, ¬ Projects h.mat x q :=
  fun _ hp => (projects_refine_eq hp).1 hw

omit [Field K] [DecidableEq K] in
theorem writeBlock_append {a : List K} {e0 xs : List K} {p : Nat} (ha : a.length = p) (hp : p + xs.length ≤ e0.length) :
    writeBlock (a ++ e0.drop p) p xs = .ok ((a ++ xs) ++ e0.drop (p + xs.length)) := by
  rw [writeBlock_ok _ (by rw [List.length_append, List.length_drop]; omega)]
  congr 1
  rw [List.take_append_of_le_length (by omega), ← ha, List.take_length, List.drop_append, List.drop_eq_nil_of_le (by omega), List.nil_append,
    List.drop_drop]
  congr 2
  omega

/-- What the loop has computed after the first matches. -/
structure ErrInv (out : Bool) (h : M3 K) (e0 jt0 : List K) (ins : List (PMatch K)) (s : ErrJac K) : Prop where
  finite : ∀ c ∈ ins, (refineHx h c.x).2.2 ≠ 0
  n_eq : s.nIn = ins.length
  E_eq : s.E = (ins.map fun c => (residPair h c).1 ^ 2 + (residPair h c).2 ^ 2).sum
  e_eq : s.e = if out then (ins.map (residRow h)).flatten ++ e0.drop (2 * ins.length) else e0
  jt_eq : s.jt = if out then (ins.map fun c => refineRows c.x (refineHx h c.x)).flatten ++ jt0.drop (18 * ins.length) else jt0
  pe_eq : s.pe = if out then 2 * ins.length else 0
  pj_eq : s.pj = if out then 18 * ins.length else 0

omit [DecidableEq K] in
theorem residRow_length (h : M3 K) (ins : List (PMatch K)) : (ins.map (residRow h)).flatten.length = 2 * ins.length := by
  rw [flatten_len (k := 2), List.length_map, Nat.mul_comm]
  intro x hx
  obtain ⟨c, _, rfl⟩ := List.mem_map.mp hx
  rfl

omit [DecidableEq K] in
theorem refineRows_length (h : M3 K) (ins : List (PMatch K)) :
    (ins.map fun c => refineRows c.x (refineHx h c.x)).flatten.length = 18 * ins.length := by
  rw [flatten_len (k := 18), List.length_map, Nat.mul_comm]
  intro x hx
  obtain ⟨c, _, rfl⟩ := List.mem_map.mp hx
  rfl

theorem errInlier_spec {out : Bool} {h : M3 K} {e0 jt0 : List K} {ins : List (PMatch K)} {s : ErrJac K} (c : PMatch K)
    (hs : ErrInv out h e0 jt0 ins s) (he : out = true → 2 * ins.length + 2 ≤ e0.length) (hj : out = true → 18 * ins.length + 18 ≤ jt0.length) :
    ∃ r, errInlier out h c s = .ok r ∧
      ((r = none ∧ (refineHx h c.x).2.2 = 0) ∨ ∃ s', r = some s' ∧ ErrInv out h e0 jt0 (ins ++ [c]) s') := by
  unfold errInlier
  simp only
  by_cases hw : (refineHx h c.x).2.2 = 0
  · rw [if_pos hw]
    exact ⟨none, rfl, Or.inl ⟨rfl, hw⟩⟩
  · rw [if_neg hw]
    have hfin : ∀ c' ∈ ins ++ [c], (refineHx h c'.x).2.2 ≠ 0 := by
      intro c' hc'
      rcases List.mem_append.mp hc' with hc' | hc'
      · exact hs.finite c' hc'
      · rw [List.mem_singleton.mp hc']
        exact hw
    have hE : s.E + ((c.xp.1 - (refineHx h c.x).1 / (refineHx h c.x).2.2) * (c.xp.1 - (refineHx h c.x).1 / (refineHx h c.x).2.2) +
        (c.xp.2 - (refineHx h c.x).2.1 / (refineHx h c.x).2.2) * (c.xp.2 - (refineHx h c.x).2.1 / (refineHx h c.x).2.2)) =
        ((ins ++ [c]).map fun c => (residPair h c).1 ^ 2 + (residPair h c).2 ^ 2).sum := by
      rw [List.map_append, List.sum_append, ← hs.E_eq]
      simp only [List.map_cons, List.map_nil, List.sum_cons, List.sum_nil, residPair]
      ring
    cases out with
    | false =>
      rw [if_neg (by decide)]
      refine ⟨_, rfl, Or.inr ⟨_, rfl, hfin, ?_, hE, ?_, ?_, ?_, ?_⟩⟩
      · simp [hs.n_eq]
      · simpa using hs.e_eq
      · simpa using hs.jt_eq
      · simpa using hs.pe_eq
      · simpa using hs.pj_eq
    | true =>
      rw [if_pos rfl]
      have e1 := hs.e_eq
      have e2 := hs.jt_eq
      have e3 := hs.pe_eq
      have e4 := hs.pj_eq
      rw [if_pos rfl] at e1 e2 e3 e4
      rw [e1, e2, e3, e4]
      rw [writeBlock_append (residRow_length h ins) (by simpa using he rfl), Res.ok_bind,
        writeBlock_append (refineRows_length h ins) (by simpa [refineRows] using hj rfl), Res.ok_bind]
      refine ⟨_, rfl, Or.inr ⟨_, rfl, hfin, ?_, hE, ?_, ?_, ?_, ?_⟩⟩
      · simp [hs.n_eq]
      · rw [if_pos rfl, List.map_append, List.flatten_append, List.length_append]
        simp [residRow, Nat.mul_add]
      · rw [if_pos rfl, List.map_append, List.flatten_append, List.length_append]
        simp [refineRows, Nat.mul_add]
      · simp [Nat.mul_add]
      · simp [Nat.mul_add]

omit [Field K] [DecidableEq K] in
theorem inliersOf_succ {pm : List (PMatch K)} {i : Nat} (hi : i < pm.length) :
    inlierList (i + 1) pm = inlierList i pm ++ (if pm[i].inlier then [pm[i]] else []) := by
  unfold inlierList
  rw [List.take_succ_eq_append_getElem hi, List.filter_append]
  congr 1
  cases h : pm[i].inlier <;> simp [h]

omit [Field K] [DecidableEq K] in
theorem inliersOf_mono {pm : List (PMatch K)} {i n : Nat} (hi : i ≤ n) : (inlierList i pm).length ≤ (inlierList n pm).length := by
  unfold inlierList
  have : (pm.take i) <+: (pm.take n) := List.take_prefix_take_left hi
  exact (this.filter _).length_le

/-- Mean, residuals and derivatives. -/
theorem errJac_spec (out : Bool) (n : Nat) (pm : List (PMatch K)) (h : M3 K) (e0 jt0 : List K) (hn : n ≤ pm.length)
    (he : out = true → e0.length = 2 * (inlierList n pm).length) (hj : out = true → jt0.length = 18 * (inlierList n pm).length) :
    (errJac out n pm h e0 jt0 = .ok none ∧ (inlierList n pm = [] ∨ ∃ c ∈ inlierList n pm, (refineHx h c.x).2.2 = 0)) ∨
    ∃ e jt, errJac out n pm h e0 jt0 =
        .ok (some (((inlierList n pm).map fun c => (residPair h c).1 ^ 2 + (residPair h c).2 ^ 2).sum / ((inlierList n pm).length : K), e, jt)) ∧
      inlierList n pm ≠ [] ∧ (∀ c ∈ inlierList n pm, (refineHx h c.x).2.2 ≠ 0) ∧
      (out = true → e = ((inlierList n pm).map (residRow h)).flatten ∧
        jt = ((inlierList n pm).map fun c => refineRows c.x (refineHx h c.x)).flatten) := by
  obtain ⟨s, e, hs⟩ := forLoop_spec
    (fun i (s : Option (ErrJac K)) => (s = none ∧ ∃ c ∈ inlierList i pm, (refineHx h c.x).2.2 = 0) ∨
      ∃ s', s = some s' ∧ ErrInv out h e0 jt0 (inlierList i pm) s')
    (n := n) (body := errBody out pm h) (i0 := 0) (s := some ⟨0, 0, e0, jt0, 0, 0⟩) (Nat.zero_le _)
    (Or.inr ⟨_, rfl, by simp [inlierList], rfl, by simp [inlierList], by cases out <;> simp [inlierList], by cases out <;> simp [inlierList],
      by cases out <;> simp [inlierList], by cases out <;> simp [inlierList]⟩) (by
      intro i s _ hi hs
      have hi' : i < pm.length := by omega
      unfold errBody
      rw [readAt_ok hi', Res.ok_bind]
      rcases hs with ⟨rfl, c, hc, hw⟩ | ⟨s', rfl, hs'⟩
      · refine ⟨none, rfl, Or.inl ⟨rfl, c, ?_, hw⟩⟩
        rw [inliersOf_succ hi']
        exact List.mem_append_left _ hc
      · simp only
        rw [inliersOf_succ hi']
        by_cases hin : pm[i].inlier = true
        · have hmono := inliersOf_mono (pm := pm) (i := i + 1) (n := n) hi
          rw [inliersOf_succ hi', if_pos hin, List.length_append, List.length_singleton] at hmono
          rw [if_pos hin, if_pos hin]
          obtain ⟨r, er, hr⟩ := errInlier_spec pm[i] hs' (fun ho => by rw [he ho]; omega) (fun ho => by rw [hj ho]; omega)
          refine ⟨r, er, ?_⟩
          rcases hr with ⟨rfl, hw⟩ | ⟨s'', rfl, h''⟩
          · exact Or.inl ⟨rfl, pm[i], by simp, hw⟩
          · exact Or.inr ⟨s'', rfl, h''⟩
        · rw [if_neg hin, if_neg hin, List.append_nil]
          exact ⟨_, rfl, Or.inr ⟨s', rfl, hs'⟩⟩)
  unfold errJac
  rw [e, Res.ok_bind]
  rcases hs with ⟨rfl, c, hc, hw⟩ | ⟨s', rfl, hs'⟩
  · exact Or.inl ⟨rfl, Or.inr ⟨c, hc, hw⟩⟩
  · simp only
    by_cases h0 : s'.nIn = 0
    · rw [if_pos h0]
      refine Or.inl ⟨rfl, Or.inl ?_⟩
      rw [hs'.n_eq] at h0
      exact List.eq_nil_of_length_eq_zero h0
    · rw [if_neg h0]
      refine Or.inr ⟨s'.e, s'.jt, by rw [hs'.E_eq, hs'.n_eq]; rfl, ?_, hs'.finite, ?_⟩
      · intro hnil
        rw [hs'.n_eq, hnil] at h0
        exact h0 rfl
      · intro ho
        have e1 := hs'.e_eq
        have e2 := hs'.jt_eq
        rw [if_pos ho] at e1 e2
        rw [e1, e2, ← he ho, ← hj ho, List.drop_length, List.drop_length, List.append_nil, List.append_nil]
        exact ⟨rfl, rfl⟩

omit [DecidableEq K] in
theorem forall₂_resid {h : M3 K} {ins : List (PMatch K)} (hf : ∀ c ∈ ins, (refineHx h c.x).2.2 ≠ 0) :
    List.Forall₂ (Residual h) ins (ins.map (residPair h)) := by
  induction ins with
  | nil => exact List.Forall₂.nil
  | cons c ins ih =>
    rw [List.map_cons]
    refine List.Forall₂.cons ⟨_, projects_refine h c.x (hf c List.mem_cons_self), rfl⟩ (ih fun c' hc' => hf c' (List.mem_cons_of_mem _ hc'))

/-- C105. The mean squared error of the inliers, or no number if there is none. -/
theorem c105_mean (out : Bool) (n : Nat) (pm : List (PMatch K)) (h : M3 K) (e0 jt0 : List K) (hn : n ≤ pm.length)
    (he : out = true → e0.length = 2 * ((pm.take n).filter PMatch.inlier).length)
    (hj : out = true → jt0.length = 18 * ((pm.take n).filter PMatch.inlier).length) :
    (errJac out n pm h e0 jt0 = .ok none ∧ NoMean h ((pm.take n).filter PMatch.inlier)) ∨
    ∃ E e jt, errJac out n pm h e0 jt0 = .ok (some (E, e, jt)) ∧ MeanError h ((pm.take n).filter PMatch.inlier) E := by
  rcases errJac_spec out n pm h e0 jt0 hn he hj with ⟨e, hno⟩ | ⟨e, jt, heq, hne, hfin, -⟩
  · refine Or.inl ⟨e, ?_⟩
    rcases hno with h0 | ⟨c, hc, hw⟩
    · exact Or.inl h0
    · exact Or.inr ⟨c, hc, not_projects hw⟩
  · refine Or.inr ⟨_, e, jt, heq, hne, _, forall₂_resid hfin, ?_⟩
    rw [List.map_map]
    rfl

omit [DecidableEq K] in
theorem derivativeRows (h : M3 K) (x : K × K) (hw : (refineHx h x).2.2 ≠ 0) :
    DerivativeRows h x ((refineRows x (refineHx h x)).take 9) ((refineRows x (refineHx h x)).drop 9) := by
  refine ⟨rfl, rfl, ?_⟩
  intro d q q' hq hq'
  obtain ⟨-, rfl⟩ := projects_refine_eq hq
  obtain ⟨hw', rfl⟩ := projects_refine_eq hq'
  simp only [refineHx, M3.plus] at hw hw'
  simp only [thirdOf, listDot, M3.toList, M3.plus, refineRows, refineHx, List.take_succ_cons, List.take_zero, List.drop_succ_cons, List.drop_zero,
    List.zipWith_cons_cons, List.zipWith_nil_left, List.sum_cons, List.sum_nil]
  generalize hW : h.e2 * x.1 + h.e5 * x.2 + h.e8 = W at hw ⊢
  generalize hW' : (h.e2 + d.e2) * x.1 + (h.e5 + d.e5) * x.2 + (h.e8 + d.e8) = W' at hw' ⊢
  have hD : d.e2 * x.1 + d.e5 * x.2 + d.e8 = W' - W := by rw [← hW, ← hW']; ring
  constructor
  · field_simp
    linear_combination ((h.e0 * x.1 + h.e3 * x.2 + h.e6)) * hD
  · field_simp
    linear_combination ((h.e1 * x.1 + h.e4 * x.2 + h.e7)) * hD

/-- C105. What is stored for each inlier: its residual, and the derivatives of its image with respect to the nine elements. -/
theorem c105_jacobian (n : Nat) (pm : List (PMatch K)) (h : M3 K) (e0 jt0 : List K) (hn : n ≤ pm.length)
    (he : e0.length = 2 * ((pm.take n).filter PMatch.inlier).length) (hj : jt0.length = 18 * ((pm.take n).filter PMatch.inlier).length)
    {E : K} {e jt : List K} (hr : errJac true n pm h e0 jt0 = .ok (some (E, e, jt))) :
    e.length = 2 * ((pm.take n).filter PMatch.inlier).length ∧ jt.length = 18 * ((pm.take n).filter PMatch.inlier).length ∧
    ∀ (i : Nat) (c : PMatch K), ((pm.take n).filter PMatch.inlier)[i]? = some c →
      (∃ r, Residual h c r ∧ (e.drop (i * 2)).take 2 = [r.1, r.2]) ∧
      DerivativeRows h c.x ((jt.drop (i * 18)).take 9) ((jt.drop (i * 18 + 9)).take 9) := by
  rcases errJac_spec true n pm h e0 jt0 hn (fun _ => he) (fun _ => hj) with ⟨e', -⟩ | ⟨e', jt', heq, hne, hfin, hout⟩
  · rw [e'] at hr
    exact absurd hr (by simp)
  · rw [heq] at hr
    injection hr with hr
    injection hr with hr
    injection hr with h1 h2
    injection h2 with h2 h3
    obtain ⟨g1, g2⟩ := hout rfl
    rw [h2] at g1
    rw [h3] at g2
    change e = (List.map (residRow h) (inlierList n pm)).flatten at g1
    refine ⟨by rw [g1, residRow_length]; rfl, by rw [g2, refineRows_length]; rfl, ?_⟩
    intro i c hc
    have hc' : (inlierList n pm)[i]? = some c := hc
    have hw := hfin c (List.mem_of_getElem? hc')
    have hlen2 : ∀ x ∈ (inlierList n pm).map (residRow h), x.length = 2 := by
      intro x hx
      obtain ⟨c, _, rfl⟩ := List.mem_map.mp hx
      rfl
    have hlen18 : ∀ x ∈ (inlierList n pm).map (fun c => refineRows c.x (refineHx h c.x)), x.length = 18 := by
      intro x hx
      obtain ⟨c, _, rfl⟩ := List.mem_map.mp hx
      rfl
    refine ⟨⟨residPair h c, ⟨_, projects_refine h c.x hw, rfl⟩, ?_⟩, ?_⟩
    · rw [g1, flatten_chunk hlen2 (x := residRow h c) (by rw [List.getElem?_map, hc']; rfl)]
      rfl
    · have hchunk := flatten_chunk hlen18 (x := refineRows c.x (refineHx h c.x)) (by rw [List.getElem?_map, hc']; rfl)
      rw [← g2] at hchunk
      have h9 : (jt.drop (i * 18)).take 9 = (refineRows c.x (refineHx h c.x)).take 9 := by
        rw [← hchunk, List.take_take]
        rfl
      have h9' : (jt.drop (i * 18 + 9)).take 9 = (refineRows c.x (refineHx h c.x)).drop 9 := by
        rw [← hchunk, List.drop_take, List.drop_drop]
      rw [h9, h9']
      exact derivativeRows h c.x hw

end

end Nx
