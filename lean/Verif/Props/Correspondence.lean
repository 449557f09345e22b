import Verif.Spec.Correspondence
import Verif.Props.MatchStats

/-!
# C108: objects of correspondences as values
-/

namespace Nx

section
variable {K : Type} [Field K]

/-- No two objects share their statistics. -/
def AllAlone (w : CorrWorld K) : Prop := ∀ i, Alone w i

theorem corr_readAt {α : Type} {a : List α} {i : Nat} {x : α} : readAt a i = .ok x ↔ a[i]? = some x := by
  unfold readAt
  cases h : a[i]? <;> simp

omit [Field K] in
theorem rep_heap {w : CorrWorld K} {vs : List (CorrVal K)} (h : Represents w vs) {i : Nat} {o : CorrObj K}
    (ho : w.objs[i]? = some o) : o.st < w.heap.length := by
  obtain ⟨hl, h⟩ := h
  have hi : i < vs.length := by
    rw [← hl]
    exact (List.getElem?_eq_some_iff.1 ho).1
  obtain ⟨o', ho', hh, -⟩ := h i _ (List.getElem?_eq_getElem hi)
  rw [ho] at ho'
  obtain rfl := Option.some.inj ho'
  exact (List.getElem?_eq_some_iff.1 hh).1

omit [Field K] in
theorem allAlone_congr {w w' : CorrWorld K} (h : w'.objs.map (·.st) = w.objs.map (·.st)) (ha : AllAlone w) :
    AllAlone w' := by
  intro i j o o' hji ho ho'
  have h1 : (w.objs.map (·.st))[i]? = some o.st := by rw [← h, List.getElem?_map, ho]; rfl
  have h2 : (w.objs.map (·.st))[j]? = some o'.st := by rw [← h, List.getElem?_map, ho']; rfl
  rw [List.getElem?_map] at h1 h2
  obtain ⟨p, hp, hp'⟩ := Option.map_eq_some_iff.1 h1
  obtain ⟨q, hq, hq'⟩ := Option.map_eq_some_iff.1 h2
  rw [← hp', ← hq']
  exact ha i j p q hji hp hq

omit [Field K] in
theorem map_set_st (l : List (CorrObj K)) (i : Nat) (o : CorrObj K) (ms : List (PMatch K)) (ho : l[i]? = some o) :
    (l.set i { o with ms := ms }).map (·.st) = l.map (·.st) := by
  apply List.ext_getElem?
  intro k
  simp only [List.getElem?_map, List.getElem?_set]
  by_cases hk : i = k
  · subst hk
    rw [if_pos rfl, if_pos (List.getElem?_eq_some_iff.1 ho).1, ho]
    rfl
  · rw [if_neg hk]

omit [Field K] in
/-- Changing the matches of one object. -/
theorem withMatches_rep {w : CorrWorld K} {vs : List (CorrVal K)} (h : Represents w vs) {i : Nat} {s : MStats K}
    {ms ms' : List (PMatch K)} (hv : vs[i]? = some (s, ms)) (f : List (PMatch K) → Res (List (PMatch K)))
    (hf : f ms = .ok ms') :
    ∃ w', withMatches w i f = .ok w' ∧ Represents w' (vs.set i (s, ms')) ∧
      w'.objs.map (·.st) = w.objs.map (·.st) := by
  obtain ⟨o, ho, hh, hm⟩ := h.2 i _ hv
  have hi := (List.getElem?_eq_some_iff.1 ho).1
  refine ⟨{ w with objs := w.objs.set i { o with ms := ms' } }, ?_, ⟨?_, ?_⟩, map_set_st _ _ _ _ ho⟩
  · rw [withMatches, corr_readAt.2 ho, Res.ok_bind, hm, hf, Res.ok_bind, writeAt_ok _ hi]
    rfl
  · simp [h.1]
  · intro j v hj
    rw [List.getElem?_set] at hj
    by_cases hij : i = j
    · subst hij
      rw [if_pos rfl] at hj
      split at hj
      · obtain rfl := Option.some.inj hj
        exact ⟨{ o with ms := ms' }, by rw [List.getElem?_set_self hi], hh, rfl⟩
      · cases hj
    · rw [if_neg hij] at hj
      obtain ⟨o', h1, h2, h3⟩ := h.2 j v hj
      exact ⟨o', by rw [List.getElem?_set_ne hij]; exact h1, h2, h3⟩

omit [Field K] in
/-- Changing the statistics and the matches of an object that shares nothing. -/
theorem withBoth_rep {w : CorrWorld K} {vs : List (CorrVal K)} (h : Represents w vs) {i : Nat} (ha : Alone w i)
    {v : CorrVal K} (hv : vs[i]? = some v) (s' : MStats K) (ms' : List (PMatch K)) :
    ∃ w', withBoth w i s' ms' = .ok w' ∧ Represents w' (vs.set i (s', ms')) ∧
      w'.objs.map (·.st) = w.objs.map (·.st) := by
  obtain ⟨o, ho, hh, hm⟩ := h.2 i _ hv
  have hi := (List.getElem?_eq_some_iff.1 ho).1
  have hs := (List.getElem?_eq_some_iff.1 hh).1
  refine ⟨⟨w.heap.set o.st s', w.objs.set i { o with ms := ms' }⟩, ?_, ⟨?_, ?_⟩, map_set_st _ _ _ _ ho⟩
  · rw [withBoth, corr_readAt.2 ho, Res.ok_bind, writeAt_ok _ hs, Res.ok_bind, writeAt_ok _ hi]
    rfl
  · simp [h.1]
  · intro j v hj
    rw [List.getElem?_set] at hj
    by_cases hij : i = j
    · subst hij
      rw [if_pos rfl] at hj
      split at hj
      · obtain rfl := Option.some.inj hj
        exact ⟨{ o with ms := ms' }, by rw [List.getElem?_set_self hi], List.getElem?_set_self hs, rfl⟩
      · cases hj
    · rw [if_neg hij] at hj
      obtain ⟨o', h1, h2, h3⟩ := h.2 j v hj
      refine ⟨o', by rw [List.getElem?_set_ne hij]; exact h1, ?_, h3⟩
      rw [List.getElem?_set_ne (ha j o o' (Ne.symm hij) ho h1)]
      exact h2

omit [Field K] in
theorem rep_append {w : CorrWorld K} {vs : List (CorrVal K)} (h : Represents w vs) (hs : List (MStats K))
    (o : CorrObj K) (v : CorrVal K) (h1 : (w.heap ++ hs)[o.st]? = some v.1) (h2 : o.ms = v.2) :
    Represents ⟨w.heap ++ hs, w.objs ++ [o]⟩ (vs ++ [v]) := by
  refine ⟨by simp [h.1], ?_⟩
  intro j u hj
  rcases Nat.lt_or_ge j vs.length with hlt | hge
  · rw [List.getElem?_append_left hlt] at hj
    obtain ⟨o', q1, q2, q3⟩ := h.2 j u hj
    refine ⟨o', ?_, ?_, q3⟩
    · rw [List.getElem?_append_left (by rw [h.1]; exact hlt)]
      exact q1
    · rw [List.getElem?_append_left (List.getElem?_eq_some_iff.1 q2).1]
      exact q2
  · rw [List.getElem?_append_right hge] at hj
    have hj0 : j - vs.length = 0 := by
      have := (List.getElem?_eq_some_iff.1 hj).1
      simp at this
      omega
    rw [hj0] at hj
    obtain rfl := Option.some.inj hj
    refine ⟨o, ?_, h1, h2⟩
    rw [List.getElem?_append_right (by rw [h.1]; exact hge), h.1, hj0]
    rfl

omit [Field K] in
theorem allAlone_append {w : CorrWorld K} {vs : List (CorrVal K)} (h : Represents w vs) (ha : AllAlone w)
    (hp : List (MStats K)) (o : CorrObj K) (ho : w.heap.length ≤ o.st) : AllAlone ⟨hp, w.objs ++ [o]⟩ := by
  intro i j p q hji hi hj
  simp only at hi hj
  rw [List.getElem?_append] at hi hj
  have key : ∀ (k : Nat) (r : CorrObj K), ([o] : List (CorrObj K))[k - w.objs.length]? = some r →
      ¬ k < w.objs.length → k = w.objs.length ∧ r = o := by
    intro k r hk hlt
    have := (List.getElem?_eq_some_iff.1 hk).1
    simp at this
    have h0 : k - w.objs.length = 0 := by omega
    rw [h0] at hk
    exact ⟨by omega, (Option.some.inj hk).symm⟩
  split at hi <;> split at hj
  · exact ha i j p q hji hi hj
  · rename_i hn
    obtain ⟨-, rfl⟩ := key j q hj hn
    have := rep_heap h hi
    omega
  · rename_i hn _
    obtain ⟨-, rfl⟩ := key i p hi hn
    have := rep_heap h hj
    omega
  · rename_i hn hn'
    have := (key i p hi hn).1
    have := (key j q hj hn').1
    omega

omit [Field K] in
theorem pushAll_eq (ms acc : List (PMatch K)) : pushAll ms acc = acc ++ ms := by
  induction ms generalizing acc with
  | nil => simp [pushAll]
  | cons m ms ih => simp [pushAll, ih]

/-- A clone is a new object with statistics of its own. -/
theorem cloneCorr_rep {w : CorrWorld K} {vs : List (CorrVal K)} (h : Represents w vs) {i : Nat} {v : CorrVal K}
    (hv : vs[i]? = some v) :
    cloneCorr w i = .ok ⟨w.heap ++ [v.1], w.objs ++ [⟨w.heap.length, v.2⟩]⟩ := by
  obtain ⟨o, ho, hh, hm⟩ := h.2 i _ hv
  have hs := (List.getElem?_eq_some_iff.1 hh).1
  have e1 : readAt (w.objs ++ [(⟨w.heap.length, []⟩ : CorrObj K)]) w.objs.length = .ok ⟨w.heap.length, []⟩ := by
    rw [corr_readAt]
    simp
  have e2 : readAt (w.heap ++ [(statsReset : MStats K)]) o.st = .ok v.1 := by
    rw [corr_readAt, List.getElem?_append_left hs]
    exact hh
  rw [cloneCorr, corr_readAt.2 ho, Res.ok_bind]
  simp only [newCorr]
  rw [e1, Res.ok_bind, writeAt_ok _ (by simp), Res.ok_bind, e2, Res.ok_bind, writeAt_ok _ (by simp), Res.ok_bind,
    Res.pure_eq, pushAll_eq, hm]
  simp

variable [DecidableEq K] (sqrt : K → K) (sorter : List (PMatch K) → List (PMatch K))

omit [DecidableEq K] in
theorem denormalizeMatches_all (s : MStats K) (ms : List (PMatch K)) :
    denormalizeMatches s (ms.length : Int) ms = .ok (ms.map (unscaleMatch s)) := by
  rw [denormalizeMatches, Int.toNat_natCast, mapLoop_ok _ _ _ le_rfl]
  simp

/-- Every step on values is made by the program, unless it writes statistics that are shared; the other objects keep
their values. -/
theorem c108_step {w : CorrWorld K} {vs vs' : List (CorrVal K)} (h : Represents w vs) (op : CorrOp K)
    (ha : ∀ i, op.writesStats = some i → Alone w i) (hs : ValStep sqrt sorter op vs vs') :
    ∃ w', corrStep sqrt sorter w op = .ok (some w') ∧ Represents w' vs' ∧
      (op.isCopy = false → AllAlone w → AllAlone w') := by
  cases hs with
  | new =>
    refine ⟨_, rfl, ?_, fun _ hal => ?_⟩
    · exact rep_append h _ _ _ (by simp) rfl
    · exact allAlone_append h hal _ _ le_rfl
  | clone i _ v hv =>
    refine ⟨_, by rw [corrStep, cloneCorr_rep h hv]; rfl, ?_, fun _ hal => ?_⟩
    · exact rep_append h _ _ _ (by simp) rfl
    · exact allAlone_append h hal _ _ le_rfl
  | copy i _ v hv =>
    obtain ⟨o, ho, hh, hm⟩ := h.2 i _ hv
    refine ⟨{ w with objs := w.objs ++ [o] }, ?_, ?_, fun hc => ?_⟩
    · rw [corrStep, copyCorr, corr_readAt.2 ho]
      rfl
    · have := rep_append h [] o v (by simpa using hh) hm
      simpa using this
    · simp [CorrOp.isCopy] at hc
  | change _ i _ v v' hop hv hc =>
    cases hc with
    | add j m s ms =>
      simp only [CorrOp.changes, Option.some.injEq] at hop
      subst hop
      obtain ⟨w', e, r, hst⟩ := withMatches_rep h hv (fun ms => .ok (addMatch ms m).1) rfl
      exact ⟨w', by rw [corrStep, e]; rfl, r, fun _ => allAlone_congr hst⟩
    | mark j k b s ms m hk =>
      simp only [CorrOp.changes, Option.some.injEq] at hop
      subst hop
      obtain ⟨w', e, r, hst⟩ := withMatches_rep h hv (fun ms => setInlier ms k b)
        (ms' := ms.set k { m with inlier := b }) (by
          simp only [setInlier]
          rw [corr_readAt.2 hk, Res.ok_bind, writeAt_ok _ (List.getElem?_eq_some_iff.1 hk).1])
      exact ⟨w', by rw [corrStep, e]; rfl, r, fun _ => allAlone_congr hst⟩
    | sort j s ms =>
      simp only [CorrOp.changes, Option.some.injEq] at hop
      subst hop
      obtain ⟨w', e, r, hst⟩ := withMatches_rep h hv (fun ms => .ok (sorter ms)) rfl
      exact ⟨w', by rw [corrStep, e]; rfl, r, fun _ => allAlone_congr hst⟩
    | clear j v =>
      simp only [CorrOp.changes, Option.some.injEq] at hop
      subst hop
      obtain ⟨w', e, r, hst⟩ := withBoth_rep h (ha _ rfl) hv statsReset []
      exact ⟨w', by rw [corrStep, clearCorr, e]; rfl, r, fun _ => allAlone_congr hst⟩
    | normalize j s ms s' ms' hn =>
      simp only [CorrOp.changes, Option.some.injEq] at hop
      subst hop
      obtain ⟨w', e, r, hst⟩ := withBoth_rep h (ha _ rfl) hv s' ms'
      obtain ⟨o, ho, hh, hm⟩ := h.2 _ _ hv
      refine ⟨w', ?_, r, fun _ => allAlone_congr hst⟩
      rw [corrStep, normalizeCorr, corr_readAt.2 ho, Res.ok_bind, hm, hn, Res.ok_bind, storeNorm, e]
      rfl
    | denormalize j s ms =>
      simp only [CorrOp.changes, Option.some.injEq] at hop
      subst hop
      obtain ⟨w', e, r, hst⟩ := withBoth_rep h (ha _ rfl) hv statsReset (ms.map (unscaleMatch s))
      obtain ⟨o, ho, hh, hm⟩ := h.2 _ _ hv
      refine ⟨w', ?_, r, fun _ => allAlone_congr hst⟩
      rw [corrStep, denormalizeCorr, corr_readAt.2 ho, Res.ok_bind, corr_readAt.2 hh, Res.ok_bind, hm,
        denormalizeMatches_all, Res.ok_bind, e]
      rfl

/-- Every step of the program is a step on values. -/
theorem corrStep_val {w w' : CorrWorld K} {vs : List (CorrVal K)} (h : Represents w vs) (op : CorrOp K)
    (hs : corrStep sqrt sorter w op = .ok (some w')) : ∃ vs', ValStep sqrt sorter op vs vs' := by
  have get : ∀ (i : Nat) (o : CorrObj K), readAt w.objs i = .ok o → ∃ s, vs[i]? = some (s, o.ms) := by
    intro i o ho
    rw [corr_readAt] at ho
    have hi : i < vs.length := by
      rw [← h.1]
      exact (List.getElem?_eq_some_iff.1 ho).1
    obtain ⟨o', ho', -, hm⟩ := h.2 i _ (List.getElem?_eq_getElem hi)
    rw [ho] at ho'
    obtain rfl := Option.some.inj ho'
    exact ⟨vs[i].1, by rw [List.getElem?_eq_getElem hi, hm]⟩
  have some_map : ∀ {r : Res (CorrWorld K)} {u : Option (CorrWorld K)}, some <$> r = .ok u → ∃ x, r = .ok x := by
    intro r u hr
    cases r with
    | ok x => exact ⟨x, rfl⟩
    | fatal => cases hr
    | ub => cases hr
  have both : ∀ (i : Nat) (s : MStats K) (ms : List (PMatch K)) (x : CorrWorld K), withBoth w i s ms = .ok x →
      ∃ o, readAt w.objs i = .ok o := by
    intro i s ms x hx
    obtain ⟨o, ho, -⟩ := Res.bind_eq_ok.1 hx
    exact ⟨o, ho⟩
  cases op with
  | new => exact ⟨_, .new _⟩
  | clone i =>
    obtain ⟨x, hx⟩ := some_map hs
    obtain ⟨o, ho, -⟩ := Res.bind_eq_ok.1 hx
    obtain ⟨s, hv⟩ := get i o ho
    exact ⟨_, .clone _ _ _ hv⟩
  | copy i =>
    obtain ⟨x, hx⟩ := some_map hs
    obtain ⟨o, ho, -⟩ := Res.bind_eq_ok.1 hx
    obtain ⟨s, hv⟩ := get i o ho
    exact ⟨_, .copy _ _ _ hv⟩
  | add i m =>
    obtain ⟨x, hx⟩ := some_map hs
    obtain ⟨o, ho, -⟩ := Res.bind_eq_ok.1 hx
    obtain ⟨s, hv⟩ := get i o ho
    exact ⟨_, .change _ _ _ _ _ rfl hv (.add _ _ _ _)⟩
  | mark i k b =>
    obtain ⟨x, hx⟩ := some_map hs
    obtain ⟨o, ho, hx⟩ := Res.bind_eq_ok.1 hx
    obtain ⟨ms', hms, -⟩ := Res.bind_eq_ok.1 hx
    obtain ⟨m, hm, -⟩ := Res.bind_eq_ok.1 hms
    obtain ⟨s, hv⟩ := get i o ho
    exact ⟨_, .change _ _ _ _ _ rfl hv (.mark _ _ _ _ _ m (corr_readAt.1 hm))⟩
  | sort i =>
    obtain ⟨x, hx⟩ := some_map hs
    obtain ⟨o, ho, -⟩ := Res.bind_eq_ok.1 hx
    obtain ⟨s, hv⟩ := get i o ho
    exact ⟨_, .change _ _ _ _ _ rfl hv (.sort _ _ _)⟩
  | clear i =>
    obtain ⟨x, hx⟩ := some_map hs
    obtain ⟨o, ho⟩ := both _ _ _ _ hx
    obtain ⟨s, hv⟩ := get i o ho
    exact ⟨_, .change _ _ _ _ _ rfl hv (.clear _ _)⟩
  | normalize i =>
    obtain ⟨o, ho, hx⟩ := Res.bind_eq_ok.1 hs
    obtain ⟨r, hr, hx⟩ := Res.bind_eq_ok.1 hx
    obtain ⟨s, hv⟩ := get i o ho
    cases r with
    | none => cases hx
    | some r => exact ⟨_, .change _ _ _ _ _ rfl hv (.normalize _ _ _ r.1 r.2 hr)⟩
  | denormalize i =>
    obtain ⟨x, hx⟩ := some_map hs
    obtain ⟨o, ho, -⟩ := Res.bind_eq_ok.1 hx
    obtain ⟨s, hv⟩ := get i o ho
    exact ⟨_, .change _ _ _ _ _ rfl hv (.denormalize _ _ _)⟩

/-- A program without copies works on values: whenever it comes to its end, so does the program on values, with the
values that the objects then have. -/
theorem c108_values_partial (ops : List (CorrOp K)) (hc : ∀ op ∈ ops, op.isCopy = false) {w w' : CorrWorld K}
    {vs : List (CorrVal K)} (h : Represents w vs) (ha : AllAlone w)
    (hr : corrRun sqrt sorter ops w = .ok (some w')) :
    ∃ vs', ValRun sqrt sorter ops vs vs' ∧ Represents w' vs' ∧ AllAlone w' := by
  induction ops generalizing w vs with
  | nil =>
    obtain rfl : w = w' := by simpa [corrRun] using hr
    exact ⟨vs, .nil _, h, ha⟩
  | cons op ops ih =>
    rw [corrRun] at hr
    split at hr
    · rename_i w1 e
      obtain ⟨vs1, hv⟩ := corrStep_val sqrt sorter h op e
      obtain ⟨w2, e2, r2, a2⟩ := c108_step sqrt sorter h op (fun i _ => ha i) hv
      rw [e] at e2
      obtain rfl : w1 = w2 := by simpa using e2
      obtain ⟨vs', t, r, a⟩ := ih (fun o ho => hc o (by simp [ho])) r2 (a2 (hc op (by simp)) ha) hr
      exact ⟨vs', .cons _ _ _ _ _ hv t, r, a⟩
    · rename_i hne
      exact absurd hr (hne w')

/-- And the other way round. -/
theorem c108_complete (ops : List (CorrOp K)) (hc : ∀ op ∈ ops, op.isCopy = false) {w : CorrWorld K}
    {vs vs' : List (CorrVal K)} (h : Represents w vs) (ha : AllAlone w) (hr : ValRun sqrt sorter ops vs vs') :
    ∃ w', corrRun sqrt sorter ops w = .ok (some w') ∧ Represents w' vs' := by
  induction hr generalizing w with
  | nil vs => exact ⟨w, rfl, h⟩
  | cons op ops vs vs1 vs2 hs t ih =>
    obtain ⟨w1, e1, r1, a1⟩ := c108_step sqrt sorter h op (fun i _ => ha i) hs
    obtain ⟨w2, e2, r2⟩ := ih (fun o ho => hc o (by simp [ho])) r1 (a1 (hc op (by simp)) ha)
    exact ⟨w2, by rw [corrRun, e1]; exact e2, r2⟩

/-- Steps on values leave the objects alone that they do not name. -/
theorem valRun_other (ops : List (CorrOp K)) {vs vs' : List (CorrVal K)} (h : ValRun sqrt sorter ops vs vs') (i : Nat)
    (hi : ∀ op ∈ ops, op.changes ≠ some i) (v : CorrVal K) (hv : vs[i]? = some v) : vs'[i]? = some v := by
  induction h with
  | nil => exact hv
  | cons op ops vs vs1 vs2 hs t ih =>
    apply ih (fun o ho => hi o (by simp [ho]))
    have hlt := (List.getElem?_eq_some_iff.1 hv).1
    cases hs with
    | new => rw [List.getElem?_append_left hlt]; exact hv
    | clone => rw [List.getElem?_append_left hlt]; exact hv
    | copy => rw [List.getElem?_append_left hlt]; exact hv
    | change _ j _ u u' hop hu hc =>
      have hne : j ≠ i := by
        rintro rfl
        exact hi op (by simp) hop
      rw [List.getElem?_set_ne hne]
      exact hv

theorem valRun_append (ops ops' : List (CorrOp K)) {vs vs' : List (CorrVal K)}
    (h : ValRun sqrt sorter (ops ++ ops') vs vs') :
    ∃ vs1, ValRun sqrt sorter ops vs vs1 ∧ ValRun sqrt sorter ops' vs1 vs' := by
  induction ops generalizing vs with
  | nil => exact ⟨vs, .nil _, h⟩
  | cons op ops ih =>
    cases h with
    | cons _ _ _ v1 _ hs t =>
      obtain ⟨u, h1, h2⟩ := ih t
      exact ⟨u, .cons _ _ _ _ _ hs h1, h2⟩

theorem valStep_normalize {vs vs' : List (CorrVal K)} {i : Nat} {s : MStats K} {ms : List (PMatch K)}
    (hv : vs[i]? = some (s, ms)) (h : ValStep sqrt sorter (.normalize i) vs vs') :
    ∃ s' ms', normalizeMatches sqrt ms.length ms = .ok (some (s', ms')) ∧ vs'[i]? = some (s', ms') := by
  cases h with
  | change _ j _ u u' hop hu hc =>
    simp only [CorrOp.changes, Option.some.injEq] at hop
    subst hop
    rw [hv] at hu
    obtain rfl := Option.some.inj hu
    cases hc with
    | normalize _ _ _ s' ms' hn =>
      exact ⟨s', ms', hn, List.getElem?_set_self (List.getElem?_eq_some_iff.1 hv).1⟩

theorem valStep_denormalize {vs vs' : List (CorrVal K)} {i : Nat} {s : MStats K} {ms : List (PMatch K)}
    (hv : vs[i]? = some (s, ms)) (h : ValStep sqrt sorter (.denormalize i) vs vs') :
    vs'[i]? = some (statsReset, ms.map (unscaleMatch s)) := by
  cases h with
  | change _ j _ u u' hop hu hc =>
    simp only [CorrOp.changes, Option.some.injEq] at hop
    subst hop
    rw [hv] at hu
    obtain rfl := Option.some.inj hu
    cases hc with
    | denormalize => exact List.getElem?_set_self (List.getElem?_eq_some_iff.1 hv).1

theorem valStep_sort {vs vs' : List (CorrVal K)} {i : Nat} {s : MStats K} {ms : List (PMatch K)}
    (hv : vs[i]? = some (s, ms)) (h : ValStep sqrt sorter (.sort i) vs vs') :
    vs'[i]? = some (s, sorter ms) := by
  cases h with
  | change _ j _ u u' hop hu hc =>
    simp only [CorrOp.changes, Option.some.injEq] at hop
    subst hop
    rw [hv] at hu
    obtain rfl := Option.some.inj hu
    cases hc with
    | sort => exact List.getElem?_set_self (List.getElem?_eq_some_iff.1 hv).1

/-- Undoing a normalisation of all matches. -/
theorem unscale_all {s : MStats K} {ms ms' : List (PMatch K)} (hne : ms ≠ [])
    (h : normalizeMatches sqrt ms.length ms = .ok (some (s, ms'))) : ms'.map (unscaleMatch s) = ms := by
  obtain ⟨-, -, hl, -, hd⟩ := c65_round_trip sqrt ms.length (List.length_pos_of_ne_nil hne) ms ms' le_rfl s h
  rw [← hl, denormalizeMatches_all] at hd
  exact Res.ok.inj hd

/-- An object is normalised, the program does whatever it likes with other objects, clones of this one included, and
the object is denormalised: it has the matches that it had. -/
theorem c108_round_trip (ops : List (CorrOp K)) (hc : ∀ op ∈ ops, op.isCopy = false) (i : Nat)
    (hi : ∀ op ∈ ops, op.changes ≠ some i) {w w' : CorrWorld K} {vs : List (CorrVal K)} (h : Represents w vs)
    (ha : AllAlone w) {s : MStats K} {ms : List (PMatch K)} (hv : vs[i]? = some (s, ms)) (hne : ms ≠ [])
    (hr : corrRun sqrt sorter (.normalize i :: (ops ++ [.denormalize i])) w = .ok (some w')) :
    ∃ o, w'.objs[i]? = some o ∧ o.ms = ms ∧ w'.heap[o.st]? = some statsReset := by
  obtain ⟨vs', t, r, -⟩ := c108_values_partial sqrt sorter _ (by
    intro op hop
    simp only [List.mem_cons, List.mem_append, List.not_mem_nil, or_false] at hop
    rcases hop with rfl | hop | rfl
    · rfl
    · exact hc op hop
    · rfl) h ha hr
  cases t with
  | cons _ _ _ v1 _ hs t =>
    obtain ⟨s', ms', hn, h1⟩ := valStep_normalize sqrt sorter hv hs
    obtain ⟨v2, t2, t3⟩ := valRun_append sqrt sorter ops _ t
    have h2 := valRun_other sqrt sorter ops t2 i hi _ h1
    cases t3 with
    | cons _ _ _ v3 _ hs3 t4 =>
      cases t4
      have h3 := valStep_denormalize sqrt sorter h2 hs3
      obtain ⟨o, q1, q2, q3⟩ := r.2 i _ h3
      exact ⟨o, q1, by rw [q3, unscale_all sqrt hne hn], q2⟩

/-- The same with the matches sorted in between: the matches are those that it had, in the order of their costs. -/
theorem c108_sorted [LinearOrder K] (hso : SortsByCost sorter) (i : Nat) {w w' : CorrWorld K}
    {vs : List (CorrVal K)} (h : Represents w vs) (ha : AllAlone w) {s : MStats K} {ms : List (PMatch K)}
    (hv : vs[i]? = some (s, ms)) (hne : ms ≠ [])
    (hr : corrRun sqrt sorter [.normalize i, .sort i, .denormalize i] w = .ok (some w')) :
    ∃ o, w'.objs[i]? = some o ∧ o.ms.Perm ms ∧ o.ms.Pairwise fun a b => a.cost ≤ b.cost := by
  obtain ⟨vs', t, r, -⟩ := c108_values_partial sqrt sorter _ (by
    intro op hop
    simp only [List.mem_cons, List.not_mem_nil, or_false] at hop
    rcases hop with rfl | rfl | rfl <;> rfl) h ha hr
  cases t with
  | cons _ _ _ v1 _ hs t =>
    obtain ⟨s', ms', hn, h1⟩ := valStep_normalize sqrt sorter hv hs
    cases t with
    | cons _ _ _ v2 _ hs2 t =>
      have h2 := valStep_sort sqrt sorter h1 hs2
      cases t with
      | cons _ _ _ v3 _ hs3 t =>
        cases t
        have h3 := valStep_denormalize sqrt sorter h2 hs3
        obtain ⟨o, q1, -, q3⟩ := r.2 i _ h3
        refine ⟨o, q1, ?_, ?_⟩
        · rw [q3]
          have := (hso ms').1.map (unscaleMatch s')
          rwa [unscale_all sqrt hne hn] at this
        · rw [q3, List.pairwise_map]
          exact (hso ms').2

/-- Normalising twice loses the statistics of the first time: denormalising afterwards goes back to the matches as the
first normalisation left them, never to the matches of the beginning. -/
theorem c108_twice (i : Nat) {w w1 w' : CorrWorld K} {vs : List (CorrVal K)} (h : Represents w vs)
    (ha : AllAlone w) {s : MStats K} {ms : List (PMatch K)} (hv : vs[i]? = some (s, ms)) (hne : ms ≠ [])
    (h1 : corrRun sqrt sorter [.normalize i] w = .ok (some w1))
    (hr : corrRun sqrt sorter [.normalize i, .denormalize i] w1 = .ok (some w')) :
    ∃ o o1, w'.objs[i]? = some o ∧ w1.objs[i]? = some o1 ∧ o.ms = o1.ms ∧ w'.heap[o.st]? = some statsReset := by
  obtain ⟨vs1, t, r1, a1⟩ := c108_values_partial sqrt sorter [.normalize i] (by simp [CorrOp.isCopy]) h ha h1
  cases t with
  | cons _ _ _ v1 _ hs t =>
    cases t
    obtain ⟨s', ms', hn, hv1⟩ := valStep_normalize sqrt sorter hv hs
    have hl := (c65_round_trip sqrt ms.length (List.length_pos_of_ne_nil hne) ms ms' le_rfl s' hn).2.2.1
    have hne' : ms' ≠ [] := by
      rintro rfl
      exact hne (List.length_eq_zero_iff.1 hl.symm)
    obtain ⟨o, q1, q2, q3⟩ := c108_round_trip sqrt sorter [] (by simp) i (by simp) r1 a1 hv1 hne' hr
    obtain ⟨o1, p1, -, p3⟩ := r1.2 i _ hv1
    exact ⟨o, o1, q1, p1, by rw [q2, p3], q3⟩

omit [Field K] [DecidableEq K] in
/-- The result of `add_match` is the number of matches: the new match is the one before this index, at which there is
none. -/
theorem c108_add (ms : List (PMatch K)) (m : PMatch K) :
    (addMatch ms m).2 = (ms.length : Int) + 1 ∧ (addMatch ms m).1[((addMatch ms m).2 - 1).toNat]? = some m ∧
      (addMatch ms m).1[(addMatch ms m).2.toNat]? = none := by
  refine ⟨by simp [addMatch], ?_, ?_⟩
  · simp [addMatch]
  · simp [addMatch]

end

/-- A square root that is right for the arguments of the examples. -/
def sqrtEx (q : Rat) : Rat := if q = 4 then 2 else if q = 9 then 3 else q

/-- Two matches at distance four. -/
def corrEx : List (PMatch Rat) :=
  [⟨(0, 0), (0, 0), 2, 1, 1, 0, 0, false⟩, ⟨(4, 0), (0, 6), 1, 1, 1, 1, 1, true⟩]

/-- One object with these matches. -/
def worldEx : CorrWorld Rat := ⟨[statsReset], [⟨0, corrEx⟩]⟩

example : Represents worldEx [(statsReset, corrEx)] ∧ AllAlone worldEx := by
  refine ⟨⟨rfl, ?_⟩, ?_⟩
  · intro i v hv
    have : i = 0 := by
      have := (List.getElem?_eq_some_iff.1 hv).1
      simpa using this
    subst this
    obtain rfl := Option.some.inj hv
    exact ⟨_, rfl, rfl, rfl⟩
  · intro i j o o' hij hi hj
    have h1 := (List.getElem?_eq_some_iff.1 hi).1
    have h2 := (List.getElem?_eq_some_iff.1 hj).1
    simp [worldEx] at h1 h2
    omega

/-- The program of `c108_round_trip` with a clone that is normalised and denormalised itself. -/
example : corrRun sqrtEx id [.normalize 0, .clone 0, .denormalize 1, .normalize 1, .denormalize 0] worldEx =
    .ok (some ⟨[statsReset, ⟨(2, 0), (0, 3), 2, 3⟩],
      [⟨0, corrEx⟩, ⟨1, [⟨(-1, 0), (0, -1), 2, 1/2, 1/3, 0, 0, false⟩, ⟨(1, 0), (0, 1), 1, 1/2, 1/3, 1, 1, true⟩]⟩]⟩) := by
  decide +kernel

/-- The program of `c108_sorted`. -/
example : corrRun sqrtEx List.reverse [.normalize 0, .sort 0, .denormalize 0] worldEx =
    .ok (some ⟨[statsReset], [⟨0, corrEx.reverse⟩]⟩) := by
  decide +kernel

/-- The program of `c108_twice`: the matches are not those of the beginning. -/
theorem c108_twice_lost : ∃ o, corrRun sqrtEx id [.normalize 0, .normalize 0, .denormalize 0] worldEx =
    .ok (some ⟨[statsReset], [o]⟩) ∧ o.ms ≠ corrEx := by
  refine ⟨⟨0, [⟨(-1, 0), (0, -1), 2, 1/2, 1/3, 0, 0, false⟩, ⟨(1, 0), (0, 1), 1, 1/2, 1/3, 1, 1, true⟩]⟩, ?_, ?_⟩
  · decide +kernel
  · decide +kernel

/-- With a copy objects are not values: the copy was never normalised, and denormalising it moves its points; the
object itself can no longer be denormalised. -/
theorem c108_copy : ∃ w', corrRun sqrtEx id [.copy 0, .normalize 0, .denormalize 1, .denormalize 0] worldEx =
      .ok (some w') ∧
    (∃ o, w'.objs[1]? = some o ∧ o.ms ≠ corrEx) ∧ (∃ o, w'.objs[0]? = some o ∧ o.ms ≠ corrEx) := by
  refine ⟨⟨[statsReset], [
    ⟨0, [⟨(-1, 0), (0, -1), 2, 1/2, 1/3, 0, 0, false⟩, ⟨(1, 0), (0, 1), 1, 1/2, 1/3, 1, 1, true⟩]⟩,
    ⟨0, [⟨(2, 0), (0, 3), 2, 2, 3, 0, 0, false⟩, ⟨(10, 0), (0, 21), 1, 2, 3, 1, 1, true⟩]⟩]⟩, ?_, ⟨_, rfl, ?_⟩, ⟨_, rfl, ?_⟩⟩
  · decide +kernel
  · decide +kernel
  · decide +kernel

/-- The claim about programs with copies is therefore false. -/
theorem c108_values_false : ¬ ∀ (ops : List (CorrOp Rat)) (w w' : CorrWorld Rat) (vs : List (CorrVal Rat)),
    Represents w vs → AllAlone w → corrRun sqrtEx id ops w = .ok (some w') →
      ∃ vs', ValRun sqrtEx id ops vs vs' ∧ Represents w' vs' := by
  intro hall
  obtain ⟨w', e, ⟨o, ho, hne⟩, -⟩ := c108_copy
  have hrep : Represents worldEx [(statsReset, corrEx)] := by
    refine ⟨rfl, ?_⟩
    intro i v hv
    have : i = 0 := by
      have := (List.getElem?_eq_some_iff.1 hv).1
      simpa using this
    subst this
    obtain rfl := Option.some.inj hv
    exact ⟨_, rfl, rfl, rfl⟩
  have hal : AllAlone worldEx := by
    intro i j o o' hij hi hj
    have h1 := (List.getElem?_eq_some_iff.1 hi).1
    have h2 := (List.getElem?_eq_some_iff.1 hj).1
    simp [worldEx] at h1 h2
    omega
  obtain ⟨vs', t, r⟩ := hall _ _ _ _ hrep hal e
  cases t with
  | cons _ _ _ v1 _ hs t =>
    have hv1 : v1[1]? = some (statsReset, corrEx) := by
      cases hs with
      | copy i _ v hv =>
        obtain rfl := Option.some.inj hv
        rfl
      | change _ j _ u u' hop hu hc => cases hop
    cases t with
    | cons _ _ _ v2 _ hs2 t =>
      have hv2 := valRun_other sqrtEx id [.normalize 0] (.cons _ _ _ _ _ hs2 (.nil _)) 1
        (by simp [CorrOp.changes]) _ hv1
      cases t with
      | cons _ _ _ v3 _ hs3 t =>
        have hv3 := valStep_denormalize sqrtEx id hv2 hs3
        have hv4 := valRun_other sqrtEx id _ t 1 (by simp [CorrOp.changes]) _ hv3
        obtain ⟨o', q1, -, q3⟩ := r.2 1 _ hv4
        rw [ho] at q1
        obtain rfl := Option.some.inj q1
        apply hne
        rw [q3]
        have : corrEx.map (unscaleMatch statsReset) = corrEx.map id :=
          List.map_congr_left fun c _ => (c65_reset (K := Rat) ⟨0, 0, 0, 0, 0, 0, 0, 0, 0⟩ c).2.2
        rw [this, List.map_id]

example : (addMatch corrEx ⟨(1, 1), (1, 1), 0, 1, 1, 2, 2, false⟩).2 = 3 := by decide +kernel

end Nx
