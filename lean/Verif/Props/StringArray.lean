import Verif.Lemmas.StringArray
import Verif.Spec.StringArray

/-!
# C05, C06, C07: string arrays
-/

namespace Nx

/-- One call on the modelled array. -/
def saStep (h : Heap) (a : SArr) : SaOp → Res (Heap × SArr × SaObs)
  | .append s => do
    let (h, a, n) ← saAppend h a (match s with | none => .null | some t => .ext t)
    pure (h, a, .idx n)
  | .appendf s => do
    let (h, a, n) ← saAppendf h a [.ext s]
    pure (h, a, .idx n)
  | .appendElem j => do
    let p ← saGet a j
    let (h, a, n) ← saAppend h a (Src.ofSlot p)
    pure (h, a, .idx n)
  | .resize n => do
    let (h, a) ← saResize h a n
    pure (h, a, .unit)
  | .set i s => do
    let (h, a) ← saSet h a i (match s with | none => .null | some t => .ext t)
    pure (h, a, .unit)
  | .setf i s => do
    let (h, a) ← saSetf h a i [.ext s]
    pure (h, a, .unit)
  | .setElem i j => do
    let p ← saGet a j
    let (h, a) ← saSet h a i (Src.ofSlot p)
    pure (h, a, .unit)
  | .get i => do
    let p ← saGet a i
    let s ← (Src.ofSlot p).read h
    pure (h, a, .str s)
  | .size => .ok (h, a, .idx a.size)

/-- A history of calls on the modelled array. -/
def saRun (h : Heap) (a : SArr) : List SaOp → Res (Heap × SArr × List SaObs)
  | [] => .ok (h, a, [])
  | op :: ops => do
    let (h, a, o) ← saStep h a op
    let (h, a, os) ← saRun h a ops
    pure (h, a, o :: os)

/-- No element is assigned to itself (see C07 for that case). -/
def NoSelfSet : SaOp → Prop
  | .setElem i j => i ≠ j
  | _ => True

/-- The size a call asks for explicitly. -/
def SaOp.req : SaOp → Nat
  | .resize n => n.toNat
  | _ => 0

private theorem saGet_repr {h a l ptrs} (r : SaRepr h a l ptrs) (j : Int) :
    (∃ p v, saGet a j = .ok p ∧ listGet l j = .ok v ∧ Denotes h p v ∧ 0 ≤ j ∧ j.toNat < l.length ∧
      ptrs[j.toNat]? = some p) ∨
    (saGet a j = .fatal ∧ listGet l j = .fatal) := by
  have hsz := r.sz
  by_cases hj : 0 ≤ j ∧ j < a.size
  · left
    obtain ⟨p, v, h1, h2, h3, h4⟩ := r.get (by omega : j.toNat < l.length)
    refine ⟨p, v, ?_, ?_, h3, hj.1, by omega, h1⟩
    · rw [saGet, if_pos hj, h4]
    · rw [listGet, if_pos hj.1, h2]
  · right
    refine ⟨by rw [saGet, if_neg hj], ?_⟩
    rw [listGet]
    by_cases h0 : 0 ≤ j
    · rw [if_pos h0, List.getElem?_eq_none (by omega)]
    · rw [if_neg h0]

private theorem saSet_repr {h a l ptrs} (r : SaRepr h a l ptrs) (i : Int) (src : Src)
    (v : Option Bytes)
    (hread : ∀ p h', ptrs[i.toNat]? = some p → heapFree h p = .ok h' → src.read h' = .ok v) :
    (∃ h' a' ptrs' l', saSet h a i src = .ok (h', a') ∧ listSet l i v = .ok l' ∧
      SaRepr h' a' l' ptrs' ∧ l'.length = l.length) ∨
    (saSet h a i src = .fatal ∧ listSet l i v = .fatal) := by
  have hsz := r.sz
  by_cases hi : 0 ≤ i ∧ i < a.size
  · left
    obtain ⟨n, rfl⟩ : ∃ n : Nat, i = n := ⟨i.toNat, by omega⟩
    obtain ⟨h', a', ptrs', e1, e2⟩ := r.setSlot (by omega : n < l.length) src v
      (by simpa using hread)
    exact ⟨h', a', ptrs', l.set n v, e1, by rw [listSet, if_pos (by omega)]; simp, e2, by simp⟩
  · right
    exact ⟨by rw [saSet, if_neg hi], by rw [listSet, if_neg (by omega)]⟩

private theorem saSetf_repr {h a l ptrs} (r : SaRepr h a l ptrs) (i : Int) (s : Bytes) :
    (∃ h' a' ptrs' l', saSetf h a i [.ext s] = .ok (h', a') ∧ listSet l i (some s) = .ok l' ∧
      SaRepr h' a' l' ptrs' ∧ l'.length = l.length) ∨
    (saSetf h a i [.ext s] = .fatal ∧ listSet l i (some s) = .fatal) := by
  have hsz := r.sz
  by_cases hi : 0 ≤ i ∧ i < a.size
  · left
    obtain ⟨n, rfl⟩ : ∃ n : Nat, i = n := ⟨i.toNat, by omega⟩
    obtain ⟨h', a', ptrs', e1, e2⟩ := r.setfSlot (by omega : n < l.length) [.ext s] s
      (by intro p h' _ _; simp [fmtRead, Src.read])
    exact ⟨h', a', ptrs', l.set n (some s), e1, by rw [listSet, if_pos (by omega)]; simp, e2,
      by simp⟩
  · right
    exact ⟨by rw [saSetf, if_neg hi], by rw [listSet, if_neg (by omega)]⟩

private theorem resize_append {l : List (Option Bytes)} (v : Option Bytes) :
    (resizeList l (l.length + 1)).set l.length v = l ++ [v] := by
  rw [resizeList, List.take_of_length_le (by omega), show l.length + 1 - l.length = 1 by omega]
  simp

private theorem saAppend_repr {h a l ptrs} (r : SaRepr h a l ptrs) (src : Src) (v : Option Bytes)
    (hn : l.length + 1 ≤ saMax) (hread : src.read h = .ok v) :
    ∃ h' a' ptrs', saAppend h a src = .ok (h', a', l.length) ∧ SaRepr h' a' (l ++ [v]) ptrs' := by
  obtain ⟨h1, a1, ptrs1, e1, r1, k1⟩ := r.resize (l.length + 1) hn
  obtain ⟨rfl, rfl⟩ := k1 (by omega)
  have hlen : l.length < (resizeList l (l.length + 1)).length := by simp [resizeList]
  obtain ⟨h2, a2, ptrs2, e2, r2⟩ := r1.setSlot hlen src v (by
    intro p h' hp hf
    have : p = none := by
      rw [List.getElem?_append_right (by rw [r.plen]; omega), r.plen] at hp
      simpa using hp.symm
    subst this
    cases hf
    exact hread)
  rw [resize_append] at r2
  refine ⟨h2, a2, ptrs2, ?_, r2⟩
  unfold saAppend
  have e1' : saResize h1 a ((a.size : Int) + 1) = .ok (h1, a1) := by
    rw [← e1, r.sz]; norm_cast
  simp only [e1', Res.ok_bind]
  rw [r.sz, e2]
  rfl

private theorem saAppendf_repr {h a l ptrs} (r : SaRepr h a l ptrs) (s : Bytes)
    (hn : l.length + 1 ≤ saMax) :
    ∃ h' a' ptrs', saAppendf h a [.ext s] = .ok (h', a', l.length) ∧
      SaRepr h' a' (l ++ [some s]) ptrs' := by
  obtain ⟨h1, a1, ptrs1, e1, r1, k1⟩ := r.resize (l.length + 1) hn
  have hlen : l.length < (resizeList l (l.length + 1)).length := by simp [resizeList]
  obtain ⟨h2, a2, ptrs2, e2, r2⟩ := r1.setfSlot hlen [.ext s] s (by
    intro p h' _ _; simp [fmtRead, Src.read])
  rw [resize_append] at r2
  refine ⟨h2, a2, ptrs2, ?_, r2⟩
  unfold saAppendf
  have e1' : saResize h a ((a.size : Int) + 1) = .ok (h1, a1) := by
    rw [← e1, r.sz]; norm_cast
  simp only [e1', Res.ok_bind]
  rw [r.sz, e2]
  rfl

private theorem read_opt (h : Heap) (s : Option Bytes) :
    (match s with | none => Src.null | some t => Src.ext t).read h = .ok s := by
  cases s <;> rfl

private theorem saStep_repr {h a l ptrs} (r : SaRepr h a l ptrs) (op : SaOp) (hns : NoSelfSet op)
    (hreq : op.req ≤ saMax) (hlen : l.length + 1 ≤ saMax) :
    (∃ h' a' ptrs' l' o, saStep h a op = .ok (h', a', o) ∧ listStep l op = .ok (l', o) ∧
      SaRepr h' a' l' ptrs' ∧ l'.length ≤ max op.req (l.length + 1)) ∨
    (saStep h a op = .fatal ∧ listStep l op = .fatal) := by
  cases op with
  | append s =>
    left
    obtain ⟨h', a', ptrs', e, r'⟩ := saAppend_repr r _ s hlen (read_opt h s)
    exact ⟨h', a', ptrs', _, .idx l.length, by simp [saStep, e], rfl, r', by simp; omega⟩
  | appendf s =>
    left
    obtain ⟨h', a', ptrs', e, r'⟩ := saAppendf_repr r s hlen
    exact ⟨h', a', ptrs', _, .idx l.length, by simp [saStep, e], rfl, r', by simp; omega⟩
  | appendElem j =>
    rcases saGet_repr r j with ⟨p, v, g1, g2, g3, _, _, _⟩ | ⟨g1, g2⟩
    · left
      obtain ⟨h', a', ptrs', e, r'⟩ := saAppend_repr r (Src.ofSlot p) v hlen g3.read
      exact ⟨h', a', ptrs', _, .idx l.length, by simp [saStep, g1, e], by simp [listStep, g2], r',
        by simp; omega⟩
    · right
      exact ⟨by simp [saStep, g1], by simp [listStep, g2]⟩
  | resize n =>
    by_cases hn : n < 0
    · right
      exact ⟨by simp [saStep, saResize, hn], by simp [listStep, hn]⟩
    · left
      obtain ⟨m, rfl⟩ : ∃ m : Nat, n = m := ⟨n.toNat, by omega⟩
      obtain ⟨h', a', ptrs', e, r', _⟩ := r.resize m (by simpa [SaOp.req] using hreq)
      refine ⟨h', a', ptrs', _, .unit, by simp [saStep, e], by rw [listStep, if_neg hn]; rfl, r', ?_⟩
      simp only [SaOp.req, resizeList, List.length_append, List.length_take, List.length_replicate,
        Int.toNat_natCast]
      omega
  | set i s =>
    rcases saSet_repr r i _ s (fun p h' _ _ => read_opt h' s) with
      ⟨h', a', ptrs', l', e1, e2, r', hl⟩ | ⟨e1, e2⟩
    · left
      exact ⟨h', a', ptrs', l', .unit, by simp [saStep, e1], by simp [listStep, e2], r', by omega⟩
    · right
      exact ⟨by simp [saStep, e1], by simp [listStep, e2]⟩
  | setf i s =>
    rcases saSetf_repr r i s with ⟨h', a', ptrs', l', e1, e2, r', hl⟩ | ⟨e1, e2⟩
    · left
      exact ⟨h', a', ptrs', l', .unit, by simp [saStep, e1], by simp [listStep, e2], r', by omega⟩
    · right
      exact ⟨by simp [saStep, e1], by simp [listStep, e2]⟩
  | setElem i j =>
    rcases saGet_repr r j with ⟨p, v, g1, g2, g3, g4, g5, g6⟩ | ⟨g1, g2⟩
    · have hread : ∀ q h', ptrs[i.toNat]? = some q → heapFree h q = .ok h' → 0 ≤ i →
          (Src.ofSlot p).read h' = .ok v := by
        intro q h' hq hf hi
        obtain ⟨q', w, k1, k2, k3, _⟩ := r.get
          (by rw [← r.plen]; rw [List.getElem?_eq_some_iff] at hq; exact hq.1 :
            i.toNat < l.length)
        rw [hq] at k1
        cases k1
        obtain ⟨h1, f1, f2, f3, f4⟩ := k3.free
        rw [hf] at f1
        cases f1
        cases p with
        | none => exact g3.read (h := h)
        | some p =>
          obtain ⟨s, rfl, hs⟩ := g3
          have hne : q ≠ some p := by
            rintro rfl
            have := r.inj i.toNat j.toNat p hq g6
            simp only [NoSelfSet] at hns
            omega
          simp [Src.ofSlot, Src.read, f3 p hne, hs]
      by_cases hi : 0 ≤ i
      · rcases saSet_repr r i (Src.ofSlot p) v (fun q h' h1 h2 => hread q h' h1 h2 hi) with
          ⟨h', a', ptrs', l', e1, e2, r', hl⟩ | ⟨e1, e2⟩
        · left
          exact ⟨h', a', ptrs', l', .unit, by simp [saStep, g1, e1], by simp [listStep, g2, e2], r',
            by omega⟩
        · right
          exact ⟨by simp [saStep, g1, e1], by simp [listStep, g2, e2]⟩
      · right
        have hc : ¬ (0 ≤ i ∧ i < (a.size : Int)) := by omega
        have hc' : ¬ (0 ≤ i ∧ i < (l.length : Int)) := by omega
        exact ⟨by simp only [saStep, g1, Res.ok_bind, saSet, if_neg hc, Res.fatal_bind],
          by simp only [listStep, g2, Res.ok_bind, listSet, if_neg hc', Res.fatal_bind]⟩
    · right
      exact ⟨by simp [saStep, g1], by simp [listStep, g2]⟩
  | get i =>
    rcases saGet_repr r i with ⟨p, v, g1, g2, g3, _⟩ | ⟨g1, g2⟩
    · left
      exact ⟨h, a, ptrs, l, .str v, by simp [saStep, g1, g3.read], by simp [listStep, g2], r,
        by omega⟩
    · right
      exact ⟨by simp [saStep, g1], by simp [listStep, g2]⟩
  | size =>
    left
    exact ⟨h, a, ptrs, l, .idx l.length, by simp [saStep, r.sz], rfl, r, by omega⟩

private theorem saRun_repr (K : Nat) (ops : List SaOp) :
    ∀ {h a l ptrs}, SaRepr h a l ptrs → (∀ op ∈ ops, NoSelfSet op ∧ op.req ≤ K) →
    max K l.length + ops.length ≤ saMax →
    (∃ h' a' ptrs' l' os, saRun h a ops = .ok (h', a', os) ∧ listRun l ops = .ok (l', os) ∧
      SaRepr h' a' l' ptrs') ∨
    (saRun h a ops = .fatal ∧ listRun l ops = .fatal) := by
  induction ops with
  | nil =>
    intro h a l ptrs r _ _
    exact Or.inl ⟨h, a, ptrs, l, [], rfl, rfl, r⟩
  | cons op ops ih =>
    intro h a l ptrs r hop hlen
    simp only [List.length_cons] at hlen
    obtain ⟨hns, hreq⟩ := hop op (by simp)
    rcases saStep_repr r op hns (by omega) (by omega) with
      ⟨h', a', ptrs', l', o, e1, e2, r', hl⟩ | ⟨e1, e2⟩
    · rcases ih r' (fun x hx => hop x (by simp [hx])) (by omega) with
        ⟨h2, a2, ptrs2, l2, os, f1, f2, r2⟩ | ⟨f1, f2⟩
      · exact Or.inl ⟨h2, a2, ptrs2, l2, o :: os, by simp [saRun, e1, f1],
          by simp [listRun, e2, f2], r2⟩
      · exact Or.inr ⟨by simp [saRun, e1, f1], by simp [listRun, e2, f2]⟩
    · exact Or.inr ⟨by simp [saRun, e1], by simp [listRun, e2]⟩

/-- C05: any history of calls on a new string array gives the observations (or the
abort) of the same history on a list, never leaving the allocated element array
and never using a freed string. The size bound keeps the `int` capacity
computation from overflowing. -/
theorem c05_string_array_history (ops : List SaOp) (K : Nat)
    (hop : ∀ op ∈ ops, NoSelfSet op ∧ op.req ≤ K) (hK : K + ops.length ≤ saMax) :
    (do let (_, _, os) ← saRun [] saAlloc ops; pure os) =
      (do let (_, os) ← listRun [] ops; pure os) := by
  rcases saRun_repr K ops SaRepr.empty hop (by simpa using hK) with
    ⟨h', a', ptrs', l', os, e1, e2, r⟩ | ⟨e1, e2⟩
  · simp [e1, e2]
  · simp [e1, e2]

/-- C05: after any completed history the array can be freed: every string object
is freed exactly once and none is left. -/
theorem c05_free_no_leak (ops : List SaOp) (K : Nat)
    (hop : ∀ op ∈ ops, NoSelfSet op ∧ op.req ≤ K) (hK : K + ops.length ≤ saMax)
    (h : Heap) (a : SArr) (os : List SaObs) (hrun : saRun [] saAlloc ops = .ok (h, a, os)) :
    ∃ h', saFree h a = .ok h' ∧ ∀ (p : Nat) s, h'[p]? ≠ some (some s) := by
  rcases saRun_repr K ops SaRepr.empty hop (by simpa using hK) with
    ⟨h', a', ptrs', l', os', e1, e2, r⟩ | ⟨e1, e2⟩
  · rw [hrun] at e1
    cases e1
    exact r.freeLoop 0 (by omega) h rfl (fun _ _ _ _ => rfl)
      (fun p s hs => by
        obtain ⟨i, hi⟩ := r.live p s hs
        exact ⟨i, by omega, hi⟩)
  · rw [hrun] at e1
    cases e1

/-- C05: searching an array without NULL elements returns the first index holding
the string, and -1 if there is none. -/
theorem c05_find {h a ptrs} (ss : List Bytes) (r : SaRepr h a (ss.map some) ptrs) (s : Bytes) :
    saFindLoop h a s 0 = .ok (if s ∈ ss then some (ss.idxOf s) else none) := by
  have gen : ∀ i, i ≤ ss.length → saFindLoop h a s i =
      .ok (if s ∈ ss.drop i then some (i + (ss.drop i).idxOf s) else none) := by
    intro i hi
    induction hk : ss.length - i generalizing i with
    | zero =>
      have : i = ss.length := by omega
      subst this
      rw [saFindLoop, if_neg (by rw [r.sz]; simp)]
      simp
    | succ k ih =>
      have hlt : i < ss.length := by omega
      obtain ⟨p, v, h1, h2, h3, h4⟩ := r.get (by simpa using hlt : i < (ss.map some).length)
      have hv : v = some ss[i] := by
        rw [List.getElem?_map, List.getElem?_eq_getElem hlt] at h2
        simpa using h2.symm
      subst hv
      rw [saFindLoop, if_pos (by rw [r.sz]; simpa using hlt), h4]
      simp only [Res.ok_bind]
      rw [h3.read]
      simp only [Res.ok_bind]
      rw [List.drop_eq_getElem_cons hlt]
      have ih' := ih (i + 1) (by omega) (by omega)
      generalize ss[i] = t at *
      generalize ss.drop (i + 1) = d at *
      by_cases hs : s = t
      · rw [if_pos hs, if_pos (by rw [hs]; exact List.mem_cons_self), List.idxOf_cons, hs]
        simp
      · have hs' : (t == s) = false := by simpa using fun h => hs h.symm
        rw [if_neg hs, ih', List.idxOf_cons, hs']
        simp only [List.mem_cons, hs, false_or, cond_false]
        congr 3
        omega
  simpa using gen 0 (by omega)

/-- C05, finding: searching an array with a NULL element before the match
dereferences NULL. -/
theorem c05_find_null_ub {h a l ptrs} (r : SaRepr h a (none :: l) ptrs) (s : Bytes) :
    saFindLoop h a s 0 = .ub := by
  obtain ⟨p, v, h1, h2, h3, h4⟩ := r.get (by simp : 0 < (none :: l).length)
  simp only [List.getElem?_cons_zero, Option.some.injEq] at h2
  subst h2
  rw [saFindLoop, if_pos (by rw [r.sz]; simp), h4]
  simp only [Res.ok_bind]
  rw [h3.read]
  rfl

/-- C07 (distinct elements): copying element `j` over element `i ≠ j` makes
element `i` equal to the former element `j` and keeps everything else. Missing:
`i = j`, which is undefined (`c07_self_set_ub`). -/
theorem c07_set_from_get_partial {h a l ptrs} (r : SaRepr h a l ptrs) (i j : Nat)
    (hi : i < l.length) (hj : j < l.length) (hne : i ≠ j) (hlen : l.length + 1 ≤ saMax) :
    ∃ h' a' ptrs' p, saGet a j = .ok p ∧ saSet h a i (Src.ofSlot p) = .ok (h', a') ∧
      SaRepr h' a' (l.set i (l[j])) ptrs' := by
  rcases saStep_repr r (.setElem i j) (by simp only [NoSelfSet]; omega) (by simp [SaOp.req])
    hlen with ⟨h', a', ptrs', l', o, e1, e2, r', hl⟩ | ⟨e1, e2⟩
  · have hl' : l' = l.set i l[j] := by
      have hg : listGet l (j : Int) = .ok l[j] := by
        simp [listGet, hj]
      have hs : listSet l (i : Int) l[j] = .ok (l.set i l[j]) := by
        rw [listSet, if_pos (by omega)]; simp
      simp only [listStep, hg, Res.ok_bind, hs, Res.pure_eq] at e2
      cases e2
      rfl
    subst hl'
    simp only [saStep] at e1
    obtain ⟨p, g1, e1⟩ := Res.bind_eq_ok.1 e1
    obtain ⟨⟨h2, a2⟩, g2, e1⟩ := Res.bind_eq_ok.1 e1
    cases e1
    exact ⟨h2, a2, ptrs', p, g1, g2, r'⟩
  · exfalso
    have hg : listGet l (j : Int) = .ok l[j] := by simp [listGet, hj]
    have hs : listSet l (i : Int) l[j] = .ok (l.set i l[j]) := by
      rw [listSet, if_pos (by omega)]; simp
    simp [listStep, hg, hs] at e2

/-- C07, finding: assigning a (non-NULL) element to itself reads the string just
freed. The same happens with a formatted set that prints the element. -/
theorem c07_self_set_ub {h a l ptrs} (r : SaRepr h a l ptrs) (i : Nat) (s : Bytes)
    (hi : l[i]? = some (some s)) :
    (do let p ← saGet a i; saSet h a i (Src.ofSlot p)) = .ub ∧
    (do let p ← saGet a i; saSetf h a i [Src.ofSlot p]) = .ub := by
  have hlt : i < l.length := by rw [List.getElem?_eq_some_iff] at hi; exact hi.1
  obtain ⟨p, v, h1, h2, h3, h4⟩ := r.get hlt
  rw [hi] at h2
  cases h2
  have hc : (0 : Int) ≤ (i : Int) ∧ (i : Int) < a.size := by have := r.sz; omega
  cases p with
  | none => simp [Denotes] at h3
  | some q =>
    have hd := h3
    obtain ⟨h1', f1, f2, f3, f4⟩ := hd.free
    have hq := f4 q rfl
    have hg : saGet a i = .ok (some q) := by
      rw [saGet, if_pos hc, Int.toNat_natCast, h4]
    constructor
    · rw [hg]
      simp only [Res.ok_bind]
      rw [saSet, if_pos hc, Int.toNat_natCast, h4]
      simp [strredup, f1, Src.ofSlot, Src.read, hq]
    · rw [hg]
      simp only [Res.ok_bind]
      rw [saSetf, if_pos hc, Int.toNat_natCast, h4]
      simp [f1, fmtRead, Src.ofSlot, Src.read, hq]

/-- C06: what is written for an array of non-NULL strings. -/
private theorem saWrite_repr {h a ptrs} (ss : List Bytes) (r : SaRepr h a (ss.map some) ptrs) :
    saWrite h a = .ok (leInt32 ss.length ++ ss.flatMap strwrite) := by
  have gen : ∀ i, i ≤ ss.length → saWriteLoop h a i = .ok ((ss.drop i).flatMap strwrite) := by
    intro i hi
    induction hk : ss.length - i generalizing i with
    | zero =>
      have : i = ss.length := by omega
      subst this
      rw [saWriteLoop, if_neg (by rw [r.sz]; simp)]
      simp
    | succ k ih =>
      have hlt : i < ss.length := by omega
      obtain ⟨p, v, h1, h2, h3, h4⟩ := r.get (by simpa using hlt : i < (ss.map some).length)
      have hv : v = some ss[i] := by
        rw [List.getElem?_map, List.getElem?_eq_getElem hlt] at h2
        simpa using h2.symm
      subst hv
      rw [saWriteLoop, if_pos (by rw [r.sz]; simpa using hlt), h4]
      simp only [Res.ok_bind]
      rw [h3.read]
      simp only [Res.ok_bind]
      rw [ih (i + 1) (by omega) (by omega), List.drop_eq_getElem_cons hlt, List.flatMap_cons]
      rfl
  unfold saWrite
  rw [gen 0 (by omega), r.sz]
  simp

private theorem saReadLoop_ok (ss : List Bytes) (hs : ∀ s ∈ ss, s.length + 1 < 2 ^ 64)
    (rest : Bytes) :
    ∀ (i : Nat) {h a l ptrs}, SaRepr h a l ptrs → l.length = ss.length → i ≤ ss.length →
    l.take i = (ss.take i).map some →
    ∃ h' a' ptrs', saReadLoop h a i ((ss.drop i).flatMap strwrite ++ rest) = .ok (true, h', a', rest) ∧
      SaRepr h' a' (ss.map some) ptrs' := by
  intro i
  induction hk : ss.length - i generalizing i with
  | zero =>
    intro h a l ptrs r hl hi ht
    have : i = ss.length := by omega
    subst this
    rw [List.take_of_length_le (by omega), List.take_of_length_le (by omega)] at ht
    subst ht
    rw [saReadLoop, if_neg (by rw [r.sz]; simp)]
    exact ⟨h, a, ptrs, by simp, r⟩
  | succ k ih =>
    intro h a l ptrs r hl hi ht
    have hlt : i < ss.length := by omega
    obtain ⟨p, v, h1, h2, h3, h4⟩ := r.get (by omega : i < l.length)
    obtain ⟨hp1, f1, f2, f3, f4⟩ := h3.free
    have r' := r.replace (by omega : i < l.length) (some ss[i]) h1 f1
    obtain ⟨al, e1, e2⟩ := strread_ok 0 0 ss[i] ((ss.drop (i + 1)).flatMap strwrite ++ rest)
      (hs _ (by simp)) (Nat.le_refl _)
    have hlen : i < a.elems.length := by
      have := r.cap; have := r.le; have := r.sz; omega
    obtain ⟨h', a', ptrs', g1, g2⟩ := ih (i + 1) (by omega) r' (by simpa using hl) (by omega) (by
      rw [List.take_add_one, List.take_set_of_le (Nat.le_refl _), ht,
        List.getElem?_set_self (by omega), List.take_add_one, List.getElem?_eq_getElem hlt,
        List.map_append]
      rfl)
    refine ⟨h', a', ptrs', ?_, g2⟩
    rw [saReadLoop, if_pos (by rw [r.sz]; omega), h4, List.drop_eq_getElem_cons hlt,
      List.flatMap_cons, List.append_assoc]
    simp only [Res.ok_bind]
    rw [e1]
    simp only [Res.ok_bind]
    rw [if_neg (by omega), f1]
    simp only [Res.ok_bind, writeAt_ok _ hlen]
    rw [if_neg (by simp)]
    simpa using g1

private theorem saReadLoop_cut (ss : List Bytes) (hs : ∀ s ∈ ss, s.length + 1 < 2 ^ 64) :
    ∀ (i : Nat) (cut : Bytes) {h a l ptrs}, SaRepr h a l ptrs → l.length = ss.length →
    i ≤ ss.length → cut <+: (ss.drop i).flatMap strwrite → cut ≠ (ss.drop i).flatMap strwrite →
    ∃ h' a' l' ptrs', saReadLoop h a i cut = .ok (false, h', a', []) ∧ SaRepr h' a' l' ptrs' := by
  intro i
  induction hk : ss.length - i generalizing i with
  | zero =>
    intro cut h a l ptrs r hl hi hc hne
    have : i = ss.length := by omega
    subst this
    simp at hc hne
    exact absurd hc hne
  | succ k ih =>
    intro cut h a l ptrs r hl hi hc hne
    have hlt : i < ss.length := by omega
    obtain ⟨p, v, h1, h2, h3, h4⟩ := r.get (by omega : i < l.length)
    obtain ⟨hp1, f1, f2, f3, f4⟩ := h3.free
    have hlen : i < a.elems.length := by
      have := r.cap; have := r.le; have := r.sz; omega
    rw [List.drop_eq_getElem_cons hlt, List.flatMap_cons] at hc hne
    rw [saReadLoop, if_pos (by rw [r.sz]; omega), h4]
    simp only [Res.ok_bind]
    by_cases hcl : cut.length < (strwrite ss[i]).length
    · have hpre : cut <+: strwrite ss[i] := by
        apply List.prefix_of_prefix_length_le hc (List.prefix_append _ _) (by omega)
      have hne' : cut ≠ strwrite ss[i] := by
        intro e; rw [e] at hcl; omega
      obtain ⟨rr, e1, e2, e3⟩ := strread_truncated 0 0 ss[i] cut (hs _ (by simp)) hpre hne'
        (Nat.le_refl _)
      rw [e1]
      simp only [Res.ok_bind]
      by_cases hz : rr.alloc = 0
      · rw [if_pos hz, e3]
        exact ⟨h, a, l, ptrs, rfl, r⟩
      · rw [if_neg hz, f1]
        simp only [Res.ok_bind, writeAt_ok _ hlen]
        rw [if_pos (by omega), e3]
        have r' := r.replace (by omega : i < l.length) (some rr.content) h1 f1
        exact ⟨_, _, _, _, rfl, r'⟩
    · obtain ⟨cut', rfl⟩ : ∃ cut', cut = strwrite ss[i] ++ cut' := by
        have : strwrite ss[i] <+: cut :=
          List.prefix_of_prefix_length_le (List.prefix_append _ _) hc (by omega)
        obtain ⟨t, ht⟩ := this
        exact ⟨t, ht.symm⟩
      rw [List.prefix_append_right_inj] at hc
      have hne' : cut' ≠ (ss.drop (i + 1)).flatMap strwrite := by
        intro e; exact hne (by rw [e])
      obtain ⟨al, e1, e2⟩ := strread_ok 0 0 ss[i] cut' (hs _ (by simp)) (Nat.le_refl _)
      have r' := r.replace (by omega : i < l.length) (some ss[i]) h1 f1
      obtain ⟨h', a', l', ptrs', g1, g2⟩ := ih (i + 1) (by omega) cut' r' (by simpa using hl)
        (by omega) hc hne'
      refine ⟨h', a', l', ptrs', ?_, g2⟩
      rw [e1]
      simp only [Res.ok_bind]
      rw [if_neg (by omega), f1]
      simp only [Res.ok_bind, writeAt_ok _ hlen]
      rw [if_neg (by simp)]
      simpa using g1

/-- C06: an array of non-NULL strings written to a stream and read into any other
string array, whatever its previous content and whatever follows in the stream,
is read back with the same elements; exactly the written bytes are consumed. -/
theorem c06_round_trip {h a ptrs h2 a2 l2 ptrs2} (ss : List Bytes)
    (hs : ∀ s ∈ ss, s.length + 1 < 2 ^ 64) (hn : ss.length ≤ saMax)
    (r : SaRepr h a (ss.map some) ptrs) (r2 : SaRepr h2 a2 l2 ptrs2) (rest : Bytes) :
    ∃ bytes, saWrite h a = .ok bytes ∧
      ∃ h' a' ptrs', saRead h2 a2 (bytes ++ rest) = .ok (true, h', a', rest) ∧
        SaRepr h' a' (ss.map some) ptrs' := by
  refine ⟨_, saWrite_repr ss r, ?_⟩
  have hint : intOfLe32 (leInt32 ss.length) = ss.length :=
    intOfLe32_leInt32 (by omega) (by simp only [saMax] at hn; omega)
  obtain ⟨h3, a3, ptrs3, e3, r3, _⟩ := r2.resize ss.length hn
  obtain ⟨h', a', ptrs', g1, g2⟩ := saReadLoop_ok ss hs rest 0 r3 (by simp [resizeList]; omega)
    (by omega) (by simp)
  refine ⟨h', a', ptrs', ?_, g2⟩
  unfold saRead
  rw [List.append_assoc, fread1_append _ (leInt32_length _)]
  simp only []
  rw [hint, e3]
  simpa using g1

/-- C06: a stream cut anywhere inside the written bytes makes the read fail, and
the array is left in a state that can be used and freed. -/
theorem c06_truncated_fails {h a ptrs h2 a2 l2 ptrs2} (ss : List Bytes)
    (hs : ∀ s ∈ ss, s.length + 1 < 2 ^ 64) (hn : ss.length ≤ saMax)
    (r : SaRepr h a (ss.map some) ptrs) (r2 : SaRepr h2 a2 l2 ptrs2) (bytes cut : Bytes)
    (hw : saWrite h a = .ok bytes) (hcut : cut <+: bytes) (hne : cut ≠ bytes) :
    ∃ h' a' l' ptrs', saRead h2 a2 cut = .ok (false, h', a', []) ∧ SaRepr h' a' l' ptrs' := by
  rw [saWrite_repr ss r] at hw
  cases hw
  have hint : intOfLe32 (leInt32 ss.length) = ss.length :=
    intOfLe32_leInt32 (by omega) (by simp only [saMax] at hn; omega)
  unfold saRead
  by_cases hl : cut.length < 4
  · rw [fread1, if_neg (by omega)]
    exact ⟨h2, a2, l2, ptrs2, rfl, r2⟩
  · have h4 := leInt32_length (ss.length : Int)
    obtain ⟨c, rfl⟩ : ∃ c, cut = leInt32 ss.length ++ c := by
      have : leInt32 ss.length <+: cut :=
        List.prefix_of_prefix_length_le (List.prefix_append _ _) hcut (by omega)
      obtain ⟨t, ht⟩ := this
      exact ⟨t, ht.symm⟩
    rw [List.prefix_append_right_inj] at hcut
    have hne' : c ≠ ss.flatMap strwrite := by
      intro e; exact hne (by rw [e])
    obtain ⟨h3, a3, ptrs3, e3, r3, _⟩ := r2.resize ss.length hn
    obtain ⟨h', a', l', ptrs', g1, g2⟩ := saReadLoop_cut ss hs 0 c r3 (by simp [resizeList]; omega)
      (by omega) (by simpa using hcut) (by simpa using hne')
    refine ⟨h', a', l', ptrs', ?_, g2⟩
    rw [fread1_append _ h4]
    simp only []
    rw [hint, e3]
    simpa using g1

/-- The hypotheses of C06/C07 are met by every history: for instance this one. -/
example : ∃ h a ptrs, saRun [] saAlloc [.append (some (bytesOf "x")), .append (some (bytesOf "yz")),
      .append none, .resize 2] = .ok (h, a, [.idx 0, .idx 1, .idx 2, .unit]) ∧
    SaRepr h a [some (bytesOf "x"), some (bytesOf "yz")] ptrs := by
  rcases saRun_repr 2 [.append (some (bytesOf "x")), .append (some (bytesOf "yz")),
      .append none, .resize 2] SaRepr.empty (by simp [NoSelfSet, SaOp.req]) (by decide) with
    ⟨h', a', ptrs', l', os, e1, e2, r⟩ | ⟨e1, e2⟩
  · have hl : listRun [] [.append (some (bytesOf "x")), .append (some (bytesOf "yz")),
      .append none, .resize 2] = .ok ([some (bytesOf "x"), some (bytesOf "yz")],
        [.idx 0, .idx 1, .idx 2, .unit]) := by decide +kernel
    rw [hl] at e2
    cases e2
    exact ⟨h', a', ptrs', e1, r⟩
  · have hl : listRun [] [.append (some (bytesOf "x")), .append (some (bytesOf "yz")),
      .append none, .resize 2] ≠ .fatal := by decide +kernel
    exact absurd e2 hl

example : (do
    let (_, _, os) ← saRun [] saAlloc [.append (some (bytesOf "a")), .setElem 0 0, .get 0]
    pure os) = .ub := by decide +kernel

end Nx
