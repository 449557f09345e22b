import Verif.Model.JsonMem
import Verif.Props.CsvMem

/-!
# C114: memory of JSON trees and of the JSON log
-/

namespace Nx

/-- The blocks of a tree. -/
def jmPtrs : JMT → List Nat
  | .nil => []
  | .node s x d r => s :: (x.toList ++ (jmPtrs d ++ jmPtrs r))

theorem jmPtrs_append (a b : JMT) (q : Nat) : (jmPtrs (a.append b)).count q = (jmPtrs a).count q + (jmPtrs b).count q := by
  induction a with
  | nil => simp [JMT.append, jmPtrs]
  | node s x d r _ ih =>
    simp only [JMT.append, jmPtrs, List.count_cons, List.count_append, ih]
    omega

theorem jmLast_mem {a : JMT} {q : Nat} (h : a.last = some q) : q ∈ jmPtrs a := by
  fun_induction JMT.last a with
  | case1 => simp at h
  | case2 s x d => simp [jmPtrs] at h ⊢; simp [h]
  | case3 s0 x0 d0 s x d r ih =>
    have := ih h
    rw [jmPtrs]
    simp [this]

theorem jmWalk_ok {σ : Mem} {l : List Nat} (h : Owns σ l) {t : JMT} (ht : ∀ q ∈ jmPtrs t, q ∈ l) :
    jmWalk σ t = .ok () := by
  induction t with
  | nil => rfl
  | node s x d r _ ih =>
    rw [jmWalk, use_ok h (ht _ (by simp [jmPtrs])), Res.ok_bind, ih (by intro q hq; exact ht q (by simp [jmPtrs, hq]))]

theorem jmUse_ok {σ : Mem} {l : List Nat} (h : Owns σ l) {d : Option Nat} (hd : ∀ q, d = some q → q ∈ l) :
    jmUse σ d = .ok () := by
  cases d with
  | none => rfl
  | some q => exact use_ok h (hd q rfl)

theorem jmLink_ok {σ : Mem} {l : List Nat} (h : Owns σ l) {parent : Nat} {kids t : JMT} (hp : parent ∈ l)
    (hk : ∀ q ∈ jmPtrs kids, q ∈ l) (ht : ∀ q ∈ jmPtrs t, q ∈ l) : jmLink σ parent kids t = .ok () := by
  rw [jmLink, use_ok h hp, Res.ok_bind, jmUse_ok h (fun q hq => hk q (jmLast_mem hq)), Res.ok_bind, jmWalk_ok h ht]

/-- A tree whose blocks are allocated is freed as a whole: nothing is freed twice and nothing is left. -/
theorem c114_free {σ : Mem} {l : List Nat} (t : JMT) (h : Owns σ (jmPtrs t ++ l)) :
    ∃ σ', jmFree σ t = .ok σ' ∧ Owns σ' l := by
  induction t generalizing σ l with
  | nil => exact ⟨σ, rfl, h⟩
  | node s x d r ihd ihr =>
    obtain ⟨σ1, e1, h1⟩ := ihd (l := jmPtrs r ++ (x.toList ++ s :: l)) (h.swap (by
      intro q
      simp only [jmPtrs, List.count_append, List.count_cons]
      omega))
    obtain ⟨σ2, e2, h2⟩ := ihr h1
    obtain ⟨σ3, e3, h3⟩ := freeOpt_owns h2
    obtain ⟨σ4, e4, h4⟩ := free_owns h3
    refine ⟨σ4, ?_, h4⟩
    rw [jmFree, use_ok h (by simp [jmPtrs]), Res.ok_bind, e1, Res.ok_bind, use_ok h1 (by simp), Res.ok_bind, e2,
      Res.ok_bind, use_ok h2 (by simp), Res.ok_bind, e3, Res.ok_bind, e4]

theorem jmRead_ok {σ : Mem} {l : List Nat} (h : Owns σ l) {t : JMT} (ht : ∀ q ∈ jmPtrs t, q ∈ l) :
    jmRead σ t = .ok () := by
  induction t with
  | nil => rfl
  | node s x d r ihd ihr =>
    rw [jmRead, use_ok h (ht _ (by simp [jmPtrs])), Res.ok_bind,
      jmUse_ok h (by intro q hq; exact ht q (by simp [jmPtrs, hq])), Res.ok_bind,
      ihd (by intro q hq; exact ht q (by simp [jmPtrs, hq])), Res.ok_bind,
      ihr (by intro q hq; exact ht q (by simp [jmPtrs, hq]))]

theorem jmNewText_ok {σ : Mem} {l : List Nat} {s : MSrc} (hn : s ≠ .null) (h : Owns σ l)
    (hs : ∀ p, s = .ptr p → p ∈ l) :
    ∃ σ' n x, jmNewText σ s = .ok (σ', n, x) ∧ Owns σ' (n :: (x.toList ++ l)) := by
  obtain ⟨σ1, d, e1, h1, -⟩ := strdup_owns hn (alloc_owns h) (fun p hp => List.mem_cons_of_mem _ (hs p hp))
  refine ⟨σ1, (memAlloc σ).2, d, ?_, h1.swap ?_⟩
  · rw [jmNewText]
    rw [e1]
    rfl
  · intro q
    simp only [List.count_append, List.count_cons]
    omega

/-- A parser has the text of its token if that has one. -/
def JTokFits (p : CMPar) (ts : List JTT) : Prop := jmHasText (jmHead ts) = true → p.text ≠ none

theorem jmConsume_ok {σ : Mem} {p : CMPar} {l : List Nat} (ts : List JTT) (h : Owns σ (cmParPtrs p ++ l)) :
    ∃ σ' p', jmConsume σ p ts = .ok (σ', p') ∧ Owns σ' (cmParPtrs p' ++ l) ∧ JTokFits p' ts := by
  obtain ⟨σ1, e1, h1⟩ := freeOpt_owns (d := p.text) (l := [p.self, p.tok] ++ l) (h.swap (by
    intro q
    simp only [cmParPtrs, List.count_append]
    omega))
  have key : ∃ σ2 t, jmTokText σ1 (jmHead ts) = (σ2, t) ∧ Owns σ2 (t.toList ++ ([p.self, p.tok] ++ l)) ∧
      JTokFits { p with text := t } ts := by
    by_cases ht : jmHasText (jmHead ts) = true
    · exact ⟨_, _, by rw [jmTokText, if_pos ht], alloc_owns h1, by simp [JTokFits]⟩
    · exact ⟨σ1, none, by rw [jmTokText, if_neg ht], h1, by intro h'; exact absurd h' ht⟩
  obtain ⟨σ2, t, e2, h2, w2⟩ := key
  refine ⟨σ2, { p with text := t }, ?_, h2.swap ?_, w2⟩
  · rw [jmConsume, use_ok h (by simp [cmParPtrs]), Res.ok_bind, use_ok h (by simp [cmParPtrs]), Res.ok_bind, e1,
      Res.ok_bind]
    simp only [e2]
    rfl
  · intro q
    simp only [cmParPtrs, List.count_append]
    omega

theorem jmParserNew_ok {σ : Mem} {l : List Nat} (ts : List JTT) (h : Owns σ l) :
    ∃ σ' p', jmParserNew σ ts = .ok (σ', p') ∧ Owns σ' (cmParPtrs p' ++ l) ∧ JTokFits p' ts := by
  refine jmConsume_ok ts ((alloc_owns (alloc_owns h)).swap ?_)
  intro q
  simp only [cmParPtrs, List.count_append, List.count_cons, List.count_nil, Option.toList_none]
  omega

theorem jmParserFree_ok {σ : Mem} {p : CMPar} {l : List Nat} (h : Owns σ (cmParPtrs p ++ l)) :
    ∃ σ', jmParserFree σ p = .ok σ' ∧ Owns σ' l := by
  obtain ⟨σ1, e1, h1⟩ := freeOpt_owns (d := p.text) (l := p.tok :: p.self :: l) (h.swap (by
    intro q
    simp only [cmParPtrs, List.count_append, List.count_cons, List.count_nil]
    omega))
  obtain ⟨σ2, e2, h2⟩ := free_owns h1
  obtain ⟨σ3, e3, h3⟩ := free_owns h2
  exact ⟨σ3, by
    rw [jmParserFree, use_ok h (by simp [cmParPtrs]), Res.ok_bind, use_ok h (by simp [cmParPtrs]), Res.ok_bind, e1,
      Res.ok_bind, e2, Res.ok_bind, e3], h3⟩

/-- A function of the parser ends the program, or it is defined, reads some of the tokens, and leaves the blocks of the
children and the parser. -/
def StepRes (l : List Nat) (n : Nat) (x : Res (Mem × CMPar × JMT × List JTT)) : Prop :=
  x = .fatal ∨ ∃ σ p k ts, x = .ok (σ, p, k, ts) ∧ Owns σ (jmPtrs k ++ (cmParPtrs p ++ l)) ∧ JTokFits p ts ∧
    ts.length < n

/-- `StepRes` for all lists of at most `n` tokens. -/
def StepOk (n : Nat) (f : JMStep) : Prop :=
  ∀ (σ : Mem) (p : CMPar) (cur : Nat) (kids : JMT) (ts : List JTT) (l : List Nat), ts.length ≤ n → cur ∈ l →
    JTokFits p ts → Owns σ (jmPtrs kids ++ (cmParPtrs p ++ l)) → StepRes l ts.length (f σ p cur kids ts)

theorem StepOk.mono {n m : Nat} {f : JMStep} (h : StepOk n f) (hm : m ≤ n) : StepOk m f :=
  fun σ p cur kids ts l hl => h σ p cur kids ts l (Nat.le_trans hl hm)

theorem StepRes.mono {l : List Nat} {n m : Nat} {x : Res (Mem × CMPar × JMT × List JTT)} (h : StepRes l n x)
    (hm : n ≤ m) : StepRes l m x := by
  rcases h with h | ⟨a, b, c, d, e1, e2, e3, e4⟩
  · exact Or.inl h
  · exact Or.inr ⟨a, b, c, d, e1, e2, e3, by omega⟩

theorem StepRes.bind {l : List Nat} {n m : Nat} {x : Res (Mem × CMPar × JMT × List JTT)}
    {f : Mem × CMPar × JMT × List JTT → Res (Mem × CMPar × JMT × List JTT)} (h : StepRes l n x)
    (hf : ∀ σ p k ts, Owns σ (jmPtrs k ++ (cmParPtrs p ++ l)) → JTokFits p ts → ts.length < n →
      StepRes l m (f (σ, p, k, ts))) : StepRes l m (x >>= f) := by
  rcases h with h | ⟨a, b, c, d, e1, e2, e3, e4⟩
  · rw [h]
    exact Or.inl rfl
  · rw [e1, Res.ok_bind]
    exact hf a b c d e2 e3 e4

theorem jmLeaf_ok {σ : Mem} {p : CMPar} {cur : Nat} {kids : JMT} {l : List Nat} (t : JTT) (hc : cur ∈ l)
    (hp : jmHasText t = true → p.text ≠ none) (h : Owns σ (jmPtrs kids ++ (cmParPtrs p ++ l))) :
    ∃ σ' k', jmLeaf σ p cur kids t = .ok (σ', k') ∧ Owns σ' (jmPtrs k' ++ (cmParPtrs p ++ l)) := by
  have text : jmHasText t = true → ∃ σ' k', (do
      let n ← jmNewText σ (MSrc.of p.text)
      jmLink n.1 cur kids (.node n.2.1 n.2.2 .nil .nil)
      pure (n.1, kids.append (.node n.2.1 n.2.2 .nil .nil)) : Res (Mem × JMT)) = .ok (σ', k') ∧
      Owns σ' (jmPtrs k' ++ (cmParPtrs p ++ l)) := by
    intro ht
    obtain ⟨σ1, n, x, e1, h1⟩ := jmNewText_ok (s := MSrc.of p.text) (by
      cases hpt : p.text with
      | none => exact absurd hpt (hp ht)
      | some x => simp [MSrc.of]) h (srcOf_mem (by intro q hq; simp at hq; simp [cmParPtrs, hq]))
    refine ⟨σ1, kids.append (.node n x .nil .nil), ?_, h1.swap ?_⟩
    · rw [e1, Res.ok_bind]
      simp only
      rw [jmLink_ok h1 (by simp [hc]) (by intro q hq; simp [hq]) (by
        intro q hq
        simp [jmPtrs] at hq
        simp
        rcases hq with hq | hq
        · exact Or.inl hq
        · exact Or.inr (Or.inl hq))]
      rfl
    · intro q
      simp only [List.count_append, List.count_cons, jmPtrs_append, jmPtrs, List.count_nil]
      omega
  have plain : ∃ σ' k', (do
      let n := jmNewPlain σ
      jmLink n.1 cur kids (.node n.2 none .nil .nil)
      pure (n.1, kids.append (.node n.2 none .nil .nil)) : Res (Mem × JMT)) = .ok (σ', k') ∧
      Owns σ' (jmPtrs k' ++ (cmParPtrs p ++ l)) := by
    have h1 := alloc_owns h
    refine ⟨(memAlloc σ).1, kids.append (.node (memAlloc σ).2 none .nil .nil), ?_, h1.swap ?_⟩
    · simp only [jmNewPlain]
      rw [jmLink_ok h1 (by simp [hc]) (by intro q hq; simp [hq]) (by
        intro q hq
        simp [jmPtrs] at hq
        simp [hq])]
      rfl
    · intro q
      simp only [List.count_append, List.count_cons, jmPtrs_append, jmPtrs, List.count_nil, Option.toList_none]
      omega
  cases t with
  | string => exact text rfl
  | integer => exact text rfl
  | fpnum => exact text rfl
  | tru => exact plain
  | fls => exact plain
  | nul => exact plain
  | _ => exact ⟨σ, kids, rfl, h⟩

theorem jmMatch_ok (n : Nat) (t : JTT) (he : t ≠ .eof) : StepOk n (jmMatch t) := by
  intro σ p cur kids ts l _ hc hp h
  rw [jmMatch]
  by_cases ht : jmHead ts = t
  · rw [if_pos ht]
    obtain ⟨σ1, k1, e1, h1⟩ := jmLeaf_ok t hc (by rw [← ht]; exact hp) h
    obtain ⟨σ2, p2, e2, h2, w2⟩ := jmConsume_ok ts.tail (p := p) (l := jmPtrs k1 ++ l) (h1.swap (by
      intro q
      simp only [List.count_append]
      omega))
    refine Or.inr ⟨σ2, p2, k1, ts.tail, ?_, h2.swap ?_, w2, ?_⟩
    · rw [e1, Res.ok_bind]
      simp only
      rw [e2]
      rfl
    · intro q
      simp only [List.count_append]
      omega
    · cases ts with
      | nil => exact absurd ht.symm he
      | cons a ts => simp
  · rw [if_neg ht]
    exact Or.inl rfl

theorem jmLoop_ok {n : Nat} {step : JMStep} (hs : StepOk n step) (fuel : Nat) (σ : Mem) (p : CMPar) (cur : Nat)
    (kids : JMT) (ts : List JTT) (l : List Nat) (hf : ts.length < fuel) (hn : ts.length ≤ n) (hc : cur ∈ l)
    (hp : JTokFits p ts) (h : Owns σ (jmPtrs kids ++ (cmParPtrs p ++ l))) :
    StepRes l (ts.length + 1) (jmLoop step fuel σ p cur kids ts) := by
  induction fuel generalizing σ p kids ts with
  | zero => omega
  | succ fuel ih =>
    rw [jmLoop]
    by_cases ht : jmHead ts = .comma
    · rw [if_pos ht]
      refine (jmMatch_ok n .comma (by decide) σ p cur kids ts l hn hc hp h).bind ?_
      intro σ1 p1 k1 ts1 h1 w1 l1
      refine (hs σ1 p1 cur k1 ts1 l (by omega) hc w1 h1).bind ?_
      intro σ2 p2 k2 ts2 h2 w2 l2
      exact (ih σ2 p2 k2 ts2 (by omega) (by omega) w2 h2).mono (by omega)
    · rw [if_neg ht]
      exact Or.inr ⟨σ, p, kids, ts, rfl, h, hp, by omega⟩

theorem jmSeq_ok {n : Nat} {step : JMStep} (hs : StepOk n step) (fuel : Nat) (hf : n ≤ fuel) :
    StepOk n (jmSeq step fuel) := by
  intro σ p cur kids ts l hn hc hp h
  rw [jmSeq]
  refine (hs σ p cur kids ts l hn hc hp h).bind ?_
  intro σ1 p1 k1 ts1 h1 w1 l1
  exact (jmLoop_ok hs fuel σ1 p1 cur k1 ts1 l (by omega) (by omega) hc w1 h1).mono (by omega)

theorem jmPair_ok {n : Nat} {v : JMStep} (hv : StepOk n v) : StepOk n (jmPair v) := by
  intro σ p cur kids ts l hn hc hp h
  rw [jmPair]
  refine (jmMatch_ok n .string (by decide) σ p cur kids ts l hn hc hp h).bind ?_
  intro σ1 p1 k1 ts1 h1 w1 l1
  refine (jmMatch_ok n .colon (by decide) σ1 p1 cur k1 ts1 l (by omega) hc w1 h1).bind ?_
  intro σ2 p2 k2 ts2 h2 w2 l2
  exact (hv σ2 p2 cur k2 ts2 l (by omega) hc w2 h2).mono (by omega)

theorem jmBody_ok {n : Nat} {seq : JMStep} (o c : JTT) (ho : o ≠ .eof) (hc : c ≠ .eof) (hs : StepOk n seq) {σ : Mem}
    {p : CMPar} {m : Nat} {ts : List JTT} {l : List Nat} (hn : ts.length ≤ n + 1) (hm : m ∈ l) (hp : JTokFits p ts)
    (h : Owns σ (cmParPtrs p ++ l)) : StepRes l ts.length (jmBody o c seq σ p m ts) := by
  rw [jmBody]
  refine (jmMatch_ok _ o ho σ p m .nil ts l (Nat.le_refl _) hm hp (by simpa [jmPtrs] using h)).bind ?_
  intro σ1 p1 k1 ts1 h1 w1 l1
  simp only
  by_cases ht : jmHead ts1 = c
  · rw [if_pos ht]
    exact (jmMatch_ok _ c hc σ1 p1 m k1 ts1 l (Nat.le_refl _) hm w1 h1).mono (by omega)
  · rw [if_neg ht]
    refine (hs σ1 p1 m k1 ts1 l (by omega) hm w1 h1).bind ?_
    intro σ2 p2 k2 ts2 h2 w2 l2
    exact (jmMatch_ok _ c hc σ2 p2 m k2 ts2 l (Nat.le_refl _) hm w2 h2).mono (by omega)

theorem jmComposite_ok {n : Nat} {seq : JMStep} (o c : JTT) (ho : o ≠ .eof) (hc : c ≠ .eof) (hs : StepOk n seq) :
    StepOk (n + 1) (jmComposite o c seq) := by
  intro σ p cur kids ts l hn hcur hp h
  have h1 := alloc_owns h
  rw [jmComposite]
  simp only [jmNewPlain]
  rw [jmLink_ok h1 (by simp [hcur]) (by intro q hq; simp [hq]) (by
    intro q hq
    simp [jmPtrs] at hq
    simp [hq]), Res.ok_bind]
  rcases jmBody_ok o c ho hc hs hn (m := (memAlloc σ).2) (l := (memAlloc σ).2 :: (jmPtrs kids ++ l)) (by simp) hp
      (h1.swap (by
        intro q
        simp only [List.count_append, List.count_cons]
        omega)) with e | ⟨σ2, p2, k2, ts2, e2, h2, w2, l2⟩
  · rw [e]
    exact Or.inl rfl
  · refine Or.inr ⟨σ2, p2, kids.append (.node (memAlloc σ).2 none k2 .nil), ts2, ?_, h2.swap ?_, w2, l2⟩
    · rw [e2]
      rfl
    · intro q
      simp only [List.count_append, List.count_cons, jmPtrs_append, jmPtrs, List.count_nil, Option.toList_none]
      omega

theorem jmValue_ok (n : Nat) : StepOk n (jmValue (n + 1)) := by
  induction n with
  | zero =>
    intro σ p cur kids ts l hn hc hp h
    have : ts = [] := List.length_eq_zero_iff.mp (by omega)
    subst this
    exact Or.inl rfl
  | succ n ih =>
    intro σ p cur kids ts l hn hc hp h
    have leaf : ∀ t : JTT, t ≠ .eof → StepRes l ts.length (jmMatch t σ p cur kids ts) :=
      fun t ht => jmMatch_ok (n + 1) t ht σ p cur kids ts l hn hc hp h
    rw [jmValue]
    split
    · exact leaf _ (by decide)
    · exact leaf _ (by decide)
    · exact leaf _ (by decide)
    · exact leaf _ (by decide)
    · exact leaf _ (by decide)
    · exact leaf _ (by decide)
    · exact jmComposite_ok _ _ (by decide) (by decide) (jmSeq_ok ih (n + 1) (by omega)) σ p cur kids ts l hn hc hp h
    · exact jmComposite_ok _ _ (by decide) (by decide) (jmSeq_ok (jmPair_ok ih) (n + 1) (by omega)) σ p cur kids ts l hn
        hc hp h
    · exact Or.inl rfl

/-- Parsing ends the program, or the new blocks are those of the tree. -/
theorem c114_parse {σ : Mem} {p : CMPar} {l : List Nat} (ts : List JTT) (hp : JTokFits p ts)
    (h : Owns σ (cmParPtrs p ++ l)) :
    jmParse σ p ts = .fatal ∨ ∃ σ' p' t, jmParse σ p ts = .ok (σ', p', t) ∧
      Owns σ' (jmPtrs t ++ (cmParPtrs p' ++ l)) ∧ t ≠ .nil := by
  have h1 : Owns (memAlloc σ).1 (cmParPtrs p ++ (memAlloc σ).2 :: l) := (alloc_owns h).swap (by
    intro q
    simp only [List.count_append, List.count_cons]
    omega)
  have body : ∀ (o c : JTT) (seq : JMStep), o ≠ .eof → c ≠ .eof → StepOk (ts.length - 1) seq →
      (do
        let b ← jmBody o c seq (memAlloc σ).1 p (memAlloc σ).2 ts
        pure (b.1, b.2.1, JMT.node (memAlloc σ).2 none b.2.2.1 .nil) : Res (Mem × CMPar × JMT)) = .fatal ∨
      ∃ σ' p' t, (do
        let b ← jmBody o c seq (memAlloc σ).1 p (memAlloc σ).2 ts
        pure (b.1, b.2.1, JMT.node (memAlloc σ).2 none b.2.2.1 .nil) : Res (Mem × CMPar × JMT)) = .ok (σ', p', t) ∧
      Owns σ' (jmPtrs t ++ (cmParPtrs p' ++ l)) ∧ t ≠ .nil := by
    intro o c seq ho hc hs
    rcases jmBody_ok o c ho hc hs (ts := ts) (by omega) (m := (memAlloc σ).2) (by simp) hp h1 with
      e | ⟨σ2, p2, k2, ts2, e2, h2, w2, l2⟩
    · rw [e]
      exact Or.inl rfl
    · refine Or.inr ⟨σ2, p2, .node (memAlloc σ).2 none k2 .nil, ?_, h2.swap ?_, by simp⟩
      · rw [e2]
        rfl
      · intro q
        simp only [List.count_append, List.count_cons, jmPtrs, List.count_nil, Option.toList_none]
        omega
  have hv : 0 < ts.length → StepOk (ts.length - 1) (jmValue ts.length) := by
    intro hl
    have := jmValue_ok (ts.length - 1)
    rwa [show ts.length - 1 + 1 = ts.length by omega] at this
  rw [jmParse]
  split
  · rename_i ht
    have hl : 0 < ts.length := by
      cases ts with
      | nil => simp [jmHead] at ht
      | cons a b => simp
    exact body _ _ _ (by decide) (by decide) (jmSeq_ok (hv hl) _ (by omega))
  · rename_i ht
    have hl : 0 < ts.length := by
      cases ts with
      | nil => simp [jmHead] at ht
      | cons a b => simp
    exact body _ _ _ (by decide) (by decide) (jmSeq_ok (jmPair_ok (hv hl)) _ (by omega))
  · exact Or.inl rfl

/-- A tree from a string: the program ends, or the new blocks are those of the tree; the lexer, the parser and the texts
of the tokens are freed. -/
theorem c114_string {σ : Mem} {l : List Nat} (ts : List JTT) (h : Owns σ l) :
    jmFromString σ ts = .fatal ∨
      ∃ σ' t, jmFromString σ ts = .ok (σ', t) ∧ Owns σ' (jmPtrs t ++ l) ∧ t ≠ .nil := by
  have h0 := alloc_owns (alloc_owns h)
  obtain ⟨σ1, p1, e1, h1, w1⟩ := jmParserNew_ok ts h0
  rw [jmFromString]
  rw [e1, Res.ok_bind]
  simp only
  rcases c114_parse ts w1 h1 with e2 | ⟨σ2, p2, t, e2, h2, w2⟩
  · left
    rw [e2]
    rfl
  · right
    obtain ⟨σ3, e3, h3⟩ := free_owns (σ := σ2) (p := (memAlloc (memAlloc σ).1).2)
      (l := (memAlloc σ).2 :: (cmParPtrs p2 ++ (jmPtrs t ++ l))) (h2.swap (by
        intro q
        simp only [List.count_append, List.count_cons]
        omega))
    obtain ⟨σ4, e4, h4⟩ := free_owns h3
    obtain ⟨σ5, e5, h5⟩ := jmParserFree_ok h4
    refine ⟨σ5, t, ?_, h5, w2⟩
    rw [e2, Res.ok_bind]
    simp only
    rw [use_ok h2 (by simp), Res.ok_bind, e3, Res.ok_bind, e4, Res.ok_bind, e5]
    rfl

/-- The sizes that the text has. -/
def TextSize (cap i : Nat) : Prop := ∃ k, cap = 1024 * 2 ^ k ∧ (k = 0 ∨ 1024 * 2 ^ k ≤ 2 * (i + 2))

/-- The text always has room for what is read, and its size is not larger than needed. -/
theorem jmReadText_cap {σ : Mem} {l : List Nat} (n text cap i : Nat) (h : Owns σ (text :: l)) (hs : TextSize cap i)
    (hi : i + 2 < cap) (hn : i + n + 2 < 2 ^ 30) :
    ∃ σ' t' c', jmReadText σ text cap i n = .ok (σ', t', c', i + n) ∧ Owns σ' (t' :: l) ∧ i + n + 2 < c' ∧
      TextSize c' (i + n) := by
  induction n generalizing σ text cap i with
  | zero => exact ⟨σ, text, cap, rfl, h, by omega, hs⟩
  | succ n ih =>
    rw [jmReadText, use_ok h (by simp), Res.ok_bind, if_pos (by omega)]
    by_cases hc : cap ≤ i + 1 + 2
    · have hcap : cap * 2 < 2 ^ 31 := by omega
      rw [if_pos hc, if_pos hcap]
      obtain ⟨σ1, e1, h1⟩ := free_owns h
      obtain ⟨σ2, t2, c2, e2, h2, l2, s2⟩ := ih _ (cap * 2) (i + 1) (alloc_owns h1) (by
          obtain ⟨k, hk, -⟩ := hs
          refine ⟨k + 1, by rw [hk, Nat.pow_succ]; omega, Or.inr ?_⟩
          rw [Nat.pow_succ]
          omega) (by omega) (by omega)
      rw [show i + (n + 1) = i + 1 + n by omega]
      refine ⟨σ2, t2, c2, ?_, h2, by omega, s2⟩
      rw [memRealloc, e1]
      exact e2
    · rw [if_neg hc]
      obtain ⟨σ2, t2, c2, e2, h2, l2, s2⟩ := ih _ cap (i + 1) h (by
          obtain ⟨k, hk, hk'⟩ := hs
          exact ⟨k, hk, by omega⟩) (by omega) (by omega)
      rw [show i + (n + 1) = i + 1 + n by omega]
      exact ⟨σ2, t2, c2, e2, h2, by omega, s2⟩

/-- A tree from a stream of less than `2^30 - 2` bytes: all bytes are stored in the text, which is freed. -/
theorem c114_stream_partial {σ : Mem} {l : List Nat} (n : Nat) (ts : List JTT) (hn : n + 2 < 2 ^ 30) (h : Owns σ l) :
    jmFromStream σ n ts = .fatal ∨
      ∃ σ' t, jmFromStream σ n ts = .ok (σ', t) ∧ Owns σ' (jmPtrs t ++ l) ∧ t ≠ .nil := by
  obtain ⟨σ1, t1, c1, e1, h1, l1, -⟩ := jmReadText_cap n (memAlloc σ).2 1024 0 (alloc_owns h) ⟨0, by simp, Or.inl rfl⟩
    (by omega) (by omega)
  rw [jmFromStream]
  rw [e1, Res.ok_bind]
  simp only
  rw [use_ok h1 (by simp), Res.ok_bind, if_pos (by omega)]
  rcases c114_string ts h1 with e2 | ⟨σ2, t, e2, h2, w2⟩
  · left
    rw [e2]
    rfl
  · right
    obtain ⟨σ3, e3, h3⟩ := free_owns (σ := σ2) (p := t1) (l := jmPtrs t ++ l) (h2.swap (by
      intro q
      simp only [List.count_append, List.count_cons]
      omega))
    refine ⟨σ3, t, ?_, h3, w2⟩
    rw [e2, Res.ok_bind, e3]
    rfl

theorem jmReadText_add (σ : Mem) (text cap i n m : Nat) : jmReadText σ text cap i (n + m) =
    (do
      let r ← jmReadText σ text cap i n
      jmReadText r.1 r.2.1 r.2.2.1 r.2.2.2 m) := by
  induction n generalizing σ text cap i with
  | zero => simp [jmReadText, Res.ok_bind]
  | succ n ih =>
    rw [show n + 1 + m = n + m + 1 by omega, jmReadText, jmReadText]
    cases hu : memUse σ text with
    | fatal => rfl
    | ub => rfl
    | ok u =>
      rw [Res.ok_bind, Res.ok_bind]
      split
      · split
        · split
          · cases hr : memRealloc σ (some text) with
            | fatal => rfl
            | ub => rfl
            | ok r =>
              rw [Res.ok_bind, Res.ok_bind]
              exact ih _ _ _ _
          · rfl
        · exact ih _ _ _ _
      · rfl

/-- A stream of `2^30 - 2` bytes or more overflows the size of the text. -/
theorem c114_stream_large_false {σ : Mem} {l : List Nat} (n : Nat) (ts : List JTT) (hn : 2 ^ 30 ≤ n + 2)
    (h : Owns σ l) : jmFromStream σ n ts = .ub := by
  obtain ⟨σ1, t1, c1, e1, h1, l1, k, hk, hk'⟩ := jmReadText_cap (2 ^ 30 - 3) (memAlloc σ).2 1024 0 (alloc_owns h)
    ⟨0, by simp, Or.inl rfl⟩ (by omega) (by omega)
  have hc : c1 = 2 ^ 30 := by
    have h10 : 1024 * 2 ^ k = 2 ^ (k + 10) := by rw [Nat.pow_add]; omega
    rw [h10] at hk hk'
    have lo : 2 ^ 30 ≤ 2 ^ (k + 10) := by
      apply Nat.pow_le_pow_right (by omega)
      apply Decidable.byContradiction
      intro hlt
      have := Nat.pow_le_pow_right (n := 2) (by omega) (show k + 10 ≤ 29 by omega)
      omega
    have hi : 2 ^ (k + 10) ≤ 2 ^ 30 := by
      apply Nat.pow_le_pow_right (by omega)
      apply Decidable.byContradiction
      intro hlt
      have := Nat.pow_le_pow_right (n := 2) (by omega) (show 31 ≤ k + 10 by omega)
      omega
    omega
  rw [jmFromStream]
  obtain ⟨m, rfl⟩ : ∃ m, n = (2 ^ 30 - 3) + (m + 1) := ⟨n - (2 ^ 30 - 3) - 1, by omega⟩
  rw [jmReadText_add, e1, Res.ok_bind]
  simp only
  rw [jmReadText, use_ok h1 (by simp), Res.ok_bind, if_pos (by omega), if_pos (by omega), if_neg (by omega)]
  rfl

/-- From the start to the end: a program that reads a tree and frees it is ended by an error, or it leaves no block
behind. -/
theorem c114_life (k n : Nat) (ts : List JTT) (hn : n + 2 < 2 ^ 30) :
    jmFromStream ⟨[], k⟩ n ts = .fatal ∨
      ∃ σ t σ', jmFromStream ⟨[], k⟩ n ts = .ok (σ, t) ∧ jmFree σ t = .ok σ' ∧ σ'.live = [] := by
  have h0 : Owns ⟨[], k⟩ [] := ⟨by simp, by simp, by simp⟩
  rcases c114_stream_partial n ts hn h0 with e | ⟨σ, t, e, h, w⟩
  · exact Or.inl e
  · obtain ⟨σ', e', h'⟩ := c114_free t h
    refine Or.inr ⟨σ, t, σ', e, e', ?_⟩
    rw [List.eq_nil_iff_forall_not_mem]
    intro q hq
    have := h'.same q
    rw [List.count_nil, List.count_eq_zero] at this
    exact this hq

/-! ## The log -/

/-- The blocks of the log. -/
def jlogPtrs : JLog → List Nat
  | none => []
  | some a => a.1 :: a.2.flatMap jmPtrs

/-- A stream is empty, or a node without a text and without a neighbour. -/
def StreamWf : JMT → Prop
  | .nil => True
  | .node _ x _ r => x = none ∧ r = .nil

/-- The log has its streams. -/
def JLogWf : JLog → Prop
  | none => True
  | some a => a.2.length = jlogN ∧ ∀ t ∈ a.2, StreamWf t

theorem jmBuild_ok {σ : Mem} {l : List Nat} (s : JSh) (h : Owns σ l) :
    Owns (jmBuild σ s).1 (jmPtrs (jmBuild σ s).2 ++ l) := by
  induction s generalizing σ l with
  | nil => exact h
  | node x d r ihd ihr =>
    have hb : ∀ y : Bool, Owns (jmShText (memAlloc σ).1 y).1
        ((jmShText (memAlloc σ).1 y).2.toList ++ ((memAlloc σ).2 :: l)) := by
      intro y
      cases y with
      | true => exact alloc_owns (alloc_owns h)
      | false => exact alloc_owns h
    refine (ihr (ihd (hb x))).swap ?_
    intro q
    simp only [jmBuild, jmPtrs, List.count_append, List.count_cons]
    omega

theorem jmValueOf_ok {σ : Mem} {l : List Nat} (x : Bool) (d : JSh) (h : Owns σ l) :
    Owns (jmValueOf σ x d).1 (jmPtrs (.node (jmValueOf σ x d).2.1 (jmValueOf σ x d).2.2.1 (jmValueOf σ x d).2.2.2 .nil)
      ++ l) :=
  jmBuild_ok (.node x d .nil) h

/-- Getting a stream ends the program for a wrong number; otherwise the stream is there. -/
theorem jlogGet_ok {σ : Mem} {g : JLog} {l : List Nat} (id : Int) (hw : JLogWf g) (h : Owns σ (jlogPtrs g ++ l)) :
    ((id < 0 ∨ (jlogN : Int) ≤ id) ∧ jlogGet σ g id = .fatal) ∨
    (¬ (id < 0 ∨ (jlogN : Int) ≤ id) ∧ ∃ σ' arr ts root kids, jlogGet σ g id = .ok (σ', arr, ts, root, kids) ∧
      Owns σ' (jlogPtrs (some (arr, ts)) ++ l) ∧ JLogWf (some (arr, ts)) ∧
      ts[id.toNat]? = some (.node root none kids .nil)) := by
  by_cases hid : id < 0 ∨ (jlogN : Int) ≤ id
  · exact Or.inl ⟨hid, by rw [jlogGet]; simp only; rw [if_pos hid]⟩
  · refine Or.inr ⟨hid, ?_⟩
    have key : ∃ σ1 arr ts, jlogArr σ g = (σ1, arr, ts) ∧ Owns σ1 (jlogPtrs (some (arr, ts)) ++ l) ∧
        JLogWf (some (arr, ts)) := by
      cases g with
      | some a => exact ⟨σ, a.1, a.2, rfl, h, hw⟩
      | none =>
        refine ⟨_, _, _, rfl, (alloc_owns h).swap ?_, by simp, ?_⟩
        · intro q
          have : (List.replicate jlogN JMT.nil).flatMap jmPtrs = [] := by simp [jmPtrs]
          simp only [jlogPtrs, this, List.count_append, List.count_cons, List.count_nil]
          omega
        · intro t ht
          rw [List.eq_of_mem_replicate ht]
          trivial
    obtain ⟨σ1, arr, ts, e1, h1, hl1, hs1⟩ := key
    have hlt : id.toNat < ts.length := by
      simp only at hl1
      rw [hl1]
      unfold jlogN at hid ⊢
      omega
    rw [jlogGet]
    simp only [e1]
    rw [if_neg hid, use_ok h1 (by simp [jlogPtrs]), Res.ok_bind, readAt_ok hlt, Res.ok_bind]
    cases ht : ts[id.toNat] with
    | nil =>
      have hget : ts[id.toNat]? = some JMT.nil := by rw [List.getElem?_eq_getElem hlt, ht]
      obtain ⟨rest, hr1, hr2, -⟩ := focusAt jmPtrs hget
      refine ⟨(memAlloc σ1).1, arr, ts.set id.toNat (.node (memAlloc σ1).2 none .nil .nil), (memAlloc σ1).2, .nil, ?_,
        (alloc_owns h1).swap ?_, ⟨by simpa using hl1, ?_⟩, by simp [hlt]⟩
      · simp only [jmNewPlain]
        rw [writeAt_ok _ hlt]
        rfl
      · intro q
        simp only [jlogPtrs, List.count_append, List.count_cons, hr1, hr2, jmPtrs, List.count_nil, Option.toList_none]
        omega
      · intro t ht'
        rcases List.mem_or_eq_of_mem_set ht' with h' | h'
        · exact hs1 t h'
        · rw [h']
          exact ⟨rfl, rfl⟩
    | node s x d r =>
      have hwf := hs1 ts[id.toNat] (List.getElem_mem hlt)
      rw [ht] at hwf
      obtain ⟨hx, hr⟩ := hwf
      subst hx hr
      exact ⟨σ1, arr, ts, s, d, rfl, h1, ⟨hl1, hs1⟩, by rw [List.getElem?_eq_getElem hlt, ht]⟩

/-- The number of a stream is wrong. -/
def BadId (id : Int) : Prop := id < 0 ∨ 32 ≤ id

/-- Calls for the log end the program if `bad` holds, and otherwise leave the blocks of the log. -/
def LogRes (l : List Nat) (bad : Prop) (x : Res (Mem × JLog)) : Prop :=
  (bad ∧ x = .fatal) ∨ (¬ bad ∧ ∃ σ g, x = .ok (σ, g) ∧ Owns σ (jlogPtrs g ++ l) ∧ JLogWf g)

theorem jlogSet_ok {σ : Mem} {arr root : Nat} {ts : List JMT} {kids kids' : JMT} {id : Int} {l l' : List Nat}
    (hw : JLogWf (some (arr, ts))) (hget : ts[id.toNat]? = some (.node root none kids .nil)) (h : Owns σ l')
    (hl : ∀ q, l'.count q + (jmPtrs kids).count q = (jlogPtrs (some (arr, ts)) ++ l).count q + (jmPtrs kids').count q) :
    ∃ ts', jlogSet ts id root kids' = .ok ts' ∧ Owns σ (jlogPtrs (some (arr, ts')) ++ l) ∧
      JLogWf (some (arr, ts')) := by
  have hlt : id.toNat < ts.length := (List.getElem?_eq_some_iff.mp hget).1
  obtain ⟨rest, hr1, hr2, -⟩ := focusAt jmPtrs hget
  refine ⟨ts.set id.toNat (.node root none kids' .nil), by rw [jlogSet, writeAt_ok _ hlt], h.swap ?_,
    by simpa using hw.1, ?_⟩
  · intro q
    have := hl q
    simp only [jlogPtrs, List.count_append, List.count_cons, hr1, hr2, jmPtrs, List.count_nil, Option.toList_none] at this ⊢
    omega
  · intro t ht'
    rcases List.mem_or_eq_of_mem_set ht' with h' | h'
    · exact hw.2 t h'
    · rw [h']
      exact ⟨rfl, rfl⟩

/-- The root of a stream and its children are blocks of the log. -/
theorem stream_mem {arr root : Nat} {ts : List JMT} {kids : JMT} {k : Nat}
    (hget : ts[k]? = some (.node root none kids .nil)) :
    root ∈ jlogPtrs (some (arr, ts)) ∧ ∀ q ∈ jmPtrs kids, q ∈ jlogPtrs (some (arr, ts)) := by
  have hm := List.mem_of_getElem? hget
  constructor
  · simp only [jlogPtrs]
    exact List.mem_cons_of_mem _ (List.mem_flatMap.mpr ⟨_, hm, by simp [jmPtrs]⟩)
  · intro q hq
    simp only [jlogPtrs]
    exact List.mem_cons_of_mem _ (List.mem_flatMap.mpr ⟨_, hm, by simp [jmPtrs, hq]⟩)

theorem jmObjectAdd_ok {σ : Mem} {obj s : Nat} {x : Option Nat} {d kids : JMT} {l : List Nat}
    (h : Owns σ (jmPtrs (.node s x d .nil) ++ l)) (ho : obj ∈ l) (hk : ∀ q ∈ jmPtrs kids, q ∈ l) :
    ∃ σ' n y, jmObjectAdd σ obj kids .ext s x d = .ok (σ', kids.append (.node n y .nil (.node s x d .nil))) ∧
      Owns σ' (jmPtrs (.node n y .nil (.node s x d .nil)) ++ l) := by
  obtain ⟨σ1, n, y, e1, h1⟩ := jmNewText_ok (s := .ext) (by simp) h ext_mem
  have h2 : Owns σ1 (jmPtrs (.node n y .nil (.node s x d .nil)) ++ l) := h1.swap (by
    intro q
    simp only [jmPtrs, List.count_append, List.count_cons, List.count_nil]
    omega)
  refine ⟨σ1, n, y, ?_, h2⟩
  rw [jmObjectAdd, use_ok h (List.mem_append_right _ ho), Res.ok_bind, e1, Res.ok_bind]
  simp only
  rw [jmLink_ok h2 (List.mem_append_right _ ho) (fun q hq => List.mem_append_right _ (hk q hq))
    (fun q hq => List.mem_append_left _ hq)]
  rfl

theorem jlogAdd_ok {σ : Mem} {g : JLog} {l : List Nat} (id : Int) (x : Bool) (d : JSh) (hw : JLogWf g)
    (h : Owns σ (jlogPtrs g ++ l)) : LogRes l (BadId id) (jlogAdd σ g id x d) := by
  rw [jlogAdd]
  rcases jlogGet_ok id hw h with ⟨hb, e⟩ | ⟨hb, σ1, arr, ts, root, kids, e1, h1, w1, hget⟩
  · rw [e]
    exact Or.inl ⟨hb, rfl⟩
  · refine Or.inr ⟨hb, ?_⟩
    have hv := jmValueOf_ok x d h1
    have hm := stream_mem (arr := arr) hget
    obtain ⟨σ2, n, y, e2, h2⟩ := jmObjectAdd_ok (obj := root) (kids := kids) hv
      (List.mem_append_left _ hm.1) (fun q hq => List.mem_append_left _ (hm.2 q hq))
    obtain ⟨ts', e3, h3, w3⟩ := jlogSet_ok (l := l) w1 hget h2 (kids' := kids.append (.node n y .nil
        (.node (jmValueOf σ1 x d).2.1 (jmValueOf σ1 x d).2.2.1 (jmValueOf σ1 x d).2.2.2 .nil))) (by
      intro q
      simp only [jmPtrs_append, List.count_append]
      omega)
    refine ⟨σ2, some (arr, ts'), ?_, h3, w3⟩
    rw [e1, Res.ok_bind]
    simp only
    rw [e2, Res.ok_bind]
    simp only
    rw [e3]
    rfl

theorem jmAddAt_ok {σ : Mem} {l : List Nat} (h : Owns σ l) {c : JMT} (hc : ∀ q ∈ jmPtrs c, q ∈ l) (k : Nat) {t : JMT}
    (ht : ∀ q ∈ jmPtrs t, q ∈ l) :
    jmAddAt σ c k t = none ∨ ∃ t', jmAddAt σ c k t = some (.ok t') ∧
      ∀ q, (jmPtrs t').count q = (jmPtrs t).count q + (jmPtrs c).count q := by
  induction t generalizing k with
  | nil => exact Or.inl (by cases k <;> rfl)
  | node s x d r _ ih =>
    cases k with
    | zero =>
      refine Or.inr ⟨.node s x (d.append c) r, ?_, ?_⟩
      · rw [jmAddAt, jmLink_ok h (ht s (by simp [jmPtrs])) (by intro q hq; exact ht q (by simp [jmPtrs, hq])) hc]
        rfl
      · intro q
        simp only [jmPtrs, jmPtrs_append, List.count_append, List.count_cons]
        omega
    | succ k =>
      rcases ih k (by intro q hq; exact ht q (by simp [jmPtrs, hq])) with e | ⟨t', e, he⟩
      · exact Or.inl (by rw [jmAddAt, e])
      · refine Or.inr ⟨.node s x d t', by rw [jmAddAt, e]; rfl, ?_⟩
        intro q
        simp only [jmPtrs, he, List.count_append, List.count_cons]
        omega

theorem jlogAppend_ok {σ : Mem} {g : JLog} {l : List Nat} (id : Int) (k : Nat) (x : Bool) (d : JSh) (hw : JLogWf g)
    (h : Owns σ (jlogPtrs g ++ l)) : LogRes l (BadId id) (jlogAppend σ g id k x d) := by
  rw [jlogAppend]
  rcases jlogGet_ok id hw h with ⟨hb, e⟩ | ⟨hb, σ1, arr, ts, root, kids, e1, h1, w1, hget⟩
  · rw [e]
    exact Or.inl ⟨hb, rfl⟩
  · refine Or.inr ⟨hb, ?_⟩
    have hm := stream_mem (arr := arr) hget
    have hv := jmValueOf_ok x d h1
    rw [e1, Res.ok_bind]
    simp only
    rw [jmWalk_ok h1 (fun q hq => List.mem_append_left _ (hm.2 q hq)), Res.ok_bind]
    generalize hval : jmValueOf σ1 x d = v at hv
    obtain ⟨σ2, s, y, b⟩ := v
    simp only at hv ⊢
    rcases jmAddAt_ok hv (c := .node s y b .nil) (fun q hq => List.mem_append_left _ hq) k (t := kids)
        (fun q hq => List.mem_append_right _ (List.mem_append_left _ (hm.2 q hq))) with e | ⟨t', e, he⟩
    · rw [e]
      simp only [jmNewPlain]
      have ha : Owns (memAlloc σ2).1 (jmPtrs (.node (memAlloc σ2).2 none (.node s y b .nil) .nil) ++
          (jlogPtrs (some (arr, ts)) ++ l)) := (alloc_owns hv).swap (by
        intro q
        simp only [jmPtrs, List.count_append, List.count_cons, List.count_nil, Option.toList_none]
        omega)
      rw [jmLink_ok ha (by simp [jmPtrs]) (by simp [jmPtrs]) (by
        intro q hq
        apply List.mem_append_left
        rw [jmPtrs]
        simp only [List.mem_cons, List.mem_append]
        exact Or.inr (Or.inr (Or.inl hq))), Res.ok_bind]
      obtain ⟨σ3, n, z, e3, h3⟩ := jmObjectAdd_ok (obj := root) (kids := kids) ha
        (List.mem_append_left _ hm.1) (fun q hq => List.mem_append_left _ (hm.2 q hq))
      obtain ⟨ts', e4, h4, w4⟩ := jlogSet_ok (l := l) w1 hget h3 (kids' := kids.append (.node n z .nil
          (.node (memAlloc σ2).2 none (.node s y b .nil) .nil))) (by
        intro q
        simp only [jmPtrs_append, List.count_append]
        omega)
      refine ⟨σ3, some (arr, ts'), ?_, h4, w4⟩
      rw [e3, Res.ok_bind]
      simp only
      rw [e4]
      rfl
    · rw [e]
      obtain ⟨ts', e4, h4, w4⟩ := jlogSet_ok (l := l) w1 hget hv (kids' := t') (by
        intro q
        have := he q
        simp only [List.count_append] at this ⊢
        omega)
      refine ⟨σ2, some (arr, ts'), ?_, h4, w4⟩
      simp only [Res.ok_bind]
      rw [e4]
      rfl

theorem jlogPrint_ok {σ : Mem} {g : JLog} {l : List Nat} (id : Int) (hw : JLogWf g)
    (h : Owns σ (jlogPtrs g ++ l)) : LogRes l (BadId id) (jlogPrint σ g id) := by
  rw [jlogPrint]
  rcases jlogGet_ok id hw h with ⟨hb, e⟩ | ⟨hb, σ1, arr, ts, root, kids, e1, h1, w1, hget⟩
  · rw [e]
    exact Or.inl ⟨hb, rfl⟩
  · refine Or.inr ⟨hb, ?_⟩
    have hm := stream_mem (arr := arr) hget
    refine ⟨σ1, some (arr, ts), ?_, h1, w1⟩
    rw [e1, Res.ok_bind]
    simp only
    rw [jmRead_ok h1 (by
      intro q hq
      simp [jmPtrs] at hq
      apply List.mem_append_left
      rcases hq with hq | hq
      · rw [hq]
        exact hm.1
      · exact hm.2 q hq)]
    rfl

theorem jlogClear_ok {σ : Mem} {g : JLog} {l : List Nat} (id : Int) (hw : JLogWf g)
    (h : Owns σ (jlogPtrs g ++ l)) : LogRes l (BadId id) (jlogClear σ g id) := by
  unfold jlogClear
  by_cases hid : id < 0 ∨ (jlogN : Int) ≤ id
  · rw [if_pos hid]
    exact Or.inl ⟨hid, rfl⟩
  · rw [if_neg hid]
    refine Or.inr ⟨hid, ?_⟩
    cases g with
    | none => exact ⟨σ, none, rfl, h, trivial⟩
    | some a =>
      obtain ⟨hl, hs⟩ := hw
      have hlt : id.toNat < a.2.length := by
        rw [hl]
        unfold jlogN at hid ⊢
        omega
      obtain ⟨rest, hr1, hr2, -⟩ := focusAt jmPtrs (List.getElem?_eq_getElem hlt)
      obtain ⟨σ1, e1, h1⟩ := c114_free a.2[id.toNat] (l := a.1 :: (rest ++ l)) (h.swap (by
        intro q
        simp only [jlogPtrs, List.count_append, List.count_cons, hr1]
        omega))
      refine ⟨σ1, some (a.1, a.2.set id.toNat .nil), ?_, h1.swap ?_, by simpa using hl, ?_⟩
      · simp only
        rw [use_ok h (by simp [jlogPtrs]), Res.ok_bind, readAt_ok hlt, Res.ok_bind, e1, Res.ok_bind, writeAt_ok _ hlt]
        rfl
      · intro q
        simp only [jlogPtrs, List.count_append, List.count_cons, hr2, jmPtrs, List.count_nil]
        omega
      · intro t ht'
        rcases List.mem_or_eq_of_mem_set ht' with h' | h'
        · exact hs t h'
        · rw [h']
          trivial

theorem jlogFreeAll_ok {σ : Mem} {arr : Nat} {l : List Nat} (ts : List JMT)
    (h : Owns σ (ts.flatMap jmPtrs ++ arr :: l)) : ∃ σ', jlogFreeAll σ arr ts = .ok σ' ∧ Owns σ' (arr :: l) := by
  induction ts generalizing σ with
  | nil => exact ⟨σ, rfl, h⟩
  | cons t ts ih =>
    obtain ⟨σ1, e1, h1⟩ := c114_free t (l := ts.flatMap jmPtrs ++ arr :: l) (by simpa using h)
    obtain ⟨σ2, e2, h2⟩ := ih h1
    exact ⟨σ2, by rw [jlogFreeAll, use_ok h (by simp), Res.ok_bind, e1, Res.ok_bind, e2], h2⟩

/-- Freeing the log leaves nothing of it, and it can be used again. -/
theorem c114_log_free {σ : Mem} {g : JLog} {l : List Nat} (h : Owns σ (jlogPtrs g ++ l)) :
    ∃ σ', jlogFree σ g = .ok (σ', none) ∧ Owns σ' l := by
  cases g with
  | none => exact ⟨σ, rfl, h⟩
  | some a =>
    obtain ⟨σ1, e1, h1⟩ := jlogFreeAll_ok (arr := a.1) (l := l) a.2 (h.swap (by
      intro q
      simp only [jlogPtrs, List.count_append, List.count_cons]
      omega))
    obtain ⟨σ2, e2, h2⟩ := free_owns h1
    exact ⟨σ2, by rw [jlogFree, e1, Res.ok_bind, e2]; rfl, h2⟩

/-- The number of a stream that a call has is wrong. -/
def JLogOp.Bad : JLogOp → Prop
  | .add id _ _ => BadId id
  | .append id _ _ _ => BadId id
  | .print id => BadId id
  | .clear id => BadId id
  | .free => False

/-- A program of calls for the log is ended exactly by a wrong number of a stream; otherwise it leaves exactly the
blocks of the log. -/
theorem c114_log {σ : Mem} {g : JLog} {l : List Nat} (os : List JLogOp) (hw : JLogWf g)
    (h : Owns σ (jlogPtrs g ++ l)) : LogRes l (∃ o ∈ os, o.Bad) (jlogRun σ g os) := by
  induction os generalizing σ g with
  | nil => exact Or.inr ⟨by simp, σ, g, rfl, h, hw⟩
  | cons o os ih =>
    have step : LogRes l o.Bad (jlogStep σ g o) := by
      cases o with
      | add id x d => exact jlogAdd_ok id x d hw h
      | append id k x d => exact jlogAppend_ok id k x d hw h
      | print id => exact jlogPrint_ok id hw h
      | clear id => exact jlogClear_ok id hw h
      | free =>
        obtain ⟨σ1, e1, h1⟩ := c114_log_free h
        exact Or.inr ⟨id, σ1, none, e1, h1, trivial⟩
    rw [jlogRun]
    rcases step with ⟨hb, e⟩ | ⟨hb, σ1, g1, e1, h1, w1⟩
    · rw [e]
      exact Or.inl ⟨⟨o, by simp, hb⟩, rfl⟩
    · rw [e1, Res.ok_bind]
      rcases ih w1 h1 with ⟨⟨o', ho', hb'⟩, e'⟩ | ⟨hb', h'⟩
      · exact Or.inl ⟨⟨o', List.mem_cons_of_mem _ ho', hb'⟩, e'⟩
      · refine Or.inr ⟨?_, h'⟩
        rintro ⟨o', ho', hbo⟩
        rcases List.mem_cons.mp ho' with rfl | ho'
        · exact hb hbo
        · exact hb' ⟨o', ho', hbo⟩

/-- From the start to the end: a program that uses the streams 0 to 31 of the log in any way and frees it leaves no
block behind. -/
theorem c114_log_life (k : Nat) (os : List JLogOp) (hos : ∀ o ∈ os, ¬ o.Bad) :
    ∃ σ g σ', jlogRun ⟨[], k⟩ none os = .ok (σ, g) ∧ jlogFree σ g = .ok (σ', none) ∧ σ'.live = [] := by
  have h0 : Owns ⟨[], k⟩ [] := ⟨by simp, by simp, by simp⟩
  rcases c114_log (g := none) (l := []) os trivial h0 with ⟨⟨o, ho, hb⟩, -⟩ | ⟨-, σ, g, e, h, w⟩
  · exact absurd hb (hos o ho)
  · obtain ⟨σ', e', h'⟩ := c114_log_free h
    refine ⟨σ, g, σ', e, e', ?_⟩
    rw [List.eq_nil_iff_forall_not_mem]
    intro q hq
    have := h'.same q
    rw [List.count_nil, List.count_eq_zero] at this
    exact this hq

/-- `{"a" : [1, {}, true], "b" : "x"}`. -/
def jmDemo : List JTT :=
  [.lcbrac, .string, .colon, .lsbrac, .integer, .comma, .lcbrac, .rcbrac, .comma, .tru, .rsbrac, .comma, .string, .colon,
    .string, .rcbrac]

/-- The tree has eight nodes, and four of them a text. -/
example : (match jmFromStream ⟨[], 7⟩ 30 jmDemo with
    | .ok (σ, t) => decide (σ.live.length = 12 ∧ (jmPtrs t).length = 12)
    | _ => false) = true := by decide +kernel

example : (match jmFromStream ⟨[], 7⟩ 1100 jmDemo with
    | .ok (σ, t) => (match jmFree σ t with
      | .ok σ' => decide (σ'.live = [])
      | _ => false)
    | _ => false) = true := by decide +kernel

/-- A comma too many. -/
example : (match jmFromString ⟨[], 7⟩ [.lsbrac, .integer, .comma, .rsbrac] with
    | .fatal => true
    | _ => false) = true := by decide +kernel

/-- Two streams, one of them cleared and used again. -/
example : (match jlogRun ⟨[], 7⟩ none [.add 3 true .nil, .append 3 7 true .nil, .append 3 3 true .nil, .print 3,
      .add 31 false (.node true .nil .nil), .clear 3, .clear 4, .print 3] with
    | .ok (σ, g) => decide (σ.live.length = 8 ∧ (jlogPtrs g).length = 8)
    | _ => false) = true := by decide +kernel

/-- A stream that is not there. -/
example : (match jlogRun ⟨[], 7⟩ none [.add 32 true .nil] with
    | .fatal => true
    | _ => false) = true := by decide +kernel

end Nx
