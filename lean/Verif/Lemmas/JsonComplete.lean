import Verif.Lemmas.JsonParser

/-! # The JSON parser accepts the texts of the grammar -/

namespace Nx

/-- Texts that can follow a value: white space, then nothing or one of `,` `]` `}`. -/
def Stop (y : Bytes) : Prop :=
  ∃ a, Ws a ∧ (y = a ∨ ∃ c r, y = a ++ c :: r ∧ (c = 44 ∨ c = 93 ∨ c = 125))

theorem ws_cons {b : Byte} {a : Bytes} (h : Ws (b :: a)) : b = 10 ∨ b = 13 ∨ b = 9 ∨ b = 32 := h b (by simp)

theorem Stop.lexOk {y} (h : Stop y) : LexOk y := by
  obtain ⟨a, ha, h | ⟨c, r, e, hc⟩⟩ := h
  · subst h; exact ⟨_, [], Or.inl ⟨ha, rfl, rfl⟩⟩
  · rcases hc with hc | hc | hc <;> subst hc
    · exact ⟨_, r, Or.inr ⟨a, _, e, ha, .punct (c := 44) (ty := .comma) (by decide)⟩⟩
    · exact ⟨_, r, Or.inr ⟨a, _, e, ha, .punct (c := 93) (ty := .rsbrac) (by decide)⟩⟩
    · exact ⟨_, r, Or.inr ⟨a, _, e, ha, .punct (c := 125) (ty := .rcbrac) (by decide)⟩⟩

theorem Stop.numStop {y} (h : Stop y) (frac exp : Bytes) : NumStop frac exp y := by
  have hb : ∀ b r, y = b :: r → b ∈ ([10, 13, 9, 32, 44, 93, 125] : Bytes) := by
    intro b r e
    obtain ⟨a, ha, h | ⟨c, r', e', hc⟩⟩ := h
    · subst h; subst e
      rcases ws_cons ha with h | h | h | h <;> subst h <;> decide
    · subst e'
      cases a with
      | nil =>
        simp only [List.nil_append, List.cons.injEq] at e
        rw [← e.1]
        rcases hc with h | h | h <;> subst h <;> decide
      | cons x a =>
        simp only [List.cons_append, List.cons.injEq] at e
        rw [← e.1]
        rcases ws_cons ha with h | h | h | h <;> subst h <;> decide
  intro b r e
  have h1 := hb b r e
  have : ∀ b ∈ ([10, 13, 9, 32, 44, 93, 125] : Bytes), ¬ IsDigit b ∧ (b ≠ 101 ∧ b ≠ 69) ∧ b ≠ 46 := by
    decide
  obtain ⟨h2, h3, h4⟩ := this b h1
  exact ⟨h2, fun _ => h3, fun _ _ => h4⟩

theorem stop_punct {a : Bytes} {c : Byte} {r : Bytes} (ha : Ws a) (hc : c = 44 ∨ c = 93 ∨ c = 125) :
    Stop (a ++ c :: r) := ⟨a, ha, Or.inr ⟨c, r, rfl, hc⟩⟩

/-- The token in the parser is determined by the text. -/
theorem pAt_tok {T s w m tok y} (h : PAt T s w m) (ht : TokAt w tok y) :
    s.tok = tok ∧ ∃ pre, LexAt T s.lex pre y := by
  obtain ⟨l0, pre, pre', y', h1, h2, h3, h4, h5⟩ := h
  obtain ⟨l', pre2, g1, g2⟩ := nextToken_ok h1 ht
  rw [h2] at g1
  cases g1
  exact ⟨rfl, pre2, g2⟩

theorem lex_consume {T l pre y} (h : LexAt T l pre y) (hy : LexOk y) :
    ∃ s m, jpConsume l = .ok s ∧ PAt T s y m := by
  obtain ⟨tok, z, hz⟩ := hy
  obtain ⟨l', pre', h1, h2⟩ := nextToken_ok h hz
  exact ⟨⟨l', tok⟩, _, by unfold jpConsume; rw [h1]; rfl, l, pre, pre', z, h, h1, h2, hz, rfl⟩

theorem match_ok {T s m a y} (c : Byte) (ty : JTT) (hc : (c, ty) ∈ punctTable) (ha : Ws a)
    (h : PAt T s (a ++ c :: y) m) (hy : LexOk y) :
    s.tok.type = ty ∧ ∃ s' m', jpMatch s ty = .ok s' ∧ PAt T s' y m' := by
  obtain ⟨h1, pre, h2⟩ := pAt_tok h (Or.inr ⟨a, c :: y, rfl, ha, .punct hc⟩)
  have ht : s.tok.type = ty := by rw [h1]
  obtain ⟨s', m', g1, g2⟩ := lex_consume h2 hy
  exact ⟨ht, s', m', by unfold jpMatch; rw [if_pos ht]; exact g1, g2⟩

theorem strText_tok {k q y : Bytes} (hq : StrText k q) {a : Bytes} (ha : Ws a) :
    TokAt (a ++ q ++ y) ⟨.string, some k⟩ y := by
  obtain ⟨b, e, h1, h2⟩ := hq
  subst e
  exact Or.inr ⟨a, 34 :: b ++ 34 :: y, by simp, ha, .str h1 h2⟩

/-- Type of the first token of a value. -/
def firstTok : JVal → JTT
  | .str _ => .string
  | .int _ => .integer
  | .fp _ => .fpnum
  | .tru => .tru
  | .fls => .fls
  | .nul => .nul
  | .arr _ => .lsbrac
  | .obj _ => .lcbrac

theorem val_first {v : JVal} {x y : Bytes} (h : ValText v x) (hy : Stop y) :
    ∃ tok z, TokAt (x ++ y) tok z ∧ tok.type = firstTok v := by
  cases v with
  | str s =>
    unfold ValText at h
    obtain ⟨a, q, e, ha, hq⟩ := h
    subst e
    exact ⟨_, y, strText_tok hq ha, rfl⟩
  | int w =>
    unfold ValText at h
    obtain ⟨a, e, ha, sign, int, e2, hp⟩ := h
    subst e; subst e2
    exact ⟨_, y, Or.inr ⟨a, _, by rw [List.append_assoc], ha, .int hp (hy.numStop _ _)⟩, rfl⟩
  | fp w =>
    unfold ValText at h
    obtain ⟨a, e, ha, sign, int, frac, exp, e2, hp, hc⟩ := h
    subst e; subst e2
    exact ⟨_, y, Or.inr ⟨a, _, by rw [List.append_assoc], ha, .fp hp (hy.numStop _ _) hc⟩, rfl⟩
  | tru =>
    unfold ValText at h
    obtain ⟨a, e, ha⟩ := h
    subst e
    exact ⟨_, y, Or.inr ⟨a, [116, 114, 117, 101] ++ y, by rw [List.append_assoc], ha, .keyword (k := [116, 114, 117, 101]) (ty := .tru) (by decide)⟩, rfl⟩
  | fls =>
    unfold ValText at h
    obtain ⟨a, e, ha⟩ := h
    subst e
    exact ⟨_, y, Or.inr ⟨a, [102, 97, 108, 115, 101] ++ y, by rw [List.append_assoc], ha, .keyword (k := [102, 97, 108, 115, 101]) (ty := .fls) (by decide)⟩, rfl⟩
  | nul =>
    unfold ValText at h
    obtain ⟨a, e, ha⟩ := h
    subst e
    exact ⟨_, y, Or.inr ⟨a, [110, 117, 108, 108] ++ y, by rw [List.append_assoc], ha, .keyword (k := [110, 117, 108, 108]) (ty := .nul) (by decide)⟩, rfl⟩
  | arr el =>
    unfold ValText at h
    obtain ⟨a, q, b, e, ha, _⟩ := h
    subst e
    exact ⟨_, q ++ b ++ [93] ++ y, Or.inr ⟨a, 91 :: (q ++ b ++ [93] ++ y), by simp, ha,
      .punct (ty := .lsbrac) (by decide)⟩, rfl⟩
  | obj mm =>
    unfold ValText at h
    obtain ⟨a, q, b, e, ha, _⟩ := h
    subst e
    exact ⟨_, q ++ b ++ [125] ++ y, Or.inr ⟨a, 123 :: (q ++ b ++ [125] ++ y), by simp, ha,
      .punct (ty := .lcbrac) (by decide)⟩, rfl⟩

theorem container_first {v : JVal} {x y : Bytes} (h : ValText v x) (hv : v.IsContainer) :
    ∃ tok z, TokAt (x ++ y) tok z ∧ tok.type = firstTok v := by
  cases v with
  | arr el =>
    unfold ValText at h
    obtain ⟨a, q, b, e, ha, _⟩ := h
    subst e
    exact ⟨_, q ++ b ++ [93] ++ y, Or.inr ⟨a, 91 :: (q ++ b ++ [93] ++ y), by simp, ha,
      .punct (ty := .lsbrac) (by decide)⟩, rfl⟩
  | obj mm =>
    unfold ValText at h
    obtain ⟨a, q, b, e, ha, _⟩ := h
    subst e
    exact ⟨_, q ++ b ++ [125] ++ y, Or.inr ⟨a, 123 :: (q ++ b ++ [125] ++ y), by simp, ha,
      .punct (ty := .lcbrac) (by decide)⟩, rfl⟩
  | _ => exact absurd hv (by simp [JVal.IsContainer])

/-- Values made of a single token. -/
theorem leaf_tok {v : JVal} {x y : Bytes} (h : ValText v x) (hv : ¬ v.IsContainer) (hy : Stop y)
    (h0 : ∀ b ∈ x, b ≠ 0) :
    ∃ tok, TokAt (x ++ y) tok y ∧ tok.type = firstTok v ∧
      jpNewNode tok.type tok.text = .ok (nodeOf (allTrue v)) := by
  cases v with
  | str s =>
    unfold ValText at h
    obtain ⟨a, q, e, ha, hq⟩ := h
    subst e
    refine ⟨_, strText_tok hq ha, rfl, ?_⟩
    unfold jpNewNode jsonNewVariable
    simp only
    rw [cut_zero (strText_ne_zero hq (fun b hb => h0 b (by simp [hb])))]
    simp [allTrue, nodeOf]
  | int w =>
    unfold ValText at h
    obtain ⟨a, e, ha, sign, int, e2, hp⟩ := h
    subst e; subst e2
    refine ⟨_, Or.inr ⟨a, _, by rw [List.append_assoc], ha, .int hp (hy.numStop _ _)⟩, rfl, ?_⟩
    unfold jpNewNode jsonNewVariable
    simp only
    rw [cut_zero (fun b hb => h0 b (by rw [List.mem_append]; right; exact hb))]
    simp [allTrue, nodeOf]
  | fp w =>
    unfold ValText at h
    obtain ⟨a, e, ha, sign, int, frac, exp, e2, hp, hc⟩ := h
    subst e; subst e2
    refine ⟨_, Or.inr ⟨a, _, by rw [List.append_assoc], ha, .fp hp (hy.numStop _ _) hc⟩, rfl, ?_⟩
    unfold jpNewNode jsonNewVariable
    simp only
    rw [cut_zero (fun b hb => h0 b (by rw [List.mem_append]; right; exact hb))]
    simp [allTrue, nodeOf]
  | tru =>
    unfold ValText at h
    obtain ⟨a, e, ha⟩ := h
    subst e
    refine ⟨_, Or.inr ⟨a, [116, 114, 117, 101] ++ y, by rw [List.append_assoc], ha, .keyword (k := [116, 114, 117, 101]) (ty := .tru) (by decide)⟩, rfl, ?_⟩
    simp [jpNewNode, jsonNewTrue, allTrue, nodeOf]
  | fls =>
    unfold ValText at h
    obtain ⟨a, e, ha⟩ := h
    subst e
    refine ⟨_, Or.inr ⟨a, [102, 97, 108, 115, 101] ++ y, by rw [List.append_assoc], ha, .keyword (k := [102, 97, 108, 115, 101]) (ty := .fls) (by decide)⟩, rfl, ?_⟩
    simp [jpNewNode, jsonNewFalse, allTrue, nodeOf]
  | nul =>
    unfold ValText at h
    obtain ⟨a, e, ha⟩ := h
    subst e
    refine ⟨_, Or.inr ⟨a, [110, 117, 108, 108] ++ y, by rw [List.append_assoc], ha, .keyword (k := [110, 117, 108, 108]) (ty := .nul) (by decide)⟩, rfl, ?_⟩
    simp [jpNewNode, jsonNewNull, allTrue, nodeOf]
  | arr el => exact absurd trivial hv
  | obj mm => exact absurd trivial hv

theorem more_stop {e : JElems} {x y : Bytes} (h : MoreElemsText e x) (hy : Stop y) : Stop (x ++ y) := by
  cases e with
  | nil => unfold MoreElemsText at h; subst h; exact hy
  | cons v e =>
    unfold MoreElemsText at h
    obtain ⟨a, p, q, e, ha, _⟩ := h
    subst e
    have : a ++ [44] ++ p ++ q ++ y = a ++ 44 :: (p ++ q ++ y) := by simp
    rw [this]; exact stop_punct ha (Or.inl rfl)

theorem moreMembers_stop {e : JMembers} {x y : Bytes} (h : MoreMembersText e x) (hy : Stop y) :
    Stop (x ++ y) := by
  cases e with
  | nil => unfold MoreMembersText at h; subst h; exact hy
  | cons k v e =>
    unfold MoreMembersText at h
    obtain ⟨c, a, q, b, p, r, e, hc, _⟩ := h
    subst e
    have : c ++ [44] ++ a ++ q ++ b ++ [58] ++ p ++ r ++ y = c ++ 44 :: (a ++ q ++ b ++ [58] ++ p ++ r ++ y) := by simp
    rw [this]; exact stop_punct hc (Or.inl rfl)

/-- What comes after a list of elements or members: white space and one of `]` `}`. -/
def Close (c : Byte) (y : Bytes) : Prop := ∃ b r, y = b ++ c :: r ∧ Ws b

theorem Close.stop {c y} (h : Close c y) (hc : c = 44 ∨ c = 93 ∨ c = 125) : Stop y := by
  obtain ⟨b, r, e, hb⟩ := h
  subst e; exact stop_punct hb hc

/-- What the parse functions do on texts of the grammar. -/
structure ParserOk (T : Bytes) (fuel : Nat) : Prop where
  value : ∀ v s x y m, ValText v x → Stop y → PAt T s (x ++ y) m →
    (∃ s' m', jpValue fuel s = .ok (nodeOf (allTrue v), s') ∧ PAt T s' y m') ∨ jpValue fuel s = .ub
  array : ∀ e s x y m, ValText (.arr e) x → LexOk y → PAt T s (x ++ y) m →
    (∃ s' m', jpArray fuel s = .ok (nodeOf (allTrue (.arr e)), s') ∧ PAt T s' y m') ∨ jpArray fuel s = .ub
  object : ∀ e s x y m, ValText (.obj e) x → LexOk y → PAt T s (x ++ y) m →
    (∃ s' m', jpObject fuel s = .ok (nodeOf (allTrue (.obj e)), s') ∧ PAt T s' y m') ∨ jpObject fuel s = .ub
  elements : ∀ v e s x y m, ElemsText (.cons v e) x → Close 93 y → PAt T s (x ++ y) m →
    (∃ s' m', jpElements fuel s = .ok (elemsOf (allTrueElems (.cons v e)), s') ∧ PAt T s' y m') ∨
      jpElements fuel s = .ub
  more : ∀ e s x y m, MoreElemsText e x → Close 93 y → PAt T s (x ++ y) m →
    (∃ s' m', jpElementsLoop fuel s = .ok (elemsOf (allTrueElems e), s') ∧ PAt T s' y m') ∨
      jpElementsLoop fuel s = .ub
  pair : ∀ k v s a q b x y m, Ws a → StrText k q → Ws b → ValText v x → Stop y →
    PAt T s (a ++ q ++ b ++ [58] ++ x ++ y) m →
    (∃ s' m', jpPair fuel s = .ok (⟨.string, some k, .nil⟩, nodeOf (allTrue v), s') ∧ PAt T s' y m') ∨
      jpPair fuel s = .ub
  members : ∀ k v e s x y m, MembersText (.cons k v e) x → Close 125 y → PAt T s (x ++ y) m →
    (∃ s' m', jpMembers fuel s = .ok (membersOf (allTrueMembers (.cons k v e)), s') ∧ PAt T s' y m') ∨
      jpMembers fuel s = .ub
  moreMembers : ∀ e s x y m, MoreMembersText e x → Close 125 y → PAt T s (x ++ y) m →
    (∃ s' m', jpMembersLoop fuel s = .ok (membersOf (allTrueMembers e), s') ∧ PAt T s' y m') ∨
      jpMembersLoop fuel s = .ub

theorem pAt_eq {T s w w' m} (h : PAt T s w m) (e : w = w') : PAt T s w' m := e ▸ h

theorem jpMatchNode_leaf {T s x y m v} (h : ValText v x) (hv : ¬ v.IsContainer) (hy : Stop y)
    (hp : PAt T s (x ++ y) m) :
    s.tok.type = firstTok v ∧
    ∃ s' m', jpMatchNode s (firstTok v) = .ok (nodeOf (allTrue v), s') ∧ PAt T s' y m' := by
  obtain ⟨tok, h1, h2, h3⟩ := leaf_tok h hv hy (fun b hb => (pAt_mem hp b (by simp [hb])).1)
  obtain ⟨g1, pre, g2⟩ := pAt_tok hp h1
  obtain ⟨s', m', k1, k2⟩ := lex_consume g2 hy.lexOk
  have ht : s.tok.type = firstTok v := by rw [g1, h2]
  refine ⟨ht, s', m', ?_, k2⟩
  unfold jpMatchNode
  rw [if_pos ht, ← h2, g1, h3]
  simp only [Res.ok_bind]
  rw [k1]; rfl

theorem parser_ok (T : Bytes) : ∀ fuel, ParserOk T fuel := by
  intro fuel
  induction fuel with
  | zero =>
    constructor <;> intros <;> right
    · unfold jpValue; rfl
    · unfold jpArray; rfl
    · unfold jpObject; rfl
    · unfold jpElements; rfl
    · unfold jpElementsLoop; rfl
    · unfold jpPair; rfl
    · unfold jpMembers; rfl
    · unfold jpMembersLoop; rfl
  | succ fuel ih =>
    constructor
    case value =>
      intro v s x y m hx hy h
      unfold jpValue
      have leaf : ∀ ty, firstTok v = ty → ¬ v.IsContainer → s.tok.type = ty ∧
          ((∃ s' m', jpMatchNode s ty = .ok (nodeOf (allTrue v), s') ∧ PAt T s' y m') ∨ jpMatchNode s ty = .ub) := by
        intro ty e hv
        obtain ⟨h1, h2⟩ := jpMatchNode_leaf hx hv hy h
        rw [e] at h1 h2
        exact ⟨h1, Or.inl h2⟩
      cases v with
      | str w => obtain ⟨h1, h2⟩ := leaf .string rfl (by simp [JVal.IsContainer]); rw [h1]; exact h2
      | int w => obtain ⟨h1, h2⟩ := leaf .integer rfl (by simp [JVal.IsContainer]); rw [h1]; exact h2
      | fp w => obtain ⟨h1, h2⟩ := leaf .fpnum rfl (by simp [JVal.IsContainer]); rw [h1]; exact h2
      | tru => obtain ⟨h1, h2⟩ := leaf .tru rfl (by simp [JVal.IsContainer]); rw [h1]; exact h2
      | fls => obtain ⟨h1, h2⟩ := leaf .fls rfl (by simp [JVal.IsContainer]); rw [h1]; exact h2
      | nul => obtain ⟨h1, h2⟩ := leaf .nul rfl (by simp [JVal.IsContainer]); rw [h1]; exact h2
      | arr e =>
        obtain ⟨tok, z, h1, h2⟩ := val_first hx hy
        have h3 : s.tok.type = .lsbrac := by rw [(pAt_tok h h1).1, h2]; rfl
        rw [h3]
        exact ih.array e s x y m hx hy.lexOk h
      | obj e =>
        obtain ⟨tok, z, h1, h2⟩ := val_first hx hy
        have h3 : s.tok.type = .lcbrac := by rw [(pAt_tok h h1).1, h2]; rfl
        rw [h3]
        exact ih.object e s x y m hx hy.lexOk h
    case array =>
      intro el s x y m hx hy h
      unfold jpArray
      unfold ValText at hx
      obtain ⟨a, q, b, e, ha, hb, hq⟩ := hx
      subst e
      have h' := pAt_eq h (show _ = a ++ 91 :: (q ++ (b ++ 93 :: y)) by simp)
      cases el with
      | nil =>
        unfold ElemsText at hq; subst hq
        have hl : LexOk ([] ++ (b ++ 93 :: y)) := (stop_punct hb (Or.inr (Or.inl rfl))).lexOk
        obtain ⟨_, s1, m1, g1, g2⟩ := match_ok 91 .lsbrac (by decide) ha h' hl
        rw [g1]
        simp only [Res.ok_bind]
        obtain ⟨k0, s2, m2, k1, k2⟩ := match_ok 93 .rsbrac (by decide) hb g2 hy
        rw [if_pos k0, k1]
        left
        exact ⟨s2, m2, by simp [allTrue, allTrueElems, nodeOf, elemsOf], k2⟩
      | cons v el =>
        have hc : Close 93 (b ++ 93 :: y) := ⟨b, y, rfl, hb⟩
        have hq' := hq
        unfold ElemsText at hq'
        obtain ⟨p, r, e, hp, hr⟩ := hq'
        obtain ⟨tok, z, ht, hty⟩ := val_first hp (more_stop hr (hc.stop (Or.inr (Or.inl rfl))))
        have ht' : TokAt (q ++ (b ++ 93 :: y)) tok z := by rw [e, List.append_assoc]; exact ht
        obtain ⟨_, s1, m1, g1, g2⟩ := match_ok 91 .lsbrac (by decide) ha h' ⟨tok, z, ht'⟩
        rw [g1]
        simp only [Res.ok_bind]
        have hne : s1.tok.type ≠ .rsbrac := by
          rw [(pAt_tok g2 ht').1, hty]; cases v <;> simp [firstTok]
        rw [if_neg hne]
        rcases ih.elements v el s1 q _ m1 hq hc g2 with ⟨s2, m2, k1, k2⟩ | hu
        · rw [k1]
          simp only [Res.ok_bind]
          obtain ⟨_, s3, m3, j1, j2⟩ := match_ok 93 .rsbrac (by decide) hb k2 hy
          rw [j1]
          left
          exact ⟨s3, m3, by simp [allTrue, nodeOf], j2⟩
        · right; rw [hu]; rfl
    case object =>
      intro el s x y m hx hy h
      unfold jpObject
      unfold ValText at hx
      obtain ⟨a, q, b, e, ha, hb, hq⟩ := hx
      subst e
      have h' := pAt_eq h (show _ = a ++ 123 :: (q ++ (b ++ 125 :: y)) by simp)
      cases el with
      | nil =>
        unfold MembersText at hq; subst hq
        have hl : LexOk ([] ++ (b ++ 125 :: y)) := (stop_punct hb (Or.inr (Or.inr rfl))).lexOk
        obtain ⟨_, s1, m1, g1, g2⟩ := match_ok 123 .lcbrac (by decide) ha h' hl
        rw [g1]
        simp only [Res.ok_bind]
        obtain ⟨k0, s2, m2, k1, k2⟩ := match_ok 125 .rcbrac (by decide) hb g2 hy
        rw [if_pos k0, k1]
        left
        exact ⟨s2, m2, by simp [allTrue, allTrueMembers, nodeOf, membersOf], k2⟩
      | cons k v el =>
        have hc : Close 125 (b ++ 125 :: y) := ⟨b, y, rfl, hb⟩
        have hq' := hq
        unfold MembersText at hq'
        obtain ⟨a2, q2, b2, p, r, e, ha2, hq2, _⟩ := hq'
        have ht' : TokAt (q ++ (b ++ 125 :: y)) ⟨.string, some k⟩ (b2 ++ [58] ++ p ++ r ++ (b ++ 125 :: y)) := by
          have := strText_tok (y := b2 ++ [58] ++ p ++ r ++ (b ++ 125 :: y)) hq2 ha2
          rw [e]
          simpa using this
        obtain ⟨_, s1, m1, g1, g2⟩ := match_ok 123 .lcbrac (by decide) ha h' ⟨_, _, ht'⟩
        rw [g1]
        simp only [Res.ok_bind]
        have hne : s1.tok.type ≠ .rcbrac := by
          rw [(pAt_tok g2 ht').1]; simp
        rw [if_neg hne]
        rcases ih.members k v el s1 q _ m1 hq hc g2 with ⟨s2, m2, k1, k2⟩ | hu
        · rw [k1]
          simp only [Res.ok_bind]
          obtain ⟨_, s3, m3, j1, j2⟩ := match_ok 125 .rcbrac (by decide) hb k2 hy
          rw [j1]
          left
          exact ⟨s3, m3, by simp [allTrue, nodeOf], j2⟩
        · right; rw [hu]; rfl
    case elements =>
      intro v el s x y m hx hy h
      unfold jpElements
      unfold ElemsText at hx
      obtain ⟨p, r, e, hp, hr⟩ := hx
      subst e
      have hs := hy.stop (Or.inr (Or.inl rfl))
      rcases ih.value v s p (r ++ y) m hp (more_stop hr hs) (pAt_eq h (by simp)) with ⟨s1, m1, g1, g2⟩ | hu
      · rw [g1]
        simp only [Res.ok_bind]
        rcases ih.more el s1 r y m1 hr hy g2 with ⟨s2, m2, k1, k2⟩ | hu
        · rw [k1]
          left
          exact ⟨s2, m2, by simp [allTrueElems, elemsOf, JNode.cons], k2⟩
        · right; rw [hu]; rfl
      · right; rw [hu]; rfl
    case more =>
      intro el s x y m hx hy h
      unfold jpElementsLoop
      have hs := hy.stop (Or.inr (Or.inl rfl))
      cases el with
      | nil =>
        unfold MoreElemsText at hx; subst hx
        obtain ⟨b, r, e, hb⟩ := hy
        subst e
        have : s.tok.type ≠ .comma := by
          rw [(pAt_tok h (Or.inr ⟨b, 93 :: r, rfl, hb, .punct (ty := .rsbrac) (by decide)⟩)).1]; simp
        rw [if_neg this]
        left
        exact ⟨s, m, by simp [allTrueElems, elemsOf], h⟩
      | cons v el =>
        unfold MoreElemsText at hx
        obtain ⟨a, p, r, e, ha, hp, hr⟩ := hx
        subst e
        have h' := pAt_eq h (show _ = a ++ 44 :: (p ++ (r ++ y)) by simp)
        have hst := more_stop hr hs
        obtain ⟨tok, z, ht, _⟩ := val_first hp hst
        obtain ⟨g0, s0, m0, g01, g02⟩ := match_ok 44 .comma (by decide) ha h' ⟨tok, z, ht⟩
        rw [if_pos g0, g01]
        simp only [Res.ok_bind]
        rcases ih.value v s0 p (r ++ y) m0 hp hst g02 with ⟨s1, m1, g1, g2⟩ | hu
        · rw [g1]
          simp only [Res.ok_bind]
          rcases ih.more el s1 r y m1 hr hy g2 with ⟨s2, m2, k1, k2⟩ | hu
          · rw [k1]
            left
            exact ⟨s2, m2, by simp [allTrueElems, elemsOf, JNode.cons], k2⟩
          · right; rw [hu]; rfl
        · right; rw [hu]; rfl
    case pair =>
      intro k v s a q b x y m ha hq hb hx hy h
      unfold jpPair
      have h' := pAt_eq h (show _ = a ++ q ++ (b ++ 58 :: (x ++ y)) by simp)
      have htok := strText_tok (y := b ++ 58 :: (x ++ y)) hq ha
      obtain ⟨h1, pre, h2⟩ := pAt_tok h' htok
      have hl : LexOk (b ++ 58 :: (x ++ y)) :=
        ⟨_, x ++ y, Or.inr ⟨b, _, rfl, hb, .punct (ty := .colon) (by decide)⟩⟩
      obtain ⟨s1, m1, g1, g2⟩ := lex_consume h2 hl
      have hk0 := strText_ne_zero hq (fun z hz => (pAt_mem h z (by simp [hz])).1)
      have hm : jpMatchNode s .string = .ok (⟨.string, some k, .nil⟩, s1) := by
        unfold jpMatchNode
        rw [if_pos (by rw [h1]), h1]
        unfold jpNewNode jsonNewVariable
        simp only [Res.ok_bind]
        rw [cut_zero hk0, g1]; rfl
      rw [hm]
      simp only [Res.ok_bind]
      obtain ⟨tok, z, ht, _⟩ := val_first hx hy
      obtain ⟨_, s2, m2, k1, k2⟩ := match_ok 58 .colon (by decide) hb g2 ⟨tok, z, ht⟩
      rw [k1]
      simp only [Res.ok_bind]
      rcases ih.value v s2 x y m2 hx hy k2 with ⟨s3, m3, j1, j2⟩ | hu
      · rw [j1]
        left
        exact ⟨s3, m3, rfl, j2⟩
      · right; rw [hu]; rfl
    case members =>
      intro k v el s x y m hx hy h
      unfold jpMembers
      unfold MembersText at hx
      obtain ⟨a, q, b, p, r, e, ha, hq, hb, hp, hr⟩ := hx
      subst e
      have hs := hy.stop (Or.inr (Or.inr rfl))
      rcases ih.pair k v s a q b p (r ++ y) m ha hq hb hp (moreMembers_stop hr hs) (pAt_eq h (by simp)) with
        ⟨s1, m1, g1, g2⟩ | hu
      · rw [g1]
        simp only [Res.ok_bind]
        rcases ih.moreMembers el s1 r y m1 hr hy g2 with ⟨s2, m2, k1, k2⟩ | hu
        · rw [k1]
          left
          exact ⟨s2, m2, by simp [allTrueMembers, membersOf, JNode.cons], k2⟩
        · right; rw [hu]; rfl
      · right; rw [hu]; rfl
    case moreMembers =>
      intro el s x y m hx hy h
      unfold jpMembersLoop
      have hs := hy.stop (Or.inr (Or.inr rfl))
      cases el with
      | nil =>
        unfold MoreMembersText at hx; subst hx
        obtain ⟨b, r, e, hb⟩ := hy
        subst e
        have : s.tok.type ≠ .comma := by
          rw [(pAt_tok h (Or.inr ⟨b, 125 :: r, rfl, hb, .punct (ty := .rcbrac) (by decide)⟩)).1]; simp
        rw [if_neg this]
        left
        exact ⟨s, m, by simp [allTrueMembers, membersOf], h⟩
      | cons k v el =>
        unfold MoreMembersText at hx
        obtain ⟨c, a, q, b, p, r, e, hc, ha, hq, hb, hp, hr⟩ := hx
        subst e
        have h' := pAt_eq h (show _ = c ++ 44 :: (a ++ q ++ b ++ [58] ++ p ++ (r ++ y)) by simp)
        have hst := moreMembers_stop hr hs
        have htok : TokAt (a ++ q ++ b ++ [58] ++ p ++ (r ++ y)) ⟨.string, some k⟩ (b ++ [58] ++ p ++ (r ++ y)) := by
          have := strText_tok (y := b ++ [58] ++ p ++ (r ++ y)) hq ha
          simpa using this
        obtain ⟨g0, s0, m0, g01, g02⟩ := match_ok 44 .comma (by decide) hc h' ⟨_, _, htok⟩
        rw [if_pos g0, g01]
        simp only [Res.ok_bind]
        rcases ih.pair k v s0 a q b p (r ++ y) m0 ha hq hb hp hst g02 with ⟨s1, m1, g1, g2⟩ | hu
        · rw [g1]
          simp only [Res.ok_bind]
          rcases ih.moreMembers el s1 r y m1 hr hy g2 with ⟨s2, m2, k1, k2⟩ | hu
          · rw [k1]
            left
            exact ⟨s2, m2, by simp [allTrueMembers, membersOf, JNode.cons], k2⟩
          · right; rw [hu]; rfl
        · right; rw [hu]; rfl

end Nx
