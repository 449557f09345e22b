import Verif.Lemmas.JsonLexer

/-! # The JSON parser in terms of the text ahead -/

namespace Nx

/-- The parser state `s` holds the first token of the text `w`; `m` bounds the
number of tokens to come. -/
def PAt (T : Bytes) (s : JParser) (w : Bytes) (m : Nat) : Prop :=
  ∃ l0 pre pre' y, LexAt T l0 pre w ∧ jsonNextToken l0 = .ok (s.lex, s.tok) ∧
    LexAt T s.lex pre' y ∧ TokAt w s.tok y ∧ m = y.length + (if s.tok.type = .eof then 0 else 1)

theorem pAt_consume_any {T l pre w} (h : LexAt T l pre w) :
    (∃ s m, jpConsume l = .ok s ∧ PAt T s w m ∧ m ≤ w.length) ∨ jpConsume l = .fatal := by
  rcases nextToken_out h with ⟨l', tok, y, pre', h1, h2, h3⟩ | hf
  · left
    refine ⟨⟨l', tok⟩, _, ?_, ⟨l, pre, pre', y, h, h1, h3, h2, rfl⟩, ?_⟩
    · unfold jpConsume; rw [h1]; rfl
    · rcases h2 with ⟨_, e1, e2⟩ | ⟨a, z, e, _, hr⟩
      · subst e1; subst e2; simp
      · have := tokRaw_length hr
        subst e
        split
        · simp; omega
        · simp; omega
  · right; unfold jpConsume; rw [hf]; rfl

/-- Consuming a token other than the end mark. -/
theorem pAt_next {T s w m} (h : PAt T s w m) (hne : s.tok.type ≠ .eof) :
    ∃ y, TokAt w s.tok y ∧
      ((∃ s' m', jpConsume s.lex = .ok s' ∧ PAt T s' y m' ∧ m' < m) ∨ jpConsume s.lex = .fatal) := by
  obtain ⟨l0, pre, pre', y, _, _, h3, h4, h5⟩ := h
  refine ⟨y, h4, ?_⟩
  rcases pAt_consume_any h3 with ⟨s', m', g1, g2, g3⟩ | hf
  · left
    refine ⟨s', m', g1, g2, ?_⟩
    rw [if_neg hne] at h5; omega
  · exact Or.inr hf

theorem pAt_mem {T s w m} (h : PAt T s w m) : ∀ b ∈ w, b ≠ 0 ∧ b ≠ 255 := by
  obtain ⟨l0, pre, pre', y, h1, _⟩ := h
  exact h1.split_mem.2

theorem tokAt_eof {w tok y} (h : TokAt w tok y) (ht : tok.type = .eof) : Ws w := by
  rcases h with ⟨h, _⟩ | ⟨a, z, _, _, hr⟩
  · exact h
  · exact absurd ht (tokRaw_length hr).2

theorem punct_unique {c c' : Byte} {ty : JTT} (h : (c, ty) ∈ punctTable) (h' : (c', ty) ∈ punctTable) :
    c = c' := by
  simp only [punctTable, List.mem_cons, Prod.mk.injEq, List.not_mem_nil, or_false] at h
  rcases h with ⟨e1, e2⟩ | ⟨e1, e2⟩ | ⟨e1, e2⟩ | ⟨e1, e2⟩ | ⟨e1, e2⟩ | ⟨e1, e2⟩ <;> subst e1 <;> subst e2 <;>
    simp [punctTable] at h' <;> exact h'.symm

theorem tokAt_punct {w tok y} {c : Byte} {ty : JTT} (hc : (c, ty) ∈ punctTable) (h : TokAt w tok y)
    (ht : tok.type = ty) : ∃ a, w = a ++ c :: y ∧ Ws a := by
  have hne : ∀ ty', (c, ty') ∈ punctTable → ty' ∉ ([.eof, .tru, .fls, .nul, .integer, .fpnum, .string] : List JTT) := by
    intro ty' h
    simp only [punctTable, List.mem_cons, Prod.mk.injEq, List.not_mem_nil, or_false] at h
    rcases h with ⟨e1, e2⟩ | ⟨e1, e2⟩ | ⟨e1, e2⟩ | ⟨e1, e2⟩ | ⟨e1, e2⟩ | ⟨e1, e2⟩ <;> subst e2 <;> decide
  have hn := hne ty hc
  rcases h with ⟨_, e, _⟩ | ⟨a, z, e, ha, hr⟩
  · subst e; subst ht; exact absurd hc (fun h => hne _ h (by simp))
  · refine ⟨a, ?_, ha⟩
    cases hr with
    | punct hc' =>
      simp only at ht; subst ht
      rw [e, punct_unique hc hc']
    | keyword hk =>
      exfalso
      simp only at ht; subst ht
      simp only [keywordTable, List.mem_cons, Prod.mk.injEq, List.not_mem_nil, or_false] at hk
      rcases hk with ⟨e1, e2⟩ | ⟨e1, e2⟩ | ⟨e1, e2⟩ <;> subst e2 <;> exact hn (by simp)
    | str => simp only at ht; subst ht; exact absurd (by simp) hn
    | int => simp only at ht; subst ht; exact absurd (by simp) hn
    | fp => simp only at ht; subst ht; exact absurd (by simp) hn

theorem escaped_ne_zero {b s : Bytes} (h : Escaped b s) (hb : ∀ x ∈ b, x ≠ 0) : ∀ x ∈ s, x ≠ 0 := by
  induction h with
  | nil => simp
  | plain _ _ ih =>
    intro x hx
    rcases List.mem_cons.mp hx with e | hx
    · subst e; exact hb _ (by simp)
    · exact ih (fun y hy => hb y (by simp [hy])) x hx
  | @esc d e t s hm _ ih =>
    intro x hx
    rcases List.mem_cons.mp hx with e | hx
    · subst e
      have : ∀ p ∈ escapeTable, p.2 ≠ 0 := by decide
      exact this _ hm
    · exact ih (fun y hy => hb y (by simp [hy])) x hx

theorem cut_zero {s : Bytes} (h : ∀ x ∈ s, x ≠ 0) : s.takeWhile (fun x => decide (x ≠ 0)) = s := by
  apply takeWhile_all
  intro x hx
  simp [h x hx]

theorem tokAt_string {w tok y} (h : TokAt w tok y) (ht : tok.type = .string) :
    ∃ a q s, w = a ++ q ++ y ∧ Ws a ∧ StrText s q ∧ tok.text = some s := by
  rcases h with ⟨_, e, _⟩ | ⟨a, z, e, ha, hr⟩
  · subst e; cases ht
  · cases hr with
    | punct hc' =>
      simp only at ht; subst ht
      exact absurd hc' (by simp [punctTable])
    | keyword hk =>
      simp only at ht; subst ht
      exact absurd hk (by simp [keywordTable])
    | @str b s y hq he =>
      exact ⟨a, 34 :: b ++ [34], s, by simp [e], ha, ⟨b, rfl, hq, he⟩, rfl⟩
    | int => cases ht
    | fp => cases ht

theorem strText_ne_zero {s q : Bytes} (h : StrText s q) (hq : ∀ x ∈ q, x ≠ 0) : ∀ x ∈ s, x ≠ 0 := by
  obtain ⟨b, e, _, he⟩ := h
  subst e
  exact escaped_ne_zero he (fun x hx => hq x (by simp [hx]))

/-- The tokens that stand for a value by themselves. -/
def ValueTok (ty : JTT) : Prop :=
  ty = .string ∨ ty = .integer ∨ ty = .fpnum ∨ ty = .tru ∨ ty = .fls ∨ ty = .nul

theorem tokAt_value {w tok y} (h : TokAt w tok y) (hw : ∀ b ∈ w, b ≠ 0) (ht : ValueTok tok.type) :
    ∃ n v x, jpNewNode tok.type tok.text = .ok n ∧ w = x ++ y ∧ ValText v x ∧ n = nodeOf (allTrue v) := by
  rcases h with ⟨_, e, _⟩ | ⟨a, z, e, ha, hr⟩
  · subst e; rcases ht with h | h | h | h | h | h <;> cases h
  · cases hr with
    | punct hc' =>
      simp only [punctTable, List.mem_cons, Prod.mk.injEq, List.not_mem_nil, or_false] at hc'
      rcases hc' with ⟨e1, e2⟩ | ⟨e1, e2⟩ | ⟨e1, e2⟩ | ⟨e1, e2⟩ | ⟨e1, e2⟩ | ⟨e1, e2⟩ <;> subst e2 <;>
        rcases ht with h | h | h | h | h | h <;> cases h
    | keyword hk =>
      simp only [keywordTable, List.mem_cons, Prod.mk.injEq, List.not_mem_nil, or_false] at hk
      rcases hk with ⟨e1, e2⟩ | ⟨e1, e2⟩ | ⟨e1, e2⟩ <;> subst e1 <;> subst e2
      · exact ⟨_, .tru, a ++ [116, 114, 117, 101], rfl, by rw [e, List.append_assoc], by unfold ValText; exact ⟨a, rfl, ha⟩,
          by simp [allTrue, nodeOf, jsonNewTrue]⟩
      · exact ⟨_, .fls, a ++ [102, 97, 108, 115, 101], rfl, by rw [e, List.append_assoc], by unfold ValText; exact ⟨a, rfl, ha⟩,
          by simp [allTrue, nodeOf, jsonNewFalse]⟩
      · exact ⟨_, .nul, a ++ [110, 117, 108, 108], rfl, by rw [e, List.append_assoc], by unfold ValText; exact ⟨a, rfl, ha⟩,
          by simp [allTrue, nodeOf, jsonNewNull]⟩
    | @str b s y hq he =>
      subst e
      have hs := escaped_ne_zero he (fun x hx => hw x (by simp [hx]))
      refine ⟨⟨.string, some s, .nil⟩, .str s, a ++ (34 :: b ++ [34]), ?_, by simp, ?_, by simp [allTrue, nodeOf]⟩
      · unfold jpNewNode jsonNewVariable
        simp only
        rw [cut_zero hs]
      · unfold ValText; exact ⟨a, _, rfl, ha, ⟨b, rfl, hq, he⟩⟩
    | @int sign int y hp hs =>
      subst e
      refine ⟨⟨.integer, some (sign ++ int), .nil⟩, .int (sign ++ int), a ++ (sign ++ int), ?_, by simp, ?_,
        by simp [allTrue, nodeOf]⟩
      · unfold jpNewNode jsonNewVariable
        simp only
        rw [cut_zero (fun x hx => hw x (by rw [List.mem_append]; right; rw [List.mem_append]; left; exact hx))]
      · unfold ValText; exact ⟨a, rfl, ha, ⟨sign, int, rfl, hp⟩⟩
    | @fp sign int frac exp y hp hs hc =>
      subst e
      refine ⟨⟨.fpnumber, some (sign ++ int ++ frac ++ exp), .nil⟩, .fp (sign ++ int ++ frac ++ exp),
        a ++ (sign ++ int ++ frac ++ exp), ?_, by simp, ?_, by simp [allTrue, nodeOf]⟩
      · unfold jpNewNode jsonNewVariable
        simp only
        rw [cut_zero (fun x hx => hw x (by rw [List.mem_append]; right; rw [List.mem_append]; left; exact hx))]
      · unfold ValText; exact ⟨a, rfl, ha, ⟨sign, int, frac, exp, rfl, hp, hc⟩⟩

theorem matchNode_out {T s w m} (h : PAt T s w m) (ht : ValueTok s.tok.type) :
    (∃ n s' m' v x y, jpMatchNode s s.tok.type = .ok (n, s') ∧ w = x ++ y ∧ ValText v x ∧
      n = nodeOf (allTrue v) ∧ PAt T s' y m' ∧ m' < m) ∨ jpMatchNode s s.tok.type = .fatal := by
  have hne : s.tok.type ≠ .eof := by rcases ht with h | h | h | h | h | h <;> rw [h] <;> simp
  obtain ⟨y, hy, hnext⟩ := pAt_next h hne
  obtain ⟨n, v, x, h1, h2, h3, h4⟩ := tokAt_value hy (fun b hb => (pAt_mem h b hb).1) ht
  unfold jpMatchNode
  rw [if_pos rfl, h1]
  simp only [Res.ok_bind]
  rcases hnext with ⟨s', m', g1, g2, g3⟩ | hf
  · left
    rw [g1]
    exact ⟨n, s', m', v, x, y, rfl, h2, h3, h4, g2, g3⟩
  · right; rw [hf]; rfl

theorem matchKey_out {T s w m} (h : PAt T s w m) :
    (∃ k s' m' a q y, jpMatchNode s .string = .ok (⟨.string, some k, .nil⟩, s') ∧ w = a ++ q ++ y ∧ Ws a ∧
      StrText k q ∧ PAt T s' y m' ∧ m' < m) ∨ jpMatchNode s .string = .fatal := by
  by_cases ht : s.tok.type = .string
  · obtain ⟨y, hy, hnext⟩ := pAt_next h (by rw [ht]; simp)
    obtain ⟨a, q, k, e, ha, hk, htx⟩ := tokAt_string hy ht
    have hk0 := strText_ne_zero hk (fun x hx => (pAt_mem h x (by rw [e]; simp [hx])).1)
    unfold jpMatchNode
    rw [if_pos ht, htx]
    unfold jpNewNode jsonNewVariable
    simp only [Res.ok_bind]
    rw [cut_zero hk0]
    rcases hnext with ⟨s', m', g1, g2, g3⟩ | hf
    · left
      rw [g1]
      exact ⟨k, s', m', a, q, y, rfl, e, ha, hk, g2, g3⟩
    · right; rw [hf]; rfl
  · right; unfold jpMatchNode; rw [if_neg ht]

theorem match_out {T s w m} (c : Byte) (ty : JTT) (hc : (c, ty) ∈ punctTable) (h : PAt T s w m) :
    (∃ s' m' a y, jpMatch s ty = .ok s' ∧ w = a ++ [c] ++ y ∧ Ws a ∧ PAt T s' y m' ∧ m' < m) ∨
    jpMatch s ty = .fatal := by
  by_cases ht : s.tok.type = ty
  · have hne : s.tok.type ≠ .eof := by
      rw [ht]; intro e; subst e; exact absurd hc (by simp [punctTable])
    obtain ⟨y, hy, hnext⟩ := pAt_next h hne
    obtain ⟨a, e, ha⟩ := tokAt_punct hc hy ht
    unfold jpMatch
    rw [if_pos ht]
    rcases hnext with ⟨s', m', g1, g2, g3⟩ | hf
    · exact Or.inl ⟨s', m', a, y, g1, by simp [e], ha, g2, g3⟩
    · exact Or.inr hf
  · right; unfold jpMatch; rw [if_neg ht]

/-- What the parse functions do, for a bound on the number of tokens and enough fuel. -/
structure ParserOut (T : Bytes) (fuel : Nat) : Prop where
  value : ∀ s w m, PAt T s w m → 3 * m + 2 ≤ fuel →
    (∃ n s' m' v x y, jpValue fuel s = .ok (n, s') ∧ w = x ++ y ∧ ValText v x ∧ n = nodeOf (allTrue v) ∧
      PAt T s' y m' ∧ m' < m) ∨ jpValue fuel s = .fatal
  array : ∀ s w m, PAt T s w m → 3 * m + 1 ≤ fuel →
    (∃ n s' m' e x y, jpArray fuel s = .ok (n, s') ∧ w = x ++ y ∧ ValText (.arr e) x ∧
      n = nodeOf (allTrue (.arr e)) ∧ PAt T s' y m' ∧ m' < m) ∨ jpArray fuel s = .fatal
  object : ∀ s w m, PAt T s w m → 3 * m + 1 ≤ fuel →
    (∃ n s' m' e x y, jpObject fuel s = .ok (n, s') ∧ w = x ++ y ∧ ValText (.obj e) x ∧
      n = nodeOf (allTrue (.obj e)) ∧ PAt T s' y m' ∧ m' < m) ∨ jpObject fuel s = .fatal
  elements : ∀ s w m, PAt T s w m → 3 * m + 3 ≤ fuel →
    (∃ t s' m' e x y, jpElements fuel s = .ok (t, s') ∧ w = x ++ y ∧ ElemsText e x ∧
      t = elemsOf (allTrueElems e) ∧ PAt T s' y m' ∧ m' < m) ∨ jpElements fuel s = .fatal
  more : ∀ s w m, PAt T s w m → 3 * m + 1 ≤ fuel →
    (∃ t s' m' e x y, jpElementsLoop fuel s = .ok (t, s') ∧ w = x ++ y ∧ MoreElemsText e x ∧
      t = elemsOf (allTrueElems e) ∧ PAt T s' y m' ∧ m' ≤ m) ∨ jpElementsLoop fuel s = .fatal
  pair : ∀ s w m, PAt T s w m → 3 * m + 1 ≤ fuel →
    (∃ k n s' m' a q b v x y, jpPair fuel s = .ok (⟨.string, some k, .nil⟩, n, s') ∧
      w = a ++ q ++ b ++ [58] ++ x ++ y ∧ Ws a ∧ StrText k q ∧ Ws b ∧ ValText v x ∧
      n = nodeOf (allTrue v) ∧ PAt T s' y m' ∧ m' < m) ∨ jpPair fuel s = .fatal
  members : ∀ s w m, PAt T s w m → 3 * m + 3 ≤ fuel →
    (∃ t s' m' e x y, jpMembers fuel s = .ok (t, s') ∧ w = x ++ y ∧ MembersText e x ∧
      t = membersOf (allTrueMembers e) ∧ PAt T s' y m' ∧ m' < m) ∨ jpMembers fuel s = .fatal
  moreMembers : ∀ s w m, PAt T s w m → 3 * m + 1 ≤ fuel →
    (∃ t s' m' e x y, jpMembersLoop fuel s = .ok (t, s') ∧ w = x ++ y ∧ MoreMembersText e x ∧
      t = membersOf (allTrueMembers e) ∧ PAt T s' y m' ∧ m' ≤ m) ∨ jpMembersLoop fuel s = .fatal

theorem parser_out (T : Bytes) : ∀ fuel, ParserOut T fuel := by
  intro fuel
  induction fuel with
  | zero => constructor <;> intros <;> omega
  | succ fuel ih =>
    constructor
    case value =>
      intro s w m h hf
      unfold jpValue
      have leaf : ∀ ty, s.tok.type = ty → ValueTok ty →
          (∃ n s' m' v x y, jpMatchNode s ty = .ok (n, s') ∧ w = x ++ y ∧ ValText v x ∧
            n = nodeOf (allTrue v) ∧ PAt T s' y m' ∧ m' < m) ∨ jpMatchNode s ty = .fatal := by
        intro ty e hv
        subst e
        exact matchNode_out h hv
      cases hty : s.tok.type with
      | string => exact leaf _ hty (by simp [ValueTok])
      | integer => exact leaf _ hty (by simp [ValueTok])
      | fpnum => exact leaf _ hty (by simp [ValueTok])
      | tru => exact leaf _ hty (by simp [ValueTok])
      | fls => exact leaf _ hty (by simp [ValueTok])
      | nul => exact leaf _ hty (by simp [ValueTok])
      | lsbrac =>
        rcases ih.array s w m h (by omega) with ⟨n, s', m', e, x, y, h1, h2, h3, h4, h5, h6⟩ | hf
        · exact Or.inl ⟨n, s', m', .arr e, x, y, h1, h2, h3, h4, h5, h6⟩
        · exact Or.inr hf
      | lcbrac =>
        rcases ih.object s w m h (by omega) with ⟨n, s', m', e, x, y, h1, h2, h3, h4, h5, h6⟩ | hf
        · exact Or.inl ⟨n, s', m', .obj e, x, y, h1, h2, h3, h4, h5, h6⟩
        · exact Or.inr hf
      | eof => exact Or.inr rfl
      | rsbrac => exact Or.inr rfl
      | rcbrac => exact Or.inr rfl
      | comma => exact Or.inr rfl
      | colon => exact Or.inr rfl
    case array =>
      intro s w m h hf
      unfold jpArray
      rcases match_out 91 .lsbrac (by decide) h with ⟨s1, m1, a, y, h1, e1, ha, h2, h3⟩ | hfat
      · rw [h1]
        simp only [Res.ok_bind]
        by_cases hr : s1.tok.type = .rsbrac
        · rw [if_pos hr]
          rcases match_out 93 .rsbrac (by decide) h2 with ⟨s2, m2, b, z, g1, e2, hb, g2, g3⟩ | hfat
          · rw [g1]
            left
            refine ⟨_, s2, m2, .nil, a ++ [91] ++ b ++ [93], z, rfl, by rw [e1, e2]; simp, ?_, ?_, g2, by omega⟩
            · unfold ValText ElemsText
              exact ⟨a, [], b, by simp, ha, hb, rfl⟩
            · simp [allTrue, allTrueElems, nodeOf, elemsOf]
          · right; rw [hfat]; rfl
        · rw [if_neg hr]
          rcases ih.elements s1 y m1 h2 (by omega) with ⟨t, s2, m2, e, x, z, g1, e2, g2, g3, g4, g5⟩ | hfat
          · rw [g1]
            simp only [Res.ok_bind]
            rcases match_out 93 .rsbrac (by decide) g4 with ⟨s3, m3, b, u, k1, e3, hb, k2, k3⟩ | hfat
            · rw [k1]
              left
              refine ⟨_, s3, m3, e, a ++ [91] ++ x ++ b ++ [93], u, rfl, by rw [e1, e2, e3]; simp, ?_, ?_, k2,
                by omega⟩
              · unfold ValText
                exact ⟨a, x, b, rfl, ha, hb, g2⟩
              · simp [allTrue, nodeOf, g3]
            · right; rw [hfat]; rfl
          · right; rw [hfat]; rfl
      · right; rw [hfat]; rfl
    case object =>
      intro s w m h hf
      unfold jpObject
      rcases match_out 123 .lcbrac (by decide) h with ⟨s1, m1, a, y, h1, e1, ha, h2, h3⟩ | hfat
      · rw [h1]
        simp only [Res.ok_bind]
        by_cases hr : s1.tok.type = .rcbrac
        · rw [if_pos hr]
          rcases match_out 125 .rcbrac (by decide) h2 with ⟨s2, m2, b, z, g1, e2, hb, g2, g3⟩ | hfat
          · rw [g1]
            left
            refine ⟨_, s2, m2, .nil, a ++ [123] ++ b ++ [125], z, rfl, by rw [e1, e2]; simp, ?_, ?_, g2, by omega⟩
            · unfold ValText MembersText
              exact ⟨a, [], b, by simp, ha, hb, rfl⟩
            · simp [allTrue, allTrueMembers, nodeOf, membersOf]
          · right; rw [hfat]; rfl
        · rw [if_neg hr]
          rcases ih.members s1 y m1 h2 (by omega) with ⟨t, s2, m2, e, x, z, g1, e2, g2, g3, g4, g5⟩ | hfat
          · rw [g1]
            simp only [Res.ok_bind]
            rcases match_out 125 .rcbrac (by decide) g4 with ⟨s3, m3, b, u, k1, e3, hb, k2, k3⟩ | hfat
            · rw [k1]
              left
              refine ⟨_, s3, m3, e, a ++ [123] ++ x ++ b ++ [125], u, rfl, by rw [e1, e2, e3]; simp, ?_, ?_, k2,
                by omega⟩
              · unfold ValText
                exact ⟨a, x, b, rfl, ha, hb, g2⟩
              · simp [allTrue, nodeOf, g3]
            · right; rw [hfat]; rfl
          · right; rw [hfat]; rfl
      · right; rw [hfat]; rfl
    case elements =>
      intro s w m h hf
      unfold jpElements
      rcases ih.value s w m h (by omega) with ⟨n, s1, m1, v, x, y, h1, e1, h2, h3, h4, h5⟩ | hfat
      · rw [h1]
        simp only [Res.ok_bind]
        rcases ih.more s1 y m1 h4 (by omega) with ⟨t, s2, m2, e, z, u, g1, e2, g2, g3, g4, g5⟩ | hfat
        · rw [g1]
          left
          refine ⟨_, s2, m2, .cons v e, x ++ z, u, rfl, by rw [e1, e2]; simp, ?_, ?_, g4, by omega⟩
          · unfold ElemsText; exact ⟨x, z, rfl, h2, g2⟩
          · simp [allTrueElems, elemsOf, JNode.cons, h3, g3]
        · right; rw [hfat]; rfl
      · right; rw [hfat]; rfl
    case more =>
      intro s w m h hf
      unfold jpElementsLoop
      by_cases hc : s.tok.type = .comma
      · rw [if_pos hc]
        rcases match_out 44 .comma (by decide) h with ⟨s0, m0, a, y0, h01, e0, ha, h02, h03⟩ | hfat
        · rw [h01]
          simp only [Res.ok_bind]
          rcases ih.value s0 y0 m0 h02 (by omega) with ⟨n, s1, m1, v, x, y, h1, e1, h2, h3, h4, h5⟩ | hfat
          · rw [h1]
            simp only [Res.ok_bind]
            rcases ih.more s1 y m1 h4 (by omega) with ⟨t, s2, m2, e, z, u, g1, e2, g2, g3, g4, g5⟩ | hfat
            · rw [g1]
              left
              refine ⟨_, s2, m2, .cons v e, a ++ [44] ++ x ++ z, u, rfl, by rw [e0, e1, e2]; simp, ?_, ?_, g4, by omega⟩
              · unfold MoreElemsText; exact ⟨a, x, z, rfl, ha, h2, g2⟩
              · simp [allTrueElems, elemsOf, JNode.cons, h3, g3]
            · right; rw [hfat]; rfl
          · right; rw [hfat]; rfl
        · right; rw [hfat]; rfl
      · rw [if_neg hc]
        left
        refine ⟨.nil, s, m, .nil, [], w, rfl, rfl, by simp [MoreElemsText], by simp [allTrueElems, elemsOf], h, by omega⟩
    case pair =>
      intro s w m h hf
      unfold jpPair
      rcases matchKey_out h with ⟨k, s1, m1, a, q, y, h1, e1, ha, hq, h2, h3⟩ | hfat
      · rw [h1]
        simp only [Res.ok_bind]
        rcases match_out 58 .colon (by decide) h2 with ⟨s2, m2, b, z, g1, e2, hb, g2, g3⟩ | hfat
        · rw [g1]
          simp only [Res.ok_bind]
          rcases ih.value s2 z m2 g2 (by omega) with ⟨n, s3, m3, v, x, u, k1, e3, k2, k3, k4, k5⟩ | hfat
          · rw [k1]
            left
            exact ⟨k, n, s3, m3, a, q, b, v, x, u, rfl, by rw [e1, e2, e3]; simp, ha, hq, hb, k2, k3, k4, by omega⟩
          · right; rw [hfat]; rfl
        · right; rw [hfat]; rfl
      · right; rw [hfat]; rfl
    case members =>
      intro s w m h hf
      unfold jpMembers
      rcases ih.pair s w m h (by omega) with ⟨k, n, s1, m1, a, q, b, v, x, y, h1, e1, ha, hq, hb, h2, h3, h4, h5⟩ | hfat
      · rw [h1]
        simp only [Res.ok_bind]
        rcases ih.moreMembers s1 y m1 h4 (by omega) with ⟨t, s2, m2, e, z, u, g1, e2, g2, g3, g4, g5⟩ | hfat
        · rw [g1]
          left
          refine ⟨_, s2, m2, .cons k v e, a ++ q ++ b ++ [58] ++ x ++ z, u, rfl, by rw [e1, e2]; simp, ?_, ?_, g4, by omega⟩
          · unfold MembersText; exact ⟨a, q, b, x, z, rfl, ha, hq, hb, h2, g2⟩
          · simp [allTrueMembers, membersOf, JNode.cons, h3, g3]
        · right; rw [hfat]; rfl
      · right; rw [hfat]; rfl
    case moreMembers =>
      intro s w m h hf
      unfold jpMembersLoop
      by_cases hc : s.tok.type = .comma
      · rw [if_pos hc]
        rcases match_out 44 .comma (by decide) h with ⟨s0, m0, c, y0, h01, e0, hc0, h02, h03⟩ | hfat
        · rw [h01]
          simp only [Res.ok_bind]
          rcases ih.pair s0 y0 m0 h02 (by omega) with ⟨k, n, s1, m1, a, q, b, v, x, y, h1, e1, ha, hq, hb, h2, h3, h4, h5⟩ | hfat
          · rw [h1]
            simp only [Res.ok_bind]
            rcases ih.moreMembers s1 y m1 h4 (by omega) with ⟨t, s2, m2, e, z, u, g1, e2, g2, g3, g4, g5⟩ | hfat
            · rw [g1]
              left
              refine ⟨_, s2, m2, .cons k v e, c ++ [44] ++ a ++ q ++ b ++ [58] ++ x ++ z, u, rfl,
                by rw [e0, e1, e2]; simp, ?_, ?_, g4, by omega⟩
              · unfold MoreMembersText; exact ⟨c, a, q, b, x, z, rfl, hc0, ha, hq, hb, h2, g2⟩
              · simp [allTrueMembers, membersOf, JNode.cons, h3, g3]
            · right; rw [hfat]; rfl
          · right; rw [hfat]; rfl
        · right; rw [hfat]; rfl
      · rw [if_neg hc]
        left
        refine ⟨.nil, s, m, .nil, [], w, rfl, rfl, by simp [MoreMembersText], by simp [allTrueMembers, membersOf], h,
          by omega⟩

end Nx
