import Verif.Spec.Csv
import Verif.Lemmas.JsonLexer
import Verif.Props.Str

/-!
# Lemmas about the CSV lexer and parser
-/

namespace Nx

/-- The loop over an unquoted cell. -/
theorem csvFieldLoop_at {T : Bytes} : ∀ (rem : Bytes) {l pre b}, LexAt T l pre (b :: rem) → b ≠ 34 →
    (∃ w r l', rem = w ++ r ∧ (∀ c ∈ w, PlainChar c) ∧ (∀ c r', r = c :: r' → c = 44 ∨ c = 10) ∧
      csvFieldLoop l = .ok l' ∧ LexAt T l' (pre ++ b :: w) r) ∨
    (csvFieldLoop l = .fatal ∧ ∃ w r, rem = w ++ 34 :: r ∧ ∀ c ∈ w, PlainChar c) := by
  intro rem
  induction rem with
  | nil =>
    intro l pre b h hb
    left
    obtain ⟨l1, h1, h2⟩ := lexConsume_at h
    refine ⟨[], [], l1, rfl, by simp, by simp, ?_, by simpa using h2⟩
    rw [csvFieldLoop, if_neg (by rw [h.is 34 34]; rintro ⟨r, e⟩; exact hb (List.cons.inj e).1),
      dif_neg (by rw [h.cur_cons]; exact schar_ne_eof (h.split_mem.2 b (by simp)).2)]
    split
    · rename_i l' heq; rw [h1] at heq; cases heq
      rw [if_neg (by rw [h2.cur_nil]; simp)]
    · rename_i heq; rw [h1] at heq; cases heq
    · rename_i heq; rw [h1] at heq; cases heq
  | cons c rem ih =>
    intro l pre b h hb
    obtain ⟨l1, h1, h2⟩ := lexConsume_at h
    have step : csvFieldLoop l = if c = 10 ∨ c = 44 then .ok l1 else csvFieldLoop l1 := by
      rw [csvFieldLoop, if_neg (by rw [h.is 34 34]; rintro ⟨r, e⟩; exact hb (List.cons.inj e).1),
        dif_neg (by rw [h.cur_cons]; exact schar_ne_eof (h.split_mem.2 b (by simp)).2)]
      split
      · rename_i l' heq; rw [h1] at heq; cases heq
        have e10 : l1.c = 10 ↔ c = 10 := by
          rw [h2.is 10 10]; constructor
          · rintro ⟨r, e⟩; exact (List.cons.inj e).1
          · rintro rfl; exact ⟨rem, rfl⟩
        have e44 : l1.c = 44 ↔ c = 44 := by
          rw [h2.is 44 44]; constructor
          · rintro ⟨r, e⟩; exact (List.cons.inj e).1
          · rintro rfl; exact ⟨rem, rfl⟩
        have en : l1.c ≠ -1 := by
          rw [h2.cur_cons]; exact schar_ne_eof (h2.split_mem.2 c (by simp)).2
        by_cases hc : c = 10 ∨ c = 44
        · rw [if_pos hc, if_neg]
          rintro ⟨_, x, y⟩
          rcases hc with hc | hc
          · exact x (e10.2 hc)
          · exact y (e44.2 hc)
        · rw [if_neg hc, if_pos ⟨en, fun e => hc (Or.inl (e10.1 e)), fun e => hc (Or.inr (e44.1 e))⟩]
      · rename_i heq; rw [h1] at heq; cases heq
      · rename_i heq; rw [h1] at heq; cases heq
    rw [step]
    by_cases hc : c = 10 ∨ c = 44
    · left
      rw [if_pos hc]
      exact ⟨[], c :: rem, l1, rfl, by simp, fun c' r' e => by cases e; exact hc.symm, rfl, by simpa using h2⟩
    · rw [if_neg hc]
      by_cases hq : c = 34
      · right
        subst hq
        refine ⟨?_, [], rem, rfl, by simp⟩
        rw [csvFieldLoop, if_pos ((h2.is 34 34).2 ⟨rem, rfl⟩)]
      · have hp : PlainChar c := ⟨hq, fun e => hc (Or.inr e), fun e => hc (Or.inl e)⟩
        rcases ih h2 hq with ⟨w, r, l', e, a, s, k, m⟩ | ⟨k, w, r, e, a⟩
        · left
          refine ⟨c :: w, r, l', by rw [e]; rfl, ?_, s, k, by simpa using m⟩
          intro x hx
          cases hx with
          | head => exact hp
          | tail _ hx => exact a x hx
        · right
          refine ⟨k, c :: w, r, by rw [e]; rfl, ?_⟩
          intro x hx
          cases hx with
          | head => exact hp
          | tail _ hx => exact a x hx

/-- The loop over a quoted cell. -/
theorem csvQLoop_at {T : Bytes} : ∀ (n : Nat) (rem : Bytes) {l pre}, rem.length ≤ n → LexAt T l pre rem →
    (∃ t s r l', rem = t ++ 34 :: r ∧ Doubled t s ∧ (∀ c r', r = c :: r' → c ≠ 34) ∧
      csvQLoop l = .ok (l', true) ∧ LexAt T l' (pre ++ t ++ [34]) r) ∨
    ((∃ l', csvQLoop l = .ok (l', false)) ∧
      ∀ t s r, Doubled t s → rem = t ++ 34 :: r → ∃ r', r = 34 :: r') := by
  intro n
  induction n with
  | zero =>
    intro rem l pre hn h
    cases rem with
    | cons => simp at hn
    | nil =>
      right
      rw [csvQLoop, dif_pos h.cur_nil]
      exact ⟨⟨l, rfl⟩, fun t s r _ e => by simp at e⟩
  | succ n ih =>
    intro rem l pre hn h
    cases rem with
    | nil =>
      right
      rw [csvQLoop, dif_pos h.cur_nil]
      exact ⟨⟨l, rfl⟩, fun t s r _ e => by simp at e⟩
    | cons b rem =>
      have hne : l.c ≠ -1 := by
        rw [h.cur_cons]; exact schar_ne_eof (h.split_mem.2 b (by simp)).2
      obtain ⟨l1, h1, h2⟩ := lexConsume_at h
      have rec_ : ∀ (l2 : Lexer) (pre2 rem2 : Bytes), LexAt T l2 pre2 rem2 → csvQStep l = .ok (l2, false) →
          csvQLoop l = csvQLoop l2 := by
        intro l2 pre2 rem2 g hs
        rw [csvQLoop, dif_neg hne]
        split
        · rename_i r heq; rw [hs] at heq; cases heq
          simp only [Bool.false_eq_true, if_false]
          split
          · rfl
          · rename_i hx
            have hx : l2.c = -1 := by simpa using hx
            rw [csvQLoop, dif_pos hx]
        · rename_i heq; rw [hs] at heq; cases heq
        · rename_i heq; rw [hs] at heq; cases heq
      by_cases hb : b = 34
      · subst hb
        have hcq : l.c = 34 := (h.is 34 34).2 ⟨rem, rfl⟩
        cases rem with
        | nil =>
          left
          refine ⟨[], [], [], l1, rfl, .nil, by simp, ?_, by simpa using h2⟩
          rw [csvQLoop, dif_neg hne]
          have hs : csvQStep l = .ok (l1, true) := by
            unfold csvQStep
            rw [if_pos hcq, h1, Res.ok_bind, if_pos (by rw [h2.cur_nil]; decide)]; rfl
          split
          · rename_i r heq; rw [hs] at heq; cases heq; rfl
          · rename_i heq; rw [hs] at heq; cases heq
          · rename_i heq; rw [hs] at heq; cases heq
        | cons c rem =>
          by_cases hc : c = 34
          · subst hc
            obtain ⟨l2, h3, h4⟩ := lexConsume_at h2
            have hs : csvQStep l = .ok (l2, false) := by
              unfold csvQStep
              rw [if_pos hcq, h1, Res.ok_bind, if_neg (by rw [(h2.is 34 34).2 ⟨rem, rfl⟩]; simp), h3]; rfl
            rw [rec_ l2 _ _ h4 hs]
            rcases ih rem (by simp at hn; omega) h4 with ⟨t, s, r, l', e, d, q, k, m⟩ | ⟨k, q⟩
            · left
              exact ⟨34 :: 34 :: t, 34 :: s, r, l', by rw [e]; rfl, .quote d, q, k, by simpa using m⟩
            · right
              refine ⟨k, ?_⟩
              intro t s r d e
              cases d with
              | nil => cases e; exact ⟨rem, rfl⟩
              | plain hx d => injection e with e1 e2; exact absurd e1.symm hx
              | quote d =>
                simp only [List.cons_append, List.cons.injEq, true_and] at e
                exact q _ _ _ d e
          · left
            refine ⟨[], [], c :: rem, l1, rfl, .nil, ?_, ?_, by simpa using h2⟩
            · intro c' r' e; cases e; exact hc
            rw [csvQLoop, dif_neg hne]
            have hs : csvQStep l = .ok (l1, true) := by
              unfold csvQStep
              rw [if_pos hcq, h1, Res.ok_bind, if_pos]
              · rfl
              · intro e; obtain ⟨r, e⟩ := (h2.is 34 34).1 e; exact hc (List.cons.inj e).1
            split
            · rename_i r heq; rw [hs] at heq; cases heq; rfl
            · rename_i heq; rw [hs] at heq; cases heq
            · rename_i heq; rw [hs] at heq; cases heq
      · have hs : csvQStep l = .ok (l1, false) := by
          unfold csvQStep
          rw [if_neg, h1]
          · rfl
          · intro e; obtain ⟨r, e⟩ := (h.is 34 34).1 e; exact hb (List.cons.inj e).1
        rw [rec_ l1 _ _ h2 hs]
        rcases ih rem (by simp at hn; omega) h2 with ⟨t, s, r, l', e, d, q, k, m⟩ | ⟨k, q⟩
        · left
          exact ⟨b :: t, b :: s, r, l', by rw [e]; rfl, .plain hb d, q, k, by simpa using m⟩
        · right
          refine ⟨k, ?_⟩
          intro t s r d e
          cases d with
          | nil => injection e with e1 e2; exact absurd e1 hb
          | plain hx d =>
            simp only [List.cons_append, List.cons.injEq] at e
            exact q _ _ _ d e.2
          | quote d => injection e with e1 e2; exact absurd e1 hb

/-- The next token is the one the text starts with; the lexer aborts when there is
none. -/
theorem csvNextToken_at {T l pre rem} (h : LexAt T l pre rem) :
    (∃ tok r l' pre', CsvTokAt rem tok r ∧ csvNextToken l = .ok (l', tok) ∧ LexAt T l' pre' r) ∨
    (csvNextToken l = .fatal ∧ ∀ tok r, ¬ CsvTokAt rem tok r) := by
  cases rem with
  | nil =>
    left
    refine ⟨.eof, [], l, pre, .eof, ?_, h⟩
    unfold csvNextToken; rw [if_pos h.cur_nil]
  | cons b rem =>
    have hne : l.c ≠ -1 := by
      rw [h.cur_cons]; exact schar_ne_eof (h.split_mem.2 b (by simp)).2
    obtain ⟨l1, h1, h2⟩ := lexConsume_at h
    unfold csvNextToken
    rw [if_neg hne]
    have lit : ∀ (n : Int) (x : Byte), schar x = n → x ≠ 255 → (l.c = n ↔ b = x) := by
      intro n x e1 e2
      rw [h.is n x e1 e2]; constructor
      · rintro ⟨r, e⟩; exact (List.cons.inj e).1
      · rintro rfl; exact ⟨rem, rfl⟩
    by_cases h44 : b = 44
    · subst h44
      rw [if_pos ((lit 44 44 (by decide) (by decide)).2 rfl), h1]
      exact Or.inl ⟨.comma, rem, l1, _, .comma, rfl, h2⟩
    rw [if_neg (by rw [lit 44 44 (by decide) (by decide)]; exact h44)]
    by_cases h10 : b = 10
    · subst h10
      rw [if_pos ((lit 10 10 (by decide) (by decide)).2 rfl), h1]
      exact Or.inl ⟨.eor, rem, l1, _, .eor, rfl, h2⟩
    rw [if_neg (by rw [lit 10 10 (by decide) (by decide)]; exact h10)]
    by_cases h34 : b = 34
    · subst h34
      rw [if_pos ((lit 34 34 (by decide) (by decide)).2 rfl)]
      unfold csvQField
      rw [h1]
      simp only [Res.ok_bind]
      rcases csvQLoop_at _ rem (Nat.le_refl _) h2 with ⟨t, s, r, l', e, d, q, k, m⟩ | ⟨⟨l', k⟩, q⟩
      · left
        rw [k]
        simp only [Res.ok_bind, Bool.not_true, Bool.false_eq_true, if_false]
        subst e
        have e2 : l'.pos - 1 - l1.pos = (t.length : Nat) := by
          rw [m.pos, h2.pos]; simp; omega
        rw [e2, m.text, h2.pos, lexemeBytes_at h2, Res.ok_bind, (c03_from_double_quoted_ok_iff t s).2 d]
        exact ⟨.qfield s, r, l', _, .qfield d q, rfl, m⟩
      · right
        rw [k]
        refine ⟨rfl, ?_⟩
        intro tok r ht
        generalize hg : (34 :: rem : Bytes) = g at ht
        cases ht with
        | eof => cases hg
        | comma => injection hg with e1 e2; exact absurd e1 (by decide)
        | eor => injection hg with e1 e2; exact absurd e1 (by decide)
        | field hw ha hr =>
          rename_i w
          cases w with
          | nil => exact hw rfl
          | cons c w => injection hg with e1 e2; subst e1; exact (ha _ (by simp)).1 rfl
        | qfield d hr =>
          injection hg with e1 e2
          obtain ⟨r', e⟩ := q _ _ _ d e2
          exact hr _ _ e rfl
    rw [if_neg (by rw [lit 34 34 (by decide) (by decide)]; exact h34)]
    unfold csvField
    have hp : PlainChar b := ⟨h34, h44, h10⟩
    rcases csvFieldLoop_at rem h h34 with ⟨w, r, l', e, a, s, k, m⟩ | ⟨k, w, r, e, a⟩
    · left
      rw [k]
      simp only [Res.ok_bind]
      subst e
      have e2 : l'.pos - l.pos = ((b :: w).length : Nat) := by
        rw [m.pos, h.pos]; simp; omega
      have h' : LexAt T l pre ((b :: w) ++ r) := h
      rw [e2, m.text, h.pos, lexemeBytes_at h']
      refine ⟨.field (b :: w), r, l', _, ?_, rfl, m⟩
      refine CsvTokAt.field (w := b :: w) (by simp) ?_ s
      intro x hx
      cases hx with
      | head => exact hp
      | tail _ hx => exact a x hx
    · right
      rw [k]
      refine ⟨rfl, ?_⟩
      subst e
      intro tok r0 ht
      generalize hg : (b :: (w ++ 34 :: r) : Bytes) = g at ht
      cases ht with
      | eof => cases hg
      | comma => injection hg with e1 e2; exact h44 e1
      | eor => injection hg with e1 e2; exact h10 e1
      | qfield d hr => injection hg with e1 e2; exact h34 e1
      | field hw ha hr =>
        rename_i w'
        -- the first character behind `w'` is the quote or part of `b :: w`
        have hg' : (b :: w) ++ 34 :: r = w' ++ r0 := hg
        rw [List.append_eq_append_iff] at hg'
        rcases hg' with ⟨x, e1, e2⟩ | ⟨x, e1, e2⟩
        · cases x with
          | nil =>
            rcases hr 34 r (by simpa using e2.symm) with e | e <;> cases e
          | cons y x =>
            have : y = 34 := by simp at e2; exact e2.1.symm
            subst this
            exact (ha 34 (by rw [e1]; simp)).1 rfl
        · cases x with
          | nil =>
            rcases hr 34 r (by simpa using e2) with e | e <;> cases e
          | cons y x =>
            have hy : PlainChar y := by
              have : y ∈ b :: w := by rw [e1]; simp
              cases this with
              | head => exact hp
              | tail _ hx => exact a _ hx
            rcases hr y _ e2 with e | e
            · exact hy.2.1 e
            · exact hy.2.2 e

theorem doubled_close {t s t' s' r r' : Bytes} (d : Doubled t s) (d' : Doubled t' s')
    (e : t ++ 34 :: r = t' ++ 34 :: r') (h : ∀ b x, r = b :: x → b ≠ 34) (h' : ∀ b x, r' = b :: x → b ≠ 34) :
    s = s' ∧ r = r' := by
  induction d generalizing t' s' with
  | nil =>
    cases d' with
    | nil => simpa using e
    | plain hc _ => simp at e; exact absurd e.1.symm hc
    | quote _ => simp at e; exact absurd rfl (h _ _ e)
  | plain hc _ ih =>
    cases d' with
    | nil => simp at e; exact absurd e.1 hc
    | plain hc' d' =>
      simp at e
      obtain ⟨i1, i2⟩ := ih d' e.2
      exact ⟨by rw [e.1, i1], i2⟩
    | quote _ => simp at e; exact absurd e.1 hc
  | quote _ ih =>
    cases d' with
    | nil => simp at e; exact absurd rfl (h' _ _ e.symm)
    | plain hc _ => simp at e; exact absurd e.1.symm hc
    | quote d' =>
      simp at e
      obtain ⟨i1, i2⟩ := ih d' e
      exact ⟨by rw [i1], i2⟩

theorem plain_close {w w' r r' : Bytes} (a : ∀ b ∈ w, PlainChar b) (a' : ∀ b ∈ w', PlainChar b)
    (h : ∀ b x, r = b :: x → b = 44 ∨ b = 10) (h' : ∀ b x, r' = b :: x → b = 44 ∨ b = 10)
    (e : w ++ r = w' ++ r') : w = w' ∧ r = r' := by
  induction w generalizing w' with
  | nil =>
    cases w' with
    | nil => exact ⟨rfl, by simpa using e⟩
    | cons c w' =>
      have hc := a' c (by simp)
      rcases h c _ e with x | x
      · exact absurd x hc.2.1
      · exact absurd x hc.2.2
  | cons b w ih =>
    cases w' with
    | nil =>
      have hc := a b (by simp)
      rcases h' b _ e.symm with x | x
      · exact absurd x hc.2.1
      · exact absurd x hc.2.2
    | cons c w' =>
      simp at e
      obtain ⟨i1, i2⟩ := ih (fun b hb => a b (by simp [hb])) (fun b hb => a' b (by simp [hb])) e.2
      exact ⟨by rw [e.1, i1], i2⟩

theorem CsvTokAt.unique {rem tok r tok' r'} (h : CsvTokAt rem tok r) (h' : CsvTokAt rem tok' r') :
    tok = tok' ∧ r = r' := by
  have plain : ∀ {w x : Bytes} {b y}, w ≠ [] → (∀ b ∈ w, PlainChar b) → b :: y = w ++ x →
      PlainChar b := by
    intro w x b y hw ha e
    cases w with
    | nil => exact absurd rfl hw
    | cons c w => simp at e; rw [e.1]; exact ha c (by simp)
  cases h with
  | eof =>
    generalize hg : ([] : Bytes) = g at h'
    cases h' with
    | eof => exact ⟨rfl, rfl⟩
    | comma => cases hg
    | eor => cases hg
    | field hw _ _ => simp at hg; exact absurd hg.1 hw
    | qfield _ _ => cases hg
  | comma =>
    generalize hg : (44 :: r : Bytes) = g at h'
    cases h' with
    | eof => cases hg
    | comma => cases hg; exact ⟨rfl, rfl⟩
    | eor => injection hg with e; cases e
    | field hw ha _ => exact absurd rfl (plain hw ha hg).2.1
    | qfield _ _ => injection hg with e; cases e
  | eor =>
    generalize hg : (10 :: r : Bytes) = g at h'
    cases h' with
    | eof => cases hg
    | comma => injection hg with e; cases e
    | eor => cases hg; exact ⟨rfl, rfl⟩
    | field hw ha _ => exact absurd rfl (plain hw ha hg).2.2
    | qfield _ _ => injection hg with e; cases e
  | field hw ha hr =>
    rename_i w
    generalize hg : (w ++ r : Bytes) = g at h'
    cases h' with
    | eof => simp at hg; exact absurd hg.1 hw
    | comma => exact absurd rfl (plain hw ha hg.symm).2.1
    | eor => exact absurd rfl (plain hw ha hg.symm).2.2
    | field hw' ha' hr' =>
      obtain ⟨e1, e2⟩ := plain_close ha ha' hr hr' hg
      exact ⟨by rw [e1], e2⟩
    | qfield _ _ => exact absurd rfl (plain hw ha hg.symm).1
  | qfield d hr =>
    rename_i t s
    generalize hg : (34 :: (t ++ 34 :: r) : Bytes) = g at h'
    cases h' with
    | eof => cases hg
    | comma => injection hg with e; cases e
    | eor => injection hg with e; cases e
    | field hw ha _ => exact absurd rfl (plain hw ha hg).1
    | qfield d' hr' =>
      injection hg with e1 e2
      obtain ⟨i1, i2⟩ := doubled_close d d' e2 hr hr'
      exact ⟨by rw [i1], i2⟩

/-- The parser has `rem` ahead of it, its first token being the current one. -/
def CsvPAt (T : Bytes) (p : CsvP) (rem : Bytes) : Prop :=
  ∃ r pre, CsvTokAt rem p.tok r ∧ LexAt T p.lex pre r

/-- There is a token at the start of the text. -/
def Lexable (rem : Bytes) : Prop := ∃ tok r, CsvTokAt rem tok r

theorem csvConsume_at {T p rem r} (h : CsvPAt T p rem) (ht : CsvTokAt rem p.tok r) :
    (∃ p', csvConsume p = .ok p' ∧ CsvPAt T p' r) ∨ (csvConsume p = .fatal ∧ ¬ Lexable r) := by
  obtain ⟨r', pre, h1, h2⟩ := h
  obtain ⟨_, e⟩ := ht.unique h1
  subst e
  unfold csvConsume
  rcases csvNextToken_at h2 with ⟨tok, x, l', pre', a, b, c⟩ | ⟨a, b⟩
  · left
    rw [b]
    exact ⟨⟨l', tok⟩, rfl, x, pre', a, c⟩
  · right
    rw [a]
    exact ⟨rfl, fun ⟨tok, x, hx⟩ => b tok x hx⟩

theorem csvConsume_ok {T p rem r} (h : CsvPAt T p rem) (ht : CsvTokAt rem p.tok r) (hl : Lexable r) :
    ∃ p', csvConsume p = .ok p' ∧ CsvPAt T p' r := by
  rcases csvConsume_at h ht with h | ⟨_, h⟩
  · exact h
  · exact absurd hl h

theorem csvParserNew_at (T : Bytes) :
    (∃ p, csvParserNew T = .ok p ∧ CsvPAt T p (lexVisible T)) ∨
    (csvParserNew T = .fatal ∧ ¬ Lexable (lexVisible T)) := by
  unfold csvParserNew csvConsume
  obtain ⟨l, h1, h2⟩ := lexNew_at T
  rw [h1]
  simp only [Res.ok_bind]
  rcases csvNextToken_at h2 with ⟨tok, x, l', pre', a, b, c⟩ | ⟨a, b⟩
  · left
    rw [b]
    exact ⟨⟨l', tok⟩, rfl, x, pre', a, c⟩
  · right
    rw [a]
    exact ⟨rfl, fun ⟨tok, x, hx⟩ => b tok x hx⟩

/-- End of text or of line. -/
def LineEnd (tl : Bytes) : Prop := tl = [] ∨ ∃ x, tl = 10 :: x

/-- The cells behind the first one of a row. -/
inductive RowTail : List Cell → Bytes → Prop
  | nil : RowTail [] []
  | cons {c t cs u} : CellText c t → RowTail cs u → RowTail (c :: cs) (44 :: (t ++ u))

theorem rowText_iff {cs txt} : RowText cs txt ↔
    ∃ c t cs' u, cs = c :: cs' ∧ txt = t ++ u ∧ CellText c t ∧ RowTail cs' u := by
  constructor
  · intro h
    induction h with
    | one h => exact ⟨_, _, [], [], rfl, by simp, h, .nil⟩
    | cons h _ ih =>
      obtain ⟨c, t, cs', u, e1, e2, h1, h2⟩ := ih
      subst e1 e2
      exact ⟨_, _, _, _, rfl, rfl, h, .cons h1 h2⟩
  · rintro ⟨c, t, cs', u, e1, e2, h1, h2⟩
    subst e1 e2
    induction h2 generalizing c t with
    | nil => simpa using RowText.one h1
    | cons h _ ih => exact RowText.cons h1 (ih _ _ h)

/-- What may follow a cell. -/
def CellStop (r : Bytes) : Prop := ∀ b r', r = b :: r' → b = 44 ∨ b = 10

theorem RowTail.stop {cs u tl} (h : RowTail cs u) (ht : LineEnd tl) : CellStop (u ++ tl) := by
  intro b r' e
  cases h with
  | nil =>
    rcases ht with ht | ⟨x, ht⟩
    · subst ht; cases e
    · subst ht; cases e; exact Or.inr rfl
  | cons _ _ => cases e; exact Or.inl rfl

theorem CellStop.lexable {r} (h : CellStop r) : Lexable r := by
  cases r with
  | nil => exact ⟨_, _, .eof⟩
  | cons b r =>
    rcases h b r rfl with e | e
    · subst e; exact ⟨_, _, .comma⟩
    · subst e; exact ⟨_, _, .eor⟩

theorem LineEnd.lexable {r} (h : LineEnd r) : Lexable r := by
  rcases h with h | ⟨x, h⟩
  · subst h; exact ⟨_, _, .eof⟩
  · subst h; exact ⟨_, _, .eor⟩

/-- A cell that is not missing is one token. -/
theorem cell_token (dbl : Bytes → Bool) {c t r} (h : CellText c t) (hr : CellStop r) (hc : c ≠ .missing) :
    ∃ tok, CsvTokAt (t ++ r) tok r ∧ csvFieldNew dbl tok = .ok (c.field dbl) ∧
      tok ≠ .comma ∧ tok ≠ .eor ∧ tok ≠ .eof := by
  cases h with
  | missing => exact absurd rfl hc
  | plain hw ha => exact ⟨_, .field hw ha hr, rfl, by simp, by simp, by simp⟩
  | quoted d =>
    rename_i s t
    refine ⟨.qfield s, ?_, rfl, by simp, by simp, by simp⟩
    have : 34 :: (t ++ [34]) ++ r = 34 :: (t ++ 34 :: r) := by simp
    rw [this]
    refine .qfield d ?_
    intro b r' e h34
    rcases hr b r' e with x | x <;> rw [h34] at x <;> cases x

theorem cell_lexable {c t r} (h : CellText c t) (hr : CellStop r) : Lexable (t ++ r) := by
  by_cases hc : c = .missing
  · subst hc; cases h; exact hr.lexable
  · obtain ⟨tok, a, _⟩ := cell_token (fun _ => true) h hr hc
    exact ⟨_, _, a⟩

theorem CsvTokAt.eof_iff {rem tok r} (h : CsvTokAt rem tok r) : tok = .eof ↔ rem = [] := by
  cases h with
  | eof => simp
  | comma => simp
  | eor => simp
  | field hw _ _ => simp [hw]
  | qfield _ _ => simp

theorem CsvTokAt.stop_tok {rem tok r} (h : CsvTokAt rem tok r) (hs : CellStop rem) :
    tok = .comma ∨ tok = .eor ∨ tok = .eof := by
  cases h with
  | eof => simp
  | comma => simp
  | eor => simp
  | field hw ha hx =>
    rename_i w
    cases w with
    | nil => exact absurd rfl hw
    | cons b w =>
      have := ha b (by simp)
      rcases hs b _ rfl with e | e
      · exact absurd e this.2.1
      · exact absurd e this.2.2
  | qfield _ _ =>
    rcases hs 34 _ rfl with e | e <;> cases e

theorem csvRecLoop_row (dbl : Bytes → Bool) {T tl cs u} (hu : RowTail cs u) (ht : LineEnd tl) :
    ∀ (p : CsvP) (acc : List CField) (fuel : Nat), cs.length < fuel → CsvPAt T p (u ++ tl) →
    ∃ p', csvRecLoop dbl fuel p acc = .ok (p', acc ++ cs.map (Cell.field dbl)) ∧ CsvPAt T p' tl := by
  induction hu with
  | nil =>
    intro p acc fuel hf hp
    obtain ⟨f, rfl⟩ : ∃ f, fuel = f + 1 := ⟨fuel - 1, by simp at hf; omega⟩
    refine ⟨p, ?_, hp⟩
    obtain ⟨r, pre, h1, h2⟩ := hp
    rw [csvRecLoop, if_pos]
    · simp
    · rcases ht with ht | ⟨x, ht⟩
      · subst ht; right; exact h1.eof_iff.2 rfl
      · subst ht; left; exact (h1.unique .eor).1
  | cons hc hu ih =>
    rename_i c t cs u
    intro p acc fuel hf hp
    obtain ⟨f, rfl⟩ : ∃ f, fuel = f + 1 := ⟨fuel - 1, by simp at hf; omega⟩
    have hs : CellStop (u ++ tl) := hu.stop ht
    have e0 : 44 :: (t ++ u) ++ tl = 44 :: (t ++ (u ++ tl)) := by simp
    rw [e0] at hp
    have htok : p.tok = .comma := by
      obtain ⟨r, pre, h1, h2⟩ := hp
      exact (h1.unique .comma).1
    obtain ⟨p1, k1, g1⟩ := csvConsume_ok hp (by rw [htok]; exact .comma) (cell_lexable hc hs)
    rw [csvRecLoop, if_neg (by rw [htok]; simp)]
    have : csvMatchComma p = .ok p1 := by unfold csvMatchComma; rw [if_pos htok, k1]
    rw [this]
    simp only [Res.ok_bind]
    by_cases hm : c = .missing
    · subst hm
      cases hc
      have hs1 : p1.tok = .comma ∨ p1.tok = .eor ∨ p1.tok = .eof := by
        obtain ⟨r, pre, h1, h2⟩ := g1
        exact h1.stop_tok hs
      rw [if_pos hs1]
      obtain ⟨p', k, g⟩ := ih p1 (acc ++ [csvFieldNull]) f (by simp at hf; omega) g1
      refine ⟨p', ?_, g⟩
      rw [k]
      simp [Cell.field, csvFieldNull]
    · obtain ⟨tok, a1, a2, a3, a4, a5⟩ := cell_token dbl hc hs hm
      have ht1 : p1.tok = tok := by
        obtain ⟨r, pre, h1, h2⟩ := g1
        exact (h1.unique a1).1
      rw [if_neg (by rw [ht1]; simp [a3, a4, a5]), ht1, a2]
      simp only [Res.ok_bind]
      obtain ⟨p2, k2, g2⟩ := csvConsume_ok g1 (by rw [ht1]; exact a1) hs.lexable
      rw [k2]
      simp only [Res.ok_bind]
      obtain ⟨p', k, g⟩ := ih p2 (acc ++ [c.field dbl]) f (by simp at hf; omega) g2
      refine ⟨p', ?_, g⟩
      rw [k]
      simp

/-- What the parser finds in the text ahead of it, whatever that is. -/
theorem csvRecLoop_any (dbl : Bytes → Bool) {T} : ∀ (fuel : Nat) (p : CsvP) (rem : Bytes) (acc : List CField),
    CsvPAt T p rem → rem.length < fuel →
    (∃ cs u tl p', rem = u ++ tl ∧ RowTail cs u ∧ LineEnd tl ∧
      csvRecLoop dbl fuel p acc = .ok (p', acc ++ cs.map (Cell.field dbl)) ∧ CsvPAt T p' tl) ∨
    csvRecLoop dbl fuel p acc = .fatal := by
  intro fuel
  induction fuel with
  | zero => intro p rem acc _ h; omega
  | succ f ih =>
    intro p rem acc hp hf
    have hp0 := hp
    obtain ⟨r, pre, h1, h2⟩ := hp
    rw [csvRecLoop]
    by_cases hend : p.tok = .eor ∨ p.tok = .eof
    · left
      rw [if_pos hend]
      refine ⟨[], [], rem, p, rfl, .nil, ?_, by simp, hp0⟩
      rcases hend with e | e
      · rw [e] at h1
        right
        generalize hg : CTok.eor = tk at h1
        cases h1 <;> first | exact ⟨_, rfl⟩ | cases hg
      · left; exact h1.eof_iff.1 e
    · rw [if_neg hend]
      by_cases hcm : p.tok = .comma
      · have hrem : rem = 44 :: r := by
          rw [hcm] at h1
          generalize hg : CTok.comma = tk at h1
          cases h1 <;> first | rfl | cases hg
        subst hrem
        have em : csvMatchComma p = csvConsume p := by unfold csvMatchComma; rw [if_pos hcm]
        rw [em]
        rcases csvConsume_at hp0 h1 with ⟨p1, k1, g1⟩ | ⟨k1, _⟩
        · rw [k1]
          simp only [Res.ok_bind]
          have g10 := g1
          obtain ⟨r1, pre1, q1, q2⟩ := g1
          by_cases hs : p1.tok = .comma ∨ p1.tok = .eor ∨ p1.tok = .eof
          · rw [if_pos hs]
            rcases ih p1 r (acc ++ [csvFieldNull]) g10 (by simp at hf; omega) with
              ⟨cs, u, tl, p', e, a, b, c, d⟩ | c
            · left
              refine ⟨.missing :: cs, 44 :: ([] ++ u), tl, p', by rw [e]; rfl, .cons .missing a, b, ?_, d⟩
              rw [c]
              simp [Cell.field, csvFieldNull]
            · right; exact c
          · rw [if_neg hs]
            have key : ∃ cl t, r = t ++ r1 ∧ CellText cl t ∧ t ≠ [] ∧
                csvFieldNew dbl p1.tok = .ok (cl.field dbl) := by
              generalize hg : p1.tok = tk at q1 hs
              cases q1 with
              | eof => simp at hs
              | comma => simp at hs
              | eor => simp at hs
              | field hw ha hr => exact ⟨.plain _, _, rfl, .plain hw ha, hw, rfl⟩
              | qfield d hr =>
                rename_i t s
                exact ⟨.quoted s, 34 :: (t ++ [34]), by simp, .quoted d, by simp, rfl⟩
            obtain ⟨cl, t, e1, e2, e3, e4⟩ := key
            rw [e4]
            simp only [Res.ok_bind]
            rcases csvConsume_at g10 q1 with ⟨p2, k2, g2⟩ | ⟨k2, _⟩
            · rw [k2]
              simp only [Res.ok_bind]
              have hl : r1.length < f := by
                have : r.length = t.length + r1.length := by rw [e1]; simp
                have := List.length_pos_iff.2 e3
                simp at hf
                omega
              rcases ih p2 r1 (acc ++ [cl.field dbl]) g2 hl with ⟨cs, u, tl, p', e, a, b, c, d⟩ | c
              · left
                refine ⟨cl :: cs, 44 :: (t ++ u), tl, p', by rw [e1, e]; simp, .cons e2 a, b, ?_, d⟩
                rw [c]
                simp
              · right; exact c
            · right; rw [k2]; rfl
        · right; rw [k1]; rfl
      · right
        have em : csvMatchComma p = .fatal := by unfold csvMatchComma; rw [if_neg hcm]
        rw [em]; rfl

/-- What follows the end of a row. -/
def afterEnd : Bytes → Bytes
  | [] => []
  | _ :: x => x

theorem csvEndRow {T p tl} (hp : CsvPAt T p tl) (ht : LineEnd tl) (recs : List CField) :
    (∃ p', (if p.tok = .eor then do
        let p ← csvConsume p
        pure (p, recs)
      else pure (p, recs) : Res (CsvP × List CField)) = .ok (p', recs) ∧ CsvPAt T p' (afterEnd tl)) ∨
    ((if p.tok = .eor then do
        let p ← csvConsume p
        pure (p, recs)
      else pure (p, recs) : Res (CsvP × List CField)) = .fatal ∧ ¬ Lexable (afterEnd tl)) := by
  have hp0 := hp
  obtain ⟨r, pre, h1, h2⟩ := hp
  rcases ht with ht | ⟨x, ht⟩
  · subst ht
    left
    have := h1.eof_iff.2 rfl
    rw [if_neg (by rw [this]; simp)]
    exact ⟨p, rfl, hp0⟩
  · subst ht
    have := (h1.unique .eor)
    rw [if_pos this.1]
    rcases csvConsume_at hp0 (by rw [this.1]; exact .eor) with ⟨p1, k1, g1⟩ | ⟨k1, g⟩
    · left; rw [k1]; exact ⟨p1, rfl, g1⟩
    · right; rw [k1]; exact ⟨rfl, g⟩

theorem csvParseRecord_row (dbl : Bytes → Bool) {T row txt tl} (hr : RowText row txt) (hm : row ≠ [.missing])
    (ht : LineEnd tl) (hl : Lexable (afterEnd tl)) (p : CsvP) (fuel : Nat) (hf : row.length ≤ fuel)
    (hp : CsvPAt T p (txt ++ tl)) :
    ∃ p', csvParseRecord dbl fuel p = .ok (p', row.map (Cell.field dbl)) ∧ CsvPAt T p' (afterEnd tl) := by
  obtain ⟨c, t, cs, u, e1, e2, h1, h2⟩ := rowText_iff.1 hr
  subst e1 e2
  have hs := h2.stop ht
  have e0 : t ++ u ++ tl = t ++ (u ++ tl) := by simp
  rw [e0] at hp
  have first : ∃ p1, csvRecFirst dbl p = .ok (p1, [c.field dbl]) ∧ CsvPAt T p1 (u ++ tl) := by
    unfold csvRecFirst
    by_cases hc : c = .missing
    · subst hc
      cases h1
      have htok : p.tok = .comma := by
        obtain ⟨r, pre, q1, q2⟩ := hp
        cases h2 with
        | nil => exact absurd rfl hm
        | cons _ _ => exact (q1.unique .comma).1
      rw [if_neg (by rw [htok]; simp), if_pos htok]
      exact ⟨p, rfl, hp⟩
    · obtain ⟨tok, a1, a2, a3, a4, a5⟩ := cell_token dbl h1 hs hc
      have ht1 : p.tok = tok := by
        obtain ⟨r, pre, q1, q2⟩ := hp
        exact (q1.unique a1).1
      rw [if_neg (by rw [ht1]; exact a4), if_neg (by rw [ht1]; exact a3), ht1, a2]
      simp only [Res.ok_bind]
      obtain ⟨p2, k2, g2⟩ := csvConsume_ok hp (by rw [ht1]; exact a1) hs.lexable
      rw [k2]
      exact ⟨p2, rfl, g2⟩
  obtain ⟨p1, k1, g1⟩ := first
  obtain ⟨p2, k2, g2⟩ := csvRecLoop_row dbl h2 ht p1 [c.field dbl] fuel (by simp at hf; omega) g1
  unfold csvParseRecord
  rw [k1]
  simp only [Res.ok_bind]
  rw [k2]
  simp only [Res.ok_bind]
  rcases csvEndRow g2 ht ([c.field dbl] ++ cs.map (Cell.field dbl)) with ⟨p', k, g⟩ | ⟨_, g⟩
  · exact ⟨p', k, g⟩
  · exact absurd hl g

theorem csvParseRecord_any (dbl : Bytes → Bool) {T} (fuel : Nat) (p : CsvP) (rem : Bytes)
    (hp : CsvPAt T p rem) (hf : rem.length < fuel) (hne : p.tok ≠ .eof) :
    (∃ row txt tl p', rem = txt ++ tl ∧ RowText row txt ∧ row ≠ [.missing] ∧ LineEnd tl ∧ 0 < rem.length ∧
      csvParseRecord dbl fuel p = .ok (p', row.map (Cell.field dbl)) ∧ CsvPAt T p' (afterEnd tl)) ∨
    csvParseRecord dbl fuel p = .fatal := by
  have hp0 := hp
  obtain ⟨r, pre, h1, h2⟩ := hp
  have hpos : 0 < rem.length := by
    rw [List.length_pos_iff]
    exact fun e => hne (h1.eof_iff.2 e)
  unfold csvParseRecord
  by_cases heor : p.tok = .eor
  · right; unfold csvRecFirst; rw [if_pos heor]; rfl
  have first : (∃ c t r1 p1, rem = t ++ r1 ∧ CellText c t ∧ (c = .missing → p1.tok = .comma) ∧
      csvRecFirst dbl p = .ok (p1, [c.field dbl]) ∧ CsvPAt T p1 r1) ∨ csvRecFirst dbl p = .fatal := by
    unfold csvRecFirst
    rw [if_neg heor]
    by_cases hcm : p.tok = .comma
    · left
      rw [if_pos hcm]
      exact ⟨.missing, [], rem, p, rfl, .missing, fun _ => hcm, rfl, hp0⟩
    · rw [if_neg hcm]
      have key : ∃ cl t, rem = t ++ r ∧ CellText cl t ∧ cl ≠ .missing ∧
          csvFieldNew dbl p.tok = .ok (cl.field dbl) := by
        generalize hg : p.tok = tk at h1 hne heor hcm
        cases h1 with
        | eof => simp at hne
        | comma => simp at hcm
        | eor => simp at heor
        | field hw ha hr => exact ⟨.plain _, _, rfl, .plain hw ha, by simp, rfl⟩
        | qfield d hr =>
          rename_i t s
          exact ⟨.quoted s, 34 :: (t ++ [34]), by simp, .quoted d, by simp, rfl⟩
      obtain ⟨cl, t, e1, e2, e3, e4⟩ := key
      rw [e4]
      simp only [Res.ok_bind]
      rcases csvConsume_at hp0 h1 with ⟨p2, k2, g2⟩ | ⟨k2, _⟩
      · left
        rw [k2]
        exact ⟨cl, t, r, p2, e1, e2, fun e => absurd e e3, rfl, g2⟩
      · right; rw [k2]; rfl
  rcases first with ⟨c, t, r1, p1, e1, hc, hmc, k1, g1⟩ | k1
  · rw [k1]
    simp only [Res.ok_bind]
    have hl : r1.length < fuel := by
      have : rem.length = t.length + r1.length := by rw [e1]; simp
      omega
    rcases csvRecLoop_any dbl fuel p1 r1 [c.field dbl] g1 hl with ⟨cs, u, tl, p', e, a, b, k2, d⟩ | k2
    · rw [k2]
      simp only [Res.ok_bind]
      rcases csvEndRow d b ([c.field dbl] ++ cs.map (Cell.field dbl)) with ⟨p2, k, g⟩ | ⟨k, _⟩
      · left
        refine ⟨c :: cs, t ++ u, tl, p2, by rw [e1, e]; simp, rowText_iff.2 ⟨c, t, cs, u, rfl, rfl, hc, a⟩,
          ?_, b, hpos, k, g⟩
        intro hx
        cases hx
        have htc := hmc rfl
        obtain ⟨r', pre', q1, q2⟩ := g1
        cases a
        rw [htc, e] at q1
        simp only [List.nil_append] at q1
        rcases b with b | ⟨x, b⟩
        · subst b; have := q1.eof_iff.2 rfl; cases this
        · subst b; have := (q1.unique .eor).1; cases this
      · right; exact k
    · right; rw [k2]; rfl
  · right; rw [k1]; rfl

theorem RowText.ne_nil {row txt} (h : RowText row txt) : row ≠ [] := by
  cases h <;> simp

theorem RowText.length_le {row txt} (h : RowText row txt) : row.length ≤ txt.length + 1 := by
  induction h with
  | one _ => simp
  | cons _ _ ih => simp only [List.length_cons, List.length_append]; omega

theorem row_first {row txt tl} (h : RowText row txt) (hm : row ≠ [.missing]) (ht : LineEnd tl) :
    Lexable (txt ++ tl) ∧ txt ≠ [] := by
  obtain ⟨c, t, cs, u, e1, e2, h1, h2⟩ := rowText_iff.1 h
  subst e1 e2
  refine ⟨by rw [List.append_assoc]; exact cell_lexable h1 (h2.stop ht), ?_⟩
  intro e
  rw [List.append_eq_nil_iff] at e
  obtain ⟨e1, e2⟩ := e
  subst e1 e2
  cases h2
  generalize hg : ([] : Bytes) = g at h1
  cases h1 with
  | missing => exact hm rfl
  | plain hw _ => exact hw hg.symm
  | quoted _ => cases hg

theorem TableText.first {rows txt} (h : TableText rows txt) : Lexable txt ∧ txt ≠ [] := by
  cases h with
  | last hr hm => have := row_first (tl := []) hr hm (Or.inl rfl); simpa using this
  | lastNl hr hm =>
    have := row_first (tl := [10]) hr hm (Or.inr ⟨_, rfl⟩)
    exact ⟨this.1, by simp⟩
  | cons hr hm h =>
    rename_i r t rs ts
    have := row_first (tl := 10 :: ts) hr hm (Or.inr ⟨_, rfl⟩)
    exact ⟨this.1, by simp⟩

theorem TableText.ne_nil {rows txt} (h : TableText rows txt) : rows ≠ [] := by
  cases h <;> simp

theorem TableText.lengths {rows txt} (h : TableText rows txt) :
    (∀ r ∈ rows, r.length ≤ txt.length + 1) ∧ rows.length ≤ txt.length := by
  induction h with
  | last hr hm =>
    refine ⟨by simpa using hr.length_le, ?_⟩
    have := List.length_pos_iff.2 (row_first (tl := []) hr hm (Or.inl rfl)).2
    simp; omega
  | lastNl hr hm =>
    have := hr.length_le
    refine ⟨by simp; omega, by simp⟩
  | cons hr hm _ ih =>
    have := hr.length_le
    refine ⟨?_, by simp; omega⟩
    intro r h
    simp only [List.length_append, List.length_cons]
    cases h with
    | head => omega
    | tail _ h => have := ih.1 r h; omega

/-- The number of columns when `n` columns were seen before and `rows` follow. -/
def nColumns {α : Type} (n : Nat) : List (List α) → Nat
  | [] => n
  | r :: _ => if n = 0 then r.length else n

theorem nColumns_cons {α : Type} (n : Nat) (r : List α) (rs : List (List α)) :
    nColumns n (r :: rs) = if n = 0 then r.length else n := rfl

theorem csvParseLoop_table (dbl : Bytes → Bool) {T rows txt} (h : TableText rows txt) :
    ∀ (p : CsvP) (rf fuel : Nat) (recs : List (List CField)) (n : Nat),
    (∀ r ∈ rows, r.length ≤ rf) → rows.length < fuel → CsvPAt T p txt →
    (Rect rows (nColumns n rows) →
      csvParseLoop dbl rf fuel p recs n = .ok (recs ++ rows.map (List.map (Cell.field dbl)), nColumns n rows)) ∧
    (¬ Rect rows (nColumns n rows) → csvParseLoop dbl rf fuel p recs n = .fatal) := by
  -- one record
  have one : ∀ {row rtxt tl} (hr : RowText row rtxt) (hm : row ≠ [.missing]) (ht : LineEnd tl)
      (hl : Lexable (afterEnd tl)) (p : CsvP) (rf fuel : Nat) (recs : List (List CField)) (n : Nat),
      row.length ≤ rf → CsvPAt T p (rtxt ++ tl) →
      ∃ p', CsvPAt T p' (afterEnd tl) ∧ csvParseLoop dbl rf (fuel + 1) p recs n =
        if n = 0 ∨ row.length = n then
          csvParseLoop dbl rf fuel p' (recs ++ [row.map (Cell.field dbl)]) row.length
        else .fatal := by
    intro row rtxt tl hr hm ht hl p rf fuel recs n hrf hp
    obtain ⟨p', k, g⟩ := csvParseRecord_row dbl hr hm ht hl p rf hrf hp
    refine ⟨p', g, ?_⟩
    have hne : p.tok ≠ .eof := by
      obtain ⟨r, pre, h1, h2⟩ := hp
      intro e
      have := h1.eof_iff.1 e
      exact (row_first hr hm ht).2 (List.append_eq_nil_iff.1 this).1
    rw [csvParseLoop, if_neg hne, k]
    simp only [Res.ok_bind]
    by_cases h0 : n = 0
    · rw [if_pos h0, if_pos (Or.inl h0)]; simp
    · rw [if_neg h0]
      by_cases h1 : row.length = n
      · rw [if_neg (by simp [h1]), if_pos (Or.inr h1), h1]
      · rw [if_pos (by simpa using h1), if_neg (by simp [h0, h1])]
  have fin : ∀ {p : CsvP} {rf fuel recs n}, CsvPAt T p [] →
      csvParseLoop dbl rf (fuel + 1) p recs n = .ok (recs, n) := by
    intro p rf fuel recs n hp
    obtain ⟨r, pre, h1, h2⟩ := hp
    rw [csvParseLoop, if_pos (h1.eof_iff.2 rfl)]
  have single : ∀ {row rtxt tl} (hr : RowText row rtxt) (hm : row ≠ [.missing]) (ht : LineEnd tl)
      (hl : afterEnd tl = []) (p : CsvP) (rf fuel : Nat) (recs : List (List CField)) (n : Nat),
      row.length ≤ rf → 1 < fuel → CsvPAt T p (rtxt ++ tl) →
      (Rect [row] (nColumns n [row]) →
        csvParseLoop dbl rf fuel p recs n = .ok (recs ++ [row].map (List.map (Cell.field dbl)), nColumns n [row])) ∧
      (¬ Rect [row] (nColumns n [row]) → csvParseLoop dbl rf fuel p recs n = .fatal) := by
    intro row rtxt tl hr hm ht hl p rf fuel recs n hrf hf hp
    obtain ⟨f, rfl⟩ : ∃ f, fuel = f + 2 := ⟨fuel - 2, by omega⟩
    obtain ⟨p', g, k⟩ := one hr hm ht (by rw [hl]; exact ⟨_, _, .eof⟩) p rf (f + 1) recs n hrf hp
    rw [hl] at g
    rw [k, fin g]
    have hpos := List.length_pos_iff.2 hr.ne_nil
    constructor
    · intro hR
      have : row.length = nColumns n [row] := hR row (by simp)
      rw [nColumns_cons] at this ⊢
      by_cases h0 : n = 0
      · rw [if_pos (Or.inl h0), if_pos h0]; simp
      · rw [if_neg h0] at this ⊢
        rw [if_pos (Or.inr this), this]; simp
    · intro hR
      rw [if_neg]
      rintro (h0 | h0)
      · apply hR; intro r hr'; simp at hr'; subst hr'; simp [nColumns, h0]
      · apply hR; intro r hr'; simp at hr'; subst hr'; rw [nColumns_cons]; split <;> omega
  induction h with
  | last hr hm =>
    intro p rf fuel recs n hrf hf hp
    exact single (tl := []) hr hm (Or.inl rfl) rfl p rf fuel recs n (hrf _ (by simp)) (by simpa using hf)
      (by simpa using hp)
  | lastNl hr hm =>
    intro p rf fuel recs n hrf hf hp
    exact single (tl := [10]) hr hm (Or.inr ⟨_, rfl⟩) rfl p rf fuel recs n (hrf _ (by simp))
      (by simpa using hf) hp
  | cons hr hm ht ih =>
    rename_i r t rs ts
    intro p rf fuel recs n hrf hf hp
    obtain ⟨f, rfl⟩ : ∃ f, fuel = f + 1 := ⟨fuel - 1, by simp at hf; omega⟩
    obtain ⟨p', g, k⟩ := one (tl := 10 :: ts) hr hm (Or.inr ⟨_, rfl⟩) ht.first.1 p rf f recs n
      (hrf _ (by simp)) hp
    have hpos := List.length_pos_iff.2 hr.ne_nil
    obtain ⟨i1, i2⟩ := ih p' rf f (recs ++ [r.map (Cell.field dbl)]) r.length
      (fun x hx => hrf x (by simp [hx])) (by simp at hf; omega) g
    have en : nColumns r.length rs = r.length := by
      unfold nColumns
      cases rs with
      | nil => rfl
      | cons _ _ => simp only; rw [if_neg (by omega)]
    rw [en] at i1 i2
    rw [k]
    constructor
    · intro hR
      have h1 : r.length = nColumns n (r :: rs) := hR r (by simp)
      have hc : n = 0 ∨ r.length = n := by
        rw [nColumns_cons] at h1
        split at h1 <;> omega
      rw [if_pos hc, i1 (fun x hx => by rw [h1]; exact hR x (by simp [hx])), ← h1]
      simp
    · intro hR
      by_cases hc : n = 0 ∨ r.length = n
      · rw [if_pos hc]
        apply i2
        intro hR2
        apply hR
        have h1 : nColumns n (r :: rs) = r.length := by
          rw [nColumns_cons]
          split <;> omega
        rw [h1]
        intro x hx
        cases hx with
        | head => rfl
        | tail _ hx => exact hR2 x hx
      · rw [if_neg hc]

theorem csvParseLoop_any (dbl : Bytes → Bool) {T} (rf : Nat) : ∀ (fuel : Nat) (p : CsvP) (rem : Bytes)
    (recs : List (List CField)) (n : Nat), CsvPAt T p rem → rem.length < rf → rem.length < fuel →
    (∃ rows m, (rem = [] ∧ rows = [] ∨ TableText rows rem) ∧
      csvParseLoop dbl rf fuel p recs n = .ok (recs ++ rows.map (List.map (Cell.field dbl)), m)) ∨
    csvParseLoop dbl rf fuel p recs n = .fatal := by
  intro fuel
  induction fuel with
  | zero => intro p rem recs n _ _ h; omega
  | succ f ih =>
    intro p rem recs n hp hrf hf
    have hp0 := hp
    obtain ⟨r, pre, h1, h2⟩ := hp
    rw [csvParseLoop]
    by_cases he : p.tok = .eof
    · left
      rw [if_pos he]
      exact ⟨[], n, Or.inl ⟨h1.eof_iff.1 he, rfl⟩, by simp⟩
    · rw [if_neg he]
      rcases csvParseRecord_any dbl rf p rem hp0 hrf he with ⟨row, txt, tl, p', e, hr, hm, ht, hpos, k, g⟩ | k
      · rw [k]
        simp only [Res.ok_bind]
        have hl : (afterEnd tl).length < rem.length := by
          have := List.length_pos_iff.2 (row_first hr hm ht).2
          have e1 : rem.length = txt.length + tl.length := by rw [e]; simp
          rcases ht with ht | ⟨x, ht⟩
          · subst ht; simp [afterEnd]; omega
          · subst ht; simp [afterEnd] at *; omega
        have fin : ∀ n', (∃ rows m, (rem = [] ∧ rows = [] ∨ TableText rows rem) ∧
            csvParseLoop dbl rf f p' (recs ++ [row.map (Cell.field dbl)]) n' =
              .ok (recs ++ rows.map (List.map (Cell.field dbl)), m)) ∨
            csvParseLoop dbl rf f p' (recs ++ [row.map (Cell.field dbl)]) n' = .fatal := by
          intro n'
          rcases ih p' (afterEnd tl) (recs ++ [row.map (Cell.field dbl)]) n' g (by omega) (by omega) with
            ⟨rows, m, hrows, k2⟩ | k2
          · left
            refine ⟨row :: rows, m, Or.inr ?_, by rw [k2]; simp⟩
            rcases ht with ht | ⟨x, ht⟩
            · subst ht
              rcases hrows with ⟨_, hx⟩ | hx
              · subst hx; rw [e]; simpa using TableText.last hr hm
              · exact absurd rfl hx.first.2
            · subst ht
              rcases hrows with ⟨hy, hx⟩ | hx
              · subst hx
                simp only [afterEnd] at hy
                subst hy
                rw [e]; exact TableText.lastNl hr hm
              · rw [e]; exact TableText.cons hr hm hx
          · right; exact k2
        by_cases h0 : n = 0
        · rw [if_pos h0]; exact fin _
        · rw [if_neg h0]
          split
          · right; rfl
          · exact fin _
      · right; rw [k]; rfl

end Nx
