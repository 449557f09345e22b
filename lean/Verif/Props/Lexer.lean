import Verif.Lemmas.LexerTokens

/-!
# C16–C19: the lexer

`LexAt T l pre rem` (`Verif/Spec/Lexer.lean`) says that the lexer `l` over the text
`T` has passed `pre` and has `rem` ahead, with the line and column numbers that
belong to this position.
-/

namespace Nx

/-- `n` calls of `nx_lexer_consume`. -/
def consumeN (l : Lexer) : Nat → Res Lexer
  | 0 => .ok l
  | n + 1 => do
    let l ← lexConsume l
    consumeN l n

theorem consumeN_at {T : Bytes} : ∀ (n : Nat) {l pre rem}, LexAt T l pre rem →
    ∃ l', consumeN l n = .ok l' ∧ LexAt T l' (pre ++ rem.take n) (rem.drop n) := by
  intro n
  induction n with
  | zero => intro l pre rem h; exact ⟨l, rfl, by simpa using h⟩
  | succ n ih =>
    intro l pre rem h
    cases rem with
    | nil =>
      obtain ⟨l', h1, h2⟩ := ih h
      refine ⟨l', ?_, by simpa using h2⟩
      unfold consumeN; rw [lexConsume_end h]; exact h1
    | cons b rem =>
      obtain ⟨l1, g1, g2⟩ := lexConsume_at h
      obtain ⟨l', h1, h2⟩ := ih g2
      refine ⟨l', ?_, by simpa using h2⟩
      unfold consumeN; rw [g1]; exact h1

/-- C16. After creating a lexer and `n` calls of consume nothing undefined has
happened and the lexer stands at position `min n (length)`: the current character
is the one at this position of the text, or `EOF` at the end; the line number is one
plus the number of newlines up to and including the current character; the column
is the width of the text since the last line break (one more at the end). -/
theorem c16_consume_position (T : Bytes) (n : Nat) :
    ∃ l0 l, lexNew T = .ok l0 ∧ consumeN l0 n = .ok l ∧
      l.pos = (min n (lexVisible T).length : Nat) ∧
      l.c = (match (lexVisible T)[n]? with
        | some b => schar b
        | none => -1) ∧
      l.line = 1 + (((lexVisible T).take (n + 1)).count 10 : Nat) ∧
      l.col = columnOf ((lexVisible T).take (n + 1))
        + (if n < (lexVisible T).length then 0 else 1) := by
  obtain ⟨l0, h0, ha⟩ := lexNew_at T
  obtain ⟨l, h1, h2⟩ := consumeN_at n ha
  refine ⟨l0, l, h0, h1, ?_, ?_, ?_, ?_⟩
  · rw [h2.pos]; simp
  · rw [h2.cur]
    by_cases hn : n < (lexVisible T).length
    · rw [List.drop_eq_getElem_cons hn, List.getElem?_eq_getElem hn]; rfl
    · rw [List.drop_eq_nil_of_le (by omega), List.getElem?_eq_none (by omega)]; rfl
  · rw [h2.line]
    have : [] ++ (lexVisible T).take n ++ ((lexVisible T).drop n).take 1 = (lexVisible T).take (n + 1) := by
      simp [List.take_add]
    rw [this]
  · rw [h2.col]
    have : [] ++ (lexVisible T).take n ++ ((lexVisible T).drop n).take 1 = (lexVisible T).take (n + 1) := by
      simp [List.take_add]
    rw [this]
    simp only [List.drop_eq_nil_iff]
    by_cases hn : n < (lexVisible T).length
    · rw [if_neg (by omega), if_pos hn]
    · rw [if_pos (by omega), if_neg hn]

/-- C16, second part: end of input is sticky. -/
theorem c16_end_sticky (T : Bytes) (n m : Nat) (l0 l : Lexer) (h0 : lexNew T = .ok l0)
    (h : consumeN l0 n = .ok l) (hc : l.c = -1) : consumeN l m = .ok l := by
  obtain ⟨l0', h0', ha⟩ := lexNew_at T
  rw [h0] at h0'; cases h0'
  obtain ⟨l', h1, h2⟩ := consumeN_at n ha
  rw [h] at h1; cases h1
  have hnil : (lexVisible T).drop n = [] := by
    cases hd : (lexVisible T).drop n with
    | nil => rfl
    | cons b r =>
      rw [hd] at h2
      rw [h2.cur_cons] at hc
      exact absurd hc (schar_ne_eof (h2.split_mem.2 b (by simp)).2)
  rw [hnil] at h2
  induction m with
  | zero => rfl
  | succ m ih => unfold consumeN; rw [lexConsume_end h2]; exact ih

/-- For C strings without the byte 255 the lexer sees the whole text. -/
theorem c16_visible_all (T : Bytes) (h0 : CStr T) (h1 : 255 ∉ T) : lexVisible T = T :=
  lexVisible_CStr h0 h1

/-- The byte 255 ends the input early, because `EOF` is the value of that `char`. -/
theorem c16_byte_255_ends (a b : Bytes) (h0 : CStr a) (h1 : 255 ∉ a) :
    lexVisible (a ++ 255 :: b) = a := by
  unfold lexVisible
  rw [List.takeWhile_append]
  have : a.takeWhile (fun b => b != 0 && b != 255) = a := lexVisible_CStr h0 h1
  rw [this]
  simp

example : lexVisible (bytesOf "a\nbc") = bytesOf "a\nbc" := by decide +kernel

example : ∃ l0 l, lexNew (bytesOf "a\n\tc") = .ok l0 ∧ consumeN l0 3 = .ok l ∧
    l = { text := bytesOf "a\n\tc", pos := 3, c := 99, line := 2, col := 9 } :=
  ⟨_, _, rfl, rfl, by decide +kernel⟩

/-- C17. `nx_lexer_match` with a literal that does not contain the byte 255: if the
text ahead starts with the literal, exactly the literal is consumed and the result
is true; otherwise the result is false and the lexer is unchanged. -/
theorem c17_match {T l pre rem} (s : Bytes) (hs : 255 ∉ s) (h : LexAt T l pre rem) :
    (∀ r, rem = s ++ r → ∃ l', lexMatch l s = .ok (true, l') ∧ LexAt T l' (pre ++ s) r) ∧
    (¬ s <+: rem → lexMatch l s = .ok (false, l)) := by
  unfold lexMatch
  rcases lexMatchLoop_at s hs h with ⟨r, l', e, h1, h2⟩ | ⟨h1, h2⟩
  · constructor
    · intro r' e'
      rw [e] at e'
      have := List.append_cancel_left e'
      subst this
      exact ⟨l', by rw [h1]; rfl, h2⟩
    · intro hn; exact absurd ⟨r, e.symm⟩ hn
  · constructor
    · intro r e; exact absurd ⟨r, e.symm⟩ h1
    · intro _; rw [h2]; rfl

/-- The condition on the literal is needed: at the end of input a literal made of
the byte 255 matches without consuming anything. -/
theorem c17_match_255_at_end {T l pre} (h : LexAt T l pre []) :
    lexMatch l [255] = .ok (true, l) := by
  unfold lexMatch lexMatchLoop
  rw [if_pos (by rw [h.cur_nil]; decide), lexConsume_end h]
  rfl

/-- The number and string matchers never return a failure: they return a token or
abort, so there is no failed match that could have consumed input. (Their exact
behaviour is C18 and C19.) -/
theorem c17_matchers_return_token {T l pre b rem} (h : LexAt T l pre (b :: rem)) :
    (b = 45 ∨ IsDigit b → lexNumber l = .fatal ∨ ∃ l' x i pre' rem', lexNumber l = .ok (l', x, i) ∧
      LexAt T l' pre' rem') ∧
    (b = 34 → lexQuotedString l = .fatal ∨ ∃ l' x pre' rem', lexQuotedString l = .ok (l', x) ∧
      LexAt T l' pre' rem') := by
  constructor
  · intro hb
    rcases lexNumber_cases h ⟨b, rem, rfl, hb⟩ with ⟨sign, int, frac, exp, r, e, hp, hs⟩ | hf
    · rw [e] at h
      obtain ⟨l', h1, h2⟩ := lexNumber_ok h hp hs
      exact Or.inr ⟨l', _, _, _, _, h1, h2⟩
    · exact Or.inl hf
  · intro hb; subst hb
    rcases lexQuotedString_cases h with ⟨w, r, e, hq⟩ | hf
    · rw [e] at h
      obtain ⟨l', h1, h2⟩ := lexQuotedString_ok h hq
      exact Or.inr ⟨l', _, _, _, h1, h2⟩
    · exact Or.inl hf

/-- C18. On a text starting with a minus sign or a digit the number matcher
succeeds iff the text is a JSON number followed by something that cannot continue
the number; it then consumes exactly this number, returns its position and length,
and calls it an integer iff it has neither fraction nor exponent. In all other cases
the process is terminated with an error message. -/
theorem c18_number_partial {T l pre rem} (h : LexAt T l pre rem)
    (hstart : ∃ b r, rem = b :: r ∧ (b = 45 ∨ IsDigit b)) :
    (∀ sign int frac exp r, rem = sign ++ int ++ frac ++ exp ++ r → JParts sign int frac exp →
      NumStop frac exp r →
      ∃ l', lexNumber l = .ok (l', ⟨(pre.length : Nat), ((sign ++ int ++ frac ++ exp).length : Nat)⟩,
          decide (frac = [] ∧ exp = [])) ∧
        LexAt T l' (pre ++ (sign ++ int ++ frac ++ exp)) r) ∧
    ((¬ ∃ sign int frac exp r, rem = sign ++ int ++ frac ++ exp ++ r ∧ JParts sign int frac exp ∧
      NumStop frac exp r) → lexNumber l = .fatal) := by
  constructor
  · intro sign int frac exp r e hp hs
    subst e
    exact lexNumber_ok h hp hs
  · intro hn
    rcases lexNumber_cases h hstart with hc | hf
    · exact absurd hc hn
    · exact hf

theorem prefix_digits_le {a b r r' : Bytes} (ha : ∀ x ∈ a, IsDigit x)
    (hr : ∀ x t, r = x :: t → ¬ IsDigit x) (hb : ∀ x ∈ b, IsDigit x) (e : a ++ r = b ++ r') :
    b.length ≤ a.length ∧ ((∀ x t, r' = x :: t → ¬ IsDigit x) → a = b ∧ r = r') := by
  induction a generalizing b with
  | nil =>
    cases b with
    | nil => exact ⟨by simp, fun _ => ⟨rfl, by simpa using e⟩⟩
    | cons x b =>
      exact absurd (hb x (by simp)) (hr x (b ++ r') (by simpa using e))
  | cons x a ih =>
    cases b with
    | nil =>
      refine ⟨by simp, fun hr' => ?_⟩
      exact absurd (ha x (by simp)) (hr' x (a ++ r) (by simpa using e.symm))
    | cons y b =>
      simp only [List.cons_append, List.cons.injEq] at e
      obtain ⟨h1, h2⟩ := ih (fun z hz => ha z (by simp [hz])) (fun z hz => hb z (by simp [hz])) e.2
      refine ⟨by simp; omega, fun hr' => ?_⟩
      obtain ⟨h3, h4⟩ := h2 hr'
      rw [e.1, h3, h4]; exact ⟨rfl, rfl⟩

theorem jexp_head {x r : Bytes} {b : Byte} {t : Bytes} (hx : JExp x) (hne : x ≠ []) (e : x ++ r = b :: t) :
    b = 101 ∨ b = 69 := by
  rcases hx with h | ⟨c, s, d, h, hc, _⟩
  · exact absurd h hne
  · subst h
    simp only [List.cons_append, List.cons.injEq] at e
    rw [← e.1]; exact hc

theorem jfrac_head {f r : Bytes} {b : Byte} {t : Bytes} (hf : JFrac f) (hne : f ≠ []) (e : f ++ r = b :: t) :
    b = 46 := by
  rcases hf with h | ⟨d, h, _⟩
  · exact absurd h hne
  · subst h
    simp only [List.cons_append, List.cons.injEq] at e
    exact e.1.symm

/-- C18, second part: the number consumed is the longest prefix of the text that
is a JSON number. -/
theorem c18_longest {sign int frac exp r w r' : Bytes} (hp : JParts sign int frac exp)
    (hs : NumStop frac exp r) (hw : JNumber w)
    (e : sign ++ int ++ frac ++ exp ++ r = w ++ r') :
    w.length ≤ (sign ++ int ++ frac ++ exp).length := by
  obtain ⟨sign', int', frac', exp', ew, hp'⟩ := hw
  subst ew
  have hi := hp.int.digits
  have hi' := hp'.int.digits
  have hsig : sign = sign' := by
    rcases hp.sign with h | h <;> rcases hp'.sign with h' | h' <;> subst h <;> subst h'
    · rfl
    · exfalso
      cases int with
      | nil => exact hi.1 rfl
      | cons b int =>
        simp only [List.nil_append, List.cons_append, List.cons.injEq] at e
        have := hi.2 b (by simp)
        rw [e.1] at this; exact absurd this (by decide)
    · exfalso
      cases int' with
      | nil => exact hi'.1 rfl
      | cons b int' =>
        simp only [List.nil_append, List.cons_append, List.cons.injEq] at e
        have := hi'.2 b (by simp)
        rw [← e.1] at this; exact absurd this (by decide)
    · rfl
  subst hsig
  simp only [List.append_assoc] at e
  have e1 := List.append_cancel_left e
  have hfr : ∀ x t, frac ++ (exp ++ r) = x :: t → ¬ IsDigit x := by
    intro x t ex
    by_cases hf : frac = []
    · subst hf
      by_cases he : exp = []
      · subst he; exact (hs x t ex).1
      · have := jexp_head hp.exp he ex
        rcases this with h | h <;> rw [h] <;> decide
    · rw [jfrac_head hp.frac hf ex]; decide
  obtain ⟨hle, heq⟩ := prefix_digits_le hi.2 hfr hi'.2 e1
  by_cases hf' : frac' = []
  · subst hf'
    by_cases he' : exp' = []
    · subst he'
      simp; omega
    · -- exponent directly after the digits
      have hnd : ∀ x t, [] ++ (exp' ++ r') = x :: t → ¬ IsDigit x := by
        intro x t ex
        have := jexp_head hp'.exp he' ex
        rcases this with h | h <;> rw [h] <;> decide
      obtain ⟨ei, er⟩ := heq hnd
      subst ei
      have hf : frac = [] := by
        apply Classical.byContradiction
        intro hf
        rcases hp'.exp with h | ⟨c, s, d, h, hc, _⟩
        · exact he' h
        · subst h
          have := jfrac_head (b := c) hp.frac hf er
          rw [this] at hc; rcases hc with hc | hc <;> exact absurd hc (by decide)
      subst hf
      simp only [List.nil_append] at er
      have he : exp ≠ [] := by
        intro he; subst he
        rcases hp'.exp with h | ⟨c, s, d, h, hc, _⟩
        · exact he' h
        · subst h
          have := (hs c _ er).2.1 rfl
          rcases hc with hc | hc
          · exact this.1 hc
          · exact this.2 hc
      rcases hp.exp with h | ⟨c, s, d, h, hc, hsg, hd⟩
      · exact absurd h he
      rcases hp'.exp with h' | ⟨c', s', d', h', hc', hsg', hd'⟩
      · exact absurd h' he'
      subst h; subst h'
      simp only [List.cons_append, List.cons.injEq, List.append_assoc] at er
      obtain ⟨_, er⟩ := er
      have hss : s = s' := by
        have hd0 : ∀ {d : Bytes} {r} , Digits d → ∀ b t, d ++ r = b :: t → IsDigit b := by
          intro d r hd b t e
          cases d with
          | nil => exact absurd rfl hd.1
          | cons y d =>
            simp only [List.cons_append, List.cons.injEq] at e
            rw [← e.1]; exact hd.2 y (by simp)
        rcases hsg with h | h | h <;> rcases hsg' with h' | h' | h' <;> subst h <;> subst h' <;>
          simp only [List.nil_append, List.cons_append, List.cons.injEq] at er
        · rfl
        · exact absurd (hd0 hd _ _ er) (by decide)
        · exact absurd (hd0 hd _ _ er) (by decide)
        · exact absurd (hd0 hd' _ _ er.symm) (by decide)
        · rfl
        · exact absurd er.1 (by decide)
        · exact absurd (hd0 hd' _ _ er.symm) (by decide)
        · exact absurd er.1 (by decide)
        · rfl
      subst hss
      have er2 := List.append_cancel_left er
      have := (prefix_digits_le hd.2 (fun x t ex => (hs x t ex).1) hd'.2 er2).1
      simp; omega
  · -- fraction after the digits
    have hnd : ∀ x t, frac' ++ (exp' ++ r') = x :: t → ¬ IsDigit x := by
      intro x t ex
      rw [jfrac_head hp'.frac hf' ex]; decide
    obtain ⟨ei, er⟩ := heq hnd
    subst ei
    have hf : frac ≠ [] := by
      intro hf; subst hf
      rcases hp'.frac with h | ⟨d, h, _⟩
      · exact hf' h
      · subst h
        by_cases he : exp = []
        · subst he
          exact (hs 46 _ er).2.2 rfl rfl rfl
        · have := jexp_head (b := 46) hp.exp he (by simpa using er)
          rcases this with h | h <;> exact absurd h (by decide)
    rcases hp.frac with h | ⟨d, h, hd⟩
    · exact absurd h hf
    rcases hp'.frac with h' | ⟨d', h', hd'⟩
    · exact absurd h' hf'
    subst h; subst h'
    simp only [List.cons_append, List.cons.injEq, true_and] at er
    have hnd1 : ∀ x t, exp ++ r = x :: t → ¬ IsDigit x := by
      intro x t ex
      by_cases he : exp = []
      · subst he; exact (hs x t ex).1
      · have := jexp_head hp.exp he ex
        rcases this with h | h <;> rw [h] <;> decide
    obtain ⟨hle2, heq2⟩ := prefix_digits_le hd.2 hnd1 hd'.2 er
    by_cases he' : exp' = []
    · subst he'
      simp; omega
    · have hnd2 : ∀ x t, exp' ++ r' = x :: t → ¬ IsDigit x := by
        intro x t ex
        have := jexp_head hp'.exp he' ex
        rcases this with h | h <;> rw [h] <;> decide
      obtain ⟨ed, er2⟩ := heq2 hnd2
      subst ed
      have he : exp ≠ [] := by
        intro he; subst he
        rcases hp'.exp with h | ⟨c, s, d, h, hc, _⟩
        · exact he' h
        · subst h
          have := (hs c _ er2).2.1 rfl
          rcases hc with hc | hc
          · exact this.1 hc
          · exact this.2 hc
      rcases hp.exp with h | ⟨c, s, d2, h, hc, hsg, hd2⟩
      · exact absurd h he
      rcases hp'.exp with h' | ⟨c', s', d2', h', hc', hsg', hd2'⟩
      · exact absurd h' he'
      subst h; subst h'
      simp only [List.cons_append, List.cons.injEq, List.append_assoc] at er2
      obtain ⟨_, er2⟩ := er2
      have hss : s = s' := by
        have hd0 : ∀ {d : Bytes} {r} , Digits d → ∀ b t, d ++ r = b :: t → IsDigit b := by
          intro d r hd b t e
          cases d with
          | nil => exact absurd rfl hd.1
          | cons y d =>
            simp only [List.cons_append, List.cons.injEq] at e
            rw [← e.1]; exact hd.2 y (by simp)
        rcases hsg with h | h | h <;> rcases hsg' with h' | h' | h' <;> subst h <;> subst h' <;>
          simp only [List.nil_append, List.cons_append, List.cons.injEq] at er2
        · rfl
        · exact absurd (hd0 hd2 _ _ er2) (by decide)
        · exact absurd (hd0 hd2 _ _ er2) (by decide)
        · exact absurd (hd0 hd2' _ _ er2.symm) (by decide)
        · rfl
        · exact absurd er2.1 (by decide)
        · exact absurd (hd0 hd2' _ _ er2.symm) (by decide)
        · exact absurd er2.1 (by decide)
        · rfl
      subst hss
      have er3 := List.append_cancel_left er2
      have := (prefix_digits_le hd2.2 (fun x t ex => (hs x t ex).1) hd2'.2 er3).1
      simp; omega

/-- What is missing for C18 as stated: a text that starts with a JSON number but
goes on like an incomplete longer one is an error, not a match of the number. -/
theorem c18_incomplete_is_error :
    ∃ T l, lexNew T = .ok l ∧ (∃ w r, T = w ++ r ∧ JNumber w) ∧ lexNumber l = .fatal := by
  refine ⟨bytesOf "1.x", _, rfl, ⟨bytesOf "1", bytesOf ".x", by decide +kernel, ?_⟩, by decide +kernel⟩
  exact ⟨[], [49], [], [], by decide +kernel, Or.inl rfl, Or.inr ⟨⟨by simp, by simp [IsDigit]⟩, by simp⟩,
    Or.inl rfl, Or.inl rfl⟩

/-- And when called on other texts the matcher can accept non-numbers: `.5`. -/
theorem c18_accepts_point_five :
    ∃ l l' x, lexNew (bytesOf ".5") = .ok l ∧ lexNumber l = .ok (l', x, false) ∧ x.len = 2 :=
  ⟨_, { text := bytesOf ".5", pos := 2, c := -1, line := 1, col := 3 }, ⟨0, 2⟩, rfl,
    by decide +kernel, rfl⟩

example : ∃ l, lexNew (bytesOf "-12.5e+3,") = .ok l ∧
    LexAt (bytesOf "-12.5e+3,") l [] (bytesOf "-" ++ bytesOf "12" ++ bytesOf ".5" ++ bytesOf "e+3" ++ bytesOf ",") ∧
    JParts (bytesOf "-") (bytesOf "12") (bytesOf ".5") (bytesOf "e+3") ∧
    NumStop (bytesOf ".5") (bytesOf "e+3") (bytesOf ",") := by
  obtain ⟨l, h1, h2⟩ := lexNew_at (bytesOf "-12.5e+3,")
  refine ⟨l, h1, h2, ⟨Or.inr rfl, Or.inr ⟨⟨by decide, by decide +kernel⟩, by decide +kernel⟩,
    Or.inr ⟨[53], by decide +kernel, by simp [Digits, IsDigit]⟩,
    Or.inr ⟨101, [43], [51], by decide +kernel, Or.inl rfl, Or.inr (Or.inl rfl), by simp [Digits, IsDigit]⟩⟩, ?_⟩
  intro b r' e
  have : b = 44 := by
    have : bytesOf "," = [44] := by decide +kernel
    rw [this] at e; simp at e; exact e.1.symm
  subst this
  exact ⟨by decide, by decide +kernel, by decide +kernel⟩

/-- C19. The quoted string matcher, called at an opening quote, succeeds iff the
text is a quote, a body of plain characters and valid escapes, and a closing quote;
it consumes exactly these and returns the position and length of the body. Otherwise
the process is terminated with an error message. -/
theorem c19_quoted_string {T l pre rem} (h : LexAt T l pre (34 :: rem)) :
    (∀ w r, rem = w ++ 34 :: r → QBody w →
      ∃ l', lexQuotedString l = .ok (l', ⟨((pre ++ [34]).length : Nat), (w.length : Nat)⟩) ∧
        LexAt T l' (pre ++ 34 :: w ++ [34]) r) ∧
    ((¬ ∃ w r, rem = w ++ 34 :: r ∧ QBody w) → lexQuotedString l = .fatal) := by
  constructor
  · intro w r e hq
    subst e
    exact lexQuotedString_ok h hq
  · intro hn
    rcases lexQuotedString_cases h with hc | hf
    · exact absurd hc hn
    · exact hf

/-- C19, second part: the body ends at the first unescaped quote, so it is unique. -/
theorem c19_unique {w w' r r' : Bytes} (hw : QBody w) (hw' : QBody w')
    (e : w ++ 34 :: r = w' ++ 34 :: r') : w = w' ∧ r = r' := by
  induction hw generalizing w' with
  | nil =>
    cases hw' with
    | nil => simpa using e
    | plain hp => simp only [List.nil_append, List.cons_append, List.cons.injEq] at e; exact absurd e.1.symm hp.1
    | esc => simp only [List.nil_append, List.cons_append, List.cons.injEq] at e; exact absurd e.1 (by decide)
  | plain hp _ ih =>
    cases hw' with
    | nil => simp only [List.nil_append, List.cons_append, List.cons.injEq] at e; exact absurd e.1 hp.1
    | plain hp' hq' =>
      simp only [List.cons_append, List.cons.injEq] at e
      obtain ⟨h1, h2⟩ := ih hq' e.2
      rw [e.1, h1]; exact ⟨rfl, h2⟩
    | esc => simp only [List.cons_append, List.cons.injEq] at e; exact absurd e.1 hp.2
  | esc he _ ih =>
    cases hw' with
    | nil => simp only [List.nil_append, List.cons_append, List.cons.injEq] at e; exact absurd e.1 (by decide)
    | plain hp' => simp only [List.cons_append, List.cons.injEq] at e; exact absurd e.1.symm hp'.2
    | esc he' hq' =>
      simp only [List.cons_append, List.cons.injEq, true_and] at e
      obtain ⟨h1, h2⟩ := ih hq' e.2
      rw [e.1, h1]; exact ⟨rfl, h2⟩

example : QBody (bytesOf "a\\\"b") ∧ ¬ EscChar 120 :=
  ⟨.plain (by unfold PlainStr; decide) (.esc (by decide) (.plain (by unfold PlainStr; decide) .nil)),
    by decide⟩

end Nx
