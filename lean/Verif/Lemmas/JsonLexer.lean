import Verif.Lemmas.LexerTokens
import Verif.Props.Str
import Verif.Spec.Json

/-! # The JSON lexer in terms of the text ahead -/

namespace Nx

theorem isJsonWs_schar (b : Byte) :
    isJsonWs (schar b) = true ↔ (b = 10 ∨ b = 13 ∨ b = 9 ∨ b = 32) := by
  have h : ∀ n : Fin 256, isJsonWs (schar (UInt8.ofNat n.1)) = true ↔
      (UInt8.ofNat n.1 = 10 ∨ UInt8.ofNat n.1 = 13 ∨ UInt8.ofNat n.1 = 9 ∨ UInt8.ofNat n.1 = 32) := by
    decide +kernel
  have := h ⟨b.toNat, b.toNat_lt⟩
  simpa using this

/-- No white space in front. -/
def NoWs (z : Bytes) : Prop := ∀ b r, z = b :: r → ¬ (b = 10 ∨ b = 13 ∨ b = 9 ∨ b = 32)

theorem dropWhile_head {α : Type} {p : α → Bool} {l : List α} {b : α} {r : List α}
    (h : l.dropWhile p = b :: r) : p b = false := by
  induction l with
  | nil => simp at h
  | cons x l ih =>
    rw [List.dropWhile_cons] at h
    split at h
    · exact ih h
    · rename_i hx
      cases h
      simpa using hx

theorem skipWs_at {T l pre w} (h : LexAt T l pre w) :
    ∃ l' a z, skipWhile isJsonWs rfl l = .ok l' ∧ w = a ++ z ∧ Ws a ∧ NoWs z ∧
      LexAt T l' (pre ++ a) z := by
  obtain ⟨l', h1, h2⟩ := skipWhile_at (p := isJsonWs) (hp := rfl) w h
  refine ⟨l', _, _, h1, List.takeWhile_append_dropWhile.symm, ?_, ?_, h2⟩
  · intro b hb
    have := mem_takeWhile_imp hb
    exact (isJsonWs_schar b).mp this
  · intro b r e hb
    have := dropWhile_head e
    rw [(isJsonWs_schar b).mpr hb] at this
    cases this

theorem ws_split {a z a' z' : Bytes} (ha : Ws a) (hz : NoWs z) (ha' : Ws a') (hz' : NoWs z')
    (e : a ++ z = a' ++ z') : a = a' ∧ z = z' := by
  induction a generalizing a' with
  | nil =>
    cases a' with
    | nil => exact ⟨rfl, by simpa using e⟩
    | cons b a' => exact absurd (ha' b (by simp)) (hz b (a' ++ z') (by simpa using e))
  | cons x a ih =>
    cases a' with
    | nil => exact absurd (ha x (by simp)) (hz' x (a ++ z) (by simpa using e.symm))
    | cons y a' =>
      simp only [List.cons_append, List.cons.injEq] at e
      obtain ⟨h1, h2⟩ := ih (fun b hb => ha b (by simp [hb])) (fun b hb => ha' b (by simp [hb])) e.2
      rw [e.1, h1]; exact ⟨rfl, h2⟩

theorem skipWs_split {T l pre a z} (h : LexAt T l pre (a ++ z)) (ha : Ws a) (hz : NoWs z) :
    ∃ l', skipWhile isJsonWs rfl l = .ok l' ∧ LexAt T l' (pre ++ a) z := by
  obtain ⟨l', a', z', h1, e, ha', hz', h2⟩ := skipWs_at h
  obtain ⟨e1, e2⟩ := ws_split ha hz ha' hz' e
  subst e1; subst e2
  exact ⟨l', h1, h2⟩

theorem lexemeBytes_at {T l pre x r} (h : LexAt T l pre (x ++ r)) :
    lexemeBytes T ⟨(pre.length : Nat), (x.length : Nat)⟩ = .ok x := by
  have hp : lexVisible T <+: T := List.takeWhile_prefix _
  obtain ⟨t, ht⟩ := hp
  rw [h.split] at ht
  unfold lexemeBytes
  have hlen : T.length = pre.length + (x.length + (r.length + t.length)) := by
    rw [← ht]; simp
  rw [if_pos (by simp only; omega)]
  simp only [Int.toNat_natCast]
  rw [← ht, List.append_assoc, List.drop_left, List.append_assoc, List.take_left]

theorem punct_ok {T l pre c y} (ty : JTT) (h : LexAt T l pre (c :: y)) :
    ∃ l', jsonPunct l ty = .ok (l', ⟨ty, none⟩) ∧ LexAt T l' (pre ++ [c]) y := by
  obtain ⟨l', h1, h2⟩ := lexConsume_at h
  exact ⟨l', by unfold jsonPunct; rw [h1]; rfl, h2⟩

theorem keyword_out {T l pre c z} (k : Bytes) (hk : 255 ∉ k) (ty : JTT) (h : LexAt T l pre (c :: z)) :
    (∀ y, z = k ++ y → ∃ l', jsonKeyword l k ty = .ok (l', ⟨ty, none⟩) ∧ LexAt T l' (pre ++ c :: k) y) ∧
    (¬ k <+: z → jsonKeyword l k ty = .fatal) := by
  obtain ⟨l1, h1, h2⟩ := lexConsume_at h
  unfold jsonKeyword
  rw [h1]
  simp only [Res.ok_bind]
  rcases lexMatchLoop_at k hk h2 with ⟨r, l', e, g1, g2⟩ | ⟨g1, g2⟩
  · constructor
    · intro y e'
      rw [e] at e'
      have := List.append_cancel_left e'
      subst this
      refine ⟨l', ?_, by simpa using g2⟩
      unfold lexMatch; rw [g1]; rfl
    · intro hn; exact absurd ⟨r, e.symm⟩ hn
  · constructor
    · intro y e; exact absurd ⟨y, e.symm⟩ g1
    · intro _; unfold lexMatch; rw [g2]; rfl

theorem number_ok {T l pre sign int frac exp y}
    (h : LexAt T l pre (sign ++ int ++ frac ++ exp ++ y)) (hp : JParts sign int frac exp)
    (hs : NumStop frac exp y) :
    ∃ l', jsonNumber l = .ok (l', ⟨if frac = [] ∧ exp = [] then .integer else .fpnum,
        some (sign ++ int ++ frac ++ exp)⟩) ∧
      LexAt T l' (pre ++ (sign ++ int ++ frac ++ exp)) y := by
  obtain ⟨l', h1, h2⟩ := lexNumber_ok h hp hs
  refine ⟨l', ?_, h2⟩
  unfold jsonNumber
  rw [h1]
  simp only [Res.ok_bind]
  rw [h.text, lexemeBytes_at h]
  simp only [Res.ok_bind, Res.pure_eq, decide_eq_true_eq]

theorem string_ok {T l pre b s y} (h : LexAt T l pre (34 :: b ++ 34 :: y)) (hq : QBody b)
    (he : Escaped b s) :
    ∃ l', jsonString l = .ok (l', ⟨.string, some s⟩) ∧ LexAt T l' (pre ++ 34 :: b ++ [34]) y := by
  obtain ⟨l', h1, h2⟩ := lexQuotedString_ok h hq
  refine ⟨l', ?_, h2⟩
  obtain ⟨l1, g1, g2⟩ := lexConsume_at (b := 34) (rem := b ++ 34 :: y) h
  unfold jsonString
  rw [h1]
  simp only [Res.ok_bind]
  rw [h.text, lexemeBytes_at g2]
  simp only [Res.ok_bind]
  rw [(c02_from_readable_ok_iff b s).mpr he]
  rfl

/-- The switch on the current character, in a text without white space in front. -/
theorem dispatch_out {T l pre z} (h : LexAt T l pre z) (hne : z ≠ []) :
    (∃ l' tok y pre', jsonDispatch l = .ok (l', tok) ∧ TokRaw z tok y ∧ LexAt T l' pre' y) ∨
    jsonDispatch l = .fatal := by
  have punct : ∀ (c : Byte) (ty : JTT), (c, ty) ∈ punctTable → (∃ r, z = c :: r) →
      ∃ l' tok y pre', jsonPunct l ty = .ok (l', tok) ∧ TokRaw z tok y ∧ LexAt T l' pre' y := by
    intro c ty hc ⟨r, e⟩
    subst e
    obtain ⟨l', h1, h2⟩ := punct_ok ty h
    exact ⟨l', _, r, _, h1, .punct hc, h2⟩
  have kw : ∀ (c : Byte) (k : Bytes) (ty : JTT), 255 ∉ k → (c :: k, ty) ∈ keywordTable →
      (∃ r, z = c :: r) →
      (∃ l' tok y pre', jsonKeyword l k ty = .ok (l', tok) ∧ TokRaw z tok y ∧ LexAt T l' pre' y) ∨
      jsonKeyword l k ty = .fatal := by
    intro c k ty hk hc ⟨r, e⟩
    subst e
    obtain ⟨h1, h2⟩ := keyword_out k hk ty h
    by_cases hp : k <+: r
    · obtain ⟨y, e⟩ := hp
      subst e
      obtain ⟨l', g1, g2⟩ := h1 y rfl
      exact Or.inl ⟨l', _, y, _, g1, .keyword (k := c :: k) hc, g2⟩
    · exact Or.inr (h2 hp)
  unfold jsonDispatch
  by_cases h1 : l.c = 91
  · rw [if_pos h1]; exact Or.inl (punct 91 _ (by decide) ((h.is 91 91).mp h1))
  rw [if_neg h1]
  by_cases h1 : l.c = 93
  · rw [if_pos h1]; exact Or.inl (punct 93 _ (by decide) ((h.is 93 93).mp h1))
  rw [if_neg h1]
  by_cases h1 : l.c = 123
  · rw [if_pos h1]; exact Or.inl (punct 123 _ (by decide) ((h.is 123 123).mp h1))
  rw [if_neg h1]
  by_cases h1 : l.c = 125
  · rw [if_pos h1]; exact Or.inl (punct 125 _ (by decide) ((h.is 125 125).mp h1))
  rw [if_neg h1]
  by_cases h1 : l.c = 44
  · rw [if_pos h1]; exact Or.inl (punct 44 _ (by decide) ((h.is 44 44).mp h1))
  rw [if_neg h1]
  by_cases h1 : l.c = 58
  · rw [if_pos h1]; exact Or.inl (punct 58 _ (by decide) ((h.is 58 58).mp h1))
  rw [if_neg h1]
  by_cases h1 : l.c = 116
  · rw [if_pos h1]; exact kw 116 _ _ (by decide) (by decide) ((h.is 116 116).mp h1)
  rw [if_neg h1]
  by_cases h1 : l.c = 102
  · rw [if_pos h1]; exact kw 102 _ _ (by decide) (by decide) ((h.is 102 102).mp h1)
  rw [if_neg h1]
  by_cases h1 : l.c = 110
  · rw [if_pos h1]; exact kw 110 _ _ (by decide) (by decide) ((h.is 110 110).mp h1)
  rw [if_neg h1]
  by_cases h1 : l.c = 34
  · rw [if_pos h1]
    obtain ⟨r, e⟩ := (h.is 34 34).mp h1
    subst e
    rcases lexQuotedString_cases h with ⟨b, y, e, hq⟩ | hf
    · subst e
      by_cases hs : ∃ s, Escaped b s
      · obtain ⟨s, hs⟩ := hs
        obtain ⟨l', g1, g2⟩ := string_ok h hq hs
        exact Or.inl ⟨l', _, y, _, g1, .str hq hs, g2⟩
      · right
        obtain ⟨l', q1, q2⟩ := lexQuotedString_ok h hq
        obtain ⟨l1, g1, g2⟩ := lexConsume_at h
        unfold jsonString
        rw [q1]
        simp only [Res.ok_bind]
        rw [h.text, lexemeBytes_at g2]
        simp only [Res.ok_bind]
        rw [(c02_from_readable_fatal_iff b).mpr hs]
        rfl
    · right; unfold jsonString; rw [hf]; rfl
  rw [if_neg h1]
  by_cases h1 : l.c = 45 ∨ isDigitC l.c
  · rw [if_pos h1]
    have hstart : ∃ b r, z = b :: r ∧ (b = 45 ∨ IsDigit b) := by
      cases z with
      | nil => exact absurd rfl hne
      | cons b r =>
        refine ⟨b, r, rfl, ?_⟩
        rw [h.cur_cons] at h1
        rcases h1 with h1 | h1
        · left; rw [show (45 : Int) = schar 45 by decide, schar_eq_iff] at h1; exact h1
        · right; exact (isDigitC_schar b).mp h1
    rcases lexNumber_cases h hstart with ⟨sign, int, frac, exp, r, e, hp, hs⟩ | hf
    · left
      subst e
      obtain ⟨l', g1, g2⟩ := number_ok h hp hs
      refine ⟨l', _, r, _, g1, ?_, g2⟩
      by_cases hc : frac = [] ∧ exp = []
      · obtain ⟨e1, e2⟩ := hc
        subst e1; subst e2
        simp only [and_self, if_true, List.append_nil]
        exact .int hp hs
      · rw [if_neg hc]
        exact .fp hp hs hc
    · right; unfold jsonNumber; rw [hf]; rfl
  · rw [if_neg h1]; exact Or.inr rfl

theorem dispatch_eval {l : Lexer} {c : Int} (hc : l.c = c) :
    jsonDispatch l =
      (if c = 91 then jsonPunct l .lsbrac
      else if c = 93 then jsonPunct l .rsbrac
      else if c = 123 then jsonPunct l .lcbrac
      else if c = 125 then jsonPunct l .rcbrac
      else if c = 44 then jsonPunct l .comma
      else if c = 58 then jsonPunct l .colon
      else if c = 116 then jsonKeyword l [114, 117, 101] .tru
      else if c = 102 then jsonKeyword l [97, 108, 115, 101] .fls
      else if c = 110 then jsonKeyword l [117, 108, 108] .nul
      else if c = 34 then jsonString l
      else if c = 45 ∨ isDigitC c then jsonNumber l
      else .fatal) := by
  subst hc; rfl

theorem digit_or_minus {T l pre b r} (h : LexAt T l pre (b :: r)) (hb : b = 45 ∨ IsDigit b) :
    jsonDispatch l = jsonNumber l := by
  have key : ∀ c : Int, (c = 45 ∨ (48 ≤ c ∧ c ≤ 57)) → l.c = c → jsonDispatch l = jsonNumber l := by
    intro c hc e
    rw [dispatch_eval e]
    have hd : c = 45 ∨ isDigitC c = true := by
      rcases hc with h | h
      · exact Or.inl h
      · right; unfold isDigitC; simp; exact h
    rw [if_neg (by omega), if_neg (by omega), if_neg (by omega), if_neg (by omega), if_neg (by omega),
      if_neg (by omega), if_neg (by omega), if_neg (by omega), if_neg (by omega), if_neg (by omega), if_pos hd]
  refine key (schar b) ?_ h.cur_cons
  rcases hb with hb | hb
  · subst hb; left; decide
  · right; unfold schar; unfold IsDigit at hb
    rw [if_pos (by omega)]; omega

theorem parts_head {sign int frac exp y : Bytes} (hp : JParts sign int frac exp) :
    ∃ b r, sign ++ int ++ frac ++ exp ++ y = b :: r ∧ (b = 45 ∨ IsDigit b) := by
  rcases hp.sign with h | h <;> subst h
  · have hd := hp.int.digits
    cases int with
    | nil => exact absurd rfl hd.1
    | cons b int => exact ⟨b, _, rfl, Or.inr (hd.2 b (by simp))⟩
  · exact ⟨45, _, rfl, Or.inl rfl⟩

theorem dispatch_ok {T l pre z tok y} (h : LexAt T l pre z) (ht : TokRaw z tok y) :
    ∃ l' pre', jsonDispatch l = .ok (l', tok) ∧ LexAt T l' pre' y := by
  cases ht with
  | @punct c ty y hc =>
    obtain ⟨l', h1, h2⟩ := punct_ok ty h
    refine ⟨l', _, ?_, h2⟩
    rw [← h1]
    simp only [punctTable, List.mem_cons, Prod.mk.injEq, List.not_mem_nil, or_false] at hc
    rcases hc with ⟨e1, e2⟩ | ⟨e1, e2⟩ | ⟨e1, e2⟩ | ⟨e1, e2⟩ | ⟨e1, e2⟩ | ⟨e1, e2⟩ <;> subst e1 <;> subst e2 <;>
      rw [dispatch_eval h.cur_cons] <;> rfl
  | @keyword k ty y hk =>
    simp only [keywordTable, List.mem_cons, Prod.mk.injEq, List.not_mem_nil, or_false] at hk
    rcases hk with ⟨e1, e2⟩ | ⟨e1, e2⟩ | ⟨e1, e2⟩ <;> subst e1 <;> subst e2
    · obtain ⟨l', h1, h2⟩ := (keyword_out (z := [114, 117, 101] ++ y) [114, 117, 101] (by decide) .tru h).1 y rfl
      exact ⟨l', _, by rw [← h1, dispatch_eval (LexAt.cur_cons h)]; rfl, h2⟩
    · obtain ⟨l', h1, h2⟩ := (keyword_out (z := [97, 108, 115, 101] ++ y) [97, 108, 115, 101] (by decide) .fls h).1 y rfl
      exact ⟨l', _, by rw [← h1, dispatch_eval (LexAt.cur_cons h)]; rfl, h2⟩
    · obtain ⟨l', h1, h2⟩ := (keyword_out (z := [117, 108, 108] ++ y) [117, 108, 108] (by decide) .nul h).1 y rfl
      exact ⟨l', _, by rw [← h1, dispatch_eval (LexAt.cur_cons h)]; rfl, h2⟩
  | str hq he =>
    obtain ⟨l', h1, h2⟩ := string_ok h hq he
    exact ⟨l', _, by rw [← h1, dispatch_eval (LexAt.cur_cons h)]; rfl, h2⟩
  | @int sign int y hp hs =>
    have h' : LexAt T l pre (sign ++ int ++ [] ++ [] ++ y) := by simpa using h
    obtain ⟨l', h1, h2⟩ := number_ok h' hp hs
    obtain ⟨b, r, e, hb⟩ := parts_head (y := y) hp
    rw [e] at h'
    refine ⟨l', _, ?_, h2⟩
    rw [digit_or_minus h' hb, h1]
    simp
  | fp hp hs hc =>
    obtain ⟨l', h1, h2⟩ := number_ok h hp hs
    obtain ⟨b, r, e, hb⟩ := parts_head (y := y) hp
    have h' := h
    rw [e] at h'
    refine ⟨l', _, ?_, h2⟩
    rw [digit_or_minus h' hb, h1, if_neg hc]

theorem tokRaw_noWs {z tok y} (h : TokRaw z tok y) : NoWs z ∧ z ≠ [] := by
  have lit : ∀ (c : Byte) (r : Bytes), ¬ (c = 10 ∨ c = 13 ∨ c = 9 ∨ c = 32) → NoWs (c :: r) ∧ c :: r ≠ [] := by
    intro c r hc
    refine ⟨?_, by simp⟩
    intro b r' e
    cases e
    exact hc
  cases h with
  | punct hc =>
    apply lit
    simp only [punctTable, List.mem_cons, Prod.mk.injEq, List.not_mem_nil, or_false] at hc
    rcases hc with ⟨e1, e2⟩ | ⟨e1, e2⟩ | ⟨e1, e2⟩ | ⟨e1, e2⟩ | ⟨e1, e2⟩ | ⟨e1, e2⟩ <;> subst e1 <;> decide
  | keyword hk =>
    simp only [keywordTable, List.mem_cons, Prod.mk.injEq, List.not_mem_nil, or_false] at hk
    rcases hk with ⟨e1, e2⟩ | ⟨e1, e2⟩ | ⟨e1, e2⟩ <;> subst e1 <;> exact lit _ _ (by decide)
  | str => exact lit _ _ (by decide)
  | @int sign int y hp hs =>
    obtain ⟨b, r, e, hb⟩ := parts_head (y := y) hp
    simp only [List.append_nil] at e
    rw [e]; apply lit
    rcases hb with hb | hb
    · subst hb; decide
    · intro hc
      rcases hc with hc | hc | hc | hc <;> subst hc <;> exact absurd hb (by decide)
  | fp hp hs hc =>
    obtain ⟨b, r, e, hb⟩ := parts_head (y := y) hp
    rw [e]; apply lit
    rcases hb with hb | hb
    · subst hb; decide
    · intro hc
      rcases hc with hc | hc | hc | hc <;> subst hc <;> exact absurd hb (by decide)

theorem tokRaw_length {z tok y} (h : TokRaw z tok y) : y.length < z.length ∧ tok.type ≠ .eof := by
  cases h with
  | punct hc =>
    refine ⟨by simp, ?_⟩
    simp only [punctTable, List.mem_cons, Prod.mk.injEq, List.not_mem_nil, or_false] at hc
    rcases hc with ⟨e1, e2⟩ | ⟨e1, e2⟩ | ⟨e1, e2⟩ | ⟨e1, e2⟩ | ⟨e1, e2⟩ | ⟨e1, e2⟩ <;> subst e2 <;> simp
  | keyword hk =>
    simp only [keywordTable, List.mem_cons, Prod.mk.injEq, List.not_mem_nil, or_false] at hk
    rcases hk with ⟨e1, e2⟩ | ⟨e1, e2⟩ | ⟨e1, e2⟩ <;> subst e1 <;> subst e2 <;> simp <;> omega
  | str => refine ⟨by simp; omega, by simp⟩
  | @int sign int y hp hs =>
    have := hp.int.digits.1
    have : 0 < int.length := List.length_pos_iff.mpr this
    refine ⟨by simp; omega, by simp⟩
  | @fp sign int frac exp y hp hs hc =>
    have := hp.int.digits.1
    have : 0 < int.length := List.length_pos_iff.mpr this
    refine ⟨by simp; omega, by simp⟩

/-- `nx_json_lexer_next_token` finds the next token of the text ahead or aborts. -/
theorem nextToken_out {T l pre w} (h : LexAt T l pre w) :
    (∃ l' tok y pre', jsonNextToken l = .ok (l', tok) ∧ TokAt w tok y ∧ LexAt T l' pre' y) ∨
    jsonNextToken l = .fatal := by
  obtain ⟨l1, a, z, h1, e, ha, hz, h2⟩ := skipWs_at h
  unfold jsonNextToken
  rw [h1]
  simp only [Res.ok_bind]
  cases z with
  | nil =>
    left
    rw [if_pos h2.cur_nil]
    refine ⟨l1, _, [], _, rfl, Or.inl ⟨?_, rfl, rfl⟩, h2⟩
    rw [e, List.append_nil]; exact ha
  | cons b r =>
    rw [if_neg (by rw [h2.cur_cons]; exact schar_ne_eof (h2.split_mem.2 b (by simp)).2)]
    rcases dispatch_out h2 (by simp) with ⟨l', tok, y, pre', g1, g2, g3⟩ | hf
    · exact Or.inl ⟨l', tok, y, pre', g1, Or.inr ⟨a, _, e, ha, g2⟩, g3⟩
    · exact Or.inr hf

theorem nextToken_ok {T l pre w tok y} (h : LexAt T l pre w) (ht : TokAt w tok y) :
    ∃ l' pre', jsonNextToken l = .ok (l', tok) ∧ LexAt T l' pre' y := by
  unfold jsonNextToken
  rcases ht with ⟨ha, e1, e2⟩ | ⟨a, z, e, ha, hr⟩
  · subst e1; subst e2
    have h' : LexAt T l pre (w ++ []) := by simpa using h
    obtain ⟨l', h1, h2⟩ := skipWs_split h' ha (by intro b r e; cases e)
    rw [h1]
    simp only [Res.ok_bind]
    rw [if_pos h2.cur_nil]
    exact ⟨l', _, rfl, h2⟩
  · subst e
    obtain ⟨hz, hne⟩ := tokRaw_noWs hr
    obtain ⟨l', h1, h2⟩ := skipWs_split h ha hz
    rw [h1]
    simp only [Res.ok_bind]
    cases z with
    | nil => exact absurd rfl hne
    | cons b r =>
      rw [if_neg (by rw [h2.cur_cons]; exact schar_ne_eof (h2.split_mem.2 b (by simp)).2)]
      exact dispatch_ok h2 hr

end Nx
