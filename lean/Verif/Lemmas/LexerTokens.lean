import Verif.Lemmas.Lexer

namespace Nx

theorem textAt_cons {T pre rem : Bytes} {b : Byte} (hs : lexVisible T = pre ++ b :: rem) :
    textAt T (pre.length : Nat) = .ok (schar b) := by
  obtain ⟨c, h1, h2⟩ := textAt_next hs
  rw [h1]
  simp only [curC] at h2
  have hb : b ∈ lexVisible T := by rw [hs]; simp
  have := lexVisible_mem hb
  split at h2
  · exact absurd h2.symm (schar_ne_eof this.2)
  · rw [h2]

/-! ## Literals -/

theorem lexMatchLoop_at {T : Bytes} : ∀ (s : Bytes) {l pre rem}, 255 ∉ s → LexAt T l pre rem →
    (∃ r l', rem = s ++ r ∧ lexMatchLoop l s = .ok (some l') ∧ LexAt T l' (pre ++ s) r) ∨
    ((¬ s <+: rem) ∧ lexMatchLoop l s = .ok none) := by
  intro s
  induction s with
  | nil => intro l pre rem _ h; exact Or.inl ⟨rem, l, rfl, rfl, by simpa using h⟩
  | cons b s ih =>
    intro l pre rem hs h
    have hb : b ≠ 255 := fun e => hs (by simp [e])
    have hs' : 255 ∉ s := fun e => hs (by simp [e])
    unfold lexMatchLoop
    cases rem with
    | nil =>
      right
      refine ⟨by simp, ?_⟩
      rw [if_neg]
      rw [h.cur_nil]; exact fun e => schar_ne_eof hb e.symm
    | cons a rem =>
      rw [h.cur_cons]
      by_cases e : a = b
      · subst e
        rw [if_pos rfl]
        obtain ⟨l1, h1, h2⟩ := lexConsume_at h
        rw [h1]
        simp only [Res.ok_bind]
        rcases ih hs' h2 with ⟨r, l', e, h3, h4⟩ | ⟨h3, h4⟩
        · exact Or.inl ⟨r, l', by rw [e]; rfl, h3, by simpa using h4⟩
        · exact Or.inr ⟨by simpa using h3, h4⟩
      · right
        refine ⟨?_, ?_⟩
        · intro hp; exact e (List.cons_prefix_cons.mp hp).1.symm
        · rw [if_neg]; rw [schar_eq_iff]; exact e

/-! ## Numbers -/

theorem lexFraction_at {T l pre rem} (h : LexAt T l pre rem) :
    (∃ f r l', rem = f ++ r ∧ JFrac f ∧ (f = [] → ∀ b r', r = b :: r' → b ≠ 46) ∧
      (f ≠ [] → ∀ b r', r = b :: r' → ¬ IsDigit b) ∧
      lexFraction l = .ok l' ∧ LexAt T l' (pre ++ f) r) ∨ lexFraction l = .fatal := by
  unfold lexFraction
  by_cases hc : l.c = 46
  · rw [if_pos hc]
    obtain ⟨r, e⟩ := (h.is 46 46).mp hc
    subst e
    obtain ⟨l1, h1, h2⟩ := lexConsume_at h
    rw [h1]
    simp only [Res.ok_bind]
    obtain ⟨l2, h3, h4⟩ := skipDigits_at h2
    by_cases hd : isDigitC l1.c = true
    · left
      rw [if_pos hd]
      refine ⟨46 :: digitRun r, afterDigits r, l2, ?_, ?_, by simp, ?_, h3, ?_⟩
      · rw [List.cons_append, digitRun_append]
      · right
        refine ⟨digitRun r, rfl, ?_, digitRun_digits r⟩
        cases r with
        | nil => rw [h2.cur_nil] at hd; exact absurd hd (by decide)
        | cons b r =>
          rw [h2.cur_cons, isDigitC_schar] at hd
          unfold digitRun; rw [List.takeWhile_cons]; simp [hd]
      · intro _; exact afterDigits_head r
      · simpa using h4
    · right; rw [if_neg hd]
  · left
    rw [if_neg hc]
    refine ⟨[], rem, l, rfl, Or.inl rfl, ?_, by simp, rfl, by simpa using h⟩
    intro _ b r' e e2
    subst e2
    exact hc ((h.is 46 46).mpr ⟨r', e⟩)

theorem lexFraction_ok {T l pre f r} (h : LexAt T l pre (f ++ r)) (hf : JFrac f)
    (h1 : f = [] → ∀ b r', r = b :: r' → b ≠ 46) (h2 : f ≠ [] → ∀ b r', r = b :: r' → ¬ IsDigit b) :
    ∃ l', lexFraction l = .ok l' ∧ LexAt T l' (pre ++ f) r := by
  unfold lexFraction
  rcases hf with e | ⟨d, e, hd, hdd⟩
  · subst e
    simp only [List.nil_append] at h
    rw [if_neg]
    · exact ⟨l, rfl, by simpa using h⟩
    · intro hc
      obtain ⟨r', e⟩ := (h.is 46 46).mp hc
      exact h1 rfl _ r' e rfl
  · subst e
    rw [List.cons_append] at h
    rw [if_pos ((h.is 46 46).mpr ⟨_, rfl⟩)]
    obtain ⟨l1, g1, g2⟩ := lexConsume_at h
    rw [g1]
    simp only [Res.ok_bind]
    obtain ⟨l2, g3, g4⟩ := skipDigits_at g2
    obtain ⟨e1, e2⟩ := digitRun_eq hdd (h2 (by simp))
    rw [e1, e2] at g4
    rw [if_pos]
    · exact ⟨l2, g3, by simpa using g4⟩
    · cases d with
      | nil => exact absurd rfl hd
      | cons b d =>
        rw [g2.cur_cons, isDigitC_schar]; exact hdd b (by simp)

theorem lexExponent_at {T l pre rem} (h : LexAt T l pre rem) :
    (∃ f r l', rem = f ++ r ∧ JExp f ∧ (f = [] → ∀ b r', r = b :: r' → b ≠ 101 ∧ b ≠ 69) ∧
      (f ≠ [] → ∀ b r', r = b :: r' → ¬ IsDigit b) ∧
      lexExponent l = .ok l' ∧ LexAt T l' (pre ++ f) r) ∨ lexExponent l = .fatal := by
  unfold lexExponent
  by_cases hc : l.c = 101 ∨ l.c = 69
  · rw [if_pos hc]
    have : ∃ e r, rem = e :: r ∧ (e = 101 ∨ e = 69) := by
      rcases hc with hc | hc
      · obtain ⟨r, e⟩ := (h.is 101 101).mp hc
        exact ⟨_, r, e, Or.inl rfl⟩
      · obtain ⟨r, e⟩ := (h.is 69 69).mp hc
        exact ⟨_, r, e, Or.inr rfl⟩
    obtain ⟨e, r, he, hee⟩ := this
    subst he
    obtain ⟨l1, h1, h2⟩ := lexConsume_at h
    rw [h1]
    simp only [Res.ok_bind]
    -- optional sign
    have hs : ∃ s r2 l2, r = s ++ r2 ∧ (s = [] ∨ s = [43] ∨ s = [45]) ∧
        (if l1.c = 43 ∨ l1.c = 45 then lexConsume l1 else pure l1) = .ok l2 ∧
        LexAt T l2 (pre ++ [e] ++ s) r2 := by
      by_cases hc2 : l1.c = 43 ∨ l1.c = 45
      · rw [if_pos hc2]
        rcases hc2 with hc2 | hc2
        · obtain ⟨r2, e2⟩ := (h2.is 43 43).mp hc2
          subst e2
          obtain ⟨l2, g1, g2⟩ := lexConsume_at h2
          exact ⟨[43], r2, l2, rfl, by simp, g1, g2⟩
        · obtain ⟨r2, e2⟩ := (h2.is 45 45).mp hc2
          subst e2
          obtain ⟨l2, g1, g2⟩ := lexConsume_at h2
          exact ⟨[45], r2, l2, rfl, by simp, g1, g2⟩
      · rw [if_neg hc2]
        exact ⟨[], r, l1, rfl, by simp, rfl, by simpa using h2⟩
    obtain ⟨s, r2, l2, es, hss, g1, g2⟩ := hs
    rw [g1]
    simp only [Res.ok_bind]
    obtain ⟨l3, h3, h4⟩ := skipDigits_at g2
    by_cases hd : isDigitC l2.c = true
    · left
      rw [if_pos hd]
      refine ⟨e :: (s ++ digitRun r2), afterDigits r2, l3, ?_, ?_, by simp, ?_, h3, ?_⟩
      · rw [es, List.cons_append, List.append_assoc, digitRun_append]
      · right
        refine ⟨e, s, digitRun r2, rfl, hee, hss, ?_, digitRun_digits r2⟩
        cases r2 with
        | nil => rw [g2.cur_nil] at hd; exact absurd hd (by decide)
        | cons b r =>
          rw [g2.cur_cons, isDigitC_schar] at hd
          unfold digitRun; rw [List.takeWhile_cons]; simp [hd]
      · intro _; exact afterDigits_head r2
      · simpa using h4
    · right; rw [if_neg hd]
  · left
    rw [if_neg hc]
    refine ⟨[], rem, l, rfl, Or.inl rfl, ?_, by simp, rfl, by simpa using h⟩
    intro _ b r' e
    constructor
    · intro e2; subst e2
      exact hc (Or.inl ((h.is 101 101).mpr ⟨r', e⟩))
    · intro e2; subst e2
      exact hc (Or.inr ((h.is 69 69).mpr ⟨r', e⟩))

theorem lexExponent_ok {T l pre f r} (h : LexAt T l pre (f ++ r)) (hf : JExp f)
    (h1 : f = [] → ∀ b r', r = b :: r' → b ≠ 101 ∧ b ≠ 69)
    (h2 : f ≠ [] → ∀ b r', r = b :: r' → ¬ IsDigit b) :
    ∃ l', lexExponent l = .ok l' ∧ LexAt T l' (pre ++ f) r := by
  unfold lexExponent
  rcases hf with e | ⟨e, s, d, ef, he, hs, hd, hdd⟩
  · subst e
    simp only [List.nil_append] at h
    rw [if_neg]
    · exact ⟨l, rfl, by simpa using h⟩
    · rintro (hc | hc)
      · obtain ⟨r', e⟩ := (h.is 101 101).mp hc
        exact (h1 rfl _ r' e).1 rfl
      · obtain ⟨r', e⟩ := (h.is 69 69).mp hc
        exact (h1 rfl _ r' e).2 rfl
  · subst ef
    have hc : l.c = 101 ∨ l.c = 69 := by
      rcases he with e | e
      · left; rw [h.is 101 101]; exact ⟨_, by rw [e]; rfl⟩
      · right; rw [h.is 69 69]; exact ⟨_, by rw [e]; rfl⟩
    rw [if_pos hc]
    rw [List.cons_append, List.append_assoc] at h
    obtain ⟨l1, g1, g2⟩ := lexConsume_at h
    rw [g1]
    simp only [Res.ok_bind]
    have hb : ∃ b d', d = b :: d' ∧ IsDigit b := by
      cases d with
      | nil => exact absurd rfl hd
      | cons b d => exact ⟨b, d, rfl, hdd b (by simp)⟩
    obtain ⟨b, d', ed, hbd⟩ := hb
    have hsg : ∃ l2, (if l1.c = 43 ∨ l1.c = 45 then lexConsume l1 else pure l1) = .ok l2 ∧
        LexAt T l2 (pre ++ [e] ++ s) (d ++ r) := by
      rcases hs with e1 | e1 | e1
      · subst e1
        rw [if_neg]
        · exact ⟨l1, rfl, by simpa using g2⟩
        · rw [List.nil_append, ed] at g2
          rintro (hc | hc)
          · obtain ⟨r', e⟩ := (g2.is 43 43).mp hc
            cases e; exact absurd hbd (by decide)
          · obtain ⟨r', e⟩ := (g2.is 45 45).mp hc
            cases e; exact absurd hbd (by decide)
      · subst e1
        rw [if_pos (Or.inl ((g2.is 43 43).mpr ⟨_, rfl⟩))]
        exact lexConsume_at g2
      · subst e1
        rw [if_pos (Or.inr ((g2.is 45 45).mpr ⟨_, rfl⟩))]
        exact lexConsume_at g2
    obtain ⟨l2, k1, k2⟩ := hsg
    rw [k1]
    simp only [Res.ok_bind]
    obtain ⟨l3, g3, g4⟩ := skipDigits_at k2
    obtain ⟨e1, e2⟩ := digitRun_eq hdd (h2 (by simp))
    rw [e1, e2] at g4
    rw [if_pos]
    · exact ⟨l3, g3, by simpa using g4⟩
    · rw [ed, List.cons_append] at k2
      rw [k2.cur_cons, isDigitC_schar]; exact hbd

theorem JInt.digits {d : Bytes} (h : JInt d) : Digits d := by
  rcases h with e | h
  · subst e; exact ⟨by simp, by simp [IsDigit]⟩
  · exact h.1

/-- The integer part: sign and digits. -/
def lexIntPart (l : Lexer) : Res Lexer := do
  let start := l.pos
  let l ← (if l.c = 45 then lexConsume l else pure l)
  let l ← skipWhile isDigitC rfl l
  lexIntCheck l.text start (l.pos - start)
  pure l

theorem lexNumber_eq (l : Lexer) : lexNumber l = (do
    let l' ← lexIntPart l
    if l'.c ≠ 46 ∧ l'.c ≠ 101 ∧ l'.c ≠ 69 then
      pure (l', { start := l.pos, len := l'.pos - l.pos }, true)
    else do
      let l' ← lexFraction l'
      let l' ← lexExponent l'
      pure (l', { start := l.pos, len := l'.pos - l.pos }, false)) := by
  unfold lexNumber lexIntPart
  simp only
  cases (if l.c = 45 then lexConsume l else pure l) with
  | fatal => rfl
  | ub => rfl
  | ok a =>
    simp only [Res.ok_bind]
    cases skipWhile isDigitC rfl a with
    | fatal => rfl
    | ub => rfl
    | ok b =>
      simp only [Res.ok_bind]
      cases lexIntCheck b.text l.pos (b.pos - l.pos) with
      | fatal => rfl
      | ub => rfl
      | ok _ => rfl

theorem neg_check {T pre d r : Bytes} (hv : lexVisible T = pre ++ 45 :: (d ++ r))
    (hd : ∀ b ∈ d, IsDigit b) :
    (JInt d ∧ lexIntCheck T (pre.length : Nat) (1 + d.length) = .ok ()) ∨
    (¬ JInt d ∧ lexIntCheck T (pre.length : Nat) (1 + d.length) = .fatal) := by
  unfold lexIntCheck
  rw [textAt_cons hv]
  simp only [Res.ok_bind]
  have e45 : schar 45 = 45 := by decide
  rw [e45]
  cases d with
  | nil =>
    right
    refine ⟨?_, by simp⟩
    intro h; exact h.digits.1 rfl
  | cons b d =>
    rw [if_neg (by simp; omega), if_neg (by simp)]
    have hv2 : lexVisible T = (pre ++ [45]) ++ b :: (d ++ r) := by rw [hv]; simp
    have ht := textAt_cons hv2
    have e1 : (((pre ++ [45]).length : Nat) : Int) = (pre.length : Nat) + 1 := by simp
    rw [e1] at ht
    cases d with
    | nil =>
      left
      refine ⟨?_, by simp⟩
      by_cases h48 : b = 48
      · left; rw [h48]
      · right; exact ⟨⟨by simp, hd⟩, by simpa using h48⟩
    | cons b2 d =>
      rw [if_pos (by simp; omega), ht]
      simp only [Res.ok_bind]
      have e48 : (48 : Int) = schar 48 := by decide
      by_cases h48 : b = 48
      · right
        refine ⟨?_, by rw [h48, if_pos (by decide)]⟩
        rintro (h | ⟨_, h⟩)
        · cases h
        · exact h (by rw [h48]; rfl)
      · left
        refine ⟨Or.inr ⟨⟨by simp, hd⟩, by simpa using h48⟩, ?_⟩
        rw [if_neg (by rw [e48, schar_eq_iff]; exact h48)]; rfl

theorem pos_check {T pre d r : Bytes} {b : Byte} (hv : lexVisible T = pre ++ b :: (d ++ r))
    (hd : ∀ x ∈ b :: d, IsDigit x) :
    (JInt (b :: d) ∧ lexIntCheck T (pre.length : Nat) ((b :: d).length : Nat) = .ok ()) ∨
    (¬ JInt (b :: d) ∧ lexIntCheck T (pre.length : Nat) ((b :: d).length : Nat) = .fatal) := by
  unfold lexIntCheck
  rw [textAt_cons hv]
  simp only [Res.ok_bind]
  have hb := hd b (by simp)
  have e45 : (45 : Int) = schar 45 := by decide
  have e48 : (48 : Int) = schar 48 := by decide
  have hb45 : b ≠ 45 := by rintro rfl; exact absurd hb (by decide)
  rw [if_neg (by rw [e45, schar_eq_iff]; exact fun h => hb45 h.1)]
  by_cases h48 : b = 48
  · cases d with
    | nil =>
      left
      refine ⟨by left; rw [h48], ?_⟩
      rw [if_neg (by simp), if_neg (by simp)]; rfl
    | cons b2 d =>
      right
      refine ⟨?_, ?_⟩
      · rintro (h | ⟨_, h⟩)
        · cases h
        · exact h (by rw [h48]; rfl)
      · rw [if_pos]; rw [e48, schar_eq_iff]; exact ⟨h48, by simp; omega⟩
  · left
    refine ⟨Or.inr ⟨⟨by simp, hd⟩, by simpa using h48⟩, ?_⟩
    rw [if_neg (by rw [e48, schar_eq_iff]; exact fun h => h48 h.1),
      if_neg (by rw [e45, schar_eq_iff]; exact fun h => hb45 h.2)]; rfl

theorem lexIntPart_at {T l pre rem} (h : LexAt T l pre rem)
    (hstart : ∃ b r, rem = b :: r ∧ (b = 45 ∨ IsDigit b)) :
    ∃ sign d r, rem = sign ++ (d ++ r) ∧ (sign = [] ∨ sign = [45]) ∧
      (∀ b r', r = b :: r' → ¬ IsDigit b) ∧ (∀ b ∈ d, IsDigit b) ∧
      ((JInt d ∧ ∃ l', lexIntPart l = .ok l' ∧ LexAt T l' (pre ++ sign ++ d) r) ∨
       (¬ JInt d ∧ lexIntPart l = .fatal)) := by
  obtain ⟨b, r, e, hb⟩ := hstart
  subst e
  unfold lexIntPart
  simp only
  by_cases h45 : b = 45
  · subst h45
    obtain ⟨l1, g1, g2⟩ := lexConsume_at h
    obtain ⟨l2, g3, g4⟩ := skipDigits_at g2
    refine ⟨[45], digitRun r, afterDigits r, ?_, by simp, afterDigits_head r, digitRun_digits r, ?_⟩
    · rw [digitRun_append]; rfl
    · rw [if_pos ((h.is 45 45).mpr ⟨_, rfl⟩), g1]
      simp only [Res.ok_bind]
      rw [g3]
      simp only [Res.ok_bind]
      have hlen : l2.pos - l.pos = 1 + (digitRun r).length := by
        rw [g4.pos, h.pos]; simp; omega
      rw [hlen, g4.text, h.pos]
      have hv : lexVisible T = pre ++ 45 :: (digitRun r ++ afterDigits r) := by
        rw [h.split, digitRun_append]
      rcases neg_check hv (digitRun_digits r) with ⟨k1, k2⟩ | ⟨k1, k2⟩
      · rw [k2]; exact Or.inl ⟨k1, l2, rfl, by simpa using g4⟩
      · rw [k2]; exact Or.inr ⟨k1, rfl⟩
  · have hbd : IsDigit b := by rcases hb with e | e; exact absurd e h45; exact e
    obtain ⟨l2, g3, g4⟩ := skipDigits_at h
    have hrun : digitRun (b :: r) = b :: digitRun r := by
      unfold digitRun; rw [List.takeWhile_cons]; simp [hbd]
    have haft : afterDigits (b :: r) = afterDigits r := by
      unfold afterDigits; rw [List.dropWhile_cons]; simp [hbd]
    refine ⟨[], digitRun (b :: r), afterDigits (b :: r), ?_, by simp, afterDigits_head _,
      digitRun_digits _, ?_⟩
    · rw [digitRun_append]; rfl
    · rw [if_neg]
      · simp only [Res.ok_bind, Res.pure_eq]
        rw [g3]
        simp only [Res.ok_bind]
        have hlen : l2.pos - l.pos = ((b :: digitRun r).length : Nat) := by
          rw [g4.pos, h.pos, hrun]; simp; omega
        rw [hlen, g4.text, h.pos]
        have hv : lexVisible T = pre ++ b :: (digitRun r ++ afterDigits r) := by
          rw [h.split, digitRun_append]
        rw [hrun]
        have hdig : ∀ x ∈ b :: digitRun r, IsDigit x := by rw [← hrun]; exact digitRun_digits _
        rcases pos_check hv hdig with ⟨k1, k2⟩ | ⟨k1, k2⟩
        · rw [k2]; exact Or.inl ⟨k1, l2, rfl, by rw [hrun] at g4; simpa using g4⟩
        · rw [k2]; exact Or.inr ⟨k1, rfl⟩
      · intro hc
        obtain ⟨r', e⟩ := (h.is 45 45).mp hc
        cases e; exact h45 rfl

theorem numStop_of {frac exp r : Bytes} (hf : frac = [] → exp = [] → ∀ b r', r = b :: r' → b ≠ 46)
    (he : exp = [] → ∀ b r', r = b :: r' → b ≠ 101 ∧ b ≠ 69)
    (hd : ∀ b r', r = b :: r' → ¬ IsDigit b) : NumStop frac exp r :=
  fun b r' e => ⟨hd b r' e, fun h => he h b r' e, fun h1 h2 => hf h1 h2 b r' e⟩

/-- A number followed by something that cannot continue it is matched. -/
theorem lexNumber_ok {T l pre sign int frac exp r}
    (h : LexAt T l pre (sign ++ int ++ frac ++ exp ++ r))
    (hp : JParts sign int frac exp) (hs : NumStop frac exp r) :
    ∃ l', lexNumber l = .ok (l', ⟨(pre.length : Nat), ((sign ++ int ++ frac ++ exp).length : Nat)⟩,
        decide (frac = [] ∧ exp = [])) ∧
      LexAt T l' (pre ++ (sign ++ int ++ frac ++ exp)) r := by
  have hint := hp.int.digits
  -- what follows the integer part is not a digit
  have hnd : ∀ b r', frac ++ exp ++ r = b :: r' → ¬ IsDigit b := by
    intro b r' e
    rcases hp.frac with ef | ⟨d, ef, _⟩
    · rcases hp.exp with ee | ⟨x, s, d, ee, hx, _⟩
      · subst ef; subst ee; exact (hs b r' e).1
      · subst ef; subst ee
        simp only [List.nil_append, List.cons_append, List.cons.injEq] at e
        rw [← e.1]; rcases hx with hx | hx <;> rw [hx] <;> decide
    · subst ef
      simp only [List.cons_append, List.cons.injEq] at e
      rw [← e.1]; decide
  have hrem : sign ++ int ++ frac ++ exp ++ r = sign ++ (int ++ (frac ++ exp ++ r)) := by
    simp
  rw [hrem] at h
  have hstart : ∃ b r0, sign ++ (int ++ (frac ++ exp ++ r)) = b :: r0 ∧ (b = 45 ∨ IsDigit b) := by
    rcases hp.sign with e | e
    · subst e
      cases int with
      | nil => exact absurd rfl hint.1
      | cons b int => exact ⟨b, _, rfl, Or.inr (hint.2 b (by simp))⟩
    · subst e; exact ⟨45, _, rfl, Or.inl rfl⟩
  obtain ⟨sign', d', r0, e1, hsg, hr0, hd', hres⟩ := lexIntPart_at h hstart
  have hsign : sign' = sign := by
    rcases hp.sign with e | e <;> rcases hsg with e' | e' <;> subst e <;> subst e'
    · rfl
    · exfalso
      cases int with
      | nil => exact hint.1 rfl
      | cons b int =>
        simp only [List.nil_append, List.cons_append, List.cons.injEq] at e1
        have := hint.2 b (by simp)
        rw [e1.1] at this; exact absurd this (by decide)
    · exfalso
      simp only [List.nil_append, List.cons_append] at e1
      cases d' with
      | nil =>
        simp only [List.nil_append] at e1
        -- then the lexer saw no digit although the text starts with '-'
        have := hr0 45 _ e1.symm
        rcases hres with ⟨hj, _⟩ | ⟨_, hf⟩
        · exact hj.digits.1 rfl
        · -- the first character is '-', so the sign is consumed
          clear this
          rw [List.cons_append, List.nil_append] at h
          obtain ⟨l1, g1, g2⟩ := lexConsume_at h
          obtain ⟨l2, g3, g4⟩ := skipDigits_at g2
          obtain ⟨k1, k2⟩ := digitRun_eq hint.2 hnd
          rw [k1, k2] at g4
          unfold lexIntPart at hf
          simp only at hf
          rw [if_pos ((h.is 45 45).mpr ⟨_, rfl⟩), g1] at hf
          simp only [Res.ok_bind] at hf
          rw [g3] at hf
          simp only [Res.ok_bind] at hf
          have hlen : l2.pos - l.pos = 1 + int.length := by rw [g4.pos, h.pos]; simp; omega
          rw [hlen, g4.text, h.pos] at hf
          rcases neg_check (T := T) (pre := pre) (d := int) (r := frac ++ exp ++ r)
            (by rw [h.split]) hint.2 with ⟨_, k⟩ | ⟨k, _⟩
          · rw [k] at hf; cases hf
          · exact k hp.int
      | cons b d' =>
        simp only [List.cons_append, List.cons.injEq] at e1
        have := hd' b (by simp)
        rw [← e1.1] at this; exact absurd this (by decide)
    · rfl
  subst hsign
  have e2 := List.append_cancel_left e1
  obtain ⟨k1, k2⟩ := digitRun_eq hint.2 hnd
  obtain ⟨k3, k4⟩ := digitRun_eq hd' hr0
  rw [← e2, k1] at k3
  rw [← e2, k2] at k4
  subst k3; subst k4
  rcases hres with ⟨_, l1, g1, g2⟩ | ⟨hn, _⟩
  · rw [lexNumber_eq, g1]
    simp only [Res.ok_bind]
    rw [List.append_assoc] at g2
    by_cases hfe : frac = [] ∧ exp = []
    · obtain ⟨ef, ee⟩ := hfe
      subst ef; subst ee
      simp only [List.nil_append] at g2
      rw [if_pos]
      · refine ⟨l1, ?_, by simpa using g2⟩
        simp only [Res.pure_eq, Res.ok.injEq, Prod.mk.injEq, true_and]
        refine ⟨?_, by simp⟩
        rw [g2.pos, h.pos]
        simp; omega
      · refine ⟨?_, ?_, ?_⟩ <;> intro hc
        · obtain ⟨r', e⟩ := (g2.is 46 46).mp hc
          exact (hs _ r' e).2.2 rfl rfl rfl
        · obtain ⟨r', e⟩ := (g2.is 101 101).mp hc
          exact ((hs _ r' e).2.1 rfl).1 rfl
        · obtain ⟨r', e⟩ := (g2.is 69 69).mp hc
          exact ((hs _ r' e).2.1 rfl).2 rfl
    · have hmark : ¬ (l1.c ≠ 46 ∧ l1.c ≠ 101 ∧ l1.c ≠ 69) := by
        rcases hp.frac with ef | ⟨d, ef, _⟩
        · subst ef
          rcases hp.exp with ee | ⟨x, s, d, ee, hx, _⟩
          · exact absurd ⟨rfl, ee⟩ hfe
          · subst ee
            rintro ⟨_, h2, h3⟩
            rcases hx with hx | hx
            · exact h2 ((g2.is 101 101).mpr ⟨_, by rw [hx]; rfl⟩)
            · exact h3 ((g2.is 69 69).mpr ⟨_, by rw [hx]; rfl⟩)
        · subst ef
          rintro ⟨h1, _⟩
          exact h1 ((g2.is 46 46).mpr ⟨_, rfl⟩)
      rw [if_neg hmark]
      rw [List.append_assoc] at g2
      obtain ⟨l2, q1, q2⟩ := lexFraction_ok g2 hp.frac
        (by
          intro ef b r' e
          rcases hp.exp with ee | ⟨x, s, d, ee, hx, _⟩
          · exact absurd ⟨ef, ee⟩ hfe
          · subst ee
            simp only [List.cons_append, List.cons.injEq] at e
            rw [← e.1]; rcases hx with hx | hx <;> rw [hx] <;> decide)
        (by
          intro _ b r' e
          rcases hp.exp with ee | ⟨x, s, d, ee, hx, _⟩
          · subst ee; exact (hs b r' e).1
          · subst ee
            simp only [List.cons_append, List.cons.injEq] at e
            rw [← e.1]; rcases hx with hx | hx <;> rw [hx] <;> decide)
      rw [q1]
      simp only [Res.ok_bind]
      obtain ⟨l3, q3, q4⟩ := lexExponent_ok q2 hp.exp
        (fun ee b r' e => (hs b r' e).2.1 ee) (fun _ b r' e => (hs b r' e).1)
      rw [q3]
      refine ⟨l3, ?_, by simpa using q4⟩
      simp only [Res.pure_eq, Res.ok.injEq, Prod.mk.injEq, true_and, Res.ok_bind]
      refine ⟨?_, by simp [hfe]⟩
      rw [q4.pos, h.pos]
      simp; omega
  · exact absurd hp.int hn

/-- On a text starting with `-` or a digit the matcher finds such a number or aborts. -/
theorem lexNumber_cases {T l pre rem} (h : LexAt T l pre rem)
    (hstart : ∃ b r, rem = b :: r ∧ (b = 45 ∨ IsDigit b)) :
    (∃ sign int frac exp r, rem = sign ++ int ++ frac ++ exp ++ r ∧ JParts sign int frac exp ∧
      NumStop frac exp r) ∨ lexNumber l = .fatal := by
  obtain ⟨sign, d, r, e, hsg, hr, hd, hres⟩ := lexIntPart_at h hstart
  rw [lexNumber_eq]
  rcases hres with ⟨hj, l1, g1, g2⟩ | ⟨_, hf⟩
  · rw [g1]
    simp only [Res.ok_bind]
    by_cases hm : l1.c ≠ 46 ∧ l1.c ≠ 101 ∧ l1.c ≠ 69
    · left
      refine ⟨sign, d, [], [], r, by simp [e], ⟨hsg, hj, Or.inl rfl, Or.inl rfl⟩, ?_⟩
      refine numStop_of (fun _ _ b r' eb h46 => ?_) (fun _ b r' eb => ⟨fun h46 => ?_, fun h46 => ?_⟩) hr
      · exact hm.1 ((g2.is 46 46).mpr ⟨r', by rw [eb, h46]⟩)
      · exact hm.2.1 ((g2.is 101 101).mpr ⟨r', by rw [eb, h46]⟩)
      · exact hm.2.2 ((g2.is 69 69).mpr ⟨r', by rw [eb, h46]⟩)
    · rw [if_neg hm]
      rcases lexFraction_at g2 with ⟨f, r1, l2, e1, hf, hf1, hf2, q1, q2⟩ | hfat
      · rw [q1]
        simp only [Res.ok_bind]
        rcases lexExponent_at q2 with ⟨x, r2, l3, e2, hx, hx1, hx2, q3, q4⟩ | hfat
        · left
          refine ⟨sign, d, f, x, r2, by simp [e, e1, e2], ⟨hsg, hj, hf, hx⟩, ?_⟩
          refine numStop_of (fun h1 h2 b r' eb => ?_) (fun h1 => hx1 h1) ?_
          · refine hf1 h1 b r' ?_
            rw [e2, h2]; exact eb
          · intro b r' eb
            by_cases hxe : x = []
            · subst hxe
              by_cases hfe : f = []
              · subst hfe
                refine hr b r' ?_
                rw [e1, e2]; exact eb
              · exact hf2 hfe b r' (by rw [e2]; exact eb)
            · exact hx2 hxe b r' eb
        · right; rw [hfat]; rfl
      · right; rw [hfat]; rfl
  · right; rw [hf]; rfl

/-! ## Quoted strings -/

theorem isEscapeC_schar (b : Byte) : isEscapeC (schar b) = true ↔ EscChar b := by
  have h : ∀ n : Fin 256, isEscapeC (schar (UInt8.ofNat n.1)) = true ↔ EscChar (UInt8.ofNat n.1) := by
    decide +kernel
  have := h ⟨b.toNat, b.toNat_lt⟩
  simpa using this

/-- The loop, started at a character inside the string (or at its closing quote
after the opening one), stops at the closing quote. -/
theorem lexStringLoop_ok {T : Bytes} : ∀ (w : Bytes) {l pre r}, QBody w → w ≠ [] →
    LexAt T l pre (w ++ 34 :: r) →
    ∃ l', lexStringLoop l = .ok l' ∧ LexAt T l' (pre ++ w) (34 :: r) := by
  intro w l pre r hq
  induction hq generalizing l pre with
  | nil => intro h; exact absurd rfl h
  | @plain b w hb hq ih =>
    intro _ h
    have hb2 : b ≠ 255 := (h.split_mem.2 b (by simp)).2
    obtain ⟨l1, g1, g2⟩ := lexConsume_at h
    rw [lexStringLoop, if_neg (by rw [h.cur_cons]; exact schar_ne_eof hb2)]
    have hstep : lexStringStep l = .ok l1 := by
      unfold lexStringStep
      rw [if_neg, g1]
      intro hc
      obtain ⟨r', e⟩ := (h.is 92 92).mp hc
      cases e; exact hb.2 rfl
    split
    · rename_i l' heq
      rw [hstep] at heq; cases heq
      cases w with
      | nil =>
        rw [if_neg]
        · exact ⟨l1, rfl, g2⟩
        · intro hc; exact hc.2 ((g2.is 34 34).mpr ⟨_, rfl⟩)
      | cons a w =>
        have ha : a ≠ 255 := (g2.split_mem.2 a (by simp)).2
        rw [if_pos]
        · obtain ⟨l2, k1, k2⟩ := ih (by simp) g2
          exact ⟨l2, k1, by simpa using k2⟩
        · refine ⟨by rw [g2.cur_cons]; exact schar_ne_eof ha, ?_⟩
          intro hc
          obtain ⟨r', e⟩ := (g2.is 34 34).mp hc
          cases e
          cases hq with
          | plain hp => exact hp.1 rfl
    · rename_i heq; rw [hstep] at heq; cases heq
    · rename_i heq; rw [hstep] at heq; cases heq
  | @esc b w hb hq ih =>
    intro _ h
    obtain ⟨l1, g1, g2⟩ := lexConsume_at h
    obtain ⟨l2, g3, g4⟩ := lexConsume_at g2
    rw [lexStringLoop, if_neg (by rw [h.cur_cons]; decide)]
    have hstep : lexStringStep l = .ok l2 := by
      unfold lexStringStep
      rw [if_pos ((h.is 92 92).mpr ⟨_, rfl⟩), g1]
      simp only [Res.ok_bind]
      rw [if_pos, g3]
      rw [g2.cur_cons, isEscapeC_schar]; exact hb
    split
    · rename_i l' heq
      rw [hstep] at heq; cases heq
      cases w with
      | nil =>
        rw [if_neg]
        · exact ⟨l2, rfl, by simpa using g4⟩
        · intro hc; exact hc.2 ((g4.is 34 34).mpr ⟨_, rfl⟩)
      | cons a w =>
        have ha : a ≠ 255 := (g4.split_mem.2 a (by simp)).2
        rw [if_pos]
        · obtain ⟨l3, k1, k2⟩ := ih (by simp) g4
          exact ⟨l3, k1, by simpa using k2⟩
        · refine ⟨by rw [g4.cur_cons]; exact schar_ne_eof ha, ?_⟩
          intro hc
          obtain ⟨r', e⟩ := (g4.is 34 34).mp hc
          cases e
          cases hq with
          | plain hp => exact hp.1 rfl
    · rename_i heq; rw [hstep] at heq; cases heq
    · rename_i heq; rw [hstep] at heq; cases heq

/-- The loop started anywhere stops at a quote after a string body, at the end of
input, or aborts. -/
theorem lexStringLoop_cases {T : Bytes} : ∀ (n : Nat) (rem : Bytes) {l pre}, rem.length ≤ n →
    LexAt T l pre rem →
    (∃ w r l', rem = w ++ 34 :: r ∧ QBody w ∧ w ≠ [] ∧ lexStringLoop l = .ok l' ∧
        LexAt T l' (pre ++ w) (34 :: r)) ∨
    (∃ r w l', rem = 34 :: w ++ 34 :: r ∧ QBody w ∧ lexStringLoop l = .ok l' ∧
        LexAt T l' (pre ++ 34 :: w) (34 :: r)) ∨
    (∃ l' pre', lexStringLoop l = .ok l' ∧ LexAt T l' pre' []) ∨ lexStringLoop l = .fatal := by
  intro n
  induction n with
  | zero =>
    intro rem l pre hn h
    have : rem = [] := List.eq_nil_of_length_eq_zero (by omega)
    subst this
    rw [lexStringLoop, if_pos h.cur_nil]
    exact Or.inr (Or.inr (Or.inl ⟨l, pre, rfl, h⟩))
  | succ n ih =>
    intro rem l pre hn h
    cases rem with
    | nil =>
      rw [lexStringLoop, if_pos h.cur_nil]
      exact Or.inr (Or.inr (Or.inl ⟨l, pre, rfl, h⟩))
    | cons b rem =>
      have hb2 : b ≠ 255 := (h.split_mem.2 b (by simp)).2
      obtain ⟨l1, g1, g2⟩ := lexConsume_at h
      rw [lexStringLoop, if_neg (by rw [h.cur_cons]; exact schar_ne_eof hb2)]
      -- continuing after the first character or escape `p`
      have cont : ∀ (p rem2 : Bytes) (l2 : Lexer), lexStringStep l = .ok l2 →
          LexAt T l2 (pre ++ p) rem2 → rem2.length ≤ n →
          ((∃ w r l', rem2 = w ++ 34 :: r ∧ QBody w ∧
              (if l2.c ≠ -1 ∧ l2.c ≠ 34 then lexStringLoop l2 else .ok l2) = .ok l' ∧
              LexAt T l' (pre ++ p ++ w) (34 :: r)) ∨
           (∃ l' pre', (if l2.c ≠ -1 ∧ l2.c ≠ 34 then lexStringLoop l2 else .ok l2) = .ok l' ∧
              LexAt T l' pre' []) ∨
           (if l2.c ≠ -1 ∧ l2.c ≠ 34 then lexStringLoop l2 else .ok l2) = .fatal) := by
        intro p rem2 l2 _ h2 hlen
        cases rem2 with
        | nil =>
          rw [if_neg (by rw [h2.cur_nil]; simp)]
          exact Or.inr (Or.inl ⟨l2, _, rfl, h2⟩)
        | cons a rem2 =>
          have ha : a ≠ 255 := (h2.split_mem.2 a (by simp)).2
          by_cases e34 : a = 34
          · subst e34
            rw [if_neg (by intro hc; exact hc.2 ((h2.is 34 34).mpr ⟨_, rfl⟩))]
            exact Or.inl ⟨[], rem2, l2, rfl, .nil, rfl, by simpa using h2⟩
          · rw [if_pos]
            · rcases ih _ hlen h2 with ⟨w, r, l', e, hq, _, k1, k2⟩ | ⟨r, w, l', e, _⟩ | k | k
              · exact Or.inl ⟨w, r, l', e, hq, k1, by simpa using k2⟩
              · exfalso
                simp only [List.cons_append, List.cons.injEq] at e
                exact e34 e.1
              · exact Or.inr (Or.inl k)
              · exact Or.inr (Or.inr k)
            · refine ⟨by rw [h2.cur_cons]; exact schar_ne_eof ha, ?_⟩
              intro hc
              obtain ⟨r', e⟩ := (h2.is 34 34).mp hc
              cases e; exact e34 rfl
      by_cases h92 : b = 92
      · subst h92
        cases rem with
        | nil =>
          have hstep : lexStringStep l = .fatal := by
            unfold lexStringStep
            rw [if_pos ((h.is 92 92).mpr ⟨_, rfl⟩), g1]
            simp only [Res.ok_bind]
            rw [g2.cur_nil, if_neg (by decide)]
          split
          · rename_i heq; rw [hstep] at heq; cases heq
          · exact Or.inr (Or.inr (Or.inr rfl))
          · rename_i heq; rw [hstep] at heq; cases heq
        | cons a rem =>
          by_cases hesc : EscChar a
          · obtain ⟨l2, g3, g4⟩ := lexConsume_at g2
            have hstep : lexStringStep l = .ok l2 := by
              unfold lexStringStep
              rw [if_pos ((h.is 92 92).mpr ⟨_, rfl⟩), g1]
              simp only [Res.ok_bind]
              rw [if_pos, g3]
              rw [g2.cur_cons, isEscapeC_schar]; exact hesc
            have h4 : LexAt T l2 (pre ++ [92, a]) rem := by simpa using g4
            split
            · rename_i l' heq
              rw [hstep] at heq; cases heq
              rcases cont [92, a] rem l2 hstep h4 (by simp at hn ⊢; omega) with
                ⟨w, r, l', e, hq, k1, k2⟩ | k | k
              · exact Or.inl ⟨92 :: a :: w, r, l', by rw [e]; rfl, .esc hesc hq, by simp, k1,
                  by simpa using k2⟩
              · exact Or.inr (Or.inr (Or.inl k))
              · exact Or.inr (Or.inr (Or.inr k))
            · rename_i heq; rw [hstep] at heq; cases heq
            · rename_i heq; rw [hstep] at heq; cases heq
          · have hstep : lexStringStep l = .fatal := by
              unfold lexStringStep
              rw [if_pos ((h.is 92 92).mpr ⟨_, rfl⟩), g1]
              simp only [Res.ok_bind]
              rw [if_neg]
              rw [g2.cur_cons, isEscapeC_schar]; exact hesc
            split
            · rename_i heq; rw [hstep] at heq; cases heq
            · exact Or.inr (Or.inr (Or.inr rfl))
            · rename_i heq; rw [hstep] at heq; cases heq
      · have hstep : lexStringStep l = .ok l1 := by
          unfold lexStringStep
          rw [if_neg, g1]
          intro hc
          obtain ⟨r', e⟩ := (h.is 92 92).mp hc
          cases e; exact h92 rfl
        split
        · rename_i l' heq
          rw [hstep] at heq; cases heq
          rcases cont [b] rem l1 hstep g2 (by simp at hn ⊢; omega) with
            ⟨w, r, l', e, hq, k1, k2⟩ | k | k
          · by_cases e34 : b = 34
            · subst e34
              exact Or.inr (Or.inl ⟨r, w, l', by rw [e]; rfl, hq, k1, by simpa using k2⟩)
            · exact Or.inl ⟨b :: w, r, l', by rw [e]; rfl, .plain ⟨e34, h92⟩ hq, by simp, k1,
                by simpa using k2⟩
          · exact Or.inr (Or.inr (Or.inl k))
          · exact Or.inr (Or.inr (Or.inr k))
        · rename_i heq; rw [hstep] at heq; cases heq
        · rename_i heq; rw [hstep] at heq; cases heq

theorem lexQuotedString_ok {T l pre w r} (h : LexAt T l pre (34 :: w ++ 34 :: r)) (hq : QBody w) :
    ∃ l', lexQuotedString l = .ok (l', ⟨((pre ++ [34]).length : Nat), (w.length : Nat)⟩) ∧
      LexAt T l' (pre ++ 34 :: w ++ [34]) r := by
  -- first iteration passes the opening quote
  have hloop : ∃ l', lexStringLoop l = .ok l' ∧ LexAt T l' (pre ++ 34 :: w) (34 :: r) := by
    obtain ⟨l1, g1, g2⟩ := lexConsume_at h
    rw [lexStringLoop, if_neg (by rw [h.cur_cons]; decide)]
    have hstep : lexStringStep l = .ok l1 := by
      unfold lexStringStep
      rw [if_neg, g1]
      intro hc
      obtain ⟨r', e⟩ := (h.is 92 92).mp hc
      cases e
    split
    · rename_i l' heq
      rw [hstep] at heq; cases heq
      cases w with
      | nil =>
        rw [if_neg]
        · exact ⟨l1, rfl, g2⟩
        · intro hc; exact hc.2 ((g2.is 34 34).mpr ⟨_, rfl⟩)
      | cons a w =>
        have ha : a ≠ 255 := (g2.split_mem.2 a (by simp)).2
        rw [if_pos]
        · obtain ⟨l2, k1, k2⟩ := lexStringLoop_ok _ hq (by simp) g2
          exact ⟨l2, k1, by simpa using k2⟩
        · refine ⟨by rw [g2.cur_cons]; exact schar_ne_eof ha, ?_⟩
          intro hc
          obtain ⟨r', e⟩ := (g2.is 34 34).mp hc
          cases e
          cases hq with
          | plain hp => exact hp.1 rfl
    · rename_i heq; rw [hstep] at heq; cases heq
    · rename_i heq; rw [hstep] at heq; cases heq
  obtain ⟨l1, g1, g2⟩ := hloop
  obtain ⟨l2, g3, g4⟩ := lexConsume_at g2
  unfold lexQuotedString
  simp only
  rw [g1]
  simp only [Res.ok_bind]
  rw [if_neg (by intro hc; exact hc ((g2.is 34 34).mpr ⟨_, rfl⟩)), g3]
  refine ⟨l2, ?_, by simpa using g4⟩
  simp only [Res.ok_bind, Res.pure_eq, Res.ok.injEq, Prod.mk.injEq, true_and, Lexeme.mk.injEq]
  rw [h.pos, g4.pos]
  simp; omega

theorem lexQuotedString_cases {T l pre rem} (h : LexAt T l pre (34 :: rem)) :
    (∃ w r, rem = w ++ 34 :: r ∧ QBody w) ∨ lexQuotedString l = .fatal := by
  unfold lexQuotedString
  simp only
  rcases lexStringLoop_cases (rem.length + 1) (34 :: rem) (by simp) h with
    ⟨w, r, l', e, hq, hne, _⟩ | ⟨r, w, l', e, hq, _⟩ | ⟨l', pre', k1, k2⟩ | k
  · exfalso
    cases hq with
    | nil => exact hne rfl
    | plain hp =>
      simp only [List.cons_append, List.cons.injEq] at e
      exact hp.1 e.1.symm
    | esc =>
      simp only [List.cons_append, List.cons.injEq] at e
      exact absurd e.1 (by decide)
  · left
    simp only [List.cons_append, List.cons.injEq, true_and] at e
    exact ⟨w, r, e, hq⟩
  · right
    rw [k1]
    simp only [Res.ok_bind]
    rw [if_pos (by rw [k2.cur_nil]; decide)]
  · right; rw [k]; rfl

end Nx
