import Verif.Spec.Lexer

namespace Nx

theorem schar_eq_iff (a b : Byte) : schar a = schar b ↔ a = b := by
  constructor
  · intro h
    unfold schar at h
    have ha := a.toNat_lt
    have hb := b.toNat_lt
    apply UInt8.toNat_inj.mp
    split at h <;> split at h <;> omega
  · rintro rfl; rfl

theorem schar_lit (a : Byte) (n : Nat) (hn : n < 128) : schar a = (n : Int) ↔ a = UInt8.ofNat n := by
  have : schar (UInt8.ofNat n) = (n : Int) := by
    unfold schar
    have : (UInt8.ofNat n).toNat = n := by
      simp [UInt8.toNat_ofNat']; omega
    rw [this, if_pos hn]
  rw [← this, schar_eq_iff]

theorem schar_zero : schar 0 = 0 := by decide
theorem schar_255 : schar 255 = -1 := by decide
theorem schar_ne_zero {b : Byte} (h : b ≠ 0) : schar b ≠ 0 := by
  rw [← schar_zero, Ne, schar_eq_iff]; exact h
theorem schar_ne_eof {b : Byte} (h : b ≠ 255) : schar b ≠ -1 := by
  rw [← schar_255, Ne, schar_eq_iff]; exact h

theorem mem_takeWhile_imp {α : Type} {p : α → Bool} {l : List α} {x : α}
    (h : x ∈ l.takeWhile p) : p x = true := by
  induction l with
  | nil => simp at h
  | cons a l ih =>
    rw [List.takeWhile_cons] at h
    split at h
    · rename_i ha
      rcases List.mem_cons.mp h with e | h
      · rw [e]; exact ha
      · exact ih h
    · simp at h

theorem takeWhile_all {α : Type} {p : α → Bool} {l : List α} (h : ∀ x ∈ l, p x = true) :
    l.takeWhile p = l := by
  induction l with
  | nil => rfl
  | cons a l ih => rw [List.takeWhile_cons, if_pos (h a (by simp)), ih (fun x hx => h x (by simp [hx]))]

theorem lexVisible_mem {T : Bytes} {b : Byte} (h : b ∈ lexVisible T) : b ≠ 0 ∧ b ≠ 255 := by
  unfold lexVisible at h
  have := mem_takeWhile_imp h
  simpa using this

theorem lexVisible_get {T : Bytes} {i : Nat} (h : i < (lexVisible T).length) :
    T[i]? = some (lexVisible T)[i] := by
  have hp : lexVisible T <+: T := List.takeWhile_prefix _
  obtain ⟨t, ht⟩ := hp
  conv => lhs; rw [← ht]
  rw [List.getElem?_append_left h, List.getElem?_eq_getElem h]

theorem lexVisible_end (T : Bytes) :
    T[(lexVisible T).length]? = none ∧ (lexVisible T).length = T.length ∨
    T[(lexVisible T).length]? = some 0 ∨ T[(lexVisible T).length]? = some 255 := by
  unfold lexVisible
  induction T with
  | nil => simp
  | cons a T ih =>
    rw [List.takeWhile_cons]
    split
    · simp only [List.length_cons, List.getElem?_cons_succ]
      rcases ih with ⟨h1, h2⟩ | h | h
      · exact Or.inl ⟨h1, by omega⟩
      · exact Or.inr (Or.inl h)
      · exact Or.inr (Or.inr h)
    · rename_i h
      simp only [List.length_nil, List.getElem?_cons_zero]
      right
      simp only [Bool.and_eq_true, bne_iff_ne, ne_eq, not_and, Decidable.not_not] at h
      by_cases e : a = 0
      · left; rw [e]
      · right; rw [h e]

theorem lexVisible_CStr {T : Bytes} (h0 : CStr T) (h1 : 255 ∉ T) : lexVisible T = T := by
  unfold lexVisible
  apply takeWhile_all
  intro b hb
  simp only [Bool.and_eq_true, bne_iff_ne, ne_eq]
  exact ⟨fun e => h0 (e ▸ hb), fun e => h1 (e ▸ hb)⟩

theorem columnOf_snoc (s : Bytes) (b : Byte) :
    columnOf (s ++ [b]) = if b = 10 ∨ b = 13 then 0 else columnOf s + charWidth b := by
  unfold columnOf
  rw [List.reverse_append]
  simp only [List.reverse_cons, List.reverse_nil, List.nil_append, List.cons_append]
  rw [List.takeWhile_cons]
  by_cases h : b = 10 ∨ b = 13
  · rw [if_pos h, if_neg]
    · rfl
    · rcases h with h | h <;> simp [h]
  · rw [if_neg h, if_pos]
    · simp; omega
    · simp only [Bool.and_eq_true, bne_iff_ne, ne_eq]
      exact ⟨fun e => h (Or.inl e), fun e => h (Or.inr e)⟩

theorem LexAt.split_mem {T l pre rem} (h : LexAt T l pre rem) :
    (∀ b ∈ pre, b ≠ 0 ∧ b ≠ 255) ∧ (∀ b ∈ rem, b ≠ 0 ∧ b ≠ 255) := by
  constructor
  · intro b hb; exact lexVisible_mem (T := T) (by rw [h.split]; simp [hb])
  · intro b hb; exact lexVisible_mem (T := T) (by rw [h.split]; simp [hb])

theorem textAt_next {T pre rem : Bytes} (hs : lexVisible T = pre ++ rem) :
    ∃ c, textAt T (pre.length : Nat) = .ok c ∧
      (if c = 0 then -1 else c) = curC rem := by
  unfold textAt
  rw [if_pos (by omega)]
  simp only [Int.toNat_natCast]
  cases rem with
  | nil =>
    have := lexVisible_end T
    rw [hs, List.append_nil] at this
    rcases this with ⟨h1, h2⟩ | h | h
    · rw [h1]; exact ⟨0, by rw [if_pos h2], rfl⟩
    · rw [h]; exact ⟨_, rfl, by decide⟩
    · rw [h]; exact ⟨_, rfl, by decide⟩
  | cons b rem =>
    have hlt : pre.length < (lexVisible T).length := by rw [hs]; simp
    have hb : (lexVisible T)[pre.length] = b := by
      have : (lexVisible T)[pre.length]? = some b := by rw [hs]; simp
      rw [List.getElem?_eq_getElem hlt] at this
      exact Option.some.inj this
    rw [lexVisible_get hlt, hb]
    refine ⟨_, rfl, ?_⟩
    have : b ∈ lexVisible T := by rw [hs]; simp
    rw [if_neg (schar_ne_zero (lexVisible_mem this).1)]; rfl

theorem lexTrack_at {T : Bytes} {l : Lexer} {pre rem : Bytes} (ht : l.text = T) (hs : lexVisible T = pre ++ rem)
    (hp : l.pos + 1 = pre.length) (hl : l.line = 1 + (pre.count 10 : Nat))
    (hc : l.col = columnOf pre) :
    LexAt T (lexTrack l (curC rem)) pre rem := by
  have e10 : (10 : Int) = schar 10 := by decide
  have e13 : (13 : Int) = schar 13 := by decide
  have e9 : (9 : Int) = schar 9 := by decide
  cases rem with
  | nil =>
    simp only [curC]
    unfold lexTrack
    rw [if_neg (by omega), if_neg (by omega), if_neg (by omega)]
    exact ⟨ht, hs, hp, rfl, by simpa using hl, by simp; omega⟩
  | cons b rem =>
    simp only [curC]
    have hcol := columnOf_snoc pre b
    have hcount : (pre ++ [b]).count 10 = pre.count 10 + if b = 10 then 1 else 0 := by
      rw [List.count_append, List.count_singleton]
      by_cases e : b = 10 <;> simp [e]
    unfold lexTrack
    simp only [e10, e13, e9, schar_eq_iff]
    split
    · rename_i e
      refine ⟨ht, hs, hp, rfl, ?_, ?_⟩
      · simp only [List.take_succ_cons, List.take_zero]; rw [hcount, if_pos e]; omega
      · simp only [List.take_succ_cons, List.take_zero]; rw [hcol, if_pos (Or.inl e)]; simp
    · rename_i e
      have hl' : l.line = 1 + ((pre ++ [b]).count 10 : Nat) := by rw [hcount, if_neg e]; omega
      split
      · rename_i e2
        refine ⟨ht, hs, hp, rfl, hl', ?_⟩
        simp only [List.take_succ_cons, List.take_zero]; rw [hcol, if_pos (Or.inr e2)]; simp
      · rename_i e2
        have hor : ¬ (b = 10 ∨ b = 13) := by rintro (h | h); exact e h; exact e2 h
        split
        · rename_i e3
          refine ⟨ht, hs, hp, rfl, hl', ?_⟩
          simp only [List.take_succ_cons, List.take_zero]
          rw [hcol, if_neg hor, charWidth, if_pos e3]; simp; omega
        · rename_i e3
          refine ⟨ht, hs, hp, rfl, hl', ?_⟩
          simp only [List.take_succ_cons, List.take_zero]
          rw [hcol, if_neg hor, charWidth, if_neg e3]; simp; omega

theorem lexNew_at (T : Bytes) : ∃ l, lexNew T = .ok l ∧ LexAt T l [] (lexVisible T) := by
  unfold lexNew lexConsume
  rw [if_neg (by simp)]
  simp only
  obtain ⟨c, h1, h2⟩ := textAt_next (T := T) (pre := []) (rem := lexVisible T) rfl
  have e : (-1 + 1 : Int) = (([] : Bytes).length : Nat) := by simp
  rw [e, h1]
  simp only [Res.ok_bind, Res.pure_eq]
  refine ⟨_, rfl, ?_⟩
  rw [h2]
  exact lexTrack_at rfl rfl (by simp) (by simp) (by simp [columnOf])

theorem lexConsume_at {T l pre b rem} (h : LexAt T l pre (b :: rem)) :
    ∃ l', lexConsume l = .ok l' ∧ LexAt T l' (pre ++ [b]) rem := by
  have hb := h.split_mem.2 b (by simp)
  unfold lexConsume
  have hc := h.cur
  simp only [curC] at hc
  rw [if_neg (by rw [hc]; exact schar_ne_eof hb.2)]
  have hs : lexVisible T = (pre ++ [b]) ++ rem := by rw [h.split]; simp
  obtain ⟨c, h1, h2⟩ := textAt_next hs
  have e : l.pos + 1 = ((pre ++ [b]).length : Nat) := by rw [h.pos]; simp
  rw [h.text, e, h1]
  simp only [Res.ok_bind, Res.pure_eq]
  refine ⟨_, rfl, ?_⟩
  rw [h2]
  refine lexTrack_at h.text hs e ?_ ?_
  · have := h.line; simpa using this
  · have := h.col; simpa using this

theorem lexConsume_end {T l pre} (h : LexAt T l pre []) : lexConsume l = .ok l := by
  unfold lexConsume
  rw [if_pos (show l.c = -1 from h.cur)]

/-- The state is determined by the text and the position. -/
theorem LexAt.unique {T l l' pre rem} (h : LexAt T l pre rem) (h' : LexAt T l' pre rem) : l = l' := by
  cases l; cases l'
  have := h.text; have := h'.text; have := h.pos; have := h'.pos
  have := h.cur; have := h'.cur; have := h.line; have := h'.line; have := h.col; have := h'.col
  simp_all

theorem LexAt.cur_cons {T l pre b rem} (h : LexAt T l pre (b :: rem)) : l.c = schar b := h.cur
theorem LexAt.cur_nil {T l pre} (h : LexAt T l pre []) : l.c = -1 := h.cur

/-- Comparing the current character with an ASCII character. -/
theorem LexAt.cur_lit {T l pre rem} (h : LexAt T l pre rem) (n : Nat) (hn : n < 128) :
    l.c = (n : Int) ↔ ∃ r, rem = UInt8.ofNat n :: r := by
  cases rem with
  | nil => rw [h.cur_nil]; constructor
           · intro e; omega
           · rintro ⟨r, e⟩; cases e
  | cons b rem =>
    rw [h.cur_cons, schar_lit b n hn]
    constructor
    · rintro rfl; exact ⟨rem, rfl⟩
    · rintro ⟨r, e⟩; cases e; rfl

theorem LexAt.is {T l pre rem} (h : LexAt T l pre rem) (n : Int) (b : Byte)
    (hn : schar b = n := by decide) (hb : b ≠ 255 := by decide) :
    l.c = n ↔ ∃ r, rem = b :: r := by
  subst hn
  cases rem with
  | nil => rw [h.cur_nil]; constructor
           · intro e; exact absurd e.symm (schar_ne_eof hb)
           · rintro ⟨r, e⟩; cases e
  | cons a rem =>
    rw [h.cur_cons, schar_eq_iff]
    constructor
    · rintro rfl; exact ⟨rem, rfl⟩
    · rintro ⟨r, e⟩; cases e; rfl

theorem skipWhile_at {p : Int → Bool} {hp : p (-1) = false} {T : Bytes} :
    ∀ (rem : Bytes) {l pre}, LexAt T l pre rem →
    ∃ l', skipWhile p hp l = .ok l' ∧
      LexAt T l' (pre ++ rem.takeWhile (fun b => p (schar b))) (rem.dropWhile (fun b => p (schar b))) := by
  intro rem
  induction rem with
  | nil =>
    intro l pre h
    rw [skipWhile, dif_neg (by rw [h.cur_nil, hp]; simp)]
    exact ⟨l, rfl, by simpa using h⟩
  | cons b rem ih =>
    intro l pre h
    rw [skipWhile]
    by_cases hb : p (schar b) = true
    · rw [dif_pos (by rw [h.cur_cons]; exact hb)]
      obtain ⟨l1, h1, h2⟩ := lexConsume_at h
      obtain ⟨l2, h3, h4⟩ := ih h2
      refine ⟨l2, ?_, ?_⟩
      · split
        · rename_i l' heq; rw [h1] at heq; cases heq; exact h3
        · rename_i heq; rw [h1] at heq; cases heq
        · rename_i heq; rw [h1] at heq; cases heq
      · rw [List.takeWhile_cons, List.dropWhile_cons, if_pos hb, if_pos hb]
        simpa using h4
    · rw [dif_neg (by rw [h.cur_cons]; exact hb)]
      refine ⟨l, rfl, ?_⟩
      rw [List.takeWhile_cons, List.dropWhile_cons, if_neg hb, if_neg hb]
      simpa using h

theorem isDigitC_schar (b : Byte) : isDigitC (schar b) = true ↔ IsDigit b := by
  unfold isDigitC IsDigit schar
  have := b.toNat_lt
  split <;> simp <;> omega

/-- The digits at the start of a text. -/
def digitRun (rem : Bytes) : Bytes := rem.takeWhile (fun b => decide (IsDigit b))
def afterDigits (rem : Bytes) : Bytes := rem.dropWhile (fun b => decide (IsDigit b))

theorem digit_fun_eq : (fun b : Byte => isDigitC (schar b)) = (fun b => decide (IsDigit b)) := by
  funext b
  rw [Bool.eq_iff_iff, isDigitC_schar]; simp

theorem skipDigits_at {T l pre rem} (h : LexAt T l pre rem) :
    ∃ l', skipWhile isDigitC rfl l = .ok l' ∧
      LexAt T l' (pre ++ digitRun rem) (afterDigits rem) := by
  have := skipWhile_at (p := isDigitC) (hp := rfl) rem h
  rw [digit_fun_eq] at this
  exact this

theorem digitRun_append (rem : Bytes) : digitRun rem ++ afterDigits rem = rem :=
  List.takeWhile_append_dropWhile

theorem digitRun_digits (rem : Bytes) : ∀ b ∈ digitRun rem, IsDigit b := by
  intro b hb
  have := mem_takeWhile_imp hb
  simpa using this

theorem afterDigits_head (rem : Bytes) : ∀ b r, afterDigits rem = b :: r → ¬ IsDigit b := by
  intro b r h
  have hne : afterDigits rem ≠ [] := by rw [h]; simp
  have := List.head_dropWhile_not (fun b => decide (IsDigit b)) hne
  have h2 : (afterDigits rem).head hne = b := by simp [h]
  unfold afterDigits at h2
  rw [h2] at this
  simpa using this

/-- A digit run is determined: digits followed by a non-digit. -/
theorem digitRun_eq {d r : Bytes} (hd : ∀ b ∈ d, IsDigit b) (hr : ∀ b r', r = b :: r' → ¬ IsDigit b) :
    digitRun (d ++ r) = d ∧ afterDigits (d ++ r) = r := by
  unfold digitRun afterDigits
  induction d with
  | nil =>
    cases r with
    | nil => simp
    | cons b r => simp [hr b r rfl]
  | cons a d ih =>
    have ha := hd a (by simp)
    have := ih (fun b hb => hd b (by simp [hb]))
    simp [ha, this]

end Nx
