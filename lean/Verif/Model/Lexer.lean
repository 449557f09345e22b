import Verif.Core

/-!
# Model of `src/nx_lexer.c`

The text is the byte array behind `char *text` without its final zero; index
`text.length` holds that zero, further indices are outside the object. `char` is
signed (x86). Simplifications: the `int` counters do not overflow (texts shorter
than 2^27 characters), and `isdigit` of a negative `char`, which the C standard
leaves undefined, is false as in glibc.
-/

namespace Nx

/-- A `char` converted to `int`. -/
def schar (b : Byte) : Int := if b.toNat < 128 then b.toNat else (b.toNat : Int) - 256

/-- `struct NXLexer`, `src/nx_lexer.c:47-55`. -/
structure Lexer where
  text : Bytes
  pos : Int
  c : Int
  line : Int
  col : Int
deriving DecidableEq, Repr

/-- Reading `text[i]`. -/
def textAt (t : Bytes) (i : Int) : Res Int :=
  if 0 ≤ i then
    match t[i.toNat]? with
    | some b => .ok (schar b)
    | none => if i.toNat = t.length then .ok 0 else .ub
  else .ub

/-- Position bookkeeping of `nx_lexer_consume`, `src/nx_lexer.c:150-159`, for the
new current character `c`. -/
def lexTrack (l : Lexer) (c : Int) : Lexer :=
  if c = 10 then { l with pos := l.pos + 1, c := c, line := l.line + 1, col := 0 }
  else if c = 13 then { l with pos := l.pos + 1, c := c, col := 0 }
  else if c = 9 then { l with pos := l.pos + 1, c := c, col := l.col + 8 }
  else { l with pos := l.pos + 1, c := c, col := l.col + 1 }

/-- `nx_lexer_consume`, `src/nx_lexer.c:139-162`; `EOF` is -1. -/
def lexConsume (l : Lexer) : Res Lexer :=
  if l.c = -1 then .ok l
  else do
    let c ← textAt l.text (l.pos + 1)
    pure (lexTrack l (if c = 0 then -1 else c))

/-- `nx_lexer_new`, `src/nx_lexer.c:86-100`. -/
def lexNew (text : Bytes) : Res Lexer :=
  lexConsume { text := text, pos := -1, c := 0, line := 1, col := 0 }

/-- The loop of `nx_lexer_match`, `src/nx_lexer.c:172-181`; `none` for a mismatch. -/
def lexMatchLoop (l : Lexer) : Bytes → Res (Option Lexer)
  | [] => .ok (some l)
  | b :: s =>
    if l.c = schar b then do
      let l ← lexConsume l
      lexMatchLoop l s
    else .ok none

/-- `nx_lexer_match`, `src/nx_lexer.c:164-184`. -/
def lexMatch (l : Lexer) (s : Bytes) : Res (Bool × Lexer) := do
  match ← lexMatchLoop l s with
  | some l' => pure (true, l')
  | none => pure (false, l)

theorem lexConsume_pos {l l' : Lexer} (h : lexConsume l = .ok l') (hc : l.c ≠ -1) :
    (l'.text.length + 1 - l'.pos).toNat < (l.text.length + 1 - l.pos).toNat := by
  unfold lexConsume at h
  rw [if_neg hc] at h
  unfold textAt at h
  split at h
  · have key : ∀ x, l' = lexTrack l x → l.pos + 1 ≤ l.text.length →
        (l'.text.length + 1 - l'.pos).toNat < (l.text.length + 1 - l.pos).toNat := by
      intro x hx hp
      subst hx
      unfold lexTrack
      split
      · simp only; omega
      · split
        · simp only; omega
        · split
          · simp only; omega
          · simp only; omega
    split at h
    · rename_i b hb
      simp only [Res.ok_bind, Res.pure_eq, Res.ok.injEq] at h
      have := (List.getElem?_eq_some_iff.mp hb).1
      exact key _ h.symm (by omega)
    · split at h
      · simp only [Res.ok_bind, Res.pure_eq, Res.ok.injEq] at h
        exact key _ h.symm (by omega)
      · simp at h
  · simp at h

/-- A loop `while (p(lex->c)) nx_lexer_consume(lex);` for a character test that is
false at the end of input, as in `src/nx_lexer.c:197-198`, `219-220`, `229-230` and
`src/nx_json_lexer.c:131-135`. -/
def skipWhile (p : Int → Bool) (hp : p (-1) = false) (l : Lexer) : Res Lexer :=
  if _h : p l.c = true then
    match _h2 : lexConsume l with
    | .ok l' => skipWhile p hp l'
    | .fatal => .fatal
    | .ub => .ub
  else .ok l
termination_by (l.text.length + 1 - l.pos).toNat
decreasing_by
  exact lexConsume_pos _h2 (fun e => by rw [e, hp] at _h; cases _h)

/-- `isdigit(c)`. -/
def isDigitC (c : Int) : Bool := 48 ≤ c && c ≤ 57

/-- Result of the token matchers: `text + start`, `*len`. -/
structure Lexeme where
  start : Int
  len : Int
deriving DecidableEq, Repr

/-- The fraction part, `src/nx_lexer.c:215-221`. -/
def lexFraction (l : Lexer) : Res Lexer :=
  if l.c = 46 then do
    let l ← lexConsume l
    if isDigitC l.c then skipWhile isDigitC rfl l else .fatal
  else .ok l

/-- The exponent part, `src/nx_lexer.c:223-231`. -/
def lexExponent (l : Lexer) : Res Lexer :=
  if l.c = 101 ∨ l.c = 69 then do
    let l ← lexConsume l
    let l ← (if l.c = 43 ∨ l.c = 45 then lexConsume l else pure l)
    if isDigitC l.c then skipWhile isDigitC rfl l else .fatal
  else .ok l

/-- The checks after the integer part, `src/nx_lexer.c:203-208`. The condition at
line 207 reads `text[start+1]` only if `len > 2`. -/
def lexIntCheck (t : Bytes) (start len : Int) : Res Unit := do
  let c0 ← textAt t start
  if c0 = 45 ∧ len = 1 then .fatal
  else if c0 = 48 ∧ len > 1 then .fatal
  else if len > 2 ∧ c0 = 45 then do
    let c1 ← textAt t (start + 1)
    if c1 = 48 then .fatal else pure ()
  else pure ()

/-- `nx_lexer_NUMBER`, `src/nx_lexer.c:186-237`. The flag is true for
`NX_LNT_INTEGER`. -/
def lexNumber (l : Lexer) : Res (Lexer × Lexeme × Bool) := do
  let start := l.pos
  let l ← (if l.c = 45 then lexConsume l else pure l)
  let l ← skipWhile isDigitC rfl l
  lexIntCheck l.text start (l.pos - start)
  if l.c ≠ 46 ∧ l.c ≠ 101 ∧ l.c ≠ 69 then
    pure (l, { start := start, len := l.pos - start }, true)
  else do
    let l ← lexFraction l
    let l ← lexExponent l
    pure (l, { start := start, len := l.pos - start }, false)

/-- The escape characters accepted at `src/nx_lexer.c:248-261`. -/
def isEscapeC (c : Int) : Bool :=
  c = 34 || c = 92 || c = 47 || c = 98 || c = 102 || c = 110 || c = 114 || c = 116

/-- One iteration of the loop body, `src/nx_lexer.c:246-264`. -/
def lexStringStep (l : Lexer) : Res Lexer :=
  if l.c = 92 then do
    let l ← lexConsume l
    if isEscapeC l.c then lexConsume l else .fatal
  else lexConsume l

theorem lexStringStep_pos {l l' : Lexer} (h : lexStringStep l = .ok l') (hc : l.c ≠ -1) :
    (l'.text.length + 1 - l'.pos).toNat < (l.text.length + 1 - l.pos).toNat := by
  unfold lexStringStep at h
  split at h
  · rw [Res.bind_eq_ok] at h
    obtain ⟨l1, h1, h2⟩ := h
    have := lexConsume_pos h1 hc
    split at h2
    · rename_i he
      have : l1.c ≠ -1 := fun e => by rw [e] at he; exact absurd he (by decide)
      have := lexConsume_pos h2 this
      omega
    · cases h2
  · exact lexConsume_pos h hc

/-- The `do … while` loop of `nx_lexer_QUOTED_STRING`, `src/nx_lexer.c:245-265`. -/
def lexStringLoop (l : Lexer) : Res Lexer :=
  if l.c = -1 then .ok l   -- a `do` body at end of input changes nothing
  else
    match _h : lexStringStep l with
    | .ok l' => if l'.c ≠ -1 ∧ l'.c ≠ 34 then lexStringLoop l' else .ok l'
    | .fatal => .fatal
    | .ub => .ub
termination_by (l.text.length + 1 - l.pos).toNat
decreasing_by
  rename_i hc _
  exact lexStringStep_pos _h hc

/-- `nx_lexer_QUOTED_STRING`, `src/nx_lexer.c:239-274`. -/
def lexQuotedString (l : Lexer) : Res (Lexer × Lexeme) := do
  let start := l.pos + 1
  let l ← lexStringLoop l
  if l.c ≠ 34 then .fatal
  else do
    let l ← lexConsume l
    pure (l, { start := start, len := l.pos - 1 - start })

end Nx
