import Verif.Model.Getline

/-! # C50: line reading -/

namespace Nx

/-- The first line of a text including its newline, and what follows. -/
def takeLine : Bytes → Bytes
  | [] => []
  | c :: st => if c = 10 then [c] else c :: takeLine st

def dropLine : Bytes → Bytes
  | [] => []
  | c :: st => if c = 10 then st else dropLine st

/-- Reading lines is reading the text: nothing is lost. -/
theorem takeLine_append_dropLine (st : Bytes) : takeLine st ++ dropLine st = st := by
  induction st with
  | nil => rfl
  | cons c st ih =>
    unfold takeLine dropLine
    split
    · rfl
    · simp [ih]

/-- A line has a newline at most at its end. -/
theorem takeLine_shape (st : Bytes) :
    (10 ∉ takeLine st ∧ dropLine st = []) ∨ ∃ l, takeLine st = l ++ [10] ∧ 10 ∉ l := by
  induction st with
  | nil => left; simp [takeLine, dropLine]
  | cons c st ih =>
    unfold takeLine dropLine
    by_cases hc : c = 10
    · rw [if_pos hc, if_pos hc]; right; exact ⟨[], by simp [hc], by simp⟩
    · rw [if_neg hc, if_neg hc]
      have hc' : ¬ 10 = c := fun e => hc e.symm
      rcases ih with ⟨h1, h2⟩ | ⟨l, h1, h2⟩
      · left; exact ⟨by simp [hc', h1], h2⟩
      · right; exact ⟨c :: l, by simp [h1], by simp [hc', h2]⟩

theorem round24_bounds (x : Nat) : 16777215 * x ≤ 16777216 * round24 x ∧ 16777216 * round24 x ≤ 16777217 * x := by
  unfold round24
  simp only
  by_cases hs : Nat.log2 x + 1 - 24 = 0
  · rw [if_pos hs]; omega
  · rw [if_neg hs]
    generalize hse : Nat.log2 x + 1 - 24 = s at hs ⊢
    have hx0 : x ≠ 0 := by
      rintro rfl
      rw [Nat.log2_zero] at hse
      omega
    have hle : 2 ^ (s + 23) ≤ x := by
      have := Nat.log2_self_le hx0
      have e : Nat.log2 x = s + 23 := by omega
      rw [e] at this; exact this
    have hp : 2 ^ (s + 23) = 16777216 * 2 ^ (s - 1) := by
      have : s + 23 = (s - 1) + 24 := by omega
      rw [this, Nat.pow_add]; omega
    have hp2 : 2 ^ s = 2 * 2 ^ (s - 1) := by
      have : s = (s - 1) + 1 := by omega
      conv => lhs; rw [this, Nat.pow_succ]
      omega
    have hdiv := Nat.div_add_mod x (2 ^ s)
    have hmod := Nat.mod_lt x (Nat.two_pow_pos s)
    generalize x / 2 ^ s = q at *
    generalize x % 2 ^ s = r at *
    have hq : (q + 1) * 2 ^ s = 2 ^ s * q + 2 ^ s := by rw [Nat.add_mul, Nat.mul_comm]; omega
    have hq2 : q * 2 ^ s = 2 ^ s * q := Nat.mul_comm _ _
    split
    · rw [hq]
      generalize 2 ^ s * q = A at *
      omega
    · rw [hq2]
      generalize 2 ^ s * q = A at *
      omega

/-- The buffer always grows. -/
theorem times16f_gt (n : Nat) (h : 4 ≤ n) : n < times16f n := by
  unfold times16f
  have h1 := round24_bounds n
  have h2 := round24_bounds (round24 n * 13421773)
  omega

theorem times16f_lt (n : Nat) (h : n ≤ 1073741824) : times16f n < 2147483648 := by
  unfold times16f
  have h1 := round24_bounds n
  have h2 := round24_bounds (round24 n * 13421773)
  omega

theorem reallocBytes_length (buf : Bytes) (size : Nat) : (reallocBytes buf size).length = size := by
  simp [reallocBytes]; omega

theorem reallocBytes_take (buf : Bytes) (size k : Nat) (h : k ≤ size) (hk : k ≤ buf.length) :
    (reallocBytes buf size).take k = buf.take k := by
  unfold reallocBytes
  rw [List.take_append_of_le_length (by simp; omega), List.take_take]
  congr 1; omega

/-- The buffer holds `w` so far. -/
def Holds (b : LineBuf) (w : Bytes) : Prop :=
  b.idx = w.length ∧ b.buf.take b.idx = w ∧ b.n ≤ b.buf.length ∧ b.idx ≤ b.n

theorem growBuf_ok {b : LineBuf} {w : Bytes} (h : Holds b w) (hl : w.length ≤ 1073741824) (hi : b.idx ≥ b.n) :
    ∃ b', growBuf b = .ok b' ∧ Holds b' w ∧ b'.idx < b'.n ∧ b.n ≤ b'.n := by
  obtain ⟨h1, h2, h3, h4⟩ := h
  have hgt : b.n < newSize b.n := by
    unfold newSize
    by_cases h5 : 4 ≤ b.n
    · have := times16f_gt b.n h5
      split <;> omega
    · split <;> omega
  refine ⟨⟨reallocBytes b.buf (newSize b.n), newSize b.n, b.idx⟩, ?_, ⟨h1, ?_, ?_, ?_⟩, ?_, ?_⟩
  · exact if_pos (times16f_lt b.n (by omega))
  · show (reallocBytes b.buf (newSize b.n)).take b.idx = w
    exact (reallocBytes_take _ _ _ (by omega) (by omega)).trans h2
  · exact Nat.le_of_eq (reallocBytes_length _ _).symm
  · show b.idx ≤ newSize b.n
    omega
  · show b.idx < newSize b.n
    omega
  · show b.n ≤ newSize b.n
    omega

theorem storeChar_ok {b : LineBuf} {w : Bytes} (c : UInt8) (h : Holds b w) (hi : b.idx < b.n) :
    writeAt b.buf b.idx c = .ok (b.buf.set b.idx c) ∧ Holds ⟨b.buf.set b.idx c, b.n, b.idx + 1⟩ (w ++ [c]) := by
  obtain ⟨h1, h2, h3, h4⟩ := h
  refine ⟨writeAt_ok _ (by omega), ⟨?_, ?_, ?_, ?_⟩⟩
  · simp [h1]
  · simp only
    rw [List.take_add_one, List.take_set_of_le (Nat.le_refl _), h2, List.getElem?_set_self (by omega)]
    rfl
  · simpa using h3
  · exact hi

theorem appendChar_ok {b : LineBuf} {w : Bytes} (c : UInt8) (h : Holds b w) (hl : w.length ≤ 1073741824) :
    ∃ b', appendChar b c = .ok b' ∧ Holds b' (w ++ [c]) ∧ b.n ≤ b'.n := by
  unfold appendChar
  by_cases hi : b.idx ≥ b.n
  · rw [if_pos hi]
    obtain ⟨b1, g1, g2, g3, g4⟩ := growBuf_ok h hl hi
    rw [g1]
    simp only [Res.ok_bind]
    obtain ⟨k1, k2⟩ := storeChar_ok c g2 g3
    rw [k1]
    exact ⟨_, rfl, k2, g4⟩
  · rw [if_neg hi]
    simp only [Res.ok_bind]
    obtain ⟨k1, k2⟩ := storeChar_ok c h (by omega)
    rw [k1]
    exact ⟨_, rfl, k2, Nat.le_refl _⟩

theorem getlineLoop_ok : ∀ (st : Bytes) (b : LineBuf) (w : Bytes), Holds b w →
    w.length + (takeLine st).length ≤ 1073741824 →
    ∃ b' w' c, getlineLoop b st = .ok (b', c, dropLine st) ∧ Holds b' w' ∧ b.n ≤ b'.n ∧
      w ++ takeLine st = w' ++ c.toList := by
  intro st
  induction st with
  | nil =>
    intro b w h hl
    exact ⟨b, w, none, rfl, h, Nat.le_refl _, rfl⟩
  | cons c st ih =>
    intro b w h hl
    unfold getlineLoop takeLine dropLine
    unfold takeLine at hl
    by_cases hc : c = 10
    · rw [if_pos hc, if_pos hc, if_pos hc]
      exact ⟨b, w, some c, rfl, h, Nat.le_refl _, rfl⟩
    · rw [if_neg hc, if_neg hc, if_neg hc]
      rw [if_neg hc] at hl
      simp only [List.length_cons] at hl
      obtain ⟨b1, g1, g2, g3⟩ := appendChar_ok c h (by omega)
      rw [g1]
      simp only [Res.ok_bind]
      obtain ⟨b', w', c', k1, k2, k3, k4⟩ := ih b1 (w ++ [c]) g2 (by simp; omega)
      refine ⟨b', w', c', k1, k2, by omega, ?_⟩
      rw [← k4]; simp

/-- C50, one call: for every stream and every buffer (`n` not larger than its
allocation, possibly 0), `nx_getline` returns the length of the next line, stores
the line with its newline and a terminating zero in a buffer that is at least as
large as stated by `*n`, and consumes exactly the line. No access leaves the buffer.
Lines are shorter than 2^30 (the size of the buffer is computed with an `int`). -/
theorem c50_getline (buf : Bytes) (n : Nat) (st : Bytes) (hn : n ≤ buf.length)
    (hl : (takeLine st).length < 1073741824) :
    ∃ buf' n', getline buf n st = .ok (((takeLine st).length : Int), buf', n', dropLine st) ∧
      buf'.take ((takeLine st).length + 1) = takeLine st ++ [0] ∧ (takeLine st).length + 1 ≤ n' ∧
      n' ≤ buf'.length ∧ n ≤ n' := by
  obtain ⟨b, w, c, h1, h2, h3, h4⟩ := getlineLoop_ok st ⟨buf, n, 0⟩ [] ⟨rfl, by simp, hn, by simp⟩ (by simp; omega)
  simp only [List.nil_append] at h4
  have hw : w.length ≤ 1073741824 := by
    have := congrArg List.length h4
    simp at this; omega
  unfold getline
  rw [h1]
  simp only [Res.ok_bind]
  have step : ∃ b2, appendNewline b c = .ok b2 ∧ Holds b2 (takeLine st) ∧ b.n ≤ b2.n := by
    cases c with
    | none =>
      simp only [Option.toList_none, List.append_nil] at h4
      exact ⟨b, rfl, by rw [h4]; exact h2, Nat.le_refl _⟩
    | some c =>
      obtain ⟨b2, g1, g2, g3⟩ := appendChar_ok c h2 hw
      exact ⟨b2, g1, by rw [h4]; exact g2, g3⟩
  obtain ⟨b2, g1, g2, g3⟩ := step
  rw [g1]
  simp only [Res.ok_bind]
  obtain ⟨b3, k1, ⟨k2, k3, k4, k5⟩, k6⟩ := appendChar_ok 0 g2 (by omega)
  rw [k1]
  simp only [Res.ok_bind]
  have hidx : b3.idx = (takeLine st).length + 1 := by rw [k2]; simp
  refine ⟨b3.buf, b3.n, ?_, ?_, by omega, k4, ?_⟩
  · rw [if_neg (by omega)]
    simp only [Res.pure_eq, hidx]
    congr 2
    omega
  · rw [← hidx]; exact k3
  · have : n ≤ b.n := h3
    omega

/-- The end of the stream is signalled by the return value 0, which no line has (and
never by -1: that branch of the code is unreachable). -/
theorem c50_end_of_stream (buf : Bytes) (n : Nat) (st : Bytes) (hn : n ≤ buf.length)
    (hl : (takeLine st).length < 1073741824) :
    ∃ r, getline buf n st = .ok r ∧ (r.1 = 0 ↔ st = []) ∧ 0 ≤ r.1 := by
  obtain ⟨buf', n', h, _⟩ := c50_getline buf n st hn hl
  refine ⟨_, h, ?_, by simp⟩
  simp only
  cases st with
  | nil => simp [takeLine]
  | cons c st =>
    unfold takeLine
    split <;> simp
    omega

/-- The lines of a text. -/
def splitLines (st : Bytes) : List Bytes :=
  match st with
  | [] => []
  | c :: st => takeLine (c :: st) :: splitLines (dropLine (c :: st))
termination_by st.length
decreasing_by
  have := congrArg List.length (takeLine_append_dropLine (c :: st))
  simp only [List.length_append, List.length_cons] at this
  have h : 0 < (takeLine (c :: st)).length := by unfold takeLine; split <;> simp
  simp only [List.length_cons]
  omega

theorem splitLines_flatten (st : Bytes) : (splitLines st).flatten = st := by
  fun_induction splitLines st with
  | case1 => rfl
  | case2 c st ih => rw [List.flatten_cons, ih, takeLine_append_dropLine]

/-- C50: repeated calls return the successive lines, each once, whatever the first
buffer; together they are the text (`splitLines_flatten`). -/
theorem c50_lines (st : Bytes) : ∀ (buf : Bytes) (n fuel : Nat), n ≤ buf.length → st.length < 1073741824 →
    st.length < fuel → readLines fuel buf n st = .ok (splitLines st) ∧ (splitLines st).flatten = st := by
  fun_induction splitLines st with
  | case1 =>
    intro buf n fuel hn hl hf
    cases fuel with
    | zero => omega
    | succ fuel =>
      obtain ⟨buf', n', h, _⟩ := c50_getline buf n [] hn (by simp [takeLine])
      unfold readLines
      rw [h]
      simp [takeLine]
  | case2 c st ih =>
    intro buf n fuel hn hl hf
    have hlen := congrArg List.length (takeLine_append_dropLine (c :: st))
    rw [List.length_append] at hlen
    have hpos : 0 < (takeLine (c :: st)).length := by unfold takeLine; split <;> simp
    cases fuel with
    | zero => omega
    | succ fuel =>
      obtain ⟨buf', n', h, h1, h2, h3, h4⟩ := c50_getline buf n (c :: st) hn (by omega)
      obtain ⟨i1, i2⟩ := ih buf' n' fuel h3 (by omega) (by omega)
      refine ⟨?_, by rw [List.flatten_cons, i2, takeLine_append_dropLine]⟩
      unfold readLines
      rw [h]
      simp only [Res.ok_bind]
      rw [if_neg (by omega), i1]
      simp only [Res.ok_bind, Res.pure_eq]
      congr 2
      have := congrArg (List.take (takeLine (c :: st)).length) h1
      rw [List.take_take] at this
      simpa using this

example : readLines 10 [] 0 (bytesOf "ab\n\nlast line") = .ok [bytesOf "ab\n", bytesOf "\n", bytesOf "last line"] := by
  decide +kernel

end Nx
