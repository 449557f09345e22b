import Verif.Model.MatIO
import Verif.Spec.MatIO
import Verif.Props.Getline
import Verif.Props.Transpose
import Verif.Props.SiftStore
import Verif.Props.Vector

/-!
# C91: matrices as text
-/

namespace Nx

section
variable {D : Type}

theorem numbers_exists {scan : Bytes → Option (D × Nat)} (hs : ScanOk scan) (s : Bytes) : ∃ l, Numbers scan s l := by
  induction hn : s.length using Nat.strongRecOn generalizing s with
  | ind n ih =>
    cases h : scan s with
    | none => exact ⟨[], .stop h⟩
    | some p =>
      obtain ⟨d, k⟩ := p
      have := hs s d k h
      obtain ⟨l, hl⟩ := ih (s.drop k).length (by rw [List.length_drop]; omega) (s.drop k) rfl
      exact ⟨d :: l, .more h hl⟩

theorem numbers_unique {scan : Bytes → Option (D × Nat)} {s : Bytes} {l l' : List D} (h : Numbers scan s l) (h' : Numbers scan s l') : l = l' := by
  induction h generalizing l' with
  | stop e =>
    cases h' with
    | stop _ => rfl
    | more e' _ => rw [e] at e'; cases e'
  | more e _ ih =>
    cases h' with
    | stop e' => rw [e] at e'; cases e'
    | more e' h' =>
      rw [e] at e'
      cases e'
      rw [ih h']

/-- The array holds the numbers. -/
structure ArrHolds (a : NumArr D) (xs : List D) : Prop where
  len : a.A.length = a.cap
  pos : 0 < a.cap
  sz : a.sz = xs.length
  le : a.sz ≤ a.cap
  take : a.A.take a.sz = xs

theorem numPush_spec (junk : Nat → D) {a : NumArr D} {xs : List D} (h : ArrHolds a xs) (d : D) :
    ∃ a', numPush junk a d = .ok a' ∧ ArrHolds a' (xs ++ [d]) := by
  obtain ⟨h1, h2, h3, h4, h5⟩ := h
  unfold numPush
  simp only
  split
  · rename_i hc
    simp only
    rw [writeAt_ok _ (by rw [reallocMem_len]; omega), Res.ok_bind, Res.pure_eq]
    refine ⟨_, rfl, by simp only [List.length_set, reallocMem_len], by simp only; omega, by simp only [List.length_append, List.length_singleton]; omega,
      by simp only; omega, ?_⟩
    simp only
    rw [take_set_self (by rw [reallocMem_len]; omega), reallocMem_take _ _ _ _ (by omega) (by omega), h5]
  · rename_i hc
    rw [writeAt_ok _ (by omega), Res.ok_bind, Res.pure_eq]
    refine ⟨_, rfl, by simp only [List.length_set]; omega, by simp only; omega, by simp only [List.length_append, List.length_singleton]; omega,
      by simp only; omega, ?_⟩
    simp only
    rw [take_set_self (by omega), h5]

theorem lineLoop_spec (junk : Nat → D) {scan : Bytes → Option (D × Nat)} (hs : ScanOk scan) {s : Bytes} {l : List D} (hl : Numbers scan s l)
    {a : NumArr D} {xs : List D} (ha : ArrHolds a xs) (ml : Nat) :
    ∃ a', lineLoop junk scan s a ml = .ok (a', ml + l.length) ∧ ArrHolds a' (xs ++ l) := by
  induction hl generalizing a xs ml with
  | stop e =>
    refine ⟨a, ?_, by rw [List.append_nil]; exact ha⟩
    rw [lineLoop]
    simp only [e]
    rfl
  | more e _ ih =>
    rename_i s d k l _
    have hk := hs _ _ _ e
    obtain ⟨a1, e1, h1⟩ := numPush_spec junk ha d
    obtain ⟨a2, e2, h2⟩ := ih h1 (ml + 1)
    refine ⟨a2, ?_, by rw [List.append_assoc] at h2; exact h2⟩
    rw [lineLoop]
    simp only [e]
    rw [if_neg (by omega), dif_pos ⟨hk.2, hk.1⟩, e1, Res.ok_bind, e2, List.length_cons]
    congr 2
    omega

theorem bufText_of {buf line : Bytes} (h : buf.take (line.length + 1) = line ++ [0]) : bufText buf = .ok (line.takeWhile (· ≠ 0)) := by
  have hb : buf = line ++ 0 :: buf.drop (line.length + 1) := by
    conv => lhs; rw [← List.take_append_drop (line.length + 1) buf, h]
    simp
  unfold bufText
  rw [if_pos (by rw [hb]; simp)]
  congr 1
  rw [hb, List.takeWhile_append]
  split
  · rename_i h
    rw [List.takeWhile_cons_of_neg (by simp), List.append_nil]
    exact ((List.takeWhile_prefix _).eq_of_length h).symm
  · rfl

/-- The rows of a text: the numbers of its lines. -/
def TextRows (scan : Bytes → Option (D × Nat)) (st : Bytes) (rows : List (List D)) : Prop :=
  List.Forall₂ (fun line row => Numbers scan (line.takeWhile (· ≠ 0)) row) (splitLines st) rows

theorem textRows_exists {scan : Bytes → Option (D × Nat)} (hs : ScanOk scan) (st : Bytes) : ∃ rows, TextRows scan st rows := by
  unfold TextRows
  induction splitLines st with
  | nil => exact ⟨[], .nil⟩
  | cons a l ih =>
    obtain ⟨r, hr⟩ := numbers_exists hs (a.takeWhile (· ≠ 0))
    obtain ⟨rows, h⟩ := ih
    exact ⟨r :: rows, .cons hr h⟩

/-- The loop when there are rows already. -/
theorem xreadLoop_rest (junk : Nat → D) {scan : Bytes → Option (D × Nat)} (hs : ScanOk scan) (st : Bytes) : ∀ (rows : List (List D)), TextRows scan st rows →
    ∀ (fuel : Nat) (buf : Bytes) (llen : Nat) (a : NumArr D) (xs : List D) (m n : Nat), llen ≤ buf.length → st.length < 1073741824 → st.length < fuel →
      ArrHolds a xs → 0 < n →
      ((∀ r ∈ rows, r.length = m) → ∃ a', xreadLoop junk scan fuel buf llen st a m n = .ok (a', m, n + rows.length) ∧ ArrHolds a' (xs ++ rows.flatten)) ∧
      ((∃ r ∈ rows, r.length ≠ m) → xreadLoop junk scan fuel buf llen st a m n = .fatal) := by
  fun_induction splitLines st with
  | case1 =>
    intro rows hr fuel buf llen a xs m n hb hst hf ha hn
    unfold TextRows at hr
    rw [splitLines] at hr
    cases hr
    obtain ⟨buf', n', e, _⟩ := c50_getline buf llen [] hb (by simp [takeLine])
    cases fuel with
    | zero => simp at hf
    | succ fuel =>
      refine ⟨fun _ => ⟨a, ?_, by simpa using ha⟩, fun ⟨r, h, _⟩ => by simp at h⟩
      unfold xreadLoop
      rw [e, Res.ok_bind]
      simp only [takeLine, List.length_nil]
      rfl
  | case2 c st ih =>
    intro rows hr fuel buf llen a xs m n hb hst hf ha hn
    unfold TextRows at hr
    rw [splitLines] at hr
    cases hr with
    | @cons _ r _ rows hr1 hr2 =>
    have hlen := congrArg List.length (takeLine_append_dropLine (c :: st))
    rw [List.length_append] at hlen
    have hpos : 0 < (takeLine (c :: st)).length := by unfold takeLine; split <;> simp
    obtain ⟨buf', n', e, hbuf, h1, h2, _⟩ := c50_getline buf llen (c :: st) hb (by omega)
    obtain ⟨a1, e1, ha1⟩ := lineLoop_spec junk hs hr1 ha 0
    cases fuel with
    | zero => simp at hf
    | succ fuel =>
      have hstep : xreadLoop junk scan (fuel + 1) buf llen (c :: st) a m n =
          if m ≠ r.length then .fatal else xreadLoop junk scan fuel buf' n' (dropLine (c :: st)) a1 m (n + 1) := by
        rw [xreadLoop, e, Res.ok_bind]
        simp only
        rw [if_pos (by omega), bufText_of hbuf, Res.ok_bind, e1, Res.ok_bind]
        simp only
        rw [if_neg (by omega), Nat.zero_add]
      obtain ⟨i1, i2⟩ := ih rows hr2 fuel buf' n' a1 _ m (n + 1) h2 (by omega) (by omega) ha1 (by omega)
      rw [hstep]
      constructor
      · intro hall
        rw [if_neg (by rw [hall r List.mem_cons_self]; simp)]
        obtain ⟨a', e', h'⟩ := i1 (fun r hr => hall r (List.mem_cons_of_mem _ hr))
        refine ⟨a', by rw [e', List.length_cons]; congr 3; omega, ?_⟩
        rw [List.flatten_cons, ← List.append_assoc]
        exact h'
      · rintro ⟨r', hr', hne⟩
        by_cases h : m = r.length
        · rw [if_neg (by simpa using h)]
          rcases List.mem_cons.mp hr' with rfl | hr'
          · exact absurd h.symm hne
          · exact i2 ⟨r', hr', hne⟩
        · rw [if_pos h]

/-- The whole loop. -/
theorem xreadLoop_spec (junk : Nat → D) (junkB : Nat → Byte) {scan : Bytes → Option (D × Nat)} (hs : ScanOk scan) (st : Bytes) (hst : st.length < 1073741824)
    (rows : List (List D)) (hr : TextRows scan st rows) :
    ((∀ r ∈ rows, r.length = (rows.headD []).length) → ∃ a', xreadLoop junk scan (st.length + 1) ((List.range 256).map junkB) 256 st
        ⟨(List.range 9).map junk, 0, 9⟩ 0 0 = .ok (a', (rows.headD []).length, rows.length) ∧ ArrHolds a' rows.flatten) ∧
    ((∃ r ∈ rows, r.length ≠ (rows.headD []).length) → xreadLoop junk scan (st.length + 1) ((List.range 256).map junkB) 256 st
        ⟨(List.range 9).map junk, 0, 9⟩ 0 0 = .fatal) := by
  have hb : 256 ≤ ((List.range 256).map junkB).length := by rw [List.length_map, List.length_range]
  have ha : ArrHolds (⟨(List.range 9).map junk, 0, 9⟩ : NumArr D) [] := ⟨by simp, by simp, rfl, by simp, rfl⟩
  unfold TextRows at hr
  cases st with
  | nil =>
    rw [splitLines] at hr
    cases hr
    obtain ⟨buf', n', e, _⟩ := c50_getline _ 256 [] hb (by simp [takeLine])
    refine ⟨fun _ => ⟨_, ?_, ha⟩, fun ⟨r, h, _⟩ => by simp at h⟩
    unfold xreadLoop
    rw [e, Res.ok_bind]
    simp only [takeLine, List.length_nil]
    rfl
  | cons c st =>
    rw [splitLines] at hr
    cases hr with
    | @cons _ r _ rows hr1 hr2 =>
    have hlen := congrArg List.length (takeLine_append_dropLine (c :: st))
    rw [List.length_append] at hlen
    have hpos : 0 < (takeLine (c :: st)).length := by unfold takeLine; split <;> simp
    obtain ⟨buf', n', e, hbuf, h1, h2, _⟩ := c50_getline _ 256 (c :: st) hb (by omega)
    obtain ⟨a1, e1, ha1⟩ := lineLoop_spec junk hs hr1 ha 0
    have hstep : xreadLoop junk scan ((c :: st).length + 1) ((List.range 256).map junkB) 256 (c :: st) ⟨(List.range 9).map junk, 0, 9⟩ 0 0 =
        xreadLoop junk scan (c :: st).length buf' n' (dropLine (c :: st)) a1 r.length 1 := by
      rw [xreadLoop, e, Res.ok_bind]
      simp only
      rw [if_pos (by omega), bufText_of hbuf, Res.ok_bind, e1, Res.ok_bind]
      simp only
      rw [if_pos trivial, Nat.zero_add]
    obtain ⟨i1, i2⟩ := xreadLoop_rest junk hs _ rows hr2 (c :: st).length buf' n' a1 _ r.length 1 h2 (by omega) (by omega) ha1 (by omega)
    rw [hstep, List.headD_cons]
    constructor
    · intro hall
      obtain ⟨a', e', h'⟩ := i1 (fun r hr => hall r (List.mem_cons_of_mem _ hr))
      refine ⟨a', by rw [e', List.length_cons]; congr 3; omega, ?_⟩
      rw [List.flatten_cons]
      exact h'
    · rintro ⟨r', hr', hne⟩
      rcases List.mem_cons.mp hr' with rfl | hr'
      · exact absurd rfl hne
      · exact i2 ⟨r', hr', hne⟩

end

/-- C91: what is read from any text: nothing when no line starts with a number; the program ends when lines have different numbers of elements; otherwise
the matrix whose rows are the lines, stored by columns. -/
theorem c91_read {D : Type} (junk : Nat → D) (junkB : Nat → Byte) (scan : Bytes → Option (D × Nat)) (hs : ScanOk scan) (st : Bytes)
    (hst : st.length < 1073741824) (rows : List (List D)) (hr : TextRows scan st rows) :
    ((∀ r ∈ rows, r = []) → dmatXread junk junkB scan st = .ok none) ∧
    ((∃ r ∈ rows, r.length ≠ (rows.headD []).length) → dmatXread junk junkB scan st = .fatal) ∧
    ∀ n, 0 < n → 0 < rows.length → (∀ r ∈ rows, r.length = n) → n * rows.length ≤ 2147483647 →
      ∃ A, dmatXread junk junkB scan st = .ok (some (A, rows.length, n)) ∧
        ∀ r c row, rows[r]? = some row → c < n → A[c * rows.length + r]? = row[c]? := by
  obtain ⟨h1, h2⟩ := xreadLoop_spec junk junkB hs st hst rows hr
  have hhead : ∀ n, 0 < rows.length → (∀ r ∈ rows, r.length = n) → (rows.headD []).length = n := by
    intro n hpos h
    cases rows with
    | nil => simp at hpos
    | cons r rows => exact h r List.mem_cons_self
  refine ⟨?_, ?_, ?_⟩
  · intro hall
    have hhd : rows.headD [] = [] := by
      cases rows with
      | nil => rfl
      | cons r rows => exact hall r List.mem_cons_self
    rw [hhd] at h1
    obtain ⟨a', e, _⟩ := h1 (fun r hr => by rw [hall r hr])
    unfold dmatXread
    rw [e, Res.ok_bind]
    simp only [List.length_nil]
    rw [if_pos (Or.inl trivial), Res.pure_eq]
  · intro hex
    unfold dmatXread
    rw [h2 hex]
    rfl
  · intro n hn hpos hall hq
    rw [hhead n hpos hall] at h1
    obtain ⟨a', e, ha⟩ := h1 hall
    have hfl : rows.flatten.length = n * rows.length := by rw [flatten_len hall, Nat.mul_comm]
    have htake : a'.A.take (n * rows.length) = rows.flatten := by rw [← ha.take, ha.sz, hfl]
    obtain ⟨T, eT, hT1, hT2⟩ := c37_transpose n rows.length hn hpos hq rows.flatten hfl
    unfold dmatXread
    rw [e, Res.ok_bind]
    simp only
    rw [if_neg (by omega), htake, eT, Res.ok_bind, Res.pure_eq]
    refine ⟨_, rfl, ?_⟩
    intro r c row hrow hc
    have hrl := lt_of_live hrow
    have hidx : c * rows.length + r < T.length := by
      rw [hT1]
      have : c * rows.length + rows.length ≤ n * rows.length := by rw [← Nat.succ_mul]; exact Nat.mul_le_mul_right _ hc
      rw [Nat.mul_comm rows.length n]
      omega
    rw [List.getElem?_append_left hidx, hT2 c r hc hrl]
    have := flatten_chunk hall hrow
    rw [← this, List.getElem?_take, if_pos hc, List.getElem?_drop]

/-- The rows of a matrix that is stored by columns. -/
def matRows {D : Type} (m n : Nat) (A : List D) : List (List D) :=
  (List.range m).map (fun r => (List.range n).filterMap (fun c => A[c * m + r]?))

section
variable {D : Type}

theorem matRow_length {m n : Nat} {A : List D} (hA : A.length = m * n) {r : Nat} (hr : r < m) {k : Nat} (hk : k ≤ n) :
    ((List.range k).filterMap (fun c => A[c * m + r]?)).length = k ∧
    ∀ c, c < k → ((List.range k).filterMap (fun c => A[c * m + r]?))[c]? = A[c * m + r]? := by
  induction k with
  | zero => exact ⟨rfl, fun c h => absurd h (by omega)⟩
  | succ k ih =>
    obtain ⟨h1, h2⟩ := ih (by omega)
    have hlt : k * m + r < A.length := by
      rw [hA, Nat.mul_comm m n]
      have : k * m + m ≤ n * m := by rw [← Nat.succ_mul]; exact Nat.mul_le_mul_right _ hk
      omega
    have e : (List.range (k + 1)).filterMap (fun c => A[c * m + r]?) = (List.range k).filterMap (fun c => A[c * m + r]?) ++ [A[k * m + r]] := by
      rw [List.range_succ, List.filterMap_append]
      congr 1
      rw [List.filterMap_cons, List.getElem?_eq_getElem hlt]
      rfl
    rw [e]
    refine ⟨by rw [List.length_append, h1, List.length_singleton], ?_⟩
    intro c hc
    by_cases h : c < k
    · rw [List.getElem?_append_left (by omega), h2 c h]
    · rw [show c = k by omega, List.getElem?_append_right (by omega), h1, Nat.sub_self, List.getElem?_eq_getElem hlt]
      rfl

theorem rowText_cons (fmt : D → Bytes) (d : D) (l : List D) : rowText fmt (d :: l) = fmt d ++ (if l = [] then 10 else 32) :: rowText fmt l := by
  cases l with
  | nil => rfl
  | cons e l => rfl

/-- C91: the text of a matrix: its rows, the elements separated by spaces. -/
theorem c91_write (fmt : D → Bytes) (m n : Nat) (A : List D) (hA : A.length = m * n) :
    dmatXwrite fmt m n A = .ok ((matRows m n A).map (rowText fmt)).flatten := by
  unfold dmatXwrite
  obtain ⟨out, e, h⟩ := forLoop_spec (n := m) (i0 := 0) (s := ([] : Bytes))
    (body := fun r out => forLoop n (fun c out => do
      let e ← readAt A (c * m + r)
      let out := out ++ fmt e
      if c + 1 = n then pure (out ++ [10]) else pure (out ++ [32])) 0 out)
    (fun r out => out = ((matRows m n A).take r |>.map (rowText fmt)).flatten) (Nat.zero_le _) (by simp) (by
      intro r out0 _ hr hout
      have hrow : (matRows m n A)[r]? = some ((List.range n).filterMap (fun c => A[c * m + r]?)) := by
        unfold matRows
        rw [List.getElem?_map, List.getElem?_range hr]
        rfl
      obtain ⟨hlen, hget⟩ := matRow_length hA hr (Nat.le_refl n)
      generalize (List.range n).filterMap (fun c => A[c * m + r]?) = row at *
      obtain ⟨out, e, h⟩ := forLoop_spec (n := n) (i0 := 0) (s := out0)
        (body := fun c out => do
          let e ← readAt A (c * m + r)
          let out := out ++ fmt e
          if c + 1 = n then pure (out ++ [10]) else pure (out ++ [32]))
        (fun c out => out ++ rowText fmt (row.drop c) = out0 ++ rowText fmt row) (Nat.zero_le _) (by simp) (by
          intro c out _ hc hinv
          have hcl : c < row.length := by omega
          have hA' := hget c hc
          rw [List.getElem?_eq_getElem hcl] at hA'
          rw [readAt_of hA'.symm, Res.ok_bind]
          rw [List.drop_eq_getElem_cons hcl, rowText_cons] at hinv
          have hnil : row.drop (c + 1) = [] ↔ c + 1 = n := by rw [List.drop_eq_nil_iff]; omega
          simp only
          split
          · rename_i h
            rw [if_pos (hnil.mpr h)] at hinv
            refine ⟨_, rfl, ?_⟩
            rw [← hinv]
            simp only [List.append_assoc, List.cons_append, List.nil_append]
          · rename_i h
            rw [if_neg (fun h' => h (hnil.mp h'))] at hinv
            refine ⟨_, rfl, ?_⟩
            rw [← hinv]
            simp only [List.append_assoc, List.cons_append, List.nil_append])
      refine ⟨out, e, ?_⟩
      rw [List.drop_of_length_le (by omega)] at h
      rw [List.take_add_one, hrow, List.map_append, List.flatten_append, ← hout]
      simpa [rowText] using h)
  rw [e, h, List.take_of_length_le (by unfold matRows; rw [List.length_map, List.length_range])]

theorem numbers_row {fmt : D → Bytes} {scan : Bytes → Option (D × Nat)} (hend : scan [10] = none) : ∀ (row : List D), row ≠ [] → (∀ d ∈ row, TextOk fmt scan d) →
    Numbers scan (rowText fmt row) row ∧ Numbers scan (32 :: rowText fmt row) row := by
  intro row
  induction row with
  | nil => intro h; exact absurd rfl h
  | cons d l ih =>
    intro _ hok
    have hd := hok d List.mem_cons_self
    rw [rowText_cons]
    have hrest : Numbers scan ((if l = [] then 10 else 32) :: rowText fmt l) l := by
      cases l with
      | nil => exact .stop hend
      | cons e l => exact (ih (by simp) (fun x hx => hok x (List.mem_cons_of_mem _ hx))).2
    have hc : (if l = [] then 10 else 32 : UInt8) = 10 ∨ (if l = [] then 10 else 32 : UInt8) = 32 := by split <;> simp
    constructor
    · refine .more (hd.back _ _ hc) ?_
      rw [List.drop_left]
      exact hrest
    · refine .more (hd.space _ _ hc) ?_
      rw [List.drop_succ_cons, List.drop_left]
      exact hrest

theorem rowText_line {fmt : D → Bytes} : ∀ (row : List D), row ≠ [] → (∀ d ∈ row, ∀ b ∈ fmt d, b ≠ 0 ∧ b ≠ 10) →
    ∃ t : Bytes, rowText fmt row = t ++ [10] ∧ ∀ b ∈ t, b ≠ 0 ∧ b ≠ 10 := by
  intro row
  induction row with
  | nil => intro h; exact absurd rfl h
  | cons d l ih =>
    intro _ hok
    rw [rowText_cons]
    cases l with
    | nil => exact ⟨fmt d, rfl, hok d List.mem_cons_self⟩
    | cons e l =>
      obtain ⟨t, h1, h2⟩ := ih (by simp) (fun x hx => hok x (List.mem_cons_of_mem _ hx))
      refine ⟨fmt d ++ 32 :: t, by rw [h1]; simp, ?_⟩
      intro b hb
      rcases List.mem_append.mp hb with h | h
      · exact hok d List.mem_cons_self b h
      · rcases List.mem_cons.mp h with rfl | h
        · decide
        · exact h2 b h

theorem takeLine_of (t rest : Bytes) (h : ∀ b ∈ t, b ≠ 10) : takeLine (t ++ 10 :: rest) = t ++ [10] ∧ dropLine (t ++ 10 :: rest) = rest := by
  induction t with
  | nil => exact ⟨rfl, rfl⟩
  | cons a t ih =>
    have ha := h a List.mem_cons_self
    obtain ⟨h1, h2⟩ := ih (fun b hb => h b (List.mem_cons_of_mem _ hb))
    rw [List.cons_append, takeLine, dropLine, if_neg ha, if_neg ha, h1, h2]
    exact ⟨rfl, rfl⟩

theorem takeWhile_true {α : Type} {p : α → Bool} : ∀ {l : List α}, (∀ x ∈ l, p x = true) → l.takeWhile p = l
  | [], _ => rfl
  | a :: l, h => by
    rw [List.takeWhile_cons_of_pos (h a List.mem_cons_self), takeWhile_true (fun x hx => h x (List.mem_cons_of_mem _ hx))]

theorem textRows_write {fmt : D → Bytes} {scan : Bytes → Option (D × Nat)} (hend : scan [10] = none) (tail : Bytes) (trows : List (List D))
    (ht : TextRows scan tail trows) : ∀ (rows : List (List D)),
    (∀ row ∈ rows, row ≠ [] ∧ ∀ d ∈ row, TextOk fmt scan d) → TextRows scan ((rows.map (rowText fmt)).flatten ++ tail) (rows ++ trows) := by
  intro rows
  induction rows with
  | nil => intro _; exact ht
  | cons row rows ih =>
    intro h
    have hrest := ih (fun r hr => h r (List.mem_cons_of_mem _ hr))
    obtain ⟨hne, hok⟩ := h row List.mem_cons_self
    obtain ⟨t, e, hp⟩ := rowText_line (fmt := fmt) row hne (fun d hd => (hok d hd).plain)
    rw [List.map_cons, List.flatten_cons, List.append_assoc]
    unfold TextRows at hrest ⊢
    have hl := takeLine_of t ((rows.map (rowText fmt)).flatten ++ tail) (fun b hb => (hp b hb).2)
    have hsplit : splitLines (rowText fmt row ++ ((rows.map (rowText fmt)).flatten ++ tail)) =
        rowText fmt row :: splitLines ((rows.map (rowText fmt)).flatten ++ tail) := by
      rw [e, List.append_assoc, List.singleton_append]
      cases hst : t ++ 10 :: ((rows.map (rowText fmt)).flatten ++ tail) with
      | nil => simp at hst
      | cons c st => rw [splitLines, ← hst, hl.1, hl.2]
    rw [hsplit]
    refine .cons ?_ hrest
    have : (rowText fmt row).takeWhile (· ≠ 0) = rowText fmt row := by
      refine takeWhile_true (fun b hb => ?_)
      rw [e] at hb
      rcases List.mem_append.mp hb with h | h
      · simpa using (hp b h).1
      · rw [List.mem_singleton.mp h]; decide
    rw [this]
    exact (numbers_row hend row hne hok).1

theorem matRows_ok {m n : Nat} (hn : 0 < n) {A : List D} (hA : A.length = m * n) (P : D → Prop) (hP : ∀ d ∈ A, P d) :
    ∀ row ∈ matRows m n A, row.length = n ∧ row ≠ [] ∧ ∀ d ∈ row, P d := by
  intro row hrow
  obtain ⟨r, hr, rfl⟩ := List.mem_map.mp hrow
  have hl := (matRow_length hA (List.mem_range.mp hr) (Nat.le_refl n)).1
  refine ⟨hl, fun h => by rw [h] at hl; simp at hl; omega, ?_⟩
  intro d hd
  obtain ⟨c, _, hc⟩ := List.mem_filterMap.mp hd
  exact hP d (List.mem_of_getElem? hc)

/-- C91: a matrix that is written and read again is the same. -/
theorem c91_roundtrip (fmt : D → Bytes) (scan : Bytes → Option (D × Nat)) (hs : ScanOk scan) (hend : scan [10] = none) (junk : Nat → D) (junkB : Nat → Byte)
    (m n : Nat) (hm : 0 < m) (hn : 0 < n) (hq : m * n ≤ 2147483647) (A : List D) (hA : A.length = m * n) (hok : ∀ d ∈ A, TextOk fmt scan d) :
    ∃ text, dmatXwrite fmt m n A = .ok text ∧ (text.length < 1073741824 →
      ∃ A', dmatXread junk junkB scan text = .ok (some (A', m, n)) ∧ A'.take (m * n) = A) := by
  refine ⟨_, c91_write fmt m n A hA, ?_⟩
  intro hlen
  have hrows := matRows_ok hn hA _ hok
  have hr : TextRows scan (((matRows m n A).map (rowText fmt)).flatten) (matRows m n A) := by
    have := textRows_write (tail := []) (trows := []) hend (by unfold TextRows; rw [splitLines]; exact .nil) (matRows m n A) (fun row h => (hrows row h).2)
    simpa using this
  have hml : (matRows m n A).length = m := by unfold matRows; rw [List.length_map, List.length_range]
  obtain ⟨_, _, h⟩ := c91_read junk junkB scan hs _ hlen _ hr
  obtain ⟨A', e, hA'⟩ := h n hn (by omega) (fun r hr => (hrows r hr).1) (by rw [hml, Nat.mul_comm]; exact hq)
  rw [hml] at e hA'
  refine ⟨A', e, ?_⟩
  refine List.ext_getElem? (fun i => ?_)
  by_cases hi : i < m * n
  · rw [List.getElem?_take, if_pos hi]
    have hdiv : i / m < n := (Nat.div_lt_iff_lt_mul hm).mpr (by rw [Nat.mul_comm]; exact hi)
    have hmod : i % m < m := Nat.mod_lt _ hm
    have hrow : (matRows m n A)[i % m]? = some ((List.range n).filterMap (fun c => A[c * m + i % m]?)) := by
      unfold matRows
      rw [List.getElem?_map, List.getElem?_range hmod]
      rfl
    have h1 := hA' (i % m) (i / m) _ hrow hdiv
    rw [(matRow_length hA hmod (Nat.le_refl n)).2 _ hdiv] at h1
    rwa [show i / m * m + i % m = i by rw [Nat.mul_comm]; exact Nat.div_add_mod i m] at h1
  · rw [List.getElem?_take, if_neg hi, List.getElem?_eq_none (by omega)]

/-- C91, finding: an empty line at the end of the text of a matrix ends the program. -/
theorem c91_blank (fmt : D → Bytes) (scan : Bytes → Option (D × Nat)) (hs : ScanOk scan) (hend : scan [10] = none) (junk : Nat → D) (junkB : Nat → Byte)
    (m n : Nat) (hm : 0 < m) (hn : 0 < n) (A : List D) (hA : A.length = m * n) (hok : ∀ d ∈ A, TextOk fmt scan d) :
    ∃ text, dmatXwrite fmt m n A = .ok text ∧ (text.length + 1 < 1073741824 → dmatXread junk junkB scan (text ++ [10]) = .fatal) := by
  refine ⟨_, c91_write fmt m n A hA, ?_⟩
  intro hlen
  have hrows := matRows_ok hn hA _ hok
  have hr := textRows_write (tail := [10]) (trows := [[]]) hend (by
    unfold TextRows
    rw [splitLines, show takeLine [10] = [10] from rfl, show dropLine [10] = [] from rfl, splitLines]
    exact .cons (.stop hend) .nil) (matRows m n A) (fun row h => (hrows row h).2)
  have hml : (matRows m n A).length = m := by unfold matRows; rw [List.length_map, List.length_range]
  obtain ⟨_, h, _⟩ := c91_read junk junkB scan hs _ (by rw [List.length_append, List.length_singleton]; exact hlen) _ hr
  refine h ⟨[], List.mem_append_right _ List.mem_cons_self, ?_⟩
  cases hmr : matRows m n A with
  | nil => rw [hmr] at hml; simp at hml; omega
  | cons r rs =>
    have := (hrows r (by rw [hmr]; exact List.mem_cons_self)).1
    rw [List.cons_append, List.headD_cons, this]
    simp
    omega

end

/-! ### Examples: numbers of one digit -/

def digitFmt (d : Fin 10) : Bytes := [UInt8.ofNat (48 + d)]

def digitOf (c : UInt8) (k : Nat) : Option (Fin 10 × Nat) :=
  if h : 48 ≤ c.toNat ∧ c.toNat < 58 then some (⟨c.toNat - 48, by omega⟩, k) else none

def digitScan : Bytes → Option (Fin 10 × Nat)
  | [] => none
  | [c] => digitOf c 1
  | c :: e :: _ => if c = 32 then digitOf e 2 else digitOf c 1

theorem digitScan_ok : ScanOk digitScan := by
  have h1 : ∀ c k d n, digitOf c k = some (d, n) → n = k := by
    intro c k d n h
    unfold digitOf at h
    split at h
    · cases h; rfl
    · cases h
  intro s d k h
  match s with
  | [] => cases h
  | [c] =>
    have := h1 _ _ _ _ h
    simp only [List.length_cons, List.length_nil]
    omega
  | c :: e :: l =>
    simp only [digitScan] at h
    split at h
    · have := h1 _ _ _ _ h
      simp only [List.length_cons]
      omega
    · have := h1 _ _ _ _ h
      simp only [List.length_cons]
      omega

theorem digitText_ok (d : Fin 10) : TextOk digitFmt digitScan d := by
  refine ⟨?_, ?_, ?_⟩
  · revert d; decide
  · intro c rest _
    have : ∀ d : Fin 10, digitOf (UInt8.ofNat (48 + d)) 1 = some (d, 1) ∧ UInt8.ofNat (48 + d) ≠ 32 := by decide
    simp only [digitFmt, List.cons_append, List.nil_append, digitScan]
    rw [if_neg (this d).2, (this d).1]
    rfl
  · intro c rest _
    have : ∀ d : Fin 10, digitOf (UInt8.ofNat (48 + d)) 2 = some (d, 2) := by decide
    simp only [digitFmt, List.cons_append, List.nil_append, digitScan]
    rw [if_pos trivial, this d]
    rfl

/-- A matrix with two rows: `1 3 5` and `2 4 6`. -/
example : ∃ text, dmatXwrite digitFmt 2 3 [1, 2, 3, 4, 5, 6] = .ok text ∧ (text.length < 1073741824 →
    ∃ A', dmatXread (fun _ => 0) (fun _ => 0) digitScan text = .ok (some (A', 2, 3)) ∧ A'.take (2 * 3) = [1, 2, 3, 4, 5, 6]) :=
  c91_roundtrip digitFmt digitScan digitScan_ok (by decide) (fun _ => 0) (fun _ => 0) 2 3 (by decide) (by decide) (by decide) [1, 2, 3, 4, 5, 6] rfl
    (fun d _ => digitText_ok d)

example : dmatXwrite digitFmt 2 3 [1, 2, 3, 4, 5, 6] = .ok [49, 32, 51, 32, 53, 10, 50, 32, 52, 32, 54, 10] := by
  rw [c91_write _ _ _ _ rfl]
  decide +kernel

/-- A line with more elements. -/
example : dmatXread (fun _ => 0) (fun _ => 0) digitScan [49, 10, 50, 32, 51, 10] = .fatal := by
  have h : splitLines [49, 10, 50, 32, 51, 10] = [[49, 10], [50, 32, 51, 10]] := by decide +kernel
  refine (c91_read (fun _ => 0) (fun _ => 0) digitScan digitScan_ok _ (by decide) [[1], [2, 3]] ?_).2.1 ⟨[2, 3], by simp, by simp⟩
  unfold TextRows
  rw [h]
  exact .cons (.more (k := 1) (by decide) (.stop (by decide))) (.cons (.more (k := 1) (by decide) (.more (k := 2) (by decide) (.stop (by decide)))) .nil)

end Nx
