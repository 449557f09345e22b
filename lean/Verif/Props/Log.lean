import Verif.Spec.Log
import Verif.Props.Gnuplot

/-!
# C119: messages
-/

namespace Nx

theorem cutFirst_app {b : Byte} : ∀ {l : Bytes}, b ∉ l → ∀ r, cutFirst b (l ++ b :: r) = some (l, r)
  | [], _, r => by simp [cutFirst]
  | x :: l, h, r => by
    simp only [List.mem_cons, not_or] at h
    rw [List.cons_append, cutFirst, if_neg (fun e => h.1 e.symm), cutFirst_app h.2 r]
    rfl

theorem cutLast_none {b : Byte} : ∀ {l : Bytes}, b ∉ l → cutLast b l = none
  | [], _ => rfl
  | x :: l, h => by
    simp only [List.mem_cons, not_or] at h
    rw [cutLast, cutLast_none h.2]
    exact if_neg (fun e => h.1 e.symm)

theorem cutLast_app {b : Byte} {r : Bytes} (h : b ∉ r) : ∀ l : Bytes, cutLast b (l ++ b :: r) = some (l, r)
  | [] => by
    rw [List.nil_append, cutLast, cutLast_none h]
    exact if_pos rfl
  | x :: l => by
    rw [List.cons_append, cutLast, cutLast_app h l]

theorem strip_plain : ∀ {l : Bytes}, (27 : Byte) ∉ l → ∀ r, stripAnsi false (l ++ r) = l ++ stripAnsi false r
  | [], _, r => rfl
  | x :: l, h, r => by
    simp only [List.mem_cons, not_or] at h
    rw [List.cons_append, stripAnsi, if_neg (fun e => h.1 e.symm), strip_plain h.2 r]
    rfl

theorem strip_colour (level : Int) (r : Bytes) : stripAnsi false (logColour level ++ r) = stripAnsi false r := by
  unfold logColour
  repeat' split
  all_goals rfl

theorem strip_reset (r : Bytes) : stripAnsi false (logReset ++ r) = stripAnsi false r := rfl

theorem intText_log (v : Int) : (10 : Byte) ∉ intText v ∧ (27 : Byte) ∉ intText v ∧ (93 : Byte) ∉ intText v ∧ (58 : Byte) ∉ intText v := by
  have key : ∀ n : Nat, ∀ b ∈ natText n, b ≠ 10 ∧ b ≠ 27 ∧ b ≠ 93 ∧ b ≠ 58 := by
    intro n b hb
    obtain ⟨d, hd, rfl⟩ := (natText_digits n).2 b hb
    have : ∀ d : Fin 10, UInt8.ofNat (48 + d.1) ≠ 10 ∧ UInt8.ofNat (48 + d.1) ≠ 27 ∧ UInt8.ofNat (48 + d.1) ≠ 93 ∧
      UInt8.ofNat (48 + d.1) ≠ 58 := by decide
    exact this ⟨d, hd⟩
  have key2 : ∀ b ∈ intText v, b ≠ 10 ∧ b ≠ 27 ∧ b ≠ 93 ∧ b ≠ 58 := by
    intro b hb
    unfold intText at hb
    split at hb
    · simp only [List.mem_cons] at hb
      rcases hb with rfl | hb
      · decide
      · exact key _ b hb
    · exact key _ b hb
  exact ⟨fun h => (key2 _ h).1 rfl, fun h => (key2 _ h).2.1 rfl, fun h => (key2 _ h).2.2.1 rfl, fun h => (key2 _ h).2.2.2 rfl⟩

/-- The line of a message. -/
def logLine (k : Byte) (tag fn : Bytes) (line : Int) (text : Bytes) : Bytes :=
  91 :: k :: 93 :: 91 :: (tag ++ 93 :: 91 :: ((fn ++ 58 :: intText line) ++ 93 :: 32 :: text))

theorem logLine_entry (k : Byte) {tag fn : Bytes} {line : Int} (text : Bytes) (hf : InBrackets fn) (ht : InBrackets tag) (hl : InI32 line) :
    logEntry (logLine k tag fn line text) = some ⟨k, tag, fn, line, text⟩ := by
  have hi := intText_log line
  have h93 : (93 : Byte) ∉ fn ++ 58 :: intText line := by
    simp only [List.mem_append, List.mem_cons, not_or]
    exact ⟨hf.2, by decide, hi.2.2.1⟩
  unfold logLine logEntry
  simp only
  rw [cutFirst_app ht.2]
  simp only
  rw [cutFirst_app h93]
  simp only [logPlace]
  rw [cutLast_app hi.2.2.2]
  simp only [atoi_intText hl]
  rfl

theorem logLine_ok (k : Byte) (hk : k ≠ 10 ∧ k ≠ 27) {tag fn : Bytes} {line : Int} {text : Bytes} (hf : InBrackets fn)
    (ht : InBrackets tag) (hx : OneLine text) : OneLine (logLine k tag fn line text) := by
  have hi := intText_log line
  unfold logLine OneLine
  simp only [List.mem_append, List.mem_cons, not_or]
  exact ⟨⟨by decide, fun e => hk.1 e.symm, by decide, by decide, ht.1.1, by decide, by decide, ⟨hf.1.1, by decide, hi.1⟩, by decide,
    by decide, hx.1⟩, ⟨by decide, fun e => hk.2 e.symm, by decide, by decide, ht.1.2, by decide, by decide, ⟨hf.1.2, by decide, hi.2.1⟩,
    by decide, by decide, hx.2⟩⟩

theorem header_eq (fmtF : Rat → Bytes) (k : Byte) (tag fn : Bytes) (line : Int) (text : Bytes) :
    ∃ h, cFormat fmtF logHeaderFormat [.str [k], .str tag, .str fn, .int line] = .ok h ∧ h ++ text = logLine k tag fn line text := by
  refine ⟨91 :: k :: 93 :: 91 :: (tag ++ 93 :: 91 :: (fn ++ 58 :: (intText line ++ [93, 32]))), rfl, ?_⟩
  simp [logLine]

theorem letter_eq {level : Int} (h0 : 0 ≤ level) (h3 : level ≤ 3) :
    logLetter level = [levelLetter level] ∧ levelLetter level ≠ 10 ∧ levelLetter level ≠ 27 := by
  have : level = 0 ∨ level = 1 ∨ level = 2 ∨ level = 3 := by omega
  rcases this with rfl | rfl | rfl | rfl <;> decide

/-- What is written for an entry. -/
def entryBytes (tty : Bool) (level : Int) (e : LogEntry) : Bytes :=
  (if tty then logColour level else []) ++ logLine e.letter e.tag e.fn e.line e.text ++ (if tty then logReset else []) ++ [10]

theorem strip_entry (tty : Bool) (level : Int) {e : LogEntry} (h : OneLine (logLine e.letter e.tag e.fn e.line e.text)) (r : Bytes) :
    stripAnsi false (entryBytes tty level e ++ r) = logLine e.letter e.tag e.fn e.line e.text ++ 10 :: stripAnsi false r := by
  unfold entryBytes
  cases tty
  · simp only [Bool.false_eq_true, if_false, List.nil_append, List.append_nil, List.append_assoc]
    rw [strip_plain h.2]
    rfl
  · simp only [if_true, List.append_assoc]
    rw [strip_colour, strip_plain h.2, strip_reset]
    rfl

theorem logFormatted_eq (fmtF : Rat → Bytes) (tty : Bool) (st : LogState) {level : Int} {fn : Bytes} {line : Int} {tag msg : Bytes}
    {args : List PArg} {t : Bytes} (h0 : 0 ≤ level) (h3 : level ≤ 3) (hm : cFormat fmtF msg args = .ok t) :
    logFormatted fmtF tty st level fn line tag msg args =
      .ok (if st.verb ≤ level then entryBytes tty level ⟨levelLetter level, tag, fn, line, t⟩ else []) := by
  unfold logFormatted
  split
  · obtain ⟨h, e1, e2⟩ := header_eq fmtF (levelLetter level) tag fn line t
    rw [(letter_eq h0 h3).1, e1, hm]
    simp only [Res.ok_bind, Res.pure_eq, entryBytes, ← e2, List.append_assoc]
  · rfl

theorem logRun_snoc (fmtF : Rat → Bytes) (tty : Bool) (stack : Res Bytes) (leaves : Nat → Bool) {cs : List LogCall} {st st' : LogState}
    {o : Bytes} (h : logRun fmtF tty stack leaves st cs = .ok (o, .more st')) (ds : List LogCall) :
    logRun fmtF tty stack leaves st (cs ++ ds) = (do
      let r ← logRun fmtF tty stack leaves st' ds
      pure (o ++ r.1, r.2)) := by
  induction cs generalizing st o with
  | nil =>
    cases h
    rw [List.nil_append]
    cases logRun fmtF tty stack leaves st' ds <;> rfl
  | cons c cs ih =>
    rw [logRun] at h
    obtain ⟨r, e1, h⟩ := (Res.bind_eq_ok).1 h
    rw [List.cons_append, logRun, e1, Res.ok_bind]
    obtain ⟨o1, e⟩ := r
    cases e with
    | more s =>
      simp only at h ⊢
      obtain ⟨r', e2, h⟩ := (Res.bind_eq_ok).1 h
      obtain ⟨o2, e'⟩ := r'
      cases h
      rw [ih e2]
      cases hr : logRun fmtF tty stack leaves st' ds with
      | ok q => simp [Res.ok_bind, Res.pure_eq]
      | fatal => rfl
      | ub => rfl
    | exited => cases h
    | left => cases h

theorem proper_take {fmtF : Rat → Bytes} {calls : List LogCall} {c : LogCall} {text : Nat → Bytes}
    (h : ProperCalls fmtF (calls ++ [c]) text) : ProperCalls fmtF calls text := by
  intro i d hd
  apply h i d
  rw [List.getElem?_append_left (List.getElem?_eq_some_iff.1 hd).1]
  exact hd

theorem wanted_snoc (calls : List LogCall) (c : LogCall) (text : Nat → Bytes) :
    wantedEntries (calls ++ [c]) text = wantedEntries calls text ++
      (match c with
        | .print level fn line tag _ _ =>
          if verbBefore calls ≤ level then [⟨levelLetter level, tag, fn, line, text calls.length⟩] else []
        | _ => []) := by
  unfold wantedEntries
  rw [List.length_append, List.length_singleton, List.range_succ, List.filterMap_append]
  congr 1
  · apply List.filterMap_congr
    intro i hi
    have hi := List.mem_range.1 hi
    rw [List.getElem?_append_left hi, List.take_append_of_le_length (by omega)]
  · simp only [List.filterMap_cons, List.filterMap_nil, List.getElem?_concat_length, List.take_left]
    cases c with
    | print level fn line tag msg args =>
      simp only
      split <;> rename_i h <;> split at h <;> simp_all
    | _ => rfl

theorem verb_snoc (calls : List LogCall) (c : LogCall) :
    verbBefore (calls ++ [c]) = match c with | .verbosity v => v | _ => verbBefore calls := by
  unfold verbBefore
  rw [List.reverse_append]
  cases c <;> rfl

theorem fatal_snoc (calls : List LogCall) (c : LogCall) :
    fatalBefore (calls ++ [c]) = match c with | .fatalFunc f => f | _ => fatalBefore calls := by
  unfold fatalBefore
  rw [List.reverse_append]
  cases c <;> rfl

theorem log_run (fmtF : Rat → Bytes) (tty : Bool) (stack : Res Bytes) (leaves : Nat → Bool) (calls : List LogCall) (text : Nat → Bytes)
    (h : ProperCalls fmtF calls text) :
    ∃ out, logRun fmtF tty stack leaves logInit calls = .ok (out, .more ⟨verbBefore calls, fatalBefore calls⟩) ∧
      (∀ r, stripAnsi false (out ++ r) =
        ((wantedEntries calls text).map (fun e => logLine e.letter e.tag e.fn e.line e.text ++ [10])).flatten ++ stripAnsi false r) ∧
      (∀ e ∈ wantedEntries calls text, OneLine (logLine e.letter e.tag e.fn e.line e.text) ∧
        logEntry (logLine e.letter e.tag e.fn e.line e.text) = some e) ∧ (tty = false → (27 : Byte) ∉ out) := by
  induction calls using List.reverseRecOn with
  | nil => exact ⟨[], rfl, fun r => rfl, (by intro e he; cases he), fun _ h => by cases h⟩
  | append_singleton calls c ih =>
    obtain ⟨out, e1, e2, e3, e4⟩ := ih (proper_take h)
    have hc := h calls.length c (by simp)
    rw [logRun_snoc fmtF tty stack leaves e1, wanted_snoc, verb_snoc, fatal_snoc]
    cases c with
    | print level fn line tag msg args =>
      obtain ⟨h0, h3, hf, ht, hl, hm, hx⟩ := hc
      have ok := logLine_ok (levelLetter level) (letter_eq h0 h3).2 (line := line) hf ht hx
      simp only [logRun, logCall, logFormatted_eq fmtF tty _ h0 h3 hm, Res.ok_bind, Res.pure_eq, List.append_nil]
      by_cases hv : verbBefore calls ≤ level
      · simp only [hv, if_true]
        refine ⟨_, rfl, ?_, ?_, ?_⟩
        · intro r
          rw [List.append_assoc, e2, strip_entry tty level (by exact ok)]
          simp
        · intro e he
          rw [List.mem_append, List.mem_singleton] at he
          rcases he with he | rfl
          · exact e3 e he
          · exact ⟨ok, logLine_entry _ _ hf ht hl⟩
        · intro htty
          subst htty
          simp only [entryBytes, Bool.false_eq_true, if_false, List.nil_append, List.append_nil, List.mem_append, not_or]
          exact ⟨e4 rfl, ok.2, by decide⟩
      · simp only [hv, if_false, List.append_nil]
        exact ⟨_, rfl, e2, e3, e4⟩
    | verbosity v =>
      simp only [logRun, logCall, Res.ok_bind, Res.pure_eq, List.append_nil]
      exact ⟨_, rfl, e2, e3, e4⟩
    | fatalFunc f =>
      simp only [logRun, logCall, Res.ok_bind, Res.pure_eq, List.append_nil]
      exact ⟨_, rfl, e2, e3, e4⟩
    | fatal => exact hc.elim

/-- **C119**: after any calls, what is written consists of one line for every message whose level is not below the verbosity at that
time, in the order of the calls, with letter, tag, name, line number and text; on a terminal there are colours around it, elsewhere none. -/
theorem c119_messages (fmtF : Rat → Bytes) (tty : Bool) (stack : Res Bytes) (leaves : Nat → Bool) (calls : List LogCall)
    (text : Nat → Bytes) (h : ProperCalls fmtF calls text) :
    ∃ out st, logRun fmtF tty stack leaves logInit calls = .ok (out, .more st) ∧
      logRead out = (wantedEntries calls text).map some ∧ (tty = false → stripAnsi false out = out) := by
  obtain ⟨out, e1, e2, e3, e4⟩ := log_run fmtF tty stack leaves calls text h
  refine ⟨out, _, e1, ?_, fun ht => ?_⟩
  · have := e2 []
    rw [List.append_nil] at this
    unfold logRead
    rw [this, show stripAnsi false [] = [] from rfl, List.append_nil]
    have q : ((wantedEntries calls text).map (fun e => logLine e.letter e.tag e.fn e.line e.text ++ [10])).flatten =
        (((wantedEntries calls text).map (fun e => logLine e.letter e.tag e.fn e.line e.text)).map (· ++ [10])).flatten := by
      rw [List.map_map]
      rfl
    rw [q, gpLines_all, List.map_map]
    · apply List.map_congr_left
      intro e he
      exact (e3 e he).2
    · intro l hl
      obtain ⟨e, he, rfl⟩ := List.mem_map.1 hl
      exact (e3 e he).1.1
  · have := strip_plain (e4 ht) []
    rw [List.append_nil] at this
    rw [this, show stripAnsi false [] = [] from rfl, List.append_nil]

example : ProperCalls (fun _ => []) [.print 2 (asc "main") 7 (asc "VIRG") (asc "%d of %s") [.int 3, .str (asc "x")], .verbosity 3]
    (fun _ => asc "3 of x") ∧ wantedEntries [.print 2 (asc "main") 7 (asc "VIRG") (asc "%d of %s") [.int 3, .str (asc "x")], .verbosity 3]
    (fun _ => asc "3 of x") = [⟨87, asc "VIRG", asc "main", 7, asc "3 of x"⟩] := by
  refine ⟨?_, by decide +kernel⟩
  intro i c hc
  match i, hc with
  | 0, hc =>
    cases hc
    refine ⟨by decide, by decide, ?_, ?_, by unfold InI32; decide, by decide +kernel, ?_⟩
    all_goals
      unfold_projs
      simp only [InBrackets, OneLine]
      decide
  | 1, hc =>
    cases hc
    trivial
  | i + 2, hc => cases hc

/-- **C119** is false for the verbosity `NX_LOG_SILENT`: errors are written. -/
theorem c119_silent_false (fmtF : Rat → Bytes) (stack : Res Bytes) (leaves : Nat → Bool) :
    ∃ st, logRun fmtF false stack leaves logInit [.verbosity 3, .print 3 (asc "f") 1 (asc "t") (asc "bad") []] =
      .ok (asc "[E][t][f:1] bad\n", .more st) :=
  ⟨⟨3, none⟩, by
    simp only [logRun, logCall, logInit, logFormatted_eq fmtF false ⟨3, none⟩ (level := 3) (t := asc "bad") (msg := asc "bad")
      (args := []) (by decide) (by decide) rfl, Res.ok_bind, Res.pure_eq]
    decide +kernel⟩

/-- **C119** is false for texts with newlines: one call can write what reads as two messages. -/
theorem c119_newline_false (stack : Res Bytes) (leaves : Nat → Bool) : ∃ c out st,
    logRun (fun _ => []) false stack leaves logInit [c] = .ok (out, .more st) ∧
      logRead out = [some ⟨76, asc "t", asc "f", 1, asc "a"⟩, some ⟨69, asc "t", asc "g", 2, asc "b"⟩] :=
  ⟨.print 1 (asc "f") 1 (asc "t") (asc "%s") [.str (asc "a\n[E][t][g:2] b")], asc "[L][t][f:1] a\n[E][t][g:2] b\n", ⟨1, none⟩, by
    simp only [logRun, logCall, logInit, logFormatted_eq (fun _ => []) false ⟨1, none⟩ (level := 1) (t := asc "a\n[E][t][g:2] b")
      (by decide) (by decide) (args := [.str (asc "a\n[E][t][g:2] b")]) (msg := asc "%s") rfl, Res.ok_bind, Res.pure_eq]
    decide +kernel, by decide +kernel⟩

/-- **C119**: a fatal error is reported at every verbosity. Without a function of the program that is set, the report and the call stack
are written and the program exits with `NX_EXIT_FATAL`; otherwise that function is called and nothing is written. No later call is
made. -/
theorem c119_fatal_partial (fmtF : Rat → Bytes) (tty : Bool) (size : Nat) {symbols : List Bytes} (hs : symbols.length = size)
    (leaves : Nat → Bool) (hleave : ∀ i, leaves i = true) (calls : List LogCall) (text : Nat → Bytes) (h : ProperCalls fmtF calls text)
    {fn : Bytes} {line : Int} {tag msg : Bytes} {args : List PArg} {t : Bytes} (hf : InBrackets fn) (ht : InBrackets tag) (hl : InI32 line)
    (hm : cFormat fmtF msg args = .ok t) (hx : OneLine t) :
    ∃ out rep e, (∀ later, logRun fmtF tty (logCallStack size (some symbols)) leaves logInit (calls ++ .fatal fn line tag msg args ::
      later) =
        .ok (out ++ rep, e)) ∧ logRead out = (wantedEntries calls text).map some ∧
      (fatalBefore calls = none → e = .exited (-99) ∧ ∃ l, stripAnsi false rep = l ++ 10 :: stripAnsi false (asc "Call stack:\n" ++
      logFrames 0 symbols) ∧
        (10 : Byte) ∉ l ∧ logEntry l = some ⟨70, tag, fn, line, t⟩) ∧
      (∀ i, fatalBefore calls = some i → e = .left i ∧ rep = []) := by
  obtain ⟨out, st, e0, e1, -⟩ := c119_messages fmtF tty (logCallStack size (some symbols)) leaves calls text h
  obtain ⟨out', e2, -⟩ := log_run fmtF tty (logCallStack size (some symbols)) leaves calls text h
  have heq := e0.symm.trans e2
  cases heq
  have hb : (70 : Byte) ≠ 10 ∧ (70 : Byte) ≠ 27 := by decide
  cases hfat : fatalBefore calls with
  | some i =>
    refine ⟨out, [], .left i, fun later => ?_, e1, by simp, ?_⟩
    · rw [logRun_snoc fmtF tty _ leaves e2]
      simp [logRun, logCall, logFatal, hfat, hleave, Res.ok_bind, Res.pure_eq]
    · intro j hj
      cases hj
      exact ⟨rfl, rfl⟩
  | none =>
    have ok := logLine_ok 70 hb (line := line) hf ht hx
    obtain ⟨hd, q1, q2⟩ := header_eq fmtF 70 tag fn line t
    refine ⟨out, (if tty then 27 :: asc "[35;1m" else []) ++ logLine 70 tag fn line t ++ (if tty then logReset else []) ++ [10] ++
      (asc "Call stack:\n" ++ logFrames 0 symbols), .exited (-99), fun later => ?_, e1, fun _ => ⟨rfl, logLine 70 tag fn line t, ?_, ok.1,
      logLine_entry _ _ hf ht hl⟩, by simp⟩
    · rw [logRun_snoc fmtF tty _ leaves e2]
      have : logCall fmtF tty (logCallStack size (some symbols)) leaves ⟨verbBefore calls, fatalBefore calls⟩ (.fatal fn line tag msg
      args) =
          .ok ((if tty then 27 :: asc "[35;1m" else []) ++ logLine 70 tag fn line t ++ (if tty then logReset else []) ++ [10] ++
      (asc "Call stack:\n" ++ logFrames 0 symbols), .exited (-99)) := by
        simp only [logCall, logFatal, hfat, logDefaultFatal, logCallStack, hs, if_true]
        rw [show asc "F" = [70] from rfl, q1, hm]
        simp only [Res.ok_bind, Res.pure_eq, ← q2, List.append_assoc]
      rw [logRun, this]
      rfl
    · cases tty
      · simp only [Bool.false_eq_true, if_false, List.nil_append, List.append_nil, List.append_assoc]
        rw [strip_plain ok.2]
        rfl
      · simp only [if_true, List.append_assoc]
        have : ∀ r, stripAnsi false ((27 :: asc "[35;1m") ++ r) = stripAnsi false r := fun r => rfl
        rw [this, strip_plain ok.2, strip_reset]
        rfl

example : InBrackets (asc "main") ∧ OneLine (asc "Out of memory") := by
  simp only [InBrackets, OneLine]
  decide

/-- **C119** is false for a function that returns: then a function declared not to return does. -/
theorem c119_fatal_return_false (fmtF : Rat → Bytes) (tty : Bool) (stack : Res Bytes) (leaves : Nat → Bool) {i : Nat} (hi : leaves i =
      false)
    (fn : Bytes) (line : Int) (tag msg : Bytes) (args : List PArg) :
    logRun fmtF tty stack leaves logInit [.fatalFunc (some i), .fatal fn line tag msg args] = .ub := by
  simp only [logRun, logCall, Res.ok_bind, logFatal, hi, Bool.false_eq_true, if_false]
  rfl

example : (fun i : Nat => i == 0) 1 = false := rfl

/-- **C119** is false if there is no memory for the names of the frames: they are used nevertheless. -/
theorem c119_stack_false (fmtF : Rat → Bytes) (tty : Bool) (leaves : Nat → Bool) (size : Nat) (hs : 0 < size) (fn : Bytes) (line : Int)
    (tag msg : Bytes) (args : List PArg) {t : Bytes} (hm : cFormat fmtF msg args = .ok t) :
    logRun fmtF tty (logCallStack size none) leaves logInit [.fatal fn line tag msg args] = .ub := by
  obtain ⟨hd, q1, q2⟩ := header_eq fmtF 70 tag fn line t
  simp only [logRun, logCall, logInit, logFatal, logDefaultFatal, logCallStack]
  rw [show asc "F" = [70] from rfl, q1, hm, if_neg (by omega)]
  rfl

example : cFormat (fun _ => []) (asc "no memory for %s") [.str (asc "x")] = .ok (asc "no memory for x") := by decide +kernel

end Nx
