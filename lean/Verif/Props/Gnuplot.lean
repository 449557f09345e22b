import Verif.Spec.Gnuplot
import Verif.Lemmas.DataFrameIO
import Verif.Props.Graphics

/-!
# C118: commands for gnuplot
-/

namespace Nx

theorem step_text {t : Bytes} (h : CleanText t) (rest : Bytes) (s : GRead) (hm : s.mode = .text) :
    (t ++ rest).foldlM GRead.step s = rest.foldlM GRead.step { s with text := s.text ++ t } := by
  induction t generalizing s with
  | nil => simp
  | cons b t ih =>
    obtain ⟨h1, h2, h3⟩ := h b (by simp)
    rw [List.cons_append, List.foldlM_cons]
    have : s.step b = some { s with text := s.text ++ [b] } := by
      unfold GRead.step
      rw [hm]
      simp [h1, h2, h3]
    rw [this]
    simp only [Option.bind_eq_bind, Option.bind_some]
    rw [ih (fun b hb => h b (by simp [hb])) _ (by exact hm)]
    simp

theorem step_word {t : Bytes} (h : CleanWord t) (rest : Bytes) (s : GRead) (hm : s.mode = .out) :
    (t ++ rest).foldlM GRead.step s = rest.foldlM GRead.step { s with word := s.word ++ t } := by
  induction t generalizing s with
  | nil => simp
  | cons b t ih =>
    obtain ⟨h1, h2, h3, h4⟩ := h b (by simp)
    rw [List.cons_append, List.foldlM_cons]
    have : s.step b = some { s with word := s.word ++ [b] } := by
      unfold GRead.step
      rw [hm]
      simp [h1, h2, h3, h4]
    rw [this]
    simp only [Option.bind_eq_bind, Option.bind_some]
    rw [ih (fun b hb => h b (by simp [hb])) _ (by exact hm)]
    simp

/-- **C118**: a title without quotes, backslashes and newlines becomes the title. -/
theorem c118_title_partial (fmtF : Rat → Bytes) {t : Bytes} (h : CleanText t) :
    ∃ bs, gpTitle fmtF t = .ok bs ∧ gpCommands bs = some [[.word (asc "set"), .word (asc "title"), .text t]] := by
  refine ⟨asc "set title \"" ++ (t ++ asc "\";\n"), by simp [gpTitle, gpSend, cFormat, asc], ?_⟩
  unfold gpCommands
  rw [List.foldlM_append]
  have e : (asc "set title \"").foldlM GRead.step ⟨[], [], [], [], .out⟩ =
    some ⟨[], [.word (asc "set"), .word (asc "title")], [], [], .text⟩ := by decide
  rw [e]
  simp only [Option.bind_eq_bind, Option.bind_some]
  rw [step_text h _ _ rfl]
  simp [asc, GRead.step, GRead.endWord, GRead.endCmd]

example : CleanText (asc "Error of the fit") := by
  unfold CleanText
  decide

theorem intText_byte (v : Int) : ∀ b ∈ intText v, b ≠ 34 ∧ b ≠ 59 ∧ b ≠ 10 ∧ b ≠ 32 ∧ b ≠ 69 := by
  have key : ∀ n : Nat, ∀ b ∈ natText n, b ≠ 34 ∧ b ≠ 59 ∧ b ≠ 10 ∧ b ≠ 32 ∧ b ≠ 69 := by
    intro n b hb
    obtain ⟨d, hd, rfl⟩ := (natText_digits n).2 b hb
    have : ∀ d : Fin 10, UInt8.ofNat (48 + d.1) ≠ 34 ∧ UInt8.ofNat (48 + d.1) ≠ 59 ∧ UInt8.ofNat (48 + d.1) ≠ 10 ∧
      UInt8.ofNat (48 + d.1) ≠ 32 ∧ UInt8.ofNat (48 + d.1) ≠ 69 := by decide
    exact this ⟨d, hd⟩
  intro b hb
  unfold intText at hb
  split at hb
  · simp only [List.mem_cons] at hb
    rcases hb with rfl | hb
    · decide
    · exact key _ b hb
  · exact key _ b hb

theorem intText_word (v : Int) : CleanWord (intText v) := fun b hb =>
  have h := intText_byte v b hb
  ⟨h.1, h.2.1, h.2.2.1, h.2.2.2.1⟩

theorem intText_ne (v : Int) : intText v ≠ [] := (intText_chars v).1

/-- **C118** is false for texts with quotes: they end the text, and what follows is a command. -/
theorem c118_quote_false (fmtF : Rat → Bytes) : ∃ t bs, gpTitle fmtF t = .ok bs ∧
    gpCommands bs = some [[.word (asc "set"), .word (asc "title"), .text (asc "a")], [.word (asc "quit")], [.text []]] := by
  refine ⟨asc "a\";quit;\"", asc "set title \"a\";quit;\"\";\n", by simp [gpTitle, gpSend, cFormat, asc], by decide⟩

/-- **C118**: title and labels together. -/
theorem c118_labels_partial (fmtF : Rat → Bytes) {t x y : Bytes} (ht : CleanText t) (hx : CleanText x) (hy : CleanText y) :
    ∃ bs, gpTitleLabels fmtF t x y = .ok bs ∧ gpCommands bs = some [[.word (asc "set"), .word (asc "title"), .text t],
      [.word (asc "set"), .word (asc "xlabel"), .text x], [.word (asc "set"), .word (asc "ylabel"), .text y]] := by
  refine ⟨asc "set title \"" ++ (t ++ (asc "\";\nset xlabel \"" ++ (x ++ (asc "\";\nset ylabel \"" ++ (y ++ asc "\";\n"))))),
    by simp [gpTitleLabels, gpSend, cFormat, asc], ?_⟩
  unfold gpCommands
  rw [List.foldlM_append]
  have e : (asc "set title \"").foldlM GRead.step ⟨[], [], [], [], .out⟩ =
    some ⟨[], [.word (asc "set"), .word (asc "title")], [], [], .text⟩ := by decide
  rw [e]
  simp only [Option.bind_eq_bind, Option.bind_some]
  rw [step_text ht _ _ rfl, List.foldlM_append]
  have e : (asc "\";\nset xlabel \"").foldlM GRead.step
      { done := [], cmd := [.word (asc "set"), .word (asc "title")], word := [], text := [] ++ t, mode := .text } =
    some ⟨[[.word (asc "set"), .word (asc "title"), .text t]], [.word (asc "set"), .word (asc "xlabel")], [], [], .text⟩ := by
    simp [asc, GRead.step, GRead.endWord, GRead.endCmd]
  rw [e]
  simp only [Option.bind_eq_bind, Option.bind_some]
  rw [step_text hx _ _ rfl, List.foldlM_append]
  have e : (asc "\";\nset ylabel \"").foldlM GRead.step
      { done := [[.word (asc "set"), .word (asc "title"), .text t]], cmd := [.word (asc "set"), .word (asc "xlabel")],
        word := [], text := [] ++ x, mode := .text } =
    some ⟨[[.word (asc "set"), .word (asc "title"), .text t], [.word (asc "set"), .word (asc "xlabel"), .text x]],
      [.word (asc "set"), .word (asc "ylabel")], [], [], .text⟩ := by
    simp [asc, GRead.step, GRead.endWord, GRead.endCmd]
  rw [e]
  simp only [Option.bind_eq_bind, Option.bind_some]
  rw [step_text hy _ _ rfl]
  simp [asc, GRead.step, GRead.endWord, GRead.endCmd]

example : CleanText (asc "iteration") ∧ CleanText (asc "inliers (%)") := by
  unfold CleanText
  decide

/-- **C118** is false for a single label: the command is about the title, and `xlabel` is a name in it. -/
theorem c118_xlabel_false (fmtF : Rat → Bytes) {t : Bytes} (h : CleanText t) :
    ∃ bs, gpXlabel fmtF t = .ok bs ∧
      gpCommands bs = some [[.word (asc "set"), .word (asc "title"), .word (asc "xlabel"), .text t]] := by
  refine ⟨asc "set title xlabel \"" ++ (t ++ asc "\";\n"), by simp [gpXlabel, gpSend, cFormat, asc], ?_⟩
  unfold gpCommands
  rw [List.foldlM_append]
  have e : (asc "set title xlabel \"").foldlM GRead.step ⟨[], [], [], [], .out⟩ =
    some ⟨[], [.word (asc "set"), .word (asc "title"), .word (asc "xlabel")], [], [], .text⟩ := by decide
  rw [e]
  simp only [Option.bind_eq_bind, Option.bind_some]
  rw [step_text h _ _ rfl]
  simp [asc, GRead.step, GRead.endWord, GRead.endCmd]

/-- The same for the other axis. -/
theorem c118_ylabel_false (fmtF : Rat → Bytes) {t : Bytes} (h : CleanText t) :
    ∃ bs, gpYlabel fmtF t = .ok bs ∧
      gpCommands bs = some [[.word (asc "set"), .word (asc "title"), .word (asc "ylabel"), .text t]] := by
  refine ⟨asc "set title ylabel \"" ++ (t ++ asc "\";\n"), by simp [gpYlabel, gpSend, cFormat, asc], ?_⟩
  unfold gpCommands
  rw [List.foldlM_append]
  have e : (asc "set title ylabel \"").foldlM GRead.step ⟨[], [], [], [], .out⟩ =
    some ⟨[], [.word (asc "set"), .word (asc "title"), .word (asc "ylabel")], [], [], .text⟩ := by decide
  rw [e]
  simp only [Option.bind_eq_bind, Option.bind_some]
  rw [step_text h _ _ rfl]
  simp [asc, GRead.step, GRead.endWord, GRead.endCmd]

/-! ## Terminals -/

/-- The commands that choose a terminal. -/
def termCommands (fmtF : Rat → Bytes) (ty : TermType) (w h : Int) (width height : Rat) (name : Bytes) (id : Int) : List (List GTok) :=
  match ty with
  | .window => [[.word (asc "set"), .word (asc "terminal"), .word (asc "qt"), .word (intText id), .word (asc "size"),
      .word (intText w ++ 44 :: intText h), .word (asc "enhanced"), .word (asc "title"), .text name],
      [.word (asc "unset"), .word (asc "output")]]
  | .svg => [[.word (asc "set"), .word (asc "terminal"), .word (asc "svg"), .word (asc "size"),
      .word (intText w ++ 44 :: intText h), .word (asc "enhanced"), .word (asc "name"), .text (asc "VIRG")],
      [.word (asc "set"), .word (asc "output"), .text name]]
  | .pdf => [[.word (asc "set"), .word (asc "terminal"), .word (asc "pdfcairo"), .word (asc "enhanced"), .word (asc "color"),
      .word (asc "size"), .word (fmtF width ++ (asc "cm," ++ (fmtF height ++ asc "cm")))],
      [.word (asc "set"), .word (asc "output"), .text name]]
  | .eps => [[.word (asc "set"), .word (asc "terminal"), .word (asc "epscairo"), .word (asc "enhanced"), .word (asc "color"),
      .word (asc "size"), .word (fmtF width ++ (asc "cm," ++ (fmtF height ++ asc "cm")))],
      [.word (asc "set"), .word (asc "output"), .text name]]
  | .ascii => [[.word (asc "set"), .word (asc "terminal"), .word (asc "dumb"), .word (asc "size"),
      .word (intText w ++ 44 :: intText h), .word (asc "enhanced"), .word (asc "feed")]]

theorem read_sp {w : Bytes} (hw : CleanWord w ∧ w ≠ []) (d : List (List GTok)) (c : List GTok) (rest : Bytes) :
    (w ++ 32 :: rest).foldlM GRead.step ⟨d, c, [], [], .out⟩ = rest.foldlM GRead.step ⟨d, c ++ [.word w], [], [], .out⟩ := by
  rw [step_word hw.1 _ _ rfl, List.foldlM_cons]
  have : GRead.step ⟨d, c, [] ++ w, [], .out⟩ 32 = some ⟨d, c ++ [.word w], [], [], .out⟩ := by
    simp [GRead.step, GRead.endWord, hw.2]
  rw [this]
  rfl

theorem read_end {w : Bytes} (hw : CleanWord w ∧ w ≠ []) (d : List (List GTok)) (c : List GTok) (rest : Bytes) (b : Byte)
    (hb : b = 59 ∨ b = 10) :
    (w ++ b :: rest).foldlM GRead.step ⟨d, c, [], [], .out⟩ =
      rest.foldlM GRead.step ⟨d ++ [c ++ [.word w]], [], [], [], .out⟩ := by
  rw [step_word hw.1 _ _ rfl, List.foldlM_cons]
  have : GRead.step ⟨d, c, [] ++ w, [], .out⟩ b = some ⟨d ++ [c ++ [.word w]], [], [], [], .out⟩ := by
    rcases hb with rfl | rfl <;> simp [GRead.step, GRead.endWord, GRead.endCmd, hw.2]
  rw [this]
  rfl

theorem read_text {t : Bytes} (ht : CleanText t) (d : List (List GTok)) (c : List GTok) (rest : Bytes) :
    (34 :: (t ++ 34 :: rest)).foldlM GRead.step ⟨d, c, [], [], .out⟩ =
      rest.foldlM GRead.step ⟨d, c ++ [.text t], [], [], .out⟩ := by
  rw [List.foldlM_cons]
  have : GRead.step ⟨d, c, [], [], .out⟩ 34 = some ⟨d, c, [], [], .text⟩ := by simp [GRead.step, GRead.endWord]
  rw [this]
  simp only [Option.bind_eq_bind, Option.bind_some]
  rw [step_text ht _ _ rfl, List.foldlM_cons]
  have : GRead.step ⟨d, c, [], [] ++ t, .text⟩ 34 = some ⟨d, c ++ [.text t], [], [], .out⟩ := by simp [GRead.step]
  rw [this]
  rfl

theorem read_eol (d : List (List GTok)) (c : List GTok) (rest : Bytes) (b : Byte) (hb : b = 59 ∨ b = 10) :
    (b :: rest).foldlM GRead.step ⟨d, c, [], [], .out⟩ =
      rest.foldlM GRead.step ⟨if c = [] then d else d ++ [c], [], [], [], .out⟩ := by
  rw [List.foldlM_cons]
  have : GRead.step ⟨d, c, [], [], .out⟩ b = some ⟨if c = [] then d else d ++ [c], [], [], [], .out⟩ := by
    rcases hb with rfl | rfl <;> by_cases hc : c = [] <;> simp [GRead.step, GRead.endWord, GRead.endCmd, hc]
  rw [this]
  rfl

theorem commands_of {bs : Bytes} {d : List (List GTok)}
    (h : bs.foldlM GRead.step ⟨[], [], [], [], .out⟩ = some ⟨d, [], [], [], .out⟩) : gpCommands bs = some d := by
  unfold gpCommands
  rw [h]
  rfl

/-- A literal that is a word. -/
def litWord (s : String) : Bool := (asc s).all (fun b => b != 34 && b != 59 && b != 10 && b != 32) && !(asc s).isEmpty

theorem lit_ok {s : String} (h : litWord s = true) : CleanWord (asc s) ∧ asc s ≠ [] := by
  unfold litWord at h
  simp only [Bool.and_eq_true, List.all_eq_true, bne_iff_ne, Bool.not_eq_true', List.isEmpty_eq_false_iff] at h
  refine ⟨fun b hb => ?_, h.2⟩
  have := h.1 b hb
  exact ⟨this.1.1.1, this.1.1.2, this.1.2, this.2⟩

theorem litText_ok : CleanText (asc "VIRG") := by
  unfold CleanText
  decide

/-- Two numbers with a comma. -/
theorem size_ne (a b : Int) : intText a ++ 44 :: intText b ≠ [] := by simp

theorem size_word (a b : Int) : CleanWord (intText a ++ 44 :: intText b) := by
  intro x hx
  simp only [List.mem_append, List.mem_cons] at hx
  rcases hx with hx | rfl | hx
  · exact intText_word a x hx
  · decide
  · exact intText_word b x hx

theorem window_words {I S name : Bytes} (hI : CleanWord I ∧ I ≠ []) (hS : CleanWord S ∧ S ≠ []) (hn : CleanText name) :
    gpCommands (asc "set" ++ 32 :: (asc "terminal" ++ 32 :: (asc "qt" ++ 32 :: (I ++ 32 :: (asc "size" ++ 32 :: (S ++ 32 ::
      (asc "enhanced" ++ 32 :: (asc "title" ++ 32 :: (34 :: (name ++ 34 :: 59 :: 10 :: (asc "unset" ++ 32 :: (asc "output" ++ 59 ::
      [10])))))))))))) =
    some [[.word (asc "set"), .word (asc "terminal"), .word (asc "qt"), .word I, .word (asc "size"), .word S, .word (asc "enhanced"),
      .word (asc "title"), .text name], [.word (asc "unset"), .word (asc "output")]] := by
  apply commands_of
  rw [read_sp (lit_ok (s := "set") rfl), read_sp (lit_ok (s := "terminal") rfl), read_sp (lit_ok (s := "qt") rfl),
    read_sp hI,
    read_sp (lit_ok (s := "size") rfl),
    read_sp hS,
    read_sp (lit_ok (s := "enhanced") rfl), read_sp (lit_ok (s := "title") rfl),
    read_text hn,
    read_eol _ _ _ _ (.inl rfl),
    read_eol _ _ _ _ (.inr rfl),
    read_sp (lit_ok (s := "unset") rfl),
    read_end (lit_ok (s := "output") rfl) _ _ _ _ (.inl rfl),
    read_eol _ _ _ _ (.inr rfl)]
  rfl

theorem svg_words {S name : Bytes} (hS : CleanWord S ∧ S ≠ []) (hn : CleanText name) :
    gpCommands (asc "set" ++ 32 :: (asc "terminal" ++ 32 :: (asc "svg" ++ 32 :: (asc "size" ++ 32 :: (S ++ 32 ::
      (asc "enhanced" ++ 32 :: (asc "name" ++ 32 :: (34 :: (asc "VIRG" ++ 34 :: 59 :: 10 :: (asc "set" ++ 32 :: (asc "output" ++ 32 ::
      (34 :: (name ++ 34 :: 59 :: [10]))))))))))))) =
    some [[.word (asc "set"), .word (asc "terminal"), .word (asc "svg"), .word (asc "size"), .word S, .word (asc "enhanced"),
      .word (asc "name"), .text (asc "VIRG")], [.word (asc "set"), .word (asc "output"), .text name]] := by
  apply commands_of
  rw [read_sp (lit_ok (s := "set") rfl), read_sp (lit_ok (s := "terminal") rfl), read_sp (lit_ok (s := "svg") rfl),
      read_sp (lit_ok (s := "size") rfl),
    read_sp hS,
    read_sp (lit_ok (s := "enhanced") rfl), read_sp (lit_ok (s := "name") rfl),
    read_text litText_ok,
    read_eol _ _ _ _ (.inl rfl),
    read_eol _ _ _ _ (.inr rfl),
    read_sp (lit_ok (s := "set") rfl), read_sp (lit_ok (s := "output") rfl),
    read_text hn,
    read_eol _ _ _ _ (.inl rfl),
    read_eol _ _ _ _ (.inr rfl)]
  rfl

theorem pdf_words {D name : Bytes} (hD : CleanWord D ∧ D ≠ []) (hn : CleanText name) :
    gpCommands (asc "set" ++ 32 :: (asc "terminal" ++ 32 :: (asc "pdfcairo" ++ 32 :: (asc "enhanced" ++ 32 :: (asc "color" ++ 32 ::
      (asc "size" ++ 32 :: (D ++ 10 :: (asc "set" ++ 32 :: (asc "output" ++ 32 :: (34 :: (name ++ 34 :: [10]))))))))))) =
    some [[.word (asc "set"), .word (asc "terminal"), .word (asc "pdfcairo"), .word (asc "enhanced"), .word (asc "color"),
      .word (asc "size"), .word D], [.word (asc "set"), .word (asc "output"), .text name]] := by
  apply commands_of
  rw [read_sp (lit_ok (s := "set") rfl), read_sp (lit_ok (s := "terminal") rfl), read_sp (lit_ok (s := "pdfcairo") rfl),
      read_sp (lit_ok (s := "enhanced") rfl), read_sp (lit_ok (s := "color") rfl), read_sp (lit_ok (s := "size") rfl),
    read_end hD _ _ _ _ (.inr rfl),
    read_sp (lit_ok (s := "set") rfl), read_sp (lit_ok (s := "output") rfl),
    read_text hn,
    read_eol _ _ _ _ (.inr rfl)]
  rfl

theorem eps_words {D name : Bytes} (hD : CleanWord D ∧ D ≠ []) (hn : CleanText name) :
    gpCommands (asc "set" ++ 32 :: (asc "terminal" ++ 32 :: (asc "epscairo" ++ 32 :: (asc "enhanced" ++ 32 :: (asc "color" ++ 32 ::
      (asc "size" ++ 32 :: (D ++ 59 :: 10 :: (asc "set" ++ 32 :: (asc "output" ++ 32 :: (34 :: (name ++ 34 :: [10]))))))))))) =
    some [[.word (asc "set"), .word (asc "terminal"), .word (asc "epscairo"), .word (asc "enhanced"), .word (asc "color"),
      .word (asc "size"), .word D], [.word (asc "set"), .word (asc "output"), .text name]] := by
  apply commands_of
  rw [read_sp (lit_ok (s := "set") rfl), read_sp (lit_ok (s := "terminal") rfl), read_sp (lit_ok (s := "epscairo") rfl),
      read_sp (lit_ok (s := "enhanced") rfl), read_sp (lit_ok (s := "color") rfl), read_sp (lit_ok (s := "size") rfl),
    read_end hD _ _ _ _ (.inl rfl),
    read_eol _ _ _ _ (.inr rfl),
    read_sp (lit_ok (s := "set") rfl), read_sp (lit_ok (s := "output") rfl),
    read_text hn,
    read_eol _ _ _ _ (.inr rfl)]
  rfl

theorem ascii_words {S : Bytes} (hS : CleanWord S ∧ S ≠ []) :
    gpCommands (asc "set" ++ 32 :: (asc "terminal" ++ 32 :: (asc "dumb" ++ 32 :: (asc "size" ++ 32 :: (S ++ 32 ::
      (asc "enhanced" ++ 32 :: (asc "feed" ++ 59 :: [10]))))))) =
    some [[.word (asc "set"), .word (asc "terminal"), .word (asc "dumb"), .word (asc "size"), .word S, .word (asc "enhanced"),
      .word (asc "feed")]] := by
  apply commands_of
  rw [read_sp (lit_ok (s := "set") rfl), read_sp (lit_ok (s := "terminal") rfl), read_sp (lit_ok (s := "dumb") rfl),
      read_sp (lit_ok (s := "size") rfl),
    read_sp hS,
    read_sp (lit_ok (s := "enhanced") rfl),
    read_end (lit_ok (s := "feed") rfl) _ _ _ _ (.inl rfl),
    read_eol _ _ _ _ (.inr rfl)]
  rfl

/-- **C118**: choosing a terminal sends its type, size and name; sizes in pixels and characters are rounded towards zero. -/
theorem c118_terminal_partial (fmtF : Rat → Bytes) (hF : ∀ q, CleanWord (fmtF q)) (ty : TermType) (width height : Rat) {name : Bytes}
    (hn : CleanText name) (id : Int) (hw : InI32 (ratTrunc width)) (hh : InI32 (ratTrunc height)) :
    ∃ bs, gpTerm fmtF ty width height name id = .ok bs ∧
      gpCommands bs = some (termCommands fmtF ty (ratTrunc width) (ratTrunc height) width height name id) := by
  have tw : truncInt width = .ok (ratTrunc width) := by rw [truncInt, if_pos hw]
  have th : truncInt height = .ok (ratTrunc height) := by rw [truncInt, if_pos hh]
  have hs1 := size_word (ratTrunc width) (ratTrunc height)
  have hs2 := size_ne (ratTrunc width) (ratTrunc height)
  have hc1 : CleanWord (fmtF width ++ (asc "cm," ++ (fmtF height ++ asc "cm"))) := by
    intro x hx
    simp only [List.mem_append] at hx
    rcases hx with hx | hx | hx | hx
    · exact hF _ x hx
    · exact (by unfold CleanWord; decide : CleanWord (asc "cm,")) x hx
    · exact hF _ x hx
    · exact (by unfold CleanWord; decide : CleanWord (asc "cm")) x hx
  have hc2 : fmtF width ++ (asc "cm," ++ (fmtF height ++ asc "cm")) ≠ [] := by simp [asc]
  cases ty
  · refine ⟨_, ?_, window_words ⟨intText_word id, intText_ne id⟩ ⟨hs1, hs2⟩ hn⟩
    simp only [gpTerm, tw, th, Res.ok_bind]
    rw [List.append_assoc]
    rfl
  · refine ⟨_, ?_, svg_words ⟨hs1, hs2⟩ hn⟩
    simp only [gpTerm, tw, th, Res.ok_bind]
    rw [List.append_assoc]
    rfl
  · refine ⟨_, ?_, pdf_words ⟨hc1, hc2⟩ hn⟩
    simp only [gpTerm, List.append_assoc]
    rfl
  · refine ⟨_, ?_, eps_words ⟨hc1, hc2⟩ hn⟩
    simp only [gpTerm, List.append_assoc]
    rfl
  · refine ⟨_, ?_, ascii_words ⟨hs1, hs2⟩⟩
    simp only [gpTerm, tw, th, Res.ok_bind]
    rw [List.append_assoc]
    rfl

example : CleanText (asc "plot.pdf") ∧ InI32 (ratTrunc (12 / 5)) ∧ CleanWord (asc "2.400000") := by
  unfold CleanText CleanWord InI32
  decide +kernel

/-- **C118**: the first commands of a plot. -/
theorem c118_init (fmtF : Rat → Bytes) : ∃ bs, gpInit fmtF = .ok bs ∧
    gpCommands bs = some [[.word (asc "set"), .word (asc "border"), .word (asc "3"), .word (asc "lw"), .word (asc "3")],
      [.word (asc "set"), .word (asc "xtics"), .word (asc "out"), .word (asc "nomirror")],
      [.word (asc "set"), .word (asc "ytics"), .word (asc "out"), .word (asc "nomirror")]] :=
  ⟨asc "set border 3 lw 3;\nset xtics out nomirror;\nset ytics out nomirror;\n", rfl, by decide +kernel⟩

/-! ## Data -/

theorem gpLines_line {l : Bytes} (h : (10 : Byte) ∉ l) (acc rest : Bytes) :
    gpLines acc (l ++ 10 :: rest) = (acc ++ l) :: gpLines [] rest := by
  induction l generalizing acc with
  | nil => simp [gpLines]
  | cons b l ih =>
    simp only [List.mem_cons, not_or] at h
    rw [List.cons_append, gpLines, if_neg (fun e => h.1 e.symm), ih h.2]
    simp

theorem gpLines_all {L : List Bytes} (h : ∀ l ∈ L, (10 : Byte) ∉ l) : gpLines [] (L.map (· ++ [10])).flatten = L := by
  induction L with
  | nil => rfl
  | cons l L ih =>
    rw [List.map_cons, List.flatten_cons, List.append_assoc, List.singleton_append, gpLines_line (h l (by simp)),
      ih (fun x hx => h x (by simp [hx]))]
    rfl

/-- Texts with a space between them. -/
def spJoin : List Bytes → Bytes
  | [] => []
  | [t] => t
  | t :: u :: ts => t ++ 32 :: spJoin (u :: ts)

theorem gpFields_word {t : Bytes} (h : (32 : Byte) ∉ t) (acc rest : Bytes) : gpFields acc (t ++ rest) = gpFields (acc ++ t) rest := by
  induction t generalizing acc with
  | nil => simp
  | cons b t ih =>
    simp only [List.mem_cons, not_or] at h
    rw [List.cons_append, gpFields, if_neg (fun e => h.1 e.symm), ih h.2]
    simp

theorem gpFields_join : ∀ {ts : List Bytes}, (∀ t ∈ ts, t ≠ [] ∧ (32 : Byte) ∉ t) → gpFields [] (spJoin ts) = ts
  | [], _ => rfl
  | [t], h => by
    have := gpFields_word (h t (by simp)).2 [] []
    rw [List.append_nil] at this
    rw [spJoin, this]
    simp [gpFields, (h t (by simp)).1]
  | t :: u :: ts, h => by
    rw [spJoin, gpFields_word (h t (by simp)).2, List.nil_append, gpFields, if_pos rfl, if_neg (h t (by simp)).1,
      gpFields_join (fun x hx => h x (by simp only [List.mem_cons] at hx ⊢; exact .inr hx))]

theorem spJoin_mem : ∀ {ts : List Bytes} {b : Byte}, b ∈ spJoin ts → b = 32 ∨ ∃ t ∈ ts, b ∈ t
  | [t], b, h => .inr ⟨t, by simp, h⟩
  | t :: u :: ts, b, h => by
    simp only [spJoin, List.mem_append, List.mem_cons] at h
    rcases h with h | h | h
    · exact .inr ⟨t, by simp, h⟩
    · exact .inl h
    · rcases spJoin_mem h with h | ⟨x, hx, hb⟩
      · exact .inl h
      · exact .inr ⟨x, by simp only [List.mem_cons] at hx ⊢; exact .inr hx, hb⟩

theorem spJoin_head {t : Bytes} {ts : List Bytes} {b : Byte} {l : Bytes} (h : t = b :: l) : ∃ l', spJoin (t :: ts) = b :: l' := by
  subst h
  cases ts with
  | nil => exact ⟨l, rfl⟩
  | cons u ts => exact ⟨l ++ 32 :: spJoin (u :: ts), rfl⟩

theorem spPrintRow (fmtD : UInt64 → Bytes) {df a} (h : DfRep df a) {r : Nat} (hr : r < a.n) :
    ∀ (k c : Nat), a.cols.length - c = k + 1 → dfPrintRow fmtD [32] df r a.cols.length c =
      .ok (spJoin ((List.range' c (k + 1)).map (fun c => (cellOf fmtD (a.cell r c)).bytes)) ++ [10]) := by
  intro k
  induction k with
  | zero =>
    intro c hk
    rw [dfPrintRow, if_pos (by omega), dfCellText_eq fmtD h hr (by omega), dfPrintRow, if_neg (by omega)]
    simp only [Res.ok_bind, Res.pure_eq]
    rw [if_neg (by omega)]
    simp [spJoin]
  | succ k ih =>
    intro c hk
    rw [dfPrintRow, if_pos (by omega), dfCellText_eq fmtD h hr (by omega), ih (c + 1) (by omega)]
    simp only [Res.ok_bind, Res.pure_eq]
    rw [if_pos (by omega)]
    simp only [List.range'_succ, List.map_cons, spJoin, List.append_assoc, List.cons_append, List.nil_append]

theorem spPrintRows (fmtD : UInt64 → Bytes) {df a} (h : DfRep df a) (hc : a.cols ≠ []) : ∀ (k r : Nat), a.n - r = k →
    dfPrintRows fmtD [32] df a.cols.length a.n r =
      .ok (((List.range' r k).map (fun r => spJoin ((List.range a.cols.length).map
        (fun c => (cellOf fmtD (a.cell r c)).bytes)))).map (· ++ [10])).flatten := by
  intro k
  have hl : 0 < a.cols.length := List.length_pos_iff.mpr hc
  induction k with
  | zero =>
    intro r hk
    rw [dfPrintRows, if_neg (by omega)]
    rfl
  | succ k ih =>
    intro r hk
    rw [dfPrintRows, if_pos (by omega), spPrintRow fmtD h (by omega) (a.cols.length - 1) 0 (by omega), ih (r + 1) (by omega)]
    have e : a.cols.length - 1 + 1 = a.cols.length := by omega
    simp only [Res.ok_bind, Res.pure_eq, List.range'_succ, List.map_cons, List.flatten_cons, List.range_eq_range', e]

theorem spPrintLabels {df a} (h : DfRep df a) : ∀ (k c : Nat), a.cols.length - c = k + 1 →
    dfPrintLabels [32] df a.cols.length c = .ok (spJoin ((a.cols.drop c).map (fun x => fputsReadable (some x.2))) ++ [10]) := by
  intro k
  induction k with
  | zero =>
    intro c hk
    have hc : c < a.cols.length := by omega
    obtain ⟨dc, q1, q2, q3⟩ := dfColumn_eq h (c := c) (t := a.cols[c].1) (l := a.cols[c].2)
      (List.getElem?_eq_getElem hc)
    rw [dfPrintLabels, if_pos hc, q1]
    simp only [Res.ok_bind]
    rw [dfPrintLabels, if_neg (by omega)]
    simp only [Res.ok_bind, Res.pure_eq, q3]
    rw [if_neg (by omega), List.drop_eq_getElem_cons hc, List.drop_eq_nil_of_le (by omega)]
    simp [spJoin]
  | succ k ih =>
    intro c hk
    have hc : c < a.cols.length := by omega
    obtain ⟨dc, q1, q2, q3⟩ := dfColumn_eq h (c := c) (t := a.cols[c].1) (l := a.cols[c].2)
      (List.getElem?_eq_getElem hc)
    rw [dfPrintLabels, if_pos hc, q1]
    simp only [Res.ok_bind]
    rw [ih (c + 1) (by omega)]
    simp only [Res.ok_bind, Res.pure_eq, q3]
    rw [if_pos (by omega), List.drop_eq_getElem_cons hc, List.map_cons, List.drop_eq_getElem_cons (i := c + 1) (by omega),
      List.map_cons]
    simp only [spJoin, List.append_assoc, List.cons_append, List.nil_append]

theorem readable_nl (s : Bytes) : (10 : Byte) ∉ readableBody s := by
  induction s with
  | nil => simp [readableBody]
  | cons c s ih =>
    simp only [readableBody, List.mem_append, not_or]
    refine ⟨?_, ih⟩
    unfold readableChar
    split
    · decide
    · rename_i h
      repeat' split
      all_goals first | decide | (simp only [List.mem_singleton]; exact fun e => h e.symm)

/-- The text of a number or truth value. -/
def plotText (fmtD : UInt64 → Bytes) : AVal → Option Bytes
  | .int v => some (intText v)
  | .dbl d => some (fmtD d)
  | .bool v => some (if v ≠ 0 then asc "true" else asc "false")
  | _ => none

/-- What `%.17g` gives: something, without spaces, newlines and capital letters in front. -/
def DoubleText (fmtD : UInt64 → Bytes) : Prop := ∀ d, fmtD d ≠ [] ∧ (32 : Byte) ∉ fmtD d ∧ (10 : Byte) ∉ fmtD d ∧ (69 : Byte) ∉ fmtD d

theorem plot_bytes {fmtD : UInt64 → Bytes} (hD : DoubleText fmtD) {v : AVal} {t : Bytes} (h : plotText fmtD v = some t) :
    (cellOf fmtD (some v)).bytes = t ∧ t ≠ [] ∧ (32 : Byte) ∉ t ∧ (10 : Byte) ∉ t ∧ (69 : Byte) ∉ t := by
  cases v with
  | str => simp [plotText] at h
  | fac => simp [plotText] at h
  | int v =>
    simp only [plotText, Option.some.injEq] at h
    subst h
    have := intText_byte v
    exact ⟨rfl, intText_ne v, fun h => (this _ h).2.2.2.1 rfl, fun h => (this _ h).2.2.1 rfl, fun h => (this _ h).2.2.2.2 rfl⟩
  | dbl d =>
    simp only [plotText, Option.some.injEq] at h
    subst h
    exact ⟨rfl, hD d⟩
  | bool v =>
    simp only [plotText, Option.some.injEq] at h
    subst h
    refine ⟨rfl, ?_⟩
    by_cases hv : v ≠ 0
    · rw [if_pos hv]
      decide
    · rw [if_neg hv]
      decide

theorem takeWhile_block {L : List Bytes} {e : Bytes} (h : ∀ l ∈ L, l ≠ e) (rest : List Bytes) :
    (L ++ e :: rest).takeWhile (· != e) = L ∧ ((L ++ e :: rest).dropWhile (· != e)).drop 1 = rest := by
  induction L with
  | nil => simp
  | cons l L ih =>
    have h1 : (l != e) = true := by simp [h l (by simp)]
    have h2 := ih (fun x hx => h x (by simp [hx]))
    rw [List.cons_append, List.takeWhile_cons, List.dropWhile_cons]
    simp only [h1, if_true, h2.1]
    exact ⟨trivial, h2.2⟩

/-- **C118**: a data frame of numbers and truth values without missing cells is a block with the labels and one line for every row; the
fields of that line are the cells of the row. Nothing is left behind the block. -/
theorem c118_data_partial (fmtF : Rat → Bytes) {fmtD : UInt64 → Bytes} (hD : DoubleText fmtD) {df : DFrame} {a : ATab} (h : DfRep df a)
    (hc : a.cols ≠ []) (text : Nat → Nat → Bytes)
    (hv : ∀ r c, r < a.n → c < a.cols.length → ∃ v, a.cell r c = some v ∧ plotText fmtD v = some (text r c))
    {label : Bytes} (hl : (10 : Byte) ∉ label) :
    ∃ bs head rows, gpSendFrame fmtF fmtD df (some label) = .ok bs ∧
      gpBlock bs = some (36 :: label ++ asc " << EOD", head :: rows, []) ∧
      rows.map (gpFields []) = (List.range a.n).map (fun r => (List.range a.cols.length).map (text r)) ∧
      ((∀ x ∈ a.cols, (32 : Byte) ∉ readableBody x.2) →
        gpFields [] head = a.cols.map (fun x => 34 :: readableBody x.2 ++ [34])) := by
  have hlen : 0 < a.cols.length := List.length_pos_iff.mpr hc
  have hcell : ∀ r c, r < a.n → c < a.cols.length → (cellOf fmtD (a.cell r c)).bytes = text r c ∧ text r c ≠ [] ∧
      (32 : Byte) ∉ text r c ∧ (10 : Byte) ∉ text r c ∧ (69 : Byte) ∉ text r c := by
    intro r c hr hcc
    obtain ⟨v, e1, e2⟩ := hv r c hr hcc
    rw [e1]
    exact plot_bytes hD e2
  let head := spJoin (a.cols.map (fun x => fputsReadable (some x.2)))
  let rows := (List.range a.n).map (fun r => spJoin ((List.range a.cols.length).map (text r)))
  have hp : dfFprintf fmtD df [32] = .ok ((head :: rows).map (· ++ [10])).flatten := by
    unfold dfFprintf
    rw [h.len, h.n, Int.toNat_natCast, spPrintLabels h (a.cols.length - 1) 0 (by omega), spPrintRows fmtD h hc _ 0 rfl]
    simp only [Res.ok_bind, Res.pure_eq, List.drop_zero, Nat.sub_zero, List.map_cons, List.flatten_cons, ← List.range_eq_range']
    congr 4
    apply List.map_congr_left
    intro r hr
    congr 1
    apply List.map_congr_left
    intro c hcc
    exact (hcell r c (List.mem_range.mp hr) (List.mem_range.mp hcc)).1
  have hrow : ∀ l ∈ rows, (10 : Byte) ∉ l ∧ (69 : Byte) ∉ l := by
    intro l hl
    obtain ⟨r, hr, rfl⟩ := List.mem_map.mp hl
    refine ⟨fun hb => ?_, fun hb => ?_⟩ <;>
    · rcases spJoin_mem hb with e | ⟨t, ht, hb⟩
      · simp at e
      · obtain ⟨c, hcc, rfl⟩ := List.mem_map.mp ht
        have := hcell r c (List.mem_range.mp hr) (List.mem_range.mp hcc)
        simp_all
  have hhead : (10 : Byte) ∉ head ∧ head ≠ asc "EOD" := by
    refine ⟨fun hb => ?_, ?_⟩
    · rcases spJoin_mem hb with e | ⟨t, ht, hb⟩
      · simp at e
      · obtain ⟨x, hx, rfl⟩ := List.mem_map.mp ht
        have := readable_nl x.2
        simp_all [fputsReadable]
    · obtain ⟨x, xs, e⟩ := List.exists_cons_of_ne_nil hc
      obtain ⟨l', e'⟩ := spJoin_head (t := fputsReadable (some x.2)) (ts := xs.map (fun x => fputsReadable (some x.2)))
        (b := 34) (l := readableBody x.2 ++ [34]) rfl
      simp only [head, e, List.map_cons, e']
      intro q
      have := congrArg List.head? q
      revert this
      simp only [List.head?_cons]
      decide
  refine ⟨(((36 :: label ++ asc " << EOD") :: (head :: rows) ++ [asc "EOD"]).map (· ++ [10])).flatten, head, rows, ?_, ?_, ?_, ?_⟩
  · have e1 : cFormat fmtF (asc "$%s << EOD\n") [.str label] = .ok (36 :: (label ++ asc " << EOD\n")) := rfl
    simp only [gpSendFrame, e1, hp, Res.ok_bind, Res.pure_eq]
    simp only [List.cons_append, List.map_cons, List.map_append, List.flatten_cons, List.flatten_append, List.append_assoc,
      List.map_nil, List.flatten_nil, List.append_nil]
    rfl
  · unfold gpBlock
    have h10 : ∀ l ∈ (36 :: label ++ asc " << EOD") :: (head :: rows) ++ [asc "EOD"], (10 : Byte) ∉ l := by
      intro l hl'
      simp only [List.cons_append, List.mem_cons, List.mem_append, List.not_mem_nil, or_false] at hl'
      rcases hl' with rfl | rfl | hl' | rfl
      · simp only [List.mem_cons, List.mem_append, not_or]
        exact ⟨by decide, hl, by decide⟩
      · exact hhead.1
      · exact (hrow l hl').1
      · decide
    rw [gpLines_all h10]
    have h69 : ∀ l ∈ head :: rows, l ≠ asc "EOD" := by
      intro l hl'
      rcases List.mem_cons.mp hl' with rfl | hl'
      · exact hhead.2
      · intro e
        apply (hrow l hl').2
        rw [e]
        decide
    have hb := takeWhile_block h69 []
    simp only [List.cons_append] at hb ⊢
    rw [if_pos (by simp), hb.1, hb.2]
  · simp only [rows, List.map_map]
    apply List.map_congr_left
    intro r hr
    simp only [Function.comp]
    apply gpFields_join
    intro t ht
    obtain ⟨c, hcc, rfl⟩ := List.mem_map.mp ht
    have := hcell r c (List.mem_range.mp hr) (List.mem_range.mp hcc)
    exact ⟨this.2.1, this.2.2.1⟩
  · intro hs
    have : gpFields [] head = a.cols.map (fun x => fputsReadable (some x.2)) := by
      apply gpFields_join
      intro t ht
      obtain ⟨x, hx, rfl⟩ := List.mem_map.mp ht
      have := hs x hx
      simp [fputsReadable, this]
    rw [this]
    rfl

example : ∃ a : ATab, a.cols ≠ [] ∧ DoubleText (fun _ => asc "0.5") ∧
    DfRep ⟨1, [⟨.int, asc "x", [some (.int 3)], []⟩, ⟨.double, asc "y", [some (.dbl 7)], []⟩]⟩ a ∧
    (∀ r c, r < a.n → c < a.cols.length → ∃ v, a.cell r c = some v ∧ plotText (fun _ => asc "0.5") v =
      some (if c = 0 then asc "3" else asc "0.5")) := by
  refine ⟨⟨[(.int, asc "x"), (.double, asc "y")], 1, fun r c => if c = 0 then some (.int 3) else some (.dbl 7)⟩, by simp, ?_,
    ⟨rfl, rfl, ?_⟩, ?_⟩
  · unfold DoubleText
    intro _
    simp only
    decide
  · intro c dc hc
    match c, hc with
    | 0, hc =>
      cases hc
      refine ⟨_, rfl, rfl, rfl, by simp, fun r hr => ?_⟩
      obtain rfl : r = 0 := by simpa using hr
      exact ⟨_, rfl, by simp [Decodes]⟩
    | 1, hc =>
      cases hc
      refine ⟨_, rfl, rfl, rfl, by simp, fun r hr => ?_⟩
      obtain rfl : r = 0 := by simpa using hr
      exact ⟨_, rfl, by simp [Decodes]⟩
    | c + 2, hc => cases hc
  · intro r c hr hc
    match c, hc with
    | 0, _ => exact ⟨_, rfl, by decide +kernel⟩
    | 1, _ => exact ⟨_, rfl, rfl⟩
    | c + 2, hc =>
      simp only [List.length_cons, List.length_nil] at hc
      omega

/-- **C118** is false with missing cells: they take no place in the line, and rows that differ become the same fields. -/
theorem c118_na_false : ∃ (fmtF : Rat → Bytes) (fmtD : UInt64 → Bytes) (df df' : DFrame) (bs bs' : Bytes) (b b' : Bytes × List Bytes × List Bytes),
    dfGetInt df 0 0 = .ok 3 ∧ dfIsNa df' 0 0 = .ok true ∧
    gpSendFrame fmtF fmtD df (some (asc "d")) = .ok bs ∧ gpSendFrame fmtF fmtD df' (some (asc "d")) = .ok bs' ∧
    gpBlock bs = some b ∧ gpBlock bs' = some b' ∧ b.2.1.map (gpFields []) = b'.2.1.map (gpFields []) :=
  ⟨fun _ => asc "0.5", fun _ => asc "0.5", ⟨1, [⟨.int, asc "x", [some (.int 3)], []⟩, ⟨.int, asc "y", [none], []⟩]⟩,
    ⟨1, [⟨.int, asc "x", [none], []⟩, ⟨.int, asc "y", [some (.int 3)], []⟩]⟩,
    asc "$d << EOD\n\"x\" \"y\"\n3 \nEOD\n", asc "$d << EOD\n\"x\" \"y\"\n 3\nEOD\n",
    (asc "$d << EOD", [asc "\"x\" \"y\"", asc "3 "], []), (asc "$d << EOD", [asc "\"x\" \"y\"", asc " 3"], []),
    by decide +kernel, by decide +kernel, by decide +kernel, by decide +kernel, by decide +kernel, by decide +kernel,
    by decide +kernel⟩

/-- **C118** is false for strings with newlines: a cell can end the block, and what follows it is read as a command. -/
theorem c118_newline_false : ∃ (fmtF : Rat → Bytes) (fmtD : UInt64 → Bytes) (df : DFrame) (bs head row : Bytes) (after : List Bytes),
    dfGetString df 0 0 = .ok (asc "\nEOD\nquit\n") ∧ gpSendFrame fmtF fmtD df (some (asc "d")) = .ok bs ∧
    gpBlock bs = some (asc "$d << EOD", [head, row], asc "quit" :: after) :=
  ⟨fun _ => asc "0.5", fun _ => asc "0.5", ⟨1, [⟨.string, asc "x", [some (.str (asc "\nEOD\nquit\n"))], []⟩]⟩,
    asc "$d << EOD\n\"x\"\n\"\nEOD\nquit\n\"\nEOD\n", asc "\"x\"", asc "\"", [asc "\"", asc "EOD"],
    by decide +kernel, by decide +kernel, by decide +kernel⟩

/-! ## Memory -/

/-- **C118**: an object is one block, and a pipe if no stream is given; freeing it gives back what it took and leaves a given stream
open. -/
theorem c118_memory {σ : Mem} {l : List Nat} (h : Owns σ l) (stream : Option Nat) (popens : Bool)
    (hp : stream = none → popens = true) :
    ∃ σ' g σ'', gpNew σ stream popens = .ok (σ', g) ∧ (stream = none ↔ g.isPipe = true) ∧ (∀ s, stream = some s → g.stream = s) ∧
      Owns σ' (g.self :: (if g.isPipe then [g.stream] else []) ++ l) ∧ gpFree σ' (some g) = .ok σ'' ∧ Owns σ'' l := by
  have h1 := alloc_owns h
  have h2 := alloc_owns h1
  cases stream with
  | some s =>
    obtain ⟨σ2, e, h3⟩ := free_owns h1
    refine ⟨_, _, σ2, rfl, by simp, by simp, by simpa using h1, ?_, h3⟩
    simp only [gpFree, Bool.false_eq_true, if_false, memFree, Res.ok_bind]
    exact e
  | none =>
    obtain ⟨σ2, e2, h3⟩ := free_owns h2
    obtain ⟨σ3, e3, h4⟩ := free_owns h3
    refine ⟨(memAlloc (memAlloc σ).1).1, ⟨(memAlloc σ).2, (memAlloc (memAlloc σ).1).2, true⟩, σ3, by simp [gpNew, hp rfl], by simp,
      by simp, ?_, ?_, h4⟩
    · apply h2.swap
      intro q
      simp only [if_true, List.count_append, List.count_cons, List.count_nil]
      omega
    · simp only [gpFree, if_true]
      rw [e2, Res.ok_bind]
      exact e3

/-- Without a pipe there is no object. -/
theorem c118_no_pipe (σ : Mem) : gpNew σ none false = .fatal := rfl

example : Owns ⟨[0, 1], 2⟩ [0, 1] := owns_two

end Nx
