import Verif.Lemmas.JsonPrint

/-!
# C20–C23: JSON reading and printing

`ValText v w` (`Verif/Spec/Json.lean`) says that the text `w` spells the value `v`,
`treeOf v` is the node tree representing `v`.
-/

namespace Nx

mutual

theorem allTrue_eq (v : JVal) (h : NoFalseNull v) : allTrue v = v := by
  cases v with
  | fls => exact absurd h (by simp [NoFalseNull])
  | nul => exact absurd h (by simp [NoFalseNull])
  | arr e => unfold NoFalseNull at h; unfold allTrue; rw [allTrueElems_eq e h]
  | obj m => unfold NoFalseNull at h; unfold allTrue; rw [allTrueMembers_eq m h]
  | str => simp [allTrue]
  | int => simp [allTrue]
  | fp => simp [allTrue]
  | tru => simp [allTrue]

theorem allTrueElems_eq (e : JElems) (h : NoFalseNullElems e) : allTrueElems e = e := by
  cases e with
  | nil => simp [allTrueElems]
  | cons v e => unfold NoFalseNullElems at h; unfold allTrueElems; rw [allTrue_eq v h.1, allTrueElems_eq e h.2]

theorem allTrueMembers_eq (m : JMembers) (h : NoFalseNullMembers m) : allTrueMembers m = m := by
  cases m with
  | nil => simp [allTrueMembers]
  | cons k v m => unfold NoFalseNullMembers at h; unfold allTrueMembers; rw [allTrue_eq v h.1, allTrueMembers_eq m h.2]

end

/-- The reader never gets stuck: see C23. -/
theorem fromString_out (T : Bytes) :
    (∃ v x y, jsonFromString T = .ok (treeOf (allTrue v)) ∧ v.IsContainer ∧ lexVisible T = x ++ y ∧
      ValText v x ∧ LexOk y) ∨ jsonFromString T = .fatal := by
  unfold jsonFromString
  obtain ⟨l, h1, h2⟩ := lexNew_at T
  rw [h1]
  simp only [Res.ok_bind]
  have hlen : (lexVisible T).length ≤ T.length := (List.takeWhile_prefix _).length_le
  rcases pAt_consume_any h2 with ⟨s, m, g1, g2, g3⟩ | hf
  · rw [g1]
    simp only [Res.ok_bind]
    unfold jpParse
    by_cases ha : s.tok.type = .lsbrac
    · rw [if_pos ha]
      rcases (parser_out T (3 * T.length + 4)).array s _ m g2 (by omega) with
        ⟨n, s', m', e, x, y, k1, k2, k3, k4, ⟨_, _, _, z, _, _, _, k5, _⟩, _⟩ | hf
      · left
        rw [k1]
        refine ⟨.arr e, x, y, ?_, trivial, k2, k3, _, z, k5⟩
        simp [k4, JNode.cons, treeOf]
      · right; rw [hf]; rfl
    · rw [if_neg ha]
      by_cases ho : s.tok.type = .lcbrac
      · rw [if_pos ho]
        rcases (parser_out T (3 * T.length + 4)).object s _ m g2 (by omega) with
          ⟨n, s', m', e, x, y, k1, k2, k3, k4, ⟨_, _, _, z, _, _, _, k5, _⟩, _⟩ | hf
        · left
          rw [k1]
          refine ⟨.obj e, x, y, ?_, trivial, k2, k3, _, z, k5⟩
          simp [k4, JNode.cons, treeOf]
        · right; rw [hf]; rfl
      · rw [if_neg ho]; exact Or.inr rfl
  · right; rw [hf]; rfl

theorem fromString_ok (T x y : Bytes) (v : JVal) (hT : lexVisible T = x ++ y) (hv : v.IsContainer)
    (hx : ValText v x) (hy : LexOk y) : jsonFromString T = .ok (treeOf (allTrue v)) := by
  have hno : jsonFromString T ≠ .ub := by
    rcases fromString_out T with ⟨v, x, y, h, _⟩ | h <;> rw [h] <;> simp
  revert hno
  unfold jsonFromString
  obtain ⟨l, h1, h2⟩ := lexNew_at T
  rw [h1]
  simp only [Res.ok_bind]
  rw [hT] at h2
  obtain ⟨tok, z, ht, hty⟩ := container_first (y := y) hx hv
  obtain ⟨s, m, g1, g2⟩ := lex_consume h2 ⟨tok, z, ht⟩
  rw [g1]
  simp only [Res.ok_bind]
  have hs := (pAt_tok g2 ht).1
  unfold jpParse
  cases v with
  | arr e =>
    have hs' : s.tok.type = .lsbrac := by rw [hs, hty]; rfl
    rw [if_pos hs']
    rcases (parser_ok T (3 * T.length + 4)).array e s x y m hx hy g2 with ⟨s', m', k1, k2⟩ | hu
    · rw [k1]; intro _; rfl
    · rw [hu]; intro hno; exact absurd rfl hno
  | obj e =>
    have hs' : s.tok.type = .lcbrac := by rw [hs, hty]; rfl
    rw [if_neg (by rw [hs']; simp), if_pos hs']
    rcases (parser_ok T (3 * T.length + 4)).object e s x y m hx hy g2 with ⟨s', m', k1, k2⟩ | hu
    · rw [k1]; intro _; rfl
    · rw [hu]; intro hno; exact absurd rfl hno
  | str => exact absurd hv (by simp [JVal.IsContainer])
  | int => exact absurd hv (by simp [JVal.IsContainer])
  | fp => exact absurd hv (by simp [JVal.IsContainer])
  | tru => exact absurd hv (by simp [JVal.IsContainer])
  | fls => exact absurd hv (by simp [JVal.IsContainer])
  | nul => exact absurd hv (by simp [JVal.IsContainer])

theorem ws_lexOk {y : Bytes} (h : Ws y) : LexOk y := ⟨_, [], Or.inl ⟨h, rfl, rfl⟩⟩

/-- C20. Printing the tree of a value and reading the text gives the same tree, for
every level of pretty printing. Missing: strings with the byte 255 (see
`c20_byte_255_fails`), `false` and `null` nodes (see `c21_false_null_become_true`;
the constructors of the library cannot create such nodes). -/
theorem c20_print_parse_partial (v : JVal) (hv : v.IsContainer) (hp : Printable v) (hn : NoFalseNull v)
    (level : Int) :
    ∃ w, jsonPrint level (treeOf v) = .ok w ∧ jsonFromString w = .ok (treeOf v) := by
  obtain ⟨w, h1, h2, h3⟩ := print_val v hp level 0
  refine ⟨w ++ [10], ?_, ?_⟩
  · unfold jsonPrint treeOf jsonPrintRec
    simp only
    rw [h1]; rfl
  · have hvis : lexVisible (w ++ [10]) = w ++ [10] := by
      have hl : LexStr (w ++ [10]) := lexStr_append h3 (by decide)
      exact lexVisible_CStr (fun h => (hl 0 h).1 rfl) (fun h => (hl 255 h).2 rfl)
    have := fromString_ok (w ++ [10]) w [10] v hvis hv h2 (ws_lexOk (by simp [Ws]))
    rw [allTrue_eq v hn] at this
    exact this

/-- A string with the byte 255 is printed as it is, and the reader takes this byte
for the end of the text. -/
theorem c20_byte_255_fails :
    ∃ w, jsonPrint 0 (treeOf (.arr (.cons (.str [255]) .nil))) = .ok w ∧ jsonFromString w = .fatal := by
  refine ⟨[91, 32, 34, 255, 34, 32, 93, 10], ?_, by decide +kernel⟩
  simp [treeOf, nodeOf, elemsOf, jsonPrint, jsonPrintRec, jsonPrintNode, jsonPrintElems, jsonSep,
    fputsReadable, readableBody, readableChar, ppStr, makeTab, childTab]

example : ∃ v : JVal, v.IsContainer ∧ Printable v ∧ NoFalseNull v ∧
    treeOf v = .node .array none (.node .integer (some [45, 51]) .nil
      (.node .object none (.node .string (some [34]) .nil (.node .tru none .nil .nil)) .nil)) .nil := by
  refine ⟨.arr (.cons (.int [45, 51]) (.cons (.obj (.cons [34] .tru .nil)) .nil)), trivial, ?_, ?_, ?_⟩
  · simp only [Printable, PrintableElems, PrintableMembers, and_true]
    refine ⟨⟨[45], [51], rfl, Or.inr rfl, Or.inr ⟨by simp [Digits, IsDigit], by simp⟩, Or.inl rfl, Or.inl rfl⟩, by decide⟩
  · simp [NoFalseNull, NoFalseNullElems, NoFalseNullMembers]
  · simp [treeOf, nodeOf, elemsOf, membersOf]

/-- C21. A document without `false` and `null` is read as the tree that represents
it, so its literals `true` are reported as such. Missing: the claim is false for
`false` and `null`, see `c21_false_null_become_true`. -/
theorem c21_literals_partial (T x y : Bytes) (v : JVal) (hT : lexVisible T = x ++ y) (hv : v.IsContainer)
    (hx : ValText v x) (hy : Ws y) (hn : NoFalseNull v) : jsonFromString T = .ok (treeOf v) := by
  rw [fromString_ok T x y v hT hv hx (ws_lexOk hy), allTrue_eq v hn]

/-- In every document, the literals `false` and `null` are read as `true`. -/
theorem c21_false_null_become_true (T x y : Bytes) (v : JVal) (hT : lexVisible T = x ++ y)
    (hv : v.IsContainer) (hx : ValText v x) (hy : Ws y) :
    jsonFromString T = .ok (treeOf (allTrue v)) :=
  fromString_ok T x y v hT hv hx (ws_lexOk hy)

example : jsonFromString (bytesOf "[false,null]") =
    .ok (.node .array none (.node .tru none .nil (.node .tru none .nil .nil)) .nil) := by decide +kernel

/-- C22. Reading succeeds exactly on the texts that start with an array or object of
the grammar and in which the next token after it is readable (or missing); the tree
represents the array or object (with `false` and `null` read as `true`). Missing:
that nothing follows, see `c22_trailing_text_accepted`. -/
theorem c22_accepted_partial (T : Bytes) (t : JTree) :
    jsonFromString T = .ok t ↔
    ∃ v x y, v.IsContainer ∧ lexVisible T = x ++ y ∧ ValText v x ∧ LexOk y ∧ t = treeOf (allTrue v) := by
  constructor
  · intro h
    rcases fromString_out T with ⟨v, x, y, h1, h2, h3, h4, h5⟩ | hf
    · rw [h] at h1; cases h1
      exact ⟨v, x, y, h2, h3, h4, h5, rfl⟩
    · rw [h] at hf; cases hf
  · rintro ⟨v, x, y, h1, h2, h3, h4, rfl⟩
    exact fromString_ok T x y v h2 h1 h3 h4

/-- All documents of the grammar are accepted. -/
theorem c22_documents_accepted (T x y : Bytes) (v : JVal) (hT : lexVisible T = x ++ y)
    (hv : v.IsContainer) (hx : ValText v x) (hy : Ws y) : ∃ t, jsonFromString T = .ok t :=
  ⟨_, fromString_ok T x y v hT hv hx (ws_lexOk hy)⟩

/-- Trailing text is accepted, contrary to the claim. -/
theorem c22_trailing_text_accepted :
    jsonFromString (bytesOf "[] ] not json") = .ok (treeOf (.arr .nil)) := by
  simp only [treeOf, nodeOf, elemsOf]
  decide +kernel

example : jsonFromString (bytesOf "[1,]") = .fatal ∧ jsonFromString (bytesOf "{\"a\":}") = .fatal ∧
    jsonFromString (bytesOf "1") = .fatal ∧ jsonFromString [] = .fatal := by decide +kernel

/-- C23. On every text the reader returns a tree or reports an error: it neither
accesses memory outside the text nor runs out of the recursion bound. -/
theorem c23_terminates (T : Bytes) : (∃ t, jsonFromString T = .ok t) ∨ jsonFromString T = .fatal := by
  rcases fromString_out T with ⟨v, x, y, h1, _⟩ | hf
  · exact Or.inl ⟨_, h1⟩
  · exact Or.inr hf

/-- C23: the outcome does not depend on the recursion bound, once it is large enough
for the text. -/
theorem c23_fuel_irrelevant (T : Bytes) (fuel : Nat) (hf : 3 * T.length + 4 ≤ fuel) :
    ∀ l s, lexNew T = .ok l → jpConsume l = .ok s → jpParse fuel s ≠ .ub := by
  intro l s hl hs
  obtain ⟨l', h1, h2⟩ := lexNew_at T
  rw [hl] at h1; cases h1
  have hlen : (lexVisible T).length ≤ T.length := (List.takeWhile_prefix _).length_le
  rcases pAt_consume_any h2 with ⟨s', m, g1, g2, g3⟩ | hfat
  · rw [hs] at g1; cases g1
    unfold jpParse
    split
    · rcases (parser_out T fuel).array s _ m g2 (by omega) with ⟨n, s', m', e, x, y, k1, _⟩ | hfat
      · rw [k1]; simp
      · rw [hfat]; simp
    · split
      · rcases (parser_out T fuel).object s _ m g2 (by omega) with ⟨n, s', m', e, x, y, k1, _⟩ | hfat
        · rw [k1]; simp
        · rw [hfat]; simp
      · simp
  · rw [hs] at hfat; cases hfat

end Nx
