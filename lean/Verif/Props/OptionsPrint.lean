import Verif.Spec.OptionsPrint
import Verif.Lemmas.CNum
import Verif.Lemmas.Sample
import Verif.Props.JsonBundle

/-! # C107: printing the options -/

namespace Nx

theorem takeWhile_term {s : Bytes} (hs : CStr s) (rest : Bytes) : (s ++ 0 :: rest).takeWhile (· != 0) = s := by
  induction s with
  | nil => rfl
  | cons b s ih =>
    have hb : b ≠ 0 := by intro h; exact hs (by simp [h])
    rw [List.cons_append, List.takeWhile_cons, if_pos (by simpa using hb), ih (fun h => hs (List.mem_cons_of_mem _ h))]

theorem cStrOf_ok {s : Bytes} (hs : CStr s) (rest : Bytes) : cStrOf (s ++ 0 :: rest) = .ok s := by
  unfold cStrOf
  rw [if_pos (by simp), takeWhile_term hs]

theorem CStr.append {a b : Bytes} (ha : CStr a) (hb : CStr b) : CStr (a ++ b) := by
  intro h
  rcases List.mem_append.mp h with h | h
  · exact ha h
  · exact hb h

theorem CStr.take {a : Bytes} (ha : CStr a) (k : Nat) : CStr (a.take k) := fun h => ha (List.mem_of_mem_take h)

/-- C107. The joined names fit exactly into their memory. -/
theorem c107_join (junk : Nat → Byte) {o : HOpt} (h : Showable o) : nameJoin junk o.data.name o.data.shortName = .ok (some (label o.data)) := by
  unfold nameJoin label
  cases hn : o.data.name with
  | none =>
    cases hs : o.data.shortName with
    | none => rcases h.named with h' | h' <;> contradiction
    | some s => rfl
  | some n =>
    cases hs : o.data.shortName with
    | none => rfl
    | some s =>
      simp only
      have hn' := h.name_ok n hn
      have hs' := h.short_ok s hs
      obtain ⟨mem, hmem⟩ : ∃ mem, (List.range (n.length + s.length + 3)).map junk = mem := ⟨_, rfl⟩
      have hlen : mem.length = n.length + s.length + 3 := by rw [← hmem]; simp
      have hb2 : (bytesOf ", ").length = 2 := rfl
      rw [hmem, writeBlock_ok _ (by simp; omega), Res.ok_bind, writeBlock_ok _ (by simp [hb2]; omega), Res.ok_bind,
        writeBlock_ok _ (by simp [hb2]; omega), Res.ok_bind, writeAt_ok _ (by simp [hb2]; omega), Res.ok_bind]
      have key : ((List.take (n.length + 2) (List.take n.length (List.take 0 mem ++ (n ++ ([0] : Bytes)) ++ List.drop (0 + (n ++ ([0] : Bytes)).length) mem) ++ (bytesOf ", " ++ ([0] : Bytes)) ++
            List.drop (n.length + (bytesOf ", " ++ ([0] : Bytes)).length) (List.take 0 mem ++ (n ++ ([0] : Bytes)) ++ List.drop (0 + (n ++ ([0] : Bytes)).length) mem)) ++ (s ++ ([0] : Bytes)) ++
          List.drop (n.length + 2 + (s ++ ([0] : Bytes)).length) (List.take n.length (List.take 0 mem ++ (n ++ ([0] : Bytes)) ++ List.drop (0 + (n ++ ([0] : Bytes)).length) mem) ++ (bytesOf ", " ++ ([0] : Bytes)) ++
            List.drop (n.length + (bytesOf ", " ++ ([0] : Bytes)).length) (List.take 0 mem ++ (n ++ ([0] : Bytes)) ++ List.drop (0 + (n ++ ([0] : Bytes)).length) mem))).set
            (n.length + s.length + 3 - 1) 0) = (n ++ bytesOf ", " ++ s) ++ 0 :: [] := by
        have h1 : List.take 0 mem ++ (n ++ ([0] : Bytes)) ++ List.drop (0 + (n ++ ([0] : Bytes)).length) mem = n ++ (([0] : Bytes) ++ List.drop (n.length + 1) mem) := by simp
        rw [h1, List.take_left]
        have h2 : ∀ r : Bytes, List.take (n.length + 2) (n ++ (bytesOf ", " ++ ([0] : Bytes)) ++ r) = n ++ bytesOf ", " := by
          intro r
          rw [show n ++ (bytesOf ", " ++ ([0] : Bytes)) ++ r = (n ++ bytesOf ", ") ++ (([0] : Bytes) ++ r) from by simp]
          exact List.take_left' (by simp [hb2])
        rw [h2, List.drop_eq_nil_of_le (by simp [hb2]; omega), List.append_nil, ← List.append_assoc]
        apply List.ext_getElem?
        intro i
        rw [List.getElem?_set]
        split
        · next hi =>
          subst hi
          rw [if_pos (by simp [hb2]; omega), List.getElem?_append_right (by simp [hb2]; omega)]
          rw [show n.length + s.length + 3 - 1 - (n ++ bytesOf ", " ++ s).length = 0 from by simp [hb2]; omega]
          rfl
        · rfl
      rw [key, cStrOf_ok ((hn'.append (by decide)).append hs')]
      rfl

/-- C107. The text of a value is complete up to 1023 bytes. -/
theorem c107_text (fmtD : UInt64 → Bytes) (hf : ∀ v, CStr (fmtD v)) (junk : Nat → Byte) {type : OType} {value : OVal} (h : Typed type value) :
    optString fmtD junk type value = .ok ((fullText fmtD value).take 1023) := by
  obtain ⟨mem, hmem⟩ : ∃ mem, (List.range 1024).map junk = mem := ⟨_, rfl⟩
  have hlen : mem.length = 1024 := by rw [← hmem]; simp
  have hw : (mem.set 0 0).length = 1024 := by simp [hlen]
  unfold optString
  rw [hmem, writeAt_ok _ (by omega), Res.ok_bind]
  have h0 : cStrOf (mem.set 0 0) = .ok [] := by
    cases mem with
    | nil => simp at hlen
    | cons a l => exact cStrOf_ok (s := []) (by decide) _
  generalize mem.set 0 0 = m at hw h0 ⊢
  have main : ∀ t : Bytes, CStr t → (snprintf1024 m t >>= cStrOf) = .ok (t.take 1023) := by
    intro t ht
    unfold snprintf1024
    have hl : 0 + (t.take 1023 ++ ([0] : Bytes)).length ≤ m.length := by
      rw [hw, List.length_append, List.length_take]
      have : ([0] : Bytes).length = 1 := rfl
      omega
    rw [writeBlock_ok _ hl, Res.ok_bind, List.take_zero, List.nil_append, List.append_assoc]
    exact cStrOf_ok (ht.take _) _
  cases type <;> cases value <;> simp only [Typed, reduceCtorEq] at h <;> simp only [optWrite, fullText]
  · rename_i v
    by_cases hv : v = 0
    · subst hv
      exact main _ (by decide)
    · rw [if_pos hv, if_neg hv]
      exact main _ (by decide)
  · exact main _ (intText_cstr _)
  · exact main _ (hf _)
  · obtain ⟨t, rfl, ht⟩ := h
    simp only [cArg, Res.ok_bind, Option.getD_some]
    exact main _ (CStr.append (CStr.append (by decide) ht) (by decide))
  · rw [Res.ok_bind, h0, List.take_nil]

theorem natText_length (k n : Nat) (h : n < 10 ^ (k + 1)) : (natText n).length ≤ k + 1 := by
  induction k generalizing n with
  | zero =>
    rw [natText, if_pos (by simpa using h)]
    simp
  | succ k ih =>
    rw [natText]
    split
    · simp
    · have := ih (n / 10) (by rw [Nat.div_lt_iff_lt_mul (by decide)]; rw [← Nat.pow_succ]; exact h)
      simp
      omega

/-- C107. Whole numbers and truth values are never cut. -/
theorem c107_complete (fmtD : UInt64 → Bytes) :
    (∀ v : Int, -2147483648 ≤ v → v ≤ 2147483647 → (fullText fmtD (.i v)).take 1023 = intText v) ∧
    (∀ v : Int, (fullText fmtD (.b v)).take 1023 = if v = 0 then bytesOf "false" else bytesOf "true") ∧
    (∀ t : Bytes, t.length ≤ 1021 → (fullText fmtD (.s (some t))).take 1023 = bytesOf "'" ++ t ++ bytesOf "'") := by
  refine ⟨?_, ?_, ?_⟩
  · intro v h1 h2
    apply List.take_of_length_le
    show (intText v).length ≤ 1023
    have := natText_length 9 v.natAbs (by omega)
    unfold intText
    split
    · simp; omega
    · omega
  · intro v
    apply List.take_of_length_le
    show (if v = 0 then bytesOf "false" else bytesOf "true").length ≤ 1023
    split <;> decide
  · intro t ht
    apply List.take_of_length_le
    show (bytesOf "'" ++ t ++ bytesOf "'").length ≤ 1023
    have : (bytesOf "'").length = 1 := rfl
    simp [this]
    omega

/-- C107. The text of a string option is cut, without the closing quote, if it has 1022 bytes or more. -/
theorem c107_cut (fmtD : UInt64 → Bytes) (t : Bytes) (h : 1022 ≤ t.length) :
    (fullText fmtD (.s (some t))).take 1023 = bytesOf "'" ++ t.take 1022 := by
  show ((39 : Byte) :: (t ++ bytesOf "'")).take 1023 = (39 : Byte) :: t.take 1022
  rw [List.take_succ_cons, List.take_append_of_le_length h]

theorem nameLen_eq {o : HOpt} (h : Showable o) : nameLen o.data = .ok (label o.data).length := by
  unfold nameLen label
  have hb2 : (bytesOf ", ").length = 2 := rfl
  cases hn : o.data.name with
  | none =>
    cases hs : o.data.shortName with
    | none => rcases h.named with h' | h' <;> contradiction
    | some s => rfl
  | some n =>
    cases hs : o.data.shortName with
    | none => rfl
    | some s => simp [hb2]; omega

theorem columnLoop_spec {opts : List HOpt} (h : ∀ o ∈ opts, Showable o) (w : Nat) :
    ∃ w', columnLoop w opts = .ok w' ∧ w ≤ w' ∧ (∀ o ∈ opts, (label o.data).length ≤ w') ∧ (w' = w ∨ ∃ o ∈ opts, (label o.data).length = w') := by
  induction opts generalizing w with
  | nil => exact ⟨w, rfl, Nat.le_refl _, by simp, .inl rfl⟩
  | cons o rest ih =>
    rw [columnLoop, nameLen_eq (h o (by simp)), Res.ok_bind]
    obtain ⟨w', e, h1, h2, h3⟩ := ih (fun q hq => h q (by simp [hq])) (if (label o.data).length > w then (label o.data).length else w)
    refine ⟨w', e, ?_, ?_, ?_⟩
    · split at h1 <;> omega
    · intro q hq
      rcases List.mem_cons.mp hq with rfl | hq
      · split at h1 <;> omega
      · exact h2 q hq
    · rcases h3 with h3 | ⟨q, hq, h3⟩
      · split at h3
        · exact .inr ⟨o, by simp, h3.symm⟩
        · exact .inl h3
      · exact .inr ⟨q, by simp [hq], h3⟩

/-- C107. The first column is as wide as the longest of the names. -/
theorem c107_column {opts : List HOpt} (h : ∀ o ∈ opts, Showable o) :
    (∃ w, columnSize opts none = .ok w ∧ Widest w (opts.map (fun o => label o.data))) ∧
    (∀ r name texts, RestHolds r name texts → ∃ w, columnSize opts (some r) = .ok w ∧ Widest w (opts.map (fun o => label o.data) ++ [name])) := by
  obtain ⟨w, e, _, h2, h3⟩ := columnLoop_spec h 0
  constructor
  · refine ⟨w, by unfold columnSize; rw [e]; rfl, ?_, ?_⟩
    · intro t ht
      obtain ⟨o, ho, rfl⟩ := List.mem_map.mp ht
      exact h2 o ho
    · rcases h3 with h3 | ⟨o, ho, h3⟩
      · cases opts with
        | nil => exact .inl ⟨rfl, h3⟩
        | cons o rest =>
          refine .inr ⟨label o.data, by simp, ?_⟩
          have := h2 o (by simp)
          omega
      · exact .inr ⟨_, List.mem_map.mpr ⟨o, ho, rfl⟩, h3⟩
  · intro r name texts hr
    refine ⟨if name.length > w then name.length else w, ?_, ?_, .inr ?_⟩
    · unfold columnSize
      rw [e, Res.ok_bind]
      simp only
      rw [hr.1]
      rfl
    · intro t ht
      rcases List.mem_append.mp ht with ht | ht
      · obtain ⟨o, ho, rfl⟩ := List.mem_map.mp ht
        have := h2 o ho
        split <;> omega
      · rw [List.mem_singleton.mp ht]
        split <;> omega
    · split
      · exact ⟨name, by simp, rfl⟩
      · next hc =>
        rcases h3 with h3 | ⟨o, ho, h3⟩
        · exact ⟨name, by simp, by omega⟩
        · exact ⟨_, List.mem_append_left _ (List.mem_map.mpr ⟨o, ho, rfl⟩), h3⟩

variable {fmtD : UInt64 → Bytes} {junk : Nat → Byte}

theorem valueLines_spec (hf : ∀ v, CStr (fmtD v)) {opts : List HOpt} (h : ∀ o ∈ opts, Showable o) (w : Nat) :
    valueLines fmtD junk w opts = .ok ((opts.filter (fun o => o.data.type ≠ .help)).map (valueText fmtD w)).flatten := by
  induction opts with
  | nil => rfl
  | cons o rest ih =>
    have ho := h o (by simp)
    have e : valueLine fmtD junk w o = .ok (if o.data.type ≠ .help then valueText fmtD w o else []) := by
      unfold valueLine
      by_cases hc : o.data.type = .help
      · rw [if_neg (by simpa using hc), if_neg (by simpa using hc)]
        rfl
      · rw [if_pos hc, if_pos hc, c107_text fmtD hf junk ho.value_ok, Res.ok_bind, c107_join junk ho, Res.ok_bind]
        rfl
    rw [valueLines, e, Res.ok_bind, ih (fun q hq => h q (by simp [hq])), Res.ok_bind, List.filter_cons]
    by_cases hc : o.data.type = .help
    · simp [hc]
    · simp [hc]

theorem joined_snoc (ts : List Bytes) (hne : ts ≠ []) (t : Bytes) : joined (ts ++ [t]) = joined ts ++ bytesOf ", " ++ t := by
  induction ts with
  | nil => contradiction
  | cons a ts ih =>
    cases ts with
    | nil => simp [joined]
    | cons b ts =>
      have e1 : ∀ (x : Bytes) (y : Bytes) (l : List Bytes), joined (x :: y :: l) = x ++ bytesOf ", " ++ joined (y :: l) := fun _ _ _ => rfl
      rw [List.cons_append, List.cons_append, e1, ← List.cons_append, ih (by simp), e1]
      simp only [List.append_assoc]

theorem restLine_spec {r : HRest} {name : Bytes} {texts : List Bytes} (hr : RestHolds r name texts) (w : Nat) :
    restLine w r = .ok (restText w name texts) := by
  obtain ⟨h1, h2, h3⟩ := hr
  unfold restLine
  rw [h1, h2, h3]
  simp only [cArg, Res.ok_bind, Int.toNat_natCast]
  obtain ⟨s, e, hs⟩ := forLoop_spec (n := texts.length) (body := restItem (texts.map some) texts.length) (i0 := 0) (s := padLeft w name ++ bytesOf ": [")
    (fun i s => s = padLeft w name ++ bytesOf ": [" ++ joined ((texts.take i).map (fun t => bytesOf "'" ++ t ++ bytesOf "'")) ++
      (if 0 < i ∧ i < texts.length then bytesOf ", " else [])) (Nat.zero_le _) (by simp [joined])
    (by
      intro i s _ hi hs
      have hg : texts[i]? = some texts[i] := List.getElem?_eq_getElem hi
      have hr : readAt (texts.map some) i = .ok (some texts[i]) := readAt_some (by rw [List.getElem?_map, hg]; rfl)
      have ht : texts.take (i + 1) = texts.take i ++ [texts[i]] := by rw [List.take_add_one, hg]; rfl
      have hj : joined ((texts.take i).map (fun t => bytesOf "'" ++ t ++ bytesOf "'")) ++ (if 0 < i ∧ i < texts.length then bytesOf ", " else []) ++
          (bytesOf "'" ++ texts[i] ++ bytesOf "'") = joined ((texts.take (i + 1)).map (fun t => bytesOf "'" ++ t ++ bytesOf "'")) := by
        rw [ht, List.map_append, List.map_cons, List.map_nil]
        by_cases h0 : i = 0
        · subst h0
          simp [joined]
        · rw [joined_snoc _ (by intro hc; rw [List.map_eq_nil_iff, List.take_eq_nil_iff] at hc; rcases hc with hc | hc; omega; rw [hc] at hi; simp at hi),
            if_pos ⟨by omega, hi⟩]
      unfold restItem
      rw [hr, Res.ok_bind]
      simp only [cArg, Res.ok_bind]
      rw [hs, ← hj]
      by_cases hl : i = texts.length - 1
      · rw [if_neg (by simpa using hl)]
        refine ⟨_, rfl, ?_⟩
        rw [if_neg (show ¬ (0 < i + 1 ∧ i + 1 < texts.length) by omega)]
        simp only [List.append_assoc, List.append_nil]
      · rw [if_pos hl]
        refine ⟨_, rfl, ?_⟩
        rw [if_pos (show 0 < i + 1 ∧ i + 1 < texts.length by omega)]
        simp only [List.append_assoc])
  rw [e, Res.ok_bind, hs, List.take_length, if_neg (by omega), List.append_nil]
  rfl

/-- C107. The list of values has one line for every option but those for help, in order, with all names at the right end of a column of the width of
the longest name, and a line for the rest. -/
theorem c107_values (hf : ∀ v, CStr (fmtD v)) {opts : List HOpt} (h : ∀ o ∈ opts, Showable o) :
    (∃ w, Widest w (opts.map (fun o => label o.data)) ∧
      printValues fmtD junk opts none = .ok ((opts.filter (fun o => o.data.type ≠ .help)).map (valueText fmtD w)).flatten) ∧
    (∀ r name texts, RestHolds r name texts → ∃ w, Widest w (opts.map (fun o => label o.data) ++ [name]) ∧
      printValues fmtD junk opts (some r) = .ok (((opts.filter (fun o => o.data.type ≠ .help)).map (valueText fmtD w)).flatten ++ restText w name texts)) := by
  obtain ⟨⟨w, e, hw⟩, hrest⟩ := c107_column h
  constructor
  · refine ⟨w, hw, ?_⟩
    unfold printValues
    rw [e, Res.ok_bind, valueLines_spec hf h, Res.ok_bind]
    rfl
  · intro r name texts hr
    obtain ⟨w, e, hw⟩ := hrest r name texts hr
    refine ⟨w, hw, ?_⟩
    unfold printValues
    rw [e, Res.ok_bind, valueLines_spec hf h, Res.ok_bind]
    simp only
    rw [restLine_spec hr, Res.ok_bind]
    rfl

/-- C107. All separators stand in the same column. -/
theorem c107_aligned {w : Nat} {t : Bytes} (h : t.length ≤ w) (rest : Bytes) :
    (aligned w t).length = w ∧ (aligned w t ++ bytesOf ": " ++ rest)[w]? = some 58 ∧ (aligned w t).drop (w - t.length) = t ∧
      ∀ i < w - t.length, (aligned w t)[i]? = some 32 := by
  have hl : (aligned w t).length = w := by simp [aligned]; omega
  refine ⟨hl, ?_, ?_, ?_⟩
  · rw [List.append_assoc, List.getElem?_append_right (by omega), hl, Nat.sub_self]
    rfl
  · unfold aligned
    exact List.drop_left' (by simp)
  · intro i hi
    unfold aligned
    rw [List.getElem?_append_left (by simpa using hi), List.getElem?_replicate, if_pos hi]

theorem usageLines_spec (hf : ∀ v, CStr (fmtD v)) {opts : List HOpt} (h : ∀ o ∈ opts, Showable o) (w : Nat) :
    usageLines fmtD junk w opts = .ok (opts.map (usageText fmtD w)).flatten := by
  induction opts with
  | nil => rfl
  | cons o rest ih =>
    have ho := h o (by simp)
    have e : usageLine fmtD junk w o = .ok (usageText fmtD w o) := by
      obtain ⟨t, ht⟩ := ho.help_ok
      unfold usageLine usageText defaultText
      rw [c107_join junk ho, Res.ok_bind, c107_text fmtD hf junk ho.dflt_ok, Res.ok_bind, ht]
      simp only [cArg, Res.ok_bind, Option.getD_some]
      cases hr : o.data.isRequired
      · by_cases hc : o.data.type = .help
        · have hd := ho.dflt_ok
          rw [hc] at hd
          cases hv : o.data.dflt <;> rw [hv] at hd <;> simp [Typed] at hd
          simp [hc, fullText, padLeft, aligned, Res.pure_eq]
          rfl
        · simp [hc, padLeft, aligned, Res.pure_eq]
          rfl
      · simp [padLeft, aligned, Res.pure_eq]
        rfl
    rw [usageLines, e, Res.ok_bind, ih (fun q hq => h q (by simp [hq])), Res.ok_bind]
    rfl

/-- C107. The usage text: header, program, name of the rest, one line for every option, footer. -/
theorem c107_usage (hf : ∀ v, CStr (fmtD v)) {opts : List HOpt} (h : ∀ o ∈ opts, Showable o) (header footer prog : Option Bytes) :
    ∃ w, Widest w (opts.map (fun o => label o.data)) ∧
      printUsage fmtD junk header footer prog opts none = .ok (header.getD [] ++ bytesOf "USAGE: " ++ prog.getD (bytesOf "prog") ++ bytesOf " [options]\n" ++
        (opts.map (usageText fmtD w)).flatten ++ footer.getD []) ∧
      ∀ r name texts, RestHolds r name texts →
        printUsage fmtD junk header footer prog opts (some r) = .ok (header.getD [] ++ bytesOf "USAGE: " ++ prog.getD (bytesOf "prog") ++
          bytesOf " [options]" ++ (if r.data.isRequired then bytesOf " <" ++ name ++ bytesOf ">" else bytesOf " [<" ++ name ++ bytesOf ">]") ++ bytesOf "\n" ++
          (opts.map (usageText fmtD w)).flatten ++ footer.getD []) := by
  obtain ⟨⟨w, e, hw⟩, _⟩ := c107_column h
  have hl : usageBody fmtD junk opts = .ok (opts.map (usageText fmtD w)).flatten := by
    cases opts with
    | nil => rfl
    | cons o rest =>
      unfold usageBody
      rw [if_neg (by simp), e, Res.ok_bind, usageLines_spec hf h]
  refine ⟨w, hw, ?_, ?_⟩
  · unfold printUsage usageRest
    simp only [Res.ok_bind]
    rw [hl, Res.ok_bind]
    simp [Res.pure_eq]
    rfl
  · intro r name texts hr
    unfold printUsage usageRest
    simp only
    rw [hr.1]
    simp only [cArg, Res.ok_bind, Res.pure_eq]
    rw [hl, Res.ok_bind]
    rfl

/-- An option with two names and one for help. -/
def demoOpts : List HOpt :=
  [⟨⟨some (bytesOf "-n"), some (bytesOf "--number"), .int, .i 7, false, true, .i (-3)⟩, some (bytesOf "how many")⟩,
   ⟨⟨some (bytesOf "-h"), none, .help, .none, false, false, .none⟩, some (bytesOf "this help")⟩,
   ⟨⟨none, some (bytesOf "--out"), .string, .s (some (bytesOf "a b")), true, true, .s (some [])⟩, some (bytesOf "file")⟩]

/-- The options of the example are printable. -/
example : ∀ o ∈ demoOpts, Showable o := by
  intro o ho
  simp only [demoOpts, List.mem_cons, List.not_mem_nil, or_false] at ho
  rcases ho with rfl | rfl | rfl
  · exact ⟨by simp, by intro n h; cases h; decide, by intro n h; cases h; decide, trivial, trivial, _, rfl⟩
  · exact ⟨by simp, (by intro n h; cases h), by intro n h; cases h; decide, rfl, rfl, _, rfl⟩
  · exact ⟨by simp, by intro n h; cases h; decide, (by intro n h; cases h), ⟨_, rfl, by decide⟩, ⟨_, rfl, by decide⟩, _, rfl⟩

/-- What is printed for it. -/
example : printValues (fun _ => []) (fun _ => 65) demoOpts (some ⟨⟨true, true, some [some (bytesOf "x"), some (bytesOf "y")], 2⟩, some (bytesOf "files")⟩) =
    .ok (bytesOf "--number, -n: 7\n       --out: 'a b'\n       files: ['x', 'y']\n") := by decide +kernel

example : printUsage (fun _ => []) (fun _ => 65) none none none demoOpts none =
    .ok (bytesOf "USAGE: prog [options]\n  --number, -n : how many [-3]\n            -h : this help \n         --out : file (REQUIRED)\n") := by
  decide +kernel

end Nx
