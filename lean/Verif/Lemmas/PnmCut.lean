import Verif.Lemmas.PnmLoad

/-!
# Lemmas about image files that are cut short
-/

namespace Nx

theorem prefix_split {α : Type} {A B t : List α} (h : t <+: A ++ B) : t <+: A ∨ ∃ B', t = A ++ B' ∧ B' <+: B := by
  induction A generalizing t with
  | nil => exact Or.inr ⟨t, rfl, h⟩
  | cons a A ih =>
    cases t with
    | nil => exact Or.inl (List.nil_prefix)
    | cons b t =>
      obtain ⟨rfl, h'⟩ := List.cons_prefix_cons.mp h
      rcases ih h' with h'' | ⟨B', rfl, h''⟩
      · exact Or.inl (List.cons_prefix_cons.mpr ⟨rfl, h''⟩)
      · exact Or.inr ⟨B', rfl, h''⟩

theorem digitsVal_ge {acc : Nat} : ∀ (l : Bytes), acc ≤ digitsVal 10 acc l := by
  intro l
  induction l generalizing acc with
  | nil => exact Nat.le_refl _
  | cons b l ih =>
    rw [digitsVal]
    refine Nat.le_trans ?_ ih
    omega

theorem scanInt_nil {ws : Bytes} (hws : ∀ b ∈ ws, isSpaceB b = true) : scanInt ws = .ok none := by
  unfold scanInt
  rw [dropWhile_all hws]
  rfl

/-- A number cut short, or cut behind it. -/
theorem scanInt_cut {n : Nat} (hn : n ≤ 2147483647) {ws t : Bytes} (hws : ∀ b ∈ ws, isSpaceB b = true)
    (ht : t <+: natText n) : scanInt (ws ++ t) = .ok none ∨ ∃ v, scanInt (ws ++ t) = .ok (some (v, [])) := by
  cases t with
  | nil =>
    rw [List.append_nil]
    exact Or.inl (scanInt_nil hws)
  | cons b t =>
    right
    obtain ⟨u, hu⟩ := ht
    have hmem : ∀ x ∈ b :: t, x ∈ natText n := by
      intro x hx
      rw [← hu]
      exact List.mem_append_left _ hx
    have hall : ∀ x ∈ b :: t, isDigitB 10 x = true := fun x hx => isDigitB_of_mem_natText (hmem x hx)
    obtain ⟨d, hd, rfl⟩ := (natText_digits n).2 b (hmem b (by simp))
    have hle : digitsVal 10 0 (UInt8.ofNat (48 + d) :: t) ≤ n := by
      have h1 := digitsVal_natText n
      rw [← hu, digitsVal_append] at h1
      have h2 := digitsVal_ge (acc := digitsVal 10 0 (UInt8.ofNat (48 + d) :: t)) u
      omega
    refine ⟨digitsVal 10 0 (UInt8.ofNat (48 + d) :: t), ?_⟩
    unfold scanInt
    rw [dropWhile_stop hws (digit_not_space hd), takeSign_digit hd]
    simp only
    rw [takeWhile_all hall, dropWhile_all hall, if_neg (by simp)]
    simp only [Bool.false_eq_true, if_false]
    rw [if_pos (by omega)]

/-- Space between two numbers: one separator and the start of the next number. -/
theorem skip_prefix {c : Byte} (hc : isSpaceB c = true) {n : Nat} {t r : Bytes} (ht : t <+: natText n ++ r) :
    (c :: t).dropWhile isSpaceB = t := by
  rw [List.dropWhile_cons, if_pos hc]
  cases t with
  | nil => rfl
  | cons b t =>
    obtain ⟨d, u, hd, e⟩ := natText_cons n
    rw [e, List.cons_append] at ht
    obtain ⟨rfl, _⟩ := List.cons_prefix_cons.mp ht
    rw [List.dropWhile_cons, if_neg (by rw [digit_not_space hd]; simp)]

/-- The attributes cut anywhere. -/
theorem scan3_cut {rgba : Bool} {w h : Nat} (hw : w ≤ 2147483647) (hh : h ≤ 2147483647) {ws t p : Bytes}
    (hws : ∀ b ∈ ws, isSpaceB b = true) (ht : t <+: pnmAttrs rgba w h p) :
    scan3 (ws ++ t) = .ok none ∨ (∃ v, scan3 (ws ++ t) = .ok (some (((w : Int), (h : Int), v), []))) ∨
      ∃ p', p' <+: p ∧ t = pnmAttrs rgba w h p' := by
  have hsep : isSpaceB (if rgba then 10 else 32) = true := by cases rgba <;> rfl
  have hsepd : isDigitB 10 (if rgba then 10 else 32) = false := by cases rgba <;> decide
  unfold pnmAttrs at ht
  rw [intText_nat w] at ht
  rcases prefix_split ht with h1 | ⟨t1, rfl, h1⟩
  · left
    unfold scan3
    rcases scanInt_cut hw hws h1 with e | ⟨v, e⟩
    · rw [e]; rfl
    · rw [e]; rfl
  cases t1 with
  | nil =>
    left
    unfold scan3
    rw [List.append_nil]
    rcases scanInt_cut hw hws (List.prefix_refl (natText w)) with e | ⟨v, e⟩
    · rw [e]; rfl
    · rw [e]; rfl
  | cons c t1 =>
    obtain ⟨rfl, h2⟩ := List.cons_prefix_cons.mp h1
    rw [intText_nat h] at h2
    have e1 : scanInt (ws ++ (natText w ++ 32 :: t1)) = .ok (some ((w : Int), 32 :: t1)) := by
      rw [← intText_nat w]
      exact scanInt_natText hw hws isDigitB_space t1
    have e2 := skip_prefix (c := 32) (by decide) h2
    rcases prefix_split h2 with h3 | ⟨t2, rfl, h3⟩
    · left
      unfold scan3
      rw [e1]
      simp only [Res.ok_bind, scanFirst]
      rw [e2]
      rcases scanInt_cut hh (ws := []) (by simp) h3 with e | ⟨v, e⟩
      · rw [List.nil_append] at e
        rw [e]; rfl
      · rw [List.nil_append] at e
        rw [e]; rfl
    cases t2 with
    | nil =>
      left
      unfold scan3
      rw [e1]
      simp only [Res.ok_bind, scanFirst]
      rw [e2, List.append_nil]
      rcases scanInt_cut hh (ws := []) (by simp) (List.prefix_refl (natText h)) with e | ⟨v, e⟩
      · rw [List.nil_append] at e
        rw [e]; rfl
      · rw [List.nil_append] at e
        rw [e]; rfl
    | cons c t2 =>
      obtain ⟨rfl, h4⟩ := List.cons_prefix_cons.mp h3
      have e3 : scanInt (natText h ++ (if rgba then 10 else 32) :: t2) =
          .ok (some ((h : Int), (if rgba then 10 else 32) :: t2)) := by
        have := scanInt_natText hh (ws := []) (by simp) hsepd t2
        rwa [List.nil_append, intText_nat h] at this
      have e255 : intText 255 = natText 255 := intText_nat 255
      rw [e255] at h4
      have e4 := skip_prefix hsep h4
      rcases prefix_split h4 with h5 | ⟨t3, rfl, h5⟩
      · unfold scan3
        rw [e1]
        simp only [Res.ok_bind, scanFirst]
        rw [e2, e3]
        simp only [Res.ok_bind, scanSecond]
        rw [e4]
        rcases scanInt_cut (n := 255) (by omega) (ws := []) (by simp) h5 with e | ⟨v, e⟩
        · rw [List.nil_append] at e
          rw [e]
          exact Or.inl rfl
        · rw [List.nil_append] at e
          rw [e]
          exact Or.inr (Or.inl ⟨v, rfl⟩)
      cases t3 with
      | nil =>
        unfold scan3
        rw [e1]
        simp only [Res.ok_bind, scanFirst]
        rw [e2, e3]
        simp only [Res.ok_bind, scanSecond]
        rw [e4, List.append_nil]
        rcases scanInt_cut (n := 255) (by omega) (ws := []) (by simp) (List.prefix_refl (natText 255)) with e | ⟨v, e⟩
        · rw [List.nil_append] at e
          rw [e]
          exact Or.inl rfl
        · rw [List.nil_append] at e
          rw [e]
          exact Or.inr (Or.inl ⟨v, rfl⟩)
      | cons c t3 =>
        obtain ⟨rfl, h6⟩ := List.cons_prefix_cons.mp h5
        refine Or.inr (Or.inr ⟨t3, h6, ?_⟩)
        unfold pnmAttrs
        rw [intText_nat w, intText_nat h, e255]

/-- A file cut anywhere is rejected by both loaders. -/
theorem cut_rejected {junk : Nat → Byte} {mode : LoadMode} {rgba : Bool} {w h : Nat} {p t : Bytes}
    (hf : Fits (modeType mode rgba) w h) (hpos : 0 < w * h) (hp : p.length = fileBytes rgba * (w * h))
    (ht : t <+: pnmHeader rgba w h ++ p) (hlt : t.length < (pnmHeader rgba w h ++ p).length) :
    xloadPnm junk mode t = .fatal ∧ loadPnm junk mode t = .ok none := by
  have hfb : 0 < fileBytes rgba * (w * h) := Nat.mul_pos (by cases rgba <;> decide) hpos
  have hshort : ∀ r : Bytes, r.length < fileBytes rgba * (w * h) →
      readPnmData junk (modeType mode rgba) w h rgba r = .ok none := fun r => (readPnmData_spec junk hf r).1
  rw [pnmHeader_eq] at ht hlt
  unfold xloadPnm loadPnm
  cases t with
  | nil => exact ⟨rfl, rfl⟩
  | cons a t =>
    obtain ⟨rfl, h1⟩ := List.cons_prefix_cons.mp ht
    cases t with
    | nil => exact ⟨rfl, rfl⟩
    | cons b t =>
      obtain ⟨rfl, h2⟩ := List.cons_prefix_cons.mp h1
      rw [pnmMagic_eq]
      simp only [xloadBody, loadBody]
      cases t with
      | nil =>
        constructor
        · rw [List.dropWhile_nil, skipComments, if_neg (by simp)]
          rfl
        · rfl
      | cons c t =>
        obtain ⟨rfl, h3⟩ := List.cons_prefix_cons.mp h2
        have hskip : (10 :: t).dropWhile isPnmSpace = t ∧ skipComments t = .ok t := by
          cases t with
          | nil => exact ⟨rfl, by rw [skipComments, if_neg (by simp)]⟩
          | cons d t =>
            obtain ⟨d', u, hd, e⟩ := natText_cons w
            have h3' := h3
            unfold pnmAttrs at h3'
            rw [intText_nat w, e, List.cons_append] at h3'
            obtain ⟨rfl, _⟩ := List.cons_prefix_cons.mp h3'
            exact skip_digit hd t
        rw [hskip.1, hskip.2]
        simp only [Res.ok_bind]
        have hx := scan3_cut hf.1 hf.2.1 (ws := []) (by simp) h3
        have hl := scan3_cut hf.1 hf.2.1 (ws := [10]) (by simp; decide) h3
        rw [List.nil_append] at hx
        rw [List.singleton_append] at hl
        by_cases hfull : ∃ p', p' <+: p ∧ t = pnmAttrs rgba w h p'
        · obtain ⟨p', hp', rfl⟩ := hfull
          have hplt : p'.length < fileBytes rgba * (w * h) := by
            rw [← hp]
            simp only [pnmAttrs, List.length_cons, List.length_append] at hlt
            omega
          have h4 := scan3_attrs (rgba := rgba) hf.1 hf.2.1 (ws := []) (by simp) p'
          have h5 := scan3_attrs (rgba := rgba) hf.1 hf.2.1 (ws := [10]) (by simp; decide) p'
          rw [List.nil_append] at h4
          rw [List.singleton_append] at h5
          rw [h4, h5]
          simp only [Res.ok_bind, xloadData, loadData, fgets256_newline, loadRest, List.drop_succ_cons, List.drop_zero]
          rw [hshort p' hplt]
          exact ⟨rfl, rfl⟩
        · constructor
          · rcases hx with e | ⟨v, e⟩ | e
            · rw [e]; rfl
            · rw [e]
              simp only [Res.ok_bind, xloadData, List.drop_nil]
              rw [hshort [] (by simpa using hfb)]
              rfl
            · exact absurd e hfull
          · rcases hl with e | ⟨v, e⟩ | e
            · rw [e]; rfl
            · rw [e]; rfl
            · exact absurd e hfull

end Nx
