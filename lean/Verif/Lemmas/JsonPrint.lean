import Verif.Lemmas.JsonComplete

/-! # Printed trees are texts of the grammar -/

namespace Nx

theorem ws_append {a b : Bytes} (ha : Ws a) (hb : Ws b) : Ws (a ++ b) := by
  intro x hx
  rcases List.mem_append.mp hx with h | h
  · exact ha x h
  · exact hb x h

theorem ws_ppStr (level : Int) : Ws (ppStr level) := by
  unfold ppStr Ws
  split <;> simp

theorem ws_makeTab (n : Int) : Ws (makeTab n) := by
  intro b hb
  unfold makeTab at hb
  rw [List.mem_replicate] at hb
  simp [hb.2]

theorem ws_lexStr {a : Bytes} (h : Ws a) : LexStr a := by
  intro b hb
  rcases h b hb with h | h | h | h <;> subst h <;> decide

theorem lexStr_append {a b : Bytes} (ha : LexStr a) (hb : LexStr b) : LexStr (a ++ b) := by
  intro x hx
  rcases List.mem_append.mp hx with h | h
  · exact ha x h
  · exact hb x h

theorem valText_ws {v : JVal} {a x : Bytes} (ha : Ws a) (h : ValText v x) : ValText v (a ++ x) := by
  cases v <;> unfold ValText at h ⊢
  case str => obtain ⟨b, q, e, hb, hq⟩ := h; exact ⟨a ++ b, q, by rw [e, List.append_assoc], ws_append ha hb, hq⟩
  case int => obtain ⟨b, e, hb, hq⟩ := h; exact ⟨a ++ b, by rw [e, List.append_assoc], ws_append ha hb, hq⟩
  case fp => obtain ⟨b, e, hb, hq⟩ := h; exact ⟨a ++ b, by rw [e, List.append_assoc], ws_append ha hb, hq⟩
  case tru => obtain ⟨b, e, hb⟩ := h; exact ⟨a ++ b, by rw [e, List.append_assoc], ws_append ha hb⟩
  case fls => obtain ⟨b, e, hb⟩ := h; exact ⟨a ++ b, by rw [e, List.append_assoc], ws_append ha hb⟩
  case nul => obtain ⟨b, e, hb⟩ := h; exact ⟨a ++ b, by rw [e, List.append_assoc], ws_append ha hb⟩
  case arr => obtain ⟨b, q, c, e, hb, hq⟩ := h; exact ⟨a ++ b, q, c, by rw [e]; simp, ws_append ha hb, hq⟩
  case obj => obtain ⟨b, q, c, e, hb, hq⟩ := h; exact ⟨a ++ b, q, c, by rw [e]; simp, ws_append ha hb, hq⟩

theorem readableBody_qbody (s : Bytes) : QBody (readableBody s) := by
  induction s with
  | nil => exact .nil
  | cons c s ih =>
    unfold readableBody readableChar
    split
    · exact .esc (by decide) ih
    · split
      · exact .esc (by decide) ih
      · split
        · exact .esc (by decide) ih
        · split
          · exact .esc (by decide) ih
          · split
            · exact .esc (by decide) ih
            · split
              · exact .esc (by decide) ih
              · split
                · exact .esc (by decide) ih
                · rename_i h1 h2; exact .plain ⟨h1, h2⟩ ih

theorem readableBody_lexStr {s : Bytes} (h : LexStr s) : LexStr (readableBody s) := by
  induction s with
  | nil => exact h
  | cons c s ih =>
    unfold readableBody
    refine lexStr_append ?_ (ih (fun b hb => h b (by simp [hb])))
    have hc := h c (by simp)
    unfold readableChar
    split
    · decide
    · split
      · decide
      · split
        · decide
        · split
          · decide
          · split
            · decide
            · split
              · decide
              · split
                · decide
                · intro b hb; simp only [List.mem_singleton] at hb; subst hb; exact hc

theorem print_str {s : Bytes} (h : LexStr s) :
    StrText s (fputsReadable (some s)) ∧ LexStr (fputsReadable (some s)) := by
  constructor
  · exact ⟨readableBody s, rfl, readableBody_qbody s, escaped_readableBody s⟩
  · exact lexStr_append (lexStr_append (by decide) (readableBody_lexStr h)) (by decide)

theorem digits_lexStr {w : Bytes} (h : ∀ b ∈ w, IsDigit b) : LexStr w := by
  intro b hb
  have := h b hb
  constructor
  · intro e; subst e; exact absurd this (by decide)
  · intro e; subst e; exact absurd this (by decide)

theorem parts_lexStr {sign int frac exp : Bytes} (h : JParts sign int frac exp) :
    LexStr (sign ++ int ++ frac ++ exp) := by
  refine lexStr_append (lexStr_append (lexStr_append ?_ ?_) ?_) ?_
  · rcases h.sign with e | e <;> subst e <;> decide
  · exact digits_lexStr h.int.digits.2
  · rcases h.frac with e | ⟨d, e, hd⟩
    · subst e; decide
    · subst e; exact lexStr_append (a := [46]) (by decide) (digits_lexStr hd.2)
  · rcases h.exp with e | ⟨c, s, d, e, hc, hs, hd⟩
    · subst e; decide
    · subst e
      refine lexStr_append (a := [c]) ?_ (lexStr_append ?_ (digits_lexStr hd.2))
      · rcases hc with e | e <;> subst e <;> decide
      · rcases hs with e | e | e <;> subst e <;> decide

theorem intText_lexStr {w : Bytes} (h : IntText w) : LexStr w := by
  obtain ⟨sign, int, e, hp⟩ := h
  subst e
  have := parts_lexStr hp
  simpa using this

theorem fpText_lexStr {w : Bytes} (h : FpText w) : LexStr w := by
  obtain ⟨sign, int, frac, exp, e, hp, _⟩ := h
  subst e
  exact parts_lexStr hp

theorem ws_sep (level tab : Int) : Ws (ppStr level ++ makeTab (childTab level tab)) :=
  ws_append (ws_ppStr _) (ws_makeTab _)

theorem sep_lexStr (level tab : Int) (t : JTree) : LexStr (jsonSep level tab t) := by
  cases t with
  | nil => show LexStr []; decide
  | node =>
    unfold jsonSep
    rw [List.append_assoc]
    exact lexStr_append (by decide) (ws_lexStr (ws_sep _ _))

theorem elemsText_ws {e : JElems} {a b x : Bytes} (ha : Ws a) (hb : Ws b) (h : ElemsText e x) :
    ∃ x' b', a ++ x ++ b = x' ++ b' ∧ ElemsText e x' ∧ Ws b' := by
  cases e with
  | nil =>
    unfold ElemsText at h; subst h
    exact ⟨[], a ++ b, by simp, by unfold ElemsText; rfl, ws_append ha hb⟩
  | cons v e =>
    unfold ElemsText at h
    obtain ⟨p, q, e, hp, hq⟩ := h
    exact ⟨a ++ x, b, rfl, by unfold ElemsText; exact ⟨a ++ p, q, by rw [e, List.append_assoc], valText_ws ha hp, hq⟩, hb⟩

theorem membersText_ws {e : JMembers} {a b x : Bytes} (ha : Ws a) (hb : Ws b) (h : MembersText e x) :
    ∃ x' b', a ++ x ++ b = x' ++ b' ∧ MembersText e x' ∧ Ws b' := by
  cases e with
  | nil =>
    unfold MembersText at h; subst h
    exact ⟨[], a ++ b, by simp, by unfold MembersText; rfl, ws_append ha hb⟩
  | cons k v e =>
    unfold MembersText at h
    obtain ⟨c, q, d, p, r, e, hc, hq, hd, hp, hr⟩ := h
    refine ⟨a ++ x, b, rfl, ?_, hb⟩
    unfold MembersText
    exact ⟨a ++ c, q, d, p, r, by rw [e]; simp, ws_append ha hc, hq, hd, hp, hr⟩

theorem elemsOf_sep_cons (level tab : Int) (v : JVal) (e : JElems) :
    jsonSep level tab (elemsOf (.cons v e)) = [44] ++ (ppStr level ++ makeTab (childTab level tab)) := by
  unfold elemsOf jsonSep; simp

theorem membersOf_sep_cons (level tab : Int) (k : Bytes) (v : JVal) (e : JMembers) :
    jsonSep level tab (membersOf (.cons k v e)) = [44] ++ (ppStr level ++ makeTab (childTab level tab)) := by
  unfold membersOf jsonSep; simp

mutual

theorem print_val (v : JVal) (h : Printable v) (level tab : Int) :
    ∃ w, jsonPrintNode level tab (nodeOf v).type (nodeOf v).text (nodeOf v).down = .ok w ∧ ValText v w ∧ LexStr w := by
  cases v with
  | str s =>
    unfold Printable at h
    unfold nodeOf jsonPrintNode ValText
    obtain ⟨h1, h2⟩ := print_str h
    exact ⟨_, rfl, ⟨[], _, rfl, by simp [Ws], h1⟩, h2⟩
  | int x =>
    unfold Printable at h
    unfold nodeOf jsonPrintNode ValText
    exact ⟨x, rfl, ⟨[], rfl, by simp [Ws], h⟩, intText_lexStr h⟩
  | fp x =>
    unfold Printable at h
    unfold nodeOf jsonPrintNode ValText
    exact ⟨x, rfl, ⟨[], rfl, by simp [Ws], h⟩, fpText_lexStr h⟩
  | tru =>
    unfold nodeOf jsonPrintNode ValText
    exact ⟨_, rfl, ⟨[], rfl, by simp [Ws]⟩, by decide⟩
  | fls =>
    unfold nodeOf jsonPrintNode ValText
    exact ⟨_, rfl, ⟨[], rfl, by simp [Ws]⟩, by decide⟩
  | nul =>
    unfold nodeOf jsonPrintNode ValText
    exact ⟨_, rfl, ⟨[], rfl, by simp [Ws]⟩, by decide⟩
  | arr e =>
    unfold Printable at h
    obtain ⟨w, h1, h2, _, h3⟩ := print_elems e h level tab
    unfold nodeOf jsonPrintNode ValText
    simp only
    rw [h1]
    simp only [Res.ok_bind, Res.pure_eq]
    obtain ⟨x', b', k1, k2, k3⟩ := elemsText_ws (ws_sep level tab)
      (ws_append (ws_ppStr level) (ws_makeTab (childTab level tab - 4))) h2
    refine ⟨_, rfl, ⟨[], x', b', ?_, by simp [Ws], k3, k2⟩, ?_⟩
    · simp only [List.append_assoc, List.nil_append] at k1 ⊢
      rw [← List.append_assoc x' b', ← k1]; simp
    · refine lexStr_append (lexStr_append (lexStr_append (lexStr_append (lexStr_append (lexStr_append ?_ ?_) ?_) h3) ?_) ?_) ?_
      · decide
      · exact ws_lexStr (ws_ppStr _)
      · exact ws_lexStr (ws_makeTab _)
      · exact ws_lexStr (ws_ppStr _)
      · exact ws_lexStr (ws_makeTab _)
      · decide
  | obj e =>
    unfold Printable at h
    obtain ⟨w, h1, h2, _, h3⟩ := print_members e h level tab
    unfold nodeOf jsonPrintNode ValText
    simp only
    rw [h1]
    simp only [Res.ok_bind, Res.pure_eq]
    obtain ⟨x', b', k1, k2, k3⟩ := membersText_ws (ws_sep level tab)
      (ws_append (ws_ppStr level) (ws_makeTab (childTab level tab - 4))) h2
    refine ⟨_, rfl, ⟨[], x', b', ?_, by simp [Ws], k3, k2⟩, ?_⟩
    · simp only [List.append_assoc, List.nil_append] at k1 ⊢
      rw [← List.append_assoc x' b', ← k1]; simp
    · refine lexStr_append (lexStr_append (lexStr_append (lexStr_append (lexStr_append (lexStr_append ?_ ?_) ?_) h3) ?_) ?_) ?_
      · decide
      · exact ws_lexStr (ws_ppStr _)
      · exact ws_lexStr (ws_makeTab _)
      · exact ws_lexStr (ws_ppStr _)
      · exact ws_lexStr (ws_makeTab _)
      · decide

theorem print_elems (e : JElems) (h : PrintableElems e) (level tab : Int) :
    ∃ w, jsonPrintElems level tab (elemsOf e) = .ok w ∧ ElemsText e w ∧
      MoreElemsText e (jsonSep level tab (elemsOf e) ++ w) ∧ LexStr w := by
  cases e with
  | nil =>
    unfold elemsOf jsonPrintElems ElemsText MoreElemsText jsonSep
    exact ⟨[], rfl, rfl, rfl, by decide⟩
  | cons v e =>
    unfold PrintableElems at h
    obtain ⟨x, h1, h2, h3⟩ := print_val v h.1 (level - 1) (tab + 4)
    obtain ⟨w, g1, _, g2, g3⟩ := print_elems e h.2 level tab
    refine ⟨x ++ jsonSep level tab (elemsOf e) ++ w, ?_, ?_, ?_, ?_⟩
    · rw [elemsOf, jsonPrintElems, h1]
      simp only [Res.ok_bind]
      rw [g1]; rfl
    · rw [ElemsText]
      exact ⟨x, _, by rw [List.append_assoc], h2, g2⟩
    · rw [MoreElemsText, elemsOf_sep_cons]
      exact ⟨[], _, _, by simp only [List.append_assoc, List.nil_append], by simp [Ws], valText_ws (ws_sep level tab) h2, g2⟩
    · exact lexStr_append (lexStr_append h3 (sep_lexStr _ _ _)) g3

theorem print_members (e : JMembers) (h : PrintableMembers e) (level tab : Int) :
    ∃ w, jsonPrintMembers level tab (membersOf e) = .ok w ∧ MembersText e w ∧
      MoreMembersText e (jsonSep level tab (membersOf e) ++ w) ∧ LexStr w := by
  cases e with
  | nil =>
    unfold membersOf jsonPrintMembers MembersText MoreMembersText jsonSep
    exact ⟨[], rfl, rfl, rfl, by decide⟩
  | cons k v e =>
    unfold PrintableMembers at h
    obtain ⟨hk, hv, he⟩ := h
    obtain ⟨x, h1, h2, h3⟩ := print_val v hv (level - 1) (tab + 4)
    obtain ⟨w, g1, _, g2, g3⟩ := print_members e he level tab
    obtain ⟨k1, k2⟩ := print_str hk
    have hws : Ws [32] := by simp [Ws]
    refine ⟨fputsReadable (some k) ++ [32, 58, 32] ++ x ++ jsonSep level tab (membersOf e) ++ w, ?_, ?_, ?_, ?_⟩
    · rw [membersOf, jsonPrintMembers, if_pos rfl, h1]
      simp only [Res.ok_bind]
      rw [g1]; rfl
    · rw [MembersText]
      exact ⟨[], _, [32], [32] ++ x, _, by simp only [List.append_assoc, List.nil_append]; rfl, by simp [Ws], k1, hws,
        valText_ws hws h2, g2⟩
    · rw [MoreMembersText, membersOf_sep_cons]
      exact ⟨[], ppStr level ++ makeTab (childTab level tab), _, [32], [32] ++ x, _,
        by simp only [List.append_assoc, List.nil_append]; rfl, by simp [Ws], ws_sep level tab, k1, hws,
        valText_ws hws h2, g2⟩
    · exact lexStr_append (lexStr_append (lexStr_append (lexStr_append k2 (by decide)) h3) (sep_lexStr _ _ _)) g3

end

end Nx
