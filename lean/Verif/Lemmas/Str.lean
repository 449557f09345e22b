import Verif.Model.Str
import Verif.Spec.Str

/-!
# Helper lemmas for the text conversions
-/

namespace Nx

theorem unescapeChar_iff (d e : Byte) : unescapeChar d = some e ↔ (d, e) ∈ escapeTable := by
  unfold unescapeChar escapeTable
  simp only [List.mem_cons, Prod.mk.injEq, List.not_mem_nil, or_false]
  constructor
  · intro h
    split at h
    · simp_all
    split at h
    · simp_all
    split at h
    · simp_all
    split at h
    · simp_all
    split at h
    · simp_all
    split at h
    · simp_all
    split at h
    · simp_all
    · simp at h
  · rintro (⟨rfl, rfl⟩ | ⟨rfl, rfl⟩ | ⟨rfl, rfl⟩ | ⟨rfl, rfl⟩ | ⟨rfl, rfl⟩ | ⟨rfl, rfl⟩ | ⟨rfl, rfl⟩) <;> decide

theorem unescapeChar_none (d : Byte) : unescapeChar d = none ↔ ∀ e, (d, e) ∉ escapeTable := by
  constructor
  · intro h e he
    rw [← unescapeChar_iff, h] at he
    simp at he
  · intro h
    cases hd : unescapeChar d with
    | none => rfl
    | some e => exact absurd ((unescapeChar_iff d e).1 hd) (h e)

theorem fromReadableLoop_spec (cap : Nat) : ∀ (size : Nat) (inp out : Bytes),
    inp.length = size → out.length + size < cap →
    (∀ s, fromReadableLoop cap size inp out = .ok s ↔ ∃ s', Escaped inp s' ∧ s = out ++ s') ∧
    (fromReadableLoop cap size inp out = .fatal ↔ ¬ ∃ s', Escaped inp s') ∧
    fromReadableLoop cap size inp out ≠ .ub := by
  intro size
  induction size using Nat.strongRecOn with
  | ind size ih =>
    intro inp out hlen hcap
    match size, inp with
    | 0, [] =>
      have h0 : fromReadableLoop cap 0 [] out = .ok out := by
        have hlt : out.length < cap := by omega
        simp [fromReadableLoop, push, hlt]
      rw [h0]
      refine ⟨?_, ?_, by simp⟩
      · intro s
        constructor
        · intro h
          simp at h
          exact ⟨[], .nil, by simp [h]⟩
        · rintro ⟨s', hs, rfl⟩
          cases hs
          simp
      · constructor
        · simp
        · intro h
          exact absurd ⟨[], .nil⟩ h
    | size + 1, c :: inp =>
      have hlen' : inp.length = size := by simpa using hlen
      by_cases hc : c = 92
      · subst hc
        match size, inp with
        | 0, [] =>
          have h0 : fromReadableLoop cap 1 [92] out = .fatal := by
            simp [fromReadableLoop]
          rw [h0]
          have hn : ¬ ∃ s', Escaped [92] s' := by
            rintro ⟨s', hs⟩
            cases hs with
            | plain h _ => exact h rfl
          refine ⟨?_, by simp [hn], by simp⟩
          intro s
          constructor
          · intro h; simp at h
          · rintro ⟨s', hs, _⟩; exact absurd ⟨s', hs⟩ hn
        | size' + 1, d :: inp' =>
          have hl2 : inp'.length = size' := by simpa using hlen'
          cases hd : unescapeChar d with
          | none =>
            have h0 : fromReadableLoop cap (size' + 1 + 1) (92 :: d :: inp') out = .fatal := by
              simp [fromReadableLoop, hd]
            rw [h0]
            have hn : ¬ ∃ s', Escaped (92 :: d :: inp') s' := by
              rintro ⟨s', hs⟩
              cases hs with
              | plain h _ => exact h rfl
              | esc h _ => exact (unescapeChar_none d).1 hd _ h
            refine ⟨?_, by simp [hn], by simp⟩
            intro s
            constructor
            · intro h; simp at h
            · rintro ⟨s', hs, _⟩; exact absurd ⟨s', hs⟩ hn
          | some e =>
            have h0 : fromReadableLoop cap (size' + 1 + 1) (92 :: d :: inp') out =
                fromReadableLoop cap size' inp' (out ++ [e]) := by
              have : out.length < cap := by omega
              simp [fromReadableLoop, hd, push, this]
            obtain ⟨i1, i2, i3⟩ := ih size' (by omega) inp' (out ++ [e]) hl2 (by simp; omega)
            rw [h0]
            have key : ∀ s', Escaped (92 :: d :: inp') s' ↔ ∃ s'', Escaped inp' s'' ∧ s' = e :: s'' := by
              intro s'
              constructor
              · intro hs
                cases hs with
                | plain h _ => exact absurd rfl h
                | esc h h2 =>
                  have := (unescapeChar_iff _ _).2 h
                  rw [hd] at this
                  cases this
                  exact ⟨_, h2, rfl⟩
              · rintro ⟨s'', hs, rfl⟩
                exact .esc ((unescapeChar_iff _ _).1 hd) hs
            refine ⟨?_, ?_, i3⟩
            · intro s
              rw [i1]
              constructor
              · rintro ⟨s', hs, rfl⟩
                exact ⟨e :: s', (key _).2 ⟨s', hs, rfl⟩, by simp⟩
              · rintro ⟨s', hs, rfl⟩
                obtain ⟨s'', hs'', rfl⟩ := (key _).1 hs
                exact ⟨s'', hs'', by simp⟩
            · rw [i2]
              constructor
              · rintro h ⟨s', hs⟩
                obtain ⟨s'', hs'', rfl⟩ := (key _).1 hs
                exact h ⟨s'', hs''⟩
              · rintro h ⟨s', hs⟩
                exact h ⟨_, (key _).2 ⟨s', hs, rfl⟩⟩
      · have h0 : fromReadableLoop cap (size + 1) (c :: inp) out =
            fromReadableLoop cap size inp (out ++ [c]) := by
          have : out.length < cap := by omega
          rw [fromReadableLoop.eq_def]
          simp [hc, push, this]
        obtain ⟨i1, i2, i3⟩ := ih size (by omega) inp (out ++ [c]) hlen' (by simp; omega)
        rw [h0]
        have key : ∀ s', Escaped (c :: inp) s' ↔ ∃ s'', Escaped inp s'' ∧ s' = c :: s'' := by
          intro s'
          constructor
          · intro hs
            cases hs with
            | plain _ h => exact ⟨_, h, rfl⟩
            | esc _ _ => exact absurd rfl hc
          · rintro ⟨s'', hs, rfl⟩
            exact .plain hc hs
        refine ⟨?_, ?_, i3⟩
        · intro s
          rw [i1]
          constructor
          · rintro ⟨s', hs, rfl⟩
            exact ⟨c :: s', (key _).2 ⟨s', hs, rfl⟩, by simp⟩
          · rintro ⟨s', hs, rfl⟩
            obtain ⟨s'', hs'', rfl⟩ := (key _).1 hs
            exact ⟨s'', hs'', by simp⟩
        · rw [i2]
          constructor
          · rintro h ⟨s', hs⟩
            obtain ⟨s'', hs'', rfl⟩ := (key _).1 hs
            exact h ⟨s'', hs''⟩
          · rintro h ⟨s', hs⟩
            exact h ⟨_, (key _).2 ⟨s', hs, rfl⟩⟩

theorem fromDoubleQuotedLoop_spec (cap : Nat) : ∀ (size : Nat) (inp out : Bytes),
    inp.length = size → out.length + size < cap →
    (∀ s, fromDoubleQuotedLoop cap size inp out = .ok s ↔ ∃ s', Doubled inp s' ∧ s = out ++ s') ∧
    (fromDoubleQuotedLoop cap size inp out = .fatal ↔ ¬ ∃ s', Doubled inp s') ∧
    fromDoubleQuotedLoop cap size inp out ≠ .ub := by
  intro size
  induction size using Nat.strongRecOn with
  | ind size ih =>
    intro inp out hlen hcap
    match size, inp with
    | 0, [] =>
      have h0 : fromDoubleQuotedLoop cap 0 [] out = .ok out := by
        have hlt : out.length < cap := by omega
        simp [fromDoubleQuotedLoop, push, hlt]
      rw [h0]
      refine ⟨?_, ?_, by simp⟩
      · intro s
        constructor
        · intro h
          simp at h
          exact ⟨[], .nil, by simp [h]⟩
        · rintro ⟨s', hs, rfl⟩
          cases hs
          simp
      · constructor
        · simp
        · intro h
          exact absurd ⟨[], .nil⟩ h
    | size + 1, c :: inp =>
      have hlen' : inp.length = size := by simpa using hlen
      by_cases hc : c = 34
      · subst hc
        have bad : ∀ (r : Res Bytes), r = .fatal → (¬ ∃ s', Doubled (34 :: inp) s') →
            ((∀ s, r = .ok s ↔ ∃ s', Doubled (34 :: inp) s' ∧ s = out ++ s') ∧
            (r = .fatal ↔ ¬ ∃ s', Doubled (34 :: inp) s') ∧ r ≠ .ub) := by
          rintro r rfl hn
          refine ⟨?_, by simp [hn], by simp⟩
          intro s
          constructor
          · intro h; simp at h
          · rintro ⟨s', hs, _⟩; exact absurd ⟨s', hs⟩ hn
        match size, inp with
        | 0, [] =>
          apply bad
          · simp [fromDoubleQuotedLoop]
          · rintro ⟨s', hs⟩
            cases hs with
            | plain h _ => exact h rfl
        | size' + 1, d :: inp' =>
          have hl2 : inp'.length = size' := by simpa using hlen'
          by_cases hd : d = 34
          · subst hd
            have h0 : fromDoubleQuotedLoop cap (size' + 1 + 1) (34 :: 34 :: inp') out =
                fromDoubleQuotedLoop cap size' inp' (out ++ [34]) := by
              have : out.length < cap := by omega
              simp [fromDoubleQuotedLoop, push, this]
            obtain ⟨i1, i2, i3⟩ := ih size' (by omega) inp' (out ++ [34]) hl2 (by simp; omega)
            rw [h0]
            have key : ∀ s', Doubled (34 :: 34 :: inp') s' ↔ ∃ s'', Doubled inp' s'' ∧ s' = 34 :: s'' := by
              intro s'
              constructor
              · intro hs
                cases hs with
                | plain h _ => exact absurd rfl h
                | quote h2 => exact ⟨_, h2, rfl⟩
              · rintro ⟨s'', hs, rfl⟩
                exact .quote hs
            refine ⟨?_, ?_, i3⟩
            · intro s
              rw [i1]
              constructor
              · rintro ⟨s', hs, rfl⟩
                exact ⟨34 :: s', (key _).2 ⟨s', hs, rfl⟩, by simp⟩
              · rintro ⟨s', hs, rfl⟩
                obtain ⟨s'', hs'', rfl⟩ := (key _).1 hs
                exact ⟨s'', hs'', by simp⟩
            · rw [i2]
              constructor
              · rintro h ⟨s', hs⟩
                obtain ⟨s'', hs'', rfl⟩ := (key _).1 hs
                exact h ⟨s'', hs''⟩
              · rintro h ⟨s', hs⟩
                exact h ⟨_, (key _).2 ⟨s', hs, rfl⟩⟩
          · apply bad
            · simp [fromDoubleQuotedLoop, hd]
            · rintro ⟨s', hs⟩
              cases hs with
              | plain h _ => exact h rfl
              | quote _ => exact hd rfl
      · have h0 : fromDoubleQuotedLoop cap (size + 1) (c :: inp) out =
            fromDoubleQuotedLoop cap size inp (out ++ [c]) := by
          have : out.length < cap := by omega
          rw [fromDoubleQuotedLoop.eq_def]
          simp [hc, push, this]
        obtain ⟨i1, i2, i3⟩ := ih size (by omega) inp (out ++ [c]) hlen' (by simp; omega)
        rw [h0]
        have key : ∀ s', Doubled (c :: inp) s' ↔ ∃ s'', Doubled inp s'' ∧ s' = c :: s'' := by
          intro s'
          constructor
          · intro hs
            cases hs with
            | plain _ h => exact ⟨_, h, rfl⟩
            | quote _ => exact absurd rfl hc
          · rintro ⟨s'', hs, rfl⟩
            exact .plain hc hs
        refine ⟨?_, ?_, i3⟩
        · intro s
          rw [i1]
          constructor
          · rintro ⟨s', hs, rfl⟩
            exact ⟨c :: s', (key _).2 ⟨s', hs, rfl⟩, by simp⟩
          · rintro ⟨s', hs, rfl⟩
            obtain ⟨s'', hs'', rfl⟩ := (key _).1 hs
            exact ⟨s'', hs'', by simp⟩
        · rw [i2]
          constructor
          · rintro h ⟨s', hs⟩
            obtain ⟨s'', hs'', rfl⟩ := (key _).1 hs
            exact h ⟨s'', hs''⟩
          · rintro h ⟨s', hs⟩
            exact h ⟨_, (key _).2 ⟨s', hs, rfl⟩⟩

theorem escaped_readableBody : ∀ s : Bytes, Escaped (readableBody s) s
  | [] => .nil
  | c :: s => by
    have ih := escaped_readableBody s
    unfold readableBody readableChar
    repeat' split
    all_goals first
      | (subst_vars; exact .esc (by decide) ih)
      | exact .plain (by assumption) ih

theorem doubled_dquotedBody : ∀ s : Bytes, Doubled (dquotedBody s) s
  | [] => .nil
  | c :: s => by
    have ih := doubled_dquotedBody s
    unfold dquotedBody dquotedChar
    split
    · subst_vars; exact .quote ih
    · exact .plain (by assumption) ih

theorem Escaped.functional {t s s' : Bytes} (h : Escaped t s) (h' : Escaped t s') : s = s' := by
  induction h generalizing s' with
  | nil => cases h'; rfl
  | plain hc _ ih =>
    cases h' with
    | plain _ h2 => rw [ih h2]
    | esc _ _ => exact absurd rfl hc
  | esc hd _ ih =>
    cases h' with
    | plain hc _ => exact absurd rfl hc
    | esc hd' h2 =>
      have e1 := (unescapeChar_iff _ _).2 hd
      have e2 := (unescapeChar_iff _ _).2 hd'
      rw [e1] at e2
      cases e2
      rw [ih h2]

theorem Escaped.length_le {t s : Bytes} (h : Escaped t s) : s.length ≤ t.length := by
  induction h with
  | nil => simp
  | plain _ _ ih => simpa using ih
  | esc _ _ ih => simp; omega

theorem Doubled.length_le {t s : Bytes} (h : Doubled t s) : s.length ≤ t.length := by
  induction h with
  | nil => simp
  | plain _ _ ih => simpa using ih
  | quote _ ih => simp; omega

theorem hexDigit_mem : ∀ n : Fin 16, hexDigit n.1 ∈ hexDigits := by decide +kernel
theorem hexDigit_value : ∀ n : Fin 16, digitValue (hexDigit n.1) = n.1 := by decide +kernel

end Nx
