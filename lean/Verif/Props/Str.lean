import Verif.Lemmas.Str

/-!
# C01, C02, C03, C09: text conversions
-/

namespace Nx

/-! ## C01 -/

/-- C01: converting back what `nx_fputs_readable` printed between the quotes
gives the original string; neither an abort nor an out-of-bounds access occurs.
(Holds for any bytes; C strings are the ones that can be passed.) -/
theorem c01_readable_round_trip (s : Bytes) :
    ∃ body, fputsReadable (some s) = [34] ++ body ++ [34] ∧
      xstrFromReadable body.length body = .ok s := by
  refine ⟨readableBody s, rfl, ?_⟩
  have h := (fromReadableLoop_spec ((readableBody s).length + 1) (readableBody s).length
    (readableBody s) [] rfl (by simp)).1 s
  exact h.2 ⟨s, escaped_readableBody s, by simp⟩

/-- C01: the printed text contains no raw newline byte, so it stays on one line. -/
theorem c01_readable_no_raw_newline (s : Bytes) :
    (10 : Byte) ∉ fputsReadable (some s) ∧ (13 : Byte) ∉ fputsReadable (some s) := by
  have h : ∀ s : Bytes, (10 : Byte) ∉ readableBody s ∧ (13 : Byte) ∉ readableBody s := by
    intro s
    induction s with
    | nil => simp [readableBody]
    | cons c s ih =>
      have hc : (10 : Byte) ∉ readableChar c ∧ (13 : Byte) ∉ readableChar c := by
        unfold readableChar
        repeat' split
        all_goals simp_all [eq_comm]
      simp [readableBody, ih, hc]
  have := h s
  simp [fputsReadable, this]

example : fputsReadable (some (bytesOf "a\"b\\\n")) = bytesOf "\"a\\\"b\\\\\\n\"" := by decide +kernel
example : xstrFromReadable 8 (bytesOf "a\\\"b\\\\\\n") = .ok (bytesOf "a\"b\\\n") := by decide +kernel

/-! ## C02 -/

/-- C02: normal return exactly on well-escaped texts, with the decoded string. -/
theorem c02_from_readable_ok_iff (t s : Bytes) :
    xstrFromReadable t.length t = .ok s ↔ Escaped t s := by
  have h := (fromReadableLoop_spec (t.length + 1) t.length t [] rfl (by simp)).1 s
  unfold xstrFromReadable
  rw [h]
  simp

/-- C02: abort exactly on texts that are not well escaped. -/
theorem c02_from_readable_fatal_iff (t : Bytes) :
    xstrFromReadable t.length t = .fatal ↔ ¬ ∃ s, Escaped t s :=
  (fromReadableLoop_spec (t.length + 1) t.length t [] rfl (by simp)).2.1

/-- C02: no out-of-bounds read or write, whatever the text. -/
theorem c02_from_readable_no_ub (t : Bytes) : xstrFromReadable t.length t ≠ .ub :=
  (fromReadableLoop_spec (t.length + 1) t.length t [] rfl (by simp)).2.2

/-- C02: the result is never longer than the text. -/
theorem c02_from_readable_length (t s : Bytes) (h : xstrFromReadable t.length t = .ok s) :
    s.length ≤ t.length :=
  ((c02_from_readable_ok_iff t s).1 h).length_le

example : xstrFromReadable 2 (bytesOf "\\/") = .fatal := by decide +kernel
example : xstrFromReadable 2 (bytesOf "a\\") = .fatal := by decide +kernel
example : xstrFromReadable 4 (bytesOf "a\\tb") = .ok (bytesOf "a\tb") := by decide +kernel

/-! ## C03 -/

/-- C03: quoting by doubling and converting back gives the original string. -/
theorem c03_double_quoted_round_trip (s : Bytes) :
    ∃ body, fputsDoubleQuoted (some s) = [34] ++ body ++ [34] ∧
      xstrFromDoubleQuoted body.length body = .ok s := by
  refine ⟨dquotedBody s, rfl, ?_⟩
  have h := (fromDoubleQuotedLoop_spec ((dquotedBody s).length + 1) (dquotedBody s).length
    (dquotedBody s) [] rfl (by simp)).1 s
  exact h.2 ⟨s, doubled_dquotedBody s, by simp⟩

/-- C03: normal return exactly on texts whose quotes are doubled. -/
theorem c03_from_double_quoted_ok_iff (t s : Bytes) :
    xstrFromDoubleQuoted t.length t = .ok s ↔ Doubled t s := by
  have h := (fromDoubleQuotedLoop_spec (t.length + 1) t.length t [] rfl (by simp)).1 s
  unfold xstrFromDoubleQuoted
  rw [h]
  simp

/-- C03: abort exactly on the other texts. -/
theorem c03_from_double_quoted_fatal_iff (t : Bytes) :
    xstrFromDoubleQuoted t.length t = .fatal ↔ ¬ ∃ s, Doubled t s :=
  (fromDoubleQuotedLoop_spec (t.length + 1) t.length t [] rfl (by simp)).2.1

/-- C03: no out-of-bounds access, whatever the text. -/
theorem c03_from_double_quoted_no_ub (t : Bytes) : xstrFromDoubleQuoted t.length t ≠ .ub :=
  (fromDoubleQuotedLoop_spec (t.length + 1) t.length t [] rfl (by simp)).2.2

example : fputsDoubleQuoted (some (bytesOf "a\"b")) = bytesOf "\"a\"\"b\"" := by decide +kernel
example : xstrFromDoubleQuoted 4 (bytesOf "a\"\"b") = .ok (bytesOf "a\"b") := by decide +kernel
example : xstrFromDoubleQuoted 3 (bytesOf "a\"b") = .fatal := by decide +kernel

/-! ## C09 -/

/-- C09: with the true length as count the text exists, has two digits per byte,
all lowercase hexadecimal, and digits `2i`, `2i+1` spell byte `i` in base 16. -/
theorem c09_hash_text (h : Bytes) :
    ∃ t, hashToStr h.length h = .ok t ∧ t.length = 2 * h.length ∧
      (∀ d ∈ t, d ∈ hexDigits) ∧
      ∀ i (hi : i < h.length),
        ∃ d e, t[2 * i]? = some d ∧ t[2 * i + 1]? = some e ∧
          h[i].toNat = 16 * digitValue d + digitValue e := by
  induction h with
  | nil => exact ⟨[], rfl, rfl, by simp, by simp⟩
  | cons b h ih =>
    obtain ⟨t, h1, h2, h3, h4⟩ := ih
    have hb := b.toNat_lt
    have hq : b.toNat / 16 < 16 := by omega
    have hr : b.toNat % 16 < 16 := by omega
    refine ⟨hexDigit (b.toNat / 16) :: hexDigit (b.toNat % 16) :: t, ?_, ?_, ?_, ?_⟩
    · simp [hashToStr, h1]
    · simp [h2]; omega
    · intro d hd
      simp only [List.mem_cons] at hd
      rcases hd with rfl | rfl | hd
      · exact hexDigit_mem ⟨_, hq⟩
      · exact hexDigit_mem ⟨_, hr⟩
      · exact h3 d hd
    · intro i hi
      match i with
      | 0 =>
        refine ⟨_, _, rfl, rfl, ?_⟩
        have e1 := hexDigit_value ⟨_, hq⟩
        have e2 := hexDigit_value ⟨_, hr⟩
        simp only at e1 e2
        rw [e1, e2]
        simp
        omega
      | i + 1 =>
        obtain ⟨d, e, g1, g2, g3⟩ := h4 i (by simpa using hi)
        refine ⟨d, e, ?_, ?_, by simpa using g3⟩
        · rw [show 2 * (i + 1) = 2 * i + 1 + 1 by omega]
          simpa using g1
        · rw [show 2 * (i + 1) + 1 = 2 * i + 1 + 1 + 1 by omega]
          simpa using g2

/-- C09: equal texts come from equal hashes. -/
theorem c09_hash_text_injective (h h' : Bytes) (t : Bytes)
    (e : hashToStr h.length h = .ok t) (e' : hashToStr h'.length h' = .ok t) : h = h' := by
  obtain ⟨t1, a1, a2, _, a4⟩ := c09_hash_text h
  obtain ⟨t2, b1, b2, _, b4⟩ := c09_hash_text h'
  rw [e] at a1; rw [e'] at b1
  cases a1; cases b1
  apply List.ext_getElem
  · omega
  · intro i hi hi'
    obtain ⟨d, f, g1, g2, g3⟩ := a4 i hi
    obtain ⟨d', f', k1, k2, k3⟩ := b4 i hi'
    rw [g1] at k1; rw [g2] at k2
    cases k1; cases k2
    apply UInt8.toNat_inj.1
    omega

example : hashToStr 3 [0, 0xa5, 0xff] = .ok (bytesOf "00a5ff") := by decide +kernel

end Nx
