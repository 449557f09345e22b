import Verif.Lemmas.StrIO

/-!
# C04: binary string serialization
-/

namespace Nx

/-- Read `n` strings one after another with `nx_strread0`; stop at the first failure. -/
def readStrings : Nat → Bytes → Res (Option (List Bytes) × Bytes)
  | 0, st => .ok (some [], st)
  | n + 1, st => do
    let (s, st) ← strread0 st
    match s with
    | none => pure (none, st)
    | some s =>
      let (ss, st) ← readStrings n st
      pure (ss.map (s :: ·), st)

/-- C04: one string is read back whatever follows it in the stream and whatever
buffer the caller provides (`size` not larger than the real allocation); exactly
the bytes of the record are consumed and no access leaves the buffer. -/
theorem c04_strread_strwrite (alloc size : Nat) (s rest : Bytes)
    (hs : s.length + 1 < 2 ^ 64) (ha : size ≤ alloc) :
    ∃ a, strread alloc size (strwrite s ++ rest) =
      .ok { ret := 0, alloc := a, content := s, rest := rest } ∧ s.length < a :=
  strread_ok alloc size s rest hs ha

/-- C04: a list of strings is read back in order. -/
theorem c04_read_strings (ss : List Bytes) (rest : Bytes)
    (hs : ∀ s ∈ ss, s.length + 1 < 2 ^ 64) :
    readStrings ss.length (ss.flatMap strwrite ++ rest) = .ok (some ss, rest) := by
  induction ss with
  | nil => rfl
  | cons s ss ih =>
    obtain ⟨a, h, _⟩ := strread_ok 0 0 s (ss.flatMap strwrite ++ rest) (hs s (by simp)) (Nat.le_refl _)
    have ih' := ih (fun t ht => hs t (by simp [ht]))
    simp only [List.length_cons, List.flatMap_cons, List.append_assoc, readStrings, strread0, h,
      Res.ok_bind]
    simp [ih']

/-- C04: a record cut anywhere makes the read fail (without undefined behaviour). -/
theorem c04_truncated_fails (alloc size : Nat) (s cut : Bytes)
    (hs : s.length + 1 < 2 ^ 64) (ha : size ≤ alloc)
    (hcut : cut <+: strwrite s) (hne : cut ≠ strwrite s) :
    ∃ r, strread alloc size cut = .ok r ∧ r.ret = 1 ∧ r.rest = [] :=
  strread_truncated alloc size s cut hs hcut hne ha

/-- C04: consequently a cut inside the last of several records makes reading all
of them fail. -/
theorem c04_read_strings_truncated (ss : List Bytes) (s cut : Bytes)
    (hs : ∀ t ∈ ss ++ [s], t.length + 1 < 2 ^ 64)
    (hcut : cut <+: strwrite s) (hne : cut ≠ strwrite s) :
    readStrings (ss.length + 1) (ss.flatMap strwrite ++ cut) = .ok (none, []) := by
  induction ss with
  | nil =>
    obtain ⟨r, h, h1, h2⟩ := strread_truncated 0 0 s cut (hs s (by simp)) hcut hne (Nat.le_refl _)
    simp [readStrings, strread0, h, h1, h2]
  | cons t ss ih =>
    obtain ⟨a, h, _⟩ := strread_ok 0 0 t (ss.flatMap strwrite ++ cut) (hs t (by simp)) (Nat.le_refl _)
    have ih' := ih (fun u hu => hs u (by
      simp only [List.cons_append, List.mem_cons]; exact Or.inr hu))
    simp only [List.length_cons, List.flatMap_cons, List.append_assoc]
    rw [readStrings]
    simp only [strread0, h, Res.ok_bind]
    simp [ih']

/-- C04, finding: a length field of all ones makes `ls+1` wrap to 0 and the
terminator is written out of bounds. -/
theorem c04_length_wraps_ub (data : Bytes) :
    strread0 (leBytes 8 (2 ^ 64 - 1) ++ data) = .ub := by
  have h8 : (leBytes 8 (2 ^ 64 - 1)).length = 8 := leBytes_length _ _
  have hv : leVal (leBytes 8 (2 ^ 64 - 1)) = 2 ^ 64 - 1 := leVal_leBytes_of_lt (by simp)
  unfold strread0 strread
  rw [fread1_append _ h8]
  simp [hv]

example : readStrings 2 (strwrite (bytesOf "ab") ++ strwrite [] ++ [7]) =
    .ok (some [bytesOf "ab", []], [7]) := by decide +kernel
example : [2, 0, 0, 0, 0, 0, 0, 0, 97] <+: strwrite (bytesOf "ab") := by decide +kernel

end Nx
