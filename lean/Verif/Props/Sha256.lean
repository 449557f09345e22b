import Verif.Lemmas.Sha256

/-!
# C10, C11: SHA-256
-/

namespace Nx

/-- Running the block loop: cursor facts needed for the last call. -/
private theorem shaBlocks_cursor (tail : Option Nat) (msgs : List Bytes) (n : Nat) :
    ∀ (so off : Nat) (block : Bytes) (H : Words8) (so' off' : Nat) (block' : Bytes) (H' : Words8),
    msgs ≠ [] → CursorOk msgs so off → CursorStrict msgs so off →
    64 * n ≤ (undelivered msgs so off).length →
    shaBlocks tail msgs n so off block H = .ok (so', off', block', H') →
    CursorStrict msgs so' off' ∧
      (so' = msgs.length → so = msgs.length ∨ ∃ l, msgs.getLast? = some l ∧ l ≠ []) := by
  induction n with
  | zero =>
    intro so off block H so' off' block' H' _ hc hs _ h
    cases h
    exact ⟨hs, fun h => Or.inl h⟩
  | succ n ih =>
    intro so off block H so' off' block' H' h0 hc hs hl h
    have hso : ∃ h : so < msgs.length, off ≤ msgs[so].length := by
      rcases hc with h | ⟨rfl, rfl⟩
      · exact h
      · simp [undelivered] at hl
    obtain ⟨hso, ho⟩ := hso
    obtain ⟨so1, off1, e1, c1, u1⟩ := memncpyMulti_spec tail msgs 64 so off h0 hc (Or.inl hso)
    have hloop : memncpyLoop msgs 64 so off [] = .ok ((undelivered msgs so off).take 64, so1, off1) := by
      have hne : ¬ msgs.length = 0 := by omega
      have hng : ¬ off > msgs[so].length := by omega
      rw [memncpyMulti, if_neg hne] at e1
      simpa only [hso, dif_pos, hng, if_false] using e1
    have s1 := memncpyLoop_strict msgs 64 so off [] hc hs hloop
    rw [shaBlocks, e1, Res.ok_bind] at h
    simp only [] at h
    obtain ⟨b', _, h⟩ := Res.bind_eq_ok.1 h
    have hcl : ((undelivered msgs so off).take 64).length = 64 := by simp; omega
    rw [if_pos hcl] at h
    obtain ⟨H1, _, h⟩ := Res.bind_eq_ok.1 h
    have hl1 : 64 * n ≤ (undelivered msgs so1 off1).length := by rw [u1]; simp; omega
    obtain ⟨r1, r2⟩ := ih so1 off1 _ _ _ _ _ _ h0 c1 s1 hl1 h
    refine ⟨r1, fun he => ?_⟩
    rcases r2 he with r | r
    · exact memncpyLoop_end msgs 64 so off [] hc (by omega) hloop r
    · exact Or.inr r

/-- The situation in which the last copy call reads `lmsg[n_msg]`: the message is
a non-empty sequence of whole blocks and its last part is not empty. -/
def FillsBlocks (msgs : List Bytes) : Prop :=
  0 < msgs.flatten.length ∧ msgs.flatten.length % 64 = 0 ∧ ∃ l, msgs.getLast? = some l ∧ l ≠ []

private theorem sha_total (msgs : List Bytes) (hl : msgs.flatten.length < 2 ^ 61) :
    (msgs.map List.length).sum % 2 ^ 64 = msgs.flatten.length := by
  rw [List.length_flatten] at *
  exact Nat.mod_eq_of_lt (by omega)

private theorem sha_main (tail : Option Nat) (block0 : Bytes) (hb : block0.length = 64)
    (msgs : List Bytes) (h0 : msgs ≠ []) (hl : msgs.flatten.length < 2 ^ 61)
    (ht : ¬ FillsBlocks msgs ∨ tail ≠ none) :
    sha256Multi tail block0 msgs = .ok (Fips.sha256 msgs.flatten) := by
  have hT := sha_total msgs hl
  generalize hmsg : msgs.flatten = msg at *
  have hu0 : undelivered msgs 0 0 = msg := by rw [undelivered_zero, hmsg]
  have hlen : 64 * (msg.length / 64) ≤ msg.length := by omega
  obtain ⟨so, off, block, H, e1, c1, b1, u1, s1⟩ :=
    shaBlocks_eq tail msgs h0 (msg.length / 64) 0 0 block0 shaInit (cursorOk_zero msgs) hb
      (by rw [hu0]; omega)
  rw [hu0] at u1 s1
  have ht' : so < msgs.length ∨ tail ≠ none := by
    rcases ht with ht | ht
    · left
      obtain ⟨_, r2⟩ := shaBlocks_cursor tail msgs (msg.length / 64) 0 0 block0 shaInit so off block H
        h0 (cursorOk_zero msgs) (Or.inl rfl) (by rw [hu0]; omega) e1
      have hsole : so ≤ msgs.length := by
        rcases c1 with ⟨h, _⟩ | ⟨h, _⟩ <;> omega
      rcases Nat.lt_or_eq_of_le hsole with h | h
      · exact h
      · exfalso
        rcases r2 h with r | r
        · exact h0 (List.length_eq_zero_iff.1 r.symm)
        · apply ht
          rw [FillsBlocks, hmsg]
          have hu : undelivered msgs so off = [] := by rw [h]; simp [undelivered]
          rw [hu] at u1
          have := congrArg List.length u1
          simp at this
          refine ⟨?_, by omega, r⟩
          obtain ⟨l, hl1, hl2⟩ := r
          have hmem : l ∈ msgs := List.mem_of_getLast? hl1
          rw [← hmsg]
          have := List.length_pos_iff.2 hl2
          apply List.length_pos_iff.2
          intro hnil
          rw [List.flatten_eq_nil_iff] at hnil
          exact hl2 (hnil l hmem)
    · exact Or.inr ht
  obtain ⟨so2, off2, e2, _, _⟩ := memncpyMulti_spec tail msgs (msg.length - msg.length / 64 * 64) so off
    h0 c1 ht'
  have hrem : (undelivered msgs so off).take (msg.length - msg.length / 64 * 64) =
      msg.drop (64 * (msg.length / 64)) := by
    rw [u1, List.take_of_length_le (by simp; omega)]
  rw [hrem] at e2
  obtain ⟨m1, r, hm, hm1⟩ : ∃ m1 r, msg = m1 ++ r ∧ m1 = msg.take (64 * (msg.length / 64)) ∧
      r = msg.drop (64 * (msg.length / 64)) := ⟨_, _, (List.take_append_drop _ _).symm, rfl, rfl⟩
  obtain ⟨hm1, hr⟩ := hm1
  have hm1l : m1.length = 64 * (msg.length / 64) := by rw [hm1]; simp; omega
  have hrl : r.length = msg.length - msg.length / 64 * 64 := by rw [hr]; simp; omega
  rw [← hr] at e2
  rw [← hm1] at s1
  have hmod : msg.length % 64 = r.length := by omega
  have hlenB : Fips.toBe 8 (8 * msg.length) = splitBE64 (BitVec.ofNat 64 (msg.length * 8)) := by
    rw [Nat.mul_comm 8, toBe_split64 _ (by omega)]
  have hpad : Fips.blocks (Fips.pad msg) = Fips.blocks m1 ++ Fips.blocks
      (r ++ [0x80] ++ List.replicate ((119 - r.length) % 64) 0 ++
        splitBE64 (BitVec.ofNat 64 (msg.length * 8))) := by
    rw [← fips_blocks_append (msg.length / 64) m1 _ hm1l, Fips.pad, hmod, hlenB]
    congr 1
    rw [hm]
    simp
  obtain ⟨x1, y, f1, f2, f3⟩ := lastBlock_start block r b1 (by omega)
  suffices hH : ∃ H', (if r.length ≤ 55 then shaFinishOne (r ++ [0x80] ++ y) H (r.length + 1)
        (if r.length ≤ 55 then 55 - r.length else 119 - r.length) msg.length
      else shaFinishTwo (r ++ [0x80] ++ y) H (r.length + 1) (64 - (r.length + 1))
        ((if r.length ≤ 55 then 55 - r.length else 119 - r.length) - (64 - (r.length + 1)))
        msg.length) = .ok H' ∧
      H'.st = (Fips.blocks (Fips.pad msg)).foldl Fips.compress Fips.init by
    obtain ⟨H', g1, g2⟩ := hH
    unfold sha256Multi
    simp only [hT]
    rw [e1, Res.ok_bind]
    simp only []
    rw [e2, Res.ok_bind]
    simp only []
    rw [f1, Res.ok_bind, ← hrl, if_pos rfl, f2, Res.ok_bind, g1, Res.ok_bind, shaOutput_eq H' msg g2]
    rfl
  rw [hpad, List.foldl_append, ← shaInit_eq, ← s1]
  by_cases hc : r.length ≤ 55
  · rw [if_pos hc, if_pos hc]
    obtain ⟨H', g1, g2⟩ := shaFinishOne_eq y r H (55 - r.length) msg.length (by omega) (by omega)
    have hz : (119 - r.length) % 64 = 55 - r.length := by omega
    refine ⟨H', g1, ?_⟩
    rw [g2, hz, fips_blocks_one, List.foldl_cons, List.foldl_nil]
    simp [splitBE64]; omega
  · rw [if_neg hc, if_neg hc]
    obtain ⟨k0, hk0⟩ : ∃ k0, k0 = 64 - (r.length + 1) := ⟨_, rfl⟩
    have hk1 : 119 - r.length - (64 - (r.length + 1)) = 56 := by omega
    rw [hk1, ← hk0]
    obtain ⟨H', g1, g2⟩ := shaFinishTwo_eq y r H k0 msg.length (by omega) (by omega)
    have hz : List.replicate ((119 - r.length) % 64) (0 : Byte) =
        List.replicate k0 0 ++ List.replicate 56 0 := by
      rw [List.replicate_append_replicate]
      congr 1; omega
    refine ⟨H', g1, ?_⟩
    rw [g2, hz, show r ++ [0x80] ++ (List.replicate k0 0 ++ List.replicate 56 0) ++
        splitBE64 (BitVec.ofNat 64 (msg.length * 8)) = (r ++ [0x80] ++ List.replicate k0 0) ++
        (List.replicate 56 0 ++ splitBE64 (BitVec.ofNat 64 (msg.length * 8))) by simp only [List.append_assoc],
      fips_blocks_cons, fips_blocks_one, List.foldl_cons, List.foldl_cons, List.foldl_nil]
    · simp [splitBE64]
    · simp; omega

private theorem sha_ub (block0 : Bytes) (hb : block0.length = 64) (msgs : List Bytes)
    (hl : msgs.flatten.length < 2 ^ 61) (hf : FillsBlocks msgs) :
    sha256Multi none block0 msgs = .ub := by
  have h0 : msgs ≠ [] := by rintro rfl; simp [FillsBlocks] at hf
  have hT := sha_total msgs hl
  obtain ⟨hpos, hmod, hlast⟩ := hf
  obtain ⟨so, off, block, H, e1, c1, b1, u1, s1⟩ :=
    shaBlocks_eq none msgs h0 (msgs.flatten.length / 64) 0 0 block0 shaInit (cursorOk_zero msgs) hb
      (by rw [undelivered_zero]; omega)
  obtain ⟨hs, _⟩ := shaBlocks_cursor none msgs (msgs.flatten.length / 64) 0 0 block0 shaInit so off
    block H h0 (cursorOk_zero msgs) (Or.inl rfl) (by rw [undelivered_zero]; omega) e1
  have hu : undelivered msgs so off = [] := by
    rw [u1, undelivered_zero, List.drop_eq_nil_iff]; omega
  obtain ⟨rfl, rfl⟩ := cursor_at_end msgs so off c1 hs hu hlast
  have hne : ¬ msgs.length = 0 := by
    intro h; exact h0 (List.length_eq_zero_iff.1 h)
  have hub : ∀ n, memncpyMulti none msgs n msgs.length 0 = .ub := by
    intro n; simp [memncpyMulti, hne]
  unfold sha256Multi
  simp only [hT]
  rw [e1, Res.ok_bind]
  simp only []
  rw [hub]
  rfl

/-- C11 (and C10): hashing a message given in parts yields the FIPS 180-4 digest
of the concatenation, whatever the split and the garbage in the local buffer,
without touching memory outside the parts. Missing for the full claim: messages
that fill whole blocks (see `c11_fills_blocks_ub`). -/
theorem c11_sha256_multi_partial (block0 : Bytes) (hb : block0.length = 64) (msgs : List Bytes)
    (h0 : msgs ≠ []) (hl : msgs.flatten.length < 2 ^ 61) (hf : ¬ FillsBlocks msgs) :
    sha256Multi none block0 msgs = .ok (Fips.sha256 msgs.flatten) :=
  sha_main none block0 hb msgs h0 hl (Or.inl hf)

/-- C11, finding: if the message is a non-empty sequence of whole 64-byte blocks
and its last part is non-empty, the length array is read one element past its
end. -/
theorem c11_fills_blocks_ub (block0 : Bytes) (hb : block0.length = 64) (msgs : List Bytes)
    (hl : msgs.flatten.length < 2 ^ 61) (hf : FillsBlocks msgs) :
    sha256Multi none block0 msgs = .ub := sha_ub block0 hb msgs hl hf

/-- C11: on machines where that extra element happens to be readable, its value
does not matter and every split of every message gives the digest of the
concatenation. -/
theorem c11_sha256_multi_readable_partial (v : Nat) (block0 : Bytes) (hb : block0.length = 64)
    (msgs : List Bytes) (h0 : msgs ≠ []) (hl : msgs.flatten.length < 2 ^ 61) :
    sha256Multi (some v) block0 msgs = .ok (Fips.sha256 msgs.flatten) :=
  sha_main (some v) block0 hb msgs h0 hl (Or.inr (by simp))

/-- C10: the FIPS 180-4 digest, for all messages except those of a positive
multiple of 64 bytes. -/
theorem c10_sha256_fips_partial (block0 : Bytes) (hb : block0.length = 64) (msg : Bytes)
    (hl : msg.length < 2 ^ 61) (hm : msg.length % 64 ≠ 0 ∨ msg = []) :
    sha256 none block0 msg = .ok (Fips.sha256 msg) := by
  have := c11_sha256_multi_partial block0 hb [msg] (by simp) (by simpa using hl) (by
    rintro ⟨h1, h2, _⟩
    simp at h1 h2
    rcases hm with h | rfl
    · omega
    · simp at h1)
  simpa [sha256] using this

/-- C10: with a readable word behind the message length, all messages. -/
theorem c10_sha256_fips_readable_partial (v : Nat) (block0 : Bytes) (hb : block0.length = 64)
    (msg : Bytes) (hl : msg.length < 2 ^ 61) :
    sha256 (some v) block0 msg = .ok (Fips.sha256 msg) := by
  have := c11_sha256_multi_readable_partial v block0 hb [msg] (by simp) (by simpa using hl)
  simpa [sha256] using this

/-- C10, finding: a message of a positive multiple of 64 bytes makes the code
read behind the single length variable. -/
theorem c10_block_multiple_ub (block0 : Bytes) (hb : block0.length = 64) (msg : Bytes)
    (hl : msg.length < 2 ^ 61) (hm : msg.length % 64 = 0) (h0 : msg ≠ []) :
    sha256 none block0 msg = .ub := by
  apply c11_fills_blocks_ub block0 hb [msg] (by simpa using hl)
  refine ⟨?_, by simpa using hm, msg, rfl, h0⟩
  simpa using List.length_pos_iff.2 h0

/-- The specification's padding is the one of the standard: the zero byte count
is the least making the padded length (without the length field) 56 mod 64. -/
theorem c10_spec_padding (n : Nat) :
    (n + 1 + (119 - n % 64) % 64) % 64 = 56 ∧
      ∀ k, (n + 1 + k) % 64 = 56 → (119 - n % 64) % 64 ≤ k := by
  refine ⟨by omega, ?_⟩
  intro k hk
  omega

/-- The specification's constants are integer roots: `r^3 ≤ p 2^96 < (r+1)^3`. -/
theorem c10_spec_constants : Fips.primes.length = 64 ∧
    (∀ p ∈ Fips.primes, Fips.iroot 3 (p * 2 ^ 96) ^ 3 ≤ p * 2 ^ 96 ∧
      p * 2 ^ 96 < (Fips.iroot 3 (p * 2 ^ 96) + 1) ^ 3) ∧
    (∀ p ∈ Fips.primes.take 8, Fips.iroot 2 (p * 2 ^ 64) ^ 2 ≤ p * 2 ^ 64 ∧
      p * 2 ^ 64 < (Fips.iroot 2 (p * 2 ^ 64) + 1) ^ 2) := by
  refine ⟨by decide +kernel, by decide +kernel, by decide +kernel⟩

example : ¬ FillsBlocks [bytesOf "ab", [], bytesOf "c"] := by
  simp [FillsBlocks, bytesOf]

/-- Known answer: the digest of "abc", in three parts. -/
example : sha256Multi none (List.replicate 64 0xAA) [bytesOf "ab", [], bytesOf "c"] =
    .ok [186, 120, 22, 191, 143, 1, 207, 234, 65, 65, 64, 222, 93, 174, 34, 35, 176, 3, 97, 163,
      150, 23, 122, 156, 180, 16, 255, 97, 242, 0, 21, 173] := by decide +kernel

example : FillsBlocks [List.replicate 60 1, [2, 3, 4, 5]] :=
  ⟨by simp, by simp, [2, 3, 4, 5], by simp, by simp⟩

end Nx
