import Verif.Model.Keypoint

/-! # C41: keypoint arrays survive serialization -/

namespace Nx

theorem field32_length (b : BitVec 32) : (field32 b).length = 4 := leBytes_length _ _
theorem field64_length (b : BitVec 64) : (field64 b).length = 8 := leBytes_length _ _

theorem ofNat_field32 (b : BitVec 32) : BitVec.ofNat 32 (leVal (field32 b)) = b := by
  unfold field32
  rw [leVal_leBytes_of_lt (by have := b.isLt; omega)]
  simp

theorem ofNat_field64 (b : BitVec 64) : BitVec.ofNat 64 (leVal (field64 b)) = b := by
  unfold field64
  rw [leVal_leBytes_of_lt (by have := b.isLt; omega)]
  simp

theorem keypointWrite1_length (k : Keypoint) : (keypointWrite1 k).length = 44 := by
  simp [keypointWrite1, field32_length, field64_length]

theorem keypointRead1_ok (k k0 : Keypoint) (rest : Bytes) :
    keypointRead1 k0 (keypointWrite1 k ++ rest) = (true, k, rest) := by
  unfold keypointRead1 keypointWrite1 keyFields
  simp only [List.append_assoc]
  simp only [readFields, fread1_append _ (field32_length _), KeyField.store, ofNat_field32,
    fread1_append _ (field64_length _), ofNat_field64]

/-- Reading fields from a stream that is too short fails. -/
theorem readFields_short : ∀ (fs : List KeyField) (k : Keypoint) (st : Bytes),
    (st.length < 4 * fs.length → (readFields fs k st).1 = false) ∧
    (4 * fs.length ≤ st.length → (readFields fs k st).1 = true ∧
      (readFields fs k st).2.2 = st.drop (4 * fs.length)) := by
  intro fs
  induction fs with
  | nil => intro k st; simp [readFields]
  | cons f fs ih =>
    intro k st
    unfold readFields fread1
    by_cases h : 4 ≤ st.length
    · rw [if_pos h]
      simp only
      have := ih (f.store k (BitVec.ofNat 32 (leVal (st.take 4)))) (st.drop 4)
      refine ⟨fun hl => this.1 (by simp at hl ⊢; omega), fun hl => ?_⟩
      obtain ⟨h1, h2⟩ := this.2 (by simp at hl ⊢; omega)
      refine ⟨h1, ?_⟩
      rw [h2, List.drop_drop]
      congr 1
      simp; omega
    · rw [if_neg h]
      refine ⟨fun _ => rfl, fun hl => ?_⟩
      simp at hl; omega

theorem keypointRead1_short (k : Keypoint) (st : Bytes) (h : st.length < 44) : (keypointRead1 k st).1 = false := by
  unfold keypointRead1
  have hs := readFields_short keyFields k st
  have hl : keyFields.length = 9 := rfl
  rw [hl] at hs
  rcases hr : readFields keyFields k st with ⟨b, k', st'⟩
  rw [hr] at hs
  cases b with
  | false => rfl
  | true =>
    simp only
    by_cases h36 : 36 ≤ st.length
    · have h2 := (hs.2 (by omega)).2
      simp only at h2
      rw [h2, fread1_short (by simp; omega)]
    · have := hs.1 (by omega)
      simp at this

theorem keypointReadLoop_ok : ∀ (ks : List Keypoint) (cut : Bytes) (i n : Nat) (keys : List Keypoint),
    i + ks.length ≤ n → n ≤ keys.length → cut.length < 44 →
    ∃ keys' rest, keypointReadLoop i n keys (keypointWrite ks ++ cut) = .ok (i + ks.length, keys', rest) ∧
      keys'.length = keys.length ∧ keys'.take (i + ks.length) = keys.take i ++ ks ∧
      (i + ks.length = n → rest = cut ∧ keys'.drop n = keys.drop n) := by
  intro ks
  induction ks with
  | nil =>
    intro cut i n keys h1 h2 h3
    simp only [keypointWrite, List.nil_append, List.length_nil, Nat.add_zero, List.append_nil]
    by_cases hi : i < n
    · rw [keypointReadLoop, if_pos hi, readAt_ok (by omega)]
      simp only [Res.ok_bind]
      rw [writeAt_ok _ (by omega)]
      simp only [Res.ok_bind]
      rw [keypointRead1_short _ _ h3]
      refine ⟨_, _, rfl, by simp, ?_, by omega⟩
      rw [List.take_set_of_le (Nat.le_refl _)]
    · rw [keypointReadLoop, if_neg hi]
      have : i = n := by simp at h1; omega
      subst this
      exact ⟨keys, cut, rfl, rfl, rfl, fun _ => ⟨rfl, rfl⟩⟩
  | cons k ks ih =>
    intro cut i n keys h1 h2 h3
    simp only [List.length_cons] at h1 ⊢
    have hi : i < n := by omega
    rw [keypointReadLoop, if_pos hi, readAt_ok (by omega)]
    simp only [Res.ok_bind]
    rw [show keypointWrite (k :: ks) = keypointWrite1 k ++ keypointWrite ks from rfl, List.append_assoc,
      keypointRead1_ok]
    simp only
    rw [writeAt_ok _ (by omega)]
    simp only [Res.ok_bind, if_true]
    obtain ⟨keys', rest, g1, g2, g3, g4⟩ := ih cut (i + 1) n (keys.set i k) (by omega) (by simpa using h2) h3
    have e : i + 1 + ks.length = i + (ks.length + 1) := by omega
    rw [e] at g1 g3 g4
    refine ⟨keys', rest, g1, by simpa using g2, ?_, ?_⟩
    · rw [g3, List.take_add_one, List.take_set_of_le (Nat.le_refl _), List.getElem?_set_self (by omega)]
      simp
    · intro he
      obtain ⟨q1, q2⟩ := g4 he
      refine ⟨q1, ?_⟩
      rw [q2, List.drop_set_of_lt hi]

/-- C41. Reading `n` keypoints from a stream with the keypoints `ks` (at most `n`)
followed by less than another keypoint, in particular from any truncation of written
keypoints, returns the number of complete keypoints and stores exactly them. -/
theorem c41_truncated (ks : List Keypoint) (cut : Bytes) (n : Nat) (keys : List Keypoint)
    (h1 : ks.length ≤ n) (h2 : n ≤ keys.length) (h3 : cut.length < 44) :
    ∃ keys' rest, keypointRead n keys (keypointWrite ks ++ cut) = .ok (ks.length, keys', rest) ∧
      keys'.length = keys.length ∧ keys'.take ks.length = ks := by
  obtain ⟨keys', rest, g1, g2, g3, _⟩ := keypointReadLoop_ok ks cut 0 n keys (by omega) h2 h3
  simp only [Nat.zero_add, List.take_zero, List.nil_append] at g1 g3
  exact ⟨keys', rest, g1, g2, g3⟩

/-- C41: reading with `nx_keypoint_xread` aborts if the stream ends before the last
keypoint. -/
theorem c41_xread_truncated (ks : List Keypoint) (cut : Bytes) (n : Nat) (keys : List Keypoint)
    (h1 : ks.length < n) (h2 : n ≤ keys.length) (h3 : cut.length < 44) :
    keypointXread n keys (keypointWrite ks ++ cut) = .fatal := by
  obtain ⟨keys', rest, g, _⟩ := c41_truncated ks cut n keys (by omega) h2 h3
  unfold keypointXread
  rw [g]
  simp only [Res.ok_bind]
  rw [if_neg (by omega)]

theorem keypointReadLoop_full : ∀ (ks : List Keypoint) (rest : Bytes) (i : Nat) (keys : List Keypoint),
    i + ks.length ≤ keys.length →
    keypointReadLoop i (i + ks.length) keys (keypointWrite ks ++ rest) =
      .ok (i + ks.length, keys.take i ++ ks ++ keys.drop (i + ks.length), rest) := by
  intro ks
  induction ks with
  | nil =>
    intro rest i keys h
    rw [keypointReadLoop, if_neg (by simp)]
    simp [keypointWrite]
  | cons k ks ih =>
    intro rest i keys h
    simp only [List.length_cons] at h ⊢
    rw [keypointReadLoop, if_pos (by omega), readAt_ok (by omega)]
    simp only [Res.ok_bind]
    rw [show keypointWrite (k :: ks) = keypointWrite1 k ++ keypointWrite ks from rfl, List.append_assoc,
      keypointRead1_ok]
    simp only
    rw [writeAt_ok _ (by omega)]
    simp only [Res.ok_bind, if_true]
    have e : i + (ks.length + 1) = i + 1 + ks.length := by omega
    rw [e, ih rest (i + 1) (keys.set i k) (by simp; omega)]
    congr 2
    rw [List.take_add_one, List.take_set_of_le (Nat.le_refl _), List.getElem?_set_self (by omega),
      List.drop_set_of_lt (by omega)]
    simp

/-- C41. Keypoints written and read back (whatever follows in the stream, whatever
the array held before) are equal field by field; the rest of the array and of the
stream is untouched. -/
theorem c41_round_trip (ks : List Keypoint) (rest : Bytes) (keys : List Keypoint) (h : ks.length ≤ keys.length) :
    keypointRead ks.length keys (keypointWrite ks ++ rest) =
      .ok (ks.length, ks ++ keys.drop ks.length, rest) ∧
    keypointXread ks.length keys (keypointWrite ks ++ rest) = .ok (ks ++ keys.drop ks.length, rest) := by
  have h1 := keypointReadLoop_full ks rest 0 keys (by omega)
  simp only [Nat.zero_add, List.take_zero, List.nil_append] at h1
  refine ⟨h1, ?_⟩
  unfold keypointXread keypointRead
  rw [h1]
  simp

/-- C41. Every truncation of written keypoints has the form of `c41_truncated`: the
number of keypoints read is the number of complete 44-byte records. -/
theorem c41_every_truncation (ks : List Keypoint) (t : Nat) (keys : List Keypoint)
    (ht : t ≤ (keypointWrite ks).length) (hk : ks.length ≤ keys.length) :
    ∃ keys' rest, keypointRead ks.length keys ((keypointWrite ks).take t) = .ok (t / 44, keys', rest) ∧
      keys'.take (t / 44) = ks.take (t / 44) := by
  have hlen : ∀ ks : List Keypoint, (keypointWrite ks).length = 44 * ks.length := by
    intro ks
    induction ks with
    | nil => rfl
    | cons k ks ih => simp only [keypointWrite, List.length_append, keypointWrite1_length, ih, List.length_cons]; omega
  have happ : ∀ a b : List Keypoint, keypointWrite (a ++ b) = keypointWrite a ++ keypointWrite b := by
    intro a b
    induction a with
    | nil => rfl
    | cons k a ih => simp [keypointWrite, ih]
  have hq : t / 44 ≤ ks.length := by rw [hlen] at ht; omega
  have hsplit : (keypointWrite ks).take t =
      keypointWrite (ks.take (t / 44)) ++ (keypointWrite (ks.drop (t / 44))).take (t % 44) := by
    conv => lhs; rw [← List.take_append_drop (t / 44) ks, happ]
    have hl : (keypointWrite (ks.take (t / 44))).length = 44 * (t / 44) := by
      rw [hlen, List.length_take]; congr 1; omega
    rw [List.take_append, hl, List.take_of_length_le (by omega)]
    congr 2; omega
  have hlt : (ks.take (t / 44)).length = t / 44 := by rw [List.length_take]; omega
  obtain ⟨keys', rest, g1, g2, g3⟩ := c41_truncated (ks.take (t / 44))
    ((keypointWrite (ks.drop (t / 44))).take (t % 44)) ks.length keys (by omega) hk (by rw [List.length_take]; omega)
  rw [hlt] at g1 g3
  exact ⟨keys', rest, by rw [hsplit]; exact g1, g3⟩

example : keypointRead 2 [⟨0, 0, 0, 0, 0, 0, 0, 0, 0, 0⟩, ⟨0, 0, 0, 0, 0, 0, 0, 0, 0, 0⟩]
    ((keypointWrite [⟨1, 2, 3, 4, 5, 6, 7, 8, 9, 10⟩, ⟨1, 2, 3, 4, 5, 6, 7, 8, 9, 10⟩]).take 87) =
    .ok (1, [⟨1, 2, 3, 4, 5, 6, 7, 8, 9, 10⟩, ⟨1, 2, 3, 4, 5, 6, 7, 8, 9, 0⟩], []) := by decide +kernel

end Nx
