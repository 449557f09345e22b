import Verif.Lemmas.JsonBundle

/-! # C25, C56: bundling values as JSON nodes -/

namespace Nx

/-! ## Leaves -/

theorem unbundleText_ok {H : JHeap} {n mask : Nat} {N : HNode} (h : H[n]? = some N)
    (hm : N.type.bit &&& mask ≠ 0) : unbundleText H n mask = .ok N.text := by
  unfold unbundleText
  rw [readAt_some h, Res.ok_bind, if_neg hm]
  rfl

theorem atol_longText {v : Int} (h : -9223372036854775808 ≤ v ∧ v ≤ 9223372036854775807) :
    atol (intText v) = .ok v := by
  unfold atol
  rw [intText_parts]
  simp only
  rw [takeWhile_all (fun b hb => isDigitB_of_mem_natText hb), digitsVal_natText]
  have : (if decide (v < 0) = true then -(v.natAbs : Int) else (v.natAbs : Int)) = v := by
    by_cases hv : v < 0
    · rw [if_pos (by simpa using hv)]; omega
    · rw [if_neg (by simpa using hv)]; omega
  rw [this, if_pos h]

theorem intText_cstr (v : Int) : CStr (intText v) := by
  intro h0
  have hd : ∀ n, (0 : Byte) ∉ natText n := by
    intro n hn
    obtain ⟨d, hd, he⟩ := (natText_digits n).2 _ hn
    have := congrArg UInt8.toNat he
    rw [digitByte_toNat hd] at this
    simp at this
    omega
  unfold intText at h0
  split at h0
  · simp only [List.mem_cons] at h0
    rcases h0 with h0 | h0
    · simp at h0
    · exact hd _ h0
  · exact hd _ h0

theorem bundles_int {v : Int} (h : InI32 v) : Bundles (bundleInt · v) .integer unbundleInt v := by
  refine bundles_leaf .integer (some (intText v)) ?_ ?_
  · intro H; simp only [bundleInt, jbVariable, takeWhile_cstr (intText_cstr v)]
  · intro H n N hN ht hx
    unfold unbundleInt
    rw [unbundleText_ok hN (by rw [ht]; decide), hx]
    simp only [Res.ok_bind, needText]
    exact atoi_intText h

theorem bundles_string {s : Bytes} (h : CStr s) : Bundles (bundleString · (some s)) .string unbundleString s := by
  refine bundles_leaf .string (some s) ?_ ?_
  · intro H; simp only [bundleString, jbVariable, takeWhile_cstr h]
  · intro H n N hN ht hx
    unfold unbundleString
    rw [unbundleText_ok hN (by rw [ht]; decide), hx]
    rfl

/-- C25: every `int` is read back. -/
theorem c25_int (v : Int) (h : InI32 v) : RoundTrip (bundleInt · v) .integer unbundleInt v :=
  (bundles_int h).roundTrip

/-- C25: every `unsigned char` is read back. -/
theorem c25_uchar (v : Byte) : RoundTrip (bundleUchar · v) .integer unbundleUchar v := by
  have hv : v.toNat < 256 := v.toNat_lt
  have hb := bundles_int (v := (v.toNat : Int)) (by unfold InI32; omega)
  refine Bundles.roundTrip ?_
  intro H S r
  obtain ⟨ops, H', S', n, h1, h2, h3, h4, h5, h6, h7, h8⟩ := hb H S r
  refine ⟨ops, H', S', n, h1, h2, h3, h4, h5, h6, h7, ?_⟩
  intro H'' S'' k1 k2 r''
  unfold unbundleUchar
  rw [h8 H'' S'' k1 k2 r'', Res.ok_bind, if_neg (by omega), if_neg (by omega)]
  simp

/-- C25: every `size_t` is read back, also those above the range of `long`. -/
theorem c25_size (z : BitVec 64) : RoundTrip (bundleSize · z) .integer unbundleSize z := by
  refine Bundles.roundTrip (bundles_leaf .integer (some (intText z.toInt)) ?_ ?_)
  · intro H; simp only [bundleSize, jbVariable, takeWhile_cstr (intText_cstr _)]
  · intro H n N hN ht hx
    unfold unbundleSize
    rw [unbundleText_ok hN (by rw [ht]; decide), hx]
    simp only [Res.ok_bind, needText]
    have h1 := z.le_toInt
    have h2 := z.toInt_lt
    rw [atol_longText (by omega)]
    simp only [Res.ok_bind, BitVec.ofInt_toInt]
    rfl

/-- C25: every `char`, also the zero character, is read back. -/
theorem c25_char (c : Byte) : RoundTrip (bundleChar · c) .string unbundleChar c := by
  refine Bundles.roundTrip (bundles_leaf .string (some ([c].takeWhile (fun b => decide (b ≠ 0)))) ?_ ?_)
  · intro H; rfl
  · intro H n N hN ht hx
    unfold unbundleChar
    rw [unbundleText_ok hN (by rw [ht]; decide), hx]
    simp only [Res.ok_bind, needText]
    by_cases hc : c = 0
    · subst hc; rfl
    · rw [List.takeWhile_cons, if_pos (by simpa using hc)]
      rfl

/-- C25: every string is read back. -/
theorem c25_string (s : Bytes) (h : CStr s) : RoundTrip (bundleString · (some s)) .string unbundleString s :=
  (bundles_string h).roundTrip

/-- A NULL string cannot be bundled. -/
theorem c25_string_null (H : JHeap) : bundleString H none = .fatal := rfl

/-- C25 for `true`. Missing: `false`, see `c25_false_becomes_true`. -/
theorem c25_bool_partial : RoundTrip (bundleBool · true) .tru unbundleBool true :=
  Bundles.roundTrip (bundles_leaf .tru none (fun _ => rfl) (fun H n N hN ht _ => by
    unfold unbundleBool
    rw [readAt_some hN, Res.ok_bind, ht, if_neg (by decide)]
    rfl))

/-- `false` is always read back as `true`: `nx_json_node_new_false` makes a node of
type `true`. -/
theorem c25_false_becomes_true : RoundTrip (bundleBool · false) .tru unbundleBool true :=
  Bundles.roundTrip (bundles_leaf .tru none (fun _ => rfl) (fun H n N hN ht _ => by
    unfold unbundleBool
    rw [readAt_some hN, Res.ok_bind, ht, if_neg (by decide)]
    rfl))

/-! ## Arrays -/

/-- C25: every array of `int` is read back. -/
theorem c25_int_array (xs : List Int) (h : ∀ x ∈ xs, InI32 x) :
    RoundTrip (bundleArray bundleInt · xs) .array (unbundleArray unbundleInt JNT.integer.bit) xs := by
  have := bundles_array (one := bundleInt) (f := fun x : Int => x) (mask := JNT.integer.bit) (by decide) xs
    (fun x hx => bundles_int (h x hx))
  rw [List.map_id'] at this
  exact this.roundTrip

theorem bundles_string_array (xs : List Bytes) (h : ∀ x ∈ xs, CStr x) :
    Bundles (bundleArray (fun H s => bundleString H (some s)) · xs) .array
      (unbundleArray unbundleString JNT.string.bit) xs := by
  have := bundles_array (one := fun H s => bundleString H (some s)) (f := fun x : Bytes => x)
    (mask := JNT.string.bit) (by decide) xs (fun x hx => bundles_string (h x hx))
  rw [List.map_id'] at this
  exact this

/-- C25: every array of strings is read back. -/
theorem c25_string_array (xs : List Bytes) (h : ∀ x ∈ xs, CStr x) :
    RoundTrip (bundleArray (fun H s => bundleString H (some s)) · xs) .array
      (unbundleArray unbundleString JNT.string.bit) xs :=
  (bundles_string_array xs h).roundTrip

/-! ## Keypoints -/

/-- The range of the `int` fields. -/
theorem toInt_inI32 (b : BitVec 32) : InI32 b.toInt := by
  have h1 := b.le_toInt
  have h2 := b.toInt_lt
  unfold InI32; omega

theorem unbundleIntMember_ok {H : JHeap} {S : List SNode} (r : Reaches H S) {o : Nat} {O : SNode}
    (hO : S[o]? = some O) (ht : O.type = .object) {l : List (Bytes × JNT × Bytes)}
    (hm : MembersAre H o O.members l) (name : Bytes) {b : BitVec 32}
    (hf : l.find? (fun e => e.1 = name) = some (name, .integer, intText b.toInt)) :
    unbundleIntMember H o name = .ok b.toInt := by
  obtain ⟨c, N, h1, h2, h3, h4⟩ := fget_member r hO ht hm name hf (mask := JNT.integer.bit) (by decide)
  unfold unbundleIntMember
  rw [h1, Res.ok_bind]
  unfold unbundleInt
  rw [unbundleText_ok h2 (by rw [h3]; decide), h4]
  simp only [Res.ok_bind, needText]
  exact atoi_intText (toInt_inI32 b)

theorem unbundleFpMember_ok {H : JHeap} {S : List SNode} (r : Reaches H S) {o : Nat} {O : SNode}
    (hO : S[o]? = some O) (ht : O.type = .object) {l : List (Bytes × JNT × Bytes)}
    (hm : MembersAre H o O.members l) (name : Bytes) (atof : Bytes → BitVec 32) {w : Bytes}
    (hf : l.find? (fun e => e.1 = name) = some (name, .fpnumber, w)) :
    unbundleFpMember atof H o name = .ok (atof w) := by
  obtain ⟨c, N, h1, h2, h3, h4⟩ := fget_member r hO ht hm name hf (mask := JNT.fpnumber.bit) (by decide)
  unfold unbundleFpMember
  rw [h1, Res.ok_bind]
  unfold unbundleFp
  rw [unbundleText_ok h2 (by rw [h3]; decide), h4]
  rfl

theorem bundles_keypoint (fmtE : BitVec 32 → Bytes) (atof : Bytes → BitVec 32) (hE : ∀ x, CStr (fmtE x))
    (k : Keypoint) : Bundles (bundleKeypoint fmtE · k) .object (unbundleKeypoint atof) (reread fmtE atof k) := by
  intro H S r
  have hlen := r.len
  have hs0 : sStep S (.new .object none) = some (S ++ [⟨.object, [], [], false⟩]) := rfl
  obtain ⟨H0, e0, r0⟩ := r.step hs0
  simp only [jhStep, Res.ok.injEq] at e0
  subst e0
  obtain ⟨ops, H', S', m, h1, h2, h3, h4, h5, h6, h7⟩ := bundleMembers_spec (keypointMembers fmtE k) []
    (jhNew H .object none) _ H.length ⟨.object, [], [], false⟩ (by
      intro e he
      simp only [keypointMembers, List.mem_cons, List.not_mem_nil, or_false] at he
      rcases he with rfl | rfl | rfl | rfl | rfl | rfl | rfl | rfl | rfl | rfl <;>
        first | exact intText_cstr _ | exact hE _) r0
    (by rw [hlen]; exact getElem?_append_len _ _) rfl trivial
  simp only [jhNew, List.length_append, List.length_cons, List.length_nil] at h5
  refine ⟨.new .object none :: ops, H', S', H.length, ?_, ?_, ?_, ?_, Nat.le_refl _, by omega,
    ⟨_, h6, rfl, rfl⟩, ?_⟩
  · simp only [bundleKeypoint, h1, Res.ok_bind]; rfl
  · simp only [sRun, hs0]; exact h2
  · simp only [jhRun, jhStep, Res.ok_bind]; exact h3
  · intro i hi
    rw [h4 i (by simp; omega) (by omega), List.getElem?_append_left hi]
  · intro H'' S'' hk hkk r''
    obtain ⟨O, hO, hOt, _, hOm⟩ := hkk H.length _ (Nat.le_refl _) (by omega) h6
    simp only at hOt hOm
    obtain ⟨M, hM, hMt⟩ := r''.type hO
    have hm : MembersAre H'' H.length O.members (keypointMembers fmtE k) := by
      rw [hOm]; exact h7.mono hk
    unfold unbundleKeypoint
    rw [readAt_some hM, Res.ok_bind, hMt, hOt, if_neg (by decide)]
    rw [unbundleIntMember_ok r'' hO hOt hm [120] (b := k.x) (by simp [keypointMembers]), Res.ok_bind,
      unbundleIntMember_ok r'' hO hOt hm [121] (b := k.y) (by simp [keypointMembers]), Res.ok_bind,
      unbundleFpMember_ok r'' hO hOt hm [120, 115] atof (w := fmtE k.xs) (by simp [keypointMembers]), Res.ok_bind,
      unbundleFpMember_ok r'' hO hOt hm [121, 115] atof (w := fmtE k.ys) (by simp [keypointMembers]), Res.ok_bind,
      unbundleIntMember_ok r'' hO hOt hm [108, 101, 118, 101, 108] (b := k.level) (by simp [keypointMembers]),
      Res.ok_bind,
      unbundleFpMember_ok r'' hO hOt hm [115, 99, 97, 108, 101] atof (w := fmtE k.scale) (by simp [keypointMembers]),
      Res.ok_bind,
      unbundleFpMember_ok r'' hO hOt hm [115, 105, 103, 109, 97] atof (w := fmtE k.sigma)
        (by simp [keypointMembers]), Res.ok_bind,
      unbundleFpMember_ok r'' hO hOt hm [115, 99, 111, 114, 101] atof (w := fmtE k.score)
        (by simp [keypointMembers]), Res.ok_bind,
      unbundleFpMember_ok r'' hO hOt hm [111, 114, 105] atof (w := fmtE k.ori) (by simp [keypointMembers]),
      Res.ok_bind,
      unbundleIntMember_ok r'' hO hOt hm [105, 100] (b := k.id.setWidth 32) (by simp [keypointMembers]), Res.ok_bind]
    simp only [BitVec.ofInt_toInt]
    rfl

/-- C56: what is read back from a bundled keypoint: positions and level unchanged,
floating point fields as far as their text tells, the id cut to an `int`. -/
theorem c56_keypoint (fmtE : BitVec 32 → Bytes) (atof : Bytes → BitVec 32) (hE : ∀ x, CStr (fmtE x))
    (k : Keypoint) : RoundTrip (bundleKeypoint fmtE · k) .object (unbundleKeypoint atof) (reread fmtE atof k) :=
  (bundles_keypoint fmtE atof hE k).roundTrip

/-- C56 for arrays of keypoints. -/
theorem c56_keypoint_array (fmtE : BitVec 32 → Bytes) (atof : Bytes → BitVec 32) (hE : ∀ x, CStr (fmtE x))
    (ks : List Keypoint) : RoundTrip (bundleArray (bundleKeypoint fmtE) · ks) .array
      (unbundleArray (unbundleKeypoint atof) JNT.object.bit) (ks.map (reread fmtE atof)) :=
  (bundles_array (by decide) ks (fun k _ => bundles_keypoint fmtE atof hE k)).roundTrip

/-- C56: an array of floats is read back element by element as what the text of each
float says. -/
theorem c56_fp_array (fmtE : BitVec 32 → Bytes) (atof : Bytes → BitVec 32) (hE : ∀ x, CStr (fmtE x))
    (xs : List (BitVec 32)) : RoundTrip (bundleArray (bundleFp fmtE) · xs) .array
      (unbundleArray (unbundleFp atof) maskNumber) (xs.map (fun x => atof (fmtE x))) := by
  refine (bundles_array (type := .fpnumber) (by decide) xs (fun x _ => ?_)).roundTrip
  refine bundles_leaf .fpnumber (some (fmtE x)) ?_ ?_
  · intro H; simp only [bundleFp, jbVariable, takeWhile_cstr (hE x)]
  · intro H n N hN ht hx
    unfold unbundleFp
    rw [unbundleText_ok hN (by rw [ht]; decide), hx]
    rfl

/-- The 64-bit id survives exactly when it is an `int`. -/
theorem reread_id (i : BitVec 64) : (i.setWidth 32).signExtend 64 = i ↔ InI32 i.toInt := by
  have h1 : ((i.setWidth 32).signExtend 64).toInt = i.toInt.bmod (2 ^ 32) := by
    rw [BitVec.toInt_signExtend_of_le (by omega), BitVec.toInt_setWidth, BitVec.toInt_eq_toNat_bmod]
    rw [Int.bmod_bmod_of_dvd (by decide)]
  rw [← BitVec.toInt_inj, h1]
  unfold InI32
  constructor
  · intro h
    have h3 := Int.le_bmod (x := i.toInt) (m := 2 ^ 32) (by decide)
    have h4 := Int.bmod_lt (x := i.toInt) (m := 2 ^ 32) (by decide)
    rw [h] at h3 h4
    omega
  · intro h
    rw [Int.bmod_eq_of_le] <;> omega

/-- C56: a keypoint is read back unchanged if its id is an `int` and its floating
point fields survive formatting with `%e`. Missing: other ids, see `c56_id_lost`, and
floats with more than seven significant digits. -/
theorem c56_keypoint_partial (fmtE : BitVec 32 → Bytes) (atof : Bytes → BitVec 32) (hE : ∀ x, CStr (fmtE x))
    (k : Keypoint) (hid : InI32 k.id.toInt)
    (hfp : ∀ x ∈ [k.xs, k.ys, k.scale, k.sigma, k.score, k.ori], atof (fmtE x) = x) :
    RoundTrip (bundleKeypoint fmtE · k) .object (unbundleKeypoint atof) k := by
  have : reread fmtE atof k = k := by
    simp only [List.mem_cons, List.not_mem_nil, or_false, forall_eq_or_imp, forall_eq] at hfp
    obtain ⟨h1, h2, h3, h4, h5, h6⟩ := hfp
    unfold reread
    rw [h1, h2, h3, h4, h5, h6, (reread_id k.id).mpr hid]
  have h := c56_keypoint fmtE atof hE k
  rwa [this] at h

/-- An id that is no `int` is never read back. -/
theorem c56_id_lost (fmtE : BitVec 32 → Bytes) (atof : Bytes → BitVec 32) (k : Keypoint)
    (hid : ¬ InI32 k.id.toInt) : (reread fmtE atof k).id ≠ k.id :=
  fun h => hid ((reread_id k.id).mp h)

/-- The hypotheses of `c56_keypoint_partial` for a text function that keeps one bit. -/
example : let k : Keypoint := ⟨5, -7#32, 1, 0, 2, 1, 0, 1, 0, 41⟩
    let fmtE := fun x : BitVec 32 => if x = 1 then [49] else [48]
    let atof := fun w : Bytes => if w = [49] then (1 : BitVec 32) else 0
    (∀ x, CStr (fmtE x)) ∧ InI32 k.id.toInt ∧
      ∀ x ∈ [k.xs, k.ys, k.scale, k.sigma, k.score, k.ori], atof (fmtE x) = x := by
  refine ⟨?_, ?_, by simp⟩
  · intro x
    simp only
    split <;> decide
  · decide

example : ∃ k : Keypoint, ¬ InI32 k.id.toInt ∧ k.id = 2147483648#64 :=
  ⟨⟨0, 0, 0, 0, 0, 0, 0, 0, 0, 2147483648#64⟩, by decide, rfl⟩

/-! ## String arrays -/

theorem listSet_snoc (done : List Bytes) (k : Nat) (s : Bytes) :
    (done.map some ++ List.replicate (k + 1) none).set done.length (some s) =
      (done ++ [s]).map some ++ List.replicate k none := by
  rw [List.set_append_right _ _ (by simp), List.length_map, Nat.sub_self, List.replicate_succ, List.set_cons_zero]
  simp

theorem unbundleSaLoop_ok {H : JHeap} {a : Nat} : ∀ (xs done : List Bytes) (h : Heap) (sa : SArr)
    (ptrs : List (Option Nat)), unbundleFrom (unbundleString H) H a JNT.string.bit done.length xs.length = .ok xs →
    SaRepr h sa (done.map some ++ List.replicate xs.length none) ptrs →
    ∃ h' sa' ptrs', unbundleSaLoop H a h sa done.length xs.length = .ok (h', sa') ∧
      SaRepr h' sa' ((done ++ xs).map some) ptrs'
  | [], done, h, sa, ptrs, _, r => ⟨h, sa, ptrs, rfl, by simpa using r⟩
  | x :: xs, done, h, sa, ptrs, hu, r => by
    rw [List.length_cons, unbundleFrom] at hu
    obtain ⟨n, hn, hu⟩ := Res.bind_eq_ok.mp hu
    obtain ⟨y, hy, hu⟩ := Res.bind_eq_ok.mp hu
    obtain ⟨ys, hys, hu⟩ := Res.bind_eq_ok.mp hu
    simp only [Res.pure_eq, Res.ok.injEq, List.cons.injEq] at hu
    obtain ⟨rfl, rfl⟩ := hu
    have hN : ∃ N, readAt H n = .ok N ∧ N.text = some y := by
      unfold unbundleString at hy
      obtain ⟨t, ht, hy⟩ := Res.bind_eq_ok.mp hy
      unfold unbundleText at ht
      obtain ⟨N, hN, ht⟩ := Res.bind_eq_ok.mp ht
      split at ht
      · cases ht
      · cases ht
        cases htx : N.text with
        | none => rw [htx] at hy; cases hy
        | some s => rw [htx] at hy; cases hy; exact ⟨N, hN, htx⟩
    obtain ⟨N, hN, ht⟩ := hN
    obtain ⟨h1, sa1, ptrs1, e1, r1⟩ := r.setSlot (i := done.length) (by simp) (.ext y) (some y)
      (fun _ _ _ _ => rfl)
    rw [List.length_cons, listSet_snoc] at r1
    obtain ⟨h2, sa2, ptrs2, e2, r2⟩ := unbundleSaLoop_ok ys (done ++ [y]) h1 sa1 ptrs1 (by simpa using hys) r1
    refine ⟨h2, sa2, ptrs2, ?_, by simpa using r2⟩
    rw [List.length_cons, unbundleSaLoop, hn, Res.ok_bind, hN, Res.ok_bind, ht]
    simp only
    rw [e1, Res.ok_bind]
    simpa using e2

theorem readAll_ok {h : Heap} {sa : SArr} {ptrs : List (Option Nat)} {l : List (Option Bytes)}
    (r : SaRepr h sa l ptrs) : ∀ (k i : Nat), i + k = l.length → readAll h sa i k = .ok (l.drop i)
  | 0, i, hi => by
    rw [List.drop_of_length_le (by omega)]; rfl
  | k + 1, i, hi => by
    obtain ⟨p, v, h1, h2, h3, h4⟩ := r.get (show i < l.length by omega)
    rw [readAll, saGet, if_pos (by have := r.sz; omega), Int.toNat_natCast, h4, Res.ok_bind, h3.read, Res.ok_bind,
      readAll_ok r k (i + 1) (by omega), Res.ok_bind]
    rw [List.drop_eq_getElem_cons (show i < l.length by omega)]
    rw [List.getElem?_eq_getElem (by omega)] at h2
    cases h2
    rfl

/-- C25: every array of strings is read back as a string array: reading the elements
of the array returns the strings in order. -/
theorem c25_as_string_array (xs : List Bytes) (h : ∀ x ∈ xs, CStr x) (hn : xs.length ≤ saMax) :
    RoundTrip (bundleArray (fun H s => bundleString H (some s)) · xs) .array
      (fun H n => do
        let r ← unbundleAsStringArray H n []
        readAll r.1 r.2 0 r.2.size) (xs.map some) := by
  intro H S r
  obtain ⟨H', S', n, h1, h2, h3, h4⟩ := c25_string_array xs h H S r
  refine ⟨H', S', n, h1, h2, h3, ?_⟩
  intro ops H'' S'' hl hs hj
  have hu := h4 ops H'' S'' hl hs hj
  unfold unbundleArray at hu
  obtain ⟨A, hA, hu⟩ := Res.bind_eq_ok.mp hu
  simp only [unbundleAsStringArray]
  rw [hA, Res.ok_bind]
  split at hu
  · cases hu
  · rename_i hc
    obtain ⟨m, hm, hu⟩ := Res.bind_eq_ok.mp hu
    have hlen : ∀ (k i : Nat) (ys : List Bytes),
        unbundleFrom (unbundleString H'') H'' n JNT.string.bit i k = .ok ys → ys.length = k := by
      intro k
      induction k with
      | zero => intro i ys hy; cases hy; rfl
      | succ k ih =>
        intro i ys hy
        rw [unbundleFrom] at hy
        obtain ⟨_, _, hy⟩ := Res.bind_eq_ok.mp hy
        obtain ⟨_, _, hy⟩ := Res.bind_eq_ok.mp hy
        obtain ⟨zs, hz, hy⟩ := Res.bind_eq_ok.mp hy
        cases hy
        simp [ih _ _ hz]
    have hmx := hlen _ _ _ hu
    subst hmx
    rw [if_neg hc, hm, Res.ok_bind]
    obtain ⟨g, sa, ptrs, e1, r1, _⟩ := SaRepr.empty.resize xs.length hn
    rw [e1, Res.ok_bind]
    have r1' : SaRepr g sa (([] : List Bytes).map some ++ List.replicate xs.length none) ptrs := by
      simpa [resizeList] using r1
    obtain ⟨g2, sa2, ptrs2, e2, r2⟩ := unbundleSaLoop_ok xs [] g sa ptrs hu r1'
    simp only [List.length_nil, List.nil_append] at e2 r2
    rw [e2, Res.ok_bind]
    simp only
    rw [readAll_ok r2 sa2.size 0 (by rw [r2.sz]; omega)]
    simp

/-! ## Concrete instances -/

example : Reaches [] [] := ⟨[], rfl, rfl⟩

/-- An array of two numbers, then put into an object, then read. -/
example : (do
    let H ← jhRun [] [.new .object none]
    let r ← bundleArray bundleInt H [-7, 2147483647]
    let H ← jhObjectAdd r.1 0 [97] r.2
    unbundleArray unbundleInt 8 H r.2) = .ok [-7, 2147483647] := by decide +kernel

example : (do
    let r ← bundleSize [] 18446744073709551615#64
    unbundleSize r.1 r.2) = .ok 18446744073709551615#64 := by decide +kernel

example : (do
    let r ← bundleBool [] false
    unbundleBool r.1 r.2) = .ok true := by decide +kernel

end Nx
