import Verif.Model.Sha256
import Verif.Spec.Sha256
import Verif.Lemmas.MemncpyMulti
import Verif.Props.BitOps

/-!
# Helper lemmas for SHA-256
-/

namespace Nx

/-- The model's eight words as a specification state. -/
def Words8.st (s : Words8) : Fips.State := (s.a, s.b, s.c, s.d, s.e, s.f, s.g, s.h)

theorem rotr32_eq (x : BitVec 32) (n : Nat) (h0 : 0 < n) (h : n < 32) :
    rotr32 x n = .ok (x.rotateRight n) := by
  have hc : n < 32 ∧ 32 - n < 32 := by omega
  rw [rotr32, if_pos hc, BitVec.rotateRight, BitVec.rotateRightAux, Nat.mod_eq_of_lt h]

theorem shaSigma0_eq (x : BitVec 32) : shaSigma0 x = .ok (Fips.Sigma0 x) := by
  simp only [shaSigma0, rotr32_eq x 2 (by decide) (by decide), rotr32_eq x 13 (by decide) (by decide),
    rotr32_eq x 22 (by decide) (by decide), Res.ok_bind, Res.pure_eq, Fips.Sigma0]

theorem shaSigma1_eq (x : BitVec 32) : shaSigma1 x = .ok (Fips.Sigma1 x) := by
  simp only [shaSigma1, rotr32_eq x 6 (by decide) (by decide), rotr32_eq x 11 (by decide) (by decide),
    rotr32_eq x 25 (by decide) (by decide), Res.ok_bind, Res.pure_eq, Fips.Sigma1]

theorem composeAt_eq (block : Bytes) (t : Nat) (h : 4 * t + 4 ≤ block.length) :
    composeAt block (t * 4) = .ok (BitVec.ofNat 32 (Fips.be ((block.drop (4 * t)).take 4))) := by
  have h0 : t * 4 < block.length := by omega
  have h1 : t * 4 + 1 < block.length := by omega
  have h2 : t * 4 + 2 < block.length := by omega
  have h3 : t * 4 + 3 < block.length := by omega
  simp only [composeAt, readAt_ok h0, readAt_ok h1, readAt_ok h2, readAt_ok h3, Res.ok_bind,
    Res.pure_eq]
  congr 1
  have hd : (block.drop (4 * t)).take 4 =
      [block[t * 4], block[t * 4 + 1], block[t * 4 + 2], block[t * 4 + 3]] := by
    rw [Nat.mul_comm 4 t, List.drop_eq_getElem_cons h0, List.drop_eq_getElem_cons h1,
      List.drop_eq_getElem_cons h2, List.drop_eq_getElem_cons h3]
    rfl
  rw [hd]
  apply BitVec.eq_of_toNat_eq
  rw [c13_compose_value]
  have g0 := block[t * 4].toNat_lt
  have g1 := block[t * 4 + 1].toNat_lt
  have g2 := block[t * 4 + 2].toNat_lt
  have g3 := block[t * 4 + 3].toNat_lt
  simp only [Fips.be, List.foldl, BitVec.toNat_ofNat]
  rw [Nat.mod_eq_of_lt (by omega)]
  omega

/-- `W` holds the schedule words below `i`. -/
def SchedOk (block : Bytes) (i : Nat) (W : List (BitVec 32)) : Prop :=
  W = (List.range i).map (Fips.W block)

theorem SchedOk.read {block : Bytes} {i : Nat} {W : List (BitVec 32)} (h : SchedOk block i W)
    (j : Nat) (hj : j < i) : readAt W j = .ok (Fips.W block j) := by
  subst h
  rw [readAt_ok (by simpa using hj)]
  simp

theorem SchedOk.push {block : Bytes} {i : Nat} {W : List (BitVec 32)} (h : SchedOk block i W) :
    SchedOk block (i + 1) (W ++ [Fips.W block i]) := by
  unfold SchedOk at *
  rw [h, List.range_succ, List.map_append]
  rfl

theorem shaFill_eq (block : Bytes) (hb : block.length = 64) (i : Nat) (hi : i ≤ 16)
    (W : List (BitVec 32)) (h : SchedOk block i W) :
    ∃ W', shaFill block i W = .ok W' ∧ SchedOk block 16 W' := by
  induction hk : 16 - i generalizing i W with
  | zero =>
    have : i = 16 := by omega
    subst this
    exact ⟨W, by rw [shaFill, if_neg (by omega)]; rfl, h⟩
  | succ k ih =>
    have hlt : i < 16 := by omega
    rw [shaFill, if_pos hlt, composeAt_eq block i (by omega), Res.ok_bind]
    apply ih (i + 1) (by omega)
    · have := h.push
      rw [Fips.W, if_pos hlt] at this
      exact this
    · omega

theorem shaExtend_eq (block : Bytes) (i : Nat) (hl : 16 ≤ i) (hi : i ≤ 64)
    (W : List (BitVec 32)) (h : SchedOk block i W) :
    ∃ W', shaExtend i W = .ok W' ∧ SchedOk block 64 W' := by
  induction hk : 64 - i generalizing i W with
  | zero =>
    have : i = 64 := by omega
    subst this
    exact ⟨W, by rw [shaExtend, if_neg (by omega)]; rfl, h⟩
  | succ k ih =>
    have hlt : i < 64 := by omega
    rw [shaExtend, if_pos hlt, h.read (i - 2) (by omega), h.read (i - 7) (by omega),
      h.read (i - 15) (by omega), h.read (i - 16) (by omega)]
    simp only [Res.ok_bind, rotr32_eq _ 17 (by decide) (by decide),
      rotr32_eq _ 19 (by decide) (by decide), rotr32_eq _ 7 (by decide) (by decide),
      rotr32_eq _ 18 (by decide) (by decide)]
    apply ih (i + 1) (by omega) (by omega)
    · have := h.push
      rw [Fips.W, if_neg (by omega)] at this
      exact this
    · omega

theorem shaK_eq : Fips.K = shaK := by decide +kernel

theorem shaInit_eq : shaInit.st = Fips.init := by
  have h : Fips.H0 = [0x6a09e667, 0xbb67ae85, 0x3c6ef372, 0xa54ff53a, 0x510e527f, 0x9b05688c,
      0x1f83d9ab, 0x5be0cd19] := by decide +kernel
  rw [Fips.init, h]
  rfl

theorem shaRounds_eq (block : Bytes) (W : List (BitVec 32)) (hW : SchedOk block 64 W)
    (s0 : Fips.State) (i : Nat) (hi : i ≤ 64) (s : Words8) (hs : s.st = Fips.rounds block s0 i) :
    ∃ s', shaRounds W i s = .ok s' ∧ s'.st = Fips.rounds block s0 64 := by
  induction hk : 64 - i generalizing i s with
  | zero =>
    have : i = 64 := by omega
    subst this
    exact ⟨s, by rw [shaRounds, if_neg (by omega)]; rfl, hs⟩
  | succ k ih =>
    have hlt : i < 64 := by omega
    have hKl : shaK.length = 64 := rfl
    rw [shaRounds, if_pos hlt, hW.read i hlt, readAt_ok (by omega : i < shaK.length)]
    simp only [Res.ok_bind, shaSigma0_eq, shaSigma1_eq]
    apply ih (i + 1) (by omega)
    · rw [Fips.rounds, ← hs, shaK_eq, List.getD_eq_getElem?_getD,
        List.getElem?_eq_getElem (by omega : i < shaK.length)]
      rfl
    · omega

theorem shaProcessBlock_eq (block : Bytes) (hb : block.length = 64) (H : Words8) :
    ∃ H', shaProcessBlock block H = .ok H' ∧ H'.st = Fips.compress H.st block := by
  obtain ⟨W0, e0, h0⟩ := shaFill_eq block hb 0 (by omega) [] rfl
  obtain ⟨W, e1, h1⟩ := shaExtend_eq block 16 (by omega) (by omega) W0 h0
  obtain ⟨s, e2, h2⟩ := shaRounds_eq block W h1 H.st 0 (by omega) H rfl
  simp only [shaProcessBlock, e0, e1, e2, Res.ok_bind, Res.pure_eq]
  refine ⟨_, rfl, ?_⟩
  unfold Fips.compress
  rw [← h2]
  rfl

theorem fips_blocks_cons (a b : Bytes) (ha : a.length = 64) :
    Fips.blocks (a ++ b) = a :: Fips.blocks b := by
  rw [Fips.blocks, if_neg]
  · rw [List.take_left' ha, List.drop_left' ha]
  · intro h
    have := congrArg List.length h
    rw [List.length_append, List.length_nil] at this
    omega

theorem fips_blocks_nil : Fips.blocks [] = [] := by rw [Fips.blocks]; simp

theorem fips_blocks_one (a : Bytes) (ha : a.length = 64) : Fips.blocks a = [a] := by
  have := fips_blocks_cons a [] ha
  rw [List.append_nil, fips_blocks_nil] at this
  exact this

theorem fips_blocks_append (n : Nat) (a b : Bytes) (ha : a.length = 64 * n) :
    Fips.blocks (a ++ b) = Fips.blocks a ++ Fips.blocks b := by
  induction n generalizing a with
  | zero =>
    have : a = [] := List.length_eq_zero_iff.1 (by omega)
    subst this
    simp [fips_blocks_nil]
  | succ n ih =>
    have e : a = a.take 64 ++ a.drop 64 := (List.take_append_drop 64 a).symm
    have hl : (a.take 64).length = 64 := by simp; omega
    have hr : (a.drop 64).length = 64 * n := by simp; omega
    rw [e, List.append_assoc, fips_blocks_cons _ _ hl, fips_blocks_cons _ _ hl, ih _ hr]
    rfl

theorem writeBlock_full (block c : Bytes) (h : c.length = block.length) :
    writeBlock block 0 c = .ok c := by
  rw [writeBlock_ok _ (by omega)]
  simp [h]

/-- The whole-block loop consumes `64 n` bytes of the concatenation. -/
theorem shaBlocks_eq (tail : Option Nat) (msgs : List Bytes) (h0 : msgs ≠ []) (n : Nat) :
    ∀ (so off : Nat) (block : Bytes) (H : Words8), CursorOk msgs so off → block.length = 64 →
    64 * n ≤ (undelivered msgs so off).length →
    ∃ so' off' block' H', shaBlocks tail msgs n so off block H = .ok (so', off', block', H') ∧
      CursorOk msgs so' off' ∧ block'.length = 64 ∧
      undelivered msgs so' off' = (undelivered msgs so off).drop (64 * n) ∧
      H'.st = (Fips.blocks ((undelivered msgs so off).take (64 * n))).foldl Fips.compress H.st := by
  induction n with
  | zero =>
    intro so off block H hc hb _
    exact ⟨so, off, block, H, rfl, hc, hb, by simp, by simp [fips_blocks_nil]⟩
  | succ n ih =>
    intro so off block H hc hb hl
    have hso : so < msgs.length := by
      rcases hc with ⟨h, _⟩ | ⟨rfl, rfl⟩
      · exact h
      · simp [undelivered] at hl
    obtain ⟨so1, off1, e1, c1, u1⟩ := memncpyMulti_spec tail msgs 64 so off h0 hc (Or.inl hso)
    have hcl : ((undelivered msgs so off).take 64).length = 64 := by simp; omega
    obtain ⟨H1, p1, q1⟩ := shaProcessBlock_eq _ hcl H
    have hl1 : 64 * n ≤ (undelivered msgs so1 off1).length := by rw [u1]; simp; omega
    obtain ⟨so', off', block', H', e2, c2, b2, u2, s2⟩ := ih so1 off1 _ H1 c1 hcl hl1
    refine ⟨so', off', block', H', ?_, c2, b2, ?_, ?_⟩
    · rw [shaBlocks, e1, Res.ok_bind]
      simp only []
      rw [writeBlock_full _ _ (by rw [hcl, hb]), Res.ok_bind, if_pos hcl, p1, Res.ok_bind, e2]
    · rw [u2, u1, List.drop_drop]
      congr 1; omega
    · rw [s2, u1, q1]
      have : (undelivered msgs so off).take (64 * (n + 1)) =
          (undelivered msgs so off).take 64 ++ ((undelivered msgs so off).drop 64).take (64 * n) := by
        rw [show 64 * (n + 1) = 64 + 64 * n by omega, List.take_add]
      rw [this, fips_blocks_cons _ _ hcl, List.foldl_cons]

theorem toBe_split32 (x : BitVec 32) : Fips.toBe 4 x.toNat = splitBE32 x := by
  simp only [Fips.toBe, splitBE32, List.range, List.range.loop, List.map]
  have key : ∀ s, s < 32 → byteAt x s = UInt8.ofNat (x.toNat / 2 ^ s) := by
    intro s _
    apply UInt8.toNat_inj.1
    rw [byteAt_toNat]
    simp
  rw [key 24 (by decide), key 16 (by decide), key 8 (by decide), key 0 (by decide)]

theorem toBe_split64 (v : Nat) (h : v < 2 ^ 64) :
    Fips.toBe 8 v = splitBE64 (BitVec.ofNat 64 v) := by
  simp only [Fips.toBe, splitBE64, List.range, List.range.loop, List.map]
  have key : ∀ s, byteAt (BitVec.ofNat 64 v) s = UInt8.ofNat (v / 2 ^ s) := by
    intro s
    apply UInt8.toNat_inj.1
    rw [byteAt_toNat]
    simp [Nat.mod_eq_of_lt h]
  rw [key 56, key 48, key 40, key 32, key 24, key 16, key 8, key 0]

theorem shaOutput_eq (H : Words8) (msg : Bytes)
    (h : H.st = (Fips.blocks (Fips.pad msg)).foldl Fips.compress Fips.init) :
    shaOutput H = Fips.sha256 msg := by
  rw [Fips.sha256, ← h]
  simp [Words8.st, shaOutput, List.flatMap, toBe_split32]

theorem shaFinishOne_eq (y r : Bytes) (H : Words8) (k total : Nat) (hk : r.length + 1 + k = 56)
    (hy : y.length = k + 8) :
    ∃ H', shaFinishOne (r ++ [0x80] ++ y) H (r.length + 1) k total = .ok H' ∧
      H'.st = Fips.compress H.st (r ++ [0x80] ++ List.replicate k 0 ++
        splitBE64 (BitVec.ofNat 64 (total * 8))) := by
  have hlb : (splitBE64 (BitVec.ofNat 64 (total * 8))).length = 8 := rfl
  unfold shaFinishOne
  generalize splitBE64 (BitVec.ofNat 64 (total * 8)) = LB at *
  have e3 : writeBlock (r ++ [0x80] ++ y) (r.length + 1) (List.replicate k 0) =
      .ok (r ++ [0x80] ++ List.replicate k 0 ++ y.drop k) := by
    rw [writeBlock_ok _ (by simp; omega)]
    rw [List.take_left' (by simp)]
    congr 2
    rw [List.length_replicate, ← List.drop_drop, List.drop_left' (by simp)]
  have e4 : writeBlock (r ++ [0x80] ++ List.replicate k 0 ++ y.drop k) (r.length + 1 + k) LB =
      .ok (r ++ [0x80] ++ List.replicate k 0 ++ LB) := by
    rw [writeBlock_ok _ (by simp; omega)]
    rw [List.take_left' (by simp; omega)]
    have : List.drop (r.length + 1 + k + LB.length)
        (r ++ [0x80] ++ List.replicate k 0 ++ y.drop k) = [] := by
      rw [List.drop_eq_nil_iff]; simp; omega
    rw [this, List.append_nil]
  rw [e3, Res.ok_bind, e4, Res.ok_bind]
  apply shaProcessBlock_eq
  simp; omega

theorem shaFinishTwo_eq (y r : Bytes) (H : Words8) (k0 total : Nat) (hk : r.length + 1 + k0 = 64)
    (hy : y.length = k0) :
    ∃ H', shaFinishTwo (r ++ [0x80] ++ y) H (r.length + 1) k0 56 total = .ok H' ∧
      H'.st = Fips.compress (Fips.compress H.st (r ++ [0x80] ++ List.replicate k0 0))
        (List.replicate 56 0 ++ splitBE64 (BitVec.ofNat 64 (total * 8))) := by
  have hlb : (splitBE64 (BitVec.ofNat 64 (total * 8))).length = 8 := rfl
  unfold shaFinishTwo
  generalize splitBE64 (BitVec.ofNat 64 (total * 8)) = LB at *
  have e3 : writeBlock (r ++ [0x80] ++ y) (r.length + 1) (List.replicate k0 0) =
      .ok (r ++ [0x80] ++ List.replicate k0 0) := by
    rw [writeBlock_ok _ (by simp; omega)]
    rw [List.take_left' (by simp)]
    have : List.drop (r.length + 1 + (List.replicate k0 (0 : Byte)).length)
        (r ++ [0x80] ++ y) = [] := by
      rw [List.drop_eq_nil_iff]; simp; omega
    rw [this, List.append_nil]
  rw [e3, Res.ok_bind]
  generalize hX : r ++ [0x80] ++ List.replicate k0 (0 : Byte) = X
  have hXl : X.length = 64 := by rw [← hX]; simp; omega
  generalize hZ : List.replicate 56 (0 : Byte) = Z
  have hZl : Z.length = 56 := by rw [← hZ]; simp
  have e4 : writeBlock X 0 Z = .ok (Z ++ X.drop 56) := by
    rw [writeBlock_ok _ (by omega), hZl]
    simp
  have e5 : writeBlock (Z ++ X.drop 56) 56 LB = .ok (Z ++ LB) := by
    rw [writeBlock_ok _ (by simp; omega)]
    rw [List.take_left' hZl]
    have : List.drop (56 + LB.length) (Z ++ X.drop 56) = [] := by
      rw [List.drop_eq_nil_iff]; simp; omega
    rw [this, List.append_nil]
  obtain ⟨H1, p1, q1⟩ := shaProcessBlock_eq X hXl H
  rw [p1, Res.ok_bind, e4, Res.ok_bind, e5, Res.ok_bind, ← q1]
  apply shaProcessBlock_eq
  simp; omega

/-- The start of the last block: rest of the message and the marker byte. -/
theorem lastBlock_start (block r : Bytes) (hb : block.length = 64) (hr : r.length < 64) :
    ∃ b1 y, writeBlock block 0 r = .ok b1 ∧ writeAt b1 r.length 0x80 = .ok (r ++ [0x80] ++ y) ∧
      y.length = 63 - r.length := by
  have e1 : writeBlock block 0 r = .ok (r ++ block.drop r.length) := by
    rw [writeBlock_ok _ (by omega)]; simp
  obtain ⟨x, y, hxy⟩ : ∃ x y, block.drop r.length = x :: y := by
    cases hd : block.drop r.length with
    | nil => have := congrArg List.length hd; simp at this; omega
    | cons x y => exact ⟨x, y, rfl⟩
  have hyl : y.length = 63 - r.length := by
    have := congrArg List.length hxy; simp at this; omega
  have e2 : writeAt (r ++ block.drop r.length) r.length (0x80 : Byte) = .ok (r ++ [0x80] ++ y) := by
    rw [writeAt_ok _ (by simp; omega), hxy]
    simp
  exact ⟨_, y, e1, e2, hyl⟩

end Nx
