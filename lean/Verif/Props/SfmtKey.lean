import Verif.Model.SfmtKey
import Verif.Props.Sfmt

/-!
# C134: seeding with an array

The seeding accesses only the words of the state and the words of the key that exist, gives a certified state, and loses no
information about a word of the key: the steps after it are bijections of the state.
-/

namespace Nx

/-! ### The two scrambling functions are injective -/

theorem xorshift_inj {x y : BitVec 32} (h : x ^^^ (x >>> 27) = y ^^^ (y >>> 27)) : x = y := by
  apply BitVec.eq_of_getLsbD_eq
  have hb : ∀ i, (x.getLsbD i ^^ x.getLsbD (27 + i)) = (y.getLsbD i ^^ y.getLsbD (27 + i)) := by
    intro i
    have := congrArg (fun z => BitVec.getLsbD z i) h
    simpa [BitVec.getLsbD_xor, BitVec.getLsbD_ushiftRight] using this
  intro i hi
  have h1 := hb i
  have h2 := hb (27 + i)
  rw [BitVec.getLsbD_of_ge x (27 + (27 + i)) (by omega), BitVec.getLsbD_of_ge y (27 + (27 + i)) (by omega)] at h2
  simp only [Bool.xor_false] at h2
  rw [h2] at h1
  revert h1
  cases x.getLsbD i <;> cases y.getLsbD i <;> cases y.getLsbD (27 + i) <;> simp

theorem mul_inj_of {c d : BitVec 32} (hcd : c * d = 1#32) {x y : BitVec 32} (h : x * c = y * c) : x = y := by
  have := congrArg (· * d) h
  simp only [BitVec.mul_assoc, hcd, BitVec.mul_one] at this
  exact this

theorem sfmtFunc1_inj {x y : BitVec 32} (h : sfmtFunc1 x = sfmtFunc1 y) : x = y :=
  xorshift_inj (mul_inj_of (d := 4276115653#32) (by decide) h)

theorem sfmtFunc2_inj {x y : BitVec 32} (h : sfmtFunc2 x = sfmtFunc2 y) : x = y :=
  xorshift_inj (mul_inj_of (d := 1786162797#32) (by decide) h)

/-! ### The steps on functions -/

/-- A step at the index `i`: `g` gives the first value from three words, `q` the second from the first, `op` combines. -/
def keyStep (g : BitVec 32 → BitVec 32 → BitVec 32 → BitVec 32) (q : BitVec 32 → BitVec 32)
    (op : BitVec 32 → BitVec 32 → BitVec 32) (i : Nat) (m : Nat → BitVec 32) : Nat → BitVec 32 := fun j =>
  let r := g (m i) (m ((i + 306) % 624)) (m ((i + 623) % 624))
  if j = i then q r else if j = (i + 317) % 624 then op (m j) (q r) else if j = (i + 306) % 624 then op (m j) r else m j

/-- The same words. -/
def SameWords (m m' : Nat → BitVec 32) : Prop := ∀ j, j < 624 → m j = m' j

/-- A step loses nothing. -/
theorem keyStep_inj {g : BitVec 32 → BitVec 32 → BitVec 32 → BitVec 32} {q : BitVec 32 → BitVec 32}
    {op : BitVec 32 → BitVec 32 → BitVec 32} (hg : ∀ a a' b c, g a b c = g a' b c → a = a') (hq : ∀ a b, q a = q b → a = b)
    (hop : ∀ a b c, op a c = op b c → a = b) {i : Nat} (hi : i < 624) {m m' : Nat → BitVec 32}
    (h : SameWords (keyStep g q op i m) (keyStep g q op i m')) : SameWords m m' := by
  have hr := hq _ _ (by simpa [keyStep] using h i hi)
  have hne : ∀ j, j < 624 → j ≠ i → m j = m' j := by
    intro j hj hji
    have := h j hj
    unfold keyStep at this
    simp only [if_neg hji, hr] at this
    by_cases h1 : j = (i + 317) % 624
    · rw [if_pos h1, if_pos h1] at this
      exact hop _ _ _ this
    · rw [if_neg h1, if_neg h1] at this
      by_cases h2 : j = (i + 306) % 624
      · rw [if_pos h2, if_pos h2] at this
        exact hop _ _ _ this
      · rwa [if_neg h2, if_neg h2] at this
  intro j hj
  by_cases hji : j = i
  · subst hji
    rw [hne ((j + 306) % 624) (by omega) (by omega), hne ((j + 623) % 624) (by omega) (by omega)] at hr
    exact hg _ _ _ _ hr
  · exact hne j hj hji

theorem keyStep_same {g : BitVec 32 → BitVec 32 → BitVec 32 → BitVec 32} {q : BitVec 32 → BitVec 32}
    {op : BitVec 32 → BitVec 32 → BitVec 32} {i : Nat} (hi : i < 624) {m m' : Nat → BitVec 32}
    (h : SameWords m m') : SameWords (keyStep g q op i m) (keyStep g q op i m') := by
  intro j hj
  unfold keyStep
  rw [h i hi, h _ (Nat.mod_lt _ (by decide)), h _ (Nat.mod_lt _ (by decide)), h j hj]

/-- A step of the first two loops with the word `k`. -/
def keyAddStep (k : BitVec 32) (i : Nat) : (Nat → BitVec 32) → Nat → BitVec 32 :=
  keyStep (fun a b c => sfmtFunc1 (a ^^^ b ^^^ c)) (fun r => r + (k + BitVec.ofNat 32 i)) (· + ·) i

/-- A step of the last loop. -/
def xorStep (i : Nat) : (Nat → BitVec 32) → Nat → BitVec 32 :=
  keyStep (fun a b c => sfmtFunc2 (a + b + c)) (fun r => r - BitVec.ofNat 32 i) (· ^^^ ·) i

theorem bv_add_right_cancel {a b c : BitVec 32} (h : a + c = b + c) : a = b := by
  have := congrArg (· - c) h
  simpa [BitVec.add_sub_cancel] using this

theorem bv_sub_right_cancel {a b c : BitVec 32} (h : a - c = b - c) : a = b := by
  have := congrArg (· + c) h
  simpa [BitVec.sub_add_cancel] using this

theorem bv_xor_right_cancel {a b c : BitVec 32} (h : a ^^^ c = b ^^^ c) : a = b := by
  have := congrArg (· ^^^ c) h
  simpa [BitVec.xor_assoc] using this

theorem keyAddStep_inj {k : BitVec 32} {i : Nat} (hi : i < 624) {m m' : Nat → BitVec 32}
    (h : SameWords (keyAddStep k i m) (keyAddStep k i m')) : SameWords m m' := by
  refine keyStep_inj ?_ ?_ ?_ hi h
  · intro a a' b c e
    exact bv_xor_right_cancel (bv_xor_right_cancel (sfmtFunc1_inj e))
  · intro a b e
    exact bv_add_right_cancel e
  · intro a b c e
    exact bv_add_right_cancel e

theorem xorStep_inj {i : Nat} (hi : i < 624) {m m' : Nat → BitVec 32}
    (h : SameWords (xorStep i m) (xorStep i m')) : SameWords m m' := by
  refine keyStep_inj ?_ ?_ ?_ hi h
  · intro a a' b c e
    exact bv_add_right_cancel (bv_add_right_cancel (sfmtFunc2_inj e))
  · intro a b e
    exact bv_sub_right_cancel e
  · intro a b c e
    exact bv_xor_right_cancel e

/-- The word of the key can be read off a step. -/
theorem keyAddStep_key {k k' : BitVec 32} {i : Nat} (hi : i < 624) {m m' : Nat → BitVec 32} (hm : SameWords m m')
    (h : keyAddStep k i m i = keyAddStep k' i m' i) : k = k' := by
  unfold keyAddStep keyStep at h
  simp only [if_pos, hm i hi, hm _ (Nat.mod_lt _ (by decide : 0 < 624))] at h
  have h2 : ∀ a b c : BitVec 32, a + b = a + c → b = c := by
    intro a b c e
    rw [BitVec.add_comm a b, BitVec.add_comm a c] at e
    exact bv_add_right_cancel e
  exact bv_add_right_cancel (h2 _ _ _ h)

/-- The first two loops after `t` steps, with the words `K` of the key. -/
def addSeq (m : Nat → BitVec 32) (K : Nat → BitVec 32) : Nat → Nat → BitVec 32
  | 0 => m
  | t + 1 => keyAddStep (K t) ((t + 1) % 624) (addSeq m K t)

/-- The last loop after `t` steps, started with `i`. -/
def xorSeq (m : Nat → BitVec 32) (i : Nat) : Nat → Nat → BitVec 32
  | 0 => m
  | t + 1 => xorStep ((i + t) % 624) (xorSeq m i t)

theorem xorSeq_inj {m m' : Nat → BitVec 32} {i : Nat} (t : Nat) (h : SameWords (xorSeq m i t) (xorSeq m' i t)) :
    SameWords m m' := by
  induction t with
  | zero => exact h
  | succ t ih => exact ih (xorStep_inj (Nat.mod_lt _ (by decide)) h)

theorem addSeq_same {m : Nat → BitVec 32} {K K' : Nat → BitVec 32} (t : Nat) (h : ∀ s, s < t → K s = K' s) :
    addSeq m K t = addSeq m K' t := by
  induction t with
  | zero => rfl
  | succ t ih => rw [addSeq, addSeq, ih fun s hs => h s (by omega), h t (by omega)]

/-- The steps from `a` on use the same words: the states were the same at `a`. -/
theorem addSeq_back {m m' : Nat → BitVec 32} {K K' : Nat → BitVec 32} {a : Nat} (d : Nat)
    (hk : ∀ s, a ≤ s → s < a + d → K s = K' s) (h : SameWords (addSeq m K (a + d)) (addSeq m' K' (a + d))) :
    SameWords (addSeq m K a) (addSeq m' K' a) := by
  induction d with
  | zero => exact h
  | succ d ih =>
    refine ih (fun s h1 h2 => hk s h1 (by omega)) ?_
    rw [← Nat.add_assoc, addSeq, addSeq, hk (a + d) (by omega) (by omega)] at h
    exact keyAddStep_inj (Nat.mod_lt _ (by decide)) h

/-- Two keys that differ in one word are told apart. -/
theorem addSeq_one {m : Nat → BitVec 32} {K K' : Nat → BitVec 32} {a n : Nat} (ha : a < n)
    (hk : ∀ s, s ≠ a → K s = K' s) (h : SameWords (addSeq m K n) (addSeq m K' n)) : K a = K' a := by
  have h1 : SameWords (addSeq m K (a + 1)) (addSeq m K' (a + 1)) := by
    refine addSeq_back (n - (a + 1)) (fun s hs _ => hk s (by omega)) ?_
    rwa [Nat.add_sub_cancel' ha]
  have h2 : addSeq m K a = addSeq m K' a := addSeq_same a fun s hs => hk s (by omega)
  have hi : (a + 1) % 624 < 624 := Nat.mod_lt _ (by decide)
  refine keyAddStep_key (i := (a + 1) % 624) (m := addSeq m K a) (m' := addSeq m K' a) hi (fun j _ => by rw [h2]) ?_
  exact h1 _ hi

/-- The value that the step `t` stores at its index. -/
def addR (m K : Nat → BitVec 32) (t : Nat) : BitVec 32 := addSeq m K t t

/-- The value before the word of the key is added. -/
def addF (m K : Nat → BitVec 32) (t : Nat) : BitVec 32 :=
  sfmtFunc1 (addSeq m K (t - 1) t ^^^ addSeq m K (t - 1) ((t + 306) % 624) ^^^ addSeq m K (t - 1) (t - 1))

theorem addSeq_step {m K : Nat → BitVec 32} {t j : Nat} (ht : t < 623) (hj : j ≠ t + 1) :
    addSeq m K (t + 1) j = if j = (t + 318) % 624 then addSeq m K t j + addR m K (t + 1)
      else if j = (t + 307) % 624 then addSeq m K t j + addF m K (t + 1) else addSeq m K t j := by
  have hm : (t + 1) % 624 = t + 1 := Nat.mod_eq_of_lt (by omega)
  have h1 : (t + 1 + 623) % 624 = t := by omega
  unfold addR addF
  rw [addSeq, hm]
  unfold keyAddStep keyStep
  simp only [if_neg hj, if_true, h1, Nat.add_sub_cancel, show t + 1 + 317 = t + 318 by omega, show t + 1 + 306 = t + 307 by omega]

/-- A word after the step at its index. -/
theorem addSeq_after {m K : Nat → BitVec 32} {j : Nat} (t : Nat) (hj : j ≤ t) (ht : t ≤ 613) :
    addSeq m K t j = addR m K j + (if j + 307 ≤ t then addR m K (j + 307) else 0#32) + (if j + 318 ≤ t then addF m K (j + 318) else 0#32) := by
  induction t with
  | zero =>
    obtain rfl : j = 0 := by omega
    rw [if_neg (by omega), if_neg (by omega), BitVec.add_zero, BitVec.add_zero]
    rfl
  | succ t ih =>
    by_cases he : j = t + 1
    · subst he
      rw [if_neg (by omega), if_neg (by omega), BitVec.add_zero, BitVec.add_zero]
      rfl
    rw [addSeq_step (by omega) he, ih (by omega) (by omega)]
    by_cases h1 : j + 307 = t + 1
    · rw [if_pos (by omega), if_neg (by omega), if_neg (by omega), if_pos (by omega), if_neg (by omega), h1]
      simp only [BitVec.add_zero]
    rw [if_neg (by omega)]
    by_cases h2 : j + 318 = t + 1
    · rw [if_pos (by omega), if_pos (by omega), if_neg (by omega), if_pos (by omega), if_pos (by omega), h2]
      simp only [BitVec.add_zero]
    rw [if_neg (by omega)]
    have e1 : (j + 307 ≤ t) ↔ (j + 307 ≤ t + 1) := by omega
    have e2 : (j + 318 ≤ t) ↔ (j + 318 ≤ t + 1) := by omega
    simp only [e1, e2]

/-- A word before the step at its index. -/
theorem addSeq_before {m K : Nat → BitVec 32} {p : Nat} (t : Nat) (hp : t < p) (hp2 : p < 624) :
    addSeq m K t p = m p + (if 318 ≤ p ∧ p ≤ t + 317 then addR m K (p - 317) else 0#32) +
      (if 307 ≤ p ∧ p ≤ t + 306 then addF m K (p - 306) else 0#32) := by
  induction t with
  | zero =>
    rw [if_neg (by omega), if_neg (by omega), BitVec.add_zero, BitVec.add_zero]
    rfl
  | succ t ih =>
    rw [addSeq_step (by omega) (by omega), ih (by omega)]
    by_cases h1 : p = t + 318
    · rw [if_pos (by omega), if_neg (by omega), if_neg (by omega), if_pos (by omega), if_neg (by omega), show p - 317 = t + 1 by omega]
      simp only [BitVec.add_zero]
    have e1 : (318 ≤ p ∧ p ≤ t + 317) ↔ (318 ≤ p ∧ p ≤ t + 1 + 317) := by omega
    rw [if_neg (by omega)]
    by_cases h2 : p = t + 307
    · have h3 : p = (t + 307) % 624 := by omega
      rw [if_pos h3]
      simp only [e1]
      rw [if_neg (show ¬(307 ≤ p ∧ p ≤ t + 306) by omega), if_pos (show 307 ≤ p ∧ p ≤ t + 1 + 306 by omega), BitVec.add_zero,
        show p - 306 = t + 1 by omega]
    · have e2 : (307 ≤ p ∧ p ≤ t + 306) ↔ (307 ≤ p ∧ p ≤ t + 1 + 306) := by omega
      rw [if_neg (by omega)]
      simp only [e1, e2]

theorem addF_low {m K : Nat → BitVec 32} {t : Nat} (h1 : 1 ≤ t) (h2 : t ≤ 317) :
    addF m K t = sfmtFunc1 ((m t + (if 307 ≤ t then addF m K (t - 306) else 0#32)) ^^^
      (m (t + 306) + (if 12 ≤ t then addR m K (t - 11) else 0#32)) ^^^ addR m K (t - 1)) := by
  have ea := addSeq_before (m := m) (K := K) (p := t) (t - 1) (by omega) (by omega)
  have eb := addSeq_before (m := m) (K := K) (p := t + 306) (t - 1) (by omega) (by omega)
  have c1 : (307 ≤ t ∧ t ≤ t - 1 + 306) ↔ 307 ≤ t := by omega
  have c2 : (318 ≤ t + 306 ∧ t + 306 ≤ t - 1 + 317) ↔ 12 ≤ t := by omega
  rw [if_neg (by omega), BitVec.add_zero] at ea
  simp only [c1] at ea
  simp only [c2] at eb
  rw [if_neg (show ¬(307 ≤ t + 306 ∧ t + 306 ≤ t - 1 + 306) by omega), BitVec.add_zero, show t + 306 - 317 = t - 11 by omega] at eb
  rw [addF, Nat.mod_eq_of_lt (show t + 306 < 624 by omega), ea, eb]
  rfl

theorem addF_high {m K : Nat → BitVec 32} {t : Nat} (h1 : 318 ≤ t) (h2 : t ≤ 613) :
    addF m K t = sfmtFunc1 ((m t + addR m K (t - 317) + addF m K (t - 306)) ^^^ (addR m K (t - 318) + addR m K (t - 11)) ^^^
      addR m K (t - 1)) := by
  have ea := addSeq_before (m := m) (K := K) (p := t) (t - 1) (by omega) (by omega)
  have eb := addSeq_after (m := m) (K := K) (j := t - 318) (t - 1) (by omega) (by omega)
  rw [if_pos (by omega), if_pos (by omega)] at ea
  rw [if_pos (by omega), if_neg (by omega), BitVec.add_zero, show t - 318 + 307 = t - 11 by omega] at eb
  rw [addF, show (t + 306) % 624 = t - 318 by omega, ea, eb]
  rfl

theorem bv_add_left_cancel {a b c : BitVec 32} (h : c + a = c + b) : a = b := by
  rw [BitVec.add_comm c a, BitVec.add_comm c b] at h
  exact bv_add_right_cancel h

theorem bv_xor_left_cancel {a b c : BitVec 32} (h : c ^^^ a = c ^^^ b) : a = b := by
  rw [BitVec.xor_comm c a, BitVec.xor_comm c b] at h
  exact bv_xor_right_cancel h

/-- Keys of at most 613 words are told apart: the last values are in the state, the first ones follow from the words that the index has not
reached, and each value follows from the ten before it. -/
theorem addSeq_key {m : Nat → BitVec 32} {K K' : Nat → BitVec 32} {n : Nat} (hn : n ≤ 613)
    (h : SameWords (addSeq m K n) (addSeq m K' n)) : ∀ s, s < n → K s = K' s := by
  have hlast : ∀ j, j ≤ n → n < j + 307 → addR m K j = addR m K' j := by
    intro j h2 h3
    have := h j (by omega)
    rw [addSeq_after n h2 hn, addSeq_after n h2 hn, if_neg (by omega), if_neg (by omega), if_neg (by omega), if_neg (by omega)] at this
    simpa only [BitVec.add_zero] using this
  have hmid : ∀ j, j ≤ n → n < j + 318 → addR m K j = addR m K' j := by
    intro j h2 h3
    by_cases h4 : n < j + 307
    · exact hlast j h2 h4
    · have := h j (by omega)
      rw [addSeq_after n h2 hn, addSeq_after n h2 hn, if_pos (by omega), if_neg (by omega), if_pos (by omega), if_neg (by omega),
        hlast (j + 307) (by omega) (by omega)] at this
      simp only [BitVec.add_zero] at this
      exact bv_add_right_cancel this
  have hfirst : ∀ j, j ≤ 10 → j ≤ n → addR m K j = addR m K' j := by
    intro j hj hjn
    by_cases h0 : j = 0
    · subst h0
      rfl
    by_cases h3 : n < j + 318
    · exact hmid j hjn h3
    have hw := h (j + 613) (by omega)
    rw [addSeq_before n (by omega) (by omega), addSeq_before n (by omega) (by omega), if_pos (by omega), if_pos (by omega),
      if_pos (by omega), if_pos (by omega), show j + 613 - 317 = j + 296 by omega, show j + 613 - 306 = j + 307 by omega,
      hmid (j + 296) (by omega) (by omega)] at hw
    have hF := bv_add_left_cancel hw
    rw [addF_low (K := K) (t := j + 307) (by omega) (by omega), addF_low (K := K') (t := j + 307) (by omega) (by omega),
      if_pos (show 307 ≤ j + 307 by omega), if_pos (show 12 ≤ j + 307 by omega), if_pos (show 307 ≤ j + 307 by omega),
      if_pos (show 12 ≤ j + 307 by omega), show j + 307 - 306 = j + 1 by omega, show j + 307 - 11 = j + 296 by omega, show j + 307 - 1 = j + 306 by omega,
      hmid (j + 296) (by omega) (by omega), hmid (j + 306) (by omega) (by omega)] at hF
    have hF1 := bv_add_left_cancel (bv_xor_right_cancel (bv_xor_right_cancel (sfmtFunc1_inj hF)))
    rw [addF_low (K := K) (t := j + 1) (by omega) (by omega), addF_low (K := K') (t := j + 1) (by omega) (by omega),
      if_neg (show ¬307 ≤ j + 1 by omega), if_neg (show ¬12 ≤ j + 1 by omega), if_neg (show ¬307 ≤ j + 1 by omega),
      if_neg (show ¬12 ≤ j + 1 by omega), Nat.add_sub_cancel] at hF1
    exact bv_xor_left_cancel (sfmtFunc1_inj hF1)
  have hall : ∀ j, j ≤ n → addR m K j = addR m K' j := by
    intro j
    induction j using Nat.strongRecOn with
    | _ j ih =>
      intro hj
      by_cases h1 : j ≤ 10
      · exact hfirst j h1 hj
      by_cases h2 : n < j + 318
      · exact hmid j hj h2
      obtain ⟨p, rfl⟩ : ∃ p, j = p + 11 := ⟨j - 11, by omega⟩
      have hw := h p (by omega)
      rw [addSeq_after n (by omega) hn, addSeq_after n (by omega) hn, if_pos (by omega), if_pos (by omega), if_pos (by omega),
        if_pos (by omega), ih p (by omega) (by omega), hmid (p + 307) (by omega) (by omega)] at hw
      have hF := bv_add_left_cancel hw
      rw [addF_high (K := K) (t := p + 318) (by omega) (by omega), addF_high (K := K') (t := p + 318) (by omega) (by omega), show p + 318 - 317 = p + 1 by omega,
        show p + 318 - 306 = p + 12 by omega, show p + 318 - 318 = p by omega, show p + 318 - 11 = p + 307 by omega,
        show p + 318 - 1 = p + 317 by omega, ih p (by omega) (by omega), ih (p + 1) (by omega) (by omega),
        hmid (p + 307) (by omega) (by omega), hmid (p + 317) (by omega) (by omega)] at hF
      have hF1 := bv_add_left_cancel (bv_xor_right_cancel (bv_xor_right_cancel (sfmtFunc1_inj hF)))
      have hone : (if 307 ≤ p + 12 then addF m K (p + 12 - 306) else 0#32) = if 307 ≤ p + 12 then addF m K' (p + 12 - 306) else 0#32 := by
        by_cases h5 : 307 ≤ p + 12
        · rw [if_pos h5, if_pos h5, show p + 12 - 306 = 1 by omega]
          rfl
        · rw [if_neg h5, if_neg h5]
      rw [addF_low (K := K) (t := p + 12) (by omega) (by omega), addF_low (K := K') (t := p + 12) (by omega) (by omega),
        hone, if_pos (show 12 ≤ p + 12 by omega), if_pos (show 12 ≤ p + 12 by omega), show p + 12 - 11 = p + 1 by omega, show p + 12 - 1 = p + 11 by omega, ih (p + 1) (by omega) (by omega)] at hF1
      exact bv_xor_left_cancel (sfmtFunc1_inj hF1)
  intro s
  induction s using Nat.strongRecOn with
  | _ s ih =>
    intro hs
    have h2 : addSeq m K s = addSeq m K' s := addSeq_same s fun u hu => ih u hu (by omega)
    have hm : (s + 1) % 624 = s + 1 := Nat.mod_eq_of_lt (by omega)
    have h3 := hall (s + 1) (by omega)
    unfold addR at h3
    rw [addSeq, addSeq, hm, h2] at h3
    exact keyAddStep_key (by omega) (fun _ _ => rfl) h3

/-! ### The program and the steps -/

/-- The state holds the words of `m`. -/
def WordsAre (st : List W128) (m : Nat → BitVec 32) : Prop := st.length = 156 ∧ ∀ j, j < 624 → wordAt st j = some (m j)

theorem WordsAre.read {st : List W128} {m : Nat → BitVec 32} (h : WordsAre st m) {i : Nat} (hi : i < 624) :
    readWord st i = .ok (m i) := wordAt_readWord (h.2 i hi)

theorem WordsAre.write {st : List W128} {m : Nat → BitVec 32} (h : WordsAre st m) {i : Nat} (hi : i < 624) (x : BitVec 32) :
    ∃ st', writeWord st i x = .ok st' ∧ WordsAre st' fun j => if j = i then x else m j := by
  obtain ⟨st', e, hl, hw⟩ := writeWord_spec (l := st) (i := i) x (by rw [h.1]; omega)
  refine ⟨st', e, hl.trans h.1, fun j hj => ?_⟩
  rw [hw]
  by_cases hji : j = i
  · simp only [if_pos hji]
  · simp only [if_neg hji]
    exact h.2 j hj

theorem WordsAre.congr {st : List W128} {m m' : Nat → BitVec 32} (h : WordsAre st m) (e : SameWords m m') : WordsAre st m' :=
  ⟨h.1, fun j hj => by rw [← e j hj]; exact h.2 j hj⟩

theorem WordsAre.same {st : List W128} {m m' : Nat → BitVec 32} (h : WordsAre st m) (h' : WordsAre st m') : SameWords m m' :=
  fun j hj => Option.some.inj ((h.2 j hj).symm.trans (h'.2 j hj))

theorem keyBody_step {extra : Nat → Res (BitVec 32)} {j : Nat} {k : BitVec 32} (hk : extra j = .ok k) {s : KeyVars}
    {m : Nat → BitVec 32} (h : WordsAre s.st m) (hi : s.i < 624) :
    ∃ st', keyBody extra j s = .ok ⟨st', (s.i + 1) % 624⟩ ∧ WordsAre st' (keyAddStep k s.i m) := by
  obtain ⟨st, i⟩ := s
  simp only at h hi
  have hmid : keyMid = 306 := by decide
  have hlag : keyLag = 11 := by decide
  have h32 : sfmtN32 = 624 := by decide
  have l1 : (i + 306) % 624 < 624 := Nat.mod_lt _ (by decide)
  have l2 : (i + 624 - 1) % 624 < 624 := Nat.mod_lt _ (by decide)
  have l3 : (i + 306 + 11) % 624 < 624 := Nat.mod_lt _ (by decide)
  unfold keyBody
  simp only [hmid, hlag, h32]
  rw [h.read hi, Res.ok_bind, h.read l1, Res.ok_bind, h.read l2, Res.ok_bind, Res.ok_bind]
  obtain ⟨st1, e1, h1⟩ := h.write l1 (m ((i + 306) % 624) + sfmtFunc1 (m i ^^^ m ((i + 306) % 624) ^^^ m ((i + 624 - 1) % 624)))
  rw [e1, Res.ok_bind, hk, Res.ok_bind, h1.read l3, Res.ok_bind, if_neg (by omega)]
  obtain ⟨st2, e2, h2⟩ := h1.write l3 (m ((i + 306 + 11) % 624) +
    (sfmtFunc1 (m i ^^^ m ((i + 306) % 624) ^^^ m ((i + 624 - 1) % 624)) + (k + BitVec.ofNat 32 i)))
  rw [e2, Res.ok_bind]
  obtain ⟨st3, e3, h3⟩ := h2.write hi (sfmtFunc1 (m i ^^^ m ((i + 306) % 624) ^^^ m ((i + 624 - 1) % 624)) + (k + BitVec.ofNat 32 i))
  rw [e3, Res.ok_bind]
  refine ⟨st3, rfl, h3.congr fun j _ => ?_⟩
  unfold keyAddStep keyStep
  have q1 : i + 306 + 11 = i + 317 := by omega
  have q2 : i + 624 - 1 = i + 623 := by omega
  simp only [q1, q2]
  by_cases c1 : j = i
  · simp only [if_pos c1]
  simp only [if_neg c1]
  by_cases c2 : j = (i + 317) % 624
  · rw [if_pos c2, if_pos c2, c2]
  simp only [if_neg c2]
  by_cases c3 : j = (i + 306) % 624
  · rw [if_pos c3, if_pos c3, c3]
  · simp only [if_neg c3]

theorem mixBody_step (j : Nat) {s : KeyVars} {m : Nat → BitVec 32} (h : WordsAre s.st m) (hi : s.i < 624) :
    ∃ st', mixBody j s = .ok ⟨st', (s.i + 1) % 624⟩ ∧ WordsAre st' (xorStep s.i m) := by
  obtain ⟨st, i⟩ := s
  simp only at h hi
  have hmid : keyMid = 306 := by decide
  have hlag : keyLag = 11 := by decide
  have h32 : sfmtN32 = 624 := by decide
  have l1 : (i + 306) % 624 < 624 := Nat.mod_lt _ (by decide)
  have l2 : (i + 624 - 1) % 624 < 624 := Nat.mod_lt _ (by decide)
  have l3 : (i + 306 + 11) % 624 < 624 := Nat.mod_lt _ (by decide)
  unfold mixBody
  simp only [hmid, hlag, h32]
  rw [h.read hi, Res.ok_bind, h.read l1, Res.ok_bind, h.read l2, Res.ok_bind, Res.ok_bind]
  obtain ⟨st1, e1, h1⟩ := h.write l1 (m ((i + 306) % 624) ^^^ sfmtFunc2 (m i + m ((i + 306) % 624) + m ((i + 624 - 1) % 624)))
  rw [e1, Res.ok_bind, h1.read l3, Res.ok_bind, if_neg (by omega)]
  obtain ⟨st2, e2, h2⟩ := h1.write l3 (m ((i + 306 + 11) % 624) ^^^
    (sfmtFunc2 (m i + m ((i + 306) % 624) + m ((i + 624 - 1) % 624)) - BitVec.ofNat 32 i))
  rw [e2, Res.ok_bind]
  obtain ⟨st3, e3, h3⟩ := h2.write hi (sfmtFunc2 (m i + m ((i + 306) % 624) + m ((i + 624 - 1) % 624)) - BitVec.ofNat 32 i)
  rw [e3, Res.ok_bind]
  refine ⟨st3, rfl, h3.congr fun j _ => ?_⟩
  unfold xorStep keyStep
  have q1 : i + 306 + 11 = i + 317 := by omega
  have q2 : i + 624 - 1 = i + 623 := by omega
  simp only [q1, q2]
  by_cases c1 : j = i
  · simp only [if_pos c1]
  simp only [if_neg c1]
  by_cases c2 : j = (i + 317) % 624
  · rw [if_pos c2, if_pos c2, c2]
  simp only [if_neg c2]
  by_cases c3 : j = (i + 306) % 624
  · rw [if_pos c3, if_pos c3, c3]
  · simp only [if_neg c3]

/-- The words before the loops. -/
def firstWords (n : Int) : Nat → BitVec 32 := fun j =>
  let r := sfmtFunc1 (0x8b8b8b8b#32 ^^^ 0x8b8b8b8b#32 ^^^ 0x8b8b8b8b#32)
  if j = 0 then r + BitVec.ofInt 32 n else if j = 317 then 0x8b8b8b8b#32 + (r + BitVec.ofInt 32 n)
  else if j = 306 then 0x8b8b8b8b#32 + r else 0x8b8b8b8b#32

theorem keyBlank_words : WordsAre keyBlank fun _ => 0x8b8b8b8b#32 := by
  refine ⟨List.length_replicate .., fun j hj => ?_⟩
  unfold wordAt keyBlank
  rw [List.getElem?_replicate, if_pos (by change j / 4 < 156; omega)]
  have h4 : j % 4 = 0 ∨ j % 4 = 1 ∨ j % 4 = 2 ∨ j % 4 = 3 := by omega
  obtain ⟨a0, a1, a2, a3⟩ := lane_bv ⟨0x8b8b8b8b#32, 0x8b8b8b8b#32, 0x8b8b8b8b#32, 0x8b8b8b8b#32⟩
  rcases h4 with h | h | h | h <;> rw [h, Option.map_some]
  · rw [a0]
  · rw [a1]
  · rw [a2]
  · rw [a3]

theorem keyFirst_words (n : Int) : ∃ st, keyFirst keyBlank n = .ok st ∧ WordsAre st (firstWords n) := by
  have hmid : keyMid = 306 := by decide
  have hlag : keyLag = 11 := by decide
  have h32 : sfmtN32 = 624 := by decide
  have h := keyBlank_words
  unfold keyFirst
  simp only [hmid, hlag, h32]
  rw [h.read (by decide), Res.ok_bind, h.read (by decide), Res.ok_bind, h.read (by decide), Res.ok_bind, Res.ok_bind]
  obtain ⟨st1, e1, h1⟩ := h.write (i := 306) (by decide)
    (0x8b8b8b8b#32 + sfmtFunc1 (0x8b8b8b8b#32 ^^^ 0x8b8b8b8b#32 ^^^ 0x8b8b8b8b#32))
  rw [e1, Res.ok_bind, h1.read (by decide), Res.ok_bind, if_neg (by decide)]
  obtain ⟨st2, e2, h2⟩ := h1.write (i := 306 + 11) (by decide)
    (0x8b8b8b8b#32 + (sfmtFunc1 (0x8b8b8b8b#32 ^^^ 0x8b8b8b8b#32 ^^^ 0x8b8b8b8b#32) + BitVec.ofInt 32 n))
  rw [e2, Res.ok_bind]
  obtain ⟨st3, e3, h3⟩ := h2.write (i := 0) (by decide)
    (sfmtFunc1 (0x8b8b8b8b#32 ^^^ 0x8b8b8b8b#32 ^^^ 0x8b8b8b8b#32) + BitVec.ofInt 32 n)
  exact ⟨st3, e3, h3⟩

/-- The words of a key followed by zeros; only the first `n` are used. -/
def keyWords (key : List (BitVec 32)) (n : Nat) : Nat → BitVec 32 := fun t => if t < n then (key[t]?).getD 0 else 0

/-- The number of steps of the first two loops. -/
def keySteps (n : Int) : Nat := if n + 1 > 624 then n.toNat else 623

/-- The words of the expanded key. -/
def expanded (key : List (BitVec 32)) (n : Int) : Nat → BitVec 32 :=
  xorSeq (addSeq (firstWords n) (keyWords key n.toNat) (keySteps n)) (1 + keySteps n) 624

theorem expandKey_words {key : List (BitVec 32)} {n : Int} (hn : n < 2147483647) (hk : n ≤ key.length) :
    ∃ st, expandKey key n = .ok st ∧ WordsAre st (expanded key n) := by
  have h32 : sfmtN32 = 624 := by decide
  obtain ⟨st0, e0, h0⟩ := keyFirst_words n
  have hcount : (if n + 1 > (sfmtN32 : Int) then (n + 1).toNat else sfmtN32) - 1 = keySteps n := by
    rw [h32]
    unfold keySteps
    split <;> rename_i hc
    · rw [if_pos (by simpa using hc)]
      omega
    · rw [if_neg (by simpa using hc)]
  have hle : n.toNat ≤ keySteps n := by
    unfold keySteps
    split <;> omega
  let P : Nat → KeyVars → Prop := fun t s => s.i = (1 + t) % 624 ∧
    WordsAre s.st (addSeq (firstWords n) (keyWords key n.toNat) t)
  obtain ⟨s1, e1, p1⟩ := forLoop_spec P (n := n.toNat) (body := keyBody (readAt key)) (i0 := 0) (s := ⟨st0, 1⟩) (Nat.zero_le _)
    ⟨rfl, h0⟩ (fun t s _ ht ⟨hi, hw⟩ => by
      have hlt : t < key.length := by omega
      obtain ⟨st', e, h'⟩ := keyBody_step (extra := readAt key) (j := t) (readAt_ok hlt) hw (by rw [hi]; exact Nat.mod_lt _ (by decide))
      refine ⟨_, e, ?_, ?_⟩
      · simp only [hi]
        omega
      · rw [addSeq]
        have : keyWords key n.toNat t = key[t] := by
          rw [keyWords, if_pos ht, List.getElem?_eq_getElem hlt]
          rfl
        rw [this, show (t + 1) % 624 = s.i by rw [hi, Nat.add_comm]]
        exact h')
  obtain ⟨s2, e2, p2⟩ := forLoop_spec P (n := keySteps n) (body := keyBody fun _ => .ok 0) hle p1 (fun t s ht0 _ ⟨hi, hw⟩ => by
      obtain ⟨st', e, h'⟩ := keyBody_step (extra := fun _ => .ok 0) (j := t) rfl hw (by rw [hi]; exact Nat.mod_lt _ (by decide))
      refine ⟨_, e, ?_, ?_⟩
      · simp only [hi]
        omega
      · rw [addSeq]
        have : keyWords key n.toNat t = 0 := by rw [keyWords, if_neg (by omega)]
        rw [this, show (t + 1) % 624 = s.i by rw [hi, Nat.add_comm]]
        exact h')
  obtain ⟨s3, e3, p3⟩ := forLoop_spec (fun t s => s.i = (1 + keySteps n + t) % 624 ∧
      WordsAre s.st (xorSeq (addSeq (firstWords n) (keyWords key n.toNat) (keySteps n)) (1 + keySteps n) t))
    (n := sfmtN32) (body := mixBody) (i0 := 0) (s := s2) (Nat.zero_le _) ⟨p2.1, p2.2⟩ (fun t s _ _ ⟨hi, hw⟩ => by
      obtain ⟨st', e, h'⟩ := mixBody_step t hw (by rw [hi]; exact Nat.mod_lt _ (by decide))
      refine ⟨_, e, ?_, ?_⟩
      · simp only [hi]
        omega
      · rw [xorSeq, ← hi]
        exact h')
  refine ⟨s3.st, ?_, ?_⟩
  · unfold expandKey
    rw [if_neg (by omega)]
    simp only [hcount, Nat.min_eq_right hle]
    rw [e0, Res.ok_bind, e1, Res.ok_bind, e2, Res.ok_bind, e3, Res.ok_bind]
    rfl
  · exact p3.2

/-! ### The claims -/

/-- Seeding with an array gives a generator of a certified sequence, whatever the key and its length. -/
theorem c134_certified {key : List (BitVec 32)} {n : Int} (hn : n < 2147483647) (hk : n ≤ key.length) :
    ∃ g w, initByArray key n = .ok g ∧ IsSfmt w ∧ Emits w 624 g ∧ Certified (w 0) := by
  obtain ⟨st, e, hl, _⟩ := expandKey_words hn hk
  obtain ⟨x, xs, rfl⟩ : ∃ x xs, st = x :: xs := by
    cases st with
    | nil => simp at hl
    | cons x xs => exact ⟨x, xs, rfl⟩
  obtain ⟨y, e3, hy, -⟩ := c70_certification (st := x :: xs) rfl
  obtain ⟨w, hw, hwin⟩ := c70_sequence_exists (y :: xs) hl
  refine ⟨⟨y :: xs, sfmtN32⟩, w, ?_, hw, ⟨Nat.le_refl 624, 0, hwin, rfl⟩, ?_⟩
  · rw [initByArray, e, Res.ok_bind, e3]
    rfl
  · rw [← Nat.zero_add 0, ← hwin.2 0 y rfl]
    exact hy

/-- The numbers drawn afterwards are those of that sequence, and its state is never zero. -/
theorem c134_stream {key : List (BitVec 32)} {n : Int} (hn : n < 2147483647) (hk : n ≤ key.length) (c : Nat) :
    ∃ g w g', initByArray key n = .ok g ∧ IsSfmt w ∧ draws c g = .ok ((List.range c).map fun i => word32 w (624 + i), g') ∧
      ∀ p, ∃ i, i < 156 ∧ w (p + i) ≠ 0 := by
  obtain ⟨g, w, e, hw, he, hc⟩ := c134_certified hn hk
  obtain ⟨g', e', _⟩ := c70_stream hw c he
  exact ⟨g, w, g', e, hw, e', c70_never_zero hw hc⟩

/-- The largest length overflows. -/
theorem c134_overflow (key : List (BitVec 32)) : initByArray key 2147483647 = .ub := by
  rw [initByArray, expandKey, if_pos (by decide)]
  rfl

/-- A length greater than that of the key reads past its end. -/
theorem c134_short {key : List (BitVec 32)} {n : Int} (hk : key.length < n) : initByArray key n = .ub := by
  by_cases hn : n < 2147483647
  rotate_left
  · rw [initByArray, expandKey, if_pos (by omega)]
    rfl
  have h32 : sfmtN32 = 624 := by decide
  obtain ⟨st0, e0, h0⟩ := keyFirst_words n
  have hcount : (if n + 1 > (sfmtN32 : Int) then (n + 1).toNat else sfmtN32) - 1 = keySteps n := by
    rw [h32]
    unfold keySteps
    split <;> rename_i hc
    · rw [if_pos (by simpa using hc)]
      omega
    · rw [if_neg (by simpa using hc)]
  have hle : n.toNat ≤ keySteps n := by
    unfold keySteps
    split <;> omega
  have hloop : ∀ d t s m, t + d = key.length → WordsAre s.st m → s.i < 624 →
      forLoop n.toNat (keyBody (readAt key)) t s = .ub := by
    intro d
    induction d with
    | zero =>
      intro t s m ht hw hi
      rw [forLoop, if_pos (by omega)]
      obtain ⟨st, i⟩ := s
      simp only at hw hi
      have hmid : keyMid = 306 := by decide
      have l1 : (i + 306) % 624 < 624 := Nat.mod_lt _ (by decide)
      have l2 : (i + 624 - 1) % 624 < 624 := Nat.mod_lt _ (by decide)
      unfold keyBody
      simp only [hmid, h32]
      obtain ⟨st1, e1, h1⟩ := hw.write l1 (m ((i + 306) % 624) + sfmtFunc1 (m i ^^^ m ((i + 306) % 624) ^^^ m ((i + 624 - 1) % 624)))
      rw [hw.read hi, Res.ok_bind, hw.read l1, Res.ok_bind, hw.read l2, Res.ok_bind, Res.ok_bind, e1, Res.ok_bind]
      have : readAt key t = .ub := by
        unfold readAt
        rw [List.getElem?_eq_none (by omega)]
      rw [this]
      rfl
    | succ d ih =>
      intro t s m ht hw hi
      rw [forLoop, if_pos (by omega)]
      obtain ⟨st', e, h'⟩ := keyBody_step (extra := readAt key) (j := t) (readAt_ok (by omega)) hw hi
      rw [e, Res.ok_bind]
      exact ih (t + 1) _ _ (by omega) h' (Nat.mod_lt _ (by decide))
  rw [initByArray, expandKey, if_neg (by omega)]
  simp only [hcount, Nat.min_eq_right hle]
  rw [e0, Res.ok_bind, hloop key.length 0 ⟨st0, 1⟩ _ (Nat.zero_add _) h0 (by decide : (1 : Nat) < 624)]
  rfl

/-- Only the first `n` words of the array are used. -/
theorem c134_prefix {key key' : List (BitVec 32)} {n : Nat} (hn : n < 2147483647) (hk : n ≤ key.length) (hk' : n ≤ key'.length)
    (h : key.take n = key'.take n) : initByArray key n = initByArray key' n := by
  have hw : keyWords key n = keyWords key' n := by
    funext t
    unfold keyWords
    by_cases ht : t < n
    · rw [if_pos ht, if_pos ht]
      have := congrArg (·[t]?) h
      simp only [List.getElem?_take, if_pos ht] at this
      rw [this]
    · rw [if_neg ht, if_neg ht]
  obtain ⟨st, e, h1⟩ := expandKey_words (key := key) (n := n) (by omega) (by omega)
  obtain ⟨st', e', h1'⟩ := expandKey_words (key := key') (n := n) (by omega) (by omega)
  have hm : expanded key n = expanded key' n := by
    unfold expanded
    rw [Int.toNat_natCast, hw]
  have : st = st' := by
    apply List.ext_getElem?
    intro i
    by_cases hi : i < 156
    · have hi1 : i < st.length := by rw [h1.1]; exact hi
      have hi2 : i < st'.length := by rw [h1'.1]; exact hi
      rw [List.getElem?_eq_getElem hi1, List.getElem?_eq_getElem hi2, Option.some.injEq]
      have hl : ∀ j, j < 4 → lane st[i].bv j = lane st'[i].bv j := by
        intro j hj
        have a := h1.2 (4 * i + j) (by omega)
        have b := h1'.2 (4 * i + j) (by omega)
        rw [hm, ← b] at a
        unfold wordAt at a
        rw [show (4 * i + j) / 4 = i by omega, show (4 * i + j) % 4 = j by omega, List.getElem?_eq_getElem hi1,
          List.getElem?_eq_getElem hi2] at a
        simpa using a
      obtain ⟨a0, a1, a2, a3⟩ := lane_bv st[i]
      obtain ⟨b0, b1, b2, b3⟩ := lane_bv st'[i]
      exact W128.ext (by rw [← a0, ← b0]; exact hl 0 (by decide)) (by rw [← a1, ← b1]; exact hl 1 (by decide))
        (by rw [← a2, ← b2]; exact hl 2 (by decide)) (by rw [← a3, ← b3]; exact hl 3 (by decide))
    · rw [List.getElem?_eq_none (by rw [h1.1]; omega), List.getElem?_eq_none (by rw [h1'.1]; omega)]
  rw [initByArray, initByArray, e, e', this]

/-- Two keys of the same length that differ in one word are expanded to different states, for keys of any length. -/
theorem c134_one_word {key : List (BitVec 32)} {j : Nat} (hj : j < key.length) (hn : key.length < 2147483647) {a b : BitVec 32}
    {st : List W128} (ea : expandKey (key.set j a) key.length = .ok st) (eb : expandKey (key.set j b) key.length = .ok st) :
    a = b := by
  obtain ⟨sa, ea', ha⟩ := expandKey_words (key := key.set j a) (n := key.length) (by omega) (by rw [List.length_set]; omega)
  obtain ⟨sb, eb', hb⟩ := expandKey_words (key := key.set j b) (n := key.length) (by omega) (by rw [List.length_set]; omega)
  rw [ea] at ea'
  rw [eb] at eb'
  cases ea'
  cases eb'
  have h1 := xorSeq_inj 624 (ha.same hb)
  have hle : key.length ≤ keySteps key.length := by
    unfold keySteps
    split <;> omega
  have := addSeq_one (a := j) (by omega) (fun s hs => by
    unfold keyWords
    rw [List.getElem?_set_ne (by omega), List.getElem?_set_ne (by omega)]) h1
  unfold keyWords at this
  rw [Int.toNat_natCast, if_pos hj, if_pos hj, List.getElem?_set_self hj, List.getElem?_set_self hj] at this
  exact this

/-- Different keys of the same length, of at most 613 words, are expanded to different states. -/
theorem c134_injective_partial {key key' : List (BitVec 32)} (hl : key.length = key'.length) (h : key.length ≤ 613) {st : List W128}
    (e : expandKey key key.length = .ok st) (e' : expandKey key' key'.length = .ok st) : key = key' := by
  obtain ⟨sa, ea', ha⟩ := expandKey_words (key := key) (n := key.length) (by omega) (by omega)
  obtain ⟨sb, eb', hb⟩ := expandKey_words (key := key') (n := key'.length) (by omega) (by omega)
  rw [e] at ea'
  rw [e'] at eb'
  cases ea'
  cases eb'
  have hs : keySteps key.length = key.length + (623 - key.length) := by
    unfold keySteps
    rw [if_neg (by omega)]
    omega
  have h1 := ha.same hb
  unfold expanded at h1
  rw [← hl] at h1
  have h2 := xorSeq_inj 624 h1
  rw [hs, Int.toNat_natCast] at h2
  have h3 := addSeq_back (623 - key.length) (fun s h4 _ => by
    unfold keyWords
    rw [if_neg (by omega), if_neg (by omega)]) h2
  have h4 := addSeq_key h h3
  apply List.ext_getElem hl
  intro i hi hi'
  have := h4 i hi
  unfold keyWords at this
  rw [if_pos hi, if_pos hi, List.getElem?_eq_getElem hi, List.getElem?_eq_getElem hi'] at this
  exact this

/-- The state before the certification is the one of the generator or differs from it in one given bit. -/
theorem initByArray_state {key : List (BitVec 32)} {n : Int} {g : Sfmt} (h : initByArray key n = .ok g) :
    ∃ y xs, g.state = y :: xs ∧ (expandKey key n = .ok (y :: xs) ∨
      expandKey key n = .ok ({ y with u0 := y.u0 ^^^ 1 } :: xs)) := by
  rw [initByArray, Res.bind_eq_ok] at h
  obtain ⟨st, e, h⟩ := h
  rw [Res.bind_eq_ok] at h
  obtain ⟨st', e', h⟩ := h
  cases h
  cases st with
  | nil => simp [periodCertification, readAt] at e'
  | cons x xs =>
    obtain ⟨y, e3, -, hyx⟩ := c70_certification (st := x :: xs) rfl
    rw [e3] at e'
    cases e'
    refine ⟨y, xs, rfl, ?_⟩
    rcases hyx with rfl | ⟨_, rfl⟩
    · exact .inl e
    · right
      rw [e]
      simp [BitVec.xor_assoc]

/-- At most two values of a word of the key, the others being fixed, give the same generator. -/
theorem c134_at_most_two {key : List (BitVec 32)} {j : Nat} (hj : j < key.length) (hn : key.length < 2147483647)
    {a b c : BitVec 32} {g : Sfmt} (ea : initByArray (key.set j a) key.length = .ok g)
    (eb : initByArray (key.set j b) key.length = .ok g) (ec : initByArray (key.set j c) key.length = .ok g) :
    a = b ∨ b = c ∨ a = c := by
  obtain ⟨y, xs, h1, ha⟩ := initByArray_state ea
  obtain ⟨y2, xs2, h2, hb⟩ := initByArray_state eb
  obtain ⟨y3, xs3, h3, hc⟩ := initByArray_state ec
  rw [h1] at h2 h3
  cases h2
  cases h3
  rcases ha with ha | ha <;> rcases hb with hb | hb <;> rcases hc with hc | hc
  · exact .inl (c134_one_word hj hn ha hb)
  · exact .inl (c134_one_word hj hn ha hb)
  · exact .inr (.inr (c134_one_word hj hn ha hc))
  · exact .inr (.inl (c134_one_word hj hn hb hc))
  · exact .inr (.inl (c134_one_word hj hn hb hc))
  · exact .inr (.inr (c134_one_word hj hn ha hc))
  · exact .inl (c134_one_word hj hn ha hb)
  · exact .inl (c134_one_word hj hn ha hb)

/-- At most two keys of the same length, of at most 613 words, give the same generator. -/
theorem c134_at_most_two_keys_partial {k1 k2 k3 : List (BitVec 32)} (h12 : k1.length = k2.length) (h13 : k1.length = k3.length)
    (h : k1.length ≤ 613) {g : Sfmt} (ea : initByArray k1 k1.length = .ok g)
    (eb : initByArray k2 k2.length = .ok g) (ec : initByArray k3 k3.length = .ok g) : k1 = k2 ∨ k2 = k3 ∨ k1 = k3 := by
  obtain ⟨y, xs, h1, ha⟩ := initByArray_state ea
  obtain ⟨y2, xs2, h2, hb⟩ := initByArray_state eb
  obtain ⟨y3, xs3, h3, hc⟩ := initByArray_state ec
  rw [h1] at h2 h3
  cases h2
  cases h3
  have i12 := fun st => c134_injective_partial h12 h (st := st)
  have i13 := fun st => c134_injective_partial h13 h (st := st)
  have i23 := fun st => c134_injective_partial (h12.symm.trans h13) (by omega) (st := st)
  rcases ha with ha | ha <;> rcases hb with hb | hb <;> rcases hc with hc | hc
  · exact .inl (i12 _ ha hb)
  · exact .inl (i12 _ ha hb)
  · exact .inr (.inr (i13 _ ha hc))
  · exact .inr (.inl (i23 _ hb hc))
  · exact .inr (.inl (i23 _ hb hc))
  · exact .inr (.inr (i13 _ ha hc))
  · exact .inl (i12 _ ha hb)
  · exact .inl (i12 _ ha hb)

/-- A key that meets the hypotheses. -/
example : ∃ g w, initByArray [0x1234#32, 0x5678#32, 0x9abc#32] 3 = .ok g ∧ IsSfmt w ∧ Emits w 624 g ∧ Certified (w 0) :=
  c134_certified (by decide) (by decide)

/-- A negative length is a key without words. -/
example : ∃ g w, initByArray [] (-1) = .ok g ∧ IsSfmt w ∧ Emits w 624 g ∧ Certified (w 0) :=
  c134_certified (by decide) (by decide)

end Nx
