import Verif.Model.BriefPyr
import Verif.Props.Brief

/-!
# C115: BRIEF descriptors on pyramids
-/

namespace Nx

/-- The comparison that test `i` makes for the positions `px` and `py` of an offset, if both its pixels are in the image. -/
def rotBitAt (o : List Int) (px py : Int → Int → Int) (img : UcImage) (i : Nat) : Option Bool := do
  let x0 ← o[4 * i]?
  let y0 ← o[4 * i + 1]?
  let x1 ← o[4 * i + 2]?
  let y1 ← o[4 * i + 3]?
  let p ← img.pixel (px x0 y0) (py x0 y0)
  let q ← img.pixel (px x1 y1) (py x1 y1)
  pure (decide (q < p))

theorem pixel_none {img : UcImage} {x y : Int} (h : thetaOut img x y = true) : img.pixel x y = none := by
  unfold UcImage.pixel
  unfold thetaOut at h
  simp only [Bool.or_eq_true, decide_eq_true_eq, ge_iff_le] at h
  rw [if_neg (by omega)]

theorem thetaTest_ok {rd : Rat → Rat} {ct st f : Rat} {o : List Int} {img : UcImage} {x y : Int} {i : Nat} (hw : img.Wf)
    (ho : 4 * i + 3 < o.length) : thetaTest rd ct st f o img x y i =
      .ok (rotBitAt o (thetaX rd ct st f x) (thetaY rd ct st f y) img i) := by
  unfold thetaTest rotBitAt
  rw [readAt_ok (by omega), readAt_ok (by omega), readAt_ok (by omega), readAt_ok (by omega),
    List.getElem?_eq_getElem (by omega), List.getElem?_eq_getElem (by omega), List.getElem?_eq_getElem (by omega),
    List.getElem?_eq_getElem (by omega)]
  simp only [Res.ok_bind, Option.bind_eq_bind, Option.bind_some]
  generalize hx0 : thetaX rd ct st f x o[4 * i] o[4 * i + 1] = x0
  generalize hy0 : thetaY rd ct st f y o[4 * i] o[4 * i + 1] = y0
  generalize hx1 : thetaX rd ct st f x o[4 * i + 2] o[4 * i + 3] = x1
  generalize hy1 : thetaY rd ct st f y o[4 * i + 2] o[4 * i + 3] = y1
  have inside : ∀ a b : Int, thetaOut img a b = false → (0 ≤ a ∧ a < img.width) ∧ (0 ≤ b ∧ b < img.height) := by
    intro a b h
    unfold thetaOut at h
    simp only [Bool.or_eq_false_iff, decide_eq_false_iff_not, ge_iff_le] at h
    omega
  cases h0 : thetaOut img x0 y0 with
  | true =>
    rw [pixel_none h0]
    rfl
  | false =>
    obtain ⟨a0, b0⟩ := inside x0 y0 h0
    obtain ⟨p, p1, p2⟩ := UcImage.get_ok hw a0 b0
    cases h1 : thetaOut img x1 y1 with
    | true =>
      rw [p1, pixel_none h1]
      rfl
    | false =>
      obtain ⟨a1, b1⟩ := inside x1 y1 h1
      obtain ⟨q, q1, q2⟩ := UcImage.get_ok hw a1 b1
      rw [p1, q1, p2, q2]
      rfl

/-- The outcome of an octet: complete with its bits, or left at the first test outside. -/
theorem thetaOctet_ok {test : Nat → Res (Option Bool)} {bit : Nat → Option Bool} {i : Nat}
    (h : ∀ k < 8, test (i + k) = .ok (bit (i + k))) :
    (∃ d, thetaOctet test 8 i 0 = .ok (true, d) ∧ ∀ k < 8, bit (i + k) = some (d.toNat.testBit (7 - k))) ∨
    (∃ d k, thetaOctet test 8 i 0 = .ok (false, d) ∧ k < 8 ∧ bit (i + k) = none) := by
  have out : ∀ n j d, j + n = 8 → (∃ k, j ≤ k ∧ k < 8 ∧ bit (i + k) = none) →
      ∃ d', thetaOctet test n (i + j) d = .ok (false, d') := by
    intro n
    induction n with
    | zero =>
      intro j d hj ⟨k, h1, h2, _⟩
      omega
    | succ n ih =>
      intro j d hj ⟨k, h1, h2, h3⟩
      rw [thetaOctet, h j (by omega), Res.ok_bind]
      cases hb : bit (i + j) with
      | none => exact ⟨_, rfl⟩
      | some b =>
        simp only
        refine ih (j + 1) _ (by omega) ⟨k, ?_, h2, h3⟩
        apply Decidable.byContradiction
        intro hk
        have : k = j := by omega
        rw [this, hb] at h3
        exact absurd h3 (by simp)
  by_cases hall : ∃ k, k < 8 ∧ bit (i + k) = none
  · obtain ⟨k, hk, hb⟩ := hall
    obtain ⟨d, hd⟩ := out 8 0 0 rfl ⟨k, by omega, hk, hb⟩
    exact Or.inr ⟨d, k, hd, hk, hb⟩
  · left
    have get : ∀ k < 8, ∃ t, bit (i + k) = some t ∧ test (i + k) = .ok (some t) := by
      intro k hk
      cases hb : bit (i + k) with
      | none => exact absurd ⟨k, hk, hb⟩ hall
      | some t => exact ⟨t, rfl, by rw [h k hk, hb]⟩
    obtain ⟨t0, a0, b0⟩ := get 0 (by omega)
    obtain ⟨t1, a1, b1⟩ := get 1 (by omega)
    obtain ⟨t2, a2, b2⟩ := get 2 (by omega)
    obtain ⟨t3, a3, b3⟩ := get 3 (by omega)
    obtain ⟨t4, a4, b4⟩ := get 4 (by omega)
    obtain ⟨t5, a5, b5⟩ := get 5 (by omega)
    obtain ⟨t6, a6, b6⟩ := get 6 (by omega)
    obtain ⟨t7, a7, b7⟩ := get 7 (by omega)
    refine ⟨packBits t0 t1 t2 t3 t4 t5 t6 t7, ?_, ?_⟩
    · simp only [Nat.add_zero] at b0
      simp only [thetaOctet, Nat.add_assoc, Nat.reduceAdd, b0, b1, b2, b3, b4, b5, b6, b7, Res.ok_bind]
      rfl
    · intro k hk
      have hp := packBits_testBit t0 t1 t2 t3 t4 t5 t6 t7 k hk
      rw [← hp]
      match k, hk with
      | 0, _ => exact a0
      | 1, _ => exact a1
      | 2, _ => exact a2
      | 3, _ => exact a3
      | 4, _ => exact a4
      | 5, _ => exact a5
      | 6, _ => exact a6
      | 7, _ => exact a7

/-- What the loop over the octets from `j` on leaves: complete octets if every test is inside; otherwise complete octets up to the
first one `a` with a test outside, and nothing is changed behind that. -/
theorem thetaLoop_ok {test : Nat → Res (Option Bool)} {bit : Nat → Option Bool} (n : Nat)
    (h : ∀ i < 8 * n, test i = .ok (bit i)) : ∀ (k j : Nat) (desc : Bytes), j + k = n → n ≤ desc.length →
    ∃ r desc', thetaLoop test k j desc = .ok (r, desc') ∧ desc'.length = desc.length ∧
      ∃ a, j ≤ a ∧ a ≤ n ∧ (r = true ↔ a = n) ∧
        (∀ c, j ≤ c → c < a → ∀ b < 8, ∃ d, desc'[c]? = some d ∧ bit (8 * c + b) = some (d.toNat.testBit (7 - b))) ∧
        (a < n → ∃ b < 8, bit (8 * a + b) = none) ∧
        (∀ c, c < j ∨ a < c ∨ n ≤ c → desc'[c]? = desc[c]?) := by
  intro k
  induction k with
  | zero =>
    intro j desc hj hn
    refine ⟨true, desc, rfl, rfl, j, by omega, by omega, by simp; omega, ?_, by omega, by simp⟩
    intro c h1 h2
    omega
  | succ k ih =>
    intro j desc hj hn
    rcases thetaOctet_ok (test := test) (bit := bit) (i := 8 * j) (fun b hb => h (8 * j + b) (by omega)) with
      ⟨d, e, hd⟩ | ⟨d, b, e, hb, hbit⟩
    · obtain ⟨r, desc', e', hl, a, h1, h2, h3, h4, h5, h6⟩ := ih (j + 1) (desc.set j d) (by omega) (by simpa using hn)
      refine ⟨r, desc', ?_, by simpa using hl, a, by omega, h2, h3, ?_, h5, ?_⟩
      · rw [thetaLoop, e, Res.ok_bind, writeAt_ok _ (by omega), Res.ok_bind]
        exact e'
      · intro c hc1 hc2 b hb
        by_cases hcj : c = j
        · subst hcj
          refine ⟨d, ?_, hd b hb⟩
          rw [h6 c (Or.inl (by omega)), List.getElem?_set_self (by omega)]
        · exact h4 c (by omega) hc2 b hb
      · intro c hc
        rw [h6 c (by omega), List.getElem?_set_ne (by omega)]
    · refine ⟨false, desc.set j d, ?_, by simp, j, by omega, by omega, by simp; omega, ?_, ?_, ?_⟩
      · rw [thetaLoop, e, Res.ok_bind, writeAt_ok _ (by omega), Res.ok_bind]
        rfl
      · intro c h1 h2
        omega
      · intro _
        exact ⟨b, hb, hbit⟩
      · intro c hc
        rw [List.getElem?_set_ne (by omega)]

/-- C115: for a level that has a sampling level, the descriptor at an angle reads only pixels of the image; its result is true exactly
if all tests are inside of the image; then every bit is the outcome of its test. Otherwise the octets before the first one with a test
outside are complete and those behind it are as they were. -/
theorem c115_theta_partial {rd : Rat → Rat} {be : Brief} {pyr : List BLevel} {x y : Int} {L S : Nat} {ct st : Rat} {desc : Bytes}
    {o : List Int} {key smp : BLevel} (hS : ((L : Int) + be.pyrLevelOffset) = S) (hk : pyr[L]? = some key)
    (hs : pyr[S]? = some smp) (hw : smp.img.Wf) (ho : be.offsets = some o)
    (hroom : (be.nOctets * 32).toNat ≤ o.length) (hd : be.nOctets.toNat ≤ desc.length) :
    ∃ r desc', briefTheta rd be pyr x y L ct st desc = .ok (r, desc') ∧ desc'.length = desc.length ∧
      (∀ bit, bit = rotBitAt o (thetaX rd ct st (briefScaleF rd key smp) x) (thetaY rd ct st (briefScaleF rd key smp) y) smp.img →
        (r = true ↔ ∀ i < 8 * be.nOctets.toNat, bit i ≠ none) ∧
        (r = true → ∀ a < be.nOctets.toNat, ∀ b < 8, ∃ d, desc'[a]? = some d ∧
          bit (8 * a + b) = some (d.toNat.testBit (7 - b))) ∧
        (∀ a, (∀ i < 8 * (a + 1), bit i ≠ none) → a < be.nOctets.toNat → ∀ b < 8, ∃ d, desc'[a]? = some d ∧
          bit (8 * a + b) = some (d.toNat.testBit (7 - b))) ∧
        ∀ c, be.nOctets.toNat ≤ c ∨ (∃ i < 8 * c, bit i = none) → desc'[c]? = desc[c]?) := by
  have rI : ∀ (i : Nat) (v : BLevel), pyr[i]? = some v → readI pyr (i : Int) = .ok v := by
    intro i v hv
    obtain ⟨hi, hv⟩ := List.getElem?_eq_some_iff.mp hv
    rw [readI, if_pos (by omega), Int.toNat_natCast, readAt_ok hi, hv]
  obtain ⟨r, desc', e, hl, a, -, h2, h3, h4, h5, h6⟩ := thetaLoop_ok
    (test := thetaTest rd ct st (briefScaleF rd key smp) o smp.img x y) be.nOctets.toNat
    (fun i hi => thetaTest_ok hw (by omega)) be.nOctets.toNat 0 desc (by omega) hd
  refine ⟨r, desc', ?_, hl, ?_⟩
  · rw [briefTheta, hS, rI S smp hs, Res.ok_bind, rI L key hk, Res.ok_bind, ho]
    exact e
  · rintro bit rfl
    have full : ∀ c < a, ∀ b < 8, ∃ d, desc'[c]? = some d ∧
        rotBitAt o (thetaX rd ct st (briefScaleF rd key smp) x) (thetaY rd ct st (briefScaleF rd key smp) y) smp.img (8 * c + b)
          = some (d.toNat.testBit (7 - b)) := fun c hc => h4 c (Nat.zero_le _) hc
    refine ⟨⟨?_, ?_⟩, ?_, ?_, ?_⟩
    · intro hr i hi hn
      obtain ⟨d, -, hd⟩ := full (i / 8) (by rw [h3.mp hr]; omega) (i % 8) (by omega)
      rw [Nat.div_add_mod] at hd
      rw [hd] at hn
      exact absurd hn (by simp)
    · intro hall
      rw [h3]
      apply Decidable.byContradiction
      intro hne
      obtain ⟨b, hb, hb'⟩ := h5 (by omega)
      exact hall _ (by omega) hb'
    · intro hr c hc
      exact full c (by rw [h3.mp hr]; exact hc)
    · intro c hall hc
      refine full c ?_
      apply Decidable.byContradiction
      intro hne
      by_cases ha : a < be.nOctets.toNat
      · obtain ⟨b, hb, hb'⟩ := h5 ha
        exact hall _ (by omega) hb'
      · omega
    · intro c hc
      refine h6 c ?_
      rcases hc with hc | ⟨i, hi, hn⟩
      · exact Or.inr (Or.inr hc)
      · refine Or.inr (Or.inl ?_)
        apply Decidable.byContradiction
        intro hne
        obtain ⟨d, -, hd⟩ := full (i / 8) (by omega) (i % 8) (by omega)
        rw [Nat.div_add_mod] at hd
        rw [hd] at hn
        exact absurd hn (by simp)

/-- A level without a sampling level: the point is refused by the check, but the descriptor at an angle reads outside of the levels. -/
theorem c115_level_false {rd : Rat → Rat} {be : Brief} {pyr : List BLevel} {x y level : Int} {ct st : Rat} {desc : Bytes}
    (h : (pyr.length : Int) ≤ level + be.pyrLevelOffset) :
    briefCheckPyr rd be pyr x y level = .ok false ∧ briefTheta rd be pyr x y level ct st desc = .ub := by
  constructor
  · rw [briefCheckPyr, if_pos h]
  · rw [briefTheta, readI, if_pos (by omega), readAt, List.getElem?_eq_none (by omega)]
    rfl

/-- Truncation is monotone. -/
theorem ratTrunc_mono {a b : Rat} (h : a ≤ b) : ratTrunc a ≤ ratTrunc b := by
  unfold ratTrunc
  split
  · split
    · have := Rat.floor_monotone (show -b ≤ -a from by grind)
      omega
    · have h1 : (0 : Int) ≤ (-a).floor := Rat.le_floor_iff.mpr (by grind)
      have h2 : (0 : Int) ≤ b.floor := Rat.le_floor_iff.mpr (by grind)
      omega
  · split
    · grind
    · exact Rat.floor_monotone h

theorem briefPos_mono {rd : Rat → Rat} {f : Rat} (hrd : ∀ a b, a ≤ b → rd a ≤ rd b) (hf : 0 ≤ f) {a b : Int} (h : a ≤ b) :
    briefPos rd f a ≤ briefPos rd f b := by
  refine ratTrunc_mono (hrd _ _ ?_)
  exact Rat.mul_le_mul_of_nonneg_right (hrd _ _ (by exact_mod_cast h)) hf

/-- C115: the extractor of descriptors of a frame is defined for every keypoint whose level is there: it gives nothing, or a descriptor
with as many octets as the extractor has, each bit the outcome of its test. -/
theorem c115_ext {rd : Rat → Rat} {b0 be : Brief} {pyr : List BLevel} {k : NumKey} {o : List Int} {L : Nat}
    (hrd : ∀ a b, a ≤ b → rd a ≤ rd b) (h0 : rd 0 = 0) (hpos : ∀ v ∈ pyr, 0 < v.scale) (hw : ∀ v ∈ pyr, v.img.Wf)
    (hup : briefUpdateLimits b0 = .ok be) (ho : be.offsets = some o) (hroom : (be.nOctets * 32).toNat ≤ o.length)
    (hL : k.level = L) (hlt : L < pyr.length) (hoff : 0 ≤ be.pyrLevelOffset) :
    briefExt rd be pyr k = .ok none ∨ ∃ d, briefExt rd be pyr k = .ok (some d) ∧ d.length = be.nOctets.toNat ∧
      ∃ key smp, pyr[L]? = some key ∧ pyr[L + be.pyrLevelOffset.toNat]? = some smp ∧
      ∀ a (ha : a < d.length), ∀ b < 8,
        testBitAt o (briefPos rd (briefScaleF rd key smp)) smp.img k.x k.y (8 * a + b) = some (d[a].toNat.testBit (7 - b)) := by
  by_cases hc : (pyr.length : Int) ≤ k.level + be.pyrLevelOffset
  · left
    rw [briefExt, briefCheckPyr, if_pos hc]
    rfl
  · have hS : k.level + be.pyrLevelOffset = ((L + be.pyrLevelOffset.toNat : Nat) : Int) := by omega
    have hlS : L + be.pyrLevelOffset.toNat < pyr.length := by omega
    have rI : ∀ (i : Nat) (hi : i < pyr.length), readI pyr (i : Int) = .ok pyr[i] := by
      intro i hi
      rw [readI, if_pos (by omega), Int.toNat_natCast, readAt_ok hi]
    have hf : 0 ≤ briefScaleF rd pyr[L] pyr[L + be.pyrLevelOffset.toNat] := by
      have a := hpos _ (List.getElem_mem hlt)
      have b := hpos _ (List.getElem_mem hlS)
      have : (0 : Rat) ≤ pyr[L].scale / pyr[L + be.pyrLevelOffset.toNat].scale :=
        Rat.div_nonneg (Rat.le_of_lt a) (Rat.le_of_lt b)
      have := hrd _ _ this
      rw [h0] at this
      exact this
    rw [briefExt, briefCheckPyr, if_neg hc, hS, rI _ hlS, Res.ok_bind, hL, rI _ hlt, Res.ok_bind, Res.pure_eq, Res.ok_bind]
    cases hchk : briefCheckPoint be (briefPos rd (briefScaleF rd pyr[L] pyr[L + be.pyrLevelOffset.toNat]))
        pyr[L + be.pyrLevelOffset.toNat].img.width pyr[L + be.pyrLevelOffset.toNat].img.height k.x k.y with
    | false => exact Or.inl rfl
    | true =>
      right
      obtain ⟨d, e, hl, hb⟩ := c53_compute hup ho hroom (fun a b h => briefPos_mono hrd hf h) (hw _ (List.getElem_mem hlS)) hchk
      refine ⟨d, ?_, hl, pyr[L], pyr[L + be.pyrLevelOffset.toNat], List.getElem?_eq_getElem hlt, List.getElem?_eq_getElem hlS, hb⟩
      rw [if_pos rfl, briefDescPyr, show (L : Int) + be.pyrLevelOffset = ((L + be.pyrLevelOffset.toNat : Nat) : Int) by omega,
        rI _ hlS, Res.ok_bind, rI _ hlt, Res.ok_bind, e]
      rfl

/-- Octets with the same bits are the same. -/
theorem octet_ext {d e : UInt8} (h : ∀ k < 8, d.toNat.testBit (7 - k) = e.toNat.testBit (7 - k)) : d = e := by
  rw [← UInt8.toNat_inj]
  apply Nat.eq_of_testBit_eq
  intro i
  by_cases hi : i < 8
  · have := h (7 - i) (by omega)
    rwa [show 7 - (7 - i) = i by omega] at this
  · have p : (2 : Nat) ^ 8 ≤ 2 ^ i := Nat.pow_le_pow_right (by omega) (by omega)
    have hd := d.toNat_lt
    have he := e.toNat_lt
    rw [Nat.testBit_lt_two_pow (by omega), Nat.testBit_lt_two_pow (by omega)]

/-- The numbers that `float` has exactly. -/
def IntExact (rd : Rat → Rat) : Prop := ∀ z : Int, -16777216 ≤ z → z ≤ 16777216 → rd z = z

/-- At the angle zero the positions are those of the descriptor without an angle. -/
theorem theta_zero {rd : Rat → Rat} (hz : IntExact rd) (f : Rat) {x ox oy : Int} (hx : -8388608 ≤ x ∧ x ≤ 8388608)
    (ho : -8388608 ≤ ox ∧ ox ≤ 8388608) (ho' : -8388608 ≤ oy ∧ oy ≤ 8388608) :
    thetaX rd 1 0 f x ox oy = briefPos rd f (x + ox) ∧ thetaY rd 1 0 f x ox oy = briefPos rd f (x + oy) := by
  have z0 : rd 0 = 0 := by simpa using hz 0 (by omega) (by omega)
  have e1 := hz x (by omega) (by omega)
  have e2 := hz ox (by omega) (by omega)
  have e3 := hz oy (by omega) (by omega)
  have e4 := hz (x + ox) (by omega) (by omega)
  have e5 := hz (x + oy) (by omega) (by omega)
  have c1 : ((x + ox : Int) : Rat) = (x : Rat) + ox := by push_cast; rfl
  have c2 : ((x + oy : Int) : Rat) = (x : Rat) + oy := by push_cast; rfl
  rw [c1] at e4
  rw [c2] at e5
  constructor
  · unfold thetaX briefPos
    rw [c1]
    simp only [e1, e2, e3, e4, one_mul, zero_mul, z0, add_zero]
  · unfold thetaY briefPos
    rw [c2]
    simp only [e1, e2, e3, e5, one_mul, zero_mul, z0, sub_zero]

/-- At a right angle an offset is turned. -/
theorem c115_quarter {rd : Rat → Rat} (hz : IntExact rd) (f : Rat) {x ox oy : Int} (hx : -8388608 ≤ x ∧ x ≤ 8388608)
    (ho : -8388608 ≤ ox ∧ ox ≤ 8388608) (ho' : -8388608 ≤ oy ∧ oy ≤ 8388608) :
    thetaX rd 0 1 f x ox oy = briefPos rd f (x + oy) ∧ thetaY rd 0 1 f x ox oy = briefPos rd f (x - ox) := by
  have z0 : rd 0 = 0 := by simpa using hz 0 (by omega) (by omega)
  have e1 := hz x (by omega) (by omega)
  have e2 := hz ox (by omega) (by omega)
  have e3 := hz oy (by omega) (by omega)
  have e4 := hz (x + oy) (by omega) (by omega)
  have e5 := hz (x - ox) (by omega) (by omega)
  have c1 : ((x + oy : Int) : Rat) = (x : Rat) + oy := by push_cast; rfl
  have c2 : ((x - ox : Int) : Rat) = (x : Rat) - ox := by push_cast; rfl
  rw [c1] at e4
  rw [c2] at e5
  constructor
  · unfold thetaX briefPos
    rw [c1]
    simp only [e1, e2, e3, e4, one_mul, zero_mul, z0, add_zero]
  · unfold thetaY briefPos
    rw [c2]
    simp only [e1, e2, e3, e5, one_mul, zero_mul, z0, add_zero]

/-- C115: for a point that passes the check, the descriptor at the angle zero is the descriptor without an angle. -/
theorem c115_zero {rd : Rat → Rat} {b0 be : Brief} {pyr : List BLevel} {x y : Int} {L : Nat} {o : List Int} {desc : Bytes}
    (hrd : ∀ a b, a ≤ b → rd a ≤ rd b) (hz : IntExact rd) (hpos : ∀ v ∈ pyr, 0 < v.scale) (hw : ∀ v ∈ pyr, v.img.Wf)
    (hup : briefUpdateLimits b0 = .ok be) (ho : be.offsets = some o) (hroom : (be.nOctets * 32).toNat ≤ o.length)
    (hlt : L < pyr.length) (hoff : 0 ≤ be.pyrLevelOffset) (hd : be.nOctets.toNat ≤ desc.length)
    (hx : -8388608 ≤ x ∧ x ≤ 8388608) (hy : -8388608 ≤ y ∧ y ≤ 8388608) (hb : ∀ v ∈ o, -8388608 ≤ v ∧ v ≤ 8388608)
    (hc : briefCheckPyr rd be pyr x y L = .ok true) :
    ∃ d, briefDescPyr rd be pyr x y L = .ok d ∧ d.length = be.nOctets.toNat ∧
      briefTheta rd be pyr x y L 1 0 desc = .ok (true, d ++ desc.drop be.nOctets.toNat) := by
  have z0 : rd 0 = 0 := by simpa using hz 0 (by omega) (by omega)
  unfold briefCheckPyr at hc
  by_cases hn : (pyr.length : Int) ≤ L + be.pyrLevelOffset
  · rw [if_pos hn] at hc
    cases hc
  · rw [if_neg hn] at hc
    have hS : (L : Int) + be.pyrLevelOffset = ((L + be.pyrLevelOffset.toNat : Nat) : Int) := by omega
    have hlS : L + be.pyrLevelOffset.toNat < pyr.length := by omega
    have rI : ∀ (i : Nat) (hi : i < pyr.length), readI pyr (i : Int) = .ok pyr[i] := by
      intro i hi
      rw [readI, if_pos (by omega), Int.toNat_natCast, readAt_ok hi]
    rw [hS, rI _ hlS, Res.ok_bind, rI _ hlt, Res.ok_bind, Res.pure_eq] at hc
    have hf : 0 ≤ briefScaleF rd pyr[L] pyr[L + be.pyrLevelOffset.toNat] := by
      have a := hpos _ (List.getElem_mem hlt)
      have b := hpos _ (List.getElem_mem hlS)
      have : (0 : Rat) ≤ pyr[L].scale / pyr[L + be.pyrLevelOffset.toNat].scale :=
        Rat.div_nonneg (Rat.le_of_lt a) (Rat.le_of_lt b)
      have := hrd _ _ this
      rw [z0] at this
      exact this
    injection hc with hchk
    have hwS := hw _ (List.getElem_mem hlS)
    obtain ⟨d, e, hl, hbit⟩ := c53_compute hup ho hroom (fun a b h => briefPos_mono hrd hf h) hwS hchk
    obtain ⟨r, desc', e2, hl2, h2⟩ := c115_theta_partial (rd := rd) (be := be) (x := x) (y := y) (ct := 1) (st := 0) hS
      (List.getElem?_eq_getElem hlt) (List.getElem?_eq_getElem hlS) hwS ho hroom hd
    obtain ⟨h3, h4, -, h6⟩ := h2 _ rfl
    have same : ∀ i < 8 * be.nOctets.toNat, rotBitAt o
        (thetaX rd 1 0 (briefScaleF rd pyr[L] pyr[L + be.pyrLevelOffset.toNat]) x)
        (thetaY rd 1 0 (briefScaleF rd pyr[L] pyr[L + be.pyrLevelOffset.toNat]) y) pyr[L + be.pyrLevelOffset.toNat].img i =
        testBitAt o (briefPos rd (briefScaleF rd pyr[L] pyr[L + be.pyrLevelOffset.toNat])) pyr[L + be.pyrLevelOffset.toNat].img
          x y i := by
      intro i hi
      unfold rotBitAt testBitAt
      rw [List.getElem?_eq_getElem (by omega), List.getElem?_eq_getElem (by omega), List.getElem?_eq_getElem (by omega),
        List.getElem?_eq_getElem (by omega)]
      simp only [Option.bind_eq_bind, Option.bind_some]
      have b0 := hb o[4 * i] (List.getElem_mem (by omega))
      have b1 := hb o[4 * i + 1] (List.getElem_mem (by omega))
      have b2 := hb o[4 * i + 2] (List.getElem_mem (by omega))
      have b3 := hb o[4 * i + 3] (List.getElem_mem (by omega))
      rw [(theta_zero hz _ hx b0 b1).1, (theta_zero hz _ hy b0 b1).2, (theta_zero hz _ hx b2 b3).1, (theta_zero hz _ hy b2 b3).2]
    have hr : r = true := h3.mpr (by
      intro i hi
      rw [same i hi]
      have := hbit (i / 8) (by omega) (i % 8) (by omega)
      rw [Nat.div_add_mod] at this
      rw [this]
      simp)
    refine ⟨d, ?_, hl, ?_⟩
    · rw [briefDescPyr, hS, rI _ hlS, Res.ok_bind, rI _ hlt, Res.ok_bind]
      exact e
    · rw [e2, hr]
      congr 2
      apply List.ext_getElem?
      intro c
      by_cases hcn : c < be.nOctets.toNat
      · rw [List.getElem?_append_left (by omega), List.getElem?_eq_getElem (l := d) (by omega)]
        obtain ⟨v, hv, -⟩ := h4 hr c hcn 0 (by omega)
        rw [hv]
        congr 1
        apply octet_ext
        intro k hk
        obtain ⟨v', hv', hvb⟩ := h4 hr c hcn k hk
        rw [hv] at hv'
        injection hv' with hv'
        subst hv'
        rw [same _ (by omega), hbit c (by omega) k hk] at hvb
        injection hvb with hvb
        exact hvb.symm
      · rw [h6 c (Or.inl (by omega)), List.getElem?_append_right (by omega), List.getElem?_drop, hl]
        congr 1
        omega

/-- Two levels with the image of C53 at both; tests on the second. -/
def c115Pyr : List BLevel := [⟨c53Image, 1⟩, ⟨c53Image, 1⟩]

/-- The extractor of C53 that samples one level above. -/
def c115Brief : Brief := { c53Brief with pyrLevelOffset := 1 }

/-- The hypotheses of the theorems hold for it, and the two descriptors are the same; the last octet is not part of them. -/
example : briefUpdateLimits c115Brief = .ok c115Brief ∧ IntExact id ∧ (∀ v ∈ c115Pyr, 0 < v.scale) ∧
    briefCheckPyr id c115Brief c115Pyr 1 0 0 = .ok true ∧ briefDescPyr id c115Brief c115Pyr 1 0 0 = .ok [255] ∧
    briefTheta id c115Brief c115Pyr 1 0 0 1 0 [3, 7] = .ok (true, [255, 7]) := by
  refine ⟨by decide +kernel, fun z _ _ => rfl, by decide +kernel, by decide +kernel, by decide +kernel, by decide +kernel⟩

/-- Turned by a right angle, each pixel is compared to its upper neighbour: at the border the function is left. -/
example : briefTheta id c115Brief c115Pyr 1 1 0 0 1 [3, 7] = .ok (true, [0, 7]) ∧
    briefTheta id c115Brief c115Pyr 1 0 0 0 1 [3, 7] = .ok (false, [0, 7]) ∧
    briefTheta id c115Brief c115Pyr 1 1 1 0 1 [3, 7] = .ub := by
  refine ⟨by decide +kernel, by decide +kernel, by decide +kernel⟩

end Nx
