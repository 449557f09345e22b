import Verif.Model.InPlaceSmooth
import Verif.Props.Sample
import Verif.Props.InPlaceArith

/-!
# C142: smoothed downsampling of an image into itself
-/

namespace Nx

section
variable {α : Type} {ops : AaOps α}

/-- The line that results from a line `g` of samples: the second pixel is made from the new first one. -/
def halved (ops : AaOps α) (g : Nat → α) : Nat → α
  | 0 => ops.first (g 0) (g 1) (g 2)
  | 1 => ops.inner (ops.first (g 0) (g 1) (g 2)) (g 1) (g 2) (g 3) (g 4)
  | x + 2 => ops.inner (g (2 * x + 2)) (g (2 * x + 3)) (g (2 * x + 4)) (g (2 * x + 5)) (g (2 * x + 6))

theorem readI_cell {d : List α} {b st k : Nat} {v : α} (h : d[b + k * st]? = some v) {z : Int} (hz : z = k) :
    readI d ((b : Int) + z * st) = .ok v := by
  subst hz
  have e : (b : Int) + (k : Int) * (st : Int) = ((b + k * st : Nat) : Int) := by push_cast; rfl
  rw [e, readI, if_pos (by omega), Int.toNat_natCast]
  exact readAt_some h

theorem aaInner_of {d : List α} {b st x : Nat} (hx : 1 ≤ x) {p q r s t : α} (h0 : d[b + (2 * x - 2) * st]? = some p)
    (h1 : d[b + (2 * x - 1) * st]? = some q) (h2 : d[b + 2 * x * st]? = some r) (h3 : d[b + (2 * x + 1) * st]? = some s)
    (h4 : d[b + (2 * x + 2) * st]? = some t) : aaInner ops d b st x = .ok (ops.inner p q r s t) := by
  unfold aaInner
  rw [readI_cell h0 (by omega), Res.ok_bind, readI_cell h4 (by omega), Res.ok_bind, readI_cell h1 (by omega), Res.ok_bind,
    readI_cell h3 (by omega), Res.ok_bind, readI_cell h2 (by omega), Res.ok_bind]
  rfl

theorem aaLast_of {d : List α} {b st m : Nat} (hm : 2 ≤ m) {p q r s t : α} (h0 : d[b + (2 * (m - 1) - 2) * st]? = some p)
    (h1 : d[b + (2 * (m - 1) - 1) * st]? = some q) (h2 : d[b + 2 * (m - 1) * st]? = some r)
    (h3 : d[b + (2 * (m - 1) + 1) * st]? = some s) (h4 : d[b + (2 * (m - 1) + 2) * st]? = some t) :
    aaLast ops d b st m m = .ok (ops.inner p q r s t) := by
  unfold aaLast
  rw [readI_cell h0 (by omega), Res.ok_bind, readI_cell h1 (by omega), Res.ok_bind, readI_cell h2 (by omega), Res.ok_bind,
    readI_cell h3 (by omega), Res.ok_bind, if_neg (by omega), readI_cell h4 (by omega), Res.ok_bind]
  rfl

theorem line_ne {b st j k : Nat} (hst : 0 < st) (h : j ≠ k) : b + j * st ≠ b + k * st := by
  intro e
  have : j * st = k * st := by omega
  exact h (Nat.eq_of_mul_eq_mul_right hst this)

/-- One row or column of length `m` in memory where its first `2 * m + 1` samples are `g`. -/
theorem ipAaLine_spec {d : List α} {b st m : Nat} {g : Nat → α} (hm : 2 ≤ m) (hst : 0 < st)
    (hg : ∀ j : Nat, j ≤ 2 * m → d[b + j * st]? = some (g j)) :
    ∃ d', ipAaLine ops b st m d = .ok d' ∧ d'.length = d.length ∧ (∀ x : Nat, x < m → d'[b + x * st]? = some (halved ops g x)) ∧
      ∀ i : Nat, (∀ x, x < m → i ≠ b + x * st) → d'[i]? = d[i]? := by
  let Q : Nat → List α → Prop := fun x d' => d'.length = d.length ∧ (∀ j : Nat, j < x → d'[b + j * st]? = some (halved ops g j)) ∧
    ∀ i : Nat, (∀ j, j < x → i ≠ b + j * st) → d'[i]? = d[i]?
  have hlt : ∀ j, j ≤ 2 * m → b + j * st < d.length := fun j hj => (List.getElem?_eq_some_iff.mp (hg j hj)).1
  have keep : ∀ x d' k, Q x d' → x ≤ k → k ≤ 2 * m → d'[b + k * st]? = some (g k) := by
    intro x d' k hQ hk hk'
    rw [hQ.2.2 _ (fun j hj => line_ne hst (by omega))]
    exact hg k hk'
  have put : ∀ x d' v, Q x d' → x < m → v = halved ops g x → Q (x + 1) (d'.set (b + x * st) v) := by
    intro x d' v hQ hx hv
    have hl := hlt x (by omega)
    refine ⟨by rw [List.length_set]; exact hQ.1, ?_, ?_⟩
    · intro j hj
      by_cases e : j = x
      · subst e
        rw [List.getElem?_set_self (by rw [hQ.1]; exact hl), hv]
      · rw [List.getElem?_set_ne (line_ne hst (by omega))]
        exact hQ.2.1 j (by omega)
    · intro i hi
      rw [List.getElem?_set_ne (fun e => hi x (by omega) e.symm)]
      exact hQ.2.2 i (fun j hj => hi j (by omega))
  -- the value for a place from the second on
  have val : ∀ x d', 1 ≤ x → x < m → Q x d' → ∃ p q r s t, d'[b + (2 * x - 2) * st]? = some p ∧ d'[b + (2 * x - 1) * st]? = some q ∧
      d'[b + 2 * x * st]? = some r ∧ d'[b + (2 * x + 1) * st]? = some s ∧ d'[b + (2 * x + 2) * st]? = some t ∧
      ops.inner p q r s t = halved ops g x := by
    intro x d' h1 hx hQ
    refine ⟨if x = 1 then halved ops g 0 else g (2 * x - 2), _, _, _, _, ?_, keep x d' (2 * x - 1) hQ (by omega) (by omega), keep x d' (2 * x) hQ (by omega) (by omega),
      keep x d' (2 * x + 1) hQ (by omega) (by omega), keep x d' (2 * x + 2) hQ (by omega) (by omega), ?_⟩
    · by_cases e : x = 1
      · subst e
        rw [if_pos rfl]
        exact hQ.2.1 0 (by omega)
      · rw [if_neg e]
        exact keep x d' (2 * x - 2) hQ (by omega) (by omega)
    · match x, h1 with
      | 1, _ => rfl
      | x + 2, _ =>
        rw [if_neg (by omega)]
        rfl
  unfold ipAaLine aaFirst
  rw [readAt_some (hg 2 (by omega)), Res.ok_bind]
  have g1 := hg 1 (by omega)
  have g0 := hg 0 (by omega)
  rw [Nat.one_mul] at g1
  rw [Nat.zero_mul, Nat.add_zero] at g0
  rw [readAt_some g1, Res.ok_bind, readAt_some g0, Res.ok_bind]
  simp only [Res.pure_eq, Res.ok_bind]
  rw [writeAt_ok _ (List.getElem?_eq_some_iff.mp g0).1]
  simp only [Res.ok_bind]
  have q1 : Q 1 (d.set b (ops.first (g 0) (g 1) (g 2))) := by
    have := put 0 d (ops.first (g 0) (g 1) (g 2)) ⟨rfl, fun j hj => by omega, fun _ _ => rfl⟩ (by omega) rfl
    rwa [Nat.zero_mul, Nat.add_zero] at this
  obtain ⟨d1, e1, hQ⟩ := forLoop_spec (n := m - 1) (i0 := 1) (body := ipAaBody ops b st) Q (by omega) q1 (by
    intro x d' h1 hx hQ
    obtain ⟨p, q, r, s, t, a0, a1, a2, a3, a4, hv⟩ := val x d' h1 (by omega) hQ
    unfold ipAaBody
    rw [aaInner_of h1 a0 a1 a2 a3 a4, Res.ok_bind, writeAt_ok _ (by rw [hQ.1]; exact hlt x (by omega))]
    exact ⟨_, rfl, put x d' _ hQ (by omega) hv⟩)
  rw [e1, Res.ok_bind]
  obtain ⟨p, q, r, s, t, a0, a1, a2, a3, a4, hv⟩ := val (m - 1) d1 (by omega) (by omega) hQ
  rw [aaLast_of hm a0 a1 a2 a3 a4, Res.ok_bind]
  have e : (b : Int) + ((m : Int) - 1) * (st : Int) = ((b + (m - 1) * st : Nat) : Int) := by
    rw [show (m : Int) - 1 = ((m - 1 : Nat) : Int) by omega]
    push_cast
    rfl
  rw [e, writeI, if_pos (by omega), Int.toNat_natCast, writeAt_ok _ (by rw [hQ.1]; exact hlt _ (by omega))]
  have := put (m - 1) d1 _ hQ (by omega) hv
  rw [show m - 1 + 1 = m by omega] at this
  exact ⟨_, rfl, this.1, this.2.1, this.2.2⟩

theorem ipResize_cut {junk : Nat → α} {img : GImage α} {w h : Nat} (hc : w * h ≤ img.data.length) (hsz : w * h ≤ 2147483647)
    (hs : img.width ≤ img.stride) (hw : 0 < w) : ipResize junk img w h 0 = .ok ⟨w, h, w, img.data⟩ := by
  unfold ipResize
  rw [if_neg (by omega)]
  simp only [hw, if_true]
  rw [if_pos (by omega), show w * h - img.data.length = 0 by omega]
  simp

/-- C142, downwards. If the memory has the rows that are read, only it is read, and every column becomes the smoothed one of the memory with
rows of the width of the image, except that the second pixel is made from the new first one. -/
theorem c142_y (junk : Nat → α) {img : GImage α} {m : Nat → α} (hs : img.width ≤ img.stride) (hw : 0 < img.width) (hh : 4 ≤ img.height)
    (hc : img.width * (2 * (img.height / 2) + 1) ≤ img.data.length) (hsz : img.width * (img.height / 2) ≤ 2147483647)
    (hm : ∀ i : Nat, i < img.data.length → img.data[i]? = some (m i)) :
    ∃ d, ipAaDownY ops junk img = .ok d ∧ d.width = img.width ∧ d.height = img.height / 2 ∧ d.stride = img.width ∧
      d.data.length = img.data.length ∧
      (∀ x y, x < img.width → y < img.height / 2 → d.pixel x y = some (halved ops (fun j => m (j * img.width + x)) y)) ∧
      ∀ i, img.width * (img.height / 2) ≤ i → d.data[i]? = img.data[i]? := by
  have hcut : img.width * (img.height / 2) ≤ img.data.length := Nat.le_trans (Nat.mul_le_mul_left _ (by omega)) hc
  unfold ipAaDownY
  rw [ipResize_cut hcut hsz hs hw]
  simp only [Res.ok_bind]
  generalize hH : img.height / 2 = H at *
  have h2 : 2 ≤ H := by omega
  generalize img.width = W at *
  let P : Nat → List α → Prop := fun x d => d.length = img.data.length ∧
    (∀ x' y : Nat, x' < x → y < H → d[y * W + x']? = some (halved ops (fun j => m (j * W + x')) y)) ∧
    ∀ i : Nat, (∀ x' y, x' < x → y < H → i ≠ y * W + x') → d[i]? = img.data[i]?
  have cell : ∀ x x' y j : Nat, x < W → x' < W → j * W + x = y * W + x' → x = x' ∧ j = y := by
    intro x x' y j hx hx' e
    have e1 : (j * W + x) % W = x := by rw [Nat.add_comm, Nat.add_mul_mod_self_right, Nat.mod_eq_of_lt hx]
    have e2 : (y * W + x') % W = x' := by rw [Nat.add_comm, Nat.add_mul_mod_self_right, Nat.mod_eq_of_lt hx']
    rw [e, e2] at e1
    subst e1
    exact ⟨rfl, Nat.eq_of_mul_eq_mul_right hw (by omega)⟩
  obtain ⟨d, e, hP⟩ := forLoop_spec (n := W) (i0 := 0) (s := img.data) (body := fun x d => ipAaLine ops x W H d) P (Nat.zero_le _)
    ⟨rfl, fun _ _ h => by omega, fun _ _ => rfl⟩ (by
      intro x d _ hx hP
      obtain ⟨d', e', l, v, k⟩ := ipAaLine_spec (ops := ops) (d := d) (b := x) (st := W) (m := H) (g := fun j => m (j * W + x)) h2 hw (by
        intro j hj
        rw [Nat.add_comm]
        rw [hP.2.2 _ (fun x' y hx' _ e => by have := cell x x' y j hx (by omega) e; omega)]
        apply hm
        have h1 : j * W ≤ 2 * H * W := Nat.mul_le_mul_right _ hj
        have h3 : W * (2 * H + 1) = 2 * H * W + W := by rw [Nat.mul_add, Nat.mul_one, Nat.mul_comm]
        omega)
      refine ⟨d', e', by rw [l, hP.1], ?_, ?_⟩
      · intro x' y hx' hy
        by_cases ex : x' = x
        · subst ex
          rw [Nat.add_comm]
          exact v y hy
        · rw [k _ (fun y' hy' e => by
            rw [Nat.add_comm x] at e
            have := cell x' x y' y (by omega) hx e
            omega)]
          exact hP.2.1 x' y (by omega) hy
      · intro i hi
        rw [k _ (fun y hy e => hi x y (by omega) hy (by rw [e, Nat.add_comm])), hP.2.2 i (fun x' y hx' hy => hi x' y (by omega) hy)])
  rw [e]
  refine ⟨_, rfl, rfl, rfl, rfl, hP.1, fun x y hx hy => hP.2.1 x y hx hy, ?_⟩
  intro i hi
  refine hP.2.2 i (fun x y hx hy e => ?_)
  have h1 : (y + 1) * W ≤ H * W := Nat.mul_le_mul_right _ hy
  rw [Nat.succ_mul, Nat.mul_comm H] at h1
  omega

/-- C142, downwards, for an odd number of rows and no gap between them: all rows but the second are those of smoothing into another image;
missing: the second row, which is made from the new first row, and even numbers of rows. -/
theorem c142_y_odd_partial (junk junk' : Nat → α) {img dest : GImage α} {f : Nat → Nat → α} (hwf : img.Wf) (hd : dest.Wf)
    (hi : img.Shows img.width img.height f) (hs : img.stride = img.width) (hw : 0 < img.width) {k : Nat} (hk : 2 ≤ k)
    (hh : img.height = 2 * k + 1) (hsz : img.data.length ≤ 2147483647) :
    ∃ d d', ipAaDownY ops junk img = .ok d ∧ aaDownY ops junk' dest img = .ok d' ∧ d.width = d'.width ∧ d.height = d'.height ∧
      (∀ x y, x < img.width → y < k → y ≠ 1 → d.pixel x y = d'.pixel x y) ∧
      ∀ x, x < img.width → d.pixel x 1 = some (ops.inner (ops.first (f x 0) (f x 1) (f x 2)) (f x 1) (f x 2) (f x 3) (f x 4)) ∧
        d'.pixel x 1 = some (ops.inner (f x 0) (f x 1) (f x 2) (f x 3) (f x 4)) := by
  have hl := hwf.length_eq
  rw [hs, hh] at hl
  have hk2 : img.height / 2 = k := by omega
  have : Inhabited α := ⟨f 0 0⟩
  have hm : ∀ i : Nat, i < img.data.length → img.data[i]? = some ((fun i => img.data[i]?.getD default) i) := by
    intro i hi
    simp only [List.getElem?_eq_getElem hi, Option.getD_some]
  have hmf : ∀ x j, x < img.width → j < img.height → img.data[j * img.width + x]?.getD default = f x j := by
    intro x j hx hj
    have := hi.pixel_eq x j hx hj
    unfold GImage.pixel at this
    rw [hs] at this
    rw [this]
    rfl
  obtain ⟨d, e, a, b, -, -, p, -⟩ := c142_y (ops := ops) junk (by omega) hw (by omega) (by rw [hl, hk2]; exact Nat.le_refl _) (by
    rw [hk2]
    rw [hl] at hsz
    exact Nat.le_trans (Nat.mul_le_mul_left img.width (show k ≤ 2 * k + 1 by omega)) hsz) hm
  obtain ⟨d', e', -, hsh⟩ := aaDownY_spec (ops := ops) (junk := junk') hd hwf hsz hi (by omega)
  rw [hk2] at b p
  have hsh' := hsh.pixel_eq
  rw [hk2] at hsh'
  refine ⟨d, d', e, e', by rw [a, hsh.width_eq], by rw [b, hsh.height_eq, hk2], ?_, ?_⟩
  · intro x y hx hy h1
    rw [p x y hx hy, hsh' x y hx hy]
    congr 1
    unfold aaVal
    match y, h1 with
    | 0, _ =>
      rw [if_pos rfl]
      simp only [halved]
      rw [hmf x 0 hx (by omega), hmf x 1 hx (by omega), hmf x 2 hx (by omega)]
    | y + 2, _ =>
      rw [if_neg (by omega), if_pos (by omega)]
      simp only [halved]
      rw [hmf x _ hx (by omega), hmf x _ hx (by omega), hmf x _ hx (by omega), hmf x _ hx (by omega), hmf x _ hx (by omega)]
      rfl
  · intro x hx
    rw [p x 1 hx (by omega), hsh' x 1 hx (by omega)]
    constructor
    · simp only [halved]
      rw [hmf x 0 hx (by omega), hmf x 1 hx (by omega), hmf x 2 hx (by omega), hmf x 3 hx (by omega), hmf x 4 hx (by omega)]
    · unfold aaVal
      rw [if_neg (by decide), if_pos (by omega)]

/-- Neither an error nor a value of another length. -/
def KeepsLen (n : Nat) (r : Res (List α)) : Prop := r = .ub ∨ ∃ d, r = .ok d ∧ d.length = n

theorem readI_goes (d : List α) (i : Int) : readI d i = .ub ∨ ∃ v, readI d i = .ok v := by
  unfold readI readAt
  split
  · cases d[i.toNat]? with
    | none => exact Or.inl rfl
    | some v => exact Or.inr ⟨v, rfl⟩
  · exact Or.inl rfl

theorem aaInner_goes (d : List α) (b st x : Nat) : aaInner ops d b st x = .ub ∨ ∃ v, aaInner ops d b st x = .ok v := by
  unfold aaInner
  rcases readI_goes d (b + (2 * (x : Int) - 2) * st) with e | ⟨_, e⟩ <;> rw [e]
  · exact Or.inl rfl
  rcases readI_goes d (b + (2 * (x : Int) + 2) * st) with e | ⟨_, e⟩ <;> simp only [Res.ok_bind] <;> rw [e]
  · exact Or.inl rfl
  rcases readI_goes d (b + (2 * (x : Int) - 1) * st) with e | ⟨_, e⟩ <;> simp only [Res.ok_bind] <;> rw [e]
  · exact Or.inl rfl
  rcases readI_goes d (b + (2 * (x : Int) + 1) * st) with e | ⟨_, e⟩ <;> simp only [Res.ok_bind] <;> rw [e]
  · exact Or.inl rfl
  rcases readI_goes d (b + 2 * (x : Int) * st) with e | ⟨_, e⟩ <;> simp only [Res.ok_bind] <;> rw [e]
  · exact Or.inl rfl
  · exact Or.inr ⟨_, rfl⟩

theorem writeAt_goes (d : List α) (i : Nat) (v : α) : KeepsLen d.length (writeAt d i v) := by
  by_cases h : i < d.length
  · rw [writeAt_ok _ h]
    exact Or.inr ⟨_, rfl, List.length_set⟩
  · refine Or.inl ?_
    unfold writeAt
    rw [if_neg h]

theorem forLoop_goes {n l : Nat} {body : Nat → List α → Res (List α)} (hb : ∀ i d, d.length = l → KeepsLen l (body i d)) :
    ∀ (k i : Nat) (d : List α), n - i = k → d.length = l → KeepsLen l (forLoop n body i d) := by
  intro k
  induction k with
  | zero =>
    intro i d hk hd
    rw [forLoop, if_neg (by omega)]
    exact Or.inr ⟨d, rfl, hd⟩
  | succ k ih =>
    intro i d hk hd
    rw [forLoop, if_pos (by omega)]
    rcases hb i d hd with e | ⟨d', e, hd'⟩
    · exact Or.inl (by rw [e]; rfl)
    · rw [e, Res.ok_bind]
      exact ih (i + 1) d' (by omega) hd'

/-- A line whose sample after twice the new length is not in the memory. -/
theorem ipAaLine_ub {d : List α} {b st m : Nat} (hm : 1 ≤ m) (hl : d.length ≤ b + 2 * m * st) : ipAaLine ops b st m d = .ub := by
  unfold ipAaLine
  have h1 : aaFirst ops d b st = .ub ∨ ∃ v, aaFirst ops d b st = .ok v := by
    unfold aaFirst readAt
    cases d[b + 2 * st]? with
    | none => exact Or.inl rfl
    | some _ =>
      simp only [Res.ok_bind]
      cases d[b + st]? with
      | none => exact Or.inl rfl
      | some _ =>
        simp only [Res.ok_bind]
        cases d[b]? with
        | none => exact Or.inl rfl
        | some _ => exact Or.inr ⟨_, rfl⟩
  rcases h1 with e | ⟨v, e⟩ <;> rw [e]
  · rfl
  rw [Res.ok_bind]
  rcases writeAt_goes d b v with e | ⟨d1, e, l1⟩ <;> rw [e]
  · rfl
  rw [Res.ok_bind]
  rcases forLoop_goes (n := m - 1) (l := d.length) (body := ipAaBody ops b st) (by
    intro i d' hd'
    unfold ipAaBody
    rcases aaInner_goes (ops := ops) d' b st i with e | ⟨v, e⟩ <;> rw [e]
    · exact Or.inl rfl
    · rw [Res.ok_bind, ← hd']
      exact writeAt_goes _ _ _) _ 1 d1 rfl l1 with e | ⟨d2, e, l2⟩ <;> rw [e]
  · rfl
  rw [Res.ok_bind]
  have hu : aaLast ops d2 b st m m = .ub := by
    unfold aaLast
    rcases readI_goes d2 (b + (2 * (m : Int) - 4) * st) with e | ⟨_, e⟩ <;> rw [e]
    · rfl
    rw [Res.ok_bind]
    rcases readI_goes d2 (b + (2 * (m : Int) - 3) * st) with e | ⟨_, e⟩ <;> rw [e]
    · rfl
    rw [Res.ok_bind]
    rcases readI_goes d2 (b + (2 * (m : Int) - 2) * st) with e | ⟨_, e⟩ <;> rw [e]
    · rfl
    rw [Res.ok_bind]
    rcases readI_goes d2 (b + (2 * (m : Int) - 1) * st) with e | ⟨_, e⟩ <;> rw [e]
    · rfl
    rw [Res.ok_bind, if_neg (by omega)]
    have e : (b : Int) + 2 * (m : Int) * (st : Int) = ((b + 2 * m * st : Nat) : Int) := by push_cast; rfl
    rw [e, readI, if_pos (by omega), Int.toNat_natCast, readAt_beyond (by omega)]
    rfl
  rw [hu]
  rfl

/-- C142 is false downwards for even numbers of rows: with exactly the memory of the image the row after the last one is read. -/
theorem c142_y_even_false (junk : Nat → α) {img : GImage α} (hwf : img.Wf) (hs : img.stride = img.width) (hw : 0 < img.width) {k : Nat}
    (hk : 1 ≤ k) (hh : img.height = 2 * k) (hsz : img.data.length ≤ 2147483647) : ipAaDownY ops junk img = .ub := by
  have hl := hwf.length_eq
  rw [hs, hh] at hl
  have hle : img.width * (img.height / 2) ≤ img.data.length := by
    rw [hl]
    exact Nat.mul_le_mul_left _ (by omega)
  unfold ipAaDownY
  rw [ipResize_cut hle (by omega) (by omega) hw]
  simp only [Res.ok_bind]
  rw [forLoop, if_pos hw, ipAaLine_ub (by omega) (by
    rw [hl, hh, show 2 * k / 2 = k by omega, Nat.zero_add, Nat.mul_comm]
    exact Nat.le_refl _)]
  rfl

/-- C142, sideways. If the memory has the samples that are read, only it is read, and the row `y` becomes the smoothed one of the memory from
`y` times half the width on, except that the second pixel is made from the new first one. -/
theorem c142_x (junk : Nat → α) {img : GImage α} {m : Nat → α} (hs : img.width ≤ img.stride) (hw : 4 ≤ img.width)
    (hc : img.width / 2 * (img.height + 1) < img.data.length) (hsz : img.width / 2 * img.height ≤ 2147483647)
    (hm : ∀ i : Nat, i < img.data.length → img.data[i]? = some (m i)) :
    ∃ d, ipAaDownX ops junk img = .ok d ∧ d.width = img.width / 2 ∧ d.height = img.height ∧ d.stride = img.width / 2 ∧
      d.data.length = img.data.length ∧
      (∀ x y, x < img.width / 2 → y < img.height → d.pixel x y = some (halved ops (fun j => m (y * (img.width / 2) + j)) x)) ∧
      ∀ i, img.width / 2 * img.height ≤ i → d.data[i]? = img.data[i]? := by
  have hcut : img.width / 2 * img.height ≤ img.data.length := by
    rw [Nat.mul_add] at hc
    omega
  unfold ipAaDownX
  rw [ipResize_cut hcut hsz hs (by omega)]
  simp only [Res.ok_bind]
  generalize hW : img.width / 2 = W at *
  have h2 : 2 ≤ W := by omega
  generalize img.height = H at *
  let P : Nat → List α → Prop := fun y d => d.length = img.data.length ∧
    (∀ y' x : Nat, y' < y → x < W → d[y' * W + x]? = some (halved ops (fun j => m (y' * W + j)) x)) ∧
    ∀ i : Nat, y * W ≤ i → d[i]? = img.data[i]?
  obtain ⟨d, e, hP⟩ := forLoop_spec (n := H) (i0 := 0) (s := img.data) (body := fun y d => ipAaLine ops (y * W) 1 W d) P (Nat.zero_le _)
    ⟨rfl, fun _ _ h => by omega, fun _ _ => rfl⟩ (by
      intro y d _ hy hP
      have hyW : (y + 1) * W ≤ H * W := Nat.mul_le_mul_right _ hy
      rw [Nat.succ_mul] at hyW
      rw [Nat.mul_add, Nat.mul_one, Nat.mul_comm W] at hc
      obtain ⟨d', e', l, v, k⟩ := ipAaLine_spec (ops := ops) (d := d) (b := y * W) (st := 1) (m := W) (g := fun j => m (y * W + j)) h2
        (by decide) (by
        intro j hj
        rw [Nat.mul_one, hP.2.2 _ (by omega)]
        exact hm _ (by omega))
      simp only [Nat.mul_one] at v k
      refine ⟨d', e', by rw [l, hP.1], ?_, ?_⟩
      · intro y' x hy' hx
        by_cases ey : y' = y
        · subst ey
          exact v x hx
        · have : (y' + 1) * W ≤ y * W := Nat.mul_le_mul_right _ (by omega)
          rw [Nat.succ_mul] at this
          rw [k _ (fun x' hx' => by omega)]
          exact hP.2.1 y' x (by omega) hx
      · intro i hi
        rw [Nat.succ_mul] at hi
        rw [k _ (fun x' hx' => by omega)]
        exact hP.2.2 i (by omega))
  rw [e]
  exact ⟨_, rfl, rfl, rfl, rfl, hP.1, fun x y hx hy => hP.2.1 y x hy hx, fun i hi => hP.2.2 i (by rw [Nat.mul_comm]; exact hi)⟩

/-- C142 is false sideways: with an even number of columns and no gap between the rows the upper half of the image is shown, the row
`2 * k` made from row `k` and the row `2 * k + 1` from its right half and the left half of the next row. -/
theorem c142_x_rows_false (junk : Nat → α) {img : GImage α} {f : Nat → Nat → α} {w : Nat} (hwf : img.Wf)
    (hi : img.Shows (2 * w) img.height f) (hs : img.stride = 2 * w) (hw : 2 ≤ w) (hh : 2 ≤ img.height) (hsz : img.data.length ≤ 2147483647) :
    ∃ d, ipAaDownX ops junk img = .ok d ∧ d.width = w ∧ d.height = img.height ∧
      (∀ x k, x < w → 2 * k < img.height → d.pixel x (2 * k) =
        some (halved ops (fun j => if j < 2 * w then f j k else f (j - 2 * w) (k + 1)) x)) ∧
      ∀ x k, x < w → 2 * k + 1 < img.height → d.pixel x (2 * k + 1) =
        some (halved ops (fun j => if j < w then f (w + j) k else f (j - w) (k + 1)) x) := by
  have hl := hwf.length_eq
  have ew := hi.width_eq
  rw [hs] at hl
  have hw2 : img.width / 2 = w := by omega
  have : Inhabited α := ⟨f 0 0⟩
  have hm : ∀ i : Nat, i < img.data.length → img.data[i]? = some ((fun i => img.data[i]?.getD default) i) := by
    intro i hi
    simp only [List.getElem?_eq_getElem hi, Option.getD_some]
  have hmf : ∀ i x j, i = j * (2 * w) + x → x < 2 * w → j < img.height → img.data[i]?.getD default = f x j := by
    intro i x j e hx hj
    have := hi.pixel_eq x j hx hj
    unfold GImage.pixel at this
    rw [hs, ← e] at this
    rw [this]
    rfl
  have hle : w * (img.height + 1) < img.data.length := by
    rw [hl]
    have : w * 2 ≤ w * img.height := Nat.mul_le_mul_left _ hh
    have e : 2 * w * img.height = w * img.height + w * img.height := by rw [Nat.mul_assoc, Nat.two_mul]
    rw [Nat.mul_add]
    omega
  obtain ⟨d, e, a, b, -, -, p, -⟩ := c142_x (ops := ops) junk (by omega) (by omega) (by rw [hw2]; exact hle) (by
    rw [hw2]
    rw [Nat.mul_add] at hle
    omega) hm
  rw [hw2] at a p
  have hval : ∀ (g g' : Nat → α) x, x < w → (∀ j, j ≤ 2 * w → g j = g' j) → halved ops g x = halved ops g' x := by
    intro g g' x hx h
    match x with
    | 0 => simp only [halved]; rw [h 0 (by omega), h 1 (by omega), h 2 (by omega)]
    | 1 => simp only [halved]; rw [h 0 (by omega), h 1 (by omega), h 2 (by omega), h 3 (by omega), h 4 (by omega)]
    | x + 2 =>
      simp only [halved]
      rw [h _ (by omega), h _ (by omega), h _ (by omega), h _ (by omega), h _ (by omega)]
  refine ⟨d, e, a, b, ?_, ?_⟩
  · intro x k hx hk
    rw [p x _ hx hk]
    congr 1
    refine hval _ _ x hx ?_
    intro j hj
    have e1 : 2 * k * w = k * (2 * w) := by rw [Nat.mul_comm 2 k, Nat.mul_assoc]
    split
    · exact hmf _ (j) k (by omega) (by omega) (by omega)
    · refine hmf _ (j - 2 * w) (k + 1) ?_ (by omega) (by omega)
      have e2 : (k + 1) * (2 * w) = k * (2 * w) + 2 * w := Nat.succ_mul _ _
      omega
  · intro x k hx hk
    rw [p x _ hx hk]
    congr 1
    refine hval _ _ x hx ?_
    intro j hj
    have e1 : (2 * k + 1) * w = k * (2 * w) + w := by rw [Nat.succ_mul, Nat.mul_comm 2 k, Nat.mul_assoc]
    split
    · exact hmf _ (w + j) k (by omega) (by omega) (by omega)
    · refine hmf _ (j - w) (k + 1) ?_ (by omega) (by omega)
      have e2 : (k + 1) * (2 * w) = k * (2 * w) + 2 * w := Nat.succ_mul _ _
      omega

/-- C142 is false sideways for a single row of even length: with exactly the memory of the image the sample after the last one is read. -/
theorem c142_x_row_false (junk : Nat → α) {img : GImage α} {w : Nat} (hwf : img.Wf) (hs : img.stride = img.width) (hw : img.width = 2 * w)
    (hw0 : 0 < w) (hh : img.height = 1) (hsz : img.data.length ≤ 2147483647) : ipAaDownX ops junk img = .ub := by
  have hl := hwf.length_eq
  rw [hs, hh, hw] at hl
  unfold ipAaDownX
  rw [hh, ipResize_cut (by omega) (by omega) (by omega) (by omega)]
  simp only [Res.ok_bind]
  rw [forLoop, if_pos (by decide), ipAaLine_ub (by omega) (by omega)]
  rfl

end

/-- C142 is false: the second row of an image of five rows of bytes. -/
theorem c142_second_false : ∃ d d', ipAaDownY aaUc (fun _ => 0) ⟨1, 5, 1, [255, 0, 0, 0, 0]⟩ = .ok d ∧
    aaDownY aaUc (fun _ => 0) ⟨0, 0, 0, []⟩ ⟨1, 5, 1, [255, 0, 0, 0, 0]⟩ = .ok d' ∧ d.pixel 0 1 = some 4 ∧ d'.pixel 0 1 = some 10 := by
  refine ⟨⟨1, 2, 1, [112, 4, 0, 0, 0]⟩, ⟨1, 2, 1, [112, 10]⟩, ?_, ?_, rfl, rfl⟩ <;> decide +kernel

/-! ## Examples -/

example : ∃ f, (⟨2, 5, 2, [1, 2, 3, 4, 5, 6, 7, 8, 9, 10]⟩ : GImage Byte).Shows 2 5 f :=
  GImage.shows_self (img := ⟨2, 5, 2, [1, 2, 3, 4, 5, 6, 7, 8, 9, 10]⟩) ⟨by decide, rfl⟩ (by decide) (by decide)

example : ipAaDownY aaUc (fun _ => 0) ⟨1, 4, 1, [1, 2, 3, 4]⟩ = .ub :=
  c142_y_even_false (k := 2) _ ⟨by decide, rfl⟩ rfl (by decide) (by decide) rfl (by decide)

example : ipAaDownX aaUc (fun _ => 0) ⟨4, 2, 4, [0, 0, 100, 100, 200, 200, 50, 50]⟩ =
    .ok ⟨2, 2, 2, [8, 76, 108, 166, 200, 200, 50, 50]⟩ := by decide +kernel

end Nx
