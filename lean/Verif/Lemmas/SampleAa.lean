import Verif.Lemmas.Upsample

/-!
# Lemmas about smoothing downsampling
-/

namespace Nx

section
variable {α : Type} {ops : AaOps α}

/-- The value computed for position `i` of a line of `n` samples. -/
def aaVal (ops : AaOps α) (n : Nat) (s : Nat → α) (i : Nat) : α :=
  if i = 0 then ops.first (s 0) (s 1) (s 2)
  else if 2 * i + 2 < n then ops.inner (s (2 * i - 2)) (s (2 * i - 1)) (s (2 * i)) (s (2 * i + 1)) (s (2 * i + 2))
  else ops.last (s (2 * i - 2)) (s (2 * i - 1)) (s (2 * i)) (s (2 * i + 1))

theorem aaFirst_spec {src : List α} {sb ss n : Nat} {s : Nat → α}
    (hs : ∀ i, i < n → src[sb + i * ss]? = some (s i)) (hn : 4 ≤ n) :
    aaFirst ops src sb ss = .ok (aaVal ops n s 0) := by
  have h0 := hs 0 (by omega)
  have h1 := hs 1 (by omega)
  have h2 := hs 2 (by omega)
  rw [Nat.zero_mul, Nat.add_zero] at h0
  rw [Nat.one_mul] at h1
  unfold aaFirst
  rw [readAt_some h2]
  simp only [Res.ok_bind]
  rw [readAt_some h1]
  simp only [Res.ok_bind]
  rw [readAt_some h0]
  simp only [Res.ok_bind]
  rfl

theorem readI_line {src : List α} {sb ss n : Nat} {s : Nat → α} (hs : ∀ i, i < n → src[sb + i * ss]? = some (s i))
    {i : Int} {k : Nat} (hi : i = (k : Int)) (hk : k < n) : readI src (sb + i * ss) = .ok (s k) := by
  rw [readI_nat (k := sb + k * ss) (by rw [hi]; push_cast; rfl)]
  exact readAt_some (hs k hk)

theorem aaInner_spec {src : List α} {sb ss n x : Nat} {s : Nat → α}
    (hs : ∀ i, i < n → src[sb + i * ss]? = some (s i)) (hx : 1 ≤ x) (hn : 2 * x + 2 < n) :
    aaInner ops src sb ss x = .ok (aaVal ops n s x) := by
  unfold aaInner
  rw [readI_line hs (k := 2 * x - 2) (by omega) (by omega)]
  simp only [Res.ok_bind]
  rw [readI_line hs (k := 2 * x + 2) (by omega) (by omega)]
  simp only [Res.ok_bind]
  rw [readI_line hs (k := 2 * x - 1) (by omega) (by omega)]
  simp only [Res.ok_bind]
  rw [readI_line hs (k := 2 * x + 1) (by omega) (by omega)]
  simp only [Res.ok_bind]
  rw [readI_line hs (k := 2 * x) (by omega) (by omega)]
  simp only [Res.ok_bind]
  rw [aaVal, if_neg (by omega), if_pos hn]
  rfl

theorem aaLast_spec {src : List α} {sb ss n : Nat} {s : Nat → α}
    (hs : ∀ i, i < n → src[sb + i * ss]? = some (s i)) (hn : 4 ≤ n) :
    aaLast ops src sb ss n (n / 2) = .ok (aaVal ops n s (n / 2 - 1)) := by
  have e1 : 2 * (n / 2 - 1) - 2 = 2 * (n / 2) - 4 := by omega
  have e2 : 2 * (n / 2 - 1) - 1 = 2 * (n / 2) - 3 := by omega
  have e3 : 2 * (n / 2 - 1) = 2 * (n / 2) - 2 := by omega
  have e4 : 2 * (n / 2 - 1) + 1 = 2 * (n / 2) - 1 := by omega
  unfold aaLast
  rw [readI_line hs (k := 2 * (n / 2) - 4) (by omega) (by omega)]
  simp only [Res.ok_bind]
  rw [readI_line hs (k := 2 * (n / 2) - 3) (by omega) (by omega)]
  simp only [Res.ok_bind]
  rw [readI_line hs (k := 2 * (n / 2) - 2) (by omega) (by omega)]
  simp only [Res.ok_bind]
  rw [readI_line hs (k := 2 * (n / 2) - 1) (by omega) (by omega)]
  simp only [Res.ok_bind]
  by_cases hc : 2 * (n / 2) = n
  · rw [if_pos hc, aaVal, if_neg (by omega), if_neg (by omega), e1, e2, e4, e3]
    rfl
  · rw [if_neg hc, readI_line hs (k := 2 * (n / 2)) (by omega) (by omega)]
    simp only [Res.ok_bind]
    have e5 : 2 * (n / 2 - 1) + 2 = 2 * (n / 2) := by omega
    rw [aaVal, if_neg (by omega), if_pos (by omega), e1, e2, e4, e5, e3]
    rfl

/-- A line of a list is filled up to position `i`, all else is as in `d0`. -/
def LineFilled (d0 : List α) (db ds : Nat) (g : Nat → α) (i : Nat) (d : List α) : Prop :=
  d.length = d0.length ∧ (∀ k, k < i → d[db + k * ds]? = some (g k)) ∧
    ∀ j, (∀ k, k < i → j ≠ db + k * ds) → d[j]? = d0[j]?

theorem LineFilled.set {d0 d : List α} {db ds i : Nat} {g : Nat → α} (h : LineFilled d0 db ds g i d) (hds : 0 < ds)
    (hb : db + i * ds < d0.length) : LineFilled d0 db ds g (i + 1) (d.set (db + i * ds) (g i)) := by
  obtain ⟨hl, h1, h2⟩ := h
  refine ⟨by rw [List.length_set, hl], ?_, ?_⟩
  · intro k hk
    rw [List.getElem?_set]
    by_cases hc : db + i * ds = db + k * ds
    · have : i = k := Nat.eq_of_mul_eq_mul_right hds (by omega)
      subst this
      rw [if_pos rfl, if_pos (by omega)]
    · rw [if_neg hc]
      apply h1
      have : k ≠ i := by
        intro e
        exact hc (by rw [e])
      omega
  · intro j hj
    rw [List.getElem?_set, if_neg (by intro e; exact hj i (by omega) e.symm)]
    exact h2 j (fun k hk => hj k (by omega))

theorem aaLine_spec {src : List α} {sb ss n db ds : Nat} {s : Nat → α} {d0 : List α}
    (hs : ∀ i, i < n → src[sb + i * ss]? = some (s i)) (hn : 4 ≤ n) (hds : 0 < ds)
    (hb : ∀ i, i < n / 2 → db + i * ds < d0.length) :
    ∃ d, aaLine ops src sb ss n db ds (n / 2) d0 = .ok d ∧ LineFilled d0 db ds (aaVal ops n s) (n / 2) d := by
  have h0 : LineFilled d0 db ds (aaVal ops n s) 0 d0 :=
    ⟨rfl, by intro k hk; omega, fun _ _ => rfl⟩
  have hb0 := hb 0 (by omega)
  have h1 := h0.set hds hb0
  rw [Nat.zero_mul, Nat.add_zero] at h1 hb0
  obtain ⟨d2, e2, h2⟩ := forLoop_spec (n := n / 2 - 1) (body := aaBody ops src sb ss db ds) (i0 := 1)
    (fun i d => LineFilled d0 db ds (aaVal ops n s) i d) (by omega) h1 (by
      intro x d hx hxn hP
      refine ⟨_, ?_, hP.set hds (hb x (by omega))⟩
      unfold aaBody
      rw [aaInner_spec hs hx (by omega)]
      simp only [Res.ok_bind]
      exact writeAt_ok _ (by rw [hP.1]; exact hb x (by omega)))
  refine ⟨d2.set (db + (n / 2 - 1) * ds) (aaVal ops n s (n / 2 - 1)), ?_, ?_⟩
  rotate_left
  · have h3 := h2.set hds (hb (n / 2 - 1) (by omega))
    have e : n / 2 - 1 + 1 = n / 2 := by omega
    rw [e] at h3
    exact h3
  · unfold aaLine
    rw [aaFirst_spec hs hn]
    simp only [Res.ok_bind]
    rw [writeAt_ok _ hb0]
    simp only [Res.ok_bind]
    rw [Nat.add_zero] at e2
    rw [e2]
    simp only [Res.ok_bind]
    rw [aaLast_spec hs hn]
    simp only [Res.ok_bind]
    have e : ((n / 2 : Nat) : Int) - 1 = ((n / 2 - 1 : Nat) : Int) := by omega
    rw [e, writeI_nat (k := db + (n / 2 - 1) * ds) (by push_cast; rfl)]
    exact writeAt_ok _ (by rw [h2.1]; exact hb _ (by omega))

theorem aaLine_short {src : List α} {sb ss n db ds : Nat} {d0 : List α} (hn : n < 4)
    (h : n / 2 = 0 → d0.length ≤ db) (h' : (sb : Int) < 2 * ss) : aaLine ops src sb ss n db ds (n / 2) d0 = .ub := by
  unfold aaLine
  have hF : aaFirst ops src sb ss = .ub ∨ ∃ v, aaFirst ops src sb ss = .ok v := by
    have hR : ∀ i, readAt src i = .ub ∨ ∃ v, readAt src i = .ok v := by
      intro i
      unfold readAt
      cases src[i]? with
      | none => exact Or.inl rfl
      | some v => exact Or.inr ⟨v, rfl⟩
    unfold aaFirst
    rcases hR (sb + 2 * ss) with e | ⟨c, e⟩
    · rw [e]
      exact Or.inl rfl
    rw [e]
    simp only [Res.ok_bind]
    rcases hR (sb + ss) with e | ⟨b, e⟩
    · rw [e]
      exact Or.inl rfl
    rw [e]
    simp only [Res.ok_bind]
    rcases hR sb with e | ⟨a, e⟩
    · rw [e]
      exact Or.inl rfl
    rw [e]
    exact Or.inr ⟨_, rfl⟩
  rcases hF with e | ⟨v, e⟩
  · rw [e]
    rfl
  · rw [e]
    simp only [Res.ok_bind]
    by_cases hz : d0.length ≤ db
    · have : writeAt d0 db v = .ub := by
        unfold writeAt
        rw [if_neg (by omega)]
      rw [this]
      rfl
    · have hm : n / 2 = 1 := by
        by_cases c : n / 2 = 0
        · exact absurd (h c) hz
        · omega
      rw [writeAt_ok _ (by omega), hm]
      simp only [Res.ok_bind]
      rw [forLoop, if_neg (by omega)]
      simp only [Res.ok_bind]
      have : aaLast ops src sb ss n 1 = .ub := by
        unfold aaLast
        rw [readI_neg (by simp only [Int.natCast_one]; omega)]
        rfl
      rw [this]
      rfl

variable {dest src : GImage α} {w h : Nat} {f : Nat → Nat → α} {junk : Nat → α}

theorem aaDownX_spec (hd : dest.Wf) (hw : src.Wf) (hsz : src.data.length ≤ 2147483647) (hs : src.Shows w h f)
    (h4 : 4 ≤ w) :
    ∃ d, aaDownX ops junk dest src = .ok d ∧ d.Wf ∧
      d.Shows (w / 2) h (fun x y => aaVal ops w (fun i => f i y) x) := by
  have e1 := hs.width_eq
  have e2 := hs.height_eq
  have hprod : src.width / 2 * src.height ≤ 2147483647 := by
    have h1 : src.width / 2 * src.height ≤ src.stride * src.height :=
      Nat.mul_le_mul (by have := hw.stride_ge; omega) (by omega)
    rw [← hw.length_eq] at h1
    omega
  obtain ⟨d, ed, dw, dh, ds, dl⟩ := gResize_ok (junk := junk) (st := 0) hd hprod (Nat.zero_le _)
  rw [e1] at dw ds
  rw [e1, e2] at dl
  obtain ⟨r, er, hF⟩ := forLoop_spec (n := d.height) (i0 := 0) (s := d.data)
    (body := fun y r => aaLine ops src.data (y * src.stride) 1 src.width (y * d.stride) 1 d.width r)
    (fun y r => Filled d.stride d.height (w / 2) (fun x y => aaVal ops w (fun i => f i y) x) y 0 r) (Nat.zero_le _)
    ⟨by rw [dl, ds, dh, e2], by intro x y _ hc; omega⟩ (by
      intro y r _ hy hP
      obtain ⟨r', er', hl⟩ := aaLine_spec (ops := ops) (src := src.data) (sb := y * src.stride) (ss := 1) (n := w)
        (db := y * d.stride) (ds := 1) (s := fun i => f i y) (d0 := r)
        (by intro i hi; rw [Nat.mul_one]; exact hs.pixel_eq i y hi (by omega)) h4 (by omega)
        (by intro i hi; rw [hP.1, Nat.mul_one]; exact pixIdx_lt (by omega) hy)
      refine ⟨r', by rw [e1, dw]; exact er', by rw [hl.1, hP.1], ?_⟩
      intro x' y' hx' hc
      by_cases hy' : y' = y
      · subst hy'
        have := hl.2.1 x' hx'
        rwa [Nat.mul_one] at this
      · rw [hl.2.2 _ (by
          intro k hk e
          rw [Nat.mul_one] at e
          exact hy' (pixIdx_inj (by omega) (by omega) e).2)]
        exact hP.2 x' y' hx' (by omega))
  refine ⟨{ d with data := r }, ?_, ⟨by simp only; omega, hF.1⟩, ?_⟩
  · unfold aaDownX
    rw [ed]
    simp only [Res.ok_bind, er]
    rfl
  · have dh' : d.height = h := by omega
    rw [dh'] at hF
    exact shows_of_filled dw dh' hF

theorem aaDownY_spec (hd : dest.Wf) (hw : src.Wf) (hsz : src.data.length ≤ 2147483647) (hs : src.Shows w h f)
    (h4 : 4 ≤ h) :
    ∃ d, aaDownY ops junk dest src = .ok d ∧ d.Wf ∧
      d.Shows w (h / 2) (fun x y => aaVal ops h (fun i => f x i) y) := by
  have e1 := hs.width_eq
  have e2 := hs.height_eq
  have hprod : src.width * (src.height / 2) ≤ 2147483647 := by
    have h1 : src.width * (src.height / 2) ≤ src.stride * src.height :=
      Nat.mul_le_mul (by have := hw.stride_ge; omega) (by omega)
    rw [← hw.length_eq] at h1
    omega
  obtain ⟨d, ed, dw, dh, ds, dl⟩ := gResize_ok (junk := junk) (st := 0) hd hprod (Nat.zero_le _)
  rw [e2] at dh
  have hl0 : d.data.length = d.stride * d.height := by rw [dl, ds, dh, e2]
  obtain ⟨r, er, hF⟩ := forLoop_spec (n := d.width) (i0 := 0) (s := d.data)
    (body := fun x r => aaLine ops src.data x src.stride src.height x d.stride d.height r)
    (fun x r => r.length = d.stride * d.height ∧ ∀ x' y', x' < x → y' < h / 2 →
      r[y' * d.stride + x']? = some (aaVal ops h (fun i => f x' i) y')) (Nat.zero_le _)
    ⟨hl0, by intro x y hc; omega⟩ (by
      intro x r _ hx hP
      obtain ⟨r', er', hl⟩ := aaLine_spec (ops := ops) (src := src.data) (sb := x) (ss := src.stride) (n := h)
        (db := x) (ds := d.stride) (s := fun i => f x i) (d0 := r)
        (by intro i hi; rw [Nat.add_comm]; exact hs.pixel_eq x i (by omega) hi) h4 (by omega)
        (by intro i hi; rw [hP.1, Nat.add_comm]; exact pixIdx_lt (by omega) (by omega))
      refine ⟨r', by rw [e2, dh]; exact er', by rw [hl.1, hP.1], ?_⟩
      intro x' y' hx' hy'
      by_cases hxx : x' = x
      · subst hxx
        have := hl.2.1 y' hy'
        rwa [Nat.add_comm] at this
      · rw [hl.2.2 _ (by
          intro k hk e
          rw [Nat.add_comm x] at e
          exact hxx (pixIdx_inj (by omega) (by omega) e).1)]
        exact hP.2 x' y' (by omega) hy')
  refine ⟨{ d with data := r }, ?_, ⟨by simp only; omega, hF.1⟩, by simp only; omega, dh, ?_⟩
  · unfold aaDownY
    rw [ed]
    simp only [Res.ok_bind, er]
    rfl
  · intro x y hx hy
    exact hF.2 x y (by omega) hy

theorem aaDownX_narrow (hd : dest.Wf) (hw : src.Wf) (hsz : src.data.length ≤ 2147483647) (h4 : src.width < 4)
    (hh : 0 < src.height) : aaDownX ops junk dest src = .ub := by
  have hprod : src.width / 2 * src.height ≤ 2147483647 := by
    have h1 : src.width / 2 * src.height ≤ src.stride * src.height :=
      Nat.mul_le_mul (by have := hw.stride_ge; omega) (by omega)
    rw [← hw.length_eq] at h1
    omega
  obtain ⟨d, ed, dw, dh, ds, dl⟩ := gResize_ok (junk := junk) (st := 0) hd hprod (Nat.zero_le _)
  unfold aaDownX
  rw [ed]
  simp only [Res.ok_bind]
  rw [forLoop_ub (by omega)]
  · rfl
  · rw [dw]
    apply aaLine_short h4
    · intro hz
      rw [dl, hz]
      simp
    · simp

theorem aaDownY_low (hd : dest.Wf) (hw : src.Wf) (hsz : src.data.length ≤ 2147483647) (h4 : src.height < 4)
    (hh : 0 < src.width) : aaDownY ops junk dest src = .ub := by
  have hprod : src.width * (src.height / 2) ≤ 2147483647 := by
    have h1 : src.width * (src.height / 2) ≤ src.stride * src.height :=
      Nat.mul_le_mul (by have := hw.stride_ge; omega) (by omega)
    rw [← hw.length_eq] at h1
    omega
  obtain ⟨d, ed, dw, dh, ds, dl⟩ := gResize_ok (junk := junk) (st := 0) hd hprod (Nat.zero_le _)
  unfold aaDownY
  rw [ed]
  simp only [Res.ok_bind]
  rw [forLoop_ub (by omega)]
  · rfl
  · rw [dh]
    apply aaLine_short h4
    · intro hz
      rw [dl, hz]
      simp
    · have := hw.stride_ge
      simp only [Int.natCast_zero]
      omega

end

end Nx
