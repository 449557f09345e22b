import Verif.Model.Filter

/-! # C38: filters compute the windowed sums; borders are filled -/

namespace Nx

/-- The sum of `f lo`, …, `f (lo + n - 1)`. -/
def winSum (f : Nat → Rat) (lo n : Nat) : Rat := ((List.range n).map (fun t => f (lo + t))).sum

theorem winSum_zero (f : Nat → Rat) (lo : Nat) : winSum f lo 0 = 0 := rfl

theorem winSum_last (f : Nat → Rat) (lo n : Nat) : winSum f lo (n + 1) = winSum f lo n + f (lo + n) := by
  unfold winSum
  rw [List.range_succ, List.map_append, List.sum_append]
  simp [Rat.add_zero]

theorem winSum_first (f : Nat → Rat) (lo n : Nat) : winSum f lo (n + 1) = f lo + winSum f (lo + 1) n := by
  induction n generalizing lo with
  | zero => rw [winSum_last, winSum_zero, winSum_zero]; grind
  | succ n ih =>
    rw [winSum_last, ih, winSum_last f (lo + 1) n]
    have : lo + (n + 1) = lo + 1 + n := by omega
    rw [this, Rat.add_assoc]

/-- The distance of two positions. -/
def absDiff (a b : Nat) : Nat := (a - b) + (b - a)

/-! ## Symmetric convolution -/

theorem convInner_ok {data kernel : List Rat} {x w : Nat → Rat} {nk c : Nat}
    (hw : ∀ k (h : k < kernel.length), k < nk → kernel[k] = w k) (hkl : nk ≤ kernel.length)
    (hd : ∀ j (h : j < data.length), c + 1 - nk ≤ j → data[j] = x j) (hc1 : nk ≤ c + 1) (hc2 : c + nk ≤ data.length) :
    ∀ (m k : Nat), m = nk - k → 1 ≤ k → k ≤ nk →
      convInner data kernel nk c k (winSum (fun j => w (absDiff j c) * x j) (c + 1 - k) (2 * k - 1)) =
        .ok (winSum (fun j => w (absDiff j c) * x j) (c + 1 - nk) (2 * nk - 1)) := by
  intro m
  induction m with
  | zero =>
    intro k hm h1 hk
    have : k = nk := by omega
    subst this
    rw [convInner, if_neg (by omega)]; rfl
  | succ m ih =>
    intro k hm h1 hk
    rw [convInner, if_pos (by omega), readAt_ok (by omega)]
    simp only [Res.ok_bind]
    rw [if_pos (by omega), readAt_ok (show c - k < data.length by omega), readAt_ok (show c + k < data.length by omega)]
    simp only [Res.ok_bind]
    rw [hw k (by omega) (by omega), hd (c - k) (by omega) (by omega), hd (c + k) (by omega) (by omega)]
    have e : winSum (fun j => w (absDiff j c) * x j) (c + 1 - k) (2 * k - 1) + w k * (x (c - k) + x (c + k)) =
        winSum (fun j => w (absDiff j c) * x j) (c + 1 - (k + 1)) (2 * (k + 1) - 1) := by
      have e1 : 2 * (k + 1) - 1 = (2 * k - 1 + 1) + 1 := by omega
      have e2 : c + 1 - (k + 1) = c - k := by omega
      have e3 : c - k + 1 = c + 1 - k := by omega
      have e4 : c - k + (2 * k - 1 + 1) = c + k := by omega
      rw [e1, e2, winSum_last, winSum_first, e3, e4]
      have e5 : absDiff (c - k) c = k := by unfold absDiff; omega
      have e6 : absDiff (c + k) c = k := by unfold absDiff; omega
      simp only [e5, e6]
      grind
    rw [e]
    exact ih (k + 1) (by omega) (by omega) (by omega)

theorem convOuter_ok {data0 kernel : List Rat} {x w : Nat → Rat} {nk n : Nat}
    (hw : ∀ k (h : k < kernel.length), k < nk → kernel[k] = w k) (hkl : nk ≤ kernel.length) (hnk : 0 < nk)
    (hlen : n + 2 * nk - 2 ≤ data0.length) :
    ∀ (m i : Nat) (data : List Rat), m = n - i → data.length = data0.length →
      (∀ j (h : j < data.length), data[j] =
        if j < i then winSum (fun t => w (absDiff t (j + nk - 1)) * x t) j (2 * nk - 1) else x j) → i ≤ n →
      ∃ out, convOuter kernel nk n i data = .ok out ∧ out.length = data0.length ∧
        ∀ j (h : j < out.length), out[j] =
          if j < n then winSum (fun t => w (absDiff t (j + nk - 1)) * x t) j (2 * nk - 1) else x j := by
  intro m
  induction m with
  | zero =>
    intro i data hm hl hinv hi
    have : i = n := by omega
    subst this
    rw [convOuter, if_neg (by omega)]
    exact ⟨data, rfl, hl, hinv⟩
  | succ m ih =>
    intro i data hm hl hinv hi
    rw [convOuter, if_pos (by omega), readAt_ok (show 0 < kernel.length by omega),
      readAt_ok (show i + nk - 1 < data.length by omega)]
    simp only [Res.ok_bind]
    have hbase : kernel[0] * data[i + nk - 1] =
        winSum (fun j => w (absDiff j (i + nk - 1)) * x j) (i + nk - 1 + 1 - 1) (2 * 1 - 1) := by
      rw [hw 0 (by omega) hnk, hinv (i + nk - 1) (by omega), if_neg (by omega)]
      have : i + nk - 1 + 1 - 1 = i + nk - 1 := by omega
      rw [this, winSum_last, winSum_zero]
      simp only [Nat.add_zero]
      have e : absDiff (i + nk - 1) (i + nk - 1) = 0 := by unfold absDiff; omega
      rw [e]
      grind
    rw [hbase, convInner_ok (x := x) (w := w) hw hkl (by
      intro j h hj
      rw [hinv j h, if_neg (by omega)]) (by omega) (by omega) _ 1 rfl (by omega) (by omega)]
    simp only [Res.ok_bind]
    rw [writeAt_ok _ (show i < data.length by omega)]
    simp only [Res.ok_bind]
    refine ih (i + 1) _ (by omega) (by simpa using hl) ?_ (by omega)
    intro j h
    rw [List.length_set] at h
    rw [List.getElem_set]
    by_cases hij : i = j
    · subst hij
      rw [if_pos rfl, if_pos (by omega)]
      have : i + nk - 1 + 1 - nk = i := by omega
      rw [this]
    · rw [if_neg hij, hinv j h]
      by_cases hj : j < i
      · rw [if_pos hj, if_pos (by omega)]
      · rw [if_neg hj, if_neg (by omega)]

/-- C38, symmetric convolution. In place, every result is the sum over the window of `2*nk-1`
ORIGINAL samples, weighted by the kernel value of the distance to the window's centre; samples
behind the first `n` are left alone; all accesses are inside the buffers. -/
theorem c38_convolve_sym (n nk : Nat) (data kernel : List Rat) (x w : Nat → Rat) (hn : 1 < n) (hnk : 1 < nk)
    (hd : ∀ j (h : j < data.length), data[j] = x j) (hlen : n + 2 * nk - 2 ≤ data.length)
    (hw : ∀ k (h : k < kernel.length), k < nk → kernel[k] = w k) (hkl : nk ≤ kernel.length) :
    ∃ out, convolveSym n data nk kernel = .ok out ∧ out.length = data.length ∧
      ∀ j (h : j < out.length), out[j] =
        if j < n then winSum (fun t => w (absDiff t (j + nk - 1)) * x t) j (2 * nk - 1) else x j := by
  unfold convolveSym
  rw [if_pos hn, if_pos hnk]
  exact convOuter_ok hw hkl (by omega) hlen _ 0 data rfl rfl (fun j h => by rw [if_neg (by omega)]; exact hd j h) (by omega)

example : convolveSym 2 [1, 2, 4, 8] 2 [3, 1] = .ok [11, 22, 4, 8] := by decide +kernel

/-! ## Sliding box -/

theorem boxFirst_ok {data0 : List Rat} {x : Nat → Rat} {nr : Nat} (hlen : 2 * nr + 1 ≤ data0.length) :
    ∀ (m j : Nat) (data : List Rat), m = 2 * nr + 1 - j → 1 ≤ j → j ≤ 2 * nr + 1 → data.length = data0.length →
      (∀ k (h : k < data.length), data[k] = if k = 0 then winSum x 0 j else x k) →
      ∃ out, boxFirst nr j data = .ok out ∧ out.length = data0.length ∧
        ∀ k (h : k < out.length), out[k] = if k = 0 then winSum x 0 (2 * nr + 1) else x k := by
  intro m
  induction m with
  | zero =>
    intro j data hm h1 hj hl hinv
    have : j = 2 * nr + 1 := by omega
    subst this
    rw [boxFirst, if_neg (by omega)]
    exact ⟨data, rfl, hl, hinv⟩
  | succ m ih =>
    intro j data hm h1 hj hl hinv
    rw [boxFirst, if_pos (by omega), readAt_ok (show 0 < data.length by omega), readAt_ok (show j < data.length by omega)]
    simp only [Res.ok_bind]
    rw [writeAt_ok _ (show 0 < data.length by omega)]
    simp only [Res.ok_bind]
    refine ih (j + 1) _ (by omega) (by omega) (by omega) (by simpa using hl) ?_
    intro k h
    rw [List.length_set] at h
    rw [List.getElem_set]
    by_cases hk : 0 = k
    · subst hk
      rw [if_pos rfl, if_pos rfl, hinv 0 h, hinv j (by omega), if_pos rfl, if_neg (by omega), winSum_last, Nat.zero_add]
    · rw [if_neg hk, if_neg (by omega), hinv k h, if_neg (by omega)]

theorem boxSlide_ok {data0 : List Rat} {x : Nat → Rat} {nr n : Nat} (hlen : n + 2 * nr ≤ data0.length) :
    ∀ (m i : Nat) (data : List Rat) (prev : Rat), m = n - i → 1 ≤ i → i ≤ n → data.length = data0.length →
      prev = x (i - 1) →
      (∀ k (h : k < data.length), data[k] = if k < i then winSum x k (2 * nr + 1) else x k) →
      ∃ out, boxSlide nr n i prev data = .ok out ∧ out.length = data0.length ∧
        ∀ k (h : k < out.length), out[k] = if k < n then winSum x k (2 * nr + 1) else x k := by
  intro m
  induction m with
  | zero =>
    intro i data prev hm h1 hi hl hp hinv
    have : i = n := by omega
    subst this
    rw [boxSlide, if_neg (by omega)]
    exact ⟨data, rfl, hl, hinv⟩
  | succ m ih =>
    intro i data prev hm h1 hi hl hp hinv
    rw [boxSlide, if_pos (by omega), readAt_ok (show i < data.length by omega), readAt_ok (show i - 1 < data.length by omega),
      readAt_ok (show i + 2 * nr < data.length by omega)]
    simp only [Res.ok_bind]
    rw [writeAt_ok _ (show i < data.length by omega)]
    simp only [Res.ok_bind]
    refine ih (i + 1) _ _ (by omega) (by omega) (by omega) (by simpa using hl) ?_ ?_
    · rw [hinv i (by omega), if_neg (by omega)]; simp
    · intro k h
      rw [List.length_set] at h
      rw [List.getElem_set]
      by_cases hk : i = k
      · subst hk
        rw [if_pos rfl, if_pos (by omega), hinv (i - 1) (by omega), hinv (i + 2 * nr) (by omega), if_pos (by omega),
          if_neg (by omega), hp]
        have e1 : winSum x (i - 1) (2 * nr + 1) = x (i - 1) + winSum x i (2 * nr) := by
          rw [winSum_first]
          have : i - 1 + 1 = i := by omega
          rw [this]
        rw [e1, winSum_last]
        grind
      · rw [if_neg hk, hinv k h]
        by_cases hk2 : k < i
        · rw [if_pos hk2, if_pos (by omega)]
        · rw [if_neg hk2, if_neg (by omega)]

theorem boxDivide_ok {data0 : List Rat} {nr n : Nat} (hlen : n ≤ data0.length) :
    ∀ (m i : Nat) (data : List Rat), m = n - i → i ≤ n → data.length = data0.length →
      (∀ k (h : k < data.length) (h' : k < data0.length), data[k] = if k < i then data0[k] / ((2 * nr + 1 : Nat) : Rat) else data0[k]) →
      ∃ out, boxDivide nr n i data = .ok out ∧ out.length = data0.length ∧
        ∀ k (h : k < out.length) (h' : k < data0.length), out[k] = if k < n then data0[k] / ((2 * nr + 1 : Nat) : Rat) else data0[k] := by
  intro m
  induction m with
  | zero =>
    intro i data hm hi hl hinv
    have : i = n := by omega
    subst this
    rw [boxDivide, if_neg (by omega)]
    exact ⟨data, rfl, hl, hinv⟩
  | succ m ih =>
    intro i data hm hi hl hinv
    rw [boxDivide, if_pos (by omega), readAt_ok (show i < data.length by omega)]
    simp only [Res.ok_bind]
    rw [writeAt_ok _ (show i < data.length by omega)]
    simp only [Res.ok_bind]
    refine ih (i + 1) _ (by omega) (by omega) (by simpa using hl) ?_
    intro k h h'
    rw [List.length_set] at h
    rw [List.getElem_set]
    by_cases hk : i = k
    · subst hk
      rw [if_pos rfl, if_pos (by omega), hinv i h h', if_neg (by omega)]
    · rw [if_neg hk, hinv k h h']
      by_cases hk2 : k < i
      · rw [if_pos hk2, if_pos (by omega)]
      · rw [if_neg hk2, if_neg (by omega)]

/-- C38, box filter. In place, every result is the mean of the `2*nr+1` ORIGINAL samples of its
window. -/
theorem c38_convolve_box (n nr : Nat) (data : List Rat) (x : Nat → Rat) (hn : 1 < n) (hnr : 1 ≤ nr)
    (hd : ∀ j (h : j < data.length), data[j] = x j) (hlen : n + 2 * nr ≤ data.length) :
    ∃ out, convolveBox n data nr = .ok out ∧ out.length = data.length ∧
      ∀ j (h : j < out.length), out[j] =
        if j < n then winSum x j (2 * nr + 1) / ((2 * nr + 1 : Nat) : Rat) else x j := by
  unfold convolveBox
  rw [if_pos hn, if_pos hnr, readAt_ok (show 0 < data.length by omega)]
  simp only [Res.ok_bind]
  obtain ⟨d1, a1, a2, a3⟩ := boxFirst_ok (x := x) (nr := nr) (data0 := data) (by omega) _ 1 data rfl (by omega) (by omega) rfl (by
    intro k h
    by_cases hk : k = 0
    · subst hk; rw [if_pos rfl, hd 0 h, winSum_last, winSum_zero]; simp only [Nat.add_zero]; grind
    · rw [if_neg hk]; exact hd k h)
  rw [a1]
  simp only [Res.ok_bind]
  obtain ⟨d2, b1, b2, b3⟩ := boxSlide_ok (x := x) (nr := nr) (n := n) (data0 := d1) (by omega) _ 1 d1 data[0] rfl (by omega) (by omega) rfl
    (hd 0 (by omega)) (by
      intro k h
      rw [a3 k h]
      by_cases hk : k = 0
      · subst hk; rw [if_pos rfl, if_pos (by omega)]
      · rw [if_neg hk, if_neg (by omega)])
  rw [b1]
  simp only [Res.ok_bind]
  obtain ⟨d3, c1, c2, c3⟩ := boxDivide_ok (nr := nr) (n := n) (data0 := d2) (by omega) _ 0 d2 rfl (by omega) rfl (by
    intro k h h'; rw [if_neg (by omega)])
  refine ⟨d3, c1, by omega, ?_⟩
  intro j h
  rw [c3 j h (by omega), b3 j (by omega)]
  by_cases hj : j < n
  · rw [if_pos hj, if_pos hj, if_pos hj]
  · rw [if_neg hj, if_neg hj, if_neg hj]

example : convolveBox 2 [1, 2, 6, 10] 1 = .ok [3, 6, 6, 10] := by decide +kernel

/-! ## Borders -/

section
variable {α : Type}

theorem fillLoop_ok {dst : Nat → Nat} {v : α} {m off : Nat} (hdst : ∀ i, dst i = off + i) (b0 : List α)
    (hlen : off + m ≤ b0.length) :
    ∀ (r i : Nat) (buf : List α), r = m - i → i ≤ m → buf.length = b0.length →
      (∀ k : Nat, buf[k]? = if off ≤ k ∧ k < off + i then some v else b0[k]?) →
      ∃ out, fillLoop dst v m i buf = .ok out ∧ out.length = b0.length ∧
        ∀ k : Nat, out[k]? = if off ≤ k ∧ k < off + m then some v else b0[k]? := by
  intro r
  induction r with
  | zero =>
    intro i buf hr hi hl hinv
    have : i = m := by omega
    subst this
    rw [fillLoop, if_neg (by omega)]
    exact ⟨buf, rfl, hl, hinv⟩
  | succ r ih =>
    intro i buf hr hi hl hinv
    rw [fillLoop, if_pos (by omega), hdst, writeAt_ok _ (show off + i < buf.length by omega)]
    simp only [Res.ok_bind]
    refine ih (i + 1) _ (by omega) (by omega) (by simpa using hl) ?_
    intro k
    rw [List.getElem?_set]
    by_cases hk : off + i = k
    · rw [if_pos hk, if_pos (by omega), if_pos (by omega)]
    · rw [if_neg hk, hinv k]
      by_cases hk2 : off ≤ k ∧ k < off + i
      · rw [if_pos hk2, if_pos (by omega)]
      · rw [if_neg hk2, if_neg (by omega)]

theorem moveLoop_ok {dst : Nat → Nat} {src : Nat → Int} {m off : Nat} (hdst : ∀ i, dst i = off + i) (b0 : List α)
    (hlen : off + m ≤ b0.length)
    (hsrc : ∀ i < m, 0 ≤ src i ∧ src i < b0.length ∧ ¬ (off ≤ (src i).toNat ∧ (src i).toNat < off + m)) :
    ∀ (r i : Nat) (buf : List α), r = m - i → i ≤ m → buf.length = b0.length →
      (∀ k : Nat, buf[k]? = if off ≤ k ∧ k < off + i then b0[(src (k - off)).toNat]? else b0[k]?) →
      ∃ out, moveLoop dst src m i buf = .ok out ∧ out.length = b0.length ∧
        ∀ k : Nat, out[k]? = if off ≤ k ∧ k < off + m then b0[(src (k - off)).toNat]? else b0[k]? := by
  intro r
  induction r with
  | zero =>
    intro i buf hr hi hl hinv
    have : i = m := by omega
    subst this
    rw [moveLoop, if_neg (by omega)]
    exact ⟨buf, rfl, hl, hinv⟩
  | succ r ih =>
    intro i buf hr hi hl hinv
    obtain ⟨s1, s2, s3⟩ := hsrc i (by omega)
    have hsl : (src i).toNat < buf.length := by omega
    rw [moveLoop, if_pos (by omega), if_pos s1, hdst, readAt_ok hsl]
    simp only [Res.ok_bind]
    rw [writeAt_ok _ (show off + i < buf.length by omega)]
    simp only [Res.ok_bind]
    refine ih (i + 1) _ (by omega) (by omega) (by simpa using hl) ?_
    intro k
    rw [List.getElem?_set]
    by_cases hk : off + i = k
    · rw [if_pos hk, if_pos (by omega), if_pos (by omega)]
      have e : k - off = i := by omega
      rw [e]
      have h1 := hinv (src i).toNat
      rw [if_neg (by omega), List.getElem?_eq_getElem hsl] at h1
      exact h1
    · rw [if_neg hk, hinv k]
      by_cases hk2 : off ≤ k ∧ k < off + i
      · rw [if_pos hk2, if_pos (by omega)]
      · rw [if_neg hk2, if_neg (by omega)]

/-- The signal `x` of `n` samples continued to all positions. -/
def extend (z : α) (n : Nat) (x : Nat → α) : BorderMode → Int → α
  | .zero, p => if 0 ≤ p ∧ p < n then x p.toNat else z
  | .repeat, p => if p < 0 then x 0 else if p < n then x p.toNat else x (n - 1)
  | .mirror, p => if p < 0 then x (-p).toNat else if p < n then x p.toNat else x (2 * (n - 1) - p).toNat

theorem fillBorder_ok (z : α) (n nb : Nat) (x : Nat → α) (buffer : List α) (mode : BorderMode) (hn : 1 < n)
    (hlen : n + 2 * nb ≤ buffer.length) (hm : mode = .mirror → nb < n)
    (hx : ∀ i < n, buffer[nb + i]? = some (x i)) :
    ∃ out, fillBorder z n buffer nb mode = .ok out ∧ out.length = buffer.length ∧
      ∀ k : Nat, k < n + 2 * nb → out[k]? = some (extend z n x mode ((k : Int) - nb)) := by
  have hmid : ∀ k : Nat, nb ≤ k → k < nb + n → buffer[k]? = some (x (k - nb)) := by
    intro k h1 h2
    have := hx (k - nb) (by omega)
    have e : nb + (k - nb) = k := by omega
    rwa [e] at this
  cases mode with
  | zero =>
    obtain ⟨o1, a1, a2, a3⟩ := fillLoop_ok (dst := fun i => i) (v := z) (m := nb) (off := 0) (by simp) buffer (by omega) _ 0 buffer rfl
      (by omega) rfl (by intro k; rw [if_neg (by omega)])
    obtain ⟨o2, b1, b2, b3⟩ := fillLoop_ok (dst := fun i => n + nb + i) (v := z) (m := nb) (off := n + nb) (by simp) o1 (by omega) _ 0 o1 rfl
      (by omega) rfl (by intro k; rw [if_neg (by omega)])
    refine ⟨o2, ?_, by omega, ?_⟩
    · unfold fillBorder
      rw [a1]
      exact b1
    · intro k hk
      simp only [extend]
      rw [b3 k, a3 k]
      by_cases h1 : k < nb
      · rw [if_neg (by omega), if_pos (by omega), if_neg (by omega)]
      · by_cases h2 : k < nb + n
        · rw [if_neg (by omega), if_neg (by omega), if_pos (by omega), hmid k (by omega) h2]
          congr 2
          omega
        · rw [if_pos (by omega), if_neg (by omega)]
  | «repeat» =>
    have r1 := hx 0 (by omega)
    rw [Nat.add_zero] at r1
    have l1 : nb < buffer.length := by omega
    have r1' : buffer[nb] = x 0 := by
      rw [List.getElem?_eq_getElem l1] at r1; exact Option.some.inj r1
    obtain ⟨o1, a1, a2, a3⟩ := fillLoop_ok (dst := fun i => i) (v := x 0) (m := nb) (off := 0) (by simp) buffer (by omega) _ 0 buffer rfl
      (by omega) rfl (by intro k; rw [if_neg (by omega)])
    have l2 : nb + n - 1 < o1.length := by omega
    have r2 : o1[nb + n - 1] = x (n - 1) := by
      have h := a3 (nb + n - 1)
      rw [if_neg (by omega), hmid _ (by omega) (by omega), List.getElem?_eq_getElem l2] at h
      have e : nb + n - 1 - nb = n - 1 := by omega
      rw [e] at h
      exact Option.some.inj h
    obtain ⟨o2, b1, b2, b3⟩ := fillLoop_ok (dst := fun i => nb + n + i) (v := x (n - 1)) (m := nb) (off := nb + n) (by simp) o1 (by omega) _ 0 o1 rfl
      (by omega) rfl (by intro k; rw [if_neg (by omega)])
    refine ⟨o2, ?_, by omega, ?_⟩
    · unfold fillBorder
      rw [readAt_ok l1, r1']
      simp only [Res.ok_bind]
      rw [a1]
      simp only [Res.ok_bind]
      rw [readAt_ok l2, r2]
      exact b1
    · intro k hk
      simp only [extend]
      rw [b3 k, a3 k]
      by_cases h1 : k < nb
      · rw [if_neg (by omega), if_pos (by omega), if_pos (by omega)]
      · by_cases h2 : k < nb + n
        · rw [if_neg (by omega), if_neg (by omega), if_neg (by omega), if_pos (by omega), hmid k (by omega) h2]
          congr 2
          omega
        · rw [if_pos (by omega), if_neg (by omega), if_neg (by omega)]
  | mirror =>
    have hnb := hm rfl
    obtain ⟨o1, a1, a2, a3⟩ := moveLoop_ok (dst := fun i => i) (src := fun i => 2 * nb - i) (m := nb) (off := 0) (by simp) buffer (by omega)
      (by intro i hi; refine ⟨by omega, by omega, by omega⟩) _ 0 buffer rfl
      (by omega) rfl (by intro k; rw [if_neg (by omega)])
    obtain ⟨o2, b1, b2, b3⟩ := moveLoop_ok (dst := fun i => nb + n + i) (src := fun i => nb + n - i - 2) (m := nb) (off := nb + n) (by simp) o1 (by omega)
      (by intro i hi; refine ⟨by omega, by omega, by omega⟩) _ 0 o1 rfl
      (by omega) rfl (by intro k; rw [if_neg (by omega)])
    refine ⟨o2, ?_, by omega, ?_⟩
    · unfold fillBorder
      rw [a1]
      exact b1
    · intro k hk
      simp only [extend]
      rw [b3 k]
      by_cases h1 : k < nb
      · rw [if_neg (by omega), a3 k, if_pos (by omega), if_pos (by omega), hmid _ (by omega) (by omega)]
        congr 2
        omega
      · by_cases h2 : k < nb + n
        · rw [if_neg (by omega), a3 k, if_neg (by omega), if_neg (by omega), if_pos (by omega), hmid k (by omega) h2]
          congr 2
          omega
        · rw [if_pos (by omega), a3, if_neg (by omega), if_neg (by omega), if_neg (by omega), hmid _ (by omega) (by omega)]
          congr 2
          omega

theorem copyLoop_ok {β : Type} (conv : β → α) (data : List β) (stride nb n : Nat) (b0 : List α)
    (hlen : nb + n ≤ b0.length) (hdata : ∀ i < n, i * stride < data.length) :
    ∀ (r i : Nat) (buf : List α), r = n - i → i ≤ n → buf.length = b0.length →
      (∀ k < i, buf[nb + k]? = (data[k * stride]?).map conv) →
      ∃ out, copyLoop conv data stride nb n i buf = .ok out ∧ out.length = b0.length ∧
        ∀ k < n, out[nb + k]? = (data[k * stride]?).map conv := by
  intro r
  induction r with
  | zero =>
    intro i buf hr hi hl hinv
    have : i = n := by omega
    subst this
    rw [copyLoop, if_neg (by omega)]
    exact ⟨buf, rfl, hl, hinv⟩
  | succ r ih =>
    intro i buf hr hi hl hinv
    rw [copyLoop, if_pos (by omega), readAt_ok (hdata i (by omega))]
    simp only [Res.ok_bind]
    rw [writeAt_ok _ (show nb + i < buf.length by omega)]
    simp only [Res.ok_bind]
    refine ih (i + 1) _ (by omega) (by omega) (by simpa using hl) ?_
    intro k hk
    rw [List.getElem?_set]
    by_cases hki : nb + i = nb + k
    · have : k = i := by omega
      subst this
      rw [if_pos rfl, if_pos (by omega), List.getElem?_eq_getElem (hdata k (by omega))]
      rfl
    · rw [if_neg hki]
      exact hinv k (by omega)

/-- C38, buffers. Copying `n` (strided, converted) samples and filling the borders gives the
signal continued by zeros, by its end values, or mirrored at its ends, without any access
outside the buffers. Mirroring needs fewer border than data elements. -/
theorem c38_border {β : Type} (conv : β → α) (z : α) (n nb stride : Nat) (data : List β) (s : Nat → β) (buffer : List α)
    (mode : BorderMode) (hn : 1 < n) (hlen : n + 2 * nb ≤ buffer.length) (hm : mode = .mirror → nb < n)
    (hs : ∀ i < n, data[i * stride]? = some (s i)) :
    ∃ out, copyToBuffer conv z n buffer data stride nb mode = .ok out ∧ out.length = buffer.length ∧
      ∀ k : Nat, k < n + 2 * nb → out[k]? = some (extend z n (fun i => conv (s i)) mode ((k : Int) - nb)) := by
  unfold copyToBuffer
  rw [if_pos hn]
  obtain ⟨o1, a1, a2, a3⟩ := copyLoop_ok conv data stride nb n buffer (by omega) (by
    intro i hi
    apply Classical.byContradiction
    intro h
    have := hs i hi
    rw [List.getElem?_eq_none (by omega)] at this
    cases this) _ 0 buffer rfl (by omega) rfl (by intro k hk; omega)
  rw [a1]
  simp only [Res.ok_bind]
  obtain ⟨o2, b1, b2, b3⟩ := fillBorder_ok z n nb (fun i => conv (s i)) o1 mode hn (by omega) hm (by
    intro i hi
    rw [a3 i hi, hs i hi]; rfl)
  exact ⟨o2, b1, by omega, b3⟩

example : copyToBuffer id 0 3 [9, 9, 9, 9, 9, 9, 9] [1, 0, 2, 0, 3] 2 2 .mirror = .ok [3, 2, 1, 2, 3, 2, 1] := by
  decide +kernel

/-- With as many border as data elements mirroring copies unset elements of the buffer. -/
theorem c38_mirror_too_wide :
    copyToBuffer id 0 2 [9, 9, 9, 9, 9, 9] [1, 2] 1 2 .mirror = .ok [9, 2, 1, 2, 1, 2] := by decide +kernel

end

/-! ## Kernels -/

theorem kernelFill_ok {g : Nat → Rat} {nk : Nat} {k0 : List Rat} (hlen : nk ≤ k0.length) :
    ∀ (m i : Nat) (kernel : List Rat) (sum : Rat), m = nk - i → 1 ≤ i → i ≤ nk → kernel.length = k0.length →
      (∀ j (h : j < kernel.length), j < i → kernel[j] = g j) → sum = g 0 + 2 * winSum g 1 (i - 1) →
      ∃ out, kernelFill g nk i kernel sum = .ok (out, g 0 + 2 * winSum g 1 (nk - 1)) ∧ out.length = k0.length ∧
        ∀ j (h : j < out.length), j < nk → out[j] = g j := by
  intro m
  induction m with
  | zero =>
    intro i kernel sum hm h1 hi hl hinv hsum
    have : i = nk := by omega
    subst this
    rw [kernelFill, if_neg (by omega), hsum]
    exact ⟨kernel, rfl, hl, hinv⟩
  | succ m ih =>
    intro i kernel sum hm h1 hi hl hinv hsum
    rw [kernelFill, if_pos (by omega), writeAt_ok _ (show i < kernel.length by omega)]
    simp only [Res.ok_bind]
    rw [readAt_ok (by simpa using (show i < kernel.length by omega))]
    simp only [Res.ok_bind, List.getElem_set_self]
    refine ih (i + 1) _ _ (by omega) (by omega) (by omega) (by simpa using hl) ?_ ?_
    · intro j h hj
      rw [List.length_set] at h
      rw [List.getElem_set]
      by_cases hij : i = j
      · subst hij; rw [if_pos rfl]
      · rw [if_neg hij]; exact hinv j h (by omega)
    · have e : i + 1 - 1 = (i - 1) + 1 := by omega
      have e2 : 1 + (i - 1) = i := by omega
      rw [hsum, e, winSum_last, e2]
      grind

theorem kernelScale_ok {nk : Nat} {k0 : List Rat} {sum : Rat} (hlen : nk ≤ k0.length) :
    ∀ (m i : Nat) (kernel : List Rat), m = nk - i → i ≤ nk → kernel.length = k0.length →
      (∀ j (h : j < kernel.length) (h' : j < k0.length), kernel[j] = if j < i then k0[j] / sum else k0[j]) →
      ∃ out, kernelScale nk i kernel sum = .ok out ∧ out.length = k0.length ∧
        ∀ j (h : j < out.length) (h' : j < k0.length), out[j] = if j < nk then k0[j] / sum else k0[j] := by
  intro m
  induction m with
  | zero =>
    intro i kernel hm hi hl hinv
    have : i = nk := by omega
    subst this
    rw [kernelScale, if_neg (by omega)]
    exact ⟨kernel, rfl, hl, hinv⟩
  | succ m ih =>
    intro i kernel hm hi hl hinv
    rw [kernelScale, if_pos (by omega), readAt_ok (show i < kernel.length by omega)]
    simp only [Res.ok_bind]
    rw [writeAt_ok _ (show i < kernel.length by omega)]
    simp only [Res.ok_bind]
    refine ih (i + 1) _ (by omega) (by omega) (by simpa using hl) ?_
    intro j h h'
    rw [List.length_set] at h
    rw [List.getElem_set]
    by_cases hij : i = j
    · subst hij
      rw [if_pos rfl, if_pos (by omega), hinv i h h', if_neg (by omega)]
    · rw [if_neg hij, hinv j h h']
      by_cases hj : j < i
      · rw [if_pos hj, if_pos (by omega)]
      · rw [if_neg hj, if_neg (by omega)]

theorem winSum_nonneg {f : Nat → Rat} {lo : Nat} : ∀ n, (∀ j, lo ≤ j → j < lo + n → 0 ≤ f j) → 0 ≤ winSum f lo n := by
  intro n
  induction n with
  | zero => intro _; exact Rat.le_refl
  | succ n ih =>
    intro h
    rw [winSum_last]
    have := ih (fun j h1 h2 => h j h1 (by omega))
    have := h (lo + n) (by omega) (by omega)
    grind

theorem winSum_div {f : Nat → Rat} {d : Rat} {lo : Nat} (n : Nat) :
    winSum (fun j => f j / d) lo n = winSum f lo n / d := by
  induction n with
  | zero => rw [winSum_zero, winSum_zero]; grind
  | succ n ih => rw [winSum_last, winSum_last, ih]; grind

/-- C54. The symmetric kernel made from any values that are not negative, the centre one
positive, keeps their ratios and sums to one over its whole (two-sided) length. -/
theorem c54_kernel (g : Nat → Rat) (nk : Nat) (kernel : List Rat) (hnk : 1 < nk) (hlen : nk ≤ kernel.length)
    (h0 : 0 < g 0) (hg : ∀ j, 0 ≤ g j) :
    ∃ out w, kernelSym g nk kernel = .ok out ∧ out.length = kernel.length ∧
      (∀ j (h : j < out.length), j < nk → out[j] = w j) ∧ w 0 + 2 * winSum w 1 (nk - 1) = 1 ∧
      (∀ i j, w i * g j = w j * g i) ∧ 0 < w 0 := by
  unfold kernelSym
  rw [if_pos hnk, writeAt_ok _ (show 0 < kernel.length by omega)]
  simp only [Res.ok_bind]
  rw [readAt_ok (by simpa using (show 0 < kernel.length by omega))]
  simp only [Res.ok_bind, List.getElem_set_self]
  obtain ⟨k1, a1, a2, a3⟩ := kernelFill_ok (g := g) (nk := nk) (k0 := kernel) hlen _ 1 (kernel.set 0 (g 0)) (g 0) rfl (by omega) (by omega)
    (by simp) (by
      intro j h hj
      have : j = 0 := by omega
      subst this
      simp) (by rw [winSum_zero]; grind)
  rw [a1]
  simp only [Res.ok_bind]
  have hpos : 0 < g 0 + 2 * winSum g 1 (nk - 1) := by
    have := winSum_nonneg (f := g) (lo := 1) (nk - 1) (fun j _ _ => hg j)
    grind
  generalize hS : g 0 + 2 * winSum g 1 (nk - 1) = S at hpos
  obtain ⟨k2, b1, b2, b3⟩ := kernelScale_ok (nk := nk) (k0 := k1) (sum := S) (by omega) _ 0 k1 rfl (by omega) rfl
    (by intro j h h'; rw [if_neg (by omega)])
  have hne : S ≠ 0 := by grind
  refine ⟨k2, fun j => g j / S, b1, by omega, ?_, ?_, ?_, ?_⟩
  · intro j h hj
    rw [b3 j h (by omega), if_pos hj, a3 j (by omega) hj]
  · rw [winSum_div]
    grind
  · intro i j
    grind
  · show 0 < g 0 / S
    rw [Rat.div_def]
    exact Rat.mul_pos h0 (Rat.inv_pos.mpr hpos)

/-- C54. The kernel size is odd and at least 3, and at least the size asked for. -/
theorem c54_kernel_size (t : Int) (ht : 0 ≤ t) :
    kernelSize t % 2 = 1 ∧ 3 ≤ kernelSize t ∧ t ≤ kernelSize t ∧ (3 ≤ t → kernelSize t ≤ t + 1) := by
  unfold kernelSize
  have : t.tmod 2 = t % 2 := Int.tmod_eq_emod_of_nonneg ht
  rw [this]
  by_cases h : t % 2 = 0
  · simp only [if_pos h]
    split <;> omega
  · simp only [if_neg h]
    split <;> omega

theorem winSum_mul {f : Nat → Rat} {c : Rat} {lo : Nat} (n : Nat) :
    winSum (fun j => f j * c) lo n = winSum f lo n * c := by
  induction n with
  | zero => rw [winSum_zero, winSum_zero]; grind
  | succ n ih => rw [winSum_last, winSum_last, ih]; grind

theorem winSum_sym (w : Nat → Rat) (c : Nat) : ∀ k, k ≤ c →
    winSum (fun t => w (absDiff t c)) (c - k) (2 * k + 1) = w 0 + 2 * winSum w 1 k := by
  intro k
  induction k with
  | zero =>
    intro _
    rw [winSum_last, winSum_zero, winSum_zero]
    have : absDiff (c - 0 + 2 * 0) c = 0 := by unfold absDiff; omega
    rw [this]
    grind
  | succ k ih =>
    intro hk
    have e1 : 2 * (k + 1) + 1 = (2 * k + 1 + 1) + 1 := by omega
    have e2 : c - (k + 1) + 1 = c - k := by omega
    have e3 : c - (k + 1) + (2 * k + 1 + 1) = c + (k + 1) := by omega
    have e4 : absDiff (c - (k + 1)) c = k + 1 := by unfold absDiff; omega
    have e5 : absDiff (c + (k + 1)) c = k + 1 := by unfold absDiff; omega
    rw [e1, winSum_last, winSum_first, e2, e3, ih (by omega), winSum_last w 1 k]
    simp only [e4, e5]
    have e6 : 1 + k = k + 1 := by omega
    rw [e6]
    grind

/-- C54. Filtering a constant signal with such a kernel leaves it as it is. -/
theorem c54_constant_kept (n nk : Nat) (data kernel : List Rat) (w : Nat → Rat) (c : Rat) (hn : 1 < n) (hnk : 1 < nk)
    (hd : ∀ j (h : j < data.length), data[j] = c) (hlen : n + 2 * nk - 2 ≤ data.length)
    (hw : ∀ k (h : k < kernel.length), k < nk → kernel[k] = w k) (hkl : nk ≤ kernel.length)
    (hsum : w 0 + 2 * winSum w 1 (nk - 1) = 1) :
    ∃ out, convolveSym n data nk kernel = .ok out ∧ out.length = data.length ∧
      ∀ j (h : j < out.length), out[j] = c := by
  obtain ⟨out, o1, o2, o3⟩ := c38_convolve_sym n nk data kernel (fun _ => c) w hn hnk hd hlen hw hkl
  refine ⟨out, o1, o2, ?_⟩
  intro j h
  rw [o3 j h]
  split
  · rw [winSum_mul]
    have := winSum_sym w (j + nk - 1) (nk - 1) (by omega)
    have e1 : j + nk - 1 - (nk - 1) = j := by omega
    have e2 : 2 * (nk - 1) + 1 = 2 * nk - 1 := by omega
    rw [e1, e2, hsum] at this
    rw [this]
    grind
  · rfl

example : kernelSym (fun i => if i = 0 then 2 else 1) 2 [0, 0] = .ok [1 / 2, 1 / 4] := by decide +kernel

end Nx
