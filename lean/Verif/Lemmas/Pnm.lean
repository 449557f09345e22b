import Verif.Spec.Pnm
import Verif.Lemmas.Sample
import Verif.Lemmas.CNum

/-!
# Lemmas about image files
-/

namespace Nx

/-! ## Header -/

theorem takeWhile_stop {α : Type} {p : α → Bool} {l : List α} {x : α} {r : List α} (h : ∀ y ∈ l, p y = true)
    (hx : p x = false) : (l ++ x :: r).takeWhile p = l := by
  induction l with
  | nil => rw [List.nil_append, List.takeWhile_cons, if_neg (by simp [hx])]
  | cons a l ih =>
    rw [List.cons_append, List.takeWhile_cons, if_pos (h a (by simp)), ih (fun y hy => h y (by simp [hy]))]

theorem dropWhile_stop {α : Type} {p : α → Bool} {l : List α} {x : α} {r : List α} (h : ∀ y ∈ l, p y = true)
    (hx : p x = false) : (l ++ x :: r).dropWhile p = x :: r := by
  induction l with
  | nil => rw [List.nil_append, List.dropWhile_cons, if_neg (by simp [hx])]
  | cons a l ih =>
    rw [List.cons_append, List.dropWhile_cons, if_pos (h a (by simp)), ih (fun y hy => h y (by simp [hy]))]

/-- The first byte of a number. -/
theorem natText_cons (n : Nat) : ∃ d r, d < 10 ∧ natText n = UInt8.ofNat (48 + d) :: r := by
  obtain ⟨h1, h2⟩ := natText_digits n
  cases hn : natText n with
  | nil => exact absurd hn h1
  | cons b r =>
    obtain ⟨d, hd, e⟩ := h2 b (by rw [hn]; simp)
    exact ⟨d, r, hd, by rw [e]⟩

theorem digit_not_space {d : Nat} (h : d < 10) : isSpaceB (UInt8.ofNat (48 + d)) = false := by
  unfold isSpaceB
  rw [digitByte_toNat h]
  simp
  omega

theorem takeSign_digit {d : Nat} (h : d < 10) (r : Bytes) :
    takeSign (UInt8.ofNat (48 + d) :: r) = (false, UInt8.ofNat (48 + d) :: r) := by
  have h1 : UInt8.ofNat (48 + d) ≠ 45 := by
    intro e
    have := congrArg UInt8.toNat e
    rw [digitByte_toNat h] at this
    simp at this
    omega
  have h2 : UInt8.ofNat (48 + d) ≠ 43 := by
    intro e
    have := congrArg UInt8.toNat e
    rw [digitByte_toNat h] at this
    simp at this
    omega
  generalize UInt8.ofNat (48 + d) = b at h1 h2
  unfold takeSign
  split
  · rename_i e
    exact absurd (List.cons.inj e).1 h1
  · rename_i e
    exact absurd (List.cons.inj e).1 h2
  · rfl

/-- A printed number, after white space and before a byte that is no digit. -/
theorem scanInt_natText {n : Nat} (hn : n ≤ 2147483647) {ws : Bytes} (hws : ∀ b ∈ ws, isSpaceB b = true) {x : Byte}
    (hx : isDigitB 10 x = false) (r : Bytes) :
    scanInt (ws ++ (intText n ++ x :: r)) = .ok (some ((n : Int), x :: r)) := by
  obtain ⟨d, t, hd, e⟩ := natText_cons n
  have hi : intText (n : Int) = natText n := by
    unfold intText
    rw [if_neg (by omega), Int.natAbs_natCast]
  have hdw : (ws ++ (intText n ++ x :: r)).dropWhile isSpaceB = natText n ++ x :: r := by
    rw [hi, e, List.cons_append]
    exact dropWhile_stop hws (digit_not_space hd)
  have hs : takeSign (natText n ++ x :: r) = (false, natText n ++ x :: r) := by
    rw [e, List.cons_append]
    exact takeSign_digit hd _
  have hall : ∀ b ∈ natText n, isDigitB 10 b = true := fun b hb => isDigitB_of_mem_natText hb
  unfold scanInt
  rw [hdw, hs]
  simp only
  rw [takeWhile_stop hall hx, dropWhile_stop hall hx, if_neg (natText_digits n).1, digitsVal_natText]
  simp only [Bool.false_eq_true, if_false]
  rw [if_pos (by omega)]

theorem isDigitB_space : isDigitB 10 32 = false := by decide
theorem isDigitB_newline : isDigitB 10 10 = false := by decide

/-- The attributes of a header, where the numbers are separated by one space or newline. -/
theorem scan3_header {w h : Nat} (hw : w ≤ 2147483647) (hh : h ≤ 2147483647) {ws : Bytes}
    (hws : ∀ b ∈ ws, isSpaceB b = true) {x : Byte} (hx : x = 32 ∨ x = 10) (r : Bytes) :
    scan3 (ws ++ (intText w ++ 32 :: (intText h ++ x :: (intText 255 ++ 10 :: r)))) =
      .ok (some (((w : Int), (h : Int), 255), 10 :: r)) := by
  have hxd : isDigitB 10 x = false := by
    rcases hx with e | e <;> subst e <;> decide
  have hxs : isSpaceB x = true := by
    rcases hx with e | e <;> subst e <;> decide
  have skip : ∀ (c : Byte) (n : Nat) (t : Bytes), isSpaceB c = true →
      (c :: (intText n ++ t)).dropWhile isSpaceB = intText n ++ t := by
    intro c n t hc
    obtain ⟨d, u, hd, e⟩ := natText_cons n
    have hi : intText (n : Int) = natText n := by
      unfold intText
      rw [if_neg (by omega), Int.natAbs_natCast]
    rw [List.dropWhile_cons, if_pos hc, hi, e, List.cons_append, List.dropWhile_cons,
      if_neg (by rw [digit_not_space hd]; simp)]
  unfold scan3
  rw [scanInt_natText hw hws isDigitB_space]
  simp only [Res.ok_bind, scanFirst]
  rw [skip 32 h _ (by decide)]
  have h1 := scanInt_natText hh (ws := []) (by simp) hxd (intText 255 ++ 10 :: r)
  rw [List.nil_append] at h1
  rw [h1]
  simp only [Res.ok_bind, scanSecond]
  have h2 := scanInt_natText (n := 255) (by omega) (ws := []) (by simp) isDigitB_newline r
  rw [List.nil_append] at h2
  have h3 := skip x 255 (10 :: r) hxs
  have e255 : ((255 : Nat) : Int) = 255 := rfl
  rw [e255] at h2 h3
  rw [h3, h2]
  rfl

/-! ## Saving -/

theorem readBlock_spec {a : Bytes} {i n : Nat} (h : i + n ≤ a.length) :
    ∃ b, readBlock a i n = .ok b ∧ b.length = n ∧ ∀ c, c < n → b[c]? = a[i + c]? := by
  refine ⟨(a.drop i).take n, by unfold readBlock; rw [if_pos h], ?_, ?_⟩
  · rw [List.length_take, List.length_drop]
    omega
  · intro c hc
    rw [List.getElem?_take_of_lt hc, List.getElem?_drop]

/-- The state of the output: bytes of all units before unit `u` of row `y`. -/
def Saved (data : Bytes) (hdr : Bytes) (st k m U : Nat) (y u : Nat) (out : Bytes) : Prop :=
  ∃ p, out = hdr ++ p ∧ p.length = k * (y * U + u) ∧
    ∀ y' u' c, u' < U → c < k → (y' < y ∨ (y' = y ∧ u' < u)) → p[k * (y' * U + u') + c]? = data[y' * st + m * u' + c]?

theorem unit_lt {y' u' y u U : Nat} (hu' : u' < U) (h : y' < y ∨ (y' = y ∧ u' < u)) :
    y' * U + u' + 1 ≤ y * U + u := by
  rcases h with h | ⟨h, h'⟩
  · have h1 : (y' + 1) * U ≤ y * U := Nat.mul_le_mul_right _ h
    have h2 := Nat.succ_mul y' U
    simp only [Nat.succ_eq_add_one] at h2
    omega
  · subst h
    omega

theorem saveUnit_spec {img : UImg} {hdr : Bytes} {k m U y u : Nat} {out : Bytes}
    (hS : Saved img.data hdr img.stride k m U y u out) (hu : u < U)
    (hb : y * img.stride + m * u + k ≤ img.data.length) :
    ∃ out', saveUnit img (y * img.stride + m * u) k out = .ok out' ∧
      Saved img.data hdr img.stride k m U y (u + 1) out' := by
  obtain ⟨b, eb, hbl, hbc⟩ := readBlock_spec hb
  obtain ⟨p, rfl, hpl, hpc⟩ := hS
  refine ⟨hdr ++ p ++ b, by unfold saveUnit; rw [eb]; rfl, p ++ b, by rw [List.append_assoc], ?_, ?_⟩
  · rw [List.length_append, hpl, hbl, ← Nat.add_assoc, Nat.mul_succ]
  · intro y' u' c hu' hc h
    by_cases he : y' = y ∧ u' = u
    · obtain ⟨rfl, rfl⟩ := he
      rw [List.getElem?_append_right (by rw [hpl]; exact Nat.le_add_right _ _), hpl, Nat.add_sub_cancel_left, hbc c hc]
    · have hlt := unit_lt (y' := y') hu' (y := y) (u := u) (by omega)
      have h1 : k * (y' * U + u' + 1) ≤ k * (y * U + u) := Nat.mul_le_mul_left _ hlt
      rw [Nat.mul_succ] at h1
      rw [List.getElem?_append_left (by omega)]
      exact hpc y' u' c hu' hc (by omega)

theorem Saved.next {data hdr out : Bytes} {st k m U y : Nat} (h : Saved data hdr st k m U y U out) :
    Saved data hdr st k m U (y + 1) 0 out := by
  obtain ⟨p, e, hpl, hpc⟩ := h
  refine ⟨p, e, by rw [hpl, Nat.succ_mul, Nat.add_zero], ?_⟩
  intro y' u' c hu' hc h'
  exact hpc y' u' c hu' hc (by omega)

theorem Saved.init (data hdr : Bytes) (st k m U : Nat) : Saved data hdr st k m U 0 0 hdr := by
  refine ⟨[], by simp, by simp, ?_⟩
  intro y' u' c _ _ h
  omega

/-- The header of a file. -/
def pnmHeader (rgba : Bool) (w h : Nat) : Bytes :=
  if rgba then [80, 54, 10] ++ intText w ++ [32] ++ intText h ++ [10] ++ intText 255 ++ [10]
  else [80, 53, 10] ++ intText w ++ [32] ++ intText h ++ [32] ++ intText 255 ++ [10]

theorem savePnm_gray {img : UImg} (hw : img.Wf) (ht : img.rgba = false) :
    ∃ p, savePnm img = .ok (pnmHeader false img.width img.height ++ p) ∧ p.length = img.width * img.height ∧
      ∀ y x, x < img.width → y < img.height → p[y * img.width + x]? = img.gray x y := by
  obtain ⟨hs, hl⟩ := hw
  rw [ht] at hs
  simp only [Bool.false_eq_true, if_false] at hs
  obtain ⟨out, e, p, rfl, hpl, hpc⟩ := forLoop_spec (n := img.height) (i0 := 0)
    (s := pnmHeader false img.width img.height)
    (body := fun y out => saveUnit img (y * img.stride) img.width out)
    (fun y out => Saved img.data (pnmHeader false img.width img.height) img.stride img.width img.width 1 y 0 out)
    (Nat.zero_le _) (Saved.init _ _ _ _ _ _) (by
      intro y out _ hy hS
      have hb : y * img.stride + img.width * 0 + img.width ≤ img.data.length := by
        have h1 : (y + 1) * img.stride ≤ img.height * img.stride := Nat.mul_le_mul_right _ hy
        have h2 := Nat.succ_mul y img.stride
        simp only [Nat.succ_eq_add_one] at h2
        rw [hl, Nat.mul_comm img.stride]
        omega
      obtain ⟨out', e', h'⟩ := saveUnit_spec hS (by omega) hb
      exact ⟨out', e', h'.next⟩)
  refine ⟨p, ?_, ?_, ?_⟩
  · unfold savePnm
    rw [ht]
    exact e
  · rw [hpl]
    simp
  · intro y x hx hy
    have := hpc y 0 x (by omega) hx (by omega)
    simp only [Nat.mul_one, Nat.add_zero, Nat.mul_zero] at this
    rw [Nat.mul_comm] at this
    exact this

theorem savePnm_color {img : UImg} (hw : img.Wf) (ht : img.rgba = true) :
    ∃ p, savePnm img = .ok (pnmHeader true img.width img.height ++ p) ∧ p.length = 3 * (img.width * img.height) ∧
      ∀ y x c, x < img.width → y < img.height → c < 3 → p[3 * (y * img.width + x) + c]? = img.chan x y c := by
  obtain ⟨hs, hl⟩ := hw
  rw [ht] at hs
  simp only [if_true] at hs
  obtain ⟨out, e, p, rfl, hpl, hpc⟩ := forLoop_spec (n := img.height) (i0 := 0)
    (s := pnmHeader true img.width img.height)
    (body := fun y out => forLoop img.width (fun x out => saveUnit img (y * img.stride + 4 * x) 3 out) 0 out)
    (fun y out => Saved img.data (pnmHeader true img.width img.height) img.stride 3 4 img.width y 0 out)
    (Nat.zero_le _) (Saved.init _ _ _ _ _ _) (by
      intro y out _ hy hS
      obtain ⟨out', e', h'⟩ := forLoop_spec (n := img.width) (i0 := 0) (s := out)
        (body := fun x out => saveUnit img (y * img.stride + 4 * x) 3 out)
        (fun x out => Saved img.data (pnmHeader true img.width img.height) img.stride 3 4 img.width y x out)
        (Nat.zero_le _) hS (by
          intro x out _ hx hS
          have hb : y * img.stride + 4 * x + 3 ≤ img.data.length := by
            have h1 : (y + 1) * img.stride ≤ img.height * img.stride := Nat.mul_le_mul_right _ hy
            have h2 := Nat.succ_mul y img.stride
            simp only [Nat.succ_eq_add_one] at h2
            rw [hl, Nat.mul_comm img.stride]
            omega
          exact saveUnit_spec hS hx hb)
      exact ⟨out', e', h'.next⟩)
  refine ⟨p, ?_, ?_, ?_⟩
  · unfold savePnm
    rw [ht]
    exact e
  · rw [hpl, Nat.add_zero, Nat.mul_comm img.height]
  · intro y x c hx hy hc
    have := hpc y x c hx hc (by omega)
    rw [Nat.add_assoc] at this
    rw [this]
    rfl

/-! ## Loading -/

theorem getElem?_writeBlock {α : Type} {a xs : List α} {pos j : Nat} (h : pos + xs.length ≤ a.length) :
    (a.take pos ++ xs ++ a.drop (pos + xs.length))[j]? =
      if pos ≤ j ∧ j < pos + xs.length then xs[j - pos]? else a[j]? := by
  have hlp : (a.take pos).length = pos := by rw [List.length_take]; omega
  by_cases h1 : j < pos
  · rw [if_neg (by omega), List.append_assoc, List.getElem?_append_left (by omega), List.getElem?_take_of_lt h1]
  · by_cases h2 : j < pos + xs.length
    · rw [if_pos (by omega), List.getElem?_append_left (by rw [List.length_append]; omega),
        List.getElem?_append_right (by omega), hlp]
    · rw [if_neg (by omega), List.getElem?_append_right (by rw [List.length_append]; omega), List.length_append, hlp,
        List.getElem?_drop]
      congr 1
      omega

/-- The state of the image: all units before unit `u` of row `y` are read and stored, or
the file was too short. -/
def Loaded (rest0 : Bytes) (conv : Bytes → Bytes) (st H k m U : Nat) (y u : Nat) (s : LoadState) : Prop :=
  (k * (y * U + u) ≤ rest0.length ∧ ∃ d, s = some (d, rest0.drop (k * (y * U + u))) ∧ d.length = st * H ∧
    ∀ y' u' c, u' < U → c < m → (y' < y ∨ (y' = y ∧ u' < u)) →
      d[y' * st + (m * u' + c)]? = (conv ((rest0.drop (k * (y' * U + u'))).take k))[c]?) ∨
  (rest0.length < k * (y * U + u) ∧ s = none)

theorem loadUnit_spec {rest0 : Bytes} {conv : Bytes → Bytes} {st H k m U y u : Nat} {s : LoadState}
    (hL : Loaded rest0 conv st H k m U y u s) (hconv : ∀ b, b.length = k → (conv b).length = m) (hU : m * U ≤ st)
    (hu : u < U) (hy : y < H) :
    ∃ s', loadUnit k conv (y * st + m * u) s = .ok s' ∧ Loaded rest0 conv st H k m U y (u + 1) s' := by
  have hmu : m * u + m ≤ st := by
    have h1 : m * (u + 1) ≤ m * U := Nat.mul_le_mul_left _ hu
    rw [Nat.mul_succ] at h1
    omega
  have hk : k * (y * U + (u + 1)) = k * (y * U + u) + k := by rw [← Nat.add_assoc, Nat.mul_succ]
  rcases hL with ⟨hle, d, rfl, hdl, hdc⟩ | ⟨hlt, rfl⟩
  · unfold loadUnit
    simp only
    rw [List.length_drop]
    by_cases hsh : rest0.length - k * (y * U + u) < k
    · rw [if_pos hsh]
      exact ⟨none, rfl, Or.inr ⟨by omega, rfl⟩⟩
    · rw [if_neg hsh]
      have hcl : (conv ((rest0.drop (k * (y * U + u))).take k)).length = m :=
        hconv _ (by rw [List.length_take, List.length_drop]; omega)
      have hin : y * st + m * u + m ≤ d.length := by
        have h1 : (y + 1) * st ≤ H * st := Nat.mul_le_mul_right _ hy
        have h2 := Nat.succ_mul y st
        simp only [Nat.succ_eq_add_one] at h2
        rw [hdl, Nat.mul_comm st]
        omega
      rw [writeBlock_ok _ (by rw [hcl]; exact hin)]
      simp only [Res.ok_bind]
      refine ⟨_, rfl, Or.inl ⟨by omega, _, by rw [List.drop_drop, hk], ?_, ?_⟩⟩
      · simp only [List.length_append, List.length_take, List.length_drop, hcl]
        omega
      · intro y' u' c hu' hc h
        have hmu' : m * u' + m ≤ st := by
          have h1 : m * (u' + 1) ≤ m * U := Nat.mul_le_mul_left _ hu'
          rw [Nat.mul_succ] at h1
          omega
        rw [getElem?_writeBlock (by rw [hcl]; exact hin), hcl]
        by_cases he : y' = y ∧ u' = u
        · obtain ⟨rfl, rfl⟩ := he
          rw [if_pos (by omega)]
          congr 1
          omega
        · rw [if_neg]
          · exact hdc y' u' c hu' hc (by omega)
          · intro ⟨h1, h2⟩
            have hy' : y' = y := by
              have := pixIdx_inj (x := m * u' + c) (y := y') (x' := y' * st + (m * u' + c) - y * st) (y' := y) (st := st)
                (by omega) (by omega) (by omega)
              exact this.2
            subst hy'
            apply he
            refine ⟨rfl, ?_⟩
            have h3 := pixIdx_inj (x := c) (y := u') (x' := m * u' + c - m * u) (y' := u) (st := m) hc (by omega)
              (by rw [Nat.mul_comm u' m, Nat.mul_comm u m]; omega)
            exact h3.2
  · refine ⟨none, rfl, Or.inr ⟨?_, rfl⟩⟩
    omega

theorem Loaded.next {rest0 : Bytes} {conv : Bytes → Bytes} {st H k m U y : Nat} {s : LoadState}
    (h : Loaded rest0 conv st H k m U y U s) : Loaded rest0 conv st H k m U (y + 1) 0 s := by
  unfold Loaded at h ⊢
  rw [Nat.succ_mul, Nat.add_zero]
  rcases h with ⟨h1, d, h2, h3, h4⟩ | h
  · exact Or.inl ⟨h1, d, h2, h3, fun y' u' c hu' hc hh => h4 y' u' c hu' hc (by omega)⟩
  · exact Or.inr h

theorem Loaded.init {rest0 : Bytes} {conv : Bytes → Bytes} {st H k m U : Nat} {d : Bytes} (hd : d.length = st * H) :
    Loaded rest0 conv st H k m U 0 0 (some (d, rest0)) := by
  refine Or.inl ⟨by simp, d, by simp, hd, ?_⟩
  intro y' u' c _ _ h
  omega

/-- Two nested loops over units. -/
theorem loadLoop_spec {rest0 : Bytes} {conv : Bytes → Bytes} {st H k m U : Nat} {d : Bytes} (hd : d.length = st * H)
    (hconv : ∀ b, b.length = k → (conv b).length = m) (hU : m * U ≤ st) :
    ∃ s, forLoop H (fun y s => forLoop U (fun u s => loadUnit k conv (y * st + m * u) s) 0 s) 0 (some (d, rest0)) =
        .ok s ∧ Loaded rest0 conv st H k m U H 0 s := by
  apply forLoop_spec (fun y s => Loaded rest0 conv st H k m U y 0 s) (Nat.zero_le _) (Loaded.init hd)
  intro y s _ hy hL
  obtain ⟨s', e, h'⟩ := forLoop_spec (n := U) (i0 := 0) (s := s)
    (body := fun u s => loadUnit k conv (y * st + m * u) s)
    (fun u s => Loaded rest0 conv st H k m U y u s) (Nat.zero_le _) hL (by
      intro u s _ hu hL
      exact loadUnit_spec hL hconv hU hu hy)
  exact ⟨s', e, h'.next⟩

/-- The same for one unit per row. -/
theorem loadRows_spec {rest0 : Bytes} {conv : Bytes → Bytes} {st H k m : Nat} {d : Bytes} (hd : d.length = st * H)
    (hconv : ∀ b, b.length = k → (conv b).length = m) (hU : m ≤ st) :
    ∃ s, forLoop H (fun y s => loadUnit k conv (y * st) s) 0 (some (d, rest0)) = .ok s ∧
      Loaded rest0 conv st H k m 1 H 0 s := by
  apply forLoop_spec (fun y s => Loaded rest0 conv st H k m 1 y 0 s) (Nat.zero_le _) (Loaded.init hd)
  intro y s _ hy hL
  obtain ⟨s', e, h'⟩ := loadUnit_spec hL hconv (by omega) (by omega) hy
  rw [Nat.mul_zero, Nat.add_zero] at e
  exact ⟨s', e, h'.next⟩

end Nx
