import Verif.Model.InPlaceColor
import Verif.Props.ImageConv

/-!
# C139: colouring an image into itself
-/

namespace Nx

/-- Every byte has a colour. -/
theorem byte_color {rd : Rat → Rat} (hr : FloatNear rd) (map : ColorMap) (v : Byte) :
    ∃ c, cmApply rd map (rd (byteVal v / 255)) = .ok c := by
  obtain ⟨v0, v1⟩ := byte_value hr v
  cases hm : cmTable map with
  | none =>
    have : map = .gray := by cases map <;> first | rfl | cases hm
    subst this
    obtain ⟨c, e, _⟩ := c94_colormap_gray hr v0 v1
    exact ⟨_, e⟩
  | some p =>
    obtain ⟨r, g, b, e, _⟩ := c94_colormap hr (unit := p.1) (rows := p.2) hm v0 v1
    exact ⟨_, e⟩

/-- The four bytes of a colour. -/
def rgba4 (c : Byte × Byte × Byte) : Nat → Byte := four c.1 c.2.1 c.2.2 255

/-- The value seen at a column of a row: a channel of a colour further left, and at the first column what the memory holds. -/
def Carried (c : Byte → Byte × Byte × Byte) (v0 : Byte) (s : Nat → Byte) : Prop :=
  s 0 = v0 ∧ ∀ x, 0 < x → s x = rgba4 (c (s (x / 4))) (x % 4)

def carry (c : Byte → Byte × Byte × Byte) (v0 : Byte) : Nat → Nat → Byte
  | 0, _ => v0
  | n + 1, x => if x = 0 then v0 else rgba4 (c (carry c v0 n (x / 4))) (x % 4)

theorem carry_enough (c : Byte → Byte × Byte × Byte) (v0 : Byte) :
    ∀ n m x, x ≤ n → x ≤ m → carry c v0 n x = carry c v0 m x := by
  intro n
  induction n with
  | zero =>
    intro m x h1 _
    have : x = 0 := by omega
    subst this
    cases m <;> simp [carry]
  | succ n ih =>
    intro m x h1 h2
    by_cases hx : x = 0
    · subst hx
      cases m <;> simp [carry]
    · cases m with
      | zero => omega
      | succ m =>
        simp only [carry, if_neg hx]
        rw [ih m (x / 4) (by omega) (by omega)]

theorem exists_carried (c : Byte → Byte × Byte × Byte) (v0 : Byte) : ∃ s, Carried c v0 s := by
  refine ⟨fun x => carry c v0 x x, by simp [carry], ?_⟩
  intro x hx
  cases x with
  | zero => omega
  | succ x =>
    show carry c v0 (x + 1) (x + 1) = _
    rw [carry, if_neg (by omega)]
    rw [carry_enough c v0 x ((x + 1) / 4) ((x + 1) / 4) (by omega) (by omega)]

/-- The values seen are determined by the first one. -/
theorem Carried.unique {c : Byte → Byte × Byte × Byte} {v0 : Byte} {s t : Nat → Byte} (hs : Carried c v0 s) (ht : Carried c v0 t) :
    ∀ x, s x = t x := by
  intro x
  induction x using Nat.strongRecOn with
  | _ x ih =>
    rcases Nat.eq_zero_or_pos x with h | h
    · subst h
      rw [hs.1, ht.1]
    · rw [hs.2 x h, ht.2 x h, ih (x / 4) (by omega)]

theorem set4_get {d : Bytes} {b i : Nat} {p q r t : Byte} (hb : b + 3 < d.length) :
    ((((d.set b p).set (b + 1) q).set (b + 2) r).set (b + 3) t)[i]? =
      if b ≤ i ∧ i < b + 4 then some (four p q r t (i - b)) else d[i]? := by
  simp only [List.getElem?_set, List.length_set]
  by_cases h : b ≤ i ∧ i < b + 4
  · rw [if_pos h]
    obtain ⟨k, rfl⟩ := Nat.exists_eq_add_of_le h.1
    have hk : k = 0 ∨ k = 1 ∨ k = 2 ∨ k = 3 := by omega
    rcases hk with rfl | rfl | rfl | rfl <;> simp [four] <;> omega
  · rw [if_neg h, if_neg (by omega), if_neg (by omega), if_neg (by omega), if_neg (by omega)]

/-- C139. Colouring a grayscale image into itself uses only its memory, and the colour of a pixel is that of a channel of a colour
further left, in the end of the byte at the beginning of its row in the larger image. -/
theorem c139_result {rd : Rat → Rat} (hr : FloatNear rd) (map : ColorMap) (junk : Nat → Byte) {img : SImg Byte}
    (hg : img.rgba = false) (h1 : 4 * img.width ≤ 2147483647) (h2 : 4 * img.width * img.height ≤ 2147483647) :
    ∃ (out : SImg Byte) (c : Byte → Byte × Byte × Byte) (s : Nat → Nat → Byte), ipColormap rd map junk img = .ok out ∧
      (∀ v, cmApply rd map (rd (byteVal v / 255)) = .ok (c v)) ∧
      out.rgba = true ∧ out.width = img.width ∧ out.height = img.height ∧ out.stride = 4 * img.width ∧
      (∀ y v, 0 < img.width → y < img.height → img.data[4 * img.width * y]? = some v → s y 0 = v) ∧
      (∀ y x, 0 < x → s y x = rgba4 (c (s y (x / 4))) (x % 4)) ∧
      (∀ x y k, x < img.width → y < img.height → k < 4 → out.data[y * out.stride + (4 * x + k)]? = some (rgba4 (c (s y x)) k)) ∧
      ∀ i, 4 * img.width * img.height ≤ i → out.data[i]? = img.data[i]? := by
  choose c hc using byte_color hr map
  unfold ipColormap ipResizeRgba
  rw [if_neg (by simp [hg]), if_pos ⟨h1, h2⟩]
  simp only [Res.ok_bind]
  generalize hD : img.data ++ (List.range (4 * img.width * img.height - img.data.length)).map junk = D
  have hlen : 4 * img.width * img.height ≤ D.length := by
    rw [← hD]
    simp only [List.length_append, List.length_map, List.length_range]
    omega
  have hDi : ∀ (i : Nat) (v : Byte), img.data[i]? = some v → D[i]? = some v := by
    intro i v e
    rw [← hD, List.getElem?_append_left (List.getElem?_eq_some_iff.mp e).1]
    exact e
  have hDo : ∀ i, 4 * img.width * img.height ≤ i → D[i]? = img.data[i]? := by
    intro i hi
    rw [← hD]
    by_cases hl : i < img.data.length
    · rw [List.getElem?_append_left hl]
    · rw [List.getElem?_eq_none (by simp only [List.length_append, List.length_map, List.length_range]; omega),
        List.getElem?_eq_none (by omega)]
  have hs : ∀ y, ∃ s, Carried c (D[4 * img.width * y]?.getD 0) s := fun y => exists_carried _ _
  choose s hs using hs
  generalize img.width = w at *
  generalize img.height = h at *
  -- the memory is coloured up to `b`
  let T : Nat → Byte := fun i => rgba4 (c (s (i / (4 * w)) (i % (4 * w) / 4))) (i % 4)
  have hT : ∀ y x k, x < w → k < 4 → T (y * (4 * w) + (4 * x + k)) = rgba4 (c (s y x)) k := by
    intro y x k hx hk
    have e1 : (y * (4 * w) + (4 * x + k)) / (4 * w) = y := by
      rw [Nat.add_comm, Nat.add_mul_div_right _ _ (by omega), Nat.div_eq_of_lt (by omega), Nat.zero_add]
    have e2 : (y * (4 * w) + (4 * x + k)) % (4 * w) = 4 * x + k := by
      rw [Nat.add_comm, Nat.add_mul_mod_self_right, Nat.mod_eq_of_lt (by omega)]
    have e3 : (y * (4 * w) + (4 * x + k)) % 4 = k := by
      have : y * (4 * w) = 4 * (y * w) := by rw [Nat.mul_left_comm]
      omega
    have e4 : (4 * x + k) / 4 = x := by omega
    show rgba4 (c (s ((y * (4 * w) + (4 * x + k)) / (4 * w)) ((y * (4 * w) + (4 * x + k)) % (4 * w) / 4)))
      ((y * (4 * w) + (4 * x + k)) % 4) = _
    rw [e1, e2, e3, e4]
  let P : Nat → Bytes → Prop := fun b d => d.length = D.length ∧ (∀ i, i < b → d[i]? = some (T i)) ∧ ∀ i, b ≤ i → d[i]? = D[i]?
  have step : ∀ y x d, y < h → x < w → P (y * (4 * w) + 4 * x) d →
      ∃ d', ipColorBody rd map (4 * w) y x d = .ok d' ∧ P (y * (4 * w) + 4 * (x + 1)) d' := by
    intro y x d hy hx hP
    have hb : y * (4 * w) + 4 * w ≤ 4 * w * h := by
      have := Nat.mul_le_mul_left (4 * w) hy
      rw [Nat.mul_succ, Nat.mul_comm (4 * w) y] at this
      exact this
    have hv : readAt d (y * (4 * w) + x) = .ok (s y x) := by
      refine readAt_some ?_
      rcases Nat.eq_zero_or_pos x with h0 | h0
      · subst h0
        rw [hP.2.2 _ (by omega), (hs y).1, Nat.mul_comm (4 * w) y]
        rw [Nat.add_zero, List.getElem?_eq_getElem (by omega)]
        rfl
      · rw [hP.2.1 _ (by omega), (hs y).2 x h0]
        have e : y * (4 * w) + x = y * (4 * w) + (4 * (x / 4) + x % 4) := by omega
        rw [e, hT y (x / 4) (x % 4) (by omega) (by omega)]
    unfold ipColorBody
    rw [hv, Res.ok_bind, hc, Res.ok_bind]
    have hl := hP.1
    rw [writeAt_ok _ (by omega)]
    simp only [Res.ok_bind]
    rw [writeAt_ok _ (by rw [List.length_set]; omega)]
    simp only [Res.ok_bind]
    rw [writeAt_ok _ (by simp only [List.length_set]; omega)]
    simp only [Res.ok_bind]
    rw [writeAt_ok _ (by simp only [List.length_set]; omega)]
    refine ⟨_, rfl, by simp only [List.length_set]; exact hl, ?_, ?_⟩
    · intro i hi
      simp only [← Nat.add_assoc]
      rw [set4_get (by omega)]
      split
      · rename_i hin
        obtain ⟨k, rfl⟩ := Nat.exists_eq_add_of_le hin.1
        rw [Nat.add_sub_cancel_left, Nat.add_assoc, hT y x k hx (by omega)]
        rfl
      · exact hP.2.1 i (by omega)
    · intro i hi
      simp only [← Nat.add_assoc]
      rw [set4_get (by omega), if_neg (by omega)]
      exact hP.2.2 i (by omega)
  obtain ⟨d, e, hP⟩ := forLoop_spec (n := h) (i0 := 0) (s := D)
    (body := fun y d => forLoop w (ipColorBody rd map (4 * w) y) 0 d) (fun y d => P (y * (4 * w)) d) (Nat.zero_le _)
    ⟨rfl, fun i hi => by omega, fun _ _ => rfl⟩ (by
      intro y d _ hy hP
      obtain ⟨d', e', hP'⟩ := forLoop_spec (n := w) (i0 := 0) (s := d) (body := ipColorBody rd map (4 * w) y)
        (fun x d => P (y * (4 * w) + 4 * x) d) (Nat.zero_le _) hP (fun x d _ hx hP => step y x d hy hx hP)
      refine ⟨d', e', ?_⟩
      rw [Nat.succ_mul]
      exact hP')
  rw [e]
  refine ⟨_, c, s, rfl, hc, rfl, rfl, rfl, rfl, ?_, fun y => (hs y).2, ?_, ?_⟩
  · intro y v _ _ e
    rw [(hs y).1, hDi _ _ e]
    rfl
  · intro x y k hx hy hk
    show d[y * (4 * w) + (4 * x + k)]? = _
    have hb : y * (4 * w) + 4 * w ≤ h * (4 * w) := by
      have := Nat.mul_le_mul_right (4 * w) hy
      rw [Nat.succ_mul] at this
      exact this
    rw [hP.2.1 _ (by omega), hT y x k hx hk]
  · intro i hi
    rw [hP.2.2 i (by rw [Nat.mul_comm]; exact hi)]
    exact hDo i hi

/-- C139 is false: of an image of one row only the first pixel matters. -/
theorem c139_row_false {rd : Rat → Rat} (hr : FloatNear rd) (map : ColorMap) (junk junk' : Nat → Byte) {a b : SImg Byte} {v : Byte}
    (ha : a.rgba = false) (hb : b.rgba = false) (h1 : 4 * a.width ≤ 2147483647) (hh : a.height = 1) (hh' : b.height = 1)
    (hw : b.width = a.width) (hv : a.data[0]? = some v) (hv' : b.data[0]? = some v) :
    ∃ o o', ipColormap rd map junk a = .ok o ∧ ipColormap rd map junk' b = .ok o' ∧
      ∀ i, i < 4 * a.width → o.data[i]? = o'.data[i]? := by
  obtain ⟨o, c, s, e, hc, _, _, _, hst, h0, hs, hp, _⟩ := c139_result hr map junk ha h1 (by rw [hh, Nat.mul_one]; exact h1)
  obtain ⟨o', c', s', e', hc', _, _, _, hst', h0', hs', hp', _⟩ := c139_result hr map junk' hb (by rw [hw]; exact h1)
    (by rw [hh', hw, Nat.mul_one]; exact h1)
  refine ⟨o, o', e, e', ?_⟩
  have hcc : c' = c := by
    funext u
    have := hc u
    rw [hc' u] at this
    exact Res.ok.inj this
  subst hcc
  intro i hi
  have hss := Carried.unique (v0 := v) (s := s 0) (t := s' 0) ⟨h0 0 v (by omega) (by omega) (by rw [Nat.mul_zero]; exact hv), hs 0⟩
    ⟨h0' 0 v (by omega) (by omega) (by rw [Nat.mul_zero]; exact hv'), hs' 0⟩
  have e1 := hp (i / 4) 0 (i % 4) (by omega) (by omega) (by omega)
  have e2 := hp' (i / 4) 0 (i % 4) (by omega) (by omega) (by omega)
  rw [Nat.zero_mul, Nat.zero_add, show 4 * (i / 4) + i % 4 = i by omega] at e1 e2
  rw [e1, e2, hss]

/-- C139 is false: the second pixel of 0 and 255 is black in the image coloured into itself, white in another one. -/
theorem c139_apply_false : ∃ o o', ipColormap id .gray (fun _ => 0) ⟨false, 2, 1, 2, [0, 255]⟩ = .ok o ∧
    applyColormap id .gray (fun v => byteVal v / 255) (fun _ => 0) ⟨false, 2, 1, 2, [0, 255]⟩ = .ok o' ∧
    o.data = [0, 0, 0, 255, 0, 0, 0, 255] ∧ o'.data = [0, 0, 0, 255, 255, 255, 255, 255] := by
  refine ⟨⟨true, 2, 1, 8, [0, 0, 0, 255, 0, 0, 0, 255]⟩, ⟨true, 2, 1, 8, [0, 0, 0, 255, 255, 255, 255, 255]⟩, ?_, ?_, rfl, rfl⟩ <;>
    decide +kernel

/-- C139 is false for the rows: at the first column of the second row of an image without gaps of one column, with memory for one of
five rows, is the colour of the fifth row. -/
theorem c139_column_false {rd : Rat → Rat} (hr : FloatNear rd) (map : ColorMap) (junk : Nat → Byte) {img : SImg Byte} {v : Byte}
    (hg : img.rgba = false) (hw : img.width = 1) (hh : 2 ≤ img.height) (h2 : 4 * img.height ≤ 2147483647)
    (hv : img.data[4]? = some v) : ∃ o c, ipColormap rd map junk img = .ok o ∧ cmApply rd map (rd (byteVal v / 255)) = .ok c ∧
      ∀ k, k < 4 → o.data[4 + k]? = some (rgba4 c k) := by
  obtain ⟨o, c, s, e, hc, _, _, _, hst, h0, _, hp, _⟩ := c139_result hr map junk hg (by rw [hw]; omega) (by rw [hw]; omega)
  refine ⟨o, c v, e, hc v, ?_⟩
  intro k hk
  have := hp 0 1 k (by omega) (by omega) hk
  rw [hst, hw, h0 1 v (by omega) (by omega) (by rw [hw]; exact hv)] at this
  simpa using this

/-- C139 holds for images of one pixel; missing: all others, for which it is false. -/
theorem c139_pixel_partial {rd : Rat → Rat} (hr : FloatNear rd) (map : ColorMap) (junk : Nat → Byte) {img : SImg Byte} {v : Byte}
    (hg : img.rgba = false) (hw : img.width = 1) (hh : img.height = 1) (hv : img.data[0]? = some v) :
    ∃ o c, ipColormap rd map junk img = .ok o ∧ cmApply rd map (rd (byteVal v / 255)) = .ok c ∧
      ∀ k, k < 4 → o.data[k]? = some (rgba4 c k) := by
  obtain ⟨o, c, s, e, hc, _, _, _, hst, h0, _, hp, _⟩ := c139_result hr map junk hg (by rw [hw]; omega) (by rw [hw, hh]; omega)
  refine ⟨o, c v, e, hc v, ?_⟩
  intro k hk
  have := hp 0 0 k (by omega) (by omega) hk
  rw [h0 0 v (by omega) (by omega) (by rw [Nat.mul_zero]; exact hv)] at this
  simpa using this

/-- C139. An image of four channels is refused. -/
theorem c139_refused (rd : Rat → Rat) (map : ColorMap) (junk : Nat → Byte) {img : SImg Byte} (hg : img.rgba = true) :
    ipColormap rd map junk img = .fatal := by
  unfold ipColormap
  rw [if_pos hg]

/-! ## Examples -/

example (hr : FloatNear id) : ∃ o o', ipColormap id .viridis (fun _ => 0) ⟨false, 3, 1, 3, [7, 1, 2]⟩ = .ok o ∧
    ipColormap id .viridis (fun _ => 9) ⟨false, 3, 1, 3, [7, 200, 100]⟩ = .ok o' ∧ ∀ i, i < 12 → o.data[i]? = o'.data[i]? :=
  c139_row_false hr .viridis _ _ (v := 7) rfl rfl (by decide) rfl rfl rfl rfl rfl

example (hr : FloatNear id) : ∃ o c, ipColormap id .magma (fun _ => 0) ⟨false, 1, 5, 1, [1, 2, 3, 4, 5]⟩ = .ok o ∧
    cmApply id .magma (byteVal 5 / 255) = .ok c ∧ ∀ k, k < 4 → o.data[4 + k]? = some (rgba4 c k) :=
  c139_column_false hr .magma _ (v := 5) rfl rfl (by decide) (by decide) rfl

end Nx
