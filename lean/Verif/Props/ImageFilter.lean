import Verif.Lemmas.ImageFilter
import Mathlib.Algebra.Order.BigOperators.Ring.Finset
import Mathlib.Algebra.Order.Field.Rat
import Mathlib.Algebra.Order.Field.Basic
import Mathlib.Data.Rat.Floor
import Mathlib.Tactic.Linarith
import Mathlib.Tactic.FieldSimp

/-! # C77: smoothing and box filters for images -/

namespace Nx

/-! ## Means -/

/-- The weights of a box. -/
theorem windowMean_eq (n r : Nat) (s : Nat → Rat) (x : Nat) : windowMean n r s x = windowSum n r (fun _ => 1 / (2 * r + 1)) s x := by
  unfold windowMean windowSum
  rw [← Finset.mul_sum]
  ring

theorem box_normal (r : Nat) : Normal r (fun _ => 1 / (2 * r + 1)) := by
  unfold Normal
  rw [Finset.sum_const, Finset.card_range, nsmul_eq_mul]
  push_cast
  have : (2 * (r : Rat) + 1) ≠ 0 := by positivity
  field_simp

theorem nearest_lt {n : Nat} (hn : 0 < n) (i : Int) : nearest n i < n := by
  unfold nearest
  split
  · exact hn
  · split <;> omega

theorem windowSum_mono {n r : Nat} {wt : Nat → Rat} (hn : 0 < n) (hw : ∀ k, 0 ≤ wt k) {s s' : Nat → Rat}
    (h : ∀ i < n, s i ≤ s' i) (x : Nat) : windowSum n r wt s x ≤ windowSum n r wt s' x := by
  unfold windowSum
  apply Finset.sum_le_sum
  intro t _
  exact mul_le_mul_of_nonneg_left (h _ (nearest_lt hn _)) (hw _)

theorem windowSum_const {n r : Nat} {wt : Nat → Rat} (hN : Normal r wt) (c : Rat) (x : Nat) : windowSum n r wt (fun _ => c) x = c := by
  unfold windowSum
  rw [← Finset.sum_mul]
  unfold Normal at hN
  rw [hN, one_mul]

theorem windowSum_ge {n r : Nat} {wt : Nat → Rat} (hn : 0 < n) (hw : ∀ k, 0 ≤ wt k) (hN : Normal r wt) {s : Nat → Rat} {a : Rat}
    (h : ∀ i < n, a ≤ s i) (x : Nat) : a ≤ windowSum n r wt s x :=
  le_of_eq_of_le (windowSum_const (n := n) hN a x).symm (windowSum_mono hn hw h x)

theorem windowSum_le {n r : Nat} {wt : Nat → Rat} (hn : 0 < n) (hw : ∀ k, 0 ≤ wt k) (hN : Normal r wt) {s : Nat → Rat} {a : Rat}
    (h : ∀ i < n, s i ≤ a) (x : Nat) : windowSum n r wt s x ≤ a :=
  le_of_le_of_eq (windowSum_mono hn hw h x) (windowSum_const (n := n) hN a x)

theorem windowSum_shift {n r : Nat} {wt : Nat → Rat} (hN : Normal r wt) (s : Nat → Rat) (c : Rat) (x : Nat) :
    windowSum n r wt (fun i => s i + c) x = windowSum n r wt s x + c := by
  have h := windowSum_const (n := n) hN c x
  unfold windowSum at h ⊢
  rw [← h, ← Finset.sum_add_distrib]
  · simp only [h]
    apply Finset.sum_congr rfl
    intro t _
    ring

/-- C77. Two box filters one after the other give the mean over a rectangle. -/
theorem c77_rectangle (w h rx ry : Nat) (f : Nat → Nat → Rat) (x y : Nat) :
    windowMean h ry (fun j => windowMean w rx (fun i => f i j) x) y =
      (∑ u ∈ Finset.range (2 * ry + 1), ∑ t ∈ Finset.range (2 * rx + 1),
        f (nearest w ((x : Int) + t - rx)) (nearest h ((y : Int) + u - ry))) / ((2 * rx + 1) * (2 * ry + 1)) := by
  unfold windowMean
  rw [← Finset.sum_div, div_div]

/-! ## 8-bit samples -/

/-- Truncation: the value and less than one above. -/
theorem storeByte_spec {v : Rat} (h0 : 0 ≤ v) (h1 : v ≤ 255) :
    ∃ c, storeByte v = .ok c ∧ (c.toNat : Rat) ≤ v ∧ v < c.toNat + 1 := by
  have ht : ratTrunc v = v.floor := by
    unfold ratTrunc
    rw [if_neg (not_lt.mpr h0)]
  have hf : v.floor = ⌊v⌋ := rfl
  have hge : 0 ≤ ⌊v⌋ := Int.floor_nonneg.mpr h0
  have hle : ⌊v⌋ ≤ 255 := by
    have := Int.floor_le_floor h1
    have e : ⌊(255 : Rat)⌋ = 255 := by norm_num
    rwa [e] at this
  refine ⟨UInt8.ofNat (⌊v⌋).toNat, ?_, ?_⟩
  · unfold storeByte
    simp only [ht, hf]
    rw [if_pos ⟨hge, hle⟩]
  · have e : (UInt8.ofNat (⌊v⌋).toNat).toNat = (⌊v⌋).toNat := by
      rw [UInt8.toNat_ofNat']
      omega
    have e2 : (((⌊v⌋).toNat : Nat) : Rat) = ((⌊v⌋ : Int) : Rat) := by
      have : (((⌊v⌋).toNat : Nat) : Int) = ⌊v⌋ := Int.toNat_of_nonneg hge
      rw [← Int.cast_natCast, this]
    rw [e, e2]
    exact ⟨Int.floor_le v, Int.lt_floor_add_one v⟩

theorem byteVal_nonneg (b : Byte) : 0 ≤ byteVal b := Nat.cast_nonneg _

theorem byteVal_le (b : Byte) : byteVal b ≤ 255 := by
  unfold byteVal
  have h := b.toNat_lt
  have : b.toNat ≤ 255 := by omega
  exact_mod_cast this

/-- Normalised values of a Gaussian function on a window of radius `r`: not negative, with sum one, proportional to `g`. -/
structure Gaussian (r : Nat) (g wt : Nat → Rat) : Prop where
  normal : Normal r wt
  nonneg : ∀ k, 0 ≤ wt k
  proportional : ∀ i j, wt i * g j = wt j * g i

theorem gaussian_of {r : Nat} {g wt : Nat → Rat} (hsum : wt 0 + 2 * winSum wt 1 (r + 1 - 1) = 1)
    (hp : ∀ i j, wt i * g j = wt j * g i) (h0 : 0 < wt 0) (hg0 : 0 < g 0) (hg : ∀ j, 0 ≤ g j) : Gaussian r g wt := by
  refine ⟨?_, ?_, hp⟩
  · have := winSum_sym wt r r (Nat.le_refl _)
    rw [Nat.add_sub_cancel] at hsum
    rw [hsum, Nat.sub_self, winSum_eq_sum] at this
    unfold Normal
    rw [← this]
    apply Finset.sum_congr rfl
    intro t _
    congr 1
    unfold absDiff
    omega
  · intro k
    have e := hp k 0
    have : wt k = wt 0 * g k / g 0 := by
      field_simp
      linarith
    rw [this]
    exact div_nonneg (mul_nonneg h0.le (hg k)) hg0.le

/-! ## The passes -/

section
variable {α : Type} [Inhabited α] {conv : α → Rat} {store : Rat → Res α} {junk : Nat → α} {junkB : Nat → Rat}
  {dest : Option (GImage α)} {src : GImage α} {w h : Nat} {f : Nat → Nat → α}

theorem filterDest_spec (hd : ∀ d, dest = some d → d.Wf) (hw : src.Wf) (hsz : w * h ≤ 2147483647)
    (hs : src.Shows w h f) (st : Nat) (hst : st ≤ w) :
    ∃ d g, filterDest junk dest src st = .ok d ∧ d.width = w ∧ d.height = h ∧ w ≤ d.stride ∧ Pix d.stride w h d.data g ∧
      (dest = none → d = src ∧ g = f) := by
  have e1 := hs.width_eq
  have e2 := hs.height_eq
  cases hdest : dest with
  | none =>
    exact ⟨src, f, rfl, e1, e2, by rw [← e1]; exact hw.stride_ge, hs.pix hw, fun _ => ⟨rfl, rfl⟩⟩
  | some d0 =>
    have hprod : src.width * src.height ≤ 2147483647 := by rw [e1, e2]; exact hsz
    obtain ⟨d, ed, dw, dh, ds, dl⟩ := gResize_ok (junk := junk) (st := st) (hd d0 hdest) hprod (by omega)
    obtain ⟨g, hg⟩ := Pix.exists (st := d.stride) (w := w) (H := h) (d := d.data) (by rw [dl, ds, e2]) (by omega)
    exact ⟨d, g, ed, by omega, by omega, by omega, hg, by intro h; cases h⟩

omit [Inhabited α] in
theorem filterSrc_spec (hs : src.Shows w h f) (l : List α) (hl : filterSrc dest src = some l) (x y : Nat) (hx : x < w) (hy : y < h) :
    l[y * src.stride + x]? = some (f x y) := by
  cases hd : dest with
  | none => rw [hd] at hl; cases hl
  | some d =>
    rw [hd] at hl
    cases hl
    exact hs.pixel_eq x y hx hy

omit [Inhabited α] in
theorem filterSrc_none (h : filterSrc dest src = none) : dest = none := by
  cases hd : dest with
  | none => rfl
  | some d => rw [hd] at h; cases h

omit [Inhabited α] in
theorem pix_image {st : Nat} {d : GImage α} {l : List α} {S : Nat → Nat → α} (hw : d.width = w) (hh : d.height = h)
    (hst : w ≤ d.stride) (e : st = d.stride) (hP : Pix st w h l S) :
    ({ d with data := l } : GImage α).Wf ∧ ({ d with data := l } : GImage α).Shows w h S := by
  subst e
  exact ⟨⟨by simp only; omega, by rw [hP.len, hh]⟩, hw, hh, hP.at'⟩

/-- C77, rows. With a buffer that is large enough, or none, the box filter for rows stores the mean of every window. -/
theorem c77_box_x (hd : ∀ d, dest = some d → d.Wf) (hw : src.Wf) (hsz : w * h ≤ 2147483647)
    (hs : src.Shows w h f) (h2 : 2 ≤ w) {r : Nat} (hr : 1 ≤ r) {buffer : Option (List Rat)}
    (hb : ∀ b, buffer = some b → w + 2 * r ≤ b.length) {S : Nat → Nat → α}
    (hS : ∀ x y, x < w → y < h → store (windowMean w r (fun i => conv (f i y)) x) = .ok (S x y)) :
    ∃ b' d, boxX conv store junk junkB dest src r buffer = .ok (b', d) ∧ d.Wf ∧ d.Shows w h S ∧
      (∀ b, buffer = some b → b'.length = b.length) ∧ (dest = none → d.stride = src.stride) := by
  obtain ⟨d, g, e, dw, dh, dst, hP, hin⟩ := filterDest_spec (junk := junk) hd hw hsz hs 0 (Nat.zero_le _)
  have e1 := hs.width_eq
  have e2 := hs.height_eq
  have hbl : w + 2 * r ≤ (buffer.getD (filterBuffer src.width r junkB)).length := by
    cases hbuf : buffer with
    | none => simp [filterBuffer, e1]
    | some b => exact hb b hbuf
  obtain ⟨b', d', er, hl, hP'⟩ := filterRows_spec (conv := conv) (store := store) (box_lineOp (n := w) (r := r) (by omega) hr)
    (by omega) (src := filterSrc dest src) (sst := src.stride) dst (f := f) (S := S) (g := g) (fun l hl => filterSrc_spec hs l hl)
    (by intro hn; obtain ⟨a, b⟩ := hin (filterSrc_none hn); exact ⟨by rw [a], b⟩) hS hbl hP
  obtain ⟨q1, q2⟩ := pix_image dw dh dst rfl hP'
  refine ⟨b', { d with data := d' }, ?_, q1, q2, ?_, ?_⟩
  · unfold boxX
    rw [e]
    simp only [Res.ok_bind]
    rw [← e1, ← e2] at er
    rw [er]
    rfl
  · intro b hb
    rw [hl, hb]
    rfl
  · intro hn
    rw [(hin hn).1]

/-- C77, columns. -/
theorem c77_box_y (hd : ∀ d, dest = some d → d.Wf) (hw : src.Wf) (hsz : w * h ≤ 2147483647)
    (hs : src.Shows w h f) (h2 : 2 ≤ h) {r : Nat} (hr : 1 ≤ r) {buffer : Option (List Rat)}
    (hb : ∀ b, buffer = some b → h + 2 * r ≤ b.length) {S : Nat → Nat → α}
    (hS : ∀ x y, x < w → y < h → store (windowMean h r (fun i => conv (f x i)) y) = .ok (S x y)) :
    ∃ b' d, boxY conv store junk junkB dest src r buffer = .ok (b', d) ∧ d.Wf ∧ d.Shows w h S ∧
      (∀ b, buffer = some b → b'.length = b.length) ∧ (dest = none → d.stride = src.stride) := by
  obtain ⟨d, g, e, dw, dh, dst, hP, hin⟩ := filterDest_spec (junk := junk) hd hw hsz hs 0 (Nat.zero_le _)
  have e2 := hs.height_eq
  have hbl : h + 2 * r ≤ (buffer.getD (filterBuffer src.height r junkB)).length := by
    cases hbuf : buffer with
    | none => simp [filterBuffer, e2]
    | some b => exact hb b hbuf
  obtain ⟨b', d', er, hl, hP'⟩ := filterCols_spec (conv := conv) (store := store) (box_lineOp (n := h) (r := r) (by omega) hr)
    (by omega) (src := filterSrc dest src) (sst := src.stride) dst (f := f) (S := S) (g := g) (fun l hl => filterSrc_spec hs l hl)
    (by intro hn; obtain ⟨a, b⟩ := hin (filterSrc_none hn); exact ⟨by rw [a], b⟩) hS hbl hP
  obtain ⟨q1, q2⟩ := pix_image dw dh dst rfl hP'
  refine ⟨b', { d with data := d' }, ?_, q1, q2, ?_, ?_⟩
  · unfold boxY
    rw [e]
    simp only [Res.ok_bind]
    rw [← dw, ← e2] at er
    rw [er]
    rfl
  · intro b hb
    rw [hl, hb]
    rfl
  · intro hn
    rw [(hin hn).1]

/-- Rows, then columns: `M` is stored by the first pass, `S` by the second. -/
theorem boxXY_spec (hd : ∀ d, dest = some d → d.Wf) (hw : src.Wf) (hsz : w * h ≤ 2147483647)
    (hs : src.Shows w h f) (hw2 : 2 ≤ w) (hh2 : 2 ≤ h) {rx ry : Nat} (hrx : 1 ≤ rx) (hry : 1 ≤ ry) {buffer : Option (List Rat)}
    (hb : ∀ b, buffer = some b → w + 2 * rx ≤ b.length ∧ h + 2 * ry ≤ b.length) {M S : Nat → Nat → α}
    (hM : ∀ x y, x < w → y < h → store (windowMean w rx (fun i => conv (f i y)) x) = .ok (M x y))
    (hS : ∀ x y, x < w → y < h → store (windowMean h ry (fun i => conv (M x i)) y) = .ok (S x y)) :
    ∃ b' d, boxXY conv store junk junkB dest src rx ry buffer = .ok (b', d) ∧ d.Wf ∧ d.Shows w h S := by
  obtain ⟨d, g, e, dw, dh, dst, hP, hin⟩ := filterDest_spec (junk := junk) hd hw hsz hs 0 (Nat.zero_le _)
  have e1 := hs.width_eq
  have e2 := hs.height_eq
  have hbl : w + 2 * rx ≤ (buffer.getD (filterBuffer (max src.width src.height) (max rx ry) junkB)).length ∧
      h + 2 * ry ≤ (buffer.getD (filterBuffer (max src.width src.height) (max rx ry) junkB)).length := by
    cases hbuf : buffer with
    | none =>
      have : (filterBuffer (max src.width src.height) (max rx ry) junkB).length = max w h + 2 * max rx ry := by
        simp [filterBuffer, e1, e2]
      rw [Option.getD_none, this]
      omega
    | some b => exact hb b hbuf
  obtain ⟨b1, d1, er, hw1, hs1, hl1, _⟩ := c77_box_x (conv := conv) (store := store) (junk := junk) (junkB := junkB)
    (dest := dest.map (fun _ => d)) (src := src) (by
      intro d' hd'
      cases hdd : dest with
      | none => rw [hdd] at hd'; cases hd'
      | some d0 =>
        rw [hdd] at hd'
        cases hd'
        exact ⟨by rw [dw]; exact dst, by rw [hP.len, dh]⟩) hw hsz hs hw2 hrx
    (buffer := some (buffer.getD (filterBuffer (max src.width src.height) (max rx ry) junkB)))
    (by intro b hb; cases hb; exact hbl.1) hM
  obtain ⟨b2, d2, er2, hw2', hs2, _, _⟩ := c77_box_y (conv := conv) (store := store) (junk := junk) (junkB := junkB)
    (dest := none) (src := d1) (by intro d h; cases h) hw1 hsz hs1 hh2 hry (buffer := some b1)
    (by intro b hb; cases hb; rw [hl1 _ rfl]; exact hbl.2) hS
  refine ⟨b2, d2, ?_, hw2', hs2⟩
  unfold boxXY
  rw [e]
  simp only [Res.ok_bind]
  rw [er]
  exact er2

/-- Smoothing: the kernels are `wx` and `wy`, `M` is stored by the first pass, `S` by the second; the buffer keeps its length. -/
theorem smooth_buffer (hd : ∀ d, dest = some d → d.Wf) (hw : src.Wf) (hsz : w * h ≤ 2147483647)
    (hs : src.Shows w h f) (hw2 : 2 ≤ w) (hh2 : 2 ≤ h) {tx ty : Int} (htx : 0 ≤ tx) (hty : 0 ≤ ty) {gx gy : Nat → Rat}
    (hgx0 : 0 < gx 0) (hgx : ∀ j, 0 ≤ gx j) (hgy0 : 0 < gy 0) (hgy : ∀ j, 0 ≤ gy j) {buffer : Option (List Rat)}
    (hb : ∀ b, buffer = some b → w + 2 * ((kernelSize tx).toNat / 2) ≤ b.length ∧ h + 2 * ((kernelSize ty).toNat / 2) ≤ b.length) :
    ∃ wx wy : Nat → Rat, Gaussian ((kernelSize tx).toNat / 2) gx wx ∧ Gaussian ((kernelSize ty).toNat / 2) gy wy ∧
      ∀ M S : Nat → Nat → α,
        (∀ x y, x < w → y < h → store (windowSum w ((kernelSize tx).toNat / 2) wx (fun i => conv (f i y)) x) = .ok (M x y)) →
        (∀ x y, x < w → y < h → store (windowSum h ((kernelSize ty).toNat / 2) wy (fun i => conv (M x i)) y) = .ok (S x y)) →
        ∃ b' d, smooth conv store junk junkB dest src tx ty gx gy buffer = .ok (b', d) ∧ d.Wf ∧ d.Shows w h S ∧
          ∀ b, buffer = some b → b'.length = b.length := by
  have e1 := hs.width_eq
  have e2 := hs.height_eq
  obtain ⟨sx1, sx2, _, _⟩ := c54_kernel_size tx htx
  obtain ⟨sy1, sy2, _, _⟩ := c54_kernel_size ty hty
  obtain ⟨nkx, hnkx⟩ : ∃ n, (kernelSize tx).toNat = n := ⟨_, rfl⟩
  obtain ⟨nky, hnky⟩ : ∃ n, (kernelSize ty).toNat = n := ⟨_, rfl⟩
  have hx3 : 3 ≤ nkx := by omega
  have hy3 : 3 ≤ nky := by omega
  rw [hnkx, hnky] at hb ⊢
  obtain ⟨k1, wx, ek1, lk1, hk1, nk1, pk1, zk1⟩ := c54_kernel gx (nkx / 2 + 1) ((List.range (max nkx nky / 2 + 1)).map junkB)
    (by omega) (by simp only [List.length_map, List.length_range]; omega) hgx0 hgx
  rw [List.length_map, List.length_range] at lk1
  obtain ⟨k2, wy, ek2, lk2, hk2, nk2, pk2, zk2⟩ := c54_kernel gy (nky / 2 + 1) k1 (by omega) (by omega) hgy0 hgy
  refine ⟨wx, wy, gaussian_of nk1 pk1 zk1 hgx0 hgx, gaussian_of nk2 pk2 zk2 hgy0 hgy, ?_⟩
  intro M S hM hS
  obtain ⟨d, g, e, dw, dh, dst, hP, hin⟩ := filterDest_spec (junk := junk) hd hw hsz hs w (Nat.le_refl _)
  obtain ⟨B, hB⟩ : ∃ B, buffer.getD (filterBuffer (max src.width src.height) (max nkx nky / 2) junkB) = B := ⟨_, rfl⟩
  have hbl : w + 2 * (nkx / 2) ≤ B.length ∧ h + 2 * (nky / 2) ≤ B.length := by
    rw [← hB]
    cases hbuf : buffer with
    | none =>
      have : (filterBuffer (max src.width src.height) (max nkx nky / 2) junkB).length = max w h + 2 * (max nkx nky / 2) := by
        simp [filterBuffer, e1, e2]
      rw [Option.getD_none, this]
      omega
    | some b => exact hb b hbuf
  obtain ⟨b1, d1, er1, hl1, hP1⟩ := filterRows_spec (conv := conv) (store := store)
    (sym_lineOp (n := w) (nk := nkx / 2 + 1) (kernel := k1) (w := wx) (by omega) (by omega) (by omega) hk1)
    (by omega) (src := filterSrc dest src) (sst := src.stride) dst (f := f) (S := M) (g := g) (fun l hl => filterSrc_spec hs l hl)
    (by intro hn; obtain ⟨a, b⟩ := hin (filterSrc_none hn); exact ⟨by rw [a], b⟩) hM (b := B) hbl.1 hP
  obtain ⟨b2, d2, er2, hl2, hP2⟩ := filterCols_spec (conv := conv) (store := store)
    (sym_lineOp (n := h) (nk := nky / 2 + 1) (kernel := k2) (w := wy) (by omega) (by omega) (by omega) hk2)
    (by omega) (src := none) (sst := d.stride) dst (f := M) (S := S) (g := M) (by intro l hl; cases hl)
    (by intro _; exact ⟨rfl, rfl⟩) hS (b := b1) (by rw [hl1]; exact hbl.2) hP1
  obtain ⟨q1, q2⟩ := pix_image dw dh dst rfl hP2
  refine ⟨b2, { d with data := d2 }, ?_, q1, q2, ?_⟩
  case refine_2 =>
    intro b hbuf
    rw [hl2, hl1, ← hB, hbuf]
    rfl
  unfold smooth
  rw [e1, e]
  simp only [Res.ok_bind, hnkx, hnky]
  rw [e1] at hB
  rw [ek1]
  simp only [Res.ok_bind, Nat.add_sub_cancel] at er1 er2 ⊢
  rw [hB, e2, er1]
  simp only [Res.ok_bind]
  rw [ek2]
  simp only [Res.ok_bind]
  rw [dw, dh, er2]
  rfl

theorem smooth_spec (hd : ∀ d, dest = some d → d.Wf) (hw : src.Wf) (hsz : w * h ≤ 2147483647)
    (hs : src.Shows w h f) (hw2 : 2 ≤ w) (hh2 : 2 ≤ h) {tx ty : Int} (htx : 0 ≤ tx) (hty : 0 ≤ ty) {gx gy : Nat → Rat}
    (hgx0 : 0 < gx 0) (hgx : ∀ j, 0 ≤ gx j) (hgy0 : 0 < gy 0) (hgy : ∀ j, 0 ≤ gy j) {buffer : Option (List Rat)}
    (hb : ∀ b, buffer = some b → w + 2 * ((kernelSize tx).toNat / 2) ≤ b.length ∧ h + 2 * ((kernelSize ty).toNat / 2) ≤ b.length) :
    ∃ wx wy : Nat → Rat, Gaussian ((kernelSize tx).toNat / 2) gx wx ∧ Gaussian ((kernelSize ty).toNat / 2) gy wy ∧
      ∀ M S : Nat → Nat → α,
        (∀ x y, x < w → y < h → store (windowSum w ((kernelSize tx).toNat / 2) wx (fun i => conv (f i y)) x) = .ok (M x y)) →
        (∀ x y, x < w → y < h → store (windowSum h ((kernelSize ty).toNat / 2) wy (fun i => conv (M x i)) y) = .ok (S x y)) →
        ∃ b' d, smooth conv store junk junkB dest src tx ty gx gy buffer = .ok (b', d) ∧ d.Wf ∧ d.Shows w h S := by
  obtain ⟨wx, wy, g1, g2, hall⟩ := smooth_buffer (conv := conv) (store := store) (junk := junk) (junkB := junkB) hd hw hsz hs hw2 hh2 htx hty
    hgx0 hgx hgy0 hgy hb
  refine ⟨wx, wy, g1, g2, ?_⟩
  intro M S h1 h2
  obtain ⟨b', d, e, q1, q2, _⟩ := hall M S h1 h2
  exact ⟨b', d, e, q1, q2⟩

/-- C77. A line of one sample stops the program, in both directions. -/
theorem c77_box_narrow (hd : ∀ d, dest = some d → d.Wf) (hw : src.Wf) (hsz : w * h ≤ 2147483647)
    (hs : src.Shows w h f) (h1 : w ≤ 1) (hh : 0 < h) (r : Nat) (buffer : Option (List Rat)) :
    boxX conv store junk junkB dest src r buffer = .fatal := by
  obtain ⟨d, g, e, _⟩ := filterDest_spec (junk := junk) hd hw hsz hs 0 (Nat.zero_le _)
  unfold boxX
  rw [e]
  simp only [Res.ok_bind]
  unfold filterRows
  rw [forLoop, if_pos (by rw [hs.height_eq]; exact hh)]
  unfold filterLine copyToBuffer
  rw [if_neg (by rw [hs.width_eq]; omega)]
  rfl

/-- C77. A radius of zero stops the program. -/
theorem c77_box_radius (hd : ∀ d, dest = some d → d.Wf) (hw : src.Wf) (hsz : w * h ≤ 2147483647)
    (hs : src.Shows w h f) (h2 : 2 ≤ w) (hh : 0 < h) :
    boxX conv store junk junkB dest src 0 none = .fatal := by
  obtain ⟨d, g, e, dw, dh, dst, hP, hin⟩ := filterDest_spec (junk := junk) hd hw hsz hs 0 (Nat.zero_le _)
  unfold boxX
  rw [e]
  simp only [Res.ok_bind]
  unfold filterRows
  rw [forLoop, if_pos (by rw [hs.height_eq]; exact hh)]
  unfold filterLine
  obtain ⟨b, eb, _⟩ := c38_border conv (0 : Rat) w 0 1 (((filterSrc dest src).getD d.data).drop (0 * src.stride)) (fun i => f i 0)
    (filterBuffer w 0 junkB) .repeat (by omega) (by simp [filterBuffer]) (by intro h; cases h) (by
      intro i hi
      rw [List.getElem?_drop, Nat.mul_one]
      cases hs' : filterSrc dest src with
      | some l => exact filterSrc_spec hs l hs' i 0 hi hh
      | none =>
        rw [Option.getD_none, (hin (filterSrc_none hs')).1]
        exact hs.pixel_eq i 0 hi hh)
  simp only [hs.width_eq, Option.getD_none]
  rw [eb]
  simp only [Res.ok_bind]
  unfold convolveBox
  rw [if_pos (by omega), if_neg (by omega)]
  rfl

end

/-! ## `float` -/

section
variable {junk : Nat → Rat} {junkB : Nat → Rat} {dest : Option (GImage Rat)} {src : GImage Rat} {w h : Nat} {f : Nat → Nat → Rat}

/-- C77. For `float` samples the box filter gives at every pixel the mean over the rectangle around it, where the outermost pixels are
repeated; also in place, and with every buffer that is large enough. -/
theorem c77_box (hd : ∀ d, dest = some d → d.Wf) (hw : src.Wf) (hsz : w * h ≤ 2147483647)
    (hs : src.Shows w h f) (hw2 : 2 ≤ w) (hh2 : 2 ≤ h) {rx ry : Nat} (hrx : 1 ≤ rx) (hry : 1 ≤ ry) {buffer : Option (List Rat)}
    (hb : ∀ b, buffer = some b → w + 2 * rx ≤ b.length ∧ h + 2 * ry ≤ b.length) :
    ∃ b' d, boxXY id .ok junk junkB dest src rx ry buffer = .ok (b', d) ∧ d.Wf ∧
      d.Shows w h (fun x y => (∑ u ∈ Finset.range (2 * ry + 1), ∑ t ∈ Finset.range (2 * rx + 1),
        f (nearest w ((x : Int) + t - rx)) (nearest h ((y : Int) + u - ry))) / ((2 * rx + 1) * (2 * ry + 1))) := by
  obtain ⟨b', d, e, q1, q2⟩ := boxXY_spec (conv := id) (store := .ok) (junk := junk) (junkB := junkB) hd hw hsz hs hw2 hh2 hrx hry hb
    (M := fun x y => windowMean w rx (fun i => f i y) x)
    (S := fun x y => windowMean h ry (fun j => windowMean w rx (fun i => f i j) x) y) (fun _ _ _ _ => rfl) (fun _ _ _ _ => rfl)
  refine ⟨b', d, e, q1, q2.width_eq, q2.height_eq, ?_⟩
  intro x y hx hy
  rw [q2.pixel_eq x y hx hy, c77_rectangle]

/-- C77. Smoothing gives at every pixel a mean with the weights of the two Gaussian kernels, which are not negative and add up to
one. -/
theorem c77_smooth (hd : ∀ d, dest = some d → d.Wf) (hw : src.Wf) (hsz : w * h ≤ 2147483647)
    (hs : src.Shows w h f) (hw2 : 2 ≤ w) (hh2 : 2 ≤ h) {tx ty : Int} (htx : 0 ≤ tx) (hty : 0 ≤ ty) {gx gy : Nat → Rat}
    (hgx0 : 0 < gx 0) (hgx : ∀ j, 0 ≤ gx j) (hgy0 : 0 < gy 0) (hgy : ∀ j, 0 ≤ gy j) {buffer : Option (List Rat)}
    (hb : ∀ b, buffer = some b → w + 2 * ((kernelSize tx).toNat / 2) ≤ b.length ∧ h + 2 * ((kernelSize ty).toNat / 2) ≤ b.length) :
    ∃ b' d, ∃ wx wy : Nat → Rat, smooth id .ok junk junkB dest src tx ty gx gy buffer = .ok (b', d) ∧ d.Wf ∧
      Gaussian ((kernelSize tx).toNat / 2) gx wx ∧ Gaussian ((kernelSize ty).toNat / 2) gy wy ∧
      d.Shows w h (fun x y => windowSum h ((kernelSize ty).toNat / 2) wy
        (fun j => windowSum w ((kernelSize tx).toNat / 2) wx (fun i => f i j) x) y) := by
  obtain ⟨wx, wy, g1, g2, hall⟩ := smooth_spec (conv := id) (store := .ok) (junk := junk) (junkB := junkB) hd hw hsz hs hw2 hh2 htx hty
    hgx0 hgx hgy0 hgy hb
  obtain ⟨b', d, e, q1, q2⟩ := hall _ _ (fun _ _ _ _ => rfl) (fun _ _ _ _ => rfl)
  exact ⟨b', d, wx, wy, e, q1, g1, g2, q2⟩

/-- C77. Smoothing stays between the least and the greatest sample; a constant image is kept. -/
theorem c77_smooth_range (hd : ∀ d, dest = some d → d.Wf) (hw : src.Wf) (hsz : w * h ≤ 2147483647)
    (hs : src.Shows w h f) (hw2 : 2 ≤ w) (hh2 : 2 ≤ h) {tx ty : Int} (htx : 0 ≤ tx) (hty : 0 ≤ ty) {gx gy : Nat → Rat}
    (hgx0 : 0 < gx 0) (hgx : ∀ j, 0 ≤ gx j) (hgy0 : 0 < gy 0) (hgy : ∀ j, 0 ≤ gy j) (lo hi : Rat)
    (hlo : ∀ x y, x < w → y < h → lo ≤ f x y) (hhi : ∀ x y, x < w → y < h → f x y ≤ hi) :
    ∃ b' d g, smooth id .ok junk junkB dest src tx ty gx gy none = .ok (b', d) ∧ d.Shows w h g ∧
      ∀ x y, x < w → y < h → lo ≤ g x y ∧ g x y ≤ hi := by
  obtain ⟨b', d, wx, wy, e, _, g1, g2, q2⟩ := c77_smooth (junk := junk) (junkB := junkB) hd hw hsz hs hw2 hh2 htx hty
    hgx0 hgx hgy0 hgy (buffer := none) (by intro b h; cases h)
  refine ⟨b', d, _, e, q2, ?_⟩
  intro x y hx hy
  constructor
  · exact windowSum_ge (by omega) g2.nonneg g2.normal (fun j hj => windowSum_ge (by omega) g1.nonneg g1.normal
      (fun i hi' => hlo i j hi' hj) x) y
  · exact windowSum_le (by omega) g2.nonneg g2.normal (fun j hj => windowSum_le (by omega) g1.nonneg g1.normal
      (fun i hi' => hhi i j hi' hj) x) y

end

/-! ## 8-bit -/

section
variable {junk : Nat → Byte} {junkB : Nat → Rat} {dest : Option (GImage Byte)} {src : GImage Byte} {w h : Nat} {f : Nat → Nat → Byte}

/-- Two passes with weights that are not negative and add up to one, each of them truncated. -/
theorem two_passes {rx ry : Nat} {wx wy : Nat → Rat} (hw : 0 < w) (hh : 0 < h) (nx : ∀ k, 0 ≤ wx k) (ny : ∀ k, 0 ≤ wy k)
    (hx : Normal rx wx) (hy : Normal ry wy) :
    ∃ M S : Nat → Nat → Byte,
      (∀ x y, x < w → y < h → storeByte (windowSum w rx wx (fun i => byteVal (f i y)) x) = .ok (M x y)) ∧
      (∀ x y, x < w → y < h → storeByte (windowSum h ry wy (fun j => byteVal (M x j)) y) = .ok (S x y)) ∧
      ∀ x y, x < w → y < h →
        byteVal (S x y) ≤ windowSum h ry wy (fun j => windowSum w rx wx (fun i => byteVal (f i j)) x) y ∧
        windowSum h ry wy (fun j => windowSum w rx wx (fun i => byteVal (f i j)) x) y < byteVal (S x y) + 2 := by
  have hM : ∀ x y : Nat, ∃ c, storeByte (windowSum w rx wx (fun i => byteVal (f i y)) x) = .ok c ∧
      byteVal c ≤ windowSum w rx wx (fun i => byteVal (f i y)) x ∧ windowSum w rx wx (fun i => byteVal (f i y)) x < byteVal c + 1 := by
    intro x y
    exact storeByte_spec (windowSum_ge hw nx hx (fun i _ => byteVal_nonneg _) x) (windowSum_le hw nx hx (fun i _ => byteVal_le _) x)
  choose M hM1 hM2 hM3 using hM
  have hS : ∀ x y : Nat, ∃ c, storeByte (windowSum h ry wy (fun j => byteVal (M x j)) y) = .ok c ∧
      byteVal c ≤ windowSum h ry wy (fun j => byteVal (M x j)) y ∧ windowSum h ry wy (fun j => byteVal (M x j)) y < byteVal c + 1 := by
    intro x y
    exact storeByte_spec (windowSum_ge hh ny hy (fun i _ => byteVal_nonneg _) y) (windowSum_le hh ny hy (fun i _ => byteVal_le _) y)
  choose S hS1 hS2 hS3 using hS
  refine ⟨M, S, fun x y _ _ => hM1 x y, fun x y _ _ => hS1 x y, ?_⟩
  intro x y _ _
  have l1 : windowSum h ry wy (fun j => byteVal (M x j)) y ≤
      windowSum h ry wy (fun j => windowSum w rx wx (fun i => byteVal (f i j)) x) y :=
    windowSum_mono hh ny (fun j _ => hM2 x j) y
  have l2 : windowSum h ry wy (fun j => windowSum w rx wx (fun i => byteVal (f i j)) x) y ≤
      windowSum h ry wy (fun j => byteVal (M x j) + 1) y :=
    windowSum_mono hh ny (fun j _ => (hM3 x j).le) y
  rw [windowSum_shift hy] at l2
  have := hS2 x y
  have := hS3 x y
  constructor <;> linarith

/-- C77. For 8-bit samples the two truncations make the result at most less than two darker than the mean over the rectangle. -/
theorem c77_box_uc (hd : ∀ d, dest = some d → d.Wf) (hw : src.Wf) (hsz : w * h ≤ 2147483647)
    (hs : src.Shows w h f) (hw2 : 2 ≤ w) (hh2 : 2 ≤ h) {rx ry : Nat} (hrx : 1 ≤ rx) (hry : 1 ≤ ry) {buffer : Option (List Rat)}
    (hb : ∀ b, buffer = some b → w + 2 * rx ≤ b.length ∧ h + 2 * ry ≤ b.length) :
    ∃ b' d S, boxXY byteVal storeByte junk junkB dest src rx ry buffer = .ok (b', d) ∧ d.Wf ∧ d.Shows w h S ∧
      ∀ x y, x < w → y < h →
        byteVal (S x y) ≤ (∑ u ∈ Finset.range (2 * ry + 1), ∑ t ∈ Finset.range (2 * rx + 1),
          byteVal (f (nearest w ((x : Int) + t - rx)) (nearest h ((y : Int) + u - ry)))) / ((2 * rx + 1) * (2 * ry + 1)) ∧
        (∑ u ∈ Finset.range (2 * ry + 1), ∑ t ∈ Finset.range (2 * rx + 1),
          byteVal (f (nearest w ((x : Int) + t - rx)) (nearest h ((y : Int) + u - ry)))) / ((2 * rx + 1) * (2 * ry + 1))
            < byteVal (S x y) + 2 := by
  have hpos : ∀ r : Nat, ∀ _ : Nat, (0 : Rat) ≤ 1 / (2 * r + 1) := by
    intro r _
    positivity
  obtain ⟨M, S, h1, h2, h3⟩ := two_passes (f := f) (w := w) (h := h) (by omega) (by omega) (hpos rx) (hpos ry) (box_normal rx) (box_normal ry)
  obtain ⟨b', d, e, q1, q2⟩ := boxXY_spec (conv := byteVal) (store := storeByte) (junk := junk) (junkB := junkB) hd hw hsz hs hw2 hh2
    hrx hry hb (M := M) (S := S) (by intro x y hx hy; rw [windowMean_eq]; exact h1 x y hx hy)
    (by intro x y hx hy; rw [windowMean_eq]; exact h2 x y hx hy)
  refine ⟨b', d, S, e, q1, q2, ?_⟩
  intro x y hx hy
  have := h3 x y hx hy
  simp only [← windowMean_eq] at this
  rw [c77_rectangle w h rx ry (fun i j => byteVal (f i j)) x y] at this
  exact this

/-- C77. Smoothing of 8-bit samples never overflows a sample, and is at most less than two darker than the exact mean. -/
theorem c77_smooth_uc (hd : ∀ d, dest = some d → d.Wf) (hw : src.Wf) (hsz : w * h ≤ 2147483647)
    (hs : src.Shows w h f) (hw2 : 2 ≤ w) (hh2 : 2 ≤ h) {tx ty : Int} (htx : 0 ≤ tx) (hty : 0 ≤ ty) {gx gy : Nat → Rat}
    (hgx0 : 0 < gx 0) (hgx : ∀ j, 0 ≤ gx j) (hgy0 : 0 < gy 0) (hgy : ∀ j, 0 ≤ gy j) {buffer : Option (List Rat)}
    (hb : ∀ b, buffer = some b → w + 2 * ((kernelSize tx).toNat / 2) ≤ b.length ∧ h + 2 * ((kernelSize ty).toNat / 2) ≤ b.length) :
    ∃ b' d S, ∃ wx wy : Nat → Rat, smooth byteVal storeByte junk junkB dest src tx ty gx gy buffer = .ok (b', d) ∧ d.Wf ∧
      Gaussian ((kernelSize tx).toNat / 2) gx wx ∧ Gaussian ((kernelSize ty).toNat / 2) gy wy ∧ d.Shows w h S ∧
      ∀ x y, x < w → y < h →
        byteVal (S x y) ≤ windowSum h ((kernelSize ty).toNat / 2) wy
          (fun j => windowSum w ((kernelSize tx).toNat / 2) wx (fun i => byteVal (f i j)) x) y ∧
        windowSum h ((kernelSize ty).toNat / 2) wy
          (fun j => windowSum w ((kernelSize tx).toNat / 2) wx (fun i => byteVal (f i j)) x) y < byteVal (S x y) + 2 := by
  obtain ⟨wx, wy, g1, g2, hall⟩ := smooth_spec (conv := byteVal) (store := storeByte) (junk := junk) (junkB := junkB) hd hw hsz hs
    hw2 hh2 htx hty hgx0 hgx hgy0 hgy hb
  obtain ⟨M, S, h1, h2, h3⟩ := two_passes (f := f) (w := w) (h := h) (by omega) (by omega) g1.nonneg g2.nonneg g1.normal g2.normal
  obtain ⟨b', d, e, q1, q2⟩ := hall M S h1 h2
  exact ⟨b', d, S, wx, wy, e, q1, g1, g2, q2, h3⟩

end

/-! ## Examples -/

example : boxX id .ok (fun _ => 0) (fun _ => 7) none (⟨3, 1, 4, [3, 6, 0, 9]⟩ : GImage Rat) 1 none =
    .ok ([4, 3, 2, 0, 0], ⟨3, 1, 4, [4, 3, 2, 9]⟩) := by decide +kernel

/-- C77. Truncation can make a pixel darker by more than one: the mean of the nine samples is 4/3, the result is zero. -/
theorem c77_box_darker : (boxXY byteVal storeByte (fun _ => 0) (fun _ => 7) none
      (⟨3, 3, 3, [1, 0, 1, 2, 1, 2, 2, 1, 2]⟩ : GImage Byte) 1 1 none).bind (fun r => .ok (r.2.data[4]?)) = .ok (some 0) := by
  decide +kernel

/-- The hypotheses of `c77_smooth` can be met: the kernel of size three for the values 2 and 1. -/
example : smooth id .ok (fun _ => 0) (fun _ => 7) none (⟨2, 2, 2, [0, 16, 0, 16]⟩ : GImage Rat) 1 1 (fun k => if k = 0 then 2 else 1)
    (fun k => if k = 0 then 2 else 1) none = .ok ([12, 12, 12, 12], ⟨2, 2, 2, [4, 12, 4, 12]⟩) := by decide +kernel

end Nx
