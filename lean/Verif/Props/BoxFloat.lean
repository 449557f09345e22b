import Verif.Model.BoxFloat
import Verif.Props.ImageFilter
import Verif.Props.ScaleFloat

/-! # C151: the box filter in `float` -/

namespace Nx

/-! ## One line -/

/-- The sum of the first `j` samples as it is computed. -/
def firstSumF (x : Nat → Rat) : Nat → Rat
  | 0 => 0
  | 1 => x 0
  | j + 2 => f32 (firstSumF x (j + 1) + x (j + 1))

theorem firstSumF_succ (x : Nat → Rat) {j : Nat} (h : 1 ≤ j) : firstSumF x (j + 1) = f32 (firstSumF x j + x j) := by
  obtain ⟨i, rfl⟩ : ∃ i, j = i + 1 := ⟨j - 1, by omega⟩
  rfl

/-- The sum of the window at `i` as it is computed. -/
def runF (nr : Nat) (x : Nat → Rat) : Nat → Rat
  | 0 => firstSumF x (2 * nr + 1)
  | i + 1 => f32 (f32 (runF nr x i - x i) + x (i + 1 + 2 * nr))

theorem boxFirstF_ok {data0 : List Rat} {x : Nat → Rat} {nr : Nat} (hlen : 2 * nr + 1 ≤ data0.length) :
    ∀ (m j : Nat) (data : List Rat), m = 2 * nr + 1 - j → 1 ≤ j → j ≤ 2 * nr + 1 → data.length = data0.length →
      (∀ k (h : k < data.length), data[k] = if k = 0 then firstSumF x j else x k) →
      ∃ out, boxFirstF nr j data = .ok out ∧ out.length = data0.length ∧
        ∀ k (h : k < out.length), out[k] = if k = 0 then firstSumF x (2 * nr + 1) else x k := by
  intro m
  induction m with
  | zero =>
    intro j data hm h1 hj hl hinv
    have : j = 2 * nr + 1 := by omega
    subst this
    rw [boxFirstF, if_neg (by omega)]
    exact ⟨data, rfl, hl, hinv⟩
  | succ m ih =>
    intro j data hm h1 hj hl hinv
    rw [boxFirstF, if_pos (by omega), readAt_ok (show 0 < data.length by omega), readAt_ok (show j < data.length by omega)]
    simp only [Res.ok_bind]
    rw [writeAt_ok _ (show 0 < data.length by omega)]
    simp only [Res.ok_bind]
    refine ih (j + 1) _ (by omega) (by omega) (by omega) (by simpa using hl) ?_
    intro k h
    rw [List.length_set] at h
    rw [List.getElem_set]
    by_cases hk : 0 = k
    · subst hk
      rw [if_pos rfl, if_pos rfl, hinv 0 h, hinv j (by omega), if_pos rfl, if_neg (by omega), firstSumF_succ _ h1]
    · rw [if_neg hk, if_neg (by omega), hinv k h, if_neg (by omega)]

theorem boxSlideF_ok {data0 : List Rat} {x : Nat → Rat} {nr n : Nat} (hlen : n + 2 * nr ≤ data0.length) :
    ∀ (m i : Nat) (data : List Rat) (prev : Rat), m = n - i → 1 ≤ i → i ≤ n → data.length = data0.length →
      prev = x (i - 1) →
      (∀ k (h : k < data.length), data[k] = if k < i then runF nr x k else x k) →
      ∃ out, boxSlideF nr n i prev data = .ok out ∧ out.length = data0.length ∧
        ∀ k (h : k < out.length), out[k] = if k < n then runF nr x k else x k := by
  intro m
  induction m with
  | zero =>
    intro i data prev hm h1 hi hl hp hinv
    have : i = n := by omega
    subst this
    rw [boxSlideF, if_neg (by omega)]
    exact ⟨data, rfl, hl, hinv⟩
  | succ m ih =>
    intro i data prev hm h1 hi hl hp hinv
    rw [boxSlideF, if_pos (by omega), readAt_ok (show i < data.length by omega), readAt_ok (show i - 1 < data.length by omega),
      readAt_ok (show i + 2 * nr < data.length by omega)]
    simp only [Res.ok_bind]
    rw [writeAt_ok _ (show i < data.length by omega)]
    simp only [Res.ok_bind]
    refine ih (i + 1) _ _ (by omega) (by omega) (by omega) (by simpa using hl) ?_ ?_
    · rw [hinv i (by omega), if_neg (by omega)]; simp
    · intro k h
      rw [List.length_set] at h
      rw [List.getElem_set]
      by_cases hk : i = k
      · subst hk
        rw [if_pos rfl, if_pos (by omega), hinv (i - 1) (by omega), hinv (i + 2 * nr) (by omega), if_pos (by omega),
          if_neg (by omega), hp]
        obtain ⟨i', rfl⟩ : ∃ i', i = i' + 1 := ⟨i - 1, by omega⟩
        rfl
      · rw [if_neg hk, hinv k h]
        by_cases hk2 : k < i
        · rw [if_pos hk2, if_pos (by omega)]
        · rw [if_neg hk2, if_neg (by omega)]

theorem boxDivideF_ok {data0 : List Rat} {nr n : Nat} (hlen : n ≤ data0.length) :
    ∀ (m i : Nat) (data : List Rat), m = n - i → i ≤ n → data.length = data0.length →
      (∀ k (h : k < data.length) (h' : k < data0.length), data[k] = if k < i then f32 (data0[k] / f32 ((2 * nr + 1 : Nat) : Rat)) else data0[k]) →
      ∃ out, boxDivideF nr n i data = .ok out ∧ out.length = data0.length ∧
        ∀ k (h : k < out.length) (h' : k < data0.length), out[k] = if k < n then f32 (data0[k] / f32 ((2 * nr + 1 : Nat) : Rat)) else data0[k] := by
  intro m
  induction m with
  | zero =>
    intro i data hm hi hl hinv
    have : i = n := by omega
    subst this
    rw [boxDivideF, if_neg (by omega)]
    exact ⟨data, rfl, hl, hinv⟩
  | succ m ih =>
    intro i data hm hi hl hinv
    rw [boxDivideF, if_pos (by omega), readAt_ok (show i < data.length by omega)]
    simp only [Res.ok_bind]
    rw [writeAt_ok _ (show i < data.length by omega)]
    simp only [Res.ok_bind]
    refine ih (i + 1) _ (by omega) (by omega) (by simpa using hl) ?_
    intro k h h'
    rw [List.length_set] at h
    rw [List.getElem_set]
    by_cases hk : i = k
    · subst hk
      rw [if_pos rfl, if_pos (by omega), hinv i h h', if_neg (by omega)]
    · rw [if_neg hk, hinv k h h']
      by_cases hk2 : k < i
      · rw [if_pos hk2, if_pos (by omega)]
      · rw [if_neg hk2, if_neg (by omega)]


theorem convolveBoxF_ok (n nr : Nat) (data : List Rat) (x : Nat → Rat) (hn : 1 < n) (hnr : 1 ≤ nr)
    (hd : ∀ j (h : j < data.length), data[j] = x j) (hlen : n + 2 * nr ≤ data.length) :
    ∃ out, convolveBoxF n data nr = .ok out ∧ out.length = data.length ∧
      ∀ j (h : j < out.length), out[j] =
        if j < n then f32 (runF nr x j / f32 ((2 * nr + 1 : Nat) : Rat)) else x j := by
  unfold convolveBoxF
  rw [if_pos hn, if_pos hnr, readAt_ok (show 0 < data.length by omega)]
  simp only [Res.ok_bind]
  obtain ⟨d1, a1, a2, a3⟩ := boxFirstF_ok (x := x) (nr := nr) (data0 := data) (by omega) _ 1 data rfl (by omega) (by omega) rfl (by
    intro k h
    by_cases hk : k = 0
    · subst hk; rw [if_pos rfl, hd 0 h]; rfl
    · rw [if_neg hk]; exact hd k h)
  rw [a1]
  simp only [Res.ok_bind]
  obtain ⟨d2, b1, b2, b3⟩ := boxSlideF_ok (x := x) (nr := nr) (n := n) (data0 := d1) (by omega) _ 1 d1 data[0] rfl (by omega) (by omega) rfl
    (hd 0 (by omega)) (by
      intro k h
      rw [a3 k h]
      by_cases hk : k = 0
      · subst hk; rw [if_pos rfl, if_pos (by omega)]; rfl
      · rw [if_neg hk, if_neg (by omega)])
  rw [b1]
  simp only [Res.ok_bind]
  obtain ⟨d3, c1, c2, c3⟩ := boxDivideF_ok (nr := nr) (n := n) (data0 := d2) (by omega) _ 0 d2 rfl (by omega) rfl (by
    intro k h h'; rw [if_neg (by omega)])
  refine ⟨d3, c1, by omega, ?_⟩
  intro j h
  rw [c3 j h (by omega), b3 j (by omega)]
  by_cases hj : j < n
  · rw [if_pos hj, if_pos hj, if_pos hj]
  · rw [if_neg hj, if_neg hj, if_neg hj]

theorem firstSumF_congr {x y : Nat → Rat} : ∀ {j : Nat}, (∀ k < j, x k = y k) → firstSumF x j = firstSumF y j
  | 0, _ => rfl
  | 1, h => h 0 (by omega)
  | j + 2, h => by
    show f32 (firstSumF x (j + 1) + x (j + 1)) = f32 (firstSumF y (j + 1) + y (j + 1))
    rw [firstSumF_congr (fun k hk => h k (by omega)), h (j + 1) (by omega)]

theorem runF_congr {nr : Nat} {x y : Nat → Rat} : ∀ {i : Nat}, (∀ k ≤ i + 2 * nr, x k = y k) → runF nr x i = runF nr y i
  | 0, h => firstSumF_congr (fun k hk => h k (by omega))
  | i + 1, h => by
    show f32 (f32 (runF nr x i - x i) + x (i + 1 + 2 * nr)) = f32 (f32 (runF nr y i - y i) + y (i + 1 + 2 * nr))
    rw [runF_congr (fun k hk => h k (by omega)), h i (by omega), h (i + 1 + 2 * nr) (by omega)]

/-- The samples with the border. -/
def bordered (n r : Nat) (s : Nat → Rat) (k : Nat) : Rat := s (nearest n ((k : Int) - r))

/-- The mean of a window as it is computed. -/
def meanF (n r : Nat) (s : Nat → Rat) (x : Nat) : Rat := f32 (runF r (bordered n r s) x / f32 ((2 * r + 1 : Nat) : Rat))

theorem boxF_lineOp {n r : Nat} (hn : 1 < n) (hr : 1 ≤ r) : LineOp n r (fun b => convolveBoxF n b r) (meanF n r) := by
  intro b s hl hb
  obtain ⟨out, e, ol, ho⟩ := convolveBoxF_ok n r b (fun j => (b[j]?).getD 0) hn hr (by
    intro j h
    simp [List.getElem?_eq_getElem h]) hl
  refine ⟨out, e, ol, ?_⟩
  intro x hx
  have hlt : x < out.length := by omega
  rw [List.getElem?_eq_getElem hlt, ho x hlt, if_pos hx]
  unfold meanF
  rw [runF_congr (y := bordered n r s)]
  intro k hk
  rw [hb k (by omega)]
  rfl

/-! ## Images -/

section
variable {α : Type} [Inhabited α] {conv : α → Rat} {store : Rat → Res α} {junk : Nat → α} {junkB : Nat → Rat}
  {dest : Option (GImage α)} {src : GImage α} {w h : Nat} {f : Nat → Nat → α}

/-- Rows: what is stored. -/
theorem boxXF_spec (hd : ∀ d, dest = some d → d.Wf) (hw : src.Wf) (hsz : w * h ≤ 2147483647)
    (hs : src.Shows w h f) (h2 : 2 ≤ w) {r : Nat} (hr : 1 ≤ r) {buffer : Option (List Rat)}
    (hb : ∀ b, buffer = some b → w + 2 * r ≤ b.length) {S : Nat → Nat → α}
    (hS : ∀ x y, x < w → y < h → store (meanF w r (fun i => conv (f i y)) x) = .ok (S x y)) :
    ∃ b' d, boxXF conv store junk junkB dest src r buffer = .ok (b', d) ∧ d.Wf ∧ d.Shows w h S ∧
      (∀ b, buffer = some b → b'.length = b.length) ∧ (dest = none → d.stride = src.stride) := by
  obtain ⟨d, g, e, dw, dh, dst, hP, hin⟩ := filterDest_spec (junk := junk) hd hw hsz hs 0 (Nat.zero_le _)
  have e1 := hs.width_eq
  have e2 := hs.height_eq
  have hbl : w + 2 * r ≤ (buffer.getD (filterBuffer src.width r junkB)).length := by
    cases hbuf : buffer with
    | none => simp [filterBuffer, e1]
    | some b => exact hb b hbuf
  obtain ⟨b', d', er, hl, hP'⟩ := filterRows_spec (conv := conv) (store := store) (boxF_lineOp (n := w) (r := r) (by omega) hr)
    (by omega) (src := filterSrc dest src) (sst := src.stride) dst (f := f) (S := S) (g := g) (fun l hl => filterSrc_spec hs l hl)
    (by intro hn; obtain ⟨a, b⟩ := hin (filterSrc_none hn); exact ⟨by rw [a], b⟩) hS hbl hP
  obtain ⟨q1, q2⟩ := pix_image dw dh dst rfl hP'
  refine ⟨b', { d with data := d' }, ?_, q1, q2, ?_, ?_⟩
  · unfold boxXF
    rw [e]
    simp only [Res.ok_bind]
    rw [← e1, ← e2] at er
    rw [er]
    rfl
  · intro b hb
    rw [hl, hb]
    rfl
  · intro hn
    rw [(hin hn).1]

/-- Columns. -/
theorem boxYF_spec (hd : ∀ d, dest = some d → d.Wf) (hw : src.Wf) (hsz : w * h ≤ 2147483647)
    (hs : src.Shows w h f) (h2 : 2 ≤ h) {r : Nat} (hr : 1 ≤ r) {buffer : Option (List Rat)}
    (hb : ∀ b, buffer = some b → h + 2 * r ≤ b.length) {S : Nat → Nat → α}
    (hS : ∀ x y, x < w → y < h → store (meanF h r (fun i => conv (f x i)) y) = .ok (S x y)) :
    ∃ b' d, boxYF conv store junk junkB dest src r buffer = .ok (b', d) ∧ d.Wf ∧ d.Shows w h S ∧
      (∀ b, buffer = some b → b'.length = b.length) ∧ (dest = none → d.stride = src.stride) := by
  obtain ⟨d, g, e, dw, dh, dst, hP, hin⟩ := filterDest_spec (junk := junk) hd hw hsz hs 0 (Nat.zero_le _)
  have e2 := hs.height_eq
  have hbl : h + 2 * r ≤ (buffer.getD (filterBuffer src.height r junkB)).length := by
    cases hbuf : buffer with
    | none => simp [filterBuffer, e2]
    | some b => exact hb b hbuf
  obtain ⟨b', d', er, hl, hP'⟩ := filterCols_spec (conv := conv) (store := store) (boxF_lineOp (n := h) (r := r) (by omega) hr)
    (by omega) (src := filterSrc dest src) (sst := src.stride) dst (f := f) (S := S) (g := g) (fun l hl => filterSrc_spec hs l hl)
    (by intro hn; obtain ⟨a, b⟩ := hin (filterSrc_none hn); exact ⟨by rw [a], b⟩) hS hbl hP
  obtain ⟨q1, q2⟩ := pix_image dw dh dst rfl hP'
  refine ⟨b', { d with data := d' }, ?_, q1, q2, ?_, ?_⟩
  · unfold boxYF
    rw [e]
    simp only [Res.ok_bind]
    rw [← dw, ← e2] at er
    rw [er]
    rfl
  · intro b hb
    rw [hl, hb]
    rfl
  · intro hn
    rw [(hin hn).1]

/-- Rows, then columns: `M` is stored by the first pass, `S` by the second. -/
theorem boxXYF_spec (hd : ∀ d, dest = some d → d.Wf) (hw : src.Wf) (hsz : w * h ≤ 2147483647)
    (hs : src.Shows w h f) (hw2 : 2 ≤ w) (hh2 : 2 ≤ h) {rx ry : Nat} (hrx : 1 ≤ rx) (hry : 1 ≤ ry) {buffer : Option (List Rat)}
    (hb : ∀ b, buffer = some b → w + 2 * rx ≤ b.length ∧ h + 2 * ry ≤ b.length) {M S : Nat → Nat → α}
    (hM : ∀ x y, x < w → y < h → store (meanF w rx (fun i => conv (f i y)) x) = .ok (M x y))
    (hS : ∀ x y, x < w → y < h → store (meanF h ry (fun i => conv (M x i)) y) = .ok (S x y)) :
    ∃ b' d, boxXYF conv store junk junkB dest src rx ry buffer = .ok (b', d) ∧ d.Wf ∧ d.Shows w h S := by
  obtain ⟨d, g, e, dw, dh, dst, hP, hin⟩ := filterDest_spec (junk := junk) hd hw hsz hs 0 (Nat.zero_le _)
  have e1 := hs.width_eq
  have e2 := hs.height_eq
  have hbl : w + 2 * rx ≤ (buffer.getD (filterBuffer (max src.width src.height) (max rx ry) junkB)).length ∧
      h + 2 * ry ≤ (buffer.getD (filterBuffer (max src.width src.height) (max rx ry) junkB)).length := by
    cases hbuf : buffer with
    | none =>
      have : (filterBuffer (max src.width src.height) (max rx ry) junkB).length = max w h + 2 * max rx ry := by
        simp [filterBuffer, e1, e2]
      rw [Option.getD_none, this]
      omega
    | some b => exact hb b hbuf
  obtain ⟨b1, d1, er, hw1, hs1, hl1, _⟩ := boxXF_spec (conv := conv) (store := store) (junk := junk) (junkB := junkB)
    (dest := dest.map (fun _ => d)) (src := src) (by
      intro d' hd'
      cases hdd : dest with
      | none => rw [hdd] at hd'; cases hd'
      | some d0 =>
        rw [hdd] at hd'
        cases hd'
        exact ⟨by rw [dw]; exact dst, by rw [hP.len, dh]⟩) hw hsz hs hw2 hrx
    (buffer := some (buffer.getD (filterBuffer (max src.width src.height) (max rx ry) junkB)))
    (by intro b hb; cases hb; exact hbl.1) hM
  obtain ⟨b2, d2, er2, hw2', hs2, _, _⟩ := boxYF_spec (conv := conv) (store := store) (junk := junk) (junkB := junkB)
    (dest := none) (src := d1) (by intro d h; cases h) hw1 hsz hs1 hh2 hry (buffer := some b1)
    (by intro b hb; cases hb; rw [hl1 _ rfl]; exact hbl.2) hS
  refine ⟨b2, d2, ?_, hw2', hs2⟩
  unfold boxXYF
  rw [e]
  simp only [Res.ok_bind]
  rw [er]
  exact er2

end

/-! ## Integers -/

theorem f32_winSum {z : Nat → Int} {B N n : Nat} (hz : ∀ k, |z k| ≤ B) (hn : n ≤ N) (hB : N * B ≤ 16777216) (lo : Nat) :
    f32 (winSum (fun k => (z k : Rat)) lo n) = winSum (fun k => (z k : Rat)) lo n := by
  have e : winSum (fun k => (z k : Rat)) lo n = ((∑ t ∈ Finset.range n, z (lo + t) : Int) : Rat) := by
    rw [winSum_eq_sum]
    push_cast
    rfl
  rw [e]
  apply f32_int
  have h1 : |∑ t ∈ Finset.range n, z (lo + t)| ≤ n * (B : Int) := by
    refine (Finset.abs_sum_le_sum_abs _ _).trans ?_
    have := Finset.sum_le_card_nsmul (Finset.range n) (fun t => |z (lo + t)|) (B : Int) (fun t _ => hz _)
    rw [Finset.card_range, nsmul_eq_mul] at this
    exact this
  have h2 : n * B ≤ N * B := Nat.mul_le_mul_right _ hn
  have h3 : ((n * B : Nat) : Int) ≤ 16777216 := by omega
  rw [Nat.cast_mul] at h3
  exact h1.trans h3

theorem firstSumF_int {z : Nat → Int} {B N : Nat} (hz : ∀ k, |z k| ≤ B) (hB : N * B ≤ 16777216) : ∀ j, j + 1 ≤ N →
    firstSumF (fun k => (z k : Rat)) (j + 1) = winSum (fun k => (z k : Rat)) 0 (j + 1)
  | 0, _ => by
    rw [winSum_last, winSum_zero]
    exact (zero_add _).symm
  | j + 1, h => by
    rw [firstSumF_succ _ (by omega), firstSumF_int hz hB j (by omega), ← f32_winSum hz h hB 0]
    congr 1
    rw [winSum_last _ 0 (j + 1), zero_add]

theorem runF_int {z : Nat → Int} {B r : Nat} (hz : ∀ k, |z k| ≤ B) (hB : (2 * r + 1) * B ≤ 16777216) :
    ∀ i, runF r (fun k => (z k : Rat)) i = winSum (fun k => (z k : Rat)) i (2 * r + 1)
  | 0 => firstSumF_int hz hB (2 * r) (by omega)
  | i + 1 => by
    show f32 (f32 (runF r (fun k => (z k : Rat)) i - z i) + z (i + 1 + 2 * r)) = _
    have e1 : runF r (fun k => (z k : Rat)) i - z i = winSum (fun k => (z k : Rat)) (i + 1) (2 * r) := by
      rw [runF_int hz hB i, winSum_first]
      ring
    rw [e1, f32_winSum hz (by omega) hB, ← f32_winSum hz (Nat.le_refl (2 * r + 1)) hB, winSum_last]

/-- For integers the mean is rounded once. -/
theorem meanF_int {n r B : Nat} {z : Nat → Int} (hz : ∀ k, |z k| ≤ B) (h1 : 1 ≤ B) (hB : (2 * r + 1) * B ≤ 16777216) (x : Nat) :
    meanF n r (fun k => (z k : Rat)) x = f32 (windowMean n r (fun k => (z k : Rat)) x) := by
  have hr : 2 * r + 1 ≤ 16777216 := le_trans (Nat.le_mul_of_pos_right _ h1) hB
  have e := runF_int (z := fun k => z (nearest n ((k : Int) - r))) (fun k => hz _) hB x
  unfold meanF windowMean
  rw [f32_nat hr]
  unfold bordered
  rw [e, winSum_eq_sum]
  have e2 : ∀ t : Nat, ((x + t : Nat) : Int) - r = (x : Int) + t - r := by
    intro t
    push_cast
    rfl
  have e3 : ((2 * r + 1 : Nat) : Rat) = 2 * r + 1 := by
    push_cast
    rfl
  simp only [e2, e3]

/-! ## Bytes -/

/-- Rounding does not change what is stored. -/
theorem storeByte_f32 {N m : Nat} (h0 : 0 < m) (hm : m ≤ 65793) (hN : N ≤ 255 * m) :
    storeByte (f32 ((N : Rat) / m)) = storeByte ((N : Rat) / m) := by
  have hmq : (0 : Rat) < m := by exact_mod_cast h0
  have hNq : (N : Rat) ≤ 255 * m := by exact_mod_cast hN
  have hq0 : (0 : Rat) ≤ (N : Rat) / m := by positivity
  have hq1 : (N : Rat) / m ≤ 255 := by
    rw [div_le_iff₀ hmq]
    exact hNq
  have hlow : ((N / m : Nat) : Rat) ≤ (N : Rat) / m := by
    rw [le_div_iff₀ hmq]
    exact_mod_cast Nat.div_mul_le_self N m
  have hup : (N : Rat) / m ≤ ((N / m : Nat) : Rat) + 1 - 1 / m := by
    have h1 : N + 1 ≤ (N / m + 1) * m := by
      have := Nat.lt_div_mul_add (a := N) h0
      rw [Nat.add_mul]
      omega
    have h2 : (N : Rat) + 1 ≤ (((N / m : Nat) : Rat) + 1) * m := by exact_mod_cast h1
    have h3 : ((N : Rat) + 1) / m ≤ ((N / m : Nat) : Rat) + 1 := by
      rw [div_le_iff₀ hmq]
      exact h2
    rw [add_div] at h3
    linarith
  have hd : N / m ≤ 255 := by
    apply Nat.div_le_of_le_mul
    rw [Nat.mul_comm]
    exact hN
  have hf0 : ((N / m : Nat) : Rat) ≤ f32 ((N : Rat) / m) := by
    have := f32_mono hlow
    rwa [f32_nat (by omega)] at this
  have herr : |f32 ((N : Rat) / m) - (N : Rat) / m| ≤ 1 / 131072 := by
    have := f32_err (q := (N : Rat) / m) (k := 8) (by norm_num) (by
      rw [abs_of_nonneg hq0]
      norm_num
      linarith)
    norm_num at this ⊢
    exact this
  have hinv : (1 : Rat) / 131072 < 1 / m := by
    apply one_div_lt_one_div_of_lt hmq
    have : (m : Rat) ≤ 65793 := by exact_mod_cast hm
    linarith
  have hf1 : f32 ((N : Rat) / m) < ((N / m : Nat) : Rat) + 1 := by
    have := (abs_le.mp herr).2
    linarith
  have hfl : ∀ v : Rat, ((N / m : Nat) : Rat) ≤ v → v < ((N / m : Nat) : Rat) + 1 → ratTrunc v = ((N / m : Nat) : Int) := by
    intro v h1 h2
    rw [ratTrunc_nonneg (le_trans (Nat.cast_nonneg _) h1)]
    exact Int.floor_eq_iff.mpr ⟨by exact_mod_cast h1, by exact_mod_cast h2⟩
  unfold storeByte
  rw [hfl _ hf0 hf1, hfl _ hlow (by have : (0 : Rat) < 1 / m := by positivity
                                    linarith)]

theorem meanF_byte {n r : Nat} (hr : r ≤ 32896) (s : Nat → Byte) (x : Nat) :
    storeByte (meanF n r (fun k => byteVal (s k)) x) = storeByte (windowMean n r (fun k => byteVal (s k)) x) := by
  have e := meanF_int (n := n) (r := r) (B := 255) (z := fun k => ((s k).toNat : Int)) (by
    intro k
    have := (s k).toNat_lt
    rw [abs_of_nonneg (by omega)]
    omega) (by norm_num) (by omega) x
  have e1 : (fun k => (((s k).toNat : Int) : Rat)) = fun k => byteVal (s k) := by
    funext k
    exact Int.cast_natCast _
  rw [e1] at e
  rw [e]
  have e2 : windowMean n r (fun k => byteVal (s k)) x =
      ((∑ t ∈ Finset.range (2 * r + 1), (s (nearest n ((x : Int) + t - r))).toNat : Nat) : Rat) / ((2 * r + 1 : Nat) : Rat) := by
    unfold windowMean byteVal
    push_cast
    rfl
  rw [e2]
  apply storeByte_f32 (by omega) (by omega)
  have := Finset.sum_le_card_nsmul (Finset.range (2 * r + 1)) (fun t => (s (nearest n ((x : Int) + t - r))).toNat) 255 (by
    intro t _
    have := (s (nearest n ((x : Int) + t - r))).toNat_lt
    omega)
  rw [Finset.card_range, nsmul_eq_mul, Nat.cast_id] at this
  omega

section
variable {junk : Nat → Byte} {junkB : Nat → Rat} {dest : Option (GImage Byte)} {src : GImage Byte} {w h : Nat} {f : Nat → Nat → Byte}

/-- C151, bytes, rows. Up to a radius of 32896 every pixel is the exact mean of its window without its fraction. -/
theorem c151_rows_uc_partial (hd : ∀ d, dest = some d → d.Wf) (hw : src.Wf) (hsz : w * h ≤ 2147483647)
    (hs : src.Shows w h f) (h2 : 2 ≤ w) {r : Nat} (hr : 1 ≤ r) (hr2 : r ≤ 32896) {buffer : Option (List Rat)}
    (hb : ∀ b, buffer = some b → w + 2 * r ≤ b.length) :
    ∃ b' d S, boxXF byteVal storeByte junk junkB dest src r buffer = .ok (b', d) ∧ d.Wf ∧ d.Shows w h S ∧
      ∀ x y, x < w → y < h → byteVal (S x y) ≤ windowMean w r (fun i => byteVal (f i y)) x ∧
        windowMean w r (fun i => byteVal (f i y)) x < byteVal (S x y) + 1 := by
  have hpos : ∀ _ : Nat, (0 : Rat) ≤ 1 / (2 * r + 1) := by
    intro _
    positivity
  have hM : ∀ x y : Nat, ∃ c, storeByte (windowMean w r (fun i => byteVal (f i y)) x) = .ok c ∧
      byteVal c ≤ windowMean w r (fun i => byteVal (f i y)) x ∧ windowMean w r (fun i => byteVal (f i y)) x < byteVal c + 1 := by
    intro x y
    rw [windowMean_eq]
    exact storeByte_spec (windowSum_ge (by omega) hpos (box_normal r) (fun i _ => byteVal_nonneg _) x)
      (windowSum_le (by omega) hpos (box_normal r) (fun i _ => byteVal_le _) x)
  choose M hM1 hM2 hM3 using hM
  obtain ⟨b', d, e, q1, q2, _, _⟩ := boxXF_spec (conv := byteVal) (store := storeByte) (junk := junk) (junkB := junkB) hd hw hsz hs h2
    hr hb (S := M) (by
      intro x y _ _
      rw [meanF_byte hr2]
      exact hM1 x y)
  exact ⟨b', d, M, e, q1, q2, fun x y _ _ => ⟨hM2 x y, hM3 x y⟩⟩

/-- C151, bytes. Up to a radius of 32896 the image is that of exact arithmetic. -/
theorem c151_box_uc_partial (hd : ∀ d, dest = some d → d.Wf) (hw : src.Wf) (hsz : w * h ≤ 2147483647)
    (hs : src.Shows w h f) (hw2 : 2 ≤ w) (hh2 : 2 ≤ h) {rx ry : Nat} (hrx : 1 ≤ rx) (hry : 1 ≤ ry) (hrx2 : rx ≤ 32896)
    (hry2 : ry ≤ 32896) {buffer : Option (List Rat)}
    (hb : ∀ b, buffer = some b → w + 2 * rx ≤ b.length ∧ h + 2 * ry ≤ b.length) :
    ∃ b1 d1 b2 d2 S, boxXYF byteVal storeByte junk junkB dest src rx ry buffer = .ok (b1, d1) ∧
      boxXY byteVal storeByte junk junkB dest src rx ry buffer = .ok (b2, d2) ∧ d1.Wf ∧ d1.Shows w h S ∧ d2.Shows w h S ∧
      ∀ x y, x < w → y < h →
        byteVal (S x y) ≤ (∑ u ∈ Finset.range (2 * ry + 1), ∑ t ∈ Finset.range (2 * rx + 1),
          byteVal (f (nearest w ((x : Int) + t - rx)) (nearest h ((y : Int) + u - ry)))) / ((2 * rx + 1) * (2 * ry + 1)) ∧
        (∑ u ∈ Finset.range (2 * ry + 1), ∑ t ∈ Finset.range (2 * rx + 1),
          byteVal (f (nearest w ((x : Int) + t - rx)) (nearest h ((y : Int) + u - ry)))) / ((2 * rx + 1) * (2 * ry + 1))
            < byteVal (S x y) + 2 := by
  have hpos : ∀ r : Nat, ∀ _ : Nat, (0 : Rat) ≤ 1 / (2 * r + 1) := by
    intro r _
    positivity
  obtain ⟨M, S, h1, h2, h3⟩ := two_passes (f := f) (w := w) (h := h) (by omega) (by omega) (hpos rx) (hpos ry) (box_normal rx) (box_normal ry)
  simp only [← windowMean_eq] at h1 h2 h3
  obtain ⟨b2, d2, e2, _, q2⟩ := boxXY_spec (conv := byteVal) (store := storeByte) (junk := junk) (junkB := junkB) hd hw hsz hs hw2 hh2
    hrx hry hb (M := M) (S := S) h1 h2
  obtain ⟨b1, d1, e1, p1, q1⟩ := boxXYF_spec (conv := byteVal) (store := storeByte) (junk := junk) (junkB := junkB) hd hw hsz hs hw2 hh2
    hrx hry hb (M := M) (S := S) (by
      intro x y hx hy
      rw [meanF_byte hrx2]
      exact h1 x y hx hy) (by
      intro x y hx hy
      rw [meanF_byte hry2]
      exact h2 x y hx hy)
  refine ⟨b1, d1, b2, d2, S, e1, e2, p1, q1, q2, ?_⟩
  intro x y hx hy
  have := h3 x y hx hy
  rw [c77_rectangle w h rx ry (fun i j => byteVal (f i j)) x y] at this
  exact this

/-! ## A radius of 32897 -/

theorem white_first {j : Nat} (hj : j + 1 = 65793) : firstSumF (fun _ => 255) (j + 1 + 1 + 1) = 16777724 := by
  have e := firstSumF_int (z := fun _ => 255) (B := 255) (N := 65793) (by intro k; norm_num) (by norm_num) j (by omega)
  have e1 : winSum (fun _ => ((255 : Int) : Rat)) 0 (j + 1) = 16777215 := by
    rw [winSum_eq_sum, Finset.sum_const, Finset.card_range, hj, nsmul_eq_mul]
    norm_num
  have e2 : firstSumF (fun _ => 255) (j + 1) = 16777215 := by
    rw [← e1, ← e]
    norm_num
  rw [firstSumF_succ _ (by omega), firstSumF_succ _ (by omega), e2]
  decide +kernel

theorem white_run {r : Nat} (hr : r = 32897) : ∀ i, runF r (fun _ => 255) i = 16777724
  | 0 => by
    obtain ⟨j, hj⟩ : ∃ j, j + 1 = 65793 := ⟨65792, rfl⟩
    have : runF r (fun _ => 255) 0 = firstSumF (fun _ => 255) (j + 1 + 1 + 1) := by
      show firstSumF _ (2 * r + 1) = _
      congr 1
      omega
    rw [this, white_first hj]
  | i + 1 => by
    show f32 (f32 (runF r (fun _ => 255) i - 255) + 255) = _
    rw [white_run hr i]
    decide +kernel

/-- C151 fails for a radius of 32897: every white image becomes gray. -/
theorem c151_white_false (hd : ∀ d, dest = some d → d.Wf) (hw : src.Wf) (hsz : w * h ≤ 2147483647)
    (hs : src.Shows w h (fun _ _ => 255)) (h2 : 2 ≤ w) :
    ∃ b' d, boxXF byteVal storeByte junk junkB dest src 32897 none = .ok (b', d) ∧ d.Shows w h (fun _ _ => 254) := by
  obtain ⟨r, hr⟩ : ∃ r, r = 32897 := ⟨_, rfl⟩
  obtain ⟨b', d, e, _, q2, _, _⟩ := boxXF_spec (conv := byteVal) (store := storeByte) (junk := junk) (junkB := junkB) (r := r)
    (buffer := none) hd hw hsz hs h2 (by omega) (by intro b h; cases h) (S := fun _ _ => 254) (by
      intro x y _ _
      have e1 : bordered w r (fun _ => byteVal 255) = fun _ => 255 := by
        funext k
        show byteVal 255 = 255
        decide +kernel
      unfold meanF
      rw [e1, white_run hr, hr]
      decide +kernel)
  rw [← hr]
  exact ⟨b', d, e, q2⟩

end

/-! ## Images of `float` -/

section
variable {junk junkB : Nat → Rat} {dest : Option (GImage Rat)} {src : GImage Rat} {w h : Nat}

/-- C151, integers. As long as no sum exceeds 2^24, every sample is the mean of its window, rounded once. -/
theorem c151_integers (hd : ∀ d, dest = some d → d.Wf) (hw : src.Wf) (hsz : w * h ≤ 2147483647) {z : Nat → Nat → Int}
    (hs : src.Shows w h (fun x y => (z x y : Rat))) (h2 : 2 ≤ w) {r B : Nat} (hr : 1 ≤ r) (hz : ∀ x y, |z x y| ≤ B) (h1 : 1 ≤ B)
    (hB : (2 * r + 1) * B ≤ 16777216) {buffer : Option (List Rat)} (hb : ∀ b, buffer = some b → w + 2 * r ≤ b.length) :
    ∃ b' d, boxXF id .ok junk junkB dest src r buffer = .ok (b', d) ∧ d.Wf ∧
      d.Shows w h (fun x y => f32 (windowMean w r (fun i => (z i y : Rat)) x)) := by
  obtain ⟨b', d, e, q1, q2, _, _⟩ := boxXF_spec (conv := id) (store := .ok) (junk := junk) (junkB := junkB) hd hw hsz hs h2 hr hb
    (S := fun x y => f32 (windowMean w r (fun i => (z i y : Rat)) x)) (by
      intro x y _ _
      exact congrArg Res.ok (meanF_int (z := fun i => z i y) (fun k => hz k y) h1 hB x))
  exact ⟨b', d, e, q1, q2⟩

theorem const_run (c : Rat) (h : f32 (f32 (f32 (f32 (c + c) + c) - c) + c) = f32 (f32 (c + c) + c)) :
    ∀ i, runF 1 (fun _ => c) i = f32 (f32 (c + c) + c)
  | 0 => rfl
  | i + 1 => by
    show f32 (f32 (runF 1 (fun _ => c) i - c) + c) = _
    rw [const_run c h i, h]

/-- C151 fails for `float`: a constant image can become brighter than all of its samples, everywhere. -/
theorem c151_constant_false (hd : ∀ d, dest = some d → d.Wf) (hw : src.Wf) (hsz : w * h ≤ 2147483647)
    (hs : src.Shows w h (fun _ _ => 15516914 / 8388608)) (h2 : 2 ≤ w) :
    ∃ b' d, boxXF id .ok junk junkB dest src 1 none = .ok (b', d) ∧ d.Shows w h (fun _ _ => 15516915 / 8388608) := by
  obtain ⟨b', d, e, _, q2, _, _⟩ := boxXF_spec (conv := id) (store := .ok) (junk := junk) (junkB := junkB) (r := 1)
    (buffer := none) hd hw hsz hs h2 (by omega) (by intro b h; cases h) (S := fun _ _ => 15516915 / 8388608) (by
      intro x y _ _
      unfold meanF
      have e1 : bordered w 1 (fun _ => id (15516914 / 8388608 : Rat)) = fun _ => 15516914 / 8388608 := rfl
      rw [e1, const_run _ (by decide +kernel)]
      decide +kernel)
  exact ⟨b', d, e, q2⟩

theorem large_one {n : Nat} (hn : 2 ≤ n) {k : Nat} (hk : 2 ≤ k) :
    bordered n 1 (fun i => if i = 0 then 67108864 else 1) k = 1 := by
  have h : nearest n ((k : Int) - (1 : Nat)) ≠ 0 := by
    unfold nearest
    split
    · omega
    · split <;> omega
  show (if nearest n ((k : Int) - (1 : Nat)) = 0 then _ else _) = _
  rw [if_neg h]

theorem large_first {n : Nat} (hn : 2 ≤ n) {k : Nat} (hk : k < 2) :
    bordered n 1 (fun i => if i = 0 then 67108864 else 1) k = 67108864 := by
  have h : nearest n ((k : Int) - (1 : Nat)) = 0 := by
    unfold nearest
    split
    · rfl
    · split <;> omega
  show (if nearest n ((k : Int) - (1 : Nat)) = 0 then _ else _) = _
  rw [if_pos h]

/-- A row that starts with one large sample. -/
theorem large_run {n : Nat} (hn : 2 ≤ n) : ∀ i, i + 2 < n →
    runF 1 (bordered n 1 (fun i => if i = 0 then 67108864 else 1)) (i + 2) = 1
  | 0, h => by
    have hb := fun k hk => large_one (n := n) hn (k := k) hk
    have hb0 := fun k hk => large_first (n := n) hn (k := k) hk
    show f32 (f32 (f32 (f32 (f32 (f32 (bordered n 1 _ 0 + bordered n 1 _ 1) + bordered n 1 _ 2) - bordered n 1 _ 0) +
      bordered n 1 _ 3) - bordered n 1 _ 1) + bordered n 1 _ 4) = 1
    rw [hb0 0 (by omega), hb0 1 (by omega), hb 2 (by omega), hb 3 (by omega), hb 4 (by omega)]
    decide +kernel
  | i + 1, h => by
    have hb := fun k hk => large_one (n := n) hn (k := k) hk
    show f32 (f32 (runF 1 (bordered n 1 _) (i + 2) - bordered n 1 _ (i + 2)) + bordered n 1 _ (i + 2 + 1 + 2 * 1)) = 1
    rw [large_run hn i (by omega), hb _ (by omega), hb _ (by omega)]
    decide +kernel

/-- C151 fails for `float`: after one large sample all means are wrong, in images of any width. All samples of the windows are one,
the results are about 1/3. -/
theorem c151_f32_false (hd : ∀ d, dest = some d → d.Wf) (hw : src.Wf) (hsz : w * h ≤ 2147483647)
    (hs : src.Shows w h (fun x _ => if x = 0 then 67108864 else 1)) (h2 : 2 ≤ w) :
    ∃ b' d S, boxXF id .ok junk junkB dest src 1 none = .ok (b', d) ∧ d.Shows w h S ∧
      ∀ x y, 2 ≤ x → x < w → y < h → S x y = 11184811 / 33554432 ∧
        windowMean w 1 (fun i => if i = 0 then 67108864 else 1) x = 1 := by
  obtain ⟨b', d, e, _, q2, _, _⟩ := boxXF_spec (conv := id) (store := .ok) (junk := junk) (junkB := junkB) (r := 1)
    (buffer := none) hd hw hsz hs h2 (by omega) (by intro b h; cases h)
    (S := fun x _ => meanF w 1 (fun i => if i = 0 then 67108864 else 1) x) (by
      intro x y _ _
      rfl)
  refine ⟨b', d, _, e, q2, ?_⟩
  intro x y hx hxw _
  constructor
  · obtain ⟨i, rfl⟩ : ∃ i, x = i + 2 := ⟨x - 2, by omega⟩
    show f32 (runF 1 _ (i + 2) / _) = _
    rw [large_run h2 i hxw]
    decide +kernel
  · have hne : ∀ t : Nat, nearest w ((x : Int) + t - (1 : Nat)) ≠ 0 := by
      intro t
      unfold nearest
      split
      · omega
      · split <;> omega
    unfold windowMean
    simp only [if_neg (hne _)]
    rw [Finset.sum_const, Finset.card_range]
    norm_num

end

/-! ## Examples -/

example : boxXF byteVal storeByte (fun _ => 0) (fun _ => 7) none (⟨3, 1, 4, [3, 6, 0, 9]⟩ : GImage Byte) 1 none =
    .ok ([4, 3, 2, 0, 0], ⟨3, 1, 4, [4, 3, 2, 9]⟩) := by decide +kernel

example : (boxXYF byteVal storeByte (fun _ => 0) (fun _ => 7) none (⟨3, 3, 3, [1, 0, 1, 2, 1, 2, 2, 1, 2]⟩ : GImage Byte) 1 1 none).bind
    (fun r => .ok r.2.data) = .ok [0, 0, 0, 0, 0, 0, 1, 1, 1] := by
  decide +kernel

example : boxXF id .ok (fun _ => 0) (fun _ => 7) none (⟨4, 1, 4, [67108864, 1, 1, 1]⟩ : GImage Rat) 1 none =
    .ok ([44739244, 22369622, 11184811 / 33554432, 11184811 / 33554432, 1, 1],
      ⟨4, 1, 4, [44739244, 22369622, 11184811 / 33554432, 11184811 / 33554432]⟩) := by
  decide +kernel

end Nx
