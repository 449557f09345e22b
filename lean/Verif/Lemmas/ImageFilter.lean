import Verif.Model.ImageFilter
import Verif.Spec.ImageFilter
import Verif.Lemmas.ImageArith
import Verif.Props.Filter
import Mathlib.Algebra.BigOperators.Ring.Finset
import Mathlib.Algebra.BigOperators.Field
import Mathlib.Tactic.Ring

/-! # Lemmas about the filters for images -/

namespace Nx

theorem winSum_eq_sum (f : Nat → Rat) (lo n : Nat) : winSum f lo n = ∑ t ∈ Finset.range n, f (lo + t) := by
  induction n with
  | zero => rfl
  | succ n ih => rw [winSum_last, Finset.sum_range_succ, ih]

theorem extend_repeat (n : Nat) (s : Nat → Rat) (p : Int) : extend 0 n s .repeat p = s (nearest n p) := by
  unfold nearest
  simp only [extend]
  split
  · rfl
  · split <;> rfl

/-- What a filter for one line of `n` samples with a border of `nb` computes: `L`. -/
def LineOp (n nb : Nat) (flt : List Rat → Res (List Rat)) (L : (Nat → Rat) → Nat → Rat) : Prop :=
  ∀ (b : List Rat) (s : Nat → Rat), n + 2 * nb ≤ b.length →
    (∀ k : Nat, k < n + 2 * nb → b[k]? = some (s (nearest n ((k : Int) - nb)))) →
    ∃ out, flt b = .ok out ∧ out.length = b.length ∧ ∀ x < n, out[x]? = some (L s x)

theorem getElem_of_some {l : List Rat} {k : Nat} {v : Rat} (h : k < l.length) (e : l[k]? = some v) : l[k] = v := by
  rw [List.getElem?_eq_getElem h] at e
  exact Option.some.inj e

theorem box_lineOp {n r : Nat} (hn : 1 < n) (hr : 1 ≤ r) : LineOp n r (fun b => convolveBox n b r) (windowMean n r) := by
  intro b s hl hb
  obtain ⟨out, e, ol, ho⟩ := c38_convolve_box n r b (fun j => (b[j]?).getD 0) hn hr (by
    intro j h
    simp [List.getElem?_eq_getElem h]) hl
  refine ⟨out, e, ol, ?_⟩
  intro x hx
  have hlt : x < out.length := by omega
  rw [List.getElem?_eq_getElem hlt, ho x hlt, if_pos hx, winSum_eq_sum]
  unfold windowMean
  congr 2
  · apply Finset.sum_congr rfl
    intro t ht
    rw [Finset.mem_range] at ht
    rw [hb (x + t) (by omega)]
    simp only [Option.getD_some]
    push_cast
    rfl
  · push_cast
    rfl

theorem sym_lineOp {n nk : Nat} (hn : 1 < n) (hnk : 1 < nk) {kernel : List Rat} {w : Nat → Rat} (hkl : nk ≤ kernel.length)
    (hw : ∀ k (h : k < kernel.length), k < nk → kernel[k] = w k) :
    LineOp n (nk - 1) (fun b => convolveSym n b nk kernel) (windowSum n (nk - 1) w) := by
  intro b s hl hb
  obtain ⟨out, e, ol, ho⟩ := c38_convolve_sym n nk b kernel (fun j => (b[j]?).getD 0) w hn hnk (by
    intro j h
    simp [List.getElem?_eq_getElem h]) (by omega) hw hkl
  refine ⟨out, e, ol, ?_⟩
  intro x hx
  have hlt : x < out.length := by omega
  rw [List.getElem?_eq_getElem hlt, ho x hlt, if_pos hx, winSum_eq_sum]
  unfold windowSum
  have e1 : 2 * nk - 1 = 2 * (nk - 1) + 1 := by omega
  rw [e1]
  congr 1
  apply Finset.sum_congr rfl
  intro t ht
  rw [Finset.mem_range] at ht
  rw [hb (x + t) (by omega)]
  simp only [Option.getD_some]
  have e2 : absDiff (x + t) (x + nk - 1) = ((t : Int) - (nk - 1 : Nat)).natAbs := by
    unfold absDiff
    omega
  rw [e2]
  push_cast
  rfl

variable {α : Type} {conv : α → Rat} {store : Rat → Res α}

theorem filterLine_spec {flt : List Rat → Res (List Rat)} {L : (Nat → Rat) → Nat → Rat} {n nb : Nat} (hL : LineOp n nb flt L)
    (hn : 1 < n) {buffer : List Rat} (hb : n + 2 * nb ≤ buffer.length) {data : List α} {stride : Nat} {s : Nat → α}
    (hs : ∀ i < n, data[i * stride]? = some (s i)) :
    ∃ out, filterLine conv flt n nb buffer data stride = .ok out ∧ out.length = buffer.length ∧
      ∀ x < n, out[x]? = some (L (fun i => conv (s i)) x) := by
  obtain ⟨b, e, bl, hb'⟩ := c38_border conv (0 : Rat) n nb stride data s buffer .repeat hn hb (by intro h; cases h) hs
  obtain ⟨out, e', ol, ho⟩ := hL b (fun i => conv (s i)) (by omega) (by
    intro k hk
    rw [hb' k hk, extend_repeat])
  refine ⟨out, ?_, by omega, ho⟩
  unfold filterLine
  rw [e]
  exact e'

theorem storeRow_spec {st w H y : Nat} (hst : w ≤ st) (hy : y < H) {b : List Rat} {S : Nat → α}
    (hb : ∀ x < w, ∃ v, b[x]? = some v ∧ store v = .ok (S x)) {d : List α} {g : Nat → Nat → α} (h : Pix st w H d g) :
    ∃ d', storeLine store w (fun x => y * st + x) b d = .ok d' ∧ Pix st w H d' (fun x' y' => if y' = y then S x' else g x' y') := by
  obtain ⟨d', e, hP⟩ := pixels_spec (st := st) (w := w) (H := H) (y := y) (φ := fun x _ => S x) (i0 := 0) (n := w)
    (body := fun i d => do
      let v ← readAt b i
      let c ← store v
      writeAt d (y * st + i) c) hst hy (Nat.le_refl _) (Nat.zero_le _) (by
      intro x d g _ hx _
      obtain ⟨v, e1, e2⟩ := hb x hx
      rw [readAt_some e1]
      simp only [Res.ok_bind]
      rw [e2]
      rfl) h
  refine ⟨d', e, hP.congr ?_⟩
  intro x' y' hx' _
  by_cases hc : y' = y
  · rw [if_pos ⟨hc, Nat.zero_le _, hx'⟩, if_pos hc]
  · rw [if_neg (by omega), if_neg hc]

theorem storeCol_spec {st w H x : Nat} (hst : w ≤ st) (hx : x < w) {b : List Rat} {S : Nat → α}
    (hb : ∀ y < H, ∃ v, b[y]? = some v ∧ store v = .ok (S y)) {d : List α} {g : Nat → Nat → α} (h : Pix st w H d g) :
    ∃ d', storeLine store H (fun y => x + y * st) b d = .ok d' ∧ Pix st w H d' (fun x' y' => if x' = x then S y' else g x' y') := by
  obtain ⟨d', e, hP⟩ := forLoop_spec (n := H) (i0 := 0) (s := d) (body := fun i d => do
      let v ← readAt b i
      let c ← store v
      writeAt d (x + i * st) c)
    (fun i d => Pix st w H d (fun x' y' => if x' = x ∧ y' < i then S y' else g x' y')) (Nat.zero_le _)
    (h.congr (by intro x y _ _; rw [if_neg (by omega)])) (by
      intro y d _ hy hP
      obtain ⟨v, e1, e2⟩ := hb y hy
      obtain ⟨d', e3, hP'⟩ := hP.write hst hx hy (S y)
      refine ⟨d', ?_, hP'.congr ?_⟩
      · rw [readAt_some e1]
        simp only [Res.ok_bind]
        rw [e2]
        simp only [Res.ok_bind]
        rw [Nat.add_comm]
        exact e3
      · intro x' y' _ _
        by_cases hc : x' = x ∧ y' = y
        · rw [if_pos hc, if_pos ⟨hc.1, by omega⟩, hc.2]
        · rw [if_neg hc]
          by_cases hc2 : x' = x ∧ y' < y
          · rw [if_pos hc2, if_pos ⟨hc2.1, by omega⟩]
          · rw [if_neg hc2, if_neg (by omega)])
  refine ⟨d', e, hP.congr ?_⟩
  intro x' y' _ hy'
  by_cases hc : x' = x
  · rw [if_pos ⟨hc, hy'⟩, if_pos hc]
  · rw [if_neg (by omega), if_neg hc]

/-- The rows are filtered; the source is the memory `src`, or the destination itself, which then holds the image `f`. -/
theorem filterRows_spec {flt : List Rat → Res (List Rat)} {L : (Nat → Rat) → Nat → Rat} {w h nb : Nat} (hL : LineOp w nb flt L)
    (hw : 1 < w) {src : Option (List α)} {sst st : Nat} (hst : w ≤ st) {f S g : Nat → Nat → α}
    (hsrc : ∀ l, src = some l → ∀ x y : Nat, x < w → y < h → l[y * sst + x]? = some (f x y))
    (hin : src = none → sst = st ∧ g = f)
    (hS : ∀ x y, x < w → y < h → store (L (fun i => conv (f i y)) x) = .ok (S x y))
    {b : List Rat} (hb : w + 2 * nb ≤ b.length) {d : List α} (hd : Pix st w h d g) :
    ∃ b' d', filterRows conv store flt w h nb src sst st (b, d) = .ok (b', d') ∧ b'.length = b.length ∧ Pix st w h d' S := by
  obtain ⟨⟨b', d'⟩, e, hl, hP⟩ := forLoop_spec (n := h) (i0 := 0) (s := (b, d)) (body := fun y s => do
      let b ← filterLine conv flt w nb s.1 ((src.getD s.2).drop (y * sst)) 1
      let d ← storeLine store w (fun x => y * st + x) b s.2
      pure (b, d))
    (fun i s => s.1.length = b.length ∧ Pix st w h s.2 (fun x y => if y < i then S x y else g x y)) (Nat.zero_le _)
    ⟨rfl, hd.congr (by intro x y _ _; rw [if_neg (by omega)])⟩ (by
      rintro y ⟨b1, d1⟩ _ hy ⟨hl, hP⟩
      simp only at hl hP
      have hline : ∀ i < w, ((src.getD d1).drop (y * sst))[i * 1]? = some (f i y) := by
        intro i hi
        rw [List.getElem?_drop, Nat.mul_one]
        cases hs : src with
        | some l => exact hsrc l hs i y hi hy
        | none =>
          obtain ⟨e1, e2⟩ := hin hs
          have := hP.at' i y hi hy
          rw [if_neg (by omega), e2] at this
          rw [e1]
          exact this
      obtain ⟨b2, e1, l1, h1⟩ := filterLine_spec (conv := conv) hL hw (buffer := b1) (by omega) hline
      obtain ⟨d2, e2, h2⟩ := storeRow_spec (store := store) hst hy (b := b2) (S := fun x => S x y)
        (fun x hx => ⟨_, h1 x hx, hS x y hx hy⟩) hP
      refine ⟨(b2, d2), ?_, by simp only; omega, h2.congr ?_⟩
      · simp only
        rw [e1]
        simp only [Res.ok_bind]
        rw [e2]
        rfl
      · intro x' y' _ _
        by_cases hc : y' = y
        · rw [if_pos hc, if_pos (by omega), hc]
        · rw [if_neg hc]
          by_cases hc2 : y' < y
          · rw [if_pos hc2, if_pos (by omega)]
          · rw [if_neg hc2, if_neg (by omega)])
  exact ⟨b', d', e, hl, hP.congr (fun x y _ hy => if_pos hy)⟩

/-- The columns are filtered. -/
theorem filterCols_spec {flt : List Rat → Res (List Rat)} {L : (Nat → Rat) → Nat → Rat} {w h nb : Nat} (hL : LineOp h nb flt L)
    (hh : 1 < h) {src : Option (List α)} {sst st : Nat} (hst : w ≤ st) {f S g : Nat → Nat → α}
    (hsrc : ∀ l, src = some l → ∀ x y : Nat, x < w → y < h → l[y * sst + x]? = some (f x y))
    (hin : src = none → sst = st ∧ g = f)
    (hS : ∀ x y, x < w → y < h → store (L (fun i => conv (f x i)) y) = .ok (S x y))
    {b : List Rat} (hb : h + 2 * nb ≤ b.length) {d : List α} (hd : Pix st w h d g) :
    ∃ b' d', filterCols conv store flt w h nb src sst st (b, d) = .ok (b', d') ∧ b'.length = b.length ∧ Pix st w h d' S := by
  obtain ⟨⟨b', d'⟩, e, hl, hP⟩ := forLoop_spec (n := w) (i0 := 0) (s := (b, d)) (body := fun x s => do
      let b ← filterLine conv flt h nb s.1 ((src.getD s.2).drop x) sst
      let d ← storeLine store h (fun y => x + y * st) b s.2
      pure (b, d))
    (fun i s => s.1.length = b.length ∧ Pix st w h s.2 (fun x y => if x < i then S x y else g x y)) (Nat.zero_le _)
    ⟨rfl, hd.congr (by intro x y _ _; rw [if_neg (by omega)])⟩ (by
      rintro x ⟨b1, d1⟩ _ hx ⟨hl, hP⟩
      simp only at hl hP
      have hline : ∀ i < h, ((src.getD d1).drop x)[i * sst]? = some (f x i) := by
        intro i hi
        rw [List.getElem?_drop, Nat.add_comm]
        cases hs : src with
        | some l => exact hsrc l hs x i hx hi
        | none =>
          obtain ⟨e1, e2⟩ := hin hs
          have := hP.at' x i hx hi
          rw [if_neg (by omega), e2] at this
          rw [e1]
          exact this
      obtain ⟨b2, e1, l1, h1⟩ := filterLine_spec (conv := conv) hL hh (buffer := b1) (by omega) hline
      obtain ⟨d2, e2, h2⟩ := storeCol_spec (store := store) hst hx (b := b2) (S := fun y => S x y)
        (fun y hy => ⟨_, h1 y hy, hS x y hx hy⟩) hP
      refine ⟨(b2, d2), ?_, by simp only; omega, h2.congr ?_⟩
      · simp only
        rw [e1]
        simp only [Res.ok_bind]
        rw [e2]
        rfl
      · intro x' y' _ _
        by_cases hc : x' = x
        · rw [if_pos hc, if_pos (by omega), hc]
        · rw [if_neg hc]
          by_cases hc2 : x' < x
          · rw [if_pos hc2, if_pos (by omega)]
          · rw [if_neg hc2, if_neg (by omega)])
  exact ⟨b', d', e, hl, hP.congr (fun x y hx _ => if_pos hx)⟩

end Nx
