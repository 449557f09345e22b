import Verif.Model.ImageArith
import Verif.Spec.ImageArith
import Verif.Lemmas.SampleAa

/-!
# Lemmas about loops over images
-/

namespace Nx

variable {α : Type}

/-- The memory `d` with rows of `st` samples has the pixels `g`. -/
structure Pix (st w H : Nat) (d : List α) (g : Nat → Nat → α) : Prop where
  len : d.length = st * H
  at' : ∀ x y : Nat, x < w → y < H → d[y * st + x]? = some (g x y)

theorem Pix.read {st w H : Nat} {d : List α} {g : Nat → Nat → α} (h : Pix st w H d g) {x y : Nat} (hx : x < w) (hy : y < H) :
    readAt d (y * st + x) = .ok (g x y) := readAt_some (h.at' x y hx hy)

theorem Pix.write {st w H : Nat} {d : List α} {g : Nat → Nat → α} (h : Pix st w H d g) (hst : w ≤ st) {x y : Nat} (hx : x < w)
    (hy : y < H) (v : α) :
    ∃ d', writeAt d (y * st + x) v = .ok d' ∧ Pix st w H d' (fun x' y' => if x' = x ∧ y' = y then v else g x' y') := by
  refine ⟨_, writeAt_ok _ (by rw [h.len]; exact pixIdx_lt (by omega) hy), by rw [List.length_set, h.len], ?_⟩
  intro x' y' hx' hy'
  rw [pix_set h.len (by omega) hy (by omega)]
  by_cases hc : x = x' ∧ y = y'
  · rw [if_pos hc, if_pos ⟨hc.1.symm, hc.2.symm⟩]
  · rw [if_neg hc, if_neg (fun e => hc ⟨e.1.symm, e.2.symm⟩)]
    exact h.at' x' y' hx' hy'

theorem Pix.congr {st w H : Nat} {d : List α} {g g' : Nat → Nat → α} (h : Pix st w H d g)
    (e : ∀ x y, x < w → y < H → g x y = g' x y) : Pix st w H d g' :=
  ⟨h.len, fun x y hx hy => by rw [h.at' x y hx hy, e x y hx hy]⟩

theorem Pix.exists [Inhabited α] {st w H : Nat} {d : List α} (hl : d.length = st * H) (hst : w ≤ st) :
    ∃ g, Pix st w H d g := by
  refine ⟨fun x y => (d[y * st + x]?).getD default, hl, ?_⟩
  intro x y hx hy
  have : y * st + x < d.length := by rw [hl]; exact pixIdx_lt (by omega) hy
  rw [List.getElem?_eq_getElem this]
  rfl

theorem Pix.shows {st w H : Nat} {d : List α} {g : Nat → Nat → α} (h : Pix st w H d g) :
    (⟨w, H, st, d⟩ : GImage α).Shows w H g := ⟨rfl, rfl, h.at'⟩

theorem GImage.Shows.pix {img : GImage α} {w h : Nat} {f : Nat → Nat → α} (hw : img.Wf) (hs : img.Shows w h f) :
    Pix img.stride w h img.data f := ⟨by rw [hw.length_eq, hs.height_eq], hs.pixel_eq⟩

/-- Rows that are treated one after the other: `T y` takes the old row to the new one. -/
theorem rows_spec {st w H : Nat} {row : Nat → List α → Res (List α)} {T : Nat → (Nat → α) → Nat → α} {i0 : Nat} {n : Nat}
    (hle : i0 ≤ n)
    (hr : ∀ y d g, i0 ≤ y → y < n → Pix st w H d g →
      ∃ d', row y d = .ok d' ∧ Pix st w H d' (fun x' y' => if y' = y then T y (fun x => g x y) x' else g x' y'))
    {d : List α} {g : Nat → Nat → α} (h : Pix st w H d g) :
    ∃ d', forLoop n row i0 d = .ok d' ∧
      Pix st w H d' (fun x y => if i0 ≤ y ∧ y < n then T y (fun x => g x y) x else g x y) := by
  apply forLoop_spec (fun i d => Pix st w H d (fun x y => if i0 ≤ y ∧ y < i then T y (fun x => g x y) x else g x y)) hle
  · apply h.congr
    intro x y _ _
    rw [if_neg (by omega)]
  · intro y d hy0 hy hP
    obtain ⟨d', e, hP'⟩ := hr y d _ hy0 hy hP
    refine ⟨d', e, hP'.congr ?_⟩
    intro x' y' _ _
    by_cases hc : y' = y
    · subst hc
      rw [if_pos rfl, if_pos (by omega)]
      congr 1
      funext x
      rw [if_neg (by omega)]
    · rw [if_neg hc]
      by_cases h1 : i0 ≤ y' ∧ y' < y
      · rw [if_pos h1, if_pos (by omega)]
      · rw [if_neg h1, if_neg (by omega)]

/-- Columns that are treated one after the other. -/
theorem cols_spec {st w H : Nat} {col : Nat → List α → Res (List α)} {T : Nat → (Nat → α) → Nat → α}
    (hr : ∀ x d g, x < w → Pix st w H d g →
      ∃ d', col x d = .ok d' ∧ Pix st w H d' (fun x' y' => if x' = x then T x (fun y => g x y) y' else g x' y'))
    {d : List α} {g : Nat → Nat → α} (h : Pix st w H d g) :
    ∃ d', forLoop w col 0 d = .ok d' ∧ Pix st w H d' (fun x y => T x (fun y => g x y) y) := by
  obtain ⟨d', e, hP⟩ := forLoop_spec (n := w) (body := col) (i0 := 0) (s := d)
    (fun i d => Pix st w H d (fun x y => if x < i then T x (fun y => g x y) y else g x y)) (Nat.zero_le _)
    (h.congr (by intro x y _ _; rw [if_neg (by omega)])) (by
      intro x d _ hx hP
      obtain ⟨d', e, hP'⟩ := hr x d _ hx hP
      refine ⟨d', e, hP'.congr ?_⟩
      intro x' y' _ _
      by_cases hc : x' = x
      · subst hc
        rw [if_pos rfl, if_pos (by omega)]
        congr 1
        funext y
        rw [if_neg (by omega)]
      · rw [if_neg hc]
        by_cases h1 : x' < x
        · rw [if_pos h1, if_pos (by omega)]
        · rw [if_neg h1, if_neg (by omega)])
  exact ⟨d', e, hP.congr (by intro x y hx _; rw [if_pos hx])⟩

/-- A loop over the pixels of a row, each of which is replaced: `φ x` of the old value. -/
theorem pixels_spec {st w H y : Nat} {body : Nat → List α → Res (List α)} {φ : Nat → α → α} {i0 n : Nat} (hst : w ≤ st)
    (hy : y < H) (hn : n ≤ w) (hle : i0 ≤ n)
    (hb : ∀ x d g, i0 ≤ x → x < n → Pix st w H d g → body x d = writeAt d (y * st + x) (φ x (g x y)))
    {d : List α} {g : Nat → Nat → α} (h : Pix st w H d g) :
    ∃ d', forLoop n body i0 d = .ok d' ∧
      Pix st w H d' (fun x' y' => if y' = y ∧ i0 ≤ x' ∧ x' < n then φ x' (g x' y) else g x' y') := by
  apply forLoop_spec (fun i d => Pix st w H d (fun x' y' => if y' = y ∧ i0 ≤ x' ∧ x' < i then φ x' (g x' y) else g x' y')) hle
  · apply h.congr
    intro x y _ _
    rw [if_neg (by omega)]
  · intro x d hx0 hx hP
    obtain ⟨d', e, hP'⟩ := hP.write hst (x := x) (y := y) (by omega) hy (φ x (g x y))
    refine ⟨d', ?_, hP'.congr ?_⟩
    · rw [hb x d _ hx0 hx hP, ← e]
      simp only
      rw [if_neg (by omega)]
    · intro x' y' _ _
      by_cases hc : x' = x ∧ y' = y
      · obtain ⟨rfl, rfl⟩ := hc
        rw [if_pos ⟨rfl, rfl⟩, if_pos (by omega)]
      · rw [if_neg hc]
        by_cases h1 : y' = y ∧ i0 ≤ x' ∧ x' < x
        · rw [if_pos h1, if_pos (by omega)]
        · rw [if_neg h1, if_neg (by omega)]

/-- Two nested loops are one. -/
theorem forLoop_nested {σ : Type} (n m : Nat) (body : Nat → σ → Res σ) (s : σ) :
    forLoop n (fun x s => forLoop m (fun c s => body (m * x + c) s) 0 s) 0 s = forLoop (m * n) body 0 s := by
  have inner : ∀ (k x : Nat) (N : Nat) (s : σ), m * x + m ≤ N → k ≤ m →
      (forLoop m (fun c s => body (m * x + c) s) (m - k) s >>= fun s => forLoop N body (m * x + m) s) =
        forLoop N body (m * x + (m - k)) s := by
    intro k
    induction k with
    | zero =>
      intro x N s hN hk
      rw [forLoop, if_neg (by omega)]
      rfl
    | succ k ih =>
      intro x N s hN hk
      rw [forLoop, if_pos (by omega), forLoop.eq_1 N body (m * x + (m - (k + 1))), if_pos (by omega)]
      cases body (m * x + (m - (k + 1))) s with
      | ub => rfl
      | fatal => rfl
      | ok s' =>
        simp only [Res.ok_bind]
        have e : m - (k + 1) + 1 = m - k := by omega
        have := ih x N s' hN (by omega)
        rw [e, this]
        congr 1
        omega
  have outer : ∀ (k : Nat) (s : σ), k ≤ n →
      forLoop n (fun x s => forLoop m (fun c s => body (m * x + c) s) 0 s) (n - k) s = forLoop (m * n) body (m * (n - k)) s := by
    intro k
    induction k with
    | zero =>
      intro s _
      rw [forLoop, if_neg (by omega), forLoop, if_neg (by rw [Nat.sub_zero]; omega)]
    | succ k ih =>
      intro s hk
      have hN : m * (n - (k + 1)) + m ≤ m * n := by
        rw [← Nat.mul_succ]
        exact Nat.mul_le_mul_left _ (by omega)
      have := inner m (n - (k + 1)) (m * n) s hN (Nat.le_refl _)
      rw [Nat.sub_self, Nat.add_zero (m * (n - (k + 1)))] at this
      rw [forLoop, if_pos (by omega), ← this]
      have e : n - (k + 1) + 1 = n - k := by omega
      congr 1
      funext s'
      rw [e, ih s' (by omega), ← Nat.mul_succ]
      congr 1
      rw [Nat.succ_eq_add_one, e]
  have := outer n s (Nat.le_refl _)
  rwa [Nat.sub_self, Nat.mul_zero] at this

/-- The loop over all samples of an image, when it rewrites each one. -/
theorem sampleLoop_write {img : GImage α} {nc : Nat} {φ : α → α} {f : Nat → Nat → α} {w h : Nat}
    {body : Nat → List α → Res (List α)} (hw : (img.flat nc).Wf) (hs : (img.flat nc).Shows w h f)
    (hb : ∀ (i : Nat) (d : List α) (v : α) (x y : Nat), x < w → y < h → i = y * img.stride + x → d[i]? = some v → v = f x y →
      body i d = writeAt d i (φ v)) :
    ∃ d', sampleLoop img nc body img.data = .ok d' ∧ Pix img.stride w h d' (fun x y => φ (f x y)) := by
  have e1 : nc * img.width = w := hs.width_eq
  have e2 : img.height = h := hs.height_eq
  have hst : w ≤ img.stride := by rw [← e1]; exact hw.stride_ge
  have hp : Pix img.stride w h img.data f := GImage.Shows.pix (img := img.flat nc) hw hs
  unfold sampleLoop
  have hf : (fun y (s : List α) => forLoop img.width (fun x s =>
      forLoop nc (fun c s => body (y * img.stride + (nc * x + c)) s) 0 s) 0 s) =
      fun y s => forLoop w (fun i s => body (y * img.stride + i) s) 0 s := by
    funext y s
    rw [forLoop_nested img.width nc (fun i s => body (y * img.stride + i) s) s, e1]
  rw [hf, e2]
  obtain ⟨d', e, hP⟩ := forLoop_spec (n := h) (i0 := 0) (s := img.data)
    (body := fun y s => forLoop w (fun i s => body (y * img.stride + i) s) 0 s)
    (fun i d => Pix img.stride w h d (fun x y => if y < i then φ (f x y) else f x y)) (Nat.zero_le _)
    (hp.congr (by intro x y _ _; rw [if_neg (by omega)])) (by
      intro y d _ hy hP
      obtain ⟨d', e, hP'⟩ := forLoop_spec (n := w) (i0 := 0) (s := d) (body := fun i s => body (y * img.stride + i) s)
        (fun i d => Pix img.stride w h d
          (fun x' y' => if y' < y ∨ (y' = y ∧ x' < i) then φ (f x' y') else f x' y')) (Nat.zero_le _)
        (hP.congr (by
          intro x' y' _ _
          by_cases c : y' < y
          · rw [if_pos c, if_pos (Or.inl c)]
          · rw [if_neg c, if_neg (by omega)])) (by
          intro x d _ hx hQ
          have hv := hQ.at' x y hx hy
          rw [if_neg (by omega)] at hv
          obtain ⟨d', e, hQ'⟩ := hQ.write hst hx hy (φ (f x y))
          refine ⟨d', by rw [hb _ d (f x y) x y hx hy rfl hv rfl]; exact e, hQ'.congr ?_⟩
          intro x' y' _ _
          by_cases c : x' = x ∧ y' = y
          · rw [if_pos c, if_pos (by omega), c.1, c.2]
          · rw [if_neg c]
            by_cases c2 : y' < y ∨ (y' = y ∧ x' < x)
            · rw [if_pos c2, if_pos (by omega)]
            · rw [if_neg c2, if_neg (by omega)])
      refine ⟨d', e, hP'.congr ?_⟩
      intro x' y' hx' _
      by_cases c : y' < y + 1
      · rw [if_pos c, if_pos (by omega)]
      · rw [if_neg c, if_neg (by omega)])
  exact ⟨d', e, hP.congr (by intro x y _ hy; rw [if_pos hy])⟩

/-- The loop over all samples of an image, when it only reads: a fold over the samples. -/
theorem sampleLoop_fold {σ : Type} {img : GImage α} {nc : Nat} {f : Nat → Nat → α} {w h : Nat} (step : σ → α → σ)
    (hs : (img.flat nc).Shows w h f) (s : σ) :
    sampleLoop img nc (fun i m => do
      let v ← readAt img.data i
      pure (step m v)) s = .ok ((scan w h f).foldl step s) := by
  have e1 : nc * img.width = w := hs.width_eq
  have e2 : img.height = h := hs.height_eq
  unfold sampleLoop
  have hf : (fun y (s : σ) => forLoop img.width (fun x s =>
      forLoop nc (fun c s => (fun i m => do
        let v ← readAt img.data i
        pure (step m v) : Nat → σ → Res σ) (y * img.stride + (nc * x + c)) s) 0 s) 0 s) =
      fun y s => forLoop w (fun i s => (fun i m => do
        let v ← readAt img.data i
        pure (step m v) : Nat → σ → Res σ) (y * img.stride + i) s) 0 s := by
    funext y s
    rw [forLoop_nested img.width nc (fun i s => (fun i m => do
        let v ← readAt img.data i
        pure (step m v) : Nat → σ → Res σ) (y * img.stride + i) s) s, e1]
  simp only at hf
  simp only [hf, e2]
  obtain ⟨s', e, hP⟩ := forLoop_spec (n := h) (i0 := 0) (s := s)
    (body := fun y s => forLoop w (fun i s => (do
        let v ← readAt img.data (y * img.stride + i)
        pure (step s v) : Res σ)) 0 s)
    (fun i r => r = (scan w i f).foldl step s) (Nat.zero_le _) rfl (by
      intro y r _ hy hP
      obtain ⟨r', e, hP'⟩ := forLoop_spec (n := w) (i0 := 0) (s := r)
        (body := fun i s => (do
          let v ← readAt img.data (y * img.stride + i)
          pure (step s v) : Res σ))
        (fun i q => q = ((List.range i).map (fun x => f x y)).foldl step r) (Nat.zero_le _) rfl (by
          intro x q _ hx hQ
          refine ⟨step q (f x y), ?_, ?_⟩
          · have hr : readAt img.data (y * img.stride + x) = .ok (f x y) := hs.read hx hy
            rw [hr]
            rfl
          · rw [List.range_succ, List.map_append, List.foldl_append, ← hQ]
            rfl)
      refine ⟨r', e, ?_⟩
      rw [hP', hP]
      unfold scan
      rw [List.range_succ, List.flatMap_append, List.foldl_append]
      simp)
  rw [e, hP]

end Nx
