import Verif.Lemmas.SiftDesc
import Verif.Lemmas.ImageArith
import Mathlib.Algebra.BigOperators.Ring.Finset
import Mathlib.Analysis.SpecialFunctions.Complex.Arg

/-!
# SIFT descriptors (C85)
-/

namespace Nx

section
set_option linter.unusedSectionVars false
variable {K : Type} [Field K] [LinearOrder K] [IsStrictOrderedRing K] [FloorRing K]

/-! ## One sample -/

/-- C85: a sample is distributed over the cells by trilinear interpolation. Missing: the direction 0
(`c85_zero_direction`). -/
theorem c85_sample_partial (d : List K) (hd : d.length = 128) (px py h w : K) (h0 : 0 < h) (h8 : h ≤ 8) :
    ∃ d', deposit d px py h w = .ok d' ∧ d'.length = 128 ∧
      ∀ r c o, r < 4 → c < 4 → o < 8 → ∀ v, d[(r * 4 + c) * 8 + o]? = some v →
        d'[(r * 4 + c) * 8 + o]? = some (v + w * share px py h r c o) := by
  obtain ⟨d', e, a⟩ := deposit_spec hd px py h0 h8 w
  exact ⟨d', e, a.2.1, a.2.2⟩

/-- C85, finding: a sample in the direction of the keypoint that touches the first cell accesses the
element in front of the array. -/
theorem c85_zero_direction (d : List K) (px py w : K) (hx0 : 0 < px) (hx1 : px < 1) (hy0 : 0 < py) (hy1 : py < 1) :
    deposit d px py 0 w = .ub := by
  have f0 : ∀ x : K, 0 < x → x < 1 → cFloor x = 0 := by
    intro x h0 h1
    unfold cFloor cTrunc
    rw [if_pos h0, if_pos h0.le, Int.floor_eq_zero_iff]
    exact ⟨h0.le, h1⟩
  unfold deposit
  simp only [cFloor_zero, f0 px hx0 hx1, f0 py hy0 hy1]
  unfold rowAdd cellAdd addAtI readI
  rfl

theorem sum_tent {x : K} (h0 : 0 ≤ x) (h3 : x ≤ 3) : tent (x - (0 : Nat)) + tent (x - (1 : Nat)) + tent (x - (2 : Nat)) + tent (x - (3 : Nat)) = 1 := by
  have hl := cFloor_le x
  rw [tent_floor x 0, tent_floor x 1, tent_floor x 2, tent_floor x 3]
  have hr : -1 ≤ cFloor x ∧ cFloor x ≤ 3 := by
    constructor
    · have : ((-1 : Int) : K) ≤ (cFloor x : K) := by push_cast; linarith
      exact_mod_cast this
    · have : (cFloor x : K) ≤ ((3 : Int) : K) := by push_cast; linarith
      exact_mod_cast this
  have hm1 : cFloor x = -1 → x = 0 := fun e => by rw [e] at hl; push_cast at hl; linarith
  have h33 : cFloor x = 3 → x = 3 := fun e => by rw [e] at hl; push_cast at hl; linarith
  generalize cFloor x = f at *
  obtain ⟨h1, h2⟩ := hr
  have : f = -1 ∨ f = 0 ∨ f = 1 ∨ f = 2 ∨ f = 3 := by omega
  rcases this with rfl | rfl | rfl | rfl | rfl
  · rw [hm1 rfl]; norm_num
  · norm_num
  · norm_num
  · norm_num
  · rw [h33 rfl]; norm_num

theorem sum_tent8 {h : K} (h0 : 0 < h) (h8 : h ≤ 8) : (Finset.range 8).sum (tent8 h) = 1 := by
  have e : ∀ o ∈ Finset.range 8, tent8 h o = _ := fun o ho => tent8_floor h0 h8 o (Finset.mem_range.mp ho)
  rw [Finset.sum_congr rfl e]
  have hf := cFloor_pos h0 h8
  have hl := cFloor_le h
  have h88 : cFloor h = 8 → h = 8 := fun e => by rw [e] at hl; push_cast at hl; linarith
  generalize cFloor h = f at *
  have : f = 0 ∨ f = 1 ∨ f = 2 ∨ f = 3 ∨ f = 4 ∨ f = 5 ∨ f = 6 ∨ f = 7 ∨ f = 8 := by omega
  rcases this with rfl | rfl | rfl | rfl | rfl | rfl | rfl | rfl | rfl
  all_goals first
    | (rw [h88 rfl]; simp)
    | simp [Finset.sum_range_succ]

/-- C85: the weight of a sample between the centres of the outer cells is distributed completely. -/
theorem c85_mass (px py h : K) (hx0 : 0 ≤ px) (hx3 : px ≤ 3) (hy0 : 0 ≤ py) (hy3 : py ≤ 3) (h0 : 0 < h) (h8 : h ≤ 8) :
    (Finset.range 4).sum (fun r => (Finset.range 4).sum (fun c => (Finset.range 8).sum (fun o => share px py h r c o))) = 1 := by
  unfold share
  simp only [← Finset.mul_sum, sum_tent8 h0 h8, mul_one]
  have ex := sum_tent hx0 hx3
  have ey := sum_tent hy0 hy3
  have ex' : (Finset.range 4).sum (fun c => tent (px - (c : K))) = 1 := by
    rw [Finset.sum_range_succ, Finset.sum_range_succ, Finset.sum_range_succ, Finset.sum_range_one]
    exact ex
  simp only [ex', mul_one]
  rw [Finset.sum_range_succ, Finset.sum_range_succ, Finset.sum_range_succ, Finset.sum_range_one]
  exact ey

/-! ## The histogram -/

/-- Position of a sample in the frame of the keypoint, in cells. The offset of the keypoint from its pixel is not
rotated, see `c85_frame`. -/
def framePos (m : FloatMath K) (key : SiftKey K) (mag : Int) (dx dy : Int) : K × K :=
  ((dx * m.cos key.ori - dy * m.sin key.ori - (key.xs - key.x)) / (key.sigma * mag),
   (dx * m.sin key.ori + dy * m.cos key.ori - (key.ys - key.y)) / (key.sigma * mag))

/-- Whether a sample is used: it lies in the image and in the patch. -/
def Used (m : FloatMath K) (key : SiftKey K) (mag : Int) (w h : Nat) (dx dy : Int) : Prop :=
  (0 ≤ dx + key.x ∧ dx + key.x < w) ∧ (0 ≤ dy + key.y ∧ dy + key.y < h) ∧
    |(framePos m key mag dx dy).1| < 5 / 2 ∧ |(framePos m key mag dx dy).2| < 5 / 2

instance (m : FloatMath K) (key : SiftKey K) (mag : Int) (w h : Nat) (dx dy : Int) : Decidable (Used m key mag w h dx dy) := by
  unfold Used; infer_instance

/-- What a sample contributes to a cell; the derivatives are `fx` and `fy`, the second one points downwards. The weight is
the length of the gradient times a Gaussian of two cells. -/
def sampleTerm (m : FloatMath K) (hp : 0 < 2 * m.pi) (key : SiftKey K) (mag : Int) (w h : Nat) (fx fy : Nat → Nat → K)
    (dx dy : Int) (r c o : Nat) : K :=
  if Used m key mag w h dx dy then
    let p := framePos m key mag dx dy
    let a := fx (dx + key.x).toNat (dy + key.y).toNat
    let b := -fy (dx + key.x).toNat (dy + key.y).toNat
    m.exp (-(p.1 * p.1 + p.2 * p.2) / 8) * m.sqrt (a * a + b * b) *
      share (p.1 + 3 / 2) (p.2 + 3 / 2) (sampleBin m hp key a b) r c o
  else 0

theorem patchCoord_eq (m : FloatMath K) (key : SiftKey K) (mag : Int) (dx dy : Int) :
    patchCoord m key mag dx dy = framePos m key mag dx dy := by
  unfold patchCoord framePos patchSize
  simp only
  refine Prod.ext ?_ ?_ <;> (simp only; congr 1; ring)

theorem inPatch_iff (p : K × K) : inPatch p = true ↔ |p.1| < 5 / 2 ∧ |p.2| < 5 / 2 := by
  unfold inPatch
  rw [decide_eq_true_iff, abs_lt, abs_lt]
  tauto

theorem sampleWeight_eq (m : FloatMath K) (p : K × K) (a b : K) :
    sampleWeight m p a b = m.exp (-(p.1 * p.1 + p.2 * p.2) / 8) * m.sqrt (a * a + b * b) := by
  unfold sampleWeight
  congr 2
  ring

theorem sampleBody_spec {m : FloatMath K} {hp : 0 < 2 * m.pi} {gx gy : GImage K} {w h : Nat} {fx fy : Nat → Nat → K}
    (hx : gx.Shows w h fx) (hy : gy.Shows w h fy) (key : SiftKey K) (mag : Int) (dx dy : Int)
    (hdy : 0 ≤ dy + key.y ∧ dy + key.y < h)
    (hz : Used m key mag w h dx dy →
      sampleBin m hp key (fx (dx + key.x).toNat (dy + key.y).toNat) (-fy (dx + key.x).toNat (dy + key.y).toNat) ≠ 0)
    {d : List K} (hd : d.length = 128) :
    ∃ d', sampleBody m hp gx gy key mag dx dy d = .ok d' ∧ Adds d d' (sampleTerm m hp key mag w h fx fy dx dy) := by
  unfold sampleBody
  simp only
  by_cases h1 : dx + key.x < 0 ∨ dx + key.x ≥ gx.width
  · rw [if_pos h1]
    refine ⟨d, rfl, (Adds.refl hd).congr ?_⟩
    intro r c o _ _ _
    unfold sampleTerm
    rw [if_neg]
    intro hu
    rw [hx.width_eq] at h1
    have := hu.1
    omega
  · rw [if_neg h1]
    rw [hx.width_eq] at h1
    by_cases h2 : inPatch (patchCoord m key mag dx dy) = true
    · rw [if_pos h2]
      have hu : Used m key mag w h dx dy := by
        rw [inPatch_iff, patchCoord_eq] at h2
        exact ⟨by omega, hdy, h2⟩
      have hz := hz hu
      obtain ⟨u, eu⟩ : ∃ u : Nat, dx + key.x = u := ⟨(dx + key.x).toNat, by omega⟩
      obtain ⟨v, ev⟩ : ∃ v : Nat, dy + key.y = v := ⟨(dy + key.y).toNat, by omega⟩
      have hrx := hx.read (x := u) (y := v) (by omega) (by omega)
      have hry := hy.read (x := u) (y := v) (by omega) (by omega)
      rw [eu, ev] at hz ⊢
      simp only [Int.toNat_natCast] at hz
      have ri : ∀ (l : List K) (s : Nat), readI l ((v : Int) * s + u) = readAt l (v * s + u) := by
        intro l s
        have e : (v : Int) * s + u = ((v * s + u : Nat) : Int) := by push_cast; rfl
        unfold readI
        rw [e, if_pos (by omega), Int.toNat_natCast]
      rw [ri, ri, hrx, Res.ok_bind, hry, Res.ok_bind]
      have hb := sampleBin_spec m hp key (fx u v) (-fy u v)
      obtain ⟨d', e, a⟩ := deposit_spec hd ((patchCoord m key mag dx dy).1 + 2 - 1 / 2) ((patchCoord m key mag dx dy).2 + 2 - 1 / 2)
        (lt_of_le_of_ne hb.1 (fun e => hz e.symm)) hb.2.1 (sampleWeight m (patchCoord m key mag dx dy) (fx u v) (-fy u v))
      refine ⟨d', e, a.congr ?_⟩
      intro r c o _ _ _
      unfold sampleTerm
      rw [if_pos hu]
      simp only [eu, ev, Int.toNat_natCast, sampleWeight_eq, patchCoord_eq]
      congr 2 <;> ring
    · rw [if_neg h2]
      refine ⟨d, rfl, (Adds.refl hd).congr ?_⟩
      intro r c o _ _ _
      unfold sampleTerm
      rw [if_neg (fun hu => h2 (by rw [inPatch_iff, patchCoord_eq]; exact hu.2.2))]

theorem adds_loop (n : Nat) (body : Nat → List K → Res (List K)) (A : Nat → Nat → Nat → Nat → K) (d : List K) (hd : d.length = 128)
    (hb : ∀ i d, i < n → d.length = 128 → ∃ d', body i d = .ok d' ∧ Adds d d' (A i)) :
    ∃ d', forLoop n body 0 d = .ok d' ∧ Adds d d' (fun r c o => (Finset.range n).sum (fun i => A i r c o)) := by
  refine forLoop_spec (P := fun i d' => Adds d d' (fun r c o => (Finset.range i).sum (fun i => A i r c o))) (by omega)
    ((Adds.refl hd).congr (fun _ _ _ _ _ _ => by simp)) ?_
  intro i s _ hi hs
  obtain ⟨d', e, a⟩ := hb i s hi hs.2.1
  exact ⟨d', e, (hs.trans a).congr (fun _ _ _ _ _ _ => by rw [Finset.sum_range_succ])⟩

/-- C85: the descriptor before normalisation is, in each cell, the sum of what the samples contribute, over all
samples in the image and in the patch. Missing: samples exactly in the direction of the keypoint, for
which memory outside the array is accessed. -/
theorem c85_histogram_partial (m : FloatMath K) (hp : 0 < 2 * m.pi) (gx gy : GImage K) (w h : Nat) (fx fy : Nat → Nat → K)
    (hx : gx.Shows w h fx) (hy : gy.Shows w h fy) (key : SiftKey K) (mag : Int)
    (hz : ∀ dx dy, Used m key mag w h dx dy →
      sampleBin m hp key (fx (dx + key.x).toNat (dy + key.y).toNat) (-fy (dx + key.x).toNat (dy + key.y).toNat) ≠ 0) :
    ∃ d, fdescriptor m hp gx gy key mag = .ok d ∧ d.length = 128 ∧
      ∀ r c o, r < 4 → c < 4 → o < 8 → d[(r * 4 + c) * 8 + o]? = some
        ((Finset.range (2 * sampleRadius m key mag + 1).toNat).sum (fun k =>
          (Finset.range (2 * sampleRadius m key mag + 1).toNat).sum (fun l =>
            sampleTerm m hp key mag w h fx fy ((l : Int) - sampleRadius m key mag) ((k : Int) - sampleRadius m key mag) r c o))) := by
  unfold fdescriptor
  simp only
  generalize sampleRadius m key mag = R
  obtain ⟨d, e, a⟩ := adds_loop (2 * R + 1).toNat (fun k desc =>
    if (k : Int) - R + key.y < 0 ∨ (k : Int) - R + key.y ≥ gx.height then pure desc
    else forLoop (2 * R + 1).toNat (fun l desc => sampleBody m hp gx gy key mag ((l : Int) - R) ((k : Int) - R) desc) 0 desc)
    (fun k r c o => (Finset.range (2 * R + 1).toNat).sum (fun l =>
      sampleTerm m hp key mag w h fx fy ((l : Int) - R) ((k : Int) - R) r c o)) (List.replicate 128 0) (by simp) (by
      intro k d _ hd
      by_cases h1 : (k : Int) - R + key.y < 0 ∨ (k : Int) - R + key.y ≥ gx.height
      · rw [if_pos h1]
        refine ⟨d, rfl, (Adds.refl hd).congr ?_⟩
        intro r c o _ _ _
        rw [Finset.sum_eq_zero]
        intro l _
        unfold sampleTerm
        rw [if_neg]
        intro hu
        rw [hx.height_eq] at h1
        have := hu.2.1
        omega
      · rw [if_neg h1]
        rw [hx.height_eq] at h1
        exact adds_loop _ _ (fun l => sampleTerm m hp key mag w h fx fy ((l : Int) - R) ((k : Int) - R)) d hd
          (fun l d _ hd => sampleBody_spec hx hy key mag _ _ (by omega) (hz _ _) hd))
  refine ⟨d, e, a.2.1, ?_⟩
  intro r c o hr hc ho
  have := a.2.2 r c o hr hc ho 0 (by rw [List.getElem?_replicate, if_pos (by omega)])
  rw [this, zero_add]

/-- C85: the direction of a sample is between 0 and 8 and is the angle of its gradient relative to the keypoint in
units of an eighth of a turn, up to full turns. -/
theorem c85_direction (m : FloatMath K) (hp : 0 < 2 * m.pi) (key : SiftKey K) (gx gy : K) :
    0 ≤ sampleBin m hp key gx gy ∧ sampleBin m hp key gx gy ≤ 8 ∧
      ∃ k : Int, sampleBin m hp key gx gy * (2 * m.pi / 8) = m.atan2 gy gx - key.ori + k * (2 * m.pi) :=
  sampleBin_spec m hp key gx gy

/-- C85: the position in the frame of the keypoint: the rotated offset of the sample from the pixel of the keypoint, minus the offset
of the keypoint in its pixel. So it is the rotated offset from the keypoint exactly when rotation does not change the offset in the
pixel. -/
theorem c85_frame (m : FloatMath K) (key : SiftKey K) (mag : Int) (hs : 0 < key.sigma * mag)
    (ht : m.cos key.ori * m.cos key.ori + m.sin key.ori * m.sin key.ori = 1) (dx dy : Int) :
    let p := patchCoord m key mag dx dy
    let s := key.sigma * mag
    let rx := p.1 * s + (key.xs - key.x)
    let ry := p.2 * s + (key.ys - key.y)
    rx * m.cos key.ori + ry * m.sin key.ori = dx ∧ ry * m.cos key.ori - rx * m.sin key.ori = dy := by
  rw [patchCoord_eq]
  unfold framePos
  simp only
  rw [div_mul_cancel₀ _ hs.ne', div_mul_cancel₀ _ hs.ne']
  constructor
  · linear_combination (dx : K) * ht
  · linear_combination (dy : K) * ht

theorem le_cTrunc {k : Int} {x : K} (h0 : 0 ≤ x) (h : (k : K) ≤ x) : k ≤ cTrunc x := by
  unfold cTrunc
  rw [if_pos h0]
  exact Int.le_floor.mpr h

/-- A projection is at most the length: `|c x + s y| ≤ q` when `x ^ 2 + y ^ 2 ≤ q ^ 2`. -/
theorem proj_le {c s x y q : K} (h1 : c * c + s * s = 1) (hq : 0 ≤ q) (h : x * x + y * y ≤ q * q) : |x * c + y * s| ≤ q := by
  refine abs_le_of_sq_le_sq ?_ hq
  nlinarith [mul_self_nonneg (x * s - y * c)]

/-- C85: the window of samples is large enough: a sample in the patch is at most the radius away, when the keypoint
is within half a pixel of its pixel. -/
theorem c85_window (m : FloatMath K) (key : SiftKey K) (mag : Int) (hs : 0 < key.sigma * mag)
    (ht : m.cos key.ori * m.cos key.ori + m.sin key.ori * m.sin key.ori = 1)
    (h2 : 0 ≤ m.sqrt 2) (h2' : m.sqrt 2 * m.sqrt 2 = 2)
    (ho : (key.xs - key.x) * (key.xs - key.x) + (key.ys - key.y) * (key.ys - key.y) ≤ 1 / 2 * (1 / 2))
    (w h : Nat) (dx dy : Int) (hu : Used m key mag w h dx dy) :
    |dx| ≤ sampleRadius m key mag ∧ |dy| ≤ sampleRadius m key mag := by
  obtain ⟨e1, e2⟩ := c85_frame m key mag hs ht dx dy
  rw [patchCoord_eq] at e1 e2
  obtain ⟨_, _, u1, u2⟩ := hu
  generalize framePos m key mag dx dy = p at *
  obtain ⟨p1, p2⟩ := p
  simp only at *
  have hsq : p1 * p1 + p2 * p2 ≤ (5 / 2 * m.sqrt 2) * (5 / 2 * m.sqrt 2) := by
    rw [abs_lt] at u1 u2
    have a1 : p1 * p1 ≤ 25 / 4 := by nlinarith
    have a2 : p2 * p2 ≤ 25 / 4 := by nlinarith
    have : (5 / 2 * m.sqrt 2) * (5 / 2 * m.sqrt 2) = 25 / 2 := by linear_combination 25 / 4 * h2'
    linarith
  have hq : 0 ≤ 5 / 2 * m.sqrt 2 := by positivity
  have hR : 0 ≤ patchSize key mag * (5 / 2) * m.sqrt 2 + 1 / 2 := by
    unfold patchSize
    positivity
  have ht' : (-m.sin key.ori) * (-m.sin key.ori) + m.cos key.ori * m.cos key.ori = 1 := by linear_combination ht
  have b : ∀ (c s : K), c * c + s * s = 1 → |(p1 * (key.sigma * mag) + (key.xs - key.x)) * c + (p2 * (key.sigma * mag) + (key.ys - key.y)) * s|
      ≤ patchSize key mag * (5 / 2) * m.sqrt 2 + 1 / 2 := by
    intro c s hcs
    have g1 := proj_le hcs hq hsq
    have g2 := proj_le hcs (by norm_num : (0 : K) ≤ 1 / 2) ho
    have e : (p1 * (key.sigma * mag) + (key.xs - key.x)) * c + (p2 * (key.sigma * mag) + (key.ys - key.y)) * s
        = (key.sigma * mag) * (p1 * c + p2 * s) + ((key.xs - key.x) * c + (key.ys - key.y) * s) := by ring
    rw [e]
    refine (abs_add_le _ _).trans ?_
    rw [abs_mul, abs_of_pos hs]
    have := mul_le_mul_of_nonneg_left g1 hs.le
    unfold patchSize
    linarith
  constructor
  · refine le_cTrunc hR ?_
    rw [Int.cast_abs, ← e1]
    exact b _ _ ht
  · refine le_cTrunc hR ?_
    rw [Int.cast_abs, ← e2]
    have := b _ _ ht'
    refine le_trans (le_of_eq ?_) this
    congr 1
    ring

/-! ## Contrast -/

/-- Applying a function to a normal result. -/
def rmap {α β : Type} (g : α → β) (x : Res α) : Res β := x >>= fun a => .ok (g a)

@[simp] theorem rmap_ok {α β : Type} (g : α → β) (a : α) : rmap g (.ok a) = .ok (g a) := rfl

theorem rmap_bind {α β γ δ : Type} {g : α → β} {k : γ → δ} {x : Res α} {f : β → Res δ} {f' : α → Res γ}
    (h : ∀ a, f (g a) = rmap k (f' a)) : (rmap g x >>= f) = rmap k (x >>= f') := by
  cases x with
  | ok a => exact h a
  | fatal => rfl
  | ub => rfl

theorem forLoop_rmap {σ τ : Type} (g : σ → τ) {n : Nat} {f : Nat → σ → Res σ} {f' : Nat → τ → Res τ}
    (h : ∀ i s, f' i (g s) = rmap g (f i s)) (i : Nat) (s : σ) : forLoop n f' i (g s) = rmap g (forLoop n f i s) := by
  induction hk : n - i generalizing i s with
  | zero => rw [forLoop.eq_def n f, forLoop.eq_def n f', if_neg (by omega), if_neg (by omega)]; rfl
  | succ k ih =>
    rw [forLoop.eq_def n f, forLoop.eq_def n f', if_pos (by omega), if_pos (by omega), h i s]
    exact rmap_bind (fun a => ih (i + 1) a (by omega))

theorem readI_rmap {α β : Type} (g : α → β) (l : List α) (i : Int) : readI (l.map g) i = rmap g (readI l i) := by
  unfold readI
  split
  · unfold readAt
    rw [List.getElem?_map]
    cases l[i.toNat]? <;> rfl
  · rfl

theorem writeI_map {α β : Type} (g : α → β) (l : List α) (i : Int) (x : α) :
    writeI (l.map g) i (g x) = rmap (List.map g) (writeI l i x) := by
  unfold writeI
  split
  · unfold writeAt
    rw [List.length_map]
    split
    · rw [rmap_ok, List.map_set]
    · rfl
  · rfl

theorem addAtI_scale (k : K) (l : List K) (i : Int) (v : K) :
    addAtI (l.map (k * ·)) i (k * v) = rmap (List.map (k * ·)) (addAtI l i v) := by
  unfold addAtI
  rw [readI_rmap]
  refine rmap_bind (fun a => ?_)
  rw [← mul_add]
  exact writeI_map (k * ·) l i (a + v)

theorem cellAdd_scale (k : K) (l : List K) (row col hi0 hi1 : Int) (ww heps : K) :
    cellAdd (l.map (k * ·)) row col hi0 hi1 (k * ww) heps = rmap (List.map (k * ·)) (cellAdd l row col hi0 hi1 ww heps) := by
  unfold cellAdd
  split
  · simp only
    rw [show k * ww - k * ww * heps = k * (ww - ww * heps) by ring, show k * ww * heps = k * (ww * heps) by ring, addAtI_scale]
    exact rmap_bind (fun a => addAtI_scale k a _ _)
  · rfl

theorem rowAdd_scale (k : K) (l : List K) (row pxi hi0 hi1 : Int) (w xeps heps : K) :
    rowAdd (l.map (k * ·)) row pxi hi0 hi1 (k * w) xeps heps = rmap (List.map (k * ·)) (rowAdd l row pxi hi0 hi1 w xeps heps) := by
  unfold rowAdd
  split
  · rw [show k * w * (1 - xeps) = k * (w * (1 - xeps)) by ring, show k * w * xeps = k * (w * xeps) by ring, cellAdd_scale]
    exact rmap_bind (fun a => cellAdd_scale k a _ _ _ _ _ _)
  · rfl

theorem deposit_scale (k : K) (l : List K) (px py h w : K) :
    deposit (l.map (k * ·)) px py h (k * w) = rmap (List.map (k * ·)) (deposit l px py h w) := by
  unfold deposit
  simp only
  rw [mul_assoc, mul_assoc, rowAdd_scale]
  exact rmap_bind (fun a => rowAdd_scale k a _ _ _ _ _ _ _)

/-- What is used about the square root. -/
def SqrtOk (m : FloatMath K) : Prop := ∀ s : K, 0 ≤ s → 0 ≤ m.sqrt s ∧ m.sqrt s * m.sqrt s = s

theorem SqrtOk.scale {m : FloatMath K} (hm : SqrtOk m) {k s : K} (hk : 0 ≤ k) (hs : 0 ≤ s) : m.sqrt (k * k * s) = k * m.sqrt s := by
  have h1 := hm s hs
  have h2 := hm (k * k * s) (by positivity)
  have hk' : 0 ≤ k * m.sqrt s := mul_nonneg hk h1.1
  refine (mul_self_inj h2.1 hk').mp ?_
  rw [h2.2]
  linear_combination -(k * k) * h1.2

theorem vecNormSq_sum (v : List K) : vecNormSq v = (v.map (fun x => x * x)).sum := by
  have : ∀ (v : List K) (s : K), v.foldl (fun s x => s + x * x) s = s + (v.map (fun x => x * x)).sum := by
    intro v
    induction v with
    | nil => intro s; simp
    | cons a v ih => intro s; rw [List.foldl_cons, ih, List.map_cons, List.sum_cons, add_assoc]
  unfold vecNormSq
  rw [this, zero_add]

theorem vecNormSq_cons (a : K) (v : List K) : vecNormSq (a :: v) = a * a + vecNormSq v := by
  rw [vecNormSq_sum, vecNormSq_sum, List.map_cons, List.sum_cons]

theorem vecNormSq_nonneg (v : List K) : 0 ≤ vecNormSq v := by
  induction v with
  | nil => exact le_rfl
  | cons a v ih => rw [vecNormSq_cons]; nlinarith [mul_self_nonneg a]

theorem vecNormSq_scale (k : K) (v : List K) : vecNormSq (v.map (k * ·)) = k * k * vecNormSq v := by
  induction v with
  | nil => simp [vecNormSq]
  | cons a v ih => rw [List.map_cons, vecNormSq_cons, vecNormSq_cons, ih]; ring

theorem le_vecNormSq {v : List K} {x : K} (h : x ∈ v) : x * x ≤ vecNormSq v := by
  induction v with
  | nil => cases h
  | cons a v ih =>
    rw [vecNormSq_cons]
    cases h with
    | head => linarith [vecNormSq_nonneg v]
    | tail _ h => nlinarith [ih h, mul_self_nonneg a]

theorem vecToUnit_scale {m : FloatMath K} (hm : SqrtOk m) {k : K} (hk : 0 < k) (v : List K) :
    vecToUnit m (v.map (k * ·)) = vecToUnit m v := by
  unfold vecToUnit
  simp only
  rw [vecNormSq_scale, hm.scale hk.le (vecNormSq_nonneg v)]
  have h1 := hm _ (vecNormSq_nonneg v)
  by_cases h0 : m.sqrt (vecNormSq v) = 0
  · rw [h0, mul_zero, if_neg (by simp), if_neg (by simp)]
    rw [h0, mul_zero] at h1
    refine (List.map_congr_left (g := id) (fun x hx => ?_)).trans (List.map_id v)
    have := le_vecNormSq hx
    rw [← h1.2] at this
    have hx0 : x = 0 := mul_self_eq_zero.mp (le_antisymm this (mul_self_nonneg x))
    rw [hx0, mul_zero]
    rfl
  · rw [if_pos h0, if_pos (mul_ne_zero hk.ne' h0), List.map_map]
    refine List.map_congr_left (fun x _ => ?_)
    exact mul_div_mul_left x _ hk.ne'

/-- An image with all values multiplied. -/
def GImage.scaled (k : K) (g : GImage K) : GImage K := { g with data := g.data.map (k * ·) }

/-- What is used about `atan2`: the angle does not depend on the length. -/
def AngleOk (m : FloatMath K) : Prop := ∀ k x y : K, 0 < k → m.atan2 (k * y) (k * x) = m.atan2 y x

theorem sampleBody_scale {m : FloatMath K} (hm : SqrtOk m) (ha : AngleOk m) (hp : 0 < 2 * m.pi) (gx gy : GImage K) (key : SiftKey K)
    (mag : Int) (dx dy : Int) {k : K} (hk : 0 < k) (d : List K) :
    sampleBody m hp (gx.scaled k) (gy.scaled k) key mag dx dy (d.map (k * ·))
      = rmap (List.map (k * ·)) (sampleBody m hp gx gy key mag dx dy d) := by
  unfold sampleBody GImage.scaled
  simp only
  split
  · rfl
  · split
    · rw [readI_rmap]
      refine rmap_bind (fun a => ?_)
      rw [readI_rmap]
      refine rmap_bind (fun b => ?_)
      have e1 : sampleBin m hp key (k * a) (-(k * b)) = sampleBin m hp key a (-b) := by
        unfold sampleBin
        rw [← mul_neg, ha k _ _ hk]
      have e2 : sampleWeight m (patchCoord m key mag dx dy) (k * a) (-(k * b)) = k * sampleWeight m (patchCoord m key mag dx dy) a (-b) := by
        unfold sampleWeight
        rw [show k * a * (k * a) + -(k * b) * -(k * b) = k * k * (a * a + -b * -b) by ring,
          hm.scale hk.le (add_nonneg (mul_self_nonneg a) (mul_self_nonneg (-b)))]
        ring
      rw [e1, e2]
      exact deposit_scale k d _ _ _ _
    · rfl

theorem fdescriptor_scale {m : FloatMath K} (hm : SqrtOk m) (ha : AngleOk m) (hp : 0 < 2 * m.pi) (gx gy : GImage K) (key : SiftKey K)
    (mag : Int) {k : K} (hk : 0 < k) :
    fdescriptor m hp (gx.scaled k) (gy.scaled k) key mag = rmap (List.map (k * ·)) (fdescriptor m hp gx gy key mag) := by
  unfold fdescriptor
  simp only
  have e : (List.replicate 128 (0 : K)) = (List.replicate 128 (0 : K)).map (k * ·) := by rw [List.map_replicate, mul_zero]
  rw [e]
  conv => rhs; rw [← e]
  refine forLoop_rmap (List.map (k * ·)) ?_ 0 _
  intro i s
  have eh : (gx.scaled k).height = gx.height := rfl
  rw [eh]
  split
  · rfl
  · exact forLoop_rmap (List.map (k * ·)) (fun l s => sampleBody_scale hm ha hp gx gy key mag _ _ hk s) 0 s

/-- C85: the descriptor does not depend on the contrast: with all derivatives multiplied by the same positive number it is the same. -/
theorem c85_contrast (m : FloatMath K) (hm : SqrtOk m) (ha : AngleOk m) (hp : 0 < 2 * m.pi) (gx gy : GImage K) (key : SiftKey K)
    (mag : Int) (k : K) (hk : 0 < k) :
    siftDescriptor m hp { gx with data := gx.data.map (k * ·) } { gy with data := gy.data.map (k * ·) } key mag
      = siftDescriptor m hp gx gy key mag := by
  have := fdescriptor_scale hm ha hp gx gy key mag hk
  unfold GImage.scaled at this
  unfold siftDescriptor
  rw [this]
  cases fdescriptor m hp gx gy key mag with
  | fatal => rfl
  | ub => rfl
  | ok f =>
    rw [rmap_ok, Res.ok_bind, Res.ok_bind]
    unfold finishDescriptor
    rw [vecToUnit_scale hm hk]

/-! ## The bytes -/

theorem vecToUnit_spec {m : FloatMath K} (hm : SqrtOk m) (v : List K) : UnitOf v (vecToUnit m v) := by
  have h1 := hm _ (vecNormSq_nonneg v)
  unfold vecToUnit
  simp only
  split
  · rename_i h0
    refine ⟨List.length_map _, m.sqrt (vecNormSq v), h1.1, by rw [h1.2, vecNormSq_sum], Or.inr ⟨lt_of_le_of_ne h1.1 (Ne.symm h0), ?_⟩⟩
    intro i
    rw [List.getElem?_map]
    cases v[i]? with
    | none => rfl
    | some x => simp only [Option.map_some]; rw [div_mul_cancel₀ _ h0]
  · rename_i h0
    rw [not_not] at h0
    refine ⟨rfl, 0, le_rfl, ?_, Or.inl ⟨rfl, rfl⟩⟩
    rw [← vecNormSq_sum, ← h1.2, h0]

theorem vecToUnit_range {m : FloatMath K} (hm : SqrtOk m) {v : List K} (hv : ∀ x ∈ v, 0 ≤ x) :
    ∀ x ∈ vecToUnit m v, 0 ≤ x ∧ x ≤ 1 := by
  have h1 := hm _ (vecNormSq_nonneg v)
  intro x hx
  unfold vecToUnit at hx
  simp only at hx
  split at hx
  · rename_i h0
    obtain ⟨y, hy, rfl⟩ := List.mem_map.mp hx
    have hpos : 0 < m.sqrt (vecNormSq v) := lt_of_le_of_ne h1.1 (Ne.symm h0)
    refine ⟨div_nonneg (hv y hy) h1.1, ?_⟩
    rw [div_le_one hpos]
    have := le_vecNormSq hy
    rw [← h1.2] at this
    exact (mul_self_le_mul_self_iff (hv y hy) h1.1).mpr this
  · rename_i h0
    rw [not_not] at h0
    have := le_vecNormSq hx
    rw [← h1.2, h0, mul_zero] at this
    have hx0 : x = 0 := mul_self_eq_zero.mp (le_antisymm this (mul_self_nonneg x))
    rw [hx0]
    exact ⟨le_rfl, zero_le_one⟩

theorem quantize_spec {x : K} (h0 : 0 ≤ x) (h1 : x ≤ 1) :
    ∃ b : Byte, quantize x = .ok b ∧ (b.toNat : Int) = min 255 ⌊512 * x⌋ := by
  have hb0 : 0 ≤ ⌊512 * x⌋ := Int.floor_nonneg.mpr (by positivity)
  have hb1 : ⌊512 * x⌋ ≤ 512 := by
    have : (⌊512 * x⌋ : K) ≤ ((512 : Int) : K) := (Int.floor_le _).trans (by push_cast; linarith)
    exact_mod_cast this
  unfold quantize cTrunc
  rw [if_pos (by positivity : (0 : K) ≤ 512 * x)]
  simp only
  rw [if_pos ⟨by omega, by omega⟩]
  refine ⟨_, rfl, ?_⟩
  generalize ⌊512 * x⌋ = f at *
  rw [UInt8.toNat_ofNat']
  split <;> omega

theorem quantize_all (v : List K) (hv : ∀ x ∈ v, 0 ≤ x ∧ x ≤ 1) :
    ∃ bs : List Byte, v.foldr (fun x r => do
      let r ← r
      let b ← quantize x
      pure (b :: r)) (.ok []) = .ok bs ∧ bs.map (fun b => (b.toNat : Int)) = v.map (fun x => min 255 ⌊512 * x⌋) := by
  induction v with
  | nil => exact ⟨[], rfl, rfl⟩
  | cons a v ih =>
    obtain ⟨bs, e, h⟩ := ih (fun x hx => hv x (List.mem_cons_of_mem _ hx))
    obtain ⟨b, eb, hb⟩ := quantize_spec (hv a List.mem_cons_self).1 (hv a List.mem_cons_self).2
    refine ⟨b :: bs, ?_, ?_⟩
    · rw [List.foldr_cons, e, Res.ok_bind, eb, Res.ok_bind, Res.pure_eq]
    · rw [List.map_cons, List.map_cons, h, hb]

/-- C85: a histogram without negative entries is normalised, entries above 0.2 become 0.2, it is normalised again and the bytes are 512 times
the entries, rounded down, at most 255. No conversion overflows. -/
theorem c85_bytes (m : FloatMath K) (hm : SqrtOk m) (f : List K) (hf : ∀ x ∈ f, 0 ≤ x) :
    ∃ (u v : List K) (bs : List Byte), finishDescriptor m f = .ok bs ∧ bs.length = f.length ∧
      UnitOf f u ∧ UnitOf (u.map (fun x => min (1 / 5) x)) v ∧
      bs.map (fun b => (b.toNat : Int)) = v.map (fun x => min 255 ⌊512 * x⌋) := by
  have r1 := vecToUnit_range hm hf
  have e : (vecToUnit m f).map (fun x => if x > 1 / 5 then 1 / 5 else x) = (vecToUnit m f).map (fun x => min (1 / 5) x) := by
    refine List.map_congr_left (fun x _ => ?_)
    split
    · rename_i h; rw [min_eq_left (le_of_lt h)]
    · rename_i h; rw [min_eq_right (not_lt.mp h)]
  have r2 := vecToUnit_range hm (v := (vecToUnit m f).map (fun x => min (1 / 5) x)) (by
    intro x hx
    obtain ⟨y, hy, rfl⟩ := List.mem_map.mp hx
    exact le_min (by norm_num) (r1 y hy).1)
  obtain ⟨bs, eb, hb⟩ := quantize_all _ r2
  have s2 := vecToUnit_spec hm ((vecToUnit m f).map (fun x => min (1 / 5) x))
  refine ⟨vecToUnit m f, vecToUnit m ((vecToUnit m f).map (fun x => min (1 / 5) x)), bs, ?_, ?_, vecToUnit_spec hm f, s2, hb⟩
  · unfold finishDescriptor
    simp only
    rw [e]
    exact eb
  · have := congrArg List.length hb
    rw [List.length_map, List.length_map, s2.1, List.length_map, (vecToUnit_spec hm f).1] at this
    exact this

theorem tent_nonneg (t : K) : 0 ≤ tent t := le_max_left _ _

theorem share_nonneg (px py h : K) (r c o : Nat) : 0 ≤ share px py h r c o := by
  unfold share tent8
  refine mul_nonneg (mul_nonneg (tent_nonneg _) (tent_nonneg _)) (add_nonneg (tent_nonneg _) ?_)
  split
  · exact tent_nonneg _
  · exact le_rfl

/-- C85: so for images without a sample in the direction of the keypoint the descriptor is computed without overflow and has
128 bytes. Missing: that direction. -/
theorem c85_descriptor_partial (m : FloatMath K) (hm : SqrtOk m) (he : ∀ x : K, 0 ≤ m.exp x) (hp : 0 < 2 * m.pi) (gx gy : GImage K)
    (w h : Nat) (fx fy : Nat → Nat → K) (hx : gx.Shows w h fx) (hy : gy.Shows w h fy) (key : SiftKey K) (mag : Int)
    (hz : ∀ dx dy, Used m key mag w h dx dy →
      sampleBin m hp key (fx (dx + key.x).toNat (dy + key.y).toNat) (-fy (dx + key.x).toNat (dy + key.y).toNat) ≠ 0) :
    ∃ bs, siftDescriptor m hp gx gy key mag = .ok bs ∧ bs.length = 128 := by
  obtain ⟨d, e, hl, hd⟩ := c85_histogram_partial m hp gx gy w h fx fy hx hy key mag hz
  have hn : ∀ x ∈ d, 0 ≤ x := by
    intro x hxd
    obtain ⟨i, hi, rfl⟩ := List.mem_iff_getElem.mp hxd
    have := hd (i / 32) (i / 8 % 4) (i % 8) (by omega) (by omega) (by omega)
    rw [show (i / 32 * 4 + i / 8 % 4) * 8 + i % 8 = i by omega, List.getElem?_eq_getElem hi] at this
    rw [Option.some.inj this]
    refine Finset.sum_nonneg (fun k _ => Finset.sum_nonneg (fun l _ => ?_))
    unfold sampleTerm
    split
    · exact mul_nonneg (mul_nonneg (he _) (hm _ (add_nonneg (mul_self_nonneg _) (mul_self_nonneg _))).1) (share_nonneg _ _ _ _ _ _)
    · exact le_rfl
  obtain ⟨_, _, bs, eb, hb, _⟩ := c85_bytes m hm d hn
  exact ⟨bs, by unfold siftDescriptor; rw [e, Res.ok_bind, eb], by rw [hb, hl]⟩

end

/-! ## Examples -/

/-- The real functions. -/
noncomputable def realMath : FloatMath ℝ where
  pi := Real.pi
  sqrt := Real.sqrt
  sin := Real.sin
  cos := Real.cos
  exp := Real.exp
  atan2 y x := Complex.arg ⟨x, y⟩

theorem realMath_sqrt : SqrtOk realMath := fun s hs => ⟨Real.sqrt_nonneg s, Real.mul_self_sqrt hs⟩

theorem realMath_angle : AngleOk realMath := by
  intro k x y hk
  have : (⟨k * x, k * y⟩ : ℂ) = (k : ℂ) * ⟨x, y⟩ := by
    apply Complex.ext <;> simp
  show Complex.arg ⟨k * x, k * y⟩ = Complex.arg ⟨x, y⟩
  rw [this, Complex.arg_real_mul _ hk]

theorem realMath_pi : 0 < 2 * realMath.pi := mul_pos two_pos Real.pi_pos

/-- A keypoint with orientation 0 in the middle of its pixel. -/
noncomputable def demoKey : SiftKey ℝ := ⟨0, 0, 0, 0, 1, 0⟩

theorem demo_bin : sampleBin realMath realMath_pi demoKey 0 (-(-1)) = 2 := by
  have h1 : realMath.atan2 (-(-1)) 0 - demoKey.ori = Real.pi / 2 := by
    show Complex.arg ⟨0, -(-1)⟩ - 0 = _
    rw [neg_neg, sub_zero]
    exact Complex.arg_I
  have hpi := Real.pi_pos
  unfold sampleBin
  rw [h1, wrapDown, if_neg (by show ¬ Real.pi / 2 > 2 * Real.pi; linarith), wrapUp, if_neg (by linarith)]
  show 8 * (Real.pi / 2 / (2 * Real.pi)) = 2
  field_simp
  norm_num

theorem demo_shows (v : ℝ) : (⟨2, 2, 2, [v, v, v, v]⟩ : GImage ℝ).Shows 2 2 (fun _ _ => v) := by
  refine ⟨rfl, rfl, ?_⟩
  intro x y hx hy
  have : (x = 0 ∨ x = 1) ∧ (y = 0 ∨ y = 1) := by omega
  rcases this with ⟨rfl | rfl, rfl | rfl⟩ <;> rfl

/-- The hypotheses of `c85_descriptor_partial`: a vertical gradient. -/
example : ∃ bs, siftDescriptor realMath realMath_pi ⟨2, 2, 2, [0, 0, 0, 0]⟩ ⟨2, 2, 2, [-1, -1, -1, -1]⟩ demoKey 3 = .ok bs ∧ bs.length = 128 :=
  c85_descriptor_partial realMath realMath_sqrt (fun x => (Real.exp_pos x).le) realMath_pi _ _ 2 2 _ _ (demo_shows 0) (demo_shows (-1)) demoKey 3
    (fun _ _ _ => by rw [demo_bin]; norm_num)

/-- The same sample of the image is used. -/
example : Used realMath demoKey 3 2 2 0 0 := by
  refine ⟨by decide, by decide, ?_⟩
  unfold framePos demoKey
  norm_num

/-- Three times the contrast. -/
example : siftDescriptor realMath realMath_pi ⟨2, 2, 2, [0, 0, 0, 0].map ((3 : ℝ) * ·)⟩ ⟨2, 2, 2, [-1, -1, -1, -1].map ((3 : ℝ) * ·)⟩ demoKey 3
    = siftDescriptor realMath realMath_pi ⟨2, 2, 2, [0, 0, 0, 0]⟩ ⟨2, 2, 2, [-1, -1, -1, -1]⟩ demoKey 3 :=
  c85_contrast realMath realMath_sqrt realMath_angle realMath_pi ⟨2, 2, 2, [0, 0, 0, 0]⟩ ⟨2, 2, 2, [-1, -1, -1, -1]⟩ demoKey 3 3 (by norm_num)

/-- The window of the keypoint. -/
example (w h : Nat) (dx dy : Int) (hu : Used realMath demoKey 3 w h dx dy) :
    |dx| ≤ sampleRadius realMath demoKey 3 ∧ |dy| ≤ sampleRadius realMath demoKey 3 :=
  c85_window realMath demoKey 3 (by unfold demoKey; norm_num)
    (by show Real.cos 0 * Real.cos 0 + Real.sin 0 * Real.sin 0 = 1; simp) (Real.sqrt_nonneg 2) (Real.mul_self_sqrt (by norm_num))
    (by unfold demoKey; norm_num) w h dx dy hu

/-- A sample halfway between cells and directions. -/
example : share (1 / 2 : ℚ) (3 / 2) (15 / 2) 1 0 7 = 1 / 8 ∧ share (1 / 2 : ℚ) (3 / 2) (15 / 2) 2 1 0 = 1 / 8
    ∧ share (1 / 2 : ℚ) (3 / 2) (15 / 2) 3 1 0 = 0 := by
  unfold share tent8 tent
  norm_num [abs_of_nonneg, abs_of_nonpos]

/-- A horizontal gradient has the direction of the keypoint: the element in front of the array is accessed. -/
example (w : ℚ) : deposit (List.replicate 128 (0 : ℚ)) (1 / 2) (1 / 2) 0 w = .ub :=
  c85_zero_direction _ _ _ _ (by norm_num) (by norm_num) (by norm_num) (by norm_num)

/-- A histogram with the entries 3 and 4: after the limit both are equal. -/
example : ∃ (u v : List ℝ) (bs : List Byte), finishDescriptor realMath [3, 4] = .ok bs ∧ bs.length = 2 ∧
    UnitOf [3, 4] u ∧ UnitOf (u.map (fun x => min (1 / 5) x)) v ∧
    bs.map (fun b => (b.toNat : Int)) = v.map (fun x => min 255 ⌊512 * x⌋) :=
  c85_bytes realMath realMath_sqrt [3, 4] (by simp)

end Nx
