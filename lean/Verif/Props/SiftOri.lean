import Verif.Model.SiftOri
import Verif.Spec.SiftOri
import Verif.Lemmas.SiftDesc
import Verif.Props.SiftDesc
import Verif.Lemmas.Harris

/-!
# Orientations of SIFT keypoints (C86)
-/

namespace Nx

section
set_option linter.unusedSectionVars false
variable {K : Type} [Field K] [LinearOrder K] [IsStrictOrderedRing K] [FloorRing K]

theorem readAt_of {α : Type} {l : List α} {i : Nat} {x : α} (h : l[i]? = some x) : readAt l i = .ok x := by
  unfold readAt
  rw [h]

/-- Copying elements of an array. -/
theorem copyElems_spec (dst src : List K) (doff soff n : Nat) (hd : doff + n ≤ dst.length) (hs : soff + n ≤ src.length) :
    ∃ d, copyElems dst doff src soff n = .ok d ∧ d.length = dst.length ∧
      (∀ i, i < n → d[doff + i]? = src[soff + i]?) ∧ (∀ i, i < doff ∨ doff + n ≤ i → d[i]? = dst[i]?) := by
  unfold copyElems
  obtain ⟨d, e, h⟩ := forLoop_spec (n := n) (i0 := 0) (s := dst)
    (body := fun i dst => do
      let x ← readAt src (soff + i)
      writeAt dst (doff + i) x)
    (fun k d => d.length = dst.length ∧ (∀ i, i < k → d[doff + i]? = src[soff + i]?) ∧ (∀ i, i < doff ∨ doff + k ≤ i → d[i]? = dst[i]?))
    (Nat.zero_le _) ⟨rfl, fun i hi => absurd hi (by omega), fun _ _ => rfl⟩ (by
      intro k d _ hk ⟨h1, h2, h3⟩
      have hr : soff + k < src.length := by omega
      refine ⟨d.set (doff + k) src[soff + k], ?_, ?_, ?_, ?_⟩
      · rw [readAt_ok hr, Res.ok_bind, writeAt_ok _ (by omega)]
      · rw [List.length_set, h1]
      · intro i hi
        rw [List.getElem?_set]
        by_cases hik : i = k
        · subst hik
          rw [if_pos rfl, if_pos (by omega), List.getElem?_eq_getElem hr]
        · rw [if_neg (by omega), h2 i (by omega)]
      · intro i hi
        rw [List.getElem?_set, if_neg (by omega), h3 i (by omega)])
  exact ⟨d, e, h⟩

theorem smoothStep_spec {hist buf : List K} {f : Nat → K} (hh : Bins hist f) (hb : buf.length = 38) :
    ∃ hist' buf', smoothStep (hist, buf) = .ok (hist', buf') ∧ Bins hist' (mean3 f) ∧ buf'.length = 38 ∧ buf'[36]? = some (f 35) := by
  obtain ⟨hl, hf⟩ := hh
  obtain ⟨b1, e1, l1, c1, _⟩ := copyElems_spec buf hist 1 1 36 (by omega) (by omega)
  have g1 : ∀ i, i < 36 → b1[i + 1]? = some (f i) := by
    intro i hi
    rw [show i + 1 = 1 + i by omega, c1 i hi, show 1 + i = i + 1 by omega, hf i hi]
  -- the array before the means
  have hb2 : ∃ b2 : List K, ((b1.set 0 (f 35)).set 37 (f 0)) = b2 ∧ b2.length = 38 ∧
      ∀ i, i < 38 → b2[i]? = some (f ((i + 35) % 36)) := by
    refine ⟨_, rfl, by rw [List.length_set, List.length_set, l1, hb], ?_⟩
    intro i hi
    rw [List.getElem?_set, List.length_set, l1, hb]
    by_cases h37 : i = 37
    · subst h37
      rw [if_pos rfl, if_pos (by omega)]
    · rw [if_neg (by omega), List.getElem?_set, l1, hb]
      by_cases h0 : i = 0
      · subst h0
        rw [if_pos rfl, if_pos (by omega)]
      · rw [if_neg (by omega)]
        have := g1 (i - 1) (by omega)
        rw [show i - 1 + 1 = i by omega] at this
        rw [this, show (i + 35) % 36 = i - 1 by omega]
  obtain ⟨b2, eb2, l2, g2⟩ := hb2
  obtain ⟨b3, e3, l3, m3, u3⟩ := forLoop_spec (n := 36) (i0 := 0) (s := b2)
    (body := fun i buf => do
      let j := i + 1
      let a ← readAt buf (j - 1)
      let b ← readAt buf j
      let c ← readAt buf (j + 1)
      writeAt buf (j - 1) ((a + b + c) / 3))
    (fun k d => d.length = 38 ∧ (∀ i, i < k → d[i]? = some (mean3 f i)) ∧ (∀ i, k ≤ i → i < 38 → d[i]? = some (f ((i + 35) % 36))))
    (Nat.zero_le _) ⟨l2, fun i hi => absurd hi (by omega), fun i _ hi => g2 i hi⟩ (by
      intro k d _ hk ⟨h1, h2, h3⟩
      refine ⟨d.set k (mean3 f k), ?_, by rw [List.length_set, h1], ?_, ?_⟩
      · simp only
        rw [Nat.add_sub_cancel, readAt_of (h3 k (by omega) (by omega)), Res.ok_bind, readAt_of (h3 (k + 1) (by omega) (by omega)),
          Res.ok_bind, readAt_of (h3 (k + 1 + 1) (by omega) (by omega)), Res.ok_bind, writeAt_ok _ (by omega)]
        unfold mean3
        rw [show (k + 1 + 35) % 36 = k by omega, show (k + 1 + 1 + 35) % 36 = (k + 1) % 36 by omega]
      · intro i hi
        rw [List.getElem?_set]
        by_cases hik : k = i
        · subst hik
          rw [if_pos rfl, if_pos (by omega)]
        · rw [if_neg hik, h2 i (by omega)]
      · intro i hi hi'
        rw [List.getElem?_set, if_neg (by omega), h3 i (by omega) hi'])
  obtain ⟨h4, e4, l4, c4, _⟩ := copyElems_spec hist b3 1 0 36 (by omega) (by omega)
  refine ⟨h4, b3, ?_, ⟨by rw [l4, hl], ?_⟩, l3, ?_⟩
  · unfold smoothStep
    simp only
    rw [e1, Res.ok_bind, readAt_of (g1 35 (by omega)), Res.ok_bind, writeAt_ok _ (by omega), Res.ok_bind,
      readAt_of (x := f 0) (by rw [List.getElem?_set, if_neg (by omega)]; exact g1 0 (by omega)), Res.ok_bind,
      writeAt_ok _ (by rw [List.length_set]; omega), Res.ok_bind, eb2, e3, Res.ok_bind, e4, Res.ok_bind, Res.pure_eq]
  · intro i hi
    rw [show i + 1 = 1 + i by omega, c4 i hi, Nat.zero_add, m3 i hi]
  · rw [u3 36 (by omega) (by omega)]

/-- C86: smoothing is the mean of three neighbours on the circle, six times. The element behind the bins is the first bin; the element
in front of the bins is the last bin before the last mean. -/
theorem c86_smooth (hist buf : List K) (f : Nat → K) (hh : Bins hist f) (hb : buf.length = 38) :
    ∃ hist', oriSmooth hist buf = .ok hist' ∧ Bins hist' (means 6 f) ∧
      hist'[37]? = some (means 6 f 0) ∧ hist'[0]? = some (means 5 f 35) := by
  obtain ⟨⟨h1, b1⟩, e, hB, hl, hs⟩ := forLoop_spec (n := 6) (i0 := 0) (s := (hist, buf)) (body := fun _ s => smoothStep s)
    (fun k s => Bins s.1 (means k f) ∧ s.2.length = 38 ∧ (0 < k → s.2[36]? = some (means (k - 1) f 35)))
    (Nat.zero_le _) ⟨hh, hb, fun h => absurd h (by omega)⟩ (by
      intro k ⟨h, b⟩ _ _ ⟨hB, hl, _⟩
      obtain ⟨h', b', e, hB', hl', hs'⟩ := smoothStep_spec hB hl
      exact ⟨(h', b'), e, hB', hl', fun _ => by rw [Nat.add_sub_cancel]; exact hs'⟩)
  have hs := hs (by omega)
  obtain ⟨hl1, hf1⟩ := hB
  simp only at hl hs hl1 hf1
  refine ⟨(h1.set 0 (means 5 f 35)).set 37 (means 6 f 0), ?_, ⟨by rw [List.length_set, List.length_set, hl1], ?_⟩, ?_, ?_⟩
  · unfold oriSmooth
    rw [e, Res.ok_bind]
    simp only
    rw [readAt_of hs, Res.ok_bind, writeAt_ok _ (by omega), Res.ok_bind,
      readAt_of (x := means 6 f 0) (by rw [List.getElem?_set, if_neg (by omega)]; exact hf1 0 (by omega)), Res.ok_bind,
      writeAt_ok _ (by rw [List.length_set]; omega)]
  · intro i hi
    rw [List.getElem?_set, if_neg (by omega), List.getElem?_set, if_neg (by omega), hf1 i hi]
  · rw [List.getElem?_set, if_pos rfl, List.length_set, if_pos (by omega)]
  · rw [List.getElem?_set, if_neg (by omega), List.getElem?_set, if_pos rfl, if_pos (by omega)]

/-- C86: smoothing keeps the sum of the bins. -/
theorem c86_mass (f : Nat → K) (n : Nat) : (Finset.range 36).sum (means n f) = (Finset.range 36).sum f := by
  induction n with
  | zero => rfl
  | succ n ih =>
    rw [← ih, show means (n + 1) f = mean3 (means n f) from rfl]
    generalize means n f = g
    unfold mean3
    simp only [Finset.sum_range_succ, Finset.sum_range_zero]
    norm_num
    ring

/-- C86: smoothing keeps bins between bounds. -/
theorem c86_bounds (f : Nat → K) (lo hi : K) (h : ∀ b, b < 36 → lo ≤ f b ∧ f b ≤ hi) (n : Nat) :
    ∀ b, b < 36 → lo ≤ means n f b ∧ means n f b ≤ hi := by
  induction n with
  | zero => exact h
  | succ n ih =>
    intro b hb
    have h1 := ih b hb
    have h2 := ih ((b + 35) % 36) (Nat.mod_lt _ (by omega))
    have h3 := ih ((b + 1) % 36) (Nat.mod_lt _ (by omega))
    show lo ≤ mean3 (means n f) b ∧ mean3 (means n f) b ≤ hi
    unfold mean3
    constructor <;> linarith

/-- C86: the peak is the highest bin. -/
theorem c86_peak (hist : List K) (f : Nat → K) (hh : Bins hist f) :
    ∃ p, oriPeak hist = .ok p ∧ (∃ b, b < 36 ∧ f b = p) ∧ ∀ b, b < 36 → f b ≤ p := by
  obtain ⟨hl, hf⟩ := hh
  unfold oriPeak
  rw [readAt_of (hf 0 (by omega)), Res.ok_bind]
  obtain ⟨p, e, h1, h2⟩ := forLoop_spec (n := 35) (i0 := 0) (s := f 0)
    (body := fun k p => do
      let x ← readAt hist (k + 2)
      pure (if x > p then x else p))
    (fun k p => (∃ b, b ≤ k ∧ f b = p) ∧ ∀ b, b ≤ k → f b ≤ p)
    (Nat.zero_le _) ⟨⟨0, le_rfl, rfl⟩, fun b hb => by rw [Nat.le_zero.mp hb]⟩ (by
      intro k p _ hk ⟨⟨b, hb, eb⟩, h2⟩
      refine ⟨if f (k + 1) > p then f (k + 1) else p, ?_, ?_, ?_⟩
      · rw [readAt_of (hf (k + 1) (by omega)), Res.ok_bind, Res.pure_eq]
      · split
        · exact ⟨k + 1, le_rfl, rfl⟩
        · exact ⟨b, by omega, eb⟩
      · intro b' hb'
        by_cases h' : b' = k + 1
        · subst h'
          split
          · exact le_rfl
          · rename_i h; exact not_lt.mp h
        · have := h2 b' (by omega)
          split
          · rename_i h; exact this.trans (le_of_lt h)
          · exact this)
  obtain ⟨b, hb, eb⟩ := h1
  exact ⟨p, e, ⟨b, by omega, eb⟩, fun b hb => h2 b (by omega)⟩

/-! ## The histogram -/

/-- `b` is the bin of the direction `t`: the circle from `-pi` on has 36 bins, shifted by 0.00001; the last bin contains the
rest. -/
def DirBin (m : FloatMath K) (t : K) (b : Nat) : Prop :=
  b < 36 ∧ (b : K) * (2 * m.pi / 36) ≤ t + m.pi + 1 / 100000 ∧ (b = 35 ∨ t + m.pi + 1 / 100000 < ((b : K) + 1) * (2 * m.pi / 36))

instance (m : FloatMath K) (t : K) (b : Nat) : Decidable (DirBin m t b) := by unfold DirBin; infer_instance

theorem oriBin_spec {m : FloatMath K} (hp : 0 < m.pi) {t : K} (h0 : -m.pi ≤ t) (b : Nat) : oriBin m t = b ↔ DirBin m t b := by
  have hq : 0 ≤ 36 * (t + m.pi + 1 / 100000) / (2 * m.pi) := by
    refine div_nonneg ?_ (by linarith)
    linarith
  have key : ∀ z : K, z ≤ 36 * (t + m.pi + 1 / 100000) / (2 * m.pi) ↔ z * (2 * m.pi / 36) ≤ t + m.pi + 1 / 100000 := by
    intro z
    rw [le_div_iff₀ (by linarith)]
    constructor <;> intro h <;> linarith
  have fl : ∀ k : Int, k ≤ ⌊36 * (t + m.pi + 1 / 100000) / (2 * m.pi)⌋ ↔ (k : K) * (2 * m.pi / 36) ≤ t + m.pi + 1 / 100000 := by
    intro k
    rw [Int.le_floor, key]
  have hf0 := Int.floor_nonneg.mpr hq
  have f1 := fl (b : Int)
  have f2 := fl ((b : Int) + 1)
  unfold oriBin cTrunc DirBin
  rw [if_pos hq]
  simp only
  push_cast at f1 f2
  have f3 : t + m.pi + 1 / 100000 < ((b : K) + 1) * (2 * m.pi / 36) ↔ ¬ (b : Int) + 1 ≤ ⌊36 * (t + m.pi + 1 / 100000) / (2 * m.pi)⌋ := by
    rw [f2, not_le]
  rw [f3, ← f1]
  split <;> omega

/-- Whether a sample is used: not at the border of the image and near the keypoint. -/
def OriUsed (w h : Nat) (x y sigma : K) (u v : Int) : Prop :=
  (0 < u ∧ u + 2 < w) ∧ (0 < v ∧ v + 2 < h) ∧
    ((u : K) - x) * (u - x) + (v - y) * (v - y) ≤ (cTrunc (9 / 2 * sigma) : K) * cTrunc (9 / 2 * sigma) + 1 / 2

instance (w h : Nat) (x y sigma : K) (u v : Int) : Decidable (OriUsed w h x y sigma u v) := by
  unfold OriUsed; infer_instance

/-- What the sample in column `u` and row `v` contributes to a bin. -/
def oriTerm (m : FloatMath K) (w h : Nat) (fx fy : Nat → Nat → K) (x y sigma : K) (u v : Int) (b : Nat) : K :=
  let gx := fx u.toNat v.toNat
  let gy := -fy u.toNat v.toNat
  if OriUsed w h x y sigma u v ∧ DirBin m (m.atan2 gy gx) b then
    m.exp (-(1 / 2) / (sigma * (3 / 2) * (sigma * (3 / 2))) * (((u : K) - x) * (u - x) + (v - y) * (v - y))) * m.sqrt (gx * gx + gy * gy)
  else 0

/-- The bins change by `A`. -/
def BinAdds (d d' : List K) (A : Nat → K) : Prop :=
  d'.length = 38 ∧ ∀ b v, b < 36 → d[b + 1]? = some v → d'[b + 1]? = some (v + A b)

theorem BinAdds.zero {d : List K} (hd : d.length = 38) {A : Nat → K} (h : ∀ b, A b = 0) : BinAdds d d A :=
  ⟨hd, fun b v _ e => by rw [e, h b, add_zero]⟩

theorem BinAdds.trans {d d' d'' : List K} {A B : Nat → K} (h : BinAdds d d' A) (h' : BinAdds d' d'' B) :
    BinAdds d d'' (fun b => A b + B b) :=
  ⟨h'.1, fun b v hb e => by rw [h'.2 b _ hb (h.2 b v hb e), add_assoc]⟩

theorem BinAdds.congr {d d' : List K} {A B : Nat → K} (h : BinAdds d d' A) (e : ∀ b, A b = B b) : BinAdds d d' B := by
  rwa [show B = A from funext fun b => (e b).symm]

theorem oriSample_spec {m : FloatMath K} (hp : 0 < m.pi) (ha : ∀ a b : K, -m.pi ≤ m.atan2 a b) {gx gy : GImage K} {w h : Nat}
    {fx fy : Nat → Nat → K} (hx : gx.Shows w h fx) (hy : gy.Shows w h fy) (x y sigma : K) (u v : Int)
    (hv : 0 < v ∧ v + 2 < h) {d : List K} (hd : d.length = 38) :
    ∃ d', oriSample m gx gy x y (sigma * (3 / 2)) (cTrunc (sigma * (3 / 2) * 3)) u v d = .ok d' ∧
      BinAdds d d' (oriTerm m w h fx fy x y sigma u v) := by
  have er : sigma * (3 / 2) * 3 = 9 / 2 * sigma := by ring
  rw [er]
  unfold oriSample
  by_cases h1 : u ≤ 0 ∨ u ≥ (gx.width : Int) - 2
  · rw [if_pos h1]
    rw [hx.width_eq] at h1
    refine ⟨d, rfl, BinAdds.zero hd (fun b => ?_)⟩
    unfold oriTerm
    simp only
    rw [if_neg]
    rintro ⟨hu, _⟩
    have := hu.1
    omega
  · rw [if_neg h1]
    rw [hx.width_eq] at h1
    simp only
    split
    · rename_i h2
      refine ⟨d, rfl, BinAdds.zero hd (fun b => ?_)⟩
      unfold oriTerm
      simp only
      rw [if_neg]
      rintro ⟨hu, _⟩
      exact absurd hu.2.2 (not_le.mpr h2)
    · rename_i h2
      have hu : OriUsed w h x y sigma u v := ⟨by omega, hv, not_lt.mp h2⟩
      obtain ⟨u, rfl⟩ : ∃ n : Nat, u = n := ⟨u.toNat, by omega⟩
      obtain ⟨v, rfl⟩ : ∃ n : Nat, v = n := ⟨v.toNat, by omega⟩
      have hrx := hx.read (x := u) (y := v) (by omega) (by omega)
      have hry := hy.read (x := u) (y := v) (by omega) (by omega)
      have ri : ∀ (l : List K) (s : Nat), readI l ((v : Int) * s + u) = readAt l (v * s + u) := by
        intro l s
        have e : (v : Int) * s + u = ((v * s + u : Nat) : Int) := by push_cast; rfl
        unfold readI
        rw [e, if_pos (by omega), Int.toNat_natCast]
      rw [ri, ri, hrx, Res.ok_bind, hry, Res.ok_bind]
      have hB := fun b => oriBin_spec hp (ha (-fy u v) (fx u v)) b
      have hr : ∃ b0 : Nat, oriBin m (m.atan2 (-fy u v) (fx u v)) = b0 ∧ b0 < 36 := by
        have h0 : 0 ≤ oriBin m (m.atan2 (-fy u v) (fx u v)) := by
          have hq : 0 ≤ 36 * (m.atan2 (-fy u v) (fx u v) + m.pi + 1 / 100000) / (2 * m.pi) := by
            refine div_nonneg ?_ (by linarith)
            linarith [ha (-fy u v) (fx u v)]
          unfold oriBin cTrunc
          rw [if_pos hq]
          simp only
          have := Int.floor_nonneg.mpr hq
          split <;> omega
        refine ⟨(oriBin m (m.atan2 (-fy u v) (fx u v))).toNat, by omega, ?_⟩
        exact ((hB _).mp (by omega)).1
      obtain ⟨b0, eb, hb0⟩ := hr
      rw [eb]
      simp only [eb] at hB
      unfold addAtI readI writeI
      rw [if_pos (by omega), show ((b0 : Int) + 1).toNat = b0 + 1 by omega, readAt_ok (by omega), Res.ok_bind,
        if_pos (by omega), writeAt_ok _ (by omega)]
      refine ⟨_, rfl, by rw [List.length_set, hd], ?_⟩
      intro b z hb hz
      unfold oriTerm
      simp only [Int.toNat_natCast]
      rw [List.getElem?_set]
      by_cases hbb : b0 = b
      · subst hbb
        rw [if_pos rfl, if_pos (by omega), if_pos ⟨hu, (hB b0).mp rfl⟩]
        rw [List.getElem?_eq_getElem (by omega)] at hz
        rw [Option.some.inj hz]
      · rw [if_neg (by omega), if_neg, add_zero, hz]
        rintro ⟨_, h3⟩
        have := (hB b).mpr h3
        omega

theorem binAdds_loop (n : Nat) (body : Nat → List K → Res (List K)) (A : Nat → Nat → K) (d : List K) (hd : d.length = 38)
    (hb : ∀ i d, i < n → d.length = 38 → ∃ d', body i d = .ok d' ∧ BinAdds d d' (A i)) :
    ∃ d', forLoop n body 0 d = .ok d' ∧ BinAdds d d' (fun b => (Finset.range n).sum (fun i => A i b)) := by
  refine forLoop_spec (P := fun i d' => BinAdds d d' (fun b => (Finset.range i).sum (fun i => A i b))) (by omega)
    (BinAdds.zero hd (fun _ => by simp)) ?_
  intro i s _ hi hs
  obtain ⟨d', e, a⟩ := hb i s hi hs.1
  exact ⟨d', e, (hs.trans a).congr (fun _ => by rw [Finset.sum_range_succ])⟩

/-- C86: before smoothing each bin is the sum of the lengths of the gradients with directions of the bin, weighted with a Gaussian, over the
samples of the window. The array may have any contents before. -/
theorem c86_histogram (m : FloatMath K) (hp : 0 < m.pi) (ha : ∀ a b : K, -m.pi ≤ m.atan2 a b) (gx gy : GImage K) (w h : Nat)
    (fx fy : Nat → Nat → K) (hx : gx.Shows w h fx) (hy : gy.Shows w h fy) (hist : List K) (hl : hist.length = 38) (x y sigma : K) :
    ∃ hist', oriRaw m hist gx gy x y sigma = .ok hist' ∧ Bins hist' (fun b =>
      (Finset.range (2 * cTrunc (9 / 2 * sigma) + 1).toNat).sum (fun k =>
        (Finset.range (2 * cTrunc (9 / 2 * sigma) + 1).toNat).sum (fun l =>
          oriTerm m w h fx fy x y sigma (cTrunc (x + 1 / 2) - cTrunc (9 / 2 * sigma) + l) (cTrunc (y + 1 / 2) - cTrunc (9 / 2 * sigma) + k) b))) := by
  unfold oriRaw zeroBins
  obtain ⟨z, ez, hz1, hz2⟩ := forLoop_spec (n := 36) (i0 := 0) (s := hist) (body := fun i hist => writeAt hist (1 + i) (0 : K))
    (fun k d => d.length = 38 ∧ ∀ i, i < k → d[i + 1]? = some 0)
    (Nat.zero_le _) ⟨hl, fun i hi => absurd hi (by omega)⟩ (by
      intro k d _ hk ⟨h1, h2⟩
      refine ⟨d.set (1 + k) 0, writeAt_ok _ (by omega), by rw [List.length_set, h1], ?_⟩
      intro i hi
      rw [List.getElem?_set]
      by_cases hik : i = k
      · rw [if_pos (by omega), if_pos (by omega)]
      · rw [if_neg (by omega), h2 i (by omega)])
  rw [ez, Res.ok_bind]
  simp only
  have er : sigma * (3 / 2) * 3 = 9 / 2 * sigma := by ring
  have hs := fun u v hv d hd => oriSample_spec hp ha hx hy x y sigma u v hv (d := d) hd
  rw [er] at hs ⊢
  generalize cTrunc (9 / 2 * sigma) = R at *
  generalize cTrunc (x + 1 / 2) = xi
  generalize cTrunc (y + 1 / 2) = yi
  obtain ⟨d, e, a⟩ := binAdds_loop (2 * R + 1).toNat (fun k hist =>
    if yi - R + k ≤ 0 ∨ yi - R + k ≥ (gx.height : Int) - 2 then pure hist
    else forLoop (2 * R + 1).toNat (fun l hist => oriSample m gx gy x y (sigma * (3 / 2)) R (xi - R + l) (yi - R + k) hist) 0 hist)
    (fun k b => (Finset.range (2 * R + 1).toNat).sum (fun l => oriTerm m w h fx fy x y sigma (xi - R + l) (yi - R + k) b)) z hz1 (by
      intro k d _ hd
      by_cases h1 : yi - R + k ≤ 0 ∨ yi - R + k ≥ (gx.height : Int) - 2
      · rw [if_pos h1]
        rw [hx.height_eq] at h1
        refine ⟨d, rfl, BinAdds.zero hd (fun b => Finset.sum_eq_zero (fun l _ => ?_))⟩
        unfold oriTerm
        simp only
        rw [if_neg]
        rintro ⟨hu, _⟩
        have := hu.2.1
        omega
      · rw [if_neg h1]
        rw [hx.height_eq] at h1
        exact binAdds_loop _ _ (fun l => oriTerm m w h fx fy x y sigma (xi - R + l) (yi - R + k)) d hd
          (fun l d _ hd => hs _ _ (by omega) d hd))
  refine ⟨d, e, a.1, fun b hb => ?_⟩
  rw [a.2 b 0 hb (hz2 b hb), zero_add]

/-! ## Directions -/

/-- The bin `b` (from 0) is reported: higher than both neighbours and than 0.8 of the peak. -/
def IsDirection (f : Nat → K) (front p : K) (b : Nat) : Prop :=
  (if b = 0 then front else f (b - 1)) < f b ∧ f ((b + 1) % 36) < f b ∧ 4 / 5 * p < f b

instance (f : Nat → K) (front p : K) (b : Nat) : Decidable (IsDirection f front p b) := by unfold IsDirection; infer_instance

/-- C86: keypoints are created exactly for the bins that are higher than both neighbours and than 0.8 of the peak, in the order of the
bins. -/
theorem c86_directions (m : FloatMath K) (hist : List K) (f : Nat → K) (front p : K) (hh : Bins hist f) (h37 : hist[37]? = some (f 0))
    (h0 : hist[0]? = some front) :
    ∃ out, oriKeys m hist p = .ok out ∧ out.map (fun o => o.1 - 1) = (List.range 36).filter (fun b => decide (IsDirection f front p b)) ∧
      ∀ o ∈ out, 1 ≤ o.1 ∧ o.1 ≤ 36 ∧
        o.2 = oriInterp m (if o.1 = 1 then front else f (o.1 - 2)) (f (o.1 - 1)) (f (o.1 % 36)) o.1 := by
  obtain ⟨hl, hf⟩ := hh
  have hfront : ∀ i, i < 36 → hist[i]? = some (if i = 0 then front else f (i - 1)) := by
    intro i hi
    split
    · rename_i h; rw [h, h0]
    · rename_i h
      have := hf (i - 1) (by omega)
      rwa [show i - 1 + 1 = i by omega] at this
  have hback : ∀ i, i < 36 → hist[i + 1 + 1]? = some (f ((i + 1) % 36)) := by
    intro i hi
    by_cases h : i = 35
    · subst h; exact h37
    · rw [hf (i + 1) (by omega), Nat.mod_eq_of_lt (by omega)]
  unfold oriKeys
  obtain ⟨out, e, h1, h2⟩ := forLoop_spec (n := 36) (i0 := 0) (s := ([] : List (Nat × K)))
    (body := fun i out => do
      let b := i + 1
      let c ← readAt hist b
      let l ← readAt hist (b - 1)
      let r ← readAt hist (b + 1)
      if c > l ∧ c > r ∧ c > p * (4 / 5) then pure (out ++ [(b, oriInterp m l c r b)]) else pure out)
    (fun k (out : List (Nat × K)) => out.map (fun o => o.1 - 1) = (List.range k).filter (fun b => decide (IsDirection f front p b)) ∧
      ∀ o ∈ out, 1 ≤ o.1 ∧ o.1 ≤ 36 ∧
        o.2 = oriInterp m (if o.1 = 1 then front else f (o.1 - 2)) (f (o.1 - 1)) (f (o.1 % 36)) o.1)
    (Nat.zero_le _) ⟨rfl, fun o ho => absurd ho List.not_mem_nil⟩ (by
      intro k out _ hk ⟨h1, h2⟩
      simp only
      rw [readAt_of (hf k hk), Res.ok_bind, Nat.add_sub_cancel, readAt_of (hfront k hk), Res.ok_bind, readAt_of (hback k hk), Res.ok_bind]
      rw [List.range_succ, List.filter_append]
      by_cases hD : IsDirection f front p k
      · have hD' := hD
        unfold IsDirection at hD'
        rw [if_pos ⟨hD'.1, hD'.2.1, by rw [mul_comm]; exact hD'.2.2⟩]
        refine ⟨_, rfl, ?_, ?_⟩
        · rw [List.map_append, h1]
          simp [hD]
        · intro o ho
          rcases List.mem_append.mp ho with ho | ho
          · exact h2 o ho
          · rw [List.mem_singleton.mp ho]
            refine ⟨by omega, by omega, ?_⟩
            simp only [Nat.add_sub_cancel, Nat.add_eq_right]
            rfl
      · rw [if_neg (fun h => hD ⟨h.1, h.2.1, by rw [mul_comm]; exact h.2.2⟩)]
        refine ⟨_, rfl, ?_, h2⟩
        rw [h1]
        simp [hD])
  exact ⟨out, e, h1, h2⟩

/-- C86: the interpolated direction lies strictly inside the bin, and is where the parabola through the three bins has its maximum. -/
theorem c86_interpolation (m : FloatMath K) (hp : 0 < m.pi) (l c r : K) (hl : l < c) (hr : r < c) (b : Nat) :
    ∃ t : K, oriInterp m l c r b = -m.pi + (b - 1 / 2 + t) * (2 * m.pi / 36) ∧ -(1 / 2) < t ∧ t < 1 / 2 ∧
      -m.pi + ((b : K) - 1) * (2 * m.pi / 36) < oriInterp m l c r b ∧ oriInterp m l c r b < -m.pi + b * (2 * m.pi / 36) ∧
      ∃ q2 q1 q0 : K, (∀ z : K, q2 * z * z + q1 * z + q0 ≤ q2 * t * t + q1 * t + q0) ∧
        q2 - q1 + q0 = l ∧ q0 = c ∧ q2 + q1 + q0 = r := by
  have hneg : l + r - 2 * c < 0 := by linarith
  have ht1 : -(1 / 2) < -(1 / 2 * (r - l)) / (l + r - 2 * c) := by
    rw [lt_div_iff_of_neg hneg]
    linarith
  have ht2 : -(1 / 2 * (r - l)) / (l + r - 2 * c) < 1 / 2 := by
    rw [div_lt_iff_of_neg hneg]
    linarith
  have e : oriInterp m l c r b = -m.pi + (b - 1 / 2 + -(1 / 2 * (r - l)) / (l + r - 2 * c)) * (2 * m.pi / 36) := by
    unfold oriInterp
    ring
  have hs : 0 < 2 * m.pi / 36 := by positivity
  refine ⟨_, e, ht1, ht2, ?_, ?_, (l + r - 2 * c) / 2, (r - l) / 2, c, ?_, by ring, rfl, by ring⟩
  · rw [e]
    have := mul_lt_mul_of_pos_right (by linarith : (b : K) - 1 < b - 1 / 2 + -(1 / 2 * (r - l)) / (l + r - 2 * c)) hs
    linarith
  · rw [e]
    have := mul_lt_mul_of_pos_right (by linarith : b - 1 / 2 + -(1 / 2 * (r - l)) / (l + r - 2 * c) < (b : K)) hs
    linarith
  · intro z
    have ht : -(1 / 2 * (r - l)) / (l + r - 2 * c) * (l + r - 2 * c) = -(1 / 2 * (r - l)) := div_mul_cancel₀ _ hneg.ne
    generalize -(1 / 2 * (r - l)) / (l + r - 2 * c) = t at *
    have := mul_nonpos_of_nonpos_of_nonneg hneg.le (mul_self_nonneg (z - t))
    linear_combination 1 / 2 * this + (z - t) * ht

/-- C86: no two neighbouring bins are reported. -/
theorem c86_apart (f : Nat → K) (front p : K) (b : Nat) (hb : b + 1 < 36) (h1 : IsDirection f front p b) : ¬ IsDirection f front p (b + 1) := by
  intro h2
  have h1 := h1.2.1
  have h2 := h2.1
  rw [if_neg (by omega), Nat.add_sub_cancel] at h2
  rw [Nat.mod_eq_of_lt hb] at h1
  exact lt_asymm h1 h2

/-- C86: a positive peak that is higher than its neighbours is reported, except in the first bin. Missing: the first bin, see `c86_lost`. -/
theorem c86_peak_reported_partial (f : Nat → K) (front : K) (b : Nat) (hb0 : b ≠ 0) (hpos : 0 < f b)
    (hl : f (b - 1) < f b) (hr : f ((b + 1) % 36) < f b) : IsDirection f front (f b) b := by
  refine ⟨by rw [if_neg hb0]; exact hl, hr, by linarith⟩

/-- C86: without gradients there is no keypoint. -/
theorem c86_flat (f : Nat → K) (front p : K) (h : ∀ b, f b = 0) (b : Nat) : ¬ IsDirection f front p b := by
  rintro ⟨_, h2, _⟩
  rw [h, h] at h2
  exact lt_irrefl _ h2

/-- C86: the whole function: the smoothed histogram with its border and the highest bin. -/
theorem c86_all (m : FloatMath K) (hp : 0 < m.pi) (ha : ∀ a b : K, -m.pi ≤ m.atan2 a b) (gx gy : GImage K) (w h : Nat)
    (fx fy : Nat → Nat → K) (hx : gx.Shows w h fx) (hy : gy.Shows w h fy) (hist buf : List K) (hl : hist.length = 38) (hb : buf.length = 38)
    (x y sigma : K) :
    let R := cTrunc (9 / 2 * sigma)
    let f := fun b => (Finset.range (2 * R + 1).toNat).sum (fun k => (Finset.range (2 * R + 1).toNat).sum (fun l =>
          oriTerm m w h fx fy x y sigma (cTrunc (x + 1 / 2) - R + l) (cTrunc (y + 1 / 2) - R + k) b))
    ∃ hist' p, oriHist m hist buf gx gy x y sigma = .ok (hist', p) ∧ Bins hist' (means 6 f) ∧
      hist'[37]? = some (means 6 f 0) ∧ hist'[0]? = some (means 5 f 35) ∧
      (∃ b, b < 36 ∧ means 6 f b = p) ∧ ∀ b, b < 36 → means 6 f b ≤ p := by
  obtain ⟨h1, e1, hB1⟩ := c86_histogram m hp ha gx gy w h fx fy hx hy hist hl x y sigma
  obtain ⟨h2, e2, hB2, hb2, hf2⟩ := c86_smooth h1 buf _ hB1 hb
  obtain ⟨p, e3, hp1, hp2⟩ := c86_peak h2 _ hB2
  refine ⟨h2, p, ?_, hB2, hb2, hf2, hp1, hp2⟩
  unfold oriHist
  rw [e1, Res.ok_bind, e2, Res.ok_bind, e3, Res.ok_bind, Res.pure_eq]

/-- C86: the window contains all samples that are near enough, when its radius is at least one pixel. -/
theorem c86_window (w h : Nat) (x y sigma : K) (hx : 0 ≤ x) (hy : 0 ≤ y) (hr : 1 ≤ cTrunc (9 / 2 * sigma)) (u v : Int)
    (hu : OriUsed w h x y sigma u v) :
    |u - cTrunc (x + 1 / 2)| ≤ cTrunc (9 / 2 * sigma) ∧ |v - cTrunc (y + 1 / 2)| ≤ cTrunc (9 / 2 * sigma) := by
  obtain ⟨_, _, hd⟩ := hu
  generalize cTrunc (9 / 2 * sigma) = R at *
  have hR : (1 : K) ≤ R := by exact_mod_cast hr
  have aux : ∀ (z : K) (n : Int), 0 ≤ z → ((n : K) - z) * (n - z) ≤ (R : K) * R + 1 / 2 → |n - cTrunc (z + 1 / 2)| ≤ R := by
    intro z n hz hn
    unfold cTrunc
    rw [if_pos (by linarith)]
    have f1 := Int.floor_le (z + 1 / 2)
    have f2 := Int.lt_floor_add_one (z + 1 / 2)
    generalize ⌊z + 1 / 2⌋ = q at *
    rw [abs_le]
    constructor
    · by_contra hc
      have : n + R + 1 ≤ q := by omega
      have : (n : K) + R + 1 ≤ q := by exact_mod_cast this
      nlinarith
    · by_contra hc
      have : q + R + 1 ≤ n := by omega
      have : (q : K) + R + 1 ≤ n := by exact_mod_cast this
      nlinarith
  exact ⟨aux x u hx (by nlinarith [mul_self_nonneg ((v : K) - y)]), aux y v hy (by nlinarith [mul_self_nonneg ((u : K) - x)])⟩

end

/-! ## The first bin -/

/-- A histogram with gradients in the last and in the first bin, twice as many in the first one. -/
def lostBins (b : Nat) : Rat := if b = 35 then 1 else if b = 0 then 2 else 0

theorem lost_means : (List.range 36).all (fun b => decide (b = 0 ∨ means 6 lostBins b < means 6 lostBins 0)) = true := by
  decide +kernel

theorem lost_none : (List.range 36).all (fun b =>
    !decide (IsDirection (means 6 lostBins) (means 5 lostBins 35) (means 6 lostBins 0) b)) = true := by
  decide +kernel

/-- C86, finding: the first bin is compared with the last bin before the last mean. So there are histograms with a single clear peak, in the
first bin, for which no keypoint is created. -/
theorem c86_lost (m : FloatMath Rat) (hist buf : List Rat) (hh : Bins hist lostBins) (hb : buf.length = 38) :
    (∀ b, b < 36 → b ≠ 0 → means 6 lostBins b < means 6 lostBins 0) ∧
    ∃ hist' p, oriSmooth hist buf = .ok hist' ∧ oriPeak hist' = .ok p ∧ p = means 6 lostBins 0 ∧ oriKeys m hist' p = .ok [] := by
  have hm : ∀ b, b < 36 → b ≠ 0 → means 6 lostBins b < means 6 lostBins 0 := by
    intro b hb h0
    have := List.all_eq_true.mp lost_means b (List.mem_range.mpr hb)
    rcases of_decide_eq_true this with h | h
    · exact absurd h h0
    · exact h
  refine ⟨hm, ?_⟩
  obtain ⟨h', e1, hB, h37, h0⟩ := c86_smooth hist buf lostBins hh hb
  obtain ⟨p, e2, ⟨b, hb, eb⟩, hp⟩ := c86_peak h' _ hB
  have ep : p = means 6 lostBins 0 := by
    by_cases hb0 : b = 0
    · rw [← eb, hb0]
    · exact le_antisymm (by rw [← eb]; exact (hm b hb hb0).le) (hp 0 (by omega))
  obtain ⟨out, e3, h1, _⟩ := c86_directions m h' _ _ p hB h37 h0
  refine ⟨h', p, e1, e2, ep, ?_⟩
  rw [e3]
  have : out.map (fun o => o.1 - 1) = [] := by
    rw [h1, List.filter_eq_nil_iff]
    intro b hb hd
    have := List.all_eq_true.mp lost_none b hb
    rw [ep] at hd
    rw [hd] at this
    exact absurd this (by decide)
  rw [List.map_eq_nil_iff.mp this]

/-! ## Examples -/

/-- The histogram of `c86_lost` exists. -/
example : Bins (0 :: (List.range 36).map lostBins ++ [0]) lostBins := by
  refine ⟨rfl, ?_⟩
  intro i hi
  rw [List.cons_append, List.getElem?_cons_succ, List.getElem?_append_left (by simpa using hi), List.getElem?_map, List.getElem?_range hi]
  rfl

/-- The same histogram turned by one bin has a direction. -/
example : (List.range 36).filter (fun b => decide (IsDirection (means 6 (fun b => lostBins ((b + 35) % 36)))
    (means 5 (fun b => lostBins ((b + 35) % 36)) 35) (means 6 (fun b => lostBins ((b + 35) % 36)) 1) b)) = [1] := by
  decide +kernel

/-- Two directions of similar strength are both reported. -/
example : (List.range 36).filter (fun b => decide (IsDirection (fun b => if b = 5 then (10 : ℚ) else if b = 20 then 9 else if b = 30 then 7 else 0)
    0 10 b)) = [5, 20] := by
  decide +kernel

/-- Real functions meet the hypotheses of `c86_histogram`. -/
example (gx gy : GImage ℝ) (w h : Nat) (fx fy : Nat → Nat → ℝ) (hx : gx.Shows w h fx) (hy : gy.Shows w h fy) :
    ∃ hist', oriRaw realMath (List.replicate 38 0) gx gy 10 20 2 = .ok hist' :=
  let ⟨hist', e, _⟩ := c86_histogram realMath Real.pi_pos (fun a b => (Complex.neg_pi_lt_arg ⟨b, a⟩).le) gx gy w h fx fy hx hy
    (List.replicate 38 0) (by simp) 10 20 2
  ⟨hist', e⟩

/-- Interpolation between 1 and 2 around 4: to the right. -/
example : ∃ t : ℝ, oriInterp realMath 1 4 2 7 = -Real.pi + (7 - 1 / 2 + t) * (2 * Real.pi / 36) ∧ -(1 / 2) < t ∧ t < 1 / 2 := by
  obtain ⟨t, e, h1, h2, _⟩ := c86_interpolation realMath Real.pi_pos 1 4 2 (by norm_num) (by norm_num) 7
  exact ⟨t, by rw [e]; norm_num [realMath], h1, h2⟩

/-- A sample that is used, and one that is too far away. -/
example : OriUsed 40 40 (10 : ℚ) 20 1 12 22 ∧ ¬ OriUsed 40 40 (10 : ℚ) 20 1 14 24 := by
  have : cTrunc (9 / 2 * 1 : ℚ) = 4 := by unfold cTrunc; rw [if_pos (by norm_num)]; rw [Int.floor_eq_iff]; norm_num
  unfold OriUsed
  rw [this]
  norm_num

end Nx
