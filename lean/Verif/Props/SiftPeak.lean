import Verif.Model.SiftPeak
import Verif.Spec.SiftPeak
import Verif.Props.SiftDog
import Mathlib.Tactic.FieldSimp

/-!
# Interpolation of extrema (C88)
-/

namespace Nx

section
set_option linter.unusedSectionVars false
variable {K : Type} [Field K] [LinearOrder K] [IsStrictOrderedRing K]

/-- The values around a pixel of three images. -/
def cubeAt (fm f fp : Nat → Nat → K) (x y : Nat) : Cube K :=
  fun dx dy ds => (if ds = 0 then f else if ds < 0 then fm else fp) ((x : Int) + dx).toNat ((y : Int) + dy).toNat

theorem peakSystem_spec {d : Dogs K} {s h : Nat} {fm f fp : Nat → Nat → K} (hm : d.m.Rows s h fm) (hc : d.c.Rows s h f) (hp : d.p.Rows s h fp)
    {x y : Nat} (hx : 1 ≤ x) (hy : 1 ≤ y) (hk : (y + 1) * s + (x + 1) < s * h) :
    let q := cubeAt fm f fp x y
    peakSystem d x y = .ok (q 0 0 0, ⟨q.dx, q.dy, q.ds⟩, ⟨q.xx, q.xy, q.xs, 0, q.yy, q.ys, 0, 0, q.ss⟩) := by
  have ex1 : (x : Int) - 1 = ((x - 1 : Nat) : Int) := by omega
  have ey1 : (y : Int) - 1 = ((y - 1 : Nat) : Int) := by omega
  have ex2 : (x : Int) + 1 = ((x + 1 : Nat) : Int) := by omega
  have ey2 : (y : Int) + 1 = ((y + 1 : Nat) : Int) := by omega
  have hk1 := Nat.mul_le_mul_right s (show y - 1 ≤ y + 1 by omega)
  have hk2 := Nat.mul_le_mul_right s (show y ≤ y + 1 by omega)
  have t1 : ∀ n : Nat, ((n : Int) + 1).toNat = n + 1 := fun n => by omega
  have t2 : ∀ n : Nat, ((n : Int) + -1).toNat = n - 1 := fun n => by omega
  have t3 : ∀ n : Nat, ((n : Int) + 0).toNat = n := fun n => by omega
  have c2 : ¬ (-1 : Int) = 0 := by omega
  have c3 : (-1 : Int) < 0 := by omega
  have c4 : ¬ (1 : Int) = 0 := by omega
  have c5 : ¬ (1 : Int) < 0 := by omega
  simp only
  unfold peakSystem
  rw [ex1, ey1, ex2, ey2]
  rw [dogAt_ok hc (by omega), Res.ok_bind, dogAt_ok hc (by omega), Res.ok_bind, dogAt_ok hc (by omega), Res.ok_bind,
    dogAt_ok hc (by omega), Res.ok_bind, dogAt_ok hp (by omega), Res.ok_bind, dogAt_ok hm (by omega), Res.ok_bind,
    dogAt_ok hc (by omega), Res.ok_bind, dogAt_ok hc (by omega), Res.ok_bind, dogAt_ok hc (by omega), Res.ok_bind,
    dogAt_ok hc (by omega), Res.ok_bind, dogAt_ok hc (by omega), Res.ok_bind, dogAt_ok hp (by omega), Res.ok_bind,
    dogAt_ok hp (by omega), Res.ok_bind, dogAt_ok hm (by omega), Res.ok_bind, dogAt_ok hm (by omega), Res.ok_bind,
    dogAt_ok hp (by omega), Res.ok_bind, dogAt_ok hp (by omega), Res.ok_bind, dogAt_ok hm (by omega), Res.ok_bind,
    dogAt_ok hm (by omega), Res.ok_bind, Res.pure_eq]
  unfold Cube.dx Cube.dy Cube.ds Cube.xx Cube.yy Cube.ss Cube.xy Cube.xs Cube.ys cubeAt
  simp only [t1, t2, t3, if_neg c2, if_pos c3, if_neg c4, if_neg c5, ite_true]
  congr 3
  all_goals ring_nf

/-- The memory around a position exists and stays so during the moves. -/
structure PeakPos (s h : Nat) (x y : Int) : Prop where
  x_ge : 1 ≤ x
  y_ge : 1 ≤ y
  y_le : y + 1 < h
  x_lt : x + 1 < 2 * s
  mem : (y + 1) * s + (x + 1) < s * h

theorem peakMove_cases (b : K) (x : Int) (size : Nat) :
    (peakMove b x size = 1 ∧ 3 / 5 < b ∧ x < (size : Int) - 3) ∨ (peakMove b x size = -1 ∧ b < -(3 / 5) ∧ 3 < x) ∨
      (peakMove b x size = 0 ∧ (|b| ≤ 3 / 5 ∨ 3 / 5 < b ∧ (size : Int) - 3 ≤ x ∨ b < -(3 / 5) ∧ x ≤ 3)) := by
  unfold peakMove
  split
  · rename_i h; exact Or.inl ⟨rfl, h⟩
  · rename_i h1
    split
    · rename_i h; exact Or.inr (Or.inl ⟨rfl, h⟩)
    · rename_i h2
      refine Or.inr (Or.inr ⟨rfl, ?_⟩)
      by_cases hb : 3 / 5 < b
      · exact Or.inr (Or.inl ⟨hb, by by_contra hc; exact h1 ⟨hb, by omega⟩⟩)
      · by_cases hb' : b < -(3 / 5)
        · exact Or.inr (Or.inr ⟨hb', by by_contra hc; exact h2 ⟨hb', by omega⟩⟩)
        · exact Or.inl (abs_le.mpr ⟨by linarith, by linarith⟩)

theorem PeakPos.move {s w h : Nat} {x y : Int} (hp : PeakPos s h x y) (hs : w ≤ s) {dx dy : Int}
    (hx : dx = 1 ∧ x < (w : Int) - 3 ∨ dx = -1 ∧ 3 < x ∨ dx = 0) (hy : dy = 1 ∧ y < (h : Int) - 3 ∨ dy = -1 ∧ 3 < y ∨ dy = 0) :
    PeakPos s h (x + dx) (y + dy) := by
  obtain ⟨h1, h2, h3, h4, h5⟩ := hp
  have hx1 : x + dx + 1 < 2 * s := by omega
  refine ⟨by omega, by omega, by omega, hx1, ?_⟩
  have e : (s : Int) * h = (h : Int) * s := mul_comm _ _
  by_cases hy' : y + dy + 3 ≤ h
  · have : (y + dy + 1) * (s : Int) ≤ ((h : Int) - 2) * s := mul_le_mul_of_nonneg_right (by omega) (by omega)
    rw [e]
    have e2 : ((h : Int) - 2) * s = (h : Int) * s - 2 * s := by ring
    omega
  · have hdy : dy = 0 ∨ dy = -1 := by omega
    have hle : (y + dy + 1) * (s : Int) ≤ (y + 1) * s := mul_le_mul_of_nonneg_right (by omega) (by omega)
    rcases hx with ⟨rfl, hx⟩ | ⟨rfl, hx⟩ | rfl
    · have : (y + 1) * (s : Int) ≤ ((h : Int) - 1) * s := mul_le_mul_of_nonneg_right (by omega) (by omega)
      have e2 : ((h : Int) - 1) * s = (h : Int) * s - s := by ring
      rw [e]
      omega
    · omega
    · omega

/-- What the loop returns: `b` belongs to the pixel `X`, `Y`; the pixel is left once more if and only if all tries were used. -/
def LoopResult (s w h : Nat) (fm f fp : Nat → Nat → K) (x y : Int) (b : V3 K) (v : K) : Prop :=
  ∃ X Y : Nat, PeakPos s h X Y ∧ PeakPos s h x y ∧ (cubeAt fm f fp X Y).Stationary b.e0 b.e1 b.e2 ∧
    v = (cubeAt fm f fp X Y).quad b.e0 b.e1 b.e2 ∧
    (x = X ∧ y = Y ∧ peakMove b.e0 x w = 0 ∧ peakMove b.e1 y h = 0 ∨
      x = X + peakMove b.e0 X w ∧ y = Y + peakMove b.e1 Y h ∧ ¬ (x = X ∧ y = Y))

theorem peakLoop_spec {solve : M3 K → V3 K → Option (V3 K)} (hsolve : SolvesLower solve) {d : Dogs K} {s w h : Nat}
    {fm f fp : Nat → Nat → K} (hm : d.m.Rows s h fm) (hc : d.c.Rows s h f) (hp : d.p.Rows s h fp) (hw : d.c.width = w) (hh : d.c.height = h)
    (hs : w ≤ s) (n : Nat) (x y : Int) (hpos : PeakPos s h x y) (prev : Option (V3 K × K))
    (hprev : n = 0 → ∃ b v, prev = some (b, v) ∧ LoopResult s w h fm f fp x y b v) :
    peakLoop solve d n x y prev = .ok none ∨
      ∃ x' y' b v, peakLoop solve d n x y prev = .ok (some (x', y', b, v)) ∧ LoopResult s w h fm f fp x' y' b v := by
  induction n generalizing x y prev with
  | zero =>
    obtain ⟨b, v, e, hr⟩ := hprev rfl
    subst e
    exact Or.inr ⟨x, y, b, v, rfl, hr⟩
  | succ n ih =>
    obtain ⟨X, rfl⟩ : ∃ n : Nat, x = n := ⟨x.toNat, by have := hpos.x_ge; omega⟩
    obtain ⟨Y, rfl⟩ : ∃ n : Nat, y = n := ⟨y.toNat, by have := hpos.y_ge; omega⟩
    have hX := hpos.x_ge
    have hY := hpos.y_ge
    have hk : (Y + 1) * s + (X + 1) < s * h := by have := hpos.mem; exact_mod_cast this
    have hsys := peakSystem_spec hm hc hp (x := X) (y := Y) (by omega) (by omega) hk
    simp only at hsys
    rw [peakLoop, hsys, Res.ok_bind]
    simp only
    cases hsv : solve ⟨(cubeAt fm f fp X Y).xx, (cubeAt fm f fp X Y).xy, (cubeAt fm f fp X Y).xs, 0, (cubeAt fm f fp X Y).yy, (cubeAt fm f fp X Y).ys, 0, 0,
        (cubeAt fm f fp X Y).ss⟩ ⟨-(cubeAt fm f fp X Y).dx, -(cubeAt fm f fp X Y).dy, -(cubeAt fm f fp X Y).ds⟩ with
    | none => exact Or.inl rfl
    | some b =>
      simp only
      obtain ⟨s1, s2, s3⟩ := hsolve _ _ _ hsv
      simp only at s1 s2 s3
      have hst : (cubeAt fm f fp X Y).Stationary b.e0 b.e1 b.e2 := ⟨by linear_combination s1, by linear_combination s2, by linear_combination s3⟩
      have hq : (cubeAt fm f fp X Y) 0 0 0 + 1 / 2 * ((cubeAt fm f fp X Y).dx * b.e0 + (cubeAt fm f fp X Y).dy * b.e1 + (cubeAt fm f fp X Y).ds * b.e2)
          = (cubeAt fm f fp X Y).quad b.e0 b.e1 b.e2 := by
        unfold Cube.quad
        linear_combination -(b.e0 / 2) * s1 - (b.e1 / 2) * s2 - (b.e2 / 2) * s3
      rw [hw, hh, hq]
      have mx := peakMove_cases b.e0 X w
      have my := peakMove_cases b.e1 Y h
      split
      · rename_i h0
        exact Or.inr ⟨X, Y, b, _, rfl, X, Y, hpos, hpos, hst, rfl, Or.inl ⟨rfl, rfl, h0.1, h0.2⟩⟩
      · rename_i h0
        have hpos' := hpos.move hs (dx := peakMove b.e0 X w) (dy := peakMove b.e1 Y h)
          (by rcases mx with h | h | h; exacts [Or.inl ⟨h.1, h.2.2⟩, Or.inr (Or.inl ⟨h.1, h.2.2⟩), Or.inr (Or.inr h.1)])
          (by rcases my with h | h | h; exacts [Or.inl ⟨h.1, h.2.2⟩, Or.inr (Or.inl ⟨h.1, h.2.2⟩), Or.inr (Or.inr h.1)])
        refine ih _ _ hpos' _ (fun _ => ⟨b, _, rfl, X, Y, hpos, hpos', hst, rfl, Or.inr ⟨rfl, rfl, ?_⟩⟩)
        rintro ⟨h1, h2⟩
        exact h0 ⟨by omega, by omega⟩

/-- The last pixel of the loop and its offset: a stationary point of the paraboloid through the values around the pixel, with its value, at
most 1.5 away in each direction. -/
def PeakAt (fm f fp : Nat → Nat → K) (thr : K) (X Y : Nat) (b : V3 K) (v : K) : Prop :=
  (cubeAt fm f fp X Y).Stationary b.e0 b.e1 b.e2 ∧ v = (cubeAt fm f fp X Y).quad b.e0 b.e1 b.e2 ∧
    |b.e0| ≤ 3 / 2 ∧ |b.e1| ≤ 3 / 2 ∧ |b.e2| ≤ 3 / 2 ∧ thr ≤ |v|

/-- C88: no memory outside the images is read, from wherever `c87_candidates_partial` starts, and if there is a result it is a stationary point of the paraboloid
of a pixel with its value; it is near the pixel unless the pixel is at the border. Missing: if the pixel changed in all five tries, the
offset is added to the wrong pixel, see `c88_fifth`. -/
theorem c88_interp_partial (solve : M3 K → V3 K → Option (V3 K)) (hsolve : SolvesLower solve) (d : Dogs K) (s w h : Nat)
    (fm f fp : Nat → Nat → K) (hm : d.m.Rows s h fm) (hc : d.c.Rows s h f) (hp : d.p.Rows s h fp) (hw : d.c.width = w) (hh : d.c.height = h)
    (hs : w ≤ s) (thr : K) (i x y : Int) (hpos : PeakPos s h x y) :
    interpPeak solve d thr i x y = .ok none ∨
      ∃ (X Y : Nat) (b : V3 K) (v : K), PeakPos s h X Y ∧ PeakAt fm f fp thr X Y b v ∧
        (interpPeak solve d thr i x y = .ok (some (v, i + b.e2, X + b.e0, Y + b.e1)) ∧
            (|b.e0| ≤ 3 / 5 ∨ 3 / 5 < b.e0 ∧ w ≤ X + 3 ∨ b.e0 < -(3 / 5) ∧ X ≤ 3) ∧
            (|b.e1| ≤ 3 / 5 ∨ 3 / 5 < b.e1 ∧ h ≤ Y + 3 ∨ b.e1 < -(3 / 5) ∧ Y ≤ 3) ∨
          interpPeak solve d thr i x y = .ok (some (v, i + b.e2, X + (peakMove b.e0 X w : Int) + b.e0, Y + (peakMove b.e1 Y h : Int) + b.e1)) ∧
            (3 / 5 < |b.e0| ∨ 3 / 5 < |b.e1|)) := by
  unfold interpPeak
  rcases peakLoop_spec hsolve hm hc hp hw hh hs 5 x y hpos none (fun h => absurd h (by omega)) with e | ⟨x', y', b, v, e, hr⟩
  · rw [e, Res.ok_bind]
    exact Or.inl rfl
  · rw [e, Res.ok_bind]
    simp only
    split
    · exact Or.inl rfl
    · rename_i hn
      rw [not_or, not_or, not_or, not_lt, not_lt, not_lt, not_lt] at hn
      obtain ⟨X, Y, p1, _, hst, hv, hpx⟩ := hr
      refine Or.inr ⟨X, Y, b, v, p1, ⟨hst, hv, hn⟩, ?_⟩
      rcases hpx with ⟨rfl, rfl, mx, my⟩ | ⟨hx', hy', hne⟩
      · refine Or.inl ⟨by simp, ?_, ?_⟩
        · rcases peakMove_cases b.e0 X w with h | h | h
          · exact absurd (h.1.symm.trans mx) (by omega)
          · exact absurd (h.1.symm.trans mx) (by omega)
          · rcases h.2 with h | h | h
            · exact Or.inl h
            · exact Or.inr (Or.inl ⟨h.1, by omega⟩)
            · exact Or.inr (Or.inr ⟨h.1, by omega⟩)
        · rcases peakMove_cases b.e1 Y h with h | h | h
          · exact absurd (h.1.symm.trans my) (by omega)
          · exact absurd (h.1.symm.trans my) (by omega)
          · rcases h.2 with h | h | h
            · exact Or.inl h
            · exact Or.inr (Or.inl ⟨h.1, by omega⟩)
            · exact Or.inr (Or.inr ⟨h.1, by omega⟩)
      · refine Or.inr ⟨by rw [hx', hy']; simp, ?_⟩
        rcases peakMove_cases b.e0 X w with g | g | g
        · exact Or.inl (lt_of_lt_of_le g.2.1 (le_abs_self _))
        · exact Or.inl (lt_of_lt_of_le (by linarith [g.2.1]) (neg_le_abs _))
        · rcases peakMove_cases b.e1 Y h with g' | g' | g'
          · exact Or.inr (lt_of_lt_of_le g'.2.1 (le_abs_self _))
          · exact Or.inr (lt_of_lt_of_le (by linarith [g'.2.1]) (neg_le_abs _))
          · exact absurd ⟨by rw [hx', g.1, add_zero], by rw [hy', g'.1, add_zero]⟩ hne

/-- C88: the positions of `processDog` are positions from which the interpolation stays inside the memory. -/
theorem c88_start (s w h B : Nat) (hs : w ≤ s) (hB : 2 ≤ B) (hwB : 2 * B + 2 < w) (x y : Int) (hx : B ≤ x ∧ x < w + B) (hy : B ≤ y ∧ y + B < h) :
    PeakPos s h x y := by
  refine ⟨by omega, by omega, by omega, by omega, ?_⟩
  have h1 : (y + 1) * (s : Int) ≤ ((h : Int) - B) * s := mul_le_mul_of_nonneg_right (by omega) (by omega)
  have e : (s : Int) * h = (h : Int) * s := mul_comm _ _
  have e2 : ((h : Int) - B) * s = (h : Int) * s - B * s := by ring
  have h3 : (2 : Int) * s ≤ B * s := mul_le_mul_of_nonneg_right (by omega) (by omega)
  rw [e]
  omega

/-- A polynomial of degree two in column, row and scale. -/
structure Quadratic (K : Type) where
  c : K
  x : K
  y : K
  s : K
  xx : K
  yy : K
  ss : K
  xy : K
  xs : K
  ys : K

/-- Its value. -/
def Quadratic.at (q : Quadratic K) (x y s : K) : K :=
  q.c + q.x * x + q.y * y + q.s * s + q.xx * x ^ 2 + q.yy * y ^ 2 + q.ss * s ^ 2 + q.xy * x * y + q.xs * x * s + q.ys * y * s

/-- C88: interpolation is exact for images that are samples of a polynomial of degree two: the result is the polynomial's stationary point, with
its value. -/
theorem c88_exact (q : Quadratic K) (fm f fp : Nat → Nat → K) (i : Int) (X Y : Nat) (hX : 1 ≤ X) (hY : 1 ≤ Y)
    (hm : ∀ x y, fm x y = q.at x y ((i : K) - 1)) (hf : ∀ x y, f x y = q.at x y i) (hp : ∀ x y, fp x y = q.at x y ((i : K) + 1))
    (bx bY bs : K) (hst : (cubeAt fm f fp X Y).Stationary bx bY bs) :
    (∀ dx dy ds : K, q.at (X + bx + dx) (Y + bY + dy) (i + bs + ds) = q.at (X + bx) (Y + bY) (i + bs)
        + (q.xx * dx ^ 2 + q.yy * dy ^ 2 + q.ss * ds ^ 2 + q.xy * dx * dy + q.xs * dx * ds + q.ys * dy * ds)) ∧
      (cubeAt fm f fp X Y).quad bx bY bs = q.at (X + bx) (Y + bY) (i + bs) := by
  obtain ⟨X, rfl⟩ : ∃ n, X = n + 1 := ⟨X - 1, by omega⟩
  obtain ⟨Y, rfl⟩ : ∃ n, Y = n + 1 := ⟨Y - 1, by omega⟩
  have t1 : ∀ n : Nat, (((n + 1 : Nat) : Int) + 1).toNat = n + 2 := fun n => by omega
  have t2 : ∀ n : Nat, (((n + 1 : Nat) : Int) + -1).toNat = n := fun n => by omega
  have t3 : ∀ n : Nat, (((n + 1 : Nat) : Int) + 0).toNat = n + 1 := fun n => by omega
  have c2 : ¬ (-1 : Int) = 0 := by omega
  have c3 : (-1 : Int) < 0 := by omega
  have c4 : ¬ (1 : Int) = 0 := by omega
  have c5 : ¬ (1 : Int) < 0 := by omega
  unfold Cube.quad
  unfold Cube.Stationary at hst
  unfold Cube.dx Cube.dy Cube.ds Cube.xx Cube.yy Cube.ss Cube.xy Cube.xs Cube.ys cubeAt at *
  simp only [t1, t2, t3, if_neg c2, if_pos c3, if_neg c4, if_neg c5, ite_true, hm, hf, hp] at hst ⊢
  unfold Quadratic.at at *
  push_cast at *
  obtain ⟨h1, h2, h3⟩ := hst
  constructor
  · intro dx dy ds
    linear_combination dx * h1 + dy * h2 + ds * h3
  · ring

end

/-! ## Findings and examples -/

/-- Cramer's rule for the lower triangle. -/
def cramerLower (a : M3 Rat) (b : V3 Rat) : Option (V3 Rat) :=
  let c0 := a.e4 * a.e8 - a.e5 * a.e5
  let c1 := a.e2 * a.e5 - a.e1 * a.e8
  let c2 := a.e1 * a.e5 - a.e2 * a.e4
  let det := a.e0 * c0 + a.e1 * c1 + a.e2 * c2
  if det = 0 then none
  else some ⟨(c0 * b.e0 + c1 * b.e1 + c2 * b.e2) / det,
    (c1 * b.e0 + (a.e0 * a.e8 - a.e2 * a.e2) * b.e1 + (a.e1 * a.e2 - a.e0 * a.e5) * b.e2) / det,
    (c2 * b.e0 + (a.e1 * a.e2 - a.e0 * a.e5) * b.e1 + (a.e0 * a.e4 - a.e1 * a.e1) * b.e2) / det⟩

theorem cramerLower_solves : SolvesLower cramerLower := by
  intro a b x h
  unfold cramerLower at h
  simp only at h
  split at h
  · exact absurd h (by simp)
  · rename_i hd
    rw [← Option.some.inj h]
    simp only
    refine ⟨?_, ?_, ?_⟩
    all_goals
      rw [← mul_div_assoc, ← mul_div_assoc, ← mul_div_assoc, ← add_div, ← add_div, div_eq_iff hd]
      ring

/-- Samples of `100 - (x - 9.2) ^ 2 - (y - 4) ^ 2 - (s - 1) ^ 2`. -/
def bump (s : Rat) : GImage Rat :=
  ⟨16, 9, 16, (List.range (16 * 9)).map (fun k => 100 - ((k % 16 : Nat) - 46 / 5 : Rat) ^ 2 - ((k / 16 : Nat) - 4 : Rat) ^ 2 - (s - 1) ^ 2)⟩

/-- C88, finding: after five moves the offset from the pixel before the last move is added to the pixel after it: the maximum at 9.2 is reported at
10.2. -/
theorem c88_fifth : interpPeak cramerLower ⟨bump 0, bump 1, bump 2⟩ 1 1 4 4 = .ok (some (100, 1, 51 / 5, 4)) := by
  decide +kernel

/-- One pixel nearer it is found. -/
example : interpPeak cramerLower ⟨bump 0, bump 1, bump 2⟩ 1 1 5 4 = .ok (some (100, 1, 46 / 5, 4)) := by
  decide +kernel

theorem bump_rows (s : Rat) : (bump s).Rows 16 9 (fun x y => 100 - (((y * 16 + x) % 16 : Nat) - 46 / 5 : Rat) ^ 2
    - (((y * 16 + x) / 16 : Nat) - 4 : Rat) ^ 2 - (s - 1) ^ 2) := by
  refine ⟨rfl, ?_⟩
  intro x y h
  unfold bump
  rw [List.getElem?_map, List.getElem?_range h]
  rfl

/-- The hypotheses of `c88_interp_partial`. -/
example := c88_interp_partial cramerLower cramerLower_solves ⟨bump 0, bump 1, bump 2⟩ 16 16 9 _ _ _ (bump_rows 0) (bump_rows 1) (bump_rows 2) rfl rfl
  (by decide) 1 1 5 4 ⟨by decide, by decide, by decide, by decide, by decide⟩

/-- The hypotheses of `c88_exact`: a stationary point. -/
example : (cubeAt (fun x y => (⟨0, 2, 0, 0, -1, -1, -1, 0, 0, 0⟩ : Quadratic Rat).at x y 0) (fun x y => (⟨0, 2, 0, 0, -1, -1, -1, 0, 0, 0⟩ : Quadratic Rat).at x y 1)
    (fun x y => (⟨0, 2, 0, 0, -1, -1, -1, 0, 0, 0⟩ : Quadratic Rat).at x y 2) 2 1).Stationary (-1) (-1) (-1) := by
  refine ⟨?_, ?_, ?_⟩ <;> decide +kernel

end Nx
