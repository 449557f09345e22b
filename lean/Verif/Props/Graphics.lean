import Verif.Spec.Graphics
import Verif.Spec.ImageConv
import Verif.Props.ImageConv
import Verif.Lemmas.Ledger
import Verif.Lemmas.Pnm
import Mathlib.Tactic.LinearCombination
import Mathlib.Tactic.FieldSimp
import Mathlib.Analysis.SpecialFunctions.Complex.Arg

/-!
# C117: graphics contexts and drawing on images
-/

namespace Nx

open Real

theorem inkOf_nil : inkOf [] = ∅ := by
  ext p; simp [inkOf]

theorem inkOf_cons (s : Seg ℝ) (l : List (Seg ℝ)) : inkOf (s :: l) = s.ink ∪ inkOf l := by
  ext p; simp [inkOf]

theorem ink_line (a b : ℝ × ℝ) : (Seg.line a b).ink = lineSet a b := by
  ext p
  simp only [Seg.ink, lineSet, Set.mem_ofPred_eq]
  constructor
  · rintro ⟨t, h0, h1, rfl⟩
    exact ⟨t, h0, h1, by ring, by ring⟩
  · rintro ⟨t, h0, h1, e1, e2⟩
    exact ⟨t, h0, h1, Prod.ext (by simp only; rw [e1]; ring) (by simp only; rw [e2]; ring)⟩

theorem Drawn.refl {g : Gc ℝ} (h : g.c.err = false) : Drawn g g [] := ⟨rfl, h, [], by simp, rfl⟩

theorem Drawn.trans {g g' g'' : Gc ℝ} {l l'} (h : Drawn g g' l) (h' : Drawn g' g'' l') : Drawn g g'' (l ++ l') := by
  obtain ⟨ss, e, m⟩ := h.strokes_eq
  obtain ⟨ss', e', m'⟩ := h'.strokes_eq
  refine ⟨h'.image_eq.trans h.image_eq, h'.no_err, ss ++ ss', ?_, ?_⟩
  · rw [e', e, List.append_assoc]
  · rw [List.map_append, m, ← m', h.image_eq]

theorem seen_swap (im : Bool) (k : Colour ℝ) : seen im (if im then ⟨k.b, k.g, k.r, k.a⟩ else k) = k := by
  cases im <;> rfl

/-- The state with the given colour and width and an empty path. -/
theorem drawMark_paths {g : Gc ℝ} (hg : g.c.err = false) (ty : MarkType) (x y size : ℝ) (k : Colour ℝ) :
    ∃ l : List (Seg ℝ), Drawn g (drawMark cosSin π ty x y size k g) (if l = [] then [] else [(inkOf l, k, 3 / 2)]) ∧
      l = match ty with
        | .none => []
        | .point => [.arc (x, y) (size / 2) 0 (2 * π)]
        | .square => [.line (x - size / 2, y - size / 2) (x + size / 2, y - size / 2),
            .line (x + size / 2, y - size / 2) (x + size / 2, y + size / 2),
            .line (x + size / 2, y + size / 2) (x - size / 2, y + size / 2),
            .line (x - size / 2, y + size / 2) (x - size / 2, y - size / 2)]
        | .diamond => [.line (x, y - size / 2) (x + size / 2, y), .line (x + size / 2, y) (x, y + size / 2),
            .line (x, y + size / 2) (x - size / 2, y), .line (x - size / 2, y) (x, y - size / 2)]
        | .plus => [.line (x, y - size / 2) (x, y + size / 2), .line (x - size / 2, y) (x + size / 2, y)]
        | .cross => [.line (x - size / 2, y - size / 2) (x + size / 2, y + size / 2),
            .line (x + size / 2, y - size / 2) (x - size / 2, y + size / 2)] := by
  refine ⟨_, ?_, rfl⟩
  obtain ⟨im, c⟩ := g
  simp only at hg
  have e1 : x - size / 2 + size = x + size / 2 := by ring
  have e2 : y - size / 2 + size = y + size / 2 := by ring
  have e3 : x + size / 2 + -size = x - size / 2 := by ring
  have e4 : y - size / 2 + size / 2 = y := by ring
  have e5 : x + size / 2 + -(size / 2) = x := by ring
  have e6 : x + -(size / 2) = x - size / 2 := by ring
  have e7 : y + size / 2 + -(size / 2) = y := by ring
  have e8 : x - size / 2 + size / 2 = x := by ring
  have e9 : y + -(size / 2) = y - size / 2 := by ring
  cases ty <;> cases im <;> refine ⟨rfl, ?_, ?_⟩ <;>
    simp [drawMark, markPath, gcStroke, gcSetColour, gcSetLineWidth, gcNewPath, gcCircle, gcRectangle, gcMoveTo, gcRelLineTo,
      cairoStroke, cairoSetSource, cairoSetLineWidth, cairoNewPath, cairoArc, cairoLineTo, cairoRectangle, cairoMoveTo,
      cairoRelLineTo, cairoClosePath, Cairo.op, hg, seen, e1, e2, e3, e4, e5, e6, e7, e8, e9]

theorem mem_hline {a b c : ℝ} (h : a ≤ b) (p : ℝ × ℝ) : p ∈ lineSet (a, c) (b, c) ↔ a ≤ p.1 ∧ p.1 ≤ b ∧ p.2 = c := by
  simp only [lineSet, Set.mem_ofPred_eq]
  constructor
  · rintro ⟨t, h0, h1, e1, e2⟩
    refine ⟨?_, ?_, by rw [e2]; ring⟩
    · rw [e1]; nlinarith
    · rw [e1]; nlinarith
  · rintro ⟨h1, h2, h3⟩
    rcases h.lt_or_eq with hl | rfl
    · have hd : 0 < b - a := by linarith
      refine ⟨(p.1 - a) / (b - a), div_nonneg (by linarith) hd.le, (div_le_one hd).2 (by linarith), ?_, by rw [h3]; ring⟩
      rw [div_mul_cancel₀ _ hd.ne']; ring
    · exact ⟨0, le_refl _, zero_le_one, by linarith, by linarith⟩

theorem mem_vline {a b c : ℝ} (h : a ≤ b) (p : ℝ × ℝ) : p ∈ lineSet (c, a) (c, b) ↔ a ≤ p.2 ∧ p.2 ≤ b ∧ p.1 = c := by
  have := mem_hline (c := c) h (p.2, p.1)
  simp only [lineSet, Set.mem_ofPred_eq] at this ⊢
  rw [← this]
  constructor <;> rintro ⟨t, h0, h1, e1, e2⟩ <;> exact ⟨t, h0, h1, e2, e1⟩

theorem lineSet_symm (a b : ℝ × ℝ) : lineSet a b = lineSet b a := by
  ext p
  simp only [lineSet, Set.mem_ofPred_eq]
  constructor <;> rintro ⟨t, h0, h1, e1, e2⟩ <;>
    exact ⟨1 - t, by linarith, by linarith, by rw [e1]; ring, by rw [e2]; ring⟩

/-- A line with slope `s = 1` or `-1` to the right. -/
theorem mem_dline {a b x y r s : ℝ} (hr : 0 < r) (p : ℝ × ℝ) (ha : a = x + r) (hb : b = y + s * r) :
    p ∈ lineSet (x, y) (a, b) ↔ 0 ≤ p.1 - x ∧ p.1 - x ≤ r ∧ p.2 - y = s * (p.1 - x) := by
  subst ha hb
  simp only [lineSet, Set.mem_ofPred_eq]
  constructor
  · rintro ⟨t, h0, h1, e1, e2⟩
    rw [e1, e2]
    refine ⟨by nlinarith, by nlinarith, by ring⟩
  · rintro ⟨h1, h2, h3⟩
    refine ⟨(p.1 - x) / r, div_nonneg h1 hr.le, (div_le_one hr).2 h2, by field_simp; ring, ?_⟩
    have : (p.1 - x) / r * (y + s * r - y) = s * (p.1 - x) := by field_simp; ring
    rw [this]; linarith

theorem box_ink {x y w h : ℝ} (hw : 0 ≤ w) (hh : 0 ≤ h) :
    inkOf [.line (x, y) (x + w, y), .line (x + w, y) (x + w, y + h), .line (x + w, y + h) (x, y + h), .line (x, y + h) (x, y)] =
      boxSet x y w h := by
  ext p
  simp only [inkOf_cons, inkOf_nil, ink_line, Set.mem_union, Set.mem_empty_iff_false, or_false]
  rw [mem_hline (by linarith), mem_vline (by linarith), lineSet_symm (x + w, y + h), mem_hline (by linarith),
    lineSet_symm (x, y + h), mem_vline (by linarith)]
  simp only [boxSet, Set.mem_ofPred_eq]
  constructor
  · rintro (⟨h1, h2, h3⟩ | ⟨h1, h2, h3⟩ | ⟨h1, h2, h3⟩ | ⟨h1, h2, h3⟩)
    · exact ⟨h1, h2, by linarith, by linarith, by simp [h3]⟩
    · exact ⟨by linarith, by linarith, h1, h2, by simp [h3]⟩
    · exact ⟨h1, h2, by linarith, by linarith, by simp [h3]⟩
    · exact ⟨by linarith, by linarith, h1, h2, by simp [h3]⟩
  · rintro ⟨h1, h2, h3, h4, h5 | h5 | h5 | h5⟩
    · exact .inr (.inr (.inr ⟨h3, h4, h5⟩))
    · exact .inr (.inl ⟨h3, h4, h5⟩)
    · exact .inl ⟨h1, h2, h5⟩
    · exact .inr (.inr (.inl ⟨h1, h2, h5⟩))

theorem exists_angle {u v : ℝ} (h : u ^ 2 + v ^ 2 = 1) : ∃ t, 0 ≤ t ∧ t ≤ 2 * π ∧ cos t = u ∧ sin t = v := by
  have hn : ‖(⟨u, v⟩ : ℂ)‖ = 1 := by
    rw [Complex.norm_def, Complex.normSq_mk, Real.sqrt_eq_one]
    linarith
  have h0 : (⟨u, v⟩ : ℂ) ≠ 0 := by
    intro hc
    rw [hc, norm_zero] at hn
    exact zero_ne_one hn
  have c1 := Complex.cos_arg h0
  have s1 := Complex.sin_arg (⟨u, v⟩ : ℂ)
  rw [hn, div_one] at c1 s1
  have b1 := Complex.neg_pi_lt_arg (⟨u, v⟩ : ℂ)
  have b2 := Complex.arg_le_pi (⟨u, v⟩ : ℂ)
  by_cases hneg : 0 ≤ Complex.arg ⟨u, v⟩
  · exact ⟨_, hneg, by linarith [pi_pos], c1, s1⟩
  · exact ⟨Complex.arg ⟨u, v⟩ + 2 * π, by linarith, by linarith, by rw [cos_add_two_pi, c1], by rw [sin_add_two_pi, s1]⟩

theorem circle_ink {x y r : ℝ} (hr : 0 < r) : inkOf [.arc (x, y) r 0 (2 * π)] = circleSet x y r := by
  ext p
  simp only [inkOf_cons, inkOf_nil, Set.mem_union, Set.mem_empty_iff_false, or_false, Seg.ink, Set.mem_ofPred_eq, circleSet]
  constructor
  · rintro ⟨t, -, -, rfl⟩
    have := cos_sq_add_sin_sq t
    simp only
    linear_combination r ^ 2 * this
  · intro h
    obtain ⟨t, h0, h1, hc, hs⟩ := exists_angle (u := (p.1 - x) / r) (v := (p.2 - y) / r) (by
      rw [div_pow, div_pow, ← add_div, h, div_self (by positivity)])
    refine ⟨t, h0, h1, Prod.ext ?_ ?_⟩
    · simp only [hc]; field_simp; ring
    · simp only [hs]; field_simp; ring

theorem mark_ink {x y r : ℝ} (hr : 0 < r) :
    inkOf [.line (x - r, y - r) (x + r, y - r), .line (x + r, y - r) (x + r, y + r), .line (x + r, y + r) (x - r, y + r),
      .line (x - r, y + r) (x - r, y - r)] = markSet x y r .square := by
  have := box_ink (x := x - r) (y := y - r) (w := 2 * r) (h := 2 * r) (by linarith) (by linarith)
  have e1 : x - r + 2 * r = x + r := by ring
  have e2 : y - r + 2 * r = y + r := by ring
  rw [e1, e2] at this
  rw [this]
  ext p
  simp only [boxSet, markSet, Set.mem_ofPred_eq, e1, e2]
  constructor
  · rintro ⟨h1, h2, h3, h4, h5⟩
    have a1 : |p.1 - x| ≤ r := abs_le.2 ⟨by linarith, by linarith⟩
    have a2 : |p.2 - y| ≤ r := abs_le.2 ⟨by linarith, by linarith⟩
    apply le_antisymm (max_le a1 a2)
    rcases h5 with h | h | h | h
    · exact le_max_of_le_left (by rw [h]; rw [abs_of_nonpos] <;> linarith)
    · exact le_max_of_le_left (by rw [h]; rw [abs_of_nonneg] <;> linarith)
    · exact le_max_of_le_right (by rw [h]; rw [abs_of_nonpos] <;> linarith)
    · exact le_max_of_le_right (by rw [h]; rw [abs_of_nonneg] <;> linarith)
  · intro h
    have a1 := abs_le.1 (h ▸ le_max_left |p.1 - x| |p.2 - y|)
    have a2 := abs_le.1 (h ▸ le_max_right |p.1 - x| |p.2 - y|)
    refine ⟨by linarith, by linarith, by linarith, by linarith, ?_⟩
    rcases max_choice |p.1 - x| |p.2 - y| with hm | hm
    · rw [hm] at h
      rcases abs_eq hr.le |>.1 h with h | h
      · exact .inr (.inl (by linarith))
      · exact .inl (by linarith)
    · rw [hm] at h
      rcases abs_eq hr.le |>.1 h with h | h
      · exact .inr (.inr (.inr (by linarith)))
      · exact .inr (.inr (.inl (by linarith)))

theorem diamond_ink {x y r : ℝ} (hr : 0 < r) :
    inkOf [.line (x, y - r) (x + r, y), .line (x + r, y) (x, y + r), .line (x, y + r) (x - r, y), .line (x - r, y) (x, y - r)] =
      markSet x y r .diamond := by
  ext p
  simp only [inkOf_cons, inkOf_nil, ink_line, Set.mem_union, Set.mem_empty_iff_false, or_false]
  rw [mem_dline (s := 1) hr p rfl (by ring), lineSet_symm (x + r, y), mem_dline (s := -1) hr p rfl (by ring),
    lineSet_symm (x, y + r), mem_dline (s := 1) hr p (by ring) (by ring), mem_dline (s := -1) hr p (by ring) (by ring)]
  simp only [markSet, Set.mem_ofPred_eq]
  rcases abs_cases (p.1 - x) with ⟨e1, h1⟩ | ⟨e1, h1⟩ <;> rcases abs_cases (p.2 - y) with ⟨e2, h2⟩ | ⟨e2, h2⟩ <;> rw [e1, e2]
  · constructor
    · rintro (⟨a, b, c⟩ | ⟨a, b, c⟩ | ⟨a, b, c⟩ | ⟨a, b, c⟩) <;> linarith
    · intro h
      exact .inr (.inl ⟨by linarith, by linarith, by linarith⟩)
  · constructor
    · rintro (⟨a, b, c⟩ | ⟨a, b, c⟩ | ⟨a, b, c⟩ | ⟨a, b, c⟩) <;> linarith
    · intro h
      exact .inl ⟨by linarith, by linarith, by linarith⟩
  · constructor
    · rintro (⟨a, b, c⟩ | ⟨a, b, c⟩ | ⟨a, b, c⟩ | ⟨a, b, c⟩) <;> linarith
    · intro h
      exact .inr (.inr (.inl ⟨by linarith, by linarith, by linarith⟩))
  · constructor
    · rintro (⟨a, b, c⟩ | ⟨a, b, c⟩ | ⟨a, b, c⟩ | ⟨a, b, c⟩) <;> linarith
    · intro h
      exact .inr (.inr (.inr ⟨by linarith, by linarith, by linarith⟩))

theorem plus_ink {x y r : ℝ} (hr : 0 < r) :
    inkOf [.line (x, y - r) (x, y + r), .line (x - r, y) (x + r, y)] = markSet x y r .plus := by
  ext p
  simp only [inkOf_cons, inkOf_nil, ink_line, Set.mem_union, Set.mem_empty_iff_false, or_false]
  rw [mem_vline (by linarith), mem_hline (by linarith)]
  simp only [markSet, Set.mem_ofPred_eq, abs_le]
  constructor
  · rintro (⟨a, b, c⟩ | ⟨a, b, c⟩)
    · exact .inl ⟨c, by linarith, by linarith⟩
    · exact .inr ⟨c, by linarith, by linarith⟩
  · rintro (⟨c, a, b⟩ | ⟨c, a, b⟩)
    · exact .inl ⟨by linarith, by linarith, c⟩
    · exact .inr ⟨by linarith, by linarith, c⟩

theorem cross_ink {x y r : ℝ} (hr : 0 < r) :
    inkOf [.line (x - r, y - r) (x + r, y + r), .line (x + r, y - r) (x - r, y + r)] = markSet x y r .cross := by
  ext p
  simp only [inkOf_cons, inkOf_nil, ink_line, Set.mem_union, Set.mem_empty_iff_false, or_false]
  have h2r : 0 < 2 * r := by linarith
  rw [mem_dline (s := 1) h2r p (by ring) (by ring), lineSet_symm (x + r, y - r), mem_dline (s := -1) h2r p (by ring) (by ring)]
  simp only [markSet, Set.mem_ofPred_eq]
  constructor
  · rintro (⟨a, b, c⟩ | ⟨a, b, c⟩)
    · have : p.2 - y = p.1 - x := by linarith
      rw [this]
      exact ⟨rfl, abs_le.2 ⟨by linarith, by linarith⟩⟩
    · have : p.2 - y = -(p.1 - x) := by linarith
      rw [this, abs_neg]
      exact ⟨rfl, abs_le.2 ⟨by linarith, by linarith⟩⟩
  · rintro ⟨h1, h2⟩
    rw [← h1] at h2
    have h3 := abs_le.1 h2
    rcases abs_eq_abs.1 h1 with h | h
    · exact .inl ⟨by linarith, by linarith, by linarith⟩
    · exact .inr ⟨by linarith, by linarith, by linarith⟩

theorem mark_drawn {g : Gc ℝ} (hg : g.c.err = false) (ty : MarkType) (x y : ℝ) {size : ℝ} (hs : ty = .none ∨ 0 < size)
    (k : Colour ℝ) : Drawn g (drawMark cosSin π ty x y size k g) (markDrawn ty x y size k) := by
  obtain ⟨l, hd, hl⟩ := drawMark_paths hg ty x y size k
  cases ty <;> simp only at hl <;> subst hl <;> simp only [markDrawn, reduceCtorEq, if_false, if_true, false_or] at hd hs ⊢
  · exact hd
  · rwa [circle_ink (by linarith)] at hd
  · rwa [mark_ink (by linarith)] at hd
  · rwa [diamond_ink (by linarith)] at hd
  · rwa [plus_ink (by linarith)] at hd
  · rwa [cross_ink (by linarith)] at hd

/-- **C117**: a mark of a positive size is the figure it is called after, with its centre at the given point, in the given
colour. -/
theorem c117_mark {g : Gc ℝ} (hg : g.c.err = false) (ty : MarkType) (x y : ℝ) {size : ℝ} (hs : 0 < size) (k : Colour ℝ) :
    Drawn g (drawMark cosSin π ty x y size k g) (markDrawn ty x y size k) := mark_drawn hg ty x y (.inr hs) k

/-- A diamond of size 10. -/
example : ∃ ss, (drawMark cosSin π .diamond 3 4 10 ⟨1, 0, 0, 1⟩ (gcNew true)).c.strokes = ss ∧
    ss.map (fun s => (inkOf s.path, seen true s.colour, s.width)) =
      [({p : ℝ × ℝ | |p.1 - 3| + |p.2 - 4| = 5}, (⟨1, 0, 0, 1⟩ : Colour ℝ), (3 / 2 : ℝ))] := by
  obtain ⟨ss, e, m⟩ := (c117_mark (g := gcNew true) rfl .diamond 3 4 (size := 10) (by norm_num) ⟨1, 0, 0, 1⟩).strokes_eq
  refine ⟨ss, by simpa [gcNew, gcSetColour, cairoSetSource, Cairo.op] using e, ?_⟩
  have hm := m
  simp only [markDrawn, markSet, reduceCtorEq, if_false] at hm
  rw [show (10 : ℝ) / 2 = 5 by norm_num] at hm
  exact hm

theorem stroke_empty {g : Gc ℝ} (hg : g.c.err = false) (hp : g.c.path = []) : Drawn g (gcStroke g) [] := by
  obtain ⟨im, c⟩ := g
  simp only at hg hp
  refine ⟨rfl, ?_, [], ?_, rfl⟩ <;> simp [gcStroke, cairoStroke, Cairo.op, hg, hp]

theorem drawMark_path (ty : MarkType) (x y size : ℝ) (k : Colour ℝ) {g : Gc ℝ}
    (he : (drawMark cosSin π ty x y size k g).c.err = false) : (drawMark cosSin π ty x y size k g).c.path = [] := by
  revert he
  simp only [drawMark, gcStroke]
  generalize markPath (K := ℝ) _ _ _ _ _ _ _ _ = g'
  unfold cairoStroke Cairo.op
  split
  · intro h; simp_all
  · intro _; rfl

/-- **C117**: an edge is the line between the two points in the given width and colour, with a mark at each end. -/
theorem c117_edge {g : Gc ℝ} (hg : g.c.err = false) (xs ys xe ye width : ℝ) (k : Colour ℝ) (ty : MarkType) (size : ℝ)
    (hs : ty = .none ∨ 0 < size) :
    Drawn g (drawEdge cosSin π xs ys xe ye width k ty size g)
      ([(lineSet (xs, ys) (xe, ye), k, width)] ++ markDrawn ty xs ys size k ++ markDrawn ty xe ye size k) := by
  unfold drawEdge
  simp only
  have h1 : Drawn g (gcStroke (gcLine (gcNewPath (gcNewPath (gcSetLineWidth (gcSetColour g k) width))) xs ys xe ye))
      [(lineSet (xs, ys) (xe, ye), k, width)] := by
    rw [← ink_line, show (Seg.line (xs, ys) (xe, ye)).ink = inkOf [.line (xs, ys) (xe, ye)] by
      rw [inkOf_cons, inkOf_nil, Set.union_empty]]
    obtain ⟨im, c⟩ := g
    simp only at hg
    cases im <;> refine ⟨rfl, ?_, ?_⟩ <;>
      simp [gcStroke, gcSetColour, gcSetLineWidth, gcNewPath, gcLine, cairoStroke, cairoSetSource, cairoSetLineWidth, cairoNewPath,
        cairoLineTo, cairoMoveTo, Cairo.op, hg, seen]
  have h2 := mark_drawn h1.no_err ty xs ys hs k
  have h3 := mark_drawn h2.no_err ty xe ye hs k
  have h4 := stroke_empty h3.no_err (drawMark_path _ _ _ _ _ h3.no_err)
  have := ((h1.trans h2).trans h3).trans h4
  rwa [List.append_nil] at this

example : ∃ g : Gc ℝ, Drawn (gcNew true) g
    ([(lineSet (0, 0) (3, 4), ⟨0, 1, 0, 1⟩, 3)] ++ [(markSet 0 0 1 .cross, ⟨0, 1, 0, 1⟩, 3 / 2)] ++
      [(markSet 3 4 1 .cross, ⟨0, 1, 0, 1⟩, 3 / 2)]) := by
  have := c117_edge (g := gcNew true) rfl 0 0 3 4 3 ⟨0, 1, 0, 1⟩ .cross 2 (.inr (by norm_num))
  simp only [markDrawn, reduceCtorEq, if_false] at this
  rw [show (2 : ℝ) / 2 = 1 by norm_num] at this
  exact ⟨_, this⟩

/-- **C117**: a region of interest is the outline of its rectangle. -/
theorem c117_roi {g : Gc ℝ} (hg : g.c.err = false) (x y width : ℝ) {w h : ℝ} (hw : 0 ≤ w) (hh : 0 ≤ h) (k : Colour ℝ) :
    Drawn g (drawRoi x y w h width k g) [(boxSet x y w h, k, width)] := by
  rw [← box_ink hw hh]
  obtain ⟨im, c⟩ := g
  simp only at hg
  have e1 : x + w + -w = x := by ring
  cases im <;> refine ⟨rfl, ?_, ?_⟩ <;>
    simp [drawRoi, gcStroke, gcSetColour, gcSetLineWidth, gcNewPath, gcRectangle, cairoStroke, cairoSetSource, cairoSetLineWidth,
      cairoNewPath, cairoRectangle, cairoMoveTo, cairoRelLineTo, cairoClosePath, Cairo.op, hg, seen, e1]

example : Drawn (gcNew false) (drawRoi 1 2 3 4 1 ⟨1, 1, 0, 1⟩ (gcNew false)) [(boxSet 1 2 3 4, ⟨1, 1, 0, 1⟩, 1)] :=
  c117_roi rfl 1 2 1 (by norm_num) (by norm_num) _

/-- The colours of the levels 0 to 6, as red, green and blue. -/
def levelTable : List (ℝ × ℝ × ℝ) := [(1, 0, 0), (0, 0, 1), (0, 1, 0), (1, 1, 0), (1, 0, 1), (0, 1, 1), (1, 1, 1)]

/-- **C117**: a list of keypoints is a circle for each of them, in the order of the list: its centre is the position in the
coordinates of the image, its radius `sigma * scale`, its colour white or that of the level. -/
theorem c117_keypoints {g : Gc ℝ} (hg : g.c.err = false) (keys : List (DKey ℝ)) (hk : ∀ q ∈ keys, 0 < q.sigma * q.scale)
    (single : Bool) (rnd : Nat → Colour ℝ) (i : Nat) :
    ∃ cols : List (Colour ℝ), cols.length = keys.length ∧
      Drawn g (drawKeypoints cosSin π single rnd keys i g)
        (List.zipWith (fun (q : DKey ℝ) k => (circleSet (q.xs * q.scale) (q.ys * q.scale) (q.sigma * q.scale), k, 3 / 2))
          keys cols) ∧
      ∀ (j : Nat) (q : DKey ℝ) (k : Colour ℝ), keys[j]? = some q → cols[j]? = some k →
        if single then k = ⟨1, 1, 1, 1⟩
        else ∀ n : Nat, q.level = n → ∀ t : ℝ × ℝ × ℝ, levelTable[n]? = some t → k = ⟨t.1, t.2.1, t.2.2, 1⟩ := by
  induction keys generalizing g i with
  | nil => exact ⟨[], rfl, Drawn.refl hg, by simp⟩
  | cons q l ih =>
    rw [drawKeypoints]
    have h1 := mark_drawn hg .point (q.xs * q.scale) (q.ys * q.scale) (size := q.sigma * q.scale * 2)
      (.inr (by have := hk q (by simp); linarith)) (if single then ⟨1, 1, 1, 1⟩ else levelColour (rnd i) q.level)
    obtain ⟨cols, hl, hd, hc⟩ := ih h1.no_err (fun q hq => hk q (by simp [hq])) (i + 1)
    refine ⟨(if single then ⟨1, 1, 1, 1⟩ else levelColour (rnd i) q.level) :: cols, by simp [hl], ?_, ?_⟩
    · have := h1.trans hd
      simp only [markDrawn, reduceCtorEq, if_false, markSet, mul_div_assoc] at this
      rw [show (2 : ℝ) / 2 = 1 by norm_num, mul_one] at this
      exact this
    · intro j q' k hq' hk'
      cases j with
      | succ j => exact hc j q' k (by simpa using hq') (by simpa using hk')
      | zero =>
        simp only [List.getElem?_cons_zero, Option.some.injEq] at hq' hk'
        subst hq' hk'
        cases single
        · simp only [Bool.false_eq_true, if_false]
          intro n hn t ht
          rw [hn]
          unfold levelColour
          rcases n with _ | _ | _ | _ | _ | _ | _ | n <;> simp [levelTable] at ht <;> (subst ht; simp)
        · simp

example : ∃ q : DKey ℝ, 0 < q.sigma * q.scale ∧ q.level = 3 := ⟨⟨1, 2, 3, 4, 3⟩, by norm_num, rfl⟩

/-- What is drawn for a match: both displacements, and a diamond around each of its points in the image of the point. -/
noncomputable def matchDrawn (lw : ℝ) (m : PMatch ℝ) : List (Set (ℝ × ℝ) × Colour ℝ × ℝ) :=
  [(lineSet m.x m.xp, ⟨1, 0, 0, 1⟩, 3), (lineSet (m.x.1 + lw, m.x.2) (m.xp.1 + lw, m.xp.2), ⟨0, 1, 0, 1⟩, 3),
    ({p | |p.1 - m.x.1| + |p.2 - m.x.2| = 5}, ⟨1, 0, 0, 1⟩, 3 / 2),
    ({p | |p.1 - (m.xp.1 + lw)| + |p.2 - m.xp.2| = 5}, ⟨0, 1, 0, 1⟩, 3 / 2)]

theorem drawMatch_drawn {g : Gc ℝ} (hg : g.c.err = false) (lw : ℝ) (m : PMatch ℝ) :
    Drawn g (drawMatch cosSin π lw m g) (matchDrawn lw m) := by
  unfold drawMatch
  simp only
  have h1 := c117_edge hg m.x.1 m.x.2 m.xp.1 m.xp.2 3 ⟨1, 0, 0, 1⟩ .none 0 (.inl rfl)
  have h2 := c117_edge h1.no_err (m.x.1 + lw) m.x.2 (m.xp.1 + lw) m.xp.2 3 ⟨0, 1, 0, 1⟩ .none 0 (.inl rfl)
  have h3 := mark_drawn h2.no_err .diamond m.x.1 m.x.2 (size := 10) (.inr (by norm_num)) ⟨1, 0, 0, 1⟩
  have h4 := mark_drawn h3.no_err .diamond (m.xp.1 + lw) m.xp.2 (size := 10) (.inr (by norm_num)) ⟨0, 1, 0, 1⟩
  have := ((h1.trans h2).trans h3).trans h4
  simp only [markDrawn, reduceCtorEq, if_false, if_true, markSet] at this
  rw [show (10 : ℝ) / 2 = 5 by norm_num] at this
  exact this

/-- **C117**: for a list of matches exactly the inliers, or all matches, are drawn. -/
theorem c117_matches {g : Gc ℝ} (hg : g.c.err = false) (lw : ℝ) (only : Bool) (corr : List (PMatch ℝ)) :
    Drawn g (drawMatches cosSin π lw only corr g)
      ((if only then corr.filter (fun m => m.inlier) else corr).flatMap (matchDrawn lw)) := by
  induction corr generalizing g with
  | nil => cases only <;> exact Drawn.refl hg
  | cons m l ih =>
    rw [drawMatches]
    by_cases hc : (!only || m.inlier) = true
    · rw [if_pos hc]
      have h1 := drawMatch_drawn hg lw m
      have := h1.trans (ih h1.no_err)
      cases only
      · simpa using this
      · simp only [Bool.not_true, Bool.false_or] at hc
        simpa [hc] using this
    · rw [if_neg hc]
      have := ih hg
      cases only
      · simp at hc
      · simp only [Bool.not_true, Bool.false_or] at hc
        simpa [hc] using this

/-- **C117**: `nx_gc_curve` does begin at the start; its last point and the new current point are the second control point. -/
theorem c117_curve_partial {g : Gc ℝ} (hg : g.c.err = false) (hp : g.c.path = []) (s e p q : ℝ × ℝ) :
    s ∈ inkOf (gcCurve g s e p q).c.path ∧ q ∈ inkOf (gcCurve g s e p q).c.path ∧ (gcCurve g s e p q).c.cur = some q := by
  have e1 : (gcCurve g s e p q).c.path = [.curve s e p q] ∧ (gcCurve g s e p q).c.cur = some q := by
    simp [gcCurve, cairoCurveTo, cairoMoveTo, Cairo.op, hg, hp]
  rw [e1.1, inkOf_cons, inkOf_nil, Set.union_empty]
  exact ⟨⟨0, le_refl _, zero_le_one, by simp⟩, ⟨1, zero_le_one, le_refl _, by simp⟩, e1.2⟩

example : (gcNew true : Gc ℝ).c.err = false ∧ (gcNew true : Gc ℝ).c.path = [] := ⟨rfl, rfl⟩

/-- **C117** is false for curves: the curve from (0, 0) to (1, 0) with both control points at (0, 1) does not contain (1, 0). -/
theorem c117_curve_false : ((1, 0) : ℝ × ℝ) ∉ inkOf (gcCurve (gcNew true) (0, 0) (1, 0) (0, 1) (0, 1)).c.path := by
  have e1 : (gcCurve (gcNew true : Gc ℝ) (0, 0) (1, 0) (0, 1) (0, 1)).c.path = [.curve (0, 0) (1, 0) (0, 1) (0, 1)] := by
    simp [gcCurve, cairoCurveTo, cairoMoveTo, Cairo.op, gcNew, gcSetColour, cairoSetSource]
  rw [e1, inkOf_cons, inkOf_nil, Set.union_empty]
  rintro ⟨t, h0, h1, h⟩
  have h1' := congrArg Prod.fst h
  have h2' := congrArg Prod.snd h
  simp only at h1' h2'
  have ht : t = 0 := by
    by_contra hne
    have hp : 0 < t := lt_of_le_of_ne h0 (Ne.symm hne)
    nlinarith [pow_pos hp 3, mul_nonneg (sub_nonneg.2 h1) (pow_pos hp 2).le]
  subst ht
  norm_num at h1'

/-- **C117** is false for relative curves: offsets of zero lead to the origin and not to the current point. -/
theorem c117_rel_curve_false : (gcRelCurveTo (gcMoveTo (gcNew true) 5 5) (0, 0) (0, 0) (0, 0) : Gc ℝ).c.cur = some (0, 0) := by
  simp [gcRelCurveTo, gcMoveTo, cairoCurveTo, cairoMoveTo, Cairo.op, gcNew, gcSetColour, cairoSetSource]

/-! ## Colours in memory -/

theorem writeBlock_four {d : Bytes} {i : Nat} (h : i + 4 ≤ d.length) (a b c e : Byte) :
    writeBlock d i [a, b, c, e] = .ok ((((d.set i a).set (i + 1) b).set (i + 2) c).set (i + 3) e) := by
  rw [writeBlock_ok [a, b, c, e] h]
  congr 1
  apply List.ext_getElem?
  intro j
  rw [getElem?_writeBlock h]
  simp only [List.getElem?_set, List.length_cons, List.length_nil, List.length_set]
  by_cases hj : i ≤ j ∧ j < i + 4
  · have : j = i ∨ j = i + 1 ∨ j = i + 2 ∨ j = i + 3 := by omega
    rw [if_pos (by omega)]
    rcases this with rfl | rfl | rfl | rfl
    · simp; omega
    · simp; omega
    · simp; omega
    · simp; omega
  · rw [if_neg (by omega), if_neg (by omega), if_neg (by omega), if_neg (by omega), if_neg (by omega)]

theorem clear_shows {K : Type} {q : K → Byte} {little : Bool} {g : Gc K} {img : SImg Byte} {f : Nat → Nat → Nat → Byte} {w h : Nat}
    (hs : img.ShowsRgba w h f) {a b c e : Byte} (hb : argbBytes q little g.c.src = [a, b, c, e]) :
    ∃ out, gcClear q little g img = .ok out ∧ out.ShowsRgba w h (fun _ _ => four a b c e) := by
  have hst := hs.wf.stride_ge
  rw [hs.rgba_eq, hs.width_eq] at hst
  simp only [if_true] at hst
  have hlen := hs.wf.length_eq
  rw [hs.height_eq] at hlen
  unfold gcClear
  rw [hs.height_eq, hs.width_eq, hb]
  obtain ⟨d, e1, hl, hd⟩ := fill4_spec (f := fun _ _ => four a b c e) (st := img.stride) (H := h) (w := w)
    (body := fun y => paintPixel [a, b, c, e] img.stride y) hst hlen (by
      intro y x d hy hx hd
      unfold paintPixel
      have : y * img.stride + img.stride ≤ img.stride * h := by
        rw [← Nat.succ_mul, Nat.mul_comm img.stride]
        exact Nat.mul_le_mul_right _ hy
      rw [writeBlock_four (by omega)]
      rfl)
  rw [e1]
  refine ⟨_, rfl, ⟨?_, ?_⟩, ?_, ?_, ?_, hd⟩
  · rw [hs.rgba_eq]; simpa using hst
  · exact hl
  · exact hs.rgba_eq
  · rfl
  · rfl

/-- **C117**: on a machine that stores the low byte first, clearing an image with an opaque colour gives every pixel this colour, as
red, green, blue and alpha. -/
theorem c117_colour_partial {K : Type} [Field K] (q : K → Byte) {g : Gc K} (hi : g.image = true) (he : g.c.err = false) (r gr b : K)
    {img : SImg Byte} {f : Nat → Nat → Nat → Byte} {w h : Nat} (hs : img.ShowsRgba w h f) :
    ∃ out, gcClear q true (gcSetColour g ⟨r, gr, b, 1⟩) img = .ok out ∧
      out.ShowsRgba w h (fun _ _ => four (q r) (q gr) (q b) (q 1)) := by
  apply clear_shows hs
  simp [argbBytes, gcSetColour, hi, cairoSetSource, Cairo.op, he]

theorem one_pixel : (⟨true, 1, 1, 4, [1, 2, 3, 4]⟩ : SImg Byte).ShowsRgba 1 1 (fun _ _ => four 1 2 3 4) := by
  refine ⟨⟨by decide, rfl⟩, rfl, rfl, rfl, ?_⟩
  intro x y c hx hy hc
  obtain rfl : x = 0 := by omega
  obtain rfl : y = 0 := by omega
  have : c = 0 ∨ c = 1 ∨ c = 2 ∨ c = 3 := by omega
  rcases this with rfl | rfl | rfl | rfl <;> rfl

/-- One red pixel. -/
example : ∃ out, gcClear (fun x : ℚ => if x = 1 then 255 else 0) true (gcSetColour (gcNew true) ⟨1, 0, 0, 1⟩)
    ⟨true, 1, 1, 4, [1, 2, 3, 4]⟩ = .ok out ∧ out.ShowsRgba 1 1 (fun _ _ => four 255 0 0 255) := by
  have := c117_colour_partial (fun x : ℚ => if x = 1 then 255 else 0) (g := gcNew true) rfl rfl 1 0 0 one_pixel
  simpa using this

/-- **C117** is false on machines that store the high byte first: green becomes a transparent magenta. -/
theorem c117_big_endian_false : ∃ out, gcClear (fun x : ℚ => if x = 1 then 255 else 0) false
    (gcSetColour (gcNew true) ⟨0, 1, 0, 1⟩) ⟨true, 1, 1, 4, [1, 2, 3, 4]⟩ = .ok out ∧
    out.ShowsRgba 1 1 (fun _ _ => four 255 0 255 0) := by
  apply clear_shows one_pixel
  simp [argbBytes, gcSetColour, gcNew, cairoSetSource, Cairo.op]

/-! ## The image of matches -/

theorem row_sep {y y' st k o n : Nat} (hy : y' ≠ y) (hk : k < st) (ho : o + n ≤ st) :
    ¬ (y * st + o ≤ y' * st + k ∧ y' * st + k < y * st + o + n) := by
  rcases Nat.lt_or_gt_of_ne hy with h | h
  · have := Nat.mul_le_mul_right st h
    rw [Nat.succ_mul] at this
    omega
  · have := Nat.mul_le_mul_right st h
    rw [Nat.succ_mul] at this
    omega

/-- One `memcpy` of a row. -/
theorem copyRow_spec {img : SImg Byte} {w h : Nat} {F : Nat → Nat → Nat → Byte} (hs : img.ShowsRgba w h F) {y st o H : Nat} {d : Bytes}
    (hd : d.length = st * H) (hy : y < H) (ho : o * 4 + w * 4 ≤ st) :
    ∃ d', copyRow img y (y * st + o * 4) d = .ok d' ∧ d'.length = st * H ∧ ∀ x y' c, 4 * x + c < st → c < 4 →
      d'[y' * st + (4 * x + c)]? = if y' = y ∧ y < h ∧ o ≤ x ∧ x < o + w then some (F (x - o) y c) else d[y' * st + (4 * x + c)]? := by
  have hst := hs.wf.stride_ge
  rw [hs.rgba_eq, hs.width_eq] at hst
  simp only [if_true] at hst
  have hlen := hs.wf.length_eq
  rw [hs.height_eq] at hlen
  unfold copyRow
  rw [hs.height_eq, hs.width_eq]
  by_cases hyh : y < h
  · rw [if_pos hyh]
    have h1 : y * img.stride + img.stride ≤ img.stride * h := by
      rw [← Nat.succ_mul, Nat.mul_comm img.stride]; exact Nat.mul_le_mul_right _ hyh
    have h2 : y * st + st ≤ st * H := by
      rw [← Nat.succ_mul, Nat.mul_comm st]; exact Nat.mul_le_mul_right _ hy
    obtain ⟨b, e, hbl, hb⟩ := readBlock_spec (a := img.data) (i := y * img.stride) (n := w * 4) (by omega)
    rw [e]
    simp only [Res.ok_bind]
    have hfit : y * st + o * 4 + b.length ≤ d.length := by omega
    rw [writeBlock_ok _ hfit]
    refine ⟨_, rfl, by simp; omega, ?_⟩
    intro x y' c hx hc
    rw [getElem?_writeBlock hfit, hbl]
    by_cases hyy : y' = y
    · subst hyy
      by_cases hxx : o ≤ x ∧ x < o + w
      · rw [if_pos (by omega), if_pos ⟨rfl, hyh, hxx⟩, hb _ (by omega)]
        have := hs.pixel_eq (x - o) y' c (by omega) hyh hc
        rw [← this]
        congr 1
        omega
      · rw [if_neg (by omega), if_neg (by omega)]
    · rw [if_neg (row_sep hyy hx ho), if_neg (by omega)]
  · rw [if_neg hyh]
    refine ⟨d, rfl, hd, ?_⟩
    intro x y' c _ _
    rw [if_neg (by omega)]

/-- Two images side by side, aligned at the top, black and transparent elsewhere. -/
def sideBySide (lw lh rh : Nat) (F G : Nat → Nat → Nat → Byte) (x y c : Nat) : Byte :=
  if x < lw then (if y < lh then F x y c else 0) else (if y < rh then G (x - lw) y c else 0)

theorem canvas_spec {debug : Bool} {junk : Nat → Byte} {l r lc rc : SImg Byte} {lw lh rw' rh : Nat} {F G : Nat → Nat → Nat → Byte}
    (hl : toRgbaImage debug junk l = .ok lc) (hr : toRgbaImage debug junk r = .ok rc) (sl : lc.ShowsRgba lw lh F)
    (sr : rc.ShowsRgba rw' rh G) (wl : l.width = lw) (wr : r.width = rw') (el : l.height = lh) (er : r.height = rh)
    (h1 : 4 * (lw + rw') ≤ 2147483647) (h2 : 4 * (lw + rw') * max lh rh ≤ 2147483647) :
    ∃ out, matchCanvas debug junk l r = .ok out ∧ out.ShowsRgba (lw + rw') (max lh rh) (sideBySide lw lh rh F G) := by
  unfold matchCanvas
  rw [hl, hr]
  simp only [Res.ok_bind]
  rw [wl, wr, el, er, sResize_ok h1 h2]
  simp only [Res.ok_bind]
  have hch : channels true * (lw + rw') = 4 * (lw + rw') := rfl
  rw [hch]
  simp only [List.length_map, List.length_range]
  obtain ⟨d, e, hd, hp⟩ := forLoop_spec (n := max lh rh) (i0 := 0)
    (body := fun y (d : Bytes) => do
      let d ← copyRow lc y (y * (4 * (lw + rw'))) d
      copyRow rc y (y * (4 * (lw + rw')) + lw * 4) d)
    (s := List.replicate (4 * (lw + rw') * max lh rh) 0)
    (fun y (d : Bytes) => d.length = 4 * (lw + rw') * max lh rh ∧ ∀ x y' c, x < lw + rw' → y' < max lh rh → c < 4 →
      d[y' * (4 * (lw + rw')) + (4 * x + c)]? = some (if y' < y then sideBySide lw lh rh F G x y' c else 0)) (Nat.zero_le _)
    ⟨by simp, by
      intro x y' c hx hy hc
      have : y' * (4 * (lw + rw')) + 4 * (lw + rw') ≤ 4 * (lw + rw') * max lh rh := by
        rw [← Nat.succ_mul, Nat.mul_comm (4 * (lw + rw'))]; exact Nat.mul_le_mul_right _ hy
      rw [if_neg (by omega), List.getElem?_replicate, if_pos (by omega)]⟩
    (by
      intro y d _ hy ⟨hd, hp⟩
      obtain ⟨d1, e1, l1, p1⟩ := copyRow_spec sl (o := 0) hd hy (by omega)
      simp only [Nat.zero_mul, Nat.add_zero] at e1
      obtain ⟨d2, e2, l2, p2⟩ := copyRow_spec sr (o := lw) l1 hy (by omega)
      refine ⟨d2, by rw [e1]; exact e2, l2, ?_⟩
      intro x y' c hx hy' hc
      rw [p2 x y' c (by omega) hc, p1 x y' c (by omega) hc, hp x y' c hx hy' hc]
      unfold sideBySide
      by_cases hyy : y' = y
      · subst hyy
        by_cases hxl : x < lw
        · rw [if_neg (by omega)]
          by_cases hyl : y' < lh
          · rw [if_pos (by omega), if_pos (by omega), if_pos hxl, if_pos hyl, Nat.sub_zero]
          · rw [if_neg (by omega), if_neg (by omega), if_pos (by omega), if_pos hxl, if_neg hyl]
        · by_cases hyr : y' < rh
          · rw [if_pos (by omega), if_pos (by omega), if_neg hxl, if_pos hyr]
          · rw [if_neg (by omega), if_neg (by omega), if_neg (by omega), if_pos (by omega), if_neg hxl, if_neg hyr]
      · rw [if_neg (by omega), if_neg (by omega)]
        have : (y' < y + 1) = (y' < y) := by rw [eq_iff_iff]; omega
        simp only [this])
  rw [e]
  refine ⟨_, rfl, ⟨?_, ?_⟩, rfl, rfl, rfl, ?_⟩
  · simp
  · exact hd
  · intro x y c hx hy hc
    have := hp x y c hx hy hc
    rwa [if_pos hy] at this

theorem toRgba_gray {debug : Bool} {junk : Nat → Byte} {l : SImg Byte} {w h : Nat} {f : Nat → Nat → Byte} (hs : l.ShowsGray w h f)
    (hw : 0 < w) (hh : 0 < h) (h1 : 4 * w ≤ 2147483647) (h2 : 4 * w * h ≤ 2147483647) :
    ∃ out, toRgbaImage debug junk l = .ok out ∧ out.ShowsRgba w h (fun x y => four (f x y) (f x y) (f x y) 255) := by
  obtain ⟨out, e, hs'⟩ := c94_to_rgba hs hw hh h1 h2 junk 255 (fun r _ _ => r)
  refine ⟨out, ?_, hs'⟩
  unfold toRgbaImage
  cases debug
  · unfold convertType at e
    rw [hs.rgba_eq] at e
    simpa using e
  · exact e

/-- **C117**: the images of a match image lie next to each other. -/
theorem c117_canvas (debug : Bool) (junk : Nat → Byte) {l r : SImg Byte} {lw lh rw' rh : Nat} {f g : Nat → Nat → Byte}
    (sl : l.ShowsGray lw lh f) (sr : r.ShowsGray rw' rh g) (hl : 0 < lw ∧ 0 < lh) (hr : 0 < rw' ∧ 0 < rh)
    (h2 : 4 * (lw + rw') * max lh rh ≤ 2147483647) :
    ∃ out, matchCanvas debug junk l r = .ok out ∧ out.ShowsRgba (lw + rw') (max lh rh)
      (sideBySide lw lh rh (fun x y => four (f x y) (f x y) (f x y) 255) (fun x y => four (g x y) (g x y) (g x y) 255)) := by
  have hm : 4 * (lw + rw') ≤ 2147483647 :=
    Nat.le_trans (Nat.le_mul_of_pos_right _ (by omega)) h2
  have hl' : 4 * lw * lh ≤ 2147483647 :=
    Nat.le_trans (Nat.mul_le_mul (by omega) (Nat.le_max_left _ _)) h2
  have hr' : 4 * rw' * rh ≤ 2147483647 :=
    Nat.le_trans (Nat.mul_le_mul (by omega) (Nat.le_max_right _ _)) h2
  obtain ⟨lc, e1, s1⟩ := toRgba_gray (debug := debug) (junk := junk) sl hl.1 hl.2 (by omega) hl'
  obtain ⟨rc, e2, s2⟩ := toRgba_gray (debug := debug) (junk := junk) sr hr.1 hr.2 (by omega) hr'
  exact canvas_spec e1 e2 s1 s2 sl.width_eq sr.width_eq sl.height_eq sr.height_eq hm h2

theorem two_pixels : (⟨false, 2, 1, 3, [7, 8, 9]⟩ : SImg Byte).ShowsGray 2 1 (fun x _ => if x = 0 then 7 else 8) := by
  refine ⟨⟨by decide, rfl⟩, rfl, rfl, rfl, ?_⟩
  intro x y hx hy
  obtain rfl : y = 0 := by omega
  have : x = 0 ∨ x = 1 := by omega
  rcases this with rfl | rfl <;> rfl

theorem gray_pixel : (⟨false, 1, 1, 1, [5]⟩ : SImg Byte).ShowsGray 1 1 (fun _ _ => 5) := by
  refine ⟨⟨by decide, rfl⟩, rfl, rfl, rfl, ?_⟩
  intro x y hx hy
  obtain rfl : x = 0 := by omega
  obtain rfl : y = 0 := by omega
  rfl

example : ∃ out, matchCanvas true (fun _ => 0) ⟨false, 2, 1, 3, [7, 8, 9]⟩ ⟨false, 1, 1, 1, [5]⟩ = .ok out ∧
    out.ShowsRgba 3 1 (sideBySide 2 1 1 (fun x _ => four (if x = 0 then 7 else 8) (if x = 0 then 7 else 8) (if x = 0 then 7 else 8) 255)
      (fun _ _ => four 5 5 5 255)) := by
  have := c117_canvas true (fun _ => 0) two_pixels gray_pixel (by omega) (by omega) (by decide)
  simpa using this

theorem matchCanvas_rgba {debug : Bool} {junk : Nat → Byte} {l r out : SImg Byte} (h : matchCanvas debug junk l r = .ok out) :
    out.rgba = true := by
  unfold matchCanvas at h
  obtain ⟨lc, -, h⟩ := Res.bind_eq_ok.1 h
  obtain ⟨rc, -, h⟩ := Res.bind_eq_ok.1 h
  obtain ⟨c, hc, h⟩ := Res.bind_eq_ok.1 h
  obtain ⟨d, -, h⟩ := Res.bind_eq_ok.1 h
  have hcr : c.rgba = true := by
    unfold sResize at hc
    split at hc
    · cases hc; rfl
    · cases hc
  cases h
  exact hcr

/-- **C117** is false when assertions are checked: there is no match image, whatever the images and matches are. -/
theorem c117_match_image_false {K : Type} [Field K] (junk : Nat → Byte) (cs : K → K × K) (pi : K) (l r : SImg Byte)
    (corr : List (PMatch K)) (only : Bool) (out : SImg Byte × Gc K) : createMatchImage true junk cs pi l r corr only ≠ .ok out := by
  intro h
  unfold createMatchImage at h
  obtain ⟨c, hc, h⟩ := Res.bind_eq_ok.1 h
  obtain ⟨c', hc', -⟩ := Res.bind_eq_ok.1 h
  rw [toRgbaImage, if_pos rfl, convertType, matchCanvas_rgba hc] at hc'
  simp at hc'

/-- For grayscale images the program ends there. -/
theorem c117_match_image_fatal {K : Type} [Field K] (junk : Nat → Byte) (cs : K → K × K) (pi : K) {l r : SImg Byte}
    {lw lh rw' rh : Nat} {f g : Nat → Nat → Byte} (sl : l.ShowsGray lw lh f) (sr : r.ShowsGray rw' rh g) (hl : 0 < lw ∧ 0 < lh)
    (hr : 0 < rw' ∧ 0 < rh) (h2 : 4 * (lw + rw') * max lh rh ≤ 2147483647) (corr : List (PMatch K)) (only : Bool) :
    createMatchImage true junk cs pi l r corr only = .fatal := by
  obtain ⟨c, e, s⟩ := c117_canvas true junk sl sr hl hr h2
  unfold createMatchImage
  rw [e]
  simp only [Res.ok_bind]
  rw [toRgbaImage, if_pos rfl, convertType, s.rgba_eq]
  rfl

example : createMatchImage (K := ℚ) true (fun _ => 0) (fun t => (t, t)) 3 ⟨false, 2, 1, 3, [7, 8, 9]⟩ ⟨false, 1, 1, 1, [5]⟩ [] true = .fatal :=
  c117_match_image_fatal _ _ _ two_pixels gray_pixel (by omega) (by omega) (by decide) _ _

/-- **C117**: without assertions the match image shows both images, and what is drawn on it. -/
theorem c117_match_image_partial (junk : Nat → Byte) {l r : SImg Byte} {lw lh rw' rh : Nat} {f g : Nat → Nat → Byte}
    (sl : l.ShowsGray lw lh f) (sr : r.ShowsGray rw' rh g) (hl : 0 < lw ∧ 0 < lh) (hr : 0 < rw' ∧ 0 < rh)
    (h2 : 4 * (lw + rw') * max lh rh ≤ 2147483647) (corr : List (PMatch ℝ)) (only : Bool) :
    ∃ out gc, createMatchImage false junk cosSin π l r corr only = .ok (out, gc) ∧ out.ShowsRgba (lw + rw') (max lh rh)
        (sideBySide lw lh rh (fun x y => four (f x y) (f x y) (f x y) 255) (fun x y => four (g x y) (g x y) (g x y) 255)) ∧
      Drawn (gcNew true) gc ((if only then corr.filter (fun m => m.inlier) else corr).flatMap (matchDrawn lw)) := by
  obtain ⟨c, e, s⟩ := c117_canvas false junk sl sr hl hr h2
  refine ⟨c, _, ?_, s, c117_matches rfl lw only corr⟩
  unfold createMatchImage
  rw [e]
  simp only [Res.ok_bind]
  rw [toRgbaImage, if_neg (by simp), convertTypeMain, if_pos (.inl s.rgba_eq)]
  simp only [Res.ok_bind, sl.width_eq]
  rfl

/-! ## Memory -/

/-- **C117**: an annotator that is created and destroyed leaves the memory as it was. -/
theorem c117_memory {σ : Mem} {l : List Nat} (h : Owns σ l) :
    ∃ σ₁ a σ₂, annNew σ = .ok (σ₁, a) ∧ Owns σ₁ ([a.img, a.pix, a.gc] ++ l) ∧ a.data = a.pix ∧ annFree σ₁ a = .ok σ₂ ∧ Owns σ₂ l := by
  unfold annNew
  simp only
  have h1 := alloc_owns h
  generalize memAlloc σ = A at h1 ⊢
  have h2 := alloc_owns h1
  generalize memAlloc A.1 = B at h2 ⊢
  have h3 := alloc_owns h2
  generalize memAlloc B.1 = C at h3 ⊢
  obtain ⟨s4, e4, h4⟩ := free_owns (p := B.2) (l := C.2 :: A.2 :: l) (h3.swap (by
    intro q; simp only [List.count_cons]; omega))
  rw [e4]
  simp only [Res.ok_bind]
  have h5 := alloc_owns h4
  generalize memAlloc s4 = D at h5 ⊢
  rw [use_ok (p := C.2) h5 (by simp)]
  simp only [Res.ok_bind]
  obtain ⟨s6, e6, h6⟩ := free_owns (p := C.2) (l := D.2 :: A.2 :: l) (h5.swap (by
    intro q; simp only [List.count_cons]; omega))
  rw [e6]
  simp only [Res.ok_bind]
  have h7 := alloc_owns h6
  generalize memAlloc s6 = E at h7 ⊢
  obtain ⟨s8, e8, h8⟩ := free_owns h7
  obtain ⟨s9, e9, h9⟩ := free_owns h8
  obtain ⟨s10, e10, h10⟩ := free_owns h9
  refine ⟨E.1, ⟨A.2, D.2, E.2, D.2⟩, s10, rfl, h7.swap (by
    intro q; simp only [List.count_cons, List.count_append, List.count_nil]; omega), rfl, ?_, h10⟩
  unfold annFree annFreeGc
  simp only
  rw [use_ok (p := D.2) h7 (by simp)]
  simp only [Res.ok_bind]
  rw [e8]
  simp only [Res.ok_bind]
  rw [e9]
  simp only [Res.ok_bind]
  rw [e10]

theorem owns_two : Owns ⟨[0, 1], 2⟩ [0, 1] := by
  refine ⟨fun _ => rfl, fun q => List.nodup_iff_count_le_one.1 (by decide) q, ?_⟩
  intro q hq
  simp only [List.mem_cons, List.not_mem_nil, or_false] at hq
  show q < 2
  omega

example : ∃ σ₁ a σ₂, annNew ⟨[0, 1], 2⟩ = .ok (σ₁, a) ∧ annFree σ₁ a = .ok σ₂ ∧ Owns σ₂ [0, 1] := by
  obtain ⟨σ₁, a, σ₂, e1, -, -, e2, o⟩ := c117_memory owns_two
  exact ⟨σ₁, a, σ₂, e1, e2, o⟩

/-- **C117** is false for `set_image`: the pixels of the old canvas are gone when the surface that uses them is destroyed. -/
theorem c117_set_image_false {σ : Mem} {l : List Nat} (a : AnnMem) (hd : a.data = a.pix) (h : Owns σ ([a.img, a.pix, a.gc] ++ l)) :
    annSetImage σ a false = .ub := by
  unfold annSetImage
  simp only [Bool.false_eq_true, if_false]
  have h1 := alloc_owns h
  generalize memAlloc σ = A at h1 ⊢
  have h2 := alloc_owns h1
  generalize memAlloc A.1 = B at h2 ⊢
  obtain ⟨s3, e3, h3⟩ := free_owns (p := a.pix) (l := B.2 :: A.2 :: a.img :: a.gc :: l) (h2.swap (by
    intro q; simp only [List.count_append, List.count_cons, List.count_nil]; omega))
  have hone := h2.once a.pix
  have hsame := h2.same a.pix
  simp only [List.count_append, List.count_cons, List.count_nil, beq_self_eq_true, if_true] at hsame
  have hp : a.pix < B.1.next := h2.fresh _ (h2.mem (by simp))
  rw [e3]
  simp only [Res.ok_bind]
  obtain ⟨s4, e4, h4⟩ := free_owns (p := a.img) (l := B.2 :: A.2 :: a.gc :: l) (h3.swap (by
    intro q; simp only [List.count_cons]; omega))
  rw [e4]
  simp only [Res.ok_bind]
  have hn3 : s3.next = B.1.next := by
    rw [memFree] at e3
    split at e3
    · cases e3; rfl
    · cases e3
  have hn4 : s4.next = s3.next := by
    rw [memFree] at e4
    split at e4
    · cases e4; rfl
    · cases e4
  have h5 := alloc_owns h4
  have hc2 : (memAlloc s4).2 = s4.next := rfl
  have hn5 : (memAlloc s4).1.next = s4.next + 1 := rfl
  generalize memAlloc s4 = C at h5 hc2 hn5 ⊢
  obtain ⟨s6, e6, h6⟩ := free_owns (p := B.2) (l := C.2 :: A.2 :: a.gc :: l) (h5.swap (by
    intro q; simp only [List.count_cons]; omega))
  rw [e6]
  simp only [Res.ok_bind]
  have hn6 : s6.next = C.1.next := by
    rw [memFree] at e6
    split at e6
    · cases e6; rfl
    · cases e6
  have h7 := alloc_owns h6
  have hd2 : (memAlloc s6).2 = s6.next := rfl
  have hn7 : (memAlloc s6).1.next = s6.next + 1 := rfl
  generalize memAlloc s6 = D at h7 hd2 hn7 ⊢
  rw [use_ok (p := C.2) h7 (by simp)]
  simp only [Res.ok_bind]
  obtain ⟨s8, e8, h8⟩ := free_owns (p := C.2) (l := D.2 :: A.2 :: a.gc :: l) (h7.swap (by
    intro q; simp only [List.count_cons]; omega))
  rw [e8]
  simp only [Res.ok_bind]
  have hn8 : s8.next = D.1.next := by
    rw [memFree] at e8
    split at e8
    · cases e8; rfl
    · cases e8
  have h9 := alloc_owns h8
  have he2 : (memAlloc s8).2 = s8.next := rfl
  generalize memAlloc s8 = E at h9 he2 ⊢
  unfold annFreeGc memUse
  rw [if_neg]
  · rfl
  · rw [hd, ← List.count_pos_iff, h9.same]
    have hE : (E.2 == a.pix) = false := by rw [beq_eq_false_iff_ne]; omega
    have hD : (D.2 == a.pix) = false := by rw [beq_eq_false_iff_ne]; omega
    simp only [List.count_cons, hE, hD, Bool.false_eq_true, if_false]
    omega

/-- The annotator of the example above. -/
example : ∃ σ₁ a, annNew ⟨[0, 1], 2⟩ = .ok (σ₁, a) ∧ annSetImage σ₁ a false = .ub := by
  obtain ⟨σ₁, a, σ₂, e1, o, hd, -, -⟩ := c117_memory owns_two
  exact ⟨σ₁, a, e1, c117_set_image_false a hd o⟩

end Nx
