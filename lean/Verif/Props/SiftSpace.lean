import Verif.Model.SiftSpace
import Verif.Spec.SiftSpace
import Verif.Lemmas.HarrisTensor
import Verif.Props.ImageArith
import Verif.Props.Sample
import Mathlib.Algebra.Order.Ring.Rat
import Mathlib.Analysis.Real.Sqrt
import Mathlib.Algebra.BigOperators.Ring.Finset
import Mathlib.Tactic.Ring
import Mathlib.Tactic.Linarith

/-! # C106: the scale space of the SIFT detector -/

namespace Nx

/-- A kernel that the filter accepts. -/
structure KernOk (k : Int × (Nat → Rat)) : Prop where
  size : 0 ≤ k.1
  centre : 0 < k.2 0
  nonneg : ∀ j, 0 ≤ k.2 j

/-- The radius of the window of a kernel. -/
def kernRadius {K : Type} (kern : K → Int × (Nat → Rat)) (g : K) : Nat := (kernelSize (kern g).1).toNat / 2

theorem Plain.size {img : GImage Rat} {w h : Nat} {f : Nat → Nat → Rat} (p : Plain img w h f) : img.data.length = w * h := by
  rw [p.wf.length_eq, p.stride, p.shows.height_eq]

theorem smoothIn_spec {K : Type} {kern : K → Int × (Nat → Rat)} {junk junkB : Nat → Rat} {img : GImage Rat} {w h : Nat} {f : Nat → Nat → Rat}
    (p : Plain img w h f) (hsz : w * h ≤ 2147483647) (hw : 2 ≤ w) (hh : 2 ≤ h) {g : K} (hk : KernOk (kern g)) :
    ∃ d wt, smoothIn kern junk junkB img g = .ok d ∧ GaussWeights (kernRadius kern g) (kern g).2 wt ∧
      Plain d w h (blurred w h (kernRadius kern g) wt f) := by
  obtain ⟨b', d, wx, wy, e, q1, g1, g2, q2⟩ := c77_smooth (junk := junk) (junkB := junkB) (dest := none) (by intro d e; cases e) p.wf hsz p.shows
    hw hh hk.size hk.size hk.centre hk.nonneg hk.centre hk.nonneg (buffer := none) (by intro b e; cases e)
  have e0 := e
  obtain rfl := g1.unique hk.centre g2
  have hst : d.stride = w := by
    unfold smooth at e
    simp only [filterDest, Res.pure_eq, Res.ok_bind, Res.bind_eq_ok] at e
    obtain ⟨_, _, _, _, _, _, _, _, e⟩ := e
    cases e
    exact p.stride
  refine ⟨d, wx, ?_, ⟨g1.normal, g1.nonneg, g1.proportional⟩, q1, hst, q2⟩
  unfold smoothIn
  rw [e0]
  rfl

/-- Images of an array of which each has its memory. -/
def AllWf (l : List (GImage Rat)) : Prop := ∀ img ∈ l, img.Wf

theorem AllWf.set {l : List (GImage Rat)} (h : AllWf l) (i : Nat) {img : GImage Rat} (hi : img.Wf) : AllWf (l.set i img) := by
  intro x hx
  rcases List.mem_or_eq_of_mem_set hx with h1 | h1
  · exact h x h1
  · rw [h1]; exact hi

section
variable {K : Type} [Field K] {sqrt : K → K} {kern : K → Int × (Nat → Rat)} {junk junkB : Nat → Rat}

/-- The width of the filter from level `i` to the next. -/
def siftStep (sqrt : K → K) (mult sigma : K) (i : Nat) : K :=
  sqrt ((mult ^ (i + 1) * sigma) * (mult ^ (i + 1) * sigma) - (mult ^ i * sigma) * (mult ^ i * sigma))

/-- Levels up to `top` that show the pictures. -/
def LevelsShow (ls : List (GImage Rat)) (w h top : Nat) (L : Nat → Nat → Nat → Rat) : Prop :=
  ∀ i < top, ∃ img, ls[i]? = some img ∧ Plain img w h (L i)

theorem levels_spec {n w h : Nat} {f : Nat → Nat → Rat} {mult sigma : K} {levels : List (GImage Rat)} (hlen : levels.length = n + 3)
    (hwf : AllWf levels) {l0 : GImage Rat} (h0 : levels[0]? = some l0) (p : Plain l0 w h f) (hsz : w * h ≤ 2147483647) (hw : 2 ≤ w) (hh : 2 ≤ h)
    (hk : ∀ i < n + 2, KernOk (kern (siftStep sqrt mult sigma i))) :
    ∃ ls L, forLoop (n + 3) (levelBody sqrt kern junk junkB mult) 1 (levels, sigma) = .ok (ls, mult ^ (n + 2) * sigma) ∧ L 0 = f ∧
      ScaleSpace (kernRadius kern) (fun g => (kern g).2) (siftStep sqrt mult sigma) w h (n + 2) L ∧ LevelsShow ls w h (n + 3) L ∧
      ls.length = n + 3 ∧ AllWf ls := by
  obtain ⟨s, e, e2, hl, hw', L, hL0, hS, hV⟩ := forLoop_spec (n := n + 3) (body := levelBody sqrt kern junk junkB mult) (i0 := 1) (s := (levels, sigma))
    (fun i s => s.2 = mult ^ (i - 1) * sigma ∧ s.1.length = n + 3 ∧ AllWf s.1 ∧ ∃ L : Nat → Nat → Nat → Rat, L 0 = f ∧
      ScaleSpace (kernRadius kern) (fun g => (kern g).2) (siftStep sqrt mult sigma) w h (i - 1) L ∧ LevelsShow s.1 w h i L)
    (by omega)
    ⟨by simp, hlen, hwf, fun _ => f, rfl, by intro i hi; omega, by
      intro i hi
      obtain rfl : i = 0 := by omega
      exact ⟨l0, h0, p⟩⟩
    (by
      rintro i ⟨ls, sg⟩ h1 hi ⟨hsg, hl, hwf, L, hL0, hS, hV⟩
      simp only at hsg hl hwf hV
      obtain ⟨src, esrc, psrc⟩ := hV (i - 1) (by omega)
      have hstep : kernelSigma sqrt sg (mult * sg) = siftStep sqrt mult sigma (i - 1) := by
        unfold kernelSigma siftStep
        rw [hsg, pow_succ]
        congr 1
        ring
      obtain ⟨d, wt, ed, gw, pd⟩ := smoothIn_spec (kern := kern) (junk := junk) (junkB := junkB) psrc hsz hw hh (hk (i - 1) (by omega))
      refine ⟨((ls.set i src).set i d, sg * mult), ?_, ?_, ?_, ?_, ?_⟩
      · unfold levelBody
        simp only
        rw [readAt_some esrc, Res.ok_bind, writeAt_ok src (show i < ls.length by omega), Res.ok_bind, readAt_some (x := src) (by
          rw [List.getElem?_set_self (by omega)]), Res.ok_bind, hstep, ed, Res.ok_bind, writeAt_ok d (by simp; omega), Res.ok_bind]
        rfl
      · show sg * mult = mult ^ (i + 1 - 1) * sigma
        obtain ⟨k, rfl⟩ : ∃ k, i = k + 1 := ⟨i - 1, by omega⟩
        rw [hsg]
        simp only [Nat.add_sub_cancel]
        rw [pow_succ]
        ring
      · simp [hl]
      · exact (hwf.set i psrc.wf).set i pd.wf
      · refine ⟨fun j => if j = i then blurred w h (kernRadius kern (siftStep sqrt mult sigma (i - 1))) wt (L (i - 1)) else L j, ?_, ?_, ?_⟩
        · simp only
          rw [if_neg (by omega), hL0]
        · intro j hj
          by_cases hji : j + 1 = i
          · obtain rfl : j = i - 1 := by omega
            refine ⟨wt, gw, ?_⟩
            intro x y _ _
            simp only
            rw [if_pos hji, if_neg (by omega)]
          · obtain ⟨wt', gw', hb⟩ := hS j (by omega)
            refine ⟨wt', gw', ?_⟩
            intro x y hx hy
            simp only
            rw [if_neg hji, if_neg (by omega), hb x y hx hy]
        · intro j hj
          by_cases hji : j = i
          · subst hji
            refine ⟨d, by rw [List.getElem?_set_self (by simp; omega)], ?_⟩
            simp only [if_true]
            exact pd
          · obtain ⟨img, ei, pi⟩ := hV j (by omega)
            refine ⟨img, by rw [List.getElem?_set_ne (by omega), List.getElem?_set_ne (by omega)]; exact ei, ?_⟩
            simp only [if_neg hji]
            exact pi)
  obtain ⟨ls, sg⟩ := s
  simp only at e2 hl hw' hV
  refine ⟨ls, L, ?_, hL0, hS, hV, hl, hw'⟩
  rw [e, e2]
  rfl

theorem dogs_spec {n w h : Nat} {L : Nat → Nat → Nat → Rat} {ls dogs : List (GImage Rat)} (hd : dogs.length = n + 2) (hwf : AllWf dogs)
    (hV : LevelsShow ls w h (n + 3) L) (hsz : w * h ≤ 2147483647) :
    ∃ ds, forLoop (n + 2) (dogBody junk ls) 0 dogs = .ok ds ∧ ds.length = n + 2 ∧ AllWf ds ∧
      ∀ i < n + 2, ∃ img, ds[i]? = some img ∧ img.Wf ∧ img.Shows w h (fun x y => L i x y - L (i + 1) x y) := by
  obtain ⟨ds, e, hl, hw, hS⟩ := forLoop_spec (n := n + 2) (body := dogBody junk ls) (i0 := 0) (s := dogs)
    (fun i ds => ds.length = n + 2 ∧ AllWf ds ∧
      ∀ j < i, ∃ img, ds[j]? = some img ∧ img.Wf ∧ img.Shows w h (fun x y => L j x y - L (j + 1) x y))
    (Nat.zero_le _) ⟨hd, hwf, by intro j hj; omega⟩
    (by
      rintro i ds _ hi ⟨hl, hw, hS⟩
      obtain ⟨a, ea, pa⟩ := hV i (by omega)
      obtain ⟨b, eb, pb⟩ := hV (i + 1) (by omega)
      have hdest : ds[i]? = some (ds[i]'(by omega)) := List.getElem?_eq_getElem _
      obtain ⟨d, ed, wd, sd⟩ := c76_subtract (conv := id) (junk := junk) (dest := ds[i]'(by omega)) (hw _ (List.getElem_mem _)) pa.wf
        (by rw [pa.size]; exact hsz) pa.shows pb.shows
      rw [Nat.min_self, Nat.min_self] at sd
      refine ⟨ds.set i d, ?_, by simp [hl], hw.set i wd, ?_⟩
      · unfold dogBody
        rw [readAt_some hdest, Res.ok_bind, readAt_some ea, Res.ok_bind, readAt_some eb, Res.ok_bind, ed, Res.ok_bind, writeAt_ok d (by omega)]
      · intro j hj
        by_cases hji : j = i
        · subst hji
          exact ⟨d, by rw [List.getElem?_set_self (by omega)], wd, sd⟩
        · obtain ⟨img, ei, wi, si⟩ := hS j (by omega)
          exact ⟨img, by rw [List.getElem?_set_ne (by omega)]; exact ei, wi, si⟩)
  exact ⟨ds, e, hl, hw, hS⟩

/-- The arrays of a detector for `n` scales per octave. -/
structure DetOk (n : Nat) (det : SiftDet) : Prop where
  gx : det.gx.Wf
  gy : det.gy.Wf
  levels_len : det.levels.length = n + 3
  levels_wf : AllWf det.levels
  dogs_len : det.dogs.length = n + 2
  dogs_wf : AllWf det.dogs

/-- C106. A new detector has its arrays. -/
theorem c106_new (n : Nat) : DetOk n (siftNew n) := by
  have he : emptyImage.Wf := ⟨Nat.le_refl _, rfl⟩
  refine ⟨he, he, by simp [siftNew], ?_, by simp [siftNew], ?_⟩
  · intro x hx
    rw [(List.mem_replicate.mp hx).2]
    exact he
  · intro x hx
    rw [(List.mem_replicate.mp hx).2]
    exact he

/-- C106. Preparing an octave gives the scale space of the first level: level `i + 1` is level `i` smoothed with a Gaussian whose width adds
that of level `i` up to that of level `i + 1`, and image `i` of the differences is level `i` minus level `i + 1`. -/
theorem c106_prepare {n w h : Nat} (hn : 1 ≤ n) {f : Nat → Nat → Rat} {mult sigma : K} {det : SiftDet} (hd : DetOk n det) {l0 : GImage Rat}
    (h0 : det.levels[0]? = some l0) (p : Plain l0 w h f) (hsz : w * h ≤ 2147483647) (hw : 2 ≤ w) (hh : 2 ≤ h)
    (hk : ∀ i < n + 2, KernOk (kern (siftStep sqrt mult sigma i))) :
    ∃ det' L, prepareOctave sqrt kern junk junkB n mult det sigma = .ok det' ∧ DetOk n det' ∧ L 0 = f ∧
      ScaleSpace (kernRadius kern) (fun g => (kern g).2) (siftStep sqrt mult sigma) w h (n + 2) L ∧ LevelsShow det'.levels w h (n + 3) L ∧
      ∀ i < n + 2, ∃ img, det'.dogs[i]? = some img ∧ img.Wf ∧ img.Shows w h (fun x y => L i x y - L (i + 1) x y) := by
  obtain ⟨ls, L, e, hL0, hS, hV, hl, hwf⟩ := levels_spec (junk := junk) (junkB := junkB) hd.levels_len hd.levels_wf h0 p hsz hw hh hk
  obtain ⟨ds, ed, dl, dwf, dS⟩ := dogs_spec (junk := junk) hd.dogs_len hd.dogs_wf hV hsz
  refine ⟨{ det with levels := ls, dogs := ds }, L, ?_, ⟨hd.gx, hd.gy, hl, hwf, dl, dwf⟩, hL0, hS, hV, dS⟩
  unfold prepareOctave
  rw [if_neg (by omega), e, Res.ok_bind]
  simp only
  rw [ed]
  rfl

variable {S : Type} {dog : Int → K → Nat → GImage Rat → GImage Rat → Dogs Rat → S → Res S}

omit [Field K] in
theorem process_spec {n w h : Nat} {L : Nat → Nat → Nat → Rat} {det : SiftDet} (hd : DetOk n det) (hV : LevelsShow det.levels w h (n + 3) L)
    (hD : ∀ i < n + 2, ∃ img, det.dogs[i]? = some img ∧ img.Wf ∧ img.Shows w h (fun x y => L i x y - L (i + 1) x y))
    (hsz : w * h ≤ 2147483647) (hw : 2 ≤ w) (hh : 2 ≤ h) {o : Int} {sigma : K} (P : S → Prop)
    (hdog : ∀ i gx gy d s, 1 ≤ i → i ≤ n → ScaleImages w h i L gx gy d → P s → ∃ s', dog o sigma i gx gy d s = .ok s' ∧ P s') {st : S} (hP : P st) :
    ∃ (det' : SiftDet) (run : Nat → S), processOctave junk dog n det st o sigma = .ok (det', run n) ∧ run 0 = st ∧ DetOk n det' ∧ det'.levels = det.levels ∧ P (run n) ∧
      ∀ i, 1 ≤ i → i ≤ n → ∃ gx gy d, ScaleImages w h i L gx gy d ∧ dog o sigma i gx gy d (run (i - 1)) = .ok (run i) := by
  obtain ⟨r, e, hr, el, ed, hP', run, h0, hrun, hall⟩ := forLoop_spec (n := n + 1) (body := scaleBody junk dog o sigma) (i0 := 1) (s := (det, st))
    (fun i s => DetOk n s.1 ∧ s.1.levels = det.levels ∧ s.1.dogs = det.dogs ∧ P s.2 ∧ ∃ run : Nat → S, run 0 = st ∧ run (i - 1) = s.2 ∧
      ∀ j, 1 ≤ j → j < i → ∃ gx gy d, ScaleImages w h j L gx gy d ∧ dog o sigma j gx gy d (run (j - 1)) = .ok (run j))
    (by omega) ⟨hd, rfl, rfl, hP, fun _ => st, rfl, rfl, by intro j h1 h2; omega⟩
    (by
      rintro i ⟨dt, s⟩ h1 hi ⟨hdt, hlev, hdogs, hPs, run, hr0, hri, hall⟩
      simp only at hdt hlev hdogs hPs hri
      obtain ⟨l, el, pl⟩ := hV (i - 1) (by omega)
      obtain ⟨gx, egx, wgx, sgx⟩ := c75_deriv_x (conv := id) (S := 1) (junk := junk) hdt.gx pl.wf (by rw [pl.size]; exact hsz) pl.shows hw
      obtain ⟨gy, egy, wgy, sgy⟩ := c75_deriv_y (conv := id) (S := 1) (junk := junk) hdt.gy pl.wf (by rw [pl.size]; exact hsz) pl.shows hh pl.stride
      obtain ⟨c, ec, wc, sc⟩ := hD i (by omega)
      obtain ⟨m, em, wm, sm⟩ := hD (i - 1) (by omega)
      obtain ⟨q, eq, wq, sq⟩ := hD (i + 1) (by omega)
      have hi1 : i - 1 + 1 = i := by omega
      rw [hi1] at sm
      have hsi : ScaleImages w h i L gx gy ⟨m, c, q⟩ := by
        refine ⟨wgx, wgy, ?_, ?_, wm, wc, wq, sm, sc, sq⟩
        · simpa using sgx
        · simpa using sgy
      obtain ⟨s', es, hPs'⟩ := hdog i gx gy ⟨m, c, q⟩ s h1 (by omega) hsi hPs
      refine ⟨({ dt with gx := gx, gy := gy }, s'), ?_, ⟨wgx, wgy, hdt.levels_len, hdt.levels_wf, hdt.dogs_len, hdt.dogs_wf⟩, hlev, hdogs, hPs',
        fun j => if j = i then s' else run j, ?_, ?_, ?_⟩
      · unfold scaleBody
        simp only
        rw [hlev, hdogs, readAt_some el, Res.ok_bind, egx, Res.ok_bind, egy, Res.ok_bind, readAt_some ec, Res.ok_bind, readAt_some em, Res.ok_bind,
          readAt_some eq, Res.ok_bind, es, Res.ok_bind]
        rfl
      · simp only
        rw [if_neg (by omega), hr0]
      · simp
      · intro j hj1 hj2
        by_cases hji : j = i
        · subst hji
          refine ⟨gx, gy, ⟨m, c, q⟩, hsi, ?_⟩
          simp only [if_true]
          rw [if_neg (by omega), hri]
          exact es
        · obtain ⟨a, b, d, h3, h4⟩ := hall j hj1 (by omega)
          refine ⟨a, b, d, h3, ?_⟩
          simp only
          rw [if_neg hji, if_neg (by omega)]
          exact h4)
  obtain ⟨dt, s⟩ := r
  simp only [Nat.add_sub_cancel] at hr el ed hP' hrun
  subst hrun
  exact ⟨dt, run, e, h0, hr, el, hP', fun i h1 h2 => hall i h1 (by omega)⟩

theorem halfStride {dest src d : GImage Rat} {w h : Nat} (hd : dest.Wf) (h1 : src.width = w) (h2 : src.height = h)
    (hsz : w * h ≤ 2147483647) (e : gDownsample junk dest src = .ok d) : d.stride = w / 2 := by
  have hp : src.width / 2 * (src.height / 2) ≤ 2147483647 := by
    rw [h1, h2]
    have := Nat.mul_le_mul (Nat.div_le_self w 2) (Nat.div_le_self h 2)
    omega
  obtain ⟨r, er, _, _, hs, _⟩ := gResize_ok (junk := junk) (st := src.width / 2) hd hp (Nat.le_refl _)
  unfold gDownsample at e
  rw [er, Res.ok_bind] at e
  simp only [Res.bind_eq_ok] at e
  obtain ⟨_, _, e⟩ := e
  cases e
  rw [← h1]
  exact hs

/-- C106. The loop over the octaves never leaves its arrays, ends after as many octaves as the picture has halves above the limit, and searches exactly the
scales of the scale spaces, each octave starting from every second pixel of level `n` of the one before. `P` is what the search needs of its state. -/
theorem c106_octaves {n limit : Nat} (hn : 1 ≤ n) (hlim : 1 ≤ limit) {mult sigma : K} (hk : ∀ i < n + 2, KernOk (kern (siftStep sqrt mult sigma i)))
    (P : S → Prop) {fuel : Nat} {o : Int} {w h : Nat} {f : Nat → Nat → Rat} {det : SiftDet} {l0 : GImage Rat} {st : S}
    (hdog : ∀ o' w' h' L i gx gy d s, 1 ≤ i → i ≤ n → limit < w' → limit < h' → w' ≤ w → h' ≤ h → ScaleImages w' h' i L gx gy d → P s →
      ∃ s', dog o' sigma i gx gy d s = .ok s' ∧ P s')
    (hd : DetOk n det) (h0 : det.levels[0]? = some l0) (p : Plain l0 w h f) (hsz : w * h ≤ 2147483647) (hP : P st) (hf : w < fuel) :
    ∃ det' st', octaveLoop sqrt kern junk junkB dog n mult limit sigma fuel o (det, st) = .ok (det', st') ∧ DetOk n det' ∧ P st' ∧
      Octaves (kernRadius kern) (fun g => (kern g).2) (siftStep sqrt mult sigma) sigma n limit dog o w h f st st' := by
  induction fuel generalizing o w h f det l0 st with
  | zero => omega
  | succ fuel ih =>
    unfold octaveLoop
    simp only
    rw [readAt_some h0, Res.ok_bind, p.shows.width_eq, p.shows.height_eq]
    by_cases hc : limit < w ∧ limit < h
    · rw [if_pos hc]
      obtain ⟨det1, L, e1, hd1, hL0, hS, hV, hD⟩ := c106_prepare (junk := junk) (junkB := junkB) hn hd h0 p hsz (by omega) (by omega) hk
      rw [e1, Res.ok_bind]
      obtain ⟨det2, run, e2, hr0, hd2, hl2, hP2, hrun⟩ := process_spec (junk := junk) (dog := dog) (o := o) (sigma := sigma) hd1 hV hD hsz (by omega)
        (by omega) P (fun i gx gy d s a b c q => hdog o w h L i gx gy d s a b hc.1 hc.2 (Nat.le_refl _) (Nat.le_refl _) c q) hP
      rw [e2, Res.ok_bind]
      simp only
      obtain ⟨a, ea, pa⟩ := hV 0 (by omega)
      obtain ⟨b, eb, pb⟩ := hV n (by omega)
      rw [hl2, readAt_some ea, Res.ok_bind, readAt_some eb, Res.ok_bind]
      obtain ⟨d, ed, wd, sd⟩ := c48_downsample junk pa.wf pb.wf (by rw [pb.size]; exact hsz) pb.shows
      have hst := halfStride pa.wf pb.shows.width_eq pb.shows.height_eq hsz ed
      rw [ed, Res.ok_bind, writeAt_ok d (by rw [hd1.levels_len]; omega), Res.ok_bind]
      obtain ⟨det3, st3, e3, hd3, hP3, hO⟩ := ih (o := o + 1) (w := w / 2) (h := h / 2) (f := fun x y => L n (2 * x) (2 * y))
        (det := { det2 with levels := det1.levels.set 0 d }) (l0 := d) (st := run n)
        (fun o' w' h' L' i gx gy d' s a1 a2 a3 a4 a5 a6 => hdog o' w' h' L' i gx gy d' s a1 a2 a3 a4 (by omega) (by omega))
        ⟨hd2.gx, hd2.gy, by simp [hd1.levels_len], hd1.levels_wf.set 0 wd, hd2.dogs_len, hd2.dogs_wf⟩
        (by rw [List.getElem?_set_self (by rw [hd1.levels_len]; omega)]) ⟨wd, hst, sd⟩
        (by have := Nat.mul_le_mul (Nat.div_le_self w 2) (Nat.div_le_self h 2); omega) hP2 (by omega)
      exact ⟨det3, st3, e3, hd3, hP3, .next o w h f st L run st3 hc.1 hc.2 hL0 hS hr0 hrun hO⟩
    · rw [if_neg hc]
      exact ⟨det, st, rfl, hd, hP, .stop o w h f st hc⟩

end

section
variable {K : Type} [Field K] [LinearOrder K] [IsStrictOrderedRing K] {sqrt : K → K} {kern : K → Int × (Nat → Rat)} {junk junkB : Nat → Rat}

/-- C106. The widths add up: an image of width `sigma` smoothed up to level `i` has the width `mult ^ i * sigma`, as squares of widths of Gaussians add.
With `mult ^ n = 2` level `n` has twice the width, which is `sigma` again for every second pixel. -/
theorem c106_widths {mult sigma : K} (h1 : 1 ≤ mult) (i : Nat)
    (hs : ∀ j < i, ∀ x, x = (mult ^ (j + 1) * sigma) * (mult ^ (j + 1) * sigma) - (mult ^ j * sigma) * (mult ^ j * sigma) → 0 ≤ x → sqrt x * sqrt x = x) :
    sigma ^ 2 + ∑ j ∈ Finset.range i, siftStep sqrt mult sigma j ^ 2 = (mult ^ i * sigma) ^ 2 ∧ (mult ^ i = 2 → (mult ^ i * sigma) / 2 = sigma) := by
  constructor
  · induction i with
    | zero => simp
    | succ i ih =>
      rw [Finset.sum_range_succ, ← add_assoc, ih (fun j hj => hs j (by omega)), siftStep]
      have h0 : 0 ≤ (mult ^ (i + 1) * sigma) * (mult ^ (i + 1) * sigma) - (mult ^ i * sigma) * (mult ^ i * sigma) := by
        have hp : 0 ≤ mult ^ i := pow_nonneg (by linarith) i
        have e : (mult ^ (i + 1) * sigma) * (mult ^ (i + 1) * sigma) - (mult ^ i * sigma) * (mult ^ i * sigma) =
            (mult ^ i * sigma) * (mult ^ i * sigma) * ((mult - 1) * (mult + 1)) := by rw [pow_succ]; ring
        rw [e]
        exact mul_nonneg (mul_self_nonneg _) (mul_nonneg (by linarith) (by linarith))
      rw [pow_two (sqrt _), hs i (by omega) _ rfl h0]
      ring
  · intro h
    rw [h]
    ring

theorem doubleStride {dest src d : GImage Rat} {w h : Nat} (hd : dest.Wf) (h1 : src.width = w) (h2 : src.height = h)
    (hsz : 2 * w * (2 * h) ≤ 2147483647) (e : gUpsample junk avg2Q avg4Q dest src = .ok d) : d.stride = 2 * w := by
  obtain ⟨r, er, _, _, hs, _⟩ := gResize_ok (junk := junk) (st := 2 * w) hd hsz (Nat.le_refl _)
  unfold gUpsample at e
  rw [h1, h2] at e
  split at e
  · rw [er, Res.ok_bind] at e
    simp only [Res.bind_eq_ok] at e
    obtain ⟨_, _, _, _, e⟩ := e
    cases e
    exact hs
  · cases e

/-- The picture with which the octaves start: the given one, or that of twice the size. -/
def startPicture (double : Bool) (w h : Nat) (f : Nat → Nat → Rat) : Nat → Nat → Rat :=
  if double then fun X Y => interp avg2Q avg4Q f (X / 2) (upper X w) (Y / 2) (upper Y h) else f

omit [LinearOrder K] [IsStrictOrderedRing K] in
theorem startImage_spec [CharZero K] {double : Bool} {img : GImage Rat} {w h : Nat} {f : Nat → Nat → Rat} (p : Plain img w h f) (hw : 0 < w)
    (hh : 0 < h) (hsz : 2 * w * (2 * h) ≤ 2147483647) :
    ∃ d, startImage (K := K) junk double img = .ok (d, if double then 1 else 1 / 2, if double then -1 else 0) ∧
      Plain d (if double then 2 * w else w) (if double then 2 * h else h) (startPicture double w h f) := by
  cases double
  · exact ⟨img, rfl, p⟩
  · obtain ⟨d, e, wd, sd⟩ := c48_upsample junk avg2Q avg4Q (dest := emptyImage) ⟨Nat.le_refl _, rfl⟩ p.shows hw hh hsz
    refine ⟨d, ?_, wd, doubleStride ⟨Nat.le_refl _, rfl⟩ p.shows.width_eq p.shows.height_eq hsz e, sd⟩
    unfold startImage
    rw [if_pos rfl, e, Res.ok_bind]
    simp only [if_true]
    rw [one_div, inv_mul_cancel₀ (by norm_num)]
    rfl

variable {S : Type} {dog : Int → K → Nat → GImage Rat → GImage Rat → Dogs Rat → S → Res S}

/-- C106. The whole computation: the picture, doubled if wanted, is smoothed up to the first width if it is sharper, and its octaves are searched; the first
octave has the number 0, or -1 for a doubled picture. -/
theorem c106_compute {n limit : Nat} (hn : 1 ≤ n) (hlim : 1 ≤ limit) {mult sigma0 : K} {double : Bool} {w h : Nat} {f : Nat → Nat → Rat}
    {img : GImage Rat} (p : Plain img w h f) (hw : 2 ≤ w) (hh : 2 ≤ h) (hsz : 2 * w * (2 * h) ≤ 2147483647) {fuel : Nat} (hf : 2 * w < fuel)
    (hk0 : KernOk (kern (kernelSigma sqrt (if double then 1 else 1 / 2) sigma0)))
    (hk : ∀ i < n + 2, KernOk (kern (siftStep sqrt mult (max sigma0 (if double then 1 else 1 / 2)) i)))
    (P : S → Prop) {det : SiftDet} {st : S} (hd : DetOk n det) (hP : P st)
    (hdog : ∀ o' w' h' L i gx gy d s, 1 ≤ i → i ≤ n → limit < w' → limit < h' → w' ≤ 2 * w → h' ≤ 2 * h → ScaleImages w' h' i L gx gy d → P s →
      ∃ s', dog o' (max sigma0 (if double then 1 else 1 / 2)) i gx gy d s = .ok s' ∧ P s') :
    ∃ det' st' F, siftCompute sqrt kern junk junkB dog n mult limit sigma0 double fuel det img st = .ok (det', st') ∧ DetOk n det' ∧ P st' ∧
      (sigma0 ≤ (if double then 1 else 1 / 2) → F = startPicture double w h f) ∧
      ((if double then 1 else 1 / 2) < sigma0 → ∃ wt, GaussWeights (kernRadius kern (kernelSigma sqrt (if double then 1 else 1 / 2) sigma0))
        (kern (kernelSigma sqrt (if double then 1 else 1 / 2) sigma0)).2 wt ∧
        F = blurred (if double then 2 * w else w) (if double then 2 * h else h)
          (kernRadius kern (kernelSigma sqrt (if double then 1 else 1 / 2) sigma0)) wt (startPicture double w h f)) ∧
      Octaves (kernRadius kern) (fun g => (kern g).2) (siftStep sqrt mult (max sigma0 (if double then 1 else 1 / 2)))
        (max sigma0 (if double then 1 else 1 / 2)) n limit dog (if double then -1 else 0) (if double then 2 * w else w)
        (if double then 2 * h else h) F st st' := by
  obtain ⟨d, ed, pd⟩ := startImage_spec (K := K) (junk := junk) (double := double) p (by omega) (by omega) hsz
  have hW : (if double then 2 * w else w) ≤ 2 * w := by split <;> omega
  have hH : (if double then 2 * h else h) ≤ 2 * h := by split <;> omega
  have hW2 : 2 ≤ (if double then 2 * w else w) := by split <;> omega
  have hH2 : 2 ≤ (if double then 2 * h else h) := by split <;> omega
  generalize (if double then 2 * w else w) = W at *
  generalize (if double then 2 * h else h) = H at *
  generalize (if double then (1 : K) else 1 / 2) = s1 at *
  generalize (if double then (-1 : Int) else 0) = o at *
  have hWH : W * H ≤ 2147483647 := by have := Nat.mul_le_mul hW hH; omega
  unfold siftCompute
  rw [ed, Res.ok_bind]
  simp only
  have h0 : det.levels[0]? = some (det.levels[0]'(by rw [hd.levels_len]; omega)) := List.getElem?_eq_getElem _
  rw [readAt_some h0, Res.ok_bind]
  obtain ⟨r, er, _⟩ := gResize_ok (junk := junk) (w := d.width) (h := d.height) (st := 0) (hd.levels_wf _ (List.mem_of_getElem? h0))
    (by rw [pd.shows.width_eq, pd.shows.height_eq]; exact hWH) (Nat.zero_le _)
  rw [er, Res.ok_bind]
  have hsm : ∃ l F, startSmooth sqrt kern junk junkB sigma0 d s1 = .ok (l, max sigma0 s1) ∧ Plain l W H F ∧
      (sigma0 ≤ s1 → F = startPicture double w h f) ∧
      (s1 < sigma0 → ∃ wt, GaussWeights (kernRadius kern (kernelSigma sqrt s1 sigma0)) (kern (kernelSigma sqrt s1 sigma0)).2 wt ∧
        F = blurred W H (kernRadius kern (kernelSigma sqrt s1 sigma0)) wt (startPicture double w h f)) := by
    unfold startSmooth
    by_cases hc : s1 < sigma0
    · obtain ⟨l, wt, el, gw, pl⟩ := smoothIn_spec (kern := kern) (junk := junk) (junkB := junkB) pd hWH hW2 hH2 hk0
      refine ⟨l, _, ?_, pl, fun h => absurd h (not_le.mpr hc), fun _ => ⟨wt, gw, rfl⟩⟩
      rw [if_pos hc, el, Res.ok_bind, max_eq_left (le_of_lt hc)]
      rfl
    · refine ⟨d, _, ?_, pd, fun _ => rfl, fun h => absurd h hc⟩
      rw [if_neg hc, max_eq_right (not_lt.mp hc)]
      rfl
  obtain ⟨l, F, el, pl, hF1, hF2⟩ := hsm
  rw [el, Res.ok_bind]
  simp only
  rw [writeAt_ok l (by rw [hd.levels_len]; omega), Res.ok_bind]
  obtain ⟨det', st', e, hd', hP', hO⟩ := c106_octaves (junk := junk) (junkB := junkB) (dog := dog) (o := o) (fuel := fuel) hn hlim hk P
    (det := { det with levels := det.levels.set 0 l }) (l0 := l) (st := st)
    (fun o' w' h' L i gx gy d s a1 a2 a3 a4 a5 a6 => hdog o' w' h' L i gx gy d s a1 a2 a3 a4 (Nat.le_trans a5 hW) (Nat.le_trans a6 hH))
    ⟨hd.gx, hd.gy, by simp [hd.levels_len], hd.levels_wf.set 0 pl.wf, hd.dogs_len, hd.dogs_wf⟩
    (by simp only; rw [List.getElem?_set_self (by rw [hd.levels_len]; omega)]) pl hWH hP (by omega)
  exact ⟨det', st', F, e, hd', hP', hF1, hF2, hO⟩

end

/-! ## Examples -/

/-- A kernel of three samples for every width. -/
def demoKern : Rat → Int × (Nat → Rat) := fun _ => (1, fun k => if k = 0 then 2 else 1)

/-- A search that records octave, scale and the first sample of the middle difference. -/
def demoSearch : Int → Rat → Nat → GImage Rat → GImage Rat → Dogs Rat → List (Int × Nat × Option Rat) → Res (List (Int × Nat × Option Rat)) :=
  fun o _ i _ _ d s => .ok (s ++ [(o, i, d.c.data[0]?)])

/-- The hypotheses of `c106_compute` can be met: an image of 5 by 5 pixels with one bright corner has two octaves above the limit 1. -/
example : ∃ det' st' F, siftCompute id demoKern (fun _ => 0) (fun _ => 0) demoSearch 1 2 1 (8 / 5) false 20 (siftNew 1)
      ⟨5, 5, 5, 1 :: List.replicate 24 0⟩ [] = .ok (det', st') ∧ DetOk 1 det' ∧
    Octaves (kernRadius demoKern) (fun g => (demoKern g).2) (siftStep id 2 (max (8 / 5) (1 / 2))) (max (8 / 5) (1 / 2)) 1 1 demoSearch 0 5 5 F [] st' := by
  have hk : ∀ g, KernOk (demoKern g) := fun g => ⟨by show (0 : Int) ≤ 1; decide, by show (0 : Rat) < if 0 = 0 then 2 else 1; decide, fun j => by
    show (0 : Rat) ≤ if j = 0 then 2 else 1
    split <;> decide⟩
  obtain ⟨det', st', F, e, h1, _, _, _, h2⟩ := c106_compute (sqrt := id) (kern := demoKern) (junk := fun _ => 0) (junkB := fun _ => 0) (dog := demoSearch)
    (n := 1) (limit := 1) (Nat.le_refl _) (Nat.le_refl _) (mult := 2) (sigma0 := (8 / 5 : Rat)) (double := false) (w := 5) (h := 5)
    (f := fun x y => if x = 0 ∧ y = 0 then 1 else 0) (img := ⟨5, 5, 5, 1 :: List.replicate 24 0⟩) ⟨⟨Nat.le_refl _, rfl⟩, rfl, rfl, rfl, by
      intro x y hx hy
      have : ∀ (x y : Fin 5), (⟨5, 5, 5, 1 :: List.replicate 24 0⟩ : GImage Rat).pixel x.val y.val = some (if x.val = 0 ∧ y.val = 0 then 1 else 0) := by
        decide +kernel
      exact this ⟨x, hx⟩ ⟨y, hy⟩⟩ (by decide) (by decide) (by decide) (fuel := 20) (by decide) (hk _) (fun i _ => hk _) (fun _ => True)
      (c106_new 1) trivial (st := []) (fun _ _ _ _ _ _ _ _ _ _ _ _ _ _ _ _ _ => ⟨_, rfl, trivial⟩)
  exact ⟨det', st', F, e, h1, h2⟩

/-- The octaves of this image: the difference of level 1 and level 2 at the bright corner. -/
example : (match siftCompute id demoKern (fun _ => 0) (fun _ => 0) demoSearch 1 2 1 (1 / 2) false 20 (siftNew 1)
      ⟨5, 5, 5, 1 :: List.replicate 24 0⟩ [] with
    | .ok r => decide (r.2.map (fun e => (e.1, e.2.1)) = [(0, 1), (1, 1)])
    | _ => false) = true := by decide +kernel

/-- The widths of `c106_widths` for one scale per octave. -/
example : (1 : ℝ) ^ 2 + ∑ j ∈ Finset.range 1, siftStep Real.sqrt 2 1 j ^ 2 = (2 ^ 1 * 1) ^ 2 :=
  (c106_widths (sqrt := Real.sqrt) (mult := (2 : ℝ)) (sigma := 1) (by norm_num) 1 (fun _ _ x _ h => Real.mul_self_sqrt h)).1

end Nx
