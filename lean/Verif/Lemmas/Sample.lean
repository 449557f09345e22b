import Verif.Spec.Sample

/-!
# Lemmas about image sampling
-/

namespace Nx

theorem forLoop_spec {σ : Type} (P : Nat → σ → Prop) {n : Nat} {body : Nat → σ → Res σ} {i0 : Nat} {s : σ}
    (hle : i0 ≤ n) (h0 : P i0 s)
    (hb : ∀ i s, i0 ≤ i → i < n → P i s → ∃ s', body i s = .ok s' ∧ P (i + 1) s') :
    ∃ s', forLoop n body i0 s = .ok s' ∧ P n s' := by
  induction hk : n - i0 generalizing i0 s with
  | zero =>
    have : i0 = n := by omega
    subst this
    refine ⟨s, ?_, h0⟩
    rw [forLoop, if_neg (by omega)]
  | succ k ih =>
    obtain ⟨s', e, hp⟩ := hb i0 s (by omega) (by omega) h0
    obtain ⟨s'', e', hp'⟩ := ih (i0 := i0 + 1) (by omega) hp (fun i s hi hn h => hb i s (by omega) hn h) (by omega)
    refine ⟨s'', ?_, hp'⟩
    rw [forLoop, if_pos (by omega), e]
    exact e'

theorem forLoop_ub {σ : Type} {n : Nat} {body : Nat → σ → Res σ} {i : Nat} {s : σ} (hi : i < n)
    (hb : body i s = .ub) : forLoop n body i s = .ub := by
  rw [forLoop, if_pos hi, hb]
  rfl

theorem pixIdx_lt {x y st H : Nat} (hx : x < st) (hy : y < H) : y * st + x < st * H := by
  have h1 : (y + 1) * st ≤ H * st := Nat.mul_le_mul_right _ hy
  have h2 := Nat.succ_mul y st
  have h3 := Nat.mul_comm st H
  simp only [Nat.succ_eq_add_one] at h2
  omega

theorem pixIdx_inj {x y x' y' st : Nat} (hx : x < st) (hx' : x' < st) (h : y * st + x = y' * st + x') :
    x = x' ∧ y = y' := by
  have hm : (y * st + x) % st = (y' * st + x') % st := by rw [h]
  rw [Nat.add_comm (y * st), Nat.add_comm (y' * st), Nat.add_mul_mod_self_right, Nat.add_mul_mod_self_right,
    Nat.mod_eq_of_lt hx, Nat.mod_eq_of_lt hx'] at hm
  subst hm
  refine ⟨rfl, ?_⟩
  have : y * st = y' * st := by omega
  exact Nat.eq_of_mul_eq_mul_right (by omega) this

/-- The state of a list seen as rows of length `st`. -/
theorem pix_set {α : Type} {d : List α} {st H x y x' y' : Nat} {v : α} (hl : d.length = st * H) (hx : x < st)
    (hy : y < H) (hx' : x' < st) :
    (d.set (y * st + x) v)[y' * st + x']? = if x = x' ∧ y = y' then some v else d[y' * st + x']? := by
  rw [List.getElem?_set]
  by_cases h : y * st + x = y' * st + x'
  · have hi := pixIdx_inj hx hx' h
    rw [if_pos h, if_pos (by rw [hl]; exact pixIdx_lt hx hy), if_pos hi]
  · rw [if_neg h]
    by_cases h' : x = x' ∧ y = y'
    · exact absurd (by rw [h'.1, h'.2]) h
    · rw [if_neg h']

theorem readAt_some {α : Type} {l : List α} {i : Nat} {x : α} (h : l[i]? = some x) : readAt l i = .ok x := by
  have hl : i < l.length := by
    by_cases hl : i < l.length
    · exact hl
    · rw [List.getElem?_eq_none (by omega)] at h
      cases h
  rw [readAt_ok hl]
  rw [List.getElem?_eq_getElem hl] at h
  exact congrArg Res.ok (Option.some.inj h)

theorem readI_nat {α : Type} {l : List α} {i : Int} {k : Nat} (h : i = (k : Int)) : readI l i = readAt l k := by
  subst h
  unfold readI
  rw [if_pos (by omega), Int.toNat_natCast]

theorem writeI_nat {α : Type} {l : List α} {i : Int} {k : Nat} {x : α} (h : i = (k : Int)) :
    writeI l i x = writeAt l k x := by
  subst h
  unfold writeI
  rw [if_pos (by omega), Int.toNat_natCast]

theorem readI_neg {α : Type} {l : List α} {i : Int} (h : i < 0) : readI l i = .ub := by
  unfold readI
  rw [if_neg (by omega)]

theorem GImage.pixel_lt {α : Type} {img : GImage α} (hw : img.Wf) {x y : Nat} (hx : x < img.width) (hy : y < img.height) :
    y * img.stride + x < img.data.length := by
  rw [hw.length_eq]
  have := hw.stride_ge
  exact pixIdx_lt (by omega) hy

/-- Pixels of a well-formed image as a total function. -/
theorem GImage.shows_self {α : Type} {img : GImage α} (hw : img.Wf) (hne : 0 < img.width) (hnh : 0 < img.height) :
    ∃ f, img.Shows img.width img.height f := by
  have h0 := pixel_lt hw hne hnh
  refine ⟨fun x y => if h : y * img.stride + x < img.data.length then img.data[y * img.stride + x] else
    img.data[0 * img.stride + 0], rfl, rfl, ?_⟩
  intro x y hx hy
  have hlt := pixel_lt hw hx hy
  unfold pixel
  rw [List.getElem?_eq_getElem hlt, dif_pos hlt]

theorem GImage.Shows.read {α : Type} {img : GImage α} {w h : Nat} {f : Nat → Nat → α} (hs : img.Shows w h f)
    {x y : Nat} (hx : x < w) (hy : y < h) : readAt img.data (y * img.stride + x) = .ok (f x y) :=
  readAt_some (hs.pixel_eq x y hx hy)

theorem gResize_ok {α : Type} {junk : Nat → α} {img : GImage α} {w h st : Nat} (hw : img.Wf)
    (hsz : w * h ≤ 2147483647) (hst : st ≤ w) :
    ∃ d, gResize junk img w h st = .ok d ∧ d.width = w ∧ d.height = h ∧ d.stride = w ∧ d.data.length = w * h := by
  unfold gResize
  by_cases hc : img.width = w ∧ img.height = h ∧ img.stride = st
  · rw [if_pos hc]
    obtain ⟨e1, e2, e3⟩ := hc
    have := hw.stride_ge
    have e4 : img.stride = w := by omega
    exact ⟨img, rfl, e1, e2, e4, by rw [hw.length_eq, e4, e2]⟩
  · rw [if_neg hc]
    have e : (if st < w then w else st) = w := by
      by_cases h : st < w
      · rw [if_pos h]
      · rw [if_neg h]
        omega
    simp only [e, if_pos hsz]
    exact ⟨_, rfl, rfl, rfl, rfl, by simp⟩

/-! ## Filling an image pixel by pixel -/

/-- The pixels of rows before `y`, and of row `y` before column `x`, are `f`. -/
def Filled {α : Type} (st H w : Nat) (f : Nat → Nat → α) (y x : Nat) (d : List α) : Prop :=
  d.length = st * H ∧ ∀ x' y', x' < w → (y' < y ∨ (y' = y ∧ x' < x)) → d[y' * st + x']? = some (f x' y')

theorem fill_spec {α : Type} {st H w : Nat} {f : Nat → Nat → α} {body : Nat → Nat → List α → Res (List α)}
    (hst : w ≤ st) {d0 : List α} (hd : d0.length = st * H)
    (hb : ∀ y x d, y < H → x < w → d.length = st * H → body y x d = .ok (d.set (y * st + x) (f x y))) :
    ∃ d, forLoop H (fun y d => forLoop w (body y) 0 d) 0 d0 = .ok d ∧ Filled st H w f H 0 d := by
  apply forLoop_spec (fun y d => Filled st H w f y 0 d) (Nat.zero_le _)
  · exact ⟨hd, by intro x' y' _ h; omega⟩
  · intro y d _ hy hP
    obtain ⟨d', e, hP'⟩ := forLoop_spec (n := w) (body := body y) (i0 := 0) (s := d)
      (fun x d => Filled st H w f y x d) (Nat.zero_le _) hP (by
        intro x d _ hx hP
        refine ⟨_, hb y x d hy hx hP.1, by rw [List.length_set]; exact hP.1, ?_⟩
        intro x' y' hx' h
        rw [pix_set hP.1 (by omega) hy (by omega)]
        by_cases hc : x = x' ∧ y = y'
        · rw [if_pos hc, hc.1, hc.2]
        · rw [if_neg hc]
          apply hP.2 x' y' hx'
          omega)
    refine ⟨d', e, hP'.1, ?_⟩
    intro x' y' hx' h
    apply hP'.2 x' y' hx'
    omega

theorem shows_of_filled {α : Type} {img : GImage α} {w h : Nat} {f : Nat → Nat → α} {d : List α} (e1 : img.width = w)
    (e2 : img.height = h) (hF : Filled img.stride h w f h 0 d) :
    ({ img with data := d } : GImage α).Shows w h f := by
  refine ⟨e1, e2, ?_⟩
  intro x y hx hy
  exact hF.2 x y hx (Or.inl hy)

theorem gDownsample_spec {α : Type} {junk : Nat → α} {dest src : GImage α} {w h : Nat} {f : Nat → Nat → α}
    (hd : dest.Wf) (hsz : src.data.length ≤ 2147483647) (hw : src.Wf) (hs : src.Shows w h f) :
    ∃ d, gDownsample junk dest src = .ok d ∧ d.Wf ∧ d.Shows (w / 2) (h / 2) (fun x y => f (2 * x) (2 * y)) := by
  have e1 := hs.width_eq
  have e2 := hs.height_eq
  have hprod : src.width / 2 * (src.height / 2) ≤ 2147483647 := by
    have h1 : src.width / 2 * (src.height / 2) ≤ src.stride * src.height :=
      Nat.mul_le_mul (by have := hw.stride_ge; omega) (by omega)
    rw [← hw.length_eq] at h1
    omega
  obtain ⟨d, ed, dw, dh, ds, dl⟩ := gResize_ok (junk := junk) (st := src.width / 2) hd hprod (Nat.le_refl _)
  have hl : d.data.length = d.stride * d.height := by rw [dl, ds, dh]
  obtain ⟨r, er, hF⟩ := fill_spec (st := d.stride) (H := d.height) (w := d.width)
    (f := fun x y => f (2 * x) (2 * y)) (body := downBody src d) (by omega) hl (by
      intro y x d' hy hx hd'
      unfold downBody
      rw [hs.read (by omega) (by omega)]
      simp only [Res.ok_bind]
      exact writeAt_ok _ (by rw [hd']; exact pixIdx_lt (by omega) hy))
  refine ⟨{ d with data := r }, ?_, ⟨by simp only; omega, hF.1⟩, ?_⟩
  · unfold gDownsample
    rw [ed]
    simp only [Res.ok_bind, er]
    rfl
  · rw [← e1, ← e2, ← dw, ← dh]
    exact shows_of_filled rfl rfl hF

end Nx
