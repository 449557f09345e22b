import Verif.Model.Pyramid
import Verif.Props.Warp
import Verif.Lemmas.DataFrame

/-!
# Building a pyramid, for functions for images with a contract

`PyrSpec` is what the builder needs to know about the functions for images: `Ok` images can be used, `Is i w h p` says that image `i`
has the given size and shows picture `p`, and `Src` is the same for the image given by the caller.
-/

namespace Nx

structure PyrSpec {I : Type} (ops : PyrOps I) (P : Type) where
  Ok : I → Prop
  Is : I → Nat → Nat → P → Prop
  Src : I → Nat → Nat → P → Prop
  blur : ℝ → Nat → Nat → P → P → Prop
  half : Nat → Nat → P → P → Prop
  thin : Nat → Nat → P → P → Prop
  shrink : Rat → Nat → Nat → P → P → Prop
  is_ok : ∀ {i w h p}, Is i w h p → Ok i
  alloc_ok : Ok ops.alloc
  size_is : ∀ {i w h p}, Is i w h p → ops.size i = (w, h)
  create_ok : ∀ {i} {w h : Nat}, Ok i → w * h ≤ 2147483647 → ∃ d, ops.create i w h = .ok d ∧ Ok d
  load : ∀ {d s w h p}, Ok d → Src s w h p → w * h ≤ 2147483647 →
    ops.size s = (w, h) ∧ ∃ c r, ops.copy d s = .ok c ∧ Ok c ∧ ops.size c = (w, h) ∧ ops.create c w h = .ok r ∧ Is r w h p
  copy_is : ∀ {d s w h p}, Ok d → Is s w h p → ∃ c, ops.copy d s = .ok c ∧ Is c w h p
  smooth_is : ∀ {dest s w h p} {σ : ℝ}, (∀ d, dest = some d → Ok d) → Is s w h p → 2 ≤ w → 2 ≤ h → w * h ≤ 2147483647 → 0 < σ →
    σ ≤ 134217728 → ∃ d q, ops.smooth dest s σ = .ok d ∧ Is d w h q ∧ blur σ w h p q
  half_is : ∀ {work d s w h p}, Ok work → Ok d → Is s w h p → 4 ≤ w → 4 ≤ h → w * h ≤ 2147483647 →
    ∃ k r q, ops.downX work s = .ok k ∧ Ok k ∧ ops.downY d k = .ok r ∧ Is r (w / 2) (h / 2) q ∧ half w h p q
  thin_is : ∀ {d s w h p}, Ok d → Is s w h p → w * h ≤ 2147483647 →
    ∃ r q, ops.down d s = .ok r ∧ Is r (w / 2) (h / 2) q ∧ thin w h p q
  shrink_is : ∀ {d s w h p} {c : Rat}, Ok d → Is s w h p → 2 ≤ w → 2 ≤ h → w * h ≤ 2147483647 → 0 < c → c < 1 →
    ∃ r q, ops.scale d s c = .ok r ∧ Is r (⌊(w : Rat) * c⌋).toNat (⌊(h : Rat) * c⌋).toNat q ∧ shrink c w h p q

section
variable {I P : Type} {ops : PyrOps I} (C : PyrSpec ops P) {b : PyrBuilder I}

/-- All levels have the scale and sigma of the builder, and images with a property. -/
structure Levels (b : PyrBuilder I) (n : Nat) (Q : Nat → I → Prop) (pyr : List (PyrLevel I)) : Prop where
  len : pyr.length = n
  lev : ∀ i, i < n → ∃ img, pyr[i]? = some ⟨img, levelScale b i, levelSigma b i⟩ ∧ Q i img

theorem Levels.at {n : Nat} {Q : Nat → I → Prop} {pyr : List (PyrLevel I)} (h : Levels b n Q pyr) {i : Nat} (hi : i < n) :
    ∃ img, levelAt pyr i = .ok ⟨img, levelScale b i, levelSigma b i⟩ ∧ Q i img := by
  obtain ⟨img, e, q⟩ := h.lev i hi
  exact ⟨img, readAt_get e, q⟩

theorem Levels.weaken {n : Nat} {Q Q' : Nat → I → Prop} {pyr : List (PyrLevel I)} (h : Levels b n Q pyr)
    (hq : ∀ i img, i < n → Q i img → Q' i img) : Levels b n Q' pyr :=
  ⟨h.len, fun i hi => let ⟨img, e, q⟩ := h.lev i hi; ⟨img, e, hq i img hi q⟩⟩

theorem Levels.set {n : Nat} {Q Q' : Nat → I → Prop} {pyr : List (PyrLevel I)} (h : Levels b n Q pyr) {i : Nat} (hi : i < n) {img : I}
    (hi' : Q' i img) (hq : ∀ j m, j < n → j ≠ i → Q j m → Q' j m) : ∃ pyr', setImg pyr i img = .ok pyr' ∧ Levels b n Q' pyr' := by
  obtain ⟨m, e, _⟩ := h.at hi
  refine ⟨pyr.set i ⟨img, levelScale b i, levelSigma b i⟩, ?_, ?_, ?_⟩
  · unfold setImg
    rw [e]
    rfl
  · rw [List.length_set, h.len]
  · intro j hj
    by_cases hji : j = i
    · subst hji
      exact ⟨img, by rw [List.getElem?_set_self (by rw [h.len]; exact hj)], hi'⟩
    · obtain ⟨m', e', q'⟩ := h.lev j hj
      exact ⟨m', by rw [List.getElem?_set_ne (by omega)]; exact e', hq j m' hj hji q'⟩

/-! ## The levels are set up -/

theorem levelScale_zero (b : PyrBuilder I) : levelScale b 0 = 1 := by
  unfold levelScale
  rw [Nat.zero_div, pow_zero]

theorem one_le_levelScale (hf : 1 ≤ b.factor) (i : Nat) : 1 ≤ levelScale b i := by
  unfold levelScale
  exact one_le_pow₀ hf

theorem levelSigma_zero (b : PyrBuilder I) : levelSigma b 0 = b.sigma0 := by
  unfold levelSigma
  rw [Nat.cast_zero, zero_div, Real.rpow_zero, mul_one]

theorem floor_div_le {n : Nat} {s : Rat} (hs : 1 ≤ s) : (⌊(n : Rat) / s⌋).toNat ≤ n := by
  have h1 : (n : Rat) / s ≤ n := div_le_self (Nat.cast_nonneg n) hs
  have h2 := Int.floor_le_floor h1
  rw [Int.floor_natCast] at h2
  omega

theorem truncInt_div {n : Nat} {s : Rat} (hs : 1 ≤ s) (hn : n ≤ 2147483647) :
    truncInt ((n : Rat) / s) = .ok ((⌊(n : Rat) / s⌋).toNat : Int) := by
  have h0 : 0 ≤ (n : Rat) / s := div_nonneg (Nat.cast_nonneg n) (by linarith)
  have h1 := Int.floor_nonneg.mpr h0
  have h2 := floor_div_le (n := n) hs
  unfold truncInt
  rw [ratTrunc_nonneg h0, if_pos (by unfold InI32; omega), Int.toNat_of_nonneg h1]

theorem createLevel_ok (C : PyrSpec ops P) {pyr : List (PyrLevel I)} {i : Nat} {l : PyrLevel I} (hl : pyr[i]? = some l) (ho : C.Ok l.img) {w h : Nat}
    (hsz : w * h ≤ 2147483647) (s : Rat) (σ : ℝ) :
    ∃ d, ops.create l.img w h = .ok d ∧ C.Ok d ∧ createLevel ops pyr i w h s σ = .ok (pyr.set i ⟨d, s, σ⟩) := by
  obtain ⟨d, e, hd⟩ := C.create_ok (w := w) (h := h) ho hsz
  refine ⟨d, e, hd, ?_⟩
  unfold createLevel
  rw [if_neg (by have := lt_of_get hl; omega)]
  unfold levelAt
  rw [readAt_get hl, Res.ok_bind, e]
  rfl

/-- All images can be used. -/
def AllOk (pyr : List (PyrLevel I)) : Prop := ∀ (i : Nat) (l : PyrLevel I), pyr[i]? = some l → C.Ok l.img

theorem allocLevels_ok (C : PyrSpec ops P) {pyr : List (PyrLevel I)} (ha : AllOk C pyr) {n : Nat} (hn : 0 < n) :
    ∃ p, allocLevels ops pyr n = .ok p ∧ p.length = n ∧ AllOk C p := by
  unfold allocLevels
  rw [if_neg (by omega)]
  by_cases hl : pyr.length = n
  · rw [if_pos hl]
    exact ⟨pyr, rfl, hl, ha⟩
  · rw [if_neg hl]
    refine ⟨_, rfl, List.length_replicate, ?_⟩
    intro i l e
    have := List.mem_of_getElem? e
    rw [List.eq_of_mem_replicate this]
    exact C.alloc_ok

theorem copyToLevel0_ok (C : PyrSpec ops P) {pyr : List (PyrLevel I)} (ha : AllOk C pyr) (hn : 0 < pyr.length) {img : I} {w h : Nat} {p : P}
    (hs : C.Src img w h p) (hsz : w * h ≤ 2147483647) (σ : ℝ) :
    ∃ pyr', copyToLevel0 ops pyr img σ = .ok pyr' ∧ pyr'.length = pyr.length ∧ AllOk C pyr' ∧
      ∃ c r, pyr'[0]? = some ⟨c, 1, σ⟩ ∧ ops.size c = (w, h) ∧ ops.create c w h = .ok r ∧ C.Is r w h p := by
  obtain ⟨l, hl⟩ : ∃ l, pyr[0]? = some l := ⟨_, List.getElem?_eq_getElem hn⟩
  obtain ⟨d, e1, hd, e2⟩ := createLevel_ok C hl (ha 0 l hl) hsz 1 σ
  obtain ⟨hsize, c, r, e3, hc, hcs, e4, hr⟩ := C.load hd hs hsz
  have e5 : (pyr.set 0 ⟨d, 1, σ⟩)[0]? = some ⟨d, 1, σ⟩ := List.getElem?_set_self hn
  refine ⟨pyr.set 0 ⟨c, 1, σ⟩, ?_, List.length_set, ?_, c, r, List.getElem?_set_self hn, hcs, e4, hr⟩
  · unfold copyToLevel0
    rw [hsize]
    show (createLevel ops pyr 0 (w : Int) (h : Int) 1 σ >>= _) = _
    rw [e2, Res.ok_bind]
    unfold levelAt
    rw [readAt_get e5, Res.ok_bind, e3, Res.ok_bind]
    unfold setImg levelAt
    rw [readAt_get e5, Res.ok_bind, List.set_set]
    rfl
  · intro i m e
    by_cases h0 : i = 0
    · subst h0
      rw [List.getElem?_set_self hn] at e
      rw [← Option.some.inj e]
      exact hc
    · rw [List.getElem?_set_ne (by omega)] at e
      exact ha i m e

/-- After the first levels have been set up. -/
structure Setup (b : PyrBuilder I) (n w h : Nat) (p : P) (k : Nat) (pyr : List (PyrLevel I)) : Prop where
  len : pyr.length = n
  done : ∀ i, i < k → ∃ img, pyr[i]? = some ⟨img, levelScale b i, levelSigma b i⟩ ∧ C.Ok img ∧ (i = 0 → C.Is img w h p)
  ok : AllOk C pyr
  first : k = 0 → ∃ l r, pyr[0]? = some l ∧ ops.create l.img w h = .ok r ∧ C.Is r w h p

theorem initLevels_ok (C : PyrSpec ops P) {pyr : List (PyrLevel I)} {w h : Nat} {p : P} (ha : AllOk C pyr) (hk : b.kind ≠ .none) (hst : 0 < b.steps)
    (hf : 1 ≤ b.factor) (hn : 0 < b.levels) (hlen : pyr.length = b.levels) (hw : 0 < w) (hh : 0 < h) (hsz : w * h ≤ 2147483647)
    (h0 : ∃ l r, pyr[0]? = some l ∧ ops.create l.img w h = .ok r ∧ C.Is r w h p) :
    ∃ pyr', initLevels ops b pyr w h = .ok pyr' ∧ Levels b b.levels (fun i img => C.Ok img ∧ (i = 0 → C.Is img w h p)) pyr' := by
  have hw1 : w ≤ 2147483647 := Nat.le_trans (Nat.le_mul_of_pos_right w hh) hsz
  have hh1 : h ≤ 2147483647 := Nat.le_trans (Nat.le_mul_of_pos_left h hw) hsz
  obtain ⟨pyr', e, hS⟩ := forLoop_spec (n := b.levels) (i0 := 0) (s := pyr) (body := initLevel ops b w h)
    (Setup C b b.levels w h p) (Nat.zero_le _) ⟨hlen, fun i hi => absurd hi (Nat.not_lt_zero i), ha, fun _ => h0⟩ (by
      intro k s _ hk hs
      obtain ⟨l, hl⟩ : ∃ l, s[k]? = some l := ⟨_, List.getElem?_eq_getElem (by rw [hs.len]; exact hk)⟩
      have hsc := one_le_levelScale hf k
      have hsz' : (⌊(w : Rat) / levelScale b k⌋).toNat * (⌊(h : Rat) / levelScale b k⌋).toNat ≤ 2147483647 :=
        Nat.le_trans (Nat.mul_le_mul (floor_div_le hsc) (floor_div_le hsc)) hsz
      obtain ⟨d, e1, hd, e2⟩ := createLevel_ok C hl (hs.ok k l hl) hsz' (levelScale b k) (levelSigma b k)
      refine ⟨s.set k ⟨d, levelScale b k, levelSigma b k⟩, ?_, ?_, ?_, ?_, ?_⟩
      · unfold initLevel
        rw [if_neg (by rintro (q | q); · omega
                       · rw [q] at hsc; norm_num at hsc), truncInt_div hsc hw1, Res.ok_bind, truncInt_div hsc hh1, Res.ok_bind]
        exact e2
      · rw [List.length_set, hs.len]
      · intro i hi
        by_cases hik : i = k
        · subst hik
          refine ⟨d, List.getElem?_set_self (by rw [hs.len]; exact hk), hd, ?_⟩
          intro h0
          subst h0
          obtain ⟨l', r, q1, q2, q3⟩ := hs.first rfl
          rw [hl] at q1
          cases q1
          rw [levelScale_zero] at e1
          rw [div_one, div_one, Int.floor_natCast, Int.floor_natCast, Int.toNat_natCast, Int.toNat_natCast, q2] at e1
          cases e1
          exact q3
        · obtain ⟨m, q1, q2⟩ := hs.done i (by omega)
          exact ⟨m, by rw [List.getElem?_set_ne (by omega)]; exact q1, q2⟩
      · intro i m em
        by_cases hik : i = k
        · subst hik
          rw [List.getElem?_set_self (by rw [hs.len]; exact hk)] at em
          rw [← Option.some.inj em]
          exact hd
        · rw [List.getElem?_set_ne (by omega)] at em
          exact hs.ok i m em
      · intro h0
        omega)
  have hL : Levels b b.levels (fun i img => C.Ok img ∧ (i = 0 → C.Is img w h p)) pyr' := ⟨hS.len, hS.done⟩
  refine ⟨pyr', ?_, hL⟩
  obtain ⟨m, em, _, hm⟩ := hL.at hn
  unfold initLevels
  rw [if_neg (by rintro (q | q | q); · exact hk q
                 · omega
                 · omega)]
  unfold allocLevels
  rw [if_neg (by omega), if_pos hlen, Res.ok_bind, hlen, e, Res.ok_bind, em, Res.ok_bind, if_pos (C.size_is (hm rfl))]

/-- Building is updating after the levels have been set up. -/
theorem pyrBuild_ok (C : PyrSpec ops P) {pyr : List (PyrLevel I)} {img : I} {w h : Nat} {p : P} (ha : AllOk C pyr) (hk : b.kind ≠ .none)
    (hst : 0 < b.steps) (hf : 1 ≤ b.factor) (hn : 0 < b.levels) (hw : 0 < w) (hh : 0 < h) (hsz : w * h ≤ 2147483647)
    (hs : C.Src img w h p) :
    ∃ pyr', Levels b b.levels (fun i img => C.Ok img ∧ (i = 0 → C.Is img w h p)) pyr' ∧
      pyrBuild ops b pyr img = (match b.kind with
        | .fast => updateFast ops b pyr'
        | .fine => updateFine ops b pyr'
        | .scaled => updateScaled ops b pyr'
        | .none => .fatal) >>= fun r => .ok ({ b with work := r.1 }, r.2) := by
  obtain ⟨p1, e1, l1, a1⟩ := allocLevels_ok C ha hn
  obtain ⟨p2, e2, l2, a2, c, r, g1, g2, g3, g4⟩ := copyToLevel0_ok C a1 (by omega) hs hsz b.sigma0
  obtain ⟨p3, e3, h3⟩ := initLevels_ok C (b := b) a2 hk hst hf hn (by omega) hw hh hsz ⟨_, r, g1, g3, g4⟩
  refine ⟨p3, h3, ?_⟩
  unfold pyrBuild
  rw [if_neg hk, e1, Res.ok_bind, e2, Res.ok_bind]
  unfold pyrUpdate
  rw [if_neg (by rintro (q | q | q); · exact hk q
                 · omega
                 · omega)]
  unfold levelAt
  rw [readAt_get g1, Res.ok_bind]
  show (initLevels ops b p2 (ops.size c).1 (ops.size c).2 >>= _) >>= _ = _
  rw [g2, e3, Res.ok_bind]
  rfl

end

end Nx
