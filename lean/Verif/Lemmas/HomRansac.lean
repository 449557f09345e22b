import Verif.Lemmas.Ransac
import Verif.Props.Homography
import Verif.Props.Dlt
import Verif.Props.MatchStats

/-!
# Lemmas about the parts of the robust estimation of homographies
-/

namespace Nx

theorem drawUntil_sub {n : Nat} {bad : Nat → Bool} {vs vs' : List (BitVec 32)} {i : Nat}
    (h : drawUntil n bad vs = some (i, vs')) : ∀ v ∈ vs', v ∈ vs := by
  obtain ⟨-, sk, w, e, -, -⟩ := drawUntil_spec _ _ _ _ _ h
  intro v hv
  rw [e]
  simp [hv]

theorem selectProsac4_sub {n : Nat} {vs vs' : List (BitVec 32)} {i : Nat × Nat × Nat × Nat}
    (h : selectProsac4 n vs = some (i, vs')) : ∀ v ∈ vs', v ∈ vs := by
  unfold selectProsac4 at h
  simp only [Option.bind_eq_bind, Option.pure_def, Option.bind_eq_some_iff, Prod.exists, Option.some.injEq,
    Prod.mk.injEq] at h
  obtain ⟨a', v1, h1, b', v2, h2, c', v3, h3, d', v4, h4, -, rfl⟩ := h
  intro v hv
  exact drawUntil_sub h1 _ (drawUntil_sub h2 _ (drawUntil_sub h3 _ (drawUntil_sub h4 _ hv)))

section
variable {K : Type}

theorem readI_map {α β : Type} (f : α → β) (l l' : List α) (h : l.map f = l'.map f) (i : Int) (a : α)
    (ha : readI l i = .ok a) : ∃ a', readI l' i = .ok a' ∧ f a' = f a := by
  unfold readI at ha ⊢
  split
  · rename_i hi
    rw [if_pos hi] at ha
    rw [readAt] at ha ⊢
    have e : (l.map f)[i.toNat]? = (l'.map f)[i.toNat]? := by rw [h]
    rw [List.getElem?_map, List.getElem?_map] at e
    cases hl : l[i.toNat]? with
    | none => rw [hl] at ha; cases ha
    | some b =>
      rw [hl] at ha e
      cases hl' : l'[i.toNat]? with
      | none => rw [hl'] at e; simp at e
      | some b' =>
        rw [hl'] at e
        simp only [Option.map_some, Option.some.injEq] at e
        cases ha
        exact ⟨b', rfl, e.symm⟩
  · rename_i hi
    rw [if_neg hi] at ha
    cases ha

theorem gather_congr {sel : PMatch K → K × K} {ids : Fin 4 → Int} {corr corr' : List (PMatch K)}
    (h : corr.map sel = corr'.map sel) {x : A8 K} (hx : gather sel ids corr = .ok x) : gather sel ids corr' = .ok x := by
  simp only [gather, Res.bind_eq_ok, Res.pure_eq, Res.ok.injEq] at hx
  obtain ⟨a, ha, b, hb, c, hc, d, hd, rfl⟩ := hx
  obtain ⟨a', ha', ea⟩ := readI_map sel _ _ h _ _ ha
  obtain ⟨b', hb', eb⟩ := readI_map sel _ _ h _ _ hb
  obtain ⟨c', hc', ec⟩ := readI_map sel _ _ h _ _ hc
  obtain ⟨d', hd', ed⟩ := readI_map sel _ _ h _ _ hd
  simp only [gather, ha', hb', hc', hd', Res.ok_bind, ea, eb, ec, ed, Res.pure_eq]

theorem unmark_map {β : Type} (f : PMatch K → β) (hf : ∀ c : PMatch K, f c.clear = f c) (n : Nat) (l : List (PMatch K)) :
    (unmark n l).map f = l.map f := by
  rw [unmark, List.map_append, List.map_map]
  have : f ∘ PMatch.clear = f := funext hf
  rw [this, ← List.map_append, List.take_append_drop]

theorem unmark_maps {β : Type} (f : PMatch K → β) (hf : ∀ c : PMatch K, f c.clear = f c) {n : Nat} {l l' : List (PMatch K)}
    (h : unmark n l = unmark n l') : l.map f = l'.map f := by
  rw [← unmark_map f hf n l, h, unmark_map f hf]

variable [Field K] [LinearOrder K]

theorem estimate4pt_congr {h : M3 K} {ids : Fin 4 → Int} {n : Nat} {corr corr' : List (PMatch K)}
    (hu : unmark n corr = unmark n corr') {r : M3 K × K} (hr : estimate4pt h ids corr = .ok r) :
    estimate4pt h ids corr' = .ok r := by
  simp only [estimate4pt, Res.bind_eq_ok, Res.pure_eq, Res.ok.injEq] at hr
  obtain ⟨x, hx, xp, hxp, rfl⟩ := hr
  rw [estimate4pt, gather_congr (unmark_maps _ (fun _ => rfl) hu) hx, gather_congr (unmark_maps _ (fun _ => rfl) hu) hxp]
  rfl

theorem estimate4pt_total (h : M3 K) (i : Nat × Nat × Nat × Nat) (corr : List (PMatch K))
    (hi : ∀ j ∈ [i.1, i.2.1, i.2.2.1, i.2.2.2], j < corr.length) : ∃ r, estimate4pt h (ids4 i) corr = .ok r := by
  obtain ⟨a, b, c, d⟩ := i
  have rd : ∀ j ∈ [a, b, c, d], ∃ m, readI corr (j : Int) = .ok m := by
    intro j hj
    have := hi j hj
    refine ⟨corr[j], ?_⟩
    rw [readI, if_pos (by omega), readAt, Int.toNat_natCast, List.getElem?_eq_getElem this]
  obtain ⟨ma, ha⟩ := rd a (by simp)
  obtain ⟨mb, hb⟩ := rd b (by simp)
  obtain ⟨mc, hc⟩ := rd c (by simp)
  obtain ⟨md, hd⟩ := rd d (by simp)
  have g : ∀ sel : PMatch K → K × K, ∃ x, gather sel (ids4 (a, b, c, d)) corr = .ok x := by
    intro sel
    simp only [gather, ids4, Matrix.cons_val_zero, Matrix.cons_val_one, Matrix.cons_val, ha, hb, hc, hd, Res.ok_bind,
      Res.pure_eq]
    exact ⟨_, rfl⟩
  obtain ⟨x, hx⟩ := g PMatch.x
  obtain ⟨xp, hxp⟩ := g PMatch.xp
  simp only [estimate4pt, hx, hxp, Res.ok_bind, Res.pure_eq]
  exact ⟨_, rfl⟩

/-- Every hypothesis is the result of the estimation from four of the matches. -/
theorem tryLoop_done (m : K) (corr : List (PMatch K)) (nTop : Nat) (t : Nat) (h g : M3 K) (rnd rnd' : List (BitVec 32))
    (he : tryLoop m corr nTop t h rnd = .ok (.done (g, rnd'))) :
    (∀ v ∈ rnd', v ∈ rnd) ∧ ∃ h0 i det vs vs', selectProsac4 nTop vs = some (i, vs') ∧ (∀ v ∈ vs, v ∈ rnd) ∧
      estimate4pt h0 (ids4 i) corr = .ok (g, det) := by
  induction t generalizing h rnd with
  | zero =>
    rw [tryLoop.eq_def] at he
    simp only at he
    cases hs : selectProsac4 nTop rnd with
    | none => rw [hs] at he; cases he
    | some p =>
      obtain ⟨i, vs⟩ := p
      rw [hs] at he
      simp only at he
      obtain ⟨r, hr, he⟩ := Res.bind_eq_ok.mp he
      cases he
      exact ⟨selectProsac4_sub hs, h, i, r.2, rnd, _, hs, fun v hv => hv, hr⟩
  | succ t ih =>
    rw [tryLoop.eq_def] at he
    simp only at he
    cases hs : selectProsac4 nTop rnd with
    | none => rw [hs] at he; cases he
    | some p =>
      obtain ⟨i, vs⟩ := p
      rw [hs] at he
      simp only at he
      obtain ⟨r, hr, he⟩ := Res.bind_eq_ok.mp he
      split at he
      · obtain ⟨a, h0, i0, det, ws, ws', b, c, d⟩ := ih _ _ he
        exact ⟨fun v hv => selectProsac4_sub hs v (a v hv), h0, i0, det, ws, ws', b,
          fun v hv => selectProsac4_sub hs v (c v hv), d⟩
      · cases he
        exact ⟨selectProsac4_sub hs, h, i, r.2, rnd, _, hs, fun v hv => hv, hr⟩

theorem tryLoop_sub (m : K) : SubRnd fun nTop h corr rnd => tryLoop m corr nTop 9 h rnd :=
  fun t h c r h' r' he => (tryLoop_done m c t 9 h h' r r' he).1

theorem tryLoop_total (m : K) (corr : List (PMatch K)) (nTop : Nat) (h0 : 0 < nTop) (h1 : nTop ≤ 16777216)
    (h2 : nTop ≤ corr.length) (t : Nat) (h : M3 K) (rnd : List (BitVec 32)) (hr : ∀ v ∈ rnd, v.toNat < 4294967168) :
    ∃ p, tryLoop m corr nTop t h rnd = .ok p := by
  induction t generalizing h rnd with
  | zero =>
    rw [tryLoop.eq_def]
    simp only
    cases hs : selectProsac4 nTop rnd with
    | none => exact ⟨_, rfl⟩
    | some p =>
      obtain ⟨⟨a, b, c, d⟩, vs⟩ := p
      obtain ⟨-, -, -, -, -, -, hlt⟩ := c69_select4_partial _ _ _ _ _ _ _ hs
      obtain ⟨r, e⟩ := estimate4pt_total h (a, b, c, d) corr (fun j hj => lt_of_lt_of_le (hlt h0 h1 hr j hj) h2)
      simp only [e, Res.bind]
      exact ⟨_, rfl⟩
  | succ t ih =>
    rw [tryLoop.eq_def]
    simp only
    cases hs : selectProsac4 nTop rnd with
    | none => exact ⟨_, rfl⟩
    | some p =>
      obtain ⟨⟨a, b, c, d⟩, vs⟩ := p
      obtain ⟨-, -, -, -, -, -, hlt⟩ := c69_select4_partial _ _ _ _ _ _ _ hs
      obtain ⟨r, e⟩ := estimate4pt_total h (a, b, c, d) corr (fun j hj => lt_of_lt_of_le (hlt h0 h1 hr j hj) h2)
      simp only [e, Res.bind]
      split
      · exact ih _ _ (fun v hv => hr v (selectProsac4_sub hs v hv))
      · exact ⟨_, rfl⟩

end

end Nx
