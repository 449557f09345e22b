import Verif.Spec.VgImage
import Verif.Props.ImageMem

/-!
# C129: the C++ handles of images free each image once, with its last handle
-/

namespace Nx

theorem imLive_iff {w : VgWorld} {i : Nat} : ImLive w i ↔ imShape w.im i ≠ none := by
  unfold ImLive imShape ImIs
  constructor
  · rintro ⟨hd, e⟩
    rw [e]
    simp
  · intro h
    split at h
    · rename_i hd e
      exact ⟨hd, e⟩
    · exact absurd rfl h

theorem same_live {w w' : VgWorld} {i j : Nat} (h : Same w.im i w'.im j) : ImLive w' j ↔ ImLive w i := by
  rw [imLive_iff, imLive_iff, h.shape]

theorem same_refl {w : IWorld} {i : Nat} : Same w i w i := ⟨rfl, fun _ _ _ _ _ _ _ => rfl⟩

theorem varAt_is {w : VgWorld} {v : Nat} {h : VgHandle} (e : VarIs w v h) : varAt w v = .ok h := by
  unfold varAt
  rw [show w.vars[v]? = some (some h) from e]

theorem varIs_fun {w : VgWorld} {v : Nat} {h h' : VgHandle} (e : VarIs w v h) (e' : VarIs w v h') : h = h' := by
  have := (show w.vars[v]? = some (some h) from e).symm.trans e'
  simpa using this

/-- What holds of the handles in all states. -/
structure VgInv (w : VgWorld) : Prop where
  reach : IReach w.im
  own : ∀ v h, VarIs w v h → h.own = true → ImLive w h.img
  lt : ∀ v h, VarIs w v h → h.grp < w.grps
  same : ∀ v h v' h', VarIs w v h → VarIs w v' h' → h.grp = h'.grp → h = h'
  sole : ∀ v h v' h', VarIs w v h → VarIs w v' h' → h.own = true → h'.own = true → h.img = h'.img → h.grp = h'.grp

/-- A call that changes the picture of some images. -/
theorem VgInv.same_live {w : VgWorld} (hi : VgInv w) {im : IWorld} (hr : IReach im) (h : ∀ i, ImLive w i → ImLive { w with im := im } i) :
    VgInv { w with im := im } :=
  ⟨hr, fun v x hx ho => h _ (hi.own v x hx ho), hi.lt, hi.same, hi.sole⟩

theorem owned_im {w : VgWorld} {im : IWorld} {i : Nat} : Owned { w with im := im } i ↔ Owned w i := Iff.rfl

/-- A handle goes that is in no variable any more. -/
theorem varRelease_spec {w : VgWorld} (hi : VgInv w) (o : VgHandle) (hl : o.own = true → ImLive w o.img)
    (hs : ∀ v h, VarIs w v h → h.grp = o.grp → h = o)
    (hso : ∀ v h, VarIs w v h → h.own = true → o.own = true → h.img = o.img → h.grp = o.grp) :
    ∃ im, varRelease w o = .ok { w with im := im } ∧ VgInv { w with im := im } ∧
      (∀ i, ImLive { w with im := im } i ↔ ImLive w i ∧ (o.own = true → i = o.img → Owned w i)) ∧
      ∀ i, ImLive { w with im := im } i → Same w.im i im i := by
  unfold varRelease
  split
  · rename_i hc
    obtain ⟨ho, hn⟩ := hc
    have hnone : ¬ Owned w o.img := by
      rintro ⟨v, h, hv, hho, him⟩
      exact hn ⟨some h, List.mem_of_getElem? hv, h, rfl, hso v h hv hho ho him⟩
    obtain ⟨im, e, hr, hd, hoth⟩ := c80_call_effect (op := .free o.img) hi.reach (hl ho)
    have e' : imFree w.im o.img = .ok im := e
    have hne : ∀ i, ImLive { w with im := im } i → i ≠ o.img := by
      rintro i hlive rfl
      rw [imLive_iff] at hlive
      exact hlive hd
    have hiff : ∀ i, i ≠ o.img → (ImLive { w with im := im } i ↔ ImLive w i) := fun i hi' => same_live (w' := { w with im := im }) (hoth
      i hi')
    refine ⟨im, by rw [e']; rfl, ⟨hr, ?_, hi.lt, hi.same, hi.sole⟩, ?_, fun i hlive => hoth i (hne i hlive)⟩
    · intro v h hv hho
      refine (hiff _ ?_).mpr (hi.own v h hv hho)
      intro him
      exact hnone ⟨v, h, hv, hho, him⟩
    · intro i
      constructor
      · intro hlive
        exact ⟨(hiff i (hne i hlive)).mp hlive, fun _ e => absurd e (hne i hlive)⟩
      · rintro ⟨hlive, himp⟩
        refine (hiff i ?_).mpr hlive
        intro e
        exact hnone (e ▸ himp ho e)
  · rename_i hc
    refine ⟨w.im, rfl, hi, ?_, fun i _ => same_refl⟩
    intro i
    refine ⟨fun hlive => ⟨hlive, ?_⟩, fun h => h.1⟩
    rintro ho rfl
    refine Classical.byContradiction fun hno => ?_
    refine hc ⟨ho, ?_⟩
    rintro ⟨x, hx, h, hxh, hg⟩
    obtain ⟨v, hv⟩ := List.getElem?_of_mem hx
    have hxe : x = some h := hxh
    subst hxe
    have := hs v h hv hg
    subst this
    exact hno ⟨v, h, hv, ho, rfl⟩

theorem varIs_set {w : VgWorld} {v : Nat} {x : Option VgHandle} {g : Nat} {u : Nat} {h : VgHandle}
    (e : VarIs { w with vars := w.vars.set v x, grps := g } u h) : (u = v ∧ x = some h) ∨ (u ≠ v ∧ VarIs w u h) := by
  unfold VarIs at e ⊢
  dsimp only at e
  rw [List.getElem?_set] at e
  split at e
  · rename_i huv
    split at e
    · left
      exact ⟨huv.symm, by simpa using e⟩
    · cases e
  · rename_i huv
    exact .inr ⟨fun e' => huv e'.symm, e⟩

/-- A handle that a variable may get: one that another variable has, or a new one. -/
def Fresh (w : VgWorld) (h : VgHandle) : Prop := h.grp = w.grps ∧ (h.own = true → ImLive w h.img ∧ ¬ Owned w h.img)

theorem varPut_spec {w : VgWorld} (hi : VgInv w) {v : Nat} {o : VgHandle} (hv : VarIs w v o) (x : Option VgHandle) (g : Nat)
    (hg : w.grps ≤ g) (hx : ∀ h, x = some h → (∃ s, VarIs w s h) ∨ (Fresh w h ∧ w.grps < g)) :
    ∃ w', varPut { w with grps := g } v x = .ok w' ∧ VgInv w' ∧ w'.vars = w.vars.set v x ∧
      (∀ i, ImLive w' i ↔ ImLive w i ∧ (o.own = true → i = o.img → Owned w' i)) ∧
      ∀ i, ImLive w' i → Same w.im i w'.im i := by
  have hfr : ∀ h, x = some h → ∀ u h', VarIs w u h' → h.grp = h'.grp → h = h' := by
    intro h e u h' hu hgr
    rcases hx h e with ⟨s, hs⟩ | ⟨⟨hf, _⟩, _⟩
    · exact hi.same s h u h' hs hu hgr
    · have := hi.lt u h' hu
      omega
  have hsl : ∀ h, x = some h → ∀ u h', VarIs w u h' → h.own = true → h'.own = true → h.img = h'.img → h.grp = h'.grp := by
    intro h e u h' hu ho ho' him
    rcases hx h e with ⟨s, hs⟩ | ⟨⟨_, hf⟩, _⟩
    · exact hi.sole s h u h' hs hu ho ho' him
    · exact absurd ⟨u, h', hu, ho', him.symm⟩ (hf ho).2
  have hw1 : VgInv { w with vars := w.vars.set v x, grps := g } := by
    refine ⟨hi.reach, ?_, ?_, ?_, ?_⟩
    · intro u h hu ho
      rcases varIs_set hu with ⟨_, e⟩ | ⟨_, hu'⟩
      · rcases hx h e with ⟨s, hs⟩ | ⟨⟨_, hf⟩, _⟩
        · exact hi.own s h hs ho
        · exact (hf ho).1
      · exact hi.own u h hu' ho
    · intro u h hu
      rcases varIs_set hu with ⟨_, e⟩ | ⟨_, hu'⟩
      · rcases hx h e with ⟨s, hs⟩ | ⟨⟨hf, _⟩, hlt⟩
        · exact Nat.lt_of_lt_of_le (hi.lt s h hs) hg
        · show h.grp < g
          omega
      · exact Nat.lt_of_lt_of_le (hi.lt u h hu') hg
    · intro u h u' h' hu hu' hgr
      rcases varIs_set hu with ⟨_, e⟩ | ⟨_, hu⟩ <;> rcases varIs_set hu' with ⟨_, e'⟩ | ⟨_, hu'⟩
      · exact Option.some.inj (e.symm.trans e')
      · exact hfr h e u' h' hu' hgr
      · exact (hfr h' e' u h hu hgr.symm).symm
      · exact hi.same u h u' h' hu hu' hgr
    · intro u h u' h' hu hu' ho ho' him
      rcases varIs_set hu with ⟨_, e⟩ | ⟨_, hu⟩ <;> rcases varIs_set hu' with ⟨_, e'⟩ | ⟨_, hu'⟩
      · rw [Option.some.inj (e.symm.trans e')]
      · exact hsl h e u' h' hu' ho ho' him
      · exact (hsl h' e' u h hu ho' ho him.symm).symm
      · exact hi.sole u h u' h' hu hu' ho ho' him
  obtain ⟨im, e, h1, h2, h3⟩ := varRelease_spec hw1 o (fun ho => hi.own v o hv ho)
    (by
      intro u h hu hgr
      rcases varIs_set hu with ⟨_, e⟩ | ⟨_, hu⟩
      · exact hfr h e v o hv hgr
      · exact hi.same u h v o hu hv hgr)
    (by
      intro u h hu ho ho' him
      rcases varIs_set hu with ⟨_, e⟩ | ⟨_, hu⟩
      · exact hsl h e v o hv ho ho' him
      · exact hi.sole u h v o hu hv ho ho' him)
  refine ⟨_, ?_, h1, rfl, h2, h3⟩
  have hv' : VarIs { w with grps := g } v o := hv
  unfold varPut
  rw [varAt_is hv', Res.ok_bind]
  exact e

theorem varPut_keeps {w w' : VgWorld} (hi' : VgInv w') {v : Nat} {o : VgHandle} (hv : VarIs w v o) {x : Option VgHandle} (op : VgOp)
    (hvars : w'.vars = w.vars.set v x) (hlive : ∀ i, ImLive w' i ↔ ImLive w i ∧ (o.own = true → i = o.img → Owned w' i)) :
    VgKeeps w w' op := by
  refine ⟨?_, ?_, ?_⟩
  · rintro i ⟨u, h, hu, ho, rfl⟩
    exact hi'.own u h hu ho
  · intro i h1 h2
    left
    have h3 : ¬ (o.own = true → i = o.img → Owned w' i) := fun h => h2 ((hlive i).mpr ⟨h1, h⟩)
    have ho : o.own = true := Classical.byContradiction fun h => h3 fun h' => absurd h' h
    have hio : i = o.img := Classical.byContradiction fun h => h3 fun _ h' => absurd h' h
    exact ⟨⟨v, o, hv, ho, hio.symm⟩, fun h => h3 fun _ _ => h⟩
  · intro i h1 h2
    left
    obtain ⟨h3, h4⟩ := (hlive i).mp h1
    refine ⟨h3, ?_⟩
    rintro ⟨u, h, hu, ho, him⟩
    by_cases huv : u = v
    · subst huv
      have := varIs_fun hu hv
      subst this
      exact h2 (h4 ho him.symm)
    · refine h2 ⟨u, h, ?_, ho, him⟩
      unfold VarIs
      rw [hvars, List.getElem?_set_ne (Ne.symm huv)]
      exact hu

/-- A call of a C function that neither makes nor frees an image. -/
theorem vgCall_spec {w : VgWorld} (hi : VgInv w) {im : IWorld} (hr : IReach im) (h : ∀ i, ImLive { w with im := im } i ↔ ImLive w i) (op :
  VgOp) :
    VgInv { w with im := im } ∧ VgKeeps w { w with im := im } op := by
  have h1 := hi.same_live hr fun i => (h i).mpr
  refine ⟨h1, ?_, fun i a b => absurd ((h i).mpr a) b, fun i a b => .inl ⟨(h i).mp a, b⟩⟩
  rintro i ⟨u, x, hu, ho, rfl⟩
  exact h1.own u x hu ho

theorem varIs_new {w : VgWorld} {x : VgHandle} {u : Nat} {h : VgHandle} (e : VarIs (varNew w x) u h) :
    (u = w.vars.length ∧ h = x) ∨ VarIs w u h := by
  unfold VarIs varNew at e
  dsimp only at e
  rw [List.getElem?_append] at e
  split at e
  · exact .inr e
  · rename_i hu
    cases hk : u - w.vars.length with
    | zero =>
      rw [hk] at e
      left
      exact ⟨by omega, by simpa using e.symm⟩
    | succ k =>
      rw [hk] at e
      simp at e

theorem varIs_old {w : VgWorld} {x : VgHandle} {u : Nat} {h : VgHandle} (e : VarIs w u h) : VarIs (varNew w x) u h := by
  unfold VarIs at e
  obtain ⟨hu, _⟩ := List.getElem?_eq_some_iff.mp e
  unfold VarIs varNew
  rw [List.getElem?_append_left hu]
  exact e

theorem varIs_last {w : VgWorld} {x : VgHandle} : VarIs (varNew w x) w.vars.length x := by
  unfold VarIs varNew
  rw [List.getElem?_append_right (Nat.le_refl _)]
  simp

theorem varNew_vars {w : VgWorld} {x : VgHandle} {u : Nat} (hu : u < w.vars.length) : (varNew w x).vars[u]? = w.vars[u]? := by
  unfold varNew
  rw [List.getElem?_append_left hu]

theorem varNew_spec {w : VgWorld} (hi : VgInv w) {x : VgHandle} {g : Nat} (hg : w.grps ≤ g)
    (hx : (∃ s, VarIs w s x) ∨ (Fresh w x ∧ w.grps < g)) : VgInv (varNew { w with grps := g } x) := by
  have hfr : ∀ u h', VarIs w u h' → x.grp = h'.grp → x = h' := by
    intro u h' hu hgr
    rcases hx with ⟨s, hs⟩ | ⟨⟨hf, _⟩, _⟩
    · exact hi.same s x u h' hs hu hgr
    · have := hi.lt u h' hu
      omega
  have hsl : ∀ u h', VarIs w u h' → x.own = true → h'.own = true → x.img = h'.img → x.grp = h'.grp := by
    intro u h' hu ho ho' him
    rcases hx with ⟨s, hs⟩ | ⟨⟨_, hf⟩, _⟩
    · exact hi.sole s x u h' hs hu ho ho' him
    · exact absurd ⟨u, h', hu, ho', him.symm⟩ (hf ho).2
  have hold : ∀ u h, VarIs { w with grps := g } u h → VarIs w u h := fun _ _ h => h
  refine ⟨hi.reach, ?_, ?_, ?_, ?_⟩
  · intro u h hu ho
    rcases varIs_new hu with ⟨_, rfl⟩ | hu'
    · rcases hx with ⟨s, hs⟩ | ⟨⟨_, hf⟩, _⟩
      · exact hi.own s h hs ho
      · exact (hf ho).1
    · exact hi.own u h hu' ho
  · intro u h hu
    rcases varIs_new hu with ⟨_, rfl⟩ | hu'
    · rcases hx with ⟨s, hs⟩ | ⟨⟨hf, _⟩, hlt⟩
      · exact Nat.lt_of_lt_of_le (hi.lt s h hs) hg
      · show h.grp < g
        omega
    · exact Nat.lt_of_lt_of_le (hi.lt u h hu') hg
  · intro u h u' h' hu hu' hgr
    rcases varIs_new hu with ⟨_, rfl⟩ | hv <;> rcases varIs_new hu' with ⟨_, rfl⟩ | hv'
    · rfl
    · exact hfr u' h' hv' hgr
    · exact (hfr u h hv hgr.symm).symm
    · exact hi.same u h u' h' hv hv' hgr
  · intro u h u' h' hu hu' ho ho' him
    rcases varIs_new hu with ⟨_, rfl⟩ | hv <;> rcases varIs_new hu' with ⟨_, rfl⟩ | hv'
    · rfl
    · exact hsl u' h' hv' ho ho' him
    · exact (hsl u h hv ho' ho him.symm).symm
    · exact hi.sole u h u' h' hv hv' ho ho' him

theorem owned_new {w : VgWorld} {x : VgHandle} {i : Nat} (h : Owned w i) : Owned (varNew w x) i := by
  obtain ⟨v, y, hv, ho, him⟩ := h
  exact ⟨v, y, varIs_old hv, ho, him⟩

/-- A new variable for an image that is there. -/
theorem varNew_keeps {w : VgWorld} {x : VgHandle} {g : Nat} (hi : VgInv (varNew { w with grps := g } x)) (op : VgOp) :
    VgKeeps w (varNew { w with grps := g } x) op := by
  refine ⟨?_, fun i a b => absurd a b, fun i a b => .inl ⟨a, fun h => b ?_⟩⟩
  · rintro i ⟨u, y, hu, ho, rfl⟩
    exact hi.own u y hu ho
  · exact owned_new (w := { w with grps := g }) h

theorem notLive_last {w : VgWorld} : ¬ ImLive w w.im.hdrs.length := by
  rintro ⟨hd, e⟩
  unfold ImIs at e
  rw [List.getElem?_eq_none (Nat.le_refl _)] at e
  cases e

/-- `VGImage()`. -/
theorem vgCtor_spec {w : VgWorld} (hi : VgInv w) : ∃ im, vgCtor w =
    .ok (varNew { w with im := im, grps := w.grps + 1 } ⟨w.im.hdrs.length, w.grps, true⟩) ∧
    VgInv (varNew { w with im := im, grps := w.grps + 1 } ⟨w.im.hdrs.length, w.grps, true⟩) ∧
    imShape im w.im.hdrs.length = some (packed 0 0 false false) ∧ ∀ j, j ≠ w.im.hdrs.length → Same w.im j im j := by
  obtain ⟨im, e, hr, hs, ho⟩ := c80_call_effect (op := .alloc) hi.reach trivial
  have e' : imAlloc w.im = .ok im := e
  have hmono : ∀ i, ImLive w i → ImLive { w with im := im } i := by
    intro i hl
    refine (same_live (w' := { w with im := im }) (ho i ?_)).mpr hl
    rintro rfl
    exact notLive_last hl
  have h1 := hi.same_live hr hmono
  refine ⟨im, by unfold vgCtor; rw [e']; rfl, ?_, hs, ho⟩
  refine varNew_spec h1 (Nat.le_succ _) (.inr ⟨⟨rfl, fun _ => ⟨?_, ?_⟩⟩, Nat.lt_succ_self _⟩)
  · rw [imLive_iff]
    show imShape im w.im.hdrs.length ≠ none
    rw [hs]
    simp
  · rintro ⟨u, h, hu, ho', him⟩
    have := hi.own u h hu ho'
    rw [him] at this
    exact notLive_last this

theorem shows_is {w : VgWorld} {v i : Nat} {h : VgHandle} (hv : VarIs w v h) (hs : Shows w v i) : i = h.img := by
  obtain ⟨h', e, rfl⟩ := hs
  rw [varIs_fun e hv]

theorem live_but {w : VgWorld} {im : IWorld} {i : Nat} (hl : ImLive w i) (hs : imShape im i ≠ none) (ho : ∀ j, j ≠ i → Same w.im j im j) :
    ∀ j, ImLive { w with im := im } j ↔ ImLive w j := by
  intro j
  by_cases e : j = i
  · subst e
    exact ⟨fun _ => hl, fun _ => imLive_iff.mpr hs⟩
  · exact same_live (w' := { w with im := im }) (ho j e)

theorem same_shape_ne {w : VgWorld} {im : IWorld} {i j : Nat} (hl : ImLive w i) (h : Same w.im i im j) : imShape im j ≠ none := by
  rw [h.shape]
  exact imLive_iff.mp hl

/-- `copy_of` between two images. -/
theorem vgCopyOf_spec {w : VgWorld} (hi : VgInv w) {v s : Nat} {h h' : VgHandle} (hv : Usable w v h) (hs : Usable w s h')
    (hne : h.img = h'.img → v = s) (op : VgOp) : ∃ im, vgCopyOf w v s = .ok { w with im := im } ∧ VgInv { w with im := im } ∧
      VgKeeps w { w with im := im } op ∧ Same w.im h'.img im h.img ∧ ∀ l, l ≠ h.img → Same w.im l im l := by
  unfold vgCopyOf
  by_cases e : s = v
  · subst e
    have := varIs_fun hv.1 hs.1
    subst this
    rw [if_neg (by simp), varAt_is hv.1, Res.ok_bind]
    have := vgCall_spec hi hi.reach (fun i => Iff.rfl) op
    exact ⟨w.im, rfl, this.1, this.2, same_refl, fun l _ => same_refl⟩
  · have hne' : h.img ≠ h'.img := fun e' => e (hne e').symm
    obtain ⟨im, e1, hr, h1, h2⟩ := c80_call_effect (op := .copy h.img h'.img) hi.reach ⟨hv.2, hs.2, hne'⟩
    have e1' : imCopy w.im h.img h'.img = .ok im := e1
    have := vgCall_spec hi hr (live_but hv.2 (same_shape_ne hs.2 h1) h2) op
    refine ⟨im, ?_, this.1, this.2, h1, h2⟩
    rw [if_pos e, varAt_is hv.1, Res.ok_bind, varAt_is hs.1, Res.ok_bind, e1']
    rfl

/-- `create`. -/
theorem vgCreate_spec {w : VgWorld} (hi : VgInv w) {v : Nat} {h : VgHandle} (hv : Usable w v h) {wd ht st : Int} {rgba float : Bool}
    (hf : Fit wd ht st rgba) (op : VgOp) : ∃ im, vgCreate w v wd ht st rgba float = .ok { w with im := im } ∧ VgInv { w with im := im } ∧
      VgKeeps w { w with im := im } op ∧ ImEffect w.im im (.resize h.img wd ht st rgba float) := by
  obtain ⟨im, e1, hr, h1⟩ := c80_call_effect (op := .resize h.img wd ht st rgba float) hi.reach ⟨hv.2, hf⟩
  have e1' : imResize w.im h.img wd ht st rgba float = .ok im := e1
  have := vgCall_spec hi hr (live_but hv.2 (by rw [h1.1]; simp) h1.2.2) op
  refine ⟨im, ?_, this.1, this.2, h1⟩
  unfold vgCreate
  rw [varAt_is hv.1, Res.ok_bind, e1']
  rfl

theorem imOk_fit_stride {w i hd l} (h : ImOk w i hd l) : Fit hd.width hd.height hd.stride hd.rgba := by
  have h1 := h.row
  have h2 := h.row_le
  have h3 := h.all_le
  have e : ((if hd.rgba then 4 else 1 : Int)) * (hd.width : Int) = ((imChannels hd.rgba * hd.width : Nat) : Int) := by
    unfold imChannels
    split <;> simp
  unfold Fit
  dsimp only
  rw [e]
  refine ⟨Int.natCast_nonneg _, Int.natCast_nonneg _, by omega, ?_⟩
  rw [Int.max_eq_left (by omega)]
  omega

/-- A C function changes which images there are only by making or freeing one. -/
theorem effect_live {w : VgWorld} {im : IWorld} {op : IOp} (ha : ImAllowed w.im op) (h : ImEffect w.im im op) (i : Nat) (hf : op ≠ .free i)
    (hi : i ≠ w.im.hdrs.length) : ImLive { w with im := im } i ↔ ImLive w i := by
  cases op with
  | alloc => exact same_live (w' := { w with im := im }) (h.2 i hi)
  | new => exact same_live (w' := { w with im := im }) (h.2 i hi)
  | newLike => exact same_live (w' := { w with im := im }) (h.2 i hi)
  | copy0 => exact same_live (w' := { w with im := im }) (h.2 i hi)
  | resize j => exact live_but (i := j) ha.1 (by rw [h.1]; simp) h.2.2 i
  | resizeLike j =>
    obtain ⟨⟨t, _, ht⟩, _, ho⟩ := h
    exact live_but (i := j) ha.1 (by rw [ht]; simp) ho i
  | release j => exact live_but (i := j) ha (by rw [h.1]; simp) h.2 i
  | copy d s => exact live_but (i := d) ha.1 (same_shape_ne (i := s) ha.2.1 h.1) h.2 i
  | wrap j => exact live_but (i := j) ha.1 (by rw [h.1]; simp) h.2.2 i
  | swap a b =>
    obtain ⟨h1, h2, h3⟩ := h
    by_cases e : i = a
    · subst e
      exact ⟨fun _ => ha.1, fun _ => imLive_iff.mpr (same_shape_ne (i := b) ha.2 h1)⟩
    · by_cases e' : i = b
      · subst e'
        exact ⟨fun _ => ha.2, fun _ => imLive_iff.mpr (same_shape_ne (i := a) ha.1 h2)⟩
      · exact same_live (w' := { w with im := im }) (h3 i e e')
  | setZero j => exact live_but (i := j) ha (by rw [h.1]; exact imLive_iff.mp ha) h.2.2 i
  | free j => exact same_live (w' := { w with im := im }) (h.2 i (by rintro rfl; exact hf rfl))

/-- Each call does what it should and keeps what holds of all states. -/
theorem vgStep_spec {w : VgWorld} {op : VgOp} (hi : VgInv w) (ha : VgAllowed w op) :
    ∃ w', vgStep w op = .ok w' ∧ VgInv w' ∧ VgKeeps w w' op ∧ VgEffect w w' op := by
  cases op with
  | ctor =>
    obtain ⟨im, e, h1, h2, h3⟩ := vgCtor_spec hi
    have hsame : ∀ i, ImLive w i → Same w.im i im i := fun i hl => h3 i (by rintro rfl; exact notLive_last hl)
    refine ⟨_, e, h1, ⟨?_, ?_, ?_⟩, by simp [varNew], fun v hv => varNew_vars hv, ⟨_, ⟨_, varIs_last, rfl⟩, notLive_last, h2⟩, hsame⟩
    · rintro i ⟨u, h, hu, ho, rfl⟩
      exact h1.own u h hu ho
    · intro i a b
      exact absurd ((same_live (w' := varNew { w with im := im, grps := w.grps + 1 } _) (hsame i a)).mpr a) b
    · intro i a b
      left
      by_cases e : i = w.im.hdrs.length
      · exact absurd ⟨_, _, varIs_last, rfl, e.symm⟩ b
      · refine ⟨(same_live (w' := varNew { w with im := im, grps := w.grps + 1 } _) (h3 i e)).mp a, fun h => b ?_⟩
        exact owned_new (w := { w with im := im, grps := w.grps + 1 }) h
  | ctorWrap i own =>
    have h1 := varNew_spec hi (x := ⟨i, w.grps, own⟩) (Nat.le_succ _) (.inr ⟨⟨rfl, ha⟩, Nat.lt_succ_self _⟩)
    exact ⟨_, rfl, h1, varNew_keeps h1 _, fun v hv => varNew_vars (w := { w with grps := w.grps + 1 }) hv, ⟨_, varIs_last, rfl⟩, rfl⟩
  | copyCtor s =>
    obtain ⟨h, hs⟩ := ha
    have h1 := varNew_spec hi (x := h) (Nat.le_refl _) (.inl ⟨s, hs⟩)
    refine ⟨_, ?_, h1, varNew_keeps h1 _, fun v hv => varNew_vars hv, ?_, rfl⟩
    · show (varAt w s).bind _ = _
      rw [varAt_is hs]
      rfl
    · intro i hsh
      exact ⟨h, varIs_last, (shows_is hs hsh).symm⟩
  | assign v s =>
    obtain ⟨⟨o, hv⟩, h, hs⟩ := ha
    obtain ⟨w', e, h1, h2, h3, h4⟩ := varPut_spec hi hv (some h) w.grps (Nat.le_refl _) (by rintro _ ⟨⟩; exact .inl ⟨s, hs⟩)
    have hlt : v < w.vars.length := (List.getElem?_eq_some_iff.mp hv).1
    refine ⟨w', ?_, h1, varPut_keeps h1 hv _ h2 h3, fun u hu => by rw [h2, List.getElem?_set_ne (Ne.symm hu)], ?_, h4⟩
    · show (varAt w s).bind _ = _
      rw [varAt_is hs]
      exact e
    · intro i hsh
      refine ⟨h, ?_, (shows_is hs hsh).symm⟩
      unfold VarIs
      rw [h2, List.getElem?_set_self hlt]
  | swapWith v s =>
    obtain ⟨⟨hv', hv⟩, hs', hs⟩ := ha
    have hlv : v < w.vars.length := (List.getElem?_eq_some_iff.mp hv).1
    have hls : s < w.vars.length := (List.getElem?_eq_some_iff.mp hs).1
    have hgs : ((w.vars.set v (some hs')).set s (some hv'))[s]? = some (some hv') := by
      rw [List.getElem?_set_self (by simpa using hls)]
    have hgv : ((w.vars.set v (some hs')).set s (some hv'))[v]? = some (some hs') := by
      by_cases e : s = v
      · subst e
        rw [hgs, varIs_fun hv hs]
      · rw [List.getElem?_set_ne e, List.getElem?_set_self hlv]
    have hgo : ∀ u, u ≠ v → u ≠ s → ((w.vars.set v (some hs')).set s (some hv'))[u]? = w.vars[u]? := by
      intro u h1 h2
      rw [List.getElem?_set_ne (Ne.symm h2), List.getElem?_set_ne (Ne.symm h1)]
    have hback : ∀ u h, VarIs { w with vars := (w.vars.set v (some hs')).set s (some hv') } u h → ∃ u', VarIs w u' h := by
      intro u h hu
      unfold VarIs at hu
      dsimp only at hu
      by_cases e : u = s
      · subst e
        rw [hgs] at hu
        cases hu
        exact ⟨v, hv⟩
      · by_cases e' : u = v
        · subst e'
          rw [hgv] at hu
          cases hu
          exact ⟨s, hs⟩
        · rw [hgo u e' e] at hu
          exact ⟨u, hu⟩
    have hforth : ∀ u h, VarIs w u h → ∃ u', VarIs { w with vars := (w.vars.set v (some hs')).set s (some hv') } u' h := by
      intro u h hu
      by_cases e : u = s
      · subst e
        rw [varIs_fun hu hs]
        exact ⟨v, hgv⟩
      · by_cases e' : u = v
        · subst e'
          rw [varIs_fun hu hv]
          exact ⟨s, hgs⟩
        · exact ⟨u, (hgo u e' e).trans hu⟩
    have h1 : VgInv { w with vars := (w.vars.set v (some hs')).set s (some hv') } := by
      refine ⟨hi.reach, ?_, ?_, ?_, ?_⟩
      · intro u h hu ho
        obtain ⟨u', hu'⟩ := hback u h hu
        exact hi.own u' h hu' ho
      · intro u h hu
        obtain ⟨u', hu'⟩ := hback u h hu
        exact hi.lt u' h hu'
      · intro a x b y hx hy
        obtain ⟨a', hx'⟩ := hback a x hx
        obtain ⟨b', hy'⟩ := hback b y hy
        exact hi.same a' x b' y hx' hy'
      · intro a x b y hx hy
        obtain ⟨a', hx'⟩ := hback a x hx
        obtain ⟨b', hy'⟩ := hback b y hy
        exact hi.sole a' x b' y hx' hy'
    refine ⟨_, ?_, h1, ⟨?_, fun i a b => absurd a b, fun i a b => .inl ⟨a, ?_⟩⟩, hgo, hgv.trans hs.symm, hgs.trans hv.symm, rfl⟩
    · show (varAt w v).bind _ = _
      rw [varAt_is hv, Res.bind]
      show (varAt w s).bind _ = _
      rw [varAt_is hs, Res.bind]
      rfl
    · rintro i ⟨u, h, hu, ho, rfl⟩
      exact h1.own u h hu ho
    · rintro ⟨u, h, hu, ho, him⟩
      obtain ⟨u', hu'⟩ := hforth u h hu
      exact b ⟨u', h, hu', ho, him⟩
  | wrapImg v i own =>
    obtain ⟨⟨o, hv⟩, hown⟩ := ha
    obtain ⟨w', e, h1, h2, h3, h4⟩ := varPut_spec hi hv (some ⟨i, w.grps, own⟩) (w.grps + 1) (Nat.le_succ _)
      (by rintro _ ⟨⟩; exact .inr ⟨⟨rfl, hown⟩, Nat.lt_succ_self _⟩)
    have hlt : v < w.vars.length := (List.getElem?_eq_some_iff.mp hv).1
    refine ⟨w', e, h1, varPut_keeps h1 hv _ h2 h3, fun u hu => by rw [h2, List.getElem?_set_ne (Ne.symm hu)], ?_, h4⟩
    refine ⟨⟨i, w.grps, own⟩, ?_, rfl⟩
    unfold VarIs
    rw [h2, List.getElem?_set_self hlt]
  | wrapData v data wd ht st rgba float own =>
    obtain ⟨h, hv, ha⟩ := ha
    obtain ⟨im, e1, hr, h1⟩ := c80_call_effect (op := .wrap h.img data wd ht st rgba float own) hi.reach ⟨hv.2, ha⟩
    have e1' : imWrap w.im h.img data wd ht st rgba float own = .ok im := e1
    have := vgCall_spec hi hr (live_but hv.2 (by rw [h1.1]; simp) h1.2.2) (.wrapData v data wd ht st rgba float own)
    refine ⟨_, ?_, this.1, this.2, rfl, ?_⟩
    · show (varAt w v).bind _ = _
      rw [varAt_is hv.1, Res.bind, e1']
      rfl
    · intro i hs
      rw [shows_is hv.1 hs]
      exact h1
  | create v wd ht st rgba float =>
    obtain ⟨h, hv, hf⟩ := ha
    obtain ⟨im, e, h1, h2, h3⟩ := vgCreate_spec (float := float) hi hv hf (.create v wd ht st rgba float)
    refine ⟨_, e, h1, h2, rfl, ?_⟩
    intro i hs
    rw [shows_is hv.1 hs]
    exact h3
  | createLike v s =>
    obtain ⟨⟨h, hv⟩, h', hs⟩ := ha
    obtain ⟨hd, hhd⟩ := hs.2
    obtain ⟨l, hl⟩ := (ireach_inv hi.reach).img _ hd hhd
    obtain ⟨im, e, h1, h2, h3⟩ := vgCreate_spec (float := hd.float) hi hv (imOk_fit_stride hl) (.createLike v s)
    refine ⟨_, ?_, h1, h2, rfl, ?_⟩
    · show (varAt w s).bind _ = _
      rw [varAt_is hs.1, Res.bind]
      show (hdrAt w.im h'.img).bind _ = _
      rw [show hdrAt w.im h'.img = .ok hd by unfold hdrAt; rw [show w.im.hdrs[h'.img]? = some (some hd) from hhd]]
      exact e
    · intro i j hsi hsj
      rw [shows_is hv.1 hsi, shows_is hs.1 hsj]
      refine ⟨?_, h3.2.2⟩
      rw [show imShape w.im h'.img = some hd.shape by
        unfold imShape; rw [show w.im.hdrs[h'.img]? = some (some hd) from hhd]]
      refine h3.1.trans ?_
      have hrow : (if hd.rgba then 4 else 1) * hd.width ≤ hd.stride := hl.row
      simp only [Int.toNat_natCast]
      rw [Nat.max_eq_left hrow]
      rfl
  | copyOf v s =>
    obtain ⟨h, h', hv, hs, hne⟩ := ha
    obtain ⟨im, e, h1, h2, h3, h4⟩ := vgCopyOf_spec hi hv hs hne (.copyOf v s)
    refine ⟨_, e, h1, h2, rfl, ?_⟩
    intro i j hsi hsj
    rw [shows_is hv.1 hsi, shows_is hs.1 hsj]
    exact ⟨h3, h4⟩
  | clone s =>
    obtain ⟨h, hs⟩ := ha
    obtain ⟨im, e, h1, h2, h3⟩ := vgCtor_spec hi
    have hne : h.img ≠ w.im.hdrs.length := by
      intro e'
      have := hs.2
      rw [e'] at this
      exact notLive_last this
    have hsame : ∀ i, ImLive w i → Same w.im i im i := fun i hl => h3 i (by rintro rfl; exact notLive_last hl)
    obtain ⟨w1, hw1⟩ : ∃ w1, w1 = varNew { w with im := im, grps := w.grps + 1 } ⟨w.im.hdrs.length, w.grps, true⟩ := ⟨_, rfl⟩
    have him1 : w1.im = im := by rw [hw1]; rfl
    rw [← hw1] at e h1
    have hlast : VarIs w1 w.vars.length ⟨w.im.hdrs.length, w.grps, true⟩ := by
      rw [hw1]
      exact varIs_last (w := { w with im := im, grps := w.grps + 1 })
    have hu1 : Usable w1 w.vars.length ⟨w.im.hdrs.length, w.grps, true⟩ := ⟨hlast, h1.own _ _ hlast rfl⟩
    have hsl : ∀ i, ImLive w i → ImLive w1 i := fun i hl => (same_live (by rw [him1]; exact hsame i hl)).mpr hl
    have hu2 : Usable w1 s h := ⟨by rw [hw1]; exact varIs_old (w := { w with im := im, grps := w.grps + 1 }) hs.1, hsl _ hs.2⟩
    obtain ⟨im2, e2, h4, h5, h6, h7⟩ := vgCopyOf_spec h1 hu1 hu2 (fun e' => absurd e'.symm hne) (.clone s)
    have hsame2 : ∀ i, ImLive w i → Same w.im i im2 i := by
      intro i hl
      refine (hsame i hl).trans ?_
      rw [← him1]
      refine h7 i ?_
      rintro rfl
      exact notLive_last hl
    have hvars : ∀ v < w.vars.length, w1.vars[v]? = w.vars[v]? := by
      intro v hv
      rw [hw1]
      exact varNew_vars (w := { w with im := im, grps := w.grps + 1 }) hv
    refine ⟨_, ?_, h4, ⟨h5.owned, ?_, ?_⟩, hvars, ⟨_, ⟨_, hlast, rfl⟩, notLive_last, ?_⟩, hsame2⟩
    · show (vgCtor w).bind (fun w' => vgCopyOf w' w.vars.length s) = _
      rw [e]
      exact e2
    · intro i a b
      exact absurd ((same_live (w' := { w1 with im := im2 }) (hsame2 i a)).mpr a) b
    · intro i a b
      left
      by_cases ei : i = w.im.hdrs.length
      · exact absurd ⟨_, _, hlast, rfl, ei.symm⟩ b
      · have hs1 : Same w.im i im2 i := by
          refine (h3 i ei).trans ?_
          rw [← him1]
          exact h7 i ei
        refine ⟨(same_live (w' := { w1 with im := im2 }) hs1).mp a, fun ho => b ?_⟩
        obtain ⟨u, y, hu, hy, hyi⟩ := ho
        refine ⟨u, y, ?_, hy, hyi⟩
        show w1.vars[u]? = _
        rw [hvars u (List.getElem?_eq_some_iff.mp hu).1]
        exact hu
    · intro j hsj
      rw [shows_is hs.1 hsj]
      refine (hsame _ hs.2).trans ?_
      rw [← him1]
      exact h6
  | release v =>
    obtain ⟨h, hv⟩ := ha
    obtain ⟨im, e1, hr, h1⟩ := c80_call_effect (op := .release h.img) hi.reach hv.2
    have e1' : imRelease w.im h.img = .ok im := e1
    have := vgCall_spec hi hr (live_but hv.2 (by rw [h1.1]; simp) h1.2) (.release v)
    refine ⟨_, ?_, this.1, this.2, rfl, ?_⟩
    · show (varAt w v).bind _ = _
      rw [varAt_is hv.1, Res.bind, e1']
      rfl
    · intro i hs
      rw [shows_is hv.1 hs]
      exact h1
  | setZero v =>
    obtain ⟨h, hv⟩ := ha
    obtain ⟨im, e1, hr, h1⟩ := c80_call_effect (op := .setZero h.img) hi.reach hv.2
    have e1' : imSetZero w.im h.img = .ok im := e1
    have := vgCall_spec hi hr (live_but hv.2 (by rw [h1.1]; exact imLive_iff.mp hv.2) h1.2.2) (.setZero v)
    refine ⟨_, ?_, this.1, this.2, rfl, ?_⟩
    · show (varAt w v).bind _ = _
      rw [varAt_is hv.1, Res.bind, e1']
      rfl
    · intro i hs
      rw [shows_is hv.1 hs]
      exact h1
  | drop v =>
    obtain ⟨o, hv⟩ := ha
    obtain ⟨w', e, h1, h2, h3, h4⟩ := varPut_spec hi hv none w.grps (Nat.le_refl _) (by rintro _ ⟨⟩)
    have hlt : v < w.vars.length := (List.getElem?_eq_some_iff.mp hv).1
    exact ⟨w', e, h1, varPut_keeps h1 hv _ h2 h3, fun u hu => by rw [h2, List.getElem?_set_ne (Ne.symm hu)],
      by rw [h2, List.getElem?_set_self hlt], h4⟩
  | c op =>
    obtain ⟨hall, hfree⟩ := ha
    obtain ⟨im, e1, hr, h1⟩ := c80_call_effect hi.reach hall
    have hlive : ∀ i, ImLive w i → ¬ ImLive { w with im := im } i → op = .free i := by
      intro i a b
      refine Classical.byContradiction fun hne => b ?_
      exact (effect_live hall h1 i hne (by rintro rfl; exact notLive_last a)).mpr a
    refine ⟨{ w with im := im }, ?_, ?_, ⟨?_, ?_, ?_⟩, rfl, h1⟩
    · show (imStep w.im op).bind _ = _
      rw [e1]
      rfl
    · refine ⟨hr, ?_, hi.lt, hi.same, hi.sole⟩
      intro u h hu ho
      refine Classical.byContradiction fun hb => ?_
      exact hfree _ (hlive _ (hi.own u h hu ho) hb) ⟨u, h, hu, ho, rfl⟩
    · rintro i ⟨u, h, hu, ho, rfl⟩
      refine Classical.byContradiction fun hb => ?_
      exact hfree _ (hlive _ (hi.own u h hu ho) hb) ⟨u, h, hu, ho, rfl⟩
    · intro i a b
      exact .inr (by rw [hlive i a b])
    · intro i a b
      by_cases e : i = w.im.hdrs.length
      · exact .inr ⟨e, op, rfl⟩
      · left
        by_cases hf : op = .free i
        · subst hf
          exact absurd h1.1 (imLive_iff.mp a)
        · exact ⟨(effect_live hall h1 i hf e).mp a, b⟩

theorem vgreach_inv {w : VgWorld} (hr : VgReach w) : VgInv w := by
  induction hr with
  | init => exact ⟨.init, by intro v h e; simp [VarIs] at e, by intro v h e; simp [VarIs] at e, by intro v h v' h' e; simp [VarIs] at e,
      by intro v h v' h' e; simp [VarIs] at e⟩
  | step _ ha e ih =>
    obtain ⟨w', e', hi, _⟩ := vgStep_spec ih ha
    rw [e] at e'
    cases e'
    exact hi

/-- C129. A call that follows the rules succeeds and does what it should. An image with an owner is allocated, it is freed with its last
owner and not before, and no image loses its owner without being freed. -/
theorem c129_call {w : VgWorld} {op : VgOp} (hr : VgReach w) (ha : VgAllowed w op) :
    ∃ w', vgStep w op = .ok w' ∧ VgReach w' ∧ VgKeeps w w' op ∧ VgEffect w w' op := by
  obtain ⟨w', e, _, h1, h2⟩ := vgStep_spec (vgreach_inv hr) ha
  exact ⟨w', e, .step hr ha e, h1, h2⟩

/-- The calls of a program that follows the rules. -/
def VgFollows : VgWorld → List VgOp → Prop
  | _, [] => True
  | w, op :: ops => VgAllowed w op ∧ ∀ w', vgStep w op = .ok w' → VgFollows w' ops

/-- No image was made by a C function. -/
def NoC (ops : List VgOp) : Prop := ∀ op ∈ ops, ∀ o, op ≠ .c o

theorem vgRun_reach {w : VgWorld} (hr : VgReach w) (ops : List VgOp) (hf : VgFollows w ops) : ∃ w', vgRun w ops = .ok w' ∧ VgReach w' := by
  induction ops generalizing w with
  | nil => exact ⟨w, rfl, hr⟩
  | cons op ops ih =>
    obtain ⟨w1, e, hr1, _⟩ := c129_call hr hf.1
    obtain ⟨w2, e2, hr2⟩ := ih hr1 (hf.2 w1 e)
    refine ⟨w2, ?_, hr2⟩
    show (vgStep w op).bind _ = _
    rw [e]
    exact e2

theorem vgRun_owned {w : VgWorld} (hr : VgReach w) (ops : List VgOp) (hf : VgFollows w ops) (hc : NoC ops)
    (h0 : ∀ i, ImLive w i → Owned w i) {w' : VgWorld} (e : vgRun w ops = .ok w') : ∀ i, ImLive w' i → Owned w' i := by
  induction ops generalizing w with
  | nil =>
    have : w = w' := Res.ok.inj e
    exact this ▸ h0
  | cons op ops ih =>
    obtain ⟨w1, e1, hr1, hk, _⟩ := c129_call hr hf.1
    refine ih hr1 (hf.2 w1 e1) (fun o ho => hc o (List.mem_cons_of_mem _ ho)) ?_ ?_
    · intro i hl
      refine Classical.byContradiction fun hn => ?_
      rcases hk.kept i hl hn with ⟨a, b⟩ | ⟨_, o, ho⟩
      · exact b (h0 i a)
      · exact hc op (List.mem_cons_self ..) o ho
    · have e' : (vgStep w op).bind (fun s => vgRun s ops) = .ok w' := e
      rw [e1] at e'
      exact e'

/-- C129. In a program that makes all its images by handles, the images that are allocated are at all times those that a variable owns.
After the
last variable has gone there is no image and no memory of one left. -/
theorem c129_program (ops : List VgOp) (hf : VgFollows ⟨⟨⟨[], []⟩, []⟩, 0, []⟩ ops) (hc : NoC ops) :
    ∃ w, vgRun ⟨⟨⟨[], []⟩, []⟩, 0, []⟩ ops = .ok w ∧ (∀ i, ImLive w i ↔ Owned w i) ∧
      ((∀ v h, ¬ VarIs w v h) → (∀ i, ¬ ImLive w i) ∧ ∀ p, ¬ libraryOwned w.im.mem.heap p) := by
  obtain ⟨w, e, hr⟩ := vgRun_reach .init ops hf
  have h1 := vgRun_owned .init ops hf hc (by rintro i ⟨hd, h⟩; simp [ImIs] at h) e
  have hi := vgreach_inv hr
  refine ⟨w, e, fun i => ⟨h1 i, ?_⟩, fun hno => ?_⟩
  · rintro ⟨v, h, hv, ho, rfl⟩
    exact hi.own v h hv ho
  · have h2 : ∀ i, ¬ ImLive w i := by
      intro i hl
      obtain ⟨v, h, hv, _⟩ := h1 i hl
      exact hno v h hv
    exact ⟨h2, c80_no_leak hi.reach fun i hd h => h2 i ⟨hd, h⟩⟩

/-- C129 is false for `copy_of` between two variables that share an image with pixels: the test compares the variables, and `memcpy` gets
the same
memory twice. -/
theorem c129_copy_of_shared {w : VgWorld} (hr : VgReach w) {v s : Nat} {h h' : VgHandle} (hv : VarIs w v h) (hs : VarIs w s h') (hne : v ≠ s)
    (he : h.img = h'.img) {hd : ImHdr} (hd0 : ImIs w.im h.img hd) (hp : 0 < hd.stride * hd.height) : vgStep w (.copyOf v s) = .ub := by
  show vgCopyOf w v s = _
  unfold vgCopyOf
  rw [if_pos (Ne.symm hne), varAt_is hv, Res.ok_bind, varAt_is hs, Res.ok_bind, ← he, c80_self_copy (vgreach_inv hr).reach hd0 hp]
  rfl

/-- C129 is false for an image with two owners: when the first has gone, what the second does is undefined. -/
theorem c129_two_owners {w : VgWorld} {v s : Nat} {h h' : VgHandle} (hr : VgReach w) (hv : VarIs w v h) (hs : VarIs w s h') (hho : h.own =
  true)
    (hsole : ∀ u x, VarIs w u x → x.grp = h.grp → u = v) (hvs : v ≠ s) (hso : h'.own = false) :
    vgRun w [.wrapImg s h.img true, .drop v, .drop s] = .ub := by
  have hi := vgreach_inv hr
  have hlv : v < w.vars.length := (List.getElem?_eq_some_iff.mp hv).1
  have hls : s < w.vars.length := (List.getElem?_eq_some_iff.mp hs).1
  obtain ⟨hd, hlive⟩ := hi.own v h hv hho
  have e1 : vgStep w (.wrapImg s h.img true) =
      .ok { w with grps := w.grps + 1, vars := w.vars.set s (some ⟨h.img, w.grps, true⟩) } := by
    show varPut _ _ _ = _
    unfold varPut
    rw [varAt_is (w := { w with grps := w.grps + 1 }) hs, Res.ok_bind]
    unfold varRelease
    rw [if_neg (by rw [hso]; simp)]
  have hv1 : VarIs { w with grps := w.grps + 1, vars := w.vars.set s (some ⟨h.img, w.grps, true⟩) } v h := by
    unfold VarIs
    rw [List.getElem?_set_ne (Ne.symm hvs)]
    exact hv
  obtain ⟨im, e2, hr2, hgone, _⟩ := c80_call_effect (op := .free h.img) hi.reach ⟨hd, hlive⟩
  have e2' : imFree w.im h.img = .ok im := e2
  have e3 : vgStep { w with grps := w.grps + 1, vars := w.vars.set s (some ⟨h.img, w.grps, true⟩) } (.drop v) =
      .ok { im := im, grps := w.grps + 1, vars := (w.vars.set s (some ⟨h.img, w.grps, true⟩)).set v none } := by
    show varPut _ _ _ = _
    unfold varPut
    rw [varAt_is hv1, Res.ok_bind]
    unfold varRelease
    rw [if_pos, e2']
    · rfl
    · refine ⟨hho, ?_⟩
      rintro ⟨x, hx, y, hy, hg⟩
      have hxe : x = some y := hy
      subst hxe
      obtain ⟨u, hu⟩ := List.getElem?_of_mem hx
      rcases varIs_set (w := { w with vars := w.vars.set s (some ⟨h.img, w.grps, true⟩) }) (g := w.grps + 1) hu with ⟨_, e⟩ | ⟨hne, hu'⟩
      · cases e
      · rcases varIs_set (w := w) (g := w.grps) hu' with ⟨_, e⟩ | ⟨_, hu''⟩
        · cases e
          have := hi.lt v h hv
          simp only at hg
          omega
        · exact hne (hsole u y hu'' hg)
  have hs1 : VarIs { im := im, grps := w.grps + 1, vars := (w.vars.set s (some ⟨h.img, w.grps, true⟩)).set v none } s ⟨h.img, w.grps,
    true⟩ := by
    unfold VarIs
    rw [List.getElem?_set_ne hvs, List.getElem?_set_self hls]
  have hdead : imFree im h.img = .ub := by
    have : ¬ ∃ hd, im.hdrs[h.img]? = some (some hd) := by
      rintro ⟨hd, e⟩
      have hs : imShape im h.img = none := hgone
      unfold imShape at hs
      rw [e] at hs
      cases hs
    unfold imFree hdrAt
    split
    · rename_i hd e
      exact absurd ⟨hd, e⟩ this
    · rfl
  have e4 : vgStep { im := im, grps := w.grps + 1, vars := (w.vars.set s (some ⟨h.img, w.grps, true⟩)).set v none } (.drop s) = .ub := by
    show varPut _ _ _ = _
    unfold varPut
    rw [varAt_is hs1, Res.ok_bind]
    unfold varRelease
    rw [if_pos]
    · show (imFree im h.img).bind _ = _
      rw [hdead]
      rfl
    · refine ⟨rfl, ?_⟩
      rintro ⟨x, hx, y, hy, hg⟩
      have hxe : x = some y := hy
      subst hxe
      obtain ⟨u, hu⟩ := List.getElem?_of_mem hx
      dsimp only at hu hg
      by_cases eu : u = s
      · subst eu
        rw [List.getElem?_set_self (by simpa using hls)] at hu
        cases hu
      · rw [List.getElem?_set_ne (Ne.symm eu)] at hu
        by_cases ev : u = v
        · subst ev
          rw [List.getElem?_set_self (by simpa using hlv)] at hu
          cases hu
        · rw [List.getElem?_set_ne (Ne.symm ev), List.getElem?_set_ne (Ne.symm eu)] at hu
          have := hi.lt u y hu
          omega
  unfold vgRun
  rw [List.foldlM_cons, e1]
  show List.foldlM vgStep _ _ = _
  rw [List.foldlM_cons, e3]
  show List.foldlM vgStep _ _ = _
  rw [List.foldlM_cons, e4]
  rfl

/-- C129 is false for a level of a pyramid (`VGImagePyr::operator[]`, `include/virg/nexus/vg_image_pyr.hpp:59-60`) that is used after the
pyramid: a handle that is not the owner of its image does not keep it. -/
theorem c129_view {w : VgWorld} {v : Nat} {h : VgHandle} (hv : VarIs w v h) (hdead : ¬ ImLive w h.img) :
    vgStep w (.setZero v) = .ub ∧ vgStep w (.release v) = .ub ∧ ∀ wd ht st rgba float, vgStep w (.create v wd ht st rgba float) = .ub := by
  have hh : hdrAt w.im h.img = .ub := by
    unfold hdrAt
    split
    · rename_i hd e
      exact absurd ⟨hd, e⟩ hdead
    · rfl
  refine ⟨?_, ?_, ?_⟩
  · show (varAt w v).bind _ = _
    rw [varAt_is hv, Res.bind]
    unfold imSetZero
    rw [hh]
    rfl
  · show (varAt w v).bind _ = _
    rw [varAt_is hv, Res.bind]
    unfold imRelease
    rw [hh]
    rfl
  · intro wd ht st rgba float
    show (varAt w v).bind _ = _
    rw [varAt_is hv, Res.bind]
    unfold imResize
    rw [hh]
    rfl

/-- The first state of a program, a variable with an image of two pixels, and a second variable for the same image. -/
def vExample0 : VgWorld := ⟨⟨⟨[], []⟩, []⟩, 0, []⟩
def vExample1 : VgWorld := ⟨⟨⟨[], [some ⟨none, 0, 0, false⟩]⟩, [some ⟨0, 0, false, false, 1, 0, none⟩]⟩, 1, [some ⟨0, 0, true⟩]⟩
def vExample2 : VgWorld := ⟨⟨⟨[some ⟨[none, none], false⟩], [some ⟨some 0, 2, 2, true⟩]⟩, [some ⟨2, 1, false, false, 1, 2, some 0⟩]⟩, 1,
  [some ⟨0, 0, true⟩]⟩
def vExample3 : VgWorld := { vExample2 with vars := [some ⟨0, 0, true⟩, some ⟨0, 0, true⟩] }
def vExample4 : VgWorld := { vExample2 with vars := [none, some ⟨0, 0, true⟩] }

/-- Two variables share an image, it goes with the second. -/
example : VgFollows vExample0 [.ctor, .create 0 2 1 (-1) false false, .copyCtor 0, .drop 0, .drop 1] ∧
    vgRun vExample0 [.ctor, .create 0 2 1 (-1) false false, .copyCtor 0, .drop 0, .drop 1] =
      .ok ⟨⟨⟨[none], [none]⟩, [none]⟩, 1, [none, none]⟩ := by
  refine ⟨⟨trivial, fun w1 e1 => ⟨?_, fun w2 e2 => ⟨?_, fun w3 e3 => ⟨?_, fun w4 e4 => ⟨?_, fun w5 _ => trivial⟩⟩⟩⟩⟩, by decide +kernel⟩
  all_goals
    rw [show vgStep vExample0 .ctor = .ok vExample1 by decide +kernel] at e1
    cases e1
  · exact ⟨⟨0, 0, true⟩, ⟨rfl, _, rfl⟩, by unfold Fit; decide⟩
  all_goals
    rw [show vgStep vExample1 (.create 0 2 1 (-1) false false) = .ok vExample2 by decide +kernel] at e2
    cases e2
  · exact ⟨⟨0, 0, true⟩, rfl⟩
  all_goals
    rw [show vgStep vExample2 (.copyCtor 0) = .ok vExample3 by decide +kernel] at e3
    cases e3
  · exact ⟨⟨0, 0, true⟩, rfl⟩
  · rw [show vgStep vExample3 (.drop 0) = .ok vExample4 by decide +kernel] at e4
    cases e4
    exact ⟨⟨0, 0, true⟩, rfl⟩

/-- A shared image, a copy of it onto itself. -/
example : vgRun vExample0 [.ctor, .create 0 2 1 (-1) false false, .copyCtor 0, .copyOf 1 0] = .ub := by decide +kernel

/-- A second owner, and a handle that outlives the owner. -/
example : vgRun vExample0 [.ctor, .create 0 2 1 (-1) false false, .ctorWrap 0 false, .wrapImg 1 0 true, .drop 0, .drop 1] = .ub ∧
    vgRun vExample0 [.ctor, .create 0 2 1 (-1) false false, .ctorWrap 0 false, .drop 0, .setZero 1] = .ub := by decide +kernel

/-- A handle that does not own its image, used while the owner is there; its clone is another image. -/
example : vgRun vExample0 [.ctor, .create 0 2 1 (-1) false false, .ctorWrap 0 false, .setZero 1, .clone 1, .drop 0, .drop 1, .drop 2] =
    .ok ⟨⟨⟨[none, none], [none, none]⟩, [none, none]⟩, 3, [none, none, none]⟩ := by decide +kernel

end Nx
