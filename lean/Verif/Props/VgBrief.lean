import Verif.Model.VgBrief
import Verif.Props.BriefRandom

/-!
# C144: variables of the class `VGBriefExtractor`
-/

namespace Nx

/-! ## What the user sees -/

/-- The extractor of a variable, with its tests. -/
def vbTests (w : VbWorld) (v : Nat) : Option Brief :=
  match w.vars[v]? with
  | some (some q) => w.objs[q]?.join
  | _ => none

/-- Two variables that exist have the same extractor. -/
def VbShare (w : VbWorld) (u v : Nat) : Prop := ∃ q : Nat, w.vars[u]? = some (some q) ∧ w.vars[v]? = some (some q)

/-- Tests in the square of the radius, as in C143, and no room for more. -/
def VbGood (be : Brief) : Prop :=
  ∃ (o : List Int) (r n : Nat), be.offsets = some o ∧ be.radius = r ∧ be.nOctets = n ∧ 1 ≤ r ∧ r ≤ 16383 ∧ o.length = 32 * n ∧
    GoodTests r (8 * n) o ∧ InLimits be.limits o (8 * n)

/-- What a call does to the tests of all variables and to which of them share an extractor. -/
def VbSpec (gen : BitVec 32 → List (BitVec 32)) (w w' : VbWorld) : VbOp → Prop
  | .make now n r =>
    (∃ be, vgBriefNew gen now n r = .ok (some be) ∧ ∀ u, vbTests w' u = if u = w.vars.length then some be else vbTests w u) ∧
    ∀ a b, VbShare w' a b ↔ (a = w.vars.length ∧ b = w.vars.length) ∨ VbShare w a b
  | .copy s =>
    (∀ u, vbTests w' u = vbTests w (if u = w.vars.length then s else u)) ∧
    ∀ a b, VbShare w' a b ↔ VbShare w (if a = w.vars.length then s else a) (if b = w.vars.length then s else b)
  | .assign v s =>
    (∀ u, vbTests w' u = vbTests w (if u = v then s else u)) ∧
    ∀ a b, VbShare w' a b ↔ VbShare w (if a = v then s else a) (if b = v then s else b)
  | .resize v now n r =>
    (∃ be, vgBriefNew gen now n r = .ok (some be) ∧ ∀ u, vbTests w' u = if u = v then some be else vbTests w u) ∧
    ∀ a b, VbShare w' a b ↔ (a = v ∧ b = v) ∨ (a ≠ v ∧ b ≠ v ∧ VbShare w a b)
  | .seed v s | .random v s =>
    (∃ be be', vbTests w v = some be ∧ briefSeeded (gen s) be = .ok (some be') ∧
      ∀ u, (VbShare w u v → vbTests w' u = some be') ∧ (¬VbShare w u v → vbTests w' u = vbTests w u)) ∧
    ∀ a b, VbShare w' a b ↔ VbShare w a b
  | .drop v =>
    (∀ u, vbTests w' u = if u = v then none else vbTests w u) ∧
    ∀ a b, VbShare w' a b ↔ (a ≠ v ∧ b ≠ v ∧ VbShare w a b)

/-! ## Extractors -/

theorem VbGood.seeded {be : Brief} (h : VbGood be) (vs : List (BitVec 32)) :
    briefSeeded vs be = .ok none ∨ ∃ be', briefSeeded vs be = .ok (some be') ∧ VbGood be' := by
  obtain ⟨o, r, n, ho, hr, hn, h1, h2, hl, -, -⟩ := h
  rcases c143_tests ho hr hn h1 h2 (by omega) vs with h | ⟨o', lim, h, g, hl', -, hi, -⟩
  · exact .inl h
  · exact .inr ⟨_, h, o', r, n, rfl, hr, hn, h1, h2, by omega, g, hi⟩

theorem VbGood.good {be : Brief} (h : VbGood be) (gen : BitVec 32 → List (BitVec 32)) :
    briefGood gen be = .ok none ∨ ∃ be', briefGood gen be = .ok (some be') ∧ VbGood be' := by
  unfold briefGood
  split
  · exact h.seeded _
  · exact h.seeded _

theorem briefSized_good {n r : Int} (hn : n ≤ 67108863) (hr : r ≤ 16383) (vs : List (BitVec 32)) :
    briefSized vs briefAlloc n r = .fatal ∨ briefSized vs briefAlloc n r = .ok none ∨
      ∃ be, briefSized vs briefAlloc n r = .ok (some be) ∧ VbGood be := by
  unfold briefSized
  by_cases h1 : n > 0
  · by_cases h2 : r > 0
    · rw [if_pos h1, if_pos h2, if_pos (by unfold InI32; omega)]
      have hlen : (briefReserve briefAlloc n).length = 32 * n.toNat := by
        unfold briefReserve
        rw [if_pos (show briefAlloc.nOctets < n by simp only [briefAlloc]; omega), List.length_replicate]
        omega
      rcases c143_tests (be := ⟨r, n, some (briefReserve briefAlloc n), briefAlloc.limits, briefAlloc.pyrLevelOffset⟩) (r := r.toNat)
        (n := n.toNat) rfl (by simp only; omega) (by simp only; omega) (by omega) (by omega) (by rw [hlen]) vs with
        h | ⟨o', lim, h, g, hl, -, hi, -⟩
      · exact .inr (.inl h)
      · exact .inr (.inr ⟨_, h, o', r.toNat, n.toNat, rfl, by simp only; omega, by simp only; omega, by omega, by omega, by omega, g, hi⟩)
    · rw [if_pos h1, if_neg h2]
      exact .inl rfl
  · rw [if_neg h1]
    exact .inl rfl

/-! ## The invariant -/

/-- What holds between calls: variables have extractors that are allocated, and each of these is in a variable. -/
structure VbInv (w : VbWorld) : Prop where
  held : ∀ (v q : Nat), w.vars[v]? = some (some q) → ∃ be, w.objs[q]? = some (some be) ∧ VbGood be
  only : ∀ (q : Nat) (be : Brief), w.objs[q]? = some (some be) → some q ∈ w.vars

theorem vbVar_ok {w : VbWorld} {v q : Nat} : vbVar w v = .ok q ↔ w.vars[v]? = some (some q) := by
  unfold vbVar
  constructor
  · intro h
    split at h
    · cases h
      assumption
    · cases h
  · intro h
    rw [h]

theorem vbObj_ok {w : VbWorld} {q : Nat} {be : Brief} : vbObj w q = .ok be ↔ w.objs[q]? = some (some be) := by
  unfold vbObj
  constructor
  · intro h
    split at h
    · cases h
      assumption
    · cases h
  · intro h
    rw [h]

theorem vbTests_of {w : VbWorld} {v q : Nat} (h : w.vars[v]? = some (some q)) : vbTests w v = w.objs[q]?.join := by
  unfold vbTests
  rw [h]

/-- A variable that gets another value. -/
theorem vbPut_spec {w : VbWorld} {v old : Nat} {h : Option Nat} (hv : w.vars[v]? = some (some old))
    (held : ∀ (v q : Nat), w.vars[v]? = some (some q) → ∃ be, w.objs[q]? = some (some be) ∧ VbGood be)
    (only : ∀ (q : Nat) (be : Brief), w.objs[q]? = some (some be) → some q ∈ w.vars ∨ h = some q)
    (hh : ∀ q, h = some q → ∃ be, w.objs[q]? = some (some be) ∧ VbGood be) :
    ∃ w', vbPut w v h = .ok w' ∧ VbInv w' ∧ w'.vars = w.vars.set v h ∧ ∀ q : Nat, some q ∈ w'.vars → w'.objs[q]? = w.objs[q]? := by
  have hlt : v < w.vars.length := (List.getElem?_eq_some_iff.mp hv).1
  have held' : ∀ (u q : Nat), (w.vars.set v h)[u]? = some (some q) → ∃ be, w.objs[q]? = some (some be) ∧ VbGood be := by
    intro u q hu
    by_cases e : v = u
    · subst e
      rw [List.getElem?_set_self hlt] at hu
      exact hh q (Option.some.inj hu)
    · rw [List.getElem?_set_ne e] at hu
      exact held u q hu
  have only' : ∀ (q : Nat) (be : Brief), w.objs[q]? = some (some be) → some q ∈ w.vars.set v h ∨ q = old := by
    intro q be hq
    rcases only q be hq with hm | hm
    · obtain ⟨u, hu⟩ := List.mem_iff_getElem?.mp hm
      by_cases e : v = u
      · subst e
        rw [hv] at hu
        cases hu
        exact .inr rfl
      · exact .inl (List.mem_iff_getElem?.mpr ⟨u, by rw [List.getElem?_set_ne e]; exact hu⟩)
    · exact .inl (List.mem_iff_getElem?.mpr ⟨v, by rw [List.getElem?_set_self hlt, hm]⟩)
  unfold vbPut
  rw [vbVar_ok.mpr hv, Res.ok_bind]
  unfold vbLet
  by_cases hm : some old ∈ w.vars.set v h
  · rw [if_pos hm]
    refine ⟨_, rfl, ⟨held', fun q be hq => ?_⟩, rfl, fun q _ => rfl⟩
    rcases only' q be hq with h1 | rfl
    · exact h1
    · exact hm
  · rw [if_neg hm]
    obtain ⟨be, hbe, -⟩ := held v old hv
    rw [(vbObj_ok (w := ⟨w.objs, w.vars.set v h⟩)).mpr hbe, Res.ok_bind]
    have keep : ∀ q : Nat, some q ∈ w.vars.set v h → (w.objs.set old none)[q]? = w.objs[q]? := by
      intro q hq
      have : old ≠ q := fun e => hm (e ▸ hq)
      rw [List.getElem?_set_ne this]
    refine ⟨_, rfl, ⟨fun u q hu => ?_, fun q be hq => ?_⟩, rfl, keep⟩
    · rw [keep q (List.mem_of_getElem? hu)]
      exact held' u q hu
    · by_cases e : old = q
      · subst e
        rw [List.getElem?_set_self (List.getElem?_eq_some_iff.mp hbe).1] at hq
        cases hq
      · simp only [List.getElem?_set_ne e] at hq
        rcases only' q be hq with h1 | rfl
        · exact h1
        · exact absurd rfl e

/-- A call that changes the extractor of a variable. -/
def vbMod (f : Brief → Res (Option Brief)) (w : VbWorld) (v : Nat) : Res (Option VbWorld) := do
  let q ← vbVar w v
  let be ← vbObj w q
  match ← f be with
  | none => pure none
  | some be => pure (some { w with objs := w.objs.set q (some be) })

theorem vbMod_spec {f : Brief → Res (Option Brief)} (hf : ∀ be, VbGood be → f be = .ok none ∨ ∃ be', f be = .ok (some be') ∧ VbGood be')
    {w : VbWorld} (hw : VbInv w) {v q : Nat} (hv : w.vars[v]? = some (some q)) :
    vbMod f w v = .ok none ∨ ∃ be be', w.objs[q]? = some (some be) ∧ f be = .ok (some be') ∧
      vbMod f w v = .ok (some { w with objs := w.objs.set q (some be') }) ∧ VbInv { w with objs := w.objs.set q (some be') } := by
  obtain ⟨be, hbe, hg⟩ := hw.held v q hv
  unfold vbMod
  rw [vbVar_ok.mpr hv, Res.ok_bind, vbObj_ok.mpr hbe, Res.ok_bind]
  rcases hf be hg with h | ⟨be', h, hg'⟩
  · rw [h]
    exact .inl rfl
  · rw [h]
    have hlt := (List.getElem?_eq_some_iff.mp hbe).1
    refine .inr ⟨be, be', hbe, h, rfl, ⟨fun u p hu => ?_, fun p x hp => ?_⟩⟩
    · by_cases e : q = p
      · subst e
        exact ⟨be', by rw [List.getElem?_set_self hlt], hg'⟩
      · simp only [List.getElem?_set_ne e]
        exact hw.held u p hu
    · by_cases e : q = p
      · subst e
        exact List.mem_of_getElem? hv
      · simp only [List.getElem?_set_ne e] at hp
        exact hw.only p x hp

theorem vbTests_congr {w w' : VbWorld} {u u' : Nat} (h : w'.vars[u]? = w.vars[u']?)
    (ho : ∀ p : Nat, w'.vars[u]? = some (some p) → w'.objs[p]? = w.objs[p]?) : vbTests w' u = vbTests w u' := by
  unfold vbTests
  rw [← h]
  split
  · rename_i p hp
    rw [ho p hp]
  · rfl

theorem vbShare_congr {w w' : VbWorld} {f : Nat → Nat} (h : ∀ u : Nat, w'.vars[u]? = w.vars[f u]?) (a b : Nat) :
    VbShare w' a b ↔ VbShare w (f a) (f b) := by
  unfold VbShare
  rw [h, h]

/-! ## Calls -/

/-- The variables that a call uses exist, and its sizes are not too large; `l` says which variables exist. -/
def VbLegal (l : List Bool) : VbOp → Prop
  | .make _ n r => n ≤ 67108863 ∧ r ≤ 16383
  | .copy s => l[s]? = some true
  | .assign v s => l[v]? = some true ∧ l[s]? = some true
  | .resize v _ n r => l[v]? = some true ∧ n ≤ 67108863 ∧ r ≤ 16383
  | .seed v _ | .random v _ => l[v]? = some true
  | .drop v => l[v]? = some true

/-- Which variables exist after a call. -/
def vbAlive (l : List Bool) : VbOp → List Bool
  | .make _ _ _ | .copy _ => l ++ [true]
  | .drop v => l.set v false
  | _ => l

theorem vbLive {w : VbWorld} {v : Nat} (h : (w.vars.map Option.isSome)[v]? = some true) : ∃ q : Nat, w.vars[v]? = some (some q) := by
  rw [List.getElem?_map] at h
  match hv : w.vars[v]? with
  | none => rw [hv] at h; cases h
  | some none => rw [hv] at h; cases h
  | some (some q) => exact ⟨q, rfl⟩

theorem set_isSome {l : List (Option Nat)} {v : Nat} {h : Option Nat} (hv : (l.map Option.isSome)[v]? = some h.isSome) :
    (l.set v h).map Option.isSome = l.map Option.isSome := by
  rw [List.map_set]
  apply List.ext_getElem?
  intro u
  by_cases e : v = u
  · subst e
    rw [List.getElem?_set_self (List.getElem?_eq_some_iff.mp hv).1, hv]
  · rw [List.getElem?_set_ne e]

/-- New tests for the extractor of a variable. -/
theorem vbMod_step {w w' : VbWorld} {v q : Nat} {be be' : Brief} (hv : w.vars[v]? = some (some q)) (hbe : w.objs[q]? = some (some be))
    (hw' : w' = { w with objs := w.objs.set q (some be') }) :
    (∀ u, (VbShare w u v → vbTests w' u = some be') ∧ (¬VbShare w u v → vbTests w' u = vbTests w u)) ∧
    ∀ a b, VbShare w' a b ↔ VbShare w a b := by
  subst hw'
  have hlt := (List.getElem?_eq_some_iff.mp hbe).1
  refine ⟨fun u => ⟨fun ⟨p, h1, h2⟩ => ?_, fun hn => ?_⟩, fun a b => Iff.rfl⟩
  · rw [hv] at h2
    cases h2
    rw [vbTests_of (w := ⟨w.objs.set q (some be'), w.vars⟩) h1, List.getElem?_set_self hlt]
    rfl
  · refine vbTests_congr (w := w) (w' := ⟨w.objs.set q (some be'), w.vars⟩) (u' := u) rfl ?_
    intro p hp
    have : q ≠ p := by
      rintro rfl
      exact hn ⟨q, hp, hv⟩
    simp only [List.getElem?_set_ne this]

/-- Each call on variables that exist either stops the program or does what is specified. -/
theorem vbStep_spec {gen : BitVec 32 → List (BitVec 32)} {w : VbWorld} (hw : VbInv w) {op : VbOp}
    (hl : VbLegal (w.vars.map Option.isSome) op) :
    vbStep gen w op = .fatal ∨ vbStep gen w op = .ok none ∨ ∃ w', vbStep gen w op = .ok (some w') ∧ VbInv w' ∧ VbSpec gen w w' op ∧
      w'.vars.map Option.isSome = vbAlive (w.vars.map Option.isSome) op := by
  have fresh : ∀ (u p : Nat), w.vars[u]? = some (some p) → p < w.objs.length := by
    intro u p h
    obtain ⟨be, hbe, -⟩ := hw.held u p h
    exact (List.getElem?_eq_some_iff.mp hbe).1
  have seeds : ∀ (v : Nat) (s : BitVec 32), (w.vars.map Option.isSome)[v]? = some true →
      vbSeed gen w v s = .ok none ∨ ∃ w', vbSeed gen w v s = .ok (some w') ∧ VbInv w' ∧ VbSpec gen w w' (.seed v s) ∧
        w'.vars.map Option.isSome = w.vars.map Option.isSome := by
    intro v s h
    obtain ⟨q, hv⟩ := vbLive h
    rcases vbMod_spec (f := briefSeeded (gen s)) (fun be h => h.seeded _) hw hv with h | ⟨be, be', hbe, hf, h, hi⟩
    · exact .inl h
    · obtain ⟨h1, h2⟩ := vbMod_step hv hbe (be' := be') rfl
      exact .inr ⟨_, h, hi, ⟨⟨be, be', by rw [vbTests_of hv, hbe]; rfl, hf, h1⟩, h2⟩, rfl⟩
  cases op with
  | make now n r =>
    rcases briefSized_good hl.1 hl.2 (gen now) with h | h | ⟨be, h, hg⟩
    · exact .inl (by rw [vbStep, h]; rfl)
    · exact .inr (.inl (by rw [vbStep, h]; rfl))
    · right
      have e : vbStep gen w (.make now n r) = vbMod (briefGood gen) ⟨w.objs ++ [some be], w.vars ++ [some w.objs.length]⟩ w.vars.length := by
        rw [vbStep, h]
        rfl
      have hi : VbInv ⟨w.objs ++ [some be], w.vars ++ [some w.objs.length]⟩ := by
        constructor
        · intro u p hu
          simp only at hu ⊢
          by_cases hlt : u < w.vars.length
          · rw [List.getElem?_append_left hlt] at hu
            rw [List.getElem?_append_left (fresh u p hu)]
            exact hw.held u p hu
          · by_cases e2 : u = w.vars.length
            · subst e2
              rw [List.getElem?_concat_length] at hu
              cases hu
              exact ⟨be, List.getElem?_concat_length, hg⟩
            · rw [List.getElem?_eq_none (by rw [List.length_append, List.length_singleton]; omega)] at hu
              cases hu
        · intro p x hp
          simp only at hp ⊢
          by_cases hlt : p < w.objs.length
          · rw [List.getElem?_append_left hlt] at hp
            exact List.mem_append_left _ (hw.only p x hp)
          · have := (List.getElem?_eq_some_iff.mp hp).1
            rw [List.length_append, List.length_singleton] at this
            rw [show p = w.objs.length by omega]
            simp
      have hv : (w.vars ++ [some w.objs.length])[w.vars.length]? = some (some w.objs.length) := List.getElem?_concat_length
      rw [e]
      rcases vbMod_spec (f := briefGood gen) (fun be h => h.good _) hi hv with h2 | ⟨be1, be', hbe, hf, h2, hi2⟩
      · exact .inl h2
      · have : be1 = be := by
          simp only [List.getElem?_concat_length, Option.some.injEq] at hbe
          exact hbe.symm
        subst this
        refine .inr ⟨_, h2, hi2, ⟨⟨be', ?_, fun u => ?_⟩, fun a b => ?_⟩, ?_⟩
        · rw [vgBriefNew, h]
          exact hf
        · by_cases hu : u = w.vars.length
          · subst hu
            rw [if_pos rfl, vbTests_of hv, List.getElem?_set_self (by rw [List.length_append, List.length_singleton]; omega)]
            rfl
          · rw [if_neg hu]
            have e1 : (w.vars ++ [some w.objs.length])[u]? = w.vars[u]? := by
              by_cases hlt : u < w.vars.length
              · rw [List.getElem?_append_left hlt]
              · rw [List.getElem?_eq_none (by rw [List.length_append, List.length_singleton]; omega), List.getElem?_eq_none (by omega)]
            apply vbTests_congr e1
            intro p hp
            have hp : (w.vars ++ [some w.objs.length])[u]? = some (some p) := hp
            rw [e1] at hp
            have := fresh u p hp
            simp only
            rw [List.getElem?_set_ne (by omega), List.getElem?_append_left this]
        · have e1 : ∀ u : Nat, u ≠ w.vars.length → (w.vars ++ [some w.objs.length])[u]? = w.vars[u]? := by
            intro u hu
            by_cases hlt : u < w.vars.length
            · rw [List.getElem?_append_left hlt]
            · rw [List.getElem?_eq_none (by rw [List.length_append, List.length_singleton]; omega), List.getElem?_eq_none (by omega)]
          constructor
          · rintro ⟨p, ha, hb⟩
            simp only at ha hb
            by_cases h3 : a = w.vars.length
            · by_cases h4 : b = w.vars.length
              · exact .inl ⟨h3, h4⟩
              · rw [h3, hv] at ha
                cases ha
                rw [e1 b h4] at hb
                have := fresh b _ hb
                omega
            · rw [e1 a h3] at ha
              by_cases h4 : b = w.vars.length
              · rw [h4, hv] at hb
                cases hb
                have := fresh a _ ha
                omega
              · rw [e1 b h4] at hb
                exact .inr ⟨p, ha, hb⟩
          · rintro (⟨rfl, rfl⟩ | ⟨p, ha, hb⟩)
            · exact ⟨_, hv, hv⟩
            · have la := (List.getElem?_eq_some_iff.mp ha).1
              have lb := (List.getElem?_eq_some_iff.mp hb).1
              exact ⟨p, by simp only; rw [e1 a (by omega)]; exact ha, by simp only; rw [e1 b (by omega)]; exact hb⟩
        · simp only [List.map_append, vbAlive]
          rfl
  | copy s =>
    obtain ⟨q, hs⟩ := vbLive hl
    have e : vbStep gen w (.copy s) = .ok (some ⟨w.objs, w.vars ++ [some q]⟩) := by
      rw [vbStep, vbVar_ok.mpr hs]
      rfl
    have look : ∀ u : Nat, (w.vars ++ [some q])[u]? = w.vars[if u = w.vars.length then s else u]? := by
      intro u
      by_cases hu : u = w.vars.length
      · subst hu
        rw [if_pos rfl, List.getElem?_concat_length, hs]
      · rw [if_neg hu]
        by_cases hlt : u < w.vars.length
        · rw [List.getElem?_append_left hlt]
        · rw [List.getElem?_eq_none (by rw [List.length_append, List.length_singleton]; omega), List.getElem?_eq_none (by omega)]
    refine .inr (.inr ⟨_, e, ⟨fun u p hu => ?_, fun p x hp => List.mem_append_left _ (hw.only p x hp)⟩,
      ⟨fun u => vbTests_congr (look u) fun _ _ => rfl, fun a b => vbShare_congr (w' := ⟨w.objs, w.vars ++ [some q]⟩) look a b⟩, ?_⟩)
    · have hu : (w.vars ++ [some q])[u]? = some (some p) := hu
      rw [look] at hu
      exact hw.held _ p hu
    · simp only [List.map_append, vbAlive]
      rfl
  | assign v s =>
    obtain ⟨q, hs⟩ := vbLive hl.2
    obtain ⟨old, hv⟩ := vbLive hl.1
    obtain ⟨w', e, hi, hvars, hobjs⟩ := vbPut_spec (h := some q) hv hw.held (fun p x hp => .inl (hw.only p x hp)) (fun p hp => by
      cases hp
      exact hw.held s q hs)
    have look : ∀ u : Nat, w'.vars[u]? = w.vars[if u = v then s else u]? := by
      intro u
      rw [hvars]
      by_cases hu : u = v
      · subst hu
        rw [if_pos rfl, List.getElem?_set_self (List.getElem?_eq_some_iff.mp hv).1, hs]
      · rw [if_neg hu, List.getElem?_set_ne (Ne.symm hu)]
    refine .inr (.inr ⟨w', ?_, hi, ⟨fun u => vbTests_congr (look u) fun p hp => hobjs p (List.mem_of_getElem? hp),
      fun a b => vbShare_congr look a b⟩, ?_⟩)
    · rw [vbStep, vbVar_ok.mpr hs, Res.ok_bind, e]
      rfl
    · rw [hvars]
      exact set_isSome hl.1
  | resize v now n r =>
    obtain ⟨old, hv⟩ := vbLive hl.1
    have hlt := (List.getElem?_eq_some_iff.mp hv).1
    rcases briefSized_good hl.2.1 hl.2.2 (gen now) with h | h | ⟨be, h, hg⟩
    · exact .inl (by rw [vbStep, h]; rfl)
    · exact .inr (.inl (by rw [vbStep, h]; rfl))
    · right
      obtain ⟨w1, e1, hi, hvars, hobjs⟩ := vbPut_spec (w := ⟨w.objs ++ [some be], w.vars⟩) (h := some w.objs.length) hv
        (fun u p hu => by
          simp only
          rw [List.getElem?_append_left (fresh u p hu)]
          exact hw.held u p hu)
        (fun p x hp => by
          simp only at hp ⊢
          by_cases hlt : p < w.objs.length
          · rw [List.getElem?_append_left hlt] at hp
            exact .inl (hw.only p x hp)
          · have := (List.getElem?_eq_some_iff.mp hp).1
            rw [List.length_append, List.length_singleton] at this
            exact .inr (by rw [show p = w.objs.length by omega]))
        (fun p hp => by
          cases hp
          exact ⟨be, List.getElem?_concat_length, hg⟩)
      simp only at hvars hobjs
      have e : vbStep gen w (.resize v now n r) = vbMod (briefGood gen) w1 v := by
        rw [vbStep, h, Res.ok_bind]
        simp only
        rw [e1, Res.ok_bind]
        rfl
      have hv1 : w1.vars[v]? = some (some w.objs.length) := by rw [hvars, List.getElem?_set_self hlt]
      have hne : ∀ u : Nat, u ≠ v → w1.vars[u]? = w.vars[u]? := fun u hu => by rw [hvars, List.getElem?_set_ne (Ne.symm hu)]
      rw [e]
      rcases vbMod_spec (f := briefGood gen) (fun be h => h.good _) hi hv1 with h2 | ⟨be1, be', hbe, hf, h2, hi2⟩
      · exact .inl h2
      · have : be1 = be := by
          rw [hobjs _ (List.mem_of_getElem? hv1), List.getElem?_concat_length] at hbe
          cases hbe
          rfl
        subst this
        have hlt1 := (List.getElem?_eq_some_iff.mp hbe).1
        refine .inr ⟨_, h2, hi2, ⟨⟨be', ?_, fun u => ?_⟩, fun a b => ?_⟩, ?_⟩
        · rw [vgBriefNew, h]
          exact hf
        · by_cases hu : u = v
          · subst hu
            rw [if_pos rfl, vbTests_of (w := ⟨w1.objs.set w.objs.length (some be'), w1.vars⟩) hv1, List.getElem?_set_self hlt1]
            rfl
          · rw [if_neg hu]
            refine vbTests_congr (w' := ⟨w1.objs.set w.objs.length (some be'), w1.vars⟩) (hne u hu) ?_
            intro p hp
            have hp : w1.vars[u]? = some (some p) := hp
            have hm := List.mem_of_getElem? hp
            rw [hne u hu] at hp
            have := fresh u p hp
            simp only
            rw [List.getElem?_set_ne (by omega), hobjs p hm, List.getElem?_append_left this]
        · constructor
          · rintro ⟨p, ha, hb⟩
            simp only at ha hb
            by_cases h3 : a = v
            · by_cases h4 : b = v
              · exact .inl ⟨h3, h4⟩
              · rw [h3, hv1] at ha
                cases ha
                rw [hne b h4] at hb
                have := fresh b _ hb
                omega
            · rw [hne a h3] at ha
              by_cases h4 : b = v
              · rw [h4, hv1] at hb
                cases hb
                have := fresh a _ ha
                omega
              · rw [hne b h4] at hb
                exact .inr ⟨h3, h4, p, ha, hb⟩
          · rintro (⟨rfl, rfl⟩ | ⟨h3, h4, p, ha, hb⟩)
            · exact ⟨_, hv1, hv1⟩
            · exact ⟨p, by simp only; rw [hne a h3]; exact ha, by simp only; rw [hne b h4]; exact hb⟩
        · simp only
          rw [hvars]
          exact set_isSome hl.1
  | seed v s => exact .inr (seeds v s hl)
  | random v now => exact .inr (seeds v now hl)
  | drop v =>
    obtain ⟨old, hv⟩ := vbLive hl
    have hlt := (List.getElem?_eq_some_iff.mp hv).1
    obtain ⟨w', e, hi, hvars, hobjs⟩ := vbPut_spec (h := none) hv hw.held (fun p x hp => .inl (hw.only p x hp)) (fun p hp => by cases hp)
    have hv1 : w'.vars[v]? = some none := by rw [hvars, List.getElem?_set_self hlt]
    have hne : ∀ u : Nat, u ≠ v → w'.vars[u]? = w.vars[u]? := fun u hu => by rw [hvars, List.getElem?_set_ne (Ne.symm hu)]
    refine .inr (.inr ⟨w', ?_, hi, ⟨fun u => ?_, fun a b => ?_⟩, ?_⟩)
    · rw [vbStep, e]
      rfl
    · by_cases hu : u = v
      · subst hu
        rw [if_pos rfl, vbTests, hv1]
      · rw [if_neg hu]
        exact vbTests_congr (hne u hu) fun p hp => hobjs p (List.mem_of_getElem? hp)
    · constructor
      · rintro ⟨p, ha, hb⟩
        have h3 : a ≠ v := by
          rintro rfl
          rw [hv1] at ha
          cases ha
        have h4 : b ≠ v := by
          rintro rfl
          rw [hv1] at hb
          cases hb
        rw [hne a h3] at ha
        rw [hne b h4] at hb
        exact ⟨h3, h4, p, ha, hb⟩
      · rintro ⟨h3, h4, p, ha, hb⟩
        exact ⟨p, by rw [hne a h3]; exact ha, by rw [hne b h4]; exact hb⟩
    · rw [hvars, List.map_set]
      rfl

/-! ## Programs -/

/-- A program uses variables that exist. -/
def VbLegalAll (l : List Bool) : List VbOp → Prop
  | [] => True
  | op :: ops => VbLegal l op ∧ VbLegalAll (vbAlive l op) ops

theorem vbProg_spec {gen : BitVec 32 → List (BitVec 32)} : ∀ (ops : List VbOp) (w : VbWorld), VbInv w →
    VbLegalAll (w.vars.map Option.isSome) ops →
    vbProg gen w ops = .fatal ∨ vbProg gen w ops = .ok none ∨ ∃ w', vbProg gen w ops = .ok (some w') ∧ VbInv w' ∧
      w'.vars.map Option.isSome = ops.foldl vbAlive (w.vars.map Option.isSome) := by
  intro ops
  induction ops with
  | nil => exact fun w hw _ => .inr (.inr ⟨w, rfl, hw, rfl⟩)
  | cons op ops ih =>
    intro w hw hl
    rcases vbStep_spec (gen := gen) hw hl.1 with h | h | ⟨w', h, hi, -, ha⟩
    · exact .inl (by rw [vbProg, h]; rfl)
    · exact .inr (.inl (by rw [vbProg, h]; rfl))
    · have e : vbProg gen w (op :: ops) = vbProg gen w' ops := by
        rw [vbProg, h]
        rfl
      rw [e, List.foldl_cons, ← ha]
      exact ih w' hi (by rw [ha]; exact hl.2)

theorem vbInv_nil : VbInv ⟨[], []⟩ := ⟨fun v q h => by simp at h, fun q be h => by simp at h⟩

/-- C144: no program that uses variables that exist touches memory that is not allocated; each variable that exists has an extractor with
tests as in C143, and each extractor that is allocated is in a variable. -/
theorem c144_safe {gen : BitVec 32 → List (BitVec 32)} {ops : List VbOp} (hl : VbLegalAll [] ops) :
    vbProg gen ⟨[], []⟩ ops = .fatal ∨ vbProg gen ⟨[], []⟩ ops = .ok none ∨ ∃ w, vbProg gen ⟨[], []⟩ ops = .ok (some w) ∧
      (∀ v, (ops.foldl vbAlive [])[v]? = some true → ∃ be, vbTests w v = some be ∧ VbGood be) ∧
      ∀ (q : Nat) (be : Brief), w.objs[q]? = some (some be) → ∃ v : Nat, w.vars[v]? = some (some q) := by
  rcases vbProg_spec (gen := gen) ops ⟨[], []⟩ vbInv_nil hl with h | h | ⟨w, h, hi, ha⟩
  · exact .inl h
  · exact .inr (.inl h)
  · refine .inr (.inr ⟨w, h, fun v hv => ?_, fun q be hq => List.mem_iff_getElem?.mp (hi.only q be hq)⟩)
    rw [show ([] : List Bool) = ([] : List (Option Nat)).map Option.isSome from rfl, ← ha] at hv
    obtain ⟨q, hq⟩ := vbLive hv
    obtain ⟨be, hbe, hg⟩ := hi.held v q hq
    exact ⟨be, by rw [vbTests_of hq, hbe]; rfl, hg⟩

/-- C144: when all variables are destroyed, all extractors are freed. -/
theorem c144_no_leak {gen : BitVec 32 → List (BitVec 32)} {ops : List VbOp} (hl : VbLegalAll [] ops) {w : VbWorld}
    (h : vbProg gen ⟨[], []⟩ ops = .ok (some w)) (hd : ∀ v : Nat, (ops.foldl vbAlive [])[v]? ≠ some true) (q : Nat) (be : Brief) :
    w.objs[q]? ≠ some (some be) := by
  rcases vbProg_spec (gen := gen) ops ⟨[], []⟩ vbInv_nil hl with h' | h' | ⟨w', h', hi, ha⟩
  · rw [h] at h'
    cases h'
  · rw [h] at h'
    cases h'
  · rw [h] at h'
    cases h'
    intro hq
    obtain ⟨v, hv⟩ := List.mem_iff_getElem?.mp (hi.only q be hq)
    refine hd v ?_
    rw [show ([] : List Bool) = ([] : List (Option Nat)).map Option.isSome from rfl, ← ha, List.getElem?_map, hv]
    rfl

/-- C144: after any program, a further call does what is specified to the tests of all variables and to the sharing. -/
theorem c144_calls {gen : BitVec 32 → List (BitVec 32)} {ops : List VbOp} {op : VbOp} (hl : VbLegalAll [] ops)
    (hl2 : VbLegal (ops.foldl vbAlive []) op) {w w' : VbWorld} (h : vbProg gen ⟨[], []⟩ ops = .ok (some w))
    (h2 : vbStep gen w op = .ok (some w')) : VbSpec gen w w' op := by
  rcases vbProg_spec (gen := gen) ops ⟨[], []⟩ vbInv_nil hl with e | e | ⟨w1, e, hi, ha⟩
  · rw [h] at e
    cases e
  · rw [h] at e
    cases e
  · rw [h] at e
    cases e
    rcases vbStep_spec (gen := gen) hi (op := op) (by rw [ha]; exact hl2) with e | e | ⟨w2, e, -, hs, -⟩
    · rw [h2] at e
      cases e
    · rw [h2] at e
      cases e
    · rw [h2] at e
      cases e
      exact hs

/-- The variable that a call is made on. -/
def vbTarget : VbOp → Option Nat
  | .make _ _ _ | .copy _ => none
  | .assign v _ | .resize v _ _ _ | .seed v _ | .random v _ | .drop v => some v

def VbCopies : VbOp → Prop
  | .copy _ | .assign _ _ => True
  | _ => False

theorem vbProg_alone {gen : BitVec 32 → List (BitVec 32)} : ∀ (ops : List VbOp) (w : VbWorld), VbInv w →
    VbLegalAll (w.vars.map Option.isSome) ops → (∀ op ∈ ops, ¬VbCopies op) → (∀ a b, VbShare w a b → a = b) → ∀ w',
    vbProg gen w ops = .ok (some w') → ∀ a b, VbShare w' a b → a = b := by
  intro ops
  induction ops with
  | nil =>
    intro w _ _ _ ha w' h
    cases h
    exact ha
  | cons op ops ih =>
    intro w hw hl hc ha w' h
    rcases vbStep_spec (gen := gen) hw hl.1 with e | e | ⟨w1, e, hi, hs, hv⟩
    · rw [vbProg, e] at h
      cases h
    · rw [vbProg, e] at h
      cases h
    · rw [vbProg, e] at h
      refine ih w1 hi (by rw [hv]; exact hl.2) (fun op h => hc op (List.mem_cons_of_mem _ h)) ?_ w' h
      intro a b hab
      have hn := hc op List.mem_cons_self
      cases op with
      | make now n r =>
        rcases (hs.2 a b).mp hab with ⟨h1, h2⟩ | h1
        · omega
        · exact ha a b h1
      | copy s => exact absurd trivial hn
      | assign v s => exact absurd trivial hn
      | resize v now n r =>
        rcases (hs.2 a b).mp hab with ⟨h1, h2⟩ | ⟨-, -, h1⟩
        · omega
        · exact ha a b h1
      | seed v s => exact ha a b ((hs.2 a b).mp hab)
      | random v s => exact ha a b ((hs.2 a b).mp hab)
      | drop v => exact ha a b ((hs.2 a b).mp hab).2.2

/-- C144 in programs without copies and assignments: a call changes the tests of no other variable; missing: programs with copies, for which
this is false. -/
theorem c144_alone_partial {gen : BitVec 32 → List (BitVec 32)} {ops : List VbOp} {op : VbOp} (hl : VbLegalAll [] ops)
    (hl2 : VbLegal (ops.foldl vbAlive []) op) (hc : ∀ op ∈ ops, ¬VbCopies op) {w w' : VbWorld}
    (h : vbProg gen ⟨[], []⟩ ops = .ok (some w)) (h2 : vbStep gen w op = .ok (some w')) {u : Nat} (hu : u < w.vars.length)
    (ht : vbTarget op ≠ some u) : vbTests w' u = vbTests w u := by
  have hs := c144_calls hl hl2 h h2
  have alone := vbProg_alone (gen := gen) ops ⟨[], []⟩ vbInv_nil hl hc (fun a b ⟨q, hq, _⟩ => by simp at hq) w h
  have other : ∀ v, vbTarget op = some v → u ≠ v := fun v e h => ht (h ▸ e)
  cases op with
  | make now n r =>
    obtain ⟨⟨be, -, hb⟩, -⟩ := hs
    rw [hb, if_neg (by omega)]
  | copy s => rw [hs.1, if_neg (by omega)]
  | assign v s => rw [hs.1, if_neg (other v rfl)]
  | resize v now n r =>
    obtain ⟨⟨be, -, hb⟩, -⟩ := hs
    rw [hb, if_neg (other v rfl)]
  | seed v s =>
    obtain ⟨⟨be, be', -, -, hb⟩, -⟩ := hs
    exact (hb u).2 fun h => other v rfl (alone u v h)
  | random v s =>
    obtain ⟨⟨be, be', -, -, hb⟩, -⟩ := hs
    exact (hb u).2 fun h => other v rfl (alone u v h)
  | drop v => rw [hs.1, if_neg (other v rfl)]

/-- Numbers for two kinds of seeds. -/
def vbGen (s : BitVec 32) : List (BitVec 32) :=
  if s = 7#32 then List.flatten (List.replicate 8 [3000000000#32, 3000000000#32, 0#32, 0#32])
  else List.flatten (List.replicate 8 [0#32, 1000000000#32, 3000000000#32, 3000000000#32])

def vbFirst : Brief := ⟨24, 1, some (List.flatten (List.replicate 8 [-24, -12, 9, 9])), (-24, 9, -12, 9), 2⟩

def vbOther : Brief := ⟨24, 1, some (List.flatten (List.replicate 8 [9, 9, -24, -24])), (-24, 9, -24, 9), 2⟩

theorem vbFirst_run : vbProg vbGen ⟨[], []⟩ [.make 5#32 1 24, .copy 0] = .ok (some ⟨[some vbFirst], [some 0, some 0]⟩) := by decide +kernel

/-- C144 is false: a call on a copy changes the tests of the variable it was copied from. -/
theorem c144_copies_false : ∃ (gen : BitVec 32 → List (BitVec 32)) (ops : List VbOp) (op : VbOp) (w w' : VbWorld), VbLegalAll [] ops ∧
    VbLegal (ops.foldl vbAlive []) op ∧ vbProg gen ⟨[], []⟩ ops = .ok (some w) ∧ vbStep gen w op = .ok (some w') ∧ vbTarget op = some 1 ∧
    vbTests w 0 = some vbFirst ∧ vbTests w' 0 = some vbOther := by
  refine ⟨vbGen, [.make 5#32 1 24, .copy 0], .seed 1 7#32, _, ⟨[some vbOther], [some 0, some 0]⟩, ?_, ?_, vbFirst_run, ?_, rfl, rfl, rfl⟩
  · exact ⟨⟨by decide, by decide⟩, rfl, trivial⟩
  · rfl
  · decide +kernel

/-- But a new size of a copy leaves it as it was. -/
example : vbStep vbGen ⟨[some vbFirst], [some 0, some 0]⟩ (.resize 1 7#32 1 24) =
    .ok (some ⟨[some vbFirst, some vbFirst], [some 0, some 1]⟩) := by decide +kernel

/-- The extractor goes with its last variable. -/
example : vbProg vbGen ⟨[], []⟩ [.make 5#32 1 24, .copy 0, .drop 0, .seed 1 7#32] = .ok (some ⟨[some vbOther], [none, some 0]⟩) ∧
    vbProg vbGen ⟨[], []⟩ [.make 5#32 1 24, .copy 0, .drop 0, .drop 1] = .ok (some ⟨[none], [none, none]⟩) := by decide +kernel

/-- A variable that does not exist any more. -/
example : vbProg vbGen ⟨[], []⟩ [.make 5#32 1 24, .drop 0, .seed 0 7#32] = .ub := by decide +kernel

end Nx
