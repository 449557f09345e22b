import Verif.Lemmas.OptionsParse

/-!
# Whole runs of the option parser
-/

namespace Nx

/-- A record with its flag cleared. -/
def clearRec (d : OptData) : OptData := { d with isSet := false }

/-- The record of remaining arguments after a successful parse. -/
def restFinal (r : OptRest) (rem : List Bytes) : OptRest :=
  OptRest.mk r.isRequired (decide (rem ≠ [])) (if rem = [] then none else some (rem.map some ++ [none])) rem.length

theorem optCheckRest_final (r : OptRest) (rem : List Bytes) :
    (r.isRequired = true ∧ rem = [] ∧ optCheckRest (some (OptRest.mk r.isRequired
      (if rem.length > 0 then true else false) (some (rem.map some ++ [none])) rem.length)) = .fatal) ∨
    ((r.isRequired = true → rem ≠ []) ∧ optCheckRest (some (OptRest.mk r.isRequired
      (if rem.length > 0 then true else false) (some (rem.map some ++ [none])) rem.length)) =
        .ok (some (restFinal r rem))) := by
  cases rem with
  | nil =>
    cases hr : r.isRequired
    · right
      exact ⟨by simp, by simp [optCheckRest, restFinal, hr]⟩
    · left
      exact ⟨rfl, rfl, by simp [optCheckRest]⟩
  | cons a rem =>
    right
    exact ⟨by simp, by simp [optCheckRest, restFinal]⟩

/-- Every outcome of parsing a command line. -/
theorem parse_spec {wrap : Bool} (atof : Bytes → UInt64) {o : Options} {nss : List (List Bytes)} (hi : OptInv wrap o nss)
    (hu : DistinctNames nss) (prog : Bytes) {args : List Bytes} (hp : Hashable wrap prog)
    (hh : ∀ a ∈ args, Hashable wrap a) :
    (∃ occ rem opts, Scan nss (o.opts.map OptData.type) args occ rem ∧
      storeAll atof (o.opts.map clearRec) occ = .ok opts ∧
      (∀ d ∈ opts, d.isSet = false → d.isRequired = false) ∧
      (∀ r, o.rest = some r → r.isRequired = true → rem ≠ []) ∧
      optSetFromArgs wrap atof o (prog :: args) = .ok { o with
        progName := some prog
        opts := opts.map (fun d => if d.isSet then d else optDefault d)
        rest := o.rest.map (fun r => restFinal r rem) }) ∨
    (optSetFromArgs wrap atof o (prog :: args) = .fatal ∧
      ((∀ occ rem, ¬ Scan nss (o.opts.map OptData.type) args occ rem) ∨
       (∃ occ rem opts, Scan nss (o.opts.map OptData.type) args occ rem ∧
          storeAll atof (o.opts.map clearRec) occ = .ok opts ∧
          ((∃ d ∈ opts, d.isSet = false ∧ d.isRequired = true) ∨
           (rem = [] ∧ ∃ r, o.rest = some r ∧ r.isRequired = true))))) ∨
    (optSetFromArgs wrap atof o (prog :: args) = .ub ∧ (∃ v ∈ args, atol v = .ub) ∧
      ∀ occ rem, Scan nss (o.opts.map OptData.type) args occ rem → storeAll atof (o.opts.map clearRec) occ = .ub) := by
  have hclear : (optClear o).opts = o.opts.map clearRec := rfl
  have htypes : (o.opts.map clearRec).map OptData.type = o.opts.map OptData.type := by
    rw [List.map_map]; rfl
  have hloop := optArgsLoop_spec atof (map := o.map) (nss := nss) (argv := prog :: args) hi.map hu
    (by
      intro a ha
      rcases List.mem_cons.1 ha with rfl | ha
      · exact hp
      · exact hh a ha) _ 1 ((List.replicate (prog :: args).length false).set 0 true)
    (o.opts.map clearRec) rfl (by simp) (by simpa using hi.len) (by simp)
    (by
      intro j hj hjl
      rw [List.getElem?_set_ne (by omega), List.getElem?_replicate]
      simp at hjl
      simp [hjl])
  rw [htypes] at hloop
  simp only [List.drop_succ_cons, List.drop_zero] at hloop
  have hread : readAt (prog :: args) 0 = .ok prog := rfl
  have hwrite : writeAt (List.replicate (prog :: args).length false) 0 true =
      .ok ((List.replicate (prog :: args).length false).set 0 true) := writeAt_ok _ (by simp)
  have hmap : (optClear o).map = o.map := rfl
  have hrest : (optClear o).rest = o.rest.map (fun r => { r with isSet := false }) := rfl
  rcases hloop with ⟨occ, rem, marks, hs, hml, hmk, he⟩ | ⟨hno, he⟩
  · have htake : ((List.replicate (prog :: args).length false).set 0 true).take 1 = [true] := by
      simp [List.replicate_succ]
    rw [htake] at he
    have hkeep : keep (prog :: args) ([true] ++ marks) = rem := by
      rw [List.singleton_append, keep_cons_true, hmk]
    have hmarks : ([true] ++ marks).length = (prog :: args).length := by
      simp at hml ⊢; omega
    rcases storeAll_cases (atof := atof) (opts := o.opts.map clearRec) (occ := occ)
      (by rw [htypes]; exact fun p hp => (hs.occ_types p hp).1) with ⟨opts, hst⟩ | ⟨hst, p, hpm, v, hv, hub⟩
    · rw [hst, Res.ok_bind] at he
      have hrun : optSetFromArgs wrap atof o (prog :: args) = (do
          let opts ← optCheckLoop opts
          let rest ← optCheckRest (o.rest.map (fun r => OptRest.mk r.isRequired
            (if rem.length > 0 then true else false) (some (rem.map some ++ [none])) rem.length))
          pure { o with progName := some prog, opts := opts, rest := rest }) := by
        simp only [optSetFromArgs, hread, hwrite, hmap, hclear, he, Res.ok_bind, hrest]
        cases o.rest with
        | none => rfl
        | some r =>
          simp only [Option.map_some, optSetRest_spec _ _ _ hmarks, hkeep, Res.ok_bind, Res.pure_eq]
          rfl
      rcases optCheckLoop_spec opts with ⟨hbad, hc⟩ | ⟨hgood, hc⟩
      · right; left
        refine ⟨by rw [hrun, hc]; rfl, Or.inr ⟨occ, rem, opts, hs, hst, Or.inl hbad⟩⟩
      · rw [hc] at hrun
        simp only [Res.ok_bind] at hrun
        cases hor : o.rest with
        | none =>
          left
          refine ⟨occ, rem, opts, hs, hst, hgood, by simp, ?_⟩
          rw [hrun, hor]; rfl
        | some r =>
          rw [hor] at hrun
          simp only [Option.map_some] at hrun
          rcases optCheckRest_final r rem with ⟨h1, h2, h3⟩ | ⟨h1, h2⟩
          · right; left
            refine ⟨by rw [hrun, h3]; rfl, Or.inr ⟨occ, rem, opts, hs, hst, Or.inr ⟨h2, r, rfl, h1⟩⟩⟩
          · left
            refine ⟨occ, rem, opts, hs, hst, hgood, ?_, ?_⟩
            · intro r' hr'; cases hr'; exact h1
            · rw [hrun, h2]; rfl
    · right; right
      refine ⟨?_, ⟨v, (hs.occ_types p hpm).2 v hv, hub⟩, ?_⟩
      rotate_left
      · intro occ' rem' hs'
        obtain ⟨rfl, rfl⟩ := hs.det hu hs'
        exact hst
      rw [hst, Res.ub_bind] at he
      simp only [optSetFromArgs, hread, hwrite, hmap, hclear, he, Res.ok_bind, Res.ub_bind]
  · right
    rcases he with he | ⟨he, hub⟩
    · left
      refine ⟨?_, Or.inl hno⟩
      simp only [optSetFromArgs, hread, hwrite, hmap, hclear, he, Res.ok_bind, Res.fatal_bind]
    · right
      refine ⟨?_, hub, fun occ rem hs => absurd hs (hno occ rem)⟩
      simp only [optSetFromArgs, hread, hwrite, hmap, hclear, he, Res.ok_bind, Res.ub_bind]

/-! ## Independence of earlier parses -/

/-- A record without the value that the checks will replace. -/
def cdRec (d : OptData) : OptData :=
  if d.isSet = true ∨ d.type = .help then d else { d with value := d.dflt }

/-- Applying a function to a normal result. -/
def Res.mapR {α β : Type} (f : α → β) : Res α → Res β
  | .ok a => .ok (f a)
  | .fatal => .fatal
  | .ub => .ub

theorem cdRec_type (d : OptData) : (cdRec d).type = d.type := by
  unfold cdRec; split <;> rfl

theorem readAt_map {α β : Type} (f : α → β) (l : List α) (k : Nat) : readAt (l.map f) k = (readAt l k).mapR f := by
  unfold readAt
  rw [List.getElem?_map]
  cases l[k]? <;> rfl

theorem cdRec_set (d : OptData) (v : OVal) :
    ({ cdRec d with value := v, isSet := true } : OptData) = cdRec { d with value := v, isSet := true } := by
  unfold cdRec
  split <;> simp

theorem optStore_cd (atof : Bytes → UInt64) (opts : List OptData) (k : Nat) (a : Option Bytes) :
    optStore atof (opts.map cdRec) k a = (optStore atof opts k a).mapR (List.map cdRec) := by
  cases hd : opts[k]? with
  | none => simp [optStore, readAt, hd, Res.mapR]
  | some d =>
    have h1 : (opts.map cdRec)[k]? = some (cdRec d) := by rw [List.getElem?_map, hd]; rfl
    simp only [optStore, readAt_get hd, readAt_get h1, Res.ok_bind]
    rw [show optValue atof (cdRec d).type a = optValue atof d.type a by rw [cdRec_type]]
    cases optValue atof d.type a with
    | fatal => rfl
    | ub => rfl
    | ok v =>
      simp only [Res.ok_bind, writeAt_ok _ (lt_of_get hd), writeAt_ok _ (lt_of_get h1), Res.mapR, List.map_set, cdRec_set]

theorem optArgsLoop_cd (wrap : Bool) (atof : Bytes → UInt64) (map : List (List (Bytes × Nat))) (argv : List Bytes)
    (n : Nat) : ∀ (i : Nat) (proc : List Bool) (opts : List OptData), argv.length - i = n →
      optArgsLoop wrap atof map argv i proc (opts.map cdRec) =
        (optArgsLoop wrap atof map argv i proc opts).mapR (fun x => (x.1, x.2.map cdRec)) := by
  induction n using Nat.strongRecOn with
  | _ n ih =>
  intro i proc opts hn
  rw [optArgsLoop.eq_def wrap atof map argv i proc (opts.map cdRec), optArgsLoop.eq_def wrap atof map argv i proc opts]
  by_cases hlt : i < argv.length
  · rw [dif_pos hlt, dif_pos hlt]
    simp only [readAt_ok hlt, Res.ok_bind]
    cases optFind wrap map (some argv[i]) with
    | fatal => rfl
    | ub => rfl
    | ok f =>
      simp only [Res.ok_bind]
      cases f with
      | none => exact ih _ (by omega) (i + 1) proc opts rfl
      | some k =>
        simp only [readAt_map]
        cases readAt opts k with
        | fatal => rfl
        | ub => rfl
        | ok d =>
          simp only [Res.mapR, Res.ok_bind, cdRec_type]
          split
          · split
            · rfl
            · cases writeAt proc i true with
              | fatal => rfl
              | ub => rfl
              | ok proc =>
                simp only [Res.ok_bind]
                cases readAt argv (i + 1) with
                | fatal => rfl
                | ub => rfl
                | ok v =>
                  simp only [Res.ok_bind, optStore_cd]
                  cases optStore atof opts k (some v) with
                  | fatal => rfl
                  | ub => rfl
                  | ok opts =>
                    simp only [Res.mapR, Res.ok_bind]
                    cases writeAt proc (i + 1) true with
                    | fatal => rfl
                    | ub => rfl
                    | ok proc =>
                      simp only [Res.ok_bind]
                      exact ih _ (by omega) (i + 2) proc opts rfl
          · simp only [optStore_cd]
            cases optStore atof opts k none with
            | fatal => rfl
            | ub => rfl
            | ok opts =>
              simp only [Res.mapR, Res.ok_bind]
              cases writeAt proc i true with
              | fatal => rfl
              | ub => rfl
              | ok proc =>
                simp only [Res.ok_bind]
                exact ih _ (by omega) (i + 1) proc opts rfl
  · rw [dif_neg hlt, dif_neg hlt]; rfl

theorem optCheckLoop_cd (l : List OptData) : optCheckLoop (l.map cdRec) = optCheckLoop l := by
  induction l with
  | nil => rfl
  | cons d l ih =>
    rw [List.map_cons, optCheckLoop, optCheckLoop, ih]
    by_cases hs : d.isSet = true
    · have : cdRec d = d := by rw [cdRec, if_pos (Or.inl hs)]
      rw [this]
    · by_cases ht : d.type = .help
      · have : cdRec d = d := by rw [cdRec, if_pos (Or.inr ht)]
        rw [this]
      · have : cdRec d = { d with value := d.dflt } := by
          rw [cdRec, if_neg (fun h => h.elim hs ht)]
        rw [this]
        simp only [hs, Bool.false_eq_true, if_false, optDefault, if_neg ht]

/-- The declarations inside a state: flags cleared, values reset. -/
def normOpts (o : Options) : Options :=
  { o with
    progName := none
    opts := (o.opts.map clearRec).map cdRec
    rest := o.rest.map (fun r => OptRest.mk r.isRequired false none 0) }

theorem clear_cd (d : OptData) : clearRec (cdRec (clearRec d)) = cdRec (clearRec d) := by
  unfold cdRec clearRec
  split <;> rfl

theorem cd_cd (d : OptData) : cdRec (cdRec d) = cdRec d := by
  unfold cdRec
  by_cases h : d.isSet = true ∨ d.type = .help
  · rw [if_pos h, if_pos h]
  · rw [if_neg h, if_neg (by exact h)]

theorem optSetRest_req (r1 r2 : OptRest) (argv : List Bytes) (proc : List Bool) (h1 : r1.isRequired = r2.isRequired)
    (h2 : r1.isSet = r2.isSet) : optSetRest r1 argv proc = optSetRest r2 argv proc := by
  unfold optSetRest
  rw [h2]
  cases r1; cases r2
  simp only at h1
  subst h1
  rfl

theorem optSetFromArgs_norm (wrap : Bool) (atof : Bytes → UInt64) (o : Options) (argv : List Bytes) :
    optSetFromArgs wrap atof (normOpts o) argv = optSetFromArgs wrap atof o argv := by
  have hmap : ∀ o, (optClear o).map = o.map := fun _ => rfl
  have hclear : (optClear (normOpts o)).opts = (o.opts.map clearRec).map cdRec := by
    show ((o.opts.map clearRec).map cdRec).map clearRec = _
    rw [List.map_map, List.map_map, List.map_map]
    apply List.map_congr_left
    intro d _
    exact clear_cd d
  have hclear' : (optClear o).opts = o.opts.map clearRec := rfl
  have hm : (normOpts o).map = o.map := rfl
  simp only [optSetFromArgs, hmap, hclear, hclear', hm]
  cases readAt argv 0 with
  | fatal => rfl
  | ub => rfl
  | ok prog =>
    simp only [Res.ok_bind]
    cases writeAt (List.replicate argv.length false) 0 true with
    | fatal => rfl
    | ub => rfl
    | ok proc =>
      simp only [Res.ok_bind]
      rw [optArgsLoop_cd _ _ _ _ _ 1 _ _ rfl]
      cases optArgsLoop wrap atof o.map argv 1 proc (o.opts.map clearRec) with
      | fatal => rfl
      | ub => rfl
      | ok x =>
        simp only [Res.mapR, Res.ok_bind, optCheckLoop_cd]
        cases ho : o.rest with
        | none =>
          have e1 : (optClear (normOpts o)).rest = none := by simp [optClear, normOpts, ho]
          have e2 : (optClear o).rest = none := by simp [optClear, ho]
          rw [e1, e2]
          simp only [Res.ok_bind]
          rfl
        | some r =>
          have e1 : (optClear (normOpts o)).rest = some (OptRest.mk r.isRequired false none 0) := by
            simp [optClear, normOpts, ho]
          have e2 : (optClear o).rest = some { r with isSet := false } := by simp [optClear, ho]
          rw [e1, e2]
          simp only
          rw [optSetRest_req (OptRest.mk r.isRequired false none 0) { r with isSet := false } _ _ rfl rfl]
          rfl

theorem cdc_set {opts : List OptData} {k : Nat} {d : OptData} {v : OVal} (hd : opts[k]? = some d) (ht : d.type ≠ .help) :
    ((opts.set k { d with value := v, isSet := true }).map clearRec).map cdRec = (opts.map clearRec).map cdRec := by
  rw [List.map_set, List.map_set]
  apply List.ext_getElem?
  intro i
  rw [List.getElem?_set]
  by_cases h : k = i
  · subst h
    rw [if_pos rfl, List.getElem?_map, List.getElem?_map, hd]
    simp [lt_of_get hd, cdRec, clearRec, ht]
  · rw [if_neg h]

theorem storeAll_norm {atof : Bytes → UInt64} {occ : List (Nat × Option Bytes)} : ∀ {opts opts' : List OptData},
    storeAll atof opts occ = .ok opts' → (opts'.map clearRec).map cdRec = (opts.map clearRec).map cdRec := by
  induction occ with
  | nil => intro opts opts' h; cases h; rfl
  | cons p occ ih =>
    intro opts opts' h
    rw [storeAll] at h
    obtain ⟨o1, h1, h2⟩ := Res.bind_eq_ok.1 h
    obtain ⟨e, v, he, hv, rfl⟩ := optStore_inv h1
    rw [ih h2, cdc_set he]
    intro ht
    rw [ht] at hv
    cases hv

theorem check_norm (l : List OptData) :
    (((l.map (fun d => if d.isSet then d else optDefault d)).map clearRec).map cdRec) = (l.map clearRec).map cdRec := by
  rw [List.map_map, List.map_map, List.map_map]
  apply List.map_congr_left
  intro d _
  simp only [Function.comp]
  by_cases hs : d.isSet = true
  · rw [if_pos hs]
  · rw [if_neg hs]
    by_cases ht : d.type = .help
    · rw [optDefault, if_pos ht]
    · rw [optDefault, if_neg ht]
      simp [clearRec, cdRec, ht]

theorem clear_clear (l : List OptData) : (l.map clearRec).map clearRec = l.map clearRec := by
  rw [List.map_map]; rfl

/-- A successful parse changes neither the names nor the declarations. -/
theorem parse_keeps {wrap : Bool} (atof : Bytes → UInt64) {o o' : Options} {nss : List (List Bytes)} (hi : OptInv wrap o nss)
    (hu : DistinctNames nss) {argv : List Bytes} (hh : ∀ a ∈ argv, Hashable wrap a)
    (h : optSetFromArgs wrap atof o argv = .ok o') : OptInv wrap o' nss ∧ normOpts o' = normOpts o := by
  cases argv with
  | nil => simp [optSetFromArgs, readAt] at h
  | cons prog args =>
    rcases parse_spec atof hi hu prog (hh prog List.mem_cons_self) (fun a ha => hh a (List.mem_cons_of_mem _ ha)) with
      ⟨occ, rem, opts, h1, h2, h3, h4, h5⟩ | ⟨h1, _⟩ | ⟨h1, _⟩
    · rw [h] at h5
      injection h5 with h5
      subst h5
      have hlen := (storeAll_spec h2).1
      refine ⟨⟨by simpa using hlen.trans (by simpa using hi.len), hi.map⟩, ?_⟩
      unfold normOpts
      simp only [check_norm, storeAll_norm h2, clear_clear]
      cases o.rest <;> rfl
    · rw [h] at h1; cases h1
    · rw [h] at h1; cases h1

theorem parseAll_keeps {wrap : Bool} (atof : Bytes → UInt64) {nss : List (List Bytes)} (hu : DistinctNames nss)
    {hist : List (List Bytes)} : ∀ {o o' : Options}, OptInv wrap o nss → (∀ l ∈ hist, ∀ a ∈ l, Hashable wrap a) →
      optParseAll wrap atof o hist = .ok o' → OptInv wrap o' nss ∧ normOpts o' = normOpts o := by
  induction hist with
  | nil => intro o o' hi _ h; cases h; exact ⟨hi, rfl⟩
  | cons argv hist ih =>
    intro o o' hi hh h
    rw [optParseAll] at h
    obtain ⟨o1, h1, h2⟩ := Res.bind_eq_ok.1 h
    obtain ⟨i1, n1⟩ := parse_keeps atof hi hu (hh argv List.mem_cons_self) h1
    obtain ⟨i2, n2⟩ := ih i1 (fun l hl => hh l (List.mem_cons_of_mem _ hl)) h2
    exact ⟨i2, n2.trans n1⟩

end Nx
