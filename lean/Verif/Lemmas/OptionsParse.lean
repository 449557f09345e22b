import Verif.Lemmas.Options

/-!
# Lemmas about parsing command lines
-/

namespace Nx

theorem named_optFind {wrap : Bool} {map : List (List (Bytes × Nat))} {nss : List (List Bytes)}
    (hm : MapInv wrap map (Named nss)) (hu : DistinctNames nss) {x : Bytes} (hx : Hashable wrap x) {k : Nat}
    (hk : Named nss x k) : optFind wrap map (some x) = .ok (some k) := by
  rcases optFind_spec hm hx with ⟨j, h1, h2⟩ | ⟨h1, _⟩
  · rw [hu x k j hk h1]; exact h2
  · exact absurd hk (h1 k)

/-- Arguments not marked as processed. -/
def keep (argv : List Bytes) (proc : List Bool) : List Bytes :=
  ((argv.zip proc).filter (fun p => !p.2)).map Prod.fst

theorem keep_cons_false (a : Bytes) (as : List Bytes) (ps : List Bool) : keep (a :: as) (false :: ps) = a :: keep as ps := by
  simp [keep]

theorem keep_cons_true (a : Bytes) (as : List Bytes) (ps : List Bool) : keep (a :: as) (true :: ps) = keep as ps := by
  simp [keep]

/-- Storing the values of a sequence of occurrences. -/
def storeAll (atof : Bytes → UInt64) (opts : List OptData) : List (Nat × Option Bytes) → Res (List OptData)
  | [] => .ok opts
  | p :: occ => do
    let opts ← optStore atof opts p.1 p.2
    storeAll atof opts occ

theorem optValue_cases (atof : Bytes → UInt64) (t : OType) (a : Option Bytes) (h : t.needsParam = a.isSome)
    (hh : t ≠ .help) : (∃ v, optValue atof t a = .ok v) ∨
      (optValue atof t a = .ub ∧ ∃ v, a = some v ∧ atol v = .ub) := by
  cases t <;> cases a <;> simp_all [OType.needsParam, optValue]
  rename_i v
  cases e : atol v with
  | ok x => left; exact ⟨.i (wrap32 x), by simp⟩
  | ub => right; simp
  | fatal =>
    unfold atol at e
    dsimp only at e
    exfalso
    revert e
    generalize (if (takeSign (List.dropWhile isSpaceB v)).fst = true then
      -(digitsVal 10 0 (List.takeWhile (isDigitB 10) (takeSign (List.dropWhile isSpaceB v)).snd) : Int)
      else (digitsVal 10 0 (List.takeWhile (isDigitB 10) (takeSign (List.dropWhile isSpaceB v)).snd) : Int)) = w
    intro e
    split at e <;> cases e

theorem gives_iff (atof : Bytes → UInt64) (t : OType) (a : Option Bytes) (h : t.needsParam = a.isSome) (v : OVal) :
    optValue atof t a = .ok v ↔ Gives atof t a v := by
  constructor
  · intro e
    cases t <;> cases a <;> simp_all [OType.needsParam, optValue]
    · subst e; exact Gives.bool
    · rename_i x
      obtain ⟨y, h1, h2⟩ := Res.bind_eq_ok.1 e
      cases h2; exact Gives.int _ _ h1
    · subst e; exact Gives.double _
    · subst e; exact Gives.string _
  · intro e
    cases e <;> simp_all [optValue]

theorem optStore_ok {atof : Bytes → UInt64} {opts : List OptData} {k : Nat} {a : Option Bytes} {d : OptData} {v : OVal}
    (hd : opts[k]? = some d) (hv : optValue atof d.type a = .ok v) :
    optStore atof opts k a = .ok (opts.set k { d with value := v, isSet := true }) := by
  simp only [optStore, readAt_get hd, Res.ok_bind, hv, writeAt_ok _ (lt_of_get hd)]

theorem optStore_ub {atof : Bytes → UInt64} {opts : List OptData} {k : Nat} {a : Option Bytes} {d : OptData}
    (hd : opts[k]? = some d) (hv : optValue atof d.type a = .ub) : optStore atof opts k a = .ub := by
  simp only [optStore, readAt_get hd, Res.ok_bind, hv, Res.ub_bind]

theorem set_types {opts : List OptData} {k : Nat} {d : OptData} {v : OVal} {b : Bool} (hd : opts[k]? = some d) :
    (opts.set k { d with value := v, isSet := b }).map OptData.type = opts.map OptData.type := by
  rw [List.map_set]
  apply List.ext_getElem?
  intro i
  rw [List.getElem?_set]
  by_cases h : k = i
  · subst h
    rw [if_pos rfl, List.getElem?_map, hd]
    simp [lt_of_get hd]
  · rw [if_neg h]

theorem take_succ_of_get {α : Type} {l : List α} {i : Nat} {x : α} (h : l[i]? = some x) :
    l.take (i + 1) = l.take i ++ [x] := by
  rw [List.take_add_one, h]; rfl

theorem take_set_succ {α : Type} {l : List α} {i : Nat} {x : α} (h : i < l.length) :
    (l.set i x).take (i + 1) = l.take i ++ [x] := by
  rw [take_succ_of_get (x := x) (by simp [h])]
  rw [List.take_set_of_le (Nat.le_refl _)]

/-- The loop over the arguments follows the reading of the argument list. -/
theorem optArgsLoop_spec {wrap : Bool} (atof : Bytes → UInt64) {map : List (List (Bytes × Nat))} {nss : List (List Bytes)}
    {argv : List Bytes} (hm : MapInv wrap map (Named nss)) (hu : DistinctNames nss)
    (hh : ∀ a ∈ argv, Hashable wrap a) (n : Nat) :
    ∀ (i : Nat) (proc : List Bool) (opts : List OptData), argv.length - i = n → i ≤ argv.length →
      opts.length = nss.length → proc.length = argv.length →
      (∀ j, i ≤ j → j < proc.length → proc[j]? = some false) →
      (∃ occ rem marks, Scan nss (opts.map OptData.type) (argv.drop i) occ rem ∧
        marks.length = argv.length - i ∧ keep (argv.drop i) marks = rem ∧
        optArgsLoop wrap atof map argv i proc opts =
          (storeAll atof opts occ >>= fun o => .ok (proc.take i ++ marks, o))) ∨
      ((∀ occ rem, ¬ Scan nss (opts.map OptData.type) (argv.drop i) occ rem) ∧
        (optArgsLoop wrap atof map argv i proc opts = .fatal ∨
          (optArgsLoop wrap atof map argv i proc opts = .ub ∧ ∃ v ∈ argv.drop i, atol v = .ub))) := by
  induction n using Nat.strongRecOn with
  | _ n ih =>
  intro i proc opts hn hi hlen hpl hpf
  by_cases hlt : i < argv.length
  · have hdrop : argv.drop i = argv[i] :: argv.drop (i + 1) := List.drop_eq_getElem_cons hlt
    have hpi : proc[i]? = some false := hpf i (Nat.le_refl _) (by omega)
    rw [hdrop]
    rw [optArgsLoop]
    simp only [hlt, dif_pos, readAt_ok hlt, Res.ok_bind]
    rcases optFind_spec hm (hh argv[i] (List.getElem_mem hlt)) with ⟨k, hk, hf⟩ | ⟨hk, hf⟩
    · rw [hf]
      simp only [Res.ok_bind]
      have hkl : k < opts.length := by rw [hlen]; exact hk.lt
      have hd : opts[k]? = some opts[k] := List.getElem?_eq_getElem hkl
      generalize opts[k] = d at hd
      have hty : (opts.map OptData.type)[k]? = some d.type := by rw [List.getElem?_map, hd]; rfl
      simp only [readAt_get hd, Res.ok_bind]
      by_cases hnp : d.type.needsParam = true
      · rw [if_pos hnp]
        have hnp' : d.type = .int ∨ d.type = .double ∨ d.type = .string := by
          cases ht : d.type <;> simp_all [OType.needsParam]
        by_cases hlast : i = argv.length - 1
        · rw [if_pos hlast]
          right
          refine ⟨?_, Or.inl rfl⟩
          have hnil : argv.drop (i + 1) = [] := List.drop_eq_nil_of_le (by omega)
          rw [hnil]
          intro occ rem hs
          generalize hg : ([argv[i]] : List Bytes) = l at hs
          cases hs with
          | nil => cases hg
          | other a as occ rem hno _ =>
            cases hg; exact hno k hk
          | flag a j as occ rem hj ht _ =>
            cases hg
            rw [hu _ j k hj hk, hty] at ht
            injection ht with ht
            rw [ht] at hnp
            cases hnp
          | param a v j t as occ rem hj ht _ _ => cases hg
        · rw [if_neg hlast]
          have hlt1 : i + 1 < argv.length := by omega
          have hdrop1 : argv.drop (i + 1) = argv[i + 1] :: argv.drop (i + 2) := List.drop_eq_getElem_cons hlt1
          rw [hdrop1]
          simp only [writeAt_ok _ (show i < proc.length by omega), readAt_ok hlt1, Res.ok_bind]
          have hinv : ∀ {occ rem}, Scan nss (opts.map OptData.type) (argv[i] :: argv[i + 1] :: argv.drop (i + 2)) occ rem →
              ∃ occ', occ = (k, some argv[i + 1]) :: occ' ∧ Scan nss (opts.map OptData.type) (argv.drop (i + 2)) occ' rem := by
            intro occ rem hs
            generalize hg : (argv[i] :: argv[i + 1] :: argv.drop (i + 2)) = l at hs
            cases hs with
            | nil => cases hg
            | other a as occ rem hno _ =>
              cases hg; exact absurd hk (hno k)
            | flag a j as occ rem hj ht _ =>
              cases hg
              rw [hu _ j k hj hk, hty] at ht
              injection ht with ht
              rw [ht] at hnp
              cases hnp
            | param a v j t as occ rem hj ht _ hs =>
              cases hg
              rw [hu _ j k hj hk]
              exact ⟨occ, rfl, hs⟩
          rcases optValue_cases atof d.type (some argv[i + 1]) (by simpa using hnp) (by
            rintro e; rw [e] at hnp; cases hnp) with ⟨v, hv⟩ | ⟨hv, w, hw, hub⟩
          · have hst := optStore_ok hd hv
            rw [hst]
            simp only [Res.ok_bind]
            rw [writeAt_ok _ (show i + 1 < (proc.set i true).length by simp; omega)]
            simp only [Res.ok_bind]
            have hopts := set_types (v := v) (b := true) hd
            have := ih (argv.length - (i + 2)) (by omega) (i + 2) ((proc.set i true).set (i + 1) true)
              (opts.set k { d with value := v, isSet := true }) rfl (by omega) (by simpa using hlen) (by simpa using hpl)
              (by
                intro j hj hjl
                rw [List.getElem?_set_ne (by omega), List.getElem?_set_ne (by omega)]
                exact hpf j (by omega) (by simpa using hjl))
            rw [hopts] at this
            have htake : ((proc.set i true).set (i + 1) true).take (i + 2) = proc.take i ++ [true, true] := by
              rw [take_set_succ (by simp; omega), take_set_succ (by omega)]
              simp
            rcases this with ⟨occ, rem, marks, h1, h2, h3, h4⟩ | ⟨h1, h2⟩
            · left
              refine ⟨(k, some argv[i + 1]) :: occ, rem, true :: true :: marks, Scan.param _ _ k _ _ _ _ hk hty hnp' h1, ?_, ?_, ?_⟩
              · simp only [List.length_cons, h2]; omega
              · rw [keep_cons_true, keep_cons_true, h3]
              · rw [h4, htake, storeAll]
                simp only [hst, Res.ok_bind]
                simp
            · right
              refine ⟨?_, h2.imp id (fun ⟨e, v, hv, hub⟩ =>
                ⟨e, v, List.mem_cons_of_mem _ (List.mem_cons_of_mem _ hv), hub⟩)⟩
              intro occ rem hs
              obtain ⟨occ', _, hs'⟩ := hinv hs
              exact h1 occ' rem hs'
          · cases hw
            have hst := optStore_ub hd hv
            rw [hst]
            simp only [Res.ub_bind]
            by_cases hex : ∃ occ rem, Scan nss (opts.map OptData.type) (argv[i] :: argv[i + 1] :: argv.drop (i + 2)) occ rem
            · left
              obtain ⟨occ, rem, hs⟩ := hex
              have hmarks : ∀ (as : List Bytes) (occ : List (Nat × Option Bytes)) (rem : List Bytes),
                  Scan nss (opts.map OptData.type) as occ rem → ∃ marks, marks.length = as.length ∧ keep as marks = rem := by
                intro as occ rem hs
                induction hs with
                | nil => exact ⟨[], rfl, rfl⟩
                | other a as occ rem _ _ ih =>
                  obtain ⟨m, h1, h2⟩ := ih
                  exact ⟨false :: m, by simp [h1], by rw [keep_cons_false, h2]⟩
                | flag a k as occ rem _ _ _ ih =>
                  obtain ⟨m, h1, h2⟩ := ih
                  exact ⟨true :: m, by simp [h1], by rw [keep_cons_true, h2]⟩
                | param a v k t as occ rem _ _ _ _ ih =>
                  obtain ⟨m, h1, h2⟩ := ih
                  exact ⟨true :: true :: m, by simp [h1], by rw [keep_cons_true, keep_cons_true, h2]⟩
              obtain ⟨marks, hm1, hm2⟩ := hmarks _ _ _ hs
              obtain ⟨occ', hocc, _⟩ := hinv hs
              refine ⟨occ, rem, marks, hs, ?_, hm2, ?_⟩
              · rw [hm1]; simp only [List.length_cons, List.length_drop]; omega
              · rw [hocc, storeAll]
                simp only [hst, Res.ub_bind]
            · right
              refine ⟨fun occ rem hs => hex ⟨occ, rem, hs⟩, Or.inr ⟨trivial, argv[i + 1], List.mem_cons_of_mem _ List.mem_cons_self, hub⟩⟩
      · rw [if_neg hnp]
        have hnp' : d.type = .bool ∨ d.type = .help := by
          cases ht : d.type <;> simp_all [OType.needsParam]
        rcases hnp' with ht | ht
        · have hst : optStore atof opts k none = _ := optStore_ok hd (v := .b 1) (by rw [ht]; rfl)
          rw [hst]
          simp only [Res.ok_bind, writeAt_ok _ (show i < proc.length by omega)]
          have hopts := set_types (v := .b 1) (b := true) hd
          have := ih (argv.length - (i + 1)) (by omega) (i + 1) (proc.set i true)
            (opts.set k { d with value := .b 1, isSet := true }) rfl (by omega) (by simpa using hlen) (by simpa using hpl)
            (by
              intro j hj hjl
              rw [List.getElem?_set_ne (by omega)]
              exact hpf j (by omega) (by simpa using hjl))
          rw [hopts] at this
          have htake : (proc.set i true).take (i + 1) = proc.take i ++ [true] := take_set_succ (by omega)
          rcases this with ⟨occ, rem, marks, h1, h2, h3, h4⟩ | ⟨h1, h2⟩
          · left
            refine ⟨(k, none) :: occ, rem, true :: marks, Scan.flag _ k _ _ _ hk (by rw [hty, ht]) h1, ?_, ?_, ?_⟩
            · simp only [List.length_cons, h2]; omega
            · rw [keep_cons_true, h3]
            · rw [h4, htake, storeAll]
              simp only [hst, Res.ok_bind]
              simp
          · right
            refine ⟨?_, h2.imp id (fun ⟨e, v, hv, hub⟩ => ⟨e, v, List.mem_cons_of_mem _ hv, hub⟩)⟩
            intro occ rem hs
            generalize hg : (argv[i] :: argv.drop (i + 1)) = l at hs
            cases hs with
            | nil => cases hg
            | other a as occ rem hno _ =>
              cases hg; exact hno k hk
            | flag a j as occ rem hj ht hs =>
              cases hg; exact h1 _ _ hs
            | param a v j t as occ rem hj ht' hp _ =>
              obtain ⟨rfl, hg⟩ := List.cons.inj hg
              rw [hu _ j k hj hk, hty, ht] at ht'
              cases ht'
              simp at hp
        · have hst : optStore atof opts k none = .fatal := by
            simp only [optStore, readAt_get hd, Res.ok_bind, ht, optValue, Res.fatal_bind]
          rw [hst]
          right
          refine ⟨?_, Or.inl rfl⟩
          intro occ rem hs
          generalize hg : (argv[i] :: argv.drop (i + 1)) = l at hs
          cases hs with
          | nil => cases hg
          | other a as occ rem hno _ =>
            cases hg; exact hno k hk
          | flag a j as occ rem hj ht' hs =>
            cases hg
            rw [hu _ j k hj hk, hty, ht] at ht'
            cases ht'
          | param a v j t as occ rem hj ht' hp _ =>
            obtain ⟨rfl, hg⟩ := List.cons.inj hg
            rw [hu _ j k hj hk, hty, ht] at ht'
            cases ht'
            simp at hp
    · rw [hf]
      simp only [Res.ok_bind]
      have := ih (argv.length - (i + 1)) (by omega) (i + 1) proc opts rfl (by omega) hlen hpl
        (fun j hj hjl => hpf j (by omega) hjl)
      rcases this with ⟨occ, rem, marks, h1, h2, h3, h4⟩ | ⟨h1, h2⟩
      · left
        refine ⟨occ, argv[i] :: rem, false :: marks, Scan.other _ _ _ _ hk h1, ?_, ?_, ?_⟩
        · simp only [List.length_cons, h2]; omega
        · rw [keep_cons_false, h3]
        · rw [h4, take_succ_of_get hpi]
          simp
      · right
        refine ⟨?_, h2.imp id (fun ⟨e, v, hv, hub⟩ => ⟨e, v, List.mem_cons_of_mem _ hv, hub⟩)⟩
        intro occ rem hs
        generalize hg : (argv[i] :: argv.drop (i + 1)) = l at hs
        cases hs with
        | nil => cases hg
        | other a as occ rem hno hs =>
          cases hg; exact h1 _ _ hs
        | flag a j as occ rem hj ht hs =>
          cases hg; exact hk j hj
        | param a v j t as occ rem hj ht' hp _ =>
          obtain ⟨rfl, hg⟩ := List.cons.inj hg
          exact hk j hj
  · left
    have hnil : argv.drop i = [] := List.drop_eq_nil_of_le (by omega)
    refine ⟨[], [], [], ?_, ?_, ?_, ?_⟩
    · rw [hnil]; exact Scan.nil
    · simp; omega
    · rw [hnil]; rfl
    · rw [optArgsLoop, dif_neg hlt, storeAll]
      simp only [Res.ok_bind, List.append_nil]
      rw [List.take_of_length_le (by omega)]

/-! ## The remaining arguments -/

theorem restCount_spec (argv : List Bytes) (proc : List Bool) (hl : proc.length = argv.length) (n : Nat) :
    ∀ i c, argv.length - i = n → restCount argv.length proc i c = .ok (c + (keep (argv.drop i) (proc.drop i)).length) := by
  induction n with
  | zero =>
    intro i c hn
    rw [restCount, if_neg (by omega), List.drop_eq_nil_of_le (by omega)]
    simp [keep]
  | succ n ih =>
    intro i c hn
    have h1 : i < argv.length := by omega
    have h2 : i < proc.length := by omega
    rw [restCount, if_pos h1, readAt_ok h2, Res.ok_bind, ih (i + 1) _ (by omega),
      List.drop_eq_getElem_cons h1, List.drop_eq_getElem_cons h2]
    cases proc[i]
    · rw [keep_cons_false]; simp; omega
    · rw [keep_cons_true]; simp

theorem restFill_spec (argv : List Bytes) (proc : List Bool) (hl : proc.length = argv.length) (n : Nat) :
    ∀ (i j : Nat) (r : List (Option Bytes)), argv.length - i = n →
      j + (keep (argv.drop i) (proc.drop i)).length ≤ r.length →
      restFill argv proc i j r = .ok (r.take j ++ (keep (argv.drop i) (proc.drop i)).map some ++
        r.drop (j + (keep (argv.drop i) (proc.drop i)).length)) := by
  induction n with
  | zero =>
    intro i j r hn hr
    rw [restFill, if_neg (by omega), List.drop_eq_nil_of_le (by omega)]
    simp [keep]
  | succ n ih =>
    intro i j r hn hr
    have h1 : i < argv.length := by omega
    have h2 : i < proc.length := by omega
    rw [restFill, if_pos h1, readAt_ok h2, Res.ok_bind]
    rw [List.drop_eq_getElem_cons h1, List.drop_eq_getElem_cons h2] at hr ⊢
    cases hp : proc[i] with
    | true =>
      rw [hp] at hr
      simp only [if_true]
      rw [keep_cons_true] at hr ⊢
      exact ih (i + 1) j r (by omega) hr
    | false =>
      rw [hp] at hr
      rw [keep_cons_false] at hr ⊢
      simp only [List.length_cons] at hr
      simp only [Bool.false_eq_true, if_false, readAt_ok h1, Res.ok_bind]
      rw [writeAt_ok _ (by omega), Res.ok_bind, ih (i + 1) (j + 1) _ (by omega) (by simp; omega)]
      rw [take_set_succ (by omega), List.drop_set_of_lt (by omega)]
      simp only [List.map_cons, List.length_cons, List.append_assoc, List.cons_append, List.nil_append]
      rw [show j + 1 + (keep (List.drop (i + 1) argv) (List.drop (i + 1) proc)).length =
        j + ((keep (List.drop (i + 1) argv) (List.drop (i + 1) proc)).length + 1) by omega]

theorem optSetRest_spec (r : OptRest) (argv : List Bytes) (proc : List Bool) (hl : proc.length = argv.length) :
    optSetRest r argv proc = .ok (OptRest.mk r.isRequired (if (keep argv proc).length > 0 then true else r.isSet)
      (some ((keep argv proc).map some ++ [none])) (keep argv proc).length) := by
  rw [optSetRest, restCount_spec argv proc hl _ 0 0 rfl, Res.ok_bind,
    restFill_spec argv proc hl _ 0 0 _ rfl (by simp)]
  simp

/-! ## Required options and defaults -/

theorem optCheckLoop_spec (l : List OptData) :
    ((∃ d ∈ l, d.isSet = false ∧ d.isRequired = true) ∧ optCheckLoop l = .fatal) ∨
    ((∀ d ∈ l, d.isSet = false → d.isRequired = false) ∧
      optCheckLoop l = .ok (l.map (fun d => if d.isSet then d else optDefault d))) := by
  induction l with
  | nil => right; exact ⟨by simp, rfl⟩
  | cons d l ih =>
    rw [optCheckLoop]
    by_cases hs : d.isSet = true
    · rw [if_pos hs]
      rcases ih with ⟨⟨e, h1, h2⟩, h3⟩ | ⟨h1, h2⟩
      · left
        exact ⟨⟨e, List.mem_cons_of_mem _ h1, h2⟩, by rw [h3]; rfl⟩
      · right
        refine ⟨?_, by rw [h2]; simp [hs]⟩
        intro e he hes
        rcases List.mem_cons.1 he with rfl | he
        · rw [hs] at hes; cases hes
        · exact h1 e he hes
    · rw [if_neg hs]
      by_cases hr : d.isRequired = true
      · rw [if_pos hr]
        left
        exact ⟨⟨d, List.mem_cons_self, by simpa using hs, hr⟩, rfl⟩
      · rw [if_neg hr]
        rcases ih with ⟨⟨e, h1, h2⟩, h3⟩ | ⟨h1, h2⟩
        · left
          exact ⟨⟨e, List.mem_cons_of_mem _ h1, h2⟩, by rw [h3]; rfl⟩
        · right
          refine ⟨?_, by rw [h2]; simp [hs]⟩
          intro e he hes
          rcases List.mem_cons.1 he with rfl | he
          · simpa using hr
          · exact h1 e he hes

/-! ## Storing occurrences -/

theorem lastOcc_cons {p : Nat × Option Bytes} {occ : List (Nat × Option Bytes)} {k : Nat} {v : Option Bytes}
    (h : LastOcc (p :: occ) k v) : LastOcc occ k v ∨ (p = (k, v) ∧ NeverOcc occ k) := by
  obtain ⟨pre, post, h1, h2⟩ := h
  cases pre with
  | nil =>
    simp only [List.nil_append, List.cons.injEq] at h1
    right
    refine ⟨h1.1, ?_⟩
    rw [h1.2]; exact h2
  | cons q pre =>
    simp only [List.cons_append, List.cons.injEq] at h1
    exact Or.inl ⟨pre, post, h1.2, h2⟩

theorem occ_cases (occ : List (Nat × Option Bytes)) (k : Nat) : NeverOcc occ k ∨ ∃ v, LastOcc occ k v := by
  induction occ with
  | nil => left; intro p hp; cases hp
  | cons p occ ih =>
    rcases ih with h | ⟨v, pre, post, h1, h2⟩
    · by_cases hp : p.1 = k
      · right
        exact ⟨p.2, [], occ, by rw [← hp]; rfl, h⟩
      · left
        intro q hq
        rcases List.mem_cons.1 hq with rfl | hq
        · exact hp
        · exact h q hq
    · right
      exact ⟨v, p :: pre, post, by rw [h1]; rfl, h2⟩

theorem optStore_inv {atof : Bytes → UInt64} {opts opts' : List OptData} {k : Nat} {a : Option Bytes}
    (h : optStore atof opts k a = .ok opts') : ∃ d v, opts[k]? = some d ∧ optValue atof d.type a = .ok v ∧
      opts' = opts.set k { d with value := v, isSet := true } := by
  simp only [optStore] at h
  obtain ⟨d, h1, h2⟩ := Res.bind_eq_ok.1 h
  obtain ⟨v, h3, h4⟩ := Res.bind_eq_ok.1 h2
  have hd : opts[k]? = some d := by
    unfold readAt at h1
    split at h1 <;> simp_all
  rw [writeAt_ok _ (lt_of_get hd)] at h4
  cases h4
  exact ⟨d, v, hd, h3, rfl⟩

theorem storeAll_spec {atof : Bytes → UInt64} {occ : List (Nat × Option Bytes)} : ∀ {opts opts' : List OptData},
    storeAll atof opts occ = .ok opts' → opts'.length = opts.length ∧
      ∀ k d, opts[k]? = some d →
        (NeverOcc occ k → opts'[k]? = some d) ∧
        (∀ a, LastOcc occ k a → ∃ v, optValue atof d.type a = .ok v ∧
          opts'[k]? = some { d with value := v, isSet := true }) := by
  induction occ with
  | nil =>
    intro opts opts' h
    cases h
    refine ⟨rfl, ?_⟩
    intro k d hd
    refine ⟨fun _ => hd, ?_⟩
    rintro a ⟨pre, post, h, _⟩
    simp at h
  | cons p occ ih =>
    intro opts opts' h
    rw [storeAll] at h
    obtain ⟨o1, h1, h2⟩ := Res.bind_eq_ok.1 h
    obtain ⟨e, v, he, hv, rfl⟩ := optStore_inv h1
    obtain ⟨hl, hs⟩ := ih h2
    refine ⟨by simpa using hl, ?_⟩
    intro k d hd
    by_cases hk : p.1 = k
    · subst hk
      obtain rfl : d = e := by rw [hd] at he; injection he
      have hd' : (opts.set p.1 { d with value := v, isSet := true })[p.1]? =
          some { d with value := v, isSet := true } := by simp [lt_of_get hd]
      refine ⟨fun hn => absurd rfl (hn p List.mem_cons_self), ?_⟩
      intro a ha
      rcases lastOcc_cons ha with h | ⟨h, hn⟩
      · obtain ⟨w, hw1, hw2⟩ := (hs p.1 _ hd').2 a h
        exact ⟨w, hw1, hw2⟩
      · have : p.2 = a := by rw [h]
        subst this
        exact ⟨v, hv, (hs p.1 _ hd').1 hn⟩
    · have hd' : (opts.set p.1 { e with value := v, isSet := true })[k]? = some d := by
        rw [List.getElem?_set_ne hk]; exact hd
      refine ⟨fun hn => (hs k d hd').1 (fun q hq => hn q (List.mem_cons_of_mem _ hq)), ?_⟩
      intro a ha
      rcases lastOcc_cons ha with h | ⟨h, _⟩
      · exact (hs k d hd').2 a h
      · rw [h] at hk; exact absurd rfl hk

theorem storeAll_total {atof : Bytes → UInt64} {occ : List (Nat × Option Bytes)} : ∀ {opts : List OptData},
    (∀ p ∈ occ, ∃ t v, (opts.map OptData.type)[p.1]? = some t ∧ optValue atof t p.2 = .ok v) →
    ∃ opts', storeAll atof opts occ = .ok opts' := by
  induction occ with
  | nil => intro opts _; exact ⟨opts, rfl⟩
  | cons p occ ih =>
    intro opts h
    obtain ⟨t, v, h1, h2⟩ := h p List.mem_cons_self
    rw [List.getElem?_map] at h1
    cases hd : opts[p.1]? with
    | none => rw [hd] at h1; cases h1
    | some d =>
      rw [hd] at h1
      simp only [Option.map_some, Option.some.injEq] at h1
      subst h1
      rw [storeAll, optStore_ok hd h2, Res.ok_bind]
      apply ih
      rw [set_types hd]
      exact fun q hq => h q (List.mem_cons_of_mem _ hq)

theorem storeAll_cases {atof : Bytes → UInt64} {occ : List (Nat × Option Bytes)} : ∀ {opts : List OptData},
    (∀ p ∈ occ, ∃ t, (opts.map OptData.type)[p.1]? = some t ∧ t.needsParam = p.2.isSome ∧ t ≠ .help) →
    (∃ opts', storeAll atof opts occ = .ok opts') ∨
      (storeAll atof opts occ = .ub ∧ ∃ p ∈ occ, ∃ v, p.2 = some v ∧ atol v = .ub) := by
  induction occ with
  | nil => intro opts _; exact Or.inl ⟨opts, rfl⟩
  | cons p occ ih =>
    intro opts h
    obtain ⟨t, h1, h2, h3⟩ := h p List.mem_cons_self
    rw [List.getElem?_map] at h1
    cases hd : opts[p.1]? with
    | none => rw [hd] at h1; cases h1
    | some d =>
      rw [hd] at h1
      simp only [Option.map_some, Option.some.injEq] at h1
      subst h1
      rcases optValue_cases atof d.type p.2 h2 h3 with ⟨v, hv⟩ | ⟨hv, w, hw, hu⟩
      · rw [storeAll, optStore_ok hd hv, Res.ok_bind]
        rcases ih (opts := opts.set p.1 { d with value := v, isSet := true }) (by
          rw [set_types hd]
          exact fun q hq => h q (List.mem_cons_of_mem _ hq)) with h | ⟨h, q, hq, hh⟩
        · exact Or.inl h
        · exact Or.inr ⟨h, q, List.mem_cons_of_mem _ hq, hh⟩
      · right
        refine ⟨?_, p, List.mem_cons_self, w, hw, hu⟩
        rw [storeAll, optStore_ub hd hv]; rfl

theorem Scan.occ_types {nss : List (List Bytes)} {types : List OType} {as : List Bytes} {occ : List (Nat × Option Bytes)}
    {rem : List Bytes} (h : Scan nss types as occ rem) :
    ∀ p ∈ occ, (∃ t, types[p.1]? = some t ∧ t.needsParam = p.2.isSome ∧ t ≠ .help) ∧ (∀ v, p.2 = some v → v ∈ as) := by
  induction h with
  | nil => intro p hp; cases hp
  | other a as occ rem _ _ ih =>
    intro p hp
    exact ⟨(ih p hp).1, fun v hv => List.mem_cons_of_mem _ ((ih p hp).2 v hv)⟩
  | flag a k as occ rem hk ht _ ih =>
    intro p hp
    rcases List.mem_cons.1 hp with rfl | hp
    · exact ⟨⟨.bool, ht, rfl, by decide⟩, by simp⟩
    · exact ⟨(ih p hp).1, fun v hv => List.mem_cons_of_mem _ ((ih p hp).2 v hv)⟩
  | param a v k t as occ rem hk ht htt _ ih =>
    intro p hp
    rcases List.mem_cons.1 hp with rfl | hp
    · refine ⟨⟨t, ht, ?_, ?_⟩, ?_⟩
      · rcases htt with rfl | rfl | rfl <;> rfl
      · rcases htt with rfl | rfl | rfl <;> decide
      · intro w hw; cases hw; simp
    · exact ⟨(ih p hp).1, fun v hv => List.mem_cons_of_mem _ (List.mem_cons_of_mem _ ((ih p hp).2 v hv))⟩

theorem Scan.det {nss : List (List Bytes)} {types : List OType} (hu : DistinctNames nss) {as : List Bytes}
    {occ : List (Nat × Option Bytes)} {rem : List Bytes} (h : Scan nss types as occ rem) :
    ∀ {occ' : List (Nat × Option Bytes)} {rem' : List Bytes}, Scan nss types as occ' rem' → occ' = occ ∧ rem' = rem := by
  induction h with
  | nil =>
    intro occ' rem' h'
    cases h'; exact ⟨rfl, rfl⟩
  | other a as occ rem hno _ ih =>
    intro occ' rem' h'
    cases h' with
    | other _ _ _ _ _ hs => obtain ⟨rfl, rfl⟩ := ih hs; exact ⟨rfl, rfl⟩
    | flag _ j _ _ _ hj _ _ => exact absurd hj (hno j)
    | param _ _ j _ _ _ _ hj _ _ _ => exact absurd hj (hno j)
  | flag a k as occ rem hk ht _ ih =>
    intro occ' rem' h'
    cases h' with
    | other _ _ _ _ hno _ => exact absurd hk (hno k)
    | flag _ j _ _ _ hj _ hs =>
      obtain ⟨rfl, rfl⟩ := ih hs
      rw [hu a j k hj hk]; exact ⟨rfl, rfl⟩
    | param _ _ j t _ _ _ hj ht' hp _ =>
      rw [hu a j k hj hk, ht] at ht'
      cases ht'; simp at hp
  | param a v k t as occ rem hk ht htt _ ih =>
    intro occ' rem' h'
    cases h' with
    | other _ _ _ _ hno _ => exact absurd hk (hno k)
    | flag _ j _ _ _ hj ht' hs =>
      rw [hu a j k hj hk, ht] at ht'
      cases ht'; simp at htt
    | param _ _ j t' _ _ _ hj ht' hp hs =>
      obtain ⟨rfl, rfl⟩ := ih hs
      rw [hu a j k hj hk]; exact ⟨rfl, rfl⟩

end Nx
