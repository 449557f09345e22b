import Verif.Lemmas.OptionsRun
import Verif.Lemmas.CNum

/-!
# Command line options: C34, C35
-/

namespace Nx

/-! ## C34: names -/

/-- C34 for declarations with one name, or one short and one long name each. When no two
options share a name, all declarations are accepted and a lookup finds exactly the
option declared with the name; the getters give the declared default, and abort for a
name that was not declared. When two options share a name the program is aborted.
Missing: declarations naming two short or two long names (`c34_same_kind_lost`), and names
whose hash overflows `int` where that does not wrap around (`c34_strict_overflow`). -/
theorem c34_table_partial (wrap : Bool) (ds : List ODecl) (nss : List (List Bytes)) (hd : Decls ds nss)
    (hn : ∀ ns ∈ nss, ∀ x ∈ ns, Hashable wrap x) :
    (DistinctNames nss → ∃ o, optDeclareAll wrap optAlloc ds = .ok o ∧
      ∀ x, Hashable wrap x →
        (∀ k, optFind wrap o.map (some x) = .ok (some k) ↔ Named nss x k) ∧
        (optFind wrap o.map (some x) = .ok none ↔ ∀ k, ¬ Named nss x k) ∧
        (∀ k t v q, Named nss x k → (declInfo ds)[k]? = some (t, v, q) →
          optIsSet wrap o x = .ok false ∧ optGet wrap o x t = .ok v ∧ ∀ t', t' ≠ t → optGet wrap o x t' = .fatal) ∧
        ((∀ k, ¬ Named nss x k) → optIsSet wrap o x = .fatal ∧ ∀ t, optGet wrap o x t = .fatal)) ∧
    (¬ DistinctNames nss → optDeclareAll wrap optAlloc ds = .fatal) := by
  rcases declare_spec (wrap := wrap) hd hn with ⟨h1, h2⟩ | ⟨h1, o, h2, h3, _, h5⟩
  · exact ⟨fun h => absurd h h1, fun _ => h2⟩
  · refine ⟨fun _ => ⟨o, h2, ?_⟩, fun h => absurd h1 h⟩
    intro x hx
    have hfind : ∀ k, Named nss x k → optFind wrap o.map (some x) = .ok (some k) :=
      fun k hk => named_optFind h5.map h1 hx hk
    have hnone : (∀ k, ¬ Named nss x k) → optFind wrap o.map (some x) = .ok none := by
      intro h
      rcases optFind_spec h5.map hx with ⟨k, hk, _⟩ | ⟨_, h'⟩
      · exact absurd hk (h k)
      · exact h'
    refine ⟨?_, ?_, ?_, ?_⟩
    · intro k
      refine ⟨?_, hfind k⟩
      intro h
      rcases optFind_spec h5.map hx with ⟨j, hj, h'⟩ | ⟨_, h'⟩
      · rw [h] at h'; cases h'; exact hj
      · rw [h] at h'; cases h'
    · refine ⟨?_, hnone⟩
      intro h k hk
      rw [hfind k hk] at h; cases h
    · intro k t v q hk hi
      obtain ⟨i1, i2⟩ := newRecs_info ds
      rw [← i1, ← h3, List.getElem?_map] at hi
      cases hg : o.opts[k]? with
      | none => rw [hg] at hi; cases hi
      | some d =>
        rw [hg] at hi
        simp only [Option.map_some, Option.some.injEq, Prod.mk.injEq] at hi
        have hmem : d ∈ newRecs ds := by rw [← h3]; exact List.mem_of_getElem? hg
        obtain ⟨j1, j2⟩ := i2 d hmem
        refine ⟨?_, ?_, ?_⟩
        · simp only [optIsSet, hfind k hk, Res.ok_bind, readAt_get hg, Res.pure_eq, j2]
        · simp only [optGet, hfind k hk, Res.ok_bind, readAt_get hg, Res.pure_eq, hi.1, j1, hi.2.1, ne_eq,
            not_true_eq_false, if_false]
        · intro t' ht
          simp only [optGet, hfind k hk, Res.ok_bind, readAt_get hg, hi.1]
          rw [if_pos (Ne.symm ht)]
    · intro h
      refine ⟨?_, ?_⟩
      · simp only [optIsSet, hnone h, Res.ok_bind]
      · intro t
        simp only [optGet, hnone h, Res.ok_bind]

/-- Declaring an option one of whose names is neither short nor long aborts the program. -/
theorem c34_illegal (wrap : Bool) (o : Options) (t : OType) (s : Bytes) (v : OVal) (q : Bool) (ps : List Bytes)
    (hp : NameParts s ps) (h : ∃ p ∈ ps, ¬ ShortName p ∧ ¬ LongName p) :
    optAdd wrap o t (some s) v q = .fatal := by
  have : setNames (some s) = .fatal := by
    cases hp with
    | one s hs =>
      obtain ⟨p, hp, h1, h2⟩ := h
      rw [List.mem_singleton] at hp
      subst hp
      simp [setNames, splitNames_one hs, setName_illegal h1 h2]
    | two a b ha =>
      simp only [setNames, splitNames_two ha]
      by_cases hs : ShortName a
      · rw [setName_short hs, Res.ok_bind]
        obtain ⟨p, hp, h1, h2⟩ := h
        rcases List.mem_cons.1 hp with rfl | hp
        · exact absurd hs h1
        · rw [List.mem_singleton] at hp
          subst hp
          exact setName_illegal h1 h2
      · by_cases hl : LongName a
        · rw [setName_long hl, Res.ok_bind]
          obtain ⟨p, hp, h1, h2⟩ := h
          rcases List.mem_cons.1 hp with rfl | hp
          · exact absurd hl h2
          · rw [List.mem_singleton] at hp
            subst hp
            exact setName_illegal h1 h2
        · rw [setName_illegal hs hl]; rfl
  simp only [optAdd, this, Res.fatal_bind]

/-- C34 fails for a declaration with two short names: it is accepted, and the first of
the two names is not found afterwards, whatever the two names are. -/
theorem c34_same_kind_lost (wrap : Bool) (a b : Bytes) (t : OType) (v : OVal) (q : Bool) (ha : (124 : Byte) ∉ a)
    (h1 : ShortName a) (h2 : ShortName b) (hab : a ≠ b) (hh1 : Hashable wrap a) (hh2 : Hashable wrap b) :
    ∃ o, optDeclareAll wrap optAlloc [.opt t (a ++ 124 :: b) v q] = .ok o ∧
      optFind wrap o.map (some a) = .ok none := by
  obtain ⟨m, e1, e2⟩ := optAddToMap_spec (optInv_alloc wrap).map hh2 0
  have hf : optFind wrap optAlloc.map (some b) = .ok none := by
    rcases optFind_spec (optInv_alloc wrap).map hh2 with ⟨k, hk, _⟩ | ⟨_, h⟩
    · obtain ⟨ns, h, _⟩ := hk; simp at h
    · exact h
  have hset : setNames (some (a ++ 124 :: b)) = .ok (some b, none) := by
    simp [setNames, splitNames_two ha, setName_short h1, setName_short h2]
  have hnone : optFind wrap optAlloc.map none = .ok none := rfl
  refine ⟨{ optAlloc with
    opts := [OptData.mk (some b) none t v q false v]
    map := m
    nOptions := 1 }, ?_, ?_⟩
  · have : optAddToMap wrap optAlloc.map b optAlloc.opts.length = .ok m := e1
    simp only [optDeclareAll, optDeclare, optAdd, hset, hnone, hf, optAddName, this, Res.ok_bind, Res.pure_eq,
      ne_eq, not_true_eq_false, if_false]
    rfl
  · rcases optFind_spec e2 hh1 with ⟨k, hk, _⟩ | ⟨_, h⟩
    · rcases hk with ⟨ns, h, _⟩ | ⟨h, _⟩
      · simp at h
      · exact absurd h hab
    · exact h

/-- Without wrap around, hashing overflows `int` for every long name of at least five
ASCII characters after the dashes: declaring the option is undefined. -/
theorem c34_strict_overflow (o : Options) (t : OType) (s : Bytes) (v : OVal) (q : Bool) (hl : 5 ≤ s.length)
    (ha : ∀ b ∈ s, b.toNat < 128) (hb : (124 : Byte) ∉ s) :
    optAdd false o t (some (45 :: 45 :: s)) v q = .ub := by
  have hset : setNames (some (45 :: 45 :: s)) = .ok (none, some (45 :: 45 :: s)) := by
    have h1 : (124 : Byte) ∉ 45 :: 45 :: s := by
      intro h
      rcases List.mem_cons.1 h with h | h
      · exact absurd h (by decide)
      · rcases List.mem_cons.1 h with h | h
        · exact absurd h (by decide)
        · exact hb h
    simp [setNames, splitNames_one h1, setName_long (show LongName (45 :: 45 :: s) from ⟨by simp; omega, rfl, rfl⟩)]
  have hhash : hashCode false 0 (45 :: 45 :: s) = .ub := by
    match s, hl with
    | a :: b :: c :: d :: e :: r, _ =>
      have sc : ∀ x ∈ a :: b :: c :: d :: e :: r, schar x = (x.toNat : Int) := by
        intro x hx
        rw [schar, if_pos (ha x hx)]
      have step : ∀ (h : Int) (x : Byte) (l : Bytes), schar x = (x.toNat : Int) → 0 ≤ h → h * 31 + 127 ≤ 2147483647 →
          x.toNat < 128 → hashCode false h (x :: l) = hashCode false (h * 31 + x.toNat) l := by
        intro h x l hx h0 h1 h2
        rw [hashCode, hashStep, hx]
        have : InI32 (h * 31) ∧ InI32 (h * 31 + (x.toNat : Int)) := by
          unfold InI32; omega
        simp only [Bool.false_eq_true, if_false, if_pos this, Res.ok_bind]
      have ha' := ha a (by simp)
      have hb' := ha b (by simp)
      have hc' := ha c (by simp)
      have hd' := ha d (by simp)
      have e45 : (45 : Byte).toNat = 45 := rfl
      rw [step 0 45 _ rfl (by omega) (by omega) (by decide)]
      rw [step _ 45 _ rfl (by omega) (by omega) (by decide)]
      rw [step _ a _ (sc a (by simp)) (by omega) (by omega) ha']
      rw [step _ b _ (sc b (by simp)) (by omega) (by omega) hb']
      rw [step _ c _ (sc c (by simp)) (by omega) (by omega) hc']
      rw [step _ d _ (sc d (by simp)) (by omega) (by omega) hd']
      rw [hashCode, hashStep]
      have : ¬ (InI32 ((((((((0 : Int) * 31 + (45 : Byte).toNat) * 31 + (45 : Byte).toNat) * 31 + a.toNat) * 31 + b.toNat) * 31 +
          c.toNat) * 31 + d.toNat) * 31) ∧ InI32 ((((((((0 : Int) * 31 + (45 : Byte).toNat) * 31 + (45 : Byte).toNat) * 31 + a.toNat) * 31 +
          b.toNat) * 31 + c.toNat) * 31 + d.toNat) * 31 + schar e)) := by
        unfold InI32; omega
      rw [if_neg (by decide), if_neg this]
      rfl
  simp only [optAdd, hset, Res.ok_bind, optFind, bucketOf, hhash, Res.ub_bind]

/-- The format string and arguments of `nx_options_add` that stand for declarations. -/
inductive FormatOf : List ODecl → Bytes → List OArg → Prop
  | nil (args : List OArg) : FormatOf [] [] args
  | bool (n : Bytes) (h : Option Bytes) (v : Int) (q : Bool) (ds : List ODecl) (f : Bytes) (args : List OArg) :
      FormatOf ds f args → FormatOf (.opt .bool n (.b v) q :: ds) ((if q then 66 else 98) :: f)
        (.str (some n) :: .str h :: .int v :: args)
  | int (n : Bytes) (h : Option Bytes) (v : Int) (q : Bool) (ds : List ODecl) (f : Bytes) (args : List OArg) :
      FormatOf ds f args → FormatOf (.opt .int n (.i v) q :: ds) ((if q then 73 else 105) :: f)
        (.str (some n) :: .str h :: .int v :: args)
  | double (n : Bytes) (h : Option Bytes) (v : UInt64) (q : Bool) (ds : List ODecl) (f : Bytes) (args : List OArg) :
      FormatOf ds f args → FormatOf (.opt .double n (.d v) q :: ds) ((if q then 68 else 100) :: f)
        (.str (some n) :: .str h :: .dbl v :: args)
  | string (n : Bytes) (h : Option Bytes) (v : Option Bytes) (q : Bool) (ds : List ODecl) (f : Bytes) (args : List OArg) :
      FormatOf ds f args → FormatOf (.opt .string n (.s v) q :: ds) ((if q then 83 else 115) :: f)
        (.str (some n) :: .str h :: .str v :: args)
  | rest (h : Option Bytes) (q : Bool) (ds : List ODecl) (f : Bytes) (args : List OArg) :
      FormatOf ds f args → FormatOf (.rest q :: ds) ((if q then 82 else 114) :: f) (.str h :: args)

/-- Declaring by a format string is declaring one option after the other. -/
theorem c34_format (wrap : Bool) (ds : List ODecl) (f : Bytes) (args : List OArg) (h : FormatOf ds f args) (o : Options) :
    optVadd wrap o f args = optDeclareAll wrap o ds := by
  induction h generalizing o with
  | nil => rfl
  | bool n h v q ds f args _ ih =>
    rw [optVadd, optDeclareAll, optDeclare]
    have : optVaddChar wrap o (if q then 66 else 98) (.str (some n) :: .str h :: .int v :: args) =
        (do let o ← optAdd wrap o .bool (some n) (.b v) q; pure (o, args)) := by cases q <;> rfl
    rw [this]
    cases optAdd wrap o .bool (some n) (.b v) q with
    | ok o => exact ih o
    | fatal => rfl
    | ub => rfl
  | int n h v q ds f args _ ih =>
    rw [optVadd, optDeclareAll, optDeclare]
    have : optVaddChar wrap o (if q then 73 else 105) (.str (some n) :: .str h :: .int v :: args) =
        (do let o ← optAdd wrap o .int (some n) (.i v) q; pure (o, args)) := by cases q <;> rfl
    rw [this]
    cases optAdd wrap o .int (some n) (.i v) q with
    | ok o => exact ih o
    | fatal => rfl
    | ub => rfl
  | double n h v q ds f args _ ih =>
    rw [optVadd, optDeclareAll, optDeclare]
    have : optVaddChar wrap o (if q then 68 else 100) (.str (some n) :: .str h :: .dbl v :: args) =
        (do let o ← optAdd wrap o .double (some n) (.d v) q; pure (o, args)) := by cases q <;> rfl
    rw [this]
    cases optAdd wrap o .double (some n) (.d v) q with
    | ok o => exact ih o
    | fatal => rfl
    | ub => rfl
  | string n h v q ds f args _ ih =>
    rw [optVadd, optDeclareAll, optDeclare]
    have : optVaddChar wrap o (if q then 83 else 115) (.str (some n) :: .str h :: .str v :: args) =
        (do let o ← optAdd wrap o .string (some n) (.s v) q; pure (o, args)) := by cases q <;> rfl
    rw [this]
    cases optAdd wrap o .string (some n) (.s v) q with
    | ok o => exact ih o
    | fatal => rfl
    | ub => rfl
  | rest h q ds f args _ ih =>
    rw [optVadd, optDeclareAll, optDeclare]
    have : optVaddChar wrap o (if q then 82 else 114) (.str h :: args) = .ok (optAddRest o q, args) := by
      cases q <;> rfl
    rw [this]
    exact ih _

/-! ## C35: parsing -/

/-- The static facts of a state reached from declarations by successful parses. -/
theorem reach_facts {wrap : Bool} {atof : Bytes → UInt64} {ds : List ODecl} {nss : List (List Bytes)} (hd : Decls ds nss)
    (hn : ∀ ns ∈ nss, ∀ x ∈ ns, Hashable wrap x) {o0 o : Options} (h0 : optDeclareAll wrap optAlloc ds = .ok o0)
    {hist : List (List Bytes)} (hh : ∀ l ∈ hist, ∀ a ∈ l, Hashable wrap a)
    (hr : optParseAll wrap atof o0 hist = .ok o) :
    DistinctNames nss ∧ OptInv wrap o nss ∧ normOpts o = normOpts o0 ∧
      o.opts.map (fun d => (d.type, d.dflt, d.isRequired)) = declInfo ds ∧
      (∀ d ∈ o.opts, d.type = .help → d.value = d.dflt) ∧
      o.rest.map OptRest.isRequired = declRest ds := by
  rcases declare_spec (wrap := wrap) hd hn with ⟨h1, h2⟩ | ⟨h1, o', h2, h3, h4, h5⟩
  · rw [h0] at h2; cases h2
  rw [h0] at h2
  cases h2
  obtain ⟨i1, i2⟩ := parseAll_keeps atof h1 h5 hh hr
  have hopts : (o.opts.map clearRec).map cdRec = (o0.opts.map clearRec).map cdRec := congrArg Options.opts i2
  have hrest : o.rest.map (fun r => OptRest.mk r.isRequired false none 0) =
      o0.rest.map (fun r => OptRest.mk r.isRequired false none 0) := congrArg Options.rest i2
  have inf : ∀ l : List OptData, ((l.map clearRec).map cdRec).map (fun d => (d.type, d.dflt, d.isRequired)) =
      l.map (fun d => (d.type, d.dflt, d.isRequired)) := by
    intro l
    rw [List.map_map, List.map_map]
    apply List.map_congr_left
    intro d _
    show ((cdRec (clearRec d)).type, (cdRec (clearRec d)).dflt, (cdRec (clearRec d)).isRequired) = _
    unfold cdRec
    split <;> rfl
  obtain ⟨j1, j2⟩ := newRecs_info ds
  refine ⟨h1, i1, i2, ?_, ?_, ?_⟩
  · rw [← inf, hopts, inf, h3, j1]
  · intro d hdm ht
    have hm : cdRec (clearRec d) ∈ (o.opts.map clearRec).map cdRec :=
      List.mem_map_of_mem (List.mem_map_of_mem hdm)
    rw [hopts, List.mem_map] at hm
    obtain ⟨e, he1, he2⟩ := hm
    rw [List.mem_map] at he1
    obtain ⟨f, hf1, rfl⟩ := he1
    rw [h3] at hf1
    have hv := (j2 f hf1).1
    have e1 : cdRec (clearRec d) = clearRec d := if_pos (Or.inr ht)
    have e2 : (cdRec (clearRec f)).value = (cdRec (clearRec f)).dflt := by
      unfold cdRec
      split
      · exact hv
      · rfl
    rw [he2, e1] at e2
    exact e2
  · have h6 : o0.rest.map OptRest.isRequired = declRest ds := by
      rw [h4, newRest_spec]
      cases declRest ds <;> rfl
    rw [← h6]
    have := congrArg (Option.map OptRest.isRequired) hrest
    rw [Option.map_map, Option.map_map] at this
    exact this

theorem info_types {opts : List OptData} {info : List (OType × OVal × Bool)}
    (h : opts.map (fun d => (d.type, d.dflt, d.isRequired)) = info) :
    opts.map OptData.type = info.map Prod.fst := by
  rw [← h, List.map_map]; rfl

/-- C35. After a successful parse there is a reading of the arguments such that: an option
that occurs in it is set and holds the value given by its last occurrence; an option that
does not occur was not required, is not set and holds its default; the arguments left are
collected in order (none at all are reported as NULL), and there are some if they were
required. -/
theorem c35_result (wrap : Bool) (atof : Bytes → UInt64) (ds : List ODecl) (nss : List (List Bytes)) (hd : Decls ds nss)
    (hn : ∀ ns ∈ nss, ∀ x ∈ ns, Hashable wrap x) (o0 o o' : Options) (h0 : optDeclareAll wrap optAlloc ds = .ok o0)
    (hist : List (List Bytes)) (hh : ∀ l ∈ hist, ∀ a ∈ l, Hashable wrap a)
    (hr : optParseAll wrap atof o0 hist = .ok o) (prog : Bytes) (args : List Bytes)
    (ha : ∀ a ∈ prog :: args, Hashable wrap a) (h : optSetFromArgs wrap atof o (prog :: args) = .ok o') :
    ∃ occ rem, Scan nss ((declInfo ds).map Prod.fst) args occ rem ∧
      (∀ x k t v q, Named nss x k → (declInfo ds)[k]? = some (t, v, q) →
        (NeverOcc occ k → q = false ∧ optIsSet wrap o' x = .ok false ∧ optGet wrap o' x t = .ok v) ∧
        (∀ a, LastOcc occ k a → optIsSet wrap o' x = .ok true ∧
          ∃ val, Gives atof t a val ∧ optGet wrap o' x t = .ok val)) ∧
      optGetRest o' = (if declRest ds = none ∨ rem = [] then none else some (rem.map some ++ [none])) ∧
      (declRest ds = some true → rem ≠ []) := by
  obtain ⟨hu, hi, _, hinfo, hhelp, hrest⟩ := reach_facts hd hn h0 hh hr
  rcases parse_spec atof hi hu prog (ha prog List.mem_cons_self) (fun a h => ha a (List.mem_cons_of_mem _ h)) with
    ⟨occ, rem, opts, h1, h2, h3, h4, h5⟩ | ⟨h1, _⟩ | ⟨h1, _⟩
  rotate_left
  · rw [h] at h1; cases h1
  · rw [h] at h1; cases h1
  rw [h] at h5
  injection h5 with h5
  rw [info_types hinfo] at h1
  refine ⟨occ, rem, h1, ?_, ?_, ?_⟩
  · intro x k t v q hk hi'
    obtain ⟨ns, hns, hxn⟩ := hk
    have hx : Hashable wrap x := hn ns (List.mem_of_getElem? hns) x hxn
    have hk : Named nss x k := ⟨ns, hns, hxn⟩
    have hf : optFind wrap o'.map (some x) = .ok (some k) := by
      rw [h5]; exact named_optFind hi.map hu hx hk
    rw [← hinfo, List.getElem?_map] at hi'
    cases hg : o.opts[k]? with
    | none => rw [hg] at hi'; cases hi'
    | some d =>
      rw [hg] at hi'
      simp only [Option.map_some, Option.some.injEq, Prod.mk.injEq] at hi'
      obtain ⟨ht, hv, hq⟩ := hi'
      have hc : (o.opts.map clearRec)[k]? = some (clearRec d) := by rw [List.getElem?_map, hg]; rfl
      obtain ⟨_, hs⟩ := storeAll_spec h2
      obtain ⟨s1, s2⟩ := hs k _ hc
      refine ⟨?_, ?_⟩
      · intro hno
        have e1 := s1 hno
        have hq' : q = false := by
          rw [← hq]
          exact h3 (clearRec d) (List.mem_of_getElem? e1) rfl
        have e2 : o'.opts[k]? = some (optDefault (clearRec d)) := by
          rw [h5]
          simp only [List.getElem?_map, e1, Option.map_some]
          rfl
        refine ⟨hq', ?_, ?_⟩
        · simp only [optIsSet, hf, Res.ok_bind, readAt_get e2, Res.pure_eq]
          unfold optDefault
          split <;> rfl
        · simp only [optGet, hf, Res.ok_bind, readAt_get e2, Res.pure_eq]
          unfold optDefault
          by_cases hh : (clearRec d).type = .help
          · rw [if_pos hh]
            have : d.type = t := ht
            rw [if_neg (show ¬ (clearRec d).type ≠ t by rw [← this]; simp [clearRec])]
            have : d.value = d.dflt := hhelp d (List.mem_of_getElem? hg) hh
            show Res.ok d.value = _
            rw [this, hv]
          · rw [if_neg hh]
            rw [if_neg (by rw [← ht]; simp [clearRec])]
            show Res.ok d.dflt = _
            rw [hv]
      · intro a hl
        obtain ⟨val, hval, e1⟩ := s2 a hl
        have e2 : o'.opts[k]? = some { clearRec d with value := val, isSet := true } := by
          rw [h5]
          simp only [List.getElem?_map, e1, Option.map_some]
          rfl
        refine ⟨?_, val, ?_, ?_⟩
        · simp only [optIsSet, hf, Res.ok_bind, readAt_get e2, Res.pure_eq]
        · obtain ⟨pre, post, hocc, _⟩ := hl
          obtain ⟨⟨t', ht1, ht2, _⟩, _⟩ := h1.occ_types (k, a) (by rw [hocc]; simp)
          rw [← info_types hinfo, List.getElem?_map, hg] at ht1
          simp only [Option.map_some, Option.some.injEq] at ht1
          rw [← ht]
          refine (gives_iff atof d.type a ?_ val).1 hval
          rw [ht1]; exact ht2
        · simp only [optGet, hf, Res.ok_bind, readAt_get e2, Res.pure_eq]
          rw [if_neg (by rw [← ht]; simp [clearRec])]
  · rw [h5]
    simp only [optGetRest]
    rw [← hrest]
    cases o.rest with
    | none => rfl
    | some r =>
      simp only [Option.map_some, Option.bind_some, restFinal, reduceCtorEq, false_or]
  · intro hq
    rw [← hrest] at hq
    cases hor : o.rest with
    | none => rw [hor] at hq; cases hq
    | some r =>
      rw [hor] at hq
      simp only [Option.map_some, Option.some.injEq] at hq
      exact h4 r hor hq

/-- C35, the other direction: when the arguments can be read, every occurrence gives a
value, every required option occurs, and there are arguments left if they are required,
then parsing succeeds. -/
theorem c35_accepts (wrap : Bool) (atof : Bytes → UInt64) (ds : List ODecl) (nss : List (List Bytes)) (hd : Decls ds nss)
    (hn : ∀ ns ∈ nss, ∀ x ∈ ns, Hashable wrap x) (o0 o : Options) (h0 : optDeclareAll wrap optAlloc ds = .ok o0)
    (hist : List (List Bytes)) (hh : ∀ l ∈ hist, ∀ a ∈ l, Hashable wrap a)
    (hr : optParseAll wrap atof o0 hist = .ok o) (prog : Bytes) (args : List Bytes)
    (ha : ∀ a ∈ prog :: args, Hashable wrap a) (occ : List (Nat × Option Bytes)) (rem : List Bytes)
    (hs : Scan nss ((declInfo ds).map Prod.fst) args occ rem)
    (hg : ∀ k a t v q, (k, a) ∈ occ → (declInfo ds)[k]? = some (t, v, q) → ∃ val, Gives atof t a val)
    (hq : ∀ k t v, (declInfo ds)[k]? = some (t, v, true) → ¬ NeverOcc occ k)
    (hrem : declRest ds = some true → rem ≠ []) :
    ∃ o', optSetFromArgs wrap atof o (prog :: args) = .ok o' := by
  obtain ⟨hu, hi, _, hinfo, hhelp, hrest⟩ := reach_facts hd hn h0 hh hr
  have hstore : ∃ opts, storeAll atof (o.opts.map clearRec) occ = .ok opts := by
    apply storeAll_total
    intro p hp
    obtain ⟨⟨t, h1, h2, _⟩, _⟩ := hs.occ_types p hp
    rw [List.getElem?_map] at h1
    cases hi' : (declInfo ds)[p.1]? with
    | none => rw [hi'] at h1; cases h1
    | some x =>
      rw [hi'] at h1
      simp only [Option.map_some, Option.some.injEq] at h1
      obtain ⟨t', v, q⟩ := x
      simp only at h1
      subst h1
      obtain ⟨val, hval⟩ := hg p.1 p.2 t' v q hp hi'
      refine ⟨t', val, ?_, (gives_iff atof t' p.2 h2 val).2 hval⟩
      rw [List.map_map]
      show (o.opts.map OptData.type)[p.1]? = _
      rw [info_types hinfo, List.getElem?_map, hi']
      rfl
  obtain ⟨opts0, hst0⟩ := hstore
  rcases parse_spec atof hi hu prog (ha prog List.mem_cons_self) (fun a h => ha a (List.mem_cons_of_mem _ h)) with
    ⟨_, _, _, _, _, _, _, h5⟩ | ⟨_, hbad⟩ | ⟨_, _, hub⟩
  · exact ⟨_, h5⟩
  · exfalso
    rw [info_types hinfo] at hbad
    rcases hbad with hno | ⟨occ', rem', opts, hs', hst, hb⟩
    · exact hno occ rem hs
    · obtain ⟨rfl, rfl⟩ := hs.det hu hs'
      rw [hst0] at hst
      cases hst
      rcases hb with ⟨d, hdm, hd1, hd2⟩ | ⟨hnil, r, hor, hreq⟩
      · obtain ⟨k, hkl, hk⟩ := List.getElem_of_mem hdm
        have hk' : opts0[k]? = some d := by rw [List.getElem?_eq_getElem hkl, hk]
        obtain ⟨hlen, hsp⟩ := storeAll_spec hst0
        have hko : k < o.opts.length := by rw [hlen] at hkl; simpa using hkl
        have hc : (o.opts.map clearRec)[k]? = some (clearRec o.opts[k]) := by
          rw [List.getElem?_map, List.getElem?_eq_getElem hko]; rfl
        obtain ⟨s1, s2⟩ := hsp k _ hc
        rcases occ_cases occ' k with hno | ⟨a, hl⟩
        · rw [s1 hno] at hk'
          cases hk'
          have : (declInfo ds)[k]? = some (o.opts[k].type, o.opts[k].dflt, true) := by
            rw [← hinfo, List.getElem?_map, List.getElem?_eq_getElem hko]
            have : o.opts[k].isRequired = true := hd2
            simp [this]
          exact hq k _ _ this hno
        · obtain ⟨v, _, e⟩ := s2 a hl
          rw [e] at hk'
          cases hk'
          cases hd1
      · refine hrem ?_ hnil
        rw [← hrest, hor, Option.map_some, hreq]
  · have := hub occ rem (by rw [info_types hinfo]; exact hs)
    rw [hst0] at this; cases this

/-- C35, aborts: when all integers fit in `long`, a command line that cannot be read, that
lacks a required option or that lacks required remaining arguments aborts the program. -/
theorem c35_rejects (wrap : Bool) (atof : Bytes → UInt64) (ds : List ODecl) (nss : List (List Bytes)) (hd : Decls ds nss)
    (hn : ∀ ns ∈ nss, ∀ x ∈ ns, Hashable wrap x) (o0 o : Options) (h0 : optDeclareAll wrap optAlloc ds = .ok o0)
    (hist : List (List Bytes)) (hh : ∀ l ∈ hist, ∀ a ∈ l, Hashable wrap a)
    (hr : optParseAll wrap atof o0 hist = .ok o) (prog : Bytes) (args : List Bytes)
    (ha : ∀ a ∈ prog :: args, Hashable wrap a) (hv : ∀ a ∈ args, ∃ x, atol a = .ok x)
    (hbad : ∀ occ rem, Scan nss ((declInfo ds).map Prod.fst) args occ rem →
      (∃ k t v, (declInfo ds)[k]? = some (t, v, true) ∧ NeverOcc occ k) ∨ (declRest ds = some true ∧ rem = [])) :
    optSetFromArgs wrap atof o (prog :: args) = .fatal := by
  obtain ⟨hu, hi, _, hinfo, hhelp, hrest⟩ := reach_facts hd hn h0 hh hr
  rcases parse_spec atof hi hu prog (ha prog List.mem_cons_self) (fun a h => ha a (List.mem_cons_of_mem _ h)) with
    ⟨occ, rem, opts, h1, h2, h3, h4, h5⟩ | ⟨h1, _⟩ | ⟨_, ⟨a, h1, h2⟩, _⟩
  · exfalso
    rw [info_types hinfo] at h1
    rcases hbad occ rem h1 with ⟨k, t, v, hk, hno⟩ | ⟨hq, hnil⟩
    · rw [← hinfo, List.getElem?_map] at hk
      cases hg : o.opts[k]? with
      | none => rw [hg] at hk; cases hk
      | some d =>
        rw [hg] at hk
        simp only [Option.map_some, Option.some.injEq, Prod.mk.injEq] at hk
        have hc : (o.opts.map clearRec)[k]? = some (clearRec d) := by rw [List.getElem?_map, hg]; rfl
        have e := ((storeAll_spec h2).2 k _ hc).1 hno
        have := h3 _ (List.mem_of_getElem? e) rfl
        have h' : d.isRequired = false := this
        rw [hk.2.2] at h'
        cases h'
    · rw [← hrest] at hq
      cases hor : o.rest with
      | none => rw [hor] at hq; cases hq
      | some r =>
        rw [hor] at hq
        simp only [Option.map_some, Option.some.injEq] at hq
        exact h4 r hor hq hnil
  · exact h1
  · obtain ⟨x, hx⟩ := hv a h1
    rw [hx] at h2; cases h2

/-- C35, independence: whatever was parsed successfully before, parsing a command line has
the outcome it has on the freshly declared options. -/
theorem c35_history (wrap : Bool) (atof : Bytes → UInt64) (ds : List ODecl) (nss : List (List Bytes)) (hd : Decls ds nss)
    (hn : ∀ ns ∈ nss, ∀ x ∈ ns, Hashable wrap x) (o0 o : Options) (h0 : optDeclareAll wrap optAlloc ds = .ok o0)
    (hist : List (List Bytes)) (hh : ∀ l ∈ hist, ∀ a ∈ l, Hashable wrap a)
    (hr : optParseAll wrap atof o0 hist = .ok o) (argv : List Bytes) :
    optSetFromArgs wrap atof o argv = optSetFromArgs wrap atof o0 argv := by
  obtain ⟨_, _, h, _⟩ := reach_facts hd hn h0 hh hr
  rw [← optSetFromArgs_norm wrap atof o, h, optSetFromArgs_norm]

theorem atol_intText {v : Int} (h : InI32 v) : atol (intText v) = .ok v := by
  unfold atol
  rw [intText_parts]
  simp only
  rw [takeWhile_all (fun x hx => isDigitB_of_mem_natText hx), digitsVal_natText]
  have : (if decide (v < 0) = true then -(v.natAbs : Int) else (v.natAbs : Int)) = v := by
    by_cases h : v < 0
    · rw [if_pos (by simpa using h)]; omega
    · rw [if_neg (by simpa using h)]; omega
  rw [this, if_pos (by unfold InI32 at h; omega)]

/-- The decimal text of an `int` gives that `int`, and nothing else. -/
theorem c35_int_text (atof : Bytes → UInt64) (v : Int) (h : InI32 v) (val : OVal) :
    Gives atof .int (some (intText v)) val ↔ val = .i v := by
  have hw : wrap32 v = v := by unfold wrap32; unfold InI32 at h; omega
  constructor
  · intro g
    cases g with
    | int _ x hx =>
      rw [atol_intText h] at hx
      cases hx
      rw [hw]
  · rintro rfl
    have := Gives.int (atof := atof) (intText v) v (atol_intText h)
    rwa [hw] at this

/-- The readings of a command line are unique: the result described by `c35_result` is. -/
theorem c35_unique (nss : List (List Bytes)) (types : List OType) (hu : DistinctNames nss) (args : List Bytes)
    (occ occ' : List (Nat × Option Bytes)) (rem rem' : List Bytes) (h : Scan nss types args occ rem)
    (h' : Scan nss types args occ' rem') : occ' = occ ∧ rem' = rem := h.det hu h'

/-! ## Concrete instances -/

/-- Three options and remaining arguments. -/
def exDecls : List ODecl :=
  [.opt .bool (bytesOf "-v|--verbose") (.b 0) false, .opt .int (bytesOf "-n") (.i 3) true,
   .opt .string (bytesOf "--output") (.s none) false, .rest false]

def exNames : List (List Bytes) := [[bytesOf "-v", bytesOf "--verbose"], [bytesOf "-n"], [bytesOf "--output"]]

theorem exDecls_names : Decls exDecls exNames := by
  have e1 : bytesOf "-v|--verbose" = bytesOf "-v" ++ 124 :: bytesOf "--verbose" := by decide +kernel
  unfold exDecls exNames
  rw [e1]
  refine .opt _ _ _ _ _ _ _ (.shortLong _ _ (by decide +kernel) (by decide +kernel) (by decide +kernel))
    (.opt _ _ _ _ _ _ _ (.one _ (by decide +kernel) (Or.inl (by decide +kernel)))
      (.opt _ _ _ _ _ _ _ (.one _ (by decide +kernel) (Or.inr (by decide +kernel))) (.rest _ _ _ .nil)))

example : ∀ ns ∈ exNames, ∀ x ∈ ns, Hashable true x := fun _ _ _ _ => Or.inl rfl

example : Hashable false (bytesOf "-n") := by
  right
  intro k hk
  have : k < 2 := hk
  match k, this with
  | 0, _ => decide +kernel
  | 1, _ => decide +kernel

example : DistinctNames exNames := by
  intro x j k hj hk
  obtain ⟨a, h1, h2⟩ := hj
  obtain ⟨b, h3, h4⟩ := hk
  have hall : ∀ p ∈ [0, 1, 2], ∀ q ∈ [0, 1, 2], ∀ y ∈ exNames.flatten,
      (∃ a ∈ exNames[p]?, y ∈ a) → (∃ b ∈ exNames[q]?, y ∈ b) → p = q := by decide +kernel
  have hj3 : j < 3 := lt_of_get h1
  have hk3 : k < 3 := lt_of_get h3
  refine hall j ?_ k ?_ x (List.mem_flatten.2 ⟨a, List.mem_of_getElem? h1, h2⟩) ⟨a, h1, h2⟩ ⟨b, h3, h4⟩
  · simp; omega
  · simp; omega

/-- A command line for these options. -/
def exArgs : List Bytes :=
  [bytesOf "-n", bytesOf "7", bytesOf "a.png", bytesOf "--verbose", bytesOf "-n", bytesOf "-12", bytesOf "-x"]

example : Scan exNames ((declInfo exDecls).map Prod.fst) exArgs [(1, some (bytesOf "7")), (0, none), (1, some (bytesOf "-12"))]
    [bytesOf "a.png", bytesOf "-x"] := by
  have no : ∀ x, x ∉ exNames.flatten → ∀ k, ¬ Named exNames x k := by
    rintro x hx k ⟨ns, h1, h2⟩
    exact hx (List.mem_flatten.2 ⟨ns, List.mem_of_getElem? h1, h2⟩)
  exact .param _ _ 1 .int _ _ _ ⟨_, rfl, by decide +kernel⟩ rfl (Or.inl rfl)
    (.other _ _ _ _ (no _ (by decide +kernel))
      (.flag _ 0 _ _ _ ⟨_, rfl, by decide +kernel⟩ rfl
        (.param _ _ 1 .int _ _ _ ⟨_, rfl, by decide +kernel⟩ rfl (Or.inl rfl)
          (.other _ _ _ _ (no _ (by decide +kernel)) .nil))))

/-- What the getters give after parsing it. -/
def exResult : Res (List OVal × Option (List (Option Bytes))) := do
    let o ← optDeclareAll true optAlloc exDecls
    let o ← optSetFromArgs true (fun _ => 0) o (bytesOf "prog" :: exArgs)
    let n ← optGet true o (bytesOf "-n") .int
    let v ← optGet true o (bytesOf "-v") .bool
    let s ← optGet true o (bytesOf "--output") .string
    pure ([n, v, s], optGetRest o)

example : exResult =
    (.ok ([.i (-12), .b 1, .s none], some [some (bytesOf "a.png"), some (bytesOf "-x"), none])) := by
  decide +kernel

/-- A second parse, without the required option. -/
example : (do
    let o ← optDeclareAll true optAlloc exDecls
    let o ← optSetFromArgs true (fun _ => 0) o (bytesOf "prog" :: exArgs)
    optSetFromArgs true (fun _ => 0) o [bytesOf "prog"]) = .fatal := by
  decide +kernel

/-- Names that are neither short nor long; two short names; a long name. -/
example : NameParts (bytesOf "-ab") [bytesOf "-ab"] ∧ ¬ ShortName (bytesOf "-ab") ∧ ¬ LongName (bytesOf "-ab") :=
  ⟨.one _ (by decide +kernel), by decide +kernel, by decide +kernel⟩

example : ShortName (bytesOf "-a") ∧ ShortName (bytesOf "-b") ∧ bytesOf "-a" ≠ bytesOf "-b" := by decide +kernel

example : 5 ≤ (bytesOf "threshold").length ∧ ∀ b ∈ bytesOf "threshold", b.toNat < 128 := by decide +kernel

example : FormatOf exDecls (bytesOf "bIsr") [.str (some (bytesOf "-v|--verbose")), .str none, .int 0,
    .str (some (bytesOf "-n")), .str none, .int 3, .str (some (bytesOf "--output")), .str none, .str none, .str none] :=
  .bool _ _ _ false _ _ _ (.int _ _ _ true _ _ _ (.string _ _ _ false _ _ _ (.rest _ false _ _ _ (.nil _))))

end Nx
