import Verif.Spec.SiftOptions
import Verif.Props.Options

/-!
# C131: parameters from the command line
-/

namespace Nx

/-- The options of the detector are declared as written. -/
theorem c131_declared (wrap : Bool) (toD : UInt32 → UInt64) (o : Options) :
    siftAddOptions wrap toD o = optDeclareAll wrap o (siftDecls toD) := by
  have hf : bytesOf "biddiddi" = [98, 105, 100, 100, 105, 100, 100, 105] := by decide +kernel
  rw [siftAddOptions, hf]
  exact c34_format wrap (siftDecls toD) _ _
    (.bool _ _ _ false _ _ _ (.int _ _ _ false _ _ _ (.double _ _ _ false _ _ _ (.double _ _ _ false _ _ _
      (.int _ _ _ false _ _ _ (.double _ _ _ false _ _ _ (.double _ _ _ false _ _ _ (.int _ _ _ false _ _ _ (.nil _))))))))) o

theorem Decls.split {a b : List ODecl} {nss : List (List Bytes)} (h : Decls (a ++ b) nss) :
    ∃ n1 n2, nss = n1 ++ n2 ∧ Decls a n1 ∧ Decls b n2 ∧ n1.length = (declInfo a).length := by
  induction a generalizing nss with
  | nil => exact ⟨[], nss, rfl, .nil, h, rfl⟩
  | cons d a ih =>
    cases h with
    | opt t s v q ns _ nss' hn hd =>
      obtain ⟨n1, n2, rfl, h1, h2, hl⟩ := ih hd
      exact ⟨ns :: n1, n2, rfl, .opt _ _ _ _ _ _ _ hn h1, h2, by simp [declInfo, hl]⟩
    | rest q _ _ hd =>
      obtain ⟨n1, n2, rfl, h1, h2, hl⟩ := ih hd
      exact ⟨n1, n2, rfl, .rest _ _ _ h1, h2, by simp [declInfo, hl]⟩

theorem NamesOf.single {s : Bytes} {ns : List Bytes} (h : NamesOf s ns) (hs : (124 : Byte) ∉ s) : ns = [s] := by
  cases h with
  | one => rfl
  | shortLong a b => exact (hs (by simp)).elim
  | longShort a b => exact (hs (by simp)).elim

theorem declInfo_append (a b : List ODecl) : declInfo (a ++ b) = declInfo a ++ declInfo b := by
  induction a with
  | nil => rfl
  | cons d a ih => cases d <;> simp [declInfo, ih]

theorem Decls.named {ds : List ODecl} {nss : List (List Bytes)} (h : Decls ds nss) {pre post : List ODecl} {t : OType} {s : Bytes}
    {v : OVal} {q : Bool} (hs : (124 : Byte) ∉ s) (hds : ds = pre ++ .opt t s v q :: post) :
    Named nss s (declInfo pre).length ∧ (declInfo ds)[(declInfo pre).length]? = some (t, v, q) := by
  subst hds
  obtain ⟨n1, n2, rfl, _, h2, hl⟩ := h.split
  constructor
  · cases h2 with
    | opt _ _ _ _ ns _ nss' hn hd =>
      exact ⟨ns, by rw [← hl]; simp, by rw [hn.single hs]; simp⟩
  · rw [declInfo_append]
    simp [declInfo]

theorem LastOcc.exists {occ : List (Nat × Option Bytes)} {k : Nat} (h : ¬ NeverOcc occ k) : ∃ a, LastOcc occ k a := by
  induction occ with
  | nil => exact (h (fun p hp => by simp at hp)).elim
  | cons p occ ih =>
    by_cases ho : NeverOcc occ k
    · have hp : p.1 = k := by
        refine Classical.byContradiction fun hne => h fun x hx => ?_
        rcases List.mem_cons.mp hx with rfl | hx
        · exact hne
        · exact ho x hx
      exact ⟨p.2, [], occ, by rw [← hp]; rfl, ho⟩
    · obtain ⟨a, l1, l2, e, hl⟩ := ih ho
      exact ⟨a, p :: l1, l2, by rw [e]; rfl, hl⟩

/-- The value that a getter gives after parsing. -/
theorem optGet_value {wrap : Bool} {atof : Bytes → UInt64} {o' : Options} {occ : List (Nat × Option Bytes)} {x : Bytes} {k : Nat}
    {t : OType} {v : OVal} {q : Bool}
    (h : (NeverOcc occ k → q = false ∧ optIsSet wrap o' x = .ok false ∧ optGet wrap o' x t = .ok v) ∧
        (∀ a, LastOcc occ k a → optIsSet wrap o' x = .ok true ∧ ∃ val, Gives atof t a val ∧ optGet wrap o' x t = .ok val)) :
    ∃ val, optGet wrap o' x t = .ok val ∧ ValueIs atof occ k t v val := by
  by_cases hn : NeverOcc occ k
  · exact ⟨v, (h.1 hn).2.2, .inl ⟨hn, rfl⟩⟩
  · obtain ⟨a, ha⟩ := LastOcc.exists hn
    obtain ⟨_, val, hg, e⟩ := h.2 a ha
    exact ⟨val, e, .inr ⟨a, ha, hg⟩⟩

theorem ValueIs.int {atof : Bytes → UInt64} {occ : List (Nat × Option Bytes)} {k : Nat} {d : Int} {val : OVal}
    (h : ValueIs atof occ k .int (.i d) val) : ∃ x, val = .i x := by
  rcases h with ⟨_, rfl⟩ | ⟨a, _, hg⟩
  · exact ⟨d, rfl⟩
  · cases hg
    exact ⟨_, rfl⟩

theorem ValueIs.bool {atof : Bytes → UInt64} {occ : List (Nat × Option Bytes)} {k : Nat} {d : Int} {val : OVal}
    (h : ValueIs atof occ k .bool (.b d) val) : ∃ x, val = .b x := by
  rcases h with ⟨_, rfl⟩ | ⟨a, _, hg⟩
  · exact ⟨d, rfl⟩
  · cases hg
    exact ⟨_, rfl⟩

theorem ValueIs.double {atof : Bytes → UInt64} {occ : List (Nat × Option Bytes)} {k : Nat} {d : UInt64} {val : OVal}
    (h : ValueIs atof occ k .double (.d d) val) : ∃ x, val = .d x := by
  rcases h with ⟨_, rfl⟩ | ⟨a, _, hg⟩
  · exact ⟨d, rfl⟩
  · cases hg
    exact ⟨_, rfl⟩

theorem ValueIs.string {atof : Bytes → UInt64} {occ : List (Nat × Option Bytes)} {k : Nat} {d : Bytes} {val : OVal}
    (h : ValueIs atof occ k .string (.s (some d)) val) : ∃ x, val = .s (some x) := by
  rcases h with ⟨_, rfl⟩ | ⟨a, _, hg⟩
  · exact ⟨d, rfl⟩
  · cases hg
    exact ⟨_, rfl⟩

/-- The detector gets the parameters of the command line, with any other options declared before and after, and after any number of
earlier command lines. -/
theorem c131_params_partial (wrap : Bool) (atof : Bytes → UInt64) (toD : UInt32 → UInt64) (toS : UInt64 → UInt32) (pre post : List ODecl)
    (nss : List (List Bytes)) (hd : Decls (pre ++ (siftDecls toD ++ post)) nss) (hn : ∀ ns ∈ nss, ∀ x ∈ ns, Hashable wrap x)
    (o1 o2 o3 o o' : Options) (h1 : optDeclareAll wrap optAlloc pre = .ok o1) (h2 : siftAddOptions wrap toD o1 = .ok o2)
    (h3 : optDeclareAll wrap o2 post = .ok o3) (hist : List (List Bytes)) (hh : ∀ l ∈ hist, ∀ a ∈ l, Hashable wrap a)
    (hr : optParseAll wrap atof o3 hist = .ok o) (prog : Bytes) (args : List Bytes) (ha : ∀ a ∈ prog :: args, Hashable wrap a)
    (h : optSetFromArgs wrap atof o (prog :: args) = .ok o') :
    ∃ occ rem p, Scan nss ((declInfo (pre ++ (siftDecls toD ++ post))).map Prod.fst) args occ rem ∧
      siftFromOptions wrap toS o' = .ok p ∧ ParamsAre atof toD toS occ (declInfo pre).length p := by
  have happ : ∀ (a b : List ODecl) (x y : Options), optDeclareAll wrap x a = .ok y →
      optDeclareAll wrap x (a ++ b) = optDeclareAll wrap y b := by
    intro a
    induction a with
    | nil =>
      intro b x y e
      cases e
      rfl
    | cons d a ih =>
      intro b x y e
      rw [optDeclareAll, Res.bind_eq_ok] at e
      obtain ⟨z, e1, e2⟩ := e
      rw [List.cons_append, optDeclareAll, e1]
      exact ih b z y e2
  rw [c131_declared] at h2
  have h0 : optDeclareAll wrap optAlloc (pre ++ (siftDecls toD ++ post)) = .ok o3 := by
    rw [happ pre _ _ _ h1, happ _ _ _ _ h2, h3]
  obtain ⟨occ, rem, hs, hv, _⟩ := c35_result wrap atof _ nss hd hn o3 o o' h0 hist hh hr prog args ha h
  have key : ∀ {x : Bytes} {i : Nat} {t : OType} {v : OVal} {q : Bool} (mid rest : List ODecl), (124 : Byte) ∉ x →
      siftDecls toD = mid ++ .opt t x v q :: rest → (declInfo mid).length = i →
      ∃ val, optGet wrap o' x t = .ok val ∧ ValueIs atof occ ((declInfo pre).length + i) t v val := by
    intro x i t v q mid rest hx hmid hi
    have hnm := hd.named (pre := pre ++ mid) (post := rest ++ post) (t := t) (v := v) (q := q) hx
      (by rw [hmid]; simp)
    rw [declInfo_append, List.length_append, hi] at hnm
    exact optGet_value (hv x _ t v q hnm.1 hnm.2)
  obtain ⟨v0, e0, hv0⟩ := key [] _ (by decide +kernel) rfl rfl
  obtain ⟨v1, e1, hv1⟩ := key [_] _ (by decide +kernel) rfl rfl
  obtain ⟨v2, e2, hv2⟩ := key [_, _] _ (by decide +kernel) rfl rfl
  obtain ⟨v3, e3, hv3⟩ := key [_, _, _] _ (by decide +kernel) rfl rfl
  obtain ⟨v4, e4, hv4⟩ := key [_, _, _, _] _ (by decide +kernel) rfl rfl
  obtain ⟨v5, e5, hv5⟩ := key [_, _, _, _, _] _ (by decide +kernel) rfl rfl
  obtain ⟨v6, e6, hv6⟩ := key [_, _, _, _, _, _] _ (by decide +kernel) rfl rfl
  obtain ⟨v7, e7, hv7⟩ := key [_, _, _, _, _, _, _] _ (by decide +kernel) rfl rfl
  obtain ⟨x0, rfl⟩ := hv0.bool
  obtain ⟨x1, rfl⟩ := hv1.int
  obtain ⟨x2, rfl⟩ := hv2.double
  obtain ⟨x3, rfl⟩ := hv3.double
  obtain ⟨x4, rfl⟩ := hv4.int
  obtain ⟨x5, rfl⟩ := hv5.double
  obtain ⟨x6, rfl⟩ := hv6.double
  obtain ⟨x7, rfl⟩ := hv7.int
  refine ⟨occ, rem, ⟨x0, x1, toS x2, toS x3, x4, toS x5, toS x6, x7⟩, hs, ?_, hv0, hv1, ⟨x2, hv2, rfl⟩, ⟨x3, hv3, rfl⟩, hv4, ⟨x5, hv5, rfl⟩,
    ⟨x6, hv6, rfl⟩, hv7⟩
  simp only [siftFromOptions, optGetBool, optGetInt, optGetDouble, e0, e1, e2, e3, e4, e5, e6, e7, Res.ok_bind, Res.pure_eq]

/-- When no option of the detector is given, its parameters are not the default parameters: the image is not doubled. -/
theorem c131_not_the_defaults (atof : Bytes → UInt64) (toD : UInt32 → UInt64) (toS : UInt64 → UInt32)
    (hcv : ∀ x ∈ [siftDefaults.sigma0, siftDefaults.truncation, siftDefaults.peak, siftDefaults.edge], toS (toD x) = x)
    (occ : List (Nat × Option Bytes)) (m : Nat) (hno : ∀ i, i < 8 → NeverOcc occ (m + i)) (p : SiftParams)
    (hp : ParamsAre atof toD toS occ m p) : p = { siftDefaults with doubleImage := 0 } ∧ p ≠ siftDefaults := by
  have hv : ∀ {i : Nat} {t : OType} {d v : OVal}, i < 8 → ValueIs atof occ (m + i) t d v → v = d := by
    intro i t d v hi h
    rcases h with ⟨_, e⟩ | ⟨a, ⟨l1, l2, e, _⟩, _⟩
    · exact e
    · exact (hno i hi (m + i, a) (by rw [e]; simp) rfl).elim
  obtain ⟨h0, h1, ⟨d2, h2, e2⟩, ⟨d3, h3, e3⟩, h4, ⟨d5, h5, e5⟩, ⟨d6, h6, e6⟩, h7⟩ := hp
  have a0 := hv (i := 0) (by omega) h0
  have a1 := hv (by omega) h1
  have a2 := hv (by omega) h2
  have a3 := hv (by omega) h3
  have a4 := hv (by omega) h4
  have a5 := hv (by omega) h5
  have a6 := hv (by omega) h6
  have a7 := hv (by omega) h7
  injection a0 with a0
  injection a1 with a1
  injection a2 with a2
  injection a3 with a3
  injection a4 with a4
  injection a5 with a5
  injection a6 with a6
  injection a7 with a7
  have hpe : p = { siftDefaults with doubleImage := 0 } := by
    obtain ⟨x0, x1, x2, x3, x4, x5, x6, x7⟩ := p
    simp only at *
    subst a0 a1 a2 a3 a4 a5 a6 a7
    rw [e2, e3, e5, e6, siftDefaults, SiftParams.mk.injEq]
    exact ⟨rfl, rfl, hcv _ (by decide), hcv _ (by decide), rfl, hcv _ (by decide), hcv _ (by decide), rfl⟩
  exact ⟨hpe, by rw [hpe]; decide⟩

/-! ### The C++ options -/

/-- Declaring through the class is declaring directly. -/
theorem c131_vg_declared (wrap : Bool) (ds : List VgDecl) (o : Options) :
    vgDeclareAll wrap o ds = optDeclareAll wrap o (ds.map VgDecl.decl) := by
  have one : ∀ (d : VgDecl) (o : Options), vgDeclare wrap o d = optDeclare wrap o d.decl := by
    intro d o
    have hrun : ∀ (d : ODecl) (f : Bytes) (args : List OArg), FormatOf [d] f args → optVadd wrap o f args = optDeclare wrap o d := by
      intro d f args hf
      rw [c34_format wrap [d] f args hf o, optDeclareAll]
      cases optDeclare wrap o d <;> rfl
    have hB : bytesOf "B" = [66] ∧ bytesOf "b" = [98] ∧ bytesOf "I" = [73] ∧ bytesOf "i" = [105] ∧ bytesOf "D" = [68] ∧
        bytesOf "d" = [100] ∧ bytesOf "S" = [83] ∧ bytesOf "s" = [115] ∧ bytesOf "R" = [82] ∧ bytesOf "r" = [114] := by decide +kernel
    obtain ⟨b1, b2, i1, i2, d1, d2, s1, s2, r1, r2⟩ := hB
    cases d with
    | bool s h q v =>
      rw [vgDeclare, b1, b2]
      refine hrun _ _ _ ?_
      have := FormatOf.bool s (some h) (if v then 1 else 0) q [] [] [] (.nil _)
      cases q <;> exact this
    | int s h q v =>
      rw [vgDeclare, i1, i2]
      refine hrun _ _ _ ?_
      have := FormatOf.int s (some h) v q [] [] [] (.nil _)
      cases q <;> exact this
    | double s h q v =>
      rw [vgDeclare, d1, d2]
      refine hrun _ _ _ ?_
      have := FormatOf.double s (some h) v q [] [] [] (.nil _)
      cases q <;> exact this
    | string s h q v =>
      rw [vgDeclare, s1, s2]
      refine hrun _ _ _ ?_
      have := FormatOf.string s (some h) (some v) q [] [] [] (.nil _)
      cases q <;> exact this
    | rest h q =>
      rw [vgDeclare, r1, r2]
      refine hrun _ _ _ ?_
      have := FormatOf.rest (some h) q [] [] [] (.nil _)
      cases q <;> exact this
    | help => rfl
  induction ds generalizing o with
  | nil => rfl
  | cons d ds ih =>
    rw [vgDeclareAll, List.map_cons, optDeclareAll, one]
    cases optDeclare wrap o d.decl with
    | ok o1 => exact ih o1
    | fatal => rfl
    | ub => rfl

theorem vgRestLoop_spec (rem : List Bytes) (i : Nat) (hi : i ≤ rem.length) :
    vgRestLoop (rem.map some ++ [none]) i (rem.take i) = .ok rem := by
  induction h : rem.length - i generalizing i with
  | zero =>
    have hie : i = rem.length := by omega
    subst hie
    rw [vgRestLoop, dif_pos (by simp)]
    simp
  | succ n ih =>
    have hlt : i < rem.length := by omega
    rw [vgRestLoop, dif_pos (by simp; omega)]
    have : (rem.map some ++ [none])[i]'(by simp; omega) = some rem[i] := by
      rw [List.getElem_append_left (by simpa using hlt), List.getElem_map]
    rw [this]
    simp only
    rw [List.take_append_getElem hlt]
    exact ih (i + 1) (by omega) (by omega)

/-- The texts and the remaining arguments as the class gives them: never undefined. -/
theorem c131_vg_result (wrap : Bool) (atof : Bytes → UInt64) (ds : List VgDecl) (nss : List (List Bytes))
    (hd : Decls (ds.map VgDecl.decl) nss) (hn : ∀ ns ∈ nss, ∀ x ∈ ns, Hashable wrap x) (o0 o o' : Options)
    (h0 : vgDeclareAll wrap optAlloc ds = .ok o0) (hist : List (List Bytes)) (hh : ∀ l ∈ hist, ∀ a ∈ l, Hashable wrap a)
    (hr : optParseAll wrap atof o0 hist = .ok o) (prog : Bytes) (args : List Bytes) (ha : ∀ a ∈ prog :: args, Hashable wrap a)
    (h : optSetFromArgs wrap atof o (prog :: args) = .ok o') :
    ∃ occ rem, Scan nss ((declInfo (ds.map VgDecl.decl)).map Prod.fst) args occ rem ∧
      vgGetRest o' = .ok (if declRest (ds.map VgDecl.decl) = none then [] else rem) ∧
      ∀ x k v q, Named nss x k → (declInfo (ds.map VgDecl.decl))[k]? = some (.string, .s (some v), q) →
        ∃ text, vgGetString wrap o' x = .ok text ∧ ValueIs atof occ k .string (.s (some v)) (.s (some text)) := by
  rw [c131_vg_declared] at h0
  obtain ⟨occ, rem, hs, hv, hrest, _⟩ := c35_result wrap atof _ nss hd hn o0 o o' h0 hist hh hr prog args ha h
  refine ⟨occ, rem, hs, ?_, fun x k v q hx hk => ?_⟩
  · rw [vgGetRest, hrest]
    by_cases hd0 : declRest (ds.map VgDecl.decl) = none
    · rw [if_pos (.inl hd0), if_pos hd0]
    · rw [if_neg hd0]
      by_cases hr0 : rem = []
      · rw [if_pos (.inr hr0), hr0]
      · rw [if_neg (fun hc => hc.elim hd0 hr0)]
        exact vgRestLoop_spec rem 0 (Nat.zero_le _)
  · obtain ⟨val, e, hval⟩ := optGet_value (hv x k .string (.s (some v)) q hx hk)
    obtain ⟨text, rfl⟩ := hval.string
    refine ⟨text, ?_, hval⟩
    rw [vgGetString, optGetString, e]
    rfl

/-- A text option declared with a null default, as the C functions allow, cannot be read by `VGOptions`. -/
theorem c131_vg_null : ∃ o, optDeclareAll true optAlloc [.opt .string (bytesOf "-l") (.s none) false] = .ok o ∧
    vgGetString true o (bytesOf "-l") = .ub := by
  refine ⟨_, rfl, ?_⟩
  decide +kernel

/-- The program of the SIFT tool. -/
def exSiftPre : List ODecl := [.opt .string (bytesOf "-i") (.s none) true, .opt .string (bytesOf "-o") (.s (some (bytesOf "sift.bin")))
  false]

def exSiftPost : List ODecl := [.opt .bool (bytesOf "-v|--verbose") (.b 0) false]

/-- The hypotheses are met and the parameters are those given. -/
example : (do
    let o ← optDeclareAll true optAlloc exSiftPre
    let o ← siftAddOptions true (fun x => x.toUInt64) o
    let o ← optDeclareAll true o exSiftPost
    let o ← optSetFromArgs true (fun _ => 77) o
      [bytesOf "sift", bytesOf "-i", bytesOf "a.png", bytesOf "--sift-border-distance", bytesOf "9", bytesOf "--sift-sigma0", bytesOf "2"]
    siftFromOptions true (fun x => x.toUInt32) o) =
    .ok { siftDefaults with doubleImage := 0, border := 9, sigma0 := 77 } := by
  decide +kernel

example : Decls (exSiftPre ++ (siftDecls (fun x => x.toUInt64) ++ exSiftPost))
    [[bytesOf "-i"], [bytesOf "-o"], [bytesOf "--sift-double-image"], [bytesOf "--sift-n-scales-per-octave"], [bytesOf "--sift-sigma0"],
     [bytesOf "--sift-kernel-truncation-factor"], [bytesOf "--sift-border-distance"], [bytesOf "--sift-peak-threshold"],
     [bytesOf "--sift-edge-threshold"], [bytesOf "--sift-magnification-factor"], [bytesOf "-v", bytesOf "--verbose"]] := by
  have e1 : bytesOf "-v|--verbose" = bytesOf "-v" ++ 124 :: bytesOf "--verbose" := by decide +kernel
  rw [exSiftPost, e1]
  have l : ∀ {s : Bytes}, (124 : Byte) ∉ s → LongName s → NamesOf s [s] := fun h h' => .one _ h (.inr h')
  have s : ∀ {s : Bytes}, (124 : Byte) ∉ s → ShortName s → NamesOf s [s] := fun h h' => .one _ h (.inl h')
  refine .opt _ _ _ _ _ _ _ (s (by decide +kernel) (by decide +kernel)) (.opt _ _ _ _ _ _ _ (s (by decide +kernel) (by decide +kernel)) ?_)
  refine .opt _ _ _ _ _ _ _ (l (by decide +kernel) (by decide +kernel)) (.opt _ _ _ _ _ _ _ (l (by decide +kernel) (by decide +kernel)) ?_)
  refine .opt _ _ _ _ _ _ _ (l (by decide +kernel) (by decide +kernel)) (.opt _ _ _ _ _ _ _ (l (by decide +kernel) (by decide +kernel)) ?_)
  refine .opt _ _ _ _ _ _ _ (l (by decide +kernel) (by decide +kernel)) (.opt _ _ _ _ _ _ _ (l (by decide +kernel) (by decide +kernel)) ?_)
  refine .opt _ _ _ _ _ _ _ (l (by decide +kernel) (by decide +kernel)) (.opt _ _ _ _ _ _ _ (l (by decide +kernel) (by decide +kernel)) ?_)
  exact .opt _ _ _ _ _ _ _ (.shortLong _ _ (by decide +kernel) (by decide +kernel) (by decide +kernel)) .nil

end Nx
