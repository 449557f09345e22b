import Verif.Model.PanoramaMem
import Verif.Props.DetectorMem
import Verif.Props.DataFrameMem

/-!
# C125: memory of the panorama builder
-/

namespace Nx

/-- The blocks of one image. -/
def panImgPtrs (i : MPanImg) : List Nat := bufPtrs i.img ++ [i.keys, i.desc, i.toRef, i.fromRef]

/-- The arrays. -/
def panArrPtrs (a : MPanArrs) : List Nat :=
  [a.images, a.nKeys, a.maxKeys, a.keys, a.desc, a.total, a.toRef, a.fromRef, a.nMatches, a.matches_, a.hs, a.cost]

/-- The blocks of pointers that may be `NULL`. -/
def slotPtrs (l : List (Option Nat)) : List Nat := l.flatMap Option.toList

/-- The blocks of a builder. -/
def panPtrs (p : MPan) : List Nat :=
  [p.self] ++ siftPtrs p.det ++ levPtrs (some p.names) ++ panArrPtrs p.arrs ++ p.imgs.flatMap panImgPtrs ++ slotPtrs p.pms ++
    slotPtrs p.hs ++ bufPtrs p.pan

/-- The sizes of the images of a detector with `n` scales are given for images that it has. -/
def SdAllowed (n : Int) (ops : List SdOp) : Prop :=
  ∀ op ∈ ops, (∀ k g, op = .level k g → (k : Int) < n + 3) ∧ (∀ k g, op = .dog k g → (k : Int) < n + 2)

theorem pnNames_owns : ∀ {n : Nat} {σ : Mem} {lv : DMLevels} {l : List Nat}, LevWf lv → Owns σ (levPtrs (some lv) ++ l) →
    ∃ σ' lv', pnNames n σ lv = .ok (σ', lv') ∧ Owns σ' (levPtrs (some lv') ++ l) ∧ LevWf lv' := by
  intro n
  induction n with
  | zero => intro σ lv l hw h; exact ⟨σ, lv, rfl, h, hw⟩
  | succ n ih =>
    intro σ lv l hw h
    obtain ⟨σ1, lv1, h1, o1, w1⟩ := dmLevelsAppend_ok (s := .ext) hw (by simp) h (by simp)
    obtain ⟨σ2, lv2, h2, o2, w2⟩ := ih w1 o1
    exact ⟨σ2, lv2, by rw [pnNames, h1, Res.ok_bind]; exact h2, o2, w2⟩

theorem pnImage_owns {σ : Mem} {l : List Nat} (h : Owns σ l) :
    ∃ σ' i, pnImage σ = .ok (σ', i) ∧ Owns σ' (panImgPtrs i ++ l) := by
  obtain ⟨σ1, b, h1, o1⟩ := bufResize_owns (bufAlloc_owns h) true
  refine ⟨_, _, by rw [pnImage]; simp only [h1, Res.ok_bind]; rfl, (alloc_owns (alloc_owns (alloc_owns (alloc_owns o1)))).swap ?_⟩
  intro q
  simp only [panImgPtrs, List.count_append, List.count_cons, List.count_nil]
  omega

theorem pnImages_owns : ∀ {n : Nat} {σ : Mem} {l : List Nat}, Owns σ l →
    ∃ σ' is, pnImages n σ = .ok (σ', is) ∧ Owns σ' (is.flatMap panImgPtrs ++ l) ∧ is.length = n := by
  intro n
  induction n with
  | zero => intro σ l h; exact ⟨σ, [], rfl, h, rfl⟩
  | succ n ih =>
    intro σ l h
    obtain ⟨σ1, i, h1, o1⟩ := pnImage_owns h
    obtain ⟨σ2, is, h2, o2, e2⟩ := ih o1
    refine ⟨σ2, i :: is, by rw [pnImages, h1, Res.ok_bind]; simp only [h2, Res.ok_bind]; rfl, o2.swap ?_, by simp [e2]⟩
    intro q
    simp only [List.flatMap_cons, List.count_append]
    omega

/-- What holds for every builder with `n` images. -/
structure PanWf (p : MPan) (nScales : Int) (n : Nat) : Prop where
  sift : SiftWf p.det nScales
  names : LevWf p.names
  imgs : p.imgs.length = n
  pms : p.pms.length = n * n
  hs : p.hs.length = n * n

theorem slotPtrs_none (n : Nat) : slotPtrs (List.replicate n none) = [] := by simp [slotPtrs]

theorem pnNew_owns {σ : Mem} {l : List Nat} (h : Owns σ l) {nScales : Int} (hs : -2 ≤ nScales) {n : Nat} (hn : 2 ≤ n) :
    ∃ σ' p, pnNew σ nScales n = .ok (σ', p) ∧ Owns σ' (panPtrs p ++ l) ∧ PanWf p nScales n := by
  obtain ⟨σ1, det, h1, o1, w1⟩ := sdNew_owns (alloc_owns h) hs
  obtain ⟨σ2, lv, h2, o2, w2⟩ := pnNames_owns (n := n) (lv := (dmLevelsAlloc σ1).2) (l := siftPtrs det ++ ((memAlloc σ).2 :: l))
    (σ := (dmLevelsAlloc σ1).1) ⟨⟨by simp [dmLevelsAlloc], by simp [dmLevelsAlloc]⟩, by simp [dmLevelsAlloc]⟩
    ((alloc_owns (alloc_owns o1)).swap (by
      intro q
      simp only [dmLevelsAlloc, levPtrs, List.count_append, List.count_cons, List.count_nil, Option.toList_some,
        List.flatMap_nil]
      omega))
  have o3 := alloc_owns (alloc_owns (alloc_owns (alloc_owns (alloc_owns (alloc_owns (alloc_owns (alloc_owns o2)))))))
  obtain ⟨σ4, is, h4, o4, e4⟩ := pnImages_owns (n := n) o3
  have o5 := bufAlloc_owns (alloc_owns (alloc_owns (alloc_owns (alloc_owns o4))))
  refine ⟨_, _, by
    rw [pnNew]
    simp only [h1, Res.ok_bind, h2]
    rw [if_neg (by omega), pnNewArrs]
    simp only [h4, Res.ok_bind]
    rfl, ?_, ?_⟩
  · refine o5.swap ?_
    intro q
    simp only [panPtrs, panArrPtrs, slotPtrs_none, List.count_append, List.count_cons, List.count_nil]
    omega
  · exact ⟨w1, w2, e4, by simp, by simp⟩

theorem pnNew_few {σ : Mem} {l : List Nat} (h : Owns σ l) {nScales : Int} (hs : -2 ≤ nScales) {n : Nat} (hn : n < 2) :
    pnNew σ nScales n = .fatal := by
  obtain ⟨σ1, det, h1, o1, w1⟩ := sdNew_owns (alloc_owns h) hs
  obtain ⟨σ2, lv, h2, o2, w2⟩ := pnNames_owns (n := n) (lv := (dmLevelsAlloc σ1).2) (l := siftPtrs det ++ ((memAlloc σ).2 :: l))
    (σ := (dmLevelsAlloc σ1).1) ⟨⟨by simp [dmLevelsAlloc], by simp [dmLevelsAlloc]⟩, by simp [dmLevelsAlloc]⟩
    ((alloc_owns (alloc_owns o1)).swap (by
      intro q
      simp only [dmLevelsAlloc, levPtrs, List.count_append, List.count_cons, List.count_nil, Option.toList_some,
        List.flatMap_nil]
      omega))
  rw [pnNew]
  simp only [h1, Res.ok_bind, h2]
  rw [if_pos hn]

theorem scGrow_owns : ∀ {n : Nat} {σ : Mem} {k d : Nat} {l : List Nat}, Owns σ (k :: d :: l) →
    ∃ σ' k' d', scGrow n σ k d = .ok (σ', k', d') ∧ Owns σ' (k' :: d' :: l) := by
  intro n
  induction n with
  | zero => intro σ k d l h; exact ⟨σ, k, d, rfl, h⟩
  | succ n ih =>
    intro σ k d l h
    obtain ⟨σ1, k1, h1, o1⟩ := realloc_owns (σ := σ) (d := some k) (l := d :: l) h
    obtain ⟨σ2, d2, h2, o2⟩ := realloc_owns (σ := σ1) (d := some d) (l := k1 :: l) (o1.swap (by
      intro q
      simp only [Option.toList_some, List.cons_append, List.nil_append, List.count_cons]
      omega))
    obtain ⟨σ3, k3, d3, h3, o3⟩ := ih (σ := σ2) (k := k1) (d := d2) (l := l) (o2.swap (by
      intro q
      simp only [List.count_cons]
      omega))
    exact ⟨σ3, k3, d3, by rw [scGrow, h1]; simp only [Res.ok_bind, h2]; exact h3, o3⟩

theorem scDetect_owns {σ : Mem} {l : List Nat} {det : MSift} {n : Int} (h : Owns σ (siftPtrs det ++ l)) (hw : SiftWf det n)
    {a : ScArg} (ha : SdAllowed n a.ops) :
    ∃ σ' det', scDetect σ det a = .ok (σ', det') ∧ Owns σ' (siftPtrs det' ++ l) ∧ SiftWf det' n := by
  have u : memUse σ det.self = .ok () := use_ok h (by simp [siftPtrs])
  obtain ⟨σ1, b, h1, o1⟩ := bufResize_owns (bufAlloc_owns h) a.double
  obtain ⟨σ2, h2, o2⟩ := bufFree_owns o1
  obtain ⟨s, h3, o3, w3⟩ := sdRun_owns a.ops o2 hw ha
  exact ⟨s.1, s.2, by rw [scDetect, u, Res.ok_bind]; simp only [h1, Res.ok_bind, h2]; exact h3, o3, w3⟩

/-- A call with a cache: two blocks are lost. -/
theorem scCompute_owns {σ : Mem} {l : List Nat} {det : MSift} {n : Int} {k d : Nat} (h : Owns σ (siftPtrs det ++ (k :: d :: l)))
    (hw : SiftWf det n) {a : ScArg} (ha : SdAllowed n a.ops) :
    ∃ σ' det' k' d' lost, scCompute σ det k d a = .ok (σ', det', k', d') ∧
      Owns σ' (siftPtrs det' ++ (k' :: d' :: (lost ++ l))) ∧ SiftWf det' n ∧ lost.length = 2 := by
  have o1 := alloc_owns (alloc_owns (alloc_owns (alloc_owns h)))
  obtain ⟨σ2, det2, h2, o2, w2⟩ : ∃ σ2 det2,
      scFind (memAlloc (memAlloc (memAlloc (memAlloc σ).1).1).1).1 det a = Res.ok (σ2, det2) ∧
      Owns σ2 (siftPtrs det2 ++ ((memAlloc (memAlloc (memAlloc (memAlloc σ).1).1).1).2 :: (memAlloc (memAlloc (memAlloc σ).1).1).2 ::
        (memAlloc (memAlloc σ).1).2 :: (memAlloc σ).2 :: k :: d :: l)) ∧ SiftWf det2 n := by
    have o1' := o1.swap (l' := siftPtrs det ++ ((memAlloc (memAlloc (memAlloc (memAlloc σ).1).1).1).2 ::
      (memAlloc (memAlloc (memAlloc σ).1).1).2 :: (memAlloc (memAlloc σ).1).2 :: (memAlloc σ).2 :: k :: d :: l)) (by
        intro q
        simp only [List.count_append, List.count_cons]
        omega)
    cases hc : a.cached with
    | true => exact ⟨_, det, by rw [scFind, if_pos hc], o1', hw⟩
    | false =>
      obtain ⟨σ2, det2, h2, o2, w2⟩ := scDetect_owns o1' hw ha
      exact ⟨σ2, det2, by rw [scFind, if_neg (by simp [hc])]; exact h2, o2, w2⟩
  obtain ⟨σ3, k3, d3, h3, o3⟩ := scGrow_owns (n := a.grows) (σ := σ2) (k := k) (d := d) (l := siftPtrs det2 ++
    ((memAlloc (memAlloc (memAlloc (memAlloc σ).1).1).1).2 :: (memAlloc (memAlloc (memAlloc σ).1).1).2 ::
        (memAlloc (memAlloc σ).1).2 :: (memAlloc σ).2 :: l)) (o2.swap (by
      intro q
      simp only [List.count_append, List.count_cons]
      omega))
  obtain ⟨σ4, h4, o4⟩ := free_owns (σ := σ3) (p := (memAlloc (memAlloc (memAlloc σ).1).1).2)
    (l := (memAlloc (memAlloc (memAlloc (memAlloc σ).1).1).1).2 :: (siftPtrs det2 ++
      (k3 :: d3 :: ([(memAlloc (memAlloc σ).1).2, (memAlloc σ).2] ++ l)))) (o3.swap (by
      intro q
      simp only [List.count_append, List.count_cons, List.count_nil]
      omega))
  obtain ⟨σ5, h5, o5⟩ := free_owns o4
  refine ⟨σ5, det2, k3, d3, [(memAlloc (memAlloc σ).1).2, (memAlloc σ).2], ?_, o5, w2, rfl⟩
  rw [scCompute]
  simp only [h2, Res.ok_bind, h3, h4, h5]
  rfl

/-- The keypoints of all images: two blocks are lost for each of them. -/
theorem pnDetect_owns {a : MPanArrs} {n : Int} : ∀ {is : List MPanImg} {cs : List ScArg} {σ : Mem} {det : MSift} {l : List Nat},
    Owns σ (siftPtrs det ++ (is.flatMap panImgPtrs ++ (panArrPtrs a ++ l))) → SiftWf det n → is.length ≤ cs.length →
    (∀ c ∈ cs, SdAllowed n c.ops) →
    ∃ σ' det' is' lost, pnDetect a is cs σ det = .ok (σ', det', is') ∧
      Owns σ' (siftPtrs det' ++ (is'.flatMap panImgPtrs ++ (panArrPtrs a ++ (lost ++ l)))) ∧ SiftWf det' n ∧
      is'.length = is.length ∧ lost.length = 2 * is.length := by
  intro is
  induction is with
  | nil => intro cs σ det l h hw _ _; exact ⟨σ, det, [], [], by rw [pnDetect], h, hw, rfl, rfl⟩
  | cons i is ih =>
    intro cs σ det l h hw hl ha
    cases cs with
    | nil => simp at hl
    | cons c cs =>
      have u1 : memUse σ a.images = .ok () := use_ok h (by simp [panArrPtrs])
      have u2 : memUse σ i.img.self = .ok () := use_ok h (by simp [panImgPtrs, bufPtrs])
      have u3 : memUse σ a.keys = .ok () := use_ok h (by simp [panArrPtrs])
      have u4 : memUse σ a.desc = .ok () := use_ok h (by simp [panArrPtrs])
      obtain ⟨σ1, det1, k, d, lo1, h1, o1, w1, e1⟩ := scCompute_owns (σ := σ) (det := det) (k := i.keys) (d := i.desc)
        (l := bufPtrs i.img ++ [i.toRef, i.fromRef] ++ is.flatMap panImgPtrs ++ panArrPtrs a ++ l) (h.swap (by
          intro q
          simp only [panImgPtrs, List.flatMap_cons, List.count_append, List.count_cons, List.count_nil]
          omega)) hw (ha c List.mem_cons_self)
      obtain ⟨σ2, det2, is2, lo2, h2, o2, w2, e2, e3⟩ := ih (cs := cs) (σ := σ1) (det := det1)
        (l := panImgPtrs { i with keys := k, desc := d } ++ lo1 ++ l) (o1.swap (by
          intro q
          simp only [panImgPtrs, List.count_append, List.count_cons, List.count_nil]
          omega)) w1 (by simp only [List.length_cons] at hl; omega) (fun c hm => ha c (List.mem_cons_of_mem _ hm))
      refine ⟨σ2, det2, { i with keys := k, desc := d } :: is2, lo1 ++ lo2, ?_, o2.swap ?_, w2, by simp [e2], ?_⟩
      · rw [pnDetect, u1, Res.ok_bind, u2, Res.ok_bind, u3, Res.ok_bind, u4, Res.ok_bind, h1, Res.ok_bind]
        simp only [h2, Res.ok_bind]
        rfl
      · intro q
        simp only [List.flatMap_cons, List.count_append]
        omega
      · simp only [List.length_append, List.length_cons, e1, e3]
        omega

theorem opt_split {ls : List (Option Nat)} {k : Nat} (hk : k < ls.length) (p : Option Nat) (q : Nat) :
    (slotPtrs ls).count q = ls[k].toList.count q + (slotPtrs (ls.take k ++ ls.drop (k + 1))).count q ∧
      (slotPtrs (ls.set k p)).count q = p.toList.count q + (slotPtrs (ls.take k ++ ls.drop (k + 1))).count q := by
  constructor
  · have e : ls = ls.take k ++ ls[k] :: ls.drop (k + 1) := by rw [← List.drop_eq_getElem_cons hk, List.take_append_drop]
    have e2 := congrArg (fun x => (slotPtrs x).count q) e
    simp only [slotPtrs, List.flatMap_append, List.flatMap_cons, List.count_append] at e2 ⊢
    omega
  · rw [List.set_eq_take_append_cons_drop, if_pos hk]
    simp only [slotPtrs, List.flatMap_append, List.flatMap_cons, List.count_append]
    omega

theorem reallocZ_owns {σ : Mem} {l : List Nat} {d : Option Nat} {z : Bool} (h : Owns σ (d.toList ++ l)) :
    ∃ σ' p, memReallocZ σ d z = .ok (σ', p) ∧ Owns σ' (p.toList ++ l) ∧ (p = none → z = true) := by
  rw [memReallocZ]
  split
  · rename_i hz
    obtain ⟨σ1, h1, o1⟩ := freeOpt_owns h
    exact ⟨σ1, none, by rw [h1]; rfl, o1, fun _ => hz.1⟩
  · obtain ⟨σ1, p, h1, o1⟩ := realloc_owns h
    exact ⟨σ1, some p, by rw [h1]; rfl, o1, by simp⟩

/-- The matches of two images: two blocks are lost, or the program ends because there are no keypoints. -/
theorem pnMatch_owns {a : MPanArrs} {n : Nat} {empty : Nat → Bool} {σ : Mem} {l : List Nat} {pms : List (Option Nat)}
    {ij : Nat × Nat} (h : Owns σ (slotPtrs pms ++ l)) (ha : a.matches_ ∈ l) (hi : ij.2 * n + ij.1 < pms.length) :
    (pnMatch a n empty (σ, pms) ij = .fatal ∧ empty ij.1 = true) ∨
    ∃ σ' pms' lost, pnMatch a n empty (σ, pms) ij = .ok (σ', pms') ∧ Owns σ' (slotPtrs pms' ++ (lost ++ l)) ∧
      pms'.length = pms.length ∧ lost.length = 2 := by
  have u : memUse σ a.matches_ = .ok () := use_ok h (List.mem_append_right _ ha)
  obtain ⟨σ1, p, h1, o1, z1⟩ := reallocZ_owns (σ := σ) (d := pms[ij.2 * n + ij.1]) (z := empty ij.1)
    (l := slotPtrs (pms.take (ij.2 * n + ij.1) ++ pms.drop (ij.2 * n + ij.1 + 1)) ++ l) (h.swap (by
      intro q
      have := (opt_split hi none q).1
      simp only [List.count_append]
      omega))
  have hu : pnMatch a n empty (σ, pms) ij = (do
      let σ ← scMatch σ1 p
      pure (σ, pms.set (ij.2 * n + ij.1) p)) := by
    rw [pnMatch]
    simp only [u, Res.ok_bind, readAt_ok hi, h1]
  cases p with
  | none => exact Or.inl ⟨by rw [hu]; rfl, z1 rfl⟩
  | some p =>
    right
    have o2 := alloc_owns (alloc_owns (alloc_owns (alloc_owns o1)))
    have u2 := use_ok (p := p) o2 (by simp)
    obtain ⟨σ3, h3, o3⟩ := free_owns (o2.swap (l' := (memAlloc (memAlloc (memAlloc σ1).1).1).2 ::
      ((memAlloc (memAlloc (memAlloc (memAlloc σ1).1).1).1).2 :: ([(memAlloc (memAlloc σ1).1).2, (memAlloc σ1).2] ++ (some p).toList ++
        (slotPtrs (pms.take (ij.2 * n + ij.1) ++ pms.drop (ij.2 * n + ij.1 + 1)) ++ l)))) (by
      intro q
      simp only [List.count_append, List.count_cons, List.count_nil]
      omega))
    obtain ⟨σ4, h4, o4⟩ := free_owns o3
    refine ⟨σ4, pms.set (ij.2 * n + ij.1) (some p), [(memAlloc (memAlloc σ1).1).2, (memAlloc σ1).2], ?_, o4.swap ?_, by simp, rfl⟩
    · rw [hu, scMatch]
      simp only [u2, Res.ok_bind, h3, h4]
      rfl
    · intro q
      have := (opt_split hi (some p) q).2
      simp only [List.count_append, Option.toList_some, List.count_cons, List.count_nil] at this ⊢
      omega

theorem pnMatches_owns {a : MPanArrs} {n : Nat} {empty : Nat → Bool} : ∀ {ps : List (Nat × Nat)} {σ : Mem} {l : List Nat}
    {pms : List (Option Nat)}, Owns σ (slotPtrs pms ++ l) → a.matches_ ∈ l → (∀ ij ∈ ps, ij.2 * n + ij.1 < pms.length) →
    (ps.foldlM (pnMatch a n empty) (σ, pms) = .fatal ∧ ∃ i, empty i = true) ∨
    ∃ σ' pms' lost, ps.foldlM (pnMatch a n empty) (σ, pms) = .ok (σ', pms') ∧ Owns σ' (slotPtrs pms' ++ (lost ++ l)) ∧
      pms'.length = pms.length ∧ lost.length = 2 * ps.length := by
  intro ps
  induction ps with
  | nil => intro σ l pms h _ _; exact Or.inr ⟨σ, pms, [], rfl, h, rfl, rfl⟩
  | cons p ps ih =>
    intro σ l pms h ha hi
    rcases pnMatch_owns (empty := empty) h ha (hi p List.mem_cons_self) with ⟨e, z⟩ | ⟨σ1, pms1, lo1, h1, o1, e1, f1⟩
    · exact Or.inl ⟨by rw [List.foldlM_cons, e]; rfl, _, z⟩
    · rcases ih (l := lo1 ++ l) o1 (List.mem_append_right _ ha) (fun ij hm => by
        rw [e1]; exact hi ij (List.mem_cons_of_mem _ hm)) with ⟨e, z⟩ | ⟨σ2, pms2, lo2, h2, o2, e2, f2⟩
      · exact Or.inl ⟨by rw [List.foldlM_cons, h1]; exact e, z⟩
      · refine Or.inr ⟨σ2, pms2, lo2 ++ lo1, by rw [List.foldlM_cons, h1]; exact h2, o2.swap ?_, by omega, ?_⟩
        · intro q
          simp only [List.count_append]
          omega
        · simp only [List.length_append, List.length_cons]
          omega

theorem pnFit_owns {σ : Mem} {l : List Nat} {d : Option Nat} {f : Bool} (h : Owns σ (d.toList ++ l)) :
    ∃ σ' p, pnFit σ d f = .ok (σ', p) ∧ Owns σ' (p.toList ++ l) := by
  cases f with
  | true =>
    cases d with
    | none => exact ⟨_, _, rfl, alloc_owns h⟩
    | some p => exact ⟨σ, some p, by rw [pnFit, use_ok h (by simp)]; rfl, h⟩
  | false =>
    obtain ⟨σ1, h1, o1⟩ := freeOpt_owns h
    refine ⟨σ1, none, ?_, o1⟩
    have : pnFit σ d false = (do
        let σ ← memFree σ d
        pure (σ, none)) := by cases d <;> rfl
    rw [this, h1]
    rfl

theorem pnFits_owns {a : MPanArrs} {n : Nat} {fit : Nat → Nat → Bool} : ∀ {ps : List (Nat × Nat)} {σ : Mem} {l : List Nat}
    {hs : List (Option Nat)}, Owns σ (slotPtrs hs ++ l) → a.hs ∈ l → (∀ ij ∈ ps, ij.2 * n + ij.1 < hs.length) →
    ∃ σ' hs', ps.foldlM (pnFitPair a n fit) (σ, hs) = .ok (σ', hs') ∧ Owns σ' (slotPtrs hs' ++ l) ∧ hs'.length = hs.length := by
  intro ps
  induction ps with
  | nil => intro σ l hs h _ _; exact ⟨σ, hs, rfl, h, rfl⟩
  | cons p ps ih =>
    intro σ l hs h ha hi
    have hp := hi p List.mem_cons_self
    have u : memUse σ a.hs = .ok () := use_ok h (List.mem_append_right _ ha)
    obtain ⟨σ1, d, h1, o1⟩ := pnFit_owns (σ := σ) (d := hs[p.2 * n + p.1]) (f := fit p.1 p.2)
      (l := slotPtrs (hs.take (p.2 * n + p.1) ++ hs.drop (p.2 * n + p.1 + 1)) ++ l) (h.swap (by
        intro q
        have := (opt_split hp none q).1
        simp only [List.count_append]
        omega))
    obtain ⟨σ2, hs2, h2, o2, e2⟩ := ih (σ := σ1) (hs := hs.set (p.2 * n + p.1) d) (l := l) (o1.swap (by
        intro q
        have := (opt_split hp d q).2
        simp only [List.count_append]
        omega)) ha (fun ij hm => by rw [List.length_set]; exact hi ij (List.mem_cons_of_mem _ hm))
    refine ⟨σ2, hs2, ?_, o2, by rw [e2, List.length_set]⟩
    rw [List.foldlM_cons, pnFitPair]
    simp only [u, Res.ok_bind, readAt_ok hp, h1]
    exact h2

/-- The paths: one block is lost. -/
theorem pnPaths_owns {σ : Mem} {l : List Nat} (h : Owns σ l) :
    ∃ σ' p q, pnPaths σ = .ok (σ', p) ∧ Owns σ' (p :: q :: l) := by
  have o1 := alloc_owns (alloc_owns (alloc_owns h))
  obtain ⟨σ1, h1, o2⟩ := free_owns (p := (memAlloc (memAlloc σ).1).2)
    (l := (memAlloc σ).2 :: (memAlloc (memAlloc (memAlloc σ).1).1).2 :: l) (o1.swap (by
      intro q
      simp only [List.count_cons]
      omega))
  exact ⟨σ1, _, _, by rw [pnPaths]; simp only [h1, Res.ok_bind]; rfl, o2⟩

theorem pnPairs_mem {n : Nat} {ij : Nat × Nat} (h : ij ∈ pnPairs n) : ij.2 * n + ij.1 < n * n := by
  simp only [pnPairs, List.mem_flatMap, List.mem_range, List.mem_map, List.mem_filter] at h
  obtain ⟨i, hi, j, ⟨hj, _⟩, rfl⟩ := h
  calc j * n + i < j * n + n := by omega
    _ = (j + 1) * n := by rw [Nat.succ_mul]
    _ ≤ n * n := Nat.mul_le_mul_right n hj

theorem pnPairs_length (n : Nat) : (pnPairs n).length = n * (n - 1) := by
  have key : ∀ i, i < n → ((List.range n).filter fun j => decide (j ≠ i)).length = n - 1 := by
    intro i hi
    have h1 := List.length_eq_countP_add_countP (l := List.range n) (fun j => decide (j ≠ i))
    have h2 : (List.range n).countP (fun j => decide (¬ decide (j ≠ i) = true)) = 1 := by
      rw [← show (List.range n).count i = 1 by rw [List.count_range, if_pos hi], List.count]
      apply List.countP_congr
      intro x _
      simp
    rw [List.length_range, h2] at h1
    rw [← List.countP_eq_length_filter]
    omega
  rw [pnPairs, List.length_flatMap]
  have : ∀ (l : List Nat), (∀ i ∈ l, i < n) →
      (l.map fun i => (((List.range n).filter fun j => decide (j ≠ i)).map fun j => (i, j)).length).sum = l.length * (n - 1) := by
    intro l
    induction l with
    | nil => intro _; simp
    | cons i l ih =>
      intro hl
      rw [List.map_cons, List.sum_cons, List.length_map, key i (hl i List.mem_cons_self),
        ih (fun i hm => hl i (List.mem_cons_of_mem _ hm)), List.length_cons, Nat.succ_mul]
      omega
  rw [this _ (fun i hm => List.mem_range.mp hm), List.length_range]

/-- One run: for `n` images `2 n² + 1` blocks are lost, or the program ends because an image has no keypoints. -/
theorem pnRun_owns {σ : Mem} {l : List Nat} {p : MPan} {nScales : Int} {n : Nat} (hn : 2 ≤ n) (h : Owns σ (panPtrs p ++ l))
    (hw : PanWf p nScales n) {a : PnArg} (hl : a.sift.length = n) (ha : ∀ c ∈ a.sift, SdAllowed nScales c.ops) :
    (pnRun σ p a = .fatal ∧ ∃ i, a.empty i = true) ∨
    ∃ σ' p' lost, pnRun σ p a = .ok (σ', p') ∧ Owns σ' (panPtrs p' ++ (lost ++ l)) ∧ PanWf p' nScales n ∧
      lost.length = 2 * n * n + 1 := by
  obtain ⟨w1, w2, w3, w4, w5⟩ := hw
  have u : memUse σ p.self = .ok () := use_ok h (by simp [panPtrs])
  obtain ⟨σ1, det, is, lo1, h1, o1, v1, e1, f1⟩ := pnDetect_owns (a := p.arrs) (is := p.imgs) (cs := a.sift) (σ := σ)
    (det := p.det) (l := [p.self] ++ levPtrs (some p.names) ++ slotPtrs p.pms ++ slotPtrs p.hs ++ bufPtrs p.pan ++ l) (h.swap (by
      intro q
      simp only [panPtrs, List.count_append]
      omega)) w1 (by omega) ha
  rcases pnMatches_owns (a := p.arrs) (n := p.imgs.length) (empty := a.empty) (ps := pnPairs p.imgs.length) (σ := σ1) (pms := p.pms)
    (l := siftPtrs det ++ is.flatMap panImgPtrs ++ panArrPtrs p.arrs ++ lo1 ++ [p.self] ++ levPtrs (some p.names) ++
      slotPtrs p.hs ++ bufPtrs p.pan ++ l) (o1.swap (by
        intro q
        simp only [List.count_append]
        omega)) (by simp [panArrPtrs]) (by
          intro ij hm
          have := pnPairs_mem hm
          rw [w4, ← w3]
          exact this) with ⟨e, z⟩ | ⟨σ2, pms, lo2, h2, o2, e2, f2⟩
  · exact Or.inl ⟨by rw [pnRun, pnInit, u]; simp only [Res.ok_bind, h1, e]; rfl, z⟩
  · right
    obtain ⟨σ3, hs, h3, o3, e3⟩ := pnFits_owns (a := p.arrs) (n := p.imgs.length) (fit := a.fit) (ps := pnPairs p.imgs.length)
      (σ := σ2) (hs := p.hs) (l := siftPtrs det ++ is.flatMap panImgPtrs ++ panArrPtrs p.arrs ++ lo1 ++ lo2 ++ [p.self] ++
        levPtrs (some p.names) ++ slotPtrs pms ++ bufPtrs p.pan ++ l) (o2.swap (by
          intro q
          simp only [List.count_append]
          omega)) (by simp [panArrPtrs]) (by
            intro ij hm
            have := pnPairs_mem hm
            rw [w5, ← w3]
            exact this)
    obtain ⟨σ4, nx, vi, h4, o4⟩ := pnPaths_owns o3
    obtain ⟨σ5, h5, o5⟩ := free_owns o4
    obtain ⟨σ6, b, h6, o6⟩ := bufResize_owns (σ := σ5) (b := p.pan) (l := [vi] ++ siftPtrs det ++ is.flatMap panImgPtrs ++
        panArrPtrs p.arrs ++ lo1 ++ lo2 ++ [p.self] ++ levPtrs (some p.names) ++ slotPtrs pms ++ slotPtrs hs ++ l) (o5.swap (by
          intro q
          simp only [List.count_append, List.count_cons, List.count_nil]
          omega)) a.grow
    refine ⟨σ6, { p with det := det, imgs := is, pms := pms, hs := hs, pan := b }, [vi] ++ lo1 ++ lo2, ?_, o6.swap ?_, ?_, ?_⟩
    · rw [pnRun, pnInit, u]
      simp only [Res.ok_bind, h1, h2, h3, h4, h5, h6, Res.pure_eq]
    · intro q
      simp only [panPtrs, List.count_append]
      omega
    · exact ⟨v1, w2, by simp only; omega, by simp only; omega, by simp only; omega⟩
    · rw [pnPairs_length, w3] at f2
      rw [w3] at f1
      simp only [List.length_append, List.length_cons, List.length_nil]
      obtain ⟨m, rfl⟩ : ∃ m, n = m + 1 := ⟨n - 1, by omega⟩
      rw [f1, f2, Nat.add_sub_cancel]
      have : 2 * (m + 1) * (m + 1) = 2 * (m + 1) + 2 * ((m + 1) * m) := by
        rw [Nat.mul_succ, Nat.mul_assoc]
        omega
      omega

theorem pnFreeImages_owns {a : MPanArrs} : ∀ {is : List MPanImg} {σ : Mem} {l : List Nat}, Owns σ (is.flatMap panImgPtrs ++ l) →
    (∀ p ∈ panArrPtrs a, p ∈ l) → ∃ σ', pnFreeImages a is σ = .ok σ' ∧ Owns σ' l := by
  intro is
  induction is with
  | nil => intro σ l h _; exact ⟨σ, rfl, h⟩
  | cons i is ih =>
    intro σ l h hp
    have u1 : memUse σ a.images = .ok () := use_ok h (List.mem_append_right _ (hp _ (by simp [panArrPtrs])))
    obtain ⟨σ1, h1, o1⟩ := bufFree_owns (σ := σ) (b := i.img) (l := i.keys :: i.desc :: i.toRef :: i.fromRef ::
      (is.flatMap panImgPtrs ++ l)) (h.swap (by
        intro q
        simp only [panImgPtrs, List.flatMap_cons, List.count_append, List.count_cons, List.count_nil]
        omega))
    have u2 : memUse σ1 a.keys = .ok () := use_ok o1 (by simp [hp _ (show a.keys ∈ panArrPtrs a by simp [panArrPtrs])])
    obtain ⟨σ2, h2, o2⟩ := free_owns o1
    have u3 : memUse σ2 a.desc = .ok () := use_ok o2 (by simp [hp _ (show a.desc ∈ panArrPtrs a by simp [panArrPtrs])])
    obtain ⟨σ3, h3, o3⟩ := free_owns o2
    have u4 : memUse σ3 a.toRef = .ok () := use_ok o3 (by simp [hp _ (show a.toRef ∈ panArrPtrs a by simp [panArrPtrs])])
    obtain ⟨σ4, h4, o4⟩ := free_owns o3
    have u5 : memUse σ4 a.fromRef = .ok () := use_ok o4 (by simp [hp _ (show a.fromRef ∈ panArrPtrs a by simp [panArrPtrs])])
    obtain ⟨σ5, h5, o5⟩ := free_owns o4
    obtain ⟨σ6, h6, o6⟩ := ih o5 hp
    exact ⟨σ6, by rw [pnFreeImages]; simp only [u1, Res.ok_bind, h1, u2, h2, u3, h3, u4, h4, u5, h5, h6], o6⟩

theorem opt_drop {ls : List (Option Nat)} {i : Nat} (hi : i < ls.length) (q : Nat) :
    (slotPtrs (ls.drop i)).count q = ls[i].toList.count q + (slotPtrs (ls.drop (i + 1))).count q := by
  rw [List.drop_eq_getElem_cons hi]
  simp only [slotPtrs, List.flatMap_cons, List.count_append]

theorem pnFreePairs_owns {σ : Mem} {l : List Nat} {p : MPan} (h : Owns σ (slotPtrs p.pms ++ (slotPtrs p.hs ++ l)))
    (h1 : p.pms.length = p.imgs.length * p.imgs.length) (h2 : p.hs.length = p.imgs.length * p.imgs.length)
    (hm : p.arrs.matches_ ∈ l) (hh : p.arrs.hs ∈ l) : ∃ σ', pnFreePairs σ p = .ok σ' ∧ Owns σ' l := by
  obtain ⟨σ1, e1, o1⟩ := forLoop_spec (n := p.imgs.length * p.imgs.length)
    (P := fun i σ => Owns σ (slotPtrs (p.pms.drop i) ++ (slotPtrs (p.hs.drop i) ++ l)))
    (body := fun i σ => do
      memUse σ p.arrs.matches_
      let m ← readAt p.pms i
      let σ ← memFree σ m
      memUse σ p.arrs.hs
      let h ← readAt p.hs i
      memFree σ h) (s := σ) (Nat.zero_le _) (by simpa using h)
    (by
      intro i σ _ hi ho
      have hi1 : i < p.pms.length := by omega
      have hi2 : i < p.hs.length := by omega
      have u1 : memUse σ p.arrs.matches_ = .ok () := use_ok ho (by simp [hm])
      obtain ⟨σ2, e2, o2⟩ := freeOpt_owns (σ := σ) (d := p.pms[i]) (l := p.hs[i].toList ++ (slotPtrs (p.pms.drop (i + 1)) ++
        (slotPtrs (p.hs.drop (i + 1)) ++ l))) (ho.swap (by
          intro q
          have t1 := opt_drop hi1 q
          have t2 := opt_drop hi2 q
          simp only [List.count_append]
          omega))
      have u2 : memUse σ2 p.arrs.hs = .ok () := use_ok o2 (by simp [hh])
      obtain ⟨σ3, e3, o3⟩ := freeOpt_owns o2
      exact ⟨σ3, by simp [u1, readAt_ok hi1, e2, u2, readAt_ok hi2, e3], o3⟩)
  refine ⟨σ1, e1, ?_⟩
  rw [List.drop_eq_nil_of_le (by omega), List.drop_eq_nil_of_le (by omega)] at o1
  exact o1

theorem pnFree_owns {σ : Mem} {l : List Nat} {p : MPan} {nScales : Int} {n : Nat} (hs : -2 ≤ nScales)
    (h : Owns σ (panPtrs p ++ l)) (hw : PanWf p nScales n) : ∃ σ', pnFree σ p = .ok σ' ∧ Owns σ' l := by
  obtain ⟨w1, w2, w3, w4, w5⟩ := hw
  have u : memUse σ p.self = .ok () := use_ok h (by simp [panPtrs])
  obtain ⟨σ1, h1, o1⟩ := sdFree_owns (σ := σ) (d := p.det) hs (l := levPtrs (some p.names) ++ ([p.self] ++ panArrPtrs p.arrs ++
    p.imgs.flatMap panImgPtrs ++ slotPtrs p.pms ++ slotPtrs p.hs ++ bufPtrs p.pan ++ l)) (h.swap (by
      intro q
      simp only [panPtrs, List.count_append]
      omega)) w1
  obtain ⟨σ2, h2, o2⟩ := dmLevelsFree_ok (lv := some p.names) (fun lv' e => by cases e; exact w2) o1
  obtain ⟨σ3, h3, o3⟩ := pnFreeImages_owns (a := p.arrs) (is := p.imgs) (σ := σ2) (l := panArrPtrs p.arrs ++ (slotPtrs p.pms ++
    (slotPtrs p.hs ++ ([p.self] ++ bufPtrs p.pan ++ l)))) (o2.swap (by
      intro q
      simp only [List.count_append]
      omega)) (fun q hq => List.mem_append_left _ hq)
  obtain ⟨σ4, h4, o4⟩ : ∃ σ4, pnFreeArrs σ3 p.arrs = .ok σ4 ∧ Owns σ4 (p.arrs.matches_ :: p.arrs.hs :: p.arrs.cost ::
      (slotPtrs p.pms ++ (slotPtrs p.hs ++ ([p.self] ++ bufPtrs p.pan ++ l)))) := by
    obtain ⟨_, k1, q1⟩ := free_owns o3
    obtain ⟨_, k2, q2⟩ := free_owns q1
    obtain ⟨_, k3, q3⟩ := free_owns q2
    obtain ⟨_, k4, q4⟩ := free_owns q3
    obtain ⟨_, k5, q5⟩ := free_owns q4
    obtain ⟨_, k6, q6⟩ := free_owns q5
    obtain ⟨_, k7, q7⟩ := free_owns q6
    obtain ⟨_, k8, q8⟩ := free_owns q7
    obtain ⟨σ9, k9, q9⟩ := free_owns q8
    exact ⟨σ9, by rw [pnFreeArrs]; simp only [k1, k2, k3, k4, k5, k6, k7, k8, k9, Res.ok_bind], q9⟩
  obtain ⟨σ5, h5, o5⟩ := pnFreePairs_owns (σ := σ4) (p := p) (l := p.arrs.matches_ :: p.arrs.hs :: p.arrs.cost ::
      (bufPtrs p.pan ++ (p.self :: l))) (o4.swap (by
        intro q
        simp only [List.count_append, List.count_cons, List.count_nil]
        omega)) (by rw [w4, w3]) (by rw [w5, w3]) (by simp) (by simp)
  obtain ⟨σ6, h6, o6⟩ := free_owns o5
  obtain ⟨σ7, h7, o7⟩ := free_owns o6
  obtain ⟨σ8, h8, o8⟩ := free_owns o7
  obtain ⟨σ9, h9, o9⟩ := bufFree_owns o8
  obtain ⟨σ10, h10, o10⟩ := free_owns o9
  exact ⟨σ10, by rw [pnFree]; simp only [u, Res.ok_bind, h1, h2, h3, h4, h5, h6, h7, h8, h9, h10], o10⟩

/-- C125: whatever the images are, a builder only accesses blocks that are allocated and frees no block twice; it does not touch
the blocks of the rest of the program. After it is freed `2 n² + 1` blocks for each run are still allocated that nothing points
to. The program can only end early because an image has no keypoints. Missing: that all blocks are freed, which is false. -/
theorem c125_panorama_partial {σ : Mem} {l : List Nat} (h : Owns σ l) {nScales : Int} (hs : -2 ≤ nScales) {n : Nat} (hn : 2 ≤ n)
    {as : List PnArg} (ha : ∀ a ∈ as, a.sift.length = n ∧ ∀ c ∈ a.sift, SdAllowed nScales c.ops) :
    (pnAll σ nScales n as = .fatal ∧ ∃ a ∈ as, ∃ i, a.empty i = true) ∨
    ∃ σ' lost, pnAll σ nScales n as = .ok σ' ∧ Owns σ' (lost ++ l) ∧ lost.length = as.length * (2 * n * n + 1) := by
  have run : ∀ (as : List PnArg) {σ : Mem} {p : MPan} {l : List Nat}, Owns σ (panPtrs p ++ l) → PanWf p nScales n →
      (∀ a ∈ as, a.sift.length = n ∧ ∀ c ∈ a.sift, SdAllowed nScales c.ops) →
      (as.foldlM (fun s a => pnRun s.1 s.2 a) (σ, p) = .fatal ∧ ∃ a ∈ as, ∃ i, a.empty i = true) ∨
      ∃ s lost, as.foldlM (fun s a => pnRun s.1 s.2 a) (σ, p) = .ok s ∧ Owns s.1 (panPtrs s.2 ++ (lost ++ l)) ∧
        PanWf s.2 nScales n ∧ lost.length = as.length * (2 * n * n + 1) := by
    intro as
    induction as with
    | nil => intro σ p l h hw _; exact Or.inr ⟨_, [], rfl, h, hw, by simp⟩
    | cons a as ih =>
      intro σ p l h hw ha
      obtain ⟨a1, a2⟩ := ha a List.mem_cons_self
      rcases pnRun_owns hn h hw a1 a2 with ⟨e, z⟩ | ⟨σ1, p1, lo1, h1, o1, w1, e1⟩
      · exact Or.inl ⟨by rw [List.foldlM_cons, e]; rfl, a, List.mem_cons_self, z⟩
      · rcases ih o1 w1 (fun a hm => ha a (List.mem_cons_of_mem _ hm)) with ⟨e, b, hb, z⟩ | ⟨s, lo2, h2, o2, w2, e2⟩
        · exact Or.inl ⟨by rw [List.foldlM_cons, h1]; exact e, b, List.mem_cons_of_mem _ hb, z⟩
        · refine Or.inr ⟨s, lo2 ++ lo1, by rw [List.foldlM_cons, h1]; exact h2, by rw [List.append_assoc]; exact o2, w2, ?_⟩
          rw [List.length_append, e1, e2, List.length_cons, Nat.succ_mul as.length]
  obtain ⟨σ1, p, h1, o1, w1⟩ := pnNew_owns h hs hn
  rcases run as o1 w1 ha with ⟨e, z⟩ | ⟨s, lost, h2, o2, w2, e2⟩
  · exact Or.inl ⟨by rw [pnAll, h1, Res.ok_bind, e]; rfl, z⟩
  · obtain ⟨σ3, h3, o3⟩ := pnFree_owns hs o2 w2
    exact Or.inr ⟨σ3, lost, by rw [pnAll, h1, Res.ok_bind, h2, Res.ok_bind, h3], o3, e2⟩

/-- C125: after a run of `nx_stitch` not all blocks are freed. -/
theorem c125_leak {σ : Mem} {l : List Nat} (h : Owns σ l) {nScales : Int} (hs : -2 ≤ nScales) {n : Nat} (hn : 2 ≤ n)
    {a : PnArg} (ha : a.sift.length = n ∧ ∀ c ∈ a.sift, SdAllowed nScales c.ops) (he : ∀ i, a.empty i = false) :
    ∃ σ', pnAll σ nScales n [a] = .ok σ' ∧ ¬ Owns σ' l ∧ ∃ p, p ∉ l ∧ p ∈ σ'.live := by
  rcases c125_panorama_partial h hs hn (as := [a]) (by simpa using ha) with ⟨_, b, hb, i, hi⟩ | ⟨σ', lost, h1, o1, e1⟩
  · rw [List.mem_singleton.mp hb, he i] at hi
    cases hi
  · obtain ⟨p, hp⟩ : ∃ p, p ∈ lost := List.exists_mem_of_length_pos (by rw [e1]; simp)
    have hnl : p ∉ l := by
      intro hl
      have c1 := o1.same p
      have c2 := o1.once p
      rw [List.count_append] at c1
      have c3 := List.count_pos_iff.mpr hp
      have c4 := List.count_pos_iff.mpr hl
      omega
    have hlive := o1.mem (List.mem_append_left l hp)
    refine ⟨σ', h1, fun ho => hnl ?_, p, hnl, hlive⟩
    rw [← List.count_pos_iff, ← ho.same p, List.count_pos_iff]
    exact hlive

/-- C125: less than two images are refused. -/
theorem c125_few {σ : Mem} {l : List Nat} (h : Owns σ l) {nScales : Int} (hs : -2 ≤ nScales) {n : Nat} (hn : n < 2)
    (as : List PnArg) : pnAll σ nScales n as = .fatal := by
  rw [pnAll, pnNew_few h hs hn]
  rfl

/-- Two images: nine blocks are lost in a run. A second run ends if an image has no keypoints. -/
example : (do
      let σ ← pnAll ⟨[], 0⟩ 3 2 [⟨[⟨true, true, [], 1⟩, ⟨false, true, [.level 0 true, .dog 4 true], 2⟩], fun _ => false,
        fun i _ => i == 0, true⟩]
      pure σ.live.length) = Res.ok 9 ∧
    (do
      let σ ← pnAll ⟨[], 0⟩ 3 2 [⟨[⟨true, true, [], 1⟩, ⟨false, true, [], 2⟩], fun i => i == 1, fun i _ => i == 0, true⟩]
      pure σ.live.length) = Res.ok 9 ∧
    (do
      let σ ← pnAll ⟨[], 0⟩ 3 2 (List.replicate 2 ⟨[⟨true, true, [], 1⟩, ⟨false, true, [], 2⟩], fun i => i == 1,
        fun i _ => i == 0, true⟩)
      pure σ.live.length) = Res.fatal := by
  refine ⟨?_, ?_, ?_⟩ <;> decide +kernel

end Nx
