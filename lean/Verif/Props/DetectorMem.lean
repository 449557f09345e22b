import Verif.Model.DetectorMem
import Verif.Lemmas.Ledger
import Verif.Lemmas.Sample

/-!
# C123: memory of images, pyramids, detectors and extractors
-/

namespace Nx

/-- The blocks of an image or a vector. -/
def bufPtrs (b : MBuf) : List Nat := [b.self, b.mem] ++ b.data.toList

/-- The blocks of images. -/
def bufsPtrs (bs : List MBuf) : List Nat := bs.flatMap bufPtrs

/-- The blocks of a pyramid. -/
def pyrPtrs (y : MPyr) : List Nat := [y.self] ++ y.arr.toList ++ bufsPtrs y.levels

/-- The blocks of a builder. -/
def pyrbPtrs (b : MPyrB) : List Nat := b.self :: bufPtrs b.work

/-- The blocks of a SIFT detector. -/
def siftPtrs (d : MSift) : List Nat :=
  [d.self, d.lvArr, d.dgArr] ++ bufPtrs d.gx ++ bufPtrs d.gy ++ bufsPtrs d.levels ++ bufsPtrs d.dogs

/-- The blocks of a warp processor. -/
def warpPtrs (w : MWarp) : List Nat := w.self :: (bufPtrs w.skew ++ bufPtrs w.sub ++ bufPtrs w.res)

/-- The blocks of a FAST detector. -/
def fastPtrs (d : MFast) : List Nat := d.self :: (bufPtrs d.keys ++ d.ic.toList.flatMap fun p => [p.1, p.2])

/-- The blocks of a BRIEF extractor. -/
def briefPtrs (b : MBrief) : List Nat := b.self :: b.offsets.toList

theorem realloc_owns {σ : Mem} {l : List Nat} {d : Option Nat} (h : Owns σ (d.toList ++ l)) :
    ∃ σ' p, memRealloc σ d = .ok (σ', p) ∧ Owns σ' (p :: l) := by
  obtain ⟨σ1, h1, o1⟩ := freeOpt_owns h
  exact ⟨_, _, by rw [memRealloc, h1]; rfl, alloc_owns o1⟩

theorem bufAlloc_owns {σ : Mem} {l : List Nat} (h : Owns σ l) : Owns (bufAlloc σ).1 (bufPtrs (bufAlloc σ).2 ++ l) :=
  (alloc_owns (alloc_owns h)).swap (by
    intro q
    simp only [bufPtrs, bufAlloc, Option.toList_none, List.append_nil, List.cons_append, List.nil_append, List.count_cons]
    omega)

theorem bufResize_owns {σ : Mem} {l : List Nat} {b : MBuf} (h : Owns σ (bufPtrs b ++ l)) (g : Bool) :
    ∃ σ' b', bufResize σ b g = .ok (σ', b') ∧ Owns σ' (bufPtrs b' ++ l) := by
  have u1 : memUse σ b.self = .ok () := use_ok h (by simp [bufPtrs])
  have u2 : memUse σ b.mem = .ok () := use_ok h (by simp [bufPtrs])
  cases g with
  | false => exact ⟨σ, b, by simp [bufResize, u1, u2], h⟩
  | true =>
    obtain ⟨σ1, p, h1, o1⟩ := realloc_owns (σ := σ) (d := b.data) (l := b.self :: b.mem :: l) (h.swap (by
      intro q
      simp only [bufPtrs, List.count_append, List.count_cons, List.count_nil]
      omega))
    refine ⟨σ1, ⟨b.self, b.mem, some p⟩, by simp [bufResize, u1, u2, h1], o1.swap ?_⟩
    intro q
    simp only [bufPtrs, Option.toList_some, List.count_append, List.count_cons, List.count_nil]
    omega

theorem bufFree_owns {σ : Mem} {l : List Nat} {b : MBuf} (h : Owns σ (bufPtrs b ++ l)) :
    ∃ σ', bufFree σ b = .ok σ' ∧ Owns σ' l := by
  have u1 : memUse σ b.self = .ok () := use_ok h (by simp [bufPtrs])
  have u2 : memUse σ b.mem = .ok () := use_ok h (by simp [bufPtrs])
  obtain ⟨σ1, h1, o1⟩ := freeOpt_owns (σ := σ) (d := b.data) (l := b.mem :: b.self :: l) (h.swap (by
      intro q
      simp only [bufPtrs, List.count_append, List.count_cons, List.count_nil]
      omega))
  obtain ⟨σ2, h2, o2⟩ := free_owns o1
  obtain ⟨σ3, h3, o3⟩ := free_owns o2
  exact ⟨σ3, by simp [bufFree, u1, u2, h1, h2, h3], o3⟩

theorem bufAllocs_owns : ∀ {n : Nat} {σ : Mem} {l : List Nat}, Owns σ l →
    Owns (bufAllocs n σ).1 (bufsPtrs (bufAllocs n σ).2 ++ l) ∧ (bufAllocs n σ).2.length = n := by
  intro n
  induction n with
  | zero => intro σ l h; exact ⟨h, rfl⟩
  | succ n ih =>
    intro σ l h
    obtain ⟨o, e⟩ := ih (bufAlloc_owns h)
    refine ⟨o.swap ?_, by simp [bufAllocs, e]⟩
    intro q
    simp only [bufAllocs, bufsPtrs, List.flatMap_cons, List.count_append]
    omega

theorem bufFrees_owns {arr : Nat} : ∀ {bs : List MBuf} {σ : Mem} {l : List Nat}, Owns σ (bufsPtrs bs ++ l) → arr ∈ l →
    ∃ σ', bufFrees arr bs σ = .ok σ' ∧ Owns σ' l := by
  intro bs
  induction bs with
  | nil => intro σ l h _; exact ⟨σ, rfl, h⟩
  | cons b bs ih =>
    intro σ l h ha
    obtain ⟨σ1, h1, o1⟩ := bufFree_owns (σ := σ) (b := b) (l := bufsPtrs bs ++ l) (h.swap (by
      intro q
      simp only [bufsPtrs, List.flatMap_cons, List.count_append]
      omega))
    obtain ⟨σ2, h2, o2⟩ := ih o1 ha
    exact ⟨σ2, by simp [bufFrees, use_ok h (List.mem_append_right _ ha), h1, h2], o2⟩

theorem bufs_split {bs : List MBuf} {k : Nat} (hk : k < bs.length) (b : MBuf) (q : Nat) :
    (bufsPtrs bs).count q = (bufPtrs bs[k]).count q + (bufsPtrs (bs.take k ++ bs.drop (k + 1))).count q ∧
      (bufsPtrs (bs.set k b)).count q = (bufPtrs b).count q + (bufsPtrs (bs.take k ++ bs.drop (k + 1))).count q := by
  constructor
  · have e : bs = bs.take k ++ bs[k] :: bs.drop (k + 1) := by rw [← List.drop_eq_getElem_cons hk, List.take_append_drop]
    have e2 := congrArg (fun x => (bufsPtrs x).count q) e
    simp only [bufsPtrs, List.flatMap_append, List.flatMap_cons, List.count_append] at e2
    simp only [bufsPtrs, List.flatMap_append, List.count_append]
    omega
  · rw [List.set_eq_take_append_cons_drop, if_pos hk]
    simp only [bufsPtrs, List.flatMap_append, List.flatMap_cons, List.count_append]
    omega

theorem bufResizeAt_owns {σ : Mem} {l : List Nat} {arr : Nat} {bs : List MBuf} {k : Nat} (h : Owns σ (bufsPtrs bs ++ l))
    (ha : arr ∈ l) (hk : k < bs.length) (g : Bool) :
    ∃ σ' bs', bufResizeAt σ arr bs k g = .ok (σ', bs') ∧ Owns σ' (bufsPtrs bs' ++ l) ∧ bs'.length = bs.length := by
  obtain ⟨σ1, b, h1, o1⟩ := bufResize_owns (σ := σ) (b := bs[k]) (l := bufsPtrs (bs.take k ++ bs.drop (k + 1)) ++ l) (h.swap (by
    intro q
    have := (bufs_split hk bs[k] q).1
    simp only [List.count_append]
    omega)) g
  refine ⟨σ1, bs.set k b, ?_, o1.swap ?_, by simp⟩
  · simp [bufResizeAt, use_ok h (List.mem_append_right _ ha), readAt_ok hk, h1]
  · intro q
    have := (bufs_split hk b q).2
    simp only [List.count_append]
    omega

/-- The pyramid has an array iff it has levels. -/
def PyrWf (y : MPyr) : Prop := y.arr = none ↔ y.levels = []

theorem pyFreeLevels_owns {σ : Mem} {l : List Nat} {y : MPyr} (h : Owns σ (pyrPtrs y ++ l)) (hw : PyrWf y) :
    ∃ σ', pyFreeLevels σ y = .ok (σ', ⟨y.self, none, []⟩) ∧ Owns σ' (y.self :: l) := by
  have u : memUse σ y.self = .ok () := use_ok h (by simp [pyrPtrs])
  obtain ⟨s, arr, ls⟩ := y
  cases arr with
  | none =>
    have : ls = [] := hw.mp rfl
    subst this
    exact ⟨σ, by simp only at u; simp [pyFreeLevels, u, pyFreeImages, memFree], h⟩
  | some a =>
    obtain ⟨σ1, h1, o1⟩ := bufFrees_owns (σ := σ) (arr := a) (bs := ls) (l := a :: s :: l) (h.swap (by
      intro q
      simp only [pyrPtrs, Option.toList_some, List.count_append, List.count_cons, List.count_nil]
      omega)) (by simp)
    obtain ⟨σ2, h2, o2⟩ := free_owns o1
    exact ⟨σ2, by simp only at u; simp [pyFreeLevels, u, pyFreeImages, h1, h2], o2⟩

theorem pyAllocLevels_owns {σ : Mem} {l : List Nat} {y : MPyr} (h : Owns σ (pyrPtrs y ++ l)) (hw : PyrWf y) {n : Nat}
    (hn : 0 < n) :
    ∃ σ' y', pyAllocLevels σ y n = .ok (σ', y') ∧ Owns σ' (pyrPtrs y' ++ l) ∧ PyrWf y' ∧ y'.levels.length = n := by
  have u : memUse σ y.self = .ok () := use_ok h (by simp [pyrPtrs])
  have fill : ∀ {σ : Mem} {s : Nat}, Owns σ (s :: l) → ∃ σ' y', pyFill σ ⟨s, none, []⟩ n = (σ', y') ∧ Owns σ' (pyrPtrs y' ++ l) ∧
      PyrWf y' ∧ y'.levels.length = n := by
    intro σ s o
    obtain ⟨o2, e⟩ := bufAllocs_owns (n := n) (alloc_owns o)
    refine ⟨_, _, rfl, o2.swap ?_, ?_, e⟩
    · intro q
      simp only [pyrPtrs, Option.toList_some, List.count_append, List.count_cons, List.count_nil]
      omega
    · refine ⟨fun h => (by cases h), fun h => ?_⟩
      simp only at h
      rw [h] at e
      simp at e
      omega
  have hn0 : n ≠ 0 := by omega
  by_cases hl : y.levels.length = n
  · cases ha : y.arr with
    | none =>
      have := hw.mp ha
      rw [this] at hl
      simp at hl
      omega
    | some a => exact ⟨σ, y, by simp [pyAllocLevels, hn0, u, hl, pyFill, ha], h, hw, hl⟩
  · obtain ⟨σ1, h1, o1⟩ := pyFreeLevels_owns h hw
    obtain ⟨σ2, y2, h2, o2, w2, e2⟩ := fill o1
    exact ⟨σ2, y2, by simp [pyAllocLevels, hn0, u, hl, h1, h2], o2, w2, e2⟩

theorem pyCreateLevel_owns {σ : Mem} {l : List Nat} {y : MPyr} (h : Owns σ (pyrPtrs y ++ l)) (hw : PyrWf y) {k : Nat}
    (hk : k < y.levels.length) (g : Bool) :
    ∃ σ' y', pyCreateLevel σ y k g = .ok (σ', y') ∧ Owns σ' (pyrPtrs y' ++ l) ∧ PyrWf y' ∧
      y'.levels.length = y.levels.length := by
  have u : memUse σ y.self = .ok () := use_ok h (by simp [pyrPtrs])
  obtain ⟨s, arr, ls⟩ := y
  simp only at hk u
  cases arr with
  | none =>
    have : ls = [] := hw.mp rfl
    subst this
    simp at hk
  | some a =>
    obtain ⟨σ1, ls1, h1, o1, e1⟩ := bufResizeAt_owns (σ := σ) (arr := a) (bs := ls) (l := a :: s :: l) (h.swap (by
      intro q
      simp only [pyrPtrs, Option.toList_some, List.count_append, List.count_cons, List.count_nil]
      omega)) (by simp) hk g
    refine ⟨σ1, ⟨s, some a, ls1⟩, by simp [pyCreateLevel, u, hk, h1], o1.swap ?_, ?_, e1⟩
    · intro q
      simp only [pyrPtrs, Option.toList_some, List.count_append, List.count_cons, List.count_nil]
      omega
    · refine ⟨fun h => (by cases h), fun h => ?_⟩
      simp only at h
      rw [h] at e1
      simp at e1
      omega

theorem pbAlloc_owns {σ : Mem} {l : List Nat} (h : Owns σ l) : Owns (pbAlloc σ).1 (pyrbPtrs (pbAlloc σ).2 ++ l) :=
  (bufAlloc_owns (alloc_owns h)).swap (by
    intro q
    simp only [pbAlloc, pyrbPtrs, List.count_append, List.count_cons]
    omega)

theorem pbWork_owns {σ : Mem} {l : List Nat} {b : MPyrB} (h : Owns σ (pyrbPtrs b ++ l)) (g : Bool) :
    ∃ σ' b', pbWork σ b g = .ok (σ', b') ∧ Owns σ' (pyrbPtrs b' ++ l) := by
  have u : memUse σ b.self = .ok () := use_ok h (by simp [pyrbPtrs])
  obtain ⟨σ1, w, h1, o1⟩ := bufResize_owns (σ := σ) (b := b.work) (l := b.self :: l) (h.swap (by
    intro q
    simp only [pyrbPtrs, List.count_append, List.count_cons]
    omega)) g
  refine ⟨σ1, ⟨b.self, w⟩, by simp [pbWork, u, h1], o1.swap ?_⟩
  intro q
  simp only [pyrbPtrs, List.count_append, List.count_cons]
  omega

theorem pbFree_owns {σ : Mem} {l : List Nat} {b : MPyrB} (h : Owns σ (pyrbPtrs b ++ l)) :
    ∃ σ', pbFree σ b = .ok σ' ∧ Owns σ' l := by
  have u : memUse σ b.self = .ok () := use_ok h (by simp [pyrbPtrs])
  obtain ⟨σ1, h1, o1⟩ := bufFree_owns (σ := σ) (b := b.work) (l := b.self :: l) (h.swap (by
    intro q
    simp only [pyrbPtrs, List.count_append, List.count_cons]
    omega))
  obtain ⟨σ2, h2, o2⟩ := free_owns o1
  exact ⟨σ2, by simp [pbFree, u, h1, h2], o2⟩

/-- The operations are allowed: a pyramid is given at least one level and only levels that exist get a size. `n` is the number
of levels before. -/
def pyAllowed : Nat → List PyOp → Prop
  | _, [] => True
  | _, .levels m :: ops => 0 < m ∧ pyAllowed m ops
  | n, .create k _ :: ops => k < n ∧ pyAllowed n ops
  | n, .work _ :: ops => pyAllowed n ops
  | _, .clear :: ops => pyAllowed 0 ops

theorem pyRun_owns {l : List Nat} : ∀ (ops : List PyOp) {σ : Mem} {y : MPyr} {b : MPyrB},
    Owns σ (pyrPtrs y ++ (pyrbPtrs b ++ l)) → PyrWf y → pyAllowed y.levels.length ops →
    ∃ s, ops.foldlM pyStep (σ, y, b) = .ok s ∧ Owns s.1 (pyrPtrs s.2.1 ++ (pyrbPtrs s.2.2 ++ l)) ∧ PyrWf s.2.1 := by
  intro ops
  induction ops with
  | nil => intro σ y b h hw _; exact ⟨_, rfl, h, hw⟩
  | cons op ops ih =>
    intro σ y b h hw ha
    cases op with
    | levels m =>
      obtain ⟨hm, ha⟩ := ha
      obtain ⟨σ1, y1, h1, o1, w1, e1⟩ := pyAllocLevels_owns h hw hm
      obtain ⟨s, h2, r⟩ := ih o1 w1 (by rw [e1]; exact ha)
      exact ⟨s, by rw [List.foldlM_cons, pyStep]; simp only [h1, Res.ok_bind, Res.pure_eq]; exact h2, r⟩
    | create k g =>
      obtain ⟨hk, ha⟩ := ha
      obtain ⟨σ1, y1, h1, o1, w1, e1⟩ := pyCreateLevel_owns h hw hk g
      obtain ⟨s, h2, r⟩ := ih o1 w1 (by rw [e1]; exact ha)
      exact ⟨s, by rw [List.foldlM_cons, pyStep]; simp only [h1, Res.ok_bind, Res.pure_eq]; exact h2, r⟩
    | work g =>
      obtain ⟨σ1, b1, h1, o1⟩ := pbWork_owns (l := pyrPtrs y ++ l) (b := b) (h.swap (by
        intro q
        simp only [List.count_append]
        omega)) g
      obtain ⟨s, h2, r⟩ := ih (σ := σ1) (y := y) (b := b1) (o1.swap (by
        intro q
        simp only [List.count_append]
        omega)) hw ha
      exact ⟨s, by rw [List.foldlM_cons, pyStep]; simp only [h1, Res.ok_bind, Res.pure_eq]; exact h2, r⟩
    | clear =>
      obtain ⟨σ1, h1, o1⟩ := pyFreeLevels_owns h hw
      obtain ⟨s, h2, r⟩ := ih (σ := σ1) (y := ⟨y.self, none, []⟩) (b := b) o1 (by simp [PyrWf]) ha
      exact ⟨s, by rw [List.foldlM_cons, pyStep]; simp only [h1, Res.ok_bind, Res.pure_eq]; exact h2, r⟩

/-- C123: whatever a program does with a pyramid and its builder, all accesses are to blocks that are allocated, the blocks of
the pyramid, of the builder and of the rest of the program are exactly those that are allocated, and after both are freed exactly
the blocks of the rest are. -/
theorem c123_pyramid {σ : Mem} {l : List Nat} (h : Owns σ l) {ops : List PyOp} (ha : pyAllowed 0 ops) :
    ∃ s σ', pyRun σ ops = .ok s ∧ Owns s.1 (pyrPtrs s.2.1 ++ pyrbPtrs s.2.2 ++ l) ∧ pyEnd s = .ok σ' ∧ Owns σ' l := by
  have o0 : Owns (pyAlloc σ).1 (pyrPtrs (pyAlloc σ).2 ++ l) := alloc_owns h
  have o1 := pbAlloc_owns o0
  obtain ⟨s, h1, o2, w2⟩ := pyRun_owns (l := l) ops (σ := (pbAlloc (pyAlloc σ).1).1) (y := (pyAlloc σ).2)
    (b := (pbAlloc (pyAlloc σ).1).2) (o1.swap (by
      intro q
      simp only [List.count_append]
      omega)) (by simp [PyrWf, pyAlloc]) ha
  obtain ⟨σ1, h3, o3⟩ := pyFreeLevels_owns o2 w2
  obtain ⟨σ2, h4, o4⟩ := free_owns o3
  obtain ⟨σ3, h5, o5⟩ := pbFree_owns o4
  exact ⟨s, σ3, h1, by rw [List.append_assoc]; exact o2, by simp [pyEnd, pyFree, h3, h4, h5], o5⟩

/-- A pyramid with no levels is refused, and so is the size of a level that does not exist. -/
theorem c123_pyramid_fatal {σ : Mem} {l : List Nat} {y : MPyr} (h : Owns σ (pyrPtrs y ++ l)) :
    pyAllocLevels σ y 0 = .fatal ∧ ∀ k g, y.levels.length ≤ k → pyCreateLevel σ y k g = .fatal := by
  refine ⟨by simp [pyAllocLevels], fun k g hk => ?_⟩
  have u : memUse σ y.self = .ok () := use_ok h (by simp [pyrPtrs])
  simp [pyCreateLevel, u, Nat.not_lt.mpr hk]

theorem sdAllocs_owns : ∀ {n : Nat} {σ : Mem} {l : List Nat}, Owns σ l →
    Owns (sdAllocs n σ).1 (bufsPtrs (sdAllocs n σ).2.1 ++ bufsPtrs (sdAllocs n σ).2.2 ++ l) ∧
      (sdAllocs n σ).2.1.length = n ∧ (sdAllocs n σ).2.2.length = n := by
  intro n
  induction n with
  | zero => intro σ l h; exact ⟨h, rfl, rfl⟩
  | succ n ih =>
    intro σ l h
    obtain ⟨o, e1, e2⟩ := ih (bufAlloc_owns (bufAlloc_owns h))
    refine ⟨o.swap ?_, by simp [sdAllocs, e1], by simp [sdAllocs, e2]⟩
    intro q
    simp only [sdAllocs, bufsPtrs, List.flatMap_cons, List.count_append]
    omega

/-- A detector has three levels and two differences more than scales. -/
structure SiftWf (d : MSift) (n : Int) : Prop where
  scales : d.nScales = n
  levels : (d.levels.length : Int) = n + 3
  dogs : (d.dogs.length : Int) = n + 2

theorem sdNew_owns {σ : Mem} {l : List Nat} (h : Owns σ l) {n : Int} (hn : -2 ≤ n) :
    ∃ σ' d, sdNew σ n = .ok (σ', d) ∧ Owns σ' (siftPtrs d ++ l) ∧ SiftWf d n := by
  have o1 := alloc_owns h
  have o2 := bufAlloc_owns o1
  have o3 := bufAlloc_owns o2
  have o4 := alloc_owns o3
  have o5 := alloc_owns o4
  obtain ⟨o6, e1, e2⟩ := sdAllocs_owns (n := (n + 2).toNat) o5
  have o7 := bufAlloc_owns o6
  refine ⟨_, _, by rw [sdNew, if_neg (by omega), if_neg (by omega)], o7.swap ?_, ⟨rfl, ?_, ?_⟩⟩
  · intro q
    simp only [siftPtrs, bufsPtrs, List.flatMap_append, List.flatMap_cons, List.flatMap_nil, List.append_nil, List.count_append,
      List.count_cons, List.count_nil]
    omega
  · simp only [List.length_append, List.length_cons, List.length_nil, e1]
    omega
  · simp only [e2]
    omega

theorem sdStep_owns {σ : Mem} {l : List Nat} {d : MSift} {n : Int} (h : Owns σ (siftPtrs d ++ l)) (hw : SiftWf d n) {op : SdOp}
    (ha : (∀ k g, op = .level k g → (k : Int) < n + 3) ∧ (∀ k g, op = .dog k g → (k : Int) < n + 2)) :
    ∃ σ' d', sdStep (σ, d) op = .ok (σ', d') ∧ Owns σ' (siftPtrs d' ++ l) ∧ SiftWf d' n := by
  obtain ⟨w1, w2, w3⟩ := hw
  cases op with
  | level k g =>
    have := ha.1 k g rfl
    obtain ⟨σ1, ls, h1, o1, e1⟩ := bufResizeAt_owns (σ := σ) (arr := d.lvArr) (bs := d.levels)
      (l := [d.self, d.lvArr, d.dgArr] ++ bufPtrs d.gx ++ bufPtrs d.gy ++ bufsPtrs d.dogs ++ l) (h.swap (by
        intro q
        simp only [siftPtrs, List.count_append]
        omega)) (by simp) (k := k) (by omega) g
    refine ⟨σ1, { d with levels := ls }, by simp [sdStep, h1], o1.swap ?_, w1, by simp only [e1]; exact w2, w3⟩
    intro q
    simp only [siftPtrs, List.count_append]
    omega
  | dog k g =>
    have := ha.2 k g rfl
    obtain ⟨σ1, ls, h1, o1, e1⟩ := bufResizeAt_owns (σ := σ) (arr := d.dgArr) (bs := d.dogs)
      (l := [d.self, d.lvArr, d.dgArr] ++ bufPtrs d.gx ++ bufPtrs d.gy ++ bufsPtrs d.levels ++ l) (h.swap (by
        intro q
        simp only [siftPtrs, List.count_append]
        omega)) (by simp) (k := k) (by omega) g
    refine ⟨σ1, { d with dogs := ls }, by simp [sdStep, h1], o1.swap ?_, w1, w2, by simp only [e1]; exact w3⟩
    intro q
    simp only [siftPtrs, List.count_append]
    omega
  | gx g =>
    obtain ⟨σ1, b, h1, o1⟩ := bufResize_owns (σ := σ) (b := d.gx)
      (l := [d.self, d.lvArr, d.dgArr] ++ bufPtrs d.gy ++ bufsPtrs d.levels ++ bufsPtrs d.dogs ++ l) (h.swap (by
        intro q
        simp only [siftPtrs, List.count_append]
        omega)) g
    refine ⟨σ1, { d with gx := b }, by simp [sdStep, h1], o1.swap ?_, w1, w2, w3⟩
    intro q
    simp only [siftPtrs, List.count_append]
    omega
  | gy g =>
    obtain ⟨σ1, b, h1, o1⟩ := bufResize_owns (σ := σ) (b := d.gy)
      (l := [d.self, d.lvArr, d.dgArr] ++ bufPtrs d.gx ++ bufsPtrs d.levels ++ bufsPtrs d.dogs ++ l) (h.swap (by
        intro q
        simp only [siftPtrs, List.count_append]
        omega)) g
    refine ⟨σ1, { d with gy := b }, by simp [sdStep, h1], o1.swap ?_, w1, w2, w3⟩
    intro q
    simp only [siftPtrs, List.count_append]
    omega

theorem bufs_drop {bs : List MBuf} {i : Nat} (hi : i < bs.length) (q : Nat) :
    (bufsPtrs (bs.drop i)).count q = (bufPtrs bs[i]).count q + (bufsPtrs (bs.drop (i + 1))).count q := by
  rw [List.drop_eq_getElem_cons hi]
  simp only [bufsPtrs, List.flatMap_cons, List.count_append]

theorem sdFree_owns {σ : Mem} {l : List Nat} {d : MSift} {n : Int} (hn : -2 ≤ n) (h : Owns σ (siftPtrs d ++ l))
    (hw : SiftWf d n) : ∃ σ', sdFree σ d = .ok σ' ∧ Owns σ' l := by
  obtain ⟨w1, w2, w3⟩ := hw
  have u : memUse σ d.self = .ok () := use_ok h (by simp [siftPtrs])
  have hm : (d.nScales + 2).toNat + 1 = d.levels.length := by omega
  have hm2 : (d.nScales + 2).toNat = d.dogs.length := by omega
  obtain ⟨σ1, h1, o1⟩ := forLoop_spec (n := (d.nScales + 2).toNat)
    (P := fun i σ => Owns σ (bufsPtrs (d.levels.drop i) ++ bufsPtrs (d.dogs.drop i) ++
      ([d.lvArr, d.dgArr] ++ bufPtrs d.gx ++ bufPtrs d.gy ++ [d.self] ++ l)))
    (body := fun i σ => do
      memUse σ d.lvArr
      let a ← readAt d.levels i
      let σ ← bufFree σ a
      memUse σ d.dgArr
      let b ← readAt d.dogs i
      bufFree σ b) (s := σ) (Nat.zero_le _)
    (h.swap (by
      intro q
      simp only [siftPtrs, List.drop_zero, List.count_append, List.count_cons, List.count_nil]
      omega))
    (by
      intro i σ _ hi ho
      have hl : i < d.levels.length := by omega
      have hd : i < d.dogs.length := by omega
      have v1 : memUse σ d.lvArr = .ok () := use_ok ho (by simp)
      obtain ⟨σ2, h2, o2⟩ := bufFree_owns (σ := σ) (b := d.levels[i]) (l := bufPtrs d.dogs[i] ++
        (bufsPtrs (d.levels.drop (i + 1)) ++ bufsPtrs (d.dogs.drop (i + 1)) ++
        ([d.lvArr, d.dgArr] ++ bufPtrs d.gx ++ bufPtrs d.gy ++ [d.self] ++ l))) (ho.swap (by
          intro q
          have t1 := bufs_drop hl q
          have t2 := bufs_drop hd q
          simp only [List.count_append]
          omega))
      have v2 : memUse σ2 d.dgArr = .ok () := use_ok o2 (by simp)
      obtain ⟨σ3, h3, o3⟩ := bufFree_owns o2
      exact ⟨σ3, by simp [v1, readAt_ok hl, h2, v2, readAt_ok hd, h3], o3⟩)
  have hz : (d.nScales + 2).toNat < d.levels.length := by omega
  have v1 : memUse σ1 d.lvArr = .ok () := use_ok o1 (by simp)
  obtain ⟨σ2, h2, o2⟩ := bufFree_owns (σ := σ1) (b := d.levels[(d.nScales + 2).toNat]) (l := d.lvArr :: d.dgArr ::
      (bufPtrs d.gx ++ (bufPtrs d.gy ++ (d.self :: l)))) (o1.swap (by
        intro q
        have t1 := bufs_drop hz q
        rw [List.drop_eq_nil_of_le (i := (d.nScales + 2).toNat + 1) (by omega)] at t1
        rw [List.drop_eq_nil_of_le (as := d.dogs) (by omega)]
        simp only [bufsPtrs, List.flatMap_nil, List.count_append, List.count_cons, List.count_nil] at t1 ⊢
        omega))
  obtain ⟨σ3, h3, o3⟩ := free_owns o2
  obtain ⟨σ4, h4, o4⟩ := free_owns o3
  obtain ⟨σ5, h5, o5⟩ := bufFree_owns o4
  obtain ⟨σ6, h6, o6⟩ := bufFree_owns o5
  obtain ⟨σ7, h7, o7⟩ := free_owns o6
  refine ⟨σ7, ?_, o7⟩
  have h1' : sdFreeLoop σ d = .ok σ1 := h1
  simp [sdFree, u, h1', v1, readAt_ok hz, h2, h3, h4, h5, h6, h7]

theorem sdRun_owns {l : List Nat} {n : Int} : ∀ (ops : List SdOp) {σ : Mem} {d : MSift}, Owns σ (siftPtrs d ++ l) → SiftWf d n →
    (∀ op ∈ ops, (∀ k g, op = .level k g → (k : Int) < n + 3) ∧ (∀ k g, op = .dog k g → (k : Int) < n + 2)) →
    ∃ s, ops.foldlM sdStep (σ, d) = .ok s ∧ Owns s.1 (siftPtrs s.2 ++ l) ∧ SiftWf s.2 n := by
  intro ops
  induction ops with
  | nil => intro σ d h hw _; exact ⟨_, rfl, h, hw⟩
  | cons op ops ih =>
    intro σ d h hw ha
    obtain ⟨σ1, d1, h1, o1, w1⟩ := sdStep_owns h hw (ha op List.mem_cons_self)
    obtain ⟨s, h2, r⟩ := ih o1 w1 (fun op hm => ha op (List.mem_cons_of_mem _ hm))
    exact ⟨s, by rw [List.foldlM_cons, h1]; exact h2, r⟩

/-- C123: the same for a SIFT detector with at least `-2` scales, whatever images get a size. -/
theorem c123_sift {σ : Mem} {l : List Nat} (h : Owns σ l) {n : Int} (hn : -2 ≤ n) {ops : List SdOp}
    (ha : ∀ op ∈ ops, (∀ k g, op = .level k g → (k : Int) < n + 3) ∧ (∀ k g, op = .dog k g → (k : Int) < n + 2)) :
    ∃ s σ', sdRun σ n ops = .ok s ∧ Owns s.1 (siftPtrs s.2 ++ l) ∧ sdFree s.1 s.2 = .ok σ' ∧ Owns σ' l := by
  obtain ⟨σ1, d, h1, o1, w1⟩ := sdNew_owns h hn
  obtain ⟨s, h2, o2, w2⟩ := sdRun_owns ops o1 w1 ha
  obtain ⟨σ2, h3, o3⟩ := sdFree_owns hn o2 w2
  exact ⟨s, σ2, by rw [sdRun, h1]; exact h2, o2, h3, o3⟩

/-- C123: with `-3` scales a pointer is written before the array of levels. -/
theorem c123_sift_negative (σ : Mem) : sdNew σ (-3) = .ub := rfl

theorem awStep_owns {σ : Mem} {l : List Nat} {w : MWarp} (h : Owns σ (warpPtrs w ++ l)) (g : Bool × Bool × Bool) :
    ∃ σ' w', awStep (σ, w) g = .ok (σ', w') ∧ Owns σ' (warpPtrs w' ++ l) := by
  have u : memUse σ w.self = .ok () := use_ok h (by simp [warpPtrs])
  obtain ⟨σ1, a, h1, o1⟩ := bufResize_owns (σ := σ) (b := w.skew) (l := bufPtrs w.sub ++ (bufPtrs w.res ++ w.self :: l)) (h.swap (by
    intro q
    simp only [warpPtrs, List.count_append, List.count_cons]
    omega)) g.1
  obtain ⟨σ2, b, h2, o2⟩ := bufResize_owns (σ := σ1) (b := w.sub) (l := bufPtrs a ++ (bufPtrs w.res ++ w.self :: l)) (o1.swap (by
    intro q
    simp only [List.count_append, List.count_cons]
    omega)) g.2.1
  obtain ⟨σ3, c, h3, o3⟩ := bufResize_owns (σ := σ2) (b := w.res) (l := bufPtrs a ++ (bufPtrs b ++ w.self :: l)) (o2.swap (by
    intro q
    simp only [List.count_append, List.count_cons]
    omega)) g.2.2
  refine ⟨σ3, ⟨w.self, a, b, c⟩, by simp [awStep, u, h1, h2, h3], o3.swap ?_⟩
  intro q
  simp only [warpPtrs, List.count_append, List.count_cons]
  omega

/-- C123: the same for a warp processor. -/
theorem c123_warp {σ : Mem} {l : List Nat} (h : Owns σ l) (gs : List (Bool × Bool × Bool)) :
    ∃ s σ', awRun σ gs = .ok s ∧ Owns s.1 (warpPtrs s.2 ++ l) ∧ awFree s.1 s.2 = .ok σ' ∧ Owns σ' l := by
  have run : ∀ (gs : List (Bool × Bool × Bool)) {σ : Mem} {w : MWarp}, Owns σ (warpPtrs w ++ l) →
      ∃ s, gs.foldlM awStep (σ, w) = .ok s ∧ Owns s.1 (warpPtrs s.2 ++ l) := by
    intro gs
    induction gs with
    | nil => intro σ w h; exact ⟨_, rfl, h⟩
    | cons g gs ih =>
      intro σ w h
      obtain ⟨σ1, w1, h1, o1⟩ := awStep_owns h g
      obtain ⟨s, h2, o2⟩ := ih o1
      exact ⟨s, by rw [List.foldlM_cons, h1]; exact h2, o2⟩
  have o1 := bufAlloc_owns (bufAlloc_owns (bufAlloc_owns (alloc_owns h)))
  obtain ⟨s, h2, o2⟩ := run gs (σ := (awNew σ).1) (w := (awNew σ).2) (o1.swap (by
    intro q
    simp only [awNew, warpPtrs, List.count_append, List.count_cons]
    omega))
  have u : memUse s.1 s.2.self = .ok () := use_ok o2 (by simp [warpPtrs])
  obtain ⟨σ3, h3, o3⟩ := bufFree_owns (σ := s.1) (b := s.2.skew) (l := bufPtrs s.2.sub ++ (bufPtrs s.2.res ++ s.2.self :: l))
    (o2.swap (by
      intro q
      simp only [warpPtrs, List.count_append, List.count_cons]
      omega))
  obtain ⟨σ4, h4, o4⟩ := bufFree_owns o3
  obtain ⟨σ5, h5, o5⟩ := bufFree_owns o4
  obtain ⟨σ6, h6, o6⟩ := free_owns o5
  exact ⟨s, σ6, h2, o2, by simp [awFree, u, h3, h4, h5, h6], o6⟩

theorem icFree_owns {σ : Mem} {l : List Nat} {ic : Option (Nat × Nat)}
    (h : Owns σ ((ic.toList.flatMap fun p => [p.1, p.2]) ++ l)) : ∃ σ', icFree σ ic = .ok σ' ∧ Owns σ' l := by
  cases ic with
  | none => exact ⟨σ, rfl, h⟩
  | some p =>
    have u : memUse σ p.1 = .ok () := use_ok h (by simp)
    obtain ⟨σ1, h1, o1⟩ := free_owns (σ := σ) (p := p.2) (l := p.1 :: l) (h.swap (by
      intro q
      simp only [Option.toList_some, List.flatMap_cons, List.flatMap_nil, List.count_append, List.count_cons, List.count_nil]
      omega))
    obtain ⟨σ2, h2, o2⟩ := free_owns o1
    exact ⟨σ2, by simp [icFree, u, h1, h2], o2⟩

/-- When orientations are wanted the table for them is there. -/
def FastWf (d : MFast) : Prop := d.ori = true → d.ic ≠ none

theorem fdStep_owns {σ : Mem} {l : List Nat} {d : MFast} (h : Owns σ (fastPtrs d ++ l)) (hw : FastWf d) {op : FdOp}
    (ha : ∀ o r, op = .setOri o r → 0 < r) :
    ∃ σ' d', fdStep (σ, d) op = .ok (σ', d') ∧ Owns σ' (fastPtrs d' ++ l) ∧ FastWf d' := by
  have u : memUse σ d.self = .ok () := use_ok h (by simp [fastPtrs])
  cases op with
  | setOri o r =>
    have hr : r ≠ 0 := by have := ha o r rfl; omega
    cases o with
    | false => exact ⟨σ, { d with ori := false }, by simp [fdStep, fdSetOri, hr, u], h, by simp [FastWf]⟩
    | true =>
      obtain ⟨σ1, h1, o1⟩ := icFree_owns (σ := σ) (ic := d.ic) (l := d.self :: bufPtrs d.keys ++ l) (h.swap (by
        intro q
        simp only [fastPtrs, List.count_append, List.count_cons]
        omega))
      refine ⟨(icNew σ1).1, { d with ori := true, ic := some (icNew σ1).2 }, by simp [fdStep, fdSetOri, hr, u, h1],
        (alloc_owns (alloc_owns o1)).swap ?_, by simp [FastWf]⟩
      intro q
      simp only [fastPtrs, icNew, Option.toList_some, List.flatMap_cons, List.flatMap_nil, List.count_append, List.count_cons,
        List.count_nil]
      omega
  | detect g =>
    obtain ⟨σ1, k, h1, o1⟩ := bufResize_owns (σ := σ) (b := d.keys)
      (l := d.self :: (d.ic.toList.flatMap fun p => [p.1, p.2]) ++ l) (h.swap (by
        intro q
        simp only [fastPtrs, List.count_append, List.count_cons]
        omega)) g
    have ht : fdUseTable σ1 d = .ok () := by
      rw [fdUseTable]
      split
      · rename_i ho
        obtain ⟨p, hp⟩ := Option.ne_none_iff_exists'.mp (hw ho)
        have u1 : memUse σ1 p.1 = .ok () := use_ok o1 (by simp [hp])
        have u2 : memUse σ1 p.2 = .ok () := use_ok o1 (by simp [hp])
        simp [hp, u1, u2]
      · rfl
    refine ⟨σ1, { d with keys := k }, by simp [fdStep, fdDetect, u, h1, ht], o1.swap ?_, hw⟩
    intro q
    simp only [fastPtrs, List.count_append, List.count_cons]
    omega

/-- C123: the same for a FAST detector, with and without orientations; a table that is needed is always there. -/
theorem c123_fast {σ : Mem} {l : List Nat} (h : Owns σ l) {ops : List FdOp} (ha : ∀ o r, .setOri o r ∈ ops → 0 < r) :
    ∃ s σ', fdRun σ ops = .ok s ∧ Owns s.1 (fastPtrs s.2 ++ l) ∧ fdFree s.1 s.2 = .ok σ' ∧ Owns σ' l := by
  have run : ∀ (ops : List FdOp) {σ : Mem} {d : MFast}, Owns σ (fastPtrs d ++ l) → FastWf d → (∀ o r, .setOri o r ∈ ops → 0 < r) →
      ∃ s, ops.foldlM fdStep (σ, d) = .ok s ∧ Owns s.1 (fastPtrs s.2 ++ l) := by
    intro ops
    induction ops with
    | nil => intro σ d h _ _; exact ⟨_, rfl, h⟩
    | cons op ops ih =>
      intro σ d h hw ha
      obtain ⟨σ1, d1, h1, o1, w1⟩ := fdStep_owns h hw (op := op) (fun o r e => ha o r (by simp [e]))
      obtain ⟨s, h2, o2⟩ := ih o1 w1 (fun o r hm => ha o r (List.mem_cons_of_mem _ hm))
      exact ⟨s, by rw [List.foldlM_cons, h1]; exact h2, o2⟩
  obtain ⟨s, h2, o2⟩ := run ops (σ := (fdAlloc σ).1) (d := (fdAlloc σ).2) ((bufAlloc_owns (alloc_owns h)).swap (by
    intro q
    simp only [fdAlloc, fastPtrs, Option.toList_none, List.flatMap_nil, List.append_nil, List.count_append, List.count_cons]
    omega)) (by simp [FastWf, fdAlloc]) ha
  have u : memUse s.1 s.2.self = .ok () := use_ok o2 (by simp [fastPtrs])
  obtain ⟨σ3, h3, o3⟩ := bufFree_owns (σ := s.1) (b := s.2.keys)
    (l := (s.2.ic.toList.flatMap fun p => [p.1, p.2]) ++ (s.2.self :: l)) (o2.swap (by
      intro q
      simp only [fastPtrs, List.count_append, List.count_cons]
      omega))
  obtain ⟨σ4, h4, o4⟩ := icFree_owns o3
  obtain ⟨σ5, h5, o5⟩ := free_owns o4
  exact ⟨s, σ5, h2, o2, by simp [fdFree, u, h3, h4, h5], o5⟩

/-- The array of offsets has room for all tests. -/
def BriefWf (b : MBrief) : Prop := (b.offsets = none → b.nOctets = 0) ∧ b.nOctets * 8 * 4 ≤ b.len

theorem beAccess_ok {σ : Mem} {l : List Nat} {b : MBrief} (h : Owns σ (briefPtrs b ++ l)) (hw : BriefWf b) :
    beAccess σ b = .ok () := by
  rw [beAccess]
  split
  · rfl
  · rename_i h0
    rw [if_pos hw.2]
    obtain ⟨p, hp⟩ := Option.ne_none_iff_exists'.mp (fun e => h0 (hw.1 e))
    rw [hp]
    exact use_ok h (by simp [briefPtrs, hp])

theorem beResize_owns {σ : Mem} {l : List Nat} {b : MBrief} (h : Owns σ (briefPtrs b ++ l)) (hw : BriefWf b) {n : Nat}
    (hn : 0 < n) (hb : n < 2 ^ 26) :
    ∃ σ' b', beResize σ b n = .ok (σ', b') ∧ Owns σ' (briefPtrs b' ++ l) ∧ BriefWf b' ∧ b'.nOctets = n := by
  have u : memUse σ b.self = .ok () := use_ok h (by simp [briefPtrs])
  have hn0 : n ≠ 0 := by omega
  obtain ⟨s, m, off, len⟩ := b
  simp only at u
  have fresh : ∀ {σ : Mem}, Owns σ (s :: l) → ∃ σ' b', beFill σ ⟨s, m, none, 0⟩ n = (σ', b') ∧
      Owns σ' (briefPtrs { b' with nOctets := n } ++ l) ∧ BriefWf { b' with nOctets := n } := by
    intro σ o
    refine ⟨_, _, rfl, (alloc_owns o).swap ?_, by simp [BriefWf]⟩
    intro q
    simp only [briefPtrs, Option.toList_some, List.count_append, List.count_cons, List.count_nil]
    omega
  by_cases hm : m < n
  · obtain ⟨σ1, h1, o1⟩ := freeOpt_owns (σ := σ) (d := off) (l := s :: l) (h.swap (by
      intro q
      simp only [briefPtrs, List.count_append, List.count_cons]
      omega))
    obtain ⟨σ2, b2, h2, o2, w2⟩ := fresh o1
    refine ⟨σ2, { b2 with nOctets := n }, ?_, o2, w2, rfl⟩
    have hlim : ¬ 2 ^ 31 ≤ n * 8 * 4 := by omega
    simp only [beResize, if_neg hn0, u, Res.ok_bind, beDrop, if_pos hm, h1, Res.pure_eq, hlim, and_false, if_false, h2,
      beAccess_ok o2 w2]
  · cases off with
    | none =>
      have := hw.1 rfl
      simp only at this
      omega
    | some p =>
      have hw' : BriefWf ⟨s, n, some p, len⟩ := by
        refine ⟨fun e => (by cases e), ?_⟩
        have := hw.2
        simp only at this ⊢
        omega
      have hb : beAccess σ ⟨s, n, some p, len⟩ = .ok () := beAccess_ok (l := l) h hw'
      refine ⟨σ, ⟨s, n, some p, len⟩, ?_, h, hw', rfl⟩
      simp [beResize, hn0, u, beDrop, hm, beFill, hb]

/-- C123: the same for a BRIEF extractor that is given any numbers of octets in turn; the array of offsets always has room for
all tests. -/
theorem c123_brief {σ : Mem} {l : List Nat} (h : Owns σ l) {ops : List (Option Nat)}
    (ha : ∀ n, some n ∈ ops → 0 < n ∧ n < 2 ^ 26) :
    ∃ s σ', beRun σ ops = .ok s ∧ Owns s.1 (briefPtrs s.2 ++ l) ∧ s.2.nOctets * 8 * 4 ≤ s.2.len ∧
      beFree s.1 s.2 = .ok σ' ∧ Owns σ' l := by
  have run : ∀ (ops : List (Option Nat)) {σ : Mem} {b : MBrief}, Owns σ (briefPtrs b ++ l) → BriefWf b →
      (∀ n, some n ∈ ops → 0 < n ∧ n < 2 ^ 26) →
      ∃ s, ops.foldlM beStep (σ, b) = .ok s ∧ Owns s.1 (briefPtrs s.2 ++ l) ∧ BriefWf s.2 := by
    intro ops
    induction ops with
    | nil => intro σ b h hw _; exact ⟨_, rfl, h, hw⟩
    | cons op ops ih =>
      intro σ b h hw ha
      cases op with
      | none =>
        have u : memUse σ b.self = .ok () := use_ok h (by simp [briefPtrs])
        obtain ⟨s, h2, r⟩ := ih h hw (fun n hm => ha n (List.mem_cons_of_mem _ hm))
        exact ⟨s, by rw [List.foldlM_cons, beStep]; simp only [u, beAccess_ok h hw, Res.ok_bind, Res.pure_eq]; exact h2, r⟩
      | some n =>
        obtain ⟨σ1, b1, h1, o1, w1, _⟩ := beResize_owns h hw (ha n List.mem_cons_self).1 (ha n List.mem_cons_self).2
        obtain ⟨s, h2, r⟩ := ih o1 w1 (fun n hm => ha n (List.mem_cons_of_mem _ hm))
        exact ⟨s, by rw [List.foldlM_cons, beStep, h1]; exact h2, r⟩
  obtain ⟨s, h2, o2, w2⟩ := run ops (σ := (beAlloc σ).1) (b := (beAlloc σ).2) (alloc_owns h) (by simp [BriefWf, beAlloc]) ha
  have u : memUse s.1 s.2.self = .ok () := use_ok o2 (by simp [briefPtrs])
  obtain ⟨σ3, h3, o3⟩ := freeOpt_owns (σ := s.1) (d := s.2.offsets) (l := s.2.self :: l) (o2.swap (by
    intro q
    simp only [briefPtrs, List.count_append, List.count_cons]
    omega))
  obtain ⟨σ4, h4, o4⟩ := free_owns o3
  exact ⟨s, σ4, h2, o2, w2.2, by simp [beFree, u, h3, h4], o4⟩

/-- The number of the offsets of a large extractor is not an `int`. -/
theorem c123_brief_large {σ : Mem} {l : List Nat} (h : Owns σ l) {n : Nat} (hn : 2 ^ 26 ≤ n) :
    beRun σ [some n] = .ub := by
  have u : memUse (beAlloc σ).1 (beAlloc σ).2.self = .ok () := use_ok (alloc_owns h) (by simp [beAlloc])
  have h0 : n ≠ 0 := by omega
  have h1 : (beAlloc σ).2.nOctets < n := by simp [beAlloc]; omega
  have h2 : 2 ^ 31 ≤ n * 8 * 4 := by omega
  simp only [beRun, List.foldlM_cons, beStep, beResize, if_neg h0, u, Res.ok_bind, beDrop, if_pos h1]
  simp [beAlloc, memFree, h2]

/-- A pyramid of four levels, then three, with sizes for some of them, next to one block of the rest of the program. -/
example : pyAllowed 0 [.levels 4, .create 3 true, .work true, .create 3 false, .levels 3, .levels 3, .create 2 true, .clear, .levels 1] ∧
    (do
      let s ← pyRun ⟨[7], 8⟩ [.levels 4, .create 3 true, .work true, .levels 3, .create 2 true]
      pure (pyrPtrs s.2.1 ++ pyrbPtrs s.2.2).length) = Res.ok 13 := by
  refine ⟨by simp [pyAllowed], ?_⟩
  decide +kernel

/-- Four detectors and extractors with their blocks. -/
example : (do
      let s ← sdRun ⟨[], 0⟩ 3 [.level 5 true, .dog 4 true, .gx true, .level 5 true]
      pure (siftPtrs s.2).length) = Res.ok 32 ∧
    (do
      let s ← fdRun ⟨[], 0⟩ [.detect true, .setOri true 5, .detect true, .setOri false 3, .setOri true 9]
      pure (fastPtrs s.2).length) = Res.ok 6 ∧
    (do
      let s ← beRun ⟨[], 0⟩ [none, some 16, some 8, some 12, none, some 64]
      pure s.2.len) = Res.ok 2048 ∧
    (do
      let s ← awRun ⟨[], 0⟩ [(true, false, true), (false, true, true)]
      pure (warpPtrs s.2).length) = Res.ok 10 := by
  refine ⟨?_, ?_, ?_, ?_⟩ <;> decide +kernel

end Nx
