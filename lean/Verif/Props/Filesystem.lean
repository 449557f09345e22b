import Verif.Model.Filesystem
import Verif.Lemmas.StringArray
import Verif.Props.Gnuplot

/-!
# C120: files and directories
-/

namespace Nx

/-- There is a directory at the path. -/
def IsDir (fs : FSys) (p : Bytes) : Prop := ∃ r names, fs p = some (.dir r names)

/-- There is a directory that the process may read. -/
def OpenDir (fs : FSys) (p : Bytes) : Prop := ∃ names, fs p = some (.dir true names)

/-- **C120**: `nx_check_dir` says whether there is a directory that can be read. -/
theorem c120_check_dir (fs : FSys) (p : Bytes) : fsCheckDir fs p true = true ↔ OpenDir fs p := by
  unfold fsCheckDir fsOpendir OpenDir
  rcases h : fs p with _ | (r | ⟨r, names⟩) <;> simp
  cases r <;> simp

/-- **C120** is false for `nx_check_file`: it says yes for a directory. -/
theorem c120_check_file_false {fs : FSys} {p : Bytes} (h : OpenDir fs p) : fsCheckFile fs p = true := by
  obtain ⟨names, e⟩ := h
  simp [fsCheckFile, fsFopen, e]

example : OpenDir (fun _ => some (.dir true [[46], [46, 46]])) (asc "/tmp") := ⟨_, rfl⟩

/-- **C120**: elsewhere `nx_check_file` says whether there is a file that can be read. -/
theorem c120_check_file_partial {fs : FSys} {p : Bytes} (h : ¬ IsDir fs p) : fsCheckFile fs p = true ↔ fs p = some (.file true) := by
  unfold fsCheckFile fsFopen
  rcases e : fs p with _ | (r | ⟨r, names⟩)
  · simp
  · cases r <;> simp
  · exact absurd ⟨r, names, e⟩ h

example : ¬ IsDir (fun _ => some (.file true)) (asc "/a") := by
  rintro ⟨r, names, h⟩
  cases h

/-- **C120**: alone, `nx_ensure_dir` returns iff there is a directory that can be read, or nothing and a directory can be made; then there
is one, and nothing else has changed. It does not return otherwise. -/
theorem c120_ensure (may : Bytes → Bool) (fs : FSys) (p : Bytes) :
    (OpenDir fs p → fsEnsureDir may fs p = .ok fs) ∧
    (fs p = none → may p = true → ∃ fs', fsEnsureDir may fs p = .ok fs' ∧ OpenDir fs' p ∧ (∀ q, q ≠ p → fs' q = fs q) ∧
      fsEnsureDir may fs' p = .ok fs') ∧
    (¬ OpenDir fs p → ¬ (fs p = none ∧ may p = true) → fsEnsureDir may fs p = .fatal) := by
  have hc := c120_check_dir fs p
  refine ⟨fun h => ?_, fun h1 h2 => ?_, fun h1 h2 => ?_⟩
  · rw [fsEnsureDir, if_pos (hc.2 h)]
  · have hn : ¬ fsCheckDir fs p true = true := by
      rw [hc]
      rintro ⟨n, e⟩
      rw [h1] at e
      cases e
    have hd : OpenDir (fun q => if q = p then some (.dir true [[46], [46, 46]]) else fs q) p := ⟨[[46], [46, 46]], by simp⟩
    refine ⟨fun q => if q = p then some (.dir true [[46], [46, 46]]) else fs q, ?_, hd, fun q hq => by simp [hq], ?_⟩
    · rw [fsEnsureDir, if_neg hn]
      simp [fsMkdir, h1, h2]
    · rw [fsEnsureDir, if_pos ((c120_check_dir _ p).2 hd)]
  · rw [fsEnsureDir, if_neg (fun h => h1 (hc.1 h))]
    unfold fsMkdir
    cases e : fs p with
    | none =>
      have : may p = false := by
        cases hm : may p
        · rfl
        · exact absurd ⟨e, hm⟩ h2
      simp [this]
    | some => rfl

example : (fun _ : Bytes => (none : Option FNode)) (asc "/a") = none ∧ (fun _ : Bytes => true) (asc "/a") = true := ⟨rfl, rfl⟩

/-! ## Several processes -/

/-- What holds while several processes are at it. -/
structure EnsInv (may : Bytes → Bool) (p : Bytes) (fs0 : FSys) (s : FSys × List EPhase) : Prop where
  other : ∀ q, q ≠ p → s.1 q = fs0 q
  here : (s.1 p = none ∧ ∀ e ∈ s.2, e = .start ∨ e = .checked) ∨ (OpenDir s.1 p ∧ .done ∈ s.2)

theorem ensInv_step {may : Bytes → Bool} {p : Bytes} (hm : may p = true) {fs0 : FSys} {s : FSys × List EPhase} (h : EnsInv may p fs0 s)
    {i : Nat} {e : EPhase} (he : s.2[i]? = some e) :
    EnsInv may p fs0 ((fsEnsureStep may p s.1 e).1, s.2.set i (fsEnsureStep may p s.1 e).2) := by
  obtain ⟨hi, hie⟩ := List.getElem?_eq_some_iff.1 he
  have keep : ∀ {x : EPhase}, .done ∈ s.2 → e ≠ .done ∨ x = .done → .done ∈ s.2.set i x := by
    intro x hd hx
    obtain ⟨j, hj, hje⟩ := List.mem_iff_getElem.1 hd
    by_cases hij : i = j
    · subst hij
      rcases hx with hx | hx
      · exact absurd (hie.symm.trans hje) hx
      · subst hx
        exact List.mem_set hi _
    · exact List.mem_iff_getElem.2 ⟨j, by simpa using hj, by rw [List.getElem_set_ne hij]; exact hje⟩
  cases e with
  | start =>
    refine ⟨h.other, ?_⟩
    simp only [fsEnsureStep]
    rcases h.here with ⟨h1, h2⟩ | ⟨h1, h2⟩
    · left
      refine ⟨h1, fun x hx => ?_⟩
      rcases List.mem_or_eq_of_mem_set hx with hx | rfl
      · exact h2 x hx
      · rw [if_neg]
        · exact .inr rfl
        · rw [c120_check_dir]
          rintro ⟨n, e⟩
          rw [h1] at e
          cases e
    · exact .inr ⟨h1, keep h2 (.inl (by simp))⟩
  | checked =>
    rcases h.here with ⟨h1, h2⟩ | ⟨h1, h2⟩
    · have hk : fsMkdir may s.1 p = some (fun q => if q = p then some (.dir true [[46], [46, 46]]) else s.1 q) := by
        simp [fsMkdir, h1, hm]
      simp only [fsEnsureStep, hk]
      refine ⟨fun q hq => ?_, .inr ⟨⟨[[46], [46, 46]], by simp only [if_true]⟩, ?_⟩⟩
      · show (if q = p then _ else s.1 q) = _
        rw [if_neg hq]
        exact h.other q hq
      · exact List.mem_set hi _
    · have hk : fsMkdir may s.1 p = none := by
        obtain ⟨n, e⟩ := h1
        simp [fsMkdir, e]
      simp only [fsEnsureStep, hk]
      exact ⟨h.other, .inr ⟨h1, keep h2 (.inl (by simp))⟩⟩
  | done =>
    simp only [fsEnsureStep]
    refine ⟨h.other, ?_⟩
    rcases h.here with ⟨h1, h2⟩ | ⟨h1, h2⟩
    · have := h2 .done (List.mem_iff_getElem.2 ⟨i, hi, hie⟩)
      simp at this
    · exact .inr ⟨h1, keep h2 (.inr rfl)⟩
  | failed =>
    simp only [fsEnsureStep]
    refine ⟨h.other, ?_⟩
    rcases h.here with ⟨h1, h2⟩ | ⟨h1, h2⟩
    · have := h2 .failed (List.mem_iff_getElem.2 ⟨i, hi, hie⟩)
      simp at this
    · exact .inr ⟨h1, keep h2 (.inl (by simp))⟩

theorem ensInv_all {may : Bytes → Bool} {p : Bytes} (hm : may p = true) {fs0 : FSys} : ∀ (is : List Nat) {s : FSys × List EPhase},
    EnsInv may p fs0 s → EnsInv may p fs0 (fsEnsureAll may p is s)
  | [], _, h => h
  | i :: is, s, h => by
    rw [fsEnsureAll]
    cases he : s.2[i]? with
    | some e => exact ensInv_all hm is (ensInv_step hm h he)
    | none => exact ensInv_all hm is h

/-- **C120**: whatever the order in which several processes make their system calls: other paths do not change; when a process has
returned, the directory is there; and a process dies only when another has made the directory. -/
theorem c120_processes (may : Bytes → Bool) {p : Bytes} (hm : may p = true) {fs : FSys} (hp : fs p = none) (n : Nat) (is : List Nat) :
    (∀ q, q ≠ p → (fsEnsureAll may p is (fs, List.replicate n .start)).1 q = fs q) ∧
    (.done ∈ (fsEnsureAll may p is (fs, List.replicate n .start)).2 → OpenDir (fsEnsureAll may p is (fs, List.replicate n .start)).1 p) ∧
    (.failed ∈ (fsEnsureAll may p is (fs, List.replicate n .start)).2 →
      .done ∈ (fsEnsureAll may p is (fs, List.replicate n .start)).2) := by
  have h := ensInv_all hm (fs0 := fs) is (s := (fs, List.replicate n .start))
    ⟨fun _ _ => rfl, .inl ⟨hp, fun e he => .inl (List.eq_of_mem_replicate he)⟩⟩
  refine ⟨h.other, fun hd => ?_, fun hf => ?_⟩
  · rcases h.here with ⟨h1, h2⟩ | ⟨h1, h2⟩
    · have := h2 _ hd
      simp at this
    · exact h1
  · rcases h.here with ⟨h1, h2⟩ | ⟨h1, h2⟩
    · have := h2 _ hf
      simp at this
    · exact h2

/-- **C120** is false for several processes: two that ensure the same directory, and one dies although the directory could be made. -/
theorem c120_race_false (may : Bytes → Bool) {p : Bytes} (hm : may p = true) {fs : FSys} (hp : fs p = none) :
    ∃ is, (fsEnsureAll may p is (fs, [.start, .start])).2 = [.done, .failed] ∧ OpenDir (fsEnsureAll may p is (fs, [.start, .start])).1 p
      := by
  have hc : fsCheckDir fs p true = false := by simp [fsCheckDir, fsOpendir, hp]
  have hk : fsMkdir may fs p = some (fun q => if q = p then some (.dir true [[46], [46, 46]]) else fs q) := by simp [fsMkdir, hp, hm]
  have hk2 : fsMkdir may (fun q => if q = p then some (.dir true [[46], [46, 46]]) else fs q) p = none := by simp [fsMkdir]
  refine ⟨[0, 1, 0, 1], ?_, ?_⟩
  · simp [fsEnsureAll, fsEnsureStep, hc, hk, hk2]
  · simp [fsEnsureAll, fsEnsureStep, hc, hk, hk2, OpenDir]

/-- **C120**: if no process makes a system call between the two of another, none dies. -/
theorem c120_serial_partial (may : Bytes → Bool) {p : Bytes} (hm : may p = true) {fs : FSys} (hp : fs p = none) (n : Nat) (hn : 0 < n) :
    (fsEnsureAll may p ((List.range n).flatMap (fun i => [i, i])) (fs, List.replicate n .start)).2 = List.replicate n .done := by
  have hc : fsCheckDir fs p true = false := by simp [fsCheckDir, fsOpendir, hp]
  have hk : fsMkdir may fs p = some (fun q => if q = p then some (.dir true [[46], [46, 46]]) else fs q) := by simp [fsMkdir, hp, hm]
  have key : ∀ (k : Nat) (ps : List EPhase) (fs' : FSys), OpenDir fs' p →
      (fsEnsureAll may p ((List.range' ps.length k).flatMap (fun i => [i, i])) (fs', ps ++ List.replicate k .start)).2 =
        ps ++ List.replicate k .done := by
    intro k
    induction k with
    | zero =>
      intro ps fs' _
      rfl
    | succ k ih =>
      intro ps fs' ho
      have hc' := (c120_check_dir fs' p).2 ho
      have g1 : (ps ++ EPhase.start :: List.replicate k .start)[ps.length]? = some .start := by simp
      have g2 : (ps ++ EPhase.done :: List.replicate k .start)[ps.length]? = some .done := by simp
      have s1 : ∀ x y : EPhase, (ps ++ x :: List.replicate k .start).set ps.length y = ps ++ y :: List.replicate k .start := by
        intro x y
        rw [List.set_append_right _ _ (Nat.le_refl _)]
        simp
      rw [List.range'_succ, List.flatMap_cons, List.replicate_succ]
      simp only [List.cons_append, List.nil_append, fsEnsureAll, g1, fsEnsureStep, hc', if_true, s1, g2]
      have := ih (ps ++ [.done]) fs' ho
      simp only [List.length_append, List.length_singleton, List.append_assoc, List.singleton_append] at this
      rw [this, List.replicate_succ]
  obtain ⟨k, rfl⟩ : ∃ k, n = k + 1 := ⟨n - 1, by omega⟩
  have ho : OpenDir (fun q => if q = p then some (.dir true [[46], [46, 46]]) else fs q) p := ⟨[[46], [46, 46]], by simp only [if_true]⟩
  rw [List.range_eq_range', List.range'_succ, List.flatMap_cons, List.replicate_succ]
  simp only [List.cons_append, List.nil_append, fsEnsureAll, List.getElem?_cons_zero, fsEnsureStep, hc, Bool.false_eq_true, if_false,
    List.set_cons_zero, hk]
  have := key k [.done] _ ho
  simp only [List.length_singleton, List.singleton_append] at this
  rw [Nat.zero_add, this, List.replicate_succ]

/-! ## The names in a directory -/

theorem scanAlloc_names (ns : List Bytes) : ∀ σ : Mem, (scanAlloc σ ns).2.map Prod.snd = ns := by
  induction ns with
  | nil => intro σ; rfl
  | cons n ns ih =>
    intro σ
    simp only [scanAlloc, List.map_cons, ih]

theorem scanAlloc_owns (ns : List Bytes) : ∀ {σ : Mem} {l : List Nat}, Owns σ l →
    Owns (scanAlloc σ ns).1 ((scanAlloc σ ns).2.map Prod.fst ++ l) := by
  induction ns with
  | nil => intro σ l h; exact h
  | cons n ns ih =>
    intro σ l h
    have := ih (alloc_owns h)
    simp only [scanAlloc, List.map_cons]
    apply this.swap
    intro q
    simp only [List.count_append, List.count_cons, List.cons_append]
    omega

theorem scanLoop_ok (arr : Nat) : ∀ (es : List (Nat × Bytes)) (i : Nat) {σ : Mem} {l : List Nat} {h : Heap} {a : SArr}
    {L : List (Option Bytes)} {ptrs : List (Option Nat)}, Owns σ (es.map Prod.fst ++ arr :: l) → SaRepr h a L ptrs → i + es.length =
      L.length →
    ∃ σ' h' a' ptrs', scanLoop arr es i σ h a = .ok (σ', h', a') ∧ Owns σ' (arr :: l) ∧
      SaRepr h' a' (L.take i ++ es.map (fun e => some e.2)) ptrs'
  | [], i, σ, l, h, a, L, ptrs, ho, hr, hl => by
    refine ⟨σ, h, a, ptrs, rfl, ho, ?_⟩
    simp only [List.length_nil, Nat.add_zero] at hl
    rw [hl, List.take_length]
    simpa using hr
  | e :: es, i, σ, l, h, a, L, ptrs, ho, hr, hl => by
    simp only [List.length_cons] at hl
    have u1 := use_ok (p := arr) ho (by simp)
    have u2 := use_ok (p := e.1) ho (by simp)
    obtain ⟨h1, a1, ptrs1, e1, hr1⟩ := hr.setSlot (i := i) (by omega) (.ext e.2) (some e.2) (fun _ _ _ _ => rfl)
    obtain ⟨σ1, f1, o1⟩ := free_owns (p := e.1) (l := es.map Prod.fst ++ arr :: l) (by simpa using ho)
    obtain ⟨σ', h', a', ptrs', q1, q2, q3⟩ := scanLoop_ok arr es (i + 1) o1 hr1 (by simp; omega)
    refine ⟨σ', h', a', ptrs', ?_, q2, ?_⟩
    · rw [scanLoop, u1, Res.ok_bind, u2, Res.ok_bind, e1, Res.ok_bind, f1, Res.ok_bind]
      exact q1
    · have : (L.set i (some e.2)).take (i + 1) = L.take i ++ [some e.2] := by
        rw [List.take_add_one, List.take_set_of_le (by omega), List.getElem?_set_self (by omega)]
        rfl
      rw [this] at q3
      simpa using q3

/-- **C120**: `nx_scan_dir` gives the names in the directory in order, each as often as it is there, and keeps nothing of what `scandir`
has allocated. -/
theorem c120_scan {le : Bytes → Bytes → Bool} (htot : ∀ a b, (le a b || le b a) = true)
    (htrans : ∀ a b c, le a b = true → le b c = true → le a c = true) {fs : FSys} {p : Bytes} {names : List Bytes}
    (hd : fs p = some (.dir true names)) (hn : names.length ≤ saMax) {σ : Mem} {l : List Nat} (ho : Owns σ l) :
    ∃ (σ' : Mem) (h : Heap) (a : SArr) (ptrs : List (Option Nat)) (ns : List Bytes), fsScanDir le fs p σ [] = .ok (σ', h, a) ∧ Owns σ' l
      ∧ SaRepr h a (ns.map some) ptrs ∧
      ns.Perm names ∧ ns.Pairwise (fun x y => le x y = true) := by
  have hl : (names.mergeSort le).length = names.length := List.length_mergeSort _
  obtain ⟨h1, a1, ptrs1, e1, hr1, -⟩ := SaRepr.empty.resize (names.mergeSort le).length (by omega)
  have o1 := scanAlloc_owns (names.mergeSort le) ho
  have o2 := alloc_owns o1
  have hlen : (scanAlloc σ (names.mergeSort le)).2.length = (names.mergeSort le).length := by
    have := congrArg List.length (scanAlloc_names (names.mergeSort le) σ)
    simpa using this
  obtain ⟨σ2, h2, a2, ptrs2, e2, o3, hr2⟩ := scanLoop_ok (memAlloc (scanAlloc σ (names.mergeSort le)).1).2 (scanAlloc σ (names.mergeSort
    le)).2 0
    (σ := (memAlloc (scanAlloc σ (names.mergeSort le)).1).1) (l := l) (h := h1) (a := a1) (ptrs := ptrs1)
    (o2.swap (by intro q; simp only [List.count_append, List.count_cons]; omega)) hr1
    (by simp only [resizeList, List.length_append, List.length_replicate, List.take_nil, List.length_nil]; omega)
  obtain ⟨σ3, e3, o4⟩ := free_owns o3
  refine ⟨σ3, h2, a2, ptrs2, names.mergeSort le, ?_, o4, ?_, List.mergeSort_perm _ _, List.pairwise_mergeSort htrans htot _⟩
  · unfold fsScanDir
    simp only [hd]
    rw [e1, Res.ok_bind]
    simp only
    rw [e2, Res.ok_bind]
    simp only
    rw [e3, Res.ok_bind]
    rfl
  · rw [List.take_zero, List.nil_append] at hr2
    have : (scanAlloc σ (names.mergeSort le)).2.map (fun e => some e.2) = (names.mergeSort le).map some := by
      rw [← scanAlloc_names (names.mergeSort le) σ, List.map_map, scanAlloc_names]
      rfl
    rw [this] at hr2
    exact hr2

example : (∀ a b : Bytes, (decide (a.length ≤ b.length) || decide (b.length ≤ a.length)) = true) ∧ Owns ⟨[0, 1], 2⟩ [0, 1] := by
  refine ⟨fun a b => ?_, owns_two⟩
  simp only [Bool.or_eq_true, decide_eq_true_eq]
  omega

/-- Anything else is fatal. -/
theorem c120_scan_fatal (le : Bytes → Bytes → Bool) {fs : FSys} {p : Bytes} (h : ¬ OpenDir fs p) (σ : Mem) (hp : Heap) :
    fsScanDir le fs p σ hp = .fatal := by
  unfold fsScanDir
  rcases e : fs p with _ | (r | ⟨r, names⟩)
  · rfl
  · rfl
  · cases r
    · rfl
    · exact absurd ⟨names, e⟩ h

end Nx
