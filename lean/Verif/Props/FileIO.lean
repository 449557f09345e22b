import Verif.Model.FileIO
import Verif.Lemmas.Ledger
import Verif.Props.Graphics

/-!
# C121: what is saved is on the disk, and every stream is closed

The bytes that are to be saved are the pieces one after another (`pieces`). That saving has kept its promise (`Kept`) speaks about the disk,
not about buffers.
-/

namespace Nx

/-- The bytes that are to be saved. -/
def pieces (ps : List (Bytes × Bool)) : Bytes := ps.flatMap (·.1)

/-- When saving says that it has succeeded, the file contains everything. -/
def Kept (r : SaveOut) (ps : List (Bytes × Bool)) : Prop := r.ok = true → r.disk = some (pieces ps)

/-- The library has written everything out before the stream is closed. -/
def Flushed (ps : List (Bytes × Bool)) : Prop := ∀ p, ps.getLast? = some p → p.2 = true

/-! ## Streams -/

/-- What is on the disk and in the buffer after the bytes `all`. -/
structure OsInv (cap : Nat) (s : OStream) (all : Bytes) : Prop where
  room : s.disk.length ≤ cap
  good : s.err = false → s.disk ++ s.buf = all
  bad : s.err = true → s.disk.length = cap ∧ s.disk <+: all ∧ cap < all.length

theorem OsInv.flush {cap : Nat} {s : OStream} {all : Bytes} (h : OsInv cap s all) :
    OsInv cap (osFlush cap s).1 all ∧ (osFlush cap s).1.buf = [] ∧
      ((osFlush cap s).2 = false → (osFlush cap s).1.err = true) ∧
      ((osFlush cap s).1.err = true → s.err = true ∨ (osFlush cap s).2 = false) ∧
      (s.err = true → (osFlush cap s).1.err = true) := by
  unfold osFlush
  split
  · rename_i hc
    refine ⟨⟨?_, ?_, ?_⟩, rfl, by simp, fun e => Or.inl e, fun e => e⟩
    · simpa using hc
    · intro e
      simpa using h.good e
    · intro e
      obtain ⟨h1, h2, h3⟩ := h.bad e
      have hb : s.buf = [] := List.length_eq_zero_iff.mp (by omega)
      simp only [hb, List.append_nil]
      exact ⟨h1, h2, h3⟩
  · rename_i hc
    have hr := h.room
    refine ⟨⟨?_, by simp, ?_⟩, rfl, by simp, by simp, by simp⟩
    · simp only [List.length_append, List.length_take]
      omega
    · intro _
      refine ⟨?_, ?_, ?_⟩
      · simp only [List.length_append, List.length_take]
        omega
      · cases e : s.err with
        | false =>
          rw [← h.good e]
          exact (List.prefix_append_right_inj _).mpr (List.take_prefix _ _)
        | true =>
          obtain ⟨h1, h2, h3⟩ := h.bad e
          simp only [h1, Nat.sub_self, List.take_zero, List.append_nil]
          exact h2
      · cases e : s.err with
        | false =>
          rw [← h.good e]
          simp only [List.length_append]
          omega
        | true => exact (h.bad e).2.2

theorem OsInv.write {cap : Nat} {s : OStream} {all : Bytes} (h : OsInv cap s all) (p : Bytes × Bool) :
    OsInv cap (osWrite cap s p).1 (all ++ p.1) ∧ (p.2 = true → (osWrite cap s p).1.buf = []) ∧
      ((osWrite cap s p).2 = false → (osWrite cap s p).1.err = true) ∧
      ((osWrite cap s p).1.err = true → s.err = true ∨ (osWrite cap s p).2 = false) ∧
      (s.err = true → (osWrite cap s p).1.err = true) := by
  have h' : OsInv cap { s with buf := s.buf ++ p.1 } (all ++ p.1) := by
    refine ⟨h.room, ?_, ?_⟩
    · intro e
      rw [← h.good e]
      simp
    · intro e
      obtain ⟨h1, h2, h3⟩ := h.bad e
      refine ⟨h1, h2.trans (List.prefix_append _ _), ?_⟩
      simp only [List.length_append]
      omega
  unfold osWrite
  split
  · obtain ⟨a, b, c, d, e⟩ := h'.flush
    exact ⟨a, fun _ => b, c, d, e⟩
  · rename_i hp
    exact ⟨h', fun e => absurd e hp, by simp, fun e => Or.inl e, fun e => e⟩

/-- Writing piece by piece up to the first failure. -/
theorem writeAll_spec (cap : Nat) (ps : List (Bytes × Bool)) : ∀ (s : OStream) (all : Bytes), OsInv cap s all → s.err = false →
    (ps = [] → s.buf = []) →
    ∃ done, OsInv cap (osWriteAll cap s ps).1 (all ++ pieces (ps.take done)) ∧
      (osWriteAll cap s ps).1.err = !(osWriteAll cap s ps).2 ∧
      ((osWriteAll cap s ps).2 = true → pieces (ps.take done) = pieces ps) ∧
      ((osWriteAll cap s ps).2 = true → Flushed ps → (osWriteAll cap s ps).1.buf = []) := by
  induction ps with
  | nil =>
    intro s all h e hb
    exact ⟨0, by simpa [osWriteAll, pieces] using h, by simp [osWriteAll, e], by simp, fun _ _ => by simpa [osWriteAll] using hb rfl⟩
  | cons p ps ih =>
    intro s all h e _
    obtain ⟨hw, hbuf, hf, hg, _⟩ := h.write p
    unfold osWriteAll
    simp only []
    cases hr : (osWrite cap s p).2 with
    | false =>
      refine ⟨1, ?_, ?_, by simp, by simp⟩
      · simpa [pieces] using hw
      · simpa using hf hr
    | true =>
      have he : (osWrite cap s p).1.err = false := by
        cases hh : (osWrite cap s p).1.err with
        | false => rfl
        | true =>
          rcases hg hh with h1 | h1
          · rw [e] at h1
            cases h1
          · rw [hr] at h1
            cases h1
      simp only [if_true]
      -- the buffer is empty when this was the last piece and the library has flushed
      by_cases hlast : ps = []
      · subst hlast
        refine ⟨1, ?_, ?_, ?_, ?_⟩
        · simpa [pieces, osWriteAll] using hw
        · simp [osWriteAll, he]
        · intro _
          simp
        · intro _ hfl
          exact hbuf (hfl p (by simp))
      · obtain ⟨done, a, b, c, d⟩ := ih _ _ hw he (fun x => absurd x hlast)
        refine ⟨done + 1, ?_, b, ?_, ?_⟩
        · have : all ++ p.1 ++ pieces (ps.take done) = all ++ pieces ((p :: ps).take (done + 1)) := by
            simp [pieces]
          rw [← this]
          exact a
        · intro x
          have := c x
          simp only [pieces, List.take_succ_cons, List.flatMap_cons] at this ⊢
          rw [this]
        · intro x hfl
          apply d x
          intro q hq
          apply hfl q
          rw [List.getLast?_cons]
          rw [hq]
          rfl

/-- Writing every piece. -/
theorem writeEach_spec (cap : Nat) (ps : List (Bytes × Bool)) : ∀ (s : OStream) (all : Bytes), OsInv cap s all →
    (ps = [] → s.buf = []) →
    OsInv cap (osWriteEach cap s ps) (all ++ pieces ps) ∧ (Flushed ps → (osWriteEach cap s ps).buf = []) := by
  induction ps with
  | nil =>
    intro s all h hb
    exact ⟨by simpa [osWriteEach, pieces] using h, fun _ => hb rfl⟩
  | cons p ps ih =>
    intro s all h _
    obtain ⟨hw, hbuf, _⟩ := h.write p
    unfold osWriteEach
    by_cases hlast : ps = []
    · subst hlast
      refine ⟨by simpa [osWriteEach, pieces] using hw, fun hfl => hbuf (hfl p (by simp))⟩
    · obtain ⟨a, d⟩ := ih _ _ hw (fun x => absurd x hlast)
      refine ⟨?_, ?_⟩
      · have : all ++ p.1 ++ pieces ps = all ++ pieces (p :: ps) := by simp [pieces]
        rw [← this]
        exact a
      · intro hfl
        apply d
        intro q hq
        apply hfl q
        rw [List.getLast?_cons, hq]
        rfl

theorem osInv_start (cap : Nat) : OsInv cap ⟨[], [], false⟩ [] := ⟨by simp, by simp, by simp⟩

/-- What closing does, for a stream that has received everything without an error so far. -/
theorem close_spec {cap : Nat} {s : OStream} {all : Bytes} (h : OsInv cap s all) :
    (∃ d, (nxFclose cap s).1.disk = d ∧ d <+: all ∧ (all.length ≤ cap → d = all ∧ (nxFclose cap s).2 = true)) ∧
      ((nxFclose cap s).2 = true → s.buf = [] → (nxFclose cap s).1.disk = all) ∧ (nxFclose cap s).2 = !s.err := by
  obtain ⟨hi, hb, h2, h3, h4⟩ := h.flush
  refine ⟨⟨_, rfl, ?_, ?_⟩, ?_, rfl⟩
  · show (osFlush cap s).1.disk <+: all
    cases e : (osFlush cap s).1.err with
    | false =>
      have := hi.good e
      rw [hb, List.append_nil] at this
      rw [this]
    | true => exact (hi.bad e).2.1
  · intro hc
    have e : (osFlush cap s).1.err = false := by
      cases e : (osFlush cap s).1.err with
      | false => rfl
      | true =>
        have := (hi.bad e).2.2
        omega
    have := hi.good e
    rw [hb, List.append_nil] at this
    refine ⟨this, ?_⟩
    show (!s.err) = true
    cases e' : s.err with
    | false => rfl
    | true =>
      rw [h4 e'] at e
      cases e
  · intro hok hbuf
    have e : s.err = false := by
      have : (!s.err) = true := hok
      simpa using this
    have hg := h.good e
    rw [hbuf, List.append_nil] at hg
    show (osFlush cap s).1.disk = all
    unfold osFlush
    have hr := h.room
    rw [if_pos (by rw [hbuf]; simpa using hr)]
    simp [hbuf, hg]

/-! ## Saving -/

/-- The ways of saving. -/
inductive Saver
  | img
  | pnm (known : Bool)
  | csv
deriving DecidableEq

/-- The images that can be saved. -/
def Saver.known : Saver → Bool
  | .pnm k => k
  | _ => true

/-- Saving, with a result. -/
def Saver.save (k : Saver) (cap : Nat) (σ : Mem) (opens : Bool) (ps : List (Bytes × Bool)) : Res SaveOut :=
  match k with
  | .img => imgSaveFile cap σ opens ps
  | .pnm known => pnmSaveFile cap σ opens known ps
  | .csv => csvSaveFile cap σ opens ps

/-- Saving that must succeed. -/
def Saver.xsave (k : Saver) (cap : Nat) (σ : Mem) (opens : Bool) (ps : List (Bytes × Bool)) : Res SaveOut :=
  match k with
  | .img => imgXsaveFile cap σ opens ps
  | .pnm known => pnmXsaveFile cap σ opens known ps
  | .csv => csvXsaveFile cap σ opens ps

/-- What saving does, with the streams of `l` still open. -/
structure SaveDone (k : Saver) (cap : Nat) (l : List Nat) (opens : Bool) (ps : List (Bytes × Bool)) (r : SaveOut) : Prop where
  closed : Owns r.mem l
  unopened : opens = false → r.ok = false ∧ r.disk = none
  pre : opens = true → ∃ d, r.disk = some d ∧ d <+: pieces ps
  whole : opens = true → k.known = true → (pieces ps).length ≤ cap → r.ok = true ∧ r.disk = some (pieces ps)
  kept : Flushed ps → Kept r ps

theorem pieces_take (ps : List (Bytes × Bool)) (n : Nat) : pieces (ps.take n) <+: pieces ps := by
  refine ⟨pieces (ps.drop n), ?_⟩
  simp only [pieces, ← List.flatMap_append, List.take_append_drop]

theorem imgSave_saved {cap : Nat} {σ : Mem} {l : List Nat} (h : Owns σ l) (opens : Bool) (ps : List (Bytes × Bool)) :
    ∃ r, imgSaveFile cap σ opens ps = .ok r ∧ SaveDone .img cap l opens ps r := by
  unfold imgSaveFile
  cases opens with
  | false => exact ⟨_, rfl, h, by simp, by simp, by simp, fun _ => by simp [Kept]⟩
  | true =>
    obtain ⟨σ', hf, ho⟩ := free_owns (alloc_owns h)
    obtain ⟨done, hi, he, hall, hb⟩ := writeAll_spec cap ps _ _ (osInv_start cap) rfl (fun _ => rfl)
    rw [List.nil_append] at hi
    obtain ⟨⟨d, hd, hp, hw⟩, hk, hc⟩ := close_spec hi
    simp only [Bool.not_true, Bool.false_eq_true, if_false, hf, Res.ok_bind]
    cases hr : (osWriteAll cap ⟨[], [], false⟩ ps).2 with
    | false =>
      simp only [Bool.not_false, if_true]
      refine ⟨_, rfl, ho, by simp, fun _ => ⟨_, rfl, ?_⟩, ?_, fun _ => by simp [Kept]⟩
      · have : (osFlush cap (osWriteAll cap ⟨[], [], false⟩ ps).1).1.disk = d := hd
        rw [this]
        exact hp.trans (pieces_take ps done)
      · intro _ _ hlen
        exfalso
        have hlen' : (pieces (ps.take done)).length ≤ cap := Nat.le_trans (pieces_take ps done).length_le hlen
        have := (hw hlen').2
        rw [hc, he, hr] at this
        cases this
    | true =>
      simp only [Bool.not_true, Bool.false_eq_true, if_false]
      rw [hall hr] at hp hw hk
      refine ⟨_, rfl, ho, by simp, fun _ => ⟨_, rfl, by rw [hd]; exact hp⟩, ?_, ?_⟩
      · intro _ _ hlen
        exact ⟨(hw hlen).2, by simp only [hd, (hw hlen).1]⟩
      · intro hfl hok
        simp only [hk hok (hb hr hfl)]

theorem csvSave_saved {cap : Nat} {σ : Mem} {l : List Nat} (h : Owns σ l) (opens : Bool) (ps : List (Bytes × Bool)) :
    ∃ r, csvSaveFile cap σ opens ps = .ok r ∧ SaveDone .csv cap l opens ps r := by
  unfold csvSaveFile
  cases opens with
  | false => exact ⟨_, rfl, h, by simp, by simp, by simp, fun _ => by simp [Kept]⟩
  | true =>
    obtain ⟨σ', hf, ho⟩ := free_owns (alloc_owns h)
    obtain ⟨done, hi, he, hall, hb⟩ := writeAll_spec cap ps _ _ (osInv_start cap) rfl (fun _ => rfl)
    rw [List.nil_append] at hi
    obtain ⟨⟨d, hd, hp, hw⟩, hk, hc⟩ := close_spec hi
    simp only [Bool.not_true, Bool.false_eq_true, if_false, hf, Res.ok_bind]
    have hret : (if (!(nxFclose cap (osWriteAll cap ⟨[], [], false⟩ ps).1).2) = true then false
        else (osWriteAll cap ⟨[], [], false⟩ ps).2) = (osWriteAll cap ⟨[], [], false⟩ ps).2 := by
      rw [hc, he]
      cases (osWriteAll cap ⟨[], [], false⟩ ps).2 <;> rfl
    rw [hret]
    refine ⟨_, rfl, ho, by simp, fun _ => ⟨_, rfl, by rw [hd]; exact hp.trans (pieces_take ps done)⟩, ?_, ?_⟩
    · intro _ _ hlen
      have hlen' : (pieces (ps.take done)).length ≤ cap := Nat.le_trans (pieces_take ps done).length_le hlen
      have h2 := hw hlen'
      have hr : (osWriteAll cap ⟨[], [], false⟩ ps).2 = true := by
        have := h2.2
        rw [hc, he] at this
        simpa using this
      refine ⟨hr, ?_⟩
      simp only [hd, h2.1, hall hr]
    · intro hfl hok
      have hr : (osWriteAll cap ⟨[], [], false⟩ ps).2 = true := hok
      have := hk (by rw [hc, he, hr]; rfl) (hb hr hfl)
      simp only [this, hall hr]

theorem pnmSave_saved {cap : Nat} {σ : Mem} {l : List Nat} (h : Owns σ l) (opens known : Bool) (ps : List (Bytes × Bool)) :
    ∃ r, pnmSaveFile cap σ opens known ps = .ok r ∧ SaveDone (.pnm known) cap l opens ps r := by
  unfold pnmSaveFile
  cases opens with
  | false => exact ⟨_, rfl, h, by simp, by simp, by simp, fun _ => by simp [Kept]⟩
  | true =>
    obtain ⟨σ', hf, ho⟩ := free_owns (alloc_owns h)
    simp only [Bool.not_true, Bool.false_eq_true, if_false, hf, Res.ok_bind]
    cases known with
    | false => exact ⟨_, rfl, ho, by simp, fun _ => ⟨[], rfl, List.nil_prefix⟩, by simp [Saver.known], fun _ => by simp [Kept]⟩
    | true =>
      obtain ⟨hi, hb⟩ := writeEach_spec cap ps _ _ (osInv_start cap) (fun _ => rfl)
      rw [List.nil_append] at hi
      obtain ⟨⟨d, hd, hp, hw⟩, hk, hc⟩ := close_spec hi
      refine ⟨_, rfl, ho, by simp, fun _ => ⟨_, rfl, by rw [hd]; exact hp⟩, ?_, ?_⟩
      · intro _ _ hlen
        exact ⟨(hw hlen).2, by simp only [hd, (hw hlen).1]⟩
      · intro hfl hok
        simp only [hk hok (hb hfl)]

theorem saver_saved (k : Saver) {cap : Nat} {σ : Mem} {l : List Nat} (h : Owns σ l) (opens : Bool) (ps : List (Bytes × Bool)) :
    ∃ r, k.save cap σ opens ps = .ok r ∧ SaveDone k cap l opens ps r := by
  cases k with
  | img => exact imgSave_saved h opens ps
  | pnm known => exact pnmSave_saved h opens known ps
  | csv => exact csvSave_saved h opens ps

/-- **C121, saving.** Whatever happens, the function returns, its stream is closed again and no other is; the file contains the beginning of
what was to be saved; when the file cannot be opened, saving fails; and when the disk has room, saving succeeds and everything is there. -/
theorem c121_save (k : Saver) {cap : Nat} {σ : Mem} {l : List Nat} (h : Owns σ l) (opens : Bool) (ps : List (Bytes × Bool)) :
    ∃ r, k.save cap σ opens ps = .ok r ∧ Owns r.mem l ∧ (opens = false → r.ok = false ∧ r.disk = none) ∧
      (opens = true → ∃ d, r.disk = some d ∧ d <+: pieces ps) ∧
      (opens = true → k.known = true → (pieces ps).length ≤ cap → r.ok = true ∧ r.disk = some (pieces ps)) := by
  obtain ⟨r, hr, hs⟩ := saver_saved k h opens ps
  exact ⟨r, hr, hs.closed, hs.unopened, hs.pre, hs.whole⟩

example : ∃ r, Saver.csv.save 3 ⟨[0, 1], 2⟩ true [([65], false), ([66, 67], false)] = .ok r ∧ r.disk = some [65, 66, 67] ∧ r.ok = true :=
  ⟨_, rfl, rfl, rfl⟩

/-- **C121, success.** When the last write has been flushed before the stream is closed, success means that the file contains everything.
*Partial*: false for what is still in the buffer, `c121_kept_false`. -/
theorem c121_kept_partial (k : Saver) {cap : Nat} {σ : Mem} {l : List Nat} (h : Owns σ l) (opens : Bool) {ps : List (Bytes × Bool)}
    (hf : Flushed ps) : ∃ r, k.save cap σ opens ps = .ok r ∧ Kept r ps := by
  obtain ⟨r, hr, hs⟩ := saver_saved k h opens ps
  exact ⟨r, hr, hs.kept hf⟩

example : Flushed [([65], false), ([66, 67], true)] := by
  intro p hp
  simp at hp
  subst hp
  rfl

theorem writeAll_lazy (cap : Nat) (ps : List (Bytes × Bool)) (hl : ∀ p ∈ ps, p.2 = false) : ∀ (s : OStream),
    osWriteAll cap s ps = (⟨s.disk, s.buf ++ pieces ps, s.err⟩, true) ∧ osWriteEach cap s ps = ⟨s.disk, s.buf ++ pieces ps, s.err⟩ := by
  induction ps with
  | nil => intro s; simp [osWriteAll, osWriteEach, pieces]
  | cons p ps ih =>
    intro s
    have hp : p.2 = false := hl p (by simp)
    have := ih (fun q hq => hl q (by simp [hq])) { s with buf := s.buf ++ p.1 }
    constructor
    · unfold osWriteAll osWrite
      simp only [hp, Bool.false_eq_true, if_false, if_true, this.1]
      simp [pieces]
    · unfold osWriteEach osWrite
      simp only [hp, Bool.false_eq_true, if_false, this.2]
      simp [pieces]

/-- **C121, finding.** The error indicator is read before `fclose` flushes the buffer and what `fclose` says is ignored: whatever is saved
in whatever way, when it fits into the buffer but not onto the disk, saving says that it has succeeded, and only the beginning is there. -/
theorem c121_kept_false (k : Saver) (hk : k.known = true) {cap : Nat} {σ : Mem} {l : List Nat} (h : Owns σ l) {ps : List (Bytes × Bool)}
    (hl : ∀ p ∈ ps, p.2 = false) (hc : cap < (pieces ps).length) :
    ∃ r, k.save cap σ true ps = .ok r ∧ r.ok = true ∧ r.disk = some ((pieces ps).take cap) ∧ ¬ Kept r ps := by
  obtain ⟨σ', hf, ho⟩ := free_owns (alloc_owns h)
  have hw := writeAll_lazy cap ps hl ⟨[], [], false⟩
  simp only [List.nil_append] at hw
  have hcl : nxFclose cap ⟨[], pieces ps, false⟩ = (⟨(pieces ps).take cap, [], true⟩, true) := by
    have : ¬ (pieces ps).length ≤ cap := by omega
    simp [nxFclose, osFlush, this]
  have hne : ¬ (some ((pieces ps).take cap) = some (pieces ps)) := by
    intro e
    have := congrArg List.length (Option.some.inj e)
    rw [List.length_take] at this
    omega
  refine ⟨⟨σ', some ((pieces ps).take cap), true⟩, ?_, rfl, rfl, fun hk' => hne (hk' rfl)⟩
  cases k with
  | img => simp [Saver.save, imgSaveFile, hw.1, hcl, hf, Res.pure_eq]
  | pnm known =>
    have : known = true := hk
    subst this
    simp [Saver.save, pnmSaveFile, hw.2, hcl, hf, Res.pure_eq]
  | csv => simp [Saver.save, csvSaveFile, hw.1, hcl, hf, Res.pure_eq]

example : ∃ r, Saver.img.save 1 ⟨[], 0⟩ true [([65], false), ([66, 67], false)] = .ok r ∧ r.ok = true ∧ r.disk = some [65] :=
  ⟨_, rfl, rfl, rfl⟩

/-- **C121, the variants that must succeed.** They return exactly when saving succeeds, with the same result, and end the program
otherwise. -/
theorem c121_xsave (k : Saver) {cap : Nat} {σ : Mem} {l : List Nat} (h : Owns σ l) (opens : Bool) (ps : List (Bytes × Bool)) :
    ∃ r, k.save cap σ opens ps = .ok r ∧ k.xsave cap σ opens ps = if r.ok then .ok r else .fatal := by
  obtain ⟨r, hr, hs⟩ := saver_saved k h opens ps
  refine ⟨r, hr, ?_⟩
  obtain ⟨σ', hf, ho⟩ := free_owns (alloc_owns h)
  cases k with
  | csv =>
    simp only [Saver.save] at hr
    simp only [Saver.xsave, csvXsaveFile, hr, Res.ok_bind]
    rfl
  | img =>
    simp only [Saver.save, imgSaveFile, hf, Res.ok_bind] at hr
    simp only [Saver.xsave, imgXsaveFile, hf, Res.ok_bind]
    cases opens with
    | false =>
      simp only [Bool.not_false, if_true] at hr ⊢
      injection hr with hr
      subst hr
      rfl
    | true =>
      simp only [Bool.not_true, Bool.false_eq_true, if_false] at hr ⊢
      cases hw : (osWriteAll cap ⟨[], [], false⟩ ps).2 with
      | false =>
        simp only [hw, Bool.not_false, if_true] at hr ⊢
        injection hr with hr
        subst hr
        rfl
      | true =>
        simp only [hw, Bool.not_true, Bool.false_eq_true, if_false] at hr ⊢
        injection hr with hr
        subst hr
        cases hc : (nxFclose cap (osWriteAll cap ⟨[], [], false⟩ ps).1).2 <;> rfl
  | pnm known =>
    simp only [Saver.save, pnmSaveFile, hf, Res.ok_bind] at hr
    simp only [Saver.xsave, pnmXsaveFile, hf, Res.ok_bind]
    cases opens with
    | false =>
      simp only [Bool.not_false, if_true] at hr ⊢
      injection hr with hr
      subst hr
      rfl
    | true =>
      simp only [Bool.not_true, Bool.false_eq_true, if_false] at hr ⊢
      cases known with
      | false =>
        simp only [Bool.not_false, if_true] at hr ⊢
        injection hr with hr
        subst hr
        rfl
      | true =>
        simp only [Bool.not_true, Bool.false_eq_true, if_false] at hr ⊢
        injection hr with hr
        subst hr
        cases hc : (nxFclose cap (osWriteEach cap ⟨[], [], false⟩ ps)).2 <;> rfl

example : Saver.csv.xsave 0 ⟨[], 0⟩ true [([65], true)] = .fatal := rfl

/-! ## Loading -/

/-- The file can be read to its end. -/
def Readable (content : Bytes) (bad : Option Nat) : Prop := ∀ k, bad = some k → content.length ≤ k

theorem readAll_spec (content : Bytes) (bad : Option Nat) :
    ((isReadAll content bad).2 = false ↔ Readable content bad) ∧ (Readable content bad → (isReadAll content bad).1 = content) := by
  unfold isReadAll Readable
  cases bad with
  | none => simp
  | some k =>
    simp only
    split
    · rename_i hk
      refine ⟨⟨by simp, fun h => ?_⟩, fun h => ?_⟩
      · have := h k rfl
        omega
      · have := h k rfl
        omega
    · rename_i hk
      refine ⟨⟨fun _ j hj => ?_, fun _ => rfl⟩, fun _ => rfl⟩
      injection hj with hj
      omega

/-- **C121, loading a data frame.** When the function returns, its stream is closed; a data frame is returned exactly when the file could be
opened and read to its end, and then it is that of the whole file and the only new block; otherwise nothing remains. -/
theorem c121_load_csv {α : Type} (parse : Bytes → Res α) {σ : Mem} {l : List Nat} (h : Owns σ l) (file : Option Bytes) (bad : Option Nat)
    {r : Mem × Option (α × Nat)} (hr : csvLoadFile parse σ file bad = .ok r) :
    (∀ v d, r.2 = some (v, d) ↔ (∃ content, file = some content ∧ Readable content bad ∧ parse content = .ok v ∧ d = σ.next + 1)) ∧
      (∀ v d, r.2 = some (v, d) → Owns r.1 (d :: l)) ∧ (r.2 = none → Owns r.1 l) := by
  cases file with
  | none =>
    simp only [csvLoadFile] at hr
    injection hr with hr
    subst hr
    exact ⟨by simp, by simp, fun _ => h⟩
  | some content =>
    simp only [csvLoadFile] at hr
    obtain ⟨v, hv, hr⟩ := Res.bind_eq_ok.mp hr
    have h1 := alloc_owns h
    have h2 := alloc_owns h1
    have h3 : Owns (memAlloc (memAlloc σ).1).1 ((memAlloc σ).2 :: (memAlloc (memAlloc σ).1).2 :: l) := by
      refine h2.swap ?_
      intro q
      simp only [List.count_cons]
      omega
    obtain ⟨σ', hf, ho⟩ := free_owns h3
    simp only [hf, Res.ok_bind] at hr
    have hs := readAll_spec content bad
    cases hb : (isReadAll content bad).2 with
    | true =>
      obtain ⟨σ'', hf', ho'⟩ := free_owns ho
      simp only [hb, if_true, hf', Res.ok_bind] at hr
      injection hr with hr
      subst hr
      refine ⟨?_, by simp, fun _ => ho'⟩
      intro v d
      refine ⟨by simp, ?_⟩
      rintro ⟨c, hc, hread, _⟩
      injection hc with hc
      subst hc
      rw [hs.1.mpr hread] at hb
      cases hb
    | false =>
      have hread := hs.1.mp hb
      rw [hs.2 hread] at hv
      simp only [hb, Bool.false_eq_true, if_false] at hr
      injection hr with hr
      subst hr
      refine ⟨?_, ?_, by simp⟩
      · intro v' d
        constructor
        · intro e
          simp only [Option.some.injEq, Prod.mk.injEq] at e
          obtain ⟨rfl, rfl⟩ := e
          exact ⟨content, rfl, hread, hv, rfl⟩
        · rintro ⟨c, hc, _, hp, hd⟩
          injection hc with hc
          subst hc
          rw [hv] at hp
          injection hp with hp
          subst hp
          subst hd
          rfl
      · intro v' d e
        simp only [Option.some.injEq, Prod.mk.injEq] at e
        obtain ⟨_, rfl⟩ := e
        exact ho

example : csvLoadFile (fun t => .ok t.length) ⟨[], 0⟩ (some [1, 2, 3]) (some 2) = .ok (⟨[], 2⟩, none) ∧
    csvLoadFile (fun t => .ok t.length) ⟨[], 0⟩ (some [1, 2, 3]) (some 3) = .ok (⟨[1], 2⟩, some (3, 1)) := ⟨rfl, rfl⟩

/-- **C121, loading a data frame that must be there.** -/
theorem c121_xload_csv {α : Type} (parse : Bytes → Res α) (σ : Mem) (file : Option Bytes) (bad : Option Nat)
    {r : Mem × Option (α × Nat)} (hr : csvXloadFile parse σ file bad = .ok r) :
    csvLoadFile parse σ file bad = .ok r ∧ r.2.isSome = true := by
  unfold csvXloadFile at hr
  obtain ⟨r', hr', h⟩ := Res.bind_eq_ok.mp hr
  cases e : r'.2 with
  | none =>
    rw [e] at h
    cases h
  | some v =>
    rw [e] at h
    injection h with h
    subst h
    refine ⟨?_, rfl⟩
    rw [hr']
    obtain ⟨a, b⟩ := r'
    simp only at e
    subst e
    rfl

/-- **C121, loading an image.** When the function returns, its stream is closed; it reports success exactly when the file could be opened
and
read to its end and the decoder is content with all of it, and then the image is that of the whole file. -/
theorem c121_load_image {α : Type} (decode : Bytes → α → Res (α × Bool)) {σ : Mem} {l : List Nat} (h : Owns σ l) (file : Option Bytes)
    (bad : Option Nat) (img : α) {r : Mem × α × Bool} (hr : imgLoadFile decode σ file bad img = .ok r) :
    Owns r.1 l ∧
      (r.2.2 = true ↔ ∃ content, file = some content ∧ Readable content bad ∧ decode content img = .ok (r.2.1, true)) := by
  cases file with
  | none =>
    simp only [imgLoadFile] at hr
    injection hr with hr
    subst hr
    exact ⟨h, by simp⟩
  | some content =>
    simp only [imgLoadFile] at hr
    obtain ⟨v, hv, hr⟩ := Res.bind_eq_ok.mp hr
    obtain ⟨σ', hf, ho⟩ := free_owns (alloc_owns h)
    simp only [hf, Res.ok_bind] at hr
    injection hr with hr
    subst hr
    refine ⟨ho, ?_⟩
    have hs := readAll_spec content bad
    obtain ⟨v1, v2⟩ := v
    constructor
    · intro e
      cases v2 with
      | false => simp at e
      | true =>
        simp only [if_true] at e
        have hb : (isReadAll content bad).2 = false := by simpa using e
        have hread := hs.1.mp hb
        rw [hs.2 hread] at hv
        exact ⟨content, rfl, hread, hv⟩
    · rintro ⟨c, hc, hread, hd⟩
      injection hc with hc
      subst hc
      rw [hs.2 hread, hd] at hv
      injection hv with hv
      obtain ⟨_, rfl⟩ := hv
      simp [hs.1.mpr hread]

example : imgLoadFile (fun t (_ : Nat) => .ok (t.length, true)) ⟨[], 0⟩ (some [1, 2, 3]) (some 1) 7 = .ok (⟨[], 1⟩, 1, false) := rfl

/-- **C121, loading an image that must be there.** It returns exactly when loading succeeds, with the same image. -/
theorem c121_xload_image {α : Type} (decode : Bytes → α → Res (α × Bool)) {σ : Mem} {l : List Nat} (h : Owns σ l) (file : Option Bytes)
    (bad : Option Nat) (img : α) (r : Mem × α × Bool) :
    imgXloadFile decode σ file bad img = .ok r ↔ imgLoadFile decode σ file bad img = .ok r ∧ r.2.2 = true := by
  cases file with
  | none =>
    simp only [imgXloadFile, imgLoadFile]
    constructor
    · intro e
      cases e
    · rintro ⟨e, e'⟩
      injection e with e
      subst e
      cases e'
  | some content =>
    obtain ⟨σ', hf, ho⟩ := free_owns (alloc_owns h)
    simp only [imgXloadFile, imgLoadFile, hf, Res.ok_bind]
    cases hd : decode (isReadAll content bad).1 img with
    | fatal => constructor <;> intro e <;> [cases e; cases e.1]
    | ub => constructor <;> intro e <;> [cases e; cases e.1]
    | ok v =>
      obtain ⟨v1, v2⟩ := v
      simp only [Res.ok_bind, Res.pure_eq]
      cases v2 with
      | false =>
        simp only [Bool.not_false, if_true, Bool.false_eq_true, if_false]
        constructor
        · intro e
          cases e
        · rintro ⟨e, e'⟩
          injection e with e
          subst e
          cases e'
      | true =>
        simp only [Bool.not_true, if_true, Bool.false_eq_true, if_false]
        cases (isReadAll content bad).2 with
        | false =>
          constructor
          · intro e
            injection e with e
            subst e
            exact ⟨rfl, rfl⟩
          · exact fun e => e.1
        | true =>
          constructor
          · intro e
            cases e
          · rintro ⟨e, e'⟩
            injection e with e
            subst e
            cases e'

/-- **C121, finding.** The tool that fits homographies never closes the file of the ground truth: whenever the matrix is loaded, the
stream is
still open beside it. -/
theorem c121_ground_truth_false {σ : Mem} {l : List Nat} (h : Owns σ l) {shape : Option (Nat × Nat)} {r : Mem × Option Nat}
    (hr : gtLoadFile σ (some shape) = .ok r) : ∃ d stream, r.2 = some d ∧ Owns r.1 (d :: stream :: l) ∧ ¬ Owns r.1 (d :: l) := by
  cases shape with
  | none => cases hr
  | some mn =>
    simp only [gtLoadFile] at hr
    split at hr
    · cases hr
    · injection hr with hr
      subst hr
      have ho := alloc_owns (alloc_owns h)
      refine ⟨_, _, rfl, ho, ?_⟩
      intro h'
      have h1 := ho.same (memAlloc σ).2
      have h2 := h'.same (memAlloc σ).2
      rw [h1] at h2
      simp only [List.count_cons] at h2
      simp at h2

example : gtLoadFile ⟨[0, 1], 2⟩ (some (some (3, 3))) = .ok (⟨[3, 2, 0, 1], 4⟩, some 3) := rfl

/-- **C121, temporary files.** -/
theorem c121_tmpfile {σ : Mem} {l : List Nat} (h : Owns σ l) (opens : Bool) :
    (opens = false → nxXtmpfile σ opens = .fatal) ∧
      (opens = true → ∃ r, nxXtmpfile σ opens = .ok r ∧ Owns r.1 (r.2 :: l)) := by
  constructor
  · rintro rfl
    rfl
  · rintro rfl
    exact ⟨_, rfl, alloc_owns h⟩

end Nx
