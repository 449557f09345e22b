import Verif.Spec.Kitti
import Verif.Model.Kitti
import Verif.Lemmas.CNum
import Verif.Lemmas.Sample
import Verif.Props.SiftFiles

/-! # C96: KITTI sequences are read completely and correctly, unless there are no poses -/

namespace Nx

section
variable {D : Type} {scan : Bytes → Option (D × Bytes)}

theorem reads_append {t u v : Bytes} {l m : List D} (h : Reads scan t l u) (h2 : Reads scan u m v) :
    Reads scan t (l ++ m) v := by
  induction h with
  | nil => exact h2
  | cons h _ ih => exact Reads.cons h (ih h2)

theorem scanInto_full : ∀ (is : List Nat) (n : Nat) (A : List D) (st : Bytes) (l : List D) (u : Bytes),
    Reads scan st l u → l.length = is.length → (∀ i ∈ is, i < A.length) →
    scanInto scan is n A st = .ok (n + l.length, (is.zip l).foldl (fun A p => A.set p.1 p.2) A, u) := by
  intro is
  induction is with
  | nil =>
    intro n A st l u h hl _
    have : l = [] := List.eq_nil_of_length_eq_zero (by simpa using hl)
    subst this
    cases h
    rfl
  | cons i is ih =>
    intro n A st l u h hl hA
    cases h with
    | nil => simp at hl
    | cons hs hr =>
      rename_i t d l
      rw [scanInto, hs]
      simp only
      rw [writeAt_ok _ (hA i List.mem_cons_self)]
      simp only [Res.ok_bind]
      rw [ih (n + 1) _ _ l u hr (by simpa using hl)
        (fun j hj => by rw [List.length_set]; exact hA j (List.mem_cons_of_mem _ hj))]
      simp only [List.length_cons, List.zip_cons_cons, List.foldl_cons]
      congr 2
      omega

theorem scanInto_short : ∀ (is : List Nat) (n : Nat) (A : List D) (st : Bytes) (l : List D) (u : Bytes),
    Reads scan st l u → scan u = none → l.length < is.length → (∀ i ∈ is, i < A.length) →
    ∃ A', scanInto scan is n A st = .ok (n + l.length, A', u) := by
  intro is
  induction is with
  | nil => intro n A st l u _ _ hl; simp at hl
  | cons i is ih =>
    intro n A st l u h hu hl hA
    cases h with
    | nil =>
      rw [scanInto, hu]
      exact ⟨A, rfl⟩
    | cons hs hr =>
      rename_i t d l
      rw [scanInto, hs]
      simp only
      rw [writeAt_ok _ (hA i List.mem_cons_self)]
      simp only [Res.ok_bind]
      obtain ⟨A', h⟩ := ih (n + 1) (A.set i d) _ l u hr hu (by simpa using hl)
        (fun j hj => by rw [List.length_set]; exact hA j (List.mem_cons_of_mem _ hj))
      refine ⟨A', ?_⟩
      rw [h]
      simp only [List.length_cons]
      congr 2
      omega

theorem reads_split {t u : Bytes} {l : List D} (h : Reads scan t l u) (k : Nat) (hk : k ≤ l.length) :
    ∃ v, Reads scan t (l.take k) v ∧ Reads scan v (l.drop k) u := by
  induction k generalizing t l with
  | zero => exact ⟨t, by simpa using Reads.nil t, by simpa using h⟩
  | succ k ih =>
    cases h with
    | nil => simp at hk
    | cons hs hr =>
      obtain ⟨v, h1, h2⟩ := ih hr (by simpa using hk)
      exact ⟨v, by simpa using Reads.cons hs h1, by simpa using h2⟩

theorem reads_length (hsh : ∀ t d u, scan t = some (d, u) → u.length < t.length) {t u : Bytes} {l : List D}
    (h : Reads scan t l u) : u.length + l.length ≤ t.length := by
  induction h with
  | nil => simp
  | cons hs _ ih =>
    have := hsh _ _ _ hs
    simp only [List.length_cons]
    omega

theorem order_columns {A l : List D} (hA : A.length = 12) (hl : l.length = 12) :
    ByColumns l ((kittiOrder.zip l).foldl (fun A p => A.set p.1 p.2) A) := by
  obtain ⟨a0, a1, a2, a3, a4, a5, a6, a7, a8, a9, a10, a11, rfl⟩ :
      ∃ a0 a1 a2 a3 a4 a5 a6 a7 a8 a9 a10 a11, l = [a0, a1, a2, a3, a4, a5, a6, a7, a8, a9, a10, a11] := by
    match l, hl with
    | [a0, a1, a2, a3, a4, a5, a6, a7, a8, a9, a10, a11], _ => exact ⟨_, _, _, _, _, _, _, _, _, _, _, _, rfl⟩
  obtain ⟨b0, b1, b2, b3, b4, b5, b6, b7, b8, b9, b10, b11, rfl⟩ :
      ∃ a0 a1 a2 a3 a4 a5 a6 a7 a8 a9 a10 a11, A = [a0, a1, a2, a3, a4, a5, a6, a7, a8, a9, a10, a11] := by
    match A, hA with
    | [a0, a1, a2, a3, a4, a5, a6, a7, a8, a9, a10, a11], _ => exact ⟨_, _, _, _, _, _, _, _, _, _, _, _, rfl⟩
  refine ⟨rfl, ?_⟩
  intro r hr c hc
  match r, hr, c, hc with
  | 0, _, 0, _ => rfl
  | 0, _, 1, _ => rfl
  | 0, _, 2, _ => rfl
  | 0, _, 3, _ => rfl
  | 1, _, 0, _ => rfl
  | 1, _, 1, _ => rfl
  | 1, _, 2, _ => rfl
  | 1, _, 3, _ => rfl
  | 2, _, 0, _ => rfl
  | 2, _, 1, _ => rfl
  | 2, _, 2, _ => rfl
  | 2, _, 3, _ => rfl

theorem kittiOrder_lt {A : List D} (hA : A.length = 12) : ∀ i ∈ kittiOrder, i < A.length := by
  rw [hA]; decide

theorem realloc_get {α : Type} (junk : Nat → α) (mem : List α) (len i : Nat) (h : i < mem.length) (h2 : mem.length ≤ len) :
    (reallocMem junk mem len)[i]? = mem[i]? := by
  unfold reallocMem
  rw [List.getElem?_append_left (by rw [List.length_take]; omega), List.getElem?_take_of_lt (by omega)]

theorem readPoses_ok (hsh : ∀ t d u, scan t = some (d, u) → u.length < t.length) {u : Bytes} (hu : scan u = none) :
    ∀ (fuel : Nat) (P : List D) (cap : Nat) (poses : List (Option (List D))) (n : Nat) (st : Bytes) (l : List D),
      Reads scan st l u → st.length < fuel → P.length = 12 → poses.length = cap → n ≤ cap →
      ∃ poses', readPoses scan fuel P cap poses n st = .ok (poses', n + l.length / 12) ∧
        (∀ i < n, poses'[i]? = poses[i]?) ∧
        ∀ i < l.length / 12, ∃ Q, poses'[n + i]? = some (some Q) ∧ ByColumns ((l.drop (12 * i)).take 12) Q := by
  intro fuel
  induction fuel with
  | zero => intro _ _ _ _ _ _ _ h; omega
  | succ fuel ih =>
    intro P cap poses n st l hr hf hP hcap hn
    rw [readPoses]
    by_cases h12 : 12 ≤ l.length
    · obtain ⟨v, h1, h2⟩ := reads_split hr 12 h12
      have hl12 : (l.take 12).length = 12 := by rw [List.length_take]; omega
      rw [scanInto_full kittiOrder 0 P st (l.take 12) v h1 (by rw [hl12]; rfl) (kittiOrder_lt hP)]
      have hcol := order_columns hP hl12
      generalize (kittiOrder.zip (l.take 12)).foldl (fun A p => A.set p.1 p.2) P = P' at hcol
      simp only [Res.ok_bind, hl12, Nat.zero_add]
      rw [if_pos trivial]
      have hlen := reads_length hsh h1
      rw [hl12] at hlen
      have hdiv : l.length / 12 = (l.drop 12).length / 12 + 1 := by rw [List.length_drop]; omega
      have step : ∀ (cap' : Nat) (ps : List (Option (List D))), ps.length = cap' → n < cap' →
          (∀ i < n, ps[i]? = poses[i]?) →
          ∃ poses', (do
              let ps ← writeAt ps n (some P')
              readPoses scan fuel P' cap' ps (n + 1) v) = .ok (poses', n + l.length / 12) ∧
            (∀ i < n, poses'[i]? = poses[i]?) ∧
            ∀ i < l.length / 12, ∃ Q, poses'[n + i]? = some (some Q) ∧ ByColumns ((l.drop (12 * i)).take 12) Q := by
        intro cap' ps hps hn' hkeep
        rw [writeAt_ok _ (by omega)]
        simp only [Res.ok_bind]
        obtain ⟨ps', e1, e2, e3⟩ := ih P' cap' (ps.set n (some P')) (n + 1) v (l.drop 12) h2 (by omega) hcol.1
          (by rw [List.length_set]; exact hps) (by omega)
        refine ⟨ps', ?_, ?_, ?_⟩
        · rw [e1, hdiv]; congr 2; omega
        · intro i hi
          rw [e2 i (by omega), List.getElem?_set_ne (by omega), hkeep i hi]
        · intro i hi
          by_cases h0 : i = 0
          · subst h0
            refine ⟨P', ?_, by simpa using hcol⟩
            rw [Nat.add_zero, e2 n (by omega), List.getElem?_set_self (by omega)]
          · obtain ⟨Q, q1, q2⟩ := e3 (i - 1) (by omega)
            refine ⟨Q, ?_, ?_⟩
            · rw [show n + i = n + 1 + (i - 1) by omega]; exact q1
            · rw [List.drop_drop, show 12 + 12 * (i - 1) = 12 * i by omega] at q2
              exact q2
      by_cases hc : n ≥ cap
      · rw [if_pos hc]
        refine step (cap + 1000) _ (reallocMem_length _ _ _ (by omega)) (by omega) ?_
        intro i hi
        exact realloc_get _ _ _ _ (by omega) (by omega)
      · rw [if_neg hc]
        exact step cap poses hcap (by omega) (fun _ _ => rfl)
    · obtain ⟨A', hA⟩ := scanInto_short kittiOrder 0 P st l u hr hu (by show l.length < 12; omega) (kittiOrder_lt hP)
      rw [hA]
      simp only [Res.ok_bind]
      rw [if_neg (by omega)]
      have h0 : l.length / 12 = 0 := by omega
      rw [h0]
      exact ⟨poses, rfl, fun _ _ => rfl, fun i hi => by omega⟩

theorem readTimes_ok (junk : Nat → D) {u : Bytes} (hu : scan u = none) :
    ∀ (fuel cap : Nat) (times : List D) (n : Nat) (st : Bytes) (l : List D),
      Reads scan st l u → l.length < fuel → times.length = cap → n ≤ cap →
      ∃ times', readTimes scan junk fuel cap times n st = .ok (times', n + l.length) ∧
        (∀ i < n, times'[i]? = times[i]?) ∧ ∀ i < l.length, times'[n + i]? = l[i]? := by
  intro fuel
  induction fuel with
  | zero => intro _ _ _ _ _ _ h; omega
  | succ fuel ih =>
    intro cap times n st l hr hf hcap hn
    rw [readTimes]
    cases hr with
    | nil =>
      rw [hu]
      exact ⟨times, rfl, fun _ _ => rfl, fun i hi => by simp at hi⟩
    | cons hs hr =>
      rename_i v d l
      rw [hs]
      simp only
      have step : ∀ (cap' : Nat) (ts : List D), ts.length = cap' → n < cap' → (∀ i < n, ts[i]? = times[i]?) →
          ∃ times', (do
              let ts ← writeAt ts n d
              readTimes scan junk fuel cap' ts (n + 1) v) = .ok (times', n + (d :: l).length) ∧
            (∀ i < n, times'[i]? = times[i]?) ∧ ∀ i < (d :: l).length, times'[n + i]? = (d :: l)[i]? := by
        intro cap' ts hts hn' hkeep
        rw [writeAt_ok _ (by omega)]
        simp only [Res.ok_bind]
        simp only [List.length_cons] at hf
        obtain ⟨ts', e1, e2, e3⟩ := ih cap' (ts.set n d) (n + 1) v l hr (by omega) (by rw [List.length_set]; exact hts) (by omega)
        refine ⟨ts', ?_, ?_, ?_⟩
        · rw [e1, List.length_cons]; congr 2; omega
        · intro i hi
          rw [e2 i (by omega), List.getElem?_set_ne (by omega), hkeep i hi]
        · intro i hi
          cases i with
          | zero => rw [Nat.add_zero, e2 n (by omega), List.getElem?_set_self (by omega)]; rfl
          | succ i =>
            simp only [List.length_cons] at hi
            rw [show n + (i + 1) = n + 1 + i by omega, e3 i (by omega)]; rfl
      by_cases hc : n ≥ cap
      · rw [if_pos hc]
        refine step (cap + 1000) _ (reallocMem_length _ _ _ (by omega)) (by omega) ?_
        intro i hi
        exact realloc_get _ _ _ _ (by omega) (by omega)
      · rw [if_neg hc]
        exact step cap times hcap (by omega) (fun _ _ => rfl)

theorem readCalib_ok {i : Nat} {A : List D} (hA : A.length = 12) {t t' : Bytes} {l : List D} (h : CalibLine scan i t l t') :
    ∃ P, readCalib scan i A t = .ok (P, t') ∧ ByColumns l P := by
  obtain ⟨hl, u, u', rfl, hr, rfl⟩ := h
  refine ⟨_, ?_, order_columns hA hl⟩
  unfold readCalib
  simp only
  rw [if_pos (by rw [List.isPrefixOf_iff_prefix]; exact List.prefix_append _ _), List.drop_left,
    scanInto_full kittiOrder 0 A u l u' hr (by rw [hl]; rfl) (kittiOrder_lt hA)]
  simp only [Res.ok_bind, hl, Nat.zero_add]
  rw [if_pos trivial]
  rfl

theorem exists_nums (hsh : ∀ t d u, scan t = some (d, u) → u.length < t.length) (t : Bytes) : ∃ l, NumsOf scan t l := by
  generalize hn : t.length = n
  induction n using Nat.strongRecOn generalizing t with
  | _ n ih =>
    cases h : scan t with
    | none => exact ⟨[], t, Reads.nil t, h⟩
    | some p =>
      obtain ⟨d, u⟩ := p
      obtain ⟨l, t', h1, h2⟩ := ih u.length (by rw [← hn]; exact hsh _ _ _ h) u rfl
      exact ⟨d :: l, t', Reads.cons h h1, h2⟩

theorem poses_ok (hsh : ∀ t d u, scan t = some (d, u) → u.length < t.length) (junk : Nat → D) {pt : Bytes} {np : List D}
    (h : NumsOf scan pt np) :
    ∃ poses, readPoses scan (pt.length + 1) ((List.range 12).map junk) 300 (List.replicate 300 none) 0 pt =
        .ok (poses, np.length / 12) ∧
      ∀ i < np.length / 12, ∃ Q, poses[i]? = some (some Q) ∧ ByColumns ((np.drop (12 * i)).take 12) Q := by
  obtain ⟨u, h1, h2⟩ := h
  obtain ⟨ps, e1, _, e3⟩ := readPoses_ok hsh h2 (pt.length + 1) ((List.range 12).map junk) 300 (List.replicate 300 none) 0 pt np h1
    (by omega) (by simp) (by rw [List.length_replicate]) (by omega)
  rw [Nat.zero_add] at e1
  refine ⟨ps, e1, ?_⟩
  intro i hi
  obtain ⟨Q, q1, q2⟩ := e3 i hi
  rw [Nat.zero_add] at q1
  exact ⟨Q, q1, q2⟩

theorem times_ok (hsh : ∀ t d u, scan t = some (d, u) → u.length < t.length) (junk : Nat → D) {tt : Bytes} {nt : List D}
    (h : NumsOf scan tt nt) :
    ∃ times, readTimes scan junk (tt.length + 1) 300 ((List.range 300).map junk) 0 tt = .ok (times, nt.length) ∧
      ∀ i < nt.length, times[i]? = nt[i]? := by
  obtain ⟨u, h1, h2⟩ := h
  have hl := reads_length hsh h1
  obtain ⟨ts, e1, _, e3⟩ := readTimes_ok junk h2 (tt.length + 1) 300 ((List.range 300).map junk) 0 tt nt h1 (by omega) (by simp)
    (by omega)
  rw [Nat.zero_add] at e1
  refine ⟨ts, e1, ?_⟩
  intro i hi
  have := e3 i hi
  rwa [Nat.zero_add] at this

/-- A sequence with all its files: every pose (twelve numbers by rows in the file) is held by columns, all times are read, for any
number of them, the four calibration matrices likewise, and the flags tell which directories exist. -/
theorem c96_load (hsh : ∀ t d u, scan t = some (d, u) → u.length < t.length) (junk : Nat → D) (files : Files)
    (dirs : Bytes → Bool) (ds : Kitti) (s : Nat) (hs : s < 22) (ha : ds.avail[s]? = some true) (pt tt ct : Bytes)
    (hp : files (kittiPoseFile ds.base s) = some pt)
    (ht : files (kittiSeqFile ds.base s (bytesOf "times.txt")) = some tt)
    (hc : files (kittiSeqFile ds.base s (bytesOf "calib.txt")) = some ct)
    (np nt : List D) (hnp : NumsOf scan pt np) (hnt : NumsOf scan tt nt) (hlen : nt.length = np.length / 12)
    (m0 m1 m2 m3 : List D) (t1 t2 t3 t4 : Bytes) (h0 : CalibLine scan 0 ct m0 t1) (h1 : CalibLine scan 1 t1 m1 t2)
    (h2 : CalibLine scan 2 t2 m2 t3) (h3 : CalibLine scan 3 t3 m3 t4) :
    ∃ q, kittiSeqNew scan junk files dirs ds s = .ok q ∧ q.base = ds.base ∧ q.seqId = s ∧ q.length = nt.length ∧
      (∀ i < nt.length, q.times[i]? = nt[i]?) ∧
      (∀ i < nt.length, ∃ P, q.poses[i]? = some (some P) ∧ ByColumns ((np.drop (12 * i)).take 12) P) ∧
      (∃ P0 P1 P2 P3, q.calib = [P0, P1, P2, P3] ∧ ByColumns m0 P0 ∧ ByColumns m1 P1 ∧ ByColumns m2 P2 ∧ ByColumns m3 P3) ∧
      q.gt = true ∧ q.cams = (List.range 4).map (fun i => dirs (kittiCamDir ds.base s i)) ∧
      q.lidar = dirs (kittiLidarDir ds.base s) := by
  obtain ⟨poses, e1, e2⟩ := poses_ok hsh junk hnp
  obtain ⟨times, f1, f2⟩ := times_ok hsh junk hnt
  have h12 : ((List.range 12).map junk).length = 12 := by simp
  obtain ⟨P0, g0, b0⟩ := readCalib_ok (A := (List.range 12).map junk) h12 h0
  obtain ⟨P1, g1, b1⟩ := readCalib_ok (A := (List.range 12).map junk) h12 h1
  obtain ⟨P2, g2, b2⟩ := readCalib_ok (A := (List.range 12).map junk) h12 h2
  obtain ⟨P3, g3, b3⟩ := readCalib_ok (A := (List.range 12).map junk) h12 h3
  refine ⟨⟨ds.base, s, nt.length, poses, times, [P0, P1, P2, P3], true,
    (List.range 4).map (fun i => dirs (kittiCamDir ds.base s i)), dirs (kittiLidarDir ds.base s)⟩, ?_, rfl, rfl, rfl, f2, ?_,
    ⟨P0, P1, P2, P3, rfl, b0, b1, b2, b3⟩, rfl, rfl, rfl⟩
  · unfold kittiSeqNew
    rw [if_neg (by omega)]
    simp only [Int.toNat_natCast]
    obtain ⟨hlt, hget⟩ := List.getElem?_eq_some_iff.mp ha
    rw [readAt_ok hlt, hget]
    simp only [Res.ok_bind, Bool.not_true, Bool.false_eq_true, if_false, hp, ht, hc]
    rw [e1]
    simp only [Res.ok_bind]
    rw [f1]
    simp only [Res.ok_bind]
    rw [if_neg (by omega), g0]
    simp only [Res.ok_bind]
    rw [g1]
    simp only [Res.ok_bind]
    rw [g2]
    simp only [Res.ok_bind]
    rw [g3]
    rfl
  · intro i hi
    exact e2 i (by omega)

/-- Different numbers of poses and of times end the program. -/
theorem c96_mismatch (hsh : ∀ t d u, scan t = some (d, u) → u.length < t.length) (junk : Nat → D) (files : Files)
    (dirs : Bytes → Bool) (ds : Kitti) (s : Nat) (hs : s < 22) (ha : ds.avail[s]? = some true) (pt tt : Bytes)
    (hp : files (kittiPoseFile ds.base s) = some pt)
    (ht : files (kittiSeqFile ds.base s (bytesOf "times.txt")) = some tt)
    (np nt : List D) (hnp : NumsOf scan pt np) (hnt : NumsOf scan tt nt) (hlen : nt.length ≠ np.length / 12) :
    kittiSeqNew scan junk files dirs ds s = .fatal := by
  obtain ⟨poses, e1, _⟩ := poses_ok hsh junk hnp
  obtain ⟨times, f1, _⟩ := times_ok hsh junk hnt
  unfold kittiSeqNew
  rw [if_neg (by omega)]
  simp only [Int.toNat_natCast]
  obtain ⟨hlt, hget⟩ := List.getElem?_eq_some_iff.mp ha
  rw [readAt_ok hlt, hget]
  simp only [Res.ok_bind, Bool.not_true, Bool.false_eq_true, if_false, hp, ht]
  rw [e1]
  simp only [Res.ok_bind]
  rw [f1]
  simp only [Res.ok_bind]
  rw [if_pos hlen]

/-- A sequence without a file of poses — as the published sequences 11 to 21 are — is never loaded: the code checks its name
instead of the stream, and reads from a null stream. -/
theorem c96_no_poses (junk : Nat → D) (files : Files) (dirs : Bytes → Bool) (ds : Kitti) (s : Nat) (hs : s < 22)
    (ha : ds.avail[s]? = some true) (hp : files (kittiPoseFile ds.base s) = none) :
    kittiSeqNew scan junk files dirs ds s = .ub := by
  unfold kittiSeqNew
  rw [if_neg (by omega)]
  simp only [Int.toNat_natCast]
  obtain ⟨hlt, hget⟩ := List.getElem?_eq_some_iff.mp ha
  rw [readAt_ok hlt, hget]
  simp only [Res.ok_bind, Bool.not_true, Bool.false_eq_true, if_false, hp]
  rfl

/-- Sequences out of range or unavailable, and sequences whose times or calibrations are absent, end the program. -/
theorem c96_absent (hsh : ∀ t d u, scan t = some (d, u) → u.length < t.length) (junk : Nat → D) (files : Files)
    (dirs : Bytes → Bool) (ds : Kitti) :
    (∀ s : Int, s < 0 ∨ 22 ≤ s → kittiSeqNew scan junk files dirs ds s = .fatal) ∧
    (∀ s : Nat, ds.avail[s]? = some false → kittiSeqNew scan junk files dirs ds s = .fatal) ∧
    ∀ s : Nat, s < 22 → ds.avail[s]? = some true → ∀ pt, files (kittiPoseFile ds.base s) = some pt →
      (files (kittiSeqFile ds.base s (bytesOf "times.txt")) = none ∨ files (kittiSeqFile ds.base s (bytesOf "calib.txt")) = none) →
      kittiSeqNew scan junk files dirs ds s = .fatal := by
  refine ⟨?_, ?_, ?_⟩
  · intro s hs
    unfold kittiSeqNew
    rw [if_pos hs]
  · intro s ha
    unfold kittiSeqNew
    by_cases hs : (s : Int) < 0 ∨ (s : Int) ≥ 22
    · rw [if_pos hs]
    · rw [if_neg hs]
      simp only [Int.toNat_natCast]
      obtain ⟨hlt, hget⟩ := List.getElem?_eq_some_iff.mp ha
      rw [readAt_ok hlt, hget]
      rfl
  · intro s hs ha pt hp hn
    obtain ⟨np, hnp⟩ := exists_nums hsh pt
    obtain ⟨poses, e1, _⟩ := poses_ok hsh junk hnp
    unfold kittiSeqNew
    rw [if_neg (by omega)]
    simp only [Int.toNat_natCast]
    obtain ⟨hlt, hget⟩ := List.getElem?_eq_some_iff.mp ha
    rw [readAt_ok hlt, hget]
    simp only [Res.ok_bind, Bool.not_true, Bool.false_eq_true, if_false, hp]
    rw [e1]
    simp only [Res.ok_bind]
    cases ht : files (kittiSeqFile ds.base s (bytesOf "times.txt")) with
    | none => rfl
    | some tt =>
      obtain ⟨nt, hnt⟩ := exists_nums hsh tt
      obtain ⟨times, f1, _⟩ := times_ok hsh junk hnt
      dsimp only
      rw [f1]
      simp only [Res.ok_bind]
      split
      · rfl
      · rcases hn with h | h
        · rw [h] at ht; cases ht
        · rw [h]

/-- A sequence that is loaded is freed completely: every pose once. -/
theorem c96_free (hsh : ∀ t d u, scan t = some (d, u) → u.length < t.length) (junk : Nat → D) (files : Files)
    (dirs : Bytes → Bool) (ds : Kitti) (s : Int) (q : KittiSeq D) (h : kittiSeqNew scan junk files dirs ds s = .ok q) :
    kittiSeqFree q = .ok (List.range q.length) := by
  have key : ∀ i < q.length, ∃ P, q.poses[i]? = some (some P) := by
    unfold kittiSeqNew at h
    split at h
    · cases h
    · rw [Res.bind_eq_ok] at h
      obtain ⟨a, _, h⟩ := h
      split at h
      · cases h
      · dsimp only at h
        cases hpf : files (kittiPoseFile ds.base s.toNat) with
        | none => rw [hpf] at h; cases h
        | some st =>
        rw [hpf] at h
        dsimp only at h
        rw [Res.bind_eq_ok] at h
        obtain ⟨⟨poses, len⟩, h1, h⟩ := h
        dsimp only at h
        split at h
        · cases h
        · rw [Res.bind_eq_ok] at h
          obtain ⟨⟨times, n⟩, h2, h⟩ := h
          simp only at h
          split at h
          · cases h
          · rename_i hn
            split at h
            · cases h
            · rw [Res.bind_eq_ok] at h
              obtain ⟨⟨c0, st0⟩, _, h⟩ := h
              rw [Res.bind_eq_ok] at h
              obtain ⟨⟨c1, st1⟩, _, h⟩ := h
              rw [Res.bind_eq_ok] at h
              obtain ⟨⟨c2, st2⟩, _, h⟩ := h
              rw [Res.bind_eq_ok] at h
              obtain ⟨⟨c3, st3⟩, _, h⟩ := h
              simp only [Res.pure_eq, Res.ok.injEq] at h
              subst h
              obtain ⟨np, hnp⟩ := exists_nums hsh st
              obtain ⟨ps, e1, e2⟩ := poses_ok hsh junk hnp
              rw [e1] at h1
              simp only [Res.ok.injEq, Prod.mk.injEq] at h1
              obtain ⟨rfl, rfl⟩ := h1
              intro i hi
              simp only at hi ⊢
              obtain ⟨Q, hQ, _⟩ := e2 i (by simp only [ne_eq, Decidable.not_not] at hn; omega)
              exact ⟨Q, hQ⟩
  unfold kittiSeqFree
  obtain ⟨fr, e, h2⟩ := forLoop_spec (fun i (fr : List Nat) => fr = List.range i) (n := q.length) (i0 := 0) (s := [])
    (body := fun i fr => do
      match ← readAt q.poses i with
      | none => .ub
      | some _ => pure (fr ++ [i])) (by omega) rfl (by
    intro i fr _ hi hfr
    obtain ⟨P, hP⟩ := key i hi
    obtain ⟨hlt, hget⟩ := List.getElem?_eq_some_iff.mp hP
    rw [readAt_ok hlt, hget]
    refine ⟨fr ++ [i], rfl, ?_⟩
    rw [hfr, List.range_succ])
  rw [h2] at e
  exact e

/-- Numbers that are written with any white space around them are the numbers of the text. -/
theorem c96_layout {fmt : D → Bytes} (hf : NumText fmt scan) (l : List D) (t : Bytes) (h : Laid fmt l t) : NumsOf scan t l := by
  induction h with
  | nil h => exact ⟨_, Reads.nil _, hf.blank _ h⟩
  | cons hw ht _ ih =>
    obtain ⟨u, h1, h2⟩ := ih
    exact ⟨u, Reads.cons (hf.back _ _ _ hw ht) h1, h2⟩

theorem reads_spaced {fmt : D → Bytes} (hf : NumText fmt scan) (l : List D) (t : Bytes) (ht : Ends t) :
    Reads scan (l.flatMap (fun d => 32 :: fmt d) ++ t) l t := by
  induction l with
  | nil => exact Reads.nil t
  | cons d l ih =>
    refine Reads.cons (u := l.flatMap (fun d => 32 :: fmt d) ++ t) ?_ ih
    rw [List.flatMap_cons, List.append_assoc]
    refine hf.back [32] d _ ?_ ?_
    · intro b hb
      simp only [List.mem_singleton] at hb
      subst hb
      rfl
    · cases l with
      | nil => exact ht
      | cons d' l' => exact Or.inr ⟨32, _, by rw [List.flatMap_cons]; rfl, rfl⟩

/-- A line of the calibration file as it is published: the name, the numbers separated by blanks, the end of the line. -/
theorem c96_calib_line {fmt : D → Bytes} (hf : NumText fmt scan) (i : Nat) (l : List D) (hl : l.length = 12) (rest : Bytes)
    (hr : ∀ b r, rest = b :: r → isSpaceB b = false) :
    CalibLine scan i (bytesOf "P" ++ natText i ++ bytesOf ":" ++ (l.flatMap (fun d => 32 :: fmt d) ++ 10 :: rest)) l rest := by
  refine ⟨hl, _, _, rfl, reads_spaced hf l (10 :: rest) (Or.inr ⟨10, rest, rfl, rfl⟩), ?_⟩
  rw [List.dropWhile_cons_of_pos (by rfl)]
  cases rest with
  | nil => rfl
  | cons b r => rw [List.dropWhile_cons_of_neg (by rw [hr b r rfl]; simp)]

/-- Which frames can be loaded, and from which file. -/
theorem c96_frame (q : KittiSeq D) (hq : q.cams.length = 4) (cam frame : Int) (p : Bytes) :
    kittiLoadFrame q cam frame = .ok p ↔ 0 ≤ cam ∧ cam < 4 ∧ 0 ≤ frame ∧ frame < q.length ∧
      q.cams[cam.toNat]? = some true ∧ p = kittiFrame q.base q.seqId cam.toNat frame.toNat := by
  unfold kittiLoadFrame
  by_cases h1 : cam < 0 ∨ cam ≥ 4
  · rw [if_pos h1]
    constructor
    · intro h; cases h
    · intro h; omega
  · rw [if_neg h1]
    by_cases h2 : frame < 0 ∨ frame ≥ q.length
    · rw [if_pos h2]
      constructor
      · intro h; cases h
      · intro h; omega
    · rw [if_neg h2]
      have hc : cam.toNat < q.cams.length := by omega
      rw [readAt_ok hc, List.getElem?_eq_getElem hc]
      simp only [Res.ok_bind]
      cases q.cams[cam.toNat]
      · simp
      · simp only [if_true, Res.pure_eq, Res.ok.injEq]
        constructor
        · intro h; exact ⟨by omega, by omega, by omega, by omega, trivial, h.symm⟩
        · intro h; exact h.2.2.2.2.2.symm

end

theorem digitsVal_zeros (k : Nat) (l : Bytes) : digitsVal 10 0 (List.replicate k 48 ++ l) = digitsVal 10 0 l := by
  induction k with
  | zero => rfl
  | succ k ih => rw [List.replicate_succ, List.cons_append, digitsVal]; exact ih

theorem padText_inj {w n m : Nat} (h : padText w n = padText w m) : n = m := by
  have := congrArg (digitsVal 10 0) h
  unfold padText at this
  rwa [digitsVal_zeros, digitsVal_zeros, digitsVal_natText, digitsVal_natText] at this

theorem padText_two : ∀ s < 22, (padText 2 s).length = 2 := by decide +kernel

theorem natText_one : ∀ c < 4, (natText c).length = 1 := by decide +kernel

/-- Every frame has its own file. -/
theorem c96_paths (base : Bytes) (s s' cam cam' f f' : Nat) (hs : s < 22) (hs' : s' < 22) (hc : cam < 4) (hc' : cam' < 4)
    (h : kittiFrame base s cam f = kittiFrame base s' cam' f') : s = s' ∧ cam = cam' ∧ f = f' := by
  unfold kittiFrame kittiCamDir kittiSeqDir at h
  simp only [List.append_assoc] at h
  have h := List.append_cancel_left (List.append_cancel_left h)
  obtain ⟨e1, h⟩ := List.append_inj h (by rw [padText_two s hs, padText_two s' hs'])
  have h := List.append_cancel_left h
  obtain ⟨e2, h⟩ := List.append_inj h (by rw [natText_one cam hc, natText_one cam' hc'])
  have h := List.append_cancel_right (List.append_cancel_left h)
  refine ⟨padText_inj e1, ?_, padText_inj h⟩
  have := congrArg (digitsVal 10 0) e2
  rwa [digitsVal_natText, digitsVal_natText] at this

/-- The data set: it must exist, and a sequence is available exactly if its directory exists. -/
theorem c96_dataset (dirs : Bytes → Bool) (base : Bytes) :
    (dirs base = false → kittiNew dirs base = .fatal) ∧
    (dirs base = true → ∃ ds, kittiNew dirs base = .ok ds ∧ ds.base = base ∧
      ∀ i < 22, ds.avail[i]? = some (dirs (kittiSeqDir base i))) := by
  unfold kittiNew
  constructor
  · intro h; rw [h]; rfl
  · intro h
    rw [h]
    refine ⟨_, rfl, rfl, ?_⟩
    intro i hi
    simp only [List.getElem?_map]
    rw [List.getElem?_range hi]
    rfl

/-- A number of one digit: the conversion for the example. -/
def scanDigit (t : Bytes) : Option (Nat × Bytes) :=
  match t.dropWhile isSpaceB with
  | b :: r => if 48 ≤ b.toNat ∧ b.toNat ≤ 57 then some (b.toNat - 48, r) else none
  | [] => none

/-- Two poses, two times and the calibrations. -/
def demoKitti : Files := fun p =>
  if p = bytesOf "k/poses/03.txt" then some (bytesOf "1 2 3 4 5 6 7 8 9 0 1 2\n0 0 0 1 0 0 0 2 0 0 0 3\n")
  else if p = bytesOf "k/sequences/03/times.txt" then some (bytesOf "0\n7\n")
  else if p = bytesOf "k/sequences/03/calib.txt" then some (bytesOf
    "P0: 1 2 3 4 5 6 7 8 9 0 1 2\nP1: 1 2 3 4 5 6 7 8 9 0 1 2\nP2: 1 2 3 4 5 6 7 8 9 0 1 2\nP3: 1 0 0 0 0 1 0 0 0 0 1 0\n")
  else none

example : (match kittiSeqNew scanDigit (fun _ => 77) demoKitti (fun _ => true)
      ⟨bytesOf "k", List.replicate 22 true⟩ 3 with
    | .ok q => decide (q.length = 2 ∧ q.poses.take 2 = [some [1, 5, 9, 2, 6, 0, 3, 7, 1, 4, 8, 2], some [0, 0, 0, 0, 0, 0, 0, 0, 0, 1, 2, 3]] ∧
        q.times.take 2 = [0, 7] ∧ q.calib.drop 3 = [[1, 0, 0, 0, 1, 0, 0, 0, 1, 0, 0, 0]] ∧
        kittiSeqFree q = .ok [0, 1] ∧ kittiLoadFrame q 2 1 = .ok (bytesOf "k/sequences/03/image_2/000001.png"))
    | _ => false) = true := by decide +kernel

example : kittiSeqNew scanDigit (fun _ => 77) demoKitti (fun _ => true) ⟨bytesOf "k", List.replicate 22 true⟩ 4 = .ub := by
  decide +kernel

/-- The assumption about formats holds for numbers of one digit. -/
example : NumText (fun n : Fin 10 => [UInt8.ofNat (48 + n.val)])
    (fun t => (scanDigit t).bind (fun p => if h : p.1 < 10 then some (⟨p.1, h⟩, p.2) else none)) where
  back := by
    intro w d t hw _
    have e : (w ++ [UInt8.ofNat (48 + d.val)] ++ t).dropWhile isSpaceB = UInt8.ofNat (48 + d.val) :: t := by
      have hd : isSpaceB (UInt8.ofNat (48 + d.val)) = false := by revert d; decide
      rw [List.append_assoc]
      induction w with
      | nil => rw [List.nil_append, List.singleton_append, List.dropWhile_cons_of_neg (by rw [hd]; simp)]
      | cons b w ih =>
        rw [List.cons_append, List.dropWhile_cons_of_pos (hw b List.mem_cons_self)]
        exact ih (fun c hc => hw c (List.mem_cons_of_mem _ hc))
    have hv : (UInt8.ofNat (48 + d.val)).toNat = 48 + d.val := by clear e; revert d; decide
    simp only [scanDigit, e, hv]
    rw [if_pos (by omega)]
    simp [d.isLt]
  blank := by
    intro w hw
    have e : w.dropWhile isSpaceB = [] := dropWhile_all hw
    simp [scanDigit, e]
  shrink := by
    intro t d u h
    simp only [scanDigit, Option.bind_eq_some_iff] at h
    obtain ⟨p, h1, h2⟩ := h
    have hl : (t.dropWhile isSpaceB).length ≤ t.length := (List.dropWhile_sublist _).length_le
    split at h1
    · rename_i b r e
      rw [e] at hl
      simp only [List.length_cons] at hl
      split at h1
      · simp only [Option.some.injEq] at h1
        subst h1
        split at h2
        · simp only [Option.some.injEq, Prod.mk.injEq] at h2
          rw [← h2.2]; omega
        · cases h2
      · cases h1
    · cases h1

end Nx
