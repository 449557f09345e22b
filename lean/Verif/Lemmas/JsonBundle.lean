import Verif.Props.JsonHeap
import Verif.Spec.JsonBundle
import Verif.Model.JsonBundle
import Verif.Lemmas.CNum
import Verif.Lemmas.StringArray

/-! # Lemmas about bundling: what construction calls preserve -/

namespace Nx

/-! ## Types and texts never change -/

/-- Every node keeps its type and text. -/
def Keeps (H H' : JHeap) : Prop :=
  ∀ (i : Nat) N, H[i]? = some N → ∃ N', H'[i]? = some N' ∧ N'.type = N.type ∧ N'.text = N.text

theorem Keeps.refl (H : JHeap) : Keeps H H := fun _ N h => ⟨N, h, rfl, rfl⟩

theorem Keeps.trans {H1 H2 H3 : JHeap} (a : Keeps H1 H2) (b : Keeps H2 H3) : Keeps H1 H3 := by
  intro i N h
  obtain ⟨N', h1, h2, h3⟩ := a i N h
  obtain ⟨N'', g1, g2, g3⟩ := b i N' h1
  exact ⟨N'', g1, g2.trans h2, g3.trans h3⟩

theorem keeps_new (H : JHeap) (type : JNT) (text : Option Bytes) : Keeps H (jhNew H type text) :=
  fun _ N h => ⟨N, getElem?_append_of_some h, rfl, rfl⟩

theorem readAt_ok_get {α : Type} {a : List α} {i : Nat} {x : α} (h : readAt a i = .ok x) : a[i]? = some x := by
  unfold readAt at h
  split at h
  · rename_i y hy; cases h; exact hy
  · cases h

theorem keeps_write {H H' : JHeap} {p : Nat} {P Q : HNode} (hP : H[p]? = some P) (hw : writeAt H p Q = .ok H')
    (ht : Q.type = P.type) (hx : Q.text = P.text) : Keeps H H' := by
  rw [writeAt_some hP] at hw
  cases hw
  intro i N hi
  by_cases hip : i = p
  · subst hip
    rw [hP] at hi; cases hi
    exact ⟨Q, by rw [List.getElem?_set_self (List.getElem?_eq_some_iff.mp hP).1], ht, hx⟩
  · exact ⟨N, by rw [List.getElem?_set_ne (fun h => hip h.symm)]; exact hi, rfl, rfl⟩

theorem keeps_chase : ∀ (fuel : Nat) (H H' : JHeap) (p : Nat), jhChase fuel H p = .ok H' → Keeps H H'
  | 0, _, _, _, h => by simp [jhChase] at h
  | fuel + 1, H, H', p, h => by
    rw [jhChase] at h
    obtain ⟨P, h1, h⟩ := Res.bind_eq_ok.mp h
    have hP := readAt_ok_get h1
    cases hl : P.last with
    | none => rw [hl] at h; cases h
    | some q =>
      rw [hl] at h
      obtain ⟨Q, h2, h⟩ := Res.bind_eq_ok.mp h
      cases hr : Q.right with
      | none => rw [hr] at h; cases h; exact Keeps.refl H
      | some r =>
        rw [hr] at h
        obtain ⟨H1, h3, h⟩ := Res.bind_eq_ok.mp h
        exact (keeps_write hP h3 rfl rfl).trans (keeps_chase fuel H1 H' p h)

theorem keeps_addChild {H H' : JHeap} {p c : Nat} (h : jhAddChild H p c = .ok H') : Keeps H H' := by
  unfold jhAddChild at h
  obtain ⟨P, h1, h⟩ := Res.bind_eq_ok.mp h
  have hP := readAt_ok_get h1
  obtain ⟨H1, h2, h⟩ := Res.bind_eq_ok.mp h
  refine Keeps.trans ?_ (keeps_chase _ H1 H' p h)
  cases hl : P.last with
  | none => rw [hl] at h2; exact keeps_write hP h2 rfl rfl
  | some q =>
    rw [hl] at h2
    obtain ⟨Q, h3, h2⟩ := Res.bind_eq_ok.mp h2
    exact keeps_write (readAt_ok_get h3) h2 rfl rfl

theorem keeps_step {H H' : JHeap} {op : JhOp} (h : jhStep H op = .ok H') : Keeps H H' := by
  cases op with
  | new type text => cases h; exact keeps_new H type text
  | arrayAdd a c =>
    simp only [jhStep, jhArrayAdd] at h
    obtain ⟨A, h1, h⟩ := Res.bind_eq_ok.mp h
    split at h
    · exact keeps_addChild h
    · cases h
  | objectAdd o name v =>
    simp only [jhStep, jhObjectAdd] at h
    obtain ⟨A, h1, h⟩ := Res.bind_eq_ok.mp h
    split at h
    · obtain ⟨K, h2, h⟩ := Res.bind_eq_ok.mp h
      obtain ⟨H1, h3, h⟩ := Res.bind_eq_ok.mp h
      exact (keeps_new H _ _).trans ((keeps_write (readAt_ok_get h2) h3 rfl rfl).trans (keeps_addChild h))
    · cases h

theorem keeps_run : ∀ (ops : List JhOp) {H H' : JHeap}, jhRun H ops = .ok H' → Keeps H H'
  | [], H, H', h => by cases h; exact Keeps.refl H
  | op :: ops, H, H', h => by
    simp only [jhRun] at h
    obtain ⟨H1, h1, h⟩ := Res.bind_eq_ok.mp h
    exact (keeps_step h1).trans (keeps_run ops h)

/-! ## What containers hold changes only at the target of a call -/

/-- The containers in a range keep what they hold. -/
def KeepsKids (lo hi : Nat) (S S' : List SNode) : Prop :=
  ∀ (i : Nat) N, lo ≤ i → i < hi → S[i]? = some N →
    ∃ N', S'[i]? = some N' ∧ N'.type = N.type ∧ N'.elems = N.elems ∧ N'.members = N.members

theorem KeepsKids.refl (lo hi : Nat) (S : List SNode) : KeepsKids lo hi S S :=
  fun _ N _ _ h => ⟨N, h, rfl, rfl, rfl⟩

theorem KeepsKids.trans {lo hi : Nat} {S1 S2 S3 : List SNode} (a : KeepsKids lo hi S1 S2)
    (b : KeepsKids lo hi S2 S3) : KeepsKids lo hi S1 S3 := by
  intro i N hl hh h
  obtain ⟨N', h1, h2, h3, h4⟩ := a i N hl hh h
  obtain ⟨N'', g1, g2, g3, g4⟩ := b i N' hl hh h1
  exact ⟨N'', g1, g2.trans h2, g3.trans h3, g4.trans h4⟩

theorem KeepsKids.mono {lo hi lo' hi' : Nat} {S S' : List SNode} (a : KeepsKids lo hi S S') (hl : lo ≤ lo')
    (hh : hi' ≤ hi) : KeepsKids lo' hi' S S' :=
  fun i N h1 h2 h => a i N (by omega) (by omega) h

theorem sStep_arrayAdd {S S' : List SNode} {a c : Nat} (h : sStep S (.arrayAdd a c) = some S') :
    ∃ A C, S[a]? = some A ∧ S[c]? = some C ∧ A.type = .array ∧ C.attached = false ∧
      ∃ A', (S.set c { C with attached := true })[a]? = some A' ∧
        S' = (S.set c { C with attached := true }).set a { A' with elems := A'.elems ++ [c] } := by
  simp only [sStep] at h
  split at h
  · rename_i A C hA hC
    split at h
    · rename_i hc
      split at h
      · rename_i A' hA'
        cases h
        exact ⟨A, C, hA, hC, hc.1, hc.2, A', hA', rfl⟩
      · cases h
    · cases h
  · cases h

theorem sStep_objectAdd {S S' : List SNode} {o v : Nat} {name : Bytes} (h : sStep S (.objectAdd o name v) = some S') :
    ∃ O V, S[o]? = some O ∧ S[v]? = some V ∧ O.type = .object ∧ V.attached = false ∧
      ∃ O', (S.set v { V with attached := true })[o]? = some O' ∧
        S' = (S.set v { V with attached := true }).set o { O' with members := O'.members ++ [(name, v)] }
          ++ [⟨.string, [], [], true⟩] := by
  simp only [sStep] at h
  split at h
  · rename_i O V hO hV
    split at h
    · rename_i hc
      split at h
      · rename_i O' hO'
        cases h
        exact ⟨O, V, hO, hV, hc.1, hc.2, O', hO', rfl⟩
      · cases h
    · cases h
  · cases h

theorem kids_set {S : List SNode} {c : Nat} {C : SNode} (hC : S[c]? = some C) (b : Bool) (lo hi : Nat) :
    KeepsKids lo hi S (S.set c { C with attached := b }) := by
  intro i N _ _ h
  by_cases hi : c = i
  · subst hi
    rw [hC] at h; cases h
    exact ⟨_, List.getElem?_set_self (List.getElem?_eq_some_iff.mp hC).1, rfl, rfl, rfl⟩
  · exact ⟨N, by rw [List.getElem?_set_ne hi]; exact h, rfl, rfl, rfl⟩

theorem kids_set_out {S : List SNode} {t : Nat} (X : SNode) {lo hi : Nat} (ht : ¬ (lo ≤ t ∧ t < hi)) :
    KeepsKids lo hi S (S.set t X) := by
  intro i N h1 h2 h
  exact ⟨N, by rw [List.getElem?_set_ne (by omega)]; exact h, rfl, rfl, rfl⟩

theorem kids_append (S T : List SNode) (lo hi : Nat) : KeepsKids lo hi S (S ++ T) :=
  fun _ N _ _ h => ⟨N, getElem?_append_of_some h, rfl, rfl, rfl⟩

theorem kids_step {S S' : List SNode} {op : JhOp} {lo hi : Nat} (h : sStep S op = some S')
    (ht : ∀ t, op.target = some t → ¬ (lo ≤ t ∧ t < hi)) : KeepsKids lo hi S S' := by
  cases op with
  | new type text => simp only [sStep, Option.some.injEq] at h; subst h; exact kids_append _ _ _ _
  | arrayAdd a c =>
    obtain ⟨A, C, hA, hC, _, _, A', hA', rfl⟩ := sStep_arrayAdd h
    exact (kids_set hC true lo hi).trans (kids_set_out _ (ht a rfl))
  | objectAdd o name v =>
    obtain ⟨A, C, hA, hC, _, _, A', hA', rfl⟩ := sStep_objectAdd h
    exact ((kids_set hC true lo hi).trans (kids_set_out _ (ht o rfl))).trans (kids_append _ _ _ _)

theorem kids_run {lo hi : Nat} : ∀ (ops : List JhOp) {S S' : List SNode}, LeavesAlone lo hi ops →
    sRun S ops = some S' → KeepsKids lo hi S S'
  | [], S, S', _, h => by simp only [sRun, Option.some.injEq] at h; subst h; exact KeepsKids.refl _ _ _
  | op :: ops, S, S', hl, h => by
    simp only [sRun, Option.bind_eq_some_iff] at h
    obtain ⟨S1, h1, h⟩ := h
    exact (kids_step h1 (hl op (by simp))).trans (kids_run ops (fun o ho => hl o (by simp [ho])) h)

/-! ## Reachable states -/

theorem sRun_append : ∀ (p q : List JhOp) (S : List SNode), sRun S (p ++ q) = (sRun S p).bind (fun S => sRun S q)
  | [], _, _ => rfl
  | op :: p, q, S => by
    simp only [List.cons_append, sRun, Option.bind_assoc, sRun_append p q]

theorem jhRun_append : ∀ (p q : List JhOp) (H : JHeap), jhRun H (p ++ q) = jhRun H p >>= fun H => jhRun H q
  | [], _, _ => rfl
  | op :: p, q, H => by
    simp only [List.cons_append, jhRun]
    cases jhStep H op with
    | ok H1 => simp only [Res.ok_bind]; exact jhRun_append p q H1
    | fatal => rfl
    | ub => rfl

theorem Reaches.run {H H' : JHeap} {S S' : List SNode} (r : Reaches H S) {ops : List JhOp}
    (h1 : sRun S ops = some S') (h2 : jhRun H ops = .ok H') : Reaches H' S' := by
  obtain ⟨o, g1, g2⟩ := r
  exact ⟨o ++ ops, by rw [sRun_append, g1]; exact h1, by rw [jhRun_append, g2]; exact h2⟩

theorem Reaches.inv {H : JHeap} {S : List SNode} (r : Reaches H S) : ∃ L, HInv [] H S L := by
  obtain ⟨o, g1, g2⟩ := r
  have h0 : HInv [] [] [] (fun _ => []) := by
    refine ⟨rfl, ?_, ?_, ?_, ?_, ?_, ?_, ?_, ?_⟩ <;> simp [Rights]
  obtain ⟨H', L, h1, hi⟩ := jhRun_inv o [] [] S _ h0 g1
  rw [g2] at h1; cases h1
  exact ⟨L, hi⟩

theorem Reaches.len {H : JHeap} {S : List SNode} (r : Reaches H S) : H.length = S.length := by
  obtain ⟨L, h⟩ := r.inv
  exact h.len

/-- An allowed call succeeds. -/
theorem Reaches.step {H : JHeap} {S S' : List SNode} (r : Reaches H S) {op : JhOp} (h : sStep S op = some S') :
    ∃ H', jhStep H op = .ok H' ∧ Reaches H' S' := by
  obtain ⟨L, hi⟩ := r.inv
  obtain ⟨H', L', h1, _⟩ := jhStep_inv hi op h
  refine ⟨H', h1, r.run (ops := [op]) ?_ ?_⟩
  · simp [sRun, h]
  · simp [jhRun, h1]

theorem Reaches.type {H : JHeap} {S : List SNode} (r : Reaches H S) {i : Nat} {N : SNode} (h : S[i]? = some N) :
    ∃ M, H[i]? = some M ∧ M.type = N.type := by
  obtain ⟨L, hi⟩ := r.inv
  obtain ⟨M, h1, h2, _⟩ := hi.node i N h
  exact ⟨M, h1, h2⟩

theorem Reaches.array {H : JHeap} {S : List SNode} (r : Reaches H S) {i : Nat} {N : SNode} (h : S[i]? = some N)
    (ht : N.type = .array) : jhNChildren H i = .ok N.elems.length ∧
      ∀ (position : Int) mask,
        jhArrayGet H i position mask = .ok ((N.elems[position.toNat]?).bind (sFilter S mask)) := by
  obtain ⟨o, g1, g2⟩ := r
  obtain ⟨H', h1, h2⟩ := c24_containers o S g1
  rw [g2] at h1; cases h1
  exact (h2 i N h).1 ht

theorem Reaches.object {H : JHeap} {S : List SNode} (r : Reaches H S) {i : Nat} {N : SNode} (h : S[i]? = some N)
    (ht : N.type = .object) : ∀ name mask, jhObjectGet H i name mask =
          .ok (((N.members.find? (fun e => e.1 = name)).map (·.2)).bind (sFilter S mask)) := by
  obtain ⟨o, g1, g2⟩ := r
  obtain ⟨H', h1, h2⟩ := c24_containers o S g1
  rw [g2] at h1; cases h1
  exact ((h2 i N h).2 ht).2

/-! ## Bundling one value -/

/-- `RoundTrip` with what is needed to compose bundles. -/
def Bundles {β : Type} (bundle : JHeap → Res (JHeap × Nat)) (type : JNT)
    (unbundle : JHeap → Nat → Res β) (y : β) : Prop :=
  ∀ H S, Reaches H S → ∃ ops H' S' n, bundle H = .ok (H', n) ∧ sRun S ops = some S' ∧ jhRun H ops = .ok H' ∧
    (∀ i, i < S.length → S'[i]? = S[i]?) ∧ H.length ≤ n ∧ n < H'.length ∧
    (∃ N, S'[n]? = some N ∧ N.type = type ∧ N.attached = false) ∧
    ∀ H'' S'', Keeps H' H'' → KeepsKids H.length H'.length S' S'' → Reaches H'' S'' → unbundle H'' n = .ok y

theorem Bundles.roundTrip {β : Type} {bundle : JHeap → Res (JHeap × Nat)} {type : JNT}
    {unbundle : JHeap → Nat → Res β} {y : β} (h : Bundles bundle type unbundle y) :
    RoundTrip bundle type unbundle y := by
  intro H S r
  obtain ⟨ops, H', S', n, h1, h2, h3, h4, h5, h6, h7, h8⟩ := h H S r
  have r' := r.run h2 h3
  refine ⟨H', S', n, h1, r', h7, ?_⟩
  intro ops2 H'' S'' hl hs hj
  exact h8 H'' S'' (keeps_run ops2 hj) (kids_run ops2 hl hs) (r'.run hs hj)

theorem getElem?_append_len {α : Type} (l : List α) (x : α) : (l ++ [x])[l.length]? = some x := by simp

/-- A node without children. -/
theorem bundles_leaf {β : Type} (type : JNT) (text : Option Bytes) {bundle : JHeap → Res (JHeap × Nat)}
    (hb : ∀ H, bundle H = .ok (jhNew H type text, H.length)) {unbundle : JHeap → Nat → Res β} {y : β}
    (hu : ∀ H n N, H[n]? = some N → N.type = type → N.text = text → unbundle H n = .ok y) :
    Bundles bundle type unbundle y := by
  intro H S r
  have hlen := r.len
  refine ⟨[.new type text], jhNew H type text, S ++ [⟨type, [], [], false⟩], H.length, hb H, ?_, ?_, ?_,
    Nat.le_refl _, by simp [jhNew], ⟨_, by rw [hlen]; exact getElem?_append_len _ _, rfl, rfl⟩, ?_⟩
  · simp [sRun, sStep]
  · simp [jhRun, jhStep]
  · intro i hi
    rw [List.getElem?_append_left hi]
  · intro H'' S'' hk _ _
    obtain ⟨N', h1, h2, h3⟩ := hk H.length _ (getElem?_append_len H _)
    exact hu H'' _ N' h1 h2 h3

/-! ## Arrays -/

/-- One more element: the element is made, then added to the array. -/
theorem bundle_add {β : Type} {bundle : JHeap → Res (JHeap × Nat)} {type : JNT} {unbundle : JHeap → Nat → Res β}
    {y : β} (hb : Bundles bundle type unbundle y) {H : JHeap} {S : List SNode} (r : Reaches H S) {a : Nat}
    {A : SNode} (hA : S[a]? = some A) (ht : A.type = .array) :
    ∃ ops H1 H2 S2 c, bundle H = .ok (H1, c) ∧ jhArrayAdd H1 a c = .ok H2 ∧ sRun S ops = some S2 ∧
      jhRun H ops = .ok H2 ∧ (∀ i, i < S.length → i ≠ a → S2[i]? = S[i]?) ∧ H.length ≤ H2.length ∧
      S2[a]? = some { A with elems := A.elems ++ [c] } ∧
      (∃ N, S2[c]? = some N ∧ N.type = type) ∧ H.length ≤ c ∧ c < H2.length ∧
      ∀ H'' S'', Keeps H2 H'' → KeepsKids H.length H2.length S2 S'' → Reaches H'' S'' → unbundle H'' c = .ok y := by
  obtain ⟨ops, H1, S1, c, h1, h2, h3, h4, h5, h6, ⟨C, hC, hCt, hCa⟩, h8⟩ := hb H S r
  have r1 := r.run h2 h3
  have hlt : a < S.length := (List.getElem?_eq_some_iff.mp hA).1
  have hlen := r.len
  have hlen1 := r1.len
  have hA1 : S1[a]? = some A := by rw [h4 a hlt]; exact hA
  have hca : c ≠ a := by omega
  have hA2 : (S1.set c { C with attached := true })[a]? = some A := by
    rw [List.getElem?_set_ne hca]; exact hA1
  have hs : sStep S1 (.arrayAdd a c) =
      some ((S1.set c { C with attached := true }).set a { A with elems := A.elems ++ [c] }) := by
    simp only [sStep, hA1, hC]
    rw [if_pos ⟨ht, hCa⟩, hA2]
  obtain ⟨H2, g1, r2⟩ := r1.step hs
  have hlen2 := r2.len
  simp only [List.length_set] at hlen2
  refine ⟨ops ++ [.arrayAdd a c], H1, H2,
    (S1.set c { C with attached := true }).set a { A with elems := A.elems ++ [c] }, c, h1, g1, ?_, ?_, ?_,
    by omega, ?_, ?_, h5, by omega, ?_⟩
  · rw [sRun_append, h2]
    simp [sRun, hs]
  · rw [jhRun_append, h3]
    simp [jhRun, jhStep, show jhArrayAdd H1 a c = .ok H2 from g1]
  · intro i hi hia
    rw [List.getElem?_set_ne (Ne.symm hia), List.getElem?_set_ne (by omega), h4 i hi]
  · rw [List.getElem?_set_self (by simp; omega)]
  · refine ⟨{ C with attached := true }, ?_, hCt⟩
    rw [List.getElem?_set_ne hca.symm, List.getElem?_set_self (by omega)]
  · intro H'' S'' hk hkk r''
    refine h8 H'' S'' ((keeps_step g1).trans hk) ?_ r''
    refine KeepsKids.trans ((kids_set hC true _ _).trans (kids_set_out _ (by omega))) (hkk.mono (Nat.le_refl _) (by omega))

/-- What is known about the element `x` with node `c` of an array `a`. -/
def Elem {α β : Type} (type : JNT) (unbundle : JHeap → Nat → Res β) (f : α → β) (H : JHeap) (S : List SNode)
    (a : Nat) (c : Nat) (x : α) : Prop :=
  (∃ N, S[c]? = some N ∧ N.type = type) ∧ ∃ lo hi, a < lo ∧ hi ≤ H.length ∧
    ∀ H'' S'', Keeps H H'' → KeepsKids lo hi S S'' → Reaches H'' S'' → unbundle H'' c = .ok (f x)

theorem Elem.mono {α β : Type} {type : JNT} {unbundle : JHeap → Nat → Res β} {f : α → β} {H H' : JHeap}
    {S S' : List SNode} {a c : Nat} {x : α} (e : Elem type unbundle f H S a c x) (hk : Keeps H H')
    (hkk : KeepsKids (a + 1) H.length S S') (hc : a < c) (hcl : c < H.length) (hl : H.length ≤ H'.length) :
    Elem type unbundle f H' S' a c x := by
  obtain ⟨⟨N, h1, h2⟩, lo, hi, h3, h4, h5⟩ := e
  obtain ⟨N', g1, g2, _⟩ := hkk c N (by omega) hcl h1
  refine ⟨⟨N', g1, g2.trans h2⟩, lo, hi, h3, by omega, ?_⟩
  intro H'' S'' k1 k2 r
  exact h5 H'' S'' (hk.trans k1) ((hkk.mono (by omega) h4).trans k2) r

/-- Elements in order. -/
inductive Elems {α : Type} (P : Nat → α → Prop) : List Nat → List α → Prop
  | nil : Elems P [] []
  | cons {c x cs xs} : P c x → Elems P cs xs → Elems P (c :: cs) (x :: xs)

theorem Elems.imp {α : Type} {P Q : Nat → α → Prop} (h : ∀ c x, P c x → Q c x) {cs : List Nat} {xs : List α}
    (e : Elems P cs xs) : Elems Q cs xs := by
  induction e with
  | nil => exact .nil
  | cons hp _ ih => exact .cons (h _ _ hp) ih

theorem Elems.snoc {α : Type} {P : Nat → α → Prop} {cs : List Nat} {xs : List α} (e : Elems P cs xs) {c : Nat}
    {x : α} (h : P c x) : Elems P (cs ++ [c]) (xs ++ [x]) := by
  induction e with
  | nil => exact .cons h .nil
  | cons hp _ ih => exact .cons hp ih

theorem Elems.length {α : Type} {P : Nat → α → Prop} {cs : List Nat} {xs : List α} (e : Elems P cs xs) :
    cs.length = xs.length := by
  induction e with
  | nil => rfl
  | cons _ _ ih => simp [ih]

theorem kids_agree {S S' : List SNode} {a n : Nat} (h : ∀ i, i < n → i ≠ a → S'[i]? = S[i]?) :
    KeepsKids (a + 1) n S S' := by
  intro i N h1 h2 h3
  exact ⟨N, by rw [h i h2 (by omega)]; exact h3, rfl, rfl, rfl⟩

theorem bundleLoop_spec {α β : Type} {one : JHeap → α → Res (JHeap × Nat)} {type : JNT}
    {unbundle : JHeap → Nat → Res β} {f : α → β} : ∀ (xs done : List α) (H : JHeap) (S : List SNode) (a : Nat)
    (A : SNode), (∀ x ∈ xs, Bundles (one · x) type unbundle (f x)) → Reaches H S → S[a]? = some A →
    A.type = .array → Elems (fun c x => Elem type unbundle f H S a c x ∧ a < c ∧ c < H.length) A.elems done →
    ∃ ops H' S' cs, bundleLoop one H a xs = .ok H' ∧ sRun S ops = some S' ∧ jhRun H ops = .ok H' ∧
      (∀ i, i < S.length → i ≠ a → S'[i]? = S[i]?) ∧ H.length ≤ H'.length ∧
      S'[a]? = some { A with elems := cs } ∧
      Elems (fun c x => Elem type unbundle f H' S' a c x ∧ a < c ∧ c < H'.length) cs (done ++ xs)
  | [], done, H, S, a, A, _, r, hA, ht, he => by
    refine ⟨[], H, S, A.elems, rfl, rfl, rfl, fun _ _ _ => rfl, Nat.le_refl _, hA, ?_⟩
    rw [List.append_nil]; exact he
  | x :: xs, done, H, S, a, A, hb, r, hA, ht, he => by
    obtain ⟨ops, H1, H2, S2, c, h1, h2, h3, h4, h5, h6, h7, h8, h9, h10, h11⟩ :=
      bundle_add (hb x (by simp)) r hA ht
    have hlt : a < S.length := (List.getElem?_eq_some_iff.mp hA).1
    have hlen := r.len
    have r2 := r.run h3 h4
    have hlen2 := r2.len
    obtain ⟨ops', H', S', cs, g1, g2, g3, g4, g5, g6, g7⟩ :=
      bundleLoop_spec xs (done ++ [x]) H2 S2 a _ (fun x hx => hb x (by simp [hx])) r2 h7 ht (by
        refine Elems.snoc (he.imp ?_) ?_
        · intro c x ⟨e, hc1, hc2⟩
          exact ⟨e.mono (keeps_run ops h4) (kids_agree (by rw [hlen]; exact h5)) hc1 hc2 h6, hc1, by omega⟩
        · exact ⟨⟨h8, H.length, H2.length, by omega, Nat.le_refl _, h11⟩, by omega, h10⟩)
    refine ⟨ops ++ ops', H', S', cs, ?_, ?_, ?_, ?_, by omega, g6, ?_⟩
    · simp only [bundleLoop, h1, Res.ok_bind, h2]; exact g1
    · rw [sRun_append, h3]; exact g2
    · rw [jhRun_append, h4]; exact g3
    · intro i hi hia
      rw [g4 i (by omega) hia, h5 i hi hia]
    · simpa using g7

/-- Reading the elements from position `i` on. -/
theorem unbundleFrom_spec {α β : Type} {one : Nat → Res β} {H : JHeap} {a mask : Nat} {f : α → β}
    {P : Nat → α → Prop} (hP : ∀ c x, P c x → one c = .ok (f x)) : ∀ (xs : List α) (cs : List Nat) (i : Nat),
    (∀ j c, cs[j]? = some c → jhArrayGet H a ((i + j : Nat) : Int) mask = .ok (some c)) → Elems P cs xs →
    unbundleFrom one H a mask i xs.length = .ok (xs.map f) := by
  intro xs
  induction xs with
  | nil => intro cs i _ _; rfl
  | cons x xs ih =>
    intro cs i hg he
    cases he with
    | cons hp ht =>
      rename_i c cs
      rw [List.length_cons, unbundleFrom]
      have h0 := hg 0 c (by simp)
      rw [Nat.add_zero] at h0
      rw [h0]
      simp only [fget, Res.ok_bind, Res.pure_eq, hP _ _ hp]
      rw [ih cs (i + 1) (fun j d hd => by
        have := hg (j + 1) d (by simpa using hd)
        rw [show i + 1 + j = i + (j + 1) by omega]
        exact this) ht]
      rfl

/-- Arrays of values that can be bundled. -/
theorem bundles_array {α β : Type} {one : JHeap → α → Res (JHeap × Nat)} {type : JNT}
    {unbundle : JHeap → Nat → Res β} {f : α → β} {mask : Nat} (hm : type.bit &&& mask ≠ 0) (xs : List α)
    (hb : ∀ x ∈ xs, Bundles (one · x) type unbundle (f x)) :
    Bundles (bundleArray one · xs) .array (unbundleArray unbundle mask) (xs.map f) := by
  intro H S r
  have hlen := r.len
  have hs0 : sStep S (.new .array none) = some (S ++ [⟨.array, [], [], false⟩]) := rfl
  obtain ⟨H0, e0, r0⟩ := r.step hs0
  simp only [jhStep, Res.ok.injEq] at e0
  subst e0
  obtain ⟨ops, H', S', cs, h1, h2, h3, h4, h5, h6, h7⟩ := bundleLoop_spec xs [] (jhNew H .array none) _ H.length
    ⟨.array, [], [], false⟩ hb r0 (by rw [hlen]; exact getElem?_append_len _ _) rfl .nil
  simp only [jhNew, List.length_append, List.length_cons, List.length_nil] at h5
  refine ⟨.new .array none :: ops, H', S', H.length, ?_, ?_, ?_, ?_, Nat.le_refl _, by omega, ⟨_, h6, rfl, rfl⟩, ?_⟩
  · simp only [bundleArray, h1, Res.ok_bind]; rfl
  · simp only [sRun, hs0]; exact h2
  · simp only [jhRun, jhStep, Res.ok_bind]; exact h3
  · intro i hi
    rw [h4 i (by simp; omega) (by omega), List.getElem?_append_left hi]
  · intro H'' S'' hk hkk r''
    obtain ⟨A, hA, hAt, hAe, _⟩ := hkk H.length _ (Nat.le_refl _) (by omega) h6
    simp only at hAt hAe
    obtain ⟨M, hM, hMt⟩ := r''.type hA
    obtain ⟨g1, g2⟩ := r''.array hA hAt
    rw [hAe] at g1 g2
    unfold unbundleArray
    rw [readAt_some hM, Res.ok_bind, hMt, hAt, if_neg (by decide), g1, Res.ok_bind, h7.length, List.nil_append]
    rw [List.nil_append] at h7
    refine unbundleFrom_spec (P := fun c x => unbundle H'' c = .ok (f x) ∧ ∃ N, S''[c]? = some N ∧ N.type = type)
      (fun c x h => h.1) xs cs 0 ?_ (h7.imp ?_)
    · intro j c hj
      rw [g2]
      have : ((0 + j : Nat) : Int).toNat = j := by omega
      rw [this, hj]
      have hc : ∀ {cs : List Nat} {xs : List α} (j : Nat) (c : Nat),
          Elems (fun c x => Elem type unbundle f H' S' H.length c x ∧ H.length < c ∧ c < H'.length) cs xs →
          cs[j]? = some c → ∃ x, Elem type unbundle f H' S' H.length c x ∧ H.length < c ∧ c < H'.length := by
        intro cs xs j c e
        induction e generalizing j with
        | nil => intro h; simp at h
        | cons hp _ ih =>
          intro h
          cases j with
          | zero => simp only [List.getElem?_cons_zero, Option.some.injEq] at h; subst h; exact ⟨_, hp⟩
          | succ j => exact ih j (by simpa using h)
      obtain ⟨x, ⟨⟨N, hN, hNt⟩, _⟩, hc1, hc2⟩ := hc j c h7 hj
      obtain ⟨N', hN', hNt', _⟩ := hkk c N (by omega) hc2 hN
      simp only [Option.bind_some, sFilter, hN', hNt', hNt]
      rw [if_pos hm]
    · intro c x ⟨⟨⟨N, hN, hNt⟩, lo, hi, hlo, hhi, hread⟩, hc1, hc2⟩
      obtain ⟨N', hN', hNt', _⟩ := hkk c N (by omega) hc2 hN
      exact ⟨hread H'' S'' hk (hkk.mono (by omega) hhi) r'', N', hN', hNt'.trans hNt⟩

/-! ## Objects -/

/-- The members of an object are leaves with the given names, types and texts. -/
def MembersAre (H : JHeap) (o : Nat) : List (Bytes × Nat) → List (Bytes × JNT × Bytes) → Prop
  | [], [] => True
  | (k, c) :: m, (name, type, text) :: l =>
    k = name ∧ o < c ∧ (∃ N, H[c]? = some N ∧ N.type = type ∧ N.text = some text) ∧ MembersAre H o m l
  | _, _ => False

theorem MembersAre.mono {H H' : JHeap} {o : Nat} (hk : Keeps H H') : ∀ {m : List (Bytes × Nat)}
    {l : List (Bytes × JNT × Bytes)}, MembersAre H o m l → MembersAre H' o m l
  | [], [], _ => trivial
  | (k, c) :: m, (name, type, text) :: l, h => by
    obtain ⟨h1, h2, ⟨N, h3, h4, h5⟩, h6⟩ := h
    obtain ⟨N', g1, g2, g3⟩ := hk c N h3
    exact ⟨h1, h2, ⟨N', g1, g2.trans h4, g3.trans h5⟩, h6.mono hk⟩
  | [], _ :: _, h => h.elim
  | _ :: _, [], h => h.elim

theorem MembersAre.snoc {H : JHeap} {o : Nat} {name text : Bytes} {type : JNT} {c : Nat} (hc : o < c)
    (hN : ∃ N, H[c]? = some N ∧ N.type = type ∧ N.text = some text) : ∀ {m : List (Bytes × Nat)}
    {l : List (Bytes × JNT × Bytes)}, MembersAre H o m l →
    MembersAre H o (m ++ [(name, c)]) (l ++ [(name, type, text)])
  | [], [], _ => ⟨rfl, hc, hN, trivial⟩
  | (k, d) :: m, (name', type', text') :: l, h => by
    obtain ⟨h1, h2, h3, h4⟩ := h
    exact ⟨h1, h2, h3, h4.snoc hc hN⟩
  | [], _ :: _, h => h.elim
  | _ :: _, [], h => h.elim

theorem MembersAre.find {H : JHeap} {o : Nat} (name : Bytes) {type : JNT} {text : Bytes} :
    ∀ {m : List (Bytes × Nat)} {l : List (Bytes × JNT × Bytes)}, MembersAre H o m l →
    l.find? (fun e => e.1 = name) = some (name, type, text) →
    ∃ c N, m.find? (fun e => e.1 = name) = some (name, c) ∧ H[c]? = some N ∧ N.type = type ∧ N.text = some text
  | [], [], _, hf => by simp at hf
  | (k, d) :: m, (name', type', text') :: l, h, hf => by
    obtain ⟨rfl, _, ⟨N, h3, h4, h5⟩, h6⟩ := h
    by_cases hk : k = name
    · subst hk
      simp only [List.find?_cons, decide_true, Option.some.injEq, Prod.mk.injEq, true_and] at hf
      obtain ⟨rfl, rfl⟩ := hf
      exact ⟨d, N, by simp, h3, h4, h5⟩
    · simp only [List.find?_cons, hk, decide_false] at hf ⊢
      exact h6.find name hf
  | [], _ :: _, h, _ => h.elim
  | _ :: _, [], h, _ => h.elim

theorem takeWhile_cstr {s : Bytes} (h : CStr s) : s.takeWhile (fun b => decide (b ≠ 0)) = s := by
  apply takeWhile_all
  intro b hb
  simp only [ne_eq, decide_eq_true_eq]
  rintro rfl
  exact h hb

theorem bundleMembers_spec : ∀ (l done : List (Bytes × JNT × Bytes)) (H : JHeap) (S : List SNode) (o : Nat)
    (O : SNode), (∀ e ∈ l, CStr e.2.2) → Reaches H S → S[o]? = some O → O.type = .object →
    MembersAre H o O.members done →
    ∃ ops H' S' m, bundleMembers H o l = .ok H' ∧ sRun S ops = some S' ∧ jhRun H ops = .ok H' ∧
      (∀ i, i < S.length → i ≠ o → S'[i]? = S[i]?) ∧ H.length ≤ H'.length ∧
      S'[o]? = some { O with members := m } ∧ MembersAre H' o m (done ++ l)
  | [], done, H, S, o, O, _, r, hO, ht, hm => by
    refine ⟨[], H, S, O.members, rfl, rfl, rfl, fun _ _ _ => rfl, Nat.le_refl _, hO, ?_⟩
    rw [List.append_nil]; exact hm
  | (name, type, text) :: l, done, H, S, o, O, hc, r, hO, ht, hm => by
    have hlt : o < S.length := (List.getElem?_eq_some_iff.mp hO).1
    have hlen := r.len
    have htx : text.takeWhile (fun b => decide (b ≠ 0)) = text := takeWhile_cstr (hc (name, type, text) (by simp))
    have hs0 : sStep S (.new type (some text)) = some (S ++ [⟨type, [], [], false⟩]) := rfl
    obtain ⟨H1, e1, r1⟩ := r.step hs0
    simp only [jhStep, Res.ok.injEq] at e1
    subst e1
    have hO1 : (S ++ [⟨type, [], [], false⟩] : List SNode)[o]? = some O := getElem?_append_of_some hO
    have hV1 : (S ++ [⟨type, [], [], false⟩] : List SNode)[S.length]? = some ⟨type, [], [], false⟩ :=
      getElem?_append_len _ _
    have hO2 : ((S ++ [⟨type, [], [], false⟩] : List SNode).set S.length (⟨type, [], [], true⟩ : SNode))[o]? = some O := by
      rw [List.getElem?_set_ne (Nat.ne_of_gt hlt)]; exact hO1
    have hs : sStep (S ++ [⟨type, [], [], false⟩]) (.objectAdd o name S.length) =
        some (((S ++ [⟨type, [], [], false⟩] : List SNode).set S.length ⟨type, [], [], true⟩).set o
          { O with members := O.members ++ [(name, S.length)] } ++ [⟨.string, [], [], true⟩]) := by
      simp only [sStep, hO1, hV1]
      rw [if_pos ⟨ht, trivial⟩]
      simp only [hO2]
    obtain ⟨H2, e2, r2⟩ := r1.step hs
    have hlen2 := r2.len
    simp only [List.length_append, List.length_set, List.length_cons, List.length_nil] at hlen2
    have hkeep := keeps_step e2
    obtain ⟨ops', H', S', m, g1, g2, g3, g4, g5, g6, g7⟩ :=
      bundleMembers_spec l (done ++ [(name, type, text)]) H2 _ o
        { O with members := O.members ++ [(name, S.length)] } (fun e he => hc e (by simp [he])) r2 (by
          apply getElem?_append_of_some
          rw [List.getElem?_set_self (by simp; omega)]) ht (by
          refine MembersAre.snoc hlt ?_ ((hm.mono (keeps_new H type (some text))).mono hkeep)
          obtain ⟨N', q1, q2, q3⟩ := hkeep S.length _ (by rw [← hlen]; exact getElem?_append_len H _)
          exact ⟨N', q1, q2, q3⟩)
    refine ⟨.new type (some text) :: .objectAdd o name S.length :: ops', H', S', m, ?_, ?_, ?_, ?_, by omega, g6, ?_⟩
    · simp only [bundleMembers, jbVariable, Res.ok_bind, htx]
      rw [hlen, show jhObjectAdd (jhNew H type (some text)) o name S.length = .ok H2 from e2]
      exact g1
    · simp only [sRun, hs0, hs, Option.bind_some]; exact g2
    · have e2' : jhObjectAdd (jhNew H type (some text)) o name S.length = .ok H2 := e2
      simp only [jhRun, jhStep, Res.ok_bind, e2']; exact g3
    · intro i hi hio
      rw [g4 i (by simp; omega) hio, List.getElem?_append_left (by simp; omega),
        List.getElem?_set_ne (Ne.symm hio), List.getElem?_set_ne (by omega), List.getElem?_append_left hi]
    · simpa using g7

/-- Reading a member. -/
theorem fget_member {H : JHeap} {S : List SNode} (r : Reaches H S) {o : Nat} {O : SNode} (hO : S[o]? = some O)
    (ht : O.type = .object) {l : List (Bytes × JNT × Bytes)} (hm : MembersAre H o O.members l) (name : Bytes)
    {type : JNT} {text : Bytes} (hf : l.find? (fun e => e.1 = name) = some (name, type, text)) {mask : Nat}
    (hmask : type.bit &&& mask ≠ 0) : ∃ c N, fget (jhObjectGet H o name mask) = .ok c ∧
      H[c]? = some N ∧ N.type = type ∧ N.text = some text := by
  obtain ⟨c, N, h1, h2, h3, h4⟩ := hm.find name hf
  refine ⟨c, N, ?_, h2, h3, h4⟩
  rw [r.object hO ht, h1]
  obtain ⟨L, hi⟩ := r.inv
  have hlt : c < S.length := by rw [← hi.len]; exact (List.getElem?_eq_some_iff.mp h2).1
  obtain ⟨M, hM, hMt, _⟩ := hi.node c S[c] (List.getElem?_eq_getElem hlt)
  rw [h2] at hM; cases hM
  simp only [Option.map_some, Option.bind_some, sFilter, List.getElem?_eq_getElem hlt]
  rw [if_pos (by rw [← hMt, h3]; exact hmask)]
  rfl

end Nx
