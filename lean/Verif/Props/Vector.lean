import Verif.Spec.Vector
import Verif.Props.MemBlock

/-!
# C90: generic vectors behave as lists of items
-/

namespace Nx

/-- The fields of a vector with this block. -/
def vFieldsOf (k : Nat) (m : MBlock) : VFields := ⟨m.size / k, m.cap / k, m.ptr⟩

/-- The invariant. -/
structure VInv (k : Nat) (w : VWorld) : Prop where
  mem : MInv w.mem.heap w.mem.blocks
  fld : w.fields = w.mem.blocks.map (Option.map (vFieldsOf k))

/-- The state in terms of the visible bytes of the blocks. -/
def VIs (k : Nat) (w : VWorld) (A : VState) : Prop :=
  ∀ b, match A b with
    | none => visible w.mem b = none
    | some l => visible w.mem b = some l.flatten ∧ ∀ x ∈ l, x.length = k

theorem flatten_len {α : Type} {k : Nat} {l : List (List α)} (h : ∀ x ∈ l, x.length = k) : l.flatten.length = l.length * k := by
  induction l with
  | nil => simp
  | cons a l ih =>
    rw [List.flatten_cons, List.length_append, ih (fun x hx => h x (List.mem_cons_of_mem _ hx)), h a List.mem_cons_self, List.length_cons]
    rw [Nat.add_mul, Nat.one_mul, Nat.add_comm]

theorem flatten_chunk {α : Type} {k : Nat} {l : List (List α)} (h : ∀ x ∈ l, x.length = k) {i : Nat} {x : List α} (hx : l[i]? = some x) :
    (l.flatten.drop (i * k)).take k = x := by
  induction l generalizing i with
  | nil => simp at hx
  | cons a l ih =>
    have ha := h a List.mem_cons_self
    cases i with
    | zero =>
      rw [List.getElem?_cons_zero] at hx
      rw [Option.some.inj hx] at ha ⊢
      rw [Nat.zero_mul, List.drop_zero, List.flatten_cons, List.take_append_of_le_length (by omega), List.take_of_length_le (by omega)]
    | succ i =>
      rw [List.getElem?_cons_succ] at hx
      rw [List.flatten_cons, Nat.succ_mul, Nat.add_comm, ← List.drop_drop]
      rw [List.drop_left' ha]
      exact ih (fun x hx => h x (List.mem_cons_of_mem _ hx)) hx

theorem split_items {α : Type} (k n : Nat) : ∀ (bytes : List α), bytes.length = n * k → ∃ l : List (List α), l.flatten = bytes ∧ (∀ x ∈ l, x.length = k) ∧ l.length = n := by
  induction n with
  | zero =>
    intro bytes hb
    rw [Nat.zero_mul] at hb
    exact ⟨[], by rw [List.length_eq_zero_iff.mp hb]; rfl, by simp, rfl⟩
  | succ n ih =>
    intro bytes hb
    rw [Nat.succ_mul] at hb
    obtain ⟨l, h1, h2, h3⟩ := ih (bytes.drop k) (by rw [List.length_drop]; omega)
    refine ⟨bytes.take k :: l, by rw [List.flatten_cons, h1, List.take_append_drop], ?_, by rw [List.length_cons, h3]⟩
    intro x hx
    rcases List.mem_cons.mp hx with rfl | hx
    · rw [List.length_take]; omega
    · exact h2 x hx

theorem visible_none_iff {h : MHeap} {bs : List (Option MBlock)} (hi : MInv h bs) (b : Nat) :
    visible ⟨h, bs⟩ b = none ↔ ∀ m, bs[b]? ≠ some (some m) := by
  constructor
  · intro hv m hm
    rw [visible_blk (hi.blk b m hm) hm] at hv
    cases hv
  · intro hn
    unfold visible
    split
    · rename_i m hm; exact absurd hm (hn m)
    · rfl

theorem VInv.field {k : Nat} {w : VWorld} (hi : VInv k w) {b : Nat} {m : MBlock} (hb : w.mem.blocks[b]? = some (some m)) :
    w.fields[b]? = some (some (vFieldsOf k m)) := by
  rw [hi.fld, List.getElem?_map, hb]
  rfl

theorem VInv.block {k : Nat} {w : VWorld} (hi : VInv k w) {b : Nat} {f : VFields} (hf : w.fields[b]? = some (some f)) :
    ∃ m, w.mem.blocks[b]? = some (some m) ∧ f = vFieldsOf k m := by
  rw [hi.fld, List.getElem?_map] at hf
  cases hb : w.mem.blocks[b]? with
  | none => rw [hb] at hf; cases hf
  | some o =>
    cases o with
    | none => rw [hb] at hf; cases hf
    | some m =>
      rw [hb] at hf
      cases hf
      exact ⟨m, rfl, rfl⟩

theorem VIs.alive {k : Nat} {w : VWorld} {A : VState} (hi : VInv k w) (hA : VIs k w A) {b : Nat} {l : List (List (Option Byte))} (hb : A b = some l) :
    ∃ m, w.mem.blocks[b]? = some (some m) ∧ m.size = l.length * k ∧ (blkBytes w.mem.heap m).take m.size = l.flatten ∧ ∀ x ∈ l, x.length = k := by
  have h := hA b
  rw [hb] at h
  obtain ⟨h1, h2⟩ := h
  by_cases hn : ∀ m, w.mem.blocks[b]? ≠ some (some m)
  · rw [(visible_none_iff hi.mem b).mpr hn] at h1
    cases h1
  · have ⟨m, hm⟩ := Classical.not_forall.mp hn
    have hm := Classical.not_not.mp hm
    have hv := visible_blk (hi.mem.blk b m hm) hm
    have e : (blkBytes w.mem.heap m).take m.size = l.flatten := Option.some.inj (hv.symm.trans h1)
    refine ⟨m, hm, ?_, e, h2⟩
    rw [← flatten_len h2, ← e, mbLenVisible (hi.mem.blk b m hm)]

theorem vshows_of {k : Nat} (hk : 0 < k) {w : VWorld} {A : VState} (hi : VInv k w) (hA : VIs k w A) (b : Nat) : VShows k w b (A b) := by
  have h := hA b
  cases hb : A b with
  | none =>
    rw [hb] at h
    intro f hf
    obtain ⟨m, hm, _⟩ := hi.block hf
    exact (visible_none_iff hi.mem b).mp h m hm
  | some l =>
    obtain ⟨m, hm, hs, hbytes, hl⟩ := hA.alive hi hb
    have hok := hi.mem.blk b m hm
    refine ⟨_, hi.field hm, ?_, Nat.div_le_div_right hok.1, ?_⟩
    · show m.size / k = l.length
      rw [hs, Nat.mul_div_cancel _ hk]
    · intro i x hx
      have hil : i < l.length := lt_of_live hx
      have hik : i * k + k ≤ m.size := by
        rw [hs, ← Nat.succ_mul]
        exact Nat.mul_le_mul_right k hil
      refine ⟨?_, hl x (List.mem_of_getElem? hx)⟩
      unfold vGet fieldsAt
      rw [hi.field hm]
      simp only [Res.ok_bind]
      obtain ⟨hsc, ⟨h0, h1, _⟩ | ⟨p, c, hp, hc, hcl, _⟩⟩ := hok
      · omega
      · simp only [vFieldsOf, hp, chunkAt_ok hc, Res.ok_bind]
        rw [if_pos (by omega), Res.pure_eq]
        congr 1
        have hb2 : c.data.take m.size = l.flatten := by
          rw [← hbytes]
          unfold blkBytes
          simp only [hp, hc]
        rw [← flatten_chunk hl hx, ← hb2, List.drop_take, List.take_take, Nat.min_eq_left (by omega)]

theorem vshows_unique {k : Nat} {w : VWorld} {b : Nat} {o o' : Option (List (List (Option Byte)))} (h : VShows k w b o) (h' : VShows k w b o') : o = o' := by
  cases o with
  | none =>
    cases o' with
    | none => rfl
    | some l => obtain ⟨f, hf, _⟩ := h'; exact absurd hf (h f)
  | some l =>
    obtain ⟨f, hf, hs, _, hg⟩ := h
    cases o' with
    | none => exact absurd hf (h' f)
    | some l' =>
      obtain ⟨f', hf', hs', _, hg'⟩ := h'
      rw [hf] at hf'
      cases hf'
      have hlen : l.length = l'.length := by omega
      congr 1
      refine List.ext_getElem hlen (fun i h1 h2 => ?_)
      have e1 := (hg i _ (List.getElem?_eq_getElem h1)).1
      have e2 := (hg' i _ (List.getElem?_eq_getElem h2)).1
      rw [e1] at e2
      exact Res.ok.inj e2

/-- The lists of the vectors, from the memory. -/
theorem vis_exists {k : Nat} {w : VWorld} (hi : VInv k w) (hd : ∀ (b : Nat) m, w.mem.blocks[b]? = some (some m) → k ∣ m.size) : ∃ A, VIs k w A := by
  have h : ∀ b, ∃ o : Option (List (List (Option Byte))), match o with
      | none => visible w.mem b = none
      | some l => visible w.mem b = some l.flatten ∧ ∀ x ∈ l, x.length = k := by
    intro b
    by_cases hn : ∀ m, w.mem.blocks[b]? ≠ some (some m)
    · exact ⟨none, (visible_none_iff hi.mem b).mpr hn⟩
    · have ⟨m, hm⟩ := Classical.not_forall.mp hn
      have hm := Classical.not_not.mp hm
      obtain ⟨n, hn⟩ := hd b m hm
      obtain ⟨l, h1, h2, _⟩ := split_items k n ((blkBytes w.mem.heap m).take m.size) (by rw [mbLenVisible (hi.mem.blk b m hm), hn, Nat.mul_comm])
      refine ⟨some l, ?_, h2⟩
      rw [h1]
      exact visible_blk (hi.mem.blk b m hm) hm
  exact ⟨fun b => Classical.choose (h b), fun b => Classical.choose_spec (h b)⟩

/-- One list is replaced. -/
def vSet (A : VState) (b : Nat) (o : Option (List (List (Option Byte)))) : VState := fun c => if c = b then o else A c

theorem vSet_self (A : VState) (b : Nat) (o) : vSet A b o b = o := if_pos rfl

theorem vSet_ne (A : VState) {b c : Nat} (o) (h : c ≠ b) : vSet A b o c = A c := if_neg h

theorem VIs.set {k : Nat} {w w' : VWorld} {A : VState} (hA : VIs k w A) {b : Nat} {l : List (List (Option Byte))} (hl : ∀ x ∈ l, x.length = k)
    (hb : visible w'.mem b = some l.flatten) (ho : ∀ c, c ≠ b → visible w'.mem c = visible w.mem c) : VIs k w' (vSet A b (some l)) := by
  intro c
  by_cases h : c = b
  · subst h
    rw [vSet_self]
    exact ⟨hb, hl⟩
  · rw [vSet_ne A _ h, ho c h]
    exact hA c

theorem vUpdate_spec {k : Nat} {w : VWorld} (hi : VInv k w) {mem : MWorld} (hm : MInv mem.heap mem.blocks) {b : Nat} {m m' : MBlock}
    (hb : w.mem.blocks[b]? = some (some m)) (hs : mem.blocks = w.mem.blocks.set b (some m')) :
    ∃ w', vUpdate k mem w.fields b = .ok w' ∧ w'.mem = mem ∧ VInv k w' := by
  refine ⟨⟨mem, w.fields.set b (some (vFieldsOf k m'))⟩, ?_, rfl, hm, ?_⟩
  · unfold vUpdate blockAt
    rw [hs, List.getElem?_set_self (lt_of_live hb)]
    rfl
  · simp only
    rw [hi.fld, hs, List.map_set]
    rfl

theorem reserve_block {w w' : MWorld} {b n : Nat} (h : mStep w (.reserve b n) = .ok w') : ∃ m', w'.blocks = w.blocks.set b (some m') ∧ n ≤ m'.cap := by
  simp only [mStep] at h
  rw [Res.bind_eq_ok] at h
  obtain ⟨m, _, h⟩ := h
  rw [Res.bind_eq_ok] at h
  obtain ⟨⟨h', m'⟩, h1, h⟩ := h
  cases h
  refine ⟨m', rfl, ?_⟩
  unfold mbReserve at h1
  split at h1
  · split at h1
    · rw [Res.bind_eq_ok] at h1
      obtain ⟨⟨_, _⟩, _, h1⟩ := h1
      cases h1
      exact Nat.le_refl _
    · rw [Res.bind_eq_ok] at h1
      obtain ⟨_, _, h1⟩ := h1
      cases h1
      exact Nat.le_refl _
  · cases h1
    omega

theorem resize_block {w w' : MWorld} {b n : Nat} (h : mStep w (.resize b n) = .ok w') : ∃ m', w'.blocks = w.blocks.set b (some m') := by
  simp only [mStep] at h
  rw [Res.bind_eq_ok] at h
  obtain ⟨m, _, h⟩ := h
  rw [Res.bind_eq_ok] at h
  obtain ⟨⟨h', m'⟩, h1, h⟩ := h
  cases h
  exact ⟨m', rfl⟩

theorem wrap_block {w w' : MWorld} {b sz : Nat} {data : Bytes} {own : Bool} (h : mStep w (.wrap b data sz own) = .ok w') :
    ∃ m', w'.blocks = w.blocks.set b (some m') := by
  simp only [mStep] at h
  rw [Res.bind_eq_ok] at h
  obtain ⟨m, _, h⟩ := h
  rw [Res.bind_eq_ok] at h
  obtain ⟨⟨h', m'⟩, h1, h⟩ := h
  cases h
  exact ⟨m', rfl⟩

theorem copy_block {w w' : MWorld} {d s : Nat} (h : mStep w (.copy d s) = .ok w') : ∃ m', w'.blocks = w.blocks.set d (some m') := by
  simp only [mStep] at h
  rw [Res.bind_eq_ok] at h
  obtain ⟨m, _, h⟩ := h
  rw [Res.bind_eq_ok] at h
  obtain ⟨m2, _, h⟩ := h
  rw [Res.bind_eq_ok] at h
  obtain ⟨⟨h', m'⟩, h1, h⟩ := h
  cases h
  exact ⟨m', rfl⟩

section
variable {k : Nat} {w : VWorld} {A : VState}

theorem vAlloc_spec (hi : VInv k w) (hA : VIs k w A) :
    VInv k (vAlloc w) ∧ VIs k (vAlloc w) (vSet A w.fields.length (some [])) ∧ w.fields.length = w.mem.blocks.length := by
  have hlen : w.fields.length = w.mem.blocks.length := by rw [hi.fld, List.length_map]
  have hstep : mStep w.mem (.new 0) = .ok (vAlloc w).mem := rfl
  obtain ⟨w', h1, h2, h3⟩ := mStep_spec (op := .new 0) hi.mem trivial
  rw [hstep] at h1
  cases h1
  refine ⟨⟨h2, ?_⟩, ?_, hlen⟩
  · show w.fields ++ [_] = (w.mem.blocks ++ [some mbAlloc]).map _
    rw [List.map_append, hi.fld]
    simp [vFieldsOf, mbAlloc]
  · obtain ⟨⟨l, hl, hl0⟩, ho⟩ := h3
    rw [List.length_eq_zero_iff.mp hl0] at hl
    rw [hlen]
    exact hA.set (by simp) hl ho

theorem vReserve_spec (hk : 0 < k) (hi : VInv k w) (hA : VIs k w A) {b : Nat} (hb : (A b).isSome) (n : Nat) :
    ∃ w', vReserve k w b n = .ok w' ∧ VInv k w' ∧ VIs k w' A ∧ w'.fields.length = w.fields.length ∧
      ∀ f, w'.fields[b]? = some (some f) → n ≤ f.cap := by
  obtain ⟨l, hl⟩ := Option.isSome_iff_exists.mp hb
  obtain ⟨m, hm, hs, _, _⟩ := hA.alive hi hl
  unfold vReserve fieldsAt
  rw [hi.field hm]
  simp only [Res.ok_bind]
  split
  · obtain ⟨mem, h1, h2, h3⟩ := mStep_spec (op := .reserve b (n * k)) hi.mem ⟨m, hm⟩
    obtain ⟨m', e, hc⟩ := reserve_block h1
    obtain ⟨w', e', rfl, hi'⟩ := vUpdate_spec hi h2 hm e
    rw [h1, Res.ok_bind]
    refine ⟨w', e', hi', ?_, ?_, ?_⟩
    · intro c
      rw [h3 c]
      exact hA c
    · rw [hi'.fld, hi.fld, List.length_map, List.length_map, e, List.length_set]
    · intro f hf
      have hm' : w'.mem.blocks[b]? = some (some m') := by rw [e, List.getElem?_set_self (lt_of_live hm)]
      rw [hi'.field hm'] at hf
      cases hf
      exact (Nat.le_div_iff_mul_le hk).mpr hc
  · rename_i hn
    refine ⟨w, rfl, hi, hA, rfl, ?_⟩
    intro f hf
    rw [hi.field hm] at hf
    cases hf
    omega

theorem vResize_spec (hi : VInv k w) (hA : VIs k w A) {b : Nat} {l : List (List (Option Byte))} (hb : A b = some l) (n : Nat) :
    ∃ w' l', vResize k w b n = .ok w' ∧ VInv k w' ∧ VIs k w' (vSet A b (some l')) ∧ l'.length = n ∧ w'.fields.length = w.fields.length ∧
      ∀ i, i < l.length → i < n → l'[i]? = l[i]? := by
  obtain ⟨m, hm, hs, _, hlk⟩ := hA.alive hi hb
  obtain ⟨mem, h1, h2, ⟨bs, bs', hv, hv', hlen, hpre⟩, ho⟩ := mStep_spec (op := .resize b (n * k)) hi.mem ⟨m, hm⟩
  have hvis := hA b
  rw [hb] at hvis
  rw [hvis.1] at hv
  have hbs : l.flatten = bs := Option.some.inj hv
  subst hbs
  obtain ⟨m', e⟩ := resize_block h1
  obtain ⟨w', e', rfl, hi'⟩ := vUpdate_spec hi h2 hm e
  obtain ⟨l', g1, g2, g3⟩ := split_items k n bs' hlen
  refine ⟨w', l', ?_, hi', hA.set g2 (by rw [g1]; exact hv') ho, g3, ?_, ?_⟩
  · unfold vResize
    rw [h1, Res.ok_bind, e']
  · rw [hi'.fld, hi.fld, List.length_map, List.length_map, e, List.length_set]
  · intro i h1 h2
    rw [List.getElem?_eq_getElem h1, List.getElem?_eq_getElem (by omega)]
    congr 1
    have c1 := flatten_chunk hlk (List.getElem?_eq_getElem h1)
    have c2 := flatten_chunk g2 (List.getElem?_eq_getElem (show i < l'.length by omega))
    rw [g1] at c2
    rw [← c1, ← c2]
    have a1 : i * k + k ≤ l.length * k := by rw [← Nat.succ_mul]; exact Nat.mul_le_mul_right k h1
    have a2 : i * k + k ≤ n * k := by rw [← Nat.succ_mul]; exact Nat.mul_le_mul_right k h2
    have a3 := flatten_len hlk
    have key : ∀ (x : List (Option Byte)), (x.drop (i * k)).take k = ((x.take (min l.flatten.length (n * k))).drop (i * k)).take k := by
      intro x
      rw [List.drop_take, List.take_take, Nat.min_eq_left (by omega)]
    rw [key bs', key l.flatten, hpre]

theorem vCopy_spec (hi : VInv k w) (hA : VIs k w A) {d s : Nat} {ls : List (List (Option Byte))} (hd : (A d).isSome) (hs : A s = some ls) (hne : d ≠ s) :
    ∃ w', vCopy k w d s = .ok w' ∧ VInv k w' ∧ VIs k w' (vSet A d (some ls)) := by
  obtain ⟨ld, hd⟩ := Option.isSome_iff_exists.mp hd
  obtain ⟨m, hm, _⟩ := hA.alive hi hd
  obtain ⟨ms, hms, _, _, hlk⟩ := hA.alive hi hs
  obtain ⟨mem, h1, h2, hv, ho⟩ := mStep_spec (op := .copy d s) hi.mem ⟨⟨m, hm⟩, ⟨ms, hms⟩, hne⟩
  have hvis := hA s
  rw [hs] at hvis
  obtain ⟨m', e⟩ := copy_block h1
  obtain ⟨w', e', rfl, hi'⟩ := vUpdate_spec hi h2 hm e
  refine ⟨w', ?_, hi', hA.set hlk (by rw [hv, hvis.1]) ho⟩
  unfold vCopy
  rw [h1, Res.ok_bind, e']

theorem flatten_set {α : Type} {k : Nat} {l : List (List α)} (h : ∀ x ∈ l, x.length = k) {i : Nat} (hi : i < l.length) (x : List α) :
    (l.set i x).flatten = l.flatten.take (i * k) ++ x ++ l.flatten.drop (i * k + k) := by
  induction l generalizing i with
  | nil => simp at hi
  | cons a l ih =>
    have ha := h a List.mem_cons_self
    cases i with
    | zero => rw [List.set_cons_zero, List.flatten_cons, List.flatten_cons, Nat.zero_mul, List.take_zero, List.nil_append, Nat.zero_add, List.drop_left' ha]
    | succ i =>
      have e : (i + 1) * k = a.length + i * k := by rw [Nat.succ_mul, ha, Nat.add_comm]
      rw [List.set_cons_succ, List.flatten_cons, List.flatten_cons, ih (fun x hx => h x (List.mem_cons_of_mem _ hx)) (by simpa using hi), e,
        List.take_length_add_append, Nat.add_assoc, List.drop_length_add_append]
      simp only [List.append_assoc]

theorem take_splice {α : Type} (data it : List α) (a : Nat) {n : Nat} (h1 : a + it.length ≤ n) (h2 : n ≤ data.length) :
    (data.take a ++ it ++ data.drop (a + it.length)).take n = (data.take n).take a ++ it ++ (data.take n).drop (a + it.length) := by
  have hl : (data.take a ++ it).length = a + it.length := by rw [List.length_append, List.length_take]; omega
  rw [List.take_append (l₁ := data.take a ++ it), hl, List.take_of_length_le (l := data.take a ++ it) (by omega), List.take_take, Nat.min_eq_left (by omega), List.drop_take]

theorem itemsOf_flatten (k : Nat) (data : Bytes) (sz : Nat) (h : sz * k ≤ data.length) : (itemsOf k data sz).flatten = (data.take (sz * k)).map some := by
  induction sz with
  | zero => simp [itemsOf]
  | succ n ih =>
    rw [Nat.succ_mul] at h ⊢
    have h := ih (by omega)
    unfold itemsOf at h ⊢
    rw [List.range_succ, List.map_append, List.flatten_append, h, List.take_add, List.map_append]
    simp

theorem vPut_spec (hk : 0 < k) (hi : VInv k w) (hA : VIs k w A) {b i : Nat} {l : List (List (Option Byte))} (hb : A b = some l) (hil : i < l.length)
    {item : Bytes} (hit : item.length = k) :
    ∃ w', vPut k w b i item = .ok w' ∧ VInv k w' ∧ VIs k w' (vSet A b (some (l.set i (item.map some)))) := by
  obtain ⟨m, hm, hs, hbytes, hlk⟩ := hA.alive hi hb
  have hok := hi.mem.blk b m hm
  have hik : i * k + k ≤ m.size := by
    rw [hs, ← Nat.succ_mul]
    exact Nat.mul_le_mul_right k hil
  unfold vPut fieldsAt
  rw [hi.field hm]
  simp only [Res.ok_bind]
  obtain ⟨hsc, ⟨h0, h1, h2⟩ | ⟨p, c, hp, hc, hcl, hu⟩⟩ := id hok
  · omega
  · have hpl := lt_of_live hc
    simp only [vFieldsOf, hp, chunkAt_ok hc, Res.ok_bind]
    rw [if_pos ⟨by omega, hit⟩, Res.pure_eq]
    have hu' : Upd w.mem.heap m (w.mem.heap.set p (some { c with data := c.data.take (i * k) ++ item.map some ++ c.data.drop (i * k + k) })) m := by
      refine ⟨⟨hsc, Or.inr ⟨p, _, hp, List.getElem?_set_self hpl, by simp; omega, hu⟩⟩, ?_, fun p hp => Or.inl hp, ?_⟩
      · intro q _ hne; rw [List.getElem?_set_ne]; intro e; subst e; exact hne hp
      · intro q c' hq hc'
        rcases getElem?_set_some hq with ⟨e1, e2⟩ | ⟨hne, hq⟩
        · left; subst e1; cases e2
          refine ⟨hp, ?_⟩
          simp only at hc'; rw [hc'] at hu
          revert hu; cases m.own <;> simp
        · refine Or.inr ⟨hq, ?_⟩
          rw [hp]; intro e; cases e; exact hne rfl
    have hinv := hi.mem.upd hm hu'
    have hoth := fun c (e : c ≠ b) => visible_upd hi.mem hm hu' e
    rw [set_same hm] at hinv
    simp only [set_same hm] at hoth
    refine ⟨_, rfl, ⟨hinv, hi.fld⟩, hA.set ?_ ?_ hoth⟩
    · intro x hx
      rcases List.mem_or_eq_of_mem_set hx with h | h
      · exact hlk x h
      · rw [h, List.length_map, hit]
    · have hb2 : c.data.take m.size = l.flatten := by
        rw [← hbytes]
        unfold blkBytes
        simp only [hp, hc]
      show visible ⟨_, w.mem.blocks⟩ b = _
      rw [visible_blk hu'.ok hm, flatten_set hlk hil, ← hb2]
      unfold blkBytes
      simp only [hp, List.getElem?_set_self hpl]
      congr 1
      have hsp := take_splice c.data (item.map some) (i * k) (n := m.size) (by rw [List.length_map, hit]; exact hik) (by omega)
      rw [List.length_map, hit] at hsp
      exact hsp

/-- Each call has its effect. -/
theorem vStep_spec (hk : 0 < k) (hi : VInv k w) (hA : VIs k w A) {op : VOp} (ha : VAllowed k A op) :
    ∃ w' A', vStep k w op = .ok w' ∧ VInv k w' ∧ VIs k w' A' ∧ VEffect k w.fields.length A A' op := by
  cases op with
  | alloc =>
    obtain ⟨h1, h2, _⟩ := vAlloc_spec hi hA
    exact ⟨_, _, rfl, h1, h2, vSet_self _ _ _, fun c h => vSet_ne _ _ h⟩
  | new n =>
    obtain ⟨h1, h2, _⟩ := vAlloc_spec hi hA
    obtain ⟨w', e, h3, h4, _⟩ := vReserve_spec hk h1 h2 (b := w.fields.length) (by rw [vSet_self]; rfl) n
    exact ⟨w', _, e, h3, h4, vSet_self _ _ _, fun c h => vSet_ne _ _ h⟩
  | free b =>
    obtain ⟨l, hl⟩ := Option.isSome_iff_exists.mp ha
    obtain ⟨m, hm, _⟩ := hA.alive hi hl
    obtain ⟨mem, h1, h2, hv, ho⟩ := mStep_spec (op := .free b) hi.mem ⟨m, hm⟩
    have hb : mem.blocks = w.mem.blocks.set b none := by
      simp only [mStep] at h1
      rw [Res.bind_eq_ok] at h1
      obtain ⟨_, _, h1⟩ := h1
      rw [Res.bind_eq_ok] at h1
      obtain ⟨_, _, h1⟩ := h1
      cases h1
      rfl
    refine ⟨⟨mem, w.fields.set b none⟩, vSet A b none, ?_, ⟨h2, ?_⟩, ?_, vSet_self _ _ _, fun c h => vSet_ne _ _ h⟩
    · simp only [vStep, fieldsAt, hi.field hm, Res.ok_bind, h1, Res.pure_eq]
    · simp only
      rw [hb, hi.fld, List.map_set]
      rfl
    · intro c
      by_cases h : c = b
      · subst h
        rw [vSet_self]
        exact hv
      · rw [vSet_ne A _ h, ho c h]
        exact hA c
  | release b =>
    obtain ⟨l, hl⟩ := Option.isSome_iff_exists.mp ha
    obtain ⟨m, hm, _⟩ := hA.alive hi hl
    obtain ⟨mem, h1, h2, hv, ho⟩ := mStep_spec (op := .release b) hi.mem ⟨m, hm⟩
    have hb : mem.blocks = w.mem.blocks.set b (some mbAlloc) := by
      simp only [mStep] at h1
      rw [Res.bind_eq_ok] at h1
      obtain ⟨_, _, h1⟩ := h1
      rw [Res.bind_eq_ok] at h1
      obtain ⟨⟨_, _⟩, hr, h1⟩ := h1
      cases h1
      unfold mbRelease at hr
      rw [Res.bind_eq_ok] at hr
      obtain ⟨_, _, hr⟩ := hr
      cases hr
      rfl
    refine ⟨⟨mem, w.fields.set b (some ⟨0, 0, none⟩)⟩, vSet A b (some []), ?_, ⟨h2, ?_⟩, hA.set (by simp) hv ho, vSet_self _ _ _, fun c h => vSet_ne _ _ h⟩
    · simp only [vStep, fieldsAt, hi.field hm, Res.ok_bind, h1, Res.pure_eq]
    · simp only
      rw [hb, hi.fld, List.map_set]
      simp [vFieldsOf, mbAlloc]
  | reserve b n =>
    obtain ⟨w', e, h3, h4, _⟩ := vReserve_spec hk hi hA ha n
    exact ⟨w', A, e, h3, h4, fun _ => rfl⟩
  | resize b n =>
    obtain ⟨l, hl⟩ := Option.isSome_iff_exists.mp ha
    obtain ⟨w', l', e, h3, h4, h5, _, h6⟩ := vResize_spec hi hA hl n
    exact ⟨w', _, e, h3, h4, ⟨l, l', hl, vSet_self _ _ _, h5, h6⟩, fun c h => vSet_ne _ _ h⟩
  | clear b =>
    obtain ⟨l, hl⟩ := Option.isSome_iff_exists.mp ha
    obtain ⟨w', l', e, h3, h4, h5, _, h6⟩ := vResize_spec hi hA hl 0
    rw [List.length_eq_zero_iff.mp h5] at h4
    exact ⟨w', _, e, h3, h4, vSet_self _ _ _, fun c h => vSet_ne _ _ h⟩
  | wrap b data sz own =>
    obtain ⟨ha, hsz⟩ := ha
    obtain ⟨l, hl⟩ := Option.isSome_iff_exists.mp ha
    obtain ⟨m, hm, _⟩ := hA.alive hi hl
    obtain ⟨mem, h1, h2, hv, ho⟩ := mStep_spec (op := .wrap b data (sz * k) own) hi.mem ⟨⟨m, hm⟩, hsz⟩
    obtain ⟨m', e⟩ := wrap_block h1
    obtain ⟨w', e', rfl, hi'⟩ := vUpdate_spec hi h2 hm e
    have hit : ∀ x ∈ itemsOf k data sz, x.length = k := by
      intro x hx
      obtain ⟨i, hi, rfl⟩ := List.mem_map.mp hx
      have : i * k + k ≤ sz * k := by rw [← Nat.succ_mul]; exact Nat.mul_le_mul_right k (List.mem_range.mp hi)
      rw [List.length_map, List.length_take, List.length_drop]
      omega
    refine ⟨w', _, ?_, hi', hA.set hit ?_ ho, vSet_self _ _ _, fun c h => vSet_ne _ _ h⟩
    · simp only [vStep, h1, Res.ok_bind, e']
    · rw [hv]
      congr 1
      exact (itemsOf_flatten k data sz hsz).symm
  | copy d s =>
    obtain ⟨hd, hs, hne⟩ := ha
    obtain ⟨ls, hs⟩ := Option.isSome_iff_exists.mp hs
    obtain ⟨w', e, h3, h4⟩ := vCopy_spec hi hA hd hs hne
    exact ⟨w', _, e, h3, h4, by rw [vSet_self, hs], fun c h => vSet_ne _ _ h⟩
  | copy0 s =>
    obtain ⟨ls, hs⟩ := Option.isSome_iff_exists.mp ha
    obtain ⟨h1, h2, hlen⟩ := vAlloc_spec hi hA
    have hne : w.fields.length ≠ s := by
      intro h
      obtain ⟨m, hm, _⟩ := hA.alive hi hs
      have := lt_of_live hm
      omega
    obtain ⟨w', e, h3, h4⟩ := vCopy_spec h1 h2 (d := w.fields.length) (s := s) (ls := ls) (by rw [vSet_self]; rfl) (by rw [vSet_ne _ _ (Ne.symm hne), hs]) hne
    refine ⟨w', _, e, h3, h4, by rw [vSet_self, hs], fun c h => ?_⟩
    rw [vSet_ne _ _ h, vSet_ne _ _ h]
  | push b item =>
    obtain ⟨hb, hit⟩ := ha
    obtain ⟨l, hl⟩ := Option.isSome_iff_exists.mp hb
    have hsize : ∀ {w : VWorld} {A : VState} {l}, VInv k w → VIs k w A → A b = some l → ∃ f, fieldsAt w b = .ok f ∧ f.size = l.length := by
      intro w A l hi hA hl
      have h := vshows_of hk hi hA b
      rw [hl] at h
      obtain ⟨f, hf, hs, _⟩ := h
      exact ⟨f, by unfold fieldsAt; rw [hf], hs⟩
    obtain ⟨f, ef, hf⟩ := hsize hi hA hl
    have hres : ∃ w1, (if f.size ≥ f.cap then vReserve k w b (f.size * 2) else pure w) = .ok w1 ∧ VInv k w1 ∧ VIs k w1 A := by
      split
      · obtain ⟨w1, e, h3, h4, _⟩ := vReserve_spec hk hi hA hb (f.size * 2)
        exact ⟨w1, e, h3, h4⟩
      · exact ⟨w, rfl, hi, hA⟩
    obtain ⟨w1, e1, hi1, hA1⟩ := hres
    obtain ⟨f1, ef1, hf1⟩ := hsize hi1 hA1 hl
    obtain ⟨w2, l', e2, hi2, hA2, hlen, _, hpre⟩ := vResize_spec hi1 hA1 hl (f1.size + 1)
    obtain ⟨f2, ef2, hf2⟩ := hsize hi2 hA2 (vSet_self _ _ _)
    obtain ⟨w3, e3, hi3, hA3⟩ := vPut_spec hk hi2 hA2 (i := f2.size - 1) (vSet_self _ _ _) (by omega) hit
    refine ⟨w3, _, ?_, hi3, hA3, ⟨l, hl, ?_⟩, fun c h => ?_⟩
    · simp only [vStep, vPush]
      rw [ef, Res.ok_bind, e1, Res.ok_bind, ef1, Res.ok_bind, e2, Res.ok_bind, ef2, Res.ok_bind, Res.pure_eq, Res.ok_bind]
      exact e3
    · rw [vSet_self]
      congr 1
      refine List.ext_getElem? (fun i => ?_)
      rw [List.getElem?_set]
      split
      · rename_i h
        rw [if_pos (by omega), List.getElem?_append_right (by omega), show i - l.length = 0 by omega]
        rfl
      · by_cases h : i < l.length
        · rw [hpre i h (by omega), List.getElem?_append_left h]
        · rw [List.getElem?_eq_none (by omega), List.getElem?_eq_none (by rw [List.length_append, List.length_singleton]; omega)]
    · rw [vSet_ne _ _ h, vSet_ne _ _ h]
  | put b i item =>
    obtain ⟨⟨l, hl, hil⟩, hit⟩ := ha
    obtain ⟨w', e, h3, h4⟩ := vPut_spec hk hi hA hl hil hit
    exact ⟨w', _, e, h3, h4, ⟨l, hl, vSet_self _ _ _⟩, fun c h => vSet_ne _ _ h⟩

theorem vreach_inv (hk : 0 < k) (hr : VReach k w) : VInv k w ∧ ∃ A, VIs k w A := by
  induction hr with
  | init => exact ⟨⟨reach_inv .init, rfl⟩, fun _ => none, fun b => by simp [visible]⟩
  | @step w w' op A' _ hs ha e ih =>
    obtain ⟨hi, A0, hA0⟩ := ih
    have hA : A' = A0 := funext (fun b => vshows_unique (hs b) (vshows_of hk hi hA0 b))
    subst hA
    obtain ⟨w2, A2, e2, h1, h2, _⟩ := vStep_spec hk hi hA0 ha
    rw [e] at e2
    cases e2
    exact ⟨h1, A2, h2⟩

end

/-- C90: in every state that is reached, every vector shows a list of items. -/
theorem c90_lists (k : Nat) (hk : 0 < k) (w : VWorld) (hr : VReach k w) : ∃ A : VState, ∀ b, VShows k w b (A b) := by
  obtain ⟨hi, A, hA⟩ := vreach_inv hk hr
  exact ⟨A, vshows_of hk hi hA⟩

/-- C90: every allowed call succeeds, without undefined behaviour, and has the effect on the lists that is specified; all other vectors keep their
items. -/
theorem c90_effect (k : Nat) (hk : 0 < k) (w : VWorld) (hr : VReach k w) (A : VState) (hA : ∀ b, VShows k w b (A b)) (op : VOp) (ha : VAllowed k A op) :
    ∃ w' A', vStep k w op = .ok w' ∧ VReach k w' ∧ (∀ b, VShows k w' b (A' b)) ∧ VEffect k w.fields.length A A' op := by
  obtain ⟨hi, A0, hA0⟩ := vreach_inv hk hr
  have h : A = A0 := funext (fun b => vshows_unique (hA b) (vshows_of hk hi hA0 b))
  subst h
  obtain ⟨w', A', e, h1, h2, h3⟩ := vStep_spec hk hi hA0 ha
  exact ⟨w', A', e, .step hr hA ha e, vshows_of hk h1 h2, h3⟩

/-- C90: after `reserve` there is room for the items that were asked for. -/
theorem c90_room (k : Nat) (hk : 0 < k) (w : VWorld) (hr : VReach k w) (b n : Nat) (hb : ∃ f, w.fields[b]? = some (some f)) :
    ∃ w' f, vStep k w (.reserve b n) = .ok w' ∧ w'.fields[b]? = some (some f) ∧ n ≤ f.cap := by
  obtain ⟨hi, A, hA⟩ := vreach_inv hk hr
  obtain ⟨f, hf⟩ := hb
  have hs : (A b).isSome := by
    cases h : A b with
    | none =>
      have := vshows_of hk hi hA b
      rw [h] at this
      exact absurd hf (this f)
    | some l => rfl
  obtain ⟨w', e, hi', hA', _, hc⟩ := vReserve_spec hk hi hA hs n
  obtain ⟨l, hl⟩ := Option.isSome_iff_exists.mp hs
  have := vshows_of hk hi' hA' b
  rw [hl] at this
  obtain ⟨f', hf', _⟩ := this
  exact ⟨w', f', e, hf', hc f' hf'⟩

/-- C90: as long as there is room, adding an item does not move the others: pointers to them stay valid. -/
theorem c90_stable (k : Nat) (hk : 0 < k) (w : VWorld) (hr : VReach k w) (b : Nat) (f : VFields) (hf : w.fields[b]? = some (some f))
    (hroom : f.size < f.cap) (item : Bytes) (hit : item.length = k) :
    ∃ w', vStep k w (.push b item) = .ok w' ∧ w'.fields[b]? = some (some { f with size := f.size + 1 }) ∧ w'.mem.heap.length = w.mem.heap.length := by
  obtain ⟨hi, A, hA⟩ := vreach_inv hk hr
  obtain ⟨m, hm, rfl⟩ := hi.block hf
  have hok := hi.mem.blk b m hm
  have hs : ∃ l, A b = some l := by
    cases h : A b with
    | none =>
      have := vshows_of hk hi hA b
      rw [h] at this
      exact absurd hf (this _)
    | some l => exact ⟨l, rfl⟩
  obtain ⟨l, hl⟩ := hs
  obtain ⟨m2, hm2, hsz, _⟩ := hA.alive hi hl
  rw [hm] at hm2
  cases hm2
  have hsl : m.size / k = l.length := by rw [hsz, Nat.mul_div_cancel _ hk]
  simp only [vFieldsOf] at hroom hf ⊢
  have hcap : (m.size / k + 1) * k ≤ m.cap := (Nat.le_div_iff_mul_le hk).mp hroom
  have hbl := lt_of_live hm
  have hres : vResize k w b (m.size / k + 1) = .ok ⟨⟨w.mem.heap, w.mem.blocks.set b (some { m with size := (m.size / k + 1) * k })⟩,
      w.fields.set b (some ⟨m.size / k + 1, m.cap / k, m.ptr⟩)⟩ := by
    unfold vResize
    simp only [mStep, blockAt, hm, Res.ok_bind, mbResize, mbReserve]
    rw [if_neg (by omega)]
    simp only [Res.ok_bind, Res.pure_eq, vUpdate, blockAt, List.getElem?_set_self hbl, Nat.mul_div_cancel _ hk]
  have hfl : b < w.fields.length := lt_of_live hf
  obtain ⟨hsc, ⟨h0, h1, _⟩ | ⟨p, c, hp, hc, hcl, hu⟩⟩ := id hok
  · have : 0 < (m.size / k + 1) * k := Nat.mul_pos (by omega) hk
    omega
  · simp only [vStep, vPush, fieldsAt, hf, Res.ok_bind]
    rw [if_neg (by omega)]
    simp only [Res.pure_eq, Res.ok_bind, hf, hres, List.getElem?_set_self hfl, vPut, fieldsAt, hp, chunkAt_ok hc, Nat.add_sub_cancel]
    rw [if_pos ⟨by rw [Nat.add_mul, Nat.one_mul] at hcap; omega, hit⟩]
    exact ⟨_, rfl, List.getElem?_set_self hfl, List.length_set⟩

theorem mbReserve_cap {h h' : MHeap} {m m' : MBlock} {n : Nat} (h1 : mbReserve h m n = .ok (h', m')) : m.cap ≤ m'.cap := by
  unfold mbReserve at h1
  split at h1
  · split at h1
    · rw [Res.bind_eq_ok] at h1
      obtain ⟨⟨_, _⟩, _, h1⟩ := h1
      cases h1
      simp only
      omega
    · rw [Res.bind_eq_ok] at h1
      obtain ⟨_, _, h1⟩ := h1
      cases h1
      simp only
      omega
  · cases h1
    exact Nat.le_refl _

theorem vResize_cap {k : Nat} {w w' : VWorld} (hi : VInv k w) (hi' : VInv k w') {b n : Nat} (h : vResize k w b n = .ok w') {f f' : VFields}
    (hf : w.fields[b]? = some (some f)) (hf' : w'.fields[b]? = some (some f')) : f.cap ≤ f'.cap := by
  obtain ⟨m, hm, rfl⟩ := hi.block hf
  obtain ⟨m', hm', rfl⟩ := hi'.block hf'
  unfold vResize at h
  rw [Res.bind_eq_ok] at h
  obtain ⟨mem, h1, h2⟩ := h
  simp only [mStep, blockAt, hm, Res.ok_bind, mbResize] at h1
  rw [Res.bind_eq_ok] at h1
  obtain ⟨⟨h3, m3⟩, h4, h5⟩ := h1
  cases h5
  rw [Res.bind_eq_ok] at h4
  obtain ⟨⟨h6, m6⟩, h7, h8⟩ := h4
  cases h8
  unfold vUpdate at h2
  rw [Res.bind_eq_ok] at h2
  obtain ⟨_, _, h2⟩ := h2
  cases h2
  simp only [List.getElem?_set_self (lt_of_live hm)] at hm'
  cases hm'
  have := mbReserve_cap h7
  exact Nat.div_le_div_right this

/-- C90: adding an item to a full vector at least doubles its capacity, so that the number of moves is logarithmic in the number of items. -/
theorem c90_growth (k : Nat) (hk : 0 < k) (w : VWorld) (hr : VReach k w) (b : Nat) (f : VFields) (hf : w.fields[b]? = some (some f))
    (hfull : f.cap ≤ f.size) (item : Bytes) (hit : item.length = k) :
    ∃ w' f', vStep k w (.push b item) = .ok w' ∧ w'.fields[b]? = some (some f') ∧ f'.size = f.size + 1 ∧ 2 * f.size ≤ f'.cap := by
  obtain ⟨hi, A, hA⟩ := vreach_inv hk hr
  have hsize : ∀ {w : VWorld} {A : VState} {l}, VInv k w → VIs k w A → A b = some l → ∃ f, w.fields[b]? = some (some f) ∧ f.size = l.length := by
    intro w A l hi hA hl
    have h := vshows_of hk hi hA b
    rw [hl] at h
    obtain ⟨f, hf, hs, _⟩ := h
    exact ⟨f, hf, hs⟩
  have hs : ∃ l, A b = some l := by
    cases h : A b with
    | none =>
      have := vshows_of hk hi hA b
      rw [h] at this
      exact absurd hf (this _)
    | some l => exact ⟨l, rfl⟩
  obtain ⟨l, hl⟩ := hs
  obtain ⟨f0, hf0, hs0⟩ := hsize hi hA hl
  rw [hf] at hf0
  cases hf0
  obtain ⟨w1, e1, hi1, hA1, _, hc1⟩ := vReserve_spec hk hi hA (b := b) (by rw [hl]; rfl) (f.size * 2)
  obtain ⟨f1, hf1, hs1⟩ := hsize hi1 hA1 hl
  obtain ⟨w2, l', e2, hi2, hA2, hlen, _, _⟩ := vResize_spec hi1 hA1 hl (f1.size + 1)
  obtain ⟨f2, hf2, hs2⟩ := hsize hi2 hA2 (vSet_self _ _ _)
  obtain ⟨w3, e3, hi3, hA3⟩ := vPut_spec hk hi2 hA2 (i := f2.size - 1) (vSet_self _ _ _) (by omega) hit
  have hw3 : w3.fields = w2.fields := by
    unfold vPut at e3
    rw [Res.bind_eq_ok] at e3
    obtain ⟨g, _, e3⟩ := e3
    split at e3
    · cases e3
    · rw [Res.bind_eq_ok] at e3
      obtain ⟨c, _, e3⟩ := e3
      split at e3
      · cases e3
        rfl
      · cases e3
  have hcap := vResize_cap hi1 hi2 e2 hf1 hf2
  have := hc1 f1 hf1
  refine ⟨w3, f2, ?_, by rw [hw3, hf2], by omega, by omega⟩
  simp only [vStep, vPush, fieldsAt, hf, Res.ok_bind]
  rw [if_pos (by omega), e1, Res.ok_bind]
  simp only [hf1, Res.ok_bind, e2, hf2, Res.pure_eq]
  exact e3

/-! ### Examples -/

/-- Several calls. -/
def vRun (k : Nat) (w : VWorld) : List VOp → Res VWorld
  | [] => .ok w
  | op :: l => do
    let w ← vStep k w op
    vRun k w l

/-- Items of two bytes: memory of the user with one item and room for two is wrapped, then two more are added. -/
def vDemo : List VOp := [.alloc, .wrap 0 [1, 2, 9, 9] 1 false, .push 0 [3, 4], .push 0 [5, 6], .copy0 0, .put 0 1 [7, 7], .new 5, .free 0]

example : (match vRun 2 ⟨⟨[], []⟩, []⟩ vDemo with
    | .ok w => decide (w.fields = [none, some ⟨3, 3, some 2⟩, some ⟨0, 5, some 3⟩] ∧ vGet 2 w 1 1 = .ok [some 3, some 4] ∧ vGet 2 w 1 2 = .ok [some 5, some 6]
        ∧ w.mem.heap[0]? = some (some ⟨[some 1, some 2, some 3, some 4], true⟩))
    | _ => false) = true := by decide +kernel

/-- A state that is reached, and a call that is allowed there. -/
example : VReach 2 ⟨⟨[], [some mbAlloc]⟩, [some ⟨0, 0, none⟩]⟩ ∧ VAllowed 2 (fun b => if b = 0 then some [] else none) (.push 0 [1, 2]) ∧
    ∀ b, VShows 2 ⟨⟨[], [some mbAlloc]⟩, [some ⟨0, 0, none⟩]⟩ b (if b = 0 then some [] else none) := by
  refine ⟨.step (A := fun _ => none) (op := .alloc) .init (fun b f h => by simp at h) trivial rfl, ⟨rfl, rfl⟩, ?_⟩
  intro b
  cases b with
  | zero => exact ⟨_, rfl, rfl, Nat.le_refl _, fun i x h => by simp at h⟩
  | succ b =>
    intro f h
    simp at h

end Nx
