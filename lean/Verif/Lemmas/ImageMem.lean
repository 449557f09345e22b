import Verif.Spec.ImageMem
import Verif.Props.MemBlock

namespace Nx

/-- Every image has a block with exactly the bytes of its rows. -/
structure ImOk (w : IWorld) (i : Nat) (hd : ImHdr) (l : List (Option Byte)) : Prop where
  block : ∃ b, w.mem.blocks[i]? = some (some b) ∧ hd.data = b.ptr
  bytes : visible w.mem i = some l
  len : l.length = hd.stride * hd.height * imBytes hd.float
  channels : hd.channels = imChannels hd.rgba
  row : imChannels hd.rgba * hd.width ≤ hd.stride
  row_le : imChannels hd.rgba * hd.width ≤ 2147483647
  all_le : hd.stride * hd.height ≤ 2147483647

structure ImInv (w : IWorld) : Prop where
  reach : MReach w.mem
  length : w.hdrs.length = w.mem.blocks.length
  img : ∀ i hd, ImIs w i hd → ∃ l, ImOk w i hd l
  gone : ∀ i : Nat, w.hdrs[i]? = some none → w.mem.blocks[i]? = some none

theorem ImIs.lt {w i hd} (h : ImIs w i hd) : i < w.hdrs.length := (List.getElem?_eq_some_iff.mp h).1

theorem ImIs.at {w i hd} (h : ImIs w i hd) : hdrAt w i = .ok hd := by
  unfold hdrAt
  rw [h]

theorem ImIs.shape {w i hd} (h : ImIs w i hd) : imShape w i = some hd.shape := by
  unfold imShape
  rw [h]

theorem ImOk.alive {w i hd l} (h : ImOk w i hd l) : Alive w.mem i := by
  obtain ⟨b, hb, _⟩ := h.block
  exact ⟨b, hb⟩

/-- The bytes seen through the pointer of the header are those of the block. -/
theorem ImOk.byte {w i hd l} (h : ImOk w i hd l) (hi : ImIs w i hd) {o : Nat} (ho : o < l.length) : imByte w i o = l[o]? := by
  obtain ⟨b, hb, hp⟩ := h.block
  have hv := h.bytes
  unfold visible at hv
  rw [hb] at hv
  simp only at hv
  unfold imByte
  rw [hi]
  simp only [hp]
  by_cases h0 : b.size = 0
  · rw [if_pos h0] at hv
    cases hv
    simp at ho
  · rw [if_neg h0] at hv
    cases hptr : b.ptr with
    | none => rw [hptr] at hv; cases hv
    | some p =>
      rw [hptr] at hv
      simp only at hv ⊢
      cases hc : w.mem.heap[p]? with
      | none => rw [hc] at hv; cases hv
      | some x =>
        rw [hc] at hv
        cases x with
        | none => cases hv
        | some c =>
          simp only at hv ⊢
          by_cases hl : b.size ≤ c.data.length
          · rw [if_pos hl] at hv
            cases hv
            rw [List.getElem?_take, if_pos (by simpa using (by simp at ho; omega : o < b.size))]
          · rw [if_neg hl] at hv
            cases hv

/-- Offsets of existing bytes stay inside of the rows. -/
theorem Shape.at_lt {s : Shape} {x y c k : Nat} (h : s.Has x y c k) (hr : s.perPixel * s.width ≤ s.stride) :
    s.at x y c k < s.stride * s.height * s.perSample := by
  obtain ⟨hx, hy, hc, hk⟩ := h
  have h1 : s.perPixel * x + c < s.stride := by
    have : s.perPixel * (x + 1) ≤ s.perPixel * s.width := Nat.mul_le_mul_left _ hx
    rw [Nat.mul_add] at this
    omega
  have h2 : y * s.stride + s.perPixel * x + c + 1 ≤ s.stride * s.height := by
    have : s.stride * (y + 1) ≤ s.stride * s.height := Nat.mul_le_mul_left _ hy
    rw [Nat.mul_add, Nat.mul_comm s.stride y] at this
    omega
  have h3 : (y * s.stride + s.perPixel * x + c + 1) * s.perSample ≤ s.stride * s.height * s.perSample := Nat.mul_le_mul_right _ h2
  unfold Shape.at
  rw [Nat.add_mul, Nat.one_mul] at h3
  omega

theorem ImOk.at_lt {w i hd l} (h : ImOk w i hd l) {x y c k : Nat} (hh : hd.shape.Has x y c k) : hd.shape.at x y c k < l.length := by
  rw [h.len]
  exact Shape.at_lt hh h.row

/-- Two images with the same header and the same bytes are the same. -/
theorem same_of {w w' i j hd hd' l} (h : ImOk w i hd l) (hi : ImIs w i hd) (h' : ImOk w' j hd' l) (hi' : ImIs w' j hd')
    (hs : hd'.shape = hd.shape) : Same w i w' j := by
  refine ⟨by rw [hi.shape, hi'.shape, hs], ?_⟩
  intro s e x y c k hh
  rw [hi.shape] at e
  cases e
  have := h.at_lt hh
  rw [h.byte hi this, h'.byte hi' this]

theorem same_none {w w' i j} (h : ∀ hd, ¬ ImIs w i hd) (h' : ∀ hd, ¬ ImIs w' j hd) : Same w i w' j := by
  have key : ∀ {w : IWorld} {i : Nat}, (∀ hd, ¬ ImIs w i hd) → imShape w i = none := by
    intro w i h
    unfold imShape
    split
    · rename_i hd e
      exact absurd e (h hd)
    · rfl
  refine ⟨by rw [key h, key h'], ?_⟩
  intro s e
  rw [key h] at e
  cases e

/-- Images whose header, block and bytes are unchanged. -/
theorem same_keep {w w' j} (hi : ImInv w) (hh : w'.hdrs[j]? = w.hdrs[j]?) (hb : w'.mem.blocks[j]? = w.mem.blocks[j]?)
    (hv : visible w'.mem j = visible w.mem j) : Same w j w' j ∧ ∀ hd, ImIs w' j hd → ∃ l, ImOk w' j hd l := by
  have keep : ∀ hd l, ImOk w j hd l → ImOk w' j hd l := by
    intro hd l h
    exact ⟨by rw [hb]; exact h.block, by rw [hv]; exact h.bytes, h.len, h.channels, h.row, h.row_le, h.all_le⟩
  constructor
  · by_cases ha : ∃ hd, ImIs w j hd
    · obtain ⟨hd, hj⟩ := ha
      obtain ⟨l, hl⟩ := hi.img j hd hj
      exact same_of hl hj (keep hd l hl) (by unfold ImIs; rw [hh]; exact hj) rfl
    · apply same_none
      · intro hd h
        exact ha ⟨hd, h⟩
      · intro hd h
        apply ha
        refine ⟨hd, ?_⟩
        unfold ImIs at h ⊢
        rw [← hh]
        exact h
  · intro hd h
    unfold ImIs at h
    rw [hh] at h
    obtain ⟨l, hl⟩ := hi.img j hd h
    exact ⟨l, keep hd l hl⟩

/-- A call that changes block `i` only, and a new header for image `i`. -/
theorem imPut_spec {w : IWorld} {m : MWorld} {i : Nat} {hd0 hd : ImHdr} {b : MBlock} {l : List (Option Byte)} (hi : ImInv w)
    (h0 : ImIs w i hd0) (hr : MReach m) (hbl : m.blocks = w.mem.blocks.set i (some b))
    (hvis : ∀ j, j ≠ i → visible m j = visible w.mem j) (hv : visible m i = some l)
    (hlen : l.length = hd.stride * hd.height * imBytes hd.float) (hch : hd.channels = imChannels hd.rgba)
    (hrow : imChannels hd.rgba * hd.width ≤ hd.stride) (hrle : imChannels hd.rgba * hd.width ≤ 2147483647)
    (hall : hd.stride * hd.height ≤ 2147483647) :
    ∃ w', imPut w m i hd = .ok w' ∧ ImInv w' ∧ ImIs w' i { hd with data := b.ptr } ∧ ImOk w' i { hd with data := b.ptr } l ∧
      w'.mem = m ∧ w'.hdrs = w.hdrs.set i (some { hd with data := b.ptr }) ∧ ∀ j, j ≠ i → Same w j w' j := by
  have hil := h0.lt
  have hmi : m.blocks[i]? = some (some b) := by
    rw [hbl, List.getElem?_set_self (by rw [← hi.length]; exact hil)]
  have hmj : ∀ j, j ≠ i → m.blocks[j]? = w.mem.blocks[j]? := fun j hj => by
    rw [hbl, List.getElem?_set_ne (Ne.symm hj)]
  have hself : ImIs { mem := m, hdrs := w.hdrs.set i (some { hd with data := b.ptr }) } i { hd with data := b.ptr } := by
    unfold ImIs
    exact List.getElem?_set_self hil
  have hok : ImOk { mem := m, hdrs := w.hdrs.set i (some { hd with data := b.ptr }) } i { hd with data := b.ptr } l :=
    ⟨⟨b, hmi, rfl⟩, hv, hlen, hch, hrow, hrle, hall⟩
  refine ⟨{ mem := m, hdrs := w.hdrs.set i (some { hd with data := b.ptr }) }, ?_, ⟨hr, ?_, ?_, ?_⟩, hself, hok, rfl, rfl, ?_⟩
  · unfold imPut blockAt
    rw [hmi]
    rfl
  · simp only [List.length_set]
    rw [hbl, List.length_set, hi.length]
  · intro j hd' hj
    by_cases e : j = i
    · subst e
      unfold ImIs at hj hself
      rw [hself] at hj
      cases hj
      exact ⟨l, hok⟩
    · exact (same_keep (w' := { mem := m, hdrs := w.hdrs.set i (some { hd with data := b.ptr }) }) hi
        (by simp only [List.getElem?_set_ne (Ne.symm e)]) (hmj j e) (hvis j e)).2 hd' hj
  · intro j hj
    by_cases e : j = i
    · subst e
      simp only [List.getElem?_set_self hil] at hj
      cases hj
    · simp only [List.getElem?_set_ne (Ne.symm e)] at hj ⊢
      rw [hmj j e]
      exact hi.gone j hj
  · intro j e
    exact (same_keep (w' := { mem := m, hdrs := w.hdrs.set i (some { hd with data := b.ptr }) }) hi
        (by simp only [List.getElem?_set_ne (Ne.symm e)]) (hmj j e) (hvis j e)).1

/-! ## Blocks after a call -/

theorem mStep_resize {w w' : MWorld} {b n : Nat} (h : mStep w (.resize b n) = .ok w') : ∃ m, w'.blocks = w.blocks.set b (some m) := by
  unfold mStep at h
  simp only at h
  obtain ⟨m, _, h⟩ := Res.bind_eq_ok.mp h
  obtain ⟨r, _, h⟩ := Res.bind_eq_ok.mp h
  cases h
  exact ⟨_, rfl⟩

theorem mStep_release {w w' : MWorld} {b : Nat} (h : mStep w (.release b) = .ok w') : w'.blocks = w.blocks.set b (some mbAlloc) := by
  unfold mStep at h
  simp only at h
  obtain ⟨m, _, h⟩ := Res.bind_eq_ok.mp h
  obtain ⟨r, hr, h⟩ := Res.bind_eq_ok.mp h
  unfold mbRelease at hr
  obtain ⟨q, _, hr⟩ := Res.bind_eq_ok.mp hr
  cases hr
  cases h
  rfl

theorem mStep_wrap {w w' : MWorld} {b : Nat} {data : Bytes} {sz : Nat} {own : Bool} (h : mStep w (.wrap b data sz own) = .ok w') :
    ∃ m, w'.blocks = w.blocks.set b (some m) := by
  unfold mStep at h
  simp only at h
  obtain ⟨m, _, h⟩ := Res.bind_eq_ok.mp h
  obtain ⟨r, _, h⟩ := Res.bind_eq_ok.mp h
  cases h
  exact ⟨_, rfl⟩

theorem mStep_copy {w w' : MWorld} {d s : Nat} (h : mStep w (.copy d s) = .ok w') : ∃ m, w'.blocks = w.blocks.set d (some m) := by
  unfold mStep at h
  simp only at h
  obtain ⟨m, _, h⟩ := Res.bind_eq_ok.mp h
  obtain ⟨n, _, h⟩ := Res.bind_eq_ok.mp h
  obtain ⟨r, _, h⟩ := Res.bind_eq_ok.mp h
  cases h
  exact ⟨_, rfl⟩

theorem mStep_setZero {w w' : MWorld} {b : Nat} (h : mStep w (.setZero b) = .ok w') : w'.blocks = w.blocks := by
  unfold mStep at h
  simp only at h
  obtain ⟨m, _, h⟩ := Res.bind_eq_ok.mp h
  obtain ⟨r, _, h⟩ := Res.bind_eq_ok.mp h
  cases h
  rfl

theorem mStep_free {w w' : MWorld} {b : Nat} (h : mStep w (.free b) = .ok w') : w'.blocks = w.blocks.set b none := by
  unfold mStep at h
  simp only at h
  obtain ⟨m, _, h⟩ := Res.bind_eq_ok.mp h
  obtain ⟨r, _, h⟩ := Res.bind_eq_ok.mp h
  cases h
  rfl

theorem mStep_new {w w' : MWorld} (h : mStep w (.new 0) = .ok w') : w' = { w with blocks := w.blocks ++ [some mbAlloc] } := by
  unfold mStep at h
  simp only at h
  obtain ⟨r, hr, h⟩ := Res.bind_eq_ok.mp h
  unfold mbResize mbReserve at hr
  rw [if_neg (by simp [mbAlloc])] at hr
  simp only [Res.ok_bind] at hr
  cases hr
  cases h
  rfl

theorem mStep_swap {w w' : MWorld} {b c : Nat} {m n : MBlock} (hb : w.blocks[b]? = some (some m)) (hc : w.blocks[c]? = some (some n))
    (h : mStep w (.swap b c) = .ok w') : w' = { w with blocks := (w.blocks.set b (some n)).set c (some m) } := by
  unfold mStep at h
  simp only [blockAt, hb, hc, Res.ok_bind] at h
  cases h
  rfl

end Nx
