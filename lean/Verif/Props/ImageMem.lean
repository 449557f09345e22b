import Verif.Lemmas.ImageMem

/-!
# C80: memory of images
-/

namespace Nx

section
variable {w : IWorld} {i j : Nat} {hd : ImHdr}

/-- A new image without pixels. -/
theorem imAlloc_spec (hi : ImInv w) : ∃ w', imAlloc w = .ok w' ∧ ImInv w' ∧ w'.hdrs.length = w.hdrs.length + 1 ∧
    ImIs w' w.hdrs.length ⟨0, 0, false, false, 1, 0, none⟩ ∧ ∀ j, j ≠ w.hdrs.length → Same w j w' j := by
  obtain ⟨m, e, hr, hn, ho⟩ := c15_call_effect (op := .new 0) hi.reach trivial
  have em := mStep_new e
  have hbj : ∀ j, j ≠ w.hdrs.length → m.blocks[j]? = w.mem.blocks[j]? := by
    intro j hj
    rw [em]
    simp only
    rw [hi.length] at hj
    rcases Nat.lt_or_gt_of_ne hj with h | h
    · rw [List.getElem?_append_left h]
    · rw [List.getElem?_eq_none (by simp; omega), List.getElem?_eq_none (by omega)]
  have hhj : ∀ j, j ≠ w.hdrs.length → (w.hdrs ++ [some (⟨0, 0, false, false, 1, 0, none⟩ : ImHdr)])[j]? = w.hdrs[j]? := by
    intro j hj
    rcases Nat.lt_or_gt_of_ne hj with h | h
    · rw [List.getElem?_append_left h]
    · rw [List.getElem?_eq_none (by simp; omega), List.getElem?_eq_none (by omega)]
  have hself : (w.hdrs ++ [some (⟨0, 0, false, false, 1, 0, none⟩ : ImHdr)])[w.hdrs.length]? = some (some ⟨0, 0, false, false, 1, 0, none⟩) := by
    simp
  have hmself : m.blocks[w.hdrs.length]? = some (some mbAlloc) := by
    rw [em, hi.length]
    simp
  have hvj : ∀ j, j ≠ w.hdrs.length → visible m j = visible w.mem j := by
    intro j hj
    rw [hi.length] at hj
    exact ho j hj
  refine ⟨⟨m, w.hdrs ++ [some (⟨0, 0, false, false, 1, 0, none⟩ : ImHdr)]⟩, ?_, ⟨hr, ?_, ?_, ?_⟩, ?_, hself, ?_⟩
  · unfold imAlloc
    rw [e]
    rfl
  · rw [em]
    simp [hi.length]
  · intro j hd hj
    by_cases ej : j = w.hdrs.length
    · subst ej
      unfold ImIs at hj
      rw [hself] at hj
      cases hj
      refine ⟨[], ⟨mbAlloc, hmself, rfl⟩, ?_, by simp, rfl, by simp [imChannels], by simp [imChannels], by simp⟩
      obtain ⟨l, hl, hl0⟩ := hn
      rw [hi.length]
      rw [List.length_eq_zero_iff.mp hl0] at hl
      exact hl
    · exact (same_keep (w' := ⟨m, w.hdrs ++ [some ⟨0, 0, false, false, 1, 0, none⟩]⟩) hi (hhj j ej) (hbj j ej) (hvj j ej)).2 hd hj
  · intro j hj
    by_cases ej : j = w.hdrs.length
    · subst ej
      simp only [hself] at hj
      cases hj
    · simp only [hhj j ej] at hj
      simp only [hbj j ej]
      exact hi.gone j hj
  · simp
  · intro j ej
    exact (same_keep (w' := ⟨m, w.hdrs ++ [some ⟨0, 0, false, false, 1, 0, none⟩]⟩) hi (hhj j ej) (hbj j ej) (hvj j ej)).1

/-- The shape after resizing. -/
def resized (wd ht st : Int) (rgba float : Bool) : Shape := ⟨wd.toNat, ht.toNat, rgba, float, max st.toNat ((if rgba then 4 else 1) * wd.toNat)⟩

theorem imResize_spec (hi : ImInv w) (h : ImIs w i hd) {wd ht st : Int} {rgba float : Bool} (hf : Fit wd ht st rgba) :
    ∃ w', imResize w i wd ht st rgba float = .ok w' ∧ ImInv w' ∧ w'.hdrs.length = w.hdrs.length ∧
      imShape w' i = some (resized wd ht st rgba float) ∧
      (imShape w' i = imShape w i → Same w i w' i) ∧ ∀ j, j ≠ i → Same w j w' j := by
  obtain ⟨l, hl⟩ := hi.img i hd h
  obtain ⟨hw0, hh0, hrs, hall⟩ := hf
  have hc4 : ((if rgba then 4 else 1 : Int)) = (imChannels rgba : Nat) := by unfold imChannels; cases rgba <;> rfl
  rw [hc4] at hrs hall
  have hcpos : 1 ≤ imChannels rgba ∧ imChannels rgba ≤ 4 := by unfold imChannels; cases rgba <;> simp
  generalize hcc : imChannels rgba = ch at *
  have hrs0 : 0 ≤ (ch : Int) * wd := Int.mul_nonneg (by omega) hw0
  unfold imResize
  rw [h.at]
  simp only [Res.ok_bind]
  rw [if_neg (by omega)]
  by_cases hsame : (hd.width : Int) = wd ∧ (hd.height : Int) = ht ∧ (hd.stride : Int) = st ∧ hd.rgba = rgba ∧ hd.float = float
  · rw [if_pos hsame]
    obtain ⟨e1, e2, e3, e4, e5⟩ := hsame
    have hrow := hl.row
    have : imShape w i = some (resized wd ht st rgba float) := by
      rw [h.shape]
      unfold ImHdr.shape resized
      rw [← e1, ← e2, ← e3, ← e4, ← e5]
      simp only [Int.toNat_natCast]
      unfold imChannels at hrow
      rw [Nat.max_eq_left hrow]
    refine ⟨w, rfl, hi, rfl, this, ?_, ?_⟩
    · intro _
      exact same_of hl h hl h rfl
    · intro j _
      exact (same_keep hi rfl rfl rfl).1
  · rw [if_neg hsame]
    simp only [hcc]
    have hst : (if st < (ch : Int) * wd then (ch : Int) * wd else st) = max st (ch * wd) := by
      split <;> omega
    rw [hst]
    have hmx : 0 ≤ max st ((ch : Int) * wd) := by omega
    have hprod : 0 ≤ max st ((ch : Int) * wd) * ht := Int.mul_nonneg hmx hh0
    rw [if_pos ⟨⟨by omega, by omega⟩, ⟨by omega, by omega⟩⟩]
    obtain ⟨m, e, hr, ⟨l0, l', hv0, hv, hlen, htake⟩, ho⟩ := c15_call_effect (w := w.mem)
      (op := .resize i ((max st ((ch : Int) * wd)).toNat * ht.toNat * imBytes float)) hi.reach hl.alive
    obtain ⟨b, hb⟩ := mStep_resize e
    rw [e]
    simp only [Res.ok_bind]
    have hmn : (ch * wd.toNat : Nat) = ((ch : Int) * wd).toNat := by
      rw [Int.toNat_mul (by omega) hw0, Int.toNat_natCast]
    obtain ⟨w', e', hi', his, hok, hm', hh', hoth⟩ := imPut_spec (hd := ⟨wd.toNat, ht.toNat, rgba, float, ch,
      (max st ((ch : Int) * wd)).toNat, none⟩) hi h hr hb ho hv hlen hcc.symm (by simp only [hcc]; omega) (by simp only [hcc]; omega)
      (by
        simp only
        rw [← Int.toNat_mul hmx hh0]
        omega)
    have hshape : imShape w' i = some (resized wd ht st rgba float) := by
      rw [his.shape]
      unfold ImHdr.shape resized
      simp only
      have : max st.toNat ((if rgba then 4 else 1) * wd.toNat) = (max st ((ch : Int) * wd)).toNat := by
        rw [← hcc] at hmn ⊢
        unfold imChannels at hmn ⊢
        rw [hmn]
        omega
      rw [this]
    refine ⟨w', e', hi', by rw [hh', List.length_set], hshape, ?_, hoth⟩
    intro hs
    rw [his.shape, h.shape] at hs
    have hs' := Option.some.inj hs
    have hv0' := hl.bytes
    rw [hv0] at hv0'
    have hv0' := Option.some.inj hv0'
    subst hv0'
    have hle : l'.length = l0.length := by
      rw [hok.len, hl.len]
      unfold ImHdr.shape at hs'
      simp only [Shape.mk.injEq] at hs'
      obtain ⟨a, b, c, d, e⟩ := hs'
      simp only at e b d ⊢
      rw [e, b, d]
    have : l' = l0 := by
      rw [← hlen, hle, Nat.min_self, List.take_length, ← hle, List.take_length] at htake
      exact htake
    subst this
    exact same_of hl h hok his hs'

theorem imRelease_spec (hi : ImInv w) (h : ImIs w i hd) :
    ∃ w', imRelease w i = .ok w' ∧ ImInv w' ∧ imShape w' i = some (packed 0 0 false false) ∧ ∀ j, j ≠ i → Same w j w' j := by
  obtain ⟨l, hl⟩ := hi.img i hd h
  obtain ⟨m, e, hr, hv, ho⟩ := c15_call_effect (op := .release i) hi.reach hl.alive
  have hb := mStep_release e
  obtain ⟨w', e', hi', his, _, _, _, hoth⟩ := imPut_spec (hd := ⟨0, 0, false, false, 1, 0, none⟩) hi h hr hb ho hv (by simp) rfl
    (by simp [imChannels]) (by simp [imChannels]) (by simp)
  refine ⟨w', ?_, hi', by rw [his.shape]; rfl, hoth⟩
  unfold imRelease
  rw [h.at, e]
  simp only [Res.ok_bind]
  unfold imPut blockAt at e'
  have hmi : m.blocks[i]? = some (some mbAlloc) := by
    rw [hb, List.getElem?_set_self (by rw [← hi.length]; exact h.lt)]
  rw [hmi] at e'
  exact e'

theorem imCopy_spec {d s : Nat} {hdd hs : ImHdr} (hi : ImInv w) (h : ImIs w d hdd) (h' : ImIs w s hs) (hne : d ≠ s) :
    ∃ w', imCopy w d s = .ok w' ∧ ImInv w' ∧ Same w s w' d ∧ ∀ j, j ≠ d → Same w j w' j := by
  obtain ⟨l, hl⟩ := hi.img d hdd h
  obtain ⟨l', hl'⟩ := hi.img s hs h'
  obtain ⟨m, e, hr, hv, ho⟩ := c15_call_effect (op := .copy d s) hi.reach ⟨hl.alive, hl'.alive, hne⟩
  obtain ⟨b, hb⟩ := mStep_copy e
  rw [hl'.bytes] at hv
  obtain ⟨w', e', hi', his, hok, _, _, hoth⟩ := imPut_spec (hd := hs) hi h hr hb ho hv hl'.len hl'.channels hl'.row hl'.row_le hl'.all_le
  refine ⟨w', ?_, hi', same_of hl' h' hok his rfl, hoth⟩
  unfold imCopy
  rw [h.at, h'.at]
  simp only [Res.ok_bind]
  rw [e]
  exact e'

theorem imWrap_spec (hi : ImInv w) (h : ImIs w i hd) {data : Bytes} {wd ht st : Nat} {rgba float own : Bool}
    (hrow : (if rgba then 4 else 1) * wd ≤ st) (hsz : st * ht ≤ 2147483647) (hrl : (if rgba then 4 else 1) * wd ≤ 2147483647)
    (hdata : st * ht * (if float then 4 else 1) ≤ data.length) :
    ∃ w', imWrap w i data wd ht st rgba float own = .ok w' ∧ ImInv w' ∧ imShape w' i = some ⟨wd, ht, rgba, float, st⟩ ∧
      (∀ x y c k, (Shape.mk wd ht rgba float st).Has x y c k → ∃ b, data[(Shape.mk wd ht rgba float st).at x y c k]? = some b ∧
        imByte w' i ((Shape.mk wd ht rgba float st).at x y c k) = some (some b)) ∧ ∀ j, j ≠ i → Same w j w' j := by
  obtain ⟨l, hl⟩ := hi.img i hd h
  have hdata' : st * ht * imBytes float ≤ data.length := hdata
  obtain ⟨m, e, hr, hv, ho⟩ := c15_call_effect (op := .wrap i (data.take (st * ht * imBytes float)) (st * ht * imBytes float) own)
    hi.reach ⟨hl.alive, by rw [List.length_take]; omega⟩
  obtain ⟨b, hb⟩ := mStep_wrap e
  obtain ⟨w', e', hi', his, hok, _, _, hoth⟩ := imPut_spec (hd := ⟨wd, ht, rgba, float, imChannels rgba, st, none⟩) hi h hr hb ho hv
    (by simp; omega) rfl hrow hrl hsz
  refine ⟨w', ?_, hi', by rw [his.shape]; rfl, ?_, hoth⟩
  · unfold imWrap
    rw [h.at]
    simp only [Res.ok_bind]
    rw [if_neg (by cases rgba <;> simp at hrow <;> omega), if_pos ⟨⟨by omega, by omega⟩, hdata'⟩, e]
    exact e'
  · intro x y c k hh
    have hlt := hok.at_lt (x := x) (y := y) (c := c) (k := k) hh
    have hby := hok.byte his hlt
    have hlt' : (Shape.mk wd ht rgba float st).at x y c k < st * ht * imBytes float := by
      have := hok.len ▸ hlt
      exact this
    refine ⟨data[(Shape.mk wd ht rgba float st).at x y c k]'(by omega), List.getElem?_eq_getElem _, ?_⟩
    refine hby.trans ?_
    have e2 : ({ width := wd, height := ht, rgba := rgba, float := float, channels := imChannels rgba, stride := st, data := b.ptr } : ImHdr).shape
      = ⟨wd, ht, rgba, float, st⟩ := rfl
    rw [e2, List.getElem?_map, List.take_take, Nat.min_self, List.getElem?_take, if_pos hlt', List.getElem?_eq_getElem (by omega)]
    rfl

theorem imSwap_spec {hj : ImHdr} (hi : ImInv w) (h : ImIs w i hd) (h' : ImIs w j hj) :
    ∃ w', imSwap w i j = .ok w' ∧ ImInv w' ∧ Same w j w' i ∧ Same w i w' j ∧ ∀ k, k ≠ i → k ≠ j → Same w k w' k := by
  obtain ⟨l, hl⟩ := hi.img i hd h
  obtain ⟨l', hl'⟩ := hi.img j hj h'
  obtain ⟨m, e, hr, v1, v2, ho⟩ := c15_call_effect (op := .swap i j) hi.reach ⟨hl.alive, hl'.alive⟩
  obtain ⟨b, hb, hbp⟩ := hl.block
  obtain ⟨b', hb', hbp'⟩ := hl'.block
  have em := mStep_swap hb hb' e
  have hil := h.lt
  have hjl := h'.lt
  have hil' : i < w.mem.blocks.length := by rw [← hi.length]; exact hil
  have hjl' : j < w.mem.blocks.length := by rw [← hi.length]; exact hjl
  have hmj : m.blocks[j]? = some (some b) := by
    rw [em]
    simp only
    rw [List.getElem?_set_self (by rw [List.length_set]; exact hjl')]
  have hmi : m.blocks[i]? = some (some b') := by
    by_cases eij : i = j
    · subst eij
      rw [hmj, ← hb, hb']
    · rw [em]
      simp only
      rw [List.getElem?_set_ne (Ne.symm eij), List.getElem?_set_self hil']
  have hmk : ∀ k, k ≠ i → k ≠ j → m.blocks[k]? = w.mem.blocks[k]? := by
    intro k h1 h2
    rw [em]
    simp only
    rw [List.getElem?_set_ne (Ne.symm h2), List.getElem?_set_ne (Ne.symm h1)]
  have hset : ∃ w', imSwap w i j = .ok w' ∧ w'.mem = m ∧
      w'.hdrs = (w.hdrs.set i (some { hj with data := b'.ptr })).set j (some { hd with data := b.ptr }) := by
    refine ⟨⟨m, (w.hdrs.set i (some { hj with data := b'.ptr })).set j (some { hd with data := b.ptr })⟩, ?_, rfl, rfl⟩
    unfold imSwap
    rw [h.at, h'.at]
    simp only [Res.ok_bind]
    rw [e]
    simp only [Res.ok_bind]
    unfold imPut blockAt
    rw [hmi, hmj]
    rfl
  obtain ⟨w', e', em', eh'⟩ := hset
  have hisj : ImIs w' j { hd with data := b.ptr } := by
    unfold ImIs
    rw [eh', List.getElem?_set_self (by rw [List.length_set]; exact hjl)]
  have hisi : ImIs w' i { hj with data := b'.ptr } := by
    unfold ImIs
    by_cases eij : i = j
    · subst eij
      rw [eh', List.getElem?_set_self (by rw [List.length_set]; exact hil)]
      unfold ImIs at h h'
      rw [h] at h'
      cases h'
      rw [hb] at hb'
      cases hb'
      rfl
    · rw [eh', List.getElem?_set_ne (Ne.symm eij), List.getElem?_set_self hil]
  have hokj : ImOk w' j { hd with data := b.ptr } l :=
    ⟨⟨b, by rw [em']; exact hmj, rfl⟩, by rw [em', v2]; exact hl.bytes, hl.len, hl.channels, hl.row, hl.row_le, hl.all_le⟩
  have hoki : ImOk w' i { hj with data := b'.ptr } l' :=
    ⟨⟨b', by rw [em']; exact hmi, rfl⟩, by rw [em', v1]; exact hl'.bytes, hl'.len, hl'.channels, hl'.row, hl'.row_le, hl'.all_le⟩
  have hhk : ∀ k, k ≠ i → k ≠ j → w'.hdrs[k]? = w.hdrs[k]? := by
    intro k h1 h2
    rw [eh', List.getElem?_set_ne (Ne.symm h2), List.getElem?_set_ne (Ne.symm h1)]
  refine ⟨w', e', ⟨by rw [em']; exact hr, ?_, ?_, ?_⟩, same_of hl' h' hoki hisi rfl, same_of hl h hokj hisj rfl, ?_⟩
  · rw [em', em, eh']
    simp [hi.length]
  · intro k hd' hk
    by_cases e1 : k = i
    · subst e1
      unfold ImIs at hk hisi
      rw [hisi] at hk
      cases hk
      exact ⟨_, hoki⟩
    · by_cases e2 : k = j
      · subst e2
        unfold ImIs at hk hisj
        rw [hisj] at hk
        cases hk
        exact ⟨_, hokj⟩
      · exact (same_keep hi (hhk k e1 e2) (by rw [em']; exact hmk k e1 e2) (by rw [em']; exact ho k e1 e2)).2 hd' hk
  · intro k hk
    by_cases e1 : k = i
    · subst e1
      unfold ImIs at hisi
      rw [hisi] at hk
      cases hk
    · by_cases e2 : k = j
      · subst e2
        unfold ImIs at hisj
        rw [hisj] at hk
        cases hk
      · rw [hhk k e1 e2] at hk
        rw [em', hmk k e1 e2]
        exact hi.gone k hk
  · intro k e1 e2
    exact (same_keep hi (hhk k e1 e2) (by rw [em']; exact hmk k e1 e2) (by rw [em']; exact ho k e1 e2)).1

theorem imSetZero_spec (hi : ImInv w) (h : ImIs w i hd) :
    ∃ w', imSetZero w i = .ok w' ∧ ImInv w' ∧ imShape w' i = imShape w i ∧
      (∀ s, imShape w i = some s → ∀ x y c k, s.Has x y c k → imByte w' i (s.at x y c k) = some (some 0)) ∧
      ∀ j, j ≠ i → Same w j w' j := by
  obtain ⟨l, hl⟩ := hi.img i hd h
  obtain ⟨m, e, hr, ⟨l0, hv0, hv⟩, ho⟩ := c15_call_effect (op := .setZero i) hi.reach hl.alive
  have hb := mStep_setZero e
  rw [hl.bytes] at hv0
  cases hv0
  have hok : ImOk { w with mem := m } i hd (List.replicate l.length (some 0)) :=
    ⟨by simp only [hb]; exact hl.block, hv, by rw [List.length_replicate]; exact hl.len, hl.channels, hl.row, hl.row_le, hl.all_le⟩
  refine ⟨{ w with mem := m }, ?_, ⟨hr, ?_, ?_, ?_⟩, rfl, ?_, ?_⟩
  · unfold imSetZero
    rw [h.at, e]
    rfl
  · simp only [hb]
    exact hi.length
  · intro j hd' hj
    by_cases ej : j = i
    · subst ej
      unfold ImIs at h hj
      simp only [h] at hj
      cases hj
      exact ⟨_, hok⟩
    · exact (same_keep (w' := { w with mem := m }) hi rfl (by simp only [hb]) (ho j ej)).2 hd' hj
  · intro j hj
    simp only [hb]
    exact hi.gone j hj
  · intro s es x y c k hh
    rw [h.shape] at es
    cases es
    have hlt := hok.at_lt hh
    have hb' : imByte { w with mem := m } i (hd.shape.at x y c k) = _ := hok.byte h hlt
    rw [hb', List.getElem?_replicate, if_pos (by rw [List.length_replicate] at hlt; exact hlt)]
  · intro j ej
    exact (same_keep (w' := { w with mem := m }) hi rfl (by simp only [hb]) (ho j ej)).1

theorem imFree_spec (hi : ImInv w) (h : ImIs w i hd) :
    ∃ w', imFree w i = .ok w' ∧ ImInv w' ∧ imShape w' i = none ∧ ∀ j, j ≠ i → Same w j w' j := by
  obtain ⟨l, hl⟩ := hi.img i hd h
  obtain ⟨m, e, hr, hv, ho⟩ := c15_call_effect (op := .free i) hi.reach hl.alive
  have hb := mStep_free e
  have hbj : ∀ j, j ≠ i → m.blocks[j]? = w.mem.blocks[j]? := fun j hj => by rw [hb, List.getElem?_set_ne (Ne.symm hj)]
  have hhj : ∀ j, j ≠ i → (w.hdrs.set i none)[j]? = w.hdrs[j]? := fun j hj => by rw [List.getElem?_set_ne (Ne.symm hj)]
  have hself : (w.hdrs.set i none)[i]? = some none := List.getElem?_set_self h.lt
  refine ⟨⟨m, w.hdrs.set i none⟩, ?_, ⟨hr, ?_, ?_, ?_⟩, ?_, ?_⟩
  · unfold imFree
    rw [h.at, e]
    rfl
  · simp only [hb, List.length_set]
    exact hi.length
  · intro j hd' hj
    by_cases ej : j = i
    · subst ej
      unfold ImIs at hj
      simp only [hself] at hj
      cases hj
    · exact (same_keep (w' := ⟨m, w.hdrs.set i none⟩) hi (hhj j ej) (hbj j ej) (ho j ej)).2 hd' hj
  · intro j hj
    by_cases ej : j = i
    · subst ej
      simp only [hb]
      exact List.getElem?_set_self (by rw [← hi.length]; exact h.lt)
    · simp only [hhj j ej] at hj
      simp only [hbj j ej]
      exact hi.gone j hj
  · unfold imShape
    simp only [hself]
  · intro j ej
    exact (same_keep (w' := ⟨m, w.hdrs.set i none⟩) hi (hhj j ej) (hbj j ej) (ho j ej)).1

end

theorem Same.trans {w w' w'' : IWorld} {i j k : Nat} (h : Same w i w' j) (h' : Same w' j w'' k) : Same w i w'' k := by
  refine ⟨h'.shape.trans h.shape, ?_⟩
  intro s e x y c k' hh
  rw [h'.bytes s (by rw [h.shape]; exact e) x y c k' hh, h.bytes s e x y c k' hh]

theorem resized_packed {wd ht : Int} {rgba float : Bool} : resized wd ht (-1) rgba float = packed wd.toNat ht.toNat rgba float := by
  unfold resized packed
  rw [show ((-1 : Int)).toNat = 0 from rfl, Nat.zero_max]

theorem imNew_spec {w : IWorld} (hi : ImInv w) {wd ht : Int} {rgba float : Bool} (hf : Fit wd ht (-1) rgba) :
    ∃ w', imNew w wd ht rgba float = .ok w' ∧ ImInv w' ∧
      imShape w' w.hdrs.length = some (packed wd.toNat ht.toNat rgba float) ∧ ∀ j, j ≠ w.hdrs.length → Same w j w' j := by
  obtain ⟨w1, e1, hi1, _, his, ho1⟩ := imAlloc_spec hi
  obtain ⟨w2, e2, hi2, _, hs, _, ho2⟩ := imResize_spec (float := float) hi1 his hf
  refine ⟨w2, ?_, hi2, by rw [hs, resized_packed], fun j hj => (ho1 j hj).trans (ho2 j hj)⟩
  unfold imNew
  rw [if_neg (by have := hf.1; have := hf.2.1; omega), e1]
  exact e2

/-- Sizes of an existing image can be used for another. -/
theorem ImOk.fit {w i hd l} (h : ImOk w i hd l) : Fit hd.width hd.height (-1) hd.rgba := by
  have h1 := h.row
  have h2 := h.row_le
  have h3 := h.all_le
  have e : ((if hd.rgba then 4 else 1 : Int)) * (hd.width : Int) = ((imChannels hd.rgba * hd.width : Nat) : Int) := by
    unfold imChannels
    cases hd.rgba <;> simp
  unfold Fit
  intro rs
  have hrs : rs = ((imChannels hd.rgba * hd.width : Nat) : Int) := e
  rw [hrs]
  have h4 : (imChannels hd.rgba * hd.width) * hd.height ≤ 2147483647 := Nat.le_trans (Nat.mul_le_mul_right _ h1) h3
  refine ⟨by omega, by omega, by omega, ?_⟩
  rw [Int.max_eq_right (by omega)]
  rw [← Int.natCast_mul]
  omega

theorem imStep_spec {w : IWorld} {op : IOp} (hi : ImInv w) (ha : ImAllowed w op) :
    ∃ w', imStep w op = .ok w' ∧ ImInv w' ∧ ImEffect w w' op := by
  cases op with
  | alloc =>
    obtain ⟨w', e, hi', _, his, ho⟩ := imAlloc_spec hi
    exact ⟨w', e, hi', by rw [his.shape]; rfl, ho⟩
  | new wd ht rgba float =>
    obtain ⟨w', e, hi', hs, ho⟩ := imNew_spec (float := float) hi ha
    exact ⟨w', e, hi', hs, ho⟩
  | newLike s =>
    obtain ⟨hd, h⟩ := ha
    obtain ⟨l, hl⟩ := hi.img s hd h
    obtain ⟨w', e, hi', hs, ho⟩ := imNew_spec (float := hd.float) hi hl.fit
    refine ⟨w', ?_, hi', ⟨hd.shape, h.shape, hs⟩, ho⟩
    unfold imStep
    simp only
    rw [h.at]
    exact e
  | resize i wd ht st rgba float =>
    obtain ⟨⟨hd, h⟩, hf⟩ := ha
    obtain ⟨w', e, hi', _, hs, hk, ho⟩ := imResize_spec (float := float) hi h hf
    exact ⟨w', e, hi', hs, hk, ho⟩
  | resizeLike i s =>
    obtain ⟨⟨hd, h⟩, hd', h'⟩ := ha
    obtain ⟨l, hl⟩ := hi.img s hd' h'
    obtain ⟨w', e, hi', _, hs, hk, ho⟩ := imResize_spec (float := hd'.float) hi h hl.fit
    refine ⟨w', ?_, hi', ⟨hd'.shape, h'.shape, by rw [hs, resized_packed]; rfl⟩, hk, ho⟩
    unfold imStep
    simp only
    rw [h'.at]
    exact e
  | release i =>
    obtain ⟨hd, h⟩ := ha
    exact imRelease_spec hi h
  | copy d s =>
    obtain ⟨⟨hd, h⟩, ⟨hd', h'⟩, hne⟩ := ha
    exact imCopy_spec hi h h' hne
  | copy0 s =>
    obtain ⟨hd, h⟩ := ha
    obtain ⟨w1, e1, hi1, _, his, ho1⟩ := imAlloc_spec hi
    have hne : s ≠ w.hdrs.length := Nat.ne_of_lt h.lt
    have hsame := ho1 s hne
    have hs1 : ∃ hd', ImIs w1 s hd' := by
      have := hsame.shape
      rw [h.shape] at this
      unfold imShape at this
      split at this
      · rename_i hd' e
        exact ⟨hd', e⟩
      · cases this
    obtain ⟨hd', h'⟩ := hs1
    obtain ⟨w2, e2, hi2, hc, ho2⟩ := imCopy_spec hi1 his h' (Ne.symm hne)
    refine ⟨w2, ?_, hi2, hsame.trans hc, fun j hj => (ho1 j hj).trans (ho2 j hj)⟩
    unfold imStep
    simp only
    rw [e1]
    exact e2
  | wrap i data wd ht st rgba float own =>
    obtain ⟨⟨hd, h⟩, h1, h2, h3, h4⟩ := ha
    exact imWrap_spec hi h h1 h2 h3 h4
  | swap i j =>
    obtain ⟨⟨hd, h⟩, hd', h'⟩ := ha
    exact imSwap_spec hi h h'
  | setZero i =>
    obtain ⟨hd, h⟩ := ha
    exact imSetZero_spec hi h
  | free i =>
    obtain ⟨hd, h⟩ := ha
    exact imFree_spec hi h

theorem ireach_inv {w : IWorld} (hr : IReach w) : ImInv w := by
  induction hr with
  | init =>
    exact ⟨.init, rfl, by intro i hd h; simp [ImIs] at h, by intro i h; simp at h⟩
  | step _ ha hs ih =>
    obtain ⟨w', e, h, _⟩ := imStep_spec ih ha
    rw [e] at hs
    cases hs
    exact h

/-- C80. In every history of allowed calls each next allowed call runs without undefined behaviour and has exactly its effect: a copy
is the same picture as its source, swapped images are exchanged, wrapped memory is seen in place, resizing to the shape an image already
has keeps its pixels, and no call changes a picture it does not name. -/
theorem c80_call_effect {w : IWorld} {op : IOp} (hr : IReach w) (ha : ImAllowed w op) :
    ∃ w', imStep w op = .ok w' ∧ IReach w' ∧ ImEffect w w' op := by
  obtain ⟨w', e, _, h⟩ := imStep_spec (ireach_inv hr) ha
  exact ⟨w', e, .step hr ha e, h⟩

/-- C80. Every byte of every pixel of every image can be accessed. -/
theorem c80_pixels_inside {w : IWorld} {i : Nat} {s : Shape} (hr : IReach w) (hs : imShape w i = some s) {x y c k : Nat}
    (hh : s.Has x y c k) : ∃ b, imByte w i (s.at x y c k) = some b := by
  unfold imShape at hs
  split at hs
  · rename_i hd e
    cases hs
    obtain ⟨l, hl⟩ := (ireach_inv hr).img i hd e
    have hlt := hl.at_lt hh
    exact ⟨_, (hl.byte e hlt).trans (List.getElem?_eq_getElem hlt)⟩
  · cases hs

/-- Different bytes of pixels have different offsets. -/
theorem Shape.at_inj {s : Shape} (hrow : s.perPixel * s.width ≤ s.stride) {x y c k x' y' c' k' : Nat} (h : s.Has x y c k)
    (h' : s.Has x' y' c' k') (e : s.at x y c k = s.at x' y' c' k') : x = x' ∧ y = y' ∧ c = c' ∧ k = k' := by
  obtain ⟨hx, hy, hc, hk⟩ := h
  obtain ⟨hx', hy', hc', hk'⟩ := h'
  have uniq : ∀ {n a b a' b' : Nat}, b < n → b' < n → a * n + b = a' * n + b' → a = a' ∧ b = b' := by
    intro n a b a' b' hb hb' e
    have h1 : (a * n + b) / n = a := by
      rw [Nat.mul_comm, Nat.mul_add_div (by omega), Nat.div_eq_of_lt hb, Nat.add_zero]
    have h2 : (a' * n + b') / n = a' := by
      rw [Nat.mul_comm, Nat.mul_add_div (by omega), Nat.div_eq_of_lt hb', Nat.add_zero]
    have : a = a' := by rw [← h1, ← h2, e]
    subst this
    exact ⟨rfl, by omega⟩
  have lt : ∀ {x c : Nat}, x < s.width → c < s.perPixel → s.perPixel * x + c < s.stride := by
    intro x c hx hc
    have : s.perPixel * (x + 1) ≤ s.perPixel * s.width := Nat.mul_le_mul_left _ hx
    rw [Nat.mul_add] at this
    omega
  unfold Shape.at at e
  obtain ⟨e1, e2⟩ := uniq hk hk' e
  rw [Nat.add_assoc, Nat.add_assoc] at e1
  obtain ⟨e3, e4⟩ := uniq (lt hx hc) (lt hx' hc') e1
  rw [Nat.mul_comm s.perPixel, Nat.mul_comm s.perPixel] at e4
  obtain ⟨e5, e6⟩ := uniq hc hc' e4
  exact ⟨e5, e3, e6, e2⟩

/-- C80. No two pixels share memory, neither of one image nor of two. -/
theorem c80_pixels_apart {w : IWorld} {i j : Nat} {hd hd' : ImHdr} (hr : IReach w) (h : ImIs w i hd) (h' : ImIs w j hd') {p : Nat}
    (hp : hd.data = some p) (hp' : hd'.data = some p) {x y c k x' y' c' k' : Nat} (hh : hd.shape.Has x y c k)
    (hh' : hd'.shape.Has x' y' c' k') (e : hd.shape.at x y c k = hd'.shape.at x' y' c' k') :
    i = j ∧ x = x' ∧ y = y' ∧ c = c' ∧ k = k' := by
  obtain ⟨l, hl⟩ := (ireach_inv hr).img i hd h
  obtain ⟨l', hl'⟩ := (ireach_inv hr).img j hd' h'
  obtain ⟨b, hb, e1⟩ := hl.block
  obtain ⟨b', hb', e2⟩ := hl'.block
  have hij : i = j := (reach_inv (ireach_inv hr).reach).dist i j b b' p hb hb' (by rw [← e1, hp]) (by rw [← e2, hp'])
  subst hij
  have : hd = hd' := by
    unfold ImIs at h h'
    rw [h] at h'
    cases h'
    rfl
  subst this
  exact ⟨rfl, Shape.at_inj (s := hd.shape) hl.row hh hh' e⟩

/-- C80. Once all images are freed the library owns no memory. -/
theorem c80_no_leak {w : IWorld} (hr : IReach w) (hall : ∀ i hd, ¬ ImIs w i hd) (p : Nat) : ¬ libraryOwned w.mem.heap p := by
  have hi := ireach_inv hr
  apply c15_no_leak hi.reach
  rintro b ⟨m, hb⟩
  have hlt : b < w.hdrs.length := by
    rw [hi.length]
    exact (List.getElem?_eq_some_iff.mp hb).1
  cases hx : w.hdrs[b] with
  | none =>
    have := hi.gone b (by rw [List.getElem?_eq_getElem hlt, hx])
    rw [hb] at this
    cases this
  | some hd => exact hall b hd (by unfold ImIs; rw [List.getElem?_eq_getElem hlt, hx])

/-- C80 fails for copying an image onto itself. -/
theorem c80_self_copy {w : IWorld} {i : Nat} {hd : ImHdr} (hr : IReach w) (h : ImIs w i hd) (h0 : 0 < hd.stride * hd.height) :
    imCopy w i i = .ub := by
  have hi := ireach_inv hr
  obtain ⟨l, hl⟩ := hi.img i hd h
  obtain ⟨b, hb, _⟩ := hl.block
  have hsz : b.size ≠ 0 := by
    have hv := visible_blk ((reach_inv hi.reach).blk i b hb) hb
    have hv' : visible w.mem i = some ((blkBytes w.mem.heap b).take b.size) := hv
    rw [hl.bytes] at hv'
    intro e
    rw [e] at hv'
    have hlen := hl.len
    simp only [List.take_zero, Option.some.injEq] at hv'
    rw [hv', List.length_nil] at hlen
    have : 0 < hd.stride * hd.height * imBytes hd.float := Nat.mul_pos h0 (by unfold imBytes; split <;> omega)
    omega
  unfold imCopy
  rw [h.at]
  simp only [Res.ok_bind]
  rw [c15_self_copy_ub hi.reach hb (by omega)]
  rfl

/-- C80 fails for resizing to rows of another length: the image keeps its size, but not its pixels. -/
theorem c80_restride : ∃ w w', imStep w (.resize 0 1 2 (-1) false false) = .ok w' ∧ IReach w ∧
    (∃ s s', imShape w 0 = some s ∧ imShape w' 0 = some s' ∧ s'.width = s.width ∧ s'.height = s.height ∧ s.Has 0 1 0 0 ∧
      imByte w 0 (s.at 0 1 0 0) = some (some 20) ∧ imByte w' 0 (s'.at 0 1 0 0) = some (some 11)) := by
  have h1 : imStep ⟨⟨[], []⟩, []⟩ .alloc = .ok ⟨⟨[], [some ⟨none, 0, 0, false⟩]⟩, [some ⟨0, 0, false, false, 1, 0, none⟩]⟩ := by
    decide +kernel
  have h2 : imStep ⟨⟨[], [some ⟨none, 0, 0, false⟩]⟩, [some ⟨0, 0, false, false, 1, 0, none⟩]⟩
      (.wrap 0 [10, 11, 20, 21] 1 2 2 false false true) =
      .ok ⟨⟨[some ⟨[some 10, some 11, some 20, some 21], false⟩], [some ⟨some 0, 4, 4, true⟩]⟩,
        [some ⟨1, 2, false, false, 1, 2, some 0⟩]⟩ := by decide +kernel
  have h3 : imStep ⟨⟨[some ⟨[some 10, some 11, some 20, some 21], false⟩], [some ⟨some 0, 4, 4, true⟩]⟩,
        [some ⟨1, 2, false, false, 1, 2, some 0⟩]⟩ (.resize 0 1 2 (-1) false false) =
      .ok ⟨⟨[some ⟨[some 10, some 11, some 20, some 21], false⟩], [some ⟨some 0, 2, 4, true⟩]⟩,
        [some ⟨1, 2, false, false, 1, 1, some 0⟩]⟩ := by decide +kernel
  refine ⟨_, _, h3, IReach.step (op := .wrap 0 [10, 11, 20, 21] 1 2 2 false false true) (IReach.step (op := .alloc) .init trivial h1)
      ⟨⟨_, rfl⟩, by decide, by decide, by decide, by decide⟩ h2,
    ⟨1, 2, false, false, 2⟩, ⟨1, 2, false, false, 1⟩, rfl, rfl, rfl, rfl, ?_, by decide +kernel, by decide +kernel⟩
  unfold Shape.Has Shape.perPixel Shape.perSample
  decide

/-- C80 fails for colour images: the check of `nx_image_wrap` accepts rows too short for their pixels, and pixels lie outside. -/
theorem c80_wrap_narrow : ∃ w w', IReach w ∧ imStep w (.wrap 0 [1, 2, 3, 4, 5, 6, 7, 8] 8 1 8 true false false) = .ok w' ∧
    ∃ s, imShape w' 0 = some s ∧ s.Has 2 0 0 0 ∧ imByte w' 0 (s.at 2 0 0 0) = none := by
  have h1 : imStep ⟨⟨[], []⟩, []⟩ .alloc = .ok ⟨⟨[], [some ⟨none, 0, 0, false⟩]⟩, [some ⟨0, 0, false, false, 1, 0, none⟩]⟩ := by
    decide +kernel
  have h2 : imStep ⟨⟨[], [some ⟨none, 0, 0, false⟩]⟩, [some ⟨0, 0, false, false, 1, 0, none⟩]⟩
      (.wrap 0 [1, 2, 3, 4, 5, 6, 7, 8] 8 1 8 true false false) =
      .ok ⟨⟨[some ⟨[1, 2, 3, 4, 5, 6, 7, 8].map some, true⟩], [some ⟨some 0, 8, 8, false⟩]⟩,
        [some ⟨8, 1, true, false, 4, 8, some 0⟩]⟩ := by decide +kernel
  refine ⟨_, _, IReach.step (op := .alloc) .init trivial h1, h2, ⟨8, 1, true, false, 8⟩, rfl, ?_, by decide +kernel⟩
  unfold Shape.Has Shape.perPixel Shape.perSample
  decide

/-- A history: two images, one wrapped and copied to the other. -/
example : ∃ w, IReach w ∧ imShape w 1 = some ⟨1, 2, false, false, 2⟩ ∧ imByte w 1 2 = some (some 20) := by
  have h1 : imStep ⟨⟨[], []⟩, []⟩ .alloc = .ok ⟨⟨[], [some ⟨none, 0, 0, false⟩]⟩, [some ⟨0, 0, false, false, 1, 0, none⟩]⟩ := by
    decide +kernel
  have h2 : imStep ⟨⟨[], [some ⟨none, 0, 0, false⟩]⟩, [some ⟨0, 0, false, false, 1, 0, none⟩]⟩
      (.wrap 0 [10, 11, 20, 21] 1 2 2 false false true) =
      .ok ⟨⟨[some ⟨[some 10, some 11, some 20, some 21], false⟩], [some ⟨some 0, 4, 4, true⟩]⟩,
        [some ⟨1, 2, false, false, 1, 2, some 0⟩]⟩ := by decide +kernel
  have h3 : imStep ⟨⟨[some ⟨[some 10, some 11, some 20, some 21], false⟩], [some ⟨some 0, 4, 4, true⟩]⟩,
        [some ⟨1, 2, false, false, 1, 2, some 0⟩]⟩ (.copy0 0) =
      .ok ⟨⟨[some ⟨[some 10, some 11, some 20, some 21], false⟩, some ⟨[some 10, some 11, some 20, some 21], false⟩],
        [some ⟨some 0, 4, 4, true⟩, some ⟨some 1, 4, 4, true⟩]⟩,
        [some ⟨1, 2, false, false, 1, 2, some 0⟩, some ⟨1, 2, false, false, 1, 2, some 1⟩]⟩ := by decide +kernel
  exact ⟨_, IReach.step (op := .copy0 0) (IReach.step (op := .wrap 0 [10, 11, 20, 21] 1 2 2 false false true) (IReach.step (op := .alloc) .init trivial h1)
      ⟨⟨_, rfl⟩, by decide, by decide, by decide, by decide⟩ h2)
    ⟨_, rfl⟩ h3, by decide +kernel, by decide +kernel⟩

end Nx
