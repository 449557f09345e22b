import Verif.Lemmas.MemBlock

/-!
# C15: memory blocks never lose, duplicate or overrun memory

The model makes freeing twice, freeing memory of the user, using a freed block or
allocation and leaving an allocation undefined (`Res.ub`).
-/

namespace Nx

theorem alive_blockAt {w b} (h : Alive w b) : ∃ m, blockAt w b = .ok m ∧ w.blocks[b]? = some (some m) := by
  obtain ⟨m, hm⟩ := h
  exact ⟨m, by unfold blockAt; rw [hm], hm⟩

theorem set_same {α : Type} {l : List α} {b : Nat} {x : α} (h : l[b]? = some x) : l.set b x = l := by
  apply List.ext_getElem?
  intro i
  rw [List.getElem?_set]
  split
  · rename_i e; subst e; rw [if_pos (lt_of_live h), h]
  · rfl

theorem append_set_last {α} (l : List α) (x y : α) : (l ++ [x]).set l.length y = l ++ [y] := by
  induction l with
  | nil => rfl
  | cons a l ih => simp [ih]

theorem mbLenVisible {h m} (hm : BlkOk h m) : ((blkBytes h m).take m.size).length = m.size := by
  have := hm.len
  have := hm.1
  simp; omega

theorem mStep_spec {w op} (hi : MInv w.heap w.blocks) (ha : Allowed w op) :
    ∃ w', mStep w op = .ok w' ∧ MInv w'.heap w'.blocks ∧
      OpEffect w.blocks.length (visible w) (visible w') op := by
  obtain ⟨h, bs⟩ := w
  -- creation of a block: first the empty block, then an update of it
  have create : ∀ h' m', Upd h mbAlloc h' m' →
      MInv h' (bs ++ [some m']) ∧
      visible ⟨h', bs ++ [some m']⟩ bs.length = some ((blkBytes h' m').take m'.size) ∧
      ∀ c, c ≠ bs.length → visible ⟨h', bs ++ [some m']⟩ c = visible ⟨h, bs⟩ c := by
    intro h' m' hu
    have hi1 : MInv h (bs ++ [some mbAlloc]) := MInv.addBlock hi
    have hb : (bs ++ [some mbAlloc])[bs.length]? = some (some mbAlloc) := by simp
    have h1 := hi1.upd hb hu
    rw [append_set_last] at h1
    refine ⟨h1, visible_blk hu.ok (by simp), fun c hc => ?_⟩
    have h2 := visible_upd hi1 hb hu hc
    rw [append_set_last] at h2
    rw [h2]
    unfold visible
    have : (bs ++ [some mbAlloc])[c]? = bs[c]? := by
      by_cases hlt : c < bs.length
      · rw [List.getElem?_append_left hlt]
      · rw [List.getElem?_eq_none (by simp; omega), List.getElem?_eq_none (by omega)]
    simp only [this]
  cases op with
  | new n =>
    obtain ⟨h', m', h1, h2, h3, _, _⟩ := mbResize_spec (BlkOk.alloc h) n
    obtain ⟨c1, c2, c3⟩ := create h' m' h2
    refine ⟨⟨h', bs ++ [some m']⟩, ?_, c1, ?_, c3⟩
    · simp only [mStep, h1, Res.ok_bind]; rfl
    · exact ⟨_, c2, by rw [mbLenVisible h2.ok, h3]⟩
  | reserve b n =>
    obtain ⟨m, hb, hm⟩ := alive_blockAt ha
    have hok := hi.blk b m hm
    obtain ⟨h', m', h1, h2, h3, _, h5, _⟩ := mbReserve_spec hok n
    refine ⟨⟨h', bs.set b (some m')⟩, ?_, hi.upd hm h2, ?_⟩
    · simp only [mStep, hb, h1, Res.ok_bind]; rfl
    · intro c
      by_cases e : c = b
      · subst e
        rw [visible_blk h2.ok (List.getElem?_set_self (lt_of_live hm)), visible_blk hok hm, h3, h5]
      · exact visible_upd hi hm h2 e
  | resize b n =>
    obtain ⟨m, hb, hm⟩ := alive_blockAt ha
    have hok := hi.blk b m hm
    obtain ⟨h', m', h1, h2, h3, _, h5⟩ := mbResize_spec hok n
    refine ⟨⟨h', bs.set b (some m')⟩, ?_, hi.upd hm h2, ?_, fun c e => visible_upd hi hm h2 e⟩
    · simp only [mStep, hb, h1, Res.ok_bind]; rfl
    · refine ⟨_, _, visible_blk hok hm,
        visible_blk h2.ok (List.getElem?_set_self (lt_of_live hm)), ?_, ?_⟩
      · rw [mbLenVisible h2.ok, h3]
      · rw [mbLenVisible hok, List.take_take, List.take_take, h3,
          Nat.min_eq_left (Nat.min_le_right _ _), Nat.min_eq_left (Nat.min_le_left _ _), h5]
  | release b =>
    obtain ⟨m, hb, hm⟩ := alive_blockAt ha
    have hok := hi.blk b m hm
    obtain ⟨h', h1, h2, _, _⟩ := mbRelease_spec hok
    refine ⟨⟨h', bs.set b (some mbAlloc)⟩, ?_, hi.upd hm h2, ?_, fun c e => visible_upd hi hm h2 e⟩
    · simp only [mStep, hb, h1, Res.ok_bind]; rfl
    · rw [visible_blk h2.ok (List.getElem?_set_self (lt_of_live hm))]; rfl
  | wrap b data sz own =>
    obtain ⟨ha, hsz⟩ := ha
    obtain ⟨m, hb, hm⟩ := alive_blockAt ha
    have hok := hi.blk b m hm
    obtain ⟨h', m', h1, h2, h3, _, _, h6⟩ := mbWrap_spec hok data sz own hsz
    refine ⟨⟨h', bs.set b (some m')⟩, ?_, hi.upd hm h2, ?_, fun c e => visible_upd hi hm h2 e⟩
    · simp only [mStep, hb, h1, Res.ok_bind]; rfl
    · rw [visible_blk h2.ok (List.getElem?_set_self (lt_of_live hm)), h6, h3, List.map_take]
  | swap b c =>
    obtain ⟨ha, hc⟩ := ha
    obtain ⟨m, hb, hm⟩ := alive_blockAt ha
    obtain ⟨n, hc, hn⟩ := alive_blockAt hc
    have hbl := lt_of_live hm
    have hcl := lt_of_live hn
    refine ⟨⟨h, (bs.set b (some n)).set c (some m)⟩, ?_, hi.swapBlocks hm hn, ?_, ?_, ?_⟩
    · simp only [mStep, hb, hc, Res.ok_bind]; rfl
    · rw [visible_blk (hi.blk c n hn) hn]
      apply visible_blk (hi.blk c n hn)
      by_cases e : b = c
      · subst e; rw [List.getElem?_set_self (by simpa using hbl), ← hm, hn]
      · rw [List.getElem?_set_ne (Ne.symm e), List.getElem?_set_self hbl]
    · rw [visible_blk (hi.blk b m hm) hm]
      exact visible_blk (hi.blk b m hm) (List.getElem?_set_self (by simpa using hcl))
    · intro d h1 h2
      unfold visible
      simp only [List.getElem?_set_ne (Ne.symm h1), List.getElem?_set_ne (Ne.symm h2)]
  | copy d s =>
    obtain ⟨ha, hs, hds⟩ := ha
    obtain ⟨m, hb, hm⟩ := alive_blockAt ha
    obtain ⟨n, hc, hn⟩ := alive_blockAt hs
    have hok := hi.blk d m hm
    have hok' := hi.blk s n hn
    obtain ⟨h', m', h1, h2, h3, h4⟩ := mbCopy_spec hok hok'
      (fun p hp hp' => hds (hi.dist d s m n p hm hn hp' hp))
    refine ⟨⟨h', bs.set d (some m')⟩, ?_, hi.upd hm h2, ?_, fun c e => visible_upd hi hm h2 e⟩
    · simp only [mStep, hb, hc, Res.ok_bind, if_neg hds, h1]; rfl
    · rw [visible_blk h2.ok (List.getElem?_set_self (lt_of_live hm)), visible_blk hok' hn, h3, h4]
  | copy0 s =>
    obtain ⟨n, hc, hn⟩ := alive_blockAt ha
    have hok' := hi.blk s n hn
    obtain ⟨h', m', h1, h2, h3, h4⟩ := mbCopy_spec (BlkOk.alloc h) hok' (fun p hp => nofun)
    obtain ⟨c1, c2, c3⟩ := create h' m' h2
    refine ⟨⟨h', bs ++ [some m']⟩, ?_, c1, ?_, c3⟩
    · simp only [mStep, hc, h1, Res.ok_bind]; rfl
    · rw [c2, visible_blk hok' hn, h3, h4]
  | setZero b =>
    obtain ⟨m, hb, hm⟩ := alive_blockAt ha
    have hok := hi.blk b m hm
    obtain ⟨h', h1, h2, h3⟩ := mbSetZero_spec hok
    have hu := hi.upd hm h2
    have hv := fun c (e : c ≠ b) => visible_upd hi hm h2 e
    rw [set_same hm] at hu
    simp only [set_same hm] at hv
    refine ⟨⟨h', bs⟩, ?_, hu, ⟨_, visible_blk hok hm, ?_⟩, hv⟩
    · simp only [mStep, hb, h1, Res.ok_bind]; rfl
    · rw [visible_blk h2.ok hm, h3, mbLenVisible hok]
  | free b =>
    obtain ⟨m, hb, hm⟩ := alive_blockAt ha
    have hok := hi.blk b m hm
    obtain ⟨h', _, h2, _, h4⟩ := mbRelease_spec hok
    have hbl := lt_of_live hm
    have hu := (hi.upd hm h2).dropBlock (List.getElem?_set_self hbl)
    rw [List.set_set] at hu
    refine ⟨⟨h', bs.set b none⟩, ?_, hu, ?_, ?_⟩
    · simp only [mStep, hb, h4, Res.ok_bind]; rfl
    · unfold visible; simp only [List.getElem?_set_self hbl]
    · intro c e
      rw [← visible_upd hi hm h2 e]
      unfold visible
      simp only [List.getElem?_set_ne (Ne.symm e)]

theorem reach_inv {w} (hr : MReach w) : MInv w.heap w.blocks := by
  induction hr with
  | init => exact ⟨by simp, by simp, by simp⟩
  | step _ ha hs ih =>
    obtain ⟨w', h1, h2, _⟩ := mStep_spec ih ha
    rw [h1] at hs; cases hs; exact h2

/-- In every history of allowed calls, each next allowed call runs without
undefined behaviour (no double free, no freeing of the user's memory, no use of
freed memory, no overrun, no overlapping copy) and has exactly the documented
effect on what the user sees: in particular resize keeps the first `min(old, new)`
bytes, reserve keeps everything, and no call disturbs another block. -/
theorem c15_call_effect {w op} (hr : MReach w) (ha : Allowed w op) :
    ∃ w', mStep w op = .ok w' ∧ MReach w' ∧
      OpEffect w.blocks.length (visible w) (visible w') op := by
  obtain ⟨w', h1, _, h3⟩ := mStep_spec (reach_inv hr) ha
  exact ⟨w', h1, .step hr ha h1, h3⟩

/-- In every reachable state each live block has `size ≤ capacity`, and all its
`capacity` bytes may be accessed. -/
theorem c15_size_le_capacity {w} {b : Nat} {m} (hr : MReach w) (hb : w.blocks[b]? = some (some m)) :
    m.size ≤ m.cap ∧
    (m.cap = 0 ∨ ∃ p c, m.ptr = some p ∧ w.heap[p]? = some (some c) ∧ m.cap ≤ c.data.length) := by
  obtain ⟨hs, ⟨_, h1, _⟩ | ⟨p, c, hp, hc, hl, _⟩⟩ := (reach_inv hr).blk b m hb
  · exact ⟨hs, Or.inl h1⟩
  · exact ⟨hs, Or.inr ⟨p, c, hp, hc, hl⟩⟩

/-- In every reachable state each allocation the library owns belongs to exactly
one live block, and distinct blocks never share memory. -/
theorem c15_one_owner {w} {p : Nat} (hr : MReach w) (hp : libraryOwned w.heap p) :
    ∃ (b : Nat) (m : MBlock), w.blocks[b]? = some (some m) ∧ m.ptr = some p ∧ m.own = true ∧
      ∀ (c : Nat) (n : MBlock), w.blocks[c]? = some (some n) → n.ptr = some p → c = b := by
  obtain ⟨c, hc, hu⟩ := hp
  obtain ⟨b, m, h1, h2, h3⟩ := (reach_inv hr).noleak p c hc hu
  exact ⟨b, m, h1, h2, h3, fun d n hd hn => (reach_inv hr).dist d b n m p hd h1 hn h2⟩

/-- Once every block is freed nothing the library owned is left. -/
theorem c15_no_leak {w} (hr : MReach w) (hall : ∀ b, ¬ Alive w b) (p : Nat) :
    ¬ libraryOwned w.heap p := by
  intro hp
  obtain ⟨b, m, hb, _⟩ := c15_one_owner hr hp
  exact hall b ⟨m, hb⟩

/-- Memory of the user that was only lent to the library stays alive and keeps
its length: no call frees it. -/
theorem c15_user_memory_kept {w w' op} {p : Nat} {c : Chunk} (hr : MReach w) (ha : Allowed w op)
    (hs : mStep w op = .ok w') (hp : w.heap[p]? = some (some c)) (hu : c.user = true) :
    ∃ c', w'.heap[p]? = some (some c') ∧ c'.user = true ∧ c'.data.length = c.data.length := by
  have hi := reach_inv hr
  obtain ⟨h, bs⟩ := w
  simp only at hp
  have hpl := lt_of_live hp
  -- allocation functions that only touch owned memory
  have hrel : ∀ {h : MHeap} {m h'}, h[p]? = some (some c) → mFree h m = .ok h' →
      h'[p]? = some (some c) := by
    intro h m h' hp hf
    unfold mFree at hf
    split at hf
    · cases hf; exact hp
    · rename_i q
      unfold chunkAt at hf
      split at hf
      · rename_i c' hc'
        simp only [Res.ok_bind] at hf
        split at hf
        · cases hf
        · cases hf
          rename_i hnu
          rw [List.getElem?_set_ne]
          · exact hp
          · intro e; subst e; rw [hp] at hc'; cases hc'; exact hnu hu
      · simp at hf
  have hcopy : ∀ {h : MHeap} {d s n h'} {c : Chunk}, h[p]? = some (some c) → c.user = true →
      mCopy h d s n = .ok h' →
      ∃ c', h'[p]? = some (some c') ∧ c'.user = true ∧ c'.data.length = c.data.length := by
    intro h d s n h' c hp hu hf
    unfold mCopy at hf
    split at hf
    · cases hf; exact ⟨c, hp, hu, rfl⟩
    · split at hf
      · rename_i d s
        unfold chunkAt at hf
        split at hf
        · rename_i cd hcd
          simp only [Res.ok_bind] at hf
          split at hf
          · rename_i cs hcs
            simp only [Res.ok_bind] at hf
            split at hf
            · cases hf
            · split at hf
              · rename_i hl
                cases hf
                by_cases e : d = p
                · subst e; rw [hp] at hcd; cases hcd
                  refine ⟨_, List.getElem?_set_self (lt_of_live hp), hu, ?_⟩
                  simp; omega
                · exact ⟨c, by rw [List.getElem?_set_ne e]; exact hp, hu, rfl⟩
              · cases hf
          · simp at hf
        · simp at hf
      · cases hf
  have happ : ∀ {h : MHeap} {x}, h[p]? = some (some c) → (h ++ [x])[p]? = some (some c) := by
    intro h x hp; rw [List.getElem?_append_left (lt_of_live hp)]; exact hp
  have hreserve : ∀ {h : MHeap} {m n h' m'}, h[p]? = some (some c) →
      mbReserve h m n = .ok (h', m') →
      ∃ c', h'[p]? = some (some c') ∧ c'.user = true ∧ c'.data.length = c.data.length := by
    intro h m n h' m' hp hf
    unfold mbReserve at hf
    split at hf
    · split at hf
      · unfold mRealloc at hf
        split at hf
        · simp only [Res.ok_bind] at hf; cases hf
          exact ⟨c, happ hp, hu, rfl⟩
        · rename_i q _
          rw [Res.bind_eq_ok] at hf
          obtain ⟨⟨h1, p1⟩, hf1, hf2⟩ := hf
          rw [Res.bind_eq_ok] at hf1
          obtain ⟨c1, _, hf1⟩ := hf1
          rw [Res.bind_eq_ok] at hf1
          obtain ⟨h2, hfr, hf1⟩ := hf1
          cases hf1; cases hf2
          exact ⟨c, happ (hrel hp hfr), hu, rfl⟩
      · simp only [mAlloc] at hf
        rw [Res.bind_eq_ok] at hf
        obtain ⟨h1, hf1, hf2⟩ := hf
        cases hf2
        split at hf1
        · exact hcopy (happ hp) hu hf1
        · cases hf1; exact ⟨c, happ hp, hu, rfl⟩
    · cases hf; exact ⟨c, hp, hu, rfl⟩
  have hresize : ∀ {h : MHeap} {m n h' m'}, h[p]? = some (some c) →
      mbResize h m n = .ok (h', m') →
      ∃ c', h'[p]? = some (some c') ∧ c'.user = true ∧ c'.data.length = c.data.length := by
    intro h m n h' m' hp hf
    unfold mbResize at hf
    rw [Res.bind_eq_ok] at hf
    obtain ⟨⟨h1, m1⟩, hf1, hf2⟩ := hf
    cases hf2
    exact hreserve hp hf1
  have hcp : ∀ {h : MHeap} {d s h' m'}, h[p]? = some (some c) →
      mbCopy h d s = .ok (h', m') →
      ∃ c', h'[p]? = some (some c') ∧ c'.user = true ∧ c'.data.length = c.data.length := by
    intro h d s h' m' hp hf
    unfold mbCopy at hf
    rw [Res.bind_eq_ok] at hf
    obtain ⟨⟨h1, m1⟩, hf1, hf2⟩ := hf
    rw [Res.bind_eq_ok] at hf2
    obtain ⟨h2, hf2, hf3⟩ := hf2
    cases hf3
    obtain ⟨c1, g1, g2, g3⟩ := hresize hp hf1
    split at hf2
    · obtain ⟨c2, k1, k2, k3⟩ := hcopy g1 g2 hf2
      exact ⟨c2, k1, k2, by omega⟩
    · cases hf2; exact ⟨c1, g1, g2, g3⟩
  have hrelease : ∀ {h : MHeap} {m h' m'}, h[p]? = some (some c) →
      mbRelease h m = .ok (h', m') → h'[p]? = some (some c) := by
    intro h m h' m' hp hf
    unfold mbRelease at hf
    rw [Res.bind_eq_ok] at hf
    obtain ⟨h1, hf1, hf2⟩ := hf
    cases hf2
    split at hf1
    · exact hrel hp hf1
    · cases hf1; exact hp
  cases op with
  | new n =>
    simp only [mStep] at hs
    rw [Res.bind_eq_ok] at hs
    obtain ⟨⟨h1, m1⟩, hf1, hf2⟩ := hs
    cases hf2; exact hresize hp hf1
  | reserve b n =>
    obtain ⟨m, hb, hm⟩ := alive_blockAt ha
    simp only [mStep, hb, Res.ok_bind] at hs
    rw [Res.bind_eq_ok] at hs
    obtain ⟨⟨h1, m1⟩, hf1, hf2⟩ := hs
    cases hf2; exact hreserve hp hf1
  | resize b n =>
    obtain ⟨m, hb, hm⟩ := alive_blockAt ha
    simp only [mStep, hb, Res.ok_bind] at hs
    rw [Res.bind_eq_ok] at hs
    obtain ⟨⟨h1, m1⟩, hf1, hf2⟩ := hs
    cases hf2; exact hresize hp hf1
  | release b =>
    obtain ⟨m, hb, hm⟩ := alive_blockAt ha
    simp only [mStep, hb, Res.ok_bind] at hs
    rw [Res.bind_eq_ok] at hs
    obtain ⟨⟨h1, m1⟩, hf1, hf2⟩ := hs
    cases hf2; exact ⟨c, hrelease hp hf1, hu, rfl⟩
  | wrap b data sz own =>
    obtain ⟨m, hb, hm⟩ := alive_blockAt ha.1
    simp only [mStep, hb, Res.ok_bind] at hs
    rw [Res.bind_eq_ok] at hs
    obtain ⟨⟨h1, m1⟩, hf1, hf2⟩ := hs
    cases hf2
    unfold mbWrap at hf1
    rw [Res.bind_eq_ok] at hf1
    obtain ⟨⟨h2, m2⟩, hf1, hf2⟩ := hf1
    cases hf2
    exact ⟨c, hrelease (happ hp) hf1, hu, rfl⟩
  | swap b d =>
    obtain ⟨m, hb, hm⟩ := alive_blockAt ha.1
    obtain ⟨n, hb', hm'⟩ := alive_blockAt ha.2
    simp only [mStep, hb, hb', Res.ok_bind] at hs
    cases hs; exact ⟨c, hp, hu, rfl⟩
  | copy d s =>
    obtain ⟨m, hb, hm⟩ := alive_blockAt ha.1
    obtain ⟨n, hb', hm'⟩ := alive_blockAt ha.2.1
    simp only [mStep, hb, hb', Res.ok_bind, if_neg ha.2.2] at hs
    rw [Res.bind_eq_ok] at hs
    obtain ⟨⟨h1, m1⟩, hf1, hf2⟩ := hs
    cases hf2; exact hcp hp hf1
  | copy0 s =>
    obtain ⟨n, hb', hm'⟩ := alive_blockAt ha
    simp only [mStep, hb', Res.ok_bind] at hs
    rw [Res.bind_eq_ok] at hs
    obtain ⟨⟨h1, m1⟩, hf1, hf2⟩ := hs
    cases hf2; exact hcp hp hf1
  | setZero b =>
    obtain ⟨m, hb, hm⟩ := alive_blockAt ha
    simp only [mStep, hb, Res.ok_bind] at hs
    rw [Res.bind_eq_ok] at hs
    obtain ⟨h1, hf1, hf2⟩ := hs
    cases hf2
    unfold mbSetZero at hf1
    split at hf1
    · cases hf1; exact ⟨c, hp, hu, rfl⟩
    · rename_i q _
      unfold chunkAt at hf1
      split at hf1
      · rename_i cd hcd
        simp only [Res.ok_bind] at hf1
        split at hf1
        · rename_i hl
          cases hf1
          by_cases e : q = p
          · subst e; rw [hp] at hcd; cases hcd
            refine ⟨_, List.getElem?_set_self hpl, hu, ?_⟩
            simp; omega
          · exact ⟨c, by rw [List.getElem?_set_ne e]; exact hp, hu, rfl⟩
        · cases hf1
      · simp at hf1
  | free b =>
    obtain ⟨m, hb, hm⟩ := alive_blockAt ha
    simp only [mStep, hb, Res.ok_bind] at hs
    rw [Res.bind_eq_ok] at hs
    obtain ⟨h1, hf1, hf2⟩ := hs
    cases hf2
    unfold mbFree at hf1
    split at hf1
    · exact ⟨c, hrel hp hf1, hu, rfl⟩
    · cases hf1; exact ⟨c, hp, hu, rfl⟩

/-- The rule "do not copy a block onto itself" is needed: the code then calls
`memcpy` with overlapping objects, for every non-empty block. -/
theorem c15_self_copy_ub {w} {b : Nat} {m} (hr : MReach w) (hb : w.blocks[b]? = some (some m))
    (hs : 0 < m.size) : mStep w (.copy b b) = .ub := by
  obtain ⟨h, bs⟩ := w
  have hok := (reach_inv hr).blk b m hb
  obtain ⟨hs', ⟨_, h1, _⟩ | ⟨p, c, hp, hc, hl, _⟩⟩ := hok
  · omega
  · have hr : mbReserve h m m.size = .ok (h, m) := by
      unfold mbReserve; rw [if_neg (by omega)]
    simp only at hb hc
    have hba : blockAt ⟨h, bs⟩ b = .ok m := by unfold blockAt; simp only [hb]
    simp only [mStep, hba, Res.ok_bind, if_true, mbCopySelf, mbResize, hr, Res.pure_eq, hp,
      Option.isSome_some, mCopy, if_neg (Nat.ne_of_gt hs), chunkAt_ok hc, Res.ub_bind]

/-- A history that uses every call. -/
def mbDemo : List MOp :=
  [.new 2, .setZero 0, .new 0, .wrap 1 [7, 8, 9] 2 false, .copy 0 1, .resize 1 4, .swap 0 1,
   .wrap 0 [5] 1 true, .copy0 1, .reserve 2 9, .release 1, .free 0, .free 1, .resize 2 1]

def mRun (w : MWorld) : List MOp → Res MWorld
  | [] => .ok w
  | op :: l => do
    let w ← mStep w op
    mRun w l

example : (∃ w, mRun ⟨[], []⟩ mbDemo = .ok w ∧ visible w 2 = some [some 7]) :=
  ⟨_, rfl, by decide +kernel⟩

/-- One of the states on the way, reached by allowed calls. -/
example : MReach ⟨[some ⟨[none, none], false⟩], [some ⟨some 0, 2, 2, true⟩]⟩ ∧
    Allowed ⟨[some ⟨[none, none], false⟩], [some ⟨some 0, 2, 2, true⟩]⟩ (.wrap 0 [1, 2] 1 false) :=
  ⟨.step .init (op := .new 2) trivial rfl, ⟨_, rfl⟩, by decide⟩

end Nx
