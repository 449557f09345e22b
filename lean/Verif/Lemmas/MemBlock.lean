import Verif.Spec.MemBlock

namespace Nx

/-- A block is consistent with the heap. -/
def BlkOk (h : MHeap) (m : MBlock) : Prop :=
  m.size ≤ m.cap ∧
  ((m.ptr = none ∧ m.cap = 0 ∧ m.own = false) ∨
   ∃ p c, m.ptr = some p ∧ h[p]? = some (some c) ∧ m.cap ≤ c.data.length ∧ c.user = !m.own)

structure MInv (h : MHeap) (bs : List (Option MBlock)) : Prop where
  blk : ∀ (b : Nat) m, bs[b]? = some (some m) → BlkOk h m
  dist : ∀ (b c : Nat) m n p, bs[b]? = some (some m) → bs[c]? = some (some n) →
    m.ptr = some p → n.ptr = some p → b = c
  noleak : ∀ (p : Nat) c, h[p]? = some (some c) → c.user = false →
    ∃ (b : Nat) (m : MBlock), bs[b]? = some (some m) ∧ m.ptr = some p ∧ m.own = true

/-- One block (and its memory) changes from `m` to `m'`. -/
structure Upd (h : MHeap) (m : MBlock) (h' : MHeap) (m' : MBlock) : Prop where
  ok : BlkOk h' m'
  frame : ∀ (p : Nat), p < h.length → m.ptr ≠ some p → h'[p]? = h[p]?
  fresh : ∀ p, m'.ptr = some p → m.ptr = some p ∨ h.length ≤ p
  noleak : ∀ (p : Nat) c, h'[p]? = some (some c) → c.user = false →
    (m'.ptr = some p ∧ m'.own = true) ∨ (h[p]? = some (some c) ∧ m.ptr ≠ some p)

theorem lt_of_live {α : Type} {h : List α} {p : Nat} {x : α} (hp : h[p]? = some x) : p < h.length :=
  (List.getElem?_eq_some_iff.mp hp).1

theorem BlkOk.ptr_lt {h m p} (hm : BlkOk h m) (hp : m.ptr = some p) : p < h.length := by
  obtain ⟨_, ⟨h0, _⟩ | ⟨q, c, hq, hc, _⟩⟩ := hm
  · rw [h0] at hp; cases hp
  · rw [hq] at hp; cases hp; exact lt_of_live hc

theorem BlkOk.frame {h h' : MHeap} {m : MBlock} (hm : BlkOk h m)
    (hf : ∀ p, m.ptr = some p → h'[p]? = h[p]?) : BlkOk h' m := by
  obtain ⟨hs, ⟨h0, h1, h2⟩ | ⟨q, c, hq, hc, hr⟩⟩ := hm
  · exact ⟨hs, Or.inl ⟨h0, h1, h2⟩⟩
  · exact ⟨hs, Or.inr ⟨q, c, hq, by rw [hf q hq]; exact hc, hr⟩⟩

theorem getElem?_set_some {α} {l : List (Option α)} {b c : Nat} {x : Option α} {m : α}
    (h : (l.set b x)[c]? = some (some m)) :
    (c = b ∧ x = some m) ∨ (c ≠ b ∧ l[c]? = some (some m)) := by
  rw [List.getElem?_set] at h
  split at h
  · rename_i e
    split at h
    · left; exact ⟨e.symm, by simpa using h⟩
    · cases h
  · rename_i e; exact Or.inr ⟨fun e' => e e'.symm, h⟩

theorem MInv.upd {h bs h' m m'} {b : Nat} (hi : MInv h bs) (hb : bs[b]? = some (some m))
    (hu : Upd h m h' m') : MInv h' (bs.set b (some m')) := by
  have hbl : b < bs.length := lt_of_live hb
  have hother : ∀ (c : Nat) n p, c ≠ b → bs[c]? = some (some n) → n.ptr = some p →
      p < h.length ∧ m.ptr ≠ some p := by
    intro c n p hcb hc hp
    refine ⟨(hi.blk c n hc).ptr_lt hp, fun hm => hcb ?_⟩
    exact hi.dist c b n m p hc hb hp hm
  constructor
  · intro c n hc
    rcases getElem?_set_some hc with ⟨_, e⟩ | ⟨hcb, hc⟩
    · cases e; exact hu.ok
    · refine (hi.blk c n hc).frame fun p hp => ?_
      obtain ⟨h1, h2⟩ := hother c n p hcb hc hp
      exact hu.frame p h1 h2
  · intro c d n k p hc hd hn hk
    rcases getElem?_set_some hc with ⟨e1, e⟩ | ⟨hcb, hc⟩
    · rcases getElem?_set_some hd with ⟨e2, e'⟩ | ⟨hdb, hd⟩
      · rw [e1, e2]
      · cases e
        obtain ⟨h1, h2⟩ := hother d k p hdb hd hk
        rcases hu.fresh p hn with h3 | h3
        · exact absurd h3 h2
        · omega
    · rcases getElem?_set_some hd with ⟨e2, e'⟩ | ⟨hdb, hd⟩
      · cases e'
        obtain ⟨h1, h2⟩ := hother c n p hcb hc hn
        rcases hu.fresh p hk with h3 | h3
        · exact absurd h3 h2
        · omega
      · exact hi.dist c d n k p hc hd hn hk
  · intro p c hp hc
    rcases hu.noleak p c hp hc with ⟨h1, h2⟩ | ⟨h1, h2⟩
    · exact ⟨b, m', by rw [List.getElem?_set_self hbl], h1, h2⟩
    · obtain ⟨d, n, hd, hn, ho⟩ := hi.noleak p c h1 hc
      refine ⟨d, n, ?_, hn, ho⟩
      rw [List.getElem?_set_ne]
      · exact hd
      · intro e; subst e
        rw [hb] at hd; cases hd
        exact h2 hn

/-- Blocks other than the changed one look the same. -/
theorem visible_upd {h bs h' m m'} {b c : Nat} (hi : MInv h bs) (hb : bs[b]? = some (some m))
    (hu : Upd h m h' m') (hcb : c ≠ b) :
    visible ⟨h', bs.set b (some m')⟩ c = visible ⟨h, bs⟩ c := by
  unfold visible
  simp only [List.getElem?_set_ne (Ne.symm hcb)]
  split
  · rename_i n hc
    split
    · rfl
    · split
      · rename_i p hp
        have h1 : p < h.length := (hi.blk c n hc).ptr_lt hp
        rw [hu.frame p h1 (fun hm => hcb (hi.dist c b n m p hc hb hp hm))]
      · rfl
  · rfl

theorem BlkOk.alloc (h : MHeap) : BlkOk h mbAlloc :=
  ⟨Nat.le_refl _, Or.inl ⟨rfl, rfl, rfl⟩⟩

theorem getElem?_append_some {α} {l : List α} {c : Nat} {x y : α}
    (h : (l ++ [x])[c]? = some y) : l[c]? = some y ∨ (c = l.length ∧ x = y) := by
  by_cases hc : c < l.length
  · rw [List.getElem?_append_left hc] at h; exact Or.inl h
  · rw [List.getElem?_append_right (by omega)] at h
    by_cases e : c = l.length
    · subst e; simp at h; exact Or.inr ⟨rfl, h⟩
    · have : c - l.length = (c - l.length - 1) + 1 := by omega
      rw [this] at h; simp at h

theorem MInv.addBlock {h bs} (hi : MInv h bs) : MInv h (bs ++ [some mbAlloc]) := by
  constructor
  · intro b m hb
    rcases getElem?_append_some hb with hb | ⟨_, e⟩
    · exact hi.blk b m hb
    · cases e; exact BlkOk.alloc h
  · intro b c m n p hb hc hm hn
    rcases getElem?_append_some hb with hb | ⟨_, e⟩
    · rcases getElem?_append_some hc with hc | ⟨_, e⟩
      · exact hi.dist b c m n p hb hc hm hn
      · cases e; cases hn
    · cases e; cases hm
  · intro p c hp hc
    obtain ⟨d, n, hd, hn, ho⟩ := hi.noleak p c hp hc
    exact ⟨d, n, by rw [List.getElem?_append_left (lt_of_live hd)]; exact hd, hn, ho⟩

theorem MInv.dropBlock {h bs} {b : Nat} (hi : MInv h bs)
    (hb : bs[b]? = some (some mbAlloc)) : MInv h (bs.set b none) := by
  constructor
  · intro c m hc
    rcases getElem?_set_some hc with ⟨_, e⟩ | ⟨_, hc⟩
    · cases e
    · exact hi.blk c m hc
  · intro c d m n p hc hd hm hn
    rcases getElem?_set_some hc with ⟨_, e⟩ | ⟨_, hc⟩
    · cases e
    · rcases getElem?_set_some hd with ⟨_, e⟩ | ⟨_, hd⟩
      · cases e
      · exact hi.dist c d m n p hc hd hm hn
  · intro p c hp hc
    obtain ⟨d, n, hd, hn, ho⟩ := hi.noleak p c hp hc
    refine ⟨d, n, ?_, hn, ho⟩
    rw [List.getElem?_set_ne]
    · exact hd
    · intro e; subst e; rw [hb] at hd; cases hd; cases hn

theorem MInv.swapBlocks {h bs m n} {b c : Nat} (hi : MInv h bs)
    (hb : bs[b]? = some (some m)) (hc : bs[c]? = some (some n)) :
    MInv h ((bs.set b (some n)).set c (some m)) := by
  by_cases hbc : b = c
  · subst hbc
    rw [hb] at hc; cases hc
    have : (bs.set b (some m)).set b (some m) = bs := by
      apply List.ext_getElem?
      intro i
      rw [List.set_set, List.getElem?_set]
      split
      · rename_i e; subst e; rw [if_pos (lt_of_live hb), hb]
      · rfl
    rw [this]; exact hi
  · -- the index that holds block `i` afterwards
    have key : ∀ (i : Nat) k, ((bs.set b (some n)).set c (some m))[i]? = some (some k) →
        ∃ j : Nat, bs[j]? = some (some k) ∧
          ((i = c ∧ j = b) ∨ (i = b ∧ j = c) ∨ (i ≠ b ∧ i ≠ c ∧ j = i)) := by
      intro i k hi'
      rcases getElem?_set_some hi' with ⟨e1, e⟩ | ⟨hic, hi'⟩
      · cases e; exact ⟨b, hb, Or.inl ⟨e1, rfl⟩⟩
      · rcases getElem?_set_some hi' with ⟨e1, e⟩ | ⟨hib, hi'⟩
        · cases e; exact ⟨c, hc, Or.inr (Or.inl ⟨e1, rfl⟩)⟩
        · exact ⟨i, hi', Or.inr (Or.inr ⟨hib, hic, rfl⟩)⟩
    constructor
    · intro i k hk
      obtain ⟨j, hj, _⟩ := key i k hk
      exact hi.blk j k hj
    · intro i i' k k' p hk hk' hp hp'
      obtain ⟨j, hj, e⟩ := key i k hk
      obtain ⟨j', hj', e'⟩ := key i' k' hk'
      have := hi.dist j j' k k' p hj hj' hp hp'
      omega
    · intro p ch hp hch
      obtain ⟨d, k, hd, hk, ho⟩ := hi.noleak p ch hp hch
      have hbl := lt_of_live hb
      have hcl := lt_of_live hc
      by_cases e1 : d = b
      · subst e1; rw [hb] at hd; cases hd
        exact ⟨c, m, by rw [List.getElem?_set_self (by simpa using hcl)], hk, ho⟩
      · by_cases e2 : d = c
        · subst e2; rw [hc] at hd; cases hd
          refine ⟨b, n, ?_, hk, ho⟩
          rw [List.getElem?_set_ne (Ne.symm hbc), List.getElem?_set_self hbl]
        · refine ⟨d, k, ?_, hk, ho⟩
          rw [List.getElem?_set_ne (Ne.symm e2), List.getElem?_set_ne (Ne.symm e1)]; exact hd

theorem chunkAt_ok {h : MHeap} {p : Nat} {c} (hp : h[p]? = some (some c)) : chunkAt h p = .ok c := by
  unfold chunkAt; rw [hp]

theorem Upd.refl {h m} (hm : BlkOk h m)
    (hn : ∀ (p : Nat) c, h[p]? = some (some c) → c.user = false → m.ptr = some p → m.own = true) :
    Upd h m h m := by
  refine ⟨hm, fun _ _ _ => rfl, fun p hp => Or.inl hp, fun p c hp hc => ?_⟩
  by_cases e : m.ptr = some p
  · exact Or.inl ⟨e, hn p c hp hc e⟩
  · exact Or.inr ⟨hp, e⟩

theorem BlkOk.own_of_lib {h : MHeap} {m : MBlock} (hm : BlkOk h m) (p : Nat) (c : Chunk)
    (hp : h[p]? = some (some c)) (hc : c.user = false) (e : m.ptr = some p) : m.own = true := by
  obtain ⟨_, ⟨h0, _⟩ | ⟨q, c', hq, hc', _, hu⟩⟩ := hm
  · rw [h0] at e; cases e
  · rw [hq] at e; cases e
    rw [hc'] at hp; cases hp
    rw [hc] at hu
    revert hu; cases m.own <;> simp

/-- bytes of a block as stored -/
def blkBytes (h : MHeap) (m : MBlock) : List (Option Byte) :=
  match m.ptr with
  | some p =>
    match h[p]? with
    | some (some c) => c.data
    | _ => []
  | none => []

theorem BlkOk.len {h m} (hm : BlkOk h m) : m.cap ≤ (blkBytes h m).length := by
  obtain ⟨_, ⟨h0, h1, _⟩ | ⟨q, c', hq, hc', hl, hu⟩⟩ := hm
  · rw [h1]; exact Nat.zero_le _
  · unfold blkBytes; rw [hq]; simp only [hc']; exact hl

theorem visible_blk {h bs m} {b : Nat} (hm : BlkOk h m) (hb : bs[b]? = some (some m)) :
    visible ⟨h, bs⟩ b = some ((blkBytes h m).take m.size) := by
  have hlen := hm.len
  obtain ⟨hs, ⟨h0, h1, _⟩ | ⟨q, c', hq, hc', hl, hu⟩⟩ := hm
  · have : m.size = 0 := by omega
    unfold visible; simp [hb, this]
  · unfold visible blkBytes
    simp only [hb, hq, hc']
    split
    · rename_i e; simp [e]
    · rw [if_pos (by omega)]

theorem mCopy_ok {h : MHeap} {d s n cd cs} (hn : n ≠ 0) (hd : h[d]? = some (some cd))
    (hs : h[s]? = some (some cs)) (hds : d ≠ s) (h1 : n ≤ cd.data.length)
    (h2 : n ≤ cs.data.length) :
    mCopy h (some d) (some s) n
      = .ok (h.set d (some { cd with data := cs.data.take n ++ cd.data.drop n })) := by
  unfold mCopy
  rw [if_neg hn]
  simp only [chunkAt_ok hd, chunkAt_ok hs, Res.ok_bind]
  rw [if_neg hds, if_pos ⟨h1, h2⟩]
  rfl

theorem mbReserve_spec {h m} (hm : BlkOk h m) (n : Nat) :
    ∃ h' m', mbReserve h m n = .ok (h', m') ∧ Upd h m h' m' ∧ m'.size = m.size ∧
      m'.cap = max m.cap n ∧ (blkBytes h' m').take m.size = (blkBytes h m).take m.size ∧
      (n > m.cap → m'.own = true) := by
  unfold mbReserve
  by_cases hn : n > m.cap
  · rw [if_pos hn]
    obtain ⟨hs, hcase⟩ := id hm
    by_cases ho : m.own = true
    · rw [if_pos ho]
      rcases hcase with ⟨_, _, h2⟩ | ⟨q, c, hq, hc, hl, hu⟩
      · rw [h2] at ho; cases ho
      · have hcu : c.user = false := by rw [hu, ho]; rfl
        have hql := lt_of_live hc
        simp only [mRealloc, mFree, hq, chunkAt_ok hc, Res.ok_bind, hcu, Bool.false_eq_true,
          if_false, Res.pure_eq, List.length_set]
        refine ⟨_, _, rfl, ?_, rfl, by simp only; omega, ?_, fun _ => ho⟩
        · constructor
          · refine ⟨by simp only; omega, Or.inr ⟨h.length,
              { data := c.data.take n ++ List.replicate (n - c.data.length) none,
                user := false }, rfl, ?_, ?_, ?_⟩⟩
            · rw [List.getElem?_append_right (by simp)]; simp
            · simp; omega
            · simp [ho]
          · intro p hp hne
            rw [List.getElem?_append_left (by simpa using hp), List.getElem?_set_ne]
            intro e; subst e; exact hne hq
          · intro p hp; right; simp only [Option.some.injEq] at hp; omega
          · intro p c' hp hc'
            rcases getElem?_append_some hp with hp | ⟨e, _⟩
            · rcases getElem?_set_some hp with ⟨_, e⟩ | ⟨hne, hp⟩
              · cases e
              · refine Or.inr ⟨hp, ?_⟩
                rw [hq]; intro e; cases e; exact hne rfl
            · left; simp only [List.length_set] at e; exact ⟨by rw [e], ho⟩
        · unfold blkBytes
          simp only [hq, hc]
          rw [List.getElem?_append_right (by simp)]
          simp only [List.length_set, Nat.sub_self, List.getElem?_cons_zero]
          rw [List.take_append_of_le_length (by simp; omega), List.take_take,
            Nat.min_eq_left (by omega)]
    · rw [if_neg ho]
      have ho' : m.own = false := by revert ho; cases m.own <;> simp
      simp only [mAlloc]
      by_cases hz : m.size > 0
      · rcases hcase with ⟨_, h1, _⟩ | ⟨q, c, hq, hc, hl, hu⟩
        · omega
        · have hql := lt_of_live hc
          have hne : h.length ≠ q := by omega
          have hnew : (h ++ [some ({ data := List.replicate n none, user := false } : Chunk)])[h.length]?
              = some (some { data := List.replicate n none, user := false }) := by simp
          have hold : (h ++ [some ({ data := List.replicate n none, user := false } : Chunk)])[q]?
              = some (some c) := by rw [List.getElem?_append_left hql]; exact hc
          rw [if_pos hz, hq, mCopy_ok (by omega) hnew hold hne (by simp; omega) (by omega)]
          refine ⟨_, _, rfl, ?_, rfl, by simp only; omega, ?_, fun _ => rfl⟩
          · constructor
            · refine ⟨by simp only; omega, Or.inr ⟨h.length, _, rfl,
                List.getElem?_set_self (by simp), ?_, ?_⟩⟩
              · simp; omega
              · simp
            · intro p hp hpne
              rw [List.getElem?_set_ne (by omega), List.getElem?_append_left hp]
            · intro p hp; right; simp only [Option.some.injEq] at hp; omega
            · intro p c' hp hc'
              rcases getElem?_set_some hp with ⟨e, _⟩ | ⟨hne, hp⟩
              · left; exact ⟨by rw [e], rfl⟩
              · rcases getElem?_append_some hp with hp | ⟨e, _⟩
                · refine Or.inr ⟨hp, ?_⟩
                  rw [hq]; intro e; cases e
                  rw [hc] at hp; cases hp
                  rw [hc', ho'] at hu; cases hu
                · exact absurd e hne
          · unfold blkBytes
            simp only [hq, hc]
            rw [List.getElem?_set_self (by simp)]
            simp only
            rw [List.take_append_of_le_length (by simp; omega), List.take_take, Nat.min_self]
      · have hz' : m.size = 0 := by omega
        rw [if_neg hz]
        refine ⟨_, _, rfl, ?_, rfl, by simp only; omega, by simp [hz'], fun _ => rfl⟩
        constructor
        · refine ⟨by simp only; omega, Or.inr ⟨h.length, { data := List.replicate n none, user := false },
            rfl, ?_, ?_, ?_⟩⟩
          · simp
          · simp
          · simp
        · intro p hp hpne
          rw [List.getElem?_append_left hp]
        · intro p hp; right; simp only [Option.some.injEq] at hp; omega
        · intro p c' hp hc'
          rcases getElem?_append_some hp with hp | ⟨e, _⟩
          · refine Or.inr ⟨hp, fun e => ?_⟩
            have := hm.own_of_lib p c' hp hc' e
            rw [ho'] at this; cases this
          · left; exact ⟨by rw [e], rfl⟩
  · rw [if_neg hn]
    exact ⟨h, m, rfl, Upd.refl hm hm.own_of_lib, rfl, by omega, rfl, fun e => absurd e hn⟩

theorem mbResize_spec {h m} (hm : BlkOk h m) (n : Nat) :
    ∃ h' m', mbResize h m n = .ok (h', m') ∧ Upd h m h' m' ∧ m'.size = n ∧
      m'.cap = max m.cap n ∧
      (blkBytes h' m').take (min m.size n) = (blkBytes h m).take (min m.size n) := by
  obtain ⟨h', m', h1, h2, h3, h4, h5, _⟩ := mbReserve_spec hm n
  refine ⟨h', { m' with size := n }, ?_, ?_, rfl, h4, ?_⟩
  · unfold mbResize; rw [h1]; rfl
  · obtain ⟨⟨hs, hc⟩, hf, hfr, hn⟩ := h2
    exact ⟨⟨by simp only; omega, hc⟩, hf, hfr, hn⟩
  · have : blkBytes h' { m' with size := n } = blkBytes h' m' := rfl
    rw [this]
    have := congrArg (List.take (min m.size n)) h5
    rw [List.take_take, List.take_take, Nat.min_eq_left (Nat.min_le_left _ _)] at this
    exact this

theorem mbRelease_spec {h m} (hm : BlkOk h m) :
    ∃ h', mbRelease h m = .ok (h', mbAlloc) ∧ Upd h m h' mbAlloc ∧ h'.length = h.length ∧
      mbFree h m = .ok h' := by
  unfold mbRelease mbFree
  obtain ⟨hs, ⟨h0, h1, h2⟩ | ⟨q, c, hq, hc, hl, hu⟩⟩ := id hm
  · refine ⟨h, by simp [h0], ?_, rfl, by simp [h2]⟩
    refine ⟨BlkOk.alloc h, fun _ _ _ => rfl, fun p hp => (nomatch hp), fun p c hp hc => ?_⟩
    exact Or.inr ⟨hp, by rw [h0]; exact nofun⟩
  · by_cases ho : m.own = true
    · have hcu : c.user = false := by rw [hu, ho]; rfl
      refine ⟨h.set q none, ?_, ?_, by simp, ?_⟩
      · simp [hq, ho, mFree, chunkAt_ok hc, hcu]
      · refine ⟨BlkOk.alloc _, ?_, fun p hp => (nomatch hp), fun p c hp hc => ?_⟩
        · intro p _ hne; rw [List.getElem?_set_ne]; intro e; subst e; exact hne hq
        · rcases getElem?_set_some hp with ⟨_, e⟩ | ⟨hne, hp⟩
          · cases e
          · refine Or.inr ⟨hp, ?_⟩
            rw [hq]; intro e; cases e; exact hne rfl
      · simp [hq, ho, mFree, chunkAt_ok hc, hcu]
    · have ho' : m.own = false := by revert ho; cases m.own <;> simp
      refine ⟨h, by simp [ho'], ?_, rfl, by simp [ho']⟩
      refine ⟨BlkOk.alloc h, fun _ _ _ => rfl, fun p hp => (nomatch hp), fun p c hp hc => ?_⟩
      refine Or.inr ⟨hp, fun e => ?_⟩
      have := hm.own_of_lib p c hp hc e
      rw [ho'] at this; cases this

theorem mbWrap_spec {h m} (hm : BlkOk h m) (data : Bytes) (sz : Nat) (own : Bool)
    (hsz : sz ≤ data.length) :
    ∃ h' m', mbWrap (h ++ [some { data := data.map some, user := !own }]) m h.length sz
        data.length own = .ok (h', m') ∧ Upd h m h' m' ∧ m'.size = sz ∧ m'.cap = data.length ∧
      m'.own = own ∧ blkBytes h' m' = data.map some := by
  have hm1 : BlkOk (h ++ [some { data := data.map some, user := !own }]) m :=
    hm.frame fun p hp => List.getElem?_append_left (hm.ptr_lt hp)
  obtain ⟨h1, hr, hu, hlen, _⟩ := mbRelease_spec hm1
  have hnew : h1[h.length]? = some (some { data := data.map some, user := !own }) := by
    rw [hu.frame h.length (by simp)]
    · simp
    · intro e; have := hm.ptr_lt e; omega
  refine ⟨h1, _, by unfold mbWrap; rw [hr]; rfl, ?_, rfl, rfl, rfl, ?_⟩
  · refine ⟨⟨hsz, Or.inr ⟨h.length, _, rfl, hnew, by simp, rfl⟩⟩, ?_, ?_, ?_⟩
    · intro p hp hne
      rw [hu.frame p (by simp; omega) hne, List.getElem?_append_left hp]
    · intro p hp; right; simp only [Option.some.injEq] at hp; omega
    · intro p c hp hc
      by_cases e : p = h.length
      · left; subst e
        rw [hnew] at hp; cases hp
        refine ⟨rfl, ?_⟩
        revert hc; cases own <;> simp
      · right
        rcases hu.noleak p c hp hc with ⟨e1, _⟩ | ⟨h2, h3⟩
        · cases e1
        · rcases getElem?_append_some h2 with h2 | ⟨e2, _⟩
          · exact ⟨h2, h3⟩
          · exact absurd e2 e
  · unfold blkBytes; simp only [hnew]

theorem mbSetZero_spec {h m} (hm : BlkOk h m) :
    ∃ h', mbSetZero h m = .ok h' ∧ Upd h m h' m ∧
      (blkBytes h' m).take m.size = List.replicate m.size (some 0) := by
  unfold mbSetZero
  obtain ⟨hs, ⟨h0, h1, h2⟩ | ⟨q, c, hq, hc, hl, hu⟩⟩ := id hm
  · refine ⟨h, by rw [h0], Upd.refl hm hm.own_of_lib, ?_⟩
    have : m.size = 0 := by omega
    simp [this]
  · have hql := lt_of_live hc
    simp only [hq, chunkAt_ok hc, Res.ok_bind]
    rw [if_pos (by omega)]
    refine ⟨_, rfl, ?_, ?_⟩
    · refine ⟨⟨hs, Or.inr ⟨q, _, hq, List.getElem?_set_self hql, by simp; omega, hu⟩⟩, ?_,
        fun p hp => Or.inl hp, ?_⟩
      · intro p _ hne; rw [List.getElem?_set_ne]; intro e; subst e; exact hne hq
      · intro p c' hp hc'
        rcases getElem?_set_some hp with ⟨e1, e2⟩ | ⟨hne, hp⟩
        · left; subst e1; cases e2
          refine ⟨hq, ?_⟩
          simp only at hc'; rw [hc'] at hu
          revert hu; cases m.own <;> simp
        · refine Or.inr ⟨hp, ?_⟩
          rw [hq]; intro e; cases e; exact hne rfl
    · unfold blkBytes
      simp only [hq, List.getElem?_set_self hql]
      rw [List.take_append_of_le_length (by simp)]
      simp

theorem mbCopy_spec {h d s} (hd : BlkOk h d) (hs : BlkOk h s)
    (hne : ∀ p, s.ptr = some p → d.ptr ≠ some p) :
    ∃ h' d', mbCopy h d s = .ok (h', d') ∧ Upd h d h' d' ∧ d'.size = s.size ∧
      (blkBytes h' d').take s.size = (blkBytes h s).take s.size := by
  obtain ⟨h1, d1, hr, hu, hsz, hcap, _⟩ := mbResize_spec hd s.size
  unfold mbCopy
  rw [hr]
  simp only [Res.ok_bind]
  by_cases hz : s.size = 0
  · refine ⟨h1, d1, ?_, hu, hsz, by simp [hz]⟩
    split
    · rw [hsz, hz]; rfl
    · rfl
  · obtain ⟨hss, ⟨h0, h1', h2⟩ | ⟨q, c, hq, hc, hl, hcu⟩⟩ := id hs
    · omega
    · rw [if_pos (by rw [hq]; rfl)]
      obtain ⟨hok, hf, hfr, hnl⟩ := id hu
      obtain ⟨hds, ⟨g0, g1, g2⟩ | ⟨r, cd, hr', hcd, hld, hcdu⟩⟩ := id hok
      · omega
      · have hrl := lt_of_live hcd
        have hc1 : h1[q]? = some (some c) := by
          rw [hf q (lt_of_live hc) (hne q hq)]; exact hc
        have hrq : r ≠ q := by
          intro e; subst e
          rcases hfr r hr' with e | e
          · exact hne r hq e
          · have := lt_of_live hc; omega
        rw [hr', hq, mCopy_ok (by omega) hcd hc1 hrq (by omega) (by omega)]
        refine ⟨_, _, rfl, ?_, hsz, ?_⟩
        · refine ⟨⟨hds, Or.inr ⟨r, _, hr', List.getElem?_set_self hrl, by simp; omega, hcdu⟩⟩,
            ?_, hfr, ?_⟩
          · intro p hp hpne
            rw [List.getElem?_set_ne, hf p hp hpne]
            intro e; subst e
            rcases hfr r hr' with e | e
            · exact hpne e
            · omega
          · intro p c' hp hc'
            rcases getElem?_set_some hp with ⟨e1, e2⟩ | ⟨hne', hp⟩
            · left; subst e1; cases e2
              refine ⟨hr', ?_⟩
              simp only at hc'; rw [hc'] at hcdu
              revert hcdu; cases d1.own <;> simp
            · exact hnl p c' hp hc'
        · unfold blkBytes
          simp only [hr', hq, hc, List.getElem?_set_self hrl]
          rw [hsz, List.take_append_of_le_length (by simp; omega), List.take_take, Nat.min_self]

end Nx
