import Verif.Model.Temple
import Verif.Spec.Temple
import Verif.Props.Kitti
import Verif.Lemmas.PnmCut
import Verif.Lemmas.Sample

/-! # C98: Temple Color 128 sequences -/

namespace Nx

/-- The bit of a name at the start of the text that was read. -/
theorem tcBit_name {p : String × Nat} (hp : p ∈ tcConst) (y : Bytes) : tcBit (bytesOf p.1 ++ y) = BitVec.ofNat 16 p.2 := by
  simp only [tcConst, List.mem_cons, List.not_mem_nil, or_false] at hp
  rcases hp with rfl | rfl | rfl | rfl | rfl | rfl | rfl | rfl | rfl | rfl | rfl <;> rfl

theorem tcBit_none {t : Bytes} (h : ∀ p ∈ tcConst, ¬ bytesOf p.1 <+: t) {c : Bytes} (hc : c <+: t) : tcBit c = 0#16 := by
  unfold tcBit
  have : tcAttrs.findIdx? (fun a => a.isPrefixOf c) = none := by
    rw [List.findIdx?_eq_none_iff]
    intro a ha
    rw [Bool.eq_false_iff, Ne, List.isPrefixOf_iff_prefix]
    intro hac
    have : ∀ a ∈ tcAttrs, ∃ p ∈ tcConst, a = bytesOf p.1 := by decide +kernel
    obtain ⟨p, hp, rfl⟩ := this a ha
    exact h p hp (hac.trans hc)
  rw [this]

theorem fgets8_line {l t : Bytes} (hl : l.length ≤ 6) (hn : (10 : Byte) ∉ l) : fgets8 (l ++ 10 :: t) = some (l ++ [10], t) := by
  have hw : (l ++ 10 :: t).takeWhile (· != 10) = l := by
    rw [List.takeWhile_append_of_pos (by
      intro b hb
      simp only [bne_iff_ne, ne_eq]
      rintro rfl
      exact hn hb)]
    simp
  unfold fgets8
  rw [if_neg (by simp)]
  simp only [hw]
  rw [Nat.min_eq_left (by omega)]
  have e : l ++ 10 :: t = (l ++ [10]) ++ t := by simp
  rw [e, List.take_left' (by simp), List.drop_left' (by simp)]

theorem fgets8_last {l : Bytes} (hl : l.length ≤ 6) (h0 : l ≠ []) (hn : (10 : Byte) ∉ l) : fgets8 l = some (l, []) := by
  have hw : l.takeWhile (· != 10) = l := by
    apply takeWhile_all
    intro b hb
    simp only [bne_iff_ne, ne_eq]
    rintro rfl
    exact hn hb
  unfold fgets8
  rw [if_neg h0]
  simp only [hw]
  rw [Nat.min_eq_left (by omega), List.take_of_length_le (by omega), List.drop_of_length_le (by omega)]

theorem tcAttributes_step {acc : BitVec 16} {s c r : Bytes} (h : fgets8 s = some (c, r)) :
    tcAttributes acc s = if tcBit c = 0#16 then acc else tcAttributes (acc ||| tcBit c) r := by
  rw [tcAttributes]
  split
  · rename_i e; rw [h] at e; cases e
  · rename_i x e; rw [h] at e; cases e; rfl

theorem tcAttributes_end {acc : BitVec 16} {t : Bytes} (h : ∀ p ∈ tcConst, ¬ bytesOf p.1 <+: t) : tcAttributes acc t = acc := by
  rw [tcAttributes]
  split
  · rfl
  · rename_i x e
    rw [if_pos]
    apply tcBit_none h
    unfold fgets8 at e
    split at e
    · cases e
    · cases e
      exact List.take_prefix _ _

theorem tcConst_bit {p : String × Nat} (hp : p ∈ tcConst) : BitVec.ofNat 16 p.2 ≠ 0#16 := by
  revert p
  decide +kernel

theorem tcConst_ne {p : String × Nat} (hp : p ∈ tcConst) : bytesOf p.1 ≠ [] := by
  revert p
  decide +kernel

/-- Bit `i` of the constant of an attribute. -/
theorem tcConst_get {p : String × Nat} (hp : p ∈ tcConst) (i : Nat) : (BitVec.ofNat 16 p.2).getLsbD i = decide (p.2 = 2 ^ i) := by
  by_cases hi : i < 16
  · revert p i
    decide +kernel
  · rw [BitVec.getLsbD_of_ge _ _ (by omega), eq_comm, decide_eq_false_iff_not]
    have h1 : p.2 < 2 ^ 16 := by revert p; decide +kernel
    intro e
    have h2 : 2 ^ 16 ≤ 2 ^ i := Nat.pow_le_pow_right (by omega) (by omega)
    omega

theorem tcConst_inj {p q : String × Nat} (hp : p ∈ tcConst) (hq : q ∈ tcConst) (h : p.1 = q.1) : p = q := by
  have : ∀ p ∈ tcConst, ∀ q ∈ tcConst, p.1 = q.1 → p = q := by decide +kernel
  exact this p hp q hq h

theorem tcAttributes_bits {as : List String} {t : Bytes} (h : AttrFile as t) (hk : ∀ a ∈ as, ∃ v, (a, v) ∈ tcConst) (acc : BitVec 16)
    (i : Nat) : (tcAttributes acc t).getLsbD i = true ↔ acc.getLsbD i = true ∨ ∃ a ∈ as, (a, 2 ^ i) ∈ tcConst := by
  have one : ∀ (acc : BitVec 16) (a : String) (v : Nat), (a, v) ∈ tcConst →
      ((acc ||| BitVec.ofNat 16 v).getLsbD i = true ↔ acc.getLsbD i = true ∨ (a, 2 ^ i) ∈ tcConst) := by
    intro acc a v hv
    have := tcConst_get hv i
    simp only at this
    rw [BitVec.getLsbD_or, this, Bool.or_eq_true, decide_eq_true_eq]
    constructor
    · rintro (h | h)
      · exact .inl h
      · rw [← h]; exact .inr hv
    · rintro (h | h)
      · exact .inl h
      · have := tcConst_inj hv h rfl
        simp only [Prod.mk.injEq, true_and] at this
        exact .inr this
  induction h generalizing acc with
  | nil h => rw [tcAttributes_end h]; simp
  | @last a l h =>
    obtain ⟨⟨x, rfl⟩, h6, hn⟩ := h
    obtain ⟨v, hv⟩ := hk a (by simp)
    rw [tcAttributes_step (fgets8_last h6 (by have := tcConst_ne hv; simp_all) hn), tcBit_name hv, if_neg (tcConst_bit hv),
      tcAttributes_end]
    · rw [one acc a v hv]
      simp
    · intro p hp hpre
      exact tcConst_ne hp (List.prefix_nil.mp hpre)
  | @cons a as l t h r ih =>
    obtain ⟨⟨x, rfl⟩, h6, hn⟩ := h
    obtain ⟨v, hv⟩ := hk a (by simp)
    rw [tcAttributes_step (fgets8_line h6 hn), List.append_assoc, tcBit_name hv, if_neg (tcConst_bit hv)]
    refine (ih (fun b hb => hk b (List.mem_cons_of_mem _ hb)) _).trans ?_
    rw [one acc a v hv]
    simp only [List.mem_cons, exists_eq_or_imp]
    rw [or_assoc]

/-- The attributes of a sequence are exactly those that its file lists, one in a line, in any order and with repetitions: there is
a bit for each, and no other bits. -/
theorem c98_attributes {as : List String} {t : Bytes} (h : AttrFile as t) (hk : ∀ a ∈ as, ∃ v, (a, v) ∈ tcConst) (i : Nat) :
    (tcAttributes 0#16 t).getLsbD i = true ↔ ∃ a ∈ as, (a, 2 ^ i) ∈ tcConst := by
  rw [tcAttributes_bits h hk]
  simp

/-- What is stored, with the zero byte at the end, is in the buffer of eight; nothing of the stream is lost or read twice, at least one
byte is read, and of the next line nothing is read. -/
theorem c98_buffer {s c r : Bytes} (h : fgets8 s = some (c, r)) :
    c.length + 1 ≤ 8 ∧ s = c ++ r ∧ c ≠ [] ∧ (10 : Byte) ∉ c.dropLast := by
  unfold fgets8 at h
  split at h
  · cases h
  · rename_i hs
    cases h
    have h0 := List.length_pos_iff.mpr hs
    refine ⟨?_, (List.take_append_drop _ _).symm, ?_, ?_⟩
    · rw [List.length_take]; omega
    · intro e
      have := congrArg List.length e
      rw [List.length_take, List.length_nil] at this
      omega
    · intro hm
      obtain ⟨i, hi, e⟩ := List.getElem_of_mem hm
      rw [List.length_dropLast, List.length_take] at hi
      rw [List.getElem_dropLast, List.getElem_take] at e
      have hi' : i < (s.takeWhile (· != 10)).length := by omega
      have e' : (s.takeWhile (· != 10))[i] = s[i] := by
        have := List.takeWhile_prefix (p := (· != (10 : Byte))) (l := s)
        exact this.getElem hi'
      have := List.all_eq_true.mp (List.all_takeWhile (p := (· != (10 : Byte))) (l := s)) _ (List.getElem_mem hi')
      rw [e', e] at this
      simp at this

/-- Of more names in one line all but the first can be lost. -/
theorem c98_attributes_line : tcAttributes 0#16 (bytesOf "VI, OCC, SV\n") = 1#16 ∧ tcAttributes 0#16 (bytesOf "VI\nOCC\nSV\n") = 7#16 := by
  decide +kernel

/-- A number that was printed with `%d` is read by `%d`, before anything but a digit. -/
theorem scanInt_intText {v : Int} (hv : InI32 v) {ws : Bytes} (hws : Blank ws) {t : Bytes}
    (ht : ∀ b r, t = b :: r → isDigitB 10 b = false) : scanInt (ws ++ intText v ++ t) = .ok (some (v, t)) := by
  have hall : ∀ b ∈ natText v.natAbs, isDigitB 10 b = true := fun b hb => isDigitB_of_mem_natText hb
  have htw : (natText v.natAbs ++ t).takeWhile (isDigitB 10) = natText v.natAbs := by
    rw [List.takeWhile_append_of_pos hall]
    cases t with
    | nil => simp
    | cons b r => rw [List.takeWhile_cons, if_neg (by rw [ht b r rfl]; simp), List.append_nil]
  have hdw : (natText v.natAbs ++ t).dropWhile (isDigitB 10) = t := by
    rw [List.dropWhile_append_of_pos hall]
    cases t with
    | nil => simp
    | cons b r => rw [List.dropWhile_cons, if_neg (by rw [ht b r rfl]; simp)]
  obtain ⟨d, u, hd, e⟩ := natText_cons v.natAbs
  have hs : takeSign ((ws ++ intText v ++ t).dropWhile isSpaceB) = (decide (v < 0), natText v.natAbs ++ t) := by
    rw [List.append_assoc, List.dropWhile_append_of_pos hws]
    unfold intText
    split
    · rename_i h
      rw [List.cons_append, List.dropWhile_cons, if_neg (by decide)]
      simp [takeSign, h]
    · rename_i h
      rw [e, List.cons_append, List.dropWhile_cons, if_neg (by rw [digit_not_space hd]; simp), takeSign_digit hd]
      simp [h]
  unfold scanInt
  rw [hs]
  simp only
  rw [htw, hdw, if_neg (natText_digits _).1, digitsVal_natText]
  have hval : (if decide (v < 0) = true then -((v.natAbs : Nat) : Int) else (v.natAbs : Nat)) = v := by
    split <;> simp_all <;> omega
  rw [hval, if_pos hv]

theorem tcRange_ok {a b : Int} (ha : InI32 a) (hb : InI32 b) {t : Bytes} (ht : ∀ b r, t = b :: r → isDigitB 10 b = false) :
    tcRange (intText a ++ 44 :: (intText b ++ t)) = .ok (some (a, b)) := by
  unfold tcRange
  have h1 := scanInt_intText ha (ws := []) (by intro b hb; cases hb) (t := 44 :: (intText b ++ t)) (by
    intro x r e
    cases e
    decide)
  have h2 := scanInt_intText hb (ws := []) (by intro b hb; cases hb) ht
  simp only [List.nil_append] at h1 h2
  rw [h1]
  simp only [Res.ok_bind]
  rw [h2]
  rfl

section
variable {D : Type} {fmt : D → Bytes} {scan : Bytes → Option (D × Bytes)}

/-- The four numbers of a row. -/
def boxList (b : D × D × D × D) : List D := [b.1, b.2.1, b.2.2.1, b.2.2.2]

theorem tcRow_box (hf : FieldText fmt scan) (b : D × D × D × D) (w t : Bytes) (h : Ends (w ++ t)) :
    tcRow scan (boxLine fmt b w ++ t) = some (boxList b, (w ++ t).dropWhile isSpaceB) := by
  have key := hf.back
  unfold tcRow boxLine
  simp only [List.append_assoc, List.cons_append]
  rw [key _ _ (.inr ⟨_, rfl⟩)]
  simp only [tcNext]
  rw [key _ _ (.inr ⟨_, rfl⟩)]
  simp only
  rw [key _ _ (.inr ⟨_, rfl⟩)]
  simp only
  rw [key _ _ (.inl h)]
  rfl

theorem boxFile_head (hf : FieldText fmt scan) {bs : List (D × D × D × D)} {t : Bytes} (h : BoxFile fmt bs t) :
    t.dropWhile isSpaceB = t := by
  have key : ∀ (b : D × D × D × D) (w t : Bytes), (boxLine fmt b w ++ t).dropWhile isSpaceB = boxLine fmt b w ++ t := by
    intro b w t
    unfold boxLine
    cases e : fmt b.1 with
    | nil => rw [List.nil_append, List.cons_append, List.dropWhile_cons, if_neg (by decide)]
    | cons x r => rw [List.cons_append, List.cons_append, List.dropWhile_cons, if_neg (by rw [hf.head _ _ _ e]; simp)]
  cases h with
  | nil => rfl
  | last b => simpa using key b [] []
  | cons _ _ _ => exact key _ _ _

/-- Reading a row of a file. -/
theorem tcRow_file (hf : FieldText fmt scan) {b : D × D × D × D} {bs : List (D × D × D × D)} {t : Bytes} (h : BoxFile fmt (b :: bs) t) :
    ∃ u, tcRow scan t = some (boxList b, u) ∧ BoxFile fmt bs u := by
  cases h with
  | last =>
    have := tcRow_box hf b [] [] (.inl rfl)
    rw [List.append_nil] at this
    exact ⟨_, this, BoxFile.nil⟩
  | @cons _ _ w t hw h0 r =>
    refine ⟨t, ?_, r⟩
    rw [tcRow_box hf b w t (by
      cases w with
      | nil => exact absurd rfl h0
      | cons x w => exact .inr ⟨x, w ++ t, rfl, hw x (by simp)⟩), List.dropWhile_append_of_pos hw, boxFile_head hf r]

theorem tcGroundTruth_ok (hf : FieldText fmt scan) (junk : D) {bs : List (D × D × D × D)} {t : Bytes} (h : BoxFile fmt bs t) (n : Nat)
    (hn : n ≤ bs.length) : tcGroundTruth scan junk (some t) n = .ok ((bs.take n).map boxList) := by
  unfold tcGroundTruth
  rw [if_neg (by omega)]
  simp only [Int.toNat_natCast]
  obtain ⟨⟨g, s⟩, e, h1, h2, h3⟩ := forLoop_spec (fun i (r : List (List D) × Bytes) => BoxFile fmt (bs.drop i) r.2 ∧ r.1.length = n ∧
      r.1.take i = (bs.take i).map boxList) (n := n) (i0 := 0)
    (s := (List.replicate n (List.replicate 4 junk), t)) (body := tcStep scan) (by omega) ⟨by simpa using h, by simp, by simp⟩ (by
    rintro i ⟨g, s⟩ _ hi ⟨h1, h2, h3⟩
    simp only at h1 h2 h3 ⊢
    rw [List.drop_eq_getElem_cons (by omega)] at h1
    obtain ⟨u, e, hu⟩ := tcRow_file hf h1
    rw [tcStep, e]
    simp only
    rw [writeAt_ok _ (by omega)]
    refine ⟨_, rfl, hu, by simp [h2], ?_⟩
    simp only
    rw [List.take_set, List.take_succ_eq_append_getElem (by omega), h3, List.take_succ_eq_append_getElem (l := bs) (by omega),
      List.map_append]
    rw [List.set_append_right _ _ (by simp only [List.length_map, List.length_take]; omega)]
    simp [Nat.min_eq_left (show i ≤ bs.length by omega)])
  simp only at h2 h3
  rw [e]
  simp only [Res.ok_bind, Res.pure_eq]
  rw [← h3, List.take_of_length_le (by omega)]

/-- A sequence with all its files is loaded: the range of frames, the number of frames, the attributes, and the box of every
frame. Boxes beyond the number of frames are not read. -/
theorem c98_load (hf : FieldText fmt scan) (junk : D) (files : Files) (dirs : Bytes → Bool) (base name : Bytes)
    (hb : dirs base = true) (hs : ∃ s ∈ tcNames, bytesOf s <+: name) (hd : dirs (base ++ bytesOf "/" ++ name) = true)
    (a b : Int) (ha : InI32 a) (hb' : InI32 b) (n : Nat) (hn : (n : Int) = b - a + 1) (hi : InI32 (b - a)) (hi' : InI32 n)
    (rest : Bytes) (hr : ∀ x r, rest = x :: r → isDigitB 10 x = false)
    (hff : files (base ++ bytesOf "/" ++ name ++ bytesOf "/" ++ name ++ bytesOf "_frames.txt") = some (intText a ++ 44 :: (intText b ++
      rest)))
    (as : List String) (ta : Bytes) (hta : AttrFile as ta) (hk : ∀ x ∈ as, ∃ v, (x, v) ∈ tcConst)
    (hfa : files (base ++ bytesOf "/" ++ name ++ bytesOf "/" ++ name ++ bytesOf "_att.txt") = some ta)
    (bs : List (D × D × D × D)) (tb : Bytes) (htb : BoxFile fmt bs tb) (hnb : n ≤ bs.length)
    (hfb : files (base ++ bytesOf "/" ++ name ++ bytesOf "/" ++ name ++ bytesOf "_gt.txt") = some tb) :
    ∃ m, tcNew scan junk files dirs base name =
        .ok ⟨base, name, n, a, b, m, (bs.take n).map fun x => [x.1, x.2.1, x.2.2.1, x.2.2.2]⟩ ∧
      ∀ i, m.getLsbD i = true ↔ ∃ x ∈ as, (x, 2 ^ i) ∈ tcConst := by
  refine ⟨tcAttributes 0#16 ta, ?_, c98_attributes hta hk⟩
  have hkn : tcKnown name = true := by
    obtain ⟨s, h1, h2⟩ := hs
    rw [tcKnown, List.any_eq_true]
    exact ⟨s, h1, List.isPrefixOf_iff_prefix.mpr h2⟩
  have hd' : dirs (tcDir base name) = true := hd
  have e1 : files (tcFile base name "_frames.txt") = _ := hff
  have e2 : files (tcFile base name "_att.txt") = _ := hfa
  have e3 : files (tcFile base name "_gt.txt") = _ := hfb
  unfold tcNew
  rw [if_neg (by simp [hb]), if_neg (by simp [hkn]), if_neg (by simp [hd']), e1]
  simp only
  rw [tcRange_ok ha hb' hr]
  simp only [Res.ok_bind]
  rw [if_neg (by rw [← hn]; simp [hi, hi']), e2, e3]
  simp only
  rw [← hn, tcGroundTruth_ok hf junk htb n hnb]
  rfl

theorem forLoop_inv {σ : Type} (P : Nat → σ → Prop) {n : Nat} {body : Nat → σ → Res σ}
    (hb : ∀ i s s', i < n → P i s → body i s = .ok s' → P (i + 1) s') : ∀ (k i : Nat) (s s' : σ), n - i = k → i ≤ n → P i s →
    forLoop n body i s = .ok s' → P n s' := by
  intro k
  induction k with
  | zero =>
    intro i s s' hk hi hp h
    rw [forLoop, if_neg (by omega)] at h
    cases h
    have : i = n := by omega
    rwa [this] at hp
  | succ k ih =>
    intro i s s' hk hi hp h
    rw [forLoop, if_pos (by omega), Res.bind_eq_ok] at h
    obtain ⟨u, h1, h2⟩ := h
    exact ih (i + 1) u s' (by omega) (by omega) (hb i s u (by omega) hp h1) h2

theorem tcRow_length {s u : Bytes} {l : List D} (h : tcRow scan s = some (l, u)) : l.length = 4 := by
  have next_len : ∀ k s l u, tcNext scan k s = some (l, u) → l.length = k := by
    intro k
    induction k with
    | zero => intro s l u h; cases h; rfl
    | succ k ih =>
      intro s l u h
      unfold tcNext at h
      split at h
      · split at h
        · cases h
        · split at h
          · cases h
          · rename_i e
            cases h
            rw [List.length_cons, ih _ _ _ e]
      · cases h
  unfold tcRow at h
  split at h
  · cases h
  · split at h
    · cases h
    · rename_i e
      cases h
      rw [List.length_cons, next_len _ _ _ _ e]

theorem tcGroundTruth_shape {junk : D} {text : Option Bytes} {n : Int} {g : List (List D)}
    (h : tcGroundTruth scan junk text n = .ok g) : 0 ≤ n ∧ (g.length : Int) = n ∧ ∀ l ∈ g, l.length = 4 := by
  unfold tcGroundTruth at h
  split at h
  · cases h
  · rename_i hn
    split at h
    · cases h
    · rw [Res.bind_eq_ok] at h
      obtain ⟨r, e, h⟩ := h
      cases h
      obtain ⟨h1, h2⟩ := forLoop_inv (fun _ (r : List (List D) × Bytes) => r.1.length = n.toNat ∧ ∀ l ∈ r.1, l.length = 4) (by
        rintro i ⟨g, s⟩ s' hi ⟨h1, h2⟩ hs
        unfold tcStep at hs
        simp only at h1 h2
        split at hs
        · cases hs
        · rename_i l u hl
          rw [writeAt_ok _ (by simp only; omega)] at hs
          cases hs
          refine ⟨by simp [h1], ?_⟩
          intro l' hl'
          rcases List.mem_or_eq_of_mem_set hl' with h | h
          · exact h2 l' h
          · rw [h]; exact tcRow_length hl) _ 0 _ _ rfl (by omega) ⟨by simp, by
            intro l hl
            rw [(List.mem_replicate.mp hl).2, List.length_replicate]⟩ e
      exact ⟨by omega, by omega, h2⟩

/-- What a loaded sequence satisfies. -/
theorem c98_valid (junk : D) (files : Files) (dirs : Bytes → Bool) (base name : Bytes) (q : TempleSeq D)
    (h : tcNew scan junk files dirs base name = .ok q) :
    dirs base = true ∧ dirs (base ++ bytesOf "/" ++ name) = true ∧ (∃ s ∈ tcNames, bytesOf s <+: name) ∧
      q.base = base ∧ q.name = name ∧ 0 ≤ q.length ∧ q.length = q.stop - q.start + 1 ∧ (q.gt.length : Int) = q.length ∧
      ∀ l ∈ q.gt, l.length = 4 := by
  unfold tcNew at h
  split at h
  · cases h
  · rename_i h1
    split at h
    · cases h
    · rename_i h2
      split at h
      · cases h
      · rename_i h3
        split at h
        · cases h
        · rw [Res.bind_eq_ok] at h
          obtain ⟨r, hr, h⟩ := h
          split at h
          · cases h
          · split at h
            · cases h
            · split at h
              · cases h
              · rw [Res.bind_eq_ok] at h
                obtain ⟨g, hg, h⟩ := h
                cases h
                obtain ⟨g1, g2, g3⟩ := tcGroundTruth_shape hg
                refine ⟨by simpa using h1, Decidable.not_not.mp h3, ?_, rfl, rfl, g1, rfl, g2, g3⟩
                simp only [tcKnown, Decidable.not_not, List.any_eq_true, List.isPrefixOf_iff_prefix] at h2
                exact h2

/-- Freeing a loaded sequence frees every row once. -/
theorem c98_free (junk : D) (files : Files) (dirs : Bytes → Bool) (base name : Bytes) (q : TempleSeq D)
    (h : tcNew scan junk files dirs base name = .ok q) : tcFree q = .ok (List.range q.gt.length) := by
  obtain ⟨-, -, -, -, -, h1, -, h2, -⟩ := c98_valid junk files dirs base name q h
  have hl : q.length.toNat = q.gt.length := by omega
  unfold tcFree
  rw [hl]
  obtain ⟨fr, e, h2⟩ := forLoop_spec (fun i (fr : List Nat) => fr = List.range i) (n := q.gt.length) (i0 := 0) (s := [])
    (body := fun i fr => do
      let _ ← readAt q.gt i
      pure (fr ++ [i])) (by omega) rfl (by
    intro i fr _ hi hfr
    rw [readAt_ok hi]
    refine ⟨fr ++ [i], rfl, ?_⟩
    rw [hfr, List.range_succ])
  rw [h2] at e
  exact e

/-- Without enough boxes the program ends. -/
theorem tcGroundTruth_short (hf : FieldText fmt scan) : ∀ (n i : Nat) (bs : List (D × D × D × D)) (t : Bytes),
    BoxFile fmt bs t → bs.length < n - i → i ≤ n → ∀ g : List (List D), g.length = n → forLoop n (tcStep scan) i (g, t) = .fatal := by
  intro n i bs
  induction bs generalizing i with
  | nil =>
    intro t h hl hi g hg
    simp only [List.length_nil] at hl
    cases h
    rw [forLoop, if_pos (by omega)]
    have : tcStep scan i (g, []) = .fatal := by
      unfold tcStep tcRow
      simp only [hf.empty]
    rw [this]
    rfl
  | cons b bs ih =>
    intro t h hl hi g hg
    simp only [List.length_cons] at hl
    obtain ⟨u, e, hu⟩ := tcRow_file hf h
    rw [forLoop, if_pos (by omega)]
    have : tcStep scan i (g, t) = .ok (g.set i (boxList b), u) := by
      unfold tcStep
      simp only [e]
      rw [writeAt_ok _ (by omega)]
      rfl
    rw [this]
    exact ih (i + 1) u hu (by omega) (by omega) _ (by simp [hg])

/-- The end of a program instead of a sequence: without the directories, with an unknown name, without one of the files, with a
range that ends more than one frame before it starts, or with less boxes than frames. -/
theorem c98_fatal (hf : FieldText fmt scan) (junk : D) (files : Files) (dirs : Bytes → Bool) (base name : Bytes) :
    (dirs base = false → tcNew scan junk files dirs base name = .fatal) ∧
    ((∀ s ∈ tcNames, ¬ bytesOf s <+: name) → tcNew scan junk files dirs base name = .fatal) ∧
    (dirs (base ++ bytesOf "/" ++ name) = false → tcNew scan junk files dirs base name = .fatal) ∧
    (files (base ++ bytesOf "/" ++ name ++ bytesOf "/" ++ name ++ bytesOf "_frames.txt") = none →
      tcNew scan junk files dirs base name = .fatal) ∧
    ∀ (a b : Int) (_ : InI32 a) (_ : InI32 b) (_ : InI32 (b - a)) (_ : InI32 (b - a + 1)) (rest : Bytes)
      (_ : ∀ x r, rest = x :: r → isDigitB 10 x = false)
      (_ : files (base ++ bytesOf "/" ++ name ++ bytesOf "/" ++ name ++ bytesOf "_frames.txt") = some (intText a ++ 44 :: (intText b ++
        rest))),
      (files (base ++ bytesOf "/" ++ name ++ bytesOf "/" ++ name ++ bytesOf "_att.txt") = none ∨
        files (base ++ bytesOf "/" ++ name ++ bytesOf "/" ++ name ++ bytesOf "_gt.txt") = none ∨ b - a + 1 < 0 ∨
        ∃ bs tb, BoxFile fmt bs tb ∧ (bs.length : Int) < b - a + 1 ∧
          files (base ++ bytesOf "/" ++ name ++ bytesOf "/" ++ name ++ bytesOf "_gt.txt") = some tb) →
      tcNew scan junk files dirs base name = .fatal := by
  have known : (∀ s ∈ tcNames, ¬ bytesOf s <+: name) → tcKnown name = false := by
    intro h
    rw [tcKnown, List.any_eq_false]
    intro s hs
    rw [List.isPrefixOf_iff_prefix]
    exact h s hs
  unfold tcNew
  by_cases h1 : ¬ dirs base = true
  · simp [h1]
  by_cases h2 : ¬ tcKnown name = true
  · simp [h2]
  by_cases h3 : ¬ dirs (tcDir base name) = true
  · simp [h3]
  rw [Decidable.not_not] at h1 h2 h3
  rw [if_neg (by simp [h1]), if_neg (by simp [h2]), if_neg (by simp [h3])]
  refine ⟨fun h => (by rw [h1] at h; cases h), fun h => (by rw [known h] at h2; cases h2), fun h => ?_, fun h => ?_, ?_⟩
  · have : dirs (tcDir base name) = false := h
    rw [this] at h3
    cases h3
  · have : files (tcFile base name "_frames.txt") = none := h
    rw [this]
  · intro a b ha hb hi hi' rest hr hff h
    have e1 : files (tcFile base name "_frames.txt") = _ := hff
    rw [e1]
    simp only
    rw [tcRange_ok ha hb hr]
    simp only [Res.ok_bind]
    rw [if_neg (by simp [hi, hi'])]
    cases ea : files (tcFile base name "_att.txt") with
    | none => rfl
    | some ta =>
      simp only
      have hg : tcGroundTruth scan junk (files (tcFile base name "_gt.txt")) (b - a + 1) = .fatal := by
        unfold tcGroundTruth
        by_cases hn : b - a + 1 < 0
        · rw [if_pos hn]
        · rw [if_neg hn]
          rcases h with h | h | h | ⟨bs, tb, h5, h6, h7⟩
          · have : files (tcFile base name "_att.txt") = none := h
            rw [this] at ea
            cases ea
          · have : files (tcFile base name "_gt.txt") = none := h
            rw [this]
          · omega
          · have : files (tcFile base name "_gt.txt") = some tb := h7
            rw [this]
            simp only
            rw [tcGroundTruth_short hf _ 0 bs tb h5 (by omega) (by omega) _ (by simp)]
            rfl
      rw [hg]
      rfl

/-- A range with more frames than an `int` can count is undefined behaviour. -/
theorem c98_overflow (junk : D) (files : Files) (dirs : Bytes → Bool) (base name : Bytes)
    (hb : dirs base = true) (hs : ∃ s ∈ tcNames, bytesOf s <+: name) (hd : dirs (base ++ bytesOf "/" ++ name) = true)
    (a b : Int) (ha : InI32 a) (hb' : InI32 b) (hi : ¬ InI32 (b - a) ∨ ¬ InI32 (b - a + 1))
    (hff : files (base ++ bytesOf "/" ++ name ++ bytesOf "/" ++ name ++ bytesOf "_frames.txt") = some (intText a ++ 44 :: intText b)) :
    tcNew scan junk files dirs base name = .ub := by
  have hkn : tcKnown name = true := by
    obtain ⟨s, h1, h2⟩ := hs
    rw [tcKnown, List.any_eq_true]
    exact ⟨s, h1, List.isPrefixOf_iff_prefix.mpr h2⟩
  have hd' : dirs (tcDir base name) = true := hd
  have e1 : files (tcFile base name "_frames.txt") = _ := hff
  unfold tcNew
  rw [if_neg (by simp [hb]), if_neg (by simp [hkn]), if_neg (by simp [hd']), e1]
  simp only
  have := tcRange_ok ha hb' (t := []) (by intro x r e; cases e)
  rw [List.append_nil] at this
  rw [this]
  simp only [Res.ok_bind]
  rw [if_pos hi]

/-- A frame is loaded iff it is in the range. -/
theorem c98_frame (q : TempleSeq D) (frame : Int) (p : Bytes) : tcLoadFrame q frame = .ok p ↔
    q.start ≤ frame ∧ frame ≤ q.stop ∧
      p = q.base ++ bytesOf "/" ++ q.name ++ bytesOf "/img/" ++ padInt 4 frame ++ bytesOf ".jpg" := by
  unfold tcLoadFrame
  split
  · simp only [reduceCtorEq, false_iff]
    omega
  · rw [Res.ok.injEq]
    constructor
    · rintro rfl
      exact ⟨by omega, by omega, rfl⟩
    · rintro ⟨-, -, rfl⟩
      rfl

end

theorem padText_digits (w n : Nat) : padText w n ≠ [] ∧ ∀ b ∈ padText w n, isDigitB 10 b = true := by
  unfold padText
  refine ⟨by simp [(natText_digits n).1], ?_⟩
  intro b hb
  rcases List.mem_append.mp hb with h | h
  · rw [(List.mem_replicate.mp h).2]
    decide
  · exact isDigitB_of_mem_natText h

theorem padInt_inj {w : Nat} {u v : Int} (h : padInt w u = padInt w v) : u = v := by
  have minus : ∀ w n r, padText w n ≠ 45 :: r := by
    intro w n r e
    have := (padText_digits w n).2 45 (by rw [e]; simp)
    revert this
    decide
  unfold padInt at h
  split at h
  · split at h
    · have := padText_inj (List.cons.inj h).2
      omega
    · exact absurd h.symm (minus _ _ _)
  · split at h
    · exact absurd h (minus _ _ _)
    · have := padText_inj h
      omega

/-- Every frame of every sequence has its own file. -/
theorem c98_paths (base name name' : Bytes) (hn : (47 : Byte) ∉ name) (hn' : (47 : Byte) ∉ name') (f f' : Int)
    (h : tcFrame base name f = tcFrame base name' f') : name = name' ∧ f = f' := by
  unfold tcFrame tcDir at h
  simp only [List.append_assoc] at h
  have h := List.append_cancel_left (List.append_cancel_left h)
  have e : bytesOf "/img/" = 47 :: bytesOf "img/" := rfl
  rw [e] at h
  have tw : ∀ (n r : Bytes), (47 : Byte) ∉ n → (n ++ 47 :: r).takeWhile (· != 47) = n := by
    intro n r hn
    rw [List.takeWhile_append_of_pos (by
      intro b hb
      simp only [bne_iff_ne, ne_eq]
      rintro rfl
      exact hn hb)]
    simp
  have hw := congrArg (List.takeWhile (· != 47)) h
  simp only [List.cons_append] at hw h
  rw [tw _ _ hn, tw _ _ hn'] at hw
  subst hw
  have h := List.append_cancel_left h
  rw [List.cons.injEq] at h
  exact ⟨rfl, padInt_inj (List.append_cancel_right (List.append_cancel_left h.2))⟩

theorem chosen_start (c : Bytes × Nat → Bool) : ∀ L : List (Bytes × Nat), (L.flatMap fun p => if c p then p.1 else []) = [] ∨
    ∃ r ∈ L, r.1 <+: L.flatMap fun p => if c p then p.1 else []
  | [] => .inl rfl
  | p :: L => by
    rw [List.flatMap_cons]
    cases h : c p with
    | true => exact .inr ⟨p, by simp, by simp⟩
    | false =>
      rcases chosen_start c L with h1 | ⟨r, h1, h2⟩
      · left; simpa using h1
      · right; exact ⟨r, by simp [h1], by simpa using h2⟩

/-- Words none of which starts another can be told apart after they are joined. -/
theorem chosen_inj (c c' : Bytes × Nat → Bool) : ∀ L : List (Bytes × Nat), (∀ p ∈ L, p.1 ≠ []) →
    L.Pairwise (fun p r => ¬ p.1 <+: r.1 ∧ ¬ r.1 <+: p.1) →
    (L.flatMap fun p => if c p then p.1 else []) = (L.flatMap fun p => if c' p then p.1 else []) → ∀ p ∈ L, c p = c' p
  | [], _, _, _ => by simp
  | p :: L, h0, hp, h => by
    rw [List.pairwise_cons] at hp
    rw [List.flatMap_cons, List.flatMap_cons] at h
    have ih := chosen_inj c c' L (fun q hq => h0 q (by simp [hq])) hp.2
    have bad : ∀ (c : Bytes × Nat → Bool) (X : Bytes), p.1 ++ X ≠ L.flatMap fun p => if c p then p.1 else [] := by
      intro c X e
      rcases chosen_start c L with h1 | ⟨r, h1, h2⟩
      · rw [h1] at e
        exact h0 p (by simp) (List.append_eq_nil_iff.mp e).1
      · rw [← e] at h2
        have h3 : p.1 <+: p.1 ++ X := List.prefix_append _ _
        rcases Nat.le_total r.1.length p.1.length with h4 | h4
        · exact (hp.1 r h1).2 (List.prefix_of_prefix_length_le h2 h3 h4)
        · exact (hp.1 r h1).1 (List.prefix_of_prefix_length_le h3 h2 h4)
    cases h1 : c p <;> cases h2 : c' p <;> simp only [h1, h2, Bool.false_eq_true, if_false, if_true, List.nil_append] at h
    · simpa [h1, h2] using ih h
    · exact absurd h.symm (bad c _)
    · exact absurd h (bad c' _)
    · simpa [h1, h2] using ih (List.append_cancel_left h)

/-- The numbers of the printed text, read one after the other with `%d`, are the first frame, the last frame and the number of frames. -/
theorem c98_print_range {D : Type} (q : TempleSeq D) (h1 : InI32 q.start) (h2 : InI32 q.stop) (h3 : InI32 q.length) :
    ∃ t1 t2 t3 : Bytes,
      tcPrint q = bytesOf "Temple Color 128 Sequence " ++ q.base ++ bytesOf "/" ++ q.name ++ bytesOf ":\n" ++ bytesOf "   Frame Range" ++
        t1 ∧
      scanInt t1 = .ok (some (q.start, bytesOf " to" ++ t2)) ∧ scanInt t2 = .ok (some (q.stop, bytesOf " (" ++ t3)) ∧
      scanInt t3 = .ok (some (q.length, bytesOf ")\n" ++ tcPrintAttrs q)) := by
  have bl : Blank [32] := by unfold Blank; decide
  have e0 : Blank [] := by unfold Blank; decide
  have hr : bytesOf "   Frame Range " = bytesOf "   Frame Range" ++ [32] := rfl
  have ht : bytesOf " to " = bytesOf " to" ++ [32] := rfl
  refine ⟨[32] ++ intText q.start ++ (bytesOf " to" ++ ([32] ++ intText q.stop ++ (bytesOf " (" ++
    ([] ++ intText q.length ++ (bytesOf ")\n" ++ tcPrintAttrs q))))), _, _, ?_, scanInt_intText h1 bl ?_, scanInt_intText h2 bl ?_,
    scanInt_intText h3 e0 ?_⟩
  · unfold tcPrint
    rw [hr, ht]
    simp only [List.append_assoc, List.nil_append]
  all_goals
    intro b r e
    have := congrArg List.head? e
    simp only [List.head?_cons] at this
    first
    | (have t : (bytesOf " to").head? = some 32 := rfl
       rw [List.head?_append, t] at this; cases this; rfl)
    | (have t : (bytesOf " (").head? = some 32 := rfl
       rw [List.head?_append, t] at this; cases this; rfl)
    | (have t : (bytesOf ")\n").head? = some 41 := rfl
       rw [List.head?_append, t] at this; cases this; rfl)

/-- The attributes are printed without anything between them, but they can be read from the text. -/
theorem c98_print {D : Type} (q q' : TempleSeq D) (h : tcPrintAttrs q = tcPrintAttrs q') (i : Nat) (hi : i < 11) :
    q.attributes.getLsbD i = q'.attributes.getLsbD i := by
  unfold tcPrintAttrs at h
  have h := List.append_cancel_left (List.append_cancel_right h)
  have bit : ∀ (m : BitVec 16) (i : Nat), i < 11 → (decide (m &&& BitVec.ofNat 16 (1 <<< i) ≠ 0#16)) = m.getLsbD i := by
    intro m i hi
    have e : BitVec.ofNat 16 (1 <<< i) = BitVec.twoPow 16 i := by
      apply BitVec.eq_of_toNat_eq
      rw [BitVec.toNat_ofNat, BitVec.toNat_twoPow, Nat.one_shiftLeft]
    rw [e, BitVec.and_twoPow]
    split
    · rename_i hm
      rw [hm]
      simp only [ne_eq, decide_not, Bool.not_eq_eq_eq_not, Bool.not_true, decide_eq_false_iff_not]
      intro hz
      have := congrArg BitVec.toNat hz
      rw [BitVec.toNat_twoPow] at this
      have : 2 ^ i < 2 ^ 16 := Nat.pow_lt_pow_right (by omega) (by omega)
      have h1 : 0 < 2 ^ i := Nat.two_pow_pos i
      simp [Nat.mod_eq_of_lt this] at *
    · rename_i hm
      simp at hm
      simp [hm]
  have key := chosen_inj (fun p => decide (q.attributes &&& BitVec.ofNat 16 (1 <<< p.2) ≠ 0#16))
    (fun p => decide (q'.attributes &&& BitVec.ofNat 16 (1 <<< p.2) ≠ 0#16)) tcAttrs.zipIdx (by decide +kernel) (by decide +kernel) (by
      simpa only [decide_eq_true_eq] using h)
  have hm : ∃ p ∈ tcAttrs.zipIdx, p.2 = i := by
    have : ∀ i < 11, ∃ p ∈ tcAttrs.zipIdx, p.2 = i := by decide +kernel
    exact this i hi
  obtain ⟨p, hp, rfl⟩ := hm
  have := key p hp
  simp only [bit _ _ hi] at this
  exact this

/-- All 129 names are different and accepted, none contains a slash; some others are accepted too. -/
theorem c98_names : tcNames.length = 129 ∧ tcNames.Nodup ∧ (∀ s ∈ tcNames, tcKnown (bytesOf s) = true ∧ (47 : Byte) ∉ bytesOf s) ∧
    "Birdsong" ∉ tcNames ∧ tcKnown (bytesOf "Birdsong") = true := by
  decide +kernel

/-- Numbers of one digit. -/
example : FieldText (fun d : Fin 10 => [UInt8.ofNat (48 + d.val)]) (fun t =>
    match t with
    | [] => none
    | b :: r => if h : 48 ≤ b.toNat ∧ b.toNat < 58 then some (⟨b.toNat - 48, by omega⟩, r) else none) := by
  refine ⟨?_, ?_, rfl⟩
  · intro d t _
    revert d
    simp only [List.cons_append, List.nil_append]
    intro d
    have : ∀ d : Fin 10, (UInt8.ofNat (48 + d.val)).toNat = 48 + d.val := by decide +kernel
    simp only [this]
    rw [dif_pos (by omega)]
    simp
  · intro d b r h
    cases h
    revert d
    decide +kernel

/-- Files of a sequence with three frames. -/
def demoTemple : Files := fun p =>
  if p = bytesOf "tc/Bird/Bird_frames.txt" then some (bytesOf "2,4\n")
  else if p = bytesOf "tc/Bird/Bird_att.txt" then some (bytesOf "OCC\r\nVI\nOCC\nLR")
  else if p = bytesOf "tc/Bird/Bird_gt.txt" then some (bytesOf "1,2,3,4\n5,6,7,8\r\n9,8,7,6\n1,1,1,1\n")
  else none

example : tcNew scanDigit 0 demoTemple (fun _ => true) (bytesOf "tc") (bytesOf "Bird") =
    .ok ⟨bytesOf "tc", bytesOf "Bird", 3, 2, 4, 0x405#16, [[1, 2, 3, 4], [5, 6, 7, 8], [9, 8, 7, 6]]⟩ := by
  decide +kernel

example : AttrFile ["OCC", "VI", "OCC", "LR"] (bytesOf "OCC\r\nVI\nOCC\nLR") :=
  .cons (l := bytesOf "OCC\r") ⟨⟨[13], rfl⟩, by decide, by decide +kernel⟩
    (.cons (l := bytesOf "VI") ⟨⟨[], rfl⟩, by decide, by decide +kernel⟩
      (.cons (l := bytesOf "OCC") ⟨⟨[], rfl⟩, by decide, by decide +kernel⟩ (.last ⟨⟨[], rfl⟩, by decide, by decide +kernel⟩)))

example : tcLoadFrame (⟨bytesOf "tc", bytesOf "Bird", 3, 2, 4, 0, []⟩ : TempleSeq Nat) 3 = .ok (bytesOf "tc/Bird/img/0003.jpg") ∧
    tcLoadFrame (⟨bytesOf "tc", bytesOf "Bird", 3, 2, 4, 0, []⟩ : TempleSeq Nat) 5 = .fatal := by
  decide +kernel

end Nx
