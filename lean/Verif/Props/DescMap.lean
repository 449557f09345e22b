import Verif.Model.DescMap
import Verif.Spec.DescMap
import Verif.Props.Vector

/-! # C93: maps of descriptors -/

namespace Nx

/-- The map holds these entries, in this order. -/
structure DmHolds (m : DescMap) (n : Nat) (l : List (UInt64 × Bytes)) : Prop where
  octets_eq : m.octets = n
  ids_eq : m.ids = l.map Prod.fst
  data_eq : m.data = (l.map Prod.snd).flatten
  length_eq : ∀ e ∈ l, e.2.length = n

namespace DmHolds
variable {m : DescMap} {n : Nat} {l : List (UInt64 × Bytes)}

theorem mem_length (h : DmHolds m n l) : ∀ x ∈ l.map Prod.snd, x.length = n := by
  intro x hx
  obtain ⟨e, he, rfl⟩ := List.mem_map.mp hx
  exact h.length_eq e he

theorem data_length (h : DmHolds m n l) : m.data.length = l.length * n := by
  rw [h.data_eq, flatten_len h.mem_length, List.length_map]

theorem ids_length (h : DmHolds m n l) : m.ids.length = l.length := by rw [h.ids_eq, List.length_map]

theorem read (h : DmHolds m n l) {k : Nat} {e : UInt64 × Bytes} (he : l[k]? = some e) : dmRead m (k * n) = .ok e.2 := by
  have hk : k < l.length := (List.getElem?_eq_some_iff.mp he).1
  have h1 : k * n + n ≤ l.length * n := by
    have := Nat.mul_le_mul_right n hk
    rwa [Nat.succ_mul] at this
  unfold dmRead
  rw [h.octets_eq, if_pos (by rw [h.data_length]; exact h1), h.data_eq]
  rw [flatten_chunk h.mem_length (by rw [List.getElem?_map, he]; rfl)]

theorem id_at (h : DmHolds m n l) {k : Nat} {e : UInt64 × Bytes} (he : l[k]? = some e) : readAt m.ids k = .ok e.1 := by
  unfold readAt
  rw [h.ids_eq, List.getElem?_map, he]
  rfl

theorem offset (h : DmHolds m n l) {i : Nat} (hi : i * n ≤ 2147483647) : dmOffset m i = .ok (i * n) := by
  unfold dmOffset
  rw [h.octets_eq, if_pos hi]

theorem size (h : DmHolds m n l) (hl : l.length ≤ 2147483647) : dmSize m = .ok l.length := by
  unfold dmSize
  rw [h.ids_length, if_pos hl]

end DmHolds

variable {m : DescMap} {n : Nat} {l : List (UInt64 × Bytes)}

/-- C93. Adding a descriptor appends an entry, leaves the others alone and returns their number. -/
theorem c93_add (h : DmHolds m n l) (id : UInt64) (desc : Bytes) (hd : n ≤ desc.length) (hl : l.length < 2147483647)
    (ho : l.length * n ≤ 2147483647) :
    ∃ m', dmAdd m id desc = .ok (l.length + 1, m') ∧ DmHolds m' n (l ++ [(id, desc.take n)]) := by
  have e1 := h.size (by omega)
  have hlen := h.data_length
  obtain ⟨oct, ids, data⟩ := m
  have ho' : oct = n := h.octets_eq
  subst ho'
  have hids := h.ids_length
  simp only at hids hlen
  unfold dmAdd
  rw [e1]
  simp only [Res.ok_bind, dmOffset]
  rw [if_pos ho]
  simp only [Res.ok_bind, copyBytes]
  rw [if_pos ⟨by rw [List.length_append, List.length_replicate, hlen]; exact Nat.le_refl _, hd⟩]
  simp only [Res.ok_bind, dmSize]
  rw [if_pos (by rw [List.length_append, hids, List.length_singleton]; omega)]
  simp only [Res.ok_bind, Res.pure_eq, List.length_append, List.length_singleton, hids]
  refine ⟨_, rfl, rfl, ?_, ?_, ?_⟩
  · have := h.ids_eq
    simp only at this
    simp only [this, List.map_append, List.map_cons, List.map_nil]
  · have := h.data_eq
    simp only at this
    simp only [List.map_append, List.flatten_append, List.map_cons, List.map_nil, List.flatten_cons, List.flatten_nil, List.append_nil]
    rw [← this, List.take_append_of_le_length (by omega), ← hlen, List.take_length, List.drop_eq_nil_of_le (by simp), List.append_nil]
  · intro e he
    rcases List.mem_append.mp he with he | he
    · exact h.length_eq e he
    · rw [List.mem_singleton.mp he]
      simp only [List.length_take]
      omega

/-- The entries after several operations: those added since the last time that the map was cleared. -/
def dmEntries (n : Nat) (l : List (UInt64 × Bytes)) : List DmOp → Nat × List (UInt64 × Bytes)
  | [] => (n, l)
  | .clear :: os => dmEntries n [] os
  | .setOctets k :: os => dmEntries k [] os
  | .add id desc :: os => dmEntries n (l ++ [(id, desc.take n)]) os

/-- What the user has to observe: descriptors have enough octets, and the offsets do not overflow. -/
def DmAllowed (n : Nat) (l : List (UInt64 × Bytes)) : List DmOp → Prop
  | [] => True
  | .clear :: os => DmAllowed n [] os
  | .setOctets k :: os => DmAllowed k [] os
  | .add id desc :: os => n ≤ desc.length ∧ l.length < 2147483647 ∧ l.length * n ≤ 2147483647 ∧ DmAllowed n (l ++ [(id, desc.take n)]) os

theorem dmClear_holds (m : DescMap) : DmHolds (dmClear m) m.octets [] := ⟨rfl, rfl, rfl, by simp⟩

/-- C93. After any sequence of operations the map holds what was added since it was last cleared. -/
theorem c93_history (os : List DmOp) : ∀ {m : DescMap} {n : Nat} {l : List (UInt64 × Bytes)}, DmHolds m n l → DmAllowed n l os →
    ∃ m', dmRun m os = .ok m' ∧ DmHolds m' (dmEntries n l os).1 (dmEntries n l os).2 := by
  induction os with
  | nil => intro m n l h _; exact ⟨m, rfl, h⟩
  | cons o os ih =>
    intro m n l h ha
    cases o with
    | clear =>
      have hc := dmClear_holds m
      rw [h.octets_eq] at hc
      exact ih hc ha
    | setOctets k => exact ih (m := dmSetOctets m k) ⟨rfl, rfl, rfl, by simp⟩ ha
    | add id desc =>
      obtain ⟨h1, h2, h3, h4⟩ := ha
      obtain ⟨m', e, h'⟩ := c93_add h id desc h1 h2 h3
      simp only [dmRun, dmStep, e, Res.ok_bind, Res.pure_eq]
      exact ih h' h4

/-- C93. The accessors. -/
theorem c93_entry (h : DmHolds m n l) {k : Nat} {e : UInt64 × Bytes} (he : l[k]? = some e) (ho : k * n ≤ 2147483647) :
    dmGetId m k = .ok e.1 ∧ ∃ p, dmGetDescriptor m k = .ok p ∧ dmRead m p = .ok e.2 :=
  ⟨h.id_at he, k * n, h.offset ho, h.read he⟩

/-- Distances to entries. -/
theorem dm_distance (h : DmHolds m n l) (desc : Bytes) (hd : desc.length = n) (hn : n ≤ 268435455) {k : Nat} {e : UInt64 × Bytes}
    (he : l[k]? = some e) : descriptorDistance n desc e.2 = .ok (hamming desc e.2) := by
  have hm := h.length_eq e (List.mem_of_getElem? he)
  have := c45_hamming desc e.2 (by rw [hd, hm]) (by omega)
  rwa [hd] at this

theorem dmSearchLoop_spec (h : DmHolds m n l) (desc : Bytes) (hd : desc.length = n) (hn : n ≤ 268435455) (ho : l.length * n ≤ 2147483647) :
    ∀ (fuel i idx dist : Nat), l.length - i = fuel → i ≤ l.length →
      (∃ e, l[idx]? = some e ∧ dist = hamming desc e.2 ∧ idx < i ∧
        ∀ j e', j < i → l[j]? = some e' → hamming desc e.2 ≤ hamming desc e'.2 ∧ (j < idx → hamming desc e.2 < hamming desc e'.2)) →
      ∃ k e, dmSearchLoop m desc l.length i idx dist = .ok (k, hamming desc e.2) ∧ NearestAt l desc k e := by
  intro fuel
  induction fuel with
  | zero =>
    intro i idx dist hf hi ⟨e, he, hdist, hidx, hmin⟩
    refine ⟨idx, e, ?_, he, ?_⟩
    · rw [dmSearchLoop, if_neg (by omega), hdist]
      rfl
    · intro j e' hj
      exact hmin j e' (by have := (List.getElem?_eq_some_iff.mp hj).1; omega) hj
  | succ fuel ih =>
    intro i idx dist hf hi ⟨e, he, hdist, hidx, hmin⟩
    have hil : i < l.length := by omega
    obtain ⟨x, hx⟩ : ∃ x, l[i]? = some x := ⟨l[i], List.getElem?_eq_getElem hil⟩
    rw [dmSearchLoop, if_pos hil, h.offset (Nat.le_trans (Nat.mul_le_mul_right n (Nat.le_of_lt hil)) ho)]
    simp only [Res.ok_bind]
    rw [h.read hx]
    simp only [Res.ok_bind]
    rw [h.octets_eq, dm_distance h desc hd hn hx]
    simp only [Res.ok_bind]
    by_cases hlt : hamming desc x.2 < dist
    · rw [if_pos hlt]
      apply ih (i + 1) i _ (by omega) (by omega)
      refine ⟨x, hx, rfl, by omega, ?_⟩
      intro j e' hj hje
      by_cases hji : j = i
      · subst hji
        rw [hx] at hje
        injection hje with hje
        subst hje
        exact ⟨Nat.le_refl _, by omega⟩
      · have := (hmin j e' (by omega) hje).1
        exact ⟨by omega, by omega⟩
    · rw [if_neg hlt]
      apply ih (i + 1) idx dist (by omega) (by omega)
      refine ⟨e, he, hdist, by omega, ?_⟩
      intro j e' hj hje
      by_cases hji : j = i
      · subst hji
        rw [hx] at hje
        injection hje with hje
        subst hje
        exact ⟨by omega, by omega⟩
      · exact hmin j e' (by omega) hje

/-- C93. The search gives the first entry at the smallest Hamming distance, and this distance. -/
theorem c93_nearest (h : DmHolds m n l) (desc : Bytes) (hd : desc.length = n) (hn0 : 0 < n) (hn : n ≤ 268435455) (hl : l ≠ [])
    (ho : l.length * n ≤ 2147483647) :
    ∃ k e, dmSearchNN m desc = .ok (e.1, hamming desc e.2) ∧ NearestAt l desc k e := by
  have hpos : 0 < l.length := List.length_pos_iff.mpr hl
  have hl31 : l.length ≤ 2147483647 := Nat.le_trans (Nat.le_mul_of_pos_right _ hn0) ho
  obtain ⟨x, hx⟩ : ∃ x, l[0]? = some x := ⟨l[0], List.getElem?_eq_getElem hpos⟩
  obtain ⟨k, e, ek, hk⟩ := dmSearchLoop_spec h desc hd hn ho (l.length - 1) 1 0 (hamming desc x.2) rfl hpos ⟨x, hx, rfl, by omega, by
    intro j e' hj hje
    have : j = 0 := by omega
    subst this
    rw [hx] at hje
    injection hje with hje
    subst hje
    exact ⟨Nat.le_refl _, by omega⟩⟩
  refine ⟨k, e, ?_, hk⟩
  have hne : m.data ≠ [] := by
    intro hnil
    have := h.data_length
    rw [hnil, List.length_nil] at this
    have := Nat.mul_pos hpos hn0
    omega
  have hr := h.read hx
  rw [Nat.zero_mul] at hr
  unfold dmSearchNN
  rw [h.size hl31]
  simp only [Res.ok_bind]
  rw [if_neg hne, hr]
  simp only [Res.ok_bind]
  rw [h.octets_eq, dm_distance h desc hd hn hx]
  simp only [Res.ok_bind]
  rw [ek]
  simp only [Res.ok_bind]
  rw [h.id_at hk.1]
  rfl

theorem dmIdLoop_spec (h : DmHolds m n l) (id : UInt64) (ho : l.length * n ≤ 2147483647) :
    ∀ (fuel i : Nat), l.length - i = fuel → i ≤ l.length → (∀ (j : Nat) (e : UInt64 × Bytes), j < i → l[j]? = some e → e.1 ≠ id) →
      (dmIdLoop m id l.length i = .ok none ∧ ∀ e ∈ l, e.1 ≠ id) ∨
      ∃ k d, dmIdLoop m id l.length i = .ok (some (k * n)) ∧ l[k]? = some (id, d) ∧
        ∀ (j : Nat) (e : UInt64 × Bytes), j < k → l[j]? = some e → e.1 ≠ id := by
  intro fuel
  induction fuel with
  | zero =>
    intro i hf hi hno
    left
    refine ⟨by rw [dmIdLoop, if_neg (by omega)]; rfl, ?_⟩
    intro e he
    obtain ⟨j, hj⟩ := List.getElem?_of_mem he
    exact hno j e (by have := (List.getElem?_eq_some_iff.mp hj).1; omega) hj
  | succ fuel ih =>
    intro i hf hi hno
    have hil : i < l.length := by omega
    obtain ⟨x, hx⟩ : ∃ x, l[i]? = some x := ⟨l[i], List.getElem?_eq_getElem hil⟩
    rw [dmIdLoop, if_pos hil, h.id_at hx]
    simp only [Res.ok_bind]
    by_cases hid : id = x.1
    · right
      rw [if_pos hid, h.offset (Nat.le_trans (Nat.mul_le_mul_right n (Nat.le_of_lt hil)) ho)]
      exact ⟨i, x.2, rfl, by rw [hx, hid], hno⟩
    · rw [if_neg hid]
      apply ih (i + 1) (by omega) (by omega)
      intro j e hj hje
      by_cases hji : j = i
      · subst hji
        rw [hx] at hje
        injection hje with hje
        subst hje
        exact fun he => hid he.symm
      · exact hno j e (by omega) hje

/-- C93. The search for an identifier gives the descriptor of the first entry with it, and null exactly if there is none. -/
theorem c93_by_id (h : DmHolds m n l) (id : UInt64) (hl : l.length ≤ 2147483647) (ho : l.length * n ≤ 2147483647) :
    (dmSearchId m id = .ok none ∧ ∀ e ∈ l, e.1 ≠ id) ∨
    ∃ p k d, dmSearchId m id = .ok (some p) ∧ dmRead m p = .ok d ∧ l[k]? = some (id, d) ∧
      ∀ (j : Nat) (e : UInt64 × Bytes), j < k → l[j]? = some e → e.1 ≠ id := by
  unfold dmSearchId
  rw [h.size hl]
  simp only [Res.ok_bind]
  rcases dmIdLoop_spec h id ho l.length 0 rfl (Nat.zero_le _) (by intro j e hj; omega) with h1 | ⟨k, d, h1, h2, h3⟩
  · exact Or.inl h1
  · exact Or.inr ⟨k * n, k, d, h1, h.read h2, h2, h3⟩

/-- C93. Searching an empty map is undefined. -/
theorem c93_empty (h : DmHolds m n []) (desc : Bytes) : dmSearchNN m desc = .ub := by
  have hd : m.data = [] := by rw [h.data_eq]; rfl
  unfold dmSearchNN
  rw [h.size (by simp)]
  simp only [Res.ok_bind]
  rw [if_pos hd]

/-- C93. The offset of a new descriptor overflows when more than two gigabytes are stored. -/
theorem c93_overflow (h : DmHolds m n l) (id : UInt64) (desc : Bytes) (ho : 2147483647 < l.length * n) : dmAdd m id desc = .ub := by
  unfold dmAdd
  by_cases hl : l.length ≤ 2147483647
  · rw [h.size hl]
    simp only [Res.ok_bind, dmOffset]
    rw [h.octets_eq, if_neg (by omega)]
    rfl
  · unfold dmSize
    rw [h.ids_length, if_neg hl]
    rfl

/-- Three entries of two octets; the second and the third are equally near. -/
example : (match dmRun ⟨2, [], []⟩ [.add 5 [0, 0], .clear, .add 7 [255, 255], .add 8 [1, 3], .add 7 [3, 1, 9]] with
    | .ok m => decide (dmSearchNN m [1, 1] = .ok (8, 1) ∧ dmSearchId m 7 = .ok (some 0) ∧ dmSearchId m 5 = .ok none ∧ m.data = [255, 255, 1, 3, 3, 1])
    | _ => false) = true := by decide +kernel

example : DmHolds ⟨2, [], []⟩ 2 [] ∧ DmAllowed 2 [] [.add 5 [0, 0], .clear, .setOctets 1, .add 7 [255, 255]] := by
  refine ⟨⟨rfl, rfl, rfl, by simp⟩, ?_⟩
  simp [DmAllowed]

end Nx
