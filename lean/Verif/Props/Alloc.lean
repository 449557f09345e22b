import Verif.Model.Alloc

/-!
# C109: allocation and growing arrays
-/

namespace Nx

/-- The contract of `malloc`: a block has the size that was asked for. -/
def MallocOk (malloc : Malloc) : Prop := ∀ sz b, malloc sz = some b → b.length = sz

theorem mulSize_of_lt {a b : Nat} (h : a * b < 2 ^ 64) : mulSize a b = a * b := Nat.mod_eq_of_lt h

/-- If the product fits, `nx_xcalloc` ends the program or gives as many zeros as were asked for; `NULL` only if none
were. -/
theorem c109_calloc_partial (malloc : Malloc) (hm : MallocOk malloc) (n sz : Nat) (h : n * sz < 2 ^ 64) :
    nxXcalloc malloc n sz = .fatal ∨ nxXcalloc malloc n sz = .ok (some (List.replicate (n * sz) 0)) ∨
      (n * sz = 0 ∧ nxXcalloc malloc n sz = .ok none) := by
  unfold nxXcalloc nxCalloc nxMalloc
  rw [mulSize_of_lt h]
  cases hb : malloc (n * sz) with
  | none =>
    simp only [hb, Res.ok_bind, xcallocEnd]
    by_cases h0 : n * sz = 0
    · right
      right
      refine ⟨h0, ?_⟩
      rw [if_neg]
      rcases Nat.mul_eq_zero.1 h0 with h1 | h1 <;> simp [h1]
    · left
      rw [if_pos]
      rw [Nat.mul_eq_zero, not_or] at h0
      exact ⟨h0.1, h0.2, trivial⟩
  | some b =>
    right
    left
    have hl := hm _ _ hb
    simp only [hb, memset0]
    rw [if_pos (by omega)]
    simp [xcallocEnd, hl]

/-- The product is not checked: if it does not fit, a block that comes back is always shorter than what was asked
for. -/
theorem c109_calloc_short (malloc : Malloc) (hm : MallocOk malloc) (n sz : Nat) (h : 2 ^ 64 ≤ n * sz) (b : List Byte)
    (hb : nxXcalloc malloc n sz = .ok (some b)) : b.length < n * sz := by
  unfold nxXcalloc nxCalloc nxMalloc at hb
  have hlt : mulSize n sz < 2 ^ 64 := Nat.mod_lt _ (by decide)
  cases hq : malloc (mulSize n sz) with
  | none =>
    simp only [hq, Res.ok_bind, xcallocEnd] at hb
    split at hb <;> cases hb
  | some c =>
    have hl := hm _ _ hq
    simp only [hq, memset0] at hb
    rw [if_pos (by omega)] at hb
    simp only [Res.ok_bind, Res.pure_eq, xcallocEnd] at hb
    split at hb
    · cases hb
    · simp only [Res.ok.injEq, Option.some.injEq] at hb
      rw [← hb]
      simp only [List.length_append, List.length_replicate, List.length_drop]
      omega

/-- It happens: `2^63 + 1` members of two bytes get two bytes. -/
theorem c109_calloc_false : ¬ ∀ (malloc : Malloc), MallocOk malloc → ∀ (n sz : Nat), n < 2 ^ 64 → sz < 2 ^ 64 →
    ∀ b, nxXcalloc malloc n sz = .ok (some b) → n * sz ≤ b.length := by
  intro h
  have := h (fun sz => if sz = 2 then some [7, 7] else none) (by
    intro sz b hb
    simp only at hb
    split at hb
    · obtain rfl := Option.some.inj hb
      subst_vars
      rfl
    · cases hb) (2 ^ 63 + 1) 2 (by decide) (by decide) [0, 0] (by decide +kernel)
  exact absurd this (by decide)

/-- `NX_NEW` with a count of type `int` that is not negative gets the whole array or ends the program. -/
theorem c109_new (malloc : Malloc) (hm : MallocOk malloc) (n : Int) (h0 : 0 ≤ n) (hn : n < 2 ^ 31) (sz : Nat)
    (hs : sz < 2 ^ 33) :
    nxNew malloc n sz = .fatal ∨ (∃ b, nxNew malloc n sz = .ok (some b) ∧ b.length = n.toNat * sz) ∨
      (n.toNat * sz = 0 ∧ nxNew malloc n sz = .ok none) := by
  obtain ⟨k, rfl⟩ := Int.eq_ofNat_of_zero_le h0
  have hk : k < 2 ^ 31 := by omega
  have e1 : toSize (k : Int) = k := by
    unfold toSize
    omega
  have e2 : mulSize k sz = k * sz := by
    apply mulSize_of_lt
    calc k * sz ≤ k * 2 ^ 33 := Nat.mul_le_mul_left _ (by omega)
      _ < 2 ^ 31 * 2 ^ 33 := Nat.mul_lt_mul_of_pos_right hk (by decide)
      _ = 2 ^ 64 := by decide
  unfold nxNew nxXmalloc
  rw [e1, e2]
  simp only [Int.toNat_natCast]
  cases hb : malloc (k * sz) with
  | none =>
    by_cases hz : k * sz = 0
    · right
      right
      simp [hz]
    · left
      simp [hz]
  | some b =>
    right
    left
    exact ⟨b, by simp, hm _ _ hb⟩

/-- With a negative count it asks for almost the whole memory, never for less than was meant. -/
theorem c109_new_negative (n : Int) (h0 : n < 0) (hn : -(2 ^ 31) ≤ n) (sz : Nat) (hs : sz < 2 ^ 32) (hp : 0 < sz) :
    mulSize (toSize n) sz = 2 ^ 64 - n.natAbs * sz ∧ 2 ^ 63 < mulSize (toSize n) sz := by
  have e1 : toSize n = 2 ^ 64 - n.natAbs := by
    unfold toSize
    omega
  have hk : 0 < n.natAbs := by omega
  have hk' : n.natAbs ≤ 2 ^ 31 := by omega
  have hb : n.natAbs * sz < 2 ^ 63 := by
    calc n.natAbs * sz ≤ 2 ^ 31 * sz := Nat.mul_le_mul_right _ hk'
      _ < 2 ^ 31 * 2 ^ 32 := Nat.mul_lt_mul_of_pos_left hs (by decide)
      _ = 2 ^ 63 := by decide
  have hpos : 0 < n.natAbs * sz := Nat.mul_pos hk hp
  have e2 : mulSize (toSize n) sz = 2 ^ 64 - n.natAbs * sz := by
    rw [e1, mulSize, Nat.sub_mul]
    generalize n.natAbs * sz = q at *
    have : 2 ^ 64 * sz - q = (2 ^ 64 - q) + 2 ^ 64 * (sz - 1) := by
      have : 2 ^ 64 * sz = 2 ^ 64 + 2 ^ 64 * (sz - 1) := by
        omega
      omega
    rw [this, Nat.add_mul_mod_self_left]
    exact Nat.mod_eq_of_lt (by omega)
  exact ⟨e2, by omega⟩

section
variable {α : Type}

/-- The array holds `xs`. -/
structure GrowHolds (a : GrowArr α) (xs : List α) : Prop where
  length : a.elems.length = a.capacity
  size : a.size = xs.length
  room : a.size ≤ a.capacity
  elems : ∀ (i : Nat) (x : α), xs[i]? = some x → a.elems[i]? = some (some x)

/-- The bounds on the work done so far. -/
structure Cheap (a : GrowArr α) : Prop where
  moved : a.moved ≤ 2 * a.capacity
  calls : 23 * 3 ^ a.calls ≤ 2 ^ a.calls * (a.capacity + 23)
  room : a.capacity = 0 ∨ 2 * a.capacity ≤ 3 * (a.size + 8)
  top : a.capacity ≤ 1073741823

theorem growNew_holds : GrowHolds (growNew : GrowArr α) [] :=
  ⟨rfl, rfl, Nat.le_refl _, by intro i x h; simp at h⟩

theorem growNew_cheap : Cheap (growNew : GrowArr α) :=
  ⟨Nat.le_refl _, by simp [growNew], Or.inl rfl, by simp [growNew]⟩

/-- Adding an element: never lost, never out of range; the array is full and its capacity cannot be computed, or the
element is there. -/
theorem c109_push {a : GrowArr α} {xs : List α} (h : GrowHolds a xs) (hc : Cheap a) (x : α) :
    (growPush a x = .ub ∧ a.size = a.capacity ∧ 715827875 ≤ a.size) ∨
      ∃ a', growPush a x = .ok a' ∧ GrowHolds a' (xs ++ [x]) ∧ Cheap a' := by
  have key : ∀ a1 : GrowArr α, a1.size = a.size → GrowHolds a1 xs → a.size < a1.capacity → Cheap a1 →
      ∃ a', growAlloc a1 x = .ok a' ∧ GrowHolds a' (xs ++ [x]) ∧ Cheap a' := by
    intro a1 hsz h1 hroom hc1
    have hlt : a1.size < a1.elems.length := by
      rw [h1.length]
      omega
    refine ⟨{ a1 with elems := a1.elems.set a1.size (some x), size := a1.size + 1 },
      by rw [growAlloc, writeAt_ok _ hlt]; rfl, ⟨?_, ?_, ?_, ?_⟩, ⟨hc1.moved, hc1.calls, ?_, hc1.top⟩⟩
    · simp [h1.length]
    · simp [h1.size]
    · simp only
      omega
    · intro i y hi
      simp only
      rw [List.getElem?_append] at hi
      split at hi
      · rename_i hlt'
        rw [List.getElem?_set_ne (by rw [h1.size]; omega)]
        exact h1.elems i y hi
      · rename_i hge
        have hi0 : i - xs.length = 0 := by
          have := (List.getElem?_eq_some_iff.1 hi).1
          simp at this
          omega
        rw [hi0] at hi
        obtain rfl := Option.some.inj hi
        have : i = a1.size := by
          rw [h1.size]
          omega
        rw [this, List.getElem?_set_self hlt]
    · have := hc1.room
      simp only
      omega
  have hroom := h.room
  unfold growPush growEnsure
  by_cases hfull : a.capacity < a.size + 1
  · rw [if_pos hfull]
    by_cases hov : (a.capacity + 8) * 3 > 2147483647
    · left
      rw [if_pos hov]
      exact ⟨rfl, by omega, by omega⟩
    · right
      rw [if_neg hov]
      have hcap : ¬ (a.capacity + 8) * 3 / 2 < a.size + 1 := by omega
      simp only [Res.ok_bind, if_neg hcap]
      apply key
      · rfl
      · refine ⟨?_, h.size, ?_, ?_⟩
        · simp only [List.length_append, List.length_replicate, h.length]
          omega
        · simp only
          omega
        · intro i y hi
          have := h.elems i y hi
          simp only
          rw [List.getElem?_append_left (List.getElem?_eq_some_iff.1 this).1]
          exact this
      · simp only
        omega
      · have h1 := hc.moved
        have h2 := hc.calls
        refine ⟨?_, ?_, Or.inr ?_, ?_⟩
        · simp only
          omega
        · simp only
          have h3 : 3 * (a.capacity + 23) ≤ 2 * ((a.capacity + 8) * 3 / 2 + 23) := by omega
          calc 23 * 3 ^ (a.calls + 1) = 3 * (23 * 3 ^ a.calls) := by rw [Nat.pow_succ]; omega
            _ ≤ 3 * (2 ^ a.calls * (a.capacity + 23)) := Nat.mul_le_mul_left _ h2
            _ = 2 ^ a.calls * (3 * (a.capacity + 23)) := by
              rw [← Nat.mul_assoc, Nat.mul_comm 3, Nat.mul_assoc]
            _ ≤ 2 ^ a.calls * (2 * ((a.capacity + 8) * 3 / 2 + 23)) := Nat.mul_le_mul_left _ h3
            _ = 2 ^ (a.calls + 1) * ((a.capacity + 8) * 3 / 2 + 23) := by
              rw [← Nat.mul_assoc, Nat.pow_succ]
        · simp only
          omega
        · simp only
          omega
  · right
    rw [if_neg hfull]
    simp only [Res.ok_bind]
    exact key a rfl h (by omega) hc

theorem growPushAll_spec (ys : List α) : ∀ {a : GrowArr α} {xs : List α}, GrowHolds a xs → Cheap a →
    (growPushAll ys a = .ub ∧ 715827875 < xs.length + ys.length) ∨
      ∃ a', growPushAll ys a = .ok a' ∧ GrowHolds a' (xs ++ ys) ∧ Cheap a' := by
  induction ys with
  | nil =>
    intro a xs h hc
    exact Or.inr ⟨a, rfl, by simpa using h, hc⟩
  | cons y ys ih =>
    intro a xs h hc
    rcases c109_push h hc y with ⟨e, -, hs⟩ | ⟨a1, e, h1, c1⟩
    · left
      rw [growPushAll, e]
      refine ⟨rfl, ?_⟩
      have := h.size
      simp only [List.length_cons]
      omega
    · rw [growPushAll, e, Res.ok_bind]
      rcases ih h1 c1 with ⟨e2, hs⟩ | ⟨a2, e2, h2, c2⟩
      · left
        refine ⟨e2, ?_⟩
        simp only [List.length_append, List.length_cons, List.length_nil] at hs ⊢
        omega
      · right
        refine ⟨a2, e2, ?_, c2⟩
        rw [List.append_assoc] at h2
        exact h2

/-- Up to 715827875 elements can be added to an empty array one after the other. They are all there in their order, the
array has room for at most one and a half times as many and twelve more, all calls of `realloc` together moved at most
three elements per element and 24 more, and their number grows with the logarithm of the number of elements. -/
theorem c109_pushes_partial (xs : List α) (hn : xs.length ≤ 715827875) :
    ∃ a, growPushAll xs growNew = .ok a ∧ a.size = xs.length ∧
      (∀ (i : Nat) (x : α), xs[i]? = some x → a.elems[i]? = some (some x)) ∧ a.elems.length = a.capacity ∧
      2 * a.capacity ≤ 3 * (xs.length + 8) ∧ a.moved ≤ 3 * xs.length + 24 ∧
      46 * 3 ^ a.calls ≤ 2 ^ a.calls * (3 * xs.length + 70) := by
  rcases growPushAll_spec xs growNew_holds growNew_cheap with ⟨-, hs⟩ | ⟨a, e, h, c⟩
  · simp only [List.length_nil] at hs
    omega
  · rw [List.nil_append] at h
    have h1 := c.moved
    have h2 := c.room
    have h3 := c.calls
    have h4 := h.size
    refine ⟨a, e, h.size, h.elems, h.length, by omega, by omega, ?_⟩
    have h5 : 2 * (a.capacity + 23) ≤ 3 * xs.length + 70 := by omega
    calc 46 * 3 ^ a.calls = 2 * (23 * 3 ^ a.calls) := by omega
      _ ≤ 2 * (2 ^ a.calls * (a.capacity + 23)) := Nat.mul_le_mul_left _ h3
      _ = 2 ^ a.calls * (2 * (a.capacity + 23)) := by rw [← Nat.mul_assoc, Nat.mul_comm 2, Nat.mul_assoc]
      _ ≤ 2 ^ a.calls * (3 * xs.length + 70) := Nat.mul_le_mul_left _ h5

/-- Half of the values of type `int` cannot be reached: adding more elements always ends in an overflow. -/
theorem c109_pushes_overflow (xs : List α) (hn : 1073741823 < xs.length) : growPushAll xs growNew = .ub := by
  rcases growPushAll_spec xs growNew_holds growNew_cheap with ⟨e, -⟩ | ⟨a, -, h, c⟩
  · exact e
  · have := h.size
    have := h.room
    have := c.top
    simp only [List.nil_append] at *
    omega

end

example : ∃ a, growPushAll (List.range 40) growNew = .ok a ∧ a.capacity = 57 ∧ a.moved = 42 ∧ a.calls = 3 := by
  refine ⟨_, rfl, ?_⟩
  decide +kernel

example (n : Nat) : ∃ xs : List Unit, n < xs.length := ⟨List.replicate (n + 1) (), by simp⟩

/-- A `malloc` that meets its contract. -/
example : MallocOk (fun sz => if sz ≤ 100 then some (List.replicate sz 7) else none) := by
  intro sz b hb
  simp only at hb
  split at hb
  · obtain rfl := Option.some.inj hb
    simp
  · cases hb

example : nxXcalloc (fun sz => if sz ≤ 100 then some (List.replicate sz 7) else none) 2 2 = .ok (some [0, 0, 0, 0]) := by
  decide +kernel

example : nxNew (fun sz => if sz ≤ 100 then some (List.replicate sz 7) else none) 2 1 = .ok (some [7, 7]) := by
  decide +kernel

example : nxNew (fun sz => if sz ≤ 100 then some (List.replicate sz 7) else none) (-1) 4 = .fatal := by
  decide +kernel

end Nx
