import Verif.Model.Sfmt

/-!
# Model of the SSE2 code of the random number generator, `src/SFMT/SFMT-sse2.h`

A register `__m128i` is a number of 128 bits; loads and stores of the member `si` of `w128_t` (`src/SFMT/SFMT.h:118-122`) use the
same bytes as the array `u`, little-endian. The state is aligned; the address of an array that is filled is a parameter, the loads
and stores of `si` need it to be a multiple of 16.
-/

namespace Nx

/-- A load of `si`. -/
def W128.si (a : W128) : BitVec 128 := a.u3 ++ a.u2 ++ a.u1 ++ a.u0

/-- A store to `si`. -/
def W128.ofSi (x : BitVec 128) : W128 :=
  ⟨x.extractLsb' 0 32, x.extractLsb' 32 32, x.extractLsb' 64 32, x.extractLsb' 96 32⟩

/-- `_mm_srli_epi32`: each of the four words is shifted. -/
def mmSrliEpi32 (x : BitVec 128) (n : Nat) : BitVec 128 :=
  (x.extractLsb' 96 32 >>> n) ++ (x.extractLsb' 64 32 >>> n) ++ (x.extractLsb' 32 32 >>> n) ++ (x.extractLsb' 0 32 >>> n)

/-- `_mm_slli_epi32`. -/
def mmSlliEpi32 (x : BitVec 128) (n : Nat) : BitVec 128 :=
  (x.extractLsb' 96 32 <<< n) ++ (x.extractLsb' 64 32 <<< n) ++ (x.extractLsb' 32 32 <<< n) ++ (x.extractLsb' 0 32 <<< n)

/-- `_mm_srli_si128`: a shift by bytes. -/
def mmSrliSi128 (x : BitVec 128) (n : Nat) : BitVec 128 := x >>> (8 * n)

/-- `_mm_slli_si128`. -/
def mmSlliSi128 (x : BitVec 128) (n : Nat) : BitVec 128 := x <<< (8 * n)

/-- `sse2_param_mask`, `src/SFMT/SFMT.c:79-80`. -/
def sseMask : W128 := ⟨0xdfffffef#32, 0xddfecb7f#32, 0xbffaffff#32, 0xbffffff6#32⟩

/-- `mm_recursion`, `src/SFMT/SFMT-sse2.h:52-67`. -/
def mmRecursion (a b c d : BitVec 128) : BitVec 128 :=
  let y := mmSrliEpi32 b 11
  let z := mmSrliSi128 c 1
  let v := mmSlliEpi32 d 18
  let z := z ^^^ a
  let z := z ^^^ v
  let x := mmSlliSi128 a 1
  let y := y &&& sseMask.si
  let z := z ^^^ x
  let z := z ^^^ y
  z

/-- The variables of the loops of `sfmt_gen_rand_all`: the array and the registers. -/
structure SseAll where
  state : List W128
  r1 : BitVec 128
  r2 : BitVec 128

/-- The body of both loops of `sfmt_gen_rand_all`, `src/SFMT/SFMT-sse2.h:82-85` and `:88-92`. -/
def sseAllBody (k : Nat → Nat) (i : Nat) (s : SseAll) : Res SseAll := do
  let a ← readAt s.state i
  let b ← readAt s.state (k i)
  let st ← writeAt s.state i (W128.ofSi (mmRecursion a.si b.si s.r1 s.r2))
  let x ← readAt st i
  pure ⟨st, s.r2, x.si⟩

/-- `sfmt_gen_rand_all`, `src/SFMT/SFMT-sse2.h:74-94`. -/
def sseGenAll (state : List W128) : Res (List W128) := do
  let r1 ← readAt state (sfmtN - 2)
  let r2 ← readAt state (sfmtN - 1)
  let s ← forLoop (sfmtN - sfmtPos1) (sseAllBody fun i => i + sfmtPos1) 0 ⟨state, r1.si, r2.si⟩
  let s ← forLoop sfmtN (sseAllBody fun i => i + sfmtPos1 - sfmtN) (sfmtN - sfmtPos1) s
  pure s.state

/-- The variables of the loops of `gen_rand_array`. -/
structure SseArr where
  state : List W128
  array : List W128
  r1 : BitVec 128
  r2 : BitVec 128

/-- Reading through a pointer. -/
def SseArr.read (s : SseArr) : WPtr → Res W128
  | .st i => readAt s.state i
  | .arr i => readAt s.array i

/-- The body of the first three loops of `gen_rand_array`, `src/SFMT/SFMT-sse2.h:112-115`, `:118-121`, `:124-127`. -/
def sseArrBody (pa pb : Nat → WPtr) (i : Nat) (s : SseArr) : Res SseArr := do
  let a ← s.read (pa i)
  let b ← s.read (pb i)
  let arr ← writeAt s.array i (W128.ofSi (mmRecursion a.si b.si s.r1 s.r2))
  let x ← readAt arr i
  pure { s with array := arr, r1 := s.r2, r2 := x.si }

/-- The body of the fourth loop, `src/SFMT/SFMT-sse2.h:130`. -/
def sseArrCopy (size : Nat) (j : Nat) (s : SseArr) : Res SseArr := do
  let x ← readAt s.array (j + size - sfmtN)
  let st ← writeAt s.state j x
  pure { s with state := st }

/-- The body of the last loop, `src/SFMT/SFMT-sse2.h:133-137`. -/
def sseArrLast (i0 j0 : Nat) (i : Nat) (s : SseArr) : Res SseArr := do
  let s ← sseArrBody (fun i => .arr (i - sfmtN)) (fun i => .arr (i + sfmtPos1 - sfmtN)) i s
  let x ← readAt s.array i
  let st ← writeAt s.state (j0 + (i - i0)) x
  pure { s with state := st }

/-- `gen_rand_array`, `src/SFMT/SFMT-sse2.h:103-139`, for an array at the address `addr`. -/
def sseGenArray (addr : Nat) (state array : List W128) (size : Nat) : Res (List W128 × List W128) :=
  if addr % 16 ≠ 0 then .ub
  else do
    let r1 ← readAt state (sfmtN - 2)
    let r2 ← readAt state (sfmtN - 1)
    let s ← forLoop (sfmtN - sfmtPos1) (sseArrBody .st fun i => .st (i + sfmtPos1)) 0 ⟨state, array, r1.si, r2.si⟩
    let s ← forLoop sfmtN (sseArrBody .st fun i => .arr (i + sfmtPos1 - sfmtN)) (sfmtN - sfmtPos1) s
    let s ← forLoop (size - sfmtN) (sseArrBody (fun i => .arr (i - sfmtN)) fun i => .arr (i + sfmtPos1 - sfmtN)) sfmtN s
    let i := max sfmtN (size - sfmtN)
    let s ← forLoop (2 * sfmtN - size) (sseArrCopy size) 0 s
    let j := 2 * sfmtN - size
    let s ← forLoop size (sseArrLast i j) i s
    pure (s.state, s.array)

/-- `sfmt_fill_array32`, `src/SFMT/SFMT.c:312-319`, with the SSE2 code. -/
def sseFillArray32 (addr : Nat) (g : Sfmt) (array : List W128) (size : Nat) : Res (List W128 × Sfmt) :=
  if g.idx = sfmtN32 ∧ size % 4 = 0 ∧ size ≥ sfmtN32 then do
    let r ← sseGenArray addr g.state array (size / 4)
    pure (r.2, ⟨r.1, sfmtN32⟩)
  else .fatal

/-- `if (sfmt->idx >= SFMT_N32) { … }`, `src/SFMT/SFMT.h:166-169`, with the SSE2 code. -/
def sseRefill (g : Sfmt) : Res Sfmt :=
  if g.idx ≥ sfmtN32 then do
    let st ← sseGenAll g.state
    pure ⟨st, 0⟩
  else .ok g

/-- `sfmt_genrand_uint32`, `src/SFMT/SFMT.h:162-172`, with the SSE2 code. -/
def sseGenrand32 (g : Sfmt) : Res (BitVec 32 × Sfmt) := do
  let g ← sseRefill g
  let r ← readWord g.state g.idx
  pure (r, { g with idx := g.idx + 1 })

end Nx
