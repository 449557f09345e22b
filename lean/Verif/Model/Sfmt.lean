import Verif.Model.Sample

/-!
# Model of the random number generator, `src/SFMT/SFMT.c`, `src/SFMT/SFMT.h`, `src/SFMT/SFMT-common.h`

The portable code for little-endian machines (`HAVE_SSE2`, `HAVE_ALTIVEC`, `HAVE_NEON`, `ONLY64` not defined,
`idxof` the identity) with the parameters of `src/SFMT/SFMT-params19937.h`. `assert` that fails is `fatal`.
-/

namespace Nx

/-- `union W128_T`, `src/SFMT/SFMT.h:125-128`, as its array `u`. -/
structure W128 where
  u0 : BitVec 32
  u1 : BitVec 32
  u2 : BitVec 32
  u3 : BitVec 32
deriving DecidableEq, Repr

/-- `SFMT_N`, `src/SFMT/SFMT-params.h:55`. -/
def sfmtN : Nat := 19937 / 128 + 1

/-- `SFMT_N32`, `src/SFMT/SFMT-params.h:58`. -/
def sfmtN32 : Nat := sfmtN * 4

/-- `SFMT_POS1`, `src/SFMT/SFMT-params19937.h:30`. -/
def sfmtPos1 : Nat := 122

/-- `struct SFMT_T`, `src/SFMT/SFMT.h:137-142`. -/
structure Sfmt where
  state : List W128
  idx : Nat
deriving DecidableEq, Repr

/-- The two halves of a 128 bit word, `src/SFMT/SFMT-common.h:85-86, 125-126`. -/
def W128.th (a : W128) : BitVec 64 := (a.u3.setWidth 64 <<< 32) ||| a.u2.setWidth 64
def W128.tl (a : W128) : BitVec 64 := (a.u1.setWidth 64 <<< 32) ||| a.u0.setWidth 64

/-- The stores at the end of the two shifts, `src/SFMT/SFMT-common.h:91-94, 131-134`. -/
def W128.ofHalves (oh ol : BitVec 64) : W128 :=
  ⟨ol.setWidth 32, (ol >>> 32).setWidth 32, oh.setWidth 32, (oh >>> 32).setWidth 32⟩

/-- `rshift128`, `src/SFMT/SFMT-common.h:81-95`. -/
def rshift128 (a : W128) (shift : Nat) : W128 :=
  let oh := a.th >>> (shift * 8)
  let ol := a.tl >>> (shift * 8)
  let ol := ol ||| (a.th <<< (64 - shift * 8))
  W128.ofHalves oh ol

/-- `lshift128`, `src/SFMT/SFMT-common.h:121-135`. -/
def lshift128 (a : W128) (shift : Nat) : W128 :=
  let oh := a.th <<< (shift * 8)
  let ol := a.tl <<< (shift * 8)
  let oh := oh ||| (a.tl >>> (64 - shift * 8))
  W128.ofHalves oh ol

/-- `do_recursion`, `src/SFMT/SFMT-common.h:163-180`, with `SFMT_SL1` = 18, `SFMT_SL2` = 1, `SFMT_SR1` = 11, `SFMT_SR2` = 1 and
the masks of `src/SFMT/SFMT-params19937.h:35-38`. -/
def doRecursion (a b c d : W128) : W128 :=
  let x := lshift128 a 1
  let y := rshift128 c 1
  { u0 := a.u0 ^^^ x.u0 ^^^ ((b.u0 >>> 11) &&& 0xdfffffef#32) ^^^ y.u0 ^^^ (d.u0 <<< 18)
    u1 := a.u1 ^^^ x.u1 ^^^ ((b.u1 >>> 11) &&& 0xddfecb7f#32) ^^^ y.u1 ^^^ (d.u1 <<< 18)
    u2 := a.u2 ^^^ x.u2 ^^^ ((b.u2 >>> 11) &&& 0xbffaffff#32) ^^^ y.u2 ^^^ (d.u2 <<< 18)
    u3 := a.u3 ^^^ x.u3 ^^^ ((b.u3 >>> 11) &&& 0xbffffff6#32) ^^^ y.u3 ^^^ (d.u3 <<< 18) }

/-- The variables of the loops of `sfmt_gen_rand_all`: the array and the indices to which `r1` and `r2` point. -/
structure GenAll where
  state : List W128
  r1 : Nat
  r2 : Nat

/-- The body of both loops of `sfmt_gen_rand_all`, `src/SFMT/SFMT.c:271-274` and `:277-280`; `k` is the index of the second
argument. -/
def genAllBody (k : Nat → Nat) (i : Nat) (s : GenAll) : Res GenAll := do
  let a ← readAt s.state i
  let b ← readAt s.state (k i)
  let c ← readAt s.state s.r1
  let d ← readAt s.state s.r2
  let st ← writeAt s.state i (doRecursion a b c d)
  pure ⟨st, s.r2, i⟩

/-- `sfmt_gen_rand_all`, `src/SFMT/SFMT.c:264-282`. -/
def genRandAll (state : List W128) : Res (List W128) := do
  let s ← forLoop (sfmtN - sfmtPos1) (genAllBody fun i => i + sfmtPos1) 0 ⟨state, sfmtN - 2, sfmtN - 1⟩
  let s ← forLoop sfmtN (genAllBody fun i => i + sfmtPos1 - sfmtN) (sfmtN - sfmtPos1) s
  pure s.state

/-- A pointer to a 128 bit word: into the state or into the array to be filled. -/
inductive WPtr where
  | st (i : Nat)
  | arr (i : Nat)

/-- The variables of the loops of `gen_rand_array`. -/
structure GenArr where
  state : List W128
  array : List W128
  r1 : WPtr
  r2 : WPtr

/-- Reading through a pointer. -/
def GenArr.read (s : GenArr) : WPtr → Res W128
  | .st i => readAt s.state i
  | .arr i => readAt s.array i

/-- The body of the first three loops of `gen_rand_array`, `src/SFMT/SFMT.c:121-123`, `:126-129`, `:132-135`; `pa` and `pb`
are the second and third argument of `do_recursion`. -/
def genArrBody (pa pb : Nat → WPtr) (i : Nat) (s : GenArr) : Res GenArr := do
  let a ← s.read (pa i)
  let b ← s.read (pb i)
  let c ← s.read s.r1
  let d ← s.read s.r2
  let arr ← writeAt s.array i (doRecursion a b c d)
  pure { s with array := arr, r1 := s.r2, r2 := .arr i }

/-- The body of the fourth loop, `src/SFMT/SFMT.c:138`. -/
def genArrCopy (size : Nat) (j : Nat) (s : GenArr) : Res GenArr := do
  let x ← readAt s.array (j + size - sfmtN)
  let st ← writeAt s.state j x
  pure { s with state := st }

/-- The body of the last loop, `src/SFMT/SFMT.c:141-145`; `j` has its value for the start of the loop plus the number of
iterations. -/
def genArrLast (i0 j0 : Nat) (i : Nat) (s : GenArr) : Res GenArr := do
  let s ← genArrBody (fun i => .arr (i - sfmtN)) (fun i => .arr (i + sfmtPos1 - sfmtN)) i s
  let x ← readAt s.array i
  let st ← writeAt s.state (j0 + (i - i0)) x
  pure { s with state := st }

/-- `gen_rand_array`, `src/SFMT/SFMT.c:114-147`, for an array of `size` words that has at least `SFMT_N` (asserted by the
callers): the state and the array afterwards. -/
def genRandArray (state array : List W128) (size : Nat) : Res (List W128 × List W128) := do
  let s ← forLoop (sfmtN - sfmtPos1) (genArrBody .st fun i => .st (i + sfmtPos1)) 0
    ⟨state, array, .st (sfmtN - 2), .st (sfmtN - 1)⟩
  let s ← forLoop sfmtN (genArrBody .st fun i => .arr (i + sfmtPos1 - sfmtN)) (sfmtN - sfmtPos1) s
  let s ← forLoop (size - sfmtN) (genArrBody (fun i => .arr (i - sfmtN)) fun i => .arr (i + sfmtPos1 - sfmtN)) sfmtN s
  let i := max sfmtN (size - sfmtN)
  let s ← forLoop (2 * sfmtN - size) (genArrCopy size) 0 s
  let j := 2 * sfmtN - size
  let s ← forLoop size (genArrLast i j) i s
  pure (s.state, s.array)

/-- Reading the state as an array of 32 bit words, e.g. `src/SFMT/SFMT.h:170`. -/
def readWord (state : List W128) (i : Nat) : Res (BitVec 32) := do
  let w ← readAt state (i / 4)
  pure (if i % 4 = 0 then w.u0 else if i % 4 = 1 then w.u1 else if i % 4 = 2 then w.u2 else w.u3)

/-- Writing a 32 bit word of the state. -/
def writeWord (state : List W128) (i : Nat) (x : BitVec 32) : Res (List W128) := do
  let w ← readAt state (i / 4)
  writeAt state (i / 4) (if i % 4 = 0 then { w with u0 := x } else if i % 4 = 1 then { w with u1 := x }
    else if i % 4 = 2 then { w with u2 := x } else { w with u3 := x })

/-- `if (sfmt->idx >= SFMT_N32) { … }`, `src/SFMT/SFMT.h:166-169`. -/
def refill (g : Sfmt) : Res Sfmt :=
  if g.idx ≥ sfmtN32 then do
    let st ← genRandAll g.state
    pure ⟨st, 0⟩
  else .ok g

/-- `sfmt_genrand_uint32`, `src/SFMT/SFMT.h:162-172`. -/
def genrand32 (g : Sfmt) : Res (BitVec 32 × Sfmt) := do
  let g ← refill g
  let r ← readWord g.state g.idx
  pure (r, { g with idx := g.idx + 1 })

/-- `sfmt_genrand_uint64`, `src/SFMT/SFMT.h:182-206`. -/
def genrand64 (g : Sfmt) : Res (BitVec 64 × Sfmt) :=
  if g.idx % 2 ≠ 0 then .fatal
  else do
    let g ← refill g
    let lo ← readWord g.state g.idx
    let hi ← readWord g.state (g.idx + 1)
    pure ((hi ++ lo : BitVec 64), { g with idx := g.idx + 2 })

/-- `sfmt_fill_array32`, `src/SFMT/SFMT.c:312-319`, for an array of `size / 4` words of 128 bits; `sfmt_fill_array64` differs only
in the unit of the size. -/
def fillArray32 (g : Sfmt) (array : List W128) (size : Nat) : Res (List W128 × Sfmt) :=
  if g.idx = sfmtN32 ∧ size % 4 = 0 ∧ size ≥ sfmtN32 then do
    let r ← genRandArray g.state array (size / 4)
    pure (r.2, ⟨r.1, sfmtN32⟩)
  else .fatal

/-- The array `parity`, `src/SFMT/SFMT.c:194-195` and `src/SFMT/SFMT-params19937.h:39-42`. -/
def sfmtParity : List (BitVec 32) := [0x00000001#32, 0x00000000#32, 0x00000000#32, 0x13c9e684#32]

/-- The loops that compute `inner`, `src/SFMT/SFMT.c:197-203`, from the first word of the state. -/
def parityInner (w : W128) : BitVec 32 :=
  let inner := 0 ^^^ (w.u0 &&& 0x00000001#32) ^^^ (w.u1 &&& 0x00000000#32) ^^^ (w.u2 &&& 0x00000000#32)
    ^^^ (w.u3 &&& 0x13c9e684#32)
  let inner := [16, 8, 4, 2, 1].foldl (fun x i => x ^^^ (x >>> i)) inner
  inner &&& 1

/-- The loop over `j`, `src/SFMT/SFMT.c:211-217`, for `k` remaining steps: the first power of two in the parity vector. -/
def findBit (parity : BitVec 32) : Nat → BitVec 32 → Option (BitVec 32)
  | 0, _ => none
  | k + 1, work => if work &&& parity ≠ 0 then some work else findBit parity k (work <<< 1)

/-- The loop over `i`, `src/SFMT/SFMT.c:209-218`. -/
def flipLoop : List (BitVec 32) → Nat → List W128 → Res (List W128)
  | [], _, state => .ok state
  | p :: ps, i, state =>
    match findBit p 32 1 with
    | some work => do
      let x ← readWord state i
      writeWord state i (x ^^^ work)
    | none => flipLoop ps (i + 1) state

/-- `period_certification`, `src/SFMT/SFMT.c:189-219`. -/
def periodCertification (state : List W128) : Res (List W128) := do
  let w ← readAt state 0
  if parityInner w = 1 then pure state else flipLoop sfmtParity 0 state

/-- The body of the loop of `sfmt_init_gen_rand`, `src/SFMT/SFMT.c:375-377`. -/
def initBody (i : Nat) (state : List W128) : Res (List W128) := do
  let p ← readWord state (i - 1)
  writeWord state i (1812433253#32 * (p ^^^ (p >>> 30)) + BitVec.ofNat 32 i)

/-- `sfmt_init_gen_rand`, `src/SFMT/SFMT.c:368-381`; `state` is the old content of the array. The product is computed with
`unsigned long` and reduced. -/
def initGenRand (state : List W128) (seed : BitVec 32) : Res Sfmt := do
  let st ← writeWord state 0 seed
  let st ← forLoop sfmtN32 initBody 1 st
  let st ← periodCertification st
  pure ⟨st, sfmtN32⟩

end Nx
