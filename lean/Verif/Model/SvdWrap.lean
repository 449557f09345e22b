import Verif.Model.Ledger
import Verif.Model.FastThreshold

/-!
# Model of the calls of LAPACK for the singular value decomposition, `src/nx_svd.c`

`sgesvd_` and `dgesvd_` are not part of the code: their checks of the arguments and the elements they access are those of the
documentation of LAPACK 3, what they compute is a parameter. The two halves of the file are the same text for `float` and `double`.
A pointer is the block from there to its end, or `NULL`.
-/

namespace Nx

variable {K : Type}

/-- What a call computes: `info` and the elements of the arrays by row and column. -/
structure GesvdOut (K : Type) where
  info : Int
  A : Nat → Nat → K
  S : Nat → K
  U : Nat → Nat → K
  Vt : Nat → Nat → K

/-- The library: the least size of the work array, the size that a query returns (in a number) and the results. -/
structure Lapack (K : Type) where
  minWork : Char → Char → Nat → Nat → Nat
  optWork : Char → Char → Nat → Nat → Nat
  run : Char → Char → Nat → Nat → (Nat → Nat → Option K) → GesvdOut K

/-- The arrays of a call. -/
structure SvdBufs (K : Type) where
  A : Option (List K)
  S : Option (List K)
  U : Option (List K)
  Vt : Option (List K)
deriving DecidableEq, Repr

/-- The checks of the arguments (only the jobs `A` and `N` are used): `info`, zero if there is nothing to object to. -/
def gesvdArgs (L : Lapack K) (jobU jobVt : Char) (m n ldA ldU ldVt lwork : Int) : Int :=
  if m < 0 then -3
  else if n < 0 then -4
  else if ldA < max 1 m then -6
  else if ldU < 1 ∨ (jobU = 'A' ∧ ldU < m) then -9
  else if ldVt < 1 ∨ (jobVt = 'A' ∧ ldVt < n) then -11
  else if lwork < L.minWork jobU jobVt m.toNat n.toNat ∧ lwork ≠ -1 then -13
  else 0

/-- There is room for a matrix of the size stored by columns. -/
def matRoom (b : Option (List K)) (rows cols ld : Nat) : Bool :=
  match b with
  | none => false
  | some l => decide (ld * (cols - 1) + rows ≤ l.length)

/-- The element of a matrix stored by columns. -/
def matAt (b : Option (List K)) (ld i j : Nat) : Option K :=
  match b with
  | none => none
  | some l => l[ld * j + i]?

/-- Storing a matrix by columns: the elements between the columns stay. -/
def matStore (b : Option (List K)) (rows cols ld : Nat) (f : Nat → Nat → K) : Option (List K) :=
  match b with
  | none => none
  | some l => some (l.mapIdx (fun k x => if k % ld < rows ∧ k / ld < cols then f (k % ld) (k / ld) else x))

/-- `?gesvd_` with a work array of `room` elements, not as a query. -/
def gesvdRun (L : Lapack K) (jobU jobVt : Char) (m n : Int) (b : SvdBufs K) (ldA ldU ldVt : Int) (room : Nat) (lwork : Int) :
    Res (Int × SvdBufs K) :=
  let info := gesvdArgs L jobU jobVt m n ldA ldU ldVt lwork
  if info ≠ 0 then .ok (info, b)
  else
    let mm := m.toNat
    let nn := n.toNat
    if matRoom b.A mm nn ldA.toNat ∧ matRoom b.S (min mm nn) 1 (min mm nn) ∧ (jobU = 'A' → matRoom b.U mm mm ldU.toNat = true) ∧
        (jobVt = 'A' → matRoom b.Vt nn nn ldVt.toNat = true) ∧ lwork ≤ room then
      let r := L.run jobU jobVt mm nn (matAt b.A ldA.toNat)
      .ok (r.info, ⟨matStore b.A mm nn ldA.toNat r.A, matStore b.S (min mm nn) 1 (min mm nn) (fun i _ => r.S i),
        if jobU = 'A' then matStore b.U mm mm ldU.toNat r.U else b.U, if jobVt = 'A' then matStore b.Vt nn nn ldVt.toNat r.Vt else b.Vt⟩)
    else .ub

/-- `nx_sgesvd_query_lwork`, `src/nx_svd.c:50-72`, and `nx_dgesvd_query_lwork`, `src/nx_svd.c:119-141`: a query accesses no array but
`work`, and the leading dimensions are not those of the caller. -/
def gesvdQuery (L : Lapack K) (jobU jobVt : Char) (m n : Int) : Res Int :=
  if gesvdArgs L jobU jobVt m n m m n (-1) ≠ 0 then .fatal
  else
    let w : Int := L.optWork jobU jobVt m.toNat n.toNat
    if InI32 w then .ok w else .ub

/-- `nx_ssvd`, `src/nx_svd.c:74-84`, and `nx_dsvd`, `src/nx_svd.c:143-153`: `info` of the second call is not looked at. -/
def nxSvd (L : Lapack K) (jobU jobVt : Char) (m n : Int) (b : SvdBufs K) (ldA ldU ldVt : Int) (σ : Mem) : Res (SvdBufs K × Mem) := do
  let lwork ← gesvdQuery L jobU jobVt m n
  let w := memAlloc σ
  let r ← gesvdRun L jobU jobVt m n b ldA ldU ldVt lwork.toNat lwork
  let σ ← memFree w.1 (some w.2)
  pure (r.2, σ)

/-- `nx_ssvd_only_s`, `src/nx_svd.c:86-91`, and `nx_dsvd_only_s`, `src/nx_svd.c:155-160`. -/
def svdOnlyS (L : Lapack K) (S : List K) (m n : Int) (A : List K) (ldA : Int) (σ : Mem) : Res (SvdBufs K × Mem) :=
  nxSvd L 'N' 'N' m n ⟨some A, some S, none, none⟩ ldA m n σ

/-- `nx_ssvd_us`, `src/nx_svd.c:93-98`, and `nx_dsvd_us`, `src/nx_svd.c:162-167`. -/
def svdUs (L : Lapack K) (U : List K) (ldU : Int) (S : List K) (m n : Int) (A : List K) (ldA : Int) (σ : Mem) : Res (SvdBufs K × Mem) :=
  nxSvd L 'A' 'N' m n ⟨some A, some S, some U, none⟩ ldA ldU n σ

/-- `nx_ssvd_svt`, `src/nx_svd.c:100-105`, and `nx_dsvd_svt`, `src/nx_svd.c:169-174`. -/
def svdSvt (L : Lapack K) (S : List K) (Vt : List K) (ldVt : Int) (m n : Int) (A : List K) (ldA : Int) (σ : Mem) :
    Res (SvdBufs K × Mem) :=
  nxSvd L 'N' 'A' m n ⟨some A, some S, none, some Vt⟩ ldA m ldVt σ

/-- `nx_ssvd_usvt`, `src/nx_svd.c:107-112`, and `nx_dsvd_usvt`, `src/nx_svd.c:176-181`. -/
def svdUsvt (L : Lapack K) (U : List K) (ldU : Int) (S : List K) (Vt : List K) (ldVt : Int) (m n : Int) (A : List K) (ldA : Int)
    (σ : Mem) : Res (SvdBufs K × Mem) :=
  nxSvd L 'A' 'A' m n ⟨some A, some S, some U, some Vt⟩ ldA ldU ldVt σ

/-- The calls with nine rows, `nx_homography_svd_solve`, `src/nx_homography.c:200-202`, and `nx_fundamental_svd_solve`,
`src/nx_epipolar.c:77-79`: `U` and `S` are arrays on the stack. -/
def svdNine (L : Lapack K) (U S : List K) (n : Int) (A : List K) (σ : Mem) : Res (SvdBufs K × Mem) := svdUs L U 9 S 9 n A 9 σ

/-- The call with four rows, `src/nx_pinhole.c:152`. -/
def svdFour (L : Lapack K) (U S A : List K) (σ : Mem) : Res (SvdBufs K × Mem) := svdUs L U 4 S 4 4 A 4 σ

/-- The calls with three rows, `nx_fundamental_fix_rank`, `src/nx_epipolar.c:98-101`, and `nx_dmat3_svd`,
`include/virg/nexus/nx_mat234.h:299-303`. -/
def svdThree (L : Lapack K) (U S Vt A : List K) (σ : Mem) : Res (SvdBufs K × Mem) := svdUsvt L U 3 S Vt 3 3 3 A 3 σ

end Nx
