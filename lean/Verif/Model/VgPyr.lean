import Verif.Core

/-!
# Model of the C++ pyramids: `src/vg_image_pyr.cc`, `include/virg/nexus/vg_image_pyr.hpp`

The memory: images, pyramids and builders that are allocated, variables of type `VGImagePyr` and handles of levels. A variable is a
pair of `std::shared_ptr`; each object is in one group of them, so that it goes when it is in no variable any more. The pixels, and
the images that are refused because of their types or sizes, are in C81 and C138; here an image can be used if it is allocated. Images
that the user owns are taken to be usable.
-/

namespace Nx

/-- Objects are named by the order of their allocation. -/
structure VpWorld where
  /-- whether an image that was allocated still is -/
  imgs : List Bool
  /-- the images of the levels, `struct NXImagePyr`, `include/virg/nexus/nx_image_pyr.h:42-46`; `levels` is null if there are none -/
  pyrs : List (Option (List Nat))
  /-- `pyr_info.n_levels`, 0 for the type `NX_IMAGE_PYR_BUILDER_NONE`, and `work_img`, `include/virg/nexus/nx_image_pyr_builder.h:55-60` -/
  blds : List (Option (Nat × Nat))
  /-- `m_pyr` and `m_builder`, `include/virg/nexus/vg_image_pyr.hpp:68-69`; `none` after the destructor -/
  vars : List (Option (Nat × Nat))
  /-- images of the handles made by `operator[]` -/
  lvls : List Nat
deriving DecidableEq, Repr

/-- An image that is read or written. -/
def vpTouch (w : VpWorld) (i : Nat) : Res Unit :=
  match w.imgs[i]? with
  | some true => .ok ()
  | _ => .ub

/-- An image given to a call: one of the user, or that of a handle of a level. -/
inductive VpSrc where
  | other
  | lvl (l : Nat)
deriving DecidableEq, Repr

def vpSrc (w : VpWorld) : VpSrc → Res Unit
  | .other => .ok ()
  | .lvl l => do
    let i ← readAt w.lvls l
    vpTouch w i

/-- `nx_image_free` for each image of a list, `src/nx_image.c:110-116`. -/
def vpFreeAll : List Bool → List Nat → Res (List Bool)
  | m, [] => .ok m
  | m, i :: is =>
    match m[i]? with
    | some true => vpFreeAll (m.set i false) is
    | _ => .ub

def vpLevels (w : VpWorld) (p : Nat) : Res (List Nat) :=
  match w.pyrs[p]? with
  | some (some l) => .ok l
  | _ => .ub

def vpBld (w : VpWorld) (b : Nat) : Res (Nat × Nat) :=
  match w.blds[b]? with
  | some (some x) => .ok x
  | _ => .ub

def vpVar (w : VpWorld) (v : Nat) : Res (Nat × Nat) :=
  match w.vars[v]? with
  | some (some x) => .ok x
  | _ => .ub

/-- `nx_image_pyr_alloc`, `src/nx_image_pyr.c:36-44`. -/
def vpNew (w : VpWorld) : VpWorld := { w with pyrs := w.pyrs ++ [some []] }

/-- `nx_image_pyr_builder_alloc` and `nx_image_pyr_builder_new_*`, `src/nx_image_pyr_builder.c:45-85`. -/
def vpBldNew (w : VpWorld) (n : Nat) : VpWorld :=
  { w with imgs := w.imgs ++ [true], blds := w.blds ++ [some (n, w.imgs.length)] }

/-- `nx_image_pyr_free_levels`, `src/nx_image_pyr.c:71-82`. -/
def vpFreeLevels (w : VpWorld) (p : Nat) : Res VpWorld := do
  let l ← vpLevels w p
  let m ← vpFreeAll w.imgs l
  pure { w with imgs := m, pyrs := w.pyrs.set p (some []) }

/-- `nx_image_pyr_free`, `src/nx_image_pyr.c:46-52`. -/
def vpFree (w : VpWorld) (p : Nat) : Res VpWorld := do
  let w ← vpFreeLevels w p
  pure { w with pyrs := w.pyrs.set p none }

/-- `nx_image_pyr_builder_free`, `src/nx_image_pyr_builder.c:87-93`. -/
def vpBldFree (w : VpWorld) (b : Nat) : Res VpWorld := do
  let x ← vpBld w b
  let m ← vpFreeAll w.imgs [x.2]
  pure { w with imgs := m, blds := w.blds.set b none }

/-- `src/nx_image_pyr.c:62-66`. -/
def vpNewLevels (w : VpWorld) (p n : Nat) : VpWorld :=
  { w with imgs := w.imgs ++ List.replicate n true, pyrs := w.pyrs.set p (some (List.range' w.imgs.length n)) }

/-- `nx_image_pyr_alloc_levels`, `src/nx_image_pyr.c:54-68`. -/
def vpAllocLevels (w : VpWorld) (p n : Nat) : Res VpWorld :=
  if n = 0 then .fatal
  else do
    let l ← vpLevels w p
    if l.length = n then pure w
    else do
      let w ← vpFreeLevels w p
      pure (vpNewLevels w p n)

/-- Uses of several images. -/
def vpTouchAll (w : VpWorld) : List Nat → Res Unit
  | [] => .ok ()
  | i :: is => do
    vpTouch w i
    vpTouchAll w is

/-- `nx_image_pyr_builder_update`, `src/nx_image_pyr_builder.c:172-199`: it uses the levels and the image of the builder. -/
def vpUpdate (w : VpWorld) (p b : Nat) : Res Unit := do
  let x ← vpBld w b
  if x.1 = 0 then .fatal
  else do
    let l ← vpLevels w p
    if l.length ≠ x.1 then .fatal
    else vpTouchAll w (x.2 :: l)

/-- `nx_image_pyr_builder_build`, `src/nx_image_pyr_builder.c:159-170`: the image is used before and after the levels are allocated. -/
def vpBuild (w : VpWorld) (p b : Nat) (src : VpSrc) : Res VpWorld := do
  let x ← vpBld w b
  if x.1 = 0 then .fatal
  else do
    vpSrc w src
    let w ← vpAllocLevels w p x.1
    vpSrc w src
    vpUpdate w p b
    pure w

/-- Whether one of the variables holds a pyramid, and a builder. -/
def vpHolds (f : Nat × Nat → Nat) (vars : List (Option (Nat × Nat))) (q : Nat) : Bool :=
  vars.any fun o => match o with
    | some h => f h == q
    | none => false

/-- `std::shared_ptr` of a pyramid lets go. -/
def vpLet (w : VpWorld) (p : Nat) : Res VpWorld := if vpHolds (·.1) w.vars p then .ok w else vpFree w p

/-- `std::shared_ptr` of a builder lets go. -/
def vpBldLet (w : VpWorld) (b : Nat) : Res VpWorld := if vpHolds (·.2) w.vars b then .ok w else vpBldFree w b

/-- A variable gets another value (`none`: it is destroyed). -/
def vpPut (w : VpWorld) (v : Nat) (h : Option (Nat × Nat)) : Res VpWorld := do
  let old ← vpVar w v
  let w ← vpLet { w with vars := w.vars.set v h } old.1
  vpBldLet w old.2

/-- `VGImagePyr::VGImagePyr`, `src/vg_image_pyr.cc:33-36`. -/
def vpCtor (w : VpWorld) : VpWorld :=
  let w' := vpBldNew (vpNew w) 0
  { w' with vars := w'.vars ++ [some (w.pyrs.length, w.blds.length)] }

/-- `VGImagePyr::build_fast_from` and the others, `src/vg_image_pyr.cc:53-93`, for a builder of `n` levels. -/
def vpBuildFrom (w : VpWorld) (n : Nat) (src : VpSrc) : Res VpWorld :=
  if n = 0 then .fatal
  else do
    let v := w.vars.length
    let w := vpBldNew (vpCtor w) n
    let h ← vpVar w v
    let b := w.blds.length - 1
    let w ← vpPut w v (some (h.1, b))
    let w := vpNew w
    let p := w.pyrs.length - 1
    let w ← vpBuild w p b src
    vpPut w v (some (p, b))

/-- Calls of the user; variables and handles are named by the order of their creation. -/
inductive VpOp where
  /-- `VGImagePyr()` -/
  | ctor
  /-- `VGImagePyr::build_*_from(image, …)` -/
  | build (n : Nat) (src : VpSrc)
  /-- the implicit copy constructor -/
  | copy (s : Nat)
  /-- the implicit assignment -/
  | assign (v s : Nat)
  /-- the destructor -/
  | drop (v : Nat)
  | rebuild (v : Nat)
  | rebuildFrom (v : Nat) (src : VpSrc)
  /-- `operator[]` -/
  | level (v : Nat) (i : Int)
  /-- any use of a handle of a level -/
  | use (l : Nat)
  /-- `nx_image_pyr_alloc_levels(v.nx_pyr(), n)` -/
  | allocLevels (v n : Nat)
deriving DecidableEq, Repr

/-- One call. `operator[]`, `include/virg/nexus/vg_image_pyr.hpp:62-63`, does not test the index. -/
def vpStep (w : VpWorld) : VpOp → Res VpWorld
  | .ctor => .ok (vpCtor w)
  | .build n src => vpBuildFrom w n src
  | .copy s => do
    let h ← vpVar w s
    pure { w with vars := w.vars ++ [some h] }
  | .assign v s => do
    let h ← vpVar w s
    vpPut w v (some h)
  | .drop v => vpPut w v none
  | .rebuild v => do
    let h ← vpVar w v
    vpUpdate w h.1 h.2
    pure w
  | .rebuildFrom v src => do
    let h ← vpVar w v
    vpBuild w h.1 h.2 src
  | .level v i => do
    let h ← vpVar w v
    let l ← vpLevels w h.1
    if 0 ≤ i then do
      let k ← readAt l i.toNat
      pure { w with lvls := w.lvls ++ [k] }
    else .ub
  | .use l => do
    vpSrc w (.lvl l)
    pure w
  | .allocLevels v n => do
    let h ← vpVar w v
    vpAllocLevels w h.1 n

/-- A program. -/
def vpRun : VpWorld → List VpOp → Res VpWorld
  | w, [] => .ok w
  | w, o :: os => do
    let w ← vpStep w o
    vpRun w os

/-- The start of the program. -/
def vpStart : VpWorld := ⟨[], [], [], [], []⟩

end Nx
