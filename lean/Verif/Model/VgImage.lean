import Verif.Model.ImageMem

/-!
# Model of the handles of images of the C++ interface, `src/vg_image.cc` and `include/virg/nexus/vg_image.hpp`

A `VGImage` has one member, a `std::shared_ptr` to a `struct NXImage`. Copying, assigning and destroying a `VGImage` is copying,
  assigning and
destroying this member, as no such functions are declared. Of `std::shared_ptr` the model has what the standard says: copies share a
group, and when the last one of a group goes its deleter is called. Image processing, loading and saving are left out.
-/

namespace Nx

/-- A `std::shared_ptr<struct NXImage>`: the image, the group and whether the deleter is `nx_image_free` (or the function that does nothing,
`src/vg_image.cc:108`). -/
structure VgHandle where
  img : Nat
  grp : Nat
  own : Bool
deriving DecidableEq, Repr

/-- The images, the number of groups so far and the variables of type `VGImage` (`none` = destroyed). -/
structure VgWorld where
  im : IWorld
  grps : Nat
  vars : List (Option VgHandle)
deriving DecidableEq, Repr

/-- The handle in a variable; using a destroyed variable is undefined. -/
def varAt (w : VgWorld) (v : Nat) : Res VgHandle :=
  match w.vars[v]? with
  | some (some h) => .ok h
  | _ => .ub

/-- A `std::shared_ptr` that is in no variable any more goes. -/
def varRelease (w : VgWorld) (h : VgHandle) : Res VgWorld :=
  if h.own = true ∧ ¬ ∃ x ∈ w.vars, ∃ h' ∈ x, h'.grp = h.grp then do
    let im ← imFree w.im h.img
    pure { w with im := im }
  else .ok w

/-- A variable gets another handle (`none`: it is destroyed). -/
def varPut (w : VgWorld) (v : Nat) (h : Option VgHandle) : Res VgWorld := do
  let old ← varAt w v
  varRelease { w with vars := w.vars.set v h } old

/-- A new variable. -/
def varNew (w : VgWorld) (h : VgHandle) : VgWorld := { w with vars := w.vars ++ [some h] }

/-- Calls of the user; variables are named by the order of their creation, images also. -/
inductive VgOp where
  /-- `VGImage()` -/
  | ctor
  /-- `VGImage(img, own)` -/
  | ctorWrap (i : Nat) (own : Bool)
  /-- the implicit copy constructor -/
  | copyCtor (s : Nat)
  /-- the implicit assignment -/
  | assign (v s : Nat)
  | swapWith (v s : Nat)
  /-- `wrap(img, own)` -/
  | wrapImg (v i : Nat) (own : Bool)
  /-- `wrap<T>(data, …)` -/
  | wrapData (v : Nat) (data : Bytes) (wd ht st : Nat) (rgba float own : Bool)
  | create (v : Nat) (wd ht st : Int) (rgba float : Bool)
  | createLike (v s : Nat)
  | copyOf (v s : Nat)
  | clone (s : Nat)
  | release (v : Nat)
  | setZero (v : Nat)
  /-- the destructor -/
  | drop (v : Nat)
  /-- a call of a C function -/
  | c (op : IOp)
deriving DecidableEq, Repr

/-- `VGImage::VGImage`, `src/vg_image.cc:35-37`. -/
def vgCtor (w : VgWorld) : Res VgWorld := do
  let im ← imAlloc w.im
  pure (varNew { w with im := im, grps := w.grps + 1 } ⟨w.im.hdrs.length, w.grps, true⟩)

/-- `VGImage::copy_of`, `src/vg_image.cc:76-81`: the test compares the variables. -/
def vgCopyOf (w : VgWorld) (v s : Nat) : Res VgWorld :=
  if s ≠ v then do
    let hv ← varAt w v
    let hs ← varAt w s
    let im ← imCopy w.im hv.img hs.img
    pure { w with im := im }
  else do
    let _ ← varAt w v
    pure w

/-- `VGImage::create`, `src/vg_image.cc:47-55`. -/
def vgCreate (w : VgWorld) (v : Nat) (wd ht st : Int) (rgba float : Bool) : Res VgWorld := do
  let hv ← varAt w v
  let im ← imResize w.im hv.img wd ht st rgba float
  pure { w with im := im }

/-- One call. -/
def vgStep (w : VgWorld) : VgOp → Res VgWorld
  | .ctor => vgCtor w
  -- `src/vg_image.cc:39-42`: there is no image before
  | .ctorWrap i own => .ok (varNew { w with grps := w.grps + 1 } ⟨i, w.grps, own⟩)
  | .copyCtor s => do
    let h ← varAt w s
    pure (varNew w h)
  | .assign v s => do
    let h ← varAt w s
    varPut w v (some h)
  -- `src/vg_image.cc:126-130`
  | .swapWith v s => do
    let hv ← varAt w v
    let hs ← varAt w s
    pure { w with vars := (w.vars.set v (some hs)).set s (some hv) }
  -- `src/vg_image.cc:102-112`
  | .wrapImg v i own => varPut { w with grps := w.grps + 1 } v (some ⟨i, w.grps, own⟩)
  -- `src/vg_image.cc:90-100` and `114-124`
  | .wrapData v data wd ht st rgba float own => do
    let hv ← varAt w v
    let im ← imWrap w.im hv.img data wd ht st rgba float own
    pure { w with im := im }
  | .create v wd ht st rgba float => vgCreate w v wd ht st rgba float
  -- `src/vg_image.cc:69-74`
  | .createLike v s => do
    let hs ← varAt w s
    let hd ← hdrAt w.im hs.img
    vgCreate w v hd.width hd.height hd.stride hd.rgba hd.float
  | .copyOf v s => vgCopyOf w v s
  -- `src/vg_image.cc:83-88`
  | .clone s => do
    let n := w.vars.length
    let w ← vgCtor w
    vgCopyOf w n s
  -- `src/vg_image.cc:133-137`
  | .release v => do
    let hv ← varAt w v
    let im ← imRelease w.im hv.img
    pure { w with im := im }
  -- `src/vg_image.cc:155-159`
  | .setZero v => do
    let hv ← varAt w v
    let im ← imSetZero w.im hv.img
    pure { w with im := im }
  -- `src/vg_image.cc:44-45`
  | .drop v => varPut w v none
  | .c op => do
    let im ← imStep w.im op
    pure { w with im := im }

/-- Some calls after another. -/
def vgRun (w : VgWorld) (ops : List VgOp) : Res VgWorld := ops.foldlM vgStep w

end Nx
