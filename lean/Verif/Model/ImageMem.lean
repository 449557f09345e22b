import Verif.Model.MemBlock
import Verif.Model.FastThreshold

/-!
# Model of the memory of images: `src/nx_image.c:43-202`, `488-533`

An image has a header and a memory block; the memory of samples is reached through `data`, a copy of the pointer of the block. Image
number `i` has block number `i` of the model of memory blocks. Bytes of `float` samples are not interpreted. Products of sizes are
those of `int`. Image types and sample types other than those of the enumerations are not modelled.
-/

namespace Nx

/-- `struct NXImage`, `include/virg/nexus/nx_image.h:50-65`, without the block. -/
structure ImHdr where
  width : Nat
  height : Nat
  rgba : Bool
  float : Bool
  channels : Nat
  stride : Nat
  data : Option Nat
deriving DecidableEq, Repr

/-- `nx_image_n_channels`, `include/virg/nexus/nx_image.h:136-144`. -/
def imChannels (rgba : Bool) : Nat := if rgba then 4 else 1

/-- `nx_image_bytes_per_channel`, `include/virg/nexus/nx_image.h:146-154`. -/
def imBytes (float : Bool) : Nat := if float then 4 else 1

/-- Memory and images (`none` = freed). -/
structure IWorld where
  mem : MWorld
  hdrs : List (Option ImHdr)
deriving DecidableEq, Repr

/-- An image handle; using a freed struct is undefined. -/
def hdrAt (w : IWorld) (i : Nat) : Res ImHdr :=
  match w.hdrs[i]? with
  | some (some hd) => .ok hd
  | _ => .ub

/-- The new header of image `i`, with the pointer of its block: e.g. `src/nx_image.c:141-152`. -/
def imPut (w : IWorld) (m : MWorld) (i : Nat) (hd : ImHdr) : Res IWorld := do
  let b ← blockAt m i
  pure { mem := m, hdrs := w.hdrs.set i (some { hd with data := b.ptr }) }

/-- `nx_image_alloc`, `src/nx_image.c:43-58`. -/
def imAlloc (w : IWorld) : Res IWorld := do
  let m ← mStep w.mem (.new 0)
  pure { mem := m, hdrs := w.hdrs ++ [some ⟨0, 0, false, false, 1, 0, none⟩] }

/-- `nx_image_resize`, `src/nx_image.c:119-153`. -/
def imResize (w : IWorld) (i : Nat) (wd ht st : Int) (rgba float : Bool) : Res IWorld := do
  let hd ← hdrAt w i
  if wd < 0 ∨ ht < 0 then .fatal
  else if (hd.width : Int) = wd ∧ (hd.height : Int) = ht ∧ (hd.stride : Int) = st ∧ hd.rgba = rgba ∧ hd.float = float then .ok w
  else
    let rs := imChannels rgba * wd
    let st := if st < rs then rs else st
    if InI32 rs ∧ InI32 (st * ht) then do
      let m ← mStep w.mem (.resize i (st.toNat * ht.toNat * imBytes float))
      imPut w m i ⟨wd.toNat, ht.toNat, rgba, float, imChannels rgba, st.toNat, none⟩
    else .ub

/-- `nx_image_release`, `src/nx_image.c:164-177`. -/
def imRelease (w : IWorld) (i : Nat) : Res IWorld := do
  let _ ← hdrAt w i
  let m ← mStep w.mem (.release i)
  pure { mem := m, hdrs := w.hdrs.set i (some ⟨0, 0, false, false, 1, 0, none⟩) }

/-- `nx_image_copy`, `src/nx_image.c:188-202`. -/
def imCopy (w : IWorld) (d s : Nat) : Res IWorld := do
  let _ ← hdrAt w d
  let hs ← hdrAt w s
  let m ← mStep w.mem (.copy d s)
  imPut w m d hs

/-- `nx_image_wrap`, `src/nx_image.c:495-514`, for memory `data` of the user. Handing over less memory than the image needs is undefined
at once; bytes of the user behind it are left out, as the library never reaches them. Negative sizes are left out. -/
def imWrap (w : IWorld) (i : Nat) (data : Bytes) (wd ht st : Nat) (rgba float own : Bool) : Res IWorld := do
  let _ ← hdrAt w i
  if st < wd then .fatal
  else if InI32 (st * ht : Nat) ∧ st * ht * imBytes float ≤ data.length then do
    let sz := st * ht * imBytes float
    let m ← mStep w.mem (.wrap i (data.take sz) sz own)
    imPut w m i ⟨wd, ht, rgba, float, imChannels rgba, st, none⟩
  else .ub

/-- `nx_image_swap`, `src/nx_image.c:517-532`. -/
def imSwap (w : IWorld) (i j : Nat) : Res IWorld := do
  let hi ← hdrAt w i
  let hj ← hdrAt w j
  let m ← mStep w.mem (.swap i j)
  let w ← imPut w m i hj
  imPut w m j hi

/-- `nx_image_set_zero`, `src/nx_image.c:488-493`. -/
def imSetZero (w : IWorld) (i : Nat) : Res IWorld := do
  let _ ← hdrAt w i
  let m ← mStep w.mem (.setZero i)
  pure { w with mem := m }

/-- `nx_image_free`, `src/nx_image.c:111-117`. -/
def imFree (w : IWorld) (i : Nat) : Res IWorld := do
  let _ ← hdrAt w i
  let m ← mStep w.mem (.free i)
  pure { mem := m, hdrs := w.hdrs.set i none }

/-- Calls of the user, on images named by their creation number. -/
inductive IOp where
  | alloc
  /-- `nx_image_new` and its variants -/
  | new (wd ht : Int) (rgba float : Bool)
  | newLike (s : Nat)
  | resize (i : Nat) (wd ht st : Int) (rgba float : Bool)
  | resizeLike (i s : Nat)
  | release (i : Nat)
  | copy (d s : Nat)
  | copy0 (s : Nat)
  | wrap (i : Nat) (data : Bytes) (wd ht st : Nat) (rgba float own : Bool)
  | swap (i j : Nat)
  | setZero (i : Nat)
  | free (i : Nat)
deriving DecidableEq, Repr

/-- `nx_image_new`, `src/nx_image.c:60-70`. -/
def imNew (w : IWorld) (wd ht : Int) (rgba float : Bool) : Res IWorld := do
  if wd < 0 ∨ ht < 0 then .fatal
  else do
    let n := w.hdrs.length
    let w ← imAlloc w
    imResize w n wd ht (-1) rgba float

/-- One call; `nx_image_new_like` is `src/nx_image.c:104-109`, `nx_image_resize_like` `155-162`, `nx_image_copy0` `179-186`. -/
def imStep (w : IWorld) : IOp → Res IWorld
  | .alloc => imAlloc w
  | .new wd ht rgba float => imNew w wd ht rgba float
  | .newLike s => do
    let hs ← hdrAt w s
    imNew w hs.width hs.height hs.rgba hs.float
  | .resize i wd ht st rgba float => imResize w i wd ht st rgba float
  | .resizeLike i s => do
    let hs ← hdrAt w s
    imResize w i hs.width hs.height (-1) hs.rgba hs.float
  | .release i => imRelease w i
  | .copy d s => imCopy w d s
  | .copy0 s => do
    let n := w.hdrs.length
    let w ← imAlloc w
    imCopy w n s
  | .wrap i data wd ht st rgba float own => imWrap w i data wd ht st rgba float own
  | .swap i j => imSwap w i j
  | .setZero i => imSetZero w i
  | .free i => imFree w i

end Nx
