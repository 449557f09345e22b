import Verif.Model.Ledger

/-!
# Model of opening, closing, saving and loading files

`src/nx_io.c:33-90,164-171` and the functions that save to and load from a file by name: `src/nx_image_io_png.c:208-277`,
`src/nx_image_io_jpeg.c:114-149,215-249`, `src/nx_image_io_pnm.c:35-99`, `src/nx_data_frame.c:652-717`, and
`tools/nx_fit_homography_main.c:435-457`.

A stream has a buffer; what it contains reaches the disk when the C library flushes it, which it may do after any write and does when the
stream is closed. The disk has room for `cap` bytes of this file; what does not fit is lost, and the error indicator is set. What is
written is a list of pieces; the flag of a piece says whether the library flushes behind it. When a file is read, the `k`-th byte may be
unreadable. An open stream is a handle in the ledger of `Model/Ledger.lean`.
-/

namespace Nx

/-- A stream that is written. -/
structure OStream where
  disk : Bytes
  buf : Bytes
  err : Bool
deriving DecidableEq, Repr

/-- `fflush`: whether everything has reached the disk. -/
def osFlush (cap : Nat) (s : OStream) : OStream × Bool :=
  if s.disk.length + s.buf.length ≤ cap then (⟨s.disk ++ s.buf, [], s.err⟩, true)
  else (⟨s.disk ++ s.buf.take (cap - s.disk.length), [], true⟩, false)

/-- `fwrite` and `fprintf`: whether they succeed. -/
def osWrite (cap : Nat) (s : OStream) (piece : Bytes × Bool) : OStream × Bool :=
  if piece.2 then osFlush cap { s with buf := s.buf ++ piece.1 } else ({ s with buf := s.buf ++ piece.1 }, true)

/-- `nx_fclose`, `src/nx_io.c:75-90`: the indicator is read, then the stream is closed, and what `fclose` says is ignored. -/
def nxFclose (cap : Nat) (s : OStream) : OStream × Bool :=
  let e := s.err
  let s := (osFlush cap s).1
  (s, !e)

/-- Writing the pieces one by one, up to the first failure. -/
def osWriteAll (cap : Nat) : OStream → List (Bytes × Bool) → OStream × Bool
  | s, [] => (s, true)
  | s, p :: ps =>
    let r := osWrite cap s p
    if r.2 then osWriteAll cap r.1 ps else (r.1, false)

/-- What is in the file afterwards, the ledger, and whether saving has succeeded. -/
structure SaveOut where
  mem : Mem
  disk : Option Bytes
  ok : Bool
deriving DecidableEq, Repr

/-- `nx_image_save_png`, `src/nx_image_io_png.c:236-255` and `nx_image_save_jpeg`,
`src/nx_image_io_jpeg.c:129-149`: the libraries stop at the first write that fails; `opens` says whether the file can be opened. -/
def imgSaveFile (cap : Nat) (σ : Mem) (opens : Bool) (ps : List (Bytes × Bool)) : Res SaveOut :=
  if !opens then .ok ⟨σ, none, false⟩
  else do
    let h := memAlloc σ
    let r := osWriteAll cap ⟨[], [], false⟩ ps
    if !r.2 then do
      let s := (osFlush cap r.1).1
      let σ ← memFree h.1 (some h.2)
      pure ⟨σ, some s.disk, false⟩
    else do
      let c := nxFclose cap r.1
      let σ ← memFree h.1 (some h.2)
      pure ⟨σ, some c.1.disk, c.2⟩

/-- `nx_image_xsave_png`, `src/nx_image_io_png.c:208-222`, and `nx_image_xsave_jpeg`, `src/nx_image_io_jpeg.c:114-127`, with
`nx_xfopen` and `nx_xfclose`, `src/nx_io.c:33-59`. -/
def imgXsaveFile (cap : Nat) (σ : Mem) (opens : Bool) (ps : List (Bytes × Bool)) : Res SaveOut :=
  if !opens then .fatal
  else
    let h := memAlloc σ
    let r := osWriteAll cap ⟨[], [], false⟩ ps
    if !r.2 then .fatal
    else do
      let c := nxFclose cap r.1
      let σ ← memFree h.1 (some h.2)
      if !c.2 then .fatal else pure ⟨σ, some c.1.disk, true⟩

/-- The writes of `save_as_pnm`, `src/nx_image_io_pnm.c:35-63`, whose results are not looked at. -/
def osWriteEach (cap : Nat) : OStream → List (Bytes × Bool) → OStream
  | s, [] => s
  | s, p :: ps => osWriteEach cap (osWrite cap s p).1 ps

/-- `nx_image_save_pnm`, `src/nx_image_io_pnm.c:80-99`; `known` says whether the image is gray or coloured. -/
def pnmSaveFile (cap : Nat) (σ : Mem) (opens known : Bool) (ps : List (Bytes × Bool)) : Res SaveOut :=
  if !opens then .ok ⟨σ, none, false⟩
  else do
    let h := memAlloc σ
    if !known then do
      let σ ← memFree h.1 (some h.2)
      pure ⟨σ, some [], false⟩
    else do
      let c := nxFclose cap (osWriteEach cap ⟨[], [], false⟩ ps)
      let σ ← memFree h.1 (some h.2)
      pure ⟨σ, some c.1.disk, c.2⟩

/-- `nx_image_xsave_pnm`, `src/nx_image_io_pnm.c:65-78`. -/
def pnmXsaveFile (cap : Nat) (σ : Mem) (opens known : Bool) (ps : List (Bytes × Bool)) : Res SaveOut :=
  if !opens then .fatal
  else
    let h := memAlloc σ
    if !known then .fatal
    else do
      let c := nxFclose cap (osWriteEach cap ⟨[], [], false⟩ ps)
      let σ ← memFree h.1 (some h.2)
      if !c.2 then .fatal else pure ⟨σ, some c.1.disk, true⟩

/-- `nx_data_frame_save_csv`, `src/nx_data_frame.c:652-670`. -/
def csvSaveFile (cap : Nat) (σ : Mem) (opens : Bool) (ps : List (Bytes × Bool)) : Res SaveOut :=
  if !opens then .ok ⟨σ, none, false⟩
  else do
    let h := memAlloc σ
    let r := osWriteAll cap ⟨[], [], false⟩ ps
    let c := nxFclose cap r.1
    let σ ← memFree h.1 (some h.2)
    pure ⟨σ, some c.1.disk, if !c.2 then false else r.2⟩

/-- `nx_data_frame_xsave_csv`, `src/nx_data_frame.c:695-703`. -/
def csvXsaveFile (cap : Nat) (σ : Mem) (opens : Bool) (ps : List (Bytes × Bool)) : Res SaveOut := do
  let r ← csvSaveFile cap σ opens ps
  if r.ok then pure r else .fatal

/-- What `fgetc` gives up to the end of the file or the first error, and the error indicator. -/
def isReadAll (content : Bytes) (bad : Option Nat) : Bytes × Bool :=
  match bad with
  | some k => if k < content.length then (content.take k, true) else (content, false)
  | none => (content, false)

/-- `nx_data_frame_load_csv`, `src/nx_data_frame.c:672-693`; `parse` makes a data frame, which is one block here, of the text. -/
def csvLoadFile {α : Type} (parse : Bytes → Res α) (σ : Mem) (file : Option Bytes) (bad : Option Nat) : Res (Mem × Option (α × Nat)) :=
  match file with
  | none => .ok (σ, none)
  | some content => do
    let h := memAlloc σ
    let t := isReadAll content bad
    let v ← parse t.1
    let d := memAlloc h.1
    let σ ← memFree d.1 (some h.2)
    if t.2 then do
      let σ ← memFree σ (some d.2)
      pure (σ, none)
    else pure (σ, some (v, d.2))

/-- `nx_data_frame_xload_csv`, `src/nx_data_frame.c:705-717`. -/
def csvXloadFile {α : Type} (parse : Bytes → Res α) (σ : Mem) (file : Option Bytes) (bad : Option Nat) : Res (Mem × Option (α × Nat)) := do
  let r ← csvLoadFile parse σ file bad
  match r.2 with
  | none => .fatal
  | some v => pure (r.1, some v)

/-- `nx_image_load_png`, `src/nx_image_io_png.c:257-277`, and `nx_image_load_jpeg`, `src/nx_image_io_jpeg.c:228-249`: the image afterwards
and whether loading has succeeded; `decode` gives the image and whether the decoder is content. -/
def imgLoadFile {α : Type} (decode : Bytes → α → Res (α × Bool)) (σ : Mem) (file : Option Bytes) (bad : Option Nat) (img : α) :
    Res (Mem × α × Bool) :=
  match file with
  | none => .ok (σ, img, false)
  | some content => do
    let h := memAlloc σ
    let t := isReadAll content bad
    let r ← decode t.1 img
    let σ ← memFree h.1 (some h.2)
    pure (σ, r.1, if r.2 then !t.2 else r.2)

/-- `nx_image_xload_png`, `src/nx_image_io_png.c:224-234`, and `nx_image_xload_jpeg`, `src/nx_image_io_jpeg.c:215-226`. -/
def imgXloadFile {α : Type} (decode : Bytes → α → Res (α × Bool)) (σ : Mem) (file : Option Bytes) (bad : Option Nat) (img : α) :
    Res (Mem × α × Bool) :=
  match file with
  | none => .fatal
  | some content => do
    let h := memAlloc σ
    let t := isReadAll content bad
    let r ← decode t.1 img
    if !r.2 then .fatal
    else do
      let σ ← memFree h.1 (some h.2)
      if t.2 then .fatal else pure (σ, r.1, true)

/-- `nx_xtmpfile`, `src/nx_io.c:164-171`. -/
def nxXtmpfile (σ : Mem) (opens : Bool) : Res (Mem × Nat) := if !opens then .fatal else .ok (memAlloc σ)

/-- `load_ground_truth_from_options`, `tools/nx_fit_homography_main.c:435-457`: the matrix, which is one block; `shape` is what is read from
the file of the option, if there is one. -/
def gtLoadFile (σ : Mem) (shape : Option (Option (Nat × Nat))) : Res (Mem × Option Nat) :=
  match shape with
  | none => .ok (σ, none)
  | some none => .fatal
  | some (some (m, n)) =>
    let h := memAlloc σ
    let d := memAlloc h.1
    if m ≠ 3 ∨ n ≠ 3 then .fatal else .ok (d.1, some d.2)

end Nx
