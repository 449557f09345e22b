import Verif.Model.Kitti
import Verif.Model.Pnm

/-!
# Model of the reader of Temple Color 128 sequences, `src/nx_temple_color_128.c`

`scan` is one `%f` conversion of `fscanf`, see `Verif.Model.Kitti`; `files` and `dirs` as there. Memory does not run out, but a
negative size, which becomes more than half of the address space, cannot be had.
-/

namespace Nx

/-- `NX_TEMPLE_COLOR_128_SEQ_NAMES`, `include/virg/nexus/nx_temple_color_128.h:38-73`. -/
def tcNames : List String := [
  "Airport_ce", "Baby_ce", "Badminton_ce1", "Badminton_ce2",
  "Ball_ce1", "Ball_ce2", "Ball_ce3", "Ball_ce4",
  "Basketball", "Basketball_ce1", "Basketball_ce2", "Basketball_ce3",
  "Bee_ce", "Bicycle", "Bike_ce1", "Bike_ce2", "Biker", "Bikeshow_ce",
  "Bird", "Board", "Boat_ce1", "Boat_ce2", "Bolt", "Boy",
  "Busstation_ce1", "Busstation_ce2",
  "Carchasing_ce1", "Carchasing_ce3", "Carchasing_ce4",
  "CarDark", "CarScale", "Charger_ce", "Coke", "Couple", "Crossing",
  "Cup", "Cup_ce", "David", "David3", "Deer", "Diving", "Doll",
  "Eagle_ce", "Electricalbike_ce", "Face_ce", "Face_ce2", "FaceOcc1",
  "Fish_ce1", "Fish_ce2", "Football1", "Girl", "Girlmov",
  "Guitar_ce1", "Guitar_ce2", "Gym", "Hand", "Hand_ce1", "Hand_ce2",
  "Hurdle_ce1", "Hurdle_ce2", "Iceskater", "Ironman",
  "Jogging1", "Jogging2", "Juice", "Kite_ce1", "Kite_ce2", "Kite_ce3",
  "Kobe_ce", "Lemming", "Liquor", "Logo_ce", "Matrix", "Messi_ce",
  "Michaeljackson_ce", "Microphone_ce1", "Microphone_ce2", "Motorbike_ce",
  "MotorRolling", "MountainBike", "Panda", "Plane_ce2",
  "Plate_ce1", "Plate_ce2", "Pool_ce1", "Pool_ce2", "Pool_ce3",
  "Railwaystation_ce", "Ring_ce", "Sailor_ce", "Shaking",
  "Singer1", "Singer2", "Singer_ce1", "Singer_ce2",
  "Skating1", "Skating2", "Skating_ce1", "Skating_ce2",
  "Skiing", "Skiing_ce", "Skyjumping_ce", "Soccer", "Spiderman_ce",
  "Subway", "Suitcase_ce", "Sunshade", "SuperMario_ce",
  "Surf_ce1", "Surf_ce2", "Surf_ce3", "Surf_ce4",
  "TableTennis_ce", "TennisBall_ce",
  "Tennis_ce1", "Tennis_ce2", "Tennis_ce3", "Thunder_ce",
  "Tiger1", "Tiger2", "Torus", "Toyplane_ce", "Trellis",
  "Walking", "Walking2", "Woman",
  "Yo-yos_ce1", "Yo-yos_ce2", "Yo-yos_ce3"]

/-- `NX_TEMPLE_COLOR_128_ATTRIBUTES`, `src/nx_temple_color_128.c:46-47`. -/
def tcAttrs : List Bytes :=
  ["VI", "SV", "OCC", "DEF", "MB", "FM", "IPR", "OPR", "OV", "BC", "LR"].map bytesOf

/-- `%0wd`. -/
def padInt (w : Nat) (v : Int) : Bytes := if v < 0 then 45 :: padText (w - 1) v.natAbs else padText w v.natAbs

/-- `NX_TEMPLE_COLOR_128_SEQUENCE_DIR_FORMAT`, `src/nx_temple_color_128.c:38`. -/
def tcDir (base name : Bytes) : Bytes := base ++ bytesOf "/" ++ name

/-- The formats of the three files with `_att.txt`, `_frames.txt`, `_gt.txt`, `src/nx_temple_color_128.c:39-41`. -/
def tcFile (base name : Bytes) (suffix : String) : Bytes := tcDir base name ++ bytesOf "/" ++ name ++ bytesOf suffix

/-- `NX_TEMPLE_COLOR_128_FRAME_FILE_FORMAT`, `src/nx_temple_color_128.c:42`. -/
def tcFrame (base name : Bytes) (frame : Int) : Bytes :=
  tcDir base name ++ bytesOf "/img/" ++ padInt 4 frame ++ bytesOf ".jpg"

/-- `fgets(buffer, 8, fin)`: the text that is stored and what is left of the stream, or `NULL`. -/
def fgets8 (s : Bytes) : Option (Bytes × Bytes) :=
  if s = [] then none
  else
    let n := min ((s.takeWhile (· != 10)).length + 1) 7
    some (s.take n, s.drop n)

/-- The loop of `nx_temple_color_128_get_attr`, `src/nx_temple_color_128.c:71-75`: `strncmp` over the length of the name is equality of
the bytes, as neither has a zero there. -/
def tcBit (buf : Bytes) : BitVec 16 :=
  match tcAttrs.findIdx? (fun a => a.isPrefixOf buf) with
  | some i => BitVec.ofNat 16 (1 <<< i)
  | none => 0#16

/-- `nx_temple_color_128_xread_attributes` behind `nx_xfopen`, `src/nx_temple_color_128.c:87-92`: the attributes from here on. -/
def tcAttributes (attr : BitVec 16) (s : Bytes) : BitVec 16 :=
  match _h : fgets8 s with
  | none => attr
  | some r => if tcBit r.1 = 0#16 then attr else tcAttributes (attr ||| tcBit r.1) r.2
termination_by s.length
decreasing_by
  unfold fgets8 at _h
  split at _h
  · cases _h
  · rename_i hs
    cases _h
    have := List.length_pos_iff.mpr hs
    simp only [List.length_drop]
    omega

/-- `fscanf(fin, "%d,%d", start, end)`, `src/nx_temple_color_128.c:57`. -/
def tcRange (s : Bytes) : Res (Option (Int × Int)) := do
  match ← scanInt s with
  | none => pure none
  | some (a, 44 :: s) => do
    match ← scanInt s with
    | none => pure none
    | some (b, _) => pure (some (a, b))
  | some _ => pure none

section
variable {D : Type}

/-- The conversions of `",%f"` behind a number. -/
def tcNext (scan : Bytes → Option (D × Bytes)) : Nat → Bytes → Option (List D × Bytes)
  | 0, s => some ([], s)
  | k + 1, s =>
    match s with
    | 44 :: s =>
      match scan s with
      | none => none
      | some (d, s) =>
        match tcNext scan k s with
        | none => none
        | some (l, s) => some (d :: l, s)
    | _ => none

/-- `fscanf(fin, "%f,%f,%f,%f\\n", …)`, `src/nx_temple_color_128.c:112-113`: the four numbers and what is left of the stream, `none` if
it does not return four. -/
def tcRow (scan : Bytes → Option (D × Bytes)) (s : Bytes) : Option (List D × Bytes) :=
  match scan s with
  | none => none
  | some (d, s) =>
    match tcNext scan 3 s with
    | none => none
    | some (l, s) => some (d :: l, s.dropWhile isSpaceB)

/-- The body of the loop over the rows, `src/nx_temple_color_128.c:111-117`. -/
def tcStep (scan : Bytes → Option (D × Bytes)) (i : Nat) (r : List (List D) × Bytes) : Res (List (List D) × Bytes) :=
  match tcRow scan r.2 with
  | none => .fatal
  | some (l, s) => do
    let g ← writeAt r.1 i l
    pure (g, s)

/-- `nx_temple_color_128_xread_ground_truth`, `src/nx_temple_color_128.c:97-124`; `text` is the file. -/
def tcGroundTruth (scan : Bytes → Option (D × Bytes)) (junk : D) (text : Option Bytes) (length : Int) : Res (List (List D)) :=
  if length < 0 then .fatal
  else
    match text with
    | none => .fatal
    | some s => do
      let r ← forLoop length.toNat (tcStep scan) 0 (List.replicate length.toNat (List.replicate 4 junk), s)
      pure r.1

/-- `struct NXTempleColor128Sequence`, `include/virg/nexus/nx_temple_color_128.h:87-95`. -/
structure TempleSeq (D : Type) where
  base : Bytes
  name : Bytes
  length : Int
  start : Int
  stop : Int
  attributes : BitVec 16
  gt : List (List D)
deriving DecidableEq, Repr

/-- The search for the name, `src/nx_temple_color_128.c:136-141`. -/
def tcKnown (name : Bytes) : Bool := tcNames.any fun s => (bytesOf s).isPrefixOf name

/-- `nx_temple_color_128_sequence_new`, `src/nx_temple_color_128.c:126-167`. -/
def tcNew (scan : Bytes → Option (D × Bytes)) (junk : D) (files : Files) (dirs : Bytes → Bool) (base name : Bytes) :
    Res (TempleSeq D) :=
  if ¬ dirs base then .fatal
  else if ¬ tcKnown name then .fatal
  else if ¬ dirs (tcDir base name) then .fatal
  else
    match files (tcFile base name "_frames.txt") with
    | none => .fatal
    | some ft => do
      match ← tcRange ft with
      | none => .fatal
      | some (a, b) =>
        if ¬ InI32 (b - a) ∨ ¬ InI32 (b - a + 1) then .ub
        else
          match files (tcFile base name "_att.txt") with
          | none => .fatal
          | some at' => do
            let g ← tcGroundTruth scan junk (files (tcFile base name "_gt.txt")) (b - a + 1)
            pure ⟨base, name, b - a + 1, a, b, tcAttributes 0#16 at', g⟩

/-- `nx_temple_color_128_sequence_free`, `src/nx_temple_color_128.c:169-179`: the rows in the order of their release. -/
def tcFree (q : TempleSeq D) : Res (List Nat) :=
  forLoop q.length.toNat (fun i fr => do
    let _ ← readAt q.gt i
    pure (fr ++ [i])) 0 []

/-- The line with the attributes, `src/nx_temple_color_128.c:187-191`. -/
def tcPrintAttrs (q : TempleSeq D) : Bytes :=
  bytesOf "   Attributes: " ++
    tcAttrs.zipIdx.flatMap (fun p => if q.attributes &&& BitVec.ofNat 16 (1 <<< p.2) ≠ 0#16 then p.1 else []) ++
    bytesOf "\n"

/-- `nx_temple_color_128_sequence_print`, `src/nx_temple_color_128.c:181-192`. -/
def tcPrint (q : TempleSeq D) : Bytes :=
  bytesOf "Temple Color 128 Sequence " ++ q.base ++ bytesOf "/" ++ q.name ++ bytesOf ":\n" ++
  bytesOf "   Frame Range " ++ intText q.start ++ bytesOf " to " ++ intText q.stop ++ bytesOf " (" ++ intText q.length ++ bytesOf ")\n" ++
  tcPrintAttrs q

/-- `nx_temple_color_128_sequence_xload_frame`, `src/nx_temple_color_128.c:194-209`: the name of the file that is loaded. -/
def tcLoadFrame (q : TempleSeq D) (frame : Int) : Res Bytes :=
  if frame < q.start ∨ frame > q.stop then .fatal else .ok (tcFrame q.base q.name frame)

end

end Nx
