/-
Model of the functions that print a TrackerPlanes layout, `include/gear/gearimpl/TrackerPlanesLayerLayoutImpl.h` (the tracker
header), lines 424-520, which `operator<<` of `TrackerPlanesParameters` (`src/gearimpl/Util.cc` lines 754-776) calls.

Doubles are rational numbers here, as in Print.lean.
-/
import Verif.Print

set_option autoImplicit false
set_option linter.unusedSectionVars false

namespace Gear.Print.Tracker

open Xml (Text natText roundEven)
open Telescope (Material Sensor TLayer TLayout)

/-- `%ws` of a text without zeros. -/
def str (w : ℕ) (t : String) : Text := pad w t.toList

/-- `%w.0f`: the nearest whole number, without a point. -/
def whole (w : ℕ) (v : ℚ) : Text := pad w ((if v < 0 then ['-'] else []) ++ natText (roundEven |v|).toNat)

/-- Conversions with a blank between them. -/
def spaced (l : List Text) : Text := [' '].intercalate l

/-- The conversions of the columns of a ladder for which the argument is `a`, the empty text, for example the second group in lines
451 and 486. -/
def noLadder : Text := spaced (str 3 "" :: str 14 "" :: List.replicate 10 (str 5 ""))

/-- The conversions of the columns of the measurement for which the argument is `a`, lines 451 and 464. -/
def noMeasurement : Text := spaced (List.replicate 2 (str 5 "") ++ List.replicate 4 (str 6 ""))

/-- The text of the row of a layer, lines 451-455. -/
def layerRow (l : TLayer ℚ) : Text :=
  '|' :: spaced [int 3 l.id, str 14 l.info] ++ '|' :: noLadder ++ '|' :: noLadder ++ '`' :: noMeasurement ++ ['|', '\n']

/-- The text of the row of a material layer, lines 464-479. -/
def materialRow (m : Material ℚ) : Text :=
  '|' :: spaced [str 3 "", str 14 ""] ++ '|' :: spaced [int 3 m.id, str 14 m.info, whole 5 m.positionX, whole 5 m.positionY,
    whole 5 m.positionZ, whole 5 m.rotationXY, whole 5 m.rotationZX, whole 5 m.rotationZY, fixed 5 2 m.sizeX, fixed 5 2 m.sizeY,
    fixed 5 2 m.thickness, fixed 5 2 m.radLength] ++ '|' :: noLadder ++ '`' :: noMeasurement ++ ['|', '\n']

/-- The text of the row of a sensitive layer, lines 484-505. -/
def sensorRow (s : Sensor ℚ) : Text :=
  '|' :: spaced [str 3 "", str 14 ""] ++ '|' :: noLadder ++ '|' :: spaced [int 3 s.id, str 14 s.info, whole 5 s.positionX,
    whole 5 s.positionY, whole 5 s.positionZ, whole 5 s.rotationXY, whole 5 s.rotationZX, whole 5 s.rotationZY, fixed 5 2 s.sizeX,
    fixed 5 2 s.sizeY, fixed 5 2 s.thickness, fixed 5 2 s.radLength] ++ '`' :: spaced [int 5 s.npixelX, int 5 s.npixelY,
    fixed 5 4 s.pitchX, fixed 5 4 s.pitchY, fixed 5 4 s.resolutionX, fixed 5 4 s.resolutionY] ++ ['|', '\n']

/-- `sprintf` into `buffer`, line 445. -/
def write (t : Text) : Res Text := if t.length + 1 ≤ 1024 then .ok t else .ub

/-- A loop that writes one row after the other. -/
def writeAll {α : Type} (row : α → Res Text) : List α → Res Text
  | [] => .ok []
  | a :: l => do
    let t ← row a
    let rest ← writeAll row l
    .ok (t ++ rest)

/-- The body of the loop over the layers, lines 448-508. -/
def printLayer (l : TLayer ℚ) : Res Text := do
  let head ← write (layerRow l)
  let ms ← writeAll (fun m => write (materialRow m)) l.materials
  let ss ← writeAll (fun s => write (sensorRow s)) l.sensors
  .ok (head ++ ms ++ ss)

/-- The line below the layers, line 509, and of the footer, line 518. -/
def footer : Text := '|' :: List.replicate 218 '-' ++ ['|', '\n']

/-- `PrintLayers`, lines 443-512. -/
def printLayers (L : TLayout ℚ) : Res Text := do
  let rows ← writeAll printLayer L.layers
  .ok (rows ++ footer)

/-- The lines of the heading, lines 431-437. -/
def heading : List String :=
  ["|------------------|------------------------------------------------------------------------------|----------------------------------------------------------------------------------------------------------------------|\n",
   "| layer:           |                 ladder/scattering only                                       |          sensitive /       scattering part                                   `      measurement part                 |\n",
   "| ID      info     | ID      info       pozX  pozY  pozZ rotXY rotZX rotZY  sizX  sizY Thick   X  | ID     info        pozX  pozY  pozZ rotXY rotZX rotZY  sizX  sizY Thick   X  `  NX    NY  PitchX PitchY   ResX   RexY| \n",
   "|------------------|------------------------------------------------------------------------------|----------------------------------------------------------------------------------------------------------------------|\n"]

end Gear.Print.Tracker
