/-
Model of the CGA (Mokka) classes: `src/gearcga/CGAGearPointProperties.cc`, `src/gearcga/CGAGearDistanceProperties.cc`
and `src/gearcga/CGAGeometryInitializer.cc`.  The functions of Mokka are parameters.
-/
import Verif.Print
import Verif.Vector3D

set_option autoImplicit false
set_option linter.unusedSectionVars false

namespace Gear.Cga

open Vector3D (V3)
open Xml (Text)

/-! ### The cell ID -/

/-- What `CGAGetCellId` returns: the two words of the cell ID and the flag, 32 bit integers. -/
structure Cell where
  id0 : ℤ
  id1 : ℤ
  flag : ℤ
deriving DecidableEq

/-- Lines 52-61 of `CGAGearPointProperties.cc`: the words are converted to `unsigned long long`, shifted and masked,
and the result to `long long`. -/
def pack (id0 id1 : ℤ) : ℤ :=
  (((BitVec.ofInt 64 id0 <<< 0) &&& 0x00000000FFFFFFFF#64) |||
    ((BitVec.ofInt 64 id1 <<< 32) &&& 0xFFFFFFFF00000000#64)).toInt

/-- The message that is composed in a buffer of 2048 characters, lines 33-35. -/
def message (pos : V3 ℚ) : Res Text :=
  Print.sprintf 2048 [.lit "CGAGearPointProperties::getCellID: Point (", .f 0 6 pos.x, .lit ", ", .f 0 6 pos.y,
    .lit ", ", .f 0 6 pos.z, .lit ") "]

/-- `getCellID`, lines 24-64.  The message that is printed for a point in a guard ring (line 45) is left out. -/
def getCellID (cellAt : V3 ℚ → Cell) (pos : V3 ℚ) : Res ℤ := do
  let c := cellAt pos
  let _ ← message pos
  if c.id0 < 0 then .throw .gear
  else if c.flag = -1 then .throw .gear
  else pure (pack c.id0 c.id1)

/-! ### The geometry -/

/-- The arguments of the constructors. -/
structure Setup where
  steer : String
  model : String
  setup : String
  host : String
  user : String
  password : String
deriving DecidableEq

/-- `theInitializer`, and with it the setup `CGAInit` was called with. -/
abbrev State := Option Setup

/-- `GetCGAGeometryInitializer`, `CGAGeometryInitializer.cc` lines 15-25, which the constructors of both classes call
(`CGAGearPointProperties.cc` lines 12-19, `CGAGearDistanceProperties.cc` lines 11-18). -/
def construct (s : State) (a : Setup) : State :=
  match s with
  | none => some a
  | some b => some b

/-- The state after some objects were constructed, the oldest first. -/
def run (l : List Setup) : State := l.foldl construct none

/-! ### The beam -/

/-- The three points `CGABeamOn` is called with, in cm: start, end and direction; `CGAGearDistanceProperties.cc`
lines 22-31. -/
def beamOn {K : Type} [Field K] (p0 p1 : V3 K) : V3 K × V3 K × V3 K :=
  let i : V3 K := ⟨p0.x * (1 / 10), p0.y * (1 / 10), p0.z * (1 / 10)⟩
  let f : V3 K := ⟨p1.x * (1 / 10), p1.y * (1 / 10), p1.z * (1 / 10)⟩
  (i, f, ⟨f.x - i.x, f.y - i.y, f.z - i.z⟩)

/-- `getMaterialNames` and `getMaterialThicknesses`, lines 36-71: the list that is returned is static and is passed
to `CGAGetStepsForJava`.  Whether Mokka replaces its contents or appends to them is the parameter `fill`: from the
old contents and the steps of the beam to the new contents. -/
def queryList {α K : Type} [Field K] (fill : List α → List α → List α) (steps : V3 K × V3 K × V3 K → List α)
    (old : List α) (p0 p1 : V3 K) : List α := fill old (steps (beamOn p0 p1))

/-- `getNRadlen` and `getNIntlen`, lines 75-114: the list is local, hence empty at first. -/
def queryNumber {K : Type} [Field K] (fill : List K → List K → List K) (steps : V3 K × V3 K × V3 K → List K)
    (p0 p1 : V3 K) : K := (fill [] (steps (beamOn p0 p1))).foldl (· + ·) 0

end Gear.Cga
