/-
Model of `gear::GearMgrImpl` (src/gearimpl/GearMgrImpl.cc): sections, generic parameter collections,
materials, detector name, and the ownership of the objects handed over.
-/
import Verif.Params

namespace Gear

/-- The pointer members of `GearMgrImpl` that hold one object each, GearMgrImpl.cc lines 28-50. -/
inductive Section where
  | tpc | ecalBarrel | ecalEndcap | ecalPlug | yokeBarrel | yokeEndcap | yokePlug
  | hcalBarrel | hcalEndcap | hcalRing | lcal | lhcal | beamcal | vxd | sit | set | ftd
  | trackerPlanes | siPlanes | pointProperties | distanceProperties | bField
deriving DecidableEq, Repr

/-- The sections in the order in which `cleanup` deletes them, GearMgrImpl.cc lines 124-146. -/
def Section.cleanupOrder : List Section :=
  [.tpc, .ecalBarrel, .ecalEndcap, .ecalPlug, .yokeBarrel, .yokeEndcap, .yokePlug,
   .hcalBarrel, .hcalEndcap, .hcalRing, .lcal, .lhcal, .beamcal, .vxd, .sit, .set, .ftd,
   .trackerPlanes, .siPlanes, .pointProperties, .distanceProperties, .bField]

/-- The three calorimeter sections whose setter inspects the object, GearMgrImpl.cc lines 464-525. -/
def Section.forward : Section → Bool
  | .lcal | .lhcal | .beamcal => true
  | _ => false

/-- A non-null pointer to an object. Null pointers are `none : Option Ptr`. -/
abbrev Ptr := Nat

/-- A manager together with the objects it refers to.
`obj` holds the named parameters of every object, `matName` the name of every material object, and
`deleted` logs the pointers passed to `delete` so far.
Simplifications: the surface store (created and deleted by the manager itself, lines 53 and 156) is
left out; every parameter object is a `GearParametersImpl`, so the `dynamic_cast` in lines 475, 496,
517 succeeds. -/
structure Mgr (D : Type) where
  slot : Section → Option Ptr := fun _ => none
  map : SMap String Ptr := []
  mats : SMap String Ptr := []
  detectorName : String := ""
  obj : Ptr → Params D
  matName : Ptr → String
  deleted : List Ptr := []

namespace Mgr

variable {D : Type}

/-- `delete p`: deleting twice is undefined behaviour. -/
def delete (w : Mgr D) (p : Ptr) : Res (Mgr D) :=
  if p ∈ w.deleted then .ub else .ok { w with deleted := w.deleted ++ [p] }

/-- `delete p` for a pointer that may be null (nothing happens). -/
def delete? (w : Mgr D) : Option Ptr → Res (Mgr D)
  | none => .ok w
  | some p => w.delete p

/-- The name of the parameter guaranteed for forward calorimeters. -/
def crossingAngle : String := "beam_crossing_angle"

/-- The check in the forward calorimeter setters: a missing beam crossing angle is set to 0.
Calling a method through a null pointer or on a deleted object is undefined behaviour.
GearMgrImpl.cc lines 466-481, 487-502, 508-523. -/
def ensureCrossingAngle [Zero D] (w : Mgr D) : Option Ptr → Res (Mgr D)
  | none => .ub
  | some p =>
    if p ∈ w.deleted then .ub
    else match (w.obj p).getDoubleVal crossingAngle with
      | .ok _ => .ok w
      | .throw (.unknownParameter _) =>
        .ok { w with obj := Function.update w.obj p ((w.obj p).setDoubleVal crossingAngle 0) }
      | .throw e => .throw e
      | .ub => .ub

/-- The section setters. `setTPCParameters` deletes the old object (lines 407-413), the forward
calorimeters are checked first (lines 464-525), all others just overwrite the pointer
(lines 415-462, 527-565). -/
def setSection [Zero D] (w : Mgr D) (s : Section) (p : Option Ptr) : Res (Mgr D) := do
  let w ← if s = .tpc then w.delete? (w.slot s) else .ok w
  let w ← if s.forward then w.ensureCrossingAngle p else .ok w
  .ok { w with slot := Function.update w.slot s p }

/-- The section getters, lines 188-384: a null pointer throws. The text of the exception is
simplified to the empty string. -/
def getSection (w : Mgr D) (s : Section) : Res Ptr :=
  match w.slot s with
  | none => .throw (.unknownParameter "")
  | some p => .ok p

/-- `setGearParameters`, lines 386-405. -/
def setGear (w : Mgr D) (k : String) : Option Ptr → Res (Mgr D)
  | none => .ok w
  | some p =>
    match w.map.find? k with
    | some old => do
      let w ← w.delete old
      .ok { w with map := w.map.set k p }
    | none => .ok { w with map := w.map.set k p }

/-- `getGearParameters`, lines 179-186 (the map never holds null pointers). -/
def getGear (w : Mgr D) (k : String) : Res Ptr :=
  match w.map.find? k with
  | none => .throw (.unknownParameter "")
  | some p => .ok p

/-- `getGearParameterKeys`, lines 567-576. -/
def gearKeys (w : Mgr D) : List String := Params.refill [] w.map

/-- `registerSimpleMaterial`, lines 607-621. A null pointer is undefined behaviour. -/
def registerMaterial (w : Mgr D) : Option Ptr → Res (Mgr D)
  | none => .ub
  | some p =>
    match w.mats.find? (w.matName p) with
    | some _ => .throw .gear
    | none => .ok { w with mats := w.mats.set (w.matName p) p }

/-- `getSimpleMaterial`, lines 591-604. -/
def getMaterial (w : Mgr D) (name : String) : Res Ptr :=
  match w.mats.find? name with
  | none => .throw (.unknownParameter "")
  | some p => .ok p

/-- `getMaterialNames`, lines 578-588. -/
def materialNames (w : Mgr D) : List String := Params.refill [] w.mats

/-- `setDetectorName`, include/gear/gearimpl/GearMgrImpl.h. -/
def setDetectorName (w : Mgr D) (n : String) : Mgr D := { w with detectorName := n }

/-- `getDetectorName`, lines 169-176. -/
def getDetectorName (w : Mgr D) : Res String :=
  if w.detectorName.isEmpty then .throw (.unknownParameter "") else .ok w.detectorName

/-- Delete a list of pointers in order. -/
def deleteAll (w : Mgr D) : List Ptr → Res (Mgr D)
  | [] => .ok w
  | p :: ps => do (← w.delete p).deleteAll ps

/-- All objects the manager currently refers to, in the order in which `cleanup` deletes them. -/
def held (w : Mgr D) : List Ptr :=
  Section.cleanupOrder.filterMap w.slot ++ w.map.map Prod.snd ++ w.mats.map Prod.snd

/-- `~GearMgrImpl` / `cleanup`, lines 116-158. -/
def cleanup (w : Mgr D) : Res (Mgr D) := w.deleteAll w.held

/-- One state-changing call on the manager. -/
inductive Op where
  | setSection (s : Section) (p : Option Ptr)
  | setGear (k : String) (p : Option Ptr)
  | registerMaterial (p : Option Ptr)
  | setDetectorName (n : String)
deriving DecidableEq, Repr

/-- The outcome of one call. -/
def call [Zero D] (w : Mgr D) : Op → Res (Mgr D)
  | .setSection s p => w.setSection s p
  | .setGear k p => w.setGear k p
  | .registerMaterial p => w.registerMaterial p
  | .setDetectorName n => .ok (w.setDetectorName n)

/-- A history of calls; the caller catches exceptions and goes on (a throwing `registerSimpleMaterial`
has not changed anything when it throws, lines 609-617). `none` means undefined behaviour. -/
def run [Zero D] (w : Mgr D) : List Op → Option (Mgr D)
  | [] => some w
  | o :: h =>
    match w.call o with
    | .ok w' => run w' h
    | .throw _ => run w h
    | .ub => none

/-- A new manager in a world with the given objects. -/
def init (obj : Ptr → Params D) (matName : Ptr → String) : Mgr D := { obj, matName }

end Mgr
end Gear
