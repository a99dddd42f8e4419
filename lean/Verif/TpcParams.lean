/-
Model of `gear::TPCParametersImpl` (`src/gearimpl/TPCParametersImpl.cc`,
`include/gear/gearimpl/TPCParametersImpl.h`) and `gear::GlobalPadIndex`
(`include/gear/gearimpl/GlobalPadIndex.h`).
-/
import Verif.TpcModule

set_option autoImplicit false
set_option linter.unusedSectionVars false

namespace Gear.TpcParams

open TpcModule (CARTESIAN POLAR Ext LayoutI TrigFns)

/-- `GlobalPadIndex`, header lines 13-57. -/
structure GlobalPadIndex where
  padIndex : ℤ
  moduleID : ℤ
deriving DecidableEq, Repr

/-- `GlobalPadIndex::operator<`, header lines 26-36. -/
def GlobalPadIndex.less (a b : GlobalPadIndex) : Bool :=
  if a.moduleID = b.moduleID then decide (a.padIndex < b.padIndex) else decide (a.moduleID < b.moduleID)

/-- `GlobalPadIndex::operator==`, header lines 39-42. -/
def GlobalPadIndex.equal (a b : GlobalPadIndex) : Bool :=
  decide (a.moduleID = b.moduleID) && decide (a.padIndex = b.padIndex)

/-- What the TPC asks a module (the interface `TPCModule`).  Simplification: a module is not modified after it
has been added, except by `setReadoutFrequency` of the TPC. -/
structure Mod (K : Type) where
  id : ℤ
  tpcCoordinateType : ℤ
  /-- `getZPosition`; `none` if it throws `NoZPositionException` -/
  z : Option K
  moduleExtent : Ext K
  angle : K
  offset : K × K
  readoutFrequency : K
  getDistanceToModule : K → K → Res K
  isInsideModule : K → K → Res Bool
  isInsidePad : K → K → Res Bool
  getNearestPad : K → K → Res ℤ
  getDistanceToPad : K → K → ℤ → Res K

variable {K : Type} [Field K] [LinearOrder K] [IsStrictOrderedRing K] [FloorRing K]

/-- A `TPCModuleImpl` as a module of the TPC. -/
def ofModule (F : TrigFns K) (m : TpcModule.Module K) : Mod K where
  id := TpcModule.getModuleID m
  tpcCoordinateType := TpcModule.getTPCCoordinateType m
  z := match TpcModule.getZPosition m with | .ok z => some z | _ => none
  moduleExtent := TpcModule.getModuleExtent m
  angle := TpcModule.getAngle m
  offset := TpcModule.getOffset m
  readoutFrequency := TpcModule.getReadoutFrequency m
  getDistanceToModule := TpcModule.getDistanceToModule F m
  isInsideModule := TpcModule.isInsideModule F m
  isInsidePad := TpcModule.isInsideAnyPad F m
  getNearestPad := TpcModule.getNearestPad F m
  getDistanceToPad := TpcModule.getDistanceToPad F m

/-- The members of `TPCParametersImpl`, header lines 158-187.  The vectors of pointers `_modulesPositiveHalfTPC`
and `_modulesNegativeHalfTPC` are lists of positions in `_TPCModules`. -/
structure Tpc (K : Type) where
  modules : List (Mod K)
  positive : List ℕ
  negative : List ℕ
  maxDriftLength : K
  coordinateType : ℤ
  cathodePosition : K
  moduleIDMap : ℤ → Option ℕ
  planeExtent : Ext K
  driftVelocity : K

/-- Constructor, lines 14-34; both parameters have the default -1, header line 29. -/
def new (maxDriftLength : K) (coordinateType : ℤ) : Tpc K where
  modules := []
  positive := []
  negative := []
  maxDriftLength := if maxDriftLength = -1 ∨ coordinateType = -1 then 0 else maxDriftLength
  coordinateType := if maxDriftLength = -1 ∨ coordinateType = -1 then POLAR else coordinateType
  cathodePosition := 0
  moduleIDMap := fun _ => none
  planeExtent := ⟨0, 0, 0, 0⟩
  driftVelocity := 0

/-- The module at a position of `_TPCModules`. -/
def Tpc.at (T : Tpc K) (i : ℕ) : Res (Mod K) := match T.modules[i]? with | some m => .ok m | none => .ub

/-- The modules a vector of pointers points to. -/
def Tpc.half (T : Tpc K) (l : List ℕ) : List (Mod K) := l.filterMap (fun i => T.modules[i]?)

/-- `getModule`, lines 116-129. -/
def getModule (T : Tpc K) (moduleID : ℤ) : Res (Mod K) :=
  match T.moduleIDMap moduleID with
  | none => .throw .gear
  | some i => T.at i

/-- `getNModules`, lines 133-135. -/
def getNModules (T : Tpc K) : ℤ := T.modules.length

/-- The loop of `getNearestModule`, lines 148-154. -/
def nearestModuleLoop (c0 c1 : K) : List (Mod K) → Mod K → K → Res (Mod K)
  | [], toReturn, _ => .ok toReturn
  | m :: l, toReturn, distance => do
    let tempDistance ← m.getDistanceToModule c0 c1
    if tempDistance < distance then nearestModuleLoop c0 c1 l m tempDistance
    else nearestModuleLoop c0 c1 l toReturn distance

/-- `getNearestModule` of a vector of modules, lines 139-159. -/
def nearestModule (c0 c1 : K) : List (Mod K) → Res (Mod K)
  | [] => .throw .gear
  | m :: l => do
    let distance ← m.getDistanceToModule c0 c1
    nearestModuleLoop c0 c1 (m :: l) m distance

/-- `getNearestModule(c0, c1)`, lines 162-165. -/
def getNearestModule (T : Tpc K) (c0 c1 : K) : Res (Mod K) := nearestModule c0 c1 T.modules

/-- The modules of the half TPC with the given z, lines 169-174, 193-198, 221-226 and 249-254. -/
def halfOf (T : Tpc K) (z : K) : List (Mod K) :=
  if z ≤ T.cathodePosition then T.half T.negative else T.half T.positive

/-- `getNearestModule(c0, c1, z)`, lines 168-175. -/
def getNearestModule3 (T : Tpc K) (c0 c1 z : K) : Res (Mod K) := nearestModule c0 c1 (halfOf T z)

/-- `getMaxDriftLength`, lines 179-181. -/
def getMaxDriftLength (T : Tpc K) : K := T.maxDriftLength

/-- The loops of `isInsideModule` and `isInsidePad`, lines 203-209 and 231-237; a test is not done any more
once one was true. -/
def anyOf (f : Mod K → Res Bool) : List (Mod K) → Bool → Res Bool
  | [], toReturn => .ok toReturn
  | m :: l, toReturn => do
    let b ← if toReturn then .ok true else f m
    anyOf f l b

/-- `isInsideModule(c0, c1)`, lines 187-189. -/
def isInsideModule (T : Tpc K) (c0 c1 : K) : Res Bool := anyOf (fun m => m.isInsideModule c0 c1) T.modules false

/-- `isInsideModule(c0, c1, z)`, lines 192-199. -/
def isInsideModule3 (T : Tpc K) (c0 c1 z : K) : Res Bool :=
  anyOf (fun m => m.isInsideModule c0 c1) (halfOf T z) false

/-- `isInsidePad(c0, c1)`, lines 215-217. -/
def isInsidePad (T : Tpc K) (c0 c1 : K) : Res Bool := anyOf (fun m => m.isInsidePad c0 c1) T.modules false

/-- `isInsidePad(c0, c1, z)`, lines 220-227. -/
def isInsidePad3 (T : Tpc K) (c0 c1 z : K) : Res Bool := anyOf (fun m => m.isInsidePad c0 c1) (halfOf T z) false

/-- The loop of `getNearestPad`, lines 281-292. -/
def nearestPadLoop (c0 c1 : K) : List (Mod K) → GlobalPadIndex → K → Res GlobalPadIndex
  | [], closest, _ => .ok closest
  | m :: l, closest, shortest => do
    let pad ← m.getNearestPad c0 c1
    let distance ← m.getDistanceToPad c0 c1 pad
    if distance < shortest then nearestPadLoop c0 c1 l ⟨pad, m.id⟩ distance
    else nearestPadLoop c0 c1 l closest shortest

/-- `getNearestPad` of a vector of modules, lines 257-295. -/
def nearestPad (c0 c1 : K) : List (Mod K) → Res GlobalPadIndex
  | [] => .throw .gear
  | [m] => do
    let pad ← m.getNearestPad c0 c1
    return ⟨pad, m.id⟩
  | m :: l => do
    let pad ← m.getNearestPad c0 c1
    let distance ← m.getDistanceToPad c0 c1 pad
    nearestPadLoop c0 c1 l ⟨pad, m.id⟩ distance

/-- `getNearestPad(c0, c1)`, lines 243-245. -/
def getNearestPad (T : Tpc K) (c0 c1 : K) : Res GlobalPadIndex := nearestPad c0 c1 T.modules

/-- `getNearestPad(c0, c1, z)`, lines 248-255. -/
def getNearestPad3 (T : Tpc K) (c0 c1 z : K) : Res GlobalPadIndex := nearestPad c0 c1 (halfOf T z)

/-- `getPlaneExtent`, lines 299-305. -/
def getPlaneExtent (T : Tpc K) : Res (Ext K) :=
  if T.modules.length = 0 then .throw .gear else .ok T.planeExtent

/-- `getCoordinateType`, lines 309-311. -/
def getCoordinateType (T : Tpc K) : ℤ := T.coordinateType

/-- `getModules`, lines 380-382. -/
def getModules (T : Tpc K) : List (Mod K) := T.modules

/-- The z position of the first module of a half, `_modulesNegativeHalfTPC[0]->getZPosition()`, e.g. line 518. -/
def firstZ (T : Tpc K) : List ℕ → Option K
  | [] => none
  | i :: _ => match T.modules[i]? with | some m => m.z | none => none

/-- `setCathodePosition`, lines 505-539; an exception of `getZPosition` is caught, lines 533-537. -/
def setCathodePosition (T : Tpc K) : Tpc K :=
  if T.negative ≠ [] then
    if T.positive ≠ [] then
      match firstZ T T.negative, firstZ T T.positive with
      | some a, some b => { T with cathodePosition := (a + b) / 2 }
      | _, _ => T
    else
      match firstZ T T.negative with
      | some a => { T with cathodePosition := a + T.maxDriftLength }
      | none => T
  else if T.positive ≠ [] then
    match firstZ T T.positive with
    | some b => { T with cathodePosition := b - T.maxDriftLength }
    | none => T
  else T

/-- The new module is put into the half TPCs, lines 333-353. -/
def addToHalves (T : Tpc K) (i : ℕ) (z : Option K) : Tpc K :=
  match z with
  | some z =>
    setCathodePosition
      (if z ≤ 0 then { T with negative := T.negative ++ [i] } else { T with positive := T.positive ++ [i] })
  | none => { T with positive := T.positive ++ [i], negative := T.negative ++ [i] }

/-- The plane extent is enlarged, lines 355-375. -/
def enlargeExtent (T : Tpc K) (e : Ext K) : Tpc K :=
  if T.modules.length = 1 then { T with planeExtent := e }
  else
    { T with planeExtent :=
      { e0 := if e.e0 < T.planeExtent.e0 then e.e0 else T.planeExtent.e0
        e1 := if e.e1 > T.planeExtent.e1 then e.e1 else T.planeExtent.e1
        e2 := if e.e2 < T.planeExtent.e2 then e.e2 else T.planeExtent.e2
        e3 := if e.e3 > T.planeExtent.e3 then e.e3 else T.planeExtent.e3 } }

/-- `addModule`, lines 313-376; `none` is the null pointer. -/
def addModule (T : Tpc K) (module : Option (Mod K)) : Tpc K × Res Unit :=
  match module with
  | none => (T, .throw .gear)
  | some m =>
    if m.tpcCoordinateType ≠ T.coordinateType then (T, .throw .gear)
    else if (T.moduleIDMap m.id).isSome then (T, .throw .gear)
    else
      let i := T.modules.length
      let T := { T with
        moduleIDMap := Function.update T.moduleIDMap m.id (some i), modules := T.modules ++ [m] }
      (enlargeExtent (addToHalves T i m.z) m.moduleExtent, .ok ())

/-- `getPadLayout`, lines 393-414: the only module. -/
def getPadLayout (T : Tpc K) : Res (Mod K) :=
  if T.modules.length > 1 then .throw .gear
  else if T.modules.length < 1 then .throw .gear
  else do
    let m ← T.at 0
    if m.angle ≠ 0 ∨ m.offset.1 ≠ 0 ∨ m.offset.2 ≠ 0 then .throw .gear else .ok m

/-- `getDriftVelocity`, lines 421-429. -/
def getDriftVelocity (T : Tpc K) : K := T.driftVelocity

/-- `getReadoutFrequency`, lines 438-447. -/
def getReadoutFrequency (T : Tpc K) : Res K :=
  if T.modules.length > 1 then .throw .gear
  else if T.modules.length < 1 then .throw .gear
  else do
    let m ← T.at 0
    return m.readoutFrequency

/-- `setMaxDriftLength`, lines 449-460. -/
def setMaxDriftLength (T : Tpc K) (l : K) : Tpc K := setCathodePosition { T with maxDriftLength := l }

/-- `setDriftVelocity`, lines 462-470. -/
def setDriftVelocity (T : Tpc K) (v : K) : Tpc K := { T with driftVelocity := v }

/-- `setReadoutFrequency`, lines 472-486.  Simplification: the modules are `TPCModuleImpl`s, so that the cast of
line 485 succeeds. -/
def setReadoutFrequency (T : Tpc K) (f : K) : Tpc K × Res Unit :=
  if T.modules.length > 1 then (T, .throw .gear)
  else
    match T.modules with
    | [] => (T, .throw .gear)
    | m :: l => ({ T with modules := { m with readoutFrequency := f } :: l }, .ok ())

/-- `setPadLayout`, lines 488-503; `isModule` tells whether the layout is a `TPCMODULE`, the default readout
frequency is 0, `TPCModuleImpl.h` line 91. -/
def setPadLayout (F : TrigFns K) (T : Tpc K) (isModule : Bool) (L : LayoutI K) : Tpc K × Res Unit :=
  if T.modules.length ≠ 0 then (T, .throw .gear)
  else if isModule then (T, .throw .gear)
  else addModule T (some (ofModule F (TpcModule.new 0 L T.coordinateType 0)))

/-- `cleanup`, lines 99-112. -/
def cleanup (T : Tpc K) : Tpc K := { T with modules := [], positive := [], negative := [] }

/-- The loop over the modules of `copy_and_assign`, lines 48-67. -/
def copyModules (T : Tpc K) : List (Mod K) → Tpc K
  | [] => T
  | m :: l =>
    let i := T.modules.length
    let T := { T with modules := T.modules ++ [m] }
    copyModules (match m.z with
      | some z =>
        if z ≤ 0 then { T with negative := T.negative ++ [i] } else { T with positive := T.positive ++ [i] }
      | none => { T with positive := T.positive ++ [i], negative := T.negative ++ [i] }) l

/-- `copy_and_assign` but for its last statement, lines 43-76. -/
def copyBody (T right : Tpc K) : Tpc K :=
  let T := copyModules T right.modules
  { T with
    maxDriftLength := right.maxDriftLength
    coordinateType := right.coordinateType
    moduleIDMap := right.moduleIDMap
    planeExtent := right.planeExtent
    driftVelocity := right.driftVelocity
    cathodePosition := right.cathodePosition }

/-- `copy_and_assign`, lines 43-82, of which the last statement is `this->operator = (right)`, and `operator=`,
lines 91-97, which calls `cleanup` and `copy_and_assign( right )`; with a bound on the depth of the calls.  Also
called by the copy constructor, lines 38-41. -/
def copyAndAssign : ℕ → Tpc K → Tpc K → Option (Tpc K)
  | 0, _, _ => none
  | n + 1, T, right => copyAndAssign n (cleanup (copyBody T right)) right

end Gear.TpcParams
