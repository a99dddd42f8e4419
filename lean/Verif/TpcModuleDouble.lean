/-
Model of the coordinate transformations of `gear::TPCModuleImpl` with the rounding of `double` arithmetic: the functions
of `TpcModule.lean` with the result of every operation rounded.

Source: src/gearimpl/TPCModuleImpl.cc.  Simplifications: no overflow, no underflow, no NaN, no negative zero; the setters do
not recompute the extents, which the transformations do not look at; so the exception that computing them may throw, after
everything else has been set, is not modelled here (see `TpcModule.lean`).
-/
import Verif.TpcModule
import Verif.MaterialMap

set_option autoImplicit false
set_option linter.unusedSectionVars false

namespace Gear.TpcModule.Double

/-- The arithmetic of `double` and the functions of `<cmath>` that the transformations use. -/
structure Arith (K : Type) extends MaterialMap.Arith K where
  atan2 : K → K → K

variable {K : Type} [Field K] [LinearOrder K] [IsStrictOrderedRing K] [FloorRing K]

/-- `2*M_PI`, e.g. line 52. -/
def Arith.turn (F : Arith K) : K := F.mul 2 F.pi

/-- The global coordinates on the positive side, lines 18-33 of `globalToLocal`. -/
def mirror (F : Arith K) (m : Module K) (c0 c1 : K) : Res (K × K) :=
  if m.zPosition ≤ 0 then
    if m.momsCoordinateType = POLAR then .ok (c0, F.sub F.pi c1)
    else if m.momsCoordinateType = CARTESIAN then .ok (-c0, c1)
    else .throw .gear
  else .ok (c0, c1)

/-- The global coordinates as Cartesian ones, lines 59-70 of `globalToLocal`. -/
def cartesian (F : Arith K) (m : Module K) (c0 c1 : K) : Res (K × K) :=
  if m.momsCoordinateType = POLAR then .ok (F.mul c0 (F.cos c1), F.mul c0 (F.sin c1))
  else if m.momsCoordinateType = CARTESIAN then .ok (c0, c1)
  else .throw .gear

/-- Cartesian coordinates as polar ones, lines 86-92 and 173-179. -/
def polar (F : Arith K) (x y : K) : K × K :=
  let phi := F.atan2 y x
  (F.sqrt (F.add (F.mul x x) (F.mul y y)), if phi < 0 then F.add phi F.turn else phi)

/-- The end of `globalToLocal`, lines 73-105: from the global Cartesian coordinates to the local ones. -/
def toLocal (F : Arith K) (m : Module K) (x y : K) : Res (K × K) :=
  let xPrime := F.sub x m.offsetCartesian.1
  let yPrime := F.sub y m.offsetCartesian.2
  let xPrimeRot := F.add (F.mul xPrime m.cosAngle) (F.mul yPrime m.sinAngle)
  let yPrimeRot := F.sub (F.mul yPrime m.cosAngle) (F.mul xPrime m.sinAngle)
  if m.layout.coordinateType = POLAR then .ok (polar F xPrimeRot yPrimeRot)
  else if m.layout.coordinateType = CARTESIAN then .ok (xPrimeRot, yPrimeRot)
  else .throw .gear

/-- `globalToLocal`, lines 11-106.  Lines 47-48 look at the first component of the offset twice, and
line 53 adds a full turn. -/
def globalToLocal (F : Arith K) (m : Module K) (c0 c1 : K) : Res (K × K) :=
  if m.localIsGlobal then .ok (c0, c1)
  else do
    let c ← mirror F m c0 c1
    if m.momsCoordinateType = POLAR ∧ m.layout.coordinateType = POLAR ∧
        m.offsetCartesian.1 = 0 ∧ m.offsetCartesian.1 = 0 then
      let localAngle := F.sub c.2 m.angle
      let localAngle := if localAngle < 0 then F.add localAngle F.turn else localAngle
      let localAngle := if localAngle > F.turn then F.add localAngle F.turn else localAngle
      .ok (c.1, localAngle)
    else do
      let p ← cartesian F m c.1 c.2
      toLocal F m p.1 p.2

/-- The end of `localToGlobal`, lines 157-192: from the local Cartesian coordinates in the rotated system to
the global ones. -/
def toGlobal (F : Arith K) (m : Module K) (xPrime yPrime : K) : Res (K × K) :=
  let x := F.add xPrime m.offsetCartesian.1
  let y := F.add yPrime m.offsetCartesian.2
  let x := if m.zPosition ≤ 0 then -x else x
  if m.momsCoordinateType = POLAR then .ok (polar F x y)
  else if m.momsCoordinateType = CARTESIAN then .ok (x, y)
  else .throw .gear

/-- `localToGlobal`, lines 109-193. -/
def localToGlobal (F : Arith K) (m : Module K) (c0 c1 : K) : Res (K × K) :=
  if m.localIsGlobal then .ok (c0, c1)
  else if m.layout.coordinateType = POLAR then
    let r := c0
    let phi := F.add c1 m.angle
    if m.momsCoordinateType = POLAR ∧ m.offsetCartesian.1 = 0 ∧ m.offsetCartesian.2 = 0 then
      let phi := if m.zPosition ≤ 0 then F.sub F.pi phi else phi
      let phi := if phi < 0 then F.add phi F.turn else phi
      let phi := if phi > F.turn then F.sub phi F.turn else phi
      .ok (r, phi)
    else toGlobal F m (F.mul r (F.cos phi)) (F.mul r (F.sin phi))
  else if m.layout.coordinateType = CARTESIAN then
    toGlobal F m (F.sub (F.mul c0 m.cosAngle) (F.mul c1 m.sinAngle))
      (F.add (F.mul c1 m.cosAngle) (F.mul c0 m.sinAngle))
  else .throw .gear

/-- `setOffset`, lines 1479-1502: what it does to the module before the extents are computed. -/
def setOffset (F : Arith K) (m : Module K) (x y : K) : Module K :=
  let m := { m with offset := (x, y) }
  if m.momsCoordinateType = POLAR then
    checkLocalIsGlobal { m with offsetCartesian := (F.mul x (F.cos y), F.mul x (F.sin y)) }
  else if m.momsCoordinateType = CARTESIAN then checkLocalIsGlobal { m with offsetCartesian := (x, y) }
  else m

/-- `setAngle`, lines 1512-1518: what it does to the module before the extents are computed. -/
def setAngle (F : Arith K) (m : Module K) (angle : K) : Module K :=
  checkLocalIsGlobal { m with angle, cosAngle := F.cos angle, sinAngle := F.sin angle }

end Gear.TpcModule.Double
