/-
Model of `gear::TPCModuleImpl` (`src/gearimpl/TPCModuleImpl.cc`, `include/gear/gearimpl/TPCModuleImpl.h`).
-/
import Verif.Disk

set_option autoImplicit false
set_option linter.unusedSectionVars false

namespace Gear.TpcModule

open Disk

/-- `PadRowLayout2D::CARTESIAN`, `PadRowLayout2D.h` line 34. -/
def CARTESIAN : ℤ := 1
/-- `PadRowLayout2D::POLAR`, `PadRowLayout2D.h` line 35. -/
def POLAR : ℤ := 2

/-- The functions of `<cmath>` and the constants of `<limits>` used in addition to those of the layouts. -/
structure TrigFns (K : Type) extends Fns K where
  atan2 : K → K → K
  asin : K → K
  dblMax : K
  dblMin : K

/-- A vector of four numbers: `[xmin, xmax, ymin, ymax]` or `[rmin, rmax, phimin, phimax]`. -/
structure Ext (K : Type) where
  e0 : K
  e1 : K
  e2 : K
  e3 : K
deriving DecidableEq, Repr

/-- What a module asks its pad layout (the interface `PadRowLayout2D`, `PadRowLayout2D.h`).
Simplification: the layout is not modified while it belongs to the module. -/
structure LayoutI (K : Type) where
  coordinateType : ℤ
  planeExtent : Ext K
  getPadCenter : ℤ → Res (K × K)
  getNearestPad : K → K → Res ℤ
  isInsidePad : K → K → ℤ → Res Bool
  getDistanceToPad : K → K → ℤ → Res K

/-- The members of `TPCModuleImpl`, header lines 25-43. -/
structure Module (K : Type) where
  planeExtent : Ext K
  moduleExtent : Ext K
  localModuleExtent : Ext K
  layout : LayoutI K
  readoutFrequency : K
  offset : K × K
  offsetCartesian : K × K
  zPosition : K
  angle : K
  cosAngle : K
  sinAngle : K
  momsCoordinateType : ℤ
  moduleID : ℤ
  border : K
  localIsGlobal : Bool
  zPositionIsSet : Bool

variable {K : Type} [Field K] [LinearOrder K] [IsStrictOrderedRing K] [FloorRing K]

/-- The loop `while ( x >= hi ) x -= 2*M_PI;` with a bound on the number of passes, e.g. lines 1321-1322. -/
def loopBelow (pi hi : K) : ℕ → K → Option K
  | 0, _ => none
  | n + 1, x => if x ≥ hi then loopBelow pi hi n (x - 2 * pi) else some x

/-- The value with which `while ( x >= hi ) x -= 2*M_PI;` ends; see `loopBelow_wrapBelow`. -/
def wrapBelow (pi hi x : K) : K := if x ≥ hi then x - (⌊(x - hi) / (2 * pi)⌋ + 1) * (2 * pi) else x

/-- `fmod(x, y)` of `<cmath>`. -/
def fmod (x y : K) : K := x - truncInt (x / y) * y

/-- `checkLocalIsGlobal`, lines 1532-1546. -/
def checkLocalIsGlobal (m : Module K) : Module K :=
  { m with localIsGlobal := decide (m.momsCoordinateType = m.layout.coordinateType ∧ m.angle = 0 ∧
      m.offset.1 = 0 ∧ m.offset.2 = 0 ∧ m.zPosition > 0) }

/-- Constructor, lines 1167-1200. -/
def new (moduleID : ℤ) (layout : LayoutI K) (tpcCoordinateType : ℤ) (readoutFrequency : K) : Module K :=
  checkLocalIsGlobal
    { moduleID, readoutFrequency, layout
      momsCoordinateType := tpcCoordinateType
      border := 0
      planeExtent := layout.planeExtent
      moduleExtent := layout.planeExtent
      localModuleExtent := layout.planeExtent
      offset := (0, 0)
      offsetCartesian := (0, 0)
      zPosition := 1
      angle := 0
      cosAngle := 1
      sinAngle := 0
      zPositionIsSet := false
      localIsGlobal := false }

/-- `copy_and_assign`, lines 1214-1235; used by the copy constructor, `operator=` and `clone`.  The clone of
the pad layout is taken to answer as the layout does (property C19).  Not modelled: assignment of a module to
itself, which reads the deleted layout. -/
def copy (right : Module K) : Module K where
  planeExtent := right.planeExtent
  moduleExtent := right.moduleExtent
  localModuleExtent := right.localModuleExtent
  readoutFrequency := right.readoutFrequency
  offset := right.offset
  offsetCartesian := right.offsetCartesian
  angle := right.angle
  cosAngle := right.cosAngle
  sinAngle := right.sinAngle
  momsCoordinateType := right.momsCoordinateType
  moduleID := right.moduleID
  border := right.border
  localIsGlobal := right.localIsGlobal
  zPosition := right.zPosition
  zPositionIsSet := right.zPositionIsSet
  layout := right.layout

/-- The global coordinates on the positive side, lines 18-33 of `globalToLocal`. -/
def mirror (F : TrigFns K) (m : Module K) (c0 c1 : K) : Res (K × K) :=
  if m.zPosition ≤ 0 then
    if m.momsCoordinateType = POLAR then .ok (c0, F.pi - c1)
    else if m.momsCoordinateType = CARTESIAN then .ok (-c0, c1)
    else .throw .gear
  else .ok (c0, c1)

/-- The global coordinates as Cartesian ones, lines 59-70 of `globalToLocal`. -/
def cartesian (F : TrigFns K) (m : Module K) (c0 c1 : K) : Res (K × K) :=
  if m.momsCoordinateType = POLAR then .ok (c0 * F.cos c1, c0 * F.sin c1)
  else if m.momsCoordinateType = CARTESIAN then .ok (c0, c1)
  else .throw .gear

/-- The end of `globalToLocal`, lines 73-105: from the global Cartesian coordinates to the local ones. -/
def toLocal (F : TrigFns K) (m : Module K) (x y : K) : Res (K × K) :=
  let xPrime := x - m.offsetCartesian.1
  let yPrime := y - m.offsetCartesian.2
  let xPrimeRot := xPrime * m.cosAngle + yPrime * m.sinAngle
  let yPrimeRot := yPrime * m.cosAngle - xPrime * m.sinAngle
  if m.layout.coordinateType = POLAR then
    let phi := F.atan2 yPrimeRot xPrimeRot
    .ok (F.sqrt (xPrimeRot * xPrimeRot + yPrimeRot * yPrimeRot), if phi < 0 then phi + 2 * F.pi else phi)
  else if m.layout.coordinateType = CARTESIAN then .ok (xPrimeRot, yPrimeRot)
  else .throw .gear

/-- `globalToLocal`, lines 11-106.  Lines 47-48 look at the first component of the offset twice, and
line 53 adds a full turn. -/
def globalToLocal (F : TrigFns K) (m : Module K) (c0 c1 : K) : Res (K × K) :=
  if m.localIsGlobal then .ok (c0, c1)
  else do
    let c ← mirror F m c0 c1
    if m.momsCoordinateType = POLAR ∧ m.layout.coordinateType = POLAR ∧
        m.offsetCartesian.1 = 0 ∧ m.offsetCartesian.1 = 0 then
      let localAngle := c.2 - m.angle
      let localAngle := if localAngle < 0 then localAngle + 2 * F.pi else localAngle
      let localAngle := if localAngle > 2 * F.pi then localAngle + 2 * F.pi else localAngle
      .ok (c.1, localAngle)
    else do
      let p ← cartesian F m c.1 c.2
      toLocal F m p.1 p.2

/-- The end of `localToGlobal`, lines 157-192: from the local Cartesian coordinates in the rotated system to
the global ones. -/
def toGlobal (F : TrigFns K) (m : Module K) (xPrime yPrime : K) : Res (K × K) :=
  let x := xPrime + m.offsetCartesian.1
  let y := yPrime + m.offsetCartesian.2
  let x := if m.zPosition ≤ 0 then -x else x
  if m.momsCoordinateType = POLAR then
    let phi := F.atan2 y x
    .ok (F.sqrt (x * x + y * y), if phi < 0 then phi + 2 * F.pi else phi)
  else if m.momsCoordinateType = CARTESIAN then .ok (x, y)
  else .throw .gear

/-- `localToGlobal`, lines 109-193. -/
def localToGlobal (F : TrigFns K) (m : Module K) (c0 c1 : K) : Res (K × K) :=
  if m.localIsGlobal then .ok (c0, c1)
  else if m.layout.coordinateType = POLAR then
    let r := c0
    let phi := c1 + m.angle
    if m.momsCoordinateType = POLAR ∧ m.offsetCartesian.1 = 0 ∧ m.offsetCartesian.2 = 0 then
      let phi := if m.zPosition ≤ 0 then F.pi - phi else phi
      let phi := if phi < 0 then phi + 2 * F.pi else phi
      let phi := if phi > 2 * F.pi then phi - 2 * F.pi else phi
      .ok (r, phi)
    else toGlobal F m (r * F.cos phi) (r * F.sin phi)
  else if m.layout.coordinateType = CARTESIAN then
    toGlobal F m (c0 * m.cosAngle - c1 * m.sinAngle) (c1 * m.cosAngle + c0 * m.sinAngle)
  else .throw .gear

/-- The local module extent, lines 198-257: the plane extent of the pad layout enlarged by the border.
Line 216 tests the outer radius before dividing by the inner one; a division by an inner radius of 0 gives 0
here and infinity in C++. -/
def localExtent (F : TrigFns K) (m : Module K) : Res (Ext K) :=
  let e := m.layout.planeExtent
  if m.border = 0 then .ok e
  else if m.layout.coordinateType = POLAR then
    let rMin := e.e0 - m.border
    let phiBorder := if e.e1 > 0 then m.border / e.e0 else F.pi
    let phiMin := e.e2 - phiBorder
    let phiMax := e.e3 + phiBorder
    let (phiMin, phiMax) :=
      if phiMax - phiMin > 2 * F.pi then
        let phiBorder := (2 * F.pi - phiMax + phiMin) / 2
        (e.e2 - phiBorder, e.e3 + phiBorder)
      else (phiMin, phiMax)
    .ok ⟨if rMin ≥ 0 then rMin else 0, e.e1 + m.border, phiMin, phiMax⟩
  else if m.layout.coordinateType = CARTESIAN then
    .ok ⟨e.e0 - m.border, e.e1 + m.border, e.e2 - m.border, e.e3 + m.border⟩
  else .throw .gear

/-- One pass of the loops that look for maxima and minima, lines 333-339 and 370-376. -/
def enlarge (b : Ext K) (p : K × K) : Ext K where
  e0 := if b.e0 > p.1 then p.1 else b.e0
  e1 := if b.e1 < p.1 then p.1 else b.e1
  e2 := if b.e2 > p.2 then p.2 else b.e2
  e3 := if b.e3 < p.2 then p.2 else b.e3

/-- The box around the images of the four corners, lines 319-339 and 357-376. -/
def cornerBox (F : TrigFns K) (m : Module K) (e : Ext K) : Res (Ext K) := do
  let first ← localToGlobal F m e.e0 e.e2
  let p0 ← localToGlobal F m e.e0 e.e3
  let p1 ← localToGlobal F m e.e1 e.e2
  let p2 ← localToGlobal F m e.e1 e.e3
  return enlarge (enlarge (enlarge ⟨first.1, first.1, first.2, first.2⟩ p0) p1) p2

/-- `calculateGlobalExtentCartesianCartesian`, lines 315-348. -/
def globalExtentCartesianCartesian (F : TrigFns K) (m : Module K) (e : Ext K) : Res (Ext K) :=
  cornerBox F m e

/-- Whether the local angle of a global point is within the sector, e.g. lines 383-392. -/
def inSector (F : TrigFns K) (m : Module K) (e : Ext K) (x y : K) : Res Bool := do
  let p ← globalToLocal F m x y
  let localPhi1 := p.2
  let localPhi2 := if localPhi1 < 0 then localPhi1 + 2 * F.pi else localPhi1 - 2 * F.pi
  return decide ((localPhi1 > e.e2 ∧ localPhi1 < e.e3) ∨ (localPhi2 > e.e2 ∧ localPhi2 < e.e3))

/-- `calculateGlobalExtentCartesianPolar`, lines 350-461. -/
def globalExtentCartesianPolar (F : TrigFns K) (m : Module K) (e : Ext K) : Res (Ext K) := do
  let b ← cornerBox F m e
  let o ← localToGlobal F m 0 0
  let yMaxIn ← inSector F m e o.1 (o.2 + e.e1)
  let yMinIn ← inSector F m e o.1 (o.2 - e.e1)
  let xMaxIn ← inSector F m e (o.1 + e.e1) o.2
  let xMinIn ← inSector F m e (o.1 - e.e1) o.2
  return ⟨if xMinIn then o.1 - e.e1 else b.e0, if xMaxIn then o.1 + e.e1 else b.e1,
    if yMinIn then o.2 - e.e1 else b.e2, if yMaxIn then o.2 + e.e1 else b.e3⟩

/-- `calculateGlobalExtentPolarPolar` without an offset, lines 466-498. -/
def globalExtentPolarCentred (F : TrigFns K) (m : Module K) (e : Ext K) : Ext K :=
  let (phiMin, phiMax) :=
    if m.zPosition > 0 then (e.e2 + m.angle, e.e3 + m.angle)
    else (F.pi - e.e3 - m.angle, F.pi - e.e2 - m.angle)
  let phiMax := wrapUp F.pi 0 (wrapDown F.pi (2 * F.pi) phiMax)
  let phiMin := wrapUp F.pi (phiMax - 2 * F.pi) (wrapDown F.pi phiMax phiMin)
  ⟨e.e0, e.e1, phiMin, phiMax⟩

/-- The two angles that are compared with the sector, lines 524-529 and 625-630. -/
def twoAngles (F : TrigFns K) (phi : K) : K × K :=
  let phi1 := fmod phi (2 * F.pi)
  (phi1, if phi1 < 0 then phi1 + 2 * F.pi else phi1 - 2 * F.pi)

/-- Whether one of the two angles is in the sector, lines 533-534 and 634-635. -/
def eitherIn (e : Ext K) (p : K × K) : Prop := (p.1 > e.e2 ∧ p.1 < e.e3) ∨ (p.2 > e.e2 ∧ p.2 < e.e3)

instance (e : Ext K) (p : K × K) : Decidable (eitherIn e p) := by unfold eitherIn; infer_instance

/-- The foot of the perpendicular from the global origin on one edge of the sector, lines 578-597 and 600-618. -/
def edgeFoot (F : TrigFns K) (e : Ext K) (o : K × K) (phiEdge rMin : K) : K :=
  let rIntersect := o.1 * (F.cos o.2 * F.cos phiEdge + F.sin o.2 * F.sin phiEdge)
  let m := |o.1 * (F.cos o.2 * F.sin phiEdge - F.sin o.2 * F.cos phiEdge)|
  if rIntersect > e.e0 ∧ rIntersect < e.e1 ∧ m < rMin then m else rMin

/-- The smallest global radius, lines 531-621; `o` is the global origin in local coordinates, `g0` to `g3`
are the global coordinates of the corners. -/
def polarRMin (F : TrigFns K) (e : Ext K) (o g0 g1 g2 g3 : K × K) : K :=
  if eitherIn e (twoAngles F o.2) then
    if o.1 < e.e0 then e.e0 - o.1
    else if o.1 > e.e1 then o.1 - e.e1
    else 0
  else
    let rMin := g0.1
    let rMin := if g1.1 < rMin then g1.1 else rMin
    let rMin := if g2.1 < rMin then g2.1 else rMin
    let rMin := if g3.1 < rMin then g3.1 else rMin
    if o.1 > e.e0 then edgeFoot F e o e.e3 (edgeFoot F e o e.e2 rMin) else rMin

/-- The largest global radius, lines 632-650. -/
def polarRMax (F : TrigFns K) (e : Ext K) (o g0 g1 g2 g3 : K × K) : K :=
  if eitherIn e (twoAngles F (o.2 + F.pi)) then o.1 + e.e1
  else
    let rMax := g0.1
    let rMax := if g1.1 > rMax then g1.1 else rMax
    let rMax := if g2.1 > rMax then g2.1 else rMax
    if g3.1 > rMax then g3.1 else rMax

/-- The smallest of four angles, e.g. lines 729-734. -/
def min4 (a0 a1 a2 a3 : K) : K :=
  let x := if a1 < a0 then a1 else a0
  let x := if a2 < x then a2 else x
  if a3 < x then a3 else x

/-- The largest of four angles, e.g. lines 738-743. -/
def max4 (a0 a1 a2 a3 : K) : K :=
  let x := if a1 > a0 then a1 else a0
  let x := if a2 > x then a2 else x
  if a3 > x then a3 else x

/-- The loops that bring an angle into the range from `lo` to `lo` plus a full turn, e.g. lines 685-688. -/
def wrapInto (pi lo phi : K) : K := wrapDown pi (lo + 2 * pi) (wrapUp pi lo phi)

/-- `while ( phiMin > phiMax) phiMin -= 2*M_PI;` and the loops that force both to +-2pi, e.g. lines
861-874. -/
def orderAngles (pi phiMin phiMax : K) : K × K :=
  let phiMin := wrapDown pi phiMax phiMin
  let phiMax' := wrapDown pi (2 * pi) phiMax
  let phiMin' := phiMin + (phiMax' - phiMax)
  let phiMin'' := wrapUp pi (-2 * pi) phiMin'
  (phiMin'', phiMax' + (phiMin'' - phiMin'))

/-- The angles if the global origin is outside of the outer radius, lines 668-805; `og` is the local origin in
global coordinates. -/
def polarPhiOutside (F : TrigFns K) (m : Module K) (e : Ext K) (o og g0 g1 g2 g3 : K × K) : Res (K × K) := do
  let tangentMin := og.2 - F.asin (e.e1 / o.1)
  let tangentMax := og.2 + F.asin (e.e1 / o.1)
  let a0 := wrapInto F.pi tangentMin g0.2
  let a1 := wrapInto F.pi tangentMin g1.2
  let a2 := wrapInto F.pi tangentMin g2.2
  let a3 := wrapInto F.pi tangentMin g3.2
  let rT := F.sqrt (og.1 * og.1 - e.e1 * e.e1)
  let tMin ← globalToLocal F m rT (if m.zPosition > 0 then tangentMin else tangentMax)
  let inMin := decide (wrapInto F.pi e.e2 tMin.2 < e.e3)
  let tMax ← globalToLocal F m rT (if m.zPosition > 0 then tangentMax else tangentMin)
  let inMax := decide (wrapInto F.pi e.e2 tMax.2 < e.e3)
  return if m.zPosition > 0 then
      (if inMin then tangentMin else min4 a0 a1 a2 a3, if inMax then tangentMax else max4 a0 a1 a2 a3)
    else
      (if inMax then tangentMin else min4 a0 a1 a2 a3, if inMin then tangentMax else max4 a0 a1 a2 a3)

/-- The angle of the global origin in local coordinates, lines 835-839. -/
def phiGlobalOrigin (F : TrigFns K) (e : Ext K) (o : K × K) : K := wrapInto F.pi e.e2 o.2

/-- `while ( x < hi - 2*M_PI ) x += 2*M_PI; while ( x > hi ) x -= 2*M_PI;`, e.g. lines 891-894. -/
def wrapBelowOf (pi hi x : K) : K := wrapDown pi hi (wrapUp pi (hi - 2 * pi) x)

/-- `while ( x > lo + 2*M_PI ) x -= 2*M_PI; while ( x < lo ) x += 2*M_PI;`, lines 909-912. -/
def wrapAboveOf (pi lo x : K) : K := wrapUp pi lo (wrapDown pi (lo + 2 * pi) x)

/-- The angles if the global origin is inside of the outer radius and the sector is less than pi, lines
842-992. -/
def polarPhiA (F : TrigFns K) (m : Module K) (e : Ext K) (o g0 g1 g2 g3 : K × K) : K × K :=
  let phi := phiGlobalOrigin F e o
  if phi < e.e3 then
    if o.1 ≤ e.e0 then
      if m.zPosition > 0 then orderAngles F.pi g0.2 g1.2 else orderAngles F.pi g1.2 g0.2
    else (0, 2 * F.pi)
  else if phi < e.e2 + F.pi then
    if m.zPosition > 0 then
      let phiMax := g3.2
      let p1 := wrapBelowOf F.pi phiMax g0.2
      let p2 := wrapBelowOf F.pi phiMax g1.2
      (if p1 < p2 then p1 else p2, phiMax)
    else
      let phiMin := g3.2
      let p1 := wrapAboveOf F.pi phiMin g0.2
      let p2 := wrapAboveOf F.pi phiMin g1.2
      (phiMin, if p1 > p2 then p1 else p2)
  else if phi < e.e3 + F.pi then
    if m.zPosition > 0 then orderAngles F.pi g2.2 g3.2 else orderAngles F.pi g3.2 g2.2
  else
    if m.zPosition > 0 then
      let phiMin := g2.2
      let p1 := wrapInto F.pi phiMin g0.2
      let p2 := wrapInto F.pi phiMin g1.2
      (phiMin, if p1 > p2 then p1 else p2)
    else
      let phiMax := g2.2
      let p1 := wrapBelowOf F.pi phiMax g0.2
      let p2 := wrapBelowOf F.pi phiMax g1.2
      (if p1 < p2 then p1 else p2, phiMax)

/-- The full circle if the angles are closer than pi, the angles otherwise, lines 1044-1070 and 1113-1139. -/
def orderWide (F : TrigFns K) (phiMin phiMax : K) : K × K :=
  if phiMax - wrapDown F.pi phiMax phiMin < F.pi then (0, 2 * F.pi) else orderAngles F.pi phiMin phiMax

/-- The angles if the global origin is inside of the outer radius and the sector is at least pi, lines
993-1149.  If no case applies they keep their initial values, lines 654-655. -/
def polarPhiB (F : TrigFns K) (m : Module K) (e : Ext K) (o g0 g1 g2 g3 : K × K) : K × K :=
  let phi := phiGlobalOrigin F e o
  if phi > e.e3 then
    if m.zPosition > 0 then orderAngles F.pi g2.2 g3.2 else orderAngles F.pi g3.2 g2.2
  else if o.1 ≤ e.e0 then
    if phi < e.e3 - F.pi then
      if m.zPosition > 0 then orderWide F g0.2 g3.2 else orderWide F g3.2 g0.2
    else if phi < e.e2 + F.pi then
      if m.zPosition > 0 then orderAngles F.pi g0.2 g1.2 else orderAngles F.pi g1.2 g0.2
    else if phi < e.e3 + F.pi then
      if m.zPosition > 0 then orderWide F g2.2 g1.2 else orderWide F g1.2 g2.2
    else (F.dblMax, F.dblMin)
  else (0, 2 * F.pi)

/-- The angles of the global extent, lines 652-1151. -/
def polarPhi (F : TrigFns K) (m : Module K) (e : Ext K) (o g0 g1 g2 g3 : K × K) : Res (K × K) :=
  if o.1 ≥ e.e1 then do
    let og ← localToGlobal F m 0 0
    polarPhiOutside F m e o og g0 g1 g2 g3
  else if e.e3 - e.e2 < F.pi then .ok (polarPhiA F m e o g0 g1 g2 g3)
  else .ok (polarPhiB F m e o g0 g1 g2 g3)

/-- `calculateGlobalExtentPolarPolar`, lines 463-1165. -/
def globalExtentPolarPolar (F : TrigFns K) (m : Module K) (e : Ext K) : Res (Ext K) :=
  if m.offset.1 = 0 then .ok (globalExtentPolarCentred F m e)
  else do
    let o ← globalToLocal F m 0 0
    let g0 ← localToGlobal F m e.e0 e.e2
    let g1 ← localToGlobal F m e.e0 e.e3
    let g2 ← localToGlobal F m e.e1 e.e2
    let g3 ← localToGlobal F m e.e1 e.e3
    let phi ← polarPhi F m e o g0 g1 g2 g3
    return ⟨polarRMin F e o g0 g1 g2 g3, polarRMax F e o g0 g1 g2 g3, phi.1, phi.2⟩

/-- The switch over the coordinate types, lines 261-309. -/
def globalExtent (F : TrigFns K) (m : Module K) (e : Ext K) : Res (Ext K) :=
  if m.momsCoordinateType = POLAR then
    if m.layout.coordinateType = POLAR then globalExtentPolarPolar F m e
    else if m.layout.coordinateType = CARTESIAN then .throw .notImplemented
    else .throw .gear
  else if m.momsCoordinateType = CARTESIAN then
    if m.layout.coordinateType = POLAR then globalExtentCartesianPolar F m e
    else if m.layout.coordinateType = CARTESIAN then globalExtentCartesianCartesian F m e
    else .throw .gear
  else .throw .gear

/-- `convertLocalPlaneToGlobalPlaneExtend`, lines 196-313: the module afterwards and the outcome. -/
def convertExtents (F : TrigFns K) (m : Module K) : Module K × Res Unit :=
  match localExtent F m with
  | .ok e =>
    let m := { m with localModuleExtent := e }
    match globalExtent F m e with
    | .ok me =>
      let m := { m with moduleExtent := me }
      match globalExtent F m m.layout.planeExtent with
      | .ok pe => ({ m with planeExtent := pe }, .ok ())
      | .throw x => (m, .throw x)
      | .ub => (m, .ub)
    | .throw x => (m, .throw x)
    | .ub => (m, .ub)
  | .throw x => (m, .throw x)
  | .ub => (m, .ub)

/-- `setBorderWidth`, lines 1473-1477. -/
def setBorderWidth (F : TrigFns K) (m : Module K) (border : K) : Module K × Res Unit :=
  convertExtents F { m with border }

/-- `setOffset`, lines 1479-1504. -/
def setOffset (F : TrigFns K) (m : Module K) (x y : K) : Module K × Res Unit :=
  let m := { m with offset := (x, y) }
  if m.momsCoordinateType = POLAR then
    convertExtents F (checkLocalIsGlobal { m with offsetCartesian := (x * F.cos y, x * F.sin y) })
  else if m.momsCoordinateType = CARTESIAN then
    convertExtents F (checkLocalIsGlobal { m with offsetCartesian := (x, y) })
  else (m, .throw .gear)

/-- `setZPosition`, lines 1506-1510. -/
def setZPosition (m : Module K) (z : K) : Module K := { m with zPosition := z, zPositionIsSet := true }

/-- `setAngle`, lines 1512-1520. -/
def setAngle (F : TrigFns K) (m : Module K) (angle : K) : Module K × Res Unit :=
  convertExtents F (checkLocalIsGlobal { m with angle, cosAngle := F.cos angle, sinAngle := F.sin angle })

/-- `setReadoutFrequency`, lines 1522-1530. -/
def setReadoutFrequency (m : Module K) (frequency : K) : Module K := { m with readoutFrequency := frequency }

/-- `getZPosition`, lines 1548-1553. -/
def getZPosition (m : Module K) : Res K := if m.zPositionIsSet then .ok m.zPosition else .throw .noZPosition

/-- `getPlaneExtent`, lines 1275-1277. -/
def getPlaneExtent (m : Module K) : Ext K := m.planeExtent
/-- `getModuleExtent`, header line 179. -/
def getModuleExtent (m : Module K) : Ext K := m.moduleExtent
/-- `getLocalModuleExtent`, header line 189. -/
def getLocalModuleExtent (m : Module K) : Ext K := m.localModuleExtent
/-- `getReadoutFrequency`, header line 233. -/
def getReadoutFrequency (m : Module K) : K := m.readoutFrequency
/-- `getOffset`, header line 238. -/
def getOffset (m : Module K) : K × K := m.offset
/-- `getAngle`, header line 253. -/
def getAngle (m : Module K) : K := m.angle
/-- `getModuleID`, header line 267. -/
def getModuleID (m : Module K) : ℤ := m.moduleID
/-- `getBorderWidth`, header line 287. -/
def getBorderWidth (m : Module K) : K := m.border
/-- `getTPCCoordinateType`, header line 293, and `getCoordinateType`, lines 1270-1273. -/
def getTPCCoordinateType (m : Module K) : ℤ := m.momsCoordinateType

/-- `getPadCenter`, lines 1252-1255. -/
def getPadCenter (F : TrigFns K) (m : Module K) (padIndex : ℤ) : Res (K × K) := do
  let c ← m.layout.getPadCenter padIndex
  localToGlobal F m c.1 c.2

/-- `getNearestPad`, lines 1279-1282. -/
def getNearestPad (F : TrigFns K) (m : Module K) (c0 c1 : K) : Res ℤ := do
  let c ← globalToLocal F m c0 c1
  m.layout.getNearestPad c.1 c.2

/-- `isInsidePad(c0, c1, padIndex)`, lines 1284-1287. -/
def isInsidePad (F : TrigFns K) (m : Module K) (c0 c1 : K) (padIndex : ℤ) : Res Bool := do
  let c ← globalToLocal F m c0 c1
  m.layout.isInsidePad c.1 c.2 padIndex

/-- The local coordinates with the angle brought into the range of the module, e.g. lines 1290-1302. -/
def wrappedLocal (F : TrigFns K) (m : Module K) (c0 c1 : K) : Res (K × K) := do
  let c ← globalToLocal F m c0 c1
  return if m.layout.coordinateType = POLAR then
    (c.1, wrapBelow F.pi (m.localModuleExtent.e2 + 2 * F.pi) (wrapUp F.pi m.localModuleExtent.e2 c.2)) else c

/-- `isInsidePad(c0, c1)`, lines 1289-1306. -/
def isInsideAnyPad (F : TrigFns K) (m : Module K) (c0 c1 : K) : Res Bool := do
  let c ← wrappedLocal F m c0 c1
  let p ← m.layout.getNearestPad c.1 c.2
  m.layout.isInsidePad c.1 c.2 p

/-- `isInsideModule`, lines 1308-1333. -/
def isInsideModule (F : TrigFns K) (m : Module K) (c0 c1 : K) : Res Bool := do
  let c ← wrappedLocal F m c0 c1
  let e := m.localModuleExtent
  return decide (c.1 ≥ e.e0 ∧ c.1 ≤ e.e1 ∧ c.2 ≥ e.e2 ∧ c.2 ≤ e.e3)

/-- `getDistanceToPad`, lines 1335-1339. -/
def getDistanceToPad (F : TrigFns K) (m : Module K) (c0 c1 : K) (padIndex : ℤ) : Res K := do
  let c ← globalToLocal F m c0 c1
  m.layout.getDistanceToPad c.1 c.2 padIndex

/-- `getDistanceToModule`, lines 1341-1465. -/
def getDistanceToModule (F : TrigFns K) (m : Module K) (c0 c1 : K) : Res K := do
  let c ← wrappedLocal F m c0 c1
  let e := m.localModuleExtent
  if c.2 ≥ e.e2 ∧ c.2 ≤ e.e3 then
    return if c.1 < e.e0 then e.e0 - c.1 else if c.1 ≤ e.e1 then 0 else c.1 - e.e1
  else if m.layout.coordinateType = CARTESIAN then
    return if c.2 < e.e2 then
        if c.1 < e.e0 then F.sqrt ((e.e0 - c.1) * (e.e0 - c.1) + (e.e2 - c.2) * (e.e2 - c.2))
        else if c.1 ≤ e.e1 then e.e2 - c.2
        else F.sqrt ((c.1 - e.e1) * (c.1 - e.e1) + (e.e2 - c.2) * (e.e2 - c.2))
      else
        if c.1 < e.e0 then F.sqrt ((e.e0 - c.1) * (e.e0 - c.1) + (c.2 - e.e3) * (c.2 - e.e3))
        else if c.1 ≤ e.e1 then c.2 - e.e3
        else F.sqrt ((c.1 - e.e1) * (c.1 - e.e1) + (c.2 - e.e3) * (c.2 - e.e3))
  else if m.layout.coordinateType = POLAR then
    let d1 := edgeDistance F.toFns c.1 c.2 e.e0 e.e1 e.e2
    let d2 := edgeDistance F.toFns c.1 c.2 e.e0 e.e1 e.e3
    return if d1 < d2 then d1 else d2
  else .throw .gear

/-- `isOverlapping`, lines 1467-1471. -/
def isOverlapping (_m _other : Module K) : Res Bool := .throw .notImplemented

end Gear.TpcModule
