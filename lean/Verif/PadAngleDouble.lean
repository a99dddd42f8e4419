/-
Model of `gear::FixedPadAngleDiskLayout` (`src/gearimpl/FixedPadAngleDiskLayout.cc`) with the arithmetic of `double`:
every operation is rounded, and conversions to `int` may be out of range.  `PadAngle.lean` has the same functions in
exact arithmetic; `exact_arithmetic` in `PadAngleDoubleProps.lean` shows that centres, distances and `isInsidePad` agree if
nothing is rounded.
-/
import Verif.PadAngle
import Verif.MaterialMap

set_option autoImplicit false
set_option linter.unusedSectionVars false

namespace Gear.PadAngle.Double

open PadIndex Disk
open MaterialMap (Arith)

variable {K : Type} [Field K] [LinearOrder K] [IsStrictOrderedRing K] [FloorRing K]

/-- A conversion from `double` to a 32-bit `int`: undefined if the integral part is no `int` ([conv.fpint]). -/
def toInt (x : K) : Res ℤ :=
  if -2147483648 ≤ truncInt x ∧ truncInt x ≤ 2147483647 then .ok (truncInt x) else .ub

/-- `(int) std::floor( x )`. -/
def floorInt (x : K) : Res ℤ := toInt ((⌊x⌋ : ℤ) : K)

/-- Constructor, lines 28-108.  Simplification: a division by zero rows or pads gives 0 here. -/
def new (F : Arith K) (rMin rMax : K) (nRow : ℤ) (phiMin phiMax : K) (nPadsInRow : ℤ) : Res (Layout K) :=
  if nRow < 0 then .throw .lengthError
  else .ok
    { rMin, rMax, nRow, phiMin, phiMax, nPadsInRow
      rowHeight := F.div (F.sub rMax rMin) nRow
      padAngle := F.div (F.sub phiMax phiMin) nPadsInRow
      extent := [rMin, rMax, phiMin, phiMax]
      padIndices := List.replicate nRow.toNat none
      nPad := nRow * nPadsInRow }

/-- `getPadCenter`, lines 151-161. -/
def getPadCenter (F : Arith K) (L : Layout K) (padIndex : ℤ) : K × K :=
  let rowNum := getRowNumber padIndex
  let padNum := getPadNumber padIndex
  (F.add (F.mul (F.add (rowNum : K) (1 / 2)) L.rowHeight) L.rMin,
    F.add (F.mul (F.add (padNum : K) (1 / 2)) L.padAngle) L.phiMin)

/-- `r * (cos(phi)*cos(phiE) + sin(phi)*sin(phiE))`, lines 253 and 270, and `FixedDiskLayoutBase.cc` lines 54 and
73.  Simplification: the results of `cos` and `sin` are the nearest doubles. -/
def rIntersect (F : Arith K) (r phi phiE : K) : K :=
  F.mul r (F.add (F.mul (F.rnd (F.cos phi)) (F.rnd (F.cos phiE))) (F.mul (F.rnd (F.sin phi)) (F.rnd (F.sin phiE))))

/-- The distance to one radial edge, `FixedDiskLayoutBase.cc` lines 54-69 and 73-88.  Simplification: the square root of
a number that is negative through rounding is NaN in C++ and a number here. -/
def edgeDistance (F : Arith K) (r phi rMin rMax phiE : K) : K :=
  let rI := rIntersect F r phi phiE
  let m := F.mul r (F.sub (F.mul (F.rnd (F.cos phi)) (F.rnd (F.sin phiE))) (F.mul (F.rnd (F.sin phi)) (F.rnd (F.cos phiE))))
  if rI < rMin then
    F.rnd (F.sqrt (F.sub (F.add (F.mul r r) (F.mul rMin rMin)) (F.mul (F.mul 2 rMin) rI)))
  else if rI > rMax then
    F.rnd (F.sqrt (F.sub (F.add (F.mul r r) (F.mul rMax rMax)) (F.mul (F.mul 2 rMax) rI)))
  else |m|

/-- `FixedDiskLayoutBase::getDistanceToPad`, `FixedDiskLayoutBase.cc` lines 20-96. -/
def getDistanceToPad (F : Arith K) (L : Layout K) (r phi : K) (padIndex : ℤ) : K :=
  let c := getPadCenter F L padIndex
  let rMin := F.sub c.1 (F.div L.rowHeight 2)
  let rMax := F.add c.1 (F.div L.rowHeight 2)
  let phiMin := F.sub c.2 (F.div L.padAngle 2)
  let phiMax := F.add c.2 (F.div L.padAngle 2)
  if phi ≥ phiMin ∧ phi ≤ phiMax then
    if r ≥ rMin ∧ r ≤ rMax then 0
    else if r < rMin then F.sub rMin r
    else F.sub r rMax
  else
    let d1 := edgeDistance F r phi rMin rMax phiMin
    let d2 := edgeDistance F r phi rMin rMax phiMax
    if d1 < d2 then d1 else d2

/-- The number of the row for a radius, lines 228, 257 and 274, with the limit of lines 230, 258 and 275; `below` tells
whether the radius that is compared is below `_rMin`. -/
def rowOf (F : Arith K) (L : Layout K) (below : Bool) (r : K) : Res ℤ := do
  let row ← if below then .ok 0 else floorInt (F.div (F.sub r L.rMin) L.rowHeight)
  return if row ≥ L.nRow then L.nRow - 1 else row

/-- The row of the nearest pad on one edge, lines 236-260 and 263-277. -/
def edgeRow (F : Arith K) (L : Layout K) (r phi phiE : K) : Res ℤ :=
  if |F.sub phi phiE| > F.div F.pi 2 then .ok 0
  else rowOf F L (decide (rIntersect F r phi phiE < L.rMin)) r

/-- The loop `while( phi < lo ) {  phi += 2. * M_PI  ; }`, line 220, with a bound on the number of passes. -/
def loopUp (F : Arith K) (lo : K) : ℕ → K → Option K
  | 0, _ => none
  | n + 1, phi => if phi < lo then loopUp F lo n (F.add phi (F.mul 2 F.pi)) else some phi

/-- The loop `while( phi > hi ) {  phi -= 2. * M_PI  ; }`, line 221, with a bound on the number of passes. -/
def loopDown (F : Arith K) (hi : K) : ℕ → K → Option K
  | 0, _ => none
  | n + 1, phi => if phi > hi then loopDown F hi n (F.sub phi (F.mul 2 F.pi)) else some phi

/-- `getNearestPad`, lines 223-282: after the two loops. -/
def nearestFrom (F : Arith K) (L : Layout K) (r phi : K) : Res ℤ :=
  if phi ≤ L.phiMax ∧ phi ≥ L.phiMin then do
    let padNumber ← toInt (F.div (F.sub phi L.phiMin) L.padAngle)
    let rowNum ← rowOf F L (decide (r < L.rMin)) r
    getPadIndex L rowNum padNumber
  else do
    let rowNumRight ← edgeRow F L r phi L.phiMin
    let rowNumLeft ← edgeRow F L r phi L.phiMax
    let padRight ← getPadIndex L rowNumRight 0
    let padLeft ← getPadIndex L rowNumLeft (L.nPadsInRow - 1)
    return if getDistanceToPad F L r phi padRight < getDistanceToPad F L r phi padLeft then padRight else padLeft

/-- `getNearestPad`, lines 211-284; `none` if one of the loops has not ended after `fuel` passes. -/
def getNearestPad (F : Arith K) (L : Layout K) (fuel : ℕ) (r phi : K) : Option (Res ℤ) :=
  if r < 0 then some (.throw .outOfRange)
  else
    let phiMean := F.div (F.add L.phiMax L.phiMin) 2
    match loopUp F (F.sub phiMean F.pi) fuel phi with
    | none => none
    | some phi =>
      match loopDown F (F.add phiMean F.pi) fuel phi with
      | none => none
      | some phi => some (nearestFrom F L r phi)

/-- `isInsidePad(r, phi, padIndex)`, lines 325-341. -/
def isInsidePad (F : Arith K) (L : Layout K) (r phi : K) (padIndex : ℤ) : Bool :=
  let c := getPadCenter F L padIndex
  !decide (r < F.sub c.1 (F.div L.rowHeight 2) ∨ r > F.add c.1 (F.div L.rowHeight 2) ∨
    phi < F.sub c.2 (F.div L.padAngle 2) ∨ phi > F.add c.2 (F.div L.padAngle 2))

end Gear.PadAngle.Double
