/-
Model of `gear::VersatileDiskRowLayout` (`src/gearimpl/VersatileDiskRowLayout.cc`) with the arithmetic of `double`: every
operation is rounded, conversions to `int` may be out of range, the square root of a negative number is not a number, and the
loops that change an angle have a bound on the number of passes.  `Versatile.lean` has the same functions in exact arithmetic,
and those that do not compute with doubles.
-/
import Verif.VersatileSpec
import Verif.PadSizeDouble

set_option autoImplicit false
set_option linter.unusedSectionVars false

namespace Gear.Versatile.Double

open PadIndex Disk
open Rect (elem elemUb elemAt)
open MaterialMap (Arith)
open PadAngle.Double (floorInt)
open PadSize.Double (wrap)

variable {K : Type} [Field K] [LinearOrder K] [IsStrictOrderedRing K] [FloorRing K]

/-- `Row::Row`, lines 347-384.  Simplification: a division by `rCentre = 0` gives 0 here and an infinity or NaN in C++. -/
def mkRow (F : Arith K) (rowNumber nPads : ℤ) (rCentre padPitchMm rowHeight padWidthMm padHeight offsetMm : K) :
    Res (Row K) :=
  let offset := F.div offsetMm rCentre
  let (offset, offsetMm) :=
    if offset < F.mul (-2) F.pi then (F.add offset (F.mul 2 F.pi), F.add offsetMm (F.mul (F.mul rCentre 2) F.pi))
    else (offset, offsetMm)
  let (_, offsetMm) :=
    if offset ≥ F.mul 2 F.pi then (F.sub offset (F.mul 2 F.pi), F.add offsetMm (F.mul (F.mul rCentre 2) F.pi))
    else (offset, offsetMm)
  let padPitch := F.div padPitchMm rCentre
  if F.mul padPitch nPads > F.mul 2 F.pi then .throw .gear
  else
    let padWidth := F.div padWidthMm rCentre
    let offset := F.div offsetMm rCentre
    .ok { rowNumber, nPads, padPitchMm, padPitch, padWidthMm, padWidth, rowHeight, padHeight, offsetMm
          offset, rCentre, phiMax := F.add offset (F.mul padPitch nPads)
          rMin := F.add rCentre (F.mul rowHeight (1 / 2)), rMax := 0 }

/-- The loop that pushes the rows, lines 82-88.  What has been pushed stays when a row throws. -/
def pushRows (F : Arith K) (nPads : ℤ) (padPitch rowHeight padWidth padHeight offset : K) :
    ℕ → Layout K → K → Layout K × Res Unit
  | 0, L, _ => (L, .ok ())
  | n + 1, L, rCentre =>
    match mkRow F L.rows.length nPads rCentre padPitch rowHeight padWidth padHeight offset with
    | .ok row =>
      pushRows F nPads padPitch rowHeight padWidth padHeight offset n
        { L with rows := L.rows ++ [row], padIndices := L.padIndices ++ [none] } (F.add rCentre rowHeight)
    | .throw e => (L, .throw e)
    | .ub => (L, .ub)

/-- The new plane extent, lines 91-101. -/
def updateExtent (F : Arith K) (a : RowArgs K) (L : Layout K) : Layout K :=
  match L.rows.getLast? with
  | none => L
  | some back =>
    let ext1 := F.add L.ext1 (F.mul a.repeats a.rowHeight)
    let ext2 := if L.rows.length = 1 ∨ back.offset < L.ext2 then back.offset else L.ext2
    let ext3 := if L.rows.length = 1 ∨ back.phiMax > L.ext3 then back.phiMax else L.ext3
    if F.sub ext3 ext2 > F.mul 2 F.pi then { L with ext1, ext2 := 0, ext3 := F.mul 2 F.pi }
    else { L with ext1, ext2, ext3 }

/-- `addRow`, lines 53-102: the layout afterwards and the outcome of the call.  The overflow of `int` is
not modelled. -/
def addRow (F : Arith K) (L : Layout K) (a : RowArgs K) : Layout K × Res Unit :=
  if a.nPads ≤ 0 then (L, .throw .gear)
  else if a.padPitch < 0 then (L, .throw .gear)
  else if a.padWidth < 0 then (L, .throw .gear)
  else if a.padWidth > a.padPitch then (L, .throw .gear)
  else if a.rowHeight ≤ 0 then (L, .throw .gear)
  else if a.repeats ≤ 0 then (L, .throw .gear)
  else
    let padWidth := if a.padWidth = 0 then a.padPitch else a.padWidth
    let padHeight := if a.padHeight = 0 then a.rowHeight else a.padHeight
    let rCentre := F.add L.ext1 (F.mul a.rowHeight (1 / 2))
    match pushRows F a.nPads a.padPitch a.rowHeight padWidth padHeight a.offset a.repeats.toNat
        { L with nPad := L.nPad + a.repeats * a.nPads } rCentre with
    | (L', .ok ()) => (updateExtent F a L', .ok ())
    | r => r

/-- `getPadCenter`, lines 137-149. -/
def getPadCenter (F : Arith K) (L : Layout K) (padIndex : ℤ) : Res (K × K) := do
  let rowNum ← getRowNumber L padIndex
  let row ← elemUb L.rows rowNum
  return (row.rCentre, F.add row.offset (F.mul (F.add (getPadNumber padIndex : K) (1 / 2)) row.padPitch))

/-- The inner radius of a row, lines 318, 424, 463 and 487. -/
def rowMin (F : Arith K) (row : Row K) : K := F.sub row.rCentre (F.mul row.rowHeight (1 / 2))

/-- The outer radius of a row, lines 319, 425, 464 and 488. -/
def rowMax (F : Arith K) (row : Row K) : K := F.add row.rCentre (F.mul row.rowHeight (1 / 2))

/-- The last angle of a row, lines 396, 427 and 489. -/
def rowEnd (F : Arith K) (row : Row K) : K := F.add row.offset (F.mul row.nPads row.padPitch)

/-- `<` of two doubles; `none` is NaN. -/
def less : Option K → Option K → Bool
  | some a, some b => decide (a < b)
  | _, _ => false

/-- The expression of lines 469-470 and 493-494, for a corner at the radius `rho` and the angle `phiE`. -/
def cornerSquare (F : Arith K) (rho phiE r phi : K) : K :=
  F.sub (F.add (F.mul rho rho) (F.mul r r)) (F.mul (F.mul (F.mul 2 rho) r) (F.rnd (F.cos (F.sub phiE phi))))

/-- `sqrt`; `none` is NaN. -/
def squareRoot (F : Arith K) (x : K) : Option K := if x < 0 then none else some (F.rnd (F.sqrt x))

/-- `Row::distanceToPhiMin` (lines 456-478) and `Row::distanceToPhiMax` (lines 480-502) with the angle
`phiE` of the edge, after the loops; `none` is NaN. -/
def distanceToEdge (F : Arith K) (row : Row K) (phiE r phi : K) : Option K :=
  let d0 := cornerSquare F (rowMin F row) phiE r phi
  let d1 := cornerSquare F (rowMax F row) phiE r phi
  squareRoot F (if d0 > d1 then d1 else d0)

/-- `Row::getDistanceToRow`, lines 415-453, after the loops; `none` is NaN. -/
def getDistanceToRow (F : Arith K) (row : Row K) (r phi : K) : Option K :=
  if phi ≥ row.offset ∧ phi ≤ rowEnd F row then
    if r ≥ rowMin F row ∧ r ≤ rowMax F row then some 0
    else if r < rowMin F row then some (F.sub (rowMin F row) r)
    else some (F.sub r (rowMax F row))
  else
    let d1 := distanceToEdge F row row.offset r phi
    let d2 := distanceToEdge F row (rowEnd F row) r phi
    if less d1 d2 then d1 else d2

/-- `Row::getNearestPad`, lines 386-413, after the loops.  With a pitch of 0 an infinite value is converted to `int`. -/
def rowNearestPad (F : Arith K) (row : Row K) (r phi : K) : Res ℤ :=
  if phi < rowEnd F row then
    if row.padPitch = 0 then .ub
    else do
      let padNumber ← floorInt (F.div (F.sub phi row.offset) row.padPitch)
      encode row.rowNumber padNumber
  else if less (distanceToEdge F row row.offset r phi) (distanceToEdge F row (rowEnd F row) r phi) then encode row.rowNumber 0
  else encode row.rowNumber (row.nPads - 1)

/-- The loop of `getNearestPad`, lines 291-302. -/
def nearestLoop (F : Arith K) (r phi : K) : List (Row K) → Bool → ℤ → Option K → Res ℤ
  | [], _, nearestPad, _ => .ok nearestPad
  | row :: rows, first, nearestPad, distance =>
    let newDistance := getDistanceToRow F row r phi
    if less newDistance distance ∨ first = true then do
      let nearestPad ← rowNearestPad F row r phi
      nearestLoop F r phi rows false nearestPad newDistance
    else nearestLoop F r phi rows false nearestPad distance

/-- `getNearestPad`, lines 286-308; `none` if one of the loops that change the angle (lines 391-392, 419-420, 460-461, 484-485;
they are the same in every row, and leave an angle unchanged that they have changed before) has not ended after `fuel` passes. -/
def getNearestPad (F : Arith K) (L : Layout K) (fuel : ℕ) (r phi : K) : Option (Res ℤ) :=
  if L.rows = [] then some (.throw .gear)
  else (wrap F fuel 0 (F.mul 2 F.pi) phi).map fun phi => do
    let nearestPad ← nearestLoop F r phi L.rows true (-1) (some 0)
    if nearestPad = -1 then .throw .gear else .ok nearestPad

/-- `isInsidePad(r, phi, padIndex)`, lines 310-334. -/
def isInsidePad (F : Arith K) (L : Layout K) (r phi : K) (padIndex : ℤ) : Res Bool := do
  let pn := getPadNumber padIndex
  let rn ← getRowNumber L padIndex
  let row ← elemUb L.rows rn
  let phiMin := F.add row.offset (F.mul row.padPitch pn)
  let phi := if phi < phiMin then F.add phi (F.mul 2 F.pi) else phi
  let phi := if phi ≥ F.add phiMin (F.mul 2 F.pi) then F.sub phi (F.mul 2 F.pi) else phi
  let phiMax := F.add phiMin row.padPitch
  return decide (r ≥ rowMin F row ∧ r ≤ rowMax F row ∧ phi ≤ phiMax)

end Gear.Versatile.Double
