/-
Model of `gear::FixedPadAngleDiskLayout`
(`src/gearimpl/FixedPadAngleDiskLayout.cc`, `include/gear/gearimpl/FixedPadAngleDiskLayout.h`).
-/
import Verif.Disk

set_option autoImplicit false
set_option linter.unusedSectionVars false

namespace Gear.PadAngle

open PadIndex Disk
open Rect (elem)

/-- The members of `FixedPadAngleDiskLayout`, header lines 30-44; `_extent` is
`[rMin, rMax, phiMin, phiMax]`. -/
structure Layout (K : Type) where
  rMin : K
  rMax : K
  nRow : ℤ
  rowHeight : K
  phiMin : K
  phiMax : K
  padAngle : K
  nPadsInRow : ℤ
  nPad : ℤ
  extent : List K
  padIndices : List (Option (List ℤ))
deriving DecidableEq, Repr

variable {K : Type} [Field K] [LinearOrder K] [IsStrictOrderedRing K] [FloorRing K]

/-- Constructor, lines 28-108.  `_padIndices.resize(nRow)` throws for a negative number.
Simplification: a division by zero rows or pads gives infinity or NaN in C++ and 0 here; such a layout has
no pads.  `int` overflow of `_nPad` is not modelled. -/
def new (rMin rMax : K) (nRow : ℤ) (phiMin phiMax : K) (nPadsInRow : ℤ) : Res (Layout K) :=
  if nRow < 0 then .throw .lengthError
  else .ok
    { rMin, rMax, nRow, phiMin, phiMax, nPadsInRow
      rowHeight := (rMax - rMin) / nRow
      padAngle := (phiMax - phiMin) / nPadsInRow
      extent := [rMin, rMax, phiMin, phiMax]
      padIndices := List.replicate nRow.toNat none
      nPad := nRow * nPadsInRow }

/-- `copy_and_assign`, lines 122-149; used by the copy constructor, `operator=` and `clone`. -/
def copy (right : Layout K) : Layout K where
  padAngle := right.padAngle
  rMin := right.rMin
  rMax := right.rMax
  nRow := right.nRow
  rowHeight := right.rowHeight
  phiMin := right.phiMin
  phiMax := right.phiMax
  nPad := right.nPad
  nPadsInRow := right.nPadsInRow
  extent := right.extent
  padIndices := List.replicate right.nRow.toNat none

/-- `getNPads`, header line 114. -/
def getNPads (L : Layout K) : ℤ := L.nPad
/-- `getNRows`, header line 118. -/
def getNRows (L : Layout K) : ℤ := L.nRow
/-- `getRowHeight`, header line 122. -/
def getRowHeight (L : Layout K) (_rowNumber : ℤ) : K := L.rowHeight
/-- `getPadHeight`, header line 126. -/
def getPadHeight (L : Layout K) (_padIndex : ℤ) : K := L.rowHeight
/-- `getPadWidth`, header line 131. -/
def getPadWidth (L : Layout K) (_padIndex : ℤ) : K := L.padAngle
/-- `getPadPitch`, header line 136. -/
def getPadPitch (L : Layout K) (_padIndex : ℤ) : K := L.padAngle
/-- `getFixedPadAngle`, header line 91. -/
def getFixedPadAngle (L : Layout K) : K := L.padAngle
/-- `getNPadsInRow`, header line 145. -/
def getNPadsInRow (L : Layout K) : ℤ := L.nPadsInRow
/-- `getPlaneExtent`, header line 153. -/
def getPlaneExtent (L : Layout K) : List K := L.extent

/-- `getPadCenter`, lines 151-161. -/
def getPadCenter (L : Layout K) (padIndex : ℤ) : K × K :=
  let rowNum := getRowNumber padIndex
  let padNum := getPadNumber padIndex
  (((rowNum : K) + 1 / 2) * L.rowHeight + L.rMin, ((padNum : K) + 1 / 2) * L.padAngle + L.phiMin)

/-- `getPadIndex`, lines 189-209. -/
def getPadIndex (L : Layout K) (rowNum padNum : ℤ) : Res ℤ :=
  if rowNum > L.nRow - 1 then .throw .outOfRange
  else if padNum > L.nPadsInRow - 1 then .throw .outOfRange
  else encode rowNum padNum

/-- `getPadsInRow`, lines 163-187.  `new std::vector<int>(_nPadsInRow)` throws for a negative number. -/
def getPadsInRow (L : Layout K) (rowNumber : ℤ) : Layout K × Res (List ℤ) :=
  match elem L.padIndices rowNumber with
  | none => (L, .ok [])
  | some (some l) => (L, .ok l)
  | some none =>
    if L.nPadsInRow < 0 then (L, .throw .lengthError)
    else
      match buildPads (getPadIndex L) rowNumber L.nPadsInRow.toNat with
      | .ok l => ({ L with padIndices := L.padIndices.set rowNumber.toNat (some l) }, .ok l)
      | .throw .outOfRange => (L, .ok [])
      | .throw e => (L, .throw e)
      | .ub => (L, .ub)

/-- `FixedDiskLayoutBase::getDistanceToPad`, `FixedDiskLayoutBase.cc` lines 20-96, for this layout. -/
def getDistanceToPad (F : Fns K) (L : Layout K) (r phi : K) (padIndex : ℤ) : K :=
  let padCenter := getPadCenter L padIndex
  keystoneDistance F r phi
    (padCenter.1 - getRowHeight L (getRowNumber padIndex) / 2)
    (padCenter.1 + getRowHeight L (getRowNumber padIndex) / 2)
    (padCenter.2 - getPadPitch L padIndex / 2)
    (padCenter.2 + getPadPitch L padIndex / 2)

/-- The row of the nearest pad on one edge, lines 236-260 and 263-277. -/
def edgeRow (F : Fns K) (L : Layout K) (r phi phiE : K) : ℤ :=
  if |phi - phiE| > F.pi / 2 then 0
  else
    let rIntersect := r * (F.cos phi * F.cos phiE + F.sin phi * F.sin phiE)
    let row := if rIntersect < L.rMin then 0 else ⌊(r - L.rMin) / L.rowHeight⌋
    if row ≥ L.nRow then L.nRow - 1 else row

/-- `getNearestPad`, lines 211-284. -/
def getNearestPad (F : Fns K) (L : Layout K) (r phi : K) : Res ℤ :=
  if r < 0 then .throw .outOfRange
  else
    let phiMean := (L.phiMax + L.phiMin) / 2
    let phi := wrapDown F.pi (phiMean + F.pi) (wrapUp F.pi (phiMean - F.pi) phi)
    if phi ≤ L.phiMax ∧ phi ≥ L.phiMin then
      let padNumber := truncInt ((phi - L.phiMin) / L.padAngle)
      let rowNum := if r < L.rMin then 0 else ⌊(r - L.rMin) / L.rowHeight⌋
      let rowNum := if rowNum ≥ L.nRow then L.nRow - 1 else rowNum
      getPadIndex L rowNum padNumber
    else do
      let rowNumRight := edgeRow F L r phi L.phiMin
      let rowNumLeft := edgeRow F L r phi L.phiMax
      let padRight ← getPadIndex L rowNumRight 0
      let padLeft ← getPadIndex L rowNumLeft (L.nPadsInRow - 1)
      return if getDistanceToPad F L r phi padRight < getDistanceToPad F L r phi padLeft then padRight
        else padLeft

/-- The test for a full circle, lines 296 and 315. -/
def fullCircle (F : Fns K) (L : Layout K) : Prop := |L.phiMax - L.phiMin - 2 * F.pi| < 1 / 1000000

instance (F : Fns K) (L : Layout K) : Decidable (fullCircle F L) := by
  unfold fullCircle; infer_instance

/-- `getRightNeighbour`, lines 286-303. -/
def getRightNeighbour (F : Fns K) (L : Layout K) (padIndex : ℤ) : Res ℤ :=
  let pn := getPadNumber padIndex - 1
  let rn := getRowNumber padIndex
  if pn = -1 then
    if fullCircle F L then getPadIndex L rn (L.nPadsInRow - 1) else .throw .gear
  else getPadIndex L rn pn

/-- `getLeftNeighbour`, lines 305-322. -/
def getLeftNeighbour (F : Fns K) (L : Layout K) (padIndex : ℤ) : Res ℤ :=
  let pn := getPadNumber padIndex + 1
  let rn := getRowNumber padIndex
  if pn = L.nPadsInRow then
    if fullCircle F L then getPadIndex L rn 0 else .throw .gear
  else getPadIndex L rn pn

/-- `isInsidePad(r, phi, padIndex)`, lines 325-341. -/
def isInsidePad (L : Layout K) (r phi : K) (padIndex : ℤ) : Bool :=
  let padCenter := getPadCenter L padIndex
  !decide (r < padCenter.1 - L.rowHeight / 2 ∨ r > padCenter.1 + L.rowHeight / 2 ∨
    phi < padCenter.2 - L.padAngle / 2 ∨ phi > padCenter.2 + L.padAngle / 2)

/-- `isInsidePad(r, phi)`, lines 343-349. -/
def isInsideAnyPad (L : Layout K) (r phi : K) : Bool :=
  !decide (r < L.rMin ∨ r > L.rMax ∨ phi < L.phiMin ∨ phi > L.phiMax)

end Gear.PadAngle
