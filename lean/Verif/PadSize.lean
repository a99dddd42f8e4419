/-
Model of `gear::FixedPadSizeDiskLayout`
(`src/gearimpl/FixedPadSizeDiskLayout.cc`, `include/gear/gearimpl/FixedPadSizeDiskLayout.h`).
-/
import Verif.Disk

set_option autoImplicit false
set_option linter.unusedSectionVars false

namespace Gear.PadSize

open PadIndex Disk
open Rect (elem elemUb elemAt)

/-- `FixedPadSizeDiskLayout::Row`, header lines 28-32. -/
structure Row (K : Type) where
  nPad : ℤ
  rCenter : K
  phiPad : K
deriving DecidableEq, Repr

/-- The members of `FixedPadSizeDiskLayout`, header lines 36-47. -/
structure Layout (K : Type) where
  rMin : K
  rMax : K
  phiMax : K
  rowHeight : K
  padWidth : K
  padHeight : K
  padGap : K
  nRow : ℤ
  nPad : ℤ
  rows : List (Row K)
  extent : List K
  padIndices : List (Option (List ℤ))
deriving DecidableEq, Repr

variable {K : Type} [Field K] [LinearOrder K] [IsStrictOrderedRing K] [FloorRing K]

/-- The loops that bring the upper angle into +-2 pi, lines 54-55. -/
def wrapPhiMax (pi phiMax : K) : K := wrapDown pi (2 * pi) (wrapUp pi (-2 * pi) phiMax)

/-- The number of rows, lines 68-83. -/
def numRows (rMin rMax padHeight : K) (nRow : ℤ) : ℤ :=
  let nr := truncInt ((rMax + 1 / 100 - rMin) / padHeight)
  if nRow > nr then nr else if nRow > 0 then nRow else nr

/-- One pass of the loop over the rows, lines 99-118. -/
def mkRow (rMin phiMax padWidth padGap rowHeight : K) (i : ℕ) : Row K :=
  let rCenter := rMin + i * rowHeight + 1 / 2 * rowHeight
  let u := rCenter * phiMax
  let nPad := ⌊u / (padWidth + padGap)⌋
  ⟨nPad, rCenter, phiMax / nPad⟩

/-- Constructor, lines 28-119.  `resize` throws for a negative number.  Simplification: a division by zero
(no rows, a row without pads, `padWidth + padGap = 0`) gives 0 here and infinity or NaN in C++; the
overflow of `int` is not modelled. -/
def new (pi rMin rMax padHeight padWidth : K) (nRow : ℤ) (padGap phiMax : K) : Res (Layout K) :=
  if padHeight ≤ 0 ∨ padWidth ≤ 0 then .throw .parse
  else
    let phiMax := wrapPhiMax pi phiMax
    let nRow := numRows rMin rMax padHeight nRow
    if nRow < 0 then .throw .lengthError
    else
      let rowHeight := (rMax - rMin) / nRow
      let rows := (List.range nRow.toNat).map (mkRow rMin phiMax padWidth padGap rowHeight)
      .ok { rMin, rMax, phiMax, padWidth, padHeight, padGap, nRow, rowHeight, rows
            nPad := rows.foldl (fun s row => s + row.nPad) 0
            extent := [rMin, rMax, 0, phiMax]
            padIndices := List.replicate nRow.toNat none }

/-- `copy_and_assign`, lines 133-159; used by the copy constructor, `operator=` and `clone`. -/
def copy (right : Layout K) : Layout K where
  rMin := right.rMin
  rMax := right.rMax
  phiMax := right.phiMax
  rowHeight := right.rowHeight
  padWidth := right.padWidth
  padHeight := right.padHeight
  padGap := right.padGap
  nRow := right.nRow
  nPad := right.nPad
  rows := right.rows
  extent := right.extent
  padIndices := List.replicate right.nRow.toNat none

/-- `getNPads`, header line 118. -/
def getNPads (L : Layout K) : ℤ := L.nPad
/-- `getNRows`, lines 161-163. -/
def getNRows (L : Layout K) : ℤ := L.rows.length
/-- `getRowHeight`, header line 126. -/
def getRowHeight (L : Layout K) (_rowNumber : ℤ) : K := L.rowHeight
/-- `getPadHeight`, header line 130. -/
def getPadHeight (L : Layout K) (_padIndex : ℤ) : K := L.padHeight
/-- `getPadGap`, header line 93. -/
def getPadGap (L : Layout K) : K := L.padGap
/-- `getFixedPadWidth`, header line 97. -/
def getFixedPadWidth (L : Layout K) : K := L.padWidth
/-- `getPlaneExtent`, header line 153. -/
def getPlaneExtent (L : Layout K) : List K := L.extent

/-- `getPadWidth`, lines 166-179. -/
def getPadWidth (L : Layout K) (padIndex : ℤ) : K :=
  match elem L.rows (getRowNumber padIndex) with
  | some row => L.padWidth / row.rCenter
  | none => 0

/-- `getPadPitch`, lines 181-194. -/
def getPadPitch (L : Layout K) (padIndex : ℤ) : K :=
  match elem L.rows (getRowNumber padIndex) with
  | some row => row.phiPad
  | none => 0

/-- `getPadCenter`, lines 198-209. -/
def getPadCenter (L : Layout K) (padIndex : ℤ) : Res (K × K) := do
  let row ← elemUb L.rows (getRowNumber padIndex)
  return (row.rCenter, ((getPadNumber padIndex : K) + 1 / 2) * row.phiPad)

/-- `getPadIndex`, lines 238-258.  `size() - 1` wraps around when there are no rows. -/
def getPadIndex (L : Layout K) (rowNum padNum : ℤ) : Res ℤ :=
  if L.rows ≠ [] ∧ (BitVec.ofInt 32 rowNum).toNat > L.rows.length - 1 then .throw .outOfRange
  else do
    let row ← elemUb L.rows rowNum
    if padNum > row.nPad - 1 then .throw .outOfRange
    else encode rowNum padNum

/-- `getPadsInRow`, lines 211-236.  `new std::vector<int>(nPad)` throws for a negative number. -/
def getPadsInRow (L : Layout K) (rowNumber : ℤ) : Layout K × Res (List ℤ) :=
  match elem L.padIndices rowNumber with
  | none => (L, .ok [])
  | some (some l) => (L, .ok l)
  | some none =>
    match elem L.rows rowNumber with
    | none => (L, .ok [])
    | some row =>
      if row.nPad < 0 then (L, .throw .lengthError)
      else
        match buildPads (getPadIndex L) rowNumber row.nPad.toNat with
        | .ok l => ({ L with padIndices := L.padIndices.set rowNumber.toNat (some l) }, .ok l)
        | .throw .outOfRange => (L, .ok [])
        | .throw e => (L, .throw e)
        | .ub => (L, .ub)

/-- The test for a full circle, lines 270, 464 and 486. -/
def fullCircle (F : Fns K) (L : Layout K) : Prop := |L.phiMax - 2 * F.pi| < 1 / 1000000

instance (F : Fns K) (L : Layout K) : Decidable (fullCircle F L) := by
  unfold fullCircle; infer_instance

/-- The loops that bring an angle into [0, 2 pi], lines 273-274, 513-514 and 544-545. -/
def wrapTurn (pi phi : K) : K := wrapDown pi (2 * pi) (wrapUp pi 0 phi)

/-- The row number from a radius on an edge, lines 355-358 and 368-371. -/
def clampRow (L : Layout K) (r : K) : ℤ :=
  let rowNum := ⌊(r - L.rMin) / L.rowHeight⌋
  let rowNum := if rowNum < 0 then 0 else rowNum
  if rowNum ≥ L.nRow then L.nRow - 1 else rowNum

/-- `getNearestPad`, lines 260-387. -/
def getNearestPad (F : Fns K) (L : Layout K) (r phi : K) : Res ℤ :=
  if |r| < 1 / 1000000 then .throw .gear
  else
    let full := fullCircle F L
    let phi := if full then wrapTurn F.pi phi
      else wrapDown F.pi (2 * F.pi) (wrapUp F.pi (-2 * F.pi) phi)
    let rOnMax := if full then r else r * F.cos (phi - L.phiMax)
    let rOnMin := if full then r else r * F.cos (phi - 0)
    if r > 0 ∧ phi ≥ 0 ∧ phi ≤ L.phiMax then do
      let rowNum := if r < L.rMin then 0 else ⌊(r - L.rMin) / L.rowHeight⌋
      let rowNum := if rowNum ≥ L.nRow then L.nRow - 1 else rowNum
      let row ← elemUb L.rows rowNum
      let padNum := ⌊phi / row.phiPad⌋
      let padNum := if padNum ≥ row.nPad then row.nPad - 1 else padNum
      getPadIndex L rowNum padNum
    else if rOnMin < L.rMin ∧ phi < 0 then getPadIndex L 0 0
    else if rOnMin > L.rMax ∧ phi < 0 then getPadIndex L (L.nRow - 1) 0
    else if rOnMax < L.rMin ∧ phi > L.phiMax then do
      let row ← elemUb L.rows 0
      getPadIndex L 0 (row.nPad - 1)
    else if rOnMax > L.rMax ∧ phi > L.phiMax then do
      let row ← elemUb L.rows (L.nRow - 1)
      getPadIndex L (L.nRow - 1) (row.nPad - 1)
    else if rOnMin ≥ L.rMin ∧ rOnMin ≤ L.rMax ∧ phi < 0 then
      getPadIndex L (clampRow L rOnMin) 0
    else if rOnMax ≥ L.rMin ∧ rOnMax ≤ L.rMax ∧ phi > L.phiMax then do
      let row ← elemUb L.rows (clampRow L rOnMax)
      getPadIndex L (clampRow L rOnMax) (row.nPad - 1)
    else getPadIndex L 0 0

/-- `getLeftNeighbour`, lines 454-474. -/
def getLeftNeighbour (F : Fns K) (L : Layout K) (padIndex : ℤ) : Res ℤ := do
  let pn := getPadNumber padIndex + 1
  let rn := getRowNumber padIndex
  let row ← elemAt L.rows rn
  if pn > row.nPad - 1 then
    if fullCircle F L then getPadIndex L rn 0 else .throw .gear
  else getPadIndex L rn pn

/-- `getRightNeighbour`, lines 476-495. -/
def getRightNeighbour (F : Fns K) (L : Layout K) (padIndex : ℤ) : Res ℤ := do
  let pn := getPadNumber padIndex - 1
  let rn := getRowNumber padIndex
  let row ← elemAt L.rows rn
  if pn < 0 then
    if fullCircle F L then getPadIndex L rn (row.nPad - 1) else .throw .gear
  else getPadIndex L rn pn

/-- `isInsidePad(r, phi, padIndex)`, lines 498-535. -/
def isInsidePad (F : Fns K) (L : Layout K) (r phi : K) (padIndex : ℤ) : Res Bool :=
  if r < L.rMin ∨ r > L.rMax then .ok false
  else do
    let phi := wrapTurn F.pi phi
    let p ← getPadCenter L padIndex
    let phiPadHalf := 1 / 2 * getPadWidth L padIndex
    return decide (|r - p.1| ≤ 1 / 2 * L.padHeight ∧ |phi - p.2| ≤ phiPadHalf)

/-- `isInsidePad(r, phi)`, lines 537-549. -/
def isInsideAnyPad (F : Fns K) (L : Layout K) (r phi : K) : Res Bool :=
  if r < L.rMin ∨ r > L.rMax then .ok false
  else do
    let phi := wrapTurn F.pi phi
    let p ← getNearestPad F L r phi
    isInsidePad F L r phi p

/-- `FixedDiskLayoutBase::getDistanceToPad`, `FixedDiskLayoutBase.cc` lines 20-96, for this layout. -/
def getDistanceToPad (F : Fns K) (L : Layout K) (r phi : K) (padIndex : ℤ) : Res K := do
  let padCenter ← getPadCenter L padIndex
  return keystoneDistance F r phi
    (padCenter.1 - getRowHeight L (getRowNumber padIndex) / 2)
    (padCenter.1 + getRowHeight L (getRowNumber padIndex) / 2)
    (padCenter.2 - getPadPitch L padIndex / 2)
    (padCenter.2 + getPadPitch L padIndex / 2)

end Gear.PadSize
