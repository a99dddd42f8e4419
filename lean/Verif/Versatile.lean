/-
Model of `gear::VersatileDiskRowLayout`
(`src/gearimpl/VersatileDiskRowLayout.cc`, `include/gear/gearimpl/VersatileDiskRowLayout.h`).
-/
import Verif.PadSize

set_option autoImplicit false
set_option linter.unusedSectionVars false

namespace Gear.Versatile

open PadIndex Disk
open Rect (elem elemUb elemAt)
open PadSize (wrapTurn)

/-- `VersatileDiskRowLayout::Row`, header lines 33-48. -/
structure Row (K : Type) where
  rowNumber : ℤ
  nPads : ℤ
  padPitchMm : K
  padPitch : K
  padWidthMm : K
  padWidth : K
  rowHeight : K
  padHeight : K
  offsetMm : K
  offset : K
  rCentre : K
  phiMax : K
  rMin : K
  rMax : K
deriving DecidableEq, Repr

/-- The members of `VersatileDiskRowLayout`, header lines 82-88.  `_isFrayed` is never set to true and is
left out.  The four entries of `_extent` are four fields. -/
structure Layout (K : Type) where
  nPad : ℤ
  rows : List (Row K)
  ext0 : K
  ext1 : K
  ext2 : K
  ext3 : K
  padIndices : List (Option (List ℤ))
deriving DecidableEq, Repr

/-- The arguments of `addRow`, lines 53-55. -/
structure RowArgs (K : Type) where
  nPads : ℤ
  padPitch : K
  rowHeight : K
  offset : K
  padWidth : K
  padHeight : K
  repeats : ℤ

variable {K : Type} [Field K] [LinearOrder K] [IsStrictOrderedRing K] [FloorRing K]

/-- Constructor, lines 13-22. -/
def new (rMin : K) : Layout K := ⟨0, [], rMin, rMin, 0, 0, []⟩

/-- `copy_and_assign`, lines 29-46; used by the copy constructor, `operator=` and `clone`. -/
def copy (right : Layout K) : Layout K where
  nPad := right.nPad
  rows := right.rows
  ext0 := right.ext0
  ext1 := right.ext1
  ext2 := right.ext2
  ext3 := right.ext3
  padIndices := List.replicate right.rows.length none

/-- `Row::Row`, lines 347-384.  `_rMin` is assigned twice and `_rMax` keeps its initial value.
Simplification: a division by `rCentre = 0` gives 0 here and an infinity or NaN in C++. -/
def mkRow (pi : K) (rowNumber nPads : ℤ) (rCentre padPitchMm rowHeight padWidthMm padHeight offsetMm : K) :
    Res (Row K) :=
  let offset := offsetMm / rCentre
  let (offset, offsetMm) :=
    if offset < -2 * pi then (offset + 2 * pi, offsetMm + rCentre * (2 * pi)) else (offset, offsetMm)
  let (_, offsetMm) :=
    if offset ≥ 2 * pi then (offset - 2 * pi, offsetMm + rCentre * (2 * pi)) else (offset, offsetMm)
  let padPitch := padPitchMm / rCentre
  if padPitch * nPads > 2 * pi then .throw .gear
  else
    let padWidth := padWidthMm / rCentre
    let offset := offsetMm / rCentre
    .ok { rowNumber, nPads, padPitchMm, padPitch, padWidthMm, padWidth, rowHeight, padHeight, offsetMm
          offset, rCentre, phiMax := offset + padPitch * nPads
          rMin := rCentre + rowHeight * (1 / 2), rMax := 0 }

/-- The loop that pushes the rows, lines 82-88.  What has been pushed stays when a row throws. -/
def pushRows (pi : K) (nPads : ℤ) (padPitch rowHeight padWidth padHeight offset : K) :
    ℕ → Layout K → K → Layout K × Res Unit
  | 0, L, _ => (L, .ok ())
  | n + 1, L, rCentre =>
    match mkRow pi L.rows.length nPads rCentre padPitch rowHeight padWidth padHeight offset with
    | .ok row =>
      pushRows pi nPads padPitch rowHeight padWidth padHeight offset n
        { L with rows := L.rows ++ [row], padIndices := L.padIndices ++ [none] } (rCentre + rowHeight)
    | .throw e => (L, .throw e)
    | .ub => (L, .ub)

/-- The new plane extent, lines 91-101. -/
def updateExtent (pi : K) (a : RowArgs K) (L : Layout K) : Layout K :=
  match L.rows.getLast? with
  | none => L
  | some back =>
    let ext1 := L.ext1 + a.repeats * a.rowHeight
    let ext2 := if L.rows.length = 1 ∨ back.offset < L.ext2 then back.offset else L.ext2
    let ext3 := if L.rows.length = 1 ∨ back.phiMax > L.ext3 then back.phiMax else L.ext3
    if ext3 - ext2 > 2 * pi then { L with ext1, ext2 := 0, ext3 := 2 * pi }
    else { L with ext1, ext2, ext3 }

/-- `addRow`, lines 53-102: the layout afterwards and the outcome of the call.  The overflow of `int` is
not modelled. -/
def addRow (pi : K) (L : Layout K) (a : RowArgs K) : Layout K × Res Unit :=
  if a.nPads ≤ 0 then (L, .throw .gear)
  else if a.padPitch < 0 then (L, .throw .gear)
  else if a.padWidth < 0 then (L, .throw .gear)
  else if a.padWidth > a.padPitch then (L, .throw .gear)
  else if a.rowHeight ≤ 0 then (L, .throw .gear)
  else if a.repeats ≤ 0 then (L, .throw .gear)
  else
    let padWidth := if a.padWidth = 0 then a.padPitch else a.padWidth
    let padHeight := if a.padHeight = 0 then a.rowHeight else a.padHeight
    let rCentre := L.ext1 + a.rowHeight * (1 / 2)
    match pushRows pi a.nPads a.padPitch a.rowHeight padWidth padHeight a.offset a.repeats.toNat
        { L with nPad := L.nPad + a.repeats * a.nPads } rCentre with
    | (L', .ok ()) => (updateExtent pi a L', .ok ())
    | r => r

/-- `getNPads`, header line 164. -/
def getNPads (L : Layout K) : ℤ := L.nPad

/-- `getNRows`, lines 104-106. -/
def getNRows (L : Layout K) : ℤ := L.rows.length

/-- `getPlaneExtent`, header line 199. -/
def getPlaneExtent (L : Layout K) : List K := [L.ext0, L.ext1, L.ext2, L.ext3]

/-- `getRowNumber`, lines 207-222. -/
def getRowNumber (L : Layout K) (padIndex : ℤ) : Res ℤ :=
  let rn := rowBits padIndex
  if rn < 0 ∨ rn > (L.rows.length : ℤ) - 1 then .throw .gear else .ok rn

/-- `getPadNumber`, header line 207. -/
def getPadNumber (padIndex : ℤ) : ℤ := padBits padIndex

/-- `getRowHeight`, lines 108-111. -/
def getRowHeight (L : Layout K) (rowNumber : ℤ) : Res K := do
  let row ← elemAt L.rows rowNumber
  return row.rowHeight

/-- `getPadHeight`, lines 113-117. -/
def getPadHeight (L : Layout K) (padIndex : ℤ) : Res K := do
  let rowNum ← getRowNumber L padIndex
  let row ← elemUb L.rows rowNum
  return row.padHeight

/-- `getPadWidth`, lines 120-126. -/
def getPadWidth (L : Layout K) (padIndex : ℤ) : Res K := do
  let rowNum ← getRowNumber L padIndex
  let row ← elemUb L.rows rowNum
  return row.padWidth

/-- `getPadPitch`, lines 128-134. -/
def getPadPitch (L : Layout K) (padIndex : ℤ) : Res K := do
  let rowNum ← getRowNumber L padIndex
  let row ← elemUb L.rows rowNum
  return row.padPitch

/-- `getPadCenter`, lines 137-149. -/
def getPadCenter (L : Layout K) (padIndex : ℤ) : Res (K × K) := do
  let rowNum ← getRowNumber L padIndex
  let row ← elemUb L.rows rowNum
  return (row.rCentre, row.offset + ((getPadNumber padIndex : K) + 1 / 2) * row.padPitch)

/-- `getPadIndex`, lines 225-245.  `size() - 1` wraps around when there are no rows. -/
def getPadIndex (L : Layout K) (rowNum padNum : ℤ) : Res ℤ :=
  if L.rows ≠ [] ∧ (BitVec.ofInt 32 rowNum).toNat > L.rows.length - 1 then .throw .outOfRange
  else do
    let row ← elemUb L.rows rowNum
    if padNum > row.nPads - 1 then .throw .outOfRange
    else encode rowNum padNum

/-- `getPadsInRow`, lines 178-204. -/
def getPadsInRow (L : Layout K) (rowNumber : ℤ) : Layout K × Res (List ℤ) :=
  match elem L.padIndices rowNumber with
  | none => (L, .ok [])
  | some (some l) => (L, .ok l)
  | some none =>
    match elem L.rows rowNumber with
    | none => (L, .ok [])
    | some row =>
      match buildPads (getPadIndex L) rowNumber row.nPads.toNat with
      | .ok l => ({ L with padIndices := L.padIndices.set rowNumber.toNat (some l) }, .ok l)
      | .throw .outOfRange => (L, .ok [])
      | .throw e => (L, .throw e)
      | .ub => (L, .ub)

/-- The test for a full circle, lines 258 and 277. -/
def fullCircle (F : Fns K) (L : Layout K) : Prop := |L.ext3 - L.ext2 - 2 * F.pi| < 1 / 1000000

instance (F : Fns K) (L : Layout K) : Decidable (fullCircle F L) := by
  unfold fullCircle; infer_instance

/-- `getRightNeighbour`, lines 248-265. -/
def getRightNeighbour (F : Fns K) (L : Layout K) (padIndex : ℤ) : Res ℤ := do
  let pn := getPadNumber padIndex - 1
  let rn ← getRowNumber L padIndex
  if pn = -1 then
    if fullCircle F L then do
      let row ← elemUb L.rows rn
      getPadIndex L rn (row.nPads - 1)
    else .throw .gear
  else getPadIndex L rn pn

/-- `getLeftNeighbour`, lines 267-284. -/
def getLeftNeighbour (F : Fns K) (L : Layout K) (padIndex : ℤ) : Res ℤ := do
  let pn := getPadNumber padIndex + 1
  let rn ← getRowNumber L padIndex
  let row ← elemUb L.rows rn
  if pn = row.nPads then
    if fullCircle F L then getPadIndex L rn 0 else .throw .gear
  else getPadIndex L rn pn

/-- `Row::distanceToPhiMin` (lines 456-478) and `Row::distanceToPhiMax` (lines 480-502) with the angle
`phiE` of the edge. -/
def distanceToEdge (F : Fns K) (row : Row K) (phiE r phi : K) : K :=
  let phi := wrapTurn F.pi phi
  let rMin := row.rCentre - row.rowHeight * (1 / 2)
  let rMax := row.rCentre + row.rowHeight * (1 / 2)
  let d0 := rMin * rMin + r * r - 2 * rMin * r * F.cos (phiE - phi)
  let d1 := rMax * rMax + r * r - 2 * rMax * r * F.cos (phiE - phi)
  F.sqrt (if d0 > d1 then d1 else d0)

/-- `Row::distanceToPhiMin`, line 467. -/
def distanceToPhiMin (F : Fns K) (row : Row K) (r phi : K) : K := distanceToEdge F row row.offset r phi

/-- `Row::distanceToPhiMax`, line 491. -/
def distanceToPhiMax (F : Fns K) (row : Row K) (r phi : K) : K :=
  distanceToEdge F row (row.offset + row.nPads * row.padPitch) r phi

/-- `Row::getDistanceToRow`, lines 415-453. -/
def getDistanceToRow (F : Fns K) (row : Row K) (r phi : K) : K :=
  let phi := wrapTurn F.pi phi
  let rMin := row.rCentre - row.rowHeight * (1 / 2)
  let rMax := row.rCentre + row.rowHeight * (1 / 2)
  let phiMin := row.offset
  let phiMax := row.offset + row.nPads * row.padPitch
  if phi ≥ phiMin ∧ phi ≤ phiMax then
    if r ≥ rMin ∧ r ≤ rMax then 0
    else if r < rMin then rMin - r
    else r - rMax
  else
    let d1 := distanceToPhiMin F row r phi
    let d2 := distanceToPhiMax F row r phi
    if d1 < d2 then d1 else d2

/-- `Row::getNearestPad`, lines 386-413.  With a pitch of 0 an infinite value is converted to `int`. -/
def rowNearestPad (F : Fns K) (row : Row K) (r phi : K) : Res ℤ :=
  let phi := wrapTurn F.pi phi
  if phi < row.offset + row.nPads * row.padPitch then
    if row.padPitch = 0 then .ub
    else encode row.rowNumber ⌊(phi - row.offset) / row.padPitch⌋
  else if distanceToPhiMin F row r phi < distanceToPhiMax F row r phi then encode row.rowNumber 0
  else encode row.rowNumber (row.nPads - 1)

/-- The loop of `getNearestPad`, lines 291-302. -/
def nearestLoop (F : Fns K) (r phi : K) : List (Row K) → Bool → ℤ → K → Res ℤ
  | [], _, nearestPad, _ => .ok nearestPad
  | row :: rows, first, nearestPad, distance =>
    let newDistance := getDistanceToRow F row r phi
    if newDistance < distance ∨ first = true then do
      let nearestPad ← rowNearestPad F row r phi
      nearestLoop F r phi rows false nearestPad newDistance
    else nearestLoop F r phi rows false nearestPad distance

/-- `getNearestPad`, lines 286-308. -/
def getNearestPad (F : Fns K) (L : Layout K) (r phi : K) : Res ℤ := do
  let nearestPad ← nearestLoop F r phi L.rows true (-1) 0
  if nearestPad = -1 then .throw .gear else .ok nearestPad

/-- `isInsidePad(r, phi, padIndex)`, lines 310-334. -/
def isInsidePad (F : Fns K) (L : Layout K) (r phi : K) (padIndex : ℤ) : Res Bool := do
  let pn := getPadNumber padIndex
  let rn ← getRowNumber L padIndex
  let row ← elemUb L.rows rn
  let rMin := row.rCentre - row.rowHeight * (1 / 2)
  let rMax := row.rCentre + row.rowHeight * (1 / 2)
  let phiMin := row.offset + row.padPitch * pn
  let phi := if phi < phiMin then phi + 2 * F.pi else phi
  let phi := if phi ≥ phiMin + 2 * F.pi then phi - 2 * F.pi else phi
  let phiMax := phiMin + row.padPitch
  return decide (r ≥ rMin ∧ r ≤ rMax ∧ phi ≤ phiMax)

/-- `isInsidePad(r, phi)`, lines 336-345. -/
def isInsideAnyPad (F : Fns K) (L : Layout K) (r phi : K) : Res Bool :=
  if r < L.ext0 ∨ r > L.ext1 ∨ phi < L.ext2 ∨ phi > L.ext3 then .ok false
  else do
    let p ← getNearestPad F L r phi
    isInsidePad F L r phi p

/-- `FixedDiskLayoutBase::getDistanceToPad`, `FixedDiskLayoutBase.cc` lines 20-96, for this layout. -/
def getDistanceToPad (F : Fns K) (L : Layout K) (r phi : K) (padIndex : ℤ) : Res K := do
  let padCenter ← getPadCenter L padIndex
  let rn ← getRowNumber L padIndex
  let h ← getRowHeight L rn
  let pitch ← getPadPitch L padIndex
  return keystoneDistance F r phi (padCenter.1 - h / 2) (padCenter.1 + h / 2)
    (padCenter.2 - pitch / 2) (padCenter.2 + pitch / 2)

end Gear.Versatile
