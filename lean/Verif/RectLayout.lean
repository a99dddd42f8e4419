/-
Model of `gear::RectangularPadRowLayout`
(`src/gearimpl/RectangularPadRowLayout.cc`, `include/gear/gearimpl/RectangularPadRowLayout.h`).
-/
import Verif.Num
import Verif.PadIndex

set_option autoImplicit false
set_option linter.unusedSectionVars false

namespace Gear.Rect

open PadIndex

/-- `RectangularPadRowLayout::Row`, `RectangularPadRowLayout.h` lines 30-39. -/
structure Row (K : Type) where
  nPad : ℤ
  padWidth : K
  padHeight : K
  height : K
  leftOffset : K
  rightOffset : K
  center : K
  widthPerPad : K
deriving DecidableEq, Repr

/-- The members of `RectangularPadRowLayout`, `RectangularPadRowLayout.h` lines 43-49.
`extent` is `[xMin, xMax, yMin, yMax]`; `padIndices` holds null pointers (`none`) or allocated lists. -/
structure Layout (K : Type) where
  nRow : ℤ
  nPad : ℤ
  repeatRows : ℤ
  rows : List (Row K)
  xMin : K
  xMax : K
  yMin : K
  yMax : K
  padIndices : List (Option (List ℤ))
  nRows : List ℤ
deriving DecidableEq, Repr

/-- `v[i]` on a `std::vector`: nothing there for a negative or too large index. -/
def elem {α : Type} (l : List α) (i : ℤ) : Option α := if 0 ≤ i then l[i.toNat]? else none

/-- Unchecked `v[i]`: undefined behaviour outside the vector. -/
def elemUb {α : Type} (l : List α) (i : ℤ) : Res α :=
  match elem l i with
  | some a => .ok a
  | none => .ub

/-- `v.at(i)`: `std::out_of_range` outside the vector (a negative `int` becomes a huge `size_t`). -/
def elemAt {α : Type} (l : List α) (i : ℤ) : Res α :=
  match elem l i with
  | some a => .ok a
  | none => .throw .outOfRange

variable {K : Type} [Field K] [LinearOrder K] [IsStrictOrderedRing K] [FloorRing K]

/-- Constructor, `RectangularPadRowLayout.cc` lines 15-27. -/
def new (xMin xMax yMin : K) : Layout K where
  nRow := 0
  nPad := 0
  repeatRows := 0
  rows := []
  xMin := xMin
  xMax := xMax
  yMin := yMin
  yMax := yMin
  padIndices := []
  nRows := []

/-- `copy_and_assign`, lines 34-53; used by the copy constructor, `operator=` and `clone` (lines 29-32,
55-58, 213-218).  `_padIndices.resize(_nRow)` uses `_nRow`, which no code ever sets after the
constructor.  Simplification: the storage of the replaced lists is not tracked. -/
def copy (right : Layout K) : Layout K where
  nRow := right.nRow
  nPad := right.nPad
  repeatRows := right.repeatRows
  rows := right.rows
  xMin := right.xMin
  xMax := right.xMax
  yMin := right.yMin
  yMax := right.yMax
  padIndices := List.replicate right.nRow.toNat none
  nRows := right.nRows

/-- The loop of `addRow`, lines 119-128: `n` rows on top of the present extent. -/
def pushRows (row : Row K) : ℕ → Layout K → Layout K
  | 0, L => L
  | n + 1, L =>
    pushRows row n { L with
      yMax := L.yMax + row.height
      rows := L.rows ++ [{ row with center := L.yMax + row.height / 2 }]
      padIndices := L.padIndices ++ [none] }

/-- `addRow`, lines 60-132.  Returns the layout after the call and how the call ended.
The asserts of lines 66-72 abort the program, the model then reports `assertion` and keeps the layout.
Simplification: `int` overflow of `_nPad` is not modelled. -/
def addRow (L : Layout K) (nRow nPad : ℤ) (padWidth padHeight rowHeight leftOffset rightOffset : K) :
    Layout K × Res Unit :=
  if ¬ (0 < nRow ∧ 0 < nPad ∧ ¬ padWidth < 0 ∧ ¬ padHeight < 0 ∧ ¬ rowHeight < 0 ∧
      ¬ leftOffset < 0 ∧ ¬ rightOffset < 0) then (L, .throw .assertion)
  else
    let xMin := L.xMin + leftOffset
    let xMax := L.xMax - rightOffset
    let rowWidth := xMax - xMin
    if (nPad : K) * padWidth > rowWidth then (L, .throw .gear)
    else
      let L := { L with nPad := L.nPad + |nRow| * |nPad| }
      let rowHeight := if rowHeight = 0 then padHeight else rowHeight
      if rowHeight < padHeight then (L, .throw .gear)
      else
        let row : Row K :=
          { nPad, padWidth, padHeight, height := rowHeight, leftOffset, rightOffset,
            center := 0, widthPerPad := rowWidth / (nPad : K) }
        let L := pushRows row nRow.toNat L
        ({ L with nRows := L.nRows ++ [nRow] }, .ok ())

/-- The inner loop of `repeatRows`, lines 143-151: rows `j, j+1, ...` of the first `nRow` rows are added
again.  `_rows[j]` is read when row `j` is added. -/
def repeatOnce (nRow : ℕ) : ℕ → Layout K → Layout K × Res Unit
  | 0, L => (L, .ok ())
  | k + 1, L =>
    match L.rows[nRow - (k + 1)]? with
    | none => (L, .ub)
    | some r =>
      match addRow L 1 r.nPad r.padWidth r.padHeight r.height r.leftOffset r.rightOffset with
      | (L, .ok ()) => repeatOnce nRow k L
      | (L, e) => (L, e)

/-- The outer loop of `repeatRows`, line 142. -/
def repeatLoop (nRow : ℕ) : ℕ → Layout K → Layout K × Res Unit
  | 0, L => (L, .ok ())
  | n + 1, L =>
    match repeatOnce nRow nRow L with
    | (L, .ok ()) => repeatLoop nRow n L
    | (L, e) => (L, e)

/-- `repeatRows(unsigned count)`, lines 134-153.  `count-1` is computed in `unsigned`, so for `count = 0`
the loop runs 2^32-1 times; `_repeatRows = count` converts to `int`.
`count` is meant to be below 2^32. -/
def repeatRows (L : Layout K) (count : ℕ) : Layout K × Res Unit :=
  if L.repeatRows > 0 then (L, .ok ())
  else
    let L := { L with repeatRows := (BitVec.ofNat 32 count).toInt }
    repeatLoop L.rows.length ((BitVec.ofNat 32 count - 1).toNat) L

/-- `getNPads`, `RectangularPadRowLayout.h` line 133. -/
def getNPads (L : Layout K) : ℤ := L.nPad

/-- `getNRows`, lines 155-157. -/
def getNRows (L : Layout K) : ℤ := L.rows.length

/-- `getPlaneExtent`, `RectangularPadRowLayout.h` line 171. -/
def getPlaneExtent (L : Layout K) : List K := [L.xMin, L.xMax, L.yMin, L.yMax]

/-- `getRowHeight`, lines 159-161. -/
def getRowHeight (L : Layout K) (rowNumber : ℤ) : Res K := do
  let r ← elemAt L.rows rowNumber
  return r.height

/-- `getRowNumber`, lines 256-271.  `int(_rows.size() - 1)` is -1 for the empty layout. -/
def getRowNumber (L : Layout K) (padIndex : ℤ) : Res ℤ :=
  let rn := rowBits padIndex
  if rn < 0 ∨ rn > (L.rows.length : ℤ) - 1 then .throw .gear else .ok rn

/-- `getPadNumber`, `RectangularPadRowLayout.h` line 179. -/
def getPadNumber (_L : Layout K) (padIndex : ℤ) : ℤ := padBits padIndex

/-- `getPadIndex`, lines 274-294.  `(unsigned) rowNum > _rows.size() - 1`: `size() - 1` wraps around for
the empty layout, so that the check passes and `_rows[rowNum]` is read outside the vector. -/
def getPadIndex (L : Layout K) (rowNum padNum : ℤ) : Res ℤ :=
  if L.rows ≠ [] ∧ (BitVec.ofInt 32 rowNum).toNat > L.rows.length - 1 then .throw .outOfRange
  else do
    let row ← elemUb L.rows rowNum
    if padNum > row.nPad - 1 then .throw .outOfRange
    else encode rowNum padNum

/-- `getPadHeight`, lines 163-167. -/
def getPadHeight (L : Layout K) (padIndex : ℤ) : Res K := do
  let rn ← getRowNumber L padIndex
  let r ← elemUb L.rows rn
  return r.padHeight

/-- `getPadWidth`, lines 170-176. -/
def getPadWidth (L : Layout K) (padIndex : ℤ) : Res K := do
  let rn ← getRowNumber L padIndex
  let r ← elemUb L.rows rn
  return r.padWidth

/-- `getPadPitch`, lines 178-184. -/
def getPadPitch (L : Layout K) (padIndex : ℤ) : Res K := do
  let rn ← getRowNumber L padIndex
  let r ← elemUb L.rows rn
  return r.widthPerPad

/-- `getPadCenter`, lines 186-198. -/
def getPadCenter (L : Layout K) (padIndex : ℤ) : Res (K × K) := do
  let rn ← getRowNumber L padIndex
  let pn := getPadNumber L padIndex
  let row ← elemUb L.rows rn
  return (L.xMin + row.leftOffset + pn * row.widthPerPad + row.widthPerPad / 2, row.center)

/-- The pad list built by `getPadsInRow`, lines 238-243. -/
def buildPads (L : Layout K) (rowNumber : ℤ) : ℕ → Res (List ℤ)
  | 0 => .ok []
  | n + 1 => do
    let l ← buildPads L rowNumber n
    let i ← getPadIndex L rowNumber n
    return l ++ [i]

/-- `getPadsInRow`, lines 227-253: the list is built at the first access and kept in `_padIndices`.
`std::out_of_range` is caught and the empty list returned. -/
def getPadsInRow (L : Layout K) (rowNumber : ℤ) : Layout K × Res (List ℤ) :=
  match elem L.padIndices rowNumber with
  | none => (L, .ok [])
  | some (some l) => (L, .ok l)
  | some none =>
    match elem L.rows rowNumber with
    | none => (L, .ok [])
    | some row =>
      match buildPads L rowNumber row.nPad.toNat with
      | .ok l => ({ L with padIndices := L.padIndices.set rowNumber.toNat (some l) }, .ok l)
      | .throw .outOfRange => (L, .ok [])
      | .throw e => (L, .throw e)
      | .ub => (L, .ub)

/-- Clamping of a coordinate to the extent, lines 360-363 (both tests in sequence). -/
def clamp (lo hi v : K) : K :=
  let v := if v < lo then lo else v
  if v > hi then hi else v

/-- The starting row of `getNearestPad`, line 366; 0/0 for an extent without height is not a number whose
conversion to `int` is undefined. -/
def startRow (L : Layout K) (y : K) : Res ℤ :=
  if L.yMax - L.yMin = 0 then .ub
  else .ok (roundInt (((L.rows.length : K) - 1) * (y - L.yMin) / (L.yMax - L.yMin)))

/-- What one pass of the search loop (lines 369-427) decides. -/
inductive Pass where
  | done (row : ℤ)
  | next (row : ℤ)
deriving DecidableEq, Repr

/-- One pass of the search loop, lines 369-427. A quotient by a zero `remaining_distance` is infinite or
not a number, its conversion to `int` is undefined. -/
def pass (L : Layout K) (y : K) (rowNumber : ℤ) : Res Pass := do
  let row ← elemUb L.rows rowNumber
  let disp := y - row.center
  if |disp| ≤ row.padHeight / 2 then return .done rowNumber
  else if |disp| ≤ row.height / 2 then
    let nextNumber := if disp < 0 then rowNumber - 1 else rowNumber + 1
    let nextRow ← elemUb L.rows nextNumber
    let fromPads := |disp| - row.padHeight / 2
    let fromNext := |y - nextRow.center| - nextRow.padHeight / 2
    return .done (if fromNext < fromPads then nextNumber else rowNumber)
  else
    let remainingRows : ℤ := if disp < 0 then rowNumber else L.rows.length - rowNumber - 1
    let remainingDistance : K :=
      if disp < 0 then row.center - L.yMin - row.height / 2 else L.yMax - row.center - row.height / 2
    let offset : K := if disp < 0 then disp + row.height / 2 else disp - row.height / 2
    if remainingDistance = 0 then .ub
    else
      let param : K := (remainingRows : K) * (offset / remainingDistance)
      let delta : ℤ := if param < 0 then ⌊param⌋ else ⌈param⌉
      if delta = 0 then return .done rowNumber
      else return .next (rowNumber + delta)

/-- The search loop `while(true)`, lines 369-428, for at most `fuel` passes; `none` when they do not
suffice. -/
def search (L : Layout K) (y : K) : ℕ → ℤ → Option (Res ℤ)
  | 0, _ => none
  | fuel + 1, rowNumber =>
    match pass L y rowNumber with
    | .ok (.done r) => some (.ok r)
    | .ok (.next r) => search L y fuel r
    | .throw e => some (.throw e)
    | .ub => some .ub

/-- The pad within the row found, lines 430-451. -/
def padInRow (L : Layout K) (x : K) (rowNumber : ℤ) : Res ℤ := do
  let row ← elemUb L.rows rowNumber
  let padNumber : ℤ :=
    if x ≤ L.xMin + row.leftOffset then 0
    else if x ≥ L.xMax - row.rightOffset then row.nPad - 1
    else truncInt ((x - (L.xMin + row.leftOffset)) / row.widthPerPad)
  getPadIndex L rowNumber padNumber

/-- `getNearestPad`, lines 357-452, for at most `fuel` passes of its loop; `none` when they do not
suffice. -/
def getNearestPad (L : Layout K) (x y : K) (fuel : ℕ) : Option (Res ℤ) :=
  let x := clamp L.xMin L.xMax x
  let y := clamp L.yMin L.yMax y
  match startRow L y with
  | .ok r =>
    match search L y fuel r with
    | none => none
    | some (.ok r) => some (padInRow L x r)
    | some (.throw e) => some (.throw e)
    | some .ub => some .ub
  | .throw e => some (.throw e)
  | .ub => some .ub

/-- `getRightNeighbour`, lines 455-468. -/
def getRightNeighbour (L : Layout K) (padIndex : ℤ) : Res ℤ := do
  let pn := getPadNumber L padIndex + 1
  let rn ← getRowNumber L padIndex
  let row ← elemAt L.rows rn
  if pn > row.nPad - 1 then .throw .gear else getPadIndex L rn pn

/-- `getLeftNeighbour`, lines 470-482. -/
def getLeftNeighbour (L : Layout K) (padIndex : ℤ) : Res ℤ := do
  let pn := getPadNumber L padIndex - 1
  let rn ← getRowNumber L padIndex
  if pn < 0 then .throw .gear else getPadIndex L rn pn

/-- `isInsidePad(x, y, padIndex)`, lines 485-500. -/
def isInsidePad (L : Layout K) (x y : K) (padIndex : ℤ) : Res Bool := do
  let pn := getPadNumber L padIndex
  let rn ← getRowNumber L padIndex
  let row ← elemUb L.rows rn
  let pXMin := L.xMin + row.leftOffset + pn * row.widthPerPad + (row.widthPerPad - row.padWidth) / 2
  let pXMax :=
    L.xMin + row.leftOffset + (pn + 1) * row.widthPerPad - (row.widthPerPad - row.padWidth) / 2
  let pYMin := row.center - row.padHeight / 2
  let pYMax := row.center + row.padHeight / 2
  return decide (pXMin ≤ x ∧ x ≤ pXMax ∧ pYMin ≤ y ∧ y ≤ pYMax)

/-- `isInsidePad(x, y)`, lines 502-511, with the passes of `getNearestPad` bounded by `fuel`. -/
def isInsideAnyPad (L : Layout K) (x y : K) (fuel : ℕ) : Option (Res Bool) :=
  if x < L.xMin ∨ x > L.xMax ∨ y < L.yMin ∨ y > L.yMax then some (.ok false)
  else
    match getNearestPad L x y fuel with
    | none => none
    | some (.ok i) => some (isInsidePad L x y i)
    | some (.throw e) => some (.throw e)
    | some .ub => some .ub

/-- The calls a client builds and uses a layout with. -/
inductive Op (K : Type) where
  | addRow (nRow nPad : ℤ) (padWidth padHeight rowHeight leftOffset rightOffset : K)
  | repeatRows (count : ℕ)
  | getPadsInRow (row : ℤ)

/-- One call on the layout; a thrown exception is caught by the client, who keeps using the layout. -/
def step (L : Layout K) : Op K → Layout K
  | .addRow nRow nPad w h rh l r => (addRow L nRow nPad w h rh l r).1
  | .repeatRows c => (repeatRows L c).1
  | .getPadsInRow r => (getPadsInRow L r).1

/-- A history of calls on a new layout. -/
def run (xMin xMax yMin : K) (h : List (Op K)) : Layout K := h.foldl step (new xMin xMax yMin)

end Gear.Rect
