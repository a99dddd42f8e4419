/-
Model of `gear::RectangularPadRowLayout` (`src/gearimpl/RectangularPadRowLayout.cc`) with the arithmetic of `double`: every
operation is rounded and conversions to `int` may be out of range.  `RectLayout.lean` has the same functions in exact
arithmetic, and the functions that do not calculate.
-/
import Verif.RectLayout
import Verif.PadAngleDouble

set_option autoImplicit false
set_option linter.unusedSectionVars false

namespace Gear.Rect.Double

open PadIndex
open MaterialMap (Arith)
open PadAngle.Double (toInt)

variable {K : Type} [Field K] [LinearOrder K] [IsStrictOrderedRing K] [FloorRing K]

/-- The loop of `addRow`, lines 119-128. -/
def pushRows (F : Arith K) (row : Row K) : ℕ → Layout K → Layout K
  | 0, L => L
  | n + 1, L =>
    pushRows F row n { L with
      yMax := F.add L.yMax row.height
      rows := L.rows ++ [{ row with center := F.add L.yMax (F.div row.height 2) }]
      padIndices := L.padIndices ++ [none] }

/-- `addRow`, lines 60-132.  Simplification: `int` overflow of `_nPad` is not modelled. -/
def addRow (F : Arith K) (L : Layout K) (nRow nPad : ℤ) (padWidth padHeight rowHeight leftOffset rightOffset : K) :
    Layout K × Res Unit :=
  if ¬ (0 < nRow ∧ 0 < nPad ∧ ¬ padWidth < 0 ∧ ¬ padHeight < 0 ∧ ¬ rowHeight < 0 ∧
      ¬ leftOffset < 0 ∧ ¬ rightOffset < 0) then (L, .throw .assertion)
  else
    let xMin := F.add L.xMin leftOffset
    let xMax := F.sub L.xMax rightOffset
    let rowWidth := F.sub xMax xMin
    if F.mul nPad padWidth > rowWidth then (L, .throw .gear)
    else
      let L := { L with nPad := L.nPad + |nRow| * |nPad| }
      let rowHeight := if rowHeight = 0 then padHeight else rowHeight
      if rowHeight < padHeight then (L, .throw .gear)
      else
        let row : Row K :=
          { nPad, padWidth, padHeight, height := rowHeight, leftOffset, rightOffset,
            center := 0, widthPerPad := F.div rowWidth nPad }
        let L := pushRows F row nRow.toNat L
        ({ L with nRows := L.nRows ++ [nRow] }, .ok ())

/-- The inner loop of `repeatRows`, lines 143-151. -/
def repeatOnce (F : Arith K) (nRow : ℕ) : ℕ → Layout K → Layout K × Res Unit
  | 0, L => (L, .ok ())
  | k + 1, L =>
    match L.rows[nRow - (k + 1)]? with
    | none => (L, .ub)
    | some r =>
      match addRow F L 1 r.nPad r.padWidth r.padHeight r.height r.leftOffset r.rightOffset with
      | (L, .ok ()) => repeatOnce F nRow k L
      | (L, e) => (L, e)

/-- The outer loop of `repeatRows`, line 142. -/
def repeatLoop (F : Arith K) (nRow : ℕ) : ℕ → Layout K → Layout K × Res Unit
  | 0, L => (L, .ok ())
  | n + 1, L =>
    match repeatOnce F nRow nRow L with
    | (L, .ok ()) => repeatLoop F nRow n L
    | (L, e) => (L, e)

/-- `repeatRows(unsigned count)`, lines 134-153; see `Rect.repeatRows`. -/
def repeatRows (F : Arith K) (L : Layout K) (count : ℕ) : Layout K × Res Unit :=
  if L.repeatRows > 0 then (L, .ok ())
  else
    let L := { L with repeatRows := (BitVec.ofNat 32 count).toInt }
    repeatLoop F L.rows.length ((BitVec.ofNat 32 count - 1).toNat) L

/-- One call on the layout; a thrown exception is caught by the client, who keeps using the layout. -/
def step (F : Arith K) (L : Layout K) : Op K → Layout K
  | .addRow nRow nPad w h rh l r => (addRow F L nRow nPad w h rh l r).1
  | .repeatRows c => (repeatRows F L c).1
  | .getPadsInRow r => (getPadsInRow L r).1

/-- A history of calls on a new layout. -/
def run (F : Arith K) (xMin xMax yMin : K) (h : List (Op K)) : Layout K := h.foldl (step F) (Rect.new xMin xMax yMin)

/-- `getPadCenter`, lines 186-198; the sum is evaluated from the left. -/
def getPadCenter (F : Arith K) (L : Layout K) (padIndex : ℤ) : Res (K × K) := do
  let rn ← getRowNumber L padIndex
  let pn := getPadNumber L padIndex
  let row ← elemUb L.rows rn
  return (F.add (F.add (F.add L.xMin row.leftOffset) (F.mul pn row.widthPerPad)) (F.div row.widthPerPad 2), row.center)

/-- The starting row of `getNearestPad`, line 366.  0/0 is not a number, whose conversion to `int` is undefined. -/
def startRow (F : Arith K) (L : Layout K) (y : K) : Res ℤ :=
  let height := F.sub L.yMax L.yMin
  if height = 0 then .ub
  else toInt ((roundInt (F.div (F.mul ((L.rows.length : K) - 1) (F.sub y L.yMin)) height) : ℤ) : K)

/-- One pass of the search loop, lines 369-427.  A quotient by zero is infinite or not a number, its conversion to `int` is
undefined. -/
def pass (F : Arith K) (L : Layout K) (y : K) (rowNumber : ℤ) : Res Pass := do
  let row ← elemUb L.rows rowNumber
  let disp := F.sub y row.center
  if |disp| ≤ F.div row.padHeight 2 then return .done rowNumber
  else if |disp| ≤ F.div row.height 2 then
    let nextNumber := if disp < 0 then rowNumber - 1 else rowNumber + 1
    let nextRow ← elemUb L.rows nextNumber
    let fromPads := F.sub |disp| (F.div row.padHeight 2)
    let fromNext := F.sub |F.sub y nextRow.center| (F.div nextRow.padHeight 2)
    return .done (if fromNext < fromPads then nextNumber else rowNumber)
  else
    let remainingRows : ℤ := if disp < 0 then rowNumber else L.rows.length - rowNumber - 1
    let remainingDistance : K :=
      if disp < 0 then F.sub (F.sub row.center L.yMin) (F.div row.height 2)
      else F.sub (F.sub L.yMax row.center) (F.div row.height 2)
    let offset : K := if disp < 0 then F.add disp (F.div row.height 2) else F.sub disp (F.div row.height 2)
    if remainingDistance = 0 then .ub
    else
      let param : K := F.mul remainingRows (F.div offset remainingDistance)
      let delta ← toInt (((if param < 0 then ⌊param⌋ else ⌈param⌉ : ℤ)) : K)
      if delta = 0 then return .done rowNumber
      else return .next (rowNumber + delta)

/-- The search loop `while(true)`, lines 369-428, for at most `fuel` passes; `none` when they do not
suffice. -/
def search (F : Arith K) (L : Layout K) (y : K) : ℕ → ℤ → Option (Res ℤ)
  | 0, _ => none
  | fuel + 1, rowNumber =>
    match pass F L y rowNumber with
    | .ok (.done r) => some (.ok r)
    | .ok (.next r) => search F L y fuel r
    | .throw e => some (.throw e)
    | .ub => some .ub

/-- The pad within the row found, lines 430-451. -/
def padInRow (F : Arith K) (L : Layout K) (x : K) (rowNumber : ℤ) : Res ℤ := do
  let row ← elemUb L.rows rowNumber
  let padNumber ←
    if x ≤ F.add L.xMin row.leftOffset then .ok 0
    else if x ≥ F.sub L.xMax row.rightOffset then .ok (row.nPad - 1)
    else toInt (F.div (F.sub x (F.add L.xMin row.leftOffset)) row.widthPerPad)
  getPadIndex L rowNumber padNumber

/-- `getNearestPad`, lines 357-452, for at most `fuel` passes of its loop; `none` when they do not
suffice. -/
def getNearestPad (F : Arith K) (L : Layout K) (fuel : ℕ) (x y : K) : Option (Res ℤ) :=
  let x := clamp L.xMin L.xMax x
  let y := clamp L.yMin L.yMax y
  match startRow F L y with
  | .ok r =>
    match search F L y fuel r with
    | none => none
    | some (.ok r) => some (padInRow F L x r)
    | some (.throw e) => some (.throw e)
    | some .ub => some .ub
  | .throw e => some (.throw e)
  | .ub => some .ub

/-- `isInsidePad(x, y, padIndex)`, lines 485-500; `pn+1` is an `int`. -/
def isInsidePad (F : Arith K) (L : Layout K) (x y : K) (padIndex : ℤ) : Res Bool := do
  let pn := getPadNumber L padIndex
  let rn ← getRowNumber L padIndex
  let row ← elemUb L.rows rn
  let gap := F.div (F.sub row.widthPerPad row.padWidth) 2
  let left := F.add L.xMin row.leftOffset
  let pXMin := F.add (F.add left (F.mul pn row.widthPerPad)) gap
  let pXMax := F.sub (F.add left (F.mul (pn + 1) row.widthPerPad)) gap
  let pYMin := F.sub row.center (F.div row.padHeight 2)
  let pYMax := F.add row.center (F.div row.padHeight 2)
  return decide (pXMin ≤ x ∧ x ≤ pXMax ∧ pYMin ≤ y ∧ y ≤ pYMax)

/-- `isInsidePad(x, y)`, lines 502-511, with the passes of `getNearestPad` bounded by `fuel`. -/
def isInsideAnyPad (F : Arith K) (L : Layout K) (fuel : ℕ) (x y : K) : Option (Res Bool) :=
  if x < L.xMin ∨ x > L.xMax ∨ y < L.yMin ∨ y > L.yMax then some (.ok false)
  else
    match getNearestPad F L fuel x y with
    | none => none
    | some (.ok i) => some (isInsidePad F L x y i)
    | some (.throw e) => some (.throw e)
    | some .ub => some .ub

end Gear.Rect.Double
