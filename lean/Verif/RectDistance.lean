/-
Model of the distance functions of `gear::RectangularPadRowLayout` and of the linear pad search, over the
real numbers (`src/gearimpl/RectangularPadRowLayout.cc`).
-/
import Verif.RectLayout
import Mathlib.Analysis.Real.Sqrt

set_option autoImplicit false
set_option linter.unusedSectionVars false

namespace Gear.Rect

open PadIndex

/-- `distanceToBox`, lines 513-578: -1 for a point in the box. -/
noncomputable def distanceToBox (x y xMin yMin xMax yMax : ℝ) : ℝ :=
  if x < xMin then
    if y < yMin then Real.sqrt ((xMin - x) * (xMin - x) + (yMin - y) * (yMin - y))
    else if y > yMax then Real.sqrt ((xMin - x) * (xMin - x) + (yMax - y) * (yMax - y))
    else xMin - x
  else if x > xMax then
    if y < yMin then Real.sqrt ((xMax - x) * (xMax - x) + (yMin - y) * (yMin - y))
    else if y > yMax then Real.sqrt ((xMax - x) * (xMax - x) + (yMax - y) * (yMax - y))
    else x - xMax
  else
    if y < yMin then yMin - y
    else if y > yMax then y - yMax
    else -1

/-- `getDistanceToPad`, lines 580-598. -/
noncomputable def getDistanceToPad (L : Layout ℝ) (c0 c1 : ℝ) (padIndex : ℤ) : Res ℝ := do
  let padCentre ← getPadCenter L padIndex
  let padHeight ← getPadHeight L padIndex
  let padWidth ← getPadWidth L padIndex
  let distance := distanceToBox c0 c1 (padCentre.1 - padWidth * 0.5) (padCentre.2 - padHeight * 0.5)
    (padCentre.1 + padWidth * 0.5) (padCentre.2 + padHeight * 0.5)
  return if distance < 0 then 0 else distance

/-- The loop over the rows in `getNearestPadOld`, lines 311-332: `i` is the number of the first row of the
list, `dMin` and `rowNum` are the local variables. -/
noncomputable def oldSearch (L : Layout ℝ) (x y : ℝ) : List (Row ℝ) → ℤ → ℝ → ℤ → ℤ
  | [], _, _, rowNum => rowNum
  | row :: rows, i, dMin, rowNum =>
    let d := distanceToBox x y (L.xMin + row.leftOffset) (row.center - row.padHeight / 2)
      (L.xMax - row.rightOffset) (row.center + row.padHeight / 2)
    if d < dMin then
      if d < 0 then i else oldSearch L x y rows (i + 1) d i
    else oldSearch L x y rows (i + 1) dMin rowNum

/-- `getNearestPadOld`, lines 296-354. -/
noncomputable def getNearestPadOld (L : Layout ℝ) (x y : ℝ) : Res ℤ := do
  let x := clamp L.xMin L.xMax x
  let y := clamp L.yMin L.yMax y
  let rowNum := oldSearch L x y L.rows 0 (2 * (L.yMax - L.yMin)) 0
  let row ← elemUb L.rows rowNum
  let padNum : ℤ :=
    if x < L.xMin + row.leftOffset then 0
    else if x ≥ L.xMax - row.rightOffset then row.nPad - 1
    else truncInt ((x - (L.xMin + row.leftOffset)) / row.widthPerPad)
  getPadIndex L rowNum padNum

end Gear.Rect
