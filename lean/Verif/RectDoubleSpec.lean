/-
Rectangular layouts made of equal rows: where the rows and pads are, and how exact `double` arithmetic can be.
-/
import Verif.RectDouble
import Verif.Doubles

set_option autoImplicit false
set_option linter.unusedSectionVars false

namespace Gear.Rect.Double.Spec

open MaterialMap (Arith)
open Doubles (Rounding)

variable {K : Type} [Field K] [LinearOrder K] [IsStrictOrderedRing K] [FloorRing K]

/-- The arguments of the constructor and of one call of `addRow`. -/
structure Args (K : Type) where
  xMin : K
  xMax : K
  yMin : K
  nRow : ℤ
  nPad : ℤ
  padWidth : K
  padHeight : K
  rowHeight : K
  leftOffset : K
  rightOffset : K

namespace Args

variable (A : Args K)

/-- The height of a row; a row height of zero stands for the height of a pad. -/
def height : K := if A.rowHeight = 0 then A.padHeight else A.rowHeight

/-- Where the first pad of a row starts. -/
def left : K := A.xMin + A.leftOffset

/-- Where the last pad of a row ends. -/
def right : K := A.xMax - A.rightOffset

/-- The width of a row for one pad. -/
def pitch : K := (A.right - A.left) / A.nPad

/-- The middle of the pads in column `pad`. -/
def xCenter (pad : ℤ) : K := A.left + (pad + 1 / 2) * A.pitch

/-- The middle of row `row`. -/
def yCenter (row : ℤ) : K := A.yMin + (row + 1 / 2) * A.height

/-- Rounding errors of horizontal positions. -/
def xError (u : K) : K := u * (|A.left| + |A.right|)

/-- Rounding errors of vertical positions: they add up from row to row. -/
def yError (u : K) : K := 2 * A.nRow * u * (|A.yMin| + A.nRow * A.height)

/-- There are not more rows and pads than fit into a pad index, the rows are not empty, and the rounding errors of all rows
together are not more than one percent. -/
structure Proper (u : K) : Prop where
  rows : A.nRow ≤ 65536
  pads : A.nPad ≤ 65536
  height : 0 < A.height
  width : A.left < A.right
  few : 100 * A.nRow * u ≤ 1

end Args

/-- The layout after the constructor and one successful call of `addRow`. -/
def MadeOf (F : Arith K) (A : Args K) (L : Layout K) : Prop :=
  addRow F (Rect.new A.xMin A.xMax A.yMin) A.nRow A.nPad A.padWidth A.padHeight A.rowHeight A.leftOffset A.rightOffset =
    (L, .ok ())

/-- Row `row` and pad `pad` exist. -/
def Args.IsPad (A : Args K) (row pad : ℤ) : Prop := (0 ≤ row ∧ row < A.nRow) ∧ 0 ≤ pad ∧ pad < A.nPad

/-- Pads are as high as their rows. -/
def FullRows (L : Layout K) : Prop :=
  ∀ row pad p a b, getPadIndex L row pad = .ok p → getPadHeight L p = .ok a → getRowHeight L row = .ok b → a = b

end Gear.Rect.Double.Spec
