/-
Model of the pad queries of `gear::TPCModuleImpl` with the rounding of `double` arithmetic, and of a
`gear::RectangularPadRowLayout` as the layout of a module.

Source: src/gearimpl/TPCModuleImpl.cc.  Simplifications as in `TpcModuleDouble.lean` and `RectDouble.lean`.  The queries of a TPC only
compare what its modules answer, so `TpcParams.lean` is also their model in `double` arithmetic.
-/
import Verif.TpcModuleDouble
import Verif.RectDistanceDouble
import Verif.TpcParams

set_option autoImplicit false
set_option linter.unusedSectionVars false

namespace Gear.TpcModule.Double

variable {K : Type} [Field K] [LinearOrder K] [IsStrictOrderedRing K] [FloorRing K]

/-- A rectangular layout behind the interface `PadRowLayout2D` (RectangularPadRowLayout.h lines 121-212): what a module asks.  The search
of `getNearestPad` may take `fuel` passes; that it does not end is written as undefined behaviour here. -/
def rectangular (F : Arith K) (fuel : ℕ) (L : Rect.Layout K) : LayoutI K where
  coordinateType := CARTESIAN
  planeExtent := ⟨L.xMin, L.xMax, L.yMin, L.yMax⟩
  getPadCenter := Rect.Double.getPadCenter F.toArith L
  getNearestPad := fun x y => match Rect.Double.getNearestPad F.toArith L fuel x y with | some r => r | none => .ub
  isInsidePad := Rect.Double.isInsidePad F.toArith L
  getDistanceToPad := Rect.Double.getDistanceToPad F.toArith L

/-- `getPadCenter`, lines 1252-1255. -/
def getPadCenter (F : Arith K) (m : Module K) (padIndex : ℤ) : Res (K × K) := do
  let c ← m.layout.getPadCenter padIndex
  localToGlobal F m c.1 c.2

/-- `getNearestPad`, lines 1279-1282. -/
def getNearestPad (F : Arith K) (m : Module K) (c0 c1 : K) : Res ℤ := do
  let c ← globalToLocal F m c0 c1
  m.layout.getNearestPad c.1 c.2

/-- `isInsidePad(c0, c1, padIndex)`, lines 1284-1287. -/
def isInsidePad (F : Arith K) (m : Module K) (c0 c1 : K) (padIndex : ℤ) : Res Bool := do
  let c ← globalToLocal F m c0 c1
  m.layout.isInsidePad c.1 c.2 padIndex

/-- `getDistanceToPad`, lines 1335-1339. -/
def getDistanceToPad (F : Arith K) (m : Module K) (c0 c1 : K) (padIndex : ℤ) : Res K := do
  let c ← globalToLocal F m c0 c1
  m.layout.getDistanceToPad c.1 c.2 padIndex

end Gear.TpcModule.Double
