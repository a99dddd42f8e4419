/-
A `gear::FixedPadAngleDiskLayout` as the layout of a `gear::TPCModuleImpl`, with the rounding of `double` arithmetic.

Source: src/gearimpl/FixedPadAngleDiskLayout.cc, src/gearimpl/FixedDiskLayoutBase.cc.  Simplifications as in `PadAngleDouble.lean` and
`DiskDistanceDouble.lean`.
-/
import Verif.TpcDouble
import Verif.DiskDistanceDouble

set_option autoImplicit false
set_option linter.unusedSectionVars false

namespace Gear.TpcModule.Double

variable {K : Type} [Field K] [LinearOrder K] [IsStrictOrderedRing K] [FloorRing K]

/-- A layout with a fixed pad angle behind the interface `PadRowLayout2D` (FixedPadAngleDiskLayout.h lines 38-165): what a module asks.
The loops of `getNearestPad` may take `fuel` passes each; that they do not end, or that a distance is NaN, is written as undefined
behaviour here. -/
def fixedAngle (F : Arith K) (fuel : ℕ) (L : PadAngle.Layout K) : LayoutI K where
  coordinateType := POLAR
  planeExtent := ⟨L.rMin, L.rMax, L.phiMin, L.phiMax⟩
  getPadCenter := fun p => .ok (PadAngle.Double.getPadCenter F.toArith L p)
  getNearestPad := fun r phi => match PadAngle.Double.getNearestPad F.toArith L fuel r phi with | some x => x | none => .ub
  isInsidePad := fun r phi p => .ok (PadAngle.Double.isInsidePad F.toArith L r phi p)
  getDistanceToPad := fun r phi p => match Disk.Double.angleDistance F.toArith L r phi p with | some d => .ok d | none => .ub

end Gear.TpcModule.Double
