/-
A `gear::FixedPadSizeDiskLayout` as the layout of a `gear::TPCModuleImpl`, with the rounding of `double` arithmetic.

Source: src/gearimpl/FixedPadSizeDiskLayout.cc, src/gearimpl/FixedDiskLayoutBase.cc.  Simplifications as in `PadSizeDouble.lean` and
`DiskDistanceDouble.lean`.
-/
import Verif.TpcDouble
import Verif.DiskDistanceDouble
import Verif.PadSizeDouble

set_option autoImplicit false
set_option linter.unusedSectionVars false

namespace Gear.TpcModule.Double

variable {K : Type} [Field K] [LinearOrder K] [IsStrictOrderedRing K] [FloorRing K]

/-- `FixedDiskLayoutBase::getDistanceToPad` of a `FixedPadSizeDiskLayout`, FixedDiskLayoutBase.cc lines 20-96 (`getRowHeight`:
FixedPadSizeDiskLayout.h line 126, `getPadPitch`: FixedPadSizeDiskLayout.cc lines 181-194).  A distance that is NaN is written as
undefined behaviour here. -/
def sizeDistance (F : Arith K) (L : PadSize.Layout K) (r phi : K) (padIndex : ℤ) : Res K := do
  let c ← PadSize.Double.getPadCenter F.toArith L padIndex
  match Disk.Double.getDistanceToPad F.toArith c (PadSize.getRowHeight L (Disk.getRowNumber padIndex))
      (PadSize.getPadPitch L padIndex) r phi with
  | some d => .ok d
  | none => .ub

/-- A layout with a fixed pad size behind the interface `PadRowLayout2D` (FixedPadSizeDiskLayout.h lines 85-170): what a module asks.
The loops over angles may take `fuel` passes each; that they do not end is written as undefined behaviour here. -/
def fixedSize (F : Arith K) (fuel : ℕ) (L : PadSize.Layout K) : LayoutI K where
  coordinateType := POLAR
  planeExtent := ⟨L.rMin, L.rMax, 0, L.phiMax⟩
  getPadCenter := PadSize.Double.getPadCenter F.toArith L
  getNearestPad := fun r phi => match PadSize.Double.getNearestPad F.toArith L fuel r phi with | some x => x | none => .ub
  isInsidePad := fun r phi p => match PadSize.Double.isInsidePad F.toArith L fuel r phi p with | some x => x | none => .ub
  getDistanceToPad := sizeDistance F L

end Gear.TpcModule.Double
