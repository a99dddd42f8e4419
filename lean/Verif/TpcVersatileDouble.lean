/-
A `gear::VersatileDiskRowLayout` as the layout of a `gear::TPCModuleImpl`, with the rounding of `double` arithmetic.

Source: src/gearimpl/VersatileDiskRowLayout.cc, src/gearimpl/FixedDiskLayoutBase.cc.  Simplifications as in `VersatileDouble.lean` and
`DiskDistanceDouble.lean`.
-/
import Verif.TpcDouble
import Verif.DiskDistanceDouble
import Verif.VersatileDouble

set_option autoImplicit false
set_option linter.unusedSectionVars false

namespace Gear.TpcModule.Double

variable {K : Type} [Field K] [LinearOrder K] [IsStrictOrderedRing K] [FloorRing K]

/-- `FixedDiskLayoutBase::getDistanceToPad` of a `VersatileDiskRowLayout`, FixedDiskLayoutBase.cc lines 20-96 (`getRowHeight`,
`getPadPitch` and `getPadCenter`: VersatileDiskRowLayout.cc lines 104-149).  A distance that is NaN is written as undefined behaviour
here. -/
def versatileDistance (F : Arith K) (L : Versatile.Layout K) (r phi : K) (padIndex : ℤ) : Res K := do
  let c ← Versatile.Double.getPadCenter F.toArith L padIndex
  let rn ← Versatile.getRowNumber L padIndex
  let h ← Versatile.getRowHeight L rn
  let pitch ← Versatile.getPadPitch L padIndex
  match Disk.Double.getDistanceToPad F.toArith c h pitch r phi with
  | some d => .ok d
  | none => .ub

/-- A versatile layout behind the interface `PadRowLayout2D` (VersatileDiskRowLayout.h lines 140-230): what a module asks.
The loops over angles may take `fuel` passes each; that they do not end is written as undefined behaviour here. -/
def versatile (F : Arith K) (fuel : ℕ) (L : Versatile.Layout K) : LayoutI K where
  coordinateType := POLAR
  planeExtent := ⟨L.ext0, L.ext1, L.ext2, L.ext3⟩
  getPadCenter := Versatile.Double.getPadCenter F.toArith L
  getNearestPad := fun r phi => match Versatile.Double.getNearestPad F.toArith L fuel r phi with | some x => x | none => .ub
  isInsidePad := Versatile.Double.isInsidePad F.toArith L
  getDistanceToPad := versatileDistance F L

end Gear.TpcModule.Double
