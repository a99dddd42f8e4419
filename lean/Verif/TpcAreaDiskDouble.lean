/-
Model of the areas of the modules of a TPC with the rounding of `double` arithmetic, for modules whose pad layout has polar coordinates.

Source: src/gearimpl/TPCModuleImpl.cc.  Simplifications as in `TpcAreaDouble.lean` and `DiskDistanceDouble.lean`.
-/
import Verif.TpcAreaDouble
import Verif.TpcDiskDouble

set_option autoImplicit false
set_option linter.unusedSectionVars false

namespace Gear.TpcModule.Double

variable {K : Type} [Field K] [LinearOrder K] [IsStrictOrderedRing K] [FloorRing K]

/-- The local module extent with a polar layout, lines 198-241.  Simplification: a division of the border by an inner radius 0 gives an
infinite angle in C++ and 0 here. -/
def ringExtent (F : Arith K) (m : Module K) : Ext K :=
  let e := m.layout.planeExtent
  if m.border = 0 then e
  else
    let rMin := F.sub e.e0 m.border
    let phiBorder := if e.e1 > 0 then F.div m.border e.e0 else F.pi
    let phiMin := F.sub e.e2 phiBorder
    let phiMax := F.add e.e3 phiBorder
    let phi :=
      if F.sub phiMax phiMin > F.mul 2 F.pi then
        let phiBorder := F.div (F.add (F.sub (F.mul 2 F.pi) phiMax) phiMin) 2
        (F.sub e.e2 phiBorder, F.add e.e3 phiBorder)
      else (phiMin, phiMax)
    ⟨if rMin ≥ 0 then rMin else 0, F.add e.e1 m.border, phi.1, phi.2⟩

/-- The loop `while ( x >= lo + 2*M_PI ) x -= 2*M_PI;`, lines 1300-1301 and 1322-1323, with a bound on the number of passes; `hi` is the
sum, which is the same in every pass. -/
def loopBelow (F : MaterialMap.Arith K) (hi : K) : ℕ → K → Option K
  | 0, _ => none
  | n + 1, x => if x ≥ hi then loopBelow F hi n (F.sub x (F.mul 2 F.pi)) else some x

/-- The two loops, lines 1298-1301 and 1320-1323: an angle is brought between `lo` and one turn more. -/
def ringWrap (F : MaterialMap.Arith K) (fuel : ℕ) (lo x : K) : Option K :=
  match PadAngle.Double.loopUp F lo fuel x with
  | none => none
  | some y => loopBelow F (F.add lo (F.mul 2 F.pi)) fuel y

/-- Local coordinates with the angle in the range of the module, lines 1290-1302 and 1310-1324.  Loops that take more than `fuel` passes
are written as undefined behaviour. -/
def ringLocal (F : Arith K) (m : Module K) (fuel : ℕ) (c0 c1 : K) : Res (K × K) := do
  let c ← globalToLocal F m c0 c1
  match ringWrap F.toArith fuel (ringExtent F m).e2 c.2 with
  | some phi => .ok (c.1, phi)
  | none => .ub

/-- `isInsidePad(c0, c1)` with a polar layout, lines 1289-1306. -/
def ringInsideAnyPad (F : Arith K) (m : Module K) (fuel : ℕ) (c0 c1 : K) : Res Bool := do
  let c ← ringLocal F m fuel c0 c1
  let nearestPad ← m.layout.getNearestPad c.1 c.2
  m.layout.isInsidePad c.1 c.2 nearestPad

/-- `isInsideModule` with a polar layout, lines 1308-1333. -/
def ringInsideModule (F : Arith K) (m : Module K) (fuel : ℕ) (c0 c1 : K) : Res Bool := do
  let c ← ringLocal F m fuel c0 c1
  let e := ringExtent F m
  return decide (c.1 ≥ e.e0 ∧ c.1 ≤ e.e1 ∧ c.2 ≥ e.e2 ∧ c.2 ≤ e.e3)

/-- `getDistanceToModule` with a polar layout, lines 1341-1376 and 1412-1457: the formulas of lines 1415-1454 are those of
`FixedDiskLayoutBase.cc` lines 54-91.  A result NaN is written as undefined behaviour. -/
def ringDistance (F : Arith K) (m : Module K) (fuel : ℕ) (c0 c1 : K) : Res K := do
  let c ← ringLocal F m fuel c0 c1
  let e := ringExtent F m
  if c.2 ≥ e.e2 ∧ c.2 ≤ e.e3 then
    return if c.1 < e.e0 then F.sub e.e0 c.1 else if c.1 ≤ e.e1 then 0 else F.sub c.1 e.e1
  else
    match Disk.Double.smaller (Disk.Double.edgeDistance F.toArith c.1 c.2 e.e0 e.e1 e.e2)
      (Disk.Double.edgeDistance F.toArith c.1 c.2 e.e0 e.e1 e.e3) with
    | some d => .ok d
    | none => .ub

end Gear.TpcModule.Double
