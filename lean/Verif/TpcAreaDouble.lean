/-
Model of the areas of the modules of a TPC with the rounding of `double` arithmetic, for modules whose pad layout has Cartesian
coordinates.

Source: src/gearimpl/TPCModuleImpl.cc.  Simplifications as in `TpcModuleDouble.lean`.  The extent is computed when it is asked for; in C++
the constructor and the setters keep it in a member, from the same layout and border.  The polar branches of these functions are not
modelled here (see `TpcModule.lean` for them in exact arithmetic).
-/
import Verif.TpcDouble

set_option autoImplicit false
set_option linter.unusedSectionVars false

namespace Gear.TpcModule.Double

variable {K : Type} [Field K] [LinearOrder K] [IsStrictOrderedRing K] [FloorRing K]

/-- The local module extent with a Cartesian layout, lines 198-202 and 243-250: the plane extent of the pad layout enlarged by the
border. -/
def localExtent (F : Arith K) (m : Module K) : Ext K :=
  let e := m.layout.planeExtent
  if m.border = 0 then e
  else ⟨F.sub e.e0 m.border, F.add e.e1 m.border, F.sub e.e2 m.border, F.add e.e3 m.border⟩

/-- `isInsidePad(c0, c1)` with a Cartesian layout, lines 1289-1296 and 1304-1306. -/
def isInsideAnyPad (F : Arith K) (m : Module K) (c0 c1 : K) : Res Bool := do
  let c ← globalToLocal F m c0 c1
  let nearestPad ← m.layout.getNearestPad c.1 c.2
  m.layout.isInsidePad c.1 c.2 nearestPad

/-- `isInsideModule` with a Cartesian layout, lines 1308-1317 and 1325-1333. -/
def isInsideModule (F : Arith K) (m : Module K) (c0 c1 : K) : Res Bool := do
  let c ← globalToLocal F m c0 c1
  let e := localExtent F m
  return decide (c.1 ≥ e.e0 ∧ c.1 ≤ e.e1 ∧ c.2 ≥ e.e2 ∧ c.2 ≤ e.e3)

/-- `getDistanceToModule` with a Cartesian layout, lines 1341-1350 and 1358-1411. -/
def getDistanceToModule (F : Arith K) (m : Module K) (c0 c1 : K) : Res K := do
  let c ← globalToLocal F m c0 c1
  let e := localExtent F m
  return if c.2 ≥ e.e2 ∧ c.2 ≤ e.e3 then
      if c.1 < e.e0 then F.sub e.e0 c.1 else if c.1 ≤ e.e1 then 0 else F.sub c.1 e.e1
    else if c.2 < e.e2 then
      if c.1 < e.e0 then
        F.sqrt (F.add (F.mul (F.sub e.e0 c.1) (F.sub e.e0 c.1)) (F.mul (F.sub e.e2 c.2) (F.sub e.e2 c.2)))
      else if c.1 ≤ e.e1 then F.sub e.e2 c.2
      else F.sqrt (F.add (F.mul (F.sub c.1 e.e1) (F.sub c.1 e.e1)) (F.mul (F.sub e.e2 c.2) (F.sub e.e2 c.2)))
    else
      if c.1 < e.e0 then
        F.sqrt (F.add (F.mul (F.sub e.e0 c.1) (F.sub e.e0 c.1)) (F.mul (F.sub c.2 e.e3) (F.sub c.2 e.e3)))
      else if c.1 ≤ e.e1 then F.sub c.2 e.e3
      else F.sqrt (F.add (F.mul (F.sub c.1 e.e1) (F.sub c.1 e.e1)) (F.mul (F.sub c.2 e.e3) (F.sub c.2 e.e3)))

end Gear.TpcModule.Double
