/-
Model of the program printMaterials (src/test/printMaterials.cc), which lists the materials between two points.

Simplifications.  The lines are modelled by the values in them, not by their text.  The arguments have been read (lines 58-69), and the
geometry file has been loaded: the object with the distance properties is a new one (line 79).  ROOT's navigator is a parameter as in
TGeoDistance.lean; arithmetic is exact.
-/
import Verif.TGeoDistance

set_option autoImplicit false
set_option linter.unusedSectionVars false

namespace Gear.TGeoDistance

open Vector3D (V3)
open Disk (Fns)

variable {K : Type} [Field K] [LinearOrder K] [IsStrictOrderedRing K]

/-- A line that is printed, lines 125-127. -/
structure Line (K : Type) where
  material : String
  thickness : K
  radLengths : K
  intLengths : K
  start : V3 K
  stop : V3 K
deriving DecidableEq

/-- The answer is a number. -/
def asNumber : Answer K → Res K
  | .number v => .ok v
  | _ => .ub

/-- The direction, lines 100-101. -/
def unitDirection (F : Fns K) (p0 p1 : V3 K) : V3 K :=
  Vector3D.smul (1 / F.sqrt (Vector3D.r2 (Vector3D.sub p1 p0))) (Vector3D.sub p1 p0)

/-- The loop, lines 110-129, with the remaining names and thicknesses, `lambda` and the object with the distance properties. -/
def materialLoop (tr : V3 K → V3 K → Res (List (Seg K))) (p0 dir : V3 K) : List String → List K → K → Cache K → Res (List (Line K))
  | [], _, _, _ => .ok []
  | _ :: _, [], _, _ => .ub
  | n :: ns, t :: ts, lambda, c => do
    let next := Vector3D.add p0 (Vector3D.smul (lambda + t) dir)
    let r := query tr c .nRadlen p0 next
    let i := query tr r.2 .nIntlen p0 next
    let rL ← r.1 >>= asNumber
    let iL ← i.1 >>= asNumber
    let rest ← materialLoop tr p0 dir ns ts (lambda + t) i.2
    .ok (⟨n, t * 10, rL, iL, Vector3D.smul 10 p0, Vector3D.smul 10 next⟩ :: rest)

/-- `main`, lines 85-130, with the points in millimetres. -/
def printMaterials (F : Fns K) (tr : V3 K → V3 K → Res (List (Seg K))) (q0 q1 : V3 K) : Res (List (Line K)) := do
  let p0 := Vector3D.smul (1 / 10) q0
  let p1 := Vector3D.smul (1 / 10) q1
  let a := query tr init .materialNames p0 p1
  let b := query tr a.2 .thicknesses p0 p1
  let names ← a.1 >>= fun x => match x with | .names l => .ok l | _ => .ub
  let thicks ← b.1 >>= fun x => match x with | .numbers l => .ok l | _ => .ub
  materialLoop tr p0 (unitDirection F p0 p1) names thicks 0 b.2

end Gear.TGeoDistance
