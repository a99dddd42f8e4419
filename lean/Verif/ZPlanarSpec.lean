/-
Specification for the planar vertex detector: where the ladders are, in terms of the arguments of `addLayer`.
-/
import Verif.ZPlanar
import Verif.TpcModuleSpec
import Mathlib.Analysis.SpecialFunctions.Trigonometric.Arctan
import Mathlib.Analysis.Real.Pi.Bounds

set_option autoImplicit false
set_option linter.unusedSectionVars false

namespace Gear.ZPlanar

open Vector3D (V3)
open Real (pi)

/-- The functions of `<math.h>` on the real numbers. -/
noncomputable def realPlanar : PlanarFns ℝ :=
  { TpcModule.realTrig with atan := Real.arctan, tan := Real.tan }

namespace Spec

/-- A call of `addLayer`. -/
structure Call (K : Type) where
  nLadders : ℤ
  phi0 : K
  ladder : Size K
  sensitive : Size K

/-- The arguments that describe the ladders or the sensitive volumes. -/
def Call.size {K : Type} (c : Call K) (sensitive : Bool) : Size K := if sensitive then c.sensitive else c.ladder

/-- The detector after the given calls of `addLayer`. -/
def detector {K : Type} [Field K] [LinearOrder K] [IsStrictOrderedRing K] (F : PlanarFns K) (P : Params K)
    (calls : List (Call K)) : Params K :=
  calls.foldl (fun P c => P.addLayer F c.nLadders c.phi0 c.ladder c.sensitive) P

/-- The azimuth of the normal of a module (ladder): the first one at `phi0`, the others at equal angles, in the
direction of increasing phi. -/
noncomputable def azimuth (c : Call ℝ) (module : ℤ) : ℝ := c.phi0 + module * (2 * pi / c.nLadders)

/-- The point at height `h` along the normal of azimuth `a`, at `u` along the direction of increasing phi, and at
`z`. -/
noncomputable def point (a h u z : ℝ) : V3 ℝ :=
  ⟨h * Real.cos a - u * Real.sin a, h * Real.sin a + u * Real.cos a, z⟩

/-- The two boxes, one on each side of the gap, of a ladder or a sensitive volume whose normal has azimuth `a`. -/
def box (a : ℝ) (s : Size ℝ) (gap : ℝ) : Set (V3 ℝ) :=
  {p | ∃ h u z, p = point a h u z ∧ s.distance ≤ h ∧ h ≤ s.distance + s.thickness
    ∧ s.offset - s.width / 2 ≤ u ∧ u ≤ s.offset + s.width / 2 ∧ gap / 2 ≤ |z| ∧ |z| ≤ gap / 2 + s.length}

/-- The volume of a module. -/
def volume (c : Call ℝ) (sensitive : Bool) (gap : ℝ) (module : ℤ) : Set (V3 ℝ) :=
  box (azimuth c module) (c.size sensitive) gap

/-- The square of the Euclidean distance. -/
def dist2 (p q : V3 ℝ) : ℝ := (p.x - q.x) ^ 2 + (p.y - q.y) ^ 2 + (p.z - q.z) ^ 2

/-- The points of the ray from `p` in direction `v`. -/
def ray (p v : V3 ℝ) : Set (V3 ℝ) := {q | ∃ t, 0 ≤ t ∧ q = ⟨p.x + t * v.x, p.y + t * v.y, p.z + t * v.z⟩}

end Spec

end Gear.ZPlanar
