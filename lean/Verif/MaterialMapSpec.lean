/-
What a material map promises, without the model of its code.
-/
import Verif.MaterialMap

set_option autoImplicit false
set_option linter.unusedSectionVars false

namespace Gear.MaterialMap.Spec

open Vector3D (V3)

variable {K : Type} [Field K] [LinearOrder K] [IsStrictOrderedRing K] [FloorRing K]

/-- Arithmetic without rounding, with a square root that is not negative and zero at zero. -/
structure Exact (F : Arith K) : Prop where
  rnd : ∀ v, F.rnd v = v
  sqrt_nonneg : ∀ v, 0 ≤ F.sqrt v
  sqrt_zero : F.sqrt 0 = 0

/-- The i-th of the points that divide the range from `lo` to `hi` into `n` equal steps. -/
def node (lo hi : K) (n : ℤ) (i : ℕ) : K := lo + i * ((hi - lo) / n)

/-- Node `i` is at most one step from `v`; without steps the only node is. -/
def Adjacent (lo hi : K) (n : ℤ) (v : K) (i : ℕ) : Prop :=
  (i : ℤ) ≤ n ∧ (n = 0 ∨ |v - node lo hi n i| ≤ (hi - lo) / n)

/-- The documented conditions on the arguments: ordered ranges, numbers of steps that are not negative, and for
cylindrical and spherical coordinates a radius that is not negative and angles within their range. -/
def Accepted (pi : K) (a : Args K) : Prop :=
  a.xmin ≤ a.xmax ∧ a.ymin ≤ a.ymax ∧ a.zmin ≤ a.zmax ∧ 0 ≤ a.nx ∧ 0 ≤ a.ny ∧ 0 ≤ a.nz ∧
  (a.coord = 0 ∨
   a.coord = 1 ∧ 0 ≤ a.xmin ∧ 0 ≤ a.ymin ∧ a.ymax ≤ 2 * pi ∨
   a.coord = 2 ∧ 0 ≤ a.xmin ∧ 0 ≤ a.ymin ∧ a.ymax ≤ pi ∧ 0 ≤ a.zmin ∧ a.zmax ≤ 2 * pi)

/-- The ranges the constructor copes with: a proper range if there are steps, a range shorter than 1 if there are
none, and a number of steps below the largest `int`. -/
def Fits (lo hi : K) (n : ℤ) : Prop := (n = 0 ∧ hi < lo + 1 ∨ 0 < n ∧ lo < hi) ∧ n + 1 < 2 ^ 31

def AllFit (a : Args K) : Prop :=
  Fits a.xmin a.xmax a.nx ∧ Fits a.ymin a.ymax a.ny ∧ Fits a.zmin a.zmax a.nz

/-- The Cartesian coordinates of a point given as (x, y, z), (r, phi, z) or (r, theta, phi). -/
def world (F : Arith K) (coord : ℤ) (p : V3 K) : V3 K :=
  if coord = 0 then p
  else if coord = 1 then ⟨p.x * F.cos p.y, p.x * F.sin p.y, p.z⟩
  else ⟨p.x * F.sin p.y * F.cos p.z, p.x * F.sin p.y * F.sin p.z, p.x * F.cos p.y⟩

/-- The grid point with indices `i`, `j`, `k`, in the coordinates of the map. -/
def gridPoint (a : Args K) (i j k : ℕ) : V3 K :=
  ⟨node a.xmin a.xmax a.nx i, node a.ymin a.ymax a.ny j, node a.zmin a.zmax a.nz k⟩

/-- The material between the vertex and a point, `amount` giving it for points other than the vertex. -/
def material (amount : V3 K → K) (e : V3 K) : K := if e = ⟨0, 0, 0⟩ then 0 else amount e

/-- Distance properties that always answer, with the given numbers of radiation and interaction lengths. -/
def Answers (D : Dist K) (rad int : V3 K → K) : Prop :=
  ∀ e, D.radlen ⟨0, 0, 0⟩ e = .ok (rad e) ∧ D.intlen ⟨0, 0, 0⟩ e = .ok (int e)

/-- The point is inside the limits of the map. -/
def Inside (a : Args K) (p : V3 K) : Prop :=
  (a.xmin ≤ p.x ∧ p.x ≤ a.xmax) ∧ (a.ymin ≤ p.y ∧ p.y ≤ a.ymax) ∧ (a.zmin ≤ p.z ∧ p.z ≤ a.zmax)

/-- The grid point is at most one step from `p` in every direction. -/
def Neighbour (a : Args K) (p : V3 K) (i j k : ℕ) : Prop :=
  Adjacent a.xmin a.xmax a.nx p.x i ∧ Adjacent a.ymin a.ymax a.ny p.y j ∧ Adjacent a.zmin a.zmax a.nz p.z k

end Gear.MaterialMap.Spec
