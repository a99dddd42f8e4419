/-
What a straight path through a detector is, independently of how `gear::TGeoGearDistanceProperties::beamOn` follows
it, and the navigators it is followed with.
-/
import Verif.TGeoDistance
import Mathlib.Algebra.Order.Archimedean.Basic
import Mathlib.Data.Rat.Sqrt

set_option autoImplicit false
set_option linter.unusedSectionVars false

namespace Gear.TGeoDistance

open Vector3D (V3)
open Disk (Fns)

variable {K : Type} [Field K] [LinearOrder K] [IsStrictOrderedRing K]

/-- Two different points at a distance which is a number (always so for real numbers), and a square root that is
exact. -/
structure Straight (F : Fns K) (p0 p1 : V3 K) : Prop where
  differ : p0 ≠ p1
  root : ∀ t, 0 ≤ t → F.sqrt (t * t) = t
  length : ∃ t, 0 ≤ t ∧ t * t =
    (p1.x - p0.x) * (p1.x - p0.x) + (p1.y - p0.y) * (p1.y - p0.y) + (p1.z - p0.z) * (p1.z - p0.z)

/-- The point of the path after the length `t`. -/
def pointAt (F : Fns K) (p0 p1 : V3 K) (t : K) : V3 K :=
  ⟨p0.x + t * (direction F p0 p1).x, p0.y + t * (direction F p0 p1).y, p0.z + t * (direction F p0 p1).z⟩

/-- The part of a path of length `t` in each of the volumes it crosses.  The volumes along the ray are given with
their lengths, in their order. -/
def crossed : K → List (Node K × K) → List (Node K × K)
  | _, [] => []
  | t, (nd, l) :: r => if t ≤ 0 then [] else if t ≤ l then [(nd, t)] else (nd, l) :: crossed (t - l) r

/-- The length of a ray up to the end of the world. -/
def total (ray : List (Node K × K)) : K := (ray.map (·.2)).sum

/-- The recorded pieces are the volumes in their order, each in one piece or cut into several, none of which is empty. -/
inductive Split : List (Node K × K) → List (Seg K) → Prop
  | nil : Split [] []
  | whole (nd : Node K) (l : K) (r : List (Node K × K)) (s : List (Seg K)) :
      Split r s → Split ((nd, l) :: r) (⟨l, nd⟩ :: s)
  | part (nd : Node K) (a l : K) (r : List (Node K × K)) (s : List (Seg K)) :
      0 < a → 0 < l → Split ((nd, l) :: r) s → Split ((nd, a + l) :: r) (⟨a, nd⟩ :: s)

/-- Where a navigator is on its ray: the length behind it, where it was before the last step, the last step and the
volumes ahead. -/
structure View (K : Type) where
  gone : K
  last : K
  step : K
  rest : List (Node K × K)
deriving DecidableEq

/-- A step to the next boundary, of a length of at most 500. -/
def View.next (v : View K) : View K :=
  match v.rest with
  | [] => v
  | (nd, l) :: r =>
    if l ≤ 500 then ⟨v.gone + l, v.gone, l, r⟩ else ⟨v.gone + 500, v.gone, 500, (nd, l - 500) :: r⟩

/-- The navigator moves along the ray from `p0` through `p1`.  Nothing is assumed about `SetCurrentPoint`. -/
structure Rides (F : Fns K) (N : Nav K) (p0 p1 : V3 K) (ray : List (Node K × K)) where
  view : N.S → View K
  start : view (N.initTrack p0 (direction F p0 p1)).1 = ⟨0, 0, 0, ray⟩
  first : (N.initTrack p0 (direction F p0 p1)).2 = ray.head?.map (·.1)
  outside : ∀ s, N.isOutside s = (view s).rest.isEmpty
  next : ∀ s, view (N.findNext s).1 = (view s).next
  node : ∀ s, (N.findNext s).2 = (view s).next.rest.head?.map (·.1)
  current : ∀ s, N.currentPoint s = pointAt F p0 p1 (view s).gone
  last : ∀ s, N.lastPoint s = pointAt F p0 p1 (view s).last
  step : ∀ s, N.getStep s = (view s).step

/-- No step within the volume is shorter than the smallest step: its length, after steps of 500, is not between
zero and that. -/
def Thick (l : K) : Prop := 0 < l ∧ ∀ k : ℕ, 500 * (k : K) < l → minStep ≤ l - 500 * (k : K)

/-- A navigator that knows where it is on the line: whatever it steps, it steps forward, and it goes where it is put.
It may step by nothing for ever. -/
structure Moves (F : Fns K) (N : Nav K) (p0 p1 : V3 K) where
  at_ : N.S → K
  start : at_ (N.initTrack p0 (direction F p0 p1)).1 = 0
  current : ∀ s, N.currentPoint s = pointAt F p0 p1 (at_ s)
  next : ∀ s, at_ (N.findNext s).1 = at_ s + N.getStep (N.findNext s).1
  forward : ∀ s, 0 ≤ N.getStep (N.findNext s).1
  put : ∀ s t, 0 ≤ t → at_ (N.setCurrentPoint s (pointAt F p0 p1 t)) = t

/-! ### A navigator to try the statements with -/

/-- What is ahead after the length `d`. -/
def dropLength : K → List (Node K × K) → List (Node K × K)
  | _, [] => []
  | d, (nd, l) :: r => if d < l then (nd, l - d) :: r else dropLength (d - l) r

/-- The navigator of one ray. -/
def rayNav (F : Fns K) (p0 p1 : V3 K) (ray : List (Node K × K)) : Nav K where
  S := View K
  initTrack _ _ := (⟨0, 0, 0, ray⟩, ray.head?.map (·.1))
  isOutside v := v.rest.isEmpty
  findNext v := (v.next, v.next.rest.head?.map (·.1))
  currentPoint v := pointAt F p0 p1 v.gone
  lastPoint v := pointAt F p0 p1 v.last
  getStep v := v.step
  setCurrentPoint v q :=
    { v with gone := pathLength F p0 q, rest := dropLength (pathLength F p0 q - v.gone) v.rest }

/-- A navigator that never moves by itself. -/
def stuckNav (F : Fns K) (p0 p1 : V3 K) (nd : Node K) : Nav K where
  S := K
  initTrack _ _ := (0, some nd)
  isOutside _ := false
  findNext t := (t, some nd)
  currentPoint t := pointAt F p0 p1 t
  lastPoint t := pointAt F p0 p1 t
  getStep _ := 0
  setCurrentPoint _ q := pathLength F p0 q

end Gear.TGeoDistance
