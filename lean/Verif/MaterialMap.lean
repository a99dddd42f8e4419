/-
Model of `gear::MaterialMap` (`src/geartgeo/MaterialMap.cc`, `include/gear/geartgeo/MaterialMap.h`).
-/
import Verif.Vector3D
import Mathlib.Data.Int.Log

set_option autoImplicit false
set_option linter.unusedSectionVars false

namespace Gear.MaterialMap

open Vector3D (V3)

variable {K : Type} [Field K] [LinearOrder K] [IsStrictOrderedRing K] [FloorRing K]

/-- The arithmetic of `double`: the functions of `<cmath>` and the rounding of the result of every operation.
Exact arithmetic is `rnd = id`; `binary64` below is the rounding of IEEE doubles.  Simplification: overflow,
infinity and NaN are not modelled, except where a definition says so. -/
structure Arith (K : Type) extends Disk.Fns K where
  rnd : K → K

namespace Arith

variable (F : Arith K)

/-- `a + b` of two doubles. -/
def add (a b : K) : K := F.rnd (a + b)

/-- `a - b` of two doubles. -/
def sub (a b : K) : K := F.rnd (a - b)

/-- `a * b` of two doubles. -/
def mul (a b : K) : K := F.rnd (a * b)

/-- `a / b` of two doubles; callers treat `b = 0` first. -/
def div (a b : K) : K := F.rnd (a / b)

/-- The literal `1e-5`, lines 163 and 211. -/
def tol : K := F.rnd (1 / 100000)

end Arith

/-- One direction of the grid: `_xmin`, `_xmax`, `_nxsteps`, `_xstep` and the same for y and z,
`MaterialMap.h` lines 51-57. -/
structure Axis (K : Type) where
  lo : K
  hi : K
  n : ℤ
  step : K

/-- The members of a map, `MaterialMap.h` lines 51-59.  The array `_myMap` is a function of the three indices;
its sizes are `n + 1` in each direction (lines 62-68) and are checked by `read` and `write`. -/
structure Map (K : Type) where
  x : Axis K
  y : Axis K
  z : Axis K
  cells : ℕ → ℕ → ℕ → K × K

/-- The arguments of the constructor, lines 11-13. -/
structure Args (K : Type) where
  xmin : K
  xmax : K
  nx : ℤ
  ymin : K
  ymax : K
  ny : ℤ
  zmin : K
  zmax : K
  nz : ℤ
  coord : ℤ
deriving DecidableEq

/-- What the map uses of the `GearDistanceProperties`: `getNRadlen` and `getNIntlen`.  Simplification: their
answers do not depend on earlier queries (see C72). -/
structure Dist (K : Type) where
  radlen : V3 K → V3 K → Res K
  intlen : V3 K → V3 K → Res K

/-- `int(v)`: undefined if the truncated value is not an `int` ([conv.fpint]). -/
def toInt (v : K) : Res ℤ :=
  if -2 ^ 31 ≤ truncInt v ∧ truncInt v < 2 ^ 31 then .ok (truncInt v) else .ub

/-- One component of the grid index, lines 167-169.  With a step of zero the quotient is NaN or infinite and its
conversion to `int` undefined. -/
def index (F : Arith K) (a : Axis K) (v : K) : Res ℤ :=
  if a.step = 0 then .ub else toInt (F.add (F.div (F.sub v a.lo) a.step) (1 / 2))

/-- The condition of line 163 for one direction. -/
def outside (F : Arith K) (a : Axis K) (v : K) : Prop := F.add v F.tol < a.lo ∨ F.sub v F.tol > a.hi

instance (F : Arith K) (a : Axis K) (v : K) : Decidable (outside F a v) := by unfold outside; infer_instance

/-- `calculateGridIndex`, lines 160-170. -/
def gridIndex (F : Arith K) (m : Map K) (p : V3 K) : Res (ℤ × ℤ × ℤ) :=
  if outside F m.x p.x ∨ outside F m.y p.y ∨ outside F m.z p.z then .throw .gear
  else do
    let i ← index F m.x p.x
    let j ← index F m.y p.y
    let k ← index F m.z p.z
    pure (i, j, k)

/-- The indices are inside `_myMap`, whose sizes are set in lines 62-68. -/
def inGrid (m : Map K) (g : ℤ × ℤ × ℤ) : Prop :=
  (0 ≤ g.1 ∧ g.1 ≤ m.x.n) ∧ (0 ≤ g.2.1 ∧ g.2.1 ≤ m.y.n) ∧ (0 ≤ g.2.2 ∧ g.2.2 ≤ m.z.n)

instance (m : Map K) (g : ℤ × ℤ × ℤ) : Decidable (inGrid m g) := by unfold inGrid; infer_instance

/-- `_myMap[g0][g1][g2]`, line 209. -/
def read (m : Map K) (g : ℤ × ℤ × ℤ) : Res (K × K) :=
  if inGrid m g then .ok (m.cells g.1.toNat g.2.1.toNat g.2.2.toNat) else .ub

/-- `_myMap[g0][g1][g2] = v`, line 134. -/
def write (m : Map K) (g : ℤ × ℤ × ℤ) (v : K × K) : Res (Map K) :=
  if inGrid m g then
    .ok { m with cells := fun i j k =>
      if i = g.1.toNat ∧ j = g.2.1.toNat ∧ k = g.2.2.toNat then v else m.cells i j k }
  else .ub

/-! ### The constructor -/

/-- The checks of the arguments, lines 16-47. -/
def check (F : Arith K) (a : Args K) : Res Unit :=
  let bad : Res Unit := .throw .gear
  let twoPi := F.mul 2 F.pi
  if a.xmax < a.xmin ∨ a.ymax < a.ymin ∨ a.zmax < a.zmin then bad
  else if a.nx < 0 ∨ a.ny < 0 ∨ a.nz < 0 then bad
  else if a.coord = 0 then .ok ()
  else if a.coord = 1 then
    if a.xmin < 0 ∨ a.xmax < 0 then bad
    else if a.ymin < 0 ∨ a.ymin > twoPi ∨ a.ymax < 0 ∨ a.ymax > twoPi then bad
    else .ok ()
  else if a.coord = 2 then
    if a.xmin < 0 ∨ a.xmax < 0 then bad
    else if a.ymin < 0 ∨ a.ymin > F.pi ∨ a.ymax < 0 ∨ a.ymax > F.pi then bad
    else if a.zmin < 0 ∨ a.zmin > twoPi ∨ a.zmax < 0 ∨ a.zmax > twoPi then bad
    else .ok ()
  else bad

/-- One direction of the grid, lines 51-59 and 70-81. -/
def axis (F : Arith K) (lo hi : K) (n : ℤ) : Axis K :=
  ⟨lo, hi, n, if n = 0 then 1 else F.div (F.sub hi lo) n⟩

/-- The new map, lines 51-81.  The elements that `resize` adds are pairs of zeros.  Simplification: memory is
not limited. -/
def init (F : Arith K) (a : Args K) : Map K :=
  ⟨axis F a.xmin a.xmax a.nx, axis F a.ymin a.ymax a.ny, axis F a.zmin a.zmax a.nz, fun _ _ _ => (0, 0)⟩

/-- The end point in Cartesian coordinates, lines 96-121 (`final`).  The check of lines 20-47 lets only the
three coordinate types through. -/
def endPoint (F : Arith K) (coord : ℤ) (p : V3 K) : V3 K :=
  if coord = 0 then p
  else if coord = 1 then ⟨F.mul p.x (F.rnd (F.cos p.y)), F.mul p.x (F.rnd (F.sin p.y)), p.z⟩
  else ⟨F.mul (F.mul p.x (F.rnd (F.sin p.y))) (F.rnd (F.cos p.z)),
    F.mul (F.mul p.x (F.rnd (F.sin p.y))) (F.rnd (F.sin p.z)), F.mul p.x (F.rnd (F.cos p.y))⟩

/-- The values for one end point, lines 122-131. -/
def values (D : Dist K) (e : V3 K) : Res (K × K) :=
  if Vector3D.equal e Vector3D.zero then .ok (0, 0)
  else do
    let r ← D.radlen Vector3D.zero e
    let i ← D.intlen Vector3D.zero e
    pure (r, i)

/-- The body of the innermost loop, lines 95-134. -/
def body (F : Arith K) (D : Dist K) (coord : ℤ) (m : Map K) (p : V3 K) : Res (Map K) := do
  let v ← values D (endPoint F coord p)
  let g ← gridIndex F m p
  write m g v

/-- `for(double v=...;v<=hi;v+=step)`, lines 89, 91 and 93, with a bound on the number of passes: `none` if the
loop is still running then. -/
def loop {σ : Type} (F : Arith K) (hi step : K) (f : K → σ → Option (Res σ)) : ℕ → K → σ → Option (Res σ)
  | 0, _, _ => none
  | fuel + 1, v, s =>
    if v ≤ hi then
      match f v s with
      | some (.ok s') => loop F hi step f fuel (F.add v step) s'
      | r => r
    else some (.ok s)

/-- The three loops, lines 89-137; `m` gives the limits and steps, the state is the map being filled. -/
def fill (F : Arith K) (D : Dist K) (coord : ℤ) (fuel : ℕ) (m : Map K) : Option (Res (Map K)) :=
  loop F m.x.hi m.x.step (fun x =>
    loop F m.y.hi m.y.step (fun y =>
      loop F m.z.hi m.z.step (fun z s => some (body F D coord s ⟨x, y, z⟩)) fuel m.z.lo) fuel m.y.lo)
    fuel m.x.lo m

/-- The constructor, lines 11-138, with a bound on the number of passes of every loop: `none` if it has not ended
then.  `D = none` is a manager without distance properties (`GearMgrImpl.cc` lines 377-384).  `n + 1` in lines
62-67 is undefined for the largest `int`. -/
def construct (F : Arith K) (D : Option (Dist K)) (a : Args K) (fuel : ℕ) : Option (Res (Map K)) :=
  match check F a with
  | .throw e => some (.throw e)
  | .ub => some .ub
  | .ok () =>
    match D with
    | none => some (.throw (.unknownParameter "No DistanceProperties set or implemented "))
    | some D =>
      if a.nx + 1 < 2 ^ 31 ∧ a.ny + 1 < 2 ^ 31 ∧ a.nz + 1 < 2 ^ 31 then fill F D a.coord fuel (init F a)
      else some .ub

/-! ### The queries -/

/-- `fmod(a, b)` of `<cmath>`: the remainder with the sign of `a`, which is exact.  Simplification: NaN for
`b = 0` is zero here; no map has a step of zero (see `construct_iff`). -/
def fmod (a b : K) : K := a - truncInt (a / b) * b

/-- The lower neighbour in one direction, lines 176, 178, 180. -/
def below (F : Arith K) (a : Axis K) (v : K) : K := F.sub v (fmod (F.sub v a.lo) a.step)

/-- The upper neighbour in one direction, lines 177, 179, 181. -/
def above (F : Arith K) (a : Axis K) (v : K) : K := F.add (below F a v) a.step

/-- The neighbours used in one direction: the first `count` elements of the array, lines 183-195 and the limits of
the loops in lines 200, 202, 204. -/
def neighbours (F : Arith K) (a : Axis K) (v : K) : List K :=
  let count := (if a.lo ≤ below F a v ∧ below F a v ≤ a.hi then 1 else 0)
    + (if a.lo ≤ above F a v ∧ above F a v ≤ a.hi then 1 else 0)
  [below F a v, above F a v].take count

/-- The neighbours in the order of the three loops, lines 200-206. -/
def corners (F : Arith K) (m : Map K) (p : V3 K) : List (V3 K) :=
  (neighbours F m.x p.x).flatMap fun x =>
    (neighbours F m.y p.y).flatMap fun y => (neighbours F m.z p.z).map fun z => ⟨x, y, z⟩

/-- The distance `d`, line 206. -/
def distance (F : Arith K) (p q : V3 K) : K :=
  let sq (a b : K) : K := F.mul (F.sub a b) (F.sub a b)
  F.rnd (F.sqrt (F.add (F.add (sq p.x q.x) (sq p.y q.y)) (sq p.z q.z)))

/-- The sums of lines 198-231: radiation lengths, interaction lengths and weights.  The breaks of lines 217 and
226-230 leave all three loops, which are therefore one loop over the list of neighbours. -/
def sums (F : Arith K) (m : Map K) (p : V3 K) : List (V3 K) → K × K × K → Res (K × K × K)
  | [], s => .ok s
  | q :: l, s => do
    let d := distance F p q
    let g ← gridIndex F m q
    let v ← read m g
    if |d| < F.tol then pure (v.1, v.2, 1)
    else sums F m p l (F.add s.1 (F.div v.1 d), F.add s.2.1 (F.div v.2 d), F.add s.2.2 (F.div 1 d))

/-- The quotients of lines 232-233; `none` is NaN, the quotient of two zeros. -/
def quotient (F : Arith K) (a b : K) : Option K := if b = 0 then none else some (F.div a b)

/-- `interpolateOnGrid`, lines 172-234: the pair of radiation and interaction length. -/
def interpolate (F : Arith K) (m : Map K) (p : V3 K) : Res (Option K × Option K) := do
  let s ← sums F m p (corners F m p) (0, 0, 0)
  pure (quotient F s.1 s.2.2, quotient F s.2.1 s.2.2)

/-- `getInteractionLength`, lines 140-148; `none` is NaN. -/
def getInteractionLength (F : Arith K) (m : Map K) (p : V3 K) : Res (Option K) := do
  let _ ← gridIndex F m p
  let r ← interpolate F m p
  pure r.2

/-- `getRadiationLength`, lines 150-158; `none` is NaN. -/
def getRadiationLength (F : Arith K) (m : Map K) (p : V3 K) : Res (Option K) := do
  let _ ← gridIndex F m p
  let r ← interpolate F m p
  pure r.1

/-! ### Rounding of doubles -/

/-- The nearest integer, halves to the even one. -/
def roundEven (q : K) : ℤ :=
  let f := ⌊q⌋
  let r := q - f
  if r < 1 / 2 then f else if 1 / 2 < r then f + 1 else if f % 2 = 0 then f else f + 1

/-- The rounding of IEEE binary64 to nearest, ties to even, of numbers in the range of normal doubles: 53
significant bits (IEEE 754-2019, 4.3.1). -/
def binary64 (q : K) : K :=
  if q = 0 then 0 else
    let e := Int.log 2 |q|
    roundEven (q * (2 : K) ^ (52 - e)) * (2 : K) ^ (e - 52)

end Gear.MaterialMap
