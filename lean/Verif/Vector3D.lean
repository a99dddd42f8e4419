/-
Model of `gear::Vector3D` (`include/gear/gearimpl/Vector3D.h`).
-/
import Verif.TpcModule

set_option autoImplicit false
set_option linter.unusedSectionVars false

namespace Gear.Vector3D

open TpcModule (TrigFns)

/-- `Vector3D`, member declaration line 188. -/
@[ext]
structure V3 (K : Type) where
  x : K
  y : K
  z : K
deriving DecidableEq, Repr

variable {K : Type} [Field K] [LinearOrder K] [IsStrictOrderedRing K]

/-- The default constructor, line 23. -/
def zero : V3 K := ⟨0, 0, 0⟩

/-- The constructor from an array, lines 27 and 30; the array has three elements.  Simplification: the elements
of an array of `float` are exact. -/
def ofArray (v : ℕ → K) : V3 K := ⟨v 0, v 1, v 2⟩

/-- The constructor for Cartesian coordinates, lines 39-43 and 236-241. -/
def cartesian (x y z : K) : V3 K := ⟨x, y, z⟩

/-- The constructor for cylindrical coordinates, lines 246-252. -/
def cylindrical (F : TrigFns K) (rho phi z : K) : V3 K := ⟨rho * F.cos phi, rho * F.sin phi, z⟩

/-- The constructor for spherical coordinates, lines 258-264. -/
def spherical (F : TrigFns K) (r phi theta : K) : V3 K :=
  let rst := r * F.sin theta
  ⟨rst * F.cos phi, rst * F.sin phi, r * F.cos theta⟩

/-- `operator[] const`, lines 75-82. -/
def get (v : V3 K) (i : ℤ) : K := if i = 0 then v.x else if i = 1 then v.y else if i = 2 then v.z else 0

/-- The assignment `v[i] = a`, lines 84-92; the second component is the static variable `dummy`, to which other
indices refer. -/
def set (s : V3 K × K) (i : ℤ) (a : K) : V3 K × K :=
  if i = 0 then ({ s.1 with x := a }, s.2) else if i = 1 then ({ s.1 with y := a }, s.2)
  else if i = 2 then ({ s.1 with z := a }, s.2) else (s.1, a)

/-- Reading `v[i]` of a vector that is not const, lines 84-92. -/
def getRef (s : V3 K × K) (i : ℤ) : K :=
  if i = 0 then s.1.x else if i = 1 then s.1.y else if i = 2 then s.1.z else s.2

/-- `phi`, lines 95-98. -/
def phi (F : TrigFns K) (v : V3 K) : K := if v.x = 0 ∧ v.y = 0 then 0 else F.atan2 v.y v.x

/-- `trans2`, lines 113-116. -/
def trans2 (v : V3 K) : K := v.x * v.x + v.y * v.y

/-- `trans`, lines 107-110. -/
def trans (F : TrigFns K) (v : V3 K) : K := F.sqrt (v.x * v.x + v.y * v.y)

/-- `rho`, lines 101-104. -/
def rho (F : TrigFns K) (v : V3 K) : K := trans F v

/-- `r2`, lines 126-129. -/
def r2 (v : V3 K) : K := v.x * v.x + v.y * v.y + v.z * v.z

/-- `r`, lines 119-122. -/
def r (F : TrigFns K) (v : V3 K) : K := F.sqrt (v.x * v.x + v.y * v.y + v.z * v.z)

/-- `theta`, lines 132-135. -/
def theta (F : TrigFns K) (v : V3 K) : K :=
  if v.x = 0 ∧ v.y = 0 ∧ v.z = 0 then 0 else F.atan2 (rho F v) v.z

/-- `dot`, lines 138-140. -/
def dot (a b : V3 K) : K := a.x * b.x + a.y * b.y + a.z * b.z

/-- `cross`, lines 143-148. -/
def cross (a b : V3 K) : V3 K := ⟨a.y * b.z - a.z * b.y, a.z * b.x - a.x * b.z, a.x * b.y - a.y * b.x⟩

/-- `unit`, lines 151-155. -/
def unit (F : TrigFns K) (v : V3 K) : V3 K :=
  let n := r F v
  ⟨v.x / n, v.y / n, v.z / n⟩

/-- `operator+`, lines 206-209. -/
def add (a b : V3 K) : V3 K := ⟨a.x + b.x, a.y + b.y, a.z + b.z⟩

/-- `operator-`, lines 211-214. -/
def sub (a b : V3 K) : V3 K := ⟨a.x - b.x, a.y - b.y, a.z - b.z⟩

/-- `operator==`, lines 216-222. -/
def equal (a b : V3 K) : Bool := decide (a.x = b.x ∧ a.y = b.y ∧ a.z = b.z)

/-- `operator*`, lines 225-228. -/
def smul (s : K) (v : V3 K) : V3 K := ⟨s * v.x, s * v.y, s * v.z⟩

end Gear.Vector3D
