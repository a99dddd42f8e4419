/-
`gear::VectorND_T`, the vector with N coordinates of which `Vector2D` is the case of two (include/gear/gearimpl/Vectors.h).

Simplifications.  The coordinates are values of a type with a zero (`Float_T`); the array of N coordinates is a list of that length, and
reading or writing beyond it is undefined behaviour.
-/
import Verif.Basic
import Mathlib.Data.List.Basic

set_option autoImplicit false
set_option linter.unusedSectionVars false

namespace Gear.VectorND

variable {K : Type}

/-- The conversion of an `int` to an `unsigned` of 32 bits, as in the comparison of `i` with `N-1` (Vectors.h, lines 29 and 35) and in the
call with an `int`. -/
def toUnsigned (n : ℤ) : ℕ := (n % 4294967296).toNat

/-- `VectorND_T()`, Vectors.h line 25: the array of N coordinates, set to zero one by one. -/
def zeros [Zero K] : ℕ → List K
  | 0 => []
  | n + 1 => 0 :: zeros n

/-- `Vector2D_T(c0, c1)`, Vectors.h lines 56-59. -/
def vector2D (c0 c1 : K) : List K := [c0, c1]

/-- `Vector3D_T(c0, c1, c2)`, Vectors.h lines 71-75. -/
def vector3D (c0 c1 c2 : K) : List K := [c0, c1, c2]

/-- `operator[] const`, Vectors.h lines 33-38, with the parameter `N` of the template. -/
def get (N : ℕ) (c : List K) (i : ℕ) : Res K :=
  if i > toUnsigned ((N : ℤ) - 1) then .throw .outOfRange
  else
    match c[i]? with
    | some v => .ok v
    | none => .ub

/-- An assignment `v[i] = x` with the reference from `operator[]`, Vectors.h lines 28-32: the coordinates afterwards. -/
def set (N : ℕ) (c : List K) (i : ℕ) (x : K) : Res (List K) :=
  if i > toUnsigned ((N : ℤ) - 1) then .throw .outOfRange
  else if i < c.length then .ok (c.set i x)
  else .ub

/-- A program that makes assignments one after the other, and goes on after an exception with the vector as it is. -/
def assign (N : ℕ) : List K → List (ℕ × K) → Res (List K)
  | c, [] => .ok c
  | c, (i, x) :: r =>
    match set N c i x with
    | .ok c' => assign N c' r
    | .throw _ => assign N c r
    | .ub => .ub

end Gear.VectorND
