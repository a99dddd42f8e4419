/-
Numbers.  `double` is modelled by an ordered field `K` (rounding, overflow, NaN and infinity are not
modelled); conversions to `int` by the floor of `K`.
-/
import Mathlib.Algebra.Order.Floor.Ring
import Mathlib.Algebra.Order.Field.Basic
import Mathlib.Data.Rat.Floor
import Mathlib.Tactic.Linarith
import Mathlib.Tactic.Ring
import Mathlib.Tactic.FieldSimp
import Mathlib.Tactic.NormNum
import Mathlib.Tactic.Positivity

set_option autoImplicit false
set_option linter.unusedSectionVars false

namespace Gear

variable {K : Type} [Field K] [LinearOrder K] [IsStrictOrderedRing K] [FloorRing K]

/-- `(int) x` and `static_cast<int>(x)`: truncation towards zero ([conv.fpint]).
Simplification: values outside the range of `int` are not distinguished. -/
def truncInt (x : K) : ℤ := if 0 ≤ x then ⌊x⌋ else ⌈x⌉

/-- `round(x)` of `<cmath>`: to the nearest integer, halves away from zero. -/
def roundInt (x : K) : ℤ := if 0 ≤ x then ⌊x + 1 / 2⌋ else ⌈x - 1 / 2⌉

end Gear
