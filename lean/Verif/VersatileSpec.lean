/-
Specification vocabulary for the versatile disk layout.
-/
import Verif.Versatile
import Mathlib.Algebra.BigOperators.Group.List.Basic

set_option autoImplicit false
set_option linter.unusedSectionVars false

namespace Gear.Versatile

open Disk
open Rect (elem)

variable {K : Type} [Field K] [LinearOrder K] [IsStrictOrderedRing K] [FloorRing K]

namespace Spec

/-- Every layout a user can have: built with any calls of `addRow`, whether they throw or not, asked for
pad lists, copied. -/
inductive Made (pi : K) : Layout K → Prop
  | new (rMin : K) : Made pi (Versatile.new rMin)
  | addRow {L : Layout K} (a : RowArgs K) : Made pi L → Made pi (addRow pi L a).1
  | padsInRow {L : Layout K} (row : ℤ) : Made pi L → Made pi (getPadsInRow L row).1
  | copy {L : Layout K} : Made pi L → Made pi (copy L)

/-- The layouts for which all calls of `addRow` were successful; these calls are listed. -/
inductive Built (pi rMin : K) : List (RowArgs K) → Layout K → Prop
  | new : Built pi rMin [] (Versatile.new rMin)
  | addRow {as : List (RowArgs K)} {L L' : Layout K} (a : RowArgs K) : Built pi rMin as L →
    addRow pi L a = (L', .ok ()) → Built pi rMin (as ++ [a]) L'
  | padsInRow {as : List (RowArgs K)} {L : Layout K} (row : ℤ) : Built pi rMin as L →
    Built pi rMin as (getPadsInRow L row).1
  | copy {as : List (RowArgs K)} {L : Layout K} : Built pi rMin as L → Built pi rMin as (copy L)

/-- The rows asked for, one by one. -/
def flat (as : List (RowArgs K)) : List (RowArgs K) := as.flatMap fun a => List.replicate a.repeats.toNat a

/-- The inner radius of row `i`: the rows before it have been stacked from `rMin` outwards. -/
def inner (rMin : K) (as : List (RowArgs K)) (i : ℕ) : K :=
  rMin + ((flat as).take i |>.map RowArgs.rowHeight).sum

/-- The middle radius of a row with arguments `a` and number `i`. -/
def middle (rMin : K) (as : List (RowArgs K)) (i : ℕ) (a : RowArgs K) : K := inner rMin as i + a.rowHeight / 2

/-- Row `row` exists and has `n` pads. -/
def PadsInRow (L : Layout K) (row n : ℤ) : Prop := ∃ r, elem L.rows row = some r ∧ r.nPads = n

/-- There is a row `row` with a pad `pad`. -/
def IsPad (L : Layout K) (row pad : ℤ) : Prop := ∃ n, PadsInRow L row n ∧ 0 ≤ pad ∧ pad < n

/-- Row and pad numbers fit into the pad index. -/
structure Sized (L : Layout K) : Prop where
  rows : getNRows L ≤ 65535
  pads : ∀ row n, PadsInRow L row n → n ≤ 65536

/-- `p` is the index of pad `pad` of row `row`, which exists. -/
def IsIndex (L : Layout K) (row pad p : ℤ) : Prop := IsPad L row pad ∧ getPadIndex L row pad = .ok p

/-- Two angles differ by full turns. -/
def SameAngle (pi x y : K) : Prop := ∃ k : ℤ, x = y + k * (2 * pi)

end Spec

end Gear.Versatile
