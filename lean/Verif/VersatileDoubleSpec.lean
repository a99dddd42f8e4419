/-
Versatile disk layouts in the arithmetic of `double`: which layouts are considered, where their pads are in exact arithmetic, and
how exact `double` arithmetic is.
-/
import Verif.VersatileDouble
import Verif.Doubles

set_option autoImplicit false
set_option linter.unusedSectionVars false

namespace Gear.Versatile.Double.Spec

open Versatile.Spec
open MaterialMap (Arith)

variable {K : Type} [Field K] [LinearOrder K] [IsStrictOrderedRing K] [FloorRing K]

/-- The layouts for which all calls of `addRow` were successful; these calls are listed.  They may have been asked for lists of
pads, and copied. -/
inductive Built (F : Arith K) (rMin : K) : List (RowArgs K) → Layout K → Prop
  | new : Built F rMin [] (Versatile.new rMin)
  | addRow {as : List (RowArgs K)} {L L' : Layout K} (a : RowArgs K) : Built F rMin as L →
    addRow F L a = (L', .ok ()) → Built F rMin (as ++ [a]) L'
  | padsInRow {as : List (RowArgs K)} {L : Layout K} (row : ℤ) : Built F rMin as L →
    Built F rMin as (getPadsInRow L row).1
  | copy {as : List (RowArgs K)} {L : Layout K} : Built F rMin as L → Built F rMin as (copy L)

/-- The rounding errors of all rows together are not more than two per mille, and row and pad numbers fit into a pad index. -/
structure Proper (rMin : K) (as : List (RowArgs K)) (u : K) : Prop where
  rMin : 0 ≤ rMin
  rows : (flat as).length ≤ 65535
  pads : ∀ a ∈ as, a.nPads ≤ 65536
  few : 1000 * ((flat as).length + 2) * u ≤ 1

/-- Row `i` was asked for with the arguments `a`. -/
def IsRow (as : List (RowArgs K)) (i : ℕ) (a : RowArgs K) : Prop := (flat as)[i]? = some a

/-- The pitch of the pads of row `i` as an angle. -/
def pitch (rMin : K) (as : List (RowArgs K)) (i : ℕ) (a : RowArgs K) : K := a.padPitch / middle rMin as i a

/-- The angle of the edge of row `i` after `k` of its pads. -/
def edge (rMin : K) (as : List (RowArgs K)) (i : ℕ) (a : RowArgs K) (k : ℤ) : K :=
  a.offset / middle rMin as i a + k * pitch rMin as i a

/-- The angle of the middle of a pad. -/
def angle (rMin : K) (as : List (RowArgs K)) (i : ℕ) (a : RowArgs K) (pad : ℤ) : K :=
  a.offset / middle rMin as i a + (pad + 1 / 2) * pitch rMin as i a

/-- The first pads of all rows start less than a turn away from the angle 0. -/
def Started (pi rMin : K) (as : List (RowArgs K)) : Prop :=
  ∀ i a, IsRow as i a → 100 * |a.offset| ≤ 199 * pi * middle rMin as i a

/-- The rounding errors of the angles of row `i`. -/
def phiError (u : K) (i : ℕ) : K := 100 * (i + 5) * u

/-- The rounding errors of the radii of row `i`. -/
def rError (u rMin : K) (as : List (RowArgs K)) (i : ℕ) (a : RowArgs K) : K := 2 * (i + 4) * u * middle rMin as i a

/-- Row `i` has pads at the angle `phi`. -/
def Covers (u rMin : K) (as : List (RowArgs K)) (i : ℕ) (a : RowArgs K) (phi : K) : Prop :=
  edge rMin as i a 0 + phiError u i ≤ phi ∧ phi ≤ edge rMin as i a a.nPads - phiError u i

/-- What is used of the functions of the C library. -/
structure Functions (F : Arith K) : Prop where
  cos : ∀ x, |F.cos x| ≤ 1
  sqrt : ∀ x, 0 ≤ x → 0 ≤ F.sqrt x
  sqrt_pos : ∀ x, 0 < x → 0 < F.sqrt x

/-- The pads of all rows are not too narrow for the conversion of pad numbers to `int`. -/
def Wide (rMin : K) (as : List (RowArgs K)) : Prop :=
  ∀ i a, IsRow as i a → middle rMin as i a ≤ 100000000 * a.padPitch

end Gear.Versatile.Double.Spec
