/-
Specification vocabulary for layouts with a fixed pad angle.
-/
import Verif.PadAngle

set_option autoImplicit false
set_option linter.unusedSectionVars false

namespace Gear.PadAngle

variable {K : Type} [Field K] [LinearOrder K] [IsStrictOrderedRing K] [FloorRing K]

namespace Spec

/-- The arguments of the constructor. -/
structure Args (K : Type) where
  rMin : K
  rMax : K
  nRow : ℤ
  phiMin : K
  phiMax : K
  nPads : ℤ

/-- Arguments that describe a ring segment with rows and pads, whose numbers fit into 16 bits. -/
structure Args.Proper (A : Args K) : Prop where
  r : A.rMin < A.rMax
  phi : A.phiMin < A.phiMax
  rows : 0 < A.nRow ∧ A.nRow ≤ 65536
  pads : 0 < A.nPads ∧ A.nPads ≤ 65536

/-- The layouts that can be had from the arguments: built by the constructor, asked for pad lists (which
fills the layout's cache), copied. -/
inductive Made (A : Args K) : Layout K → Prop
  | new {L : Layout K} : PadAngle.new A.rMin A.rMax A.nRow A.phiMin A.phiMax A.nPads = .ok L → Made A L
  | padsInRow {L : Layout K} (row : ℤ) : Made A L → Made A (getPadsInRow L row).1
  | copy {L : Layout K} : Made A L → Made A (copy L)

/-- There is a row `row` with a pad `pad`. -/
def Args.IsPad (A : Args K) (row pad : ℤ) : Prop := (0 ≤ row ∧ row < A.nRow) ∧ 0 ≤ pad ∧ pad < A.nPads

/-- Height of a row. -/
def Args.dr (A : Args K) : K := (A.rMax - A.rMin) / A.nRow

/-- Angle of a pad. -/
def Args.dphi (A : Args K) : K := (A.phiMax - A.phiMin) / A.nPads

/-- The point lies in the closed keystone of pad `pad` of row `row`, when the ring segment is cut into
`nRow` rows of the same height and `nPads` sectors of the same angle. -/
def Args.InPad (A : Args K) (row pad : ℤ) (r phi : K) : Prop :=
  (A.rMin + row * A.dr ≤ r ∧ r ≤ A.rMin + (row + 1) * A.dr) ∧
  A.phiMin + pad * A.dphi ≤ phi ∧ phi ≤ A.phiMin + (pad + 1) * A.dphi

/-- The point lies in the open keystone of the pad. -/
def Args.StrictlyInPad (A : Args K) (row pad : ℤ) (r phi : K) : Prop :=
  (A.rMin + row * A.dr < r ∧ r < A.rMin + (row + 1) * A.dr) ∧
  A.phiMin + pad * A.dphi < phi ∧ phi < A.phiMin + (pad + 1) * A.dphi

/-- `p` is the index of pad `pad` of row `row`, which exists. -/
def IsIndex (A : Args K) (L : Layout K) (row pad p : ℤ) : Prop :=
  A.IsPad row pad ∧ getPadIndex L row pad = .ok p

end Spec

end Gear.PadAngle
