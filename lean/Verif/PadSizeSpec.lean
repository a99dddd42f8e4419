/-
Specification vocabulary for layouts with a fixed pad size.
-/
import Verif.PadSize

set_option autoImplicit false
set_option linter.unusedSectionVars false

namespace Gear.PadSize

open Disk
open Rect (elem)

variable {K : Type} [Field K] [LinearOrder K] [IsStrictOrderedRing K] [FloorRing K]

namespace Spec

/-- The arguments of the constructor. -/
structure Args (K : Type) where
  rMin : K
  rMax : K
  padHeight : K
  padWidth : K
  nRow : ℤ
  padGap : K
  phiMax : K

/-- The layouts that can be had from the arguments: built by the constructor, asked for pad lists (which
fills the layout's cache), copied. -/
inductive Made (F : Fns K) (A : Args K) : Layout K → Prop
  | new {L : Layout K} :
    PadSize.new F.pi A.rMin A.rMax A.padHeight A.padWidth A.nRow A.padGap A.phiMax = .ok L → Made F A L
  | padsInRow {L : Layout K} (row : ℤ) : Made F A L → Made F A (getPadsInRow L row).1
  | copy {L : Layout K} : Made F A L → Made F A (copy L)

/-- Row `row` exists and has `n` pads. -/
def PadsInRow (L : Layout K) (row n : ℤ) : Prop := ∃ r, elem L.rows row = some r ∧ r.nPad = n

/-- There is a row `row` with a pad `pad`. -/
def IsPad (L : Layout K) (row pad : ℤ) : Prop := ∃ n, PadsInRow L row n ∧ 0 ≤ pad ∧ pad < n

/-- Sensible arguments: a ring or ring segment that does not reach behind the origin, a full turn at most,
no negative gap. -/
structure Args.Proper (F : Fns K) (A : Args K) : Prop where
  r0 : 0 ≤ A.rMin
  r : A.rMin < A.rMax
  phi0 : 0 < A.phiMax
  phi : A.phiMax ≤ 2 * F.pi
  gap : 0 ≤ A.padGap

/-- There are rows, every row has a pad, and row and pad numbers fit into 16 bits. -/
structure Filled (L : Layout K) : Prop where
  rows : 0 < getNRows L ∧ getNRows L ≤ 65536
  pads : ∀ row n, PadsInRow L row n → 1 ≤ n ∧ n ≤ 65536

/-- `p` is the index of pad `pad` of row `row`, which exists. -/
def IsIndex (L : Layout K) (row pad p : ℤ) : Prop := IsPad L row pad ∧ getPadIndex L row pad = .ok p

/-- `x` is the largest integer with `x * step ≤ total`. -/
def IsMostThatFit (step total : K) (x : ℤ) : Prop := x * step ≤ total ∧ total < (x + 1) * step

end Spec

end Gear.PadSize
