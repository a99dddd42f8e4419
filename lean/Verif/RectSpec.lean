/-
Specification vocabulary for rectangular pad layouts.
-/
import Verif.RectLayout

set_option autoImplicit false
set_option linter.unusedSectionVars false

namespace Gear.Rect

variable {K : Type} [Field K] [LinearOrder K] [IsStrictOrderedRing K] [FloorRing K]

namespace Spec

/-- The layout has a row `row` with a pad `pad`. -/
def IsPad (L : Layout K) (row pad : ℤ) : Prop :=
  ∃ r, elem L.rows row = some r ∧ 0 ≤ pad ∧ pad < r.nPad

/-- Row and pad numbers fit into 16 bits each. -/
def Fits (L : Layout K) : Prop := L.rows.length ≤ 65536 ∧ ∀ r ∈ L.rows, r.nPad ≤ 65536

/-- `p` is a value of the C++ type `int`. -/
def IsInt (p : ℤ) : Prop := -2147483648 ≤ p ∧ p < 2147483648

/-- How a call ends. -/
def outcome (L : Layout K) : Op K → Res Unit
  | .addRow nRow nPad w h rh l r => (addRow L nRow nPad w h rh l r).2
  | .repeatRows c => (repeatRows L c).2
  | .getPadsInRow r => match (getPadsInRow L r).2 with
    | .ok _ => .ok ()
    | .throw e => .throw e
    | .ub => .ub

/-- No call of the history threw. -/
def AllSucceed (xMin xMax yMin : K) (h : List (Op K)) : Prop :=
  ∀ h₁ op h₂, h = h₁ ++ op :: h₂ → outcome (run xMin xMax yMin h₁) op = .ok ()

/-- The pad `p` has the given centre, width and height. -/
def HasBox (L : Layout K) (p : ℤ) (c : K × K) (w h : K) : Prop :=
  getPadCenter L p = .ok c ∧ getPadWidth L p = .ok w ∧ getPadHeight L p = .ok h

/-- The point lies in the closed rectangle of pad `p`. -/
def InPad (L : Layout K) (x y : K) (p : ℤ) : Prop :=
  ∃ c w h, HasBox L p c w h ∧ |x - c.1| ≤ w / 2 ∧ |y - c.2| ≤ h / 2

/-- The point lies in the open rectangle of pad `p`. -/
def StrictlyInPad (L : Layout K) (x y : K) (p : ℤ) : Prop :=
  ∃ c w h, HasBox L p c w h ∧ |x - c.1| < w / 2 ∧ |y - c.2| < h / 2

/-- `p` is the index of a pad of the layout. -/
def IsPadIndex (L : Layout K) (p : ℤ) : Prop :=
  ∃ row pad, IsPad L row pad ∧ getPadIndex L row pad = .ok p

/-- `getNearestPad(x, y)` ends with outcome `r`. -/
def Nearest (L : Layout K) (x y : K) (r : Res ℤ) : Prop := ∃ fuel, getNearestPad L x y fuel = some r

/-- `isInsidePad(x, y)` ends with outcome `r`. -/
def InsideAny (L : Layout K) (x y : K) (r : Res Bool) : Prop :=
  ∃ fuel, isInsideAnyPad L x y fuel = some r

/-- The rows only grow, or only shrink, from the first to the last. -/
def HeightsMonotone (L : Layout K) : Prop :=
  (∀ i j : ℕ, i ≤ j → ∀ a b, getRowHeight L i = .ok a → getRowHeight L j = .ok b → a ≤ b) ∨
  (∀ i j : ℕ, i ≤ j → ∀ a b, getRowHeight L i = .ok a → getRowHeight L j = .ok b → b ≤ a)

/-- Row `i` of `L` and row `i'` of `L'` look the same: height, number of pads, and size, pitch and
horizontal position of every pad. -/
def SameRow (L : Layout K) (i : ℤ) (L' : Layout K) (i' : ℤ) : Prop :=
  (∃ h, getRowHeight L i = .ok h ∧ getRowHeight L' i' = .ok h) ∧
  (∀ pad, IsPad L i pad ↔ IsPad L' i' pad) ∧
  ∀ pad p p', getPadIndex L i pad = .ok p → getPadIndex L' i' pad = .ok p' →
    getPadWidth L p = getPadWidth L' p' ∧ getPadHeight L p = getPadHeight L' p' ∧
    getPadPitch L p = getPadPitch L' p' ∧
    ∃ c c', getPadCenter L p = .ok c ∧ getPadCenter L' p' = .ok c' ∧ c.1 = c'.1

end Spec

end Gear.Rect
