/-
Specification vocabulary for the properties of `TPCModuleImpl`.
-/
import Verif.TpcModule
import Verif.DiskDistance
import Mathlib.Analysis.SpecialFunctions.Complex.Arg
import Mathlib.Analysis.SpecialFunctions.Trigonometric.Inverse

set_option autoImplicit false
set_option linter.unusedSectionVars false

namespace Gear.TpcModule

open Disk Real

/-- The mathematical functions. -/
noncomputable def realTrig : TrigFns ℝ :=
  { realFns with
    atan2 := fun y x => Complex.arg ⟨x, y⟩
    asin := Real.arcsin
    dblMax := (2 ^ 53 - 1) * 2 ^ 971
    dblMin := 1 / 2 ^ 1022 }

namespace Spec

/-- The coordinate types there are. -/
def Known (t : ℤ) : Prop := t = CARTESIAN ∨ t = POLAR

/-- The point of the plane that a pair of coordinates stands for. -/
noncomputable def plane (t : ℤ) (c : ℝ × ℝ) : ℝ × ℝ :=
  if t = POLAR then (c.1 * cos c.2, c.1 * sin c.2) else c

/-- Two pairs of coordinates are the same: polar angles count modulo full turns, and not at all at radius 0. -/
def Same (t : ℤ) (c d : ℝ × ℝ) : Prop :=
  if t = POLAR then c.1 = d.1 ∧ (c.1 = 0 ∨ ∃ k : ℤ, c.2 = d.2 + k * (2 * π)) else c = d

/-- How a module lies on the end plate: its plane is rotated by the angle, then moved by the offset, and on
the negative side mirrored at the y axis. -/
noncomputable def place (angle : ℝ) (offset : ℝ × ℝ) (z : ℝ) (q : ℝ × ℝ) : ℝ × ℝ :=
  let x := q.1 * cos angle - q.2 * sin angle + offset.1
  let y := q.1 * sin angle + q.2 * cos angle + offset.2
  (if z ≤ 0 then -x else x, y)

/-- The setters of a module. -/
inductive Op where
  | border (w : ℝ)
  | offset (c0 c1 : ℝ)
  | angle (a : ℝ)
  | z (z : ℝ)
  | frequency (f : ℝ)

/-- One call of a setter; an exception is caught by the caller. -/
noncomputable def step (m : Module ℝ) : Op → Module ℝ
  | .border w => (setBorderWidth realTrig m w).1
  | .offset a b => (setOffset realTrig m a b).1
  | .angle a => (setAngle realTrig m a).1
  | .z z => setZPosition m z
  | .frequency f => setReadoutFrequency m f

/-- Any sequence of setter calls. -/
noncomputable def run (m : Module ℝ) (ops : List Op) : Module ℝ := ops.foldl step m

/-- The values last given to the setters. -/
structure Values where
  border : ℝ
  offset : ℝ × ℝ
  angle : ℝ
  z : Option ℝ
  frequency : ℝ

/-- The effect of one call on the values. -/
def Values.set (v : Values) : Op → Values
  | .border w => { v with border := w }
  | .offset a b => { v with offset := (a, b) }
  | .angle a => { v with angle := a }
  | .z z => { v with z := some z }
  | .frequency f => { v with frequency := f }

/-- The values last given to the setters, starting from those of the constructor. -/
def values (frequency : ℝ) (ops : List Op) : Values := ops.foldl Values.set ⟨0, (0, 0), 0, none, frequency⟩

/-- `setOffset` or `setAngle`. -/
def Op.moves : Op → Prop
  | .offset _ _ => True
  | .angle _ => True
  | _ => False

/-- `setZPosition`. -/
def Op.setsZ : Op → Prop
  | .z _ => True
  | _ => False

/-- The histories in which `setOffset` or `setAngle` is called after the last call of `setZPosition`. -/
def Settled (ops : List Op) : Prop :=
  ∃ pre o post, ops = pre ++ o :: post ∧ Op.moves o ∧ ∀ p ∈ post, ¬ Op.setsZ p

/-- The points of the plane that belong to an extent given in coordinates of type `t`. -/
def region (t : ℤ) (e : Ext ℝ) : Set (ℝ × ℝ) :=
  {q | ∃ c : ℝ × ℝ, e.e0 ≤ c.1 ∧ c.1 ≤ e.e1 ∧ e.e2 ≤ c.2 ∧ c.2 ≤ e.e3 ∧ q = plane t c}

end Spec

end Gear.TpcModule
