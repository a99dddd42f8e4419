/-
Specification vocabulary for the properties of `TPCParametersImpl`.
-/
import Verif.TpcParams
import Mathlib.Order.Bounds.Basic

set_option autoImplicit false
set_option linter.unusedSectionVars false

namespace Gear.TpcParams

open TpcModule (CARTESIAN POLAR Ext LayoutI TrigFns)

variable {K : Type} [Field K] [LinearOrder K] [IsStrictOrderedRing K] [FloorRing K]

namespace Spec

/-- The calls that change a TPC. -/
inductive Op (K : Type) where
  | add (m : Option (Mod K))
  | drift (l : K)
  | velocity (v : K)
  | frequency (f : K)
  | layout (isModule : Bool) (L : LayoutI K)

/-- One call; an exception is caught by the caller. -/
def step (F : TrigFns K) (T : Tpc K) : Op K → Tpc K
  | .add m => (addModule T m).1
  | .drift l => setMaxDriftLength T l
  | .velocity v => setDriftVelocity T v
  | .frequency f => (setReadoutFrequency T f).1
  | .layout b L => (setPadLayout F T b L).1

/-- Any sequence of calls. -/
def run (F : TrigFns K) (T : Tpc K) (ops : List (Op K)) : Tpc K := ops.foldl (step F) T

/-- What a user remembers of a TPC: the modules in the order in which they were accepted and the values set. -/
structure Books (K : Type) where
  modules : List (Mod K)
  drift : K
  velocity : K

/-- A module is accepted if it has the right coordinate type and a new ID. -/
def Accepts (t : ℤ) (l : List (Mod K)) (m : Mod K) : Prop := m.tpcCoordinateType = t ∧ ∀ m' ∈ l, m'.id ≠ m.id

open Classical in
/-- The effect of one call. -/
noncomputable def Books.step (F : TrigFns K) (t : ℤ) (B : Books K) : Op K → Books K
  | .add none => B
  | .add (some m) => if Accepts t B.modules m then { B with modules := B.modules ++ [m] } else B
  | .drift l => { B with drift := l }
  | .velocity v => { B with velocity := v }
  | .frequency f =>
    match B.modules with
    | [m] => { B with modules := [{ m with readoutFrequency := f }] }
    | _ => B
  | .layout b L =>
    if B.modules = [] ∧ b = false then
      { B with modules := [ofModule F (TpcModule.new 0 L t 0)] } else B

/-- The effect of a sequence of calls on a TPC that was new. -/
noncomputable def books (F : TrigFns K) (t : ℤ) (drift : K) (ops : List (Op K)) : Books K :=
  ops.foldl (Books.step F t) ⟨[], drift, 0⟩

/-- The module belongs to the negative side, or its side is not known. -/
def OnNegative (m : Mod K) : Prop := ∀ z, m.z = some z → z ≤ 0

/-- The module belongs to the positive side, or its side is not known. -/
def OnPositive (m : Mod K) : Prop := ∀ z, m.z = some z → 0 < z

instance : DecidablePred (OnNegative (K := K)) := fun m =>
  match h : m.z with
  | some z => if hz : z ≤ 0 then isTrue (fun z' h' => by rw [h] at h'; cases h'; exact hz)
      else isFalse (fun h' => hz (h' z h))
  | none => isTrue (fun z' h' => by rw [h] at h'; cases h')

instance : DecidablePred (OnPositive (K := K)) := fun m =>
  match h : m.z with
  | some z => if hz : 0 < z then isTrue (fun z' h' => by rw [h] at h'; cases h'; exact hz)
      else isFalse (fun h' => hz (h' z h))
  | none => isTrue (fun z' h' => by rw [h] at h'; cases h')

/-- Where the cathode is: in the middle between the anodes, or a drift length away from the only one. -/
def cathode (l : List (Mod K)) (drift : K) : K :=
  match (l.filterMap Mod.z).find? (fun z => decide (z ≤ 0)), (l.filterMap Mod.z).find? (fun z => decide (0 < z)) with
  | some a, some b => (a + b) / 2
  | some a, none => a + drift
  | none, some b => b - drift
  | none, none => 0

/-- The smallest box around all modules. -/
def SmallestExtent (l : List (Mod K)) (e : Ext K) : Prop :=
  IsLeast {x | ∃ m ∈ l, x = m.moduleExtent.e0} e.e0 ∧ IsGreatest {x | ∃ m ∈ l, x = m.moduleExtent.e1} e.e1 ∧
    IsLeast {x | ∃ m ∈ l, x = m.moduleExtent.e2} e.e2 ∧ IsGreatest {x | ∃ m ∈ l, x = m.moduleExtent.e3} e.e3

/-- `m` is the first module of the list with the smallest value of `d`. -/
def FirstLeast (d : Mod K → Res K) (l : List (Mod K)) (m : Mod K) : Prop :=
  ∃ pre post v, l = pre ++ m :: post ∧ d m = .ok v ∧ (∀ m' ∈ pre, ∃ v', d m' = .ok v' ∧ v < v') ∧
    ∀ m' ∈ post, ∃ v', d m' = .ok v' ∧ v ≤ v'

end Spec

end Gear.TpcParams
