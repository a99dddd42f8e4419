/-
Specification for the manager in terms of the history of calls alone.
-/
import Verif.GearMgr

namespace Gear.Mgr

/-- The pointer passed to the most recent setter call of section `s` (histories list the oldest call
first): `none` if there was no call, `some none` if the last call passed null. -/
def lastSet (s : Section) (h : List Op) : Option (Option Ptr) :=
  h.reverse.findSome? fun | .setSection s' p => if s' = s then some p else none | _ => none

/-- The last non-null pointer registered under the key `k`. -/
def lastGear (k : String) (h : List Op) : Option Ptr :=
  h.reverse.findSome? fun | .setGear k' p => if k' = k then p else none | _ => none

/-- The first material with name `n` that was registered. -/
def firstMaterial (matName : Ptr → String) (n : String) (h : List Op) : Option Ptr :=
  h.findSome? fun
    | .registerMaterial (some p) => if matName p = n then some p else none | _ => none

/-- The name set last, the empty string at the beginning. -/
def lastName (h : List Op) : String :=
  (h.reverse.findSome? fun | .setDetectorName n => some n | _ => none).getD ""

/-- All objects handed over to the manager, once per call. -/
def handed : List Op → List Ptr
  | [] => []
  | .setSection _ p :: h => p.toList ++ handed h
  | .setGear _ p :: h => p.toList ++ handed h
  | .registerMaterial p :: h => p.toList ++ handed h
  | .setDetectorName _ :: h => handed h

/-- The objects that become unreachable, without being deleted, in the call `o` after the calls
`past`: the object replaced in a section other than the TPC, and a material that is rejected. -/
def leakNow (matName : Ptr → String) (past : List Op) : Op → List Ptr
  | .setSection s _ => if s = .tpc then [] else ((lastSet s past).getD none).toList
  | .setGear _ _ => []
  | .registerMaterial p =>
    match p with
    | none => []
    | some p => if (firstMaterial matName (matName p) past).isSome then [p] else []
  | .setDetectorName _ => []

/-- The objects leaked by the calls `h` made after `past`. -/
def leaks (matName : Ptr → String) (past : List Op) : List Op → List Ptr
  | [] => []
  | o :: h => leakNow matName past o ++ leaks matName (past ++ [o]) h

/-- No call passes null where the code dereferences its argument. -/
def NoNull (h : List Op) : Prop :=
  (∀ s, s.forward = true → Op.setSection s none ∉ h) ∧ Op.registerMaterial none ∉ h

end Gear.Mgr
