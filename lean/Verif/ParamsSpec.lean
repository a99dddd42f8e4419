/-
Specification of a named-parameter collection, independent of the model's maps: what a user expects
from the history of calls alone.
-/
import Verif.Params

namespace Gear.Params

variable {D : Type}

/-- The value the most recent `setIntVal(k, _)` of the history stored, if there was one.
Histories are listed oldest call first. -/
def lastInt (k : String) (h : List (Op D)) : Option Int :=
  h.reverse.findSome? fun | .setInt k' v => if k' = k then some v else none | _ => none
/-- As `lastInt`, for `setDoubleVal`. -/
def lastDouble (k : String) (h : List (Op D)) : Option D :=
  h.reverse.findSome? fun | .setDouble k' v => if k' = k then some v else none | _ => none
/-- As `lastInt`, for `setStringVal`. -/
def lastString (k : String) (h : List (Op D)) : Option String :=
  h.reverse.findSome? fun | .setString k' v => if k' = k then some v else none | _ => none
/-- As `lastInt`, for `setIntVals`. -/
def lastInts (k : String) (h : List (Op D)) : Option (List Int) :=
  h.reverse.findSome? fun | .setInts k' v => if k' = k then some v else none | _ => none
/-- As `lastInt`, for `setDoubleVals`. -/
def lastDoubles (k : String) (h : List (Op D)) : Option (List D) :=
  h.reverse.findSome? fun | .setDoubles k' v => if k' = k then some v else none | _ => none
/-- As `lastInt`, for `setStringVals`. -/
def lastStrings (k : String) (h : List (Op D)) : Option (List String) :=
  h.reverse.findSome? fun | .setStrings k' v => if k' = k then some v else none | _ => none

/-- What a getter must answer given the last value stored under its key. -/
def answer {α : Type} (k : String) : Option α → Res α
  | some v => .ok v
  | none => .throw (.unknownParameter k)

/-- `l` is the listing of the keys satisfying `S`: strictly ascending, hence without duplicates, and
containing exactly these keys. -/
def IsListing (S : String → Prop) (l : List String) : Prop :=
  l.Pairwise (· < ·) ∧ ∀ k, k ∈ l ↔ S k

end Gear.Params
