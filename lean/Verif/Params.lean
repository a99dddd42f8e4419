/-
Model of `gear::GearParametersImpl` (src/gearimpl/GearParametersImpl.cc).
-/
import Verif.Basic

namespace Gear

/-- The data members of `GearParametersImpl`: six independent maps and, for every map, the
mutable cache of keys. `include/gear/gearimpl/GearParametersImpl.h` lines 85-112.
`D` stands for `double`. -/
structure Params (D : Type) where
  intMap : SMap String Int := []
  doubleMap : SMap String D := []
  stringMap : SMap String String := []
  intVecMap : SMap String (List Int) := []
  doubleVecMap : SMap String (List D) := []
  stringVecMap : SMap String (List String) := []
  intKeys : List String := []
  doubleKeys : List String := []
  stringKeys : List String := []
  intVecKeys : List String := []
  doubleVecKeys : List String := []
  stringVecKeys : List String := []
deriving DecidableEq, Repr

namespace Params

variable {D : Type}

/-- The common shape of the six getters: `find`, throw `UnknownParameterException(key)` at `end()`.
GearParametersImpl.cc lines 5-51. -/
def lookup {α : Type} (k : String) (m : SMap String α) : Res α :=
  match m.find? k with
  | none => .throw (.unknownParameter k)
  | some v => .ok v

/-- GearParametersImpl.cc lines 5-11. -/
def getIntVal (p : Params D) (k : String) : Res Int := lookup k p.intMap
/-- GearParametersImpl.cc lines 13-19. -/
def getDoubleVal (p : Params D) (k : String) : Res D := lookup k p.doubleMap
/-- GearParametersImpl.cc lines 21-27. -/
def getStringVal (p : Params D) (k : String) : Res String := lookup k p.stringMap
/-- GearParametersImpl.cc lines 29-35. -/
def getIntVals (p : Params D) (k : String) : Res (List Int) := lookup k p.intVecMap
/-- GearParametersImpl.cc lines 37-43. -/
def getDoubleVals (p : Params D) (k : String) : Res (List D) := lookup k p.doubleVecMap
/-- GearParametersImpl.cc lines 45-51. -/
def getStringVals (p : Params D) (k : String) : Res (List String) := lookup k p.stringVecMap

/-- GearParametersImpl.cc lines 53-55. -/
def setIntVal (p : Params D) (k : String) (v : Int) : Params D :=
  { p with intMap := p.intMap.set k v }
/-- GearParametersImpl.cc lines 57-59. -/
def setDoubleVal (p : Params D) (k : String) (v : D) : Params D :=
  { p with doubleMap := p.doubleMap.set k v }
/-- GearParametersImpl.cc lines 62-64. -/
def setStringVal (p : Params D) (k : String) (v : String) : Params D :=
  { p with stringMap := p.stringMap.set k v }
/-- GearParametersImpl.cc lines 67-69. -/
def setIntVals (p : Params D) (k : String) (v : List Int) : Params D :=
  { p with intVecMap := p.intVecMap.set k v }
/-- GearParametersImpl.cc lines 72-74. -/
def setDoubleVals (p : Params D) (k : String) (v : List D) : Params D :=
  { p with doubleVecMap := p.doubleVecMap.set k v }
/-- GearParametersImpl.cc lines 77-79. -/
def setStringVals (p : Params D) (k : String) (v : List String) : Params D :=
  { p with stringVecMap := p.stringVecMap.set k v }

/-- The loop of the six key listings: `clear`, then `push_back` every key in iteration order.
GearParametersImpl.cc lines 83-88 and the five copies of it; the old content of the cache is the
first argument, `clear()` discards it. -/
def refill {α : Type} (_cache : List String) (m : SMap String α) : List String :=
  m.foldl (fun acc e => acc ++ [e.1]) []

/-- GearParametersImpl.cc lines 81-90: the new object state; the result is the cache. -/
def getIntKeys (p : Params D) : Params D := { p with intKeys := refill p.intKeys p.intMap }
/-- GearParametersImpl.cc lines 92-101. -/
def getDoubleKeys (p : Params D) : Params D :=
  { p with doubleKeys := refill p.doubleKeys p.doubleMap }
/-- GearParametersImpl.cc lines 105-114. -/
def getStringKeys (p : Params D) : Params D :=
  { p with stringKeys := refill p.stringKeys p.stringMap }
/-- GearParametersImpl.cc lines 116-125. -/
def getIntVecKeys (p : Params D) : Params D :=
  { p with intVecKeys := refill p.intVecKeys p.intVecMap }
/-- GearParametersImpl.cc lines 127-136. -/
def getDoubleVecKeys (p : Params D) : Params D :=
  { p with doubleVecKeys := refill p.doubleVecKeys p.doubleVecMap }
/-- GearParametersImpl.cc lines 139-148. -/
def getStringVecKeys (p : Params D) : Params D :=
  { p with stringVecKeys := refill p.stringVecKeys p.stringVecMap }

/-- One call on a `GearParametersImpl` that can change its state. -/
inductive Op (D : Type) where
  | setInt (k : String) (v : Int)
  | setDouble (k : String) (v : D)
  | setString (k : String) (v : String)
  | setInts (k : String) (v : List Int)
  | setDoubles (k : String) (v : List D)
  | setStrings (k : String) (v : List String)
  | listInt | listDouble | listString | listInts | listDoubles | listStrings
deriving Repr

/-- The state after one call. -/
def step (p : Params D) : Op D → Params D
  | .setInt k v => p.setIntVal k v
  | .setDouble k v => p.setDoubleVal k v
  | .setString k v => p.setStringVal k v
  | .setInts k v => p.setIntVals k v
  | .setDoubles k v => p.setDoubleVals k v
  | .setStrings k v => p.setStringVals k v
  | .listInt => p.getIntKeys
  | .listDouble => p.getDoubleKeys
  | .listString => p.getStringKeys
  | .listInts => p.getIntVecKeys
  | .listDoubles => p.getDoubleVecKeys
  | .listStrings => p.getStringVecKeys

/-- The state after a history of calls on a freshly constructed object. -/
def run (ops : List (Op D)) : Params D := ops.foldl step {}

end Params
end Gear
