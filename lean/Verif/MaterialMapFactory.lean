/-
Model of `gear::MaterialMapFactory` (`src/geartgeo/MaterialMapFactory.cc`).
-/
import Verif.MaterialMap

set_option autoImplicit false
set_option linter.unusedSectionVars false

namespace Gear.MapFactory

open MaterialMap (Args)

variable {K M : Type} [Field K] [LinearOrder K] [IsStrictOrderedRing K]

/-- The maps made so far, each with the arguments of its constructor, and the table `_managerMap`
(`MaterialMapFactory.h` line 55) from the nine numbers to an element of `made`; `none` is the null pointer.
Simplification: `std::map` is a list of entries looked up by equality of the keys. -/
structure Factory (K M : Type) where
  made : List (Args K × M)
  table : List (List K × Option ℕ)

/-- The constructor, lines 9-12. -/
def empty : Factory K M := ⟨[], []⟩

/-- The key, lines 19-21.  The number of steps is exact as a double. -/
def key (a : Args K) : List K := [a.xmin, a.xmax, a.nx, a.ymin, a.ymax, a.ny, a.zmin, a.zmax, a.nz]

/-- `_managerMap.find`, line 23. -/
def lookup (k : List K) (t : List (List K × Option ℕ)) : Option (Option ℕ) := (t.find? (fun e => e.1 = k)).map (·.2)

/-- `createMaterialMap`, lines 14-28: the outcome and the state afterwards.  `build` is the outcome of
`new MaterialMap` (see `MaterialMap.construct`; a constructor that does not end is counted as undefined).  Line 24
is an assignment whose left side inserts a null pointer; `leftFirst` says that it is evaluated before the right
side, which is allowed before C++17. -/
def create (build : Args K → Res M) (leftFirst : Bool) (f : Factory K M) (a : Args K) :
    Res (Option ℕ) × Factory K M :=
  match lookup (key a) f.table with
  | some p => (.ok p, f)
  | none =>
    match build a with
    | .ok m => (.ok (some f.made.length), ⟨f.made ++ [(a, m)], f.table ++ [(key a, some f.made.length)]⟩)
    | .throw e => (.throw e, if leftFirst then ⟨f.made, f.table ++ [(key a, none)]⟩ else f)
    | .ub => (.ub, f)

/-- The state after a list of requests, the oldest first. -/
def run (build : Args K → Res M) (leftFirst : Bool) (l : List (Args K)) : Factory K M :=
  l.foldl (fun f a => (create build leftFirst f a).2) empty

end Gear.MapFactory
