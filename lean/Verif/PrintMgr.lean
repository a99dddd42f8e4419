/-
Model of the printing of named parameters, of the layers of a calorimeter and of a whole manager,
`src/gearimpl/Util.cc`.

Line numbers are those of `src/gearimpl/Util.cc`.  What is written is a list of items instead of characters: the values
in the order in which they are written, without the format of the numbers and the words around them.
-/
import Verif.Params
import Verif.GearMgr
import Verif.Calo

set_option autoImplicit false
set_option linter.unusedSectionVars false

namespace Gear.Print

/-! ### Named parameters -/

/-- A line for a named parameter. -/
inductive Line (D : Type) where
  | int (k : String) (v : ℤ)
  | double (k : String) (v : D)
  | string (k : String) (v : String)
  | intVec (k : String) (v : List ℤ)
  | doubleVec (k : String) (v : List D)
  | stringVec (k : String) (v : List String)
deriving DecidableEq

/-- One of the six loops: the value of every key is looked up and written. -/
def keyLoop {V A : Type} (get : String → Res V) (line : String → V → A) : List String → Res (List A)
  | [] => .ok []
  | k :: ks => do
    let v ← get k
    let rest ← keyLoop get line ks
    pure (line k v :: rest)

/-- `operator<<` of `GearParameters`, lines 237-303. -/
def params {D : Type} (p : Params D) : Res (List (Line D)) := do
  let p := p.getIntKeys
  let a ← keyLoop p.getIntVal .int p.intKeys
  let p := p.getDoubleKeys
  let b ← keyLoop p.getDoubleVal .double p.doubleKeys
  let p := p.getStringKeys
  let c ← keyLoop p.getStringVal .string p.stringKeys
  let p := p.getIntVecKeys
  let d ← keyLoop p.getIntVals .intVec p.intVecKeys
  let p := p.getDoubleVecKeys
  let e ← keyLoop p.getDoubleVals .doubleVec p.doubleVecKeys
  let p := p.getStringVecKeys
  let f ← keyLoop p.getStringVals .stringVec p.stringVecKeys
  pure (a ++ b ++ c ++ d ++ e ++ f)

/-! ### The layers of a calorimeter -/

variable {K : Type} [Field K] [LinearOrder K] [IsStrictOrderedRing K] [FloorRing K]

/-- A line of the table, lines 447-452. -/
structure CaloRow (K : Type) where
  id : ℤ
  thickness : K
  absorber : K
  distance : K
  cellSize0 : K
  cellSize1 : K
deriving DecidableEq

/-- The loop over the layers, lines 439-457, with the rest of the iterations, the index and the values of the layer
before. -/
def caloLoop (L : Calo.Layout K) : ℕ → ℤ → K → K → Res (List (CaloRow K))
  | 0, _, _, _ => .ok []
  | n + 1, i, lastThickness, lastAbsorber => do
    let thisThickness ← Calo.getThickness L i
    let thisAbsorber ← Calo.getAbsorberThickness L i
    if (thisThickness ≠ lastThickness ∨ thisAbsorber ≠ lastAbsorber) ∨ i = Calo.getNLayers L - 1 then do
      let d ← Calo.getDistance L i
      let c0 ← Calo.getCellSize0 L i
      let c1 ← Calo.getCellSize1 L i
      let rest ← caloLoop L n (i + 1) thisThickness thisAbsorber
      pure (⟨i, thisThickness, thisAbsorber, d, c0, c1⟩ :: rest)
    else caloLoop L n (i + 1) thisThickness thisAbsorber

/-- The table, lines 429-457. -/
def caloRows (L : Calo.Layout K) : Res (List (CaloRow K)) := caloLoop L (Calo.getNLayers L).toNat 0 0 0

/-! ### The manager -/

/-- What is written for a manager: the name, the headings, the objects and their names.  The printing of one object is
one item. -/
inductive Item where
  | name (n : String)
  | nameMissing
  | fieldMissing
  | heading (t : String)
  | object (s : Section) (p : Ptr)
  | gear (k : String) (p : Ptr)
  | material (p : Ptr)
deriving DecidableEq

/-- One of the blocks with `try` and `catch(UnknownParameterException &e){}`.  With `late`, the getter is called after the
heading has been written, as since C++17; before, the order is up to the compiler. -/
def block {D : Type} (late : Bool) (w : Mgr D) (t : Option String) (s : Section) : List Item :=
  match w.getSection s with
  | .ok p => (t.map Item.heading).toList ++ [.object s p]
  | _ => if late then (t.map Item.heading).toList else []

/-- The blocks, lines 64-174, with their headings. -/
def blocks : List (Option String × Section) :=
  [(some "VXD", .vxd), (none, .ftd), (some "SIT", .sit), (some "SET", .set), (none, .sit), (none, .set), (none, .tpc),
   (some "Ecal barrel", .ecalBarrel), (some "Ecal endcap", .ecalEndcap), (some "Ecal plug", .ecalPlug),
   (some "Yoke barrel", .yokeBarrel), (some "Yoke endcap", .yokeEndcap), (some "Yoke plug", .yokePlug),
   (some "Hcal barrel", .hcalBarrel), (some "Hcal endcap", .hcalEndcap), (some "Hcal ring", .hcalRing),
   (some "Lcal", .lcal), (some "LHcal", .lhcal), (some "BeamCal", .beamcal), (some "TrackerPlanes", .trackerPlanes),
   (some "SiPlanes", .siPlanes)]

/-- `operator<<` of `GearMgr`, lines 18-216. -/
def manager {D : Type} (late : Bool) (w : Mgr D) : Res (List Item) := do
  let name := match w.getDetectorName with
    | .ok n => [Item.name n]
    | _ => [.nameMissing]
  let field := match w.getSection .bField with
    | .ok p => [Item.object .bField p]
    | _ => [.fieldMissing]
  let gear ← keyLoop w.getGear .gear w.gearKeys
  let mats ← keyLoop w.getMaterial (fun _ => .material) w.materialNames
  pure (name ++ field ++ blocks.flatMap (fun b => block late w b.1 b.2) ++ gear ++ mats)

end Gear.Print
