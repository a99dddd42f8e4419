/-
Specification vocabulary for merging documents.
-/
import Verif.XmlMerge

set_option autoImplicit false
set_option linter.unusedSectionVars false

namespace Gear.Xml.Merge.Spec

mutual
/-- The node `d` is still there in `r`: an element of the same name, with its attributes (in order, perhaps followed by others) and its
content (in order, perhaps followed by more); everything that is not an element is unchanged. -/
def Keeps : Node → Node → Prop
  | .element n as ds, r => ∃ as' rs, r = .element n as' rs ∧ as <+: as' ∧ KeepsAll ds rs
  | d, r => r = d
/-- The same for a list of nodes. -/
def KeepsAll : List Node → List Node → Prop
  | [], _ => True
  | d :: ds, rs => ∃ r rs', rs = r :: rs' ∧ Keeps d r ∧ KeepsAll ds rs'
end

/-- Two nodes stand for the same thing: both have the same attribute "name", or both have none and the same value. -/
def Same (a b : Node) : Prop :=
  (∃ v, a.attr "name" = some v ∧ b.attr "name" = some v) ∨ (a.attr "name" = none ∧ b.attr "name" = none ∧ a.value = b.value)

mutual
/-- No element with a name is without content: such an element would be dereferenced. -/
def NoEmptyNamed : Node → Prop
  | .element n as cs => ((Node.element n as cs).attr "name" ≠ none → cs ≠ []) ∧ NoEmptyNamedAll cs
  | _ => True
/-- The same for a list of nodes. -/
def NoEmptyNamedAll : List Node → Prop
  | [] => True
  | c :: cs => NoEmptyNamed c ∧ NoEmptyNamedAll cs
end

mutual
/-- The node `c` can be merged with `d`: an element with an element, and, if it has a name, it has content that is clear. -/
def Clear : Node → Node → Prop
  | .element n as cs, d => d.isElt = true ∧ ((Node.element n as cs).attr "name" ≠ none → cs ≠ [] ∧ ClearAll cs d.children)
  | _, _ => True
/-- No two of the nodes `ds` stand for the same thing, no two of the nodes `cs` have the same name, and those that stand for the same
thing can be merged. -/
def ClearAll : List Node → List Node → Prop
  | [], ds => ds.Pairwise fun a b => ¬ Same a b
  | c :: cs, ds => (∀ c' ∈ cs, nodeName c' ≠ nodeName c) ∧ (∀ d ∈ ds, Same c d → Clear c d) ∧ ClearAll cs ds
end

/-- The attributes of a node. -/
def attributes : Node → List (Text × Text)
  | .element _ as _ => as
  | _ => []

mutual
/-- `r` has what `c` and `d` have, and if both have it then it is that of `d`: the attributes, and, if `c` has a name (and does not
contain a mere text), the content. -/
def Adds : Node → Node → Node → Prop
  | .element n as cs, d, r =>
    (∀ name, attrValue (attributes r) name = (attrValue (attributes d) name).or (attrValue as name))
      ∧ ((Node.element n as cs).attr "name" ≠ none → startsWithText cs = false → AddsAll cs d.children r.children)
  | _, _, _ => True
/-- Every one of `cs` that is not in `ds` is in `rs`, unchanged; what is in both is merged. -/
def AddsAll : List Node → List Node → List Node → Prop
  | [], _, _ => True
  | c :: cs, ds, rs =>
    ((∀ d ∈ ds, ¬ Same c d) → c ∈ rs) ∧ (∀ d ∈ ds, Same c d → ∃ r ∈ rs, Same d r ∧ Adds c d r) ∧ AddsAll cs ds rs
end

/-- The document is a gear file with these sections. -/
structure Sections (document : List Node) (gear global detectors materials : Node) : Prop where
  hasGear : first document "gear" = some gear
  isElt : gear.isElt = true
  hasGlobal : first gear.children "global" = some global
  hasDetectors : first gear.children "detectors" = some detectors
  hasMaterials : first gear.children "materials" = some materials
  elements : global.isElt = true ∧ detectors.isElt = true ∧ materials.isElt = true

end Gear.Xml.Merge.Spec
