import Verif.XmlHandle
import Verif.XmlDomSpec
set_option autoImplicit false
set_option linter.unusedSectionVars false
/-!
What the calls of a handle mean in a tree (C132).
-/
namespace Gear.Xml.Dom.Spec

variable {D : Type}

/-- Which children of a node count for a call. -/
def counts : Call D → Tree D → Bool
  | .firstChild, _ | .child _, _ => true
  | .firstChildOf is, t | .childOf is _, t => is t.data
  | .firstChildElement, t | .childElement _, t => t.kind = .element
  | .firstChildElementOf is, t | .childElementOf is _, t => is t.data ∧ t.kind = .element

/-- Which of them is wanted, counted from zero; a negative index is taken for zero. -/
def position : Call D → ℕ
  | .firstChild | .firstChildOf _ | .firstChildElement | .firstChildElementOf _ => 0
  | .child i | .childOf _ i | .childElement i | .childElementOf _ i => i.toNat

/-- Where calls lead from a node; nowhere, if there is no such child at one of them. -/
def follow : Tree D → List (Call D) → Option (Tree D)
  | t, [] => some t
  | t, c :: cs => (t.kids.filter (counts c))[position c]?.bind fun u => follow u cs

end Gear.Xml.Dom.Spec
