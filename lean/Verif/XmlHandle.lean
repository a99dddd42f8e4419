import Verif.XmlDom
set_option autoImplicit false
set_option linter.unusedSectionVars false
/-!
Model of `TiXmlHandle`, which goes from node to node and may hold the null pointer.  Sources: src/gearxml/tinyxml.cc ("cc") and
include/gear/gearxml/tinyxml.h ("h").

Simplifications, beside those of XmlDom.lean: a handle is the pointer it holds (h lines 1380-1382 and 1431), and a value that is asked for is
a condition on the data of a node.  An index is an integer without bounds.
-/
namespace Gear.Xml.Dom

variable {D : Type}

/-- The calls that give another handle, h lines 1385-1418; those with a `std::string` do what those with a `char*` do. -/
inductive Call (D : Type) where
  | firstChild
  | firstChildOf (is : D → Bool)
  | firstChildElement
  | firstChildElementOf (is : D → Bool)
  | child (index : ℤ)
  | childOf (is : D → Bool) (index : ℤ)
  | childElement (index : ℤ)
  | childElementOf (is : D → Bool) (index : ℤ)

/-- The loop of cc lines 1546-1551, 1565-1570, 1584-1589 and 1603-1608: at most so many steps from `child` on. -/
def skip (next : Ptr → Run (Option Ptr)) : ℕ → Option Ptr → Run (Option Ptr)
  | 0, child => .ok child
  | _ + 1, none => .ok none
  | i + 1, some child => do
    let child ← next child
    skip next i child

/-- The calls, cc lines 1491-1612.  The first argument bounds the number of steps of the search. -/
def call (n : ℕ) (h : Heap D) (node : Option Ptr) (c : Call D) : Run (Option Ptr) :=
  match node with
  | none => .ok none
  | some p =>
    match c with
    | .firstChild => firstChild h p
    | .firstChildOf is => firstChildOf is n h p
    | .firstChildElement => firstChildElement (fun _ => true) n h p
    | .firstChildElementOf is => firstChildElement is n h p
    | .child i => do
      let q ← firstChild h p
      skip (nextSibling h) i.toNat q
    | .childOf is i => do
      let q ← firstChildOf is n h p
      skip (nextSiblingOf is n h) i.toNat q
    | .childElement i => do
      let q ← firstChildElement (fun _ => true) n h p
      skip (nextSiblingElement (fun _ => true) n h) i.toNat q
    | .childElementOf is i => do
      let q ← firstChildElement is n h p
      skip (nextSiblingElement is n h) i.toNat q

/-- Calls one after the other, each on the handle the one before has given. -/
def calls (n : ℕ) (h : Heap D) : Option Ptr → List (Call D) → Run (Option Ptr)
  | node, [] => .ok node
  | node, c :: cs => do
    let node ← call n h node c
    calls n h node cs

/-- `Element()`, h line 1424: the node if it is an element. -/
def handleElement (h : Heap D) (node : Option Ptr) : Run (Option Ptr) :=
  match node with
  | none => .ok none
  | some p => do
    let c ← h.get p
    .ok (if c.kind = .element then some p else none)

/-- `Text()` and `Unknown()`, h lines 1426-1428: the node if it is neither an element nor a document and of that kind. -/
def handleLeaf (is : D → Bool) (h : Heap D) (node : Option Ptr) : Run (Option Ptr) :=
  match node with
  | none => .ok none
  | some p => do
    let c ← h.get p
    .ok (if c.kind = .leaf ∧ is c.data then some p else none)

end Gear.Xml.Dom
