/-
Specification for streams (C133, C134).
-/
import Verif.XmlSaveSpec

set_option autoImplicit false
set_option linter.unusedSectionVars false

namespace Gear.Xml.Stream.Spec

open Grammar (Space)

mutual
/-- The trees whose end is found in a stream: there are no zero bytes in comments and unknown tags, no comment begins with `>` or `->`, so
that it would seem to end there, and no unknown tag looks like an end tag, with blanks before the slash. -/
def Streamable : Node → Prop
  | .element _ _ children => AllStreamable children
  | .comment v => '\x00' ∉ v ∧ ¬ ['>'] <+: v ∧ ¬ ['-', '>'] <+: v
  | .unknown v => '\x00' ∉ v ∧ ∀ a b, v = a ++ '/' :: b → ∃ c ∈ a, c ≠ '<' ∧ ¬ Space c
  | .text _ => True
  | .declaration .. => True
/-- All of them. -/
def AllStreamable : List Node → Prop
  | [] => True
  | n :: ns => Streamable n ∧ AllStreamable ns
end

/-- A document with a root element: before it there are other nodes, and what comes after it is not written. -/
structure Document where
  before : List Node
  name : Text
  attrs : List (Text × Text)
  children : List Node
  after : List Node

/-- The root element. -/
def Document.root (d : Document) : Node := .element d.name d.attrs d.children

/-- The nodes that are written. -/
def Document.kept (d : Document) : List Node := d.before ++ [d.root]

/-- All nodes. -/
def Document.nodes (d : Document) : List Node := d.kept ++ d.after

/-- Which documents survive: their nodes survive, where fields of declarations are written like the values of attributes, and no element
stands before the root. -/
structure Document.Good (d : Document) : Prop where
  before : ∀ n ∈ d.before, ∀ name attrs children, n ≠ .element name attrs children
  survives : Save.DocumentSurvives Xml.Spec.NoReference .unknown d.kept
  streamable : AllStreamable d.kept

end Gear.Xml.Stream.Spec
