/-
Model of `gear::MergeXML` (src/gearxml/MergeXML.cc and include/gear/gearxml/MergeXML.h).

Simplifications.  Counters do not overflow.  Attributes have names, and an element has no two of the same name (as is true of all that
were read from a file).  Saving the result succeeds; the result is the document that is saved.  Copies of documents and nodes are
exact.
-/
import Verif.XmlUtil

set_option autoImplicit false
set_option linter.unusedSectionVars false

namespace Gear.Xml.Merge

/-- `hasAttribute`, MergeXML.cc lines 198-201; `_name` is "name", MergeXML.h lines 7 and 55. -/
def hasName (n : Node) : Bool := (n.attr "name").isSome

/-- `getNodeName`, MergeXML.cc lines 181-194. -/
def nodeName (n : Node) : Text :=
  match n.attr "name" with
  | some v => v
  | none => n.value

/-- The condition in the loops of `countNodes` and `getChildNode`, MergeXML.cc lines 224 and 266. -/
def same (a b : Node) : Bool := decide (nodeName a = nodeName b) && decide (hasName a = hasName b)

/-- `countNodes`, MergeXML.cc lines 205-233; `parent` are the children of `parentNode`. -/
def countNodes (child : Node) (parent : List Node) : ℕ := (parent.filter fun n => same n child).length

/-- `getChildNode`, MergeXML.cc lines 237-284: the position among the children of `domNode`. -/
def getChildNode (node : Node) : List Node → ℕ → Option ℕ
  | [], _ => none
  | d :: ds, k =>
    if same d node then
      if k = 1 then some 0 else (getChildNode node ds (k - 1)).map (· + 1)
    else (getChildNode node ds k).map (· + 1)

/-- `mergeAttribute`, MergeXML.cc lines 288-320, on the attributes of the two elements. -/
def mergeAttribute : List (Text × Text) → List (Text × Text) → List (Text × Text)
  | [], dom => dom
  | a :: as, dom => mergeAttribute as (if (attrValue dom a.1).isNone then setAttribute dom a.1 a.2 else dom)

/-- `FirstChild()->ToText()` is not null, MergeXML.cc line 165. -/
def startsWithText : List Node → Bool
  | .text _ :: _ => true
  | _ => false

/-- The number of nodes of this name that were just visited, MergeXML.cc lines 136-143. -/
def count (lastName : Text) (occurence : ℕ) (c : Node) : ℕ := if lastName = nodeName c then occurence + 1 else 1

mutual
/-- The merging of a node with a child of the dominant node that was found, MergeXML.cc lines 156-175.  A null pointer is used in
line 165 if the element has a name and no content.  An element with a name is only merged with an element, since `getChildNode` finds
nothing else. -/
def mergeChild : Node → Node → Res Node
  | .element n as cs, .element dn das ds =>
    if hasName (.element n as cs) then
      if cs = [] then .ub
      else if startsWithText cs then .ok (.element dn (mergeAttribute as das) ds)
      else do
        let ds ← mergeLoop cs cs [] 0 ds
        .ok (.element dn (mergeAttribute as das) ds)
    else .ok (.element dn (mergeAttribute as das) ds)
  | _, d => .ok d
/-- The loop of `mergeNode`, MergeXML.cc lines 87-177; `all` are the children of `node`, of which the remaining ones are visited, `dom`
the children of `domNode`. -/
def mergeLoop (all : List Node) : List Node → Text → ℕ → List Node → Res (List Node)
  | [], _, _, dom => .ok dom
  | c :: rest, lastName, occurence, dom =>
    if (1 < countNodes c all ∨ 1 < countNodes c dom) ∧ countNodes c dom ≠ countNodes c all then .throw .gear
    else
      match getChildNode c dom (count lastName occurence c) with
      | none => mergeLoop all rest (nodeName c) (count lastName occurence c) (dom ++ [c])
      | some i =>
        match dom[i]? with
        | none => .ub
        | some d => do
          let d ← mergeChild c d
          mergeLoop all rest (nodeName c) (count lastName occurence c) (dom.set i d)
end

/-- `FirstChild( name )`, src/gearxml/tinyxml.cc lines 330-339. -/
def first (children : List Node) (name : String) : Option Node := children.find? fun c => c.value = name.toList

/-- The node that `FirstChild( name )` points to is changed. -/
def setFirst (children : List Node) (name : String) (new : Node) : List Node :=
  match children with
  | [] => []
  | c :: cs => if c.value = name.toList then new :: cs else c :: setFirst cs name new

/-- `mergeNode` of one of the sections, MergeXML.cc lines 77-79 and 87-177, on the children of the two "gear" nodes.  A null pointer is
used in line 101 if the recessive section does not exist, and in line 214 if the dominant one does not and the other is not empty.
Simplification: what is inserted into a section that is not an element is not printed, so that it is left out. -/
def mergeSection (name : String) (g dom : List Node) : Res (List Node) :=
  match first g name with
  | none => .ub
  | some n =>
    match n.children with
    | [] => .ok dom
    | cs =>
      match first dom name with
      | none => .ub
      | some (.element dn das ds) => do
        let ds ← mergeLoop cs cs [] 0 ds
        .ok (setFirst dom name (.element dn das ds))
      | some _ => do
        let _ ← mergeLoop cs cs [] 0 []
        .ok dom

/-- `mergeFiles` but for its first step, MergeXML.cc lines 49-82: the recessive and the dominant document are merged; `none` is `false`. -/
def mergeDocuments (rec dom : List Node) : Res (Option (List Node)) :=
  match first rec "gear", first dom "gear" with
  | some g, some (.element dn das ds) =>
    if (first g.children "detectors").isSome && (first ds "detectors").isSome then do
      let ds ← mergeSection "global" g.children ds
      let ds ← mergeSection "detectors" g.children ds
      let ds ← mergeSection "materials" g.children ds
      .ok (some (setFirst dom "gear" (.element dn das ds)))
    else .ok none
  | _, _ => .ok none

/-- The members of `MergeXML`, MergeXML.h lines 49-56 and 88-104: the documents, of which the pointers are null before the files are set. -/
structure Merger where
  file1 : Option (List Node) := none
  file2 : Option (List Node) := none
  domFile : ℤ := 2

/-- `setFile1`, MergeXML.cc lines 9-14, with the document that was loaded. -/
def setFile1 (m : Merger) (doc : List Node) : Merger := { m with file1 := some doc }

/-- `setFile2`, MergeXML.cc lines 17-22. -/
def setFile2 (m : Merger) (doc : List Node) : Merger := { m with file2 := some doc }

/-- `makeDominant`, MergeXML.h lines 36-41. -/
def makeDominant (m : Merger) (n : ℤ) : Merger := if n = 1 ∨ n = 2 then { m with domFile := n } else m

/-- `correctDominantFile`, MergeXML.cc lines 25-33. -/
def correctDominantFile (m : Merger) : Merger :=
  if m.domFile = 1 then { m with file1 := m.file2, file2 := m.file1 } else m

/-- `mergeFiles`, MergeXML.cc lines 36-82. -/
def mergeFiles (m : Merger) : Merger × Res (Option (List Node)) :=
  match m.file1, m.file2 with
  | some _, some _ =>
    let m := correctDominantFile m
    match m.file1, m.file2 with
    | some a, some b => (m, mergeDocuments a b)
    | _, _ => (m, .ub)
  | _, _ => (m, .ub)

end Gear.Xml.Merge
