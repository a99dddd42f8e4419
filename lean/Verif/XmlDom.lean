import Verif.Xml
set_option autoImplicit false
set_option linter.unusedSectionVars false
/-!
Model of the tree of nodes of tinyxml as it is in memory: objects with pointers to their parent, to the first and last child
and to the previous and next sibling.  Sources: src/gearxml/tinyxml.cc ("cc") and include/gear/gearxml/tinyxml.h ("h").

Simplifications.  What a node holds beside the pointers (value, attributes, error of a document, user data) is one datum of an
arbitrary type `D`, which a copy of the node has too; the list of attributes is modelled in XmlAttr.lean.  Allocation succeeds, and
returns an address that was never used before.  An access to an object that was deleted or never existed is undefined behaviour.
-/
namespace Gear.Xml.Dom

/-- The address of a node.  The null pointer is `none`. -/
abbrev Ptr := ℕ

/-- `NodeType`, h lines 411-420; comments, unknown tags, texts and declarations, which differ only in their data, are one kind. -/
inductive Kind where
  | document | element | leaf
deriving DecidableEq, Repr

/-- The members of `TiXmlNode`, h lines 653-662. -/
@[ext]
structure Cell (D : Type) where
  kind : Kind
  data : D
  parent : Option Ptr
  prev : Option Ptr
  next : Option Ptr
  first : Option Ptr
  last : Option Ptr

/-- The nodes in memory, and the next address `new` returns. -/
structure Heap (D : Type) where
  cell : Ptr → Option (Cell D)
  fresh : Ptr

variable {D : Type}

/-- Memory without nodes. -/
def Heap.empty : Heap D := ⟨fun _ => none, 0⟩

/-- `*p`. -/
def Heap.get (h : Heap D) (p : Ptr) : Run (Cell D) :=
  match h.cell p with
  | some c => .ok c
  | none => .ub

/-- An assignment to members of `*p`. -/
def Heap.upd (h : Heap D) (p : Ptr) (f : Cell D → Cell D) : Run (Heap D) :=
  match h.cell p with
  | some c => .ok { h with cell := Function.update h.cell p (some (f c)) }
  | none => .ub

/-- The release of the memory of `*p`. -/
def Heap.free (h : Heap D) (p : Ptr) : Run (Heap D) :=
  match h.cell p with
  | some _ => .ok { h with cell := Function.update h.cell p none }
  | none => .ub

/-- `new` and the constructor `TiXmlNode( type )`, cc lines 152-160. -/
def Heap.alloc (h : Heap D) (k : Kind) (d : D) : Heap D × Ptr :=
  (⟨Function.update h.cell h.fresh (some ⟨k, d, none, none, none, none, none⟩), h.fresh + 1⟩, h.fresh)

/-- `LinkEndChild`, cc lines 201-215. -/
def linkEndChild (h : Heap D) (this node : Ptr) : Run (Heap D) := do
  let h ← h.upd node fun c => { c with parent := some this }
  let t ← h.get this
  let h ← h.upd node fun c => { c with prev := t.last }
  let h ← h.upd node fun c => { c with next := none }
  let t ← h.get this
  let h ← match t.last with
    | some l => h.upd l fun c => { c with next := some node }
    | none => h.upd this fun c => { c with first := some node }
  h.upd this fun c => { c with last := some node }

mutual

/-- `Clone`: cc lines 872-880 (elements), 1031-1039 (documents), 1215-1224, 1247-1257, 1348-1357 and 1380-1389 (the others, which
copy no children).  The first argument bounds the number of steps. -/
def clone : ℕ → Heap D → Ptr → Run (Heap D × Ptr)
  | 0, _, _ => .endless
  | n + 1, h, p => do
    let c ← h.get p
    let r := h.alloc c.kind c.data
    match c.kind with
    | .leaf => .ok r
    | _ => do
      let h ← copyChildren n r.1 c.first r.2
      .ok (h, r.2)

/-- The loop over the children in `CopyTo`, cc lines 864-868 (elements) and 1023-1027 (documents). -/
def copyChildren : ℕ → Heap D → Option Ptr → Ptr → Run (Heap D)
  | 0, _, _, _ => .endless
  | _ + 1, h, none, _ => .ok h
  | n + 1, h, some node, target => do
    let r ← clone n h node
    let h ← linkEndChild r.1 target r.2
    let c ← h.get node
    copyChildren n h c.next target

end

mutual

/-- `delete p`: the destructors, cc lines 163-174 (`~TiXmlNode`), 653-656 and 659-668 (`~TiXmlElement`, which calls `Clear` before),
and the release of the memory. -/
def destroy : ℕ → Heap D → Ptr → Run (Heap D)
  | 0, _, _ => .endless
  | n + 1, h, p => do
    let c ← h.get p
    let h ← match c.kind with
      | .element => do
        let h ← destroyChildren n h c.first
        h.upd p fun c => { c with first := none, last := none }
      | _ => pure h
    let c ← h.get p
    let h ← destroyChildren n h c.first
    h.free p

/-- The loop that deletes a node and its following siblings, cc lines 165-173 and 186-194. -/
def destroyChildren : ℕ → Heap D → Option Ptr → Run (Heap D)
  | 0, _, _ => .endless
  | _ + 1, h, none => .ok h
  | n + 1, h, some temp => do
    let c ← h.get temp
    let h ← destroy n h temp
    destroyChildren n h c.next

end

/-- `Clear`, cc lines 184-198. -/
def clear (n : ℕ) (h : Heap D) (this : Ptr) : Run (Heap D) := do
  let c ← h.get this
  let h ← destroyChildren n h c.first
  h.upd this fun c => { c with first := none, last := none }

/-- `InsertEndChild`, cc lines 218-225. -/
def insertEndChild (n : ℕ) (h : Heap D) (this addThis : Ptr) : Run (Heap D × Option Ptr) := do
  let r ← clone n h addThis
  let h ← linkEndChild r.1 this r.2
  .ok (h, some r.2)

/-- `InsertBeforeChild`, cc lines 228-251. -/
def insertBeforeChild (n : ℕ) (h : Heap D) (this : Ptr) (beforeThis : Option Ptr) (addThis : Ptr) :
    Run (Heap D × Option Ptr) :=
  match beforeThis with
  | none => .ok (h, none)
  | some b => do
    let c ← h.get b
    if c.parent ≠ some this then .ok (h, none)
    else do
      let r ← clone n h addThis
      let node := r.2
      let h ← r.1.upd node fun c => { c with parent := some this }
      let h ← h.upd node fun c => { c with next := some b }
      let c ← h.get b
      let h ← h.upd node fun d => { d with prev := c.prev }
      let c ← h.get b
      let h ← match c.prev with
        | some p => h.upd p fun c => { c with next := some node }
        | none => do
          let t ← h.get this
          if t.first = some b then h.upd this fun c => { c with first := some node } else .assertFailed
      let h ← h.upd b fun c => { c with prev := some node }
      .ok (h, some node)

/-- `InsertAfterChild`, cc lines 254-277. -/
def insertAfterChild (n : ℕ) (h : Heap D) (this : Ptr) (afterThis : Option Ptr) (addThis : Ptr) :
    Run (Heap D × Option Ptr) :=
  match afterThis with
  | none => .ok (h, none)
  | some a => do
    let c ← h.get a
    if c.parent ≠ some this then .ok (h, none)
    else do
      let r ← clone n h addThis
      let node := r.2
      let h ← r.1.upd node fun c => { c with parent := some this }
      let h ← h.upd node fun c => { c with prev := some a }
      let c ← h.get a
      let h ← h.upd node fun d => { d with next := c.next }
      let c ← h.get a
      let h ← match c.next with
        | some p => h.upd p fun c => { c with prev := some node }
        | none => do
          let t ← h.get this
          if t.last = some a then h.upd this fun c => { c with last := some node } else .assertFailed
      let h ← h.upd a fun c => { c with next := some node }
      .ok (h, some node)

/-- `ReplaceChild`, cc lines 280-305. -/
def replaceChild (n : ℕ) (h : Heap D) (this replaceThis withThis : Ptr) : Run (Heap D × Option Ptr) := do
  let c ← h.get replaceThis
  if c.parent ≠ some this then .ok (h, none)
  else do
    let r ← clone n h withThis
    let node := r.2
    let h := r.1
    let c ← h.get replaceThis
    let h ← h.upd node fun d => { d with next := c.next }
    let c ← h.get replaceThis
    let h ← h.upd node fun d => { d with prev := c.prev }
    let c ← h.get replaceThis
    let h ← match c.next with
      | some x => h.upd x fun d => { d with prev := some node }
      | none => h.upd this fun d => { d with last := some node }
    let c ← h.get replaceThis
    let h ← match c.prev with
      | some x => h.upd x fun d => { d with next := some node }
      | none => h.upd this fun d => { d with first := some node }
    let h ← destroy n h replaceThis
    let h ← h.upd node fun d => { d with parent := some this }
    .ok (h, some node)

/-- `RemoveChild`, cc lines 308-328.  The assertion for a node that is no child of this one is as in a debug build. -/
def removeChild (n : ℕ) (h : Heap D) (this removeThis : Ptr) : Run (Heap D) := do
  let c ← h.get removeThis
  if c.parent ≠ some this then .assertFailed
  else do
    let h ← match c.next with
      | some x => h.upd x fun d => { d with prev := c.prev }
      | none => h.upd this fun d => { d with last := c.prev }
    let c ← h.get removeThis
    let h ← match c.prev with
      | some x => h.upd x fun d => { d with next := c.next }
      | none => h.upd this fun d => { d with first := c.next }
    destroy n h removeThis

/-- `operator=`, cc lines 645-650 (elements) and 913-918 (documents), with `CopyTo` of cc lines 849-869 and 1016-1028.  `blank` is what
`ClearThis` makes of the data: an element loses its attributes, a document nothing. -/
def assign (blank : D → D) (n : ℕ) (h : Heap D) (this base : Ptr) : Run (Heap D) := do
  let h ← clear n h this
  let h ← h.upd this fun c => { c with data := blank c.data }
  let b ← h.get base
  let h ← h.upd this fun c => { c with data := b.data }
  let b ← h.get base
  copyChildren n h b.first this

/-! ### Reading -/

/-- `FirstChild()`, h lines 466-467. -/
def firstChild (h : Heap D) (p : Ptr) : Run (Option Ptr) := do
  let c ← h.get p
  .ok c.first

/-- `LastChild()`, h lines 471-472. -/
def lastChild (h : Heap D) (p : Ptr) : Run (Option Ptr) := do
  let c ← h.get p
  .ok c.last

/-- `NextSibling()`, h lines 562-563. -/
def nextSibling (h : Heap D) (p : Ptr) : Run (Option Ptr) := do
  let c ← h.get p
  .ok c.next

/-- `PreviousSibling()`, h lines 547-548. -/
def previousSibling (h : Heap D) (p : Ptr) : Run (Option Ptr) := do
  let c ← h.get p
  .ok c.prev

/-- `Parent()`, h lines 463-464. -/
def parent (h : Heap D) (p : Ptr) : Run (Option Ptr) := do
  let c ← h.get p
  .ok c.parent

/-- `NoChildren()`, h line 614. -/
def noChildren (h : Heap D) (p : Ptr) : Run Bool := do
  let c ← h.get p
  .ok c.first.isNone

/-- The loop `for ( ; node ; node = node->next )` of cc lines 333-337 and 431-435, which ends at the first node that has what is asked
for.  The first argument bounds the number of steps. -/
def scanNext (has : Cell D → Bool) : ℕ → Heap D → Option Ptr → Run (Option Ptr)
  | 0, _, _ => .endless
  | _ + 1, _, none => .ok none
  | n + 1, h, some p => do
    let c ← h.get p
    if has c then .ok (some p) else scanNext has n h c.next

/-- The loop `for ( ; node ; node = node->prev )` of cc lines 357-361 and 453-457. -/
def scanPrev (has : Cell D → Bool) : ℕ → Heap D → Option Ptr → Run (Option Ptr)
  | 0, _, _ => .endless
  | _ + 1, _, none => .ok none
  | n + 1, h, some p => do
    let c ← h.get p
    if has c then .ok (some p) else scanPrev has n h c.prev

/-- `FirstChild( value )`, cc lines 330-339. -/
def firstChildOf (is : D → Bool) (n : ℕ) (h : Heap D) (p : Ptr) : Run (Option Ptr) := do
  let c ← h.get p
  scanNext (fun c => is c.data) n h c.first

/-- `LastChild( value )`, cc lines 354-363. -/
def lastChildOf (is : D → Bool) (n : ℕ) (h : Heap D) (p : Ptr) : Run (Option Ptr) := do
  let c ← h.get p
  scanPrev (fun c => is c.data) n h c.last

/-- `NextSibling( value )`, cc lines 428-437. -/
def nextSiblingOf (is : D → Bool) (n : ℕ) (h : Heap D) (p : Ptr) : Run (Option Ptr) := do
  let c ← h.get p
  scanNext (fun c => is c.data) n h c.next

/-- `PreviousSibling( value )`, cc lines 450-459. -/
def previousSiblingOf (is : D → Bool) (n : ℕ) (h : Heap D) (p : Ptr) : Run (Option Ptr) := do
  let c ← h.get p
  scanPrev (fun c => is c.data) n h c.prev

/-- `IterateChildren( value , previous )`, cc lines 402-413; `IterateChildren( previous )` of cc lines 376-387 is that for the
condition that is always true. -/
def iterateChildren (is : D → Bool) (n : ℕ) (h : Heap D) (this : Ptr) (previous : Option Ptr) : Run (Option Ptr) :=
  match previous with
  | none => firstChildOf is n h this
  | some q => do
    let c ← h.get q
    if c.parent = some this then nextSiblingOf is n h q else .assertFailed

/-- The loop of `FirstChildElement` and `NextSiblingElement`, cc lines 485-492 and 541-548: the next node that is an element, and
with a value, cc lines 513-520 and 569-576, the next node of that value that is an element. -/
def scanElement (is : D → Bool) : ℕ → Heap D → Option Ptr → Run (Option Ptr)
  | 0, _, _ => .endless
  | _ + 1, _, none => .ok none
  | n + 1, h, some p => do
    let c ← h.get p
    if c.kind = .element then .ok (some p)
    else do
      let q ← nextSiblingOf is n h p
      scanElement is n h q

/-- `FirstChildElement( value )`, cc lines 510-521; without value, cc lines 482-493, for the condition that is always true. -/
def firstChildElement (is : D → Bool) (n : ℕ) (h : Heap D) (p : Ptr) : Run (Option Ptr) := do
  let q ← firstChildOf is n h p
  scanElement is n h q

/-- `NextSiblingElement( value )`, cc lines 566-577; without value, cc lines 538-549. -/
def nextSiblingElement (is : D → Bool) (n : ℕ) (h : Heap D) (p : Ptr) : Run (Option Ptr) := do
  let q ← nextSiblingOf is n h p
  scanElement is n h q

/-- `GetDocument`, cc lines 595-604: the loop to the parents. -/
def getDocument : ℕ → Heap D → Option Ptr → Run (Option Ptr)
  | 0, _, _ => .endless
  | _ + 1, _, none => .ok none
  | n + 1, h, some p => do
    let c ← h.get p
    if c.kind = .document then .ok (some p) else getDocument n h c.parent

/-! ### Histories -/

/-- The calls that change the nodes. -/
inductive Op (D : Type) where
  /-- a new node -/
  | make (k : Kind) (d : D)
  /-- `SetValue`, `SetAttribute` and what else changes the data -/
  | setData (p : Ptr) (d : D)
  | link (this node : Ptr)
  | insertEnd (this add : Ptr)
  | insertBefore (this : Ptr) (before : Option Ptr) (add : Ptr)
  | insertAfter (this : Ptr) (after : Option Ptr) (add : Ptr)
  | replace (this old by_ : Ptr)
  | remove (this old : Ptr)
  | clear (this : Ptr)
  | delete (p : Ptr)
  | assign (this base : Ptr)

/-- A call: the memory afterwards and the pointer returned.  The first argument bounds the number of steps. -/
def step (blank : D → D) (n : ℕ) (h : Heap D) : Op D → Run (Heap D × Option Ptr)
  | .make k d => .ok ((h.alloc k d).1, some (h.alloc k d).2)
  | .setData p d => do
    let h ← h.upd p fun c => { c with data := d }
    .ok (h, none)
  | .link p q => do
    let h ← linkEndChild h p q
    .ok (h, some q)
  | .insertEnd p a => insertEndChild n h p a
  | .insertBefore p b a => insertBeforeChild n h p b a
  | .insertAfter p b a => insertAfterChild n h p b a
  | .replace p b a => replaceChild n h p b a
  | .remove p b => do
    let h ← removeChild n h p b
    .ok (h, none)
  | .clear p => do
    let h ← clear n h p
    .ok (h, none)
  | .delete p => do
    let h ← destroy n h p
    .ok (h, none)
  | .assign p b => do
    let h ← assign blank n h p b
    .ok (h, none)

/-- Calls one after the other: the memory after the last, and the pointers returned. -/
def run (blank : D → D) (n : ℕ) (h : Heap D) : List (Op D) → Run (Heap D × List (Option Ptr))
  | [] => .ok (h, [])
  | o :: os => do
    let r ← step blank n h o
    let s ← run blank n r.1 os
    .ok (s.1, r.2 :: s.2)

end Gear.Xml.Dom
