import Verif.XmlDom
set_option autoImplicit false
set_option linter.unusedSectionVars false
/-!
Model of the attributes of the elements of tinyxml as they are in memory: a ring of objects, closed by a sentinel that has no name and
no value.  Sources: src/gearxml/tinyxml.cc ("cc") and include/gear/gearxml/tinyxml.h ("h").

Simplifications.  An element is only its `attributeSet`, and that is known by the address of its sentinel.  Names and values are texts;
allocation succeeds and returns an address that was never used before.  An access to an object that was deleted or never existed,
or through a null pointer, is undefined behaviour.
-/
namespace Gear.Xml.Attr

open Dom (Ptr)

/-- The members of `TiXmlAttribute`, h lines 776-780; `document` is used for parsing only and left out. -/
@[ext]
structure Cell where
  name : Text
  value : Text
  prev : Option Ptr
  next : Option Ptr

/-- The attributes in memory, and the next address `new` returns. -/
structure Heap where
  cell : Ptr → Option Cell
  fresh : Ptr

/-- Memory without attributes. -/
def Heap.empty : Heap := ⟨fun _ => none, 0⟩

/-- `*p`. -/
def Heap.get (h : Heap) (p : Ptr) : Run Cell :=
  match h.cell p with
  | some c => .ok c
  | none => .ub

/-- `*p` for a pointer that may be null. -/
def deref (p : Option Ptr) : Run Ptr :=
  match p with
  | some p => .ok p
  | none => .ub

/-- An assignment to members of `*p`. -/
def Heap.upd (h : Heap) (p : Ptr) (f : Cell → Cell) : Run Heap :=
  match h.cell p with
  | some c => .ok { h with cell := Function.update h.cell p (some (f c)) }
  | none => .ub

/-- The release of the memory of `*p`. -/
def Heap.free (h : Heap) (p : Ptr) : Run Heap :=
  match h.cell p with
  | some _ => .ok { h with cell := Function.update h.cell p none }
  | none => .ub

/-- `new TiXmlAttribute( name, value )`, h lines 701-707. -/
def Heap.alloc (h : Heap) (name value : Text) : Heap × Ptr :=
  (⟨Function.update h.cell h.fresh (some ⟨name, value, none, none⟩), h.fresh + 1⟩, h.fresh)

/-- The constructor of `TiXmlAttributeSet`, cc lines 1392-1396, for a new element. -/
def make (h : Heap) : Run (Heap × Ptr) := do
  let r := h.alloc [] []
  let h ← r.1.upd r.2 fun c => { c with next := some r.2 }
  let h ← h.upd r.2 fun c => { c with prev := some r.2 }
  .ok (h, r.2)

/-- The loop of `Find`, cc lines 1439-1443, from `node` on. -/
def findFrom (s : Ptr) (name : Text) : ℕ → Heap → Option Ptr → Run (Option Ptr)
  | 0, _, _ => .endless
  | n + 1, h, node =>
    if node = some s then .ok none
    else do
      let p ← deref node
      let c ← h.get p
      if c.name = name then .ok (some p) else findFrom s name n h c.next

/-- `TiXmlAttributeSet::Find`, cc lines 1435-1457. -/
def find (n : ℕ) (h : Heap) (s : Ptr) (name : Text) : Run (Option Ptr) := do
  let c ← h.get s
  findFrom s name n h c.next

/-- `TiXmlAttributeSet::Add`, cc lines 1406-1415. -/
def add (n : ℕ) (h : Heap) (s a : Ptr) : Run Heap := do
  let c ← h.get a
  let f ← find n h s c.name
  if f.isSome then .assertFailed
  else do
    let h ← h.upd a fun c => { c with next := some s }
    let c ← h.get s
    let h ← h.upd a fun d => { d with prev := c.prev }
    let c ← h.get s
    let l ← deref c.prev
    let h ← h.upd l fun d => { d with next := some a }
    h.upd s fun d => { d with prev := some a }

/-- The loop of `Remove`, cc lines 1421-1432, from `node` on. -/
def removeFrom (s a : Ptr) : ℕ → Heap → Option Ptr → Run Heap
  | 0, _, _ => .endless
  | n + 1, h, node =>
    if node = some s then .assertFailed
    else do
      let p ← deref node
      let c ← h.get p
      if p = a then do
        let q ← deref c.prev
        let h ← h.upd q fun d => { d with next := c.next }
        let c ← h.get p
        let q ← deref c.next
        let h ← h.upd q fun d => { d with prev := c.prev }
        let h ← h.upd p fun d => { d with next := none }
        h.upd p fun d => { d with prev := none }
      else removeFrom s a n h c.next

/-- `TiXmlAttributeSet::Remove`, cc lines 1417-1433. -/
def remove (n : ℕ) (h : Heap) (s a : Ptr) : Run Heap := do
  let c ← h.get s
  removeFrom s a n h c.next

/-- `TiXmlAttributeSet::First`, h lines 805-806; `TiXmlElement::FirstAttribute`, h line 934. -/
def first (h : Heap) (s : Ptr) : Run (Option Ptr) := do
  let c ← h.get s
  .ok (if c.next = some s then none else c.next)

/-- `TiXmlAttributeSet::Last`, h lines 807-808. -/
def last (h : Heap) (s : Ptr) : Run (Option Ptr) := do
  let c ← h.get s
  .ok (if c.prev = some s then none else c.prev)

/-- `TiXmlAttribute::Next`, cc lines 1068-1084. -/
def next (h : Heap) (a : Ptr) : Run (Option Ptr) := do
  let c ← h.get a
  let p ← deref c.next
  let d ← h.get p
  .ok (if d.value = [] ∧ d.name = [] then none else some p)

/-- `TiXmlAttribute::Previous`, cc lines 1086-1102. -/
def previous (h : Heap) (a : Ptr) : Run (Option Ptr) := do
  let c ← h.get a
  let p ← deref c.prev
  let d ← h.get p
  .ok (if d.value = [] ∧ d.name = [] then none else some p)

/-- `TiXmlElement::Attribute`, cc lines 671-679. -/
def valueOf (n : ℕ) (h : Heap) (s : Ptr) (name : Text) : Run (Option Text) := do
  let f ← find n h s name
  match f with
  | some a => do
    let c ← h.get a
    .ok (some c.value)
  | none => .ok none

/-- `TiXmlElement::SetAttribute`, cc lines 746-765. -/
def setAttribute (n : ℕ) (h : Heap) (s : Ptr) (name value : Text) : Run Heap := do
  let f ← find n h s name
  match f with
  | some a => h.upd a fun c => { c with value := value }
  | none =>
    let r := h.alloc name value
    add n r.1 s r.2

/-- `TiXmlElement::RemoveAttribute`, cc lines 472-480. -/
def removeAttribute (n : ℕ) (h : Heap) (s : Ptr) (name : Text) : Run Heap := do
  let f ← find n h s name
  match f with
  | some a => do
    let h ← remove n h s a
    h.free a
  | none => .ok h

/-- The loop of `ClearThis`, cc lines 662-667. -/
def clear : ℕ → Heap → Ptr → Run Heap
  | 0, _, _ => .endless
  | n + 1, h, s => do
    let f ← first h s
    match f with
    | none => .ok h
    | some a => do
      let h ← remove n h s a
      let h ← h.free a
      clear n h s

/-- The end of an element, cc lines 653-656: `ClearThis` and the destructor of the set, cc lines 1399-1403. -/
def destroy (n : ℕ) (h : Heap) (s : Ptr) : Run Heap := do
  let h ← clear n h s
  let c ← h.get s
  if c.next = some s then
    if c.prev = some s then h.free s else .assertFailed
  else .assertFailed

/-- The loop over the attributes in `TiXmlElement::CopyTo`, cc lines 856-862, from `a` on. -/
def copyFrom (target : Ptr) : ℕ → Heap → Option Ptr → Run Heap
  | 0, _, _ => .endless
  | _ + 1, h, none => .ok h
  | n + 1, h, some a => do
    let c ← h.get a
    let h ← setAttribute n h target c.name c.value
    let b ← next h a
    copyFrom target n h b

/-- The attributes in `TiXmlElement::CopyTo`, cc lines 850-862. -/
def copyTo (n : ℕ) (h : Heap) (s target : Ptr) : Run Heap := do
  let a ← first h s
  copyFrom target n h a

/-- A call on an element, or on one of its attributes. -/
inductive Op where
  /-- A new element. -/
  | make
  | setAttribute (s : Ptr) (name value : Text)
  | removeAttribute (s : Ptr) (name : Text)
  /-- `SetName` and `SetValue` of an attribute of the element, h lines 727-728. -/
  | setName (s a : Ptr) (name : Text)
  | setValue (s a : Ptr) (value : Text)
  | clear (s : Ptr)
  | copyTo (s target : Ptr)
  | delete (s : Ptr)

/-- One call.  The second result is the element that it makes. -/
def step (n : ℕ) (h : Heap) : Op → Run (Heap × Option Ptr)
  | .make => do
    let r ← make h
    .ok (r.1, some r.2)
  | .setAttribute s name value => do
    let h ← setAttribute n h s name value
    .ok (h, none)
  | .removeAttribute s name => do
    let h ← removeAttribute n h s name
    .ok (h, none)
  | .setName _ a name => do
    let h ← h.upd a fun c => { c with name := name }
    .ok (h, none)
  | .setValue _ a value => do
    let h ← h.upd a fun c => { c with value := value }
    .ok (h, none)
  | .clear s => do
    let h ← clear n h s
    .ok (h, none)
  | .copyTo s target => do
    let h ← copyTo n h s target
    .ok (h, none)
  | .delete s => do
    let h ← destroy n h s
    .ok (h, none)

/-- A sequence of calls. -/
def run (n : ℕ) (h : Heap) : List Op → Run (Heap × List (Option Ptr))
  | [] => .ok (h, [])
  | o :: os => do
    let r ← step n h o
    let q ← run n r.1 os
    .ok (q.1, r.2 :: q.2)

end Gear.Xml.Attr
