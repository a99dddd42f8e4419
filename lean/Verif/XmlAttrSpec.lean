import Verif.XmlAttr
import Verif.XmlDomSpec
set_option autoImplicit false
set_option linter.unusedSectionVars false
/-!
What the attributes of elements should be: for each element a list of attributes, each at an address, in the order in which they were
first set.
-/
namespace Gear.Xml.Attr.Spec

open Dom (Ptr)

/-- An attribute and where it is. -/
structure Item where
  ptr : Ptr
  name : Text
  value : Text

/-- An element and its attributes. -/
structure Element where
  ptr : Ptr
  attrs : List Item

/-- The elements, and how many objects were ever made. -/
structure State where
  elements : List Element
  made : ℕ

/-- What the attributes say, without their addresses. -/
def plain (xs : List Item) : List (Text × Text) := xs.map fun x => (x.name, x.value)

/-- Setting an attribute: the first of this name gets the value; if there is none, a new one is the last. -/
def assign (made : ℕ) (name value : Text) : List Item → List Item × ℕ
  | [] => ([⟨made, name, value⟩], made + 1)
  | x :: xs => if x.name = name then ({ x with value := value } :: xs, made) else (x :: (assign made name value xs).1, (assign made name value xs).2)

/-- The first of this name is taken out. -/
def erase (name : Text) (xs : List Item) : List Item := xs.eraseP fun x => x.name = name

/-- The attribute at an address is changed. -/
def change (a : Ptr) (f : Item → Item) (xs : List Item) : List Item := xs.map fun x => if x.ptr = a then f x else x

/-- The attributes that are found by going from each to the next: all up to one without a name and without a value, unless that is the
first. -/
def walked : List Item → List Item
  | [] => []
  | x :: xs => x :: xs.takeWhile fun y => ¬ (y.value = [] ∧ y.name = [])

/-- Setting several attributes in turn. -/
def setAll (made : ℕ) (xs : List Item) : List Item → List Item × ℕ
  | [] => (xs, made)
  | y :: ys => setAll (assign made y.name y.value xs).2 (assign made y.name y.value xs).1 ys

/-- The element at an address. -/
def State.find (F : State) (s : Ptr) : Option Element := F.elements.find? fun e => e.ptr = s

/-- New attributes for the element at an address. -/
def State.put (F : State) (s : Ptr) (r : List Item × ℕ) : State :=
  ⟨F.elements.map fun e => if e.ptr = s then { e with attrs := r.1 } else e, r.2⟩

/-- What a call does; `none` for calls that are not allowed. -/
def State.step (F : State) : Op → Option (State × Option Ptr)
  | .make => some (⟨⟨F.made, []⟩ :: F.elements, F.made + 1⟩, some F.made)
  | .setAttribute s name value => (F.find s).map fun e => (F.put s (assign F.made name value e.attrs), none)
  | .removeAttribute s name => (F.find s).map fun e => (F.put s (erase name e.attrs, F.made), none)
  | .setName s a name => do
    let e ← F.find s
    if a ∈ e.attrs.map Item.ptr then some (F.put s (change a (fun x => { x with name := name }) e.attrs, F.made), none) else none
  | .setValue s a value => do
    let e ← F.find s
    if a ∈ e.attrs.map Item.ptr then some (F.put s (change a (fun x => { x with value := value }) e.attrs, F.made), none) else none
  | .clear s => (F.find s).map fun _ => (F.put s ([], F.made), none)
  | .copyTo s t => do
    let e ← F.find s
    let f ← F.find t
    if s = t then none else some (F.put t (setAll F.made f.attrs (walked e.attrs)), none)
  | .delete s => (F.find s).map fun _ => (⟨F.elements.filter fun e => e.ptr ≠ s, F.made⟩, none)

/-- What a sequence of calls does. -/
def State.run (F : State) : List Op → Option (State × List (Option Ptr))
  | [] => some (F, [])
  | o :: os => do
    let r ← F.step o
    let q ← r.1.run os
    some (q.1, r.2 :: q.2)

end Gear.Xml.Attr.Spec
