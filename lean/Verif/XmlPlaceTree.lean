/-
What the locations of a tree are locations of.
-/
import Verif.XmlPlaceParse
import Verif.XmlPlaceSpec

set_option autoImplicit false
set_option linter.unusedSectionVars false

namespace Gear.Xml.Place

mutual
/-- The tree without the locations. -/
def PNode.erase : PNode → Node
  | .element _ name attrs _ children => .element name attrs (PNode.eraseList children)
  | .comment _ v => .comment v
  | .unknown _ v => .unknown v
  | .text _ v => .text v
  | .declaration _ v e s => .declaration v e s
/-- The same for some trees. -/
def PNode.eraseList : List PNode → List Node
  | [] => []
  | n :: l => n.erase :: PNode.eraseList l
end

theorem PNode.eraseList_eq (l : List PNode) : PNode.eraseList l = l.map PNode.erase := by
  induction l with
  | nil => rw [PNode.eraseList, List.map_nil]
  | cons n l ih => rw [PNode.eraseList, ih, List.map_cons]

theorem PNode.erase_element (k : Cursor) (name : Text) (attrs : List (Text × Text)) (places : List Cursor) (cs : List PNode) :
    (PNode.element k name attrs places cs).erase = .element name attrs (cs.map PNode.erase) := by
  rw [PNode.erase, PNode.eraseList_eq]

/-- What can be looked up in the text at a location. -/
inductive What where
  | element (name : Text)
  | attr (name : Text)
  | comment
  | unknown
  | text
  | declaration

/-- Whether this begins the text; `utf8` is whether it can be read as UTF-8.  Then there may be byte order marks between the `<`
and the name of an element, with white space after them. -/
def What.Begins (utf8 : Prop) : What → Text → Prop
  | .element name, q => ∃ gap r, q = '<' :: gap ++ name ++ r ∧
      (gap ≠ [] → utf8 ∧ Spec.Mark (gap.take 3) ∧ ∀ c ∈ gap, isSpace c = true ∨ 128 ≤ c.toNat)
  | .attr name, q => name <+: q ∧ name ≠ []
  | .comment, q => "<!--".toList <+: q
  | .unknown, q => ['<'] <+: q
  | .text, q => ∃ c r, q = c :: r ∧ c ≠ '<' ∧ isSpace c = false
  | .declaration, q => prefixNoCase "<?xml".toList q = true

/-- Whether this begins the text in the encoding. -/
def What.Stands (enc : Enc) (w : What) (q : Text) : Prop := w.Begins (enc = .utf8) q

theorem What.Begins.mono {u v : Prop} {w : What} {q : Text} (h : w.Begins u q) (k : u → v) : w.Begins v q := by
  cases w with
  | element name =>
    obtain ⟨gap, r, e, h⟩ := h
    exact ⟨gap, r, e, fun hg => ⟨k (h hg).1, (h hg).2⟩⟩
  | _ => exact h

/-- In ASCII there are no byte order marks. -/
theorem What.Begins.ascii {u v : Prop} {w : What} {q : Text} (h : w.Begins u q) (hA : ∀ c ∈ q, c.toNat < 128) : w.Begins v q := by
  cases w with
  | element name =>
    obtain ⟨gap, r, rfl, h⟩ := h
    cases gap with
    | nil => exact ⟨[], r, rfl, fun h => absurd rfl h⟩
    | cons c gap =>
      exfalso
      obtain ⟨-, hm, -⟩ := h (by simp)
      have := hA c (by simp)
      unfold Spec.Mark at hm
      simp only [List.take_succ_cons, List.map_cons, List.cons.injEq] at hm
      omega
  | _ => exact h

/-- The locations of the attributes of an element. -/
def attrPlaces : List (Text × Text) → List Cursor → List (Cursor × What)
  | [], _ => []
  | (n, _) :: attrs, [] => (.clear, .attr n) :: attrPlaces attrs []
  | (n, _) :: attrs, k :: places => (k, .attr n) :: attrPlaces attrs places

mutual
/-- All locations of a tree: of the nodes and of the attributes. -/
def PNode.all : PNode → List (Cursor × What)
  | .element k name attrs places children => (k, .element name) :: attrPlaces attrs places ++ PNode.allList children
  | .comment k _ => [(k, .comment)]
  | .unknown k _ => [(k, .unknown)]
  | .text k _ => [(k, .text)]
  | .declaration k _ _ _ => [(k, .declaration)]
/-- The same for some trees. -/
def PNode.allList : List PNode → List (Cursor × What)
  | [] => []
  | n :: l => n.all ++ PNode.allList l
end

theorem PNode.allList_eq (l : List PNode) : PNode.allList l = (l.map PNode.all).flatten := by
  induction l with
  | nil => rw [PNode.allList, List.map_nil, List.flatten_nil]
  | cons n l ih => rw [PNode.allList, ih, List.map_cons, List.flatten_cons]

theorem PNode.all_element (k : Cursor) (name : Text) (attrs : List (Text × Text)) (places : List Cursor) (cs : List PNode) :
    (PNode.element k name attrs places cs).all
      = (k, .element name) :: attrPlaces attrs places ++ (cs.map PNode.all).flatten := by
  rw [PNode.all, PNode.allList_eq]

theorem attrPlaces_append {attrs : List (Text × Text)} {places : List Cursor} (h : places.length = attrs.length) (n v : Text)
    (k : Cursor) : attrPlaces (attrs ++ [(n, v)]) (places ++ [k]) = attrPlaces attrs places ++ [(k, .attr n)] := by
  induction attrs generalizing places with
  | nil => rw [List.length_eq_zero_iff.1 h]; rfl
  | cons a attrs ih =>
    cases places with
    | nil => cases h
    | cons k places =>
      have := ih (places := places) (by simpa using h)
      rw [List.cons_append, List.cons_append, attrPlaces, attrPlaces, this]; rfl

theorem attrPlaces_set {attrs : List (Text × Text)} {name : Text} (value : Text) (h : (attrValue attrs name).isSome = true)
    (places : List Cursor) : attrPlaces (setAttribute attrs name value) places = attrPlaces attrs places := by
  induction attrs generalizing places with
  | nil => cases h
  | cons x attrs ih =>
    obtain ⟨n, v⟩ := x
    rw [attrValue] at h
    rw [setAttribute]
    split_ifs at h ⊢ with hn
    · cases places <;> rfl
    · cases places with
      | nil => rw [attrPlaces, attrPlaces, ih h]
      | cons k places => rw [attrPlaces, attrPlaces, ih h]

theorem setAttribute_length {attrs : List (Text × Text)} {name : Text} (value : Text) (h : (attrValue attrs name).isSome = true) :
    (setAttribute attrs name value).length = attrs.length := by
  induction attrs with
  | nil => cases h
  | cons x attrs ih =>
    obtain ⟨n, v⟩ := x
    rw [attrValue] at h
    rw [setAttribute]
    split_ifs at h ⊢ with hn
    · rfl
    · simp [ih h]

end Gear.Xml.Place
