/-
Reading and building elements in the handlers: the accessors of tinyxml and the helper functions of XMLHandlerMgr.cc.
-/
import Verif.XmlNumProps
import Verif.XmlProps

set_option autoImplicit false
set_option linter.unusedSectionVars false

namespace Gear.Xml

open Spec

/-- A new element on which `SetAttribute` was called once for each of the names, which differ, and `InsertEndChild` for the
children (src/gearxml/tinyxml.cc lines 746-765 and 218-228). -/
def el (name : String) (attrs : List (String × Text)) (children : List Node) : Node :=
  .element name.toList (attrs.map fun a => (a.1.toList, a.2)) children

/-- `Value`, include/gear/gearxml/tinyxml.h line 437. -/
def Node.value : Node → Text
  | .element name _ _ => name
  | .comment v => v
  | .unknown v => v
  | .text v => v
  | .declaration .. => []

/-- The children; only elements have any. -/
def Node.children : Node → List Node
  | .element _ _ children => children
  | _ => []

/-- `ToElement`, not null. -/
def Node.isElt : Node → Bool
  | .element .. => true
  | _ => false

/-- All nodes found by `IterateChildren( name , previous )`, src/gearxml/tinyxml.cc lines 402-413, in order: by
`FirstChild` and `NextSibling` with a name, lines 330-339 and 428-437. -/
def Node.named (n : Node) (name : String) : List Node := n.children.filter fun c => c.value = name.toList

/-- `FirstChildElement( name )`, src/gearxml/tinyxml.cc lines 510-521: the first of them that is an element. -/
def Node.firstElement (n : Node) (name : String) : Option Node := (n.named name).find? Node.isElt

/-- `Attribute( name )`, for an element. -/
def Node.attr (n : Node) (name : String) : Option Text :=
  match n with
  | .element _ attrs _ => attrValue attrs name.toList
  | _ => none

/-- `getXMLAttribute`, src/gearxml/XMLHandlerMgr.cc lines 89-109. -/
def getXMLAttribute (n : Node) (name : String) : Res Text :=
  match n.attr name with
  | some v => .ok v
  | none => .throw .parse

/-- `getOptionalXMLAttribute`, XMLHandlerMgr.cc lines 111-124. -/
def getOptionalXMLAttribute (n : Node) (name : String) (default : Text) : Text :=
  match getXMLAttribute n name with
  | .ok v => v
  | _ => default

/-- `getChildElementValue`, XMLHandlerMgr.cc lines 130-152. -/
def getChildElementValue (n : Node) (name : String) : Res Text :=
  if n.isElt then
    match n.firstElement name with
    | none => .throw .parse
    | some c => getXMLAttribute c "value"
  else .throw .parse

/-- `getOptionalChildElementValue`, XMLHandlerMgr.cc lines 156-173. -/
def getOptionalChildElementValue (n : Node) (name : String) (default : Text) : Res Text :=
  if n.isElt then
    match n.firstElement name with
    | none => .ok default
    | some c => getXMLAttribute c "value"
  else .throw .parse

/-- A `std::string` from the text of an attribute. -/
def str (t : Text) : String := String.ofList t

/-! ### Lemmas -/

@[simp] theorem str_toList (s : String) : str s.toList = s := String.ofList_toList

@[simp] theorem toList_str (t : Text) : (str t).toList = t := String.toList_ofList

/-- Looking up a literal name. -/
def find (attrs : List (String × Text)) (name : String) : Option Text :=
  match attrs with
  | [] => none
  | (n, v) :: rest => if n = name then some v else find rest name

@[simp] theorem attr_el (nm : String) (attrs : List (String × Text)) (cs : List Node) (name : String) :
    (el nm attrs cs).attr name = find attrs name := by
  show attrValue _ _ = _
  induction attrs with
  | nil => rfl
  | cons a rest ih =>
    obtain ⟨n, v⟩ := a
    simp only [List.map_cons, attrValue, find, ih, String.toList_inj]

@[simp] theorem children_el (nm : String) (attrs : List (String × Text)) (cs : List Node) : (el nm attrs cs).children = cs := rfl

@[simp] theorem value_el (nm : String) (attrs : List (String × Text)) (cs : List Node) : (el nm attrs cs).value = nm.toList := rfl

@[simp] theorem isElt_el (nm : String) (attrs : List (String × Text)) (cs : List Node) : (el nm attrs cs).isElt = true := rfl

theorem getXMLAttribute_el (nm : String) (attrs : List (String × Text)) (cs : List Node) (name : String) :
    getXMLAttribute (el nm attrs cs) name = match find attrs name with
      | some v => .ok v
      | none => .throw .parse := by
  rw [getXMLAttribute, attr_el]

/-- Names in code are valid, and their order does not matter. -/
theorem wellFormed_el {nm : String} {attrs : List (String × Text)} {cs : List Node} (h1 : ValidName nm.toList)
    (h2 : ∀ a ∈ attrs, ValidName a.1.toList) (h3 : ∀ a ∈ attrs, NoReference a.2) (h4 : (attrs.map Prod.fst).Nodup)
    (h5 : ∀ c ∈ cs, WellFormed c ∧ c.isText = false) : WellFormed (el nm attrs cs) := by
  rw [el, WellFormed]
  refine ⟨h1, ?_, ?_, ?_, ?_⟩
  · intro a ha
    obtain ⟨b, hb, rfl⟩ := List.mem_map.1 ha
    exact ⟨h2 b hb, h3 b hb⟩
  · rw [List.map_map]
    have : (Prod.fst ∘ fun a : String × Text => (a.1.toList, a.2)) = String.toList ∘ Prod.fst := rfl
    rw [this, ← List.map_map]
    exact h4.map fun a b h => String.toList_inj.1 h
  · clear h1 h2 h3 h4
    induction cs with
    | nil => trivial
    | cons c cs ih => exact ⟨(h5 c (by simp)).1, ih fun d hd => h5 d (by simp [hd])⟩
  · clear h1 h2 h3 h4
    induction cs with
    | nil => trivial
    | cons c cs ih =>
      have hc := (h5 c (by simp)).2
      have := ih fun d hd => h5 d (by simp [hd])
      cases c with
      | text v => simp [Node.isText] at hc
      | _ => simpa [NoTwoTexts] using this

theorem noReference_of {v : Text} (h : '&' ∉ v) : NoReference v := by
  rintro ⟨a, b, rfl⟩
  exact h (by simp)

theorem digits_noAmp {v : Text} (h : ∀ c ∈ v, isDigit c = true) : '&' ∉ v := fun hm => (isDigit_not (h _ hm)).2.2.2.2 rfl

theorem printInt_chars (n : ℤ) : ∀ c ∈ printInt n, c = '-' ∨ isDigit c = true := by
  intro c hc
  unfold printInt at hc
  split_ifs at hc
  · rcases List.mem_cons.1 hc with h | h
    · exact .inl h
    · exact .inr (natText_isDigit _ c h)
  · exact .inr (natText_isDigit _ c hc)

theorem exponentText_chars (e : ℤ) : ∀ c ∈ exponentText e, c = '-' ∨ c = '+' ∨ isDigit c = true := by
  intro c hc
  unfold exponentText at hc
  rcases List.mem_cons.1 hc with h | h
  · split_ifs at h
    · exact .inl h
    · exact .inr (.inl h)
  · split_ifs at h
    · rcases List.mem_cons.1 h with h | h
      · subst h; exact .inr (.inr rfl)
      · exact .inr (.inr (natText_isDigit _ c h))
    · exact .inr (.inr (natText_isDigit _ c h))

theorem formatE_chars (x : ℚ) : ∀ c ∈ formatE x, c = '-' ∨ c = '+' ∨ c = '.' ∨ c = 'e' ∨ isDigit c = true := by
  intro c hc
  unfold formatE at hc
  have ex : ∀ e, c ∈ exponentText e → c = '-' ∨ c = '+' ∨ c = '.' ∨ c = 'e' ∨ isDigit c = true := by
    intro e h
    rcases exponentText_chars e c h with h | h | h <;> simp [h]
  have dg : ∀ n, c ∈ digitsOf 9 n → c = '-' ∨ c = '+' ∨ c = '.' ∨ c = 'e' ∨ isDigit c = true := by
    intro n h
    simp [digitsOf_isDigit 9 n c h]
  split_ifs at hc
  · simp only [List.cons_append, List.mem_cons, List.mem_append] at hc
    rcases hc with h | h | h | h | h
    · subst h; right; right; right; right; rfl
    · simp [h]
    · exact dg _ h
    · simp [h]
    · exact ex _ h
  all_goals
    simp only [List.cons_append, List.nil_append, List.mem_cons, List.mem_append] at hc
    first
      | rcases hc with h | h | h | h | h | h
        · simp [h]
        · subst h; simp [isDigit_digit]
        · simp [h]
        · exact dg _ h
        · simp [h]
        · exact ex _ h
      | rcases hc with h | h | h | h | h
        · subst h; simp [isDigit_digit]
        · simp [h]
        · exact dg _ h
        · simp [h]
        · exact ex _ h

theorem printInt_noBlank (n : ℤ) : ' ' ∉ printInt n ∧ '&' ∉ printInt n ∧ printInt n ≠ [] := by
  refine ⟨fun h => ?_, fun h => ?_, ?_⟩
  · rcases printInt_chars n _ h with h | h
    · cases h
    · exact (isDigit_not h).2.2.2.1 rfl
  · rcases printInt_chars n _ h with h | h
    · cases h
    · exact (isDigit_not h).2.2.2.2 rfl
  · unfold printInt
    split_ifs
    · simp
    · exact natText_ne_nil _

theorem formatE_noBlank (x : ℚ) : ' ' ∉ formatE x ∧ '&' ∉ formatE x ∧ formatE x ≠ [] := by
  refine ⟨fun h => ?_, fun h => ?_, ?_⟩
  · rcases formatE_chars x _ h with h | h | h | h | h
    any_goals cases h
  · rcases formatE_chars x _ h with h | h | h | h | h
    any_goals cases h
  · unfold formatE
    split_ifs <;> simp

theorem noReference_printInt (n : ℤ) : NoReference (printInt n) := noReference_of (printInt_noBlank n).2.1

theorem noReference_formatE (x : ℚ) : NoReference (formatE x) := noReference_of (formatE_noBlank x).2.1

end Gear.Xml
