/-
What all handlers of sections share: reading numbers from elements that may be missing, and the lemmas for reading what was written.
-/
import Verif.XmlParamsProps

set_option autoImplicit false
set_option linter.unusedSectionVars false

namespace Gear.Xml

open Spec

/-- `getXMLAttribute( pointer , name )`: calling `ToElement` of a null pointer (src/gearxml/XMLHandlerMgr.cc line 91) is undefined
behaviour. -/
def attrOf (n : Option Node) (name : String) : Res Text :=
  match n with
  | none => .ub
  | some n => getXMLAttribute n name

/-- `atof( getXMLAttribute( pointer , name ).c_str() )`. -/
def num (n : Option Node) (name : String) : Res ℚ := do
  let v ← attrOf n name
  .ok (atof v)

/-- `atoi( getXMLAttribute( pointer , name ).c_str() )`. -/
def int (n : Option Node) (name : String) : Res ℤ := do
  let v ← attrOf n name
  .ok (atoi v)

/-- `atof( getOptionalXMLAttribute( pointer , name , default ).c_str() )`; only `ParseException` is caught. -/
def numOr (n : Option Node) (name : String) (default : ℚ) : Res ℚ :=
  match n with
  | none => .ub
  | some n => .ok (match n.attr name with
    | some v => atof v
    | none => default)

/-- The same for integers. -/
def intOr (n : Option Node) (name : String) (default : ℤ) : Res ℤ :=
  match n with
  | none => .ub
  | some n => .ok (match n.attr name with
    | some v => atoi v
    | none => default)

/-- The same for texts. -/
def textOr (n : Option Node) (name : String) (default : String) : Res String :=
  match n with
  | none => .ub
  | some n => .ok (match n.attr name with
    | some v => str v
    | none => default)

/-- All nodes found by `pointer->IterateChildren( name , previous )`. -/
def namedOf (n : Option Node) (name : String) : Res (List Node) :=
  match n with
  | none => .ub
  | some n => .ok (n.named name)

/-- `node->FirstChildElement( name )` for a pointer that may be null. -/
def firstOf (n : Option Node) (name : String) : Res (Option Node) :=
  match n with
  | none => .ub
  | some n => .ok (n.firstElement name)

/-- `SetAttribute`, src/gearxml/tinyxml.cc lines 746-765: the value of an attribute that exists is replaced. -/
def setAttr (attrs : List (Text × Text)) (name : Text) (value : Text) : List (Text × Text) :=
  match attrs with
  | [] => [(name, value)]
  | (n, v) :: rest => if n = name then (n, value) :: rest else (n, v) :: setAttr rest name value

/-- `element.SetAttribute( name , value )`. -/
def Node.setAttribute (n : Node) (name : String) (value : Text) : Node :=
  match n with
  | .element nm attrs cs => .element nm (setAttr attrs name.toList value) cs
  | n => n

/-! ### Lemmas -/

theorem attrOf_el (nm : String) (attrs : List (String × Text)) (cs : List Node) (name : String) :
    attrOf (some (el nm attrs cs)) name = match find attrs name with
      | some v => .ok v
      | none => .throw .parse := getXMLAttribute_el ..

theorem num_el {nm : String} {attrs : List (String × Text)} {cs : List Node} {name : String} {x : ℚ}
    (h : find attrs name = some (formatE x)) : num (some (el nm attrs cs)) name = .ok (r10 x) := by
  rw [num, attrOf_el, h]; rfl

theorem int_el {nm : String} {attrs : List (String × Text)} {cs : List Node} {name : String} {n : ℤ}
    (h : find attrs name = some (printInt n)) (hn : IsInt n) : int (some (el nm attrs cs)) name = .ok n := by
  rw [int, attrOf_el, h, Res.bind_ok, int_roundtrip n hn.1 hn.2]

theorem numOr_el {nm : String} {attrs : List (String × Text)} {cs : List Node} {name : String} {x : ℚ} (d : ℚ)
    (h : find attrs name = some (formatE x)) : numOr (some (el nm attrs cs)) name d = .ok (r10 x) := by
  rw [numOr, attr_el, h]; rfl

theorem numOr_el_none {nm : String} {attrs : List (String × Text)} {cs : List Node} {name : String} (d : ℚ)
    (h : find attrs name = none) : numOr (some (el nm attrs cs)) name d = .ok d := by
  rw [numOr, attr_el, h]

theorem intOr_el {nm : String} {attrs : List (String × Text)} {cs : List Node} {name : String} {n : ℤ} (d : ℤ)
    (h : find attrs name = some (printInt n)) (hn : IsInt n) : intOr (some (el nm attrs cs)) name d = .ok n := by
  rw [intOr, attr_el, h]
  exact congrArg Res.ok (int_roundtrip n hn.1 hn.2)

theorem textOr_el {nm : String} {attrs : List (String × Text)} {cs : List Node} {name : String} {s : String} (d : String)
    (h : find attrs name = some s.toList) : textOr (some (el nm attrs cs)) name d = .ok s := by
  rw [textOr, attr_el, h]
  exact congrArg Res.ok (str_toList s)

theorem textOr_el_none {nm : String} {attrs : List (String × Text)} {cs : List Node} {name : String} (d : String)
    (h : find attrs name = none) : textOr (some (el nm attrs cs)) name d = .ok d := by
  rw [textOr, attr_el, h]

theorem named_nil (nm : String) (attrs : List (String × Text)) (name : String) : (el nm attrs []).named name = [] := rfl

theorem named_cons (nm : String) (attrs : List (String × Text)) (nm' : String) (attrs' : List (String × Text)) (cs' cs : List Node)
    (name : String) :
    (el nm attrs (el nm' attrs' cs' :: cs)).named name
      = if nm' = name then el nm' attrs' cs' :: (el nm attrs cs).named name else (el nm attrs cs).named name := by
  unfold Node.named
  simp only [children_el, List.filter_cons, value_el, String.toList_inj, decide_eq_true_eq]

theorem named_append' (nm : String) (attrs : List (String × Text)) (l₁ l₂ : List Node) (name : String) :
    (el nm attrs (l₁ ++ l₂)).named name = (el nm attrs l₁).named name ++ (el nm attrs l₂).named name := by
  unfold Node.named
  simp only [children_el, List.filter_append]

theorem firstElement_nil (nm : String) (attrs : List (String × Text)) (name : String) :
    (el nm attrs []).firstElement name = none := rfl

theorem firstElement_cons (nm : String) (attrs : List (String × Text)) (nm' : String) (attrs' : List (String × Text))
    (cs' cs : List Node) (name : String) :
    (el nm attrs (el nm' attrs' cs' :: cs)).firstElement name
      = if nm' = name then some (el nm' attrs' cs') else (el nm attrs cs).firstElement name := by
  unfold Node.firstElement
  rw [named_cons]
  split_ifs
  · rfl
  · rfl

/-- Children that all have one name. -/
theorem named_of_all {nm : String} {attrs : List (String × Text)} {cs : List Node} {name : String}
    (h : ∀ c ∈ cs, c.value = name.toList) : (el nm attrs cs).named name = cs := by
  unfold Node.named
  rw [children_el]
  exact List.filter_eq_self.2 fun c hc => decide_eq_true (h c hc)

/-- Children none of which has the name. -/
theorem named_of_none {nm : String} {attrs : List (String × Text)} {cs : List Node} {name : String}
    (h : ∀ c ∈ cs, c.value ≠ name.toList) : (el nm attrs cs).named name = [] := by
  unfold Node.named
  rw [children_el]
  exact List.filter_eq_nil_iff.2 fun c hc hd => h c hc (of_decide_eq_true hd)

theorem value_ne {nm nm' : String} {attrs : List (String × Text)} {cs : List Node} (h : nm ≠ nm') :
    (el nm attrs cs).value ≠ nm'.toList := fun he => h (String.toList_inj.1 he)

/-- No parameter has another name. -/
theorem named_params (nm : String) (attrs : List (String × Text)) (p : Params ℚ) {name : String} (h : name ≠ "parameter") :
    (el nm attrs (paramsNodes p)).named name = [] := by
  refine named_of_none fun c hc => ?_
  rw [(paramsNodes_value c hc).1]
  exact fun he => h (String.toList_inj.1 he).symm

theorem firstElement_params (nm : String) (attrs : List (String × Text)) (p : Params ℚ) {name : String} (h : name ≠ "parameter") :
    (el nm attrs (paramsNodes p)).firstElement name = none := by
  unfold Node.firstElement
  rw [named_params _ _ _ h]; rfl

theorem mapM_map_ok {α β γ : Type} {f : β → Res γ} {h : α → β} {g : α → γ} {l : List α} (H : ∀ a ∈ l, f (h a) = .ok (g a)) :
    (l.map h).mapM f = .ok (l.map g) := by
  rw [List.mapM_map]
  exact mapM_ok (f ∘ h) g H

/-- A loop over all indices of a vector. -/
theorem mapM_range {α β : Type} (L : List α) (f : ℕ → Res β) (g : α → β) (h : ∀ i a, L[i]? = some a → f i = .ok (g a)) :
    (List.range L.length).mapM f = .ok (L.map g) := by
  have : ∀ (l pre : List α), pre ++ l = L → (List.range' pre.length l.length).mapM f = .ok (l.map g) := by
    intro l
    induction l with
    | nil => intro pre _; rfl
    | cons a l ih =>
      intro pre hL
      have h1 : f pre.length = .ok (g a) := h _ a (by rw [← hL]; simp)
      have h2 := ih (pre ++ [a]) (by rw [← hL]; simp)
      rw [List.length_append, List.length_singleton] at h2
      rw [List.length_cons, List.range'_succ, List.mapM_cons, h1, Res.bind_ok, h2]
      rfl
  have := this L [] rfl
  rwa [List.length_nil, ← List.range_eq_range'] at this

theorem setAttribute_el_nil (nm : String) (cs : List Node) (n : String) (v : Text) :
    (el nm [] cs).setAttribute n v = el nm [(n, v)] cs := rfl

theorem setAttribute_el (nm : String) (attrs : List (String × Text)) (cs : List Node) (n : String) (v : Text)
    (h : find attrs n = none) : (el nm attrs cs).setAttribute n v = el nm (attrs ++ [(n, v)]) cs := by
  have : ∀ attrs : List (String × Text), find attrs n = none →
      setAttr (attrs.map fun a => (a.1.toList, a.2)) n.toList v = (attrs ++ [(n, v)]).map fun a => (a.1.toList, a.2) := by
    intro attrs
    induction attrs with
    | nil => intro _; rfl
    | cons a rest ih =>
      obtain ⟨k, w⟩ := a
      intro hf
      rw [find] at hf
      split_ifs at hf with hk
      simp only [List.map_cons, List.cons_append, setAttr, String.toList_inj, if_neg hk]
      rw [ih hf]
  unfold Node.setAttribute el
  simp only
  rw [this attrs h]

/-- A number with at most ten significant decimal digits. -/
def TenDigits (x : ℚ) : Prop := ∃ n k : ℤ, |n| < 10 ^ 10 ∧ x = n * 10 ^ k

theorem r10_eq {x : ℚ} (h : TenDigits x) : r10 x = x := by
  obtain ⟨n, k, hn, hx⟩ := h
  exact double_exact x n k hn hx

/-- A test for lists of numbers. -/
theorem tenDigits_of {l : List ℚ} (k : ℕ) (h : ∀ x ∈ l, (x * 10 ^ k).den = 1 ∧ |(x * 10 ^ k).num| < 10 ^ 10) :
    ∀ x ∈ l, TenDigits x := by
  intro x hx
  obtain ⟨h1, h2⟩ := h x hx
  refine ⟨(x * 10 ^ k).num, -k, h2, ?_⟩
  have : (((x * 10 ^ k).num : ℤ) : ℚ) = x * 10 ^ k := by
    conv_rhs => rw [← Rat.num_div_den (x * 10 ^ k), h1]
    simp
  rw [this, zpow_neg, zpow_natCast, mul_assoc, mul_inv_cancel₀ (by positivity), mul_one]

theorem parametersToElement (nm : String) (attrs : List (String × Text)) {p : Params ℚ} (hi : Params.Inv p) (hw : Writable p)
    (pre : List Node) (h1 : ∀ c ∈ pre, c.value ≠ "parameter".toList) :
    setParametersFromXML (el nm attrs (pre ++ paramsNodes p)) {} = .ok (readBack p) := by
  have := setParametersFromXML_el hi hw nm attrs h1 (post := []) (by simp)
  rwa [List.append_nil] at this

/-- `WellFormed` for an element with literal names. -/
macro "wf_el" : tactic => `(tactic|
  refine wellFormed_el (by decide +kernel)
    (by simp only [List.forall_mem_cons, List.not_mem_nil, false_imp_iff, implies_true, and_true]; try decide +kernel)
    (by
      simp only [List.forall_mem_cons, List.not_mem_nil, false_imp_iff, implies_true, and_true, noReference_formatE,
        noReference_printInt]
      try simp only [true_and, and_true]
      try first | assumption | decide +kernel)
    (by simp only [List.map_cons, List.map_nil]; decide +kernel) ?_)

end Gear.Xml
