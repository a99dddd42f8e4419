/-
Model of `gear::GearParametersXML` and its `Tokenizer` (src/gearxml/GearParametersXML.cc): writing and reading a collection of
named parameters.
-/
import Verif.XmlUtil
import Verif.Params

set_option autoImplicit false
set_option linter.unusedSectionVars false

namespace Gear.Xml

/-- The members of `Tokenizer`, lines 28-36: the tokens and the last character. -/
structure Tokenizer where
  tokens : List Text
  last : Char

/-- `_tokens.back() += c`; the vector is not empty there. -/
def appendBack : List Text → Char → List Text
  | [], _ => []
  | [t], c => [t ++ [c]]
  | t :: ts, c => t :: appendBack ts c

/-- `operator()`, lines 39-51. -/
def Tokenizer.step (del : Char) (t : Tokenizer) (c : Char) : Tokenizer :=
  let tokens :=
    if c ≠ del then
      let tokens := if t.last = del then t.tokens ++ [[]] else t.tokens
      appendBack tokens c
    else t.tokens
  ⟨tokens, c⟩

/-- `for_each` with a new `Tokenizer`, lines 240-244. -/
def tokenize (del : Char) (value : Text) : List Text := (value.foldl (Tokenizer.step del) ⟨[], del⟩).tokens

/-- The vector written with blanks between its elements, lines 154-160, 176-185 and 201-207. -/
def joinBlank : List Text → Text
  | [] => []
  | [t] => t
  | t :: ts => t ++ ' ' :: joinBlank ts

/-- One `<parameter>`, lines 108-112 and the five copies. -/
def paramNode (key : String) (type : String) (value : Text) : Node :=
  el "parameter" [("name", key.toList), ("type", type.toList), ("value", value)] []

/-- One of the six loops: for each key the value is looked up again. -/
def paramNodes {α : Type} (keys : List String) (get : String → Res α) (type : String) (text : α → Text) : Res (List Node) :=
  keys.mapM fun k => do
    let v ← get k
    .ok (paramNode k type (text v))

/-- `getXMLForParameters`, lines 96-214, for pointers that are not null: the children appended. -/
def getXMLForParameters (p : Params ℚ) : Res (List Node) := do
  let i ← paramNodes p.getIntKeys.intKeys p.getIntVal "int" printInt
  let d ← paramNodes p.getDoubleKeys.doubleKeys p.getDoubleVal "double" formatE
  let s ← paramNodes p.getStringKeys.stringKeys p.getStringVal "string" String.toList
  let iv ← paramNodes p.getIntVecKeys.intVecKeys p.getIntVals "IntVec" fun v => joinBlank (v.map printInt)
  let dv ← paramNodes p.getDoubleVecKeys.doubleVecKeys p.getDoubleVals "DoubleVec" fun v => joinBlank (v.map formatE)
  let sv ← paramNodes p.getStringVecKeys.stringVecKeys p.getStringVals "StringVec" fun v => joinBlank (v.map String.toList)
  .ok (i ++ d ++ s ++ iv ++ dv ++ sv)

/-- The value of a parameter, lines 227-238. -/
def paramValue (par : Node) : Text :=
  match getXMLAttribute par "value" with
  | .ok v => v
  | _ => match par.children with
    | [] => []
    | c :: _ => c.value

/-- The body of the loop, lines 221-289. -/
def readParam (p : Params ℚ) (par : Node) : Res (Params ℚ) :=
  match tokenize ' ' (paramValue par) with
  | [] => .ok p
  | t :: ts => do
    let name ← getXMLAttribute par "name"
    let type ← getXMLAttribute par "type"
    if type = "int".toList then .ok (p.setIntVal (str name) (atoi t))
    else if type = "double".toList then .ok (p.setDoubleVal (str name) (atof t))
    else if type = "string".toList then .ok (p.setStringVal (str name) (str t))
    else if type = "IntVec".toList then .ok (p.setIntVals (str name) ((t :: ts).map atoi))
    else if type = "DoubleVec".toList then .ok (p.setDoubleVals (str name) ((t :: ts).map atof))
    else if type = "StringVec".toList then .ok (p.setStringVals (str name) ((t :: ts).map str))
    else .ok p

/-- `setParametersFromXML`, lines 216-292. -/
def setParametersFromXML (n : Node) (p : Params ℚ) : Res (Params ℚ) := (n.named "parameter").foldlM readParam p

/-- `GearParametersXML::toXML`, lines 63-72. -/
def paramsToXML (p : Params ℚ) : Res Node := do
  let cs ← getXMLForParameters p
  .ok (el "detector" [] cs)

end Gear.Xml
