/-
Model of `gear::ConstantBFieldXML` (src/gearxml/ConstantBFieldXML.cc) and `gear::SimpleMaterialXML`
(src/gearxml/SimpleMaterialXML.cc).
-/
import Verif.XmlRead
import Verif.Vector3D

set_option autoImplicit false
set_option linter.unusedSectionVars false

namespace Gear.Xml

/-- `ConstantBField`, include/gear/gearimpl/ConstantBField.h: the field, which `at` returns for all points, and the parameters. -/
structure BField where
  b : Vector3D.V3 ℚ
  params : Params ℚ

/-- `toXML`, ConstantBFieldXML.cc lines 15-39. -/
def bFieldToXML (f : BField) : Res Node := do
  let ps ← getXMLForParameters f.params
  .ok (el "BField" [("type", "ConstantBField".toList), ("x", formatE f.b.x), ("y", formatE f.b.y), ("z", formatE f.b.z)] ps)

/-- `fromXML`, ConstantBFieldXML.cc lines 41-61, without the registration in the manager. -/
def bFieldFromXML (e : Node) : Res BField := do
  let bx ← num (some e) "x"
  let by' ← num (some e) "y"
  let bz ← num (some e) "z"
  let p ← setParametersFromXML e {}
  .ok ⟨⟨bx, by', bz⟩, p⟩

/-- `SimpleMaterialImpl`, include/gear/gearimpl/SimpleMaterialImpl.h. -/
structure Material where
  name : String
  a : ℚ
  z : ℚ
  density : ℚ
  radLength : ℚ
  intLength : ℚ
deriving DecidableEq

/-- `toXML`, SimpleMaterialXML.cc lines 14-28. -/
def materialToXML (m : Material) : Node :=
  el "material" [("name", m.name.toList), ("A", formatE m.a), ("Z", formatE m.z), ("density", formatE m.density),
    ("radLength", formatE m.radLength), ("intLength", formatE m.intLength)] []

/-- The sign in front of a number in a stream. -/
def scanSign : Text → Text × Text
  | '-' :: t => (['-'], t)
  | '+' :: t => (['+'], t)
  | t => ([], t)

/-- The fraction with its decimal point. -/
def scanFraction : Text → Text × Text
  | '.' :: t => ('.' :: t.takeWhile isDigit, t.dropWhile isDigit)
  | t => ([], t)

/-- The exponent: true if it is absent or has a digit. -/
def scanExponent : Text → Bool × Text × Text
  | c :: t =>
    if c = 'e' || c = 'E' then
      let s := scanSign t
      (s.2.takeWhile isDigit ≠ [], c :: s.1 ++ s.2.takeWhile isDigit, s.2.dropWhile isDigit)
    else (true, [], c :: t)
  | [] => (true, [], [])

/-- `stream >> number`: white space is skipped, then the characters that can belong to a number are taken; if they are not one,
the result is zero.  The remaining characters stay in the stream.  (The C++ standard, as in libstdc++.) -/
def streamRead (buffer : Text) : ℚ × Text :=
  let s := scanSign (buffer.dropWhile isSpace)
  let whole := s.2.takeWhile isDigit
  let f := scanFraction (s.2.dropWhile isDigit)
  if whole = [] ∧ f.1.length ≤ 1 then (0, f.2)
  else
    let x := scanExponent f.2
    (if x.1 then atof (s.1 ++ whole ++ f.1 ++ x.2.1) else 0, x.2.2)

/-- `fromXML`, SimpleMaterialXML.cc lines 32-69, without the registration in the manager: one stream is used for all numbers, so
that what the first does not take is in front of the second. -/
def materialFromXML (e : Node) : Res Material := do
  let name ← getXMLAttribute e "name"
  let t ← getXMLAttribute e "A"
  let a := streamRead t
  let t ← getXMLAttribute e "Z"
  let z := streamRead (a.2 ++ t)
  let t ← getXMLAttribute e "density"
  let d := streamRead (z.2 ++ t)
  let t ← getXMLAttribute e "radLength"
  let rl := streamRead (d.2 ++ t)
  let t ← getXMLAttribute e "intLength"
  let il := streamRead (rl.2 ++ t)
  .ok ⟨str name, a.1, z.1, d.1, rl.1, il.1⟩

end Gear.Xml
