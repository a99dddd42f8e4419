/-
Specification for saving and loading (C57, C135): which documents are to survive, in which encoding.
-/
import Verif.XmlSpec
import Verif.XmlGrammarSpec

set_option autoImplicit false
set_option linter.unusedSectionVars false

namespace Gear.Xml.Save

open Grammar (Mark width)
open Spec (ValidName NoReference NoTwoTexts)

/-- The characters of several bytes in UTF-8 are complete: a byte that begins such a character is followed by as many continuation bytes
as belong to it. -/
def Signs (t : Text) : Prop :=
  ∀ a c b, t = a ++ c :: b → ∃ s r, b = s ++ r ∧ (c :: s).length = width .utf8 c ∧ ∀ x ∈ s, 0x80 ≤ x.toNat ∧ x.toNat ≤ 0xbf

/-- The text does not begin with a byte order mark or one of the codes FFFE and FFFF. -/
def NoMark (t : Text) : Prop := ∀ m, Mark m → ¬ m <+: t

/-- A text without superfluous white space: it neither begins nor ends with a blank and has no two together.  It does not consist of white
space alone. -/
def TidyText (v : Text) : Prop :=
  (∀ t, v ≠ ' ' :: t) ∧ (∀ t, v ≠ t ++ [' ']) ∧ ¬ [' ', ' '] <:+: v ∧ ∃ c ∈ v, ¬ Grammar.Space c

mutual
/-- The nodes that survive.  `utf8`: in UTF-8; `field`: the fields of declarations that survive. -/
def Survives (utf8 : Prop) (field : Text → Prop) : Node → Prop
  | .element name attrs children =>
    ValidName name ∧ (utf8 → NoMark name) ∧
      (∀ a ∈ attrs, ValidName a.1 ∧ (utf8 → NoMark a.1) ∧ NoReference a.2 ∧ (utf8 → Signs a.2)) ∧ (attrs.map Prod.fst).Nodup ∧
      AllSurvive utf8 field children ∧ NoTwoTexts children ∧ ∀ v, .unknown ('/' :: v) ∉ children
  | .text v => TidyText v ∧ NoReference v ∧ (utf8 → Signs v ∧ NoMark v)
  | .comment v => '&' ∉ v ∧ ¬ "-->".toList <:+: v ∧ (utf8 → Signs v)
  | .unknown v => '>' ∉ v ∧ (∀ c r, v = c :: r → ¬ (c.isAlpha = true ∨ c = '_' ∨ 127 ≤ c.toNat)) ∧ ¬ "!--".toList <+: v ∧
      ¬ Grammar.Begins "?xml".toList v
  | .declaration v e s => ∀ x ∈ [v, e, s], field x ∧ (utf8 → Signs x)
/-- All of them. -/
def AllSurvive (utf8 : Prop) (field : Text → Prop) : List Node → Prop
  | [] => True
  | n :: ns => Survives utf8 field n ∧ AllSurvive utf8 field ns
end

/-- The nodes of a document survive: there are no texts outside of elements, and from a declaration of UTF-8 on they are in UTF-8. -/
def DocumentSurvives (field : Text → Prop) : Enc → List Node → Prop
  | _, [] => True
  | enc, n :: ns => n.isText = false ∧ Survives (enc = .utf8) field n ∧ ∃ enc', Grammar.Encoding enc n enc' ∧ DocumentSurvives field enc' ns

mutual
/-- No field of a declaration contains a double quote. -/
def NoQuotes : Node → Prop
  | .declaration v e s => '"' ∉ v ∧ '"' ∉ e ∧ '"' ∉ s
  | .element _ _ children => AllNoQuotes children
  | _ => True
/-- None of them. -/
def AllNoQuotes : List Node → Prop
  | [] => True
  | n :: ns => NoQuotes n ∧ AllNoQuotes ns
end

/-- A byte order mark or a declaration says that the file is in UTF-8. -/
def SaysUtf8 (file : Text) (nodes : List Node) : Prop :=
  (∃ m q, file = m ++ q ∧ m.map Char.toNat = [0xef, 0xbb, 0xbf]) ∨
    ∃ v e s, .declaration v e s ∈ nodes ∧ (e = [] ∨ Grammar.Begins "utf-8".toList e ∨ Grammar.Begins "utf8".toList e)

/-- Every ampersand begins one of the five entities, and none of them is `&amp;` with `#x` behind it. -/
def References (t : Text) : Prop :=
  ∀ a b, t = a ++ '&' :: b → ∃ e ∈ Grammar.entityNames, ∃ r, b = e.1 ++ ';' :: r ∧ (e.2 = '&' → ¬ ['#', 'x'] <+: r)

mutual
/-- What is not escaped in files: comments and the fields of declarations without ampersands, and no end of a comment in a comment. -/
def Unescaped : Node → Prop
  | .comment v => '&' ∉ v ∧ ¬ "-->".toList <:+: v
  | .declaration v e s => '&' ∉ v ∧ '&' ∉ e ∧ '&' ∉ s
  | .element _ _ children => AllUnescaped children
  | _ => True
/-- All of them. -/
def AllUnescaped : List Node → Prop
  | [] => True
  | n :: ns => Unescaped n ∧ AllUnescaped ns
end

/-- The fields of declarations that survive in files, where they are not escaped. -/
def PlainField (v : Text) : Prop := '"' ∉ v ∧ '&' ∉ v

end Gear.Xml.Save
