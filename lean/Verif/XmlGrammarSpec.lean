/-
Which files are accepted by `TiXmlDocument::LoadFile` and what is read from them, as a grammar (C130, C100).

A text is written as what stands there followed by the rest of the file: `R … p … q` says that between `p` and its end `q`
there stands an R.
-/
import Verif.Xml

set_option autoImplicit false
set_option linter.unusedSectionVars false

namespace Gear.Xml.Grammar

/-! ### White space and names -/

/-- White space. -/
def Space (c : Char) : Prop := c ∈ [' ', '\t', '\n', '\x0b', '\x0c', '\r']

/-- The byte order mark in UTF-8 and the codes FFFE and FFFF, which are skipped like white space. -/
def Mark (b : Text) : Prop :=
  b.map Char.toNat = [0xef, 0xbb, 0xbf] ∨ b.map Char.toNat = [0xef, 0xbf, 0xbe] ∨ b.map Char.toNat = [0xef, 0xbf, 0xbf]

/-- White space, and in UTF-8 marks. -/
inductive Blanks (enc : Enc) : Text → Text → Prop
  | none (q : Text) : Blanks enc q q
  | space (c : Char) (p q : Text) : Space c → Blanks enc p q → Blanks enc (c :: p) q
  | mark (m p q : Text) : enc = .utf8 → Mark m → Blanks enc p q → Blanks enc (m ++ p) q

/-- All the white space there is, before the end of the file. -/
def Gap (enc : Enc) (p q : Text) : Prop :=
  p ≠ [] ∧ Blanks enc p q ∧ (∀ c r, q = c :: r → ¬ Space c) ∧ (enc = .utf8 → ∀ m r, q = m ++ r → ¬ Mark m)

/-- What a name can begin with. -/
def NameStart (c : Char) : Prop := c.isAlpha = true ∨ c = '_' ∨ 127 ≤ c.toNat

/-- What a name consists of. -/
def NameChar (c : Char) : Prop := c.isAlphanum = true ∨ c = '_' ∨ c = '-' ∨ c = '.' ∨ c = ':' ∨ 127 ≤ c.toNat

/-- A name. -/
def Name (p name q : Text) : Prop :=
  p = name ++ q ∧ (∃ c r, name = c :: r ∧ NameStart c) ∧ (∀ c ∈ name, NameChar c) ∧ ∀ c r, q = c :: r → ¬ NameChar c

/-! ### Characters and references -/

/-- The number of bytes of the character that begins with `c`: in UTF-8 it is told by the first byte. -/
def width (enc : Enc) (c : Char) : ℕ :=
  match enc with
  | .utf8 =>
    if 0xc2 ≤ c.toNat ∧ c.toNat ≤ 0xdf then 2 else if 0xe0 ≤ c.toNat ∧ c.toNat ≤ 0xef then 3
    else if 0xf0 ≤ c.toNat ∧ c.toNat ≤ 0xf4 then 4 else 1
  | _ => 1

/-- The five entities. -/
def entityNames : List (Text × Char) :=
  [("amp".toList, '&'), ("lt".toList, '<'), ("gt".toList, '>'), ("quot".toList, '"'), ("apos".toList, '\'')]

/-- The value of a digit. -/
def digit (base : ℕ) (c : Char) : Option ℕ :=
  if '0' ≤ c ∧ c ≤ '9' then some (c.toNat - '0'.toNat)
  else if base = 16 ∧ 'a' ≤ c ∧ c ≤ 'f' then some (c.toNat - 'a'.toNat + 10)
  else if base = 16 ∧ 'A' ≤ c ∧ c ≤ 'F' then some (c.toNat - 'A'.toNat + 10)
  else none

/-- The number spelt by some digits.  Factors and products are taken modulo 2 to the 32: up to eight hexadecimal and nine
decimal digits this is the usual value. -/
def number (base : ℕ) : Text → Option ℕ
  | [] => some 0
  | c :: cs => do
    let d ← digit base c
    let n ← number base cs
    some (base ^ cs.length % 2 ^ 32 * d % 2 ^ 32 + n)

/-- The number of a reference: digits, which may be preceded by anything that ends in `sep` (which is a flaw of the
library). -/
def RefNumber (base : ℕ) (sep : Char) (body : Text) (n : ℕ) : Prop :=
  ∃ before digits, body = before ++ digits ∧ (before = [] ∨ ∃ b, before = b ++ [sep]) ∧ number base digits = some n

/-- A code in UTF-8; nothing for codes of more than 21 bits. -/
def utf8 (n : ℕ) : Text :=
  (if n < 0x80 then [n]
  else if n < 0x800 then [0xc0 + n / 64, 0x80 + n % 64]
  else if n < 0x10000 then [0xe0 + n / 64 / 64, 0x80 + n / 64 % 64, 0x80 + n % 64]
  else if n < 0x200000 then [0xf0 + n / 64 / 64 / 64, 0x80 + n / 64 / 64 % 64, 0x80 + n / 64 % 64, 0x80 + n % 64]
  else []).map Char.ofNat

/-- What a reference stands for: outside UTF-8 one byte. -/
def coded (enc : Enc) (n : ℕ) : Text :=
  match enc with
  | .utf8 => utf8 n
  | _ => [Char.ofNat (n % 256)]

/-- A character or a reference, and what it stands for. -/
inductive Piece (enc : Enc) : Text → Text → Text → Prop
  | char (c : Char) (s q : Text) : c ≠ '&' → (c :: s).length = width enc c → Piece enc (c :: s ++ q) (c :: s) q
  | entity (name : Text) (c : Char) (q : Text) : (name, c) ∈ entityNames → Piece enc ('&' :: name ++ ';' :: q) [c] q
  | hex (body : Text) (n : ℕ) (q : Text) : ';' ∉ body → RefNumber 16 'x' body n →
      Piece enc ('&' :: '#' :: 'x' :: body ++ ';' :: q) (coded enc n) q
  | decimal (body : Text) (n : ℕ) (q : Text) : ';' ∉ body → (∀ r, body ≠ 'x' :: r) → RefNumber 10 '#' body n →
      Piece enc ('&' :: '#' :: body ++ ';' :: q) (coded enc n) q
  /-- any other ampersand is left out -/
  | stray (q : Text) : (∀ c r, q ≠ '#' :: c :: r) → (∀ e ∈ entityNames, ∀ r, q ≠ e.1 ++ ';' :: r) →
      Piece enc ('&' :: q) [] q

/-- Characters and references up to the first `stop`, and what they stand for. -/
inductive Upto (enc : Enc) (stop : Text) : Text → Text → Text → Prop
  | stop (q : Text) : Upto enc stop (stop ++ q) [] q
  | piece (p v p' vs q : Text) : ¬ stop <+: p → Piece enc p v p' → Upto enc stop p' vs q → Upto enc stop p (v ++ vs) q

/-- Characters and references up to a `<` or the end of the file, with one blank for white space between them.  `w`: white
space precedes. -/
inductive Condensed (enc : Enc) : Bool → Text → Text → Text → Prop
  | stop (w : Bool) (q : Text) : (q = [] ∨ ∃ r, q = '<' :: r) → Condensed enc w q [] q
  | space (w : Bool) (c : Char) (p v q : Text) : Space c → Condensed enc true p v q → Condensed enc w (c :: p) v q
  | piece (w : Bool) (c : Char) (r v p' vs q : Text) : ¬ Space c → c ≠ '<' → Piece enc (c :: r) v p' →
      Condensed enc false p' vs q → Condensed enc w (c :: r) ((if w then [' '] else []) ++ v ++ vs) q

/-! ### Tags -/

/-- The beginning of an attribute: a name and `=`, up to its value. -/
def AttrStart (enc : Enc) (p name q : Text) : Prop :=
  ∃ p₁ p₂ p₃, Gap enc p p₁ ∧ Name p₁ name p₂ ∧ Gap enc p₂ ('=' :: p₃) ∧ Gap enc p₃ q ∧ q ≠ []

/-- The value of an attribute, in quotes of either kind or else up to white space, `/` or `>`. -/
inductive Value (enc : Enc) : Text → Text → Text → Prop
  | single (p v q : Text) : Upto enc ['\''] p v q → Value enc ('\'' :: p) v q
  | double (p v q : Text) : Upto enc ['"'] p v q → Value enc ('"' :: p) v q
  | bare (v q : Text) : (∀ r, v ++ q ≠ '\'' :: r) → (∀ r, v ++ q ≠ '"' :: r) → (∀ c ∈ v, ¬ Space c ∧ c ≠ '/' ∧ c ≠ '>') →
      (∀ c r, q = c :: r → Space c ∨ c = '/' ∨ c = '>') → Value enc (v ++ q) v q

/-- An attribute. -/
def Attr (enc : Enc) (p name value q : Text) : Prop := ∃ p₁, AttrStart enc p name p₁ ∧ Value enc p₁ value q

/-- One attribute of a tag. -/
def OneAttr (enc : Enc) (p name value q : Text) : Prop :=
  ∃ p₁, Gap enc p p₁ ∧ (∀ r, p₁ ≠ '/' :: r) ∧ (∀ r, p₁ ≠ '>' :: r) ∧ Attr enc p₁ name value q ∧ q ≠ []

/-- The rest of a tag behind the attributes `a`, with all attributes and whether it ends in `/>`.  No name occurs twice. -/
inductive Tag (enc : Enc) : List (Text × Text) → Text → List (Text × Text) → Bool → Text → Prop
  | close (a : List (Text × Text)) (p q : Text) : Gap enc p ('/' :: '>' :: q) → Tag enc a p a true q
  | «open» (a : List (Text × Text)) (p q : Text) : Gap enc p ('>' :: q) → Tag enc a p a false q
  | attr (a : List (Text × Text)) (p n v p' : Text) (b : List (Text × Text)) (c : Bool) (q : Text) : OneAttr enc p n v p' →
      n ∉ a.map Prod.fst → Tag enc (a ++ [(n, v)]) p' b c q → Tag enc a p b c q

/-- The rest of a tag up to an attribute whose name has occurred before: the earlier one takes its value. -/
inductive Repeats (enc : Enc) : List (Text × Text) → Text → List (Text × Text) → Prop
  | here (a : List (Text × Text)) (p n v p' : Text) : OneAttr enc p n v p' → n ∈ a.map Prod.fst →
      Repeats enc a p (a.map fun x => if x.1 = n then (n, v) else x)
  | later (a : List (Text × Text)) (p n v p' : Text) (b : List (Text × Text)) : OneAttr enc p n v p' → n ∉ a.map Prod.fst →
      Repeats enc (a ++ [(n, v)]) p' b → Repeats enc a p b

/-- `<` and the name of an element. -/
def Start (enc : Enc) (p name q : Text) : Prop :=
  ∃ c r p₁, p = '<' :: c :: r ∧ NameStart c ∧ Gap enc (c :: r) p₁ ∧ Name p₁ name q ∧ q ≠ []

/-- A start tag, or a tag of an element without content. -/
def StartTag (enc : Enc) (p name : Text) (attrs : List (Text × Text)) (closed : Bool) (q : Text) : Prop :=
  ∃ p₁, Start enc p name p₁ ∧ Tag enc [] p₁ attrs closed q

/-! ### Declarations, comments and unknown nodes -/

/-- Whether the text begins with the word, in upper or lower case. -/
def Begins (word p : Text) : Prop := (p.take word.length).map Char.toLower = word

/-- The three fields of a declaration. -/
structure Declaration where
  version : Text := []
  encoding : Text := []
  standalone : Text := []

/-- The fields with one of them changed. -/
inductive Declaration.Set (d : Declaration) (v : Text) : Text → Declaration → Prop
  | version : Declaration.Set d v "version".toList { d with version := v }
  | encoding : Declaration.Set d v "encoding".toList { d with encoding := v }
  | standalone : Declaration.Set d v "standalone".toList { d with standalone := v }

/-- The body of a declaration, up to `>`; or up to the end of the file or something else than an attribute (then `none`). -/
inductive DeclBody (enc : Enc) : Declaration → Text → Declaration → Option Text → Prop
  | close (d : Declaration) (q : Text) : DeclBody enc d ('>' :: q) d (some q)
  | «end» (d : Declaration) : DeclBody enc d [] d none
  | field (d : Declaration) (p p₁ word n v : Text) (d₁ : Declaration) (p₂ : Text) (d₂ : Declaration) (r : Option Text) :
      (∀ t, p ≠ '>' :: t) → Gap enc p p₁ → Begins word p₁ → Attr enc p₁ n v p₂ → d.Set v word d₁ →
      DeclBody enc d₁ p₂ d₂ r → DeclBody enc d p d₂ r
  | broken (d : Declaration) (p p₁ word : Text) (d₁ : Declaration) : (∀ t, p ≠ '>' :: t) → Gap enc p p₁ →
      Begins word p₁ → (∀ n q, ¬ AttrStart enc p₁ n q) → d.Set [] word d₁ → DeclBody enc d p d₁ none
  | word (d : Declaration) (p w p₂ : Text) (d₂ : Declaration) (r : Option Text) : (∀ t, p ≠ '>' :: t) →
      Gap enc p (w ++ p₂) → w ++ p₂ ≠ [] → ¬ Begins "version".toList (w ++ p₂) → ¬ Begins "encoding".toList (w ++ p₂) →
      ¬ Begins "standalone".toList (w ++ p₂) → (∀ c ∈ w, ¬ Space c ∧ c ≠ '>') →
      (∀ c t, p₂ = c :: t → Space c ∨ c = '>') → DeclBody enc d p₂ d₂ r → DeclBody enc d p d₂ r

/-- A node that is no element and no text. -/
inductive Other (enc : Enc) : Text → Node → Option Text → Prop
  | declaration (p : Text) (d : Declaration) (r : Option Text) : Begins "<?xml".toList p → DeclBody enc {} (p.drop 5) d r →
      Other enc p (.declaration d.version d.encoding d.standalone) r
  | comment (p v q : Text) : Upto enc "-->".toList p v q → Other enc ("<!--".toList ++ p) (.comment v) (some q)
  /-- `<…>` or, at the end of the file, `<…` -/
  | unknown (v t : Text) : (∀ c r, v ++ t = c :: r → ¬ NameStart c) → ¬ Begins "<?xml".toList ('<' :: v ++ t) →
      ¬ "!--".toList <+: v ++ t → '>' ∉ v → (t = [] ∨ ∃ q, t = '>' :: q) →
      Other enc ('<' :: v ++ t) (.unknown v) (some (t.drop 1))

/-! ### Content and files -/

/-- Content of an element: up to `</`, or up to the end of the file behind white space.  Every element in it is closed by
the end tag of its name. -/
inductive Content (enc : Enc) : Text → List Node → Text → Prop
  | stop (q : Text) : Content enc ('<' :: '/' :: q) [] ('<' :: '/' :: q)
  | «end» : Content enc [] [] []
  | text (c : Char) (p v p' : Text) (ns : List Node) (q : Text) : c ≠ '<' → Condensed enc false (c :: p) v p' → p' ≠ [] →
      (∃ d ∈ v, ¬ Space d) → Content enc p' ns q → Content enc (c :: p) (.text v :: ns) q
  /-- text that stands for nothing or for white space, as `&#32;` -/
  | noText (c : Char) (p v p' : Text) (ns : List Node) (q : Text) : c ≠ '<' → Condensed enc false (c :: p) v p' → p' ≠ [] →
      (∀ d ∈ v, Space d) → Content enc p' ns q → Content enc (c :: p) ns q
  | other (p : Text) (n : Node) (p₁ p₂ : Text) (ns : List Node) (q : Text) : ¬ ['<', '/'] <+: p → Other enc p n (some p₁) →
      Gap enc p₁ p₂ → Content enc p₂ ns q → Content enc p (n :: ns) q
  | empty (p name : Text) (attrs : List (Text × Text)) (p₁ p₂ : Text) (ns : List Node) (q : Text) :
      StartTag enc p name attrs true p₁ → Gap enc p₁ p₂ → Content enc p₂ ns q →
      Content enc p (.element name attrs [] :: ns) q
  | element (p name : Text) (attrs : List (Text × Text)) (p₁ p₂ : Text) (children : List Node) (p₃ p₄ : Text)
      (ns : List Node) (q : Text) :
      StartTag enc p name attrs false p₁ → Gap enc p₁ p₂ → Content enc p₂ children ('<' :: '/' :: name ++ '>' :: p₃) →
      Gap enc p₃ p₄ → Content enc p₄ ns q → Content enc p (.element name attrs children :: ns) q

/-- A complete node. -/
inductive Complete (enc : Enc) : Text → Node → Text → Prop
  | other (p : Text) (n : Node) (q : Text) : Other enc p n (some q) → Complete enc p n q
  | empty (p name : Text) (attrs : List (Text × Text)) (q : Text) : StartTag enc p name attrs true q →
      Complete enc p (.element name attrs []) q
  | element (p name : Text) (attrs : List (Text × Text)) (p₁ p₂ : Text) (children : List Node) (q : Text) :
      StartTag enc p name attrs false p₁ → Gap enc p₁ p₂ → Content enc p₂ children ('<' :: '/' :: name ++ '>' :: q) →
      Complete enc p (.element name attrs children) q

/-- The encoding behind a node: a declaration settles it. -/
inductive Encoding : Enc → Node → Enc → Prop
  | settled (enc : Enc) (n : Node) : enc ≠ .unknown → Encoding enc n enc
  | other (n : Node) : (∀ v e s, n ≠ .declaration v e s) → Encoding .unknown n .unknown
  | utf8 (v e s : Text) : (e = [] ∨ Begins "utf-8".toList e ∨ Begins "utf8".toList e) →
      Encoding .unknown (.declaration v e s) .utf8
  | legacy (v e s : Text) : e ≠ [] → ¬ Begins "utf-8".toList e → ¬ Begins "utf8".toList e →
      Encoding .unknown (.declaration v e s) .legacy

/-- A file from its first node on.  Only the last node may be incomplete: an element without end tag, one with a
repeated attribute or a broken declaration. -/
inductive Nodes : Enc → Text → List Node → Prop
  | «end» (enc : Enc) : Nodes enc [] []
  /-- behind anything that is no node the file is not read -/
  | rest (enc : Enc) (c : Char) (p : Text) : c ≠ '<' → Nodes enc (c :: p) []
  | node (enc : Enc) (p : Text) (n : Node) (p₁ : Text) (enc' : Enc) (p₂ : Text) (ns : List Node) : Complete enc p n p₁ →
      Encoding enc n enc' → Gap enc' p₁ p₂ → Nodes enc' p₂ ns → Nodes enc p (n :: ns)
  | last (enc : Enc) (p : Text) (n : Node) : Complete enc p n [] → Nodes enc p [n]
  | unclosed (enc : Enc) (p name : Text) (attrs : List (Text × Text)) (p₁ p₂ : Text) (children : List Node) :
      StartTag enc p name attrs false p₁ → Gap enc p₁ p₂ → Content enc p₂ children [] →
      Nodes enc p [.element name attrs children]
  | repeated (enc : Enc) (p name p₁ : Text) (attrs : List (Text × Text)) : Start enc p name p₁ → Repeats enc [] p₁ attrs →
      Nodes enc p [.element name attrs []]
  | declaration (enc : Enc) (p : Text) (n : Node) : Other enc p n none → Nodes enc p [n]

/-- The encoding told by a byte order mark. -/
inductive First : Text → Enc → Prop
  | mark (m p : Text) : m.map Char.toNat = [0xef, 0xbb, 0xbf] → First (m ++ p) .utf8
  | none (p : Text) : (∀ m q, p = m ++ q → m.map Char.toNat ≠ [0xef, 0xbb, 0xbf]) → First p .unknown

/-- A file and the nodes in it, of which there is at least one. -/
def File (file : Text) (nodes : List Node) : Prop :=
  ∃ enc p, First file enc ∧ Gap enc file p ∧ Nodes enc p nodes ∧ nodes ≠ []

/-- From `p` on there are complete nodes up to `q`. -/
inductive Before : Enc → Text → Enc → Text → Prop
  | none (enc : Enc) (p : Text) : Before enc p enc p
  | node (enc : Enc) (p : Text) (n : Node) (p₁ : Text) (enc₁ : Enc) (p₂ : Text) (enc₂ : Enc) (q : Text) : Complete enc p n p₁ →
      Encoding enc n enc₁ → Gap enc₁ p₁ p₂ → Before enc₁ p₂ enc₂ q → Before enc p enc₂ q

/-- From `p` on there are complete nodes and texts up to `q`, in an element. -/
inductive Siblings (enc : Enc) : Text → Text → Prop
  | none (p : Text) : Siblings enc p p
  | text (c : Char) (p v p' q : Text) : c ≠ '<' → Condensed enc false (c :: p) v p' → p' ≠ [] → Siblings enc p' q →
      Siblings enc (c :: p) q
  | node (p : Text) (n : Node) (p₁ p₂ q : Text) : ¬ ['<', '/'] <+: p → Complete enc p n p₁ → Gap enc p₁ p₂ →
      Siblings enc p₂ q → Siblings enc p q

/-- The start tag of an element that is not in another one, and what follows it. -/
def TopStart (file : Text) (enc : Enc) (p name : Text) (attrs : List (Text × Text)) (q : Text) : Prop :=
  ∃ enc₀ p₀, First file enc₀ ∧ Gap enc₀ file p₀ ∧ Before enc₀ p₀ enc p ∧ StartTag enc p name attrs false q

end Gear.Xml.Grammar
