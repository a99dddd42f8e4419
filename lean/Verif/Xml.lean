/-
Model of the XML library that comes with GEAR (tinyxml): the tree, `TiXmlElement::SetAttribute` and its readers, printing to
a file and parsing a file.

Sources in src/gearxml: tinyxml.cc ("cc"), tinyxmlparser.cc ("parser") and include/gear/gearxml/tinyxml.h ("h").

Simplifications.  A byte is a `Char` (of code below 256); texts are lists of them.  A pointer into the text is the part of
the text from there on, the pointer to the terminating zero is the empty list and the null pointer `none`.  The text of a
file has no zero byte in it.  Rows and columns (`TiXmlParsingData`) are not modelled here but in XmlPlace.lean, `userData` nowhere; of the
document's error only whether there is one.  The global `condenseWhiteSpace` has its default, `true` (cc line 46), which
nothing in GEAR changes.  Allocation succeeds.
-/
import Verif.Basic

set_option autoImplicit false
set_option linter.unusedSectionVars false

namespace Gear.Xml

/-- A text: bytes. -/
abbrev Text := List Char

/-- `TiXmlEncoding`, h lines 112-117. -/
inductive Enc where
  | unknown
  | utf8
  | legacy
deriving DecidableEq, Repr

/-- `TiXmlNode` and its subclasses, h lines 390-1110, with the attributes of an element in the order of its
`TiXmlAttributeSet`. -/
inductive Node where
  | element (name : Text) (attrs : List (Text × Text)) (children : List Node)
  | comment (value : Text)
  | unknown (value : Text)
  | text (value : Text)
  | declaration (version encoding standalone : Text)

mutual
/-- Equality of nodes can be decided. -/
def Node.decEq : (a b : Node) → Decidable (a = b)
  | .element n₁ a₁ c₁, .element n₂ a₂ c₂ =>
    if hn : n₁ = n₂ then
      if ha : a₁ = a₂ then
        match Node.decEqList c₁ c₂ with
        | isTrue hc => isTrue (by rw [hn, ha, hc])
        | isFalse hc => isFalse (by intro h; injection h with _ _ h; exact hc h)
      else isFalse (by intro h; injection h with _ h _; exact ha h)
    else isFalse (by intro h; injection h with h _ _; exact hn h)
  | .comment v₁, .comment v₂ =>
    if h : v₁ = v₂ then isTrue (by rw [h]) else isFalse (by intro h'; injection h' with h'; exact h h')
  | .unknown v₁, .unknown v₂ =>
    if h : v₁ = v₂ then isTrue (by rw [h]) else isFalse (by intro h'; injection h' with h'; exact h h')
  | .text v₁, .text v₂ =>
    if h : v₁ = v₂ then isTrue (by rw [h]) else isFalse (by intro h'; injection h' with h'; exact h h')
  | .declaration v₁ e₁ s₁, .declaration v₂ e₂ s₂ =>
    if h : v₁ = v₂ ∧ e₁ = e₂ ∧ s₁ = s₂ then isTrue (by rw [h.1, h.2.1, h.2.2])
    else isFalse (by intro h'; injection h' with h1 h2 h3; exact h ⟨h1, h2, h3⟩)
  | .element .., .comment _ => isFalse (by simp)
  | .element .., .unknown _ => isFalse (by simp)
  | .element .., .text _ => isFalse (by simp)
  | .element .., .declaration .. => isFalse (by simp)
  | .comment _, .element .. => isFalse (by simp)
  | .comment _, .unknown _ => isFalse (by simp)
  | .comment _, .text _ => isFalse (by simp)
  | .comment _, .declaration .. => isFalse (by simp)
  | .unknown _, .element .. => isFalse (by simp)
  | .unknown _, .comment _ => isFalse (by simp)
  | .unknown _, .text _ => isFalse (by simp)
  | .unknown _, .declaration .. => isFalse (by simp)
  | .text _, .element .. => isFalse (by simp)
  | .text _, .comment _ => isFalse (by simp)
  | .text _, .unknown _ => isFalse (by simp)
  | .text _, .declaration .. => isFalse (by simp)
  | .declaration .., .element .. => isFalse (by simp)
  | .declaration .., .comment _ => isFalse (by simp)
  | .declaration .., .unknown _ => isFalse (by simp)
  | .declaration .., .text _ => isFalse (by simp)
/-- And of lists of them. -/
def Node.decEqList : (a b : List Node) → Decidable (a = b)
  | [], [] => isTrue rfl
  | [], _ :: _ => isFalse (by simp)
  | _ :: _, [] => isFalse (by simp)
  | a :: as, b :: bs =>
    match Node.decEq a b with
    | isFalse h => isFalse (by intro h'; injection h' with h' _; exact h h')
    | isTrue h =>
      match Node.decEqList as bs with
      | isFalse h => isFalse (by intro h'; injection h' with _ h'; exact h h')
      | isTrue h' => isTrue (by rw [h, h'])
end

instance : DecidableEq Node := Node.decEq

/-! ### Attributes -/

/-- `TiXmlAttributeSet::Find`, cc lines 1435-1457; `TiXmlElement::Attribute`, cc lines 671-679. -/
def attrValue (attrs : List (Text × Text)) (name : Text) : Option Text :=
  match attrs with
  | [] => none
  | (n, v) :: rest => if n = name then some v else attrValue rest name

/-- `TiXmlElement::SetAttribute`, cc lines 746-765. -/
def setAttribute (attrs : List (Text × Text)) (name value : Text) : List (Text × Text) :=
  match attrs with
  | [] => [(name, value)]
  | (n, v) :: rest => if n = name then (n, value) :: rest else (n, v) :: setAttribute rest name value

/-! ### Printing -/

/-- A digit of `%X`. -/
def hexDigit (n : ℕ) : Char := if n < 10 then Char.ofNat (48 + n) else Char.ofNat (55 + n)

/-- The replacement of one character in `PutString`, cc lines 87-126; the entities are in parser lines 42-49. -/
def escape (c : Char) : Text :=
  if c = '&' then ['&', 'a', 'm', 'p', ';']
  else if c = '<' then ['&', 'l', 't', ';']
  else if c = '>' then ['&', 'g', 't', ';']
  else if c = '"' then ['&', 'q', 'u', 'o', 't', ';']
  else if c = '\'' then ['&', 'a', 'p', 'o', 's', ';']
  else if c.toNat < 32 then ['&', '#', 'x', hexDigit (c.toNat / 16), hexDigit (c.toNat % 16), ';']
  else [c]

/-- Whether `#x` follows, cc lines 66-68. -/
def hexFollows : Text → Bool
  | '#' :: 'x' :: _ => true
  | _ => false

/-- `PutString`, cc lines 57-128.  `inRef`: in the loop of lines 79-85, which copies a character reference up to the
semicolon or the last character. -/
def putString (inRef : Bool) : Text → Text
  | [] => []
  | [c] => escape c
  | c :: d :: rest =>
    if inRef then c :: putString (d ≠ ';') (d :: rest)
    else if c = '&' && hexFollows (d :: rest) then c :: putString (d ≠ ';') (d :: rest)
    else escape c ++ putString false (d :: rest)

/-- `TiXmlAttribute::Print`, cc lines 1104-1115. -/
def printAttribute (a : Text × Text) : Text :=
  let n := putString false a.1
  let v := putString false a.2
  if '"' ∈ a.2 then n ++ '=' :: '\'' :: v ++ ['\''] else n ++ '=' :: '"' :: v ++ ['"']

/-- The attributes seen by the loop of `First` (h lines 805-806) and `Next` (cc lines 1068-1084): it ends before a later one
without name and value. -/
def visible : List (Text × Text) → List (Text × Text)
  | [] => []
  | a :: rest => a :: rest.takeWhile fun b => ¬ (b.2 = [] ∧ b.1 = [])

/-- The four blanks for each level. -/
def indent (depth : ℕ) : Text := List.replicate (4 * depth) ' '

/-- `ToText`, h line 622. -/
def Node.isText : Node → Bool
  | .text _ => true
  | _ => false

/-- `TiXmlDeclaration::Print`, cc lines 1303-1315. -/
def printDeclaration (v e s : Text) : Text :=
  "<?xml ".toList ++ (if v ≠ [] then "version=\"".toList ++ v ++ "\" ".toList else [])
    ++ (if e ≠ [] then "encoding=\"".toList ++ e ++ "\" ".toList else [])
    ++ (if s ≠ [] then "standalone=\"".toList ++ s ++ "\" ".toList else []) ++ "?>".toList

/-- The test for an element with one text as its only child, cc line 793. -/
def isSoleText : List Node → Bool
  | [n] => n.isText
  | _ => false

mutual
/-- `Print` of the nodes: of elements cc lines 767-816, comments lines 1188-1195, texts lines 1229-1234 and unknown ones lines 1373-1378. -/
def Node.print (depth : ℕ) : Node → Text
  | .element name attrs children =>
    indent depth ++ '<' :: name ++ (visible attrs).flatMap (fun a => ' ' :: printAttribute a) ++
      (if children.isEmpty then [' ', '/', '>']
      else '>' :: Node.printList (depth + 1) children ++ (if isSoleText children then [] else '\n' :: indent depth)
        ++ '<' :: '/' :: name ++ ['>'])
  | .comment v => indent depth ++ '<' :: '!' :: '-' :: '-' :: v ++ ['-', '-', '>']
  | .unknown v => indent depth ++ '<' :: v ++ ['>']
  | .text v => putString false v
  | .declaration v e s => printDeclaration v e s
/-- The loop over the children, cc lines 801-809. -/
def Node.printList (depth : ℕ) : List Node → Text
  | [] => []
  | n :: ns => (if n.isText then [] else ['\n']) ++ n.print depth ++ Node.printList depth ns
end

/-- `TiXmlDocument::Print`, cc lines 1040-1048. -/
def printDocument : List Node → Text
  | [] => []
  | n :: ns => n.print 0 ++ '\n' :: printDocument ns

/-! ### Parsing -/

/-- How a run of the parser ends: with a result, with an access outside the text or through a null pointer, with a failed
assertion, or not within the given number of steps. -/
inductive Run (α : Type) where
  | ok (a : α)
  | ub
  | assertFailed
  | endless
deriving DecidableEq

instance : Monad Run where
  pure := .ok
  bind x f := match x with
    | .ok a => f a
    | .ub => .ub
    | .assertFailed => .assertFailed
    | .endless => .endless

@[simp] theorem Run.bind_ok {α β : Type} (a : α) (f : α → Run β) : (Run.ok a >>= f) = f a := rfl
@[simp] theorem Run.bind_ub {α β : Type} (f : α → Run β) : (Run.ub >>= f) = .ub := rfl
@[simp] theorem Run.bind_assertFailed {α β : Type} (f : α → Run β) : (Run.assertFailed >>= f) = .assertFailed := rfl
@[simp] theorem Run.bind_endless {α β : Type} (f : α → Run β) : (Run.endless >>= f) = .endless := rfl
@[simp] theorem Run.pure_eq {α : Type} (a : α) : (pure a : Run α) = .ok a := rfl

/-- `IsWhiteSpace`, h lines 236-239, with `isspace` of the "C" locale. -/
def isSpace (c : Char) : Bool := c.toNat = 32 || (9 ≤ c.toNat && c.toNat ≤ 13)

/-- `isalpha` of the "C" locale. -/
def isLetter (c : Char) : Bool := (65 ≤ c.toNat && c.toNat ≤ 90) || (97 ≤ c.toNat && c.toNat ≤ 122)

/-- `IsAlpha`, parser lines 135-155. -/
def isAlpha (c : Char) : Bool := if c.toNat < 127 then isLetter c else true

/-- `IsAlphaNum`, parser lines 158-178. -/
def isAlphaNum (c : Char) : Bool :=
  if c.toNat < 127 then isLetter c || (48 ≤ c.toNat && c.toNat ≤ 57) else true

/-- `ToLower`, h lines 325-336, for the comparisons with tags in ASCII. -/
def toLower (c : Char) : Char := if 65 ≤ c.toNat && c.toNat ≤ 90 then Char.ofNat (c.toNat + 32) else c

/-- The byte order marks skipped in UTF-8, parser lines 327-348. -/
def isMark (a b c : Char) : Bool :=
  a.toNat = 0xef && ((b.toNat = 0xbb && c.toNat = 0xbf) || (b.toNat = 0xbf && (c.toNat = 0xbe || c.toNat = 0xbf)))

/-- The loops of `SkipWhiteSpace`, parser lines 322-361. -/
def skipBody (enc : Enc) : Text → Text
  | [] => []
  | [a] => if isSpace a then [] else [a]
  | [a, b] => if isSpace a then skipBody enc [b] else [a, b]
  | a :: b :: c :: rest =>
    if enc = .utf8 && isMark a b c then skipBody enc rest
    else if isSpace a then skipBody enc (b :: c :: rest)
    else a :: b :: c :: rest

/-- `SkipWhiteSpace`, parser lines 316-364. -/
def skipWhiteSpace (enc : Enc) : Option Text → Option Text
  | none => none
  | some [] => none
  | some t => some (skipBody enc t)

/-- A character that may follow in a name, parser lines 416-420. -/
def isNameChar (c : Char) : Bool := isAlphaNum c || c = '_' || c = '-' || c = '.' || c = ':'

/-- `ReadName`, parser lines 400-428: the name and what follows it, or null. -/
def readName (p : Text) : Option (Text × Text) :=
  match p with
  | [] => none
  | c :: _ => if isAlpha c || c = '_' then some (p.takeWhile isNameChar, p.dropWhile isNameChar) else none

/-- The loop over the digits before the semicolon, last one first, up to an `x`, parser lines 454-466.  `mult` is unsigned. -/
def hexValue : Text → ℕ → ℕ → Option ℕ
  | [], _, ucs => some ucs
  | c :: cs, mult, ucs =>
    if c = 'x' then some ucs
    else
      let next := fun d => hexValue cs (mult * 16 % 2 ^ 32) (ucs + mult * d % 2 ^ 32)
      if 48 ≤ c.toNat && c.toNat ≤ 57 then next (c.toNat - 48)
      else if 97 ≤ c.toNat && c.toNat ≤ 102 then next (c.toNat - 97 + 10)
      else if 65 ≤ c.toNat && c.toNat ≤ 70 then next (c.toNat - 65 + 10)
      else none

/-- The same for decimal digits, up to a `#`, parser lines 481-489. -/
def decValue : Text → ℕ → ℕ → Option ℕ
  | [], _, ucs => some ucs
  | c :: cs, mult, ucs =>
    if c = '#' then some ucs
    else if 48 ≤ c.toNat && c.toNat ≤ 57 then decValue cs (mult * 10 % 2 ^ 32) (ucs + mult * (c.toNat - 48) % 2 ^ 32)
    else none

/-- `ConvertUTF32ToUTF8`, parser lines 88-132. -/
def utf32ToUtf8 (input : ℕ) : Text :=
  let follow := fun k => Char.ofNat (0x80 + input / 64 ^ k % 64)
  if input < 0x80 then [Char.ofNat input]
  else if input < 0x800 then [Char.ofNat (0xC0 + input / 64), follow 0]
  else if input < 0x10000 then [Char.ofNat (0xE0 + input / 4096), follow 1, follow 0]
  else if input < 0x200000 then [Char.ofNat (0xF0 + input / 262144), follow 2, follow 1, follow 0]
  else []

/-- The character of a reference, parser lines 491-502. -/
def refChar (enc : Enc) (ucs : ℕ) : Text := if enc = .utf8 then utf32ToUtf8 ucs else [Char.ofNat (ucs % 256)]

/-- The entities, parser lines 42-49. -/
def entities : List (Text × Char) :=
  [(['&', 'a', 'm', 'p', ';'], '&'), (['&', 'l', 't', ';'], '<'), (['&', 'g', 't', ';'], '>'),
    (['&', 'q', 'u', 'o', 't', ';'], '"'), (['&', 'a', 'p', 'o', 's', ';'], '\'')]

/-- The loop over the entities, parser lines 506-520: the value and what follows.  For text that is no entity `length` has
kept the value 0. -/
def matchEntity (p : Text) : List (Text × Char) → Text × Text
  | [] => ([], p.drop 1)
  | (str, chr) :: rest => if str.isPrefixOf p then ([chr], p.drop str.length) else matchEntity p rest

/-- `GetEntity`, parser lines 430-521, at an ampersand with `rest` after it; `none` is the null pointer. -/
def getEntity (enc : Enc) (rest : Text) : Option (Text × Text) :=
  match rest with
  | '#' :: 'x' :: digits =>
    if ';' ∈ digits then
      match hexValue (digits.takeWhile (· ≠ ';')).reverse 1 0 with
      | none => none
      | some ucs => some (refChar enc ucs, (digits.dropWhile (· ≠ ';')).drop 1)
    else none
  | '#' :: c :: digits =>
    if ';' ∈ c :: digits then
      match decValue ((c :: digits).takeWhile (· ≠ ';')).reverse 1 0 with
      | none => none
      | some ucs => some (refChar enc ucs, ((c :: digits).dropWhile (· ≠ ';')).drop 1)
    else none
  | _ => some (matchEntity ('&' :: rest) entities)

/-- The number of bytes of a character, by the table in parser lines 65-85. -/
def utf8Width (c : Char) : ℕ :=
  if c.toNat < 0xc2 then 1 else if c.toNat < 0xe0 then 2 else if c.toNat < 0xf0 then 3 else if c.toNat < 0xf5 then 4 else 1

/-- `GetChar`, h lines 264-296, at the character `c` with `rest` after it; `none` is the null pointer, and stepping over the
end of the text undefined. -/
def getChar (enc : Enc) (c : Char) (rest : Text) : Run (Option (Text × Text)) :=
  let length := if enc = .utf8 then utf8Width c else 1
  if length = 1 then
    if c = '&' then .ok (getEntity enc rest) else .ok (some ([c], rest))
  else if (c :: rest).length < length then .ub
  else .ok (some ((c :: rest).take length, (c :: rest).drop length))

/-- The loop of `ReadText` that keeps white space, parser lines 576-584, with the text read so far; then what it stopped at:
`endTag` or the end.  After the loop the length of the end tag is added to the pointer, which is undefined for the null
pointer (line 624).  Each step takes at least one character, so that the length of the text is enough for `fuel`. -/
def readKeep (enc : Enc) (endTag : Text) : ℕ → Text → Text → Run (Text × Text)
  | _, [], acc => .ok (acc, [])
  | 0, _ :: _, _ => .endless
  | fuel + 1, c :: rest, acc =>
    if endTag.isPrefixOf (c :: rest) then .ok (acc, c :: rest)
    else do
      match ← getChar enc c rest with
      | none => .ub
      | some (value, p) => readKeep enc endTag fuel p (acc ++ value)

/-- The loop of `ReadText` that condenses white space, parser lines 592-622. -/
def readTrim (enc : Enc) (endTag : Text) : ℕ → Bool → Text → Text → Run (Text × Text)
  | _, _, [], acc => .ok (acc, [])
  | 0, _, _ :: _, _ => .endless
  | fuel + 1, whitespace, c :: rest, acc =>
    if endTag.isPrefixOf (c :: rest) then .ok (acc, c :: rest)
    else if isSpace c then readTrim enc endTag fuel true rest acc
    else do
      let acc := if whitespace then acc ++ [' '] else acc
      match ← getChar enc c rest with
      | none => .ub
      | some (value, p) => readTrim enc endTag fuel false p (acc ++ value)

/-- `ReadText` for attribute values and comments (parser lines 564-625), with the pointer after the end tag.  At the end of
the text the pointer returned is behind it, and the callers read from it (parser line 1101, 785, 1189). -/
def readQuoted (enc : Enc) (endTag p : Text) : Run (Text × Text) := do
  let (value, p) ← readKeep enc endTag p.length p []
  if p = [] then .ub else .ok (value, p.drop endTag.length)

/-- `TiXmlAttribute::Parse`, parser lines 1319-1387: the name, the value and what follows, or null. -/
def parseAttribute (enc : Enc) (p : Text) : Run (Option (Text × Text × Text)) :=
  match skipWhiteSpace enc (some p) with
  | none => .ok none
  | some p =>
    match readName p with
    | none => .ok none
    | some (_, []) => .ok none
    | some (name, p) =>
      match skipWhiteSpace enc (some p) with
      | some ('=' :: p) =>
        match skipWhiteSpace enc (some p) with
        | none => .ok none
        | some [] => .ok none
        | some ('\'' :: p) => do
          let (value, p) ← readQuoted enc ['\''] p
          .ok (some (name, value, p))
        | some ('"' :: p) => do
          let (value, p) ← readQuoted enc ['"'] p
          .ok (some (name, value, p))
        | some p =>
          let inValue := fun c => !isSpace c && c ≠ '/' && c ≠ '>'
          .ok (some (name, p.takeWhile inValue, p.dropWhile inValue))
      | _ => .ok none

/-- How the loop over the attributes ends: at `/>`, at `>`, or with the return of null, with or without an error set. -/
inductive TagEnd where
  | closed (p : Text)
  | opened (p : Text)
  | failed (error : Bool)
deriving DecidableEq

/-- The loop over the attributes, parser lines 1055-1131, up to `ReadValue`.  `attrs` are those read so far.  Each step takes
at least one character, so that the length of the text is enough for `fuel`. -/
def parseTag (enc : Enc) : ℕ → Text → List (Text × Text) → Run (List (Text × Text) × TagEnd)
  | 0, _, _ => .endless
  | fuel + 1, p, attrs =>
    match skipWhiteSpace enc (some p) with
    | none => .ok (attrs, .failed true)
    | some [] => .ok (attrs, .failed true)
    | some ('/' :: '>' :: p) => .ok (attrs, .closed p)
    | some ('/' :: _) => .ok (attrs, .failed true)
    | some ('>' :: p) => .ok (attrs, .opened p)
    | some p => do
      match ← parseAttribute enc p with
      | none => .ok (attrs, .failed true)
      | some (_, _, []) => .ok (attrs, .failed true)
      | some (name, value, p) =>
        if (attrValue attrs name).isSome then .ok (setAttribute attrs name value, .failed false)
        else parseTag enc fuel p (attrs ++ [(name, value)])

/-- `TiXmlUnknown::Parse`, parser lines 1230-1262, after the `<`. -/
def parseUnknown (p : Text) : Node × Text :=
  (.unknown (p.takeWhile (· ≠ '>')), (p.dropWhile (· ≠ '>')).drop 1)

/-- `StringEqual` ignoring case, parser lines 538-549. -/
def prefixNoCase : Text → Text → Bool
  | [], _ => true
  | _ :: _, [] => false
  | t :: ts, c :: cs => toLower c = toLower t && prefixNoCase ts cs

/-- The loop of `TiXmlDeclaration::Parse`, parser lines 1473-1509. -/
def parseDeclaration (enc : Enc) : ℕ → Text → Text → Text → Text → Run (Node × Option Text)
  | _, [], v, e, s => .ok (.declaration v e s, none)
  | 0, _ :: _, _, _, _ => .endless
  | _ + 1, '>' :: p, v, e, s => .ok (.declaration v e s, some p)
  | fuel + 1, p, v, e, s =>
    match skipWhiteSpace enc (some p) with
    | none => .assertFailed
    | some [] => .assertFailed
    | some p =>
      if prefixNoCase "version".toList p then do
        match ← parseAttribute enc p with
        | none => .ok (.declaration [] e s, none)
        | some (_, v, p) => parseDeclaration enc fuel p v e s
      else if prefixNoCase "encoding".toList p then do
        match ← parseAttribute enc p with
        | none => .ok (.declaration v [] s, none)
        | some (_, e, p) => parseDeclaration enc fuel p v e s
      else if prefixNoCase "standalone".toList p then do
        match ← parseAttribute enc p with
        | none => .ok (.declaration v e [], none)
        | some (_, s, p) => parseDeclaration enc fuel p v e s
      else
        parseDeclaration enc fuel (p.dropWhile fun c => c ≠ '>' && !isSpace c) v e s

/-- `TiXmlText::Blank`, parser lines 1513-1519. -/
def blank (value : Text) : Bool := value.all isSpace

/-- `Parse` of what `Identify` makes of the text at a `<` (parser lines 806-883), if it is no element: a declaration, a
comment or an unknown node. -/
def parseOther (enc : Enc) (p : Text) : Run (Node × Option Text) :=
  if prefixNoCase "<?xml".toList p then parseDeclaration enc p.length (p.drop 5) [] [] []
  else if "<!--".toList.isPrefixOf p then do
    let (value, p) ← readQuoted enc "-->".toList (p.drop 4)
    .ok (.comment value, some p)
  else
    let (node, p) := parseUnknown (p.drop 1)
    .ok (node, some p)

/-- Whether `Identify` makes an element of the text at a `<`, parser lines 836-868. -/
def isElement (p : Text) : Bool :=
  !prefixNoCase "<?xml".toList p && !"<!".toList.isPrefixOf p &&
    match p.drop 1 with
    | [] => false
    | c :: _ => isAlpha c || c = '_'

mutual
/-- `TiXmlElement::Parse`, parser lines 1015-1133: the element, the pointer returned and whether an error was set. -/
def parseElement (enc : Enc) : ℕ → Text → Run (Node × Option Text × Bool)
  | 0, _ => .endless
  | fuel + 1, p =>
    match skipWhiteSpace enc (some (p.drop 1)) with
    | none => .assertFailed
    | some p =>
      match readName p with
      | none => .ok (.element [] [] [], none, true)
      | some (name, []) => .ok (.element name [] [], none, true)
      | some (name, p) => do
        match ← parseTag enc (p.length + 1) p [] with
        | (attrs, .failed error) => .ok (.element name attrs [], none, error)
        | (attrs, .closed p) => .ok (.element name attrs [], some p, false)
        | (attrs, .opened p) => do
          let (children, p, error) ← match skipWhiteSpace enc (some p) with
            | none => .ok ([], none, true)
            | some p => readValue enc fuel p []
          match p with
          | none => .ok (.element name attrs children, none, error)
          | some [] => .ok (.element name attrs children, none, error)
          | some p =>
            let endTag := '<' :: '/' :: name ++ ['>']
            if endTag.isPrefixOf p then .ok (.element name attrs children, some (p.drop endTag.length), error)
            else .ok (.element name attrs children, none, true)
/-- The loop of `TiXmlElement::ReadValue`, parser lines 1143-1201, after the children read so far. -/
def readValue (enc : Enc) : ℕ → Text → List Node → Run (List Node × Option Text × Bool)
  | 0, _, _ => .endless
  | _ + 1, [], children => .ok (children, some [], false)
  | fuel + 1, c :: rest, children =>
    if c ≠ '<' then do
      let (value, p) ← readTrim enc ['<'] (rest.length + 1) false (c :: rest) []
      let children := if blank value then children else children ++ [.text value]
      match skipWhiteSpace enc (some p) with
      | none => .ok (children, none, true)
      | some p => readValue enc fuel p children
    else if ['<', '/'].isPrefixOf (c :: rest) then .ok (children, some (c :: rest), false)
    else do
      let (node, p, error) ← parseNode enc fuel (c :: rest)
      match skipWhiteSpace enc p with
      | none => .ok (children ++ [node], none, true)
      | some p => do
        let (children, p, error') ← readValue enc fuel p (children ++ [node])
        .ok (children, p, error || error')
/-- `Identify` and `Parse`, at a `<`. -/
def parseNode (enc : Enc) : ℕ → Text → Run (Node × Option Text × Bool)
  | 0, _ => .endless
  | fuel + 1, p =>
    if isElement p then parseElement enc fuel p
    else do
      let (node, p) ← parseOther enc p
      .ok (node, p, false)
end

/-- The encoding after a node, parser lines 745-766. -/
def nextEncoding (enc : Enc) : Node → Enc
  | .declaration _ e _ =>
    if enc ≠ .unknown then enc
    else if e = [] then .utf8
    else if prefixNoCase "UTF-8".toList e then .utf8
    else if prefixNoCase "UTF8".toList e then .utf8
    else .legacy
  | _ => enc

/-- The loop of `TiXmlDocument::Parse`, parser lines 732-769. -/
def parseNodes : ℕ → Enc → Text → List Node → Run (List Node × Bool)
  | _, _, [], nodes => .ok (nodes, false)
  | 0, _, _ :: _, _ => .endless
  | fuel + 1, enc, c :: rest, nodes =>
    if c ≠ '<' then .ok (nodes, false)
    else do
      let (node, p, error) ← parseNode enc (3 * (rest.length + 2)) (c :: rest)
      match skipWhiteSpace (nextEncoding enc node) p with
      | none => .ok (nodes ++ [node], error)
      | some p => do
        let (nodes, error') ← parseNodes fuel (nextEncoding enc node) p (nodes ++ [node])
        .ok (nodes, error || error')

/-- The encoding at the beginning, parser lines 712-724. -/
def startEncoding : Text → Enc
  | a :: b :: c :: _ => if a.toNat = 0xef && b.toNat = 0xbb && c.toNat = 0xbf then .utf8 else .unknown
  | _ => .unknown

/-- `TiXmlDocument::Parse`, parser lines 692-783, for `TIXML_ENCODING_UNKNOWN`: the nodes and whether there is an error. -/
def parseDocument (p : Text) : Run (List Node × Bool) :=
  match p with
  | [] => .ok ([], true)
  | _ =>
    match skipWhiteSpace (startEncoding p) (some p) with
    | none => .ok ([], true)
    | some q => do
      let (nodes, error) ← parseNodes (q.length + 1) (startEncoding p) q []
      .ok (nodes, error || nodes = [])

/-- `TiXmlDocument::LoadFile`, cc lines 944-1000, for a file that can be opened: the result and the nodes. -/
def loadFile (file : Text) : Run (Bool × List Node) := do
  if file = [] then .ok (false, [])
  else
    let (nodes, error) ← parseDocument file
    .ok (!error, nodes)

end Gear.Xml
