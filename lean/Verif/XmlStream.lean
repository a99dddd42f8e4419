/-
Model of the operators of tinyxml for streams: `out << node` and `in >> document`.

Sources in src/gearxml: tinyxml.cc ("cc"), tinyxmlparser.cc ("parser") and include/gear/gearxml/tinyxml.h ("h"); `TIXML_USE_STL` is
defined (h lines 30-32).

Simplifications, beside those of Xml.lean.  A stream that is written to takes all bytes; it is the text written.  A stream that is read
from is what has not been read yet and whether it is good: reading or peeking at the end makes it bad, and there is no other way.
`std::string::at` beyond the end of the string, which is an exception, counts as `ub`.  The errors set while streaming are not
modelled: `Parse` clears them (parser line 694) before the operator returns.
-/
import Verif.Xml

set_option autoImplicit false
set_option linter.unusedSectionVars false

namespace Gear.Xml.Stream

/-! ### Writing -/

/-- `TiXmlAttribute::StreamOut`, cc lines 1118-1134. -/
def streamAttribute (a : Text × Text) : Text :=
  if '"' ∈ a.2 then putString false a.1 ++ '=' :: '\'' :: putString false a.2 ++ ['\'']
  else putString false a.1 ++ '=' :: '"' :: putString false a.2 ++ ['"']

/-- `TiXmlDeclaration::StreamOut`, cc lines 1312-1334. -/
def streamDeclaration (v e s : Text) : Text :=
  "<?xml ".toList ++ (if v ≠ [] then "version=\"".toList ++ putString false v ++ "\" ".toList else [])
    ++ (if e ≠ [] then "encoding=\"".toList ++ putString false e ++ "\" ".toList else [])
    ++ (if s ≠ [] then "standalone=\"".toList ++ putString false s ++ "\" ".toList else []) ++ "?>".toList

mutual
/-- `StreamOut` of the nodes: of elements cc lines 818-845, comments lines 1200-1206, unknown ones lines 1368-1371 and texts lines
1235-1238. -/
def streamOut : Node → Text
  | .element name attrs children =>
    '<' :: name ++ (visible attrs).flatMap (fun a => ' ' :: streamAttribute a) ++
      (if children.isEmpty then [' ', '/', '>'] else '>' :: streamList children ++ '<' :: '/' :: name ++ ['>'])
  | .comment v => '<' :: '!' :: '-' :: '-' :: v ++ ['-', '-', '>']
  | .unknown v => '<' :: v ++ ['>']
  | .text v => putString false v
  | .declaration v e s => streamDeclaration v e s
/-- The loop over the children, cc lines 836-839. -/
def streamList : List Node → Text
  | [] => []
  | n :: ns => streamOut n ++ streamList ns
end

/-- `ToElement`, h line 618. -/
def isElementNode : Node → Bool
  | .element .. => true
  | _ => false

/-- `TiXmlDocument::StreamOut`, cc lines 1052-1065: it stops after the first element.  `out << document`, cc lines 1472-1476, with
`out` what was written before. -/
def streamDocument : List Node → Text
  | [] => []
  | n :: ns => streamOut n ++ (if isElementNode n then [] else streamDocument ns)

/-- `out << document` for a stream (cc lines 1472-1476) and for a string (lines 1480-1487): `out` is what it held before. -/
def write (out : Text) (doc : List Node) : Text := out ++ streamDocument doc

/-! ### Reading -/

/-- A stream that is read from: what is left, and `good()`. -/
structure In where
  rest : Text
  good : Bool
deriving DecidableEq

/-- The zero byte. -/
def zero : Char := '\x00'

/-- `StreamWhiteSpace`, parser lines 367-380, with a good stream; `tag` is what has been read. -/
def white : Text → Text → In × Text
  | [], tag => (⟨[], false⟩, tag)
  | c :: rest, tag => if !isSpace c || c = zero then (⟨c :: rest, true⟩, tag) else white rest (tag ++ [c])

/-- `StreamTo`, parser lines 382-397, with a good stream; the flag is the result. -/
def streamTo (character : Char) : Text → Text → In × Text × Bool
  | [], tag => (⟨[], false⟩, tag, false)
  | c :: rest, tag =>
    if c = character then (⟨c :: rest, true⟩, tag, true)
    else if c = zero then (⟨c :: rest, true⟩, tag, false)
    else streamTo character rest (tag ++ [c])

/-- The loop up to the next `>` in `TiXmlDocument::StreamIn`, parser lines 647-656, with a good stream. -/
def upTo : Text → Text → In × Text
  | [], tag => (⟨[], false⟩, tag)
  | c :: rest, tag =>
    if c = '>' then (⟨c :: rest, true⟩, tag)
    else if c = zero then (⟨rest, true⟩, tag)
    else upTo rest (tag ++ [c])

/-- `TiXmlUnknown::StreamIn`, parser lines 1206-1227, and `TiXmlDeclaration::StreamIn`, lines 1430-1450, with a good stream: up to and
with the next `>`.  The first loop of `TiXmlElement::StreamIn`, lines 891-905, is the same; the flag is whether it ended with a `>` and not
with a return. -/
def through : Text → Text → In × Text × Bool
  | [], tag => (⟨[], false⟩, tag, false)
  | c :: rest, tag =>
    if c = zero then (⟨rest, true⟩, tag, false)
    else if c = '>' then (⟨rest, true⟩, tag ++ [c], true)
    else through rest (tag ++ [c])

/-- `tag->at( tag->length() - k )`. -/
def fromEnd (tag : Text) (k : ℕ) : Run Char :=
  if k ≤ tag.length then
    match tag[tag.length - k]? with
    | some c => .ok c
    | none => .ub
  else .ub

/-- `TiXmlComment::StreamIn`, parser lines 1265-1289, with a good stream. -/
def comment : Text → Text → Run (In × Text)
  | [], tag => .ok (⟨[], false⟩, tag)
  | c :: rest, tag =>
    if c = zero then .ok (⟨rest, true⟩, tag)
    else if c = '>' then do
      if (← fromEnd (tag ++ [c]) 2) = '-' then do
        if (← fromEnd (tag ++ [c]) 3) = '-' then .ok (⟨rest, true⟩, tag ++ [c])
        else comment rest (tag ++ [c])
      else comment rest (tag ++ [c])
    else comment rest (tag ++ [c])

/-- `TiXmlText::StreamIn`, parser lines 1390-1408, with a good stream. -/
def text : Text → Text → In × Text
  | [], tag => (⟨[], false⟩, tag)
  | c :: rest, tag =>
    if c = '<' then (⟨c :: rest, true⟩, tag)
    else if c = zero then (⟨c :: rest, true⟩, tag)
    else text rest (tag ++ [c])

/-- The loop over a tag within an element, parser lines 948-975, with a good stream, up to but without the `>`; `none` is a return.
The flags are `firstCharFound` and `closingTag`. -/
def inner : Text → Text → Bool → Bool → In × Text × Option Bool
  | [], tag, _, _ => (⟨[], false⟩, tag, none)
  | c :: rest, tag, found, closing =>
    if c = zero then (⟨c :: rest, true⟩, tag, none)
    else if c = '>' then (⟨c :: rest, true⟩, tag, some closing)
    else if !found && c ≠ '<' && !isSpace c then inner rest (tag ++ [c]) true (closing || c = '/')
    else inner rest (tag ++ [c]) found closing

/-- The kinds of nodes `Identify` makes. -/
inductive Kind where
  | declaration
  | comment
  | unknown
  | element
deriving DecidableEq

/-- `Identify`, parser lines 806-884; `none` is the null pointer. -/
def identify (p : Text) : Option Kind :=
  match skipWhiteSpace .unknown (some p) with
  | some ('<' :: p) =>
    if prefixNoCase "<?xml".toList ('<' :: p) then some .declaration
    else if "<!--".toList.isPrefixOf ('<' :: p) then some .comment
    else if isElement ('<' :: p) then some .element
    else some .unknown
  | _ => none

mutual
/-- `TiXmlElement::StreamIn`, parser lines 887-1012, with a good stream.  `fuel` bounds the number of steps. -/
def element : ℕ → Text → Text → Run (In × Text)
  | 0, _, _ => .endless
  | fuel + 1, rest, tag => do
    match through rest tag with
    | (s, tag, false) => .ok (s, tag)
    | (s, tag, true) =>
      if tag.length < 3 then .ok (s, tag)
      else do
        if (← fromEnd tag 1) = '>' then do
          if (← fromEnd tag 2) = '/' then .ok (s, tag)
          else content fuel s tag
        else .ok (s, tag)
/-- The loop over the content of an element, parser lines 922-1010. -/
def content : ℕ → In → Text → Run (In × Text)
  | 0, _, _ => .endless
  | fuel + 1, s, tag => do
    let (s, tag) := if s.good then white s.rest tag else (s, tag)
    match s.good, s.rest with
    | false, _ => .ok (s, tag)
    | true, [] => content fuel ⟨[], false⟩ tag
    | true, c :: rest =>
      if c ≠ '<' then
        let (s, tag) := text (c :: rest) tag
        content fuel s tag
      else
        match inner (c :: rest) tag false false with
        | (s, tag, none) => .ok (s, tag)
        | (s, tag', some true) =>
          match s.rest with
          | [] => .ok (⟨[], false⟩, tag')
          | c :: rest =>
            if c = zero then .ok (⟨rest, true⟩, tag')
            else if c ≠ '>' then .assertFailed
            else .ok (⟨rest, true⟩, tag' ++ [c])
        | (s, tag', some false) =>
          match identify (tag'.drop tag.length) with
          | none => .ok (s, tag')
          | some k => do
            let (s, tag) ← node fuel k s.rest tag'
            content fuel s tag
/-- `node->StreamIn( in, tag )`, with a good stream. -/
def node : ℕ → Kind → Text → Text → Run (In × Text)
  | 0, _, _, _ => .endless
  | fuel + 1, .element, rest, tag => element fuel rest tag
  | _ + 1, .comment, rest, tag => comment rest tag
  | _ + 1, _, rest, tag => let (s, tag, _) := through rest tag; .ok (s, tag)
end

/-- The loop of `TiXmlDocument::StreamIn`, parser lines 644-685; `fuel` as above, the first for the nodes. -/
def nodes (deep : ℕ) : ℕ → In → Text → Run (In × Text)
  | 0, _, _ => .endless
  | fuel + 1, s, tag =>
    if s.good then
      match upTo s.rest tag with
      | (s, tag') =>
        if s.good then
          match identify (tag'.drop tag.length) with
          | none => .ok (s, tag')
          | some k => do
            let (s, tag) ← node deep k s.rest tag'
            if k = .element then .ok (s, tag) else nodes deep fuel s tag
        else nodes deep fuel s tag'
    else .ok (s, tag)

/-- `TiXmlDocument::StreamIn`, parser lines 629-688. -/
def streamIn (fuel : ℕ) (s : In) : Run (In × Text) :=
  if s.good then
    match streamTo '<' s.rest [] with
    | (s, tag, true) => nodes fuel fuel s tag
    | (s, tag, false) => .ok (s, tag)
  else .ok (s, [])

/-- `TiXmlDocument::Parse`, parser lines 692-783, for `TIXML_ENCODING_UNKNOWN` and a document that has nodes already: the nodes
afterwards and whether there is an error. -/
def parseInto (doc : List Node) (p : Text) : Run (List Node × Bool) :=
  match p with
  | [] => .ok (doc, true)
  | _ =>
    match skipWhiteSpace (startEncoding p) (some p) with
    | none => .ok (doc, true)
    | some q => do
      let (nodes, error) ← parseNodes (q.length + 1) (startEncoding p) q doc
      .ok (nodes, error || nodes = [])

/-- `in >> document`, cc lines 1460-1468: the stream, the nodes of the document and whether it has an error afterwards. -/
def read (fuel : ℕ) (s : In) (doc : List Node) : Run (In × List Node × Bool) := do
  let (s, tag) ← streamIn fuel s
  let (doc, error) ← parseInto doc tag
  .ok (s, doc, error)

end Gear.Xml.Stream
