/-
Model of parsing with rows and columns, and with the error a document has afterwards.  It is the parser of Xml.lean, with calls
of `Stamp` and of `SetError` where the code has them.

Sources in src/gearxml: tinyxmlparser.cc ("parser"), tinyxml.cc ("cc"), tinyxmlerror.cc and include/gear/gearxml/tinyxml.h ("h").

Simplifications as in Xml.lean and XmlPlace.lean.
-/
import Verif.XmlPlace

set_option autoImplicit false
set_option linter.unusedSectionVars false

namespace Gear.Xml.Place

/-- A node with its `location` (h line 320); those of the attributes of an element are in the order of the attributes. -/
inductive PNode where
  | element (place : Cursor) (name : Text) (attrs : List (Text × Text)) (places : List Cursor) (children : List PNode)
  | comment (place : Cursor) (value : Text)
  | unknown (place : Cursor) (value : Text)
  | text (place : Cursor) (value : Text)
  | declaration (place : Cursor) (version encoding standalone : Text)

/-- The errors, h lines 294-314; the others are never set when a file is parsed. -/
inductive ErrorId where
  | parsingElement
  | readingElementName
  | readingElementValue
  | readingAttributes
  | parsingEmpty
  | readingEndTag
  | documentEmpty
deriving DecidableEq

/-- `errorString`, tinyxmlerror.cc lines 42-58. -/
def ErrorId.desc : ErrorId → String
  | .parsingElement => "Error parsing Element."
  | .readingElementName => "Failed to read Element name"
  | .readingElementValue => "Error reading Element value."
  | .readingAttributes => "Error reading Attributes."
  | .parsingEmpty => "Error: empty tag."
  | .readingEndTag => "Error reading end tag."
  | .documentEmpty => "Error document empty."

/-- What changes during parsing beside the tree: the `TiXmlParsingData` and `error`, `errorId` and `errorLocation` of the document (h
lines 1288-1292); `none` if there is no error. -/
structure State where
  data : Data
  error : Option (ErrorId × Cursor)

/-- `data->Stamp( p, encoding )`. -/
def State.stamp (s : State) (p : Text) (enc : Enc) : Run State := do
  let d ← s.data.stampAt p enc
  .ok { s with data := d }

/-- `SetError`, parser lines 785-803: the first error stays; `none` is the null pointer. -/
def State.setError (s : State) (id : ErrorId) (p : Option Text) (enc : Enc) : Run State :=
  match s.error with
  | some _ => .ok s
  | none =>
    match p with
    | none => .ok { s with error := some (id, .clear) }
    | some p => do
      let s ← s.stamp p enc
      .ok { s with error := some (id, s.data.cursor) }

/-- `if ( document ) document->SetError( ... )`. -/
def State.setErrorIf (s : State) (document : Bool) (id : ErrorId) (p : Option Text) (enc : Enc) : Run State :=
  if document then s.setError id p enc else .ok s

/-- `TiXmlAttribute::Parse`, parser lines 1319-1387: the name, the value, the location and what follows, or null.  `document` is
whether the attribute knows its document (line 1103); those of a declaration do not. -/
def readAttr (document : Bool) (enc : Enc) (s : State) (p : Text) : Run (Option (Text × Text × Cursor × Text) × State) :=
  match skipWhiteSpace enc (some p) with
  | none => .ok (none, s)
  | some [] => .ok (none, s)
  | some p => do
    let s ← s.stamp p enc
    let place := s.data.cursor
    match readName p with
    | none => do
      let s ← s.setErrorIf document .readingAttributes (some p) enc
      .ok (none, s)
    | some (_, []) => do
      let s ← s.setErrorIf document .readingAttributes (some p) enc
      .ok (none, s)
    | some (name, p) =>
      match skipWhiteSpace enc (some p) with
      | some ('=' :: p) =>
        match skipWhiteSpace enc (some p) with
        | none => do
          let s ← s.setErrorIf document .readingAttributes none enc
          .ok (none, s)
        | some [] => do
          let s ← s.setErrorIf document .readingAttributes (some []) enc
          .ok (none, s)
        | some ('\'' :: p) => do
          let (value, p) ← readQuoted enc ['\''] p
          .ok (some (name, value, place, p), s)
        | some ('"' :: p) => do
          let (value, p) ← readQuoted enc ['"'] p
          .ok (some (name, value, place, p), s)
        | some p =>
          let inValue := fun c => !isSpace c && c ≠ '/' && c ≠ '>'
          .ok (some (name, p.takeWhile inValue, place, p.dropWhile inValue), s)
      | q => do
        let s ← s.setErrorIf document .readingAttributes q enc
        .ok (none, s)

/-- How the loop over the attributes ends: at `/>`, at `>`, or with the return of null. -/
inductive End where
  | closed (p : Text)
  | opened (p : Text)
  | failed
deriving DecidableEq

/-- The loop over the attributes, parser lines 1055-1131, up to `ReadValue`; see `parseTag`. -/
def tag (enc : Enc) : ℕ → State → Text → List (Text × Text) → List Cursor →
    Run (List (Text × Text) × List Cursor × End × State)
  | 0, _, _, _, _ => .endless
  | fuel + 1, s, p, attrs, places =>
    match skipWhiteSpace enc (some p) with
    | none => do
      let s ← s.setError .readingAttributes (some p) enc
      .ok (attrs, places, .failed, s)
    | some [] => do
      let s ← s.setError .readingAttributes (some p) enc
      .ok (attrs, places, .failed, s)
    | some ('/' :: '>' :: p) => .ok (attrs, places, .closed p, s)
    | some ('/' :: p) => do
      let s ← s.setError .parsingEmpty (some p) enc
      .ok (attrs, places, .failed, s)
    | some ('>' :: p) => .ok (attrs, places, .opened p, s)
    | some p => do
      let (a, s) ← readAttr true enc s p
      match a with
      | none => do
        let s ← s.setError .parsingElement (some p) enc
        .ok (attrs, places, .failed, s)
      | some (_, _, _, []) => do
        let s ← s.setError .parsingElement (some p) enc
        .ok (attrs, places, .failed, s)
      | some (name, value, place, p) =>
        if (attrValue attrs name).isSome then .ok (setAttribute attrs name value, places, .failed, s)
        else tag enc fuel s p (attrs ++ [(name, value)]) (places ++ [place])

/-- The loop of `TiXmlDeclaration::Parse`, parser lines 1473-1509; see `parseDeclaration`. -/
def declaration (enc : Enc) (place : Cursor) : ℕ → State → Text → Text → Text → Text → Run (PNode × Option Text × State)
  | _, st, [], v, e, s => .ok (.declaration place v e s, none, st)
  | 0, _, _ :: _, _, _, _ => .endless
  | _ + 1, st, '>' :: p, v, e, s => .ok (.declaration place v e s, some p, st)
  | fuel + 1, st, p, v, e, s =>
    match skipWhiteSpace enc (some p) with
    | none => .assertFailed
    | some [] => .assertFailed
    | some p =>
      if prefixNoCase "version".toList p then do
        let (a, st) ← readAttr false enc st p
        match a with
        | none => .ok (.declaration place [] e s, none, st)
        | some (_, v, _, p) => declaration enc place fuel st p v e s
      else if prefixNoCase "encoding".toList p then do
        let (a, st) ← readAttr false enc st p
        match a with
        | none => .ok (.declaration place v [] s, none, st)
        | some (_, e, _, p) => declaration enc place fuel st p v e s
      else if prefixNoCase "standalone".toList p then do
        let (a, st) ← readAttr false enc st p
        match a with
        | none => .ok (.declaration place v e [], none, st)
        | some (_, s, _, p) => declaration enc place fuel st p v e s
      else
        declaration enc place fuel st (p.dropWhile fun c => c ≠ '>' && !isSpace c) v e s

/-- `Parse` of a declaration (parser lines 1453-1511), a comment (lines 1292-1316) or an unknown node (lines 1230-1262); see
`parseOther`. -/
def other (enc : Enc) (s : State) (p : Text) : Run (PNode × Option Text × State) := do
  let s ← s.stamp p enc
  let place := s.data.cursor
  if prefixNoCase "<?xml".toList p then declaration enc place p.length s (p.drop 5) [] [] []
  else if "<!--".toList.isPrefixOf p then do
    let (value, p) ← readQuoted enc "-->".toList (p.drop 4)
    .ok (.comment place value, some p, s)
  else
    .ok (.unknown place ((p.drop 1).takeWhile (· ≠ '>')), some (((p.drop 1).dropWhile (· ≠ '>')).drop 1), s)

mutual
/-- `TiXmlElement::Parse`, parser lines 1015-1133: the element, the pointer returned and the state; see `parseElement`. -/
def element (enc : Enc) : ℕ → State → Text → Run (PNode × Option Text × State)
  | 0, _, _ => .endless
  | fuel + 1, s, p => do
    let s ← s.stamp p enc
    let place := s.data.cursor
    match skipWhiteSpace enc (some (p.drop 1)) with
    | none => .assertFailed
    | some p =>
      match readName p with
      | none => do
        let s ← s.setError .readingElementName (some p) enc
        .ok (.element place [] [] [] [], none, s)
      | some (name, []) => do
        let s ← s.setError .readingElementName (some p) enc
        .ok (.element place name [] [] [], none, s)
      | some (name, p) => do
        let (attrs, places, e, s) ← tag enc (p.length + 1) s p [] []
        match e with
        | .failed => .ok (.element place name attrs places [], none, s)
        | .closed p => .ok (.element place name attrs places [], some p, s)
        | .opened p => do
          let (children, p, s) ← match skipWhiteSpace enc (some p) with
            | none => do
              let s ← s.setError .readingElementValue none enc
              .ok ([], none, s)
            | some p => value enc fuel s p []
          match p with
          | none => .ok (.element place name attrs places children, none, s)
          | some [] => .ok (.element place name attrs places children, none, s)
          | some p =>
            let endTag := '<' :: '/' :: name ++ ['>']
            if endTag.isPrefixOf p then .ok (.element place name attrs places children, some (p.drop endTag.length), s)
            else do
              let s ← s.setError .readingEndTag (some p) enc
              .ok (.element place name attrs places children, none, s)
/-- The loop of `TiXmlElement::ReadValue`, parser lines 1143-1201, with `TiXmlText::Parse`, lines 1411-1430; see `readValue`. -/
def value (enc : Enc) : ℕ → State → Text → List PNode → Run (List PNode × Option Text × State)
  | 0, _, _, _ => .endless
  | _ + 1, s, [], children => .ok (children, some [], s)
  | fuel + 1, s, c :: rest, children =>
    if c ≠ '<' then do
      let s ← s.stamp (c :: rest) enc
      let place := s.data.cursor
      let (v, p) ← readTrim enc ['<'] (rest.length + 1) false (c :: rest) []
      let children := if blank v then children else children ++ [.text place v]
      match skipWhiteSpace enc (some p) with
      | none => do
        let s ← s.setError .readingElementValue none enc
        .ok (children, none, s)
      | some p => value enc fuel s p children
    else if ['<', '/'].isPrefixOf (c :: rest) then .ok (children, some (c :: rest), s)
    else do
      let (n, p, s) ← node enc fuel s (c :: rest)
      match skipWhiteSpace enc p with
      | none => do
        let s ← s.setError .readingElementValue none enc
        .ok (children ++ [n], none, s)
      | some p => value enc fuel s p (children ++ [n])
/-- `Identify` and `Parse`, at a `<`; see `parseNode`. -/
def node (enc : Enc) : ℕ → State → Text → Run (PNode × Option Text × State)
  | 0, _, _ => .endless
  | fuel + 1, s, p => if isElement p then element enc fuel s p else other enc s p
end

/-- The encoding after a node, parser lines 745-766; see `nextEncoding`. -/
def encodingAfter (enc : Enc) : PNode → Enc
  | .declaration _ v e s => nextEncoding enc (.declaration v e s)
  | _ => enc

/-- The loop of `TiXmlDocument::Parse`, parser lines 732-769; see `parseNodes`. -/
def nodes : ℕ → Enc → State → Text → List PNode → Run (List PNode × State)
  | _, _, s, [], l => .ok (l, s)
  | 0, _, _, _ :: _, _ => .endless
  | fuel + 1, enc, s, c :: rest, l =>
    if c ≠ '<' then .ok (l, s)
    else do
      let (n, p, s) ← node enc (3 * (rest.length + 2)) s (c :: rest)
      match skipWhiteSpace (encodingAfter enc n) p with
      | none => .ok (l ++ [n], s)
      | some p => nodes fuel (encodingAfter enc n) s p (l ++ [n])

/-- `TiXmlDocument::Parse`, parser lines 692-783, for `TIXML_ENCODING_UNKNOWN`: the nodes and the state; see `parseDocument`. -/
def document (tabsize : ℤ) (p : Text) : Run (List PNode × State) := do
  let s : State := ⟨start p tabsize, none⟩
  match p with
  | [] => do
    let s ← s.setError .documentEmpty none .unknown
    .ok ([], s)
  | p =>
    match skipWhiteSpace (startEncoding p) (some p) with
    | none => do
      let s ← s.setError .documentEmpty none .unknown
      .ok ([], s)
    | some q => do
      let (l, s) ← nodes (q.length + 1) (startEncoding p) s q []
      if l.isEmpty then do
        let s ← s.setError .documentEmpty none .unknown
        .ok (l, s)
      else .ok (l, s)

/-- `TiXmlDocument::LoadFile`, cc lines 944-1000, for a file that can be opened: the result, the nodes and the error.  The tab
size is 4 (cc lines 885, 891 and 900).  For an empty file no error is set (line 974). -/
def load (file : Text) : Run (Bool × List PNode × Option (ErrorId × Cursor)) :=
  if file = [] then .ok (false, [], none)
  else do
    let (l, s) ← document 4 file
    .ok (s.error.isNone, l, s.error)

/-- What `ErrorRow` and `ErrorCol` report, h lines 1232-1233; without an error the location is the one of `ClearError`, line
1265. -/
def errorShown : Option (ErrorId × Cursor) → ℤ × ℤ
  | none => (1, 1)
  | some (_, k) => k.shown

/-- The message of the exception for a file that cannot be loaded, GearXML.cc lines 491-503; `none` if there is none. -/
def loadMessage (fileName : String) (file : Text) : Run (Option String) := do
  let (okay, _, e) ← load file
  if okay then .ok none
  else .ok (some ("GearXML::createGearMgr error in file [" ++ fileName ++ ", row: " ++ toString (errorShown e).1 ++ ", col: " ++
    toString (errorShown e).2 ++ "] : " ++ ((e.map fun x => x.1.desc).getD "")))

end Gear.Xml.Place
