/-
Model of how tinyxml keeps track of rows and columns: `TiXmlCursor`, `TiXmlParsingData` and the error of a document.

Sources in src/gearxml: tinyxmlparser.cc ("parser"), tinyxmlerror.cc and include/gear/gearxml/tinyxml.h ("h").

Simplifications.  Pointers into the text are as in Xml.lean: the text from there on.  The pointers `Stamp` is called with are
never behind the end of the text, so that a pointer that stepped over the end is as good as the end.  Rows and columns do not
overflow.
-/
import Verif.Xml

set_option autoImplicit false
set_option linter.unusedSectionVars false

namespace Gear.Xml.Place

/-- `TiXmlCursor`, h lines 92-99. -/
structure Cursor where
  row : ℤ
  col : ℤ
deriving DecidableEq, Repr

/-- `TiXmlCursor::Clear`, h line 95. -/
def Cursor.clear : Cursor := ⟨-1, -1⟩

/-- `TiXmlParsingData`, parser lines 173-195. -/
structure Data where
  cursor : Cursor
  stamp : Text
  tabsize : ℤ
deriving DecidableEq

/-- The data with which a document is parsed, parser lines 716-719. -/
def start (text : Text) (tabsize : ℤ) : Data := ⟨⟨0, 0⟩, text, tabsize⟩

/-- `if (*p == c) ++p;`, parser lines 233-235 and 249-251. -/
def skipIf (c : Char) : Text → Text
  | [] => []
  | d :: r => if d = c then r else d :: r

/-- One pass of the loop of `Stamp`, parser lines 220-291, at the byte `c` with `rest` after it.  In UTF-8 the byte `ef` is not
stepped over if less than two bytes follow it (line 259). -/
def pass (enc : Enc) (tabsize : ℤ) (c : Char) (rest : Text) (k : Cursor) : Text × Cursor :=
  if c = '\r' then
    (skipIf '\n' rest, ⟨k.row + 1, 0⟩)
  else if c = '\n' then
    (skipIf '\r' rest, ⟨k.row + 1, 0⟩)
  else if c = '\t' then (rest, ⟨k.row, (k.col.tdiv tabsize + 1) * tabsize⟩)
  else if c.toNat = 0xef then
    if enc = .utf8 then
      match rest with
      | b :: d :: r => if isMark c b d then (r, k) else (r, ⟨k.row, k.col + 1⟩)
      | _ => (c :: rest, k)
    else (rest, ⟨k.row, k.col + 1⟩)
  else if enc = .utf8 then ((c :: rest).drop (utf8Width c), ⟨k.row, k.col + 1⟩)
  else (rest, ⟨k.row, k.col + 1⟩)

/-- The loop of `Stamp`, parser lines 214-292, for at most `fuel` passes.  The pointer is in front of `now` if more of the text
follows it; the zero at the end of the text (line 221) is never in front of `now`. -/
def stampLoop (enc : Enc) (tabsize : ℤ) (now : Text) : ℕ → Text → Cursor → Run (Text × Cursor)
  | fuel, p, k =>
    if now.length < p.length then
      match fuel, p with
      | _, [] => .ok ([], k)
      | 0, _ :: _ => .endless
      | fuel + 1, c :: rest => stampLoop enc tabsize now fuel (pass enc tabsize c rest k).1 (pass enc tabsize c rest k).2
    else .ok (p, k)

/-- `Stamp`, parser lines 198-298.  A pass steps over a byte or changes nothing, so that the length of the text is enough for
the loop if it ends (see `stamp_endless`). -/
def Data.stampAt (d : Data) (now : Text) (enc : Enc) : Run Data :=
  if d.tabsize < 1 then .ok d
  else do
    let (p, k) ← stampLoop enc d.tabsize now d.stamp.length d.stamp d.cursor
    .ok { d with cursor := k, stamp := p }

/-- Some calls of `Stamp`, the oldest first. -/
def Data.stamps (d : Data) : List (Text × Enc) → Run Data
  | [] => .ok d
  | (now, enc) :: l => do
    let d ← d.stampAt now enc
    d.stamps l

/-- `Row` and `Column`, h lines 189-190, `ErrorRow` and `ErrorCol`, h lines 1232-1233. -/
def Cursor.shown (k : Cursor) : ℤ × ℤ := (k.row + 1, k.col + 1)

end Gear.Xml.Place
