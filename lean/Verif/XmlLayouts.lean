/-
Model of the handlers of pad layouts: src/gearxml/RectangularPadRowLayoutXML.cc, FixedPadSizeDiskLayoutXML.cc,
FixedPadAngleDiskLayoutXML.cc, VersatileDiskRowLayoutXML.cc and PadRowLayout2DXML.cc.
-/
import Verif.XmlRead
import Verif.RectLayout
import Verif.PadSize
import Verif.PadAngle
import Verif.Versatile

set_option autoImplicit false
set_option linter.unusedSectionVars false

namespace Gear.Xml

open Rect (elemUb)

/-- The object after a call that succeeded. -/
def called {α : Type} : α × Res Unit → Res α
  | (a, .ok ()) => .ok a
  | (_, .throw e) => .throw e
  | (_, .ub) => .ub

/-! ### Rectangular layouts -/

/-- The element of one group of rows, RectangularPadRowLayoutXML.cc lines 49-64. -/
def rectRowNode (row : Rect.Row ℚ) (nRow : ℤ) : Node :=
  el "row" ((if nRow > 1 then [("repeat", printInt nRow)] else []) ++
    [("nPad", printInt row.nPad), ("padWidth", formatE row.padWidth), ("padHeight", formatE row.padHeight),
     ("rowHeight", formatE row.height), ("leftOffset", formatE row.leftOffset), ("rightOffset", formatE row.rightOffset)]) []

/-- The loop, RectangularPadRowLayoutXML.cc lines 47-69: the number of passes left, `i` and `theRow`. -/
def rectRows (L : Rect.Layout ℚ) : ℕ → ℕ → ℤ → Res (List Node)
  | 0, _, _ => .ok []
  | n + 1, i, theRow => do
    let row ← elemUb L.rows theRow
    let nRow ← elemUb L.nRows i
    let rest ← rectRows L n (i + 1) (theRow + nRow)
    .ok (rectRowNode row nRow :: rest)

/-- `toXML`, RectangularPadRowLayoutXML.cc lines 12-72. -/
def rectToXML (L : Rect.Layout ℚ) : Res Node := do
  let rowNum : ℤ := L.nRows.length
  let rowNum := if L.repeatRows > 1 then Int.tdiv rowNum L.repeatRows else rowNum
  let rows ← rectRows L rowNum.toNat 0 0
  .ok (el "PadRowLayout2D" ([("type", "RectangularPadRowLayout".toList), ("xMin", formatE L.xMin), ("xMax", formatE L.xMax),
    ("yMin", formatE L.yMin)] ++ (if L.repeatRows > 1 then [("RepeatRows", formatE L.repeatRows)] else [])) rows)

/-- The body of the loop over the rows, RectangularPadRowLayoutXML.cc lines 89-102. -/
def rectReadRow (L : Rect.Layout ℚ) (row : Node) : Res (Rect.Layout ℚ) := do
  let nRow ← intOr (some row) "repeat" 1
  let nPad ← int (some row) "nPad"
  let padWidth ← num (some row) "padWidth"
  let padHeight ← num (some row) "padHeight"
  let rowHeight ← numOr (some row) "rowHeight" 0
  let leftOffset ← numOr (some row) "leftOffset" 0
  let rightOffset ← numOr (some row) "rightOffset" 0
  called (Rect.addRow L nRow nPad padWidth padHeight rowHeight leftOffset rightOffset)

/-- `fromXML`, RectangularPadRowLayoutXML.cc lines 75-107.  The `int` becomes an `unsigned`, line 104. -/
def rectFromXML (e : Node) : Res (Rect.Layout ℚ) := do
  let xMin ← num (some e) "xMin"
  let xMax ← num (some e) "xMax"
  let yMin ← num (some e) "yMin"
  let repeatRowCount ← intOr (some e) "repeatRows" 1
  let L ← (e.named "row").foldlM rectReadRow (Rect.new xMin xMax yMin)
  called (Rect.repeatRows L (BitVec.ofInt 32 repeatRowCount).toNat)

/-! ### Disks with a fixed pad size -/

/-- `toXML`, FixedPadSizeDiskLayoutXML.cc lines 19-50. -/
def padSizeToXML (L : PadSize.Layout ℚ) : Res Node := do
  let rMin ← elemUb (PadSize.getPlaneExtent L) 0
  let rMax ← elemUb (PadSize.getPlaneExtent L) 1
  let phiMax ← elemUb (PadSize.getPlaneExtent L) 3
  .ok (el "PadRowLayout2D" [("type", "FixedPadSizeDiskLayout".toList), ("rMin", formatE rMin), ("rMax", formatE rMax),
    ("padHeight", formatE (PadSize.getPadHeight L 1)), ("padWidth", formatE (PadSize.getFixedPadWidth L)),
    ("maxRow", printInt (PadSize.getNRows L)), ("padGap", formatE (PadSize.getPadGap L)), ("phiMax", formatE phiMax)] [])

/-- `fromXML`, FixedPadSizeDiskLayoutXML.cc lines 53-74. -/
def padSizeFromXML (pi : ℚ) (e : Node) : Res (PadSize.Layout ℚ) := do
  let rMin ← num (some e) "rMin"
  let rMax ← num (some e) "rMax"
  let padHeight ← num (some e) "padHeight"
  let padWidth ← num (some e) "padWidth"
  let maxRow ← int (some e) "maxRow"
  let padGap ← num (some e) "padGap"
  let phiMax ← numOr (some e) "phiMax" (2 * pi)
  PadSize.new pi rMin rMax padHeight padWidth maxRow padGap phiMax

/-! ### Disks with a fixed pad angle -/

/-- `toXML`, FixedPadAngleDiskLayoutXML.cc lines 16-46. -/
def padAngleToXML (L : PadAngle.Layout ℚ) : Res Node := do
  let rMin ← elemUb (PadAngle.getPlaneExtent L) 0
  let rMax ← elemUb (PadAngle.getPlaneExtent L) 1
  let phiMin ← elemUb (PadAngle.getPlaneExtent L) 2
  let phiMax ← elemUb (PadAngle.getPlaneExtent L) 3
  .ok (el "PadRowLayout2D" [("type", "FixedPadAngleDiskLayout".toList), ("rMin", formatE rMin), ("rMax", formatE rMax),
    ("nRow", printInt (PadAngle.getNRows L)), ("phiMin", formatE phiMin), ("phiMax", formatE phiMax),
    ("nPadInRow", printInt (PadAngle.getNPadsInRow L))] [])

/-- `fromXML`, FixedPadAngleDiskLayoutXML.cc lines 49-61. -/
def padAngleFromXML (e : Node) : Res (PadAngle.Layout ℚ) := do
  let rMin ← num (some e) "rMin"
  let rMax ← num (some e) "rMax"
  let nRow ← int (some e) "nRow"
  let phiMin ← num (some e) "phiMin"
  let phiMax ← num (some e) "phiMax"
  let nPadsInRow ← int (some e) "nPadsInRow"
  PadAngle.new rMin rMax nRow phiMin phiMax nPadsInRow

/-! ### Disks with arbitrary rows -/

/-- The element of one row, VersatileDiskRowLayoutXML.cc lines 38-46; `getPadPitch`, `getPadWidth` and `getOffset` of a row are
angles, VersatileDiskRowLayout.h lines 55-61. -/
def versatileRowNode (row : Versatile.Row ℚ) : Node :=
  el "row" [("nPad", printInt row.nPads), ("padPitch", formatE row.padPitch), ("rowHeight", formatE row.rowHeight),
    ("padWidth", formatE row.padWidth), ("padHeight", formatE row.padHeight), ("offset", formatE row.offset)] []

/-- `toXML`, VersatileDiskRowLayoutXML.cc lines 17-52. -/
def versatileToXML (L : Versatile.Layout ℚ) : Res Node :=
  .ok (el "PadRowLayout2D" [("type", "VersatileDiskRowLayout".toList), ("rMin", formatE L.ext0)] (L.rows.map versatileRowNode))

/-- The body of the loop over the rows, VersatileDiskRowLayoutXML.cc lines 64-73; the name in line 68 is misspelt. -/
def versatileReadRow (pi : ℚ) (L : Versatile.Layout ℚ) (xmlRow : Node) : Res (Versatile.Layout ℚ) := do
  let nPad ← int (some xmlRow) "nPad"
  let padPitch ← num (some xmlRow) "padPitch"
  let rowHeight ← num (some xmlRow) "rowHeight"
  let padWidth ← numOr (some xmlRow) "padWidtht" 0
  let padHeight ← numOr (some xmlRow) "padHeight" 0
  let offset ← numOr (some xmlRow) "offset" 0
  let rep ← intOr (some xmlRow) "repeat" 1
  called (Versatile.addRow pi L ⟨nPad, padPitch, rowHeight, offset, padWidth, padHeight, rep⟩)

/-- `fromXML`, VersatileDiskRowLayoutXML.cc lines 55-77. -/
def versatileFromXML (pi : ℚ) (e : Node) : Res (Versatile.Layout ℚ) := do
  let rMin ← num (some e) "rMin"
  (e.named "row").foldlM (versatileReadRow pi) (Versatile.new rMin)

/-! ### The choice of the handler -/

/-- A pad layout of one of the four classes, `getPadLayoutImplType`. -/
inductive PadLayout where
  | rect (L : Rect.Layout ℚ)
  | padSize (L : PadSize.Layout ℚ)
  | padAngle (L : PadAngle.Layout ℚ)
  | versatile (L : Versatile.Layout ℚ)

/-- The result of `f`, as a pad layout. -/
def asLayout {α : Type} (f : α → PadLayout) : Res α → Res PadLayout
  | .ok a => .ok (f a)
  | .throw e => .throw e
  | .ub => .ub

/-- `getHandler( layout )` and `toXML` of the handler, PadRowLayout2DXML.cc lines 20-42. -/
def layoutToXML : PadLayout → Res Node
  | .rect L => rectToXML L
  | .padSize L => padSizeToXML L
  | .padAngle L => padAngleToXML L
  | .versatile L => versatileToXML L

/-- `getXMLAttribute( layout , "type" )`, `getHandler( type )` and `fromXML` of the handler, TPCModuleXML.cc lines 116-124 and
PadRowLayout2DXML.cc lines 15-18 and 44-60. -/
def layoutFromXML (pi : ℚ) (e : Node) : Res PadLayout := do
  let type ← attrOf (some e) "type"
  if type = "FixedPadSizeDiskLayout".toList then asLayout .padSize (padSizeFromXML pi e)
  else if type = "FixedPadAngleDiskLayout".toList then asLayout .padAngle (padAngleFromXML e)
  else if type = "RectangularPadRowLayout".toList then asLayout .rect (rectFromXML e)
  else if type = "VersatileDiskRowLayout".toList then asLayout .versatile (versatileFromXML pi e)
  else .throw .parse

end Gear.Xml
