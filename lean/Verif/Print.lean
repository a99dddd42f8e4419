/-
Model of the printing of detectors, `src/gearimpl/Util.cc`: the rows that are written with `sprintf` into buffers of
1024 characters, and what printing does to the format flags of the stream.

Line numbers are those of `src/gearimpl/Util.cc`.  Doubles are rational numbers here; infinities and NaN, which are
printed with at most four characters, are not modelled.
-/
import Verif.XmlNum
import Verif.ZPlanar
import Verif.Ftd
import Verif.Telescope

set_option autoImplicit false
set_option linter.unusedSectionVars false

namespace Gear.Print

open Xml (Text natText printInt digitsOf roundEven)

/-- Blanks on the left up to the width `w` of a conversion. -/
def pad (w : ℕ) (t : Text) : Text := List.replicate (w - t.length) ' ' ++ t

/-- `%w.pf` of the C standard, for `p` greater than zero: the nearest decimal number with `p` digits after the
point. -/
def fixed (w p : ℕ) (v : ℚ) : Text :=
  let n := (roundEven (|v| * 10 ^ p)).toNat
  pad w ((if v < 0 then ['-'] else []) ++ natText (n / 10 ^ p) ++ '.' :: digitsOf p n)

/-- `%wd`. -/
def int (w : ℕ) (n : ℤ) : Text := pad w (printInt n)

/-- A part of a format string with its argument. -/
inductive Piece where
  | lit (t : String)
  | d (w : ℕ) (n : ℤ)
  | f (w p : ℕ) (v : ℚ)

/-- The characters of a part. -/
def Piece.text : Piece → Text
  | .lit t => t.toList
  | .d w n => int w n
  | .f w p v => fixed w p v

/-- The characters of a formatted text. -/
def format (l : List Piece) : Text := (l.map Piece.text).flatten

/-- `sprintf` into a buffer with `size` characters: with the final zero the text must fit. -/
def sprintf (size : ℕ) (l : List Piece) : Res Text :=
  if (format l).length + 1 ≤ size then .ok (format l) else .ub

/-- The loop over the layers: the rows one after the other. -/
def table (row : ℤ → Res Text) : ℕ → Res Text
  | 0 => .ok []
  | n + 1 => do
    let a ← table row n
    let b ← row n
    pure (a ++ b)

/-- One row of a `ZPlanar` detector, lines 522-531. -/
def zplanarPieces (l s : ZPlanar.Layer ℚ) : List Piece :=
  [.lit "  | ", .d 3 l.NLadders, .lit "  |  ", .f 4 2 l.Distance, .lit "  |  ", .f 4 2 l.Width, .lit "  |  ",
   .f 4 2 l.Length, .lit "  |  ", .f 4 2 l.Thickness, .lit "  |  ", .f 4 2 s.Distance, .lit "  |  ", .f 4 2 s.Width,
   .lit "  |  ", .f 4 2 s.Length, .lit "  |  ", .f 4 2 s.Thickness, .lit "  |\n"]

/-- The rows of a `ZPlanar` detector, lines 519-535. -/
def zplanarRows (L : ZPlanar.Layout ℚ) : Res Text :=
  table (fun i => do
    let l ← ZPlanar.layerAt L i false
    let s ← ZPlanar.layerAt L i true
    sprintf 1024 (zplanarPieces l s)) L.length

/-- One row of an FTD, lines 581-590. -/
def ftdPieces (l s : Ftd.Layer ℚ) : List Piece :=
  [.lit "  | ", .d 3 l.nPetals, .lit "  |  ", .f 4 2 l.lengthMin, .lit "  |  ", .f 4 2 l.lengthMax, .lit "  |  ",
   .f 4 2 l.width, .lit "  |  ", .f 4 2 l.thickness, .lit "  |  ", .f 4 2 s.lengthMin, .lit "  |  ", .f 4 2 s.lengthMax,
   .lit "  |  ", .f 4 2 s.width, .lit "  |  ", .f 4 2 s.thickness, .lit "  |\n"]

/-- The rows of an FTD, lines 578-594.  All getters look up the layer with `getEquivLayer`. -/
def ftdRows (L : Ftd.Layout ℚ) : Res Text :=
  table (fun i => do
    let l ← Ftd.sup L i
    let s ← Ftd.sen L i
    sprintf 1024 (ftdPieces l s)) L.length

/-- One row of a telescope, lines 663-689. -/
def siPieces (l : Telescope.Layer ℚ) (s : Telescope.SensLayer ℚ) : List Piece :=
  [.lit "  |", .d 5 l.id, .lit "|", .f 5 2 l.positionX, .lit "|", .f 5 2 l.positionY, .lit "|", .f 7 2 l.positionZ,
   .lit "|", .f 5 2 l.rotationXY, .lit "|", .f 5 2 l.rotationZX, .lit "|", .f 5 2 l.rotationZY, .lit "|",
   .f 6 2 l.sizeX, .lit "|", .f 6 2 l.sizeY, .lit "|", .f 6 3 l.thickness, .lit "|", .d 5 s.id, .lit "|",
   .f 5 2 s.positionX, .lit "|", .f 5 2 s.positionY, .lit "|", .f 7 2 s.positionZ, .lit "|", .f 5 2 s.sizeX, .lit "|",
   .f 5 2 s.sizeY, .lit "|", .f 6 3 s.thickness, .lit "|", .d 5 s.npixelX, .lit "|", .d 5 s.npixelY, .lit "|",
   .f 6 2 s.pitchX, .lit "|", .f 6 2 s.pitchY, .lit "|", .f 6 4 s.resolution, .lit "|", .f 5 2 s.rotation1, .lit "|",
   .f 5 2 s.rotation2, .lit "|", .f 5 2 s.rotation3, .lit "|", .f 5 2 s.rotation4, .lit "|\n"]

/-- The rows of a telescope, lines 660-693. -/
def siRows (s : Telescope.Si ℚ) : Res Text :=
  table (fun i => do
    let l ← Telescope.at' s.lVec i
    let x ← Telescope.at' s.sVec i
    sprintf 1024 (siPieces l x)) s.lVec.length

/-- The row of the device under test, lines 719-741. -/
def dutPieces (l : Telescope.Layer ℚ) (s : Telescope.SensLayer ℚ) : List Piece :=
  [.lit "  |", .d 5 l.id, .lit "|", .f 5 2 l.positionX, .lit "|", .f 5 2 l.positionY, .lit "|", .f 7 2 l.positionZ,
   .lit "|", .f 6 2 l.sizeX, .lit "|", .f 6 2 l.sizeY, .lit "|", .f 6 3 l.thickness, .lit "|", .d 5 s.id, .lit "|",
   .f 5 2 s.positionX, .lit "|", .f 5 2 s.positionY, .lit "|", .f 7 2 s.positionZ, .lit "|", .f 5 2 s.sizeX, .lit "|",
   .f 5 2 s.sizeY, .lit "|", .f 6 3 s.thickness, .lit "|", .d 5 s.npixelX, .lit "|", .d 5 s.npixelY, .lit "|",
   .f 6 2 s.pitchX, .lit "|", .f 6 2 s.pitchY, .lit "|", .f 5 2 s.rotation1, .lit "|", .f 5 2 s.rotation2, .lit "|",
   .f 5 2 s.rotation3, .lit "|", .f 5 2 s.rotation4, .lit "|\n"]

/-- The row of the device under test, lines 718-743. -/
def dutRow (s : Telescope.Si ℚ) : Res Text := sprintf 1024 (dutPieces s.lDut s.sDut)

/-! ### The format of the stream -/

/-- The float field of a stream. -/
inductive FloatField where
  | default
  | fixed
  | scientific
deriving DecidableEq

/-- The base of integers. -/
inductive Base where
  | dec
  | oct
  | hex
deriving DecidableEq

/-- The format of a stream, as far as the code changes it. -/
structure Format where
  float : FloatField
  showpos : Bool
  precision : ℕ
  base : Base
deriving DecidableEq

/-- The manipulators that are used. -/
inductive Manip where
  | showpos
  | noshowpos
  | scientific
  | fixed
  | setprecision (n : ℕ)
  | dec

/-- Their effect. -/
def Manip.apply (f : Format) : Manip → Format
  | .showpos => { f with showpos := true }
  | .noshowpos => { f with showpos := false }
  | .scientific => { f with float := .scientific }
  | .fixed => { f with float := .fixed }
  | .setprecision n => { f with precision := n }
  | .dec => { f with base := .dec }

/-- What `operator<<` of a `SimpleMaterial` applies to the stream, lines 220-235. -/
def materialManips (f : Format) : List Manip :=
  [.showpos, .scientific, .setprecision 8, .noshowpos, .fixed, .setprecision f.precision, .dec]

/-- The format of the stream after a material. -/
def afterMaterial (f : Format) : Format := (materialManips f).foldl Manip.apply f

/-- The format of the stream after a manager with `n` materials, lines 18-216: no other function changes it. -/
def afterManager (f : Format) : ℕ → Format
  | 0 => f
  | n + 1 => afterManager (afterMaterial f) n

end Gear.Print
