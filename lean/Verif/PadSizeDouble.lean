/-
Model of `gear::FixedPadSizeDiskLayout` (`src/gearimpl/FixedPadSizeDiskLayout.cc`) with the arithmetic of `double`: every
operation is rounded, conversions to `int` may be out of range, and the loops that change an angle have a bound on the number
of passes.  `PadSize.lean` has the same functions in exact arithmetic.
-/
import Verif.PadSize
import Verif.PadAngleDouble

set_option autoImplicit false
set_option linter.unusedSectionVars false

namespace Gear.PadSize.Double

open PadIndex Disk
open Rect (elem elemUb)
open MaterialMap (Arith)
open PadAngle.Double (toInt floorInt loopUp loopDown)

variable {K : Type} [Field K] [LinearOrder K] [IsStrictOrderedRing K] [FloorRing K]

/-- Two loops, `while( phi < lo ) {  phi += 2. * M_PI  ; }` and `while( phi > hi ) {  phi -= 2. * M_PI  ; }`, lines 54-55,
273-274, 279-280, 513-514 and 544-545; `none` if one of them has not ended after `fuel` passes. -/
def wrap (F : Arith K) (fuel : ℕ) (lo hi phi : K) : Option K := (loopUp F lo fuel phi).bind (loopDown F hi fuel)

/-- The number of rows, lines 68-83. -/
def numRows (F : Arith K) (rMin rMax padHeight : K) (nRow : ℤ) : Res ℤ := do
  let nr ← toInt (F.div (F.sub (F.add rMax (F.rnd (1 / 100))) rMin) padHeight)
  return if nRow > nr then nr else if nRow > 0 then nRow else nr

/-- One pass of the loop over the rows, lines 99-118.  Simplification: a division by zero pads gives 0. -/
def mkRow (F : Arith K) (rMin phiMax padWidth padGap rowHeight : K) (i : ℕ) : Res (Row K) := do
  let rCenter := F.add (F.add rMin (F.mul i rowHeight)) (F.mul (1 / 2) rowHeight)
  let u := F.mul rCenter phiMax
  let nPad ← floorInt (F.div u (F.add padWidth padGap))
  return ⟨nPad, rCenter, F.div phiMax nPad⟩

/-- The loop over the rows, lines 99-118. -/
def mkRows (f : ℕ → Res (Row K)) : ℕ → Res (List (Row K))
  | 0 => .ok []
  | n + 1 => do
    let rows ← mkRows f n
    let row ← f n
    return rows ++ [row]

/-- Constructor, lines 28-119.  Simplification: a division by zero rows gives 0; the overflow of the number of pads is not
modelled. -/
def new (F : Arith K) (fuel : ℕ) (rMin rMax padHeight padWidth : K) (nRow : ℤ) (padGap phiMax : K) : Option (Res (Layout K)) :=
  if padHeight ≤ 0 ∨ padWidth ≤ 0 then some (.throw .parse)
  else
    match wrap F fuel (F.mul (-2) F.pi) (F.mul 2 F.pi) phiMax with
    | none => none
    | some phiMax => some do
      let nRow ← numRows F rMin rMax padHeight nRow
      if nRow < 0 then .throw .lengthError
      else
        let rowHeight := F.div (F.sub rMax rMin) nRow
        let rows ← mkRows (mkRow F rMin phiMax padWidth padGap rowHeight) nRow.toNat
        return { rMin, rMax, phiMax, padWidth, padHeight, padGap, nRow, rowHeight, rows
                 nPad := rows.foldl (fun s row => s + row.nPad) 0
                 extent := [rMin, rMax, 0, phiMax]
                 padIndices := List.replicate nRow.toNat none }

/-- `getPadWidth`, lines 166-179. -/
def getPadWidth (F : Arith K) (L : Layout K) (padIndex : ℤ) : K :=
  match elem L.rows (getRowNumber padIndex) with
  | some row => F.div L.padWidth row.rCenter
  | none => 0

/-- `getPadCenter`, lines 198-209. -/
def getPadCenter (F : Arith K) (L : Layout K) (padIndex : ℤ) : Res (K × K) := do
  let row ← elemUb L.rows (getRowNumber padIndex)
  return (row.rCenter, F.mul (F.add (getPadNumber padIndex : K) (1 / 2)) row.phiPad)

/-- The test for a full circle, line 270. -/
def fullCircle (F : Arith K) (L : Layout K) : Prop := |F.sub L.phiMax (F.mul 2 F.pi)| < F.rnd (1 / 1000000)

instance (F : Arith K) (L : Layout K) : Decidable (fullCircle F L) := by
  unfold fullCircle; infer_instance

/-- The row number from a radius on an edge, lines 355-358 and 368-371. -/
def clampRow (F : Arith K) (L : Layout K) (r : K) : Res ℤ := do
  let rowNum ← floorInt (F.div (F.sub r L.rMin) L.rowHeight)
  let rowNum := if rowNum < 0 then 0 else rowNum
  return if rowNum ≥ L.nRow then L.nRow - 1 else rowNum

/-- `getNearestPad`, lines 293-387: after the loops. -/
def nearestFrom (F : Arith K) (L : Layout K) (r phi rOnMin rOnMax : K) : Res ℤ :=
  if r > 0 ∧ phi ≥ 0 ∧ phi ≤ L.phiMax then do
    let rowNum ← if r < L.rMin then .ok 0 else floorInt (F.div (F.sub r L.rMin) L.rowHeight)
    let rowNum := if rowNum ≥ L.nRow then L.nRow - 1 else rowNum
    let row ← elemUb L.rows rowNum
    let padNum ← floorInt (F.div phi row.phiPad)
    let padNum := if padNum ≥ row.nPad then row.nPad - 1 else padNum
    getPadIndex L rowNum padNum
  else if rOnMin < L.rMin ∧ phi < 0 then getPadIndex L 0 0
  else if rOnMin > L.rMax ∧ phi < 0 then getPadIndex L (L.nRow - 1) 0
  else if rOnMax < L.rMin ∧ phi > L.phiMax then do
    let row ← elemUb L.rows 0
    getPadIndex L 0 (row.nPad - 1)
  else if rOnMax > L.rMax ∧ phi > L.phiMax then do
    let row ← elemUb L.rows (L.nRow - 1)
    getPadIndex L (L.nRow - 1) (row.nPad - 1)
  else if rOnMin ≥ L.rMin ∧ rOnMin ≤ L.rMax ∧ phi < 0 then do
    let rowNum ← clampRow F L rOnMin
    getPadIndex L rowNum 0
  else if rOnMax ≥ L.rMin ∧ rOnMax ≤ L.rMax ∧ phi > L.phiMax then do
    let rowNum ← clampRow F L rOnMax
    let row ← elemUb L.rows rowNum
    getPadIndex L rowNum (row.nPad - 1)
  else getPadIndex L 0 0

/-- `getNearestPad`, lines 260-387; `none` if one of the loops has not ended after `fuel` passes. -/
def getNearestPad (F : Arith K) (L : Layout K) (fuel : ℕ) (r phi : K) : Option (Res ℤ) :=
  if |r| < F.rnd (1 / 1000000) then some (.throw .gear)
  else if fullCircle F L then
    (wrap F fuel 0 (F.mul 2 F.pi) phi).map fun phi => nearestFrom F L r phi r r
  else
    (wrap F fuel (F.mul (-2) F.pi) (F.mul 2 F.pi) phi).map fun phi =>
      nearestFrom F L r phi (F.mul r (F.rnd (F.cos (F.sub phi 0)))) (F.mul r (F.rnd (F.cos (F.sub phi L.phiMax))))

/-- `isInsidePad(r, phi, padIndex)`, lines 498-535. -/
def isInsidePad (F : Arith K) (L : Layout K) (fuel : ℕ) (r phi : K) (padIndex : ℤ) : Option (Res Bool) :=
  if r < L.rMin ∨ r > L.rMax then some (.ok false)
  else (wrap F fuel 0 (F.mul 2 F.pi) phi).map fun phi => do
    let p ← getPadCenter F L padIndex
    let phiPadHalf := F.mul (1 / 2) (getPadWidth F L padIndex)
    return decide (|F.sub r p.1| ≤ F.mul (1 / 2) L.padHeight ∧ |F.sub phi p.2| ≤ phiPadHalf)

end Gear.PadSize.Double
