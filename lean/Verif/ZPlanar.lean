/-
Model of `gear::ZPlanarLayerLayoutImpl` (`src/gearimpl/ZPlanarLayerLayout.cc`,
`include/gear/gearimpl/ZPlanarLayerLayoutImpl.h`) and `gear::ZPlanarParametersImpl`
(`src/gearimpl/ZPlanarParametersImpl.cc`, `include/gear/gearimpl/ZPlanarParametersImpl.h`).
In the citations "layout", "layout header", "params" and "params header" are these four files.

Simplifications that hold throughout: numbers are exact, also where the code stores them in a `float`
(`getMaxRadius`, the border arguments of `distanceToPlane` and `correctToBorderPoint`; the conversions are in
`ZPlanarFloat`); there is no negative zero;
a NaN can arise only from the quotient inside `atan`, and is then represented by `none`.
-/
import Verif.Vector3D

set_option autoImplicit false
set_option linter.unusedSectionVars false

namespace Gear.ZPlanar

open TpcModule (TrigFns)
open Vector3D (V3)

/-- The functions of `<math.h>` used in addition to those of the TPC code. -/
structure PlanarFns (K : Type) extends TrigFns K where
  atan : K → K
  tan : K → K

/-- `ZPlanarLayerLayoutImpl::Layer`, layout header lines 28-37. -/
structure Layer (K : Type) where
  NLadders : ℤ
  internalPhi0 : K
  Distance : K
  Offset : K
  Thickness : K
  Length : K
  Width : K
  RadLength : K
deriving DecidableEq, Repr

/-- The elements of the vectors `_lVec` and `_sVec`, layout header lines 164-167.  Simplification: the two
vectors are one list of pairs, as `addLayer`, the only function that changes them, appends to both. -/
abbrev Layout (K : Type) := List (Layer K × Layer K)

/-- The members of `ZPlanarParametersImpl`, params header lines 151-163. -/
structure Params (K : Type) where
  layer : Layout K
  type : ℤ
  shellInnerRadius : K
  shellOuterRadius : K
  shellHalfLength : K
  shellGap : K
  shellRadLength : K

/-- `ZPlanarParameters::SensorID`, `ZPlanarParameters.h`. -/
structure SensorID where
  layer : ℤ
  side : ℤ
  module : ℤ
  sensor : ℤ
deriving DecidableEq, Repr

/-- The arguments of `addLayer` that describe a ladder or a sensitive volume, layout lines 8-12. -/
structure Size (K : Type) where
  distance : K
  offset : K
  thickness : K
  length : K
  width : K
  radLength : K
deriving DecidableEq, Repr

variable {K : Type} [Field K] [LinearOrder K] [IsStrictOrderedRing K]

/-- The constructor, params lines 17-24. -/
def new (type : ℤ) (innerRadius outerRadius halfLength gap radLength : K) : Params K where
  layer := []
  type := type
  shellInnerRadius := innerRadius
  shellOuterRadius := outerRadius
  shellHalfLength := halfLength
  shellGap := gap
  shellRadLength := radLength

/-- The layer `addLayer` makes of its arguments, layout lines 25-42. -/
def mkLayer (F : PlanarFns K) (nLadders : ℤ) (phi0 : K) (s : Size K) : Layer K where
  NLadders := nLadders
  internalPhi0 := F.pi / 2 - phi0
  Distance := s.distance
  Offset := s.offset
  Thickness := s.thickness
  Length := s.length
  Width := s.width
  RadLength := s.radLength

/-- `addLayer`, layout lines 6-46. -/
def addLayer (F : PlanarFns K) (L : Layout K) (nLadders : ℤ) (phi0 : K) (ladder sensitive : Size K) : Layout K :=
  L ++ [(mkLayer F nLadders phi0 ladder, mkLayer F nLadders phi0 sensitive)]

/-- `ZPlanarParametersImpl::addLayer`, params header lines 66-77. -/
def Params.addLayer (F : PlanarFns K) (P : Params K) (nLadders : ℤ) (phi0 : K) (ladder sensitive : Size K) :
    Params K :=
  { P with layer := ZPlanar.addLayer F P.layer nLadders phi0 ladder sensitive }

/-- `getNLayers`, layout header line 46. -/
def getNLayers (L : Layout K) : ℤ := L.length

/-- `_lVec.at( layerIndex )` and `_sVec.at( layerIndex )`: a negative index becomes a large unsigned number. -/
def layerAt (L : Layout K) (layerIndex : ℤ) (sensitive : Bool) : Res (Layer K) :=
  if layerIndex < 0 then .throw .outOfRange
  else match L[layerIndex.toNat]? with
    | none => .throw .outOfRange
    | some l => .ok (if sensitive then l.2 else l.1)

/-- `getNLadders`, layout header line 51. -/
def getNLadders (L : Layout K) (i : ℤ) : Res ℤ := do let l ← layerAt L i false; pure l.NLadders
/-- `getPhi0`, layout header line 57. -/
def getPhi0 (F : PlanarFns K) (L : Layout K) (i : ℤ) : Res K := do
  let l ← layerAt L i false; pure (F.pi / 2 - l.internalPhi0)
/-- `getLadderRadLength`, layout header line 62. -/
def getLadderRadLength (L : Layout K) (i : ℤ) : Res K := do let l ← layerAt L i false; pure l.RadLength
/-- `getLadderDistance`, layout header line 67. -/
def getLadderDistance (L : Layout K) (i : ℤ) : Res K := do let l ← layerAt L i false; pure l.Distance
/-- `getLadderThickness`, layout header line 72. -/
def getLadderThickness (L : Layout K) (i : ℤ) : Res K := do let l ← layerAt L i false; pure l.Thickness
/-- `getLadderOffset`, layout header line 81. -/
def getLadderOffset (L : Layout K) (i : ℤ) : Res K := do let l ← layerAt L i false; pure l.Offset
/-- `getLadderWidth`, layout header line 86. -/
def getLadderWidth (L : Layout K) (i : ℤ) : Res K := do let l ← layerAt L i false; pure l.Width
/-- `getLadderLength`, layout header line 94. -/
def getLadderLength (L : Layout K) (i : ℤ) : Res K := do let l ← layerAt L i false; pure l.Length
/-- `getSensitiveRadLength`, layout header line 99. -/
def getSensitiveRadLength (L : Layout K) (i : ℤ) : Res K := do let l ← layerAt L i true; pure l.RadLength
/-- `getSensitiveDistance`, layout header line 103. -/
def getSensitiveDistance (L : Layout K) (i : ℤ) : Res K := do let l ← layerAt L i true; pure l.Distance
/-- `getSensitiveThickness`, layout header line 107. -/
def getSensitiveThickness (L : Layout K) (i : ℤ) : Res K := do let l ← layerAt L i true; pure l.Thickness
/-- `getSensitiveOffset`, layout header line 112. -/
def getSensitiveOffset (L : Layout K) (i : ℤ) : Res K := do let l ← layerAt L i true; pure l.Offset
/-- `getSensitiveWidth`, layout header line 116. -/
def getSensitiveWidth (L : Layout K) (i : ℤ) : Res K := do let l ← layerAt L i true; pure l.Width
/-- `getSensitiveLength`, layout header line 120. -/
def getSensitiveLength (L : Layout K) (i : ℤ) : Res K := do let l ← layerAt L i true; pure l.Length

/-- `atan( a / b )`: the limit if only `b` is zero, NaN if both are. -/
def atanQuot (F : PlanarFns K) (a b : K) : Option K :=
  if b = 0 then (if a = 0 then none else if 0 < a then some (F.pi / 2) else some (-F.pi / 2))
  else some (F.atan (a / b))

/-- Layout lines 60-64. -/
def maxRadius (F : PlanarFns K) (l : Layer K) : K :=
  let d := l.Distance + l.Thickness
  let w := l.Width / 2 + |l.Offset|
  F.sqrt (d * d + w * w)

/-- `getMaxRadius`, layout lines 49-65. -/
def getMaxRadius (F : PlanarFns K) (L : Layout K) (i : ℤ) (sensitive : Bool) : Res K := do
  let l ← layerAt L i sensitive; pure (maxRadius F l)

/-- Layout line 77. -/
def startInnerPhi (F : PlanarFns K) (l : Layer K) : Option K :=
  (atanQuot F (-l.Width / 2 - l.Offset) l.Distance).map (l.internalPhi0 + ·)
/-- Layout line 90. -/
def endInnerPhi (F : PlanarFns K) (l : Layer K) : Option K :=
  (atanQuot F (l.Width / 2 - l.Offset) l.Distance).map (l.internalPhi0 + ·)
/-- Layout line 104. -/
def startOuterPhi (F : PlanarFns K) (l : Layer K) : Option K :=
  (atanQuot F (l.Width / 2 + l.Offset) (l.Distance + l.Thickness)).map (l.internalPhi0 - ·)
/-- Layout line 117. -/
def endOuterPhi (F : PlanarFns K) (l : Layer K) : Option K :=
  (atanQuot F (l.Width / 2 - l.Offset) (l.Distance + l.Thickness)).map (l.internalPhi0 + ·)

/-- `getStartInnerPhi`, layout lines 68-78. -/
def getStartInnerPhi (F : PlanarFns K) (L : Layout K) (i : ℤ) (sensitive : Bool) : Res (Option K) := do
  let l ← layerAt L i sensitive; pure (startInnerPhi F l)
/-- `getEndInnerPhi`, layout lines 81-91. -/
def getEndInnerPhi (F : PlanarFns K) (L : Layout K) (i : ℤ) (sensitive : Bool) : Res (Option K) := do
  let l ← layerAt L i sensitive; pure (endInnerPhi F l)
/-- `getStartOuterPhi`, layout lines 95-105: the flag selects the other vector. -/
def getStartOuterPhi (F : PlanarFns K) (L : Layout K) (i : ℤ) (sensitive : Bool) : Res (Option K) := do
  let l ← layerAt L i (!sensitive); pure (startOuterPhi F l)
/-- `getEndOuterPhi`, layout lines 108-118: the flag selects the other vector. -/
def getEndOuterPhi (F : PlanarFns K) (L : Layout K) (i : ℤ) (sensitive : Bool) : Res (Option K) := do
  let l ← layerAt L i (!sensitive); pure (endOuterPhi F l)

/-- `a <= b` for numbers that may be NaN. -/
def leO (a b : Option K) : Bool :=
  match a, b with
  | some x, some y => decide (x ≤ y)
  | _, _ => false

/-- `a < b` for numbers that may be NaN. -/
def ltO (a b : Option K) : Bool :=
  match a, b with
  | some x, some y => decide (x < y)
  | _, _ => false

/-- `getThicknessForPhi`, layout lines 121-155.  Simplification: the divisors `cos( phi )` and `sin( phi )` are
taken as in the field, where a quotient by zero is zero. -/
def getThicknessForPhi (F : PlanarFns K) (L : Layout K) (i : ℤ) (phi : K) (sensitive : Bool) : Res K := do
  let l ← layerAt L i sensitive
  let si ← getStartInnerPhi F L i sensitive
  let ei ← getEndInnerPhi F L i sensitive
  let so ← getStartOuterPhi F L i sensitive
  let eo ← getEndOuterPhi F L i sensitive
  if ltO (some phi) si || ltO ei (some phi) then pure (-1)
  else if leO so (some phi) && leO (some phi) eo then pure (l.Thickness / F.cos phi)
  else
    let distanceSpacePoint := l.Distance * F.tan phi
    let cutAwayLength := l.Width / 2 - l.Offset - distanceSpacePoint
    pure (cutAwayLength / F.sin phi)

/-- `_EPSILON`, params line 5. -/
def EPSILON : K := 1 / 10000

/-- `correctPhiRange`, params lines 815-826. -/
def correctPhiRange (F : PlanarFns K) (phi : K) : K :=
  if phi > F.pi then phi - 2 * F.pi
  else if phi ≤ -F.pi then phi + 2 * F.pi
  else phi

/-- `getPhiPoint`, params lines 829-855.  The values assigned in lines 836-843 are always overwritten, because the
`else` of line 848 belongs to the condition of line 845 only. -/
def getPhiPoint (F : PlanarFns K) (p : V3 K) : Option K :=
  let pPhi :=
    if p.x ≠ 0 ∧ p.y < 0 then (atanQuot F p.x p.y).map (· + F.pi)
    else atanQuot F p.x p.y
  pPhi.map (correctPhiRange F)

/-- `isEqual( double, double )`, params lines 859-881. -/
def isEqual (a b : K) : Bool :=
  if a = b then true
  else if a * b = 0 then decide (|a - b| < EPSILON)
  else if |a| < EPSILON ∧ |b| < EPSILON then true
  else decide (|2 * (a - b)| / (|a| + |b|) < EPSILON)

/-- `isEqual( Vector3D, Vector3D )`, params lines 884-892. -/
def isEqualV (a b : V3 K) : Bool := decide (a.x = b.x ∧ a.y = b.y ∧ a.z = b.z)

/-- `differsLess`, params lines 895-900. -/
def differsLess (a b : K) : Bool := decide (|a| + |b| < EPSILON)

/-- `correctToBorderPoint`, params lines 776-812. -/
def correctToBorderPoint (vPlane u v : V3 K) (minU maxU minV maxV : K) : V3 K :=
  let neededUs := vPlane.x * u.x + vPlane.y * u.y + vPlane.z * u.z
  let neededVs := vPlane.x * v.x + vPlane.y * v.y + vPlane.z * v.z
  let goUs := if neededUs > maxU then maxU else if neededUs < minU then minU else neededUs
  let goVs := if neededVs > maxV then maxV else if neededVs < minV then minV else neededVs
  if neededUs < minU ∨ neededUs > maxU ∨ neededVs < minV ∨ neededVs > maxV then
    ⟨goUs * u.x + goVs * v.x, goUs * u.y + goVs * v.y, goUs * u.z + goVs * v.z⟩
  else vPlane

/-- `distanceToPlane`, params lines 669-737. -/
def distanceToPlane (p r n u v : V3 K) (minU maxU minV maxV : K) : V3 K :=
  if n.x = 0 ∧ n.y = 0 ∧ n.z = 0 then ⟨0, 0, 0⟩
  else if isEqual (n.x * (u.x + v.x) + n.y * (u.y + v.y) + n.z * (u.z + v.z)) 0 = false then ⟨0, 0, 0⟩
  else
    let d := r.x * n.x + r.y * n.y + r.z * n.z
    let t := -(n.x * p.x + n.y * p.y + n.z * p.z - d)
    let pn : V3 K := ⟨p.x + n.x * t, p.y + n.y * t, p.z + n.z * t⟩
    let vn : V3 K := ⟨pn.x - r.x, pn.y - r.y, pn.z - r.z⟩
    let vCor := correctToBorderPoint vn u v minU maxU minV maxV
    ⟨r.x + vCor.x - p.x, r.y + vCor.y - p.y, r.z + vCor.z - p.z⟩

/-- `planeLineIntersection`, params lines 741-772. -/
def planeLineIntersection (F : PlanarFns K) (r n linePoint lineDir : V3 K) : V3 K :=
  let distance := (r.x * n.x + r.y * n.y + r.z * n.z) / F.sqrt (n.x * n.x + n.y * n.y + n.z * n.z)
  let numerator := distance - n.x * linePoint.x - n.y * linePoint.y - n.z * linePoint.z
  let denominator := n.x * lineDir.x + n.y * lineDir.y + n.z * lineDir.z
  if denominator = 0 then ⟨0, 0, 0⟩
  else
    let t := numerator / denominator
    if t < 0 then ⟨0, 0, 0⟩
    else ⟨linePoint.x + t * lineDir.x, linePoint.y + t * lineDir.y, linePoint.z + t * lineDir.z⟩

/-- The local variables of params lines 73-90, 235-251 and 452-464. -/
structure Body (K : Type) where
  zEnd : K
  left : K
  right : K
  thick : K
  d : K

/-- Params lines 73-90, 235-251 and 452-464. -/
def body (gap : K) (sensitive : Bool) (l : Layer K × Layer K) : Body K :=
  let s := if sensitive then l.2 else l.1
  { zEnd := s.Length + gap / 2
    left := -s.Width / 2 - s.Offset
    right := s.Width / 2 - s.Offset
    thick := s.Thickness
    d := s.Distance }

/-- The angle of ladder `i`, params lines 103-104, 256-257 and 479-480. -/
def ladderPhi (F : PlanarFns K) (l : Layer K × Layer K) (i : ℕ) : K :=
  correctPhiRange F (l.1.internalPhi0 + i * ((2 * F.pi) / l.1.NLadders))

/-- `nBase`, params lines 123-125. -/
def nBase (F : PlanarFns K) (phi : K) : V3 K := ⟨F.sin phi, F.cos phi, 0⟩
/-- `nSide`, params lines 127-129. -/
def nSide (F : PlanarFns K) (phi : K) : V3 K := ⟨F.cos phi, -F.sin phi, 0⟩
/-- `nZ`, params lines 131-137. -/
def nZ (p : V3 K) : V3 K := ⟨0, 0, if p.z < 0 then -1 else 1⟩

/-- `isInRange`, params lines 111-114 and 264-267. -/
def isInRange (s e p : Option K) : Bool :=
  (leO s p && leO p e) || (ltO e s && leO p e) || (ltO e s && leO s p)

/-- The length of a vector, params lines 146, 341, 385 and 416. -/
def norm (F : PlanarFns K) (v : V3 K) : K := F.sqrt (v.x * v.x + v.y * v.y + v.z * v.z)

/-- The quick checks, params lines 54-71; true if the layer is skipped. -/
def skipLayer (F : PlanarFns K) (gap : K) (sensitive : Bool) (p : V3 K) (l : Layer K × Layer K) : Bool :=
  let s := if sensitive then l.2 else l.1
  let pRadius := F.sqrt (p.x * p.x + p.y * p.y)
  decide (pRadius < s.Distance - EPSILON) || decide (pRadius > maxRadius F s + EPSILON)
    || decide (|p.z| > s.Length + gap / 2 + EPSILON)

/-- The body of the loop over the ladders, params lines 103-165. -/
def ladderHit (F : PlanarFns K) (gap : K) (sensitive : Bool) (p : V3 K) (l : Layer K × Layer K) (i : ℕ) : Bool :=
  let s := if sensitive then l.2 else l.1
  let b := body gap sensitive l
  let deltaPhi := (2 * F.pi) / l.1.NLadders
  let phi := ladderPhi F l i
  let sPhi := (startInnerPhi F s).map (fun a => correctPhiRange F (a + i * deltaPhi - EPSILON))
  let ePhi := (endInnerPhi F s).map (fun a => correctPhiRange F (a + i * deltaPhi + EPSILON))
  if isInRange sPhi ePhi (getPhiPoint F p) = false then false
  else
    let nB := nBase F phi
    let r : V3 K := ⟨b.d * nB.x, b.d * nB.y, b.d * nB.z⟩
    let w := distanceToPlane p r nB (nSide F phi) (nZ p) b.left b.right (gap / 2) b.zEnd
    let c := norm F w
    (differsLess nB.x w.x || isEqual w.x (-c * nB.x))
      && (differsLess nB.y w.y || isEqual w.y (-c * nB.y))
      && (differsLess nB.z w.z || isEqual w.z (-c * nB.z))
      && (decide (c ≤ b.thick) || isEqual c b.thick)

/-- The loop over the layers, params lines 49-186. -/
def pointLoop (F : PlanarFns K) (gap : K) (sensitive : Bool) (p : V3 K) : ℕ → Layout K → Option SensorID
  | _, [] => none
  | k, l :: ls =>
    if skipLayer F gap sensitive p l then pointLoop F gap sensitive p (k + 1) ls
    else match (List.range l.1.NLadders.toNat).find? (ladderHit F gap sensitive p l) with
      | none => pointLoop F gap sensitive p (k + 1) ls
      | some i => some { layer := k
                         side := if p.z ≥ 0 then 1 else -1
                         module := if i = 0 then 0 else l.1.NLadders - i
                         sensor := 0 }

/-- `isPointInLadder( p, sensitive, sensorID )`, params lines 27-190: `some` if it returns true, with what is
written to the sensor ID. -/
def isPointIn (F : PlanarFns K) (P : Params K) (p : V3 K) (sensitive : Bool) : Option SensorID :=
  if |P.shellHalfLength| > 1 / 1000 ∧
      (|p.z| > P.shellHalfLength + P.shellGap / 2 ∨ |p.z| < P.shellGap / 2) then none
  else pointLoop F P.shellGap sensitive p 0 P.layer

/-- `isPointInLadder`, params header lines 113-115. -/
def isPointInLadder (F : PlanarFns K) (P : Params K) (p : V3 K) : Bool := (isPointIn F P p false).isSome

/-- `isPointInSensitive`, params header lines 119-121. -/
def isPointInSensitive (F : PlanarFns K) (P : Params K) (p : V3 K) : Option SensorID := isPointIn F P p true

/-- The vector found so far and its length: `vPointPlane` and `minDistance`, params lines 225-226. -/
abbrev Best (K : Type) := V3 K × K

/-- Params lines 341-344, with `<=`. -/
def considerLe (F : PlanarFns K) (best : Best K) (w : V3 K) : Best K :=
  if norm F w ≤ best.2 then (w, norm F w) else best
/-- Params lines 385-388 and 416-420, with `<`. -/
def considerLt (F : PlanarFns K) (best : Best K) (w : V3 K) : Best K :=
  if norm F w < best.2 then (w, norm F w) else best

/-- The six faces of a ladder in the order in which they are tried, params lines 298-427. -/
def nearestFaces (F : PlanarFns K) (gap : K) (b : Body K) (p : V3 K) (phi : K) (best : Best K) : Best K :=
  let nB := nBase F phi
  let nS := nSide F phi
  let nz := nZ p
  let sp := Vector3D.smul b.d nB
  let best := considerLe F best (distanceToPlane p (Vector3D.add sp (Vector3D.smul 0 nB)) nB nS nz
    b.left b.right (gap / 2) b.zEnd)
  let best := considerLe F best (distanceToPlane p (Vector3D.add sp (Vector3D.smul b.thick nB)) nB nS nz
    b.left b.right (gap / 2) b.zEnd)
  let best := considerLt F best (distanceToPlane p (Vector3D.add sp (Vector3D.smul b.left nS)) nS nB nz
    0 b.thick (gap / 2) b.zEnd)
  let best := considerLt F best (distanceToPlane p (Vector3D.add sp (Vector3D.smul b.right nS)) nS nB nz
    0 b.thick (gap / 2) b.zEnd)
  let best := considerLt F best (distanceToPlane p (Vector3D.add sp (Vector3D.smul b.zEnd nz)) nz nB nS
    0 b.thick b.left b.right)
  considerLt F best (distanceToPlane p (Vector3D.add sp (Vector3D.smul (gap / 2) nz)) nz nB nS
    0 b.thick b.left b.right)

/-- Params lines 259-267. -/
def nearInRange (F : PlanarFns K) (p : V3 K) (l : Layer K × Layer K) (i : ℕ) : Bool :=
  let deltaPhi := (2 * F.pi) / l.1.NLadders
  let phi := ladderPhi F l i
  isInRange (some (correctPhiRange F (phi - deltaPhi))) (some (correctPhiRange F (phi + deltaPhi))) (getPhiPoint F p)

/-- The body of the loop over the ladders, params lines 256-427. -/
def nearestLadder (F : PlanarFns K) (gap : K) (sensitive : Bool) (p : V3 K) (l : Layer K × Layer K)
    (best : Best K) (i : ℕ) : Best K :=
  if nearInRange F p l i = false then best
  else nearestFaces F gap (body gap sensitive l) p (ladderPhi F l i) best

/-- The body of the loop over the layers, params lines 231-429. -/
def nearestLayer (F : PlanarFns K) (gap : K) (sensitive : Bool) (p : V3 K) (best : Best K)
    (l : Layer K × Layer K) : Best K :=
  (List.range l.1.NLadders.toNat).foldl (nearestLadder F gap sensitive p l) best

/-- `distanceToNearestLadder( p, sensitive )`, params lines 193-435. -/
def distanceToNearest (F : PlanarFns K) (P : Params K) (p : V3 K) (sensitive : Bool) : V3 K :=
  if (isPointIn F P p sensitive).isSome then ⟨0, 0, 0⟩
  else if 0 = p.x ∧ 0 = p.y ∧ 0 = p.z then
    match P.layer with
    | [] => ⟨0, 0, 0⟩
    | l :: _ => Vector3D.cylindrical F.toTrigFns l.1.Distance (-l.1.internalPhi0) (P.shellGap / 2)
  else (P.layer.foldl (nearestLayer F P.shellGap sensitive p) (Vector3D.zero, 9999999 / 100)).1

/-- `distanceToNearestLadder`, params header lines 125-127. -/
def distanceToNearestLadder (F : PlanarFns K) (P : Params K) (p : V3 K) : V3 K := distanceToNearest F P p false
/-- `distanceToNearestSensitive`, params header lines 131-133. -/
def distanceToNearestSensitive (F : PlanarFns K) (P : Params K) (p : V3 K) : V3 K := distanceToNearest F P p true

/-- One face of a ladder, params lines 519-548, 576-603 and 627-654. -/
def crossFace (F : PlanarFns K) (p v spacePoint : V3 K) (best : Best K) (r n u w : V3 K)
    (minU maxU minV maxV : K) : Best K :=
  let interSection := planeLineIntersection F r n p v
  let vip := Vector3D.sub interSection p
  let vn := Vector3D.sub interSection spacePoint
  let inBorder := correctToBorderPoint vn u w minU maxU minV maxV
  if isEqualV inBorder vn then
    (if norm F vip < best.2 then (interSection, norm F vip) else best)
  else best

/-- The six faces of a ladder in the order in which they are tried, params lines 482-656; `zStart` and `zEnd` are
those of the side. -/
def crossFaces (F : PlanarFns K) (p v : V3 K) (b : Body K) (zStart zEnd : K) (phi : K) (best : Best K) : Best K :=
  let nB := nBase F phi
  let nS := nSide F phi
  let nz : V3 K := ⟨0, 0, 1⟩
  let sp : V3 K := ⟨b.d * nB.x, b.d * nB.y, b.d * nB.z⟩
  let best := crossFace F p v sp best sp nB nS nz b.left b.right zStart zEnd
  let best := crossFace F p v sp best ⟨(b.d + b.thick) * nB.x, (b.d + b.thick) * nB.y, (b.d + b.thick) * nB.z⟩
    nB nS nz b.left b.right zStart zEnd
  let best := crossFace F p v sp best (Vector3D.add sp (Vector3D.smul b.left nS)) nS nB nz 0 b.thick zStart zEnd
  let best := crossFace F p v sp best (Vector3D.add sp (Vector3D.smul b.right nS)) nS nB nz 0 b.thick zStart zEnd
  let best := crossFace F p v sp best (Vector3D.add sp (Vector3D.smul zEnd nz)) nz nB nS 0 b.thick b.left b.right
  crossFace F p v sp best (Vector3D.add sp (Vector3D.smul zStart nz)) nz nB nS 0 b.thick b.left b.right

/-- The body of the loop over the layers, params lines 448-662: first the side of positive z, then that of
negative z, for which `zEnd` and `zStart` change their sign. -/
def crossLayer (F : PlanarFns K) (gap : K) (sensitive : Bool) (p v : V3 K) (best : Best K)
    (l : Layer K × Layer K) : Best K :=
  let b := body gap sensitive l
  let ladders := List.range l.1.NLadders.toNat
  let best := ladders.foldl (fun s i => crossFaces F p v b (gap / 2) b.zEnd (ladderPhi F l i) s) best
  ladders.foldl (fun s i => crossFaces F p v b (-gap / 2) (-b.zEnd) (ladderPhi F l i) s) best

/-- `intersectionLadder( p, v, sensitive )`, params lines 440-664. -/
def intersection (F : PlanarFns K) (P : Params K) (p v : V3 K) (sensitive : Bool) : V3 K :=
  (P.layer.foldl (crossLayer F P.shellGap sensitive p v) (⟨0, 0, 0⟩, 99999)).1

/-- `intersectionLadder`, params header lines 138-140. -/
def intersectionLadder (F : PlanarFns K) (P : Params K) (p v : V3 K) : V3 K := intersection F P p v false
/-- `intersectionSensitive`, params header lines 145-147. -/
def intersectionSensitive (F : PlanarFns K) (P : Params K) (p v : V3 K) : V3 K := intersection F P p v true

end Gear.ZPlanar
