/-
`gear::ZPlanarParametersImpl` and `gear::ZPlanarLayerLayoutImpl` with the numbers that the code stores in a `float`:
the border arguments of `distanceToPlane` and `correctToBorderPoint` (`src/gearimpl/ZPlanarParametersImpl.cc` lines
669 and 776) and the local variables of `getMaxRadius` (`src/gearimpl/ZPlanarLayerLayout.cc` lines 59-62).
In the citations "layout" and "params" are these two files.

Simplifications: those of `ZPlanar.lean`, but for the conversion to `float`, which is the parameter `flt`.  All other
arithmetic is exact: the errors of doubles are about 10 ^ 9 times smaller than those of floats.
-/
import Verif.ZPlanar
import Verif.MaterialMap

set_option autoImplicit false
set_option linter.unusedSectionVars false

namespace Gear.ZPlanar.Float

open Vector3D (V3)
open MaterialMap (roundEven)

section Rounding

variable {K : Type} [Field K] [LinearOrder K] [IsStrictOrderedRing K] [FloorRing K]

/-- The rounding of IEEE binary32 to nearest, ties to even, of numbers in the range of normal floats: 24 significant
bits (IEEE 754-2019, 4.3.1). -/
def binary32 (q : K) : K :=
  if q = 0 then 0 else
    let e := Int.log 2 |q|
    roundEven (q * (2 : K) ^ (23 - e)) * (2 : K) ^ (e - 23)

end Rounding

variable {K : Type} [Field K] [LinearOrder K] [IsStrictOrderedRing K]

/-- Layout lines 59-62: the products, the sum and the square root of floats are floats. -/
def maxRadius (F : PlanarFns K) (flt : K → K) (l : Layer K) : K :=
  let d := flt (l.Distance + l.Thickness)
  let w := flt (l.Width / 2 + |l.Offset|)
  flt (F.sqrt (flt (flt (d * d) + flt (w * w))))

/-- `correctToBorderPoint`, params lines 776-812. -/
def correctToBorderPoint (flt : K → K) (vPlane u v : V3 K) (minU maxU minV maxV : K) : V3 K :=
  ZPlanar.correctToBorderPoint vPlane u v (flt minU) (flt maxU) (flt minV) (flt maxV)

/-- `distanceToPlane`, params lines 669-737.  Its arguments are floats when it passes them on in line 731. -/
def distanceToPlane (flt : K → K) (p r n u v : V3 K) (minU maxU minV maxV : K) : V3 K :=
  ZPlanar.distanceToPlane p r n u v (flt minU) (flt maxU) (flt minV) (flt maxV)

/-- The quick checks, params lines 54-71; true if the layer is skipped. -/
def skipLayer (F : PlanarFns K) (flt : K → K) (gap : K) (sensitive : Bool) (p : V3 K) (l : Layer K × Layer K) : Bool :=
  let s := if sensitive then l.2 else l.1
  let pRadius := F.sqrt (p.x * p.x + p.y * p.y)
  decide (pRadius < s.Distance - EPSILON) || decide (pRadius > maxRadius F flt s + EPSILON)
    || decide (|p.z| > s.Length + gap / 2 + EPSILON)

/-- The body of the loop over the ladders, params lines 103-165. -/
def ladderHit (F : PlanarFns K) (flt : K → K) (gap : K) (sensitive : Bool) (p : V3 K) (l : Layer K × Layer K) (i : ℕ) :
    Bool :=
  let s := if sensitive then l.2 else l.1
  let b := body gap sensitive l
  let deltaPhi := (2 * F.pi) / l.1.NLadders
  let phi := ladderPhi F l i
  let sPhi := (startInnerPhi F s).map (fun a => correctPhiRange F (a + i * deltaPhi - EPSILON))
  let ePhi := (endInnerPhi F s).map (fun a => correctPhiRange F (a + i * deltaPhi + EPSILON))
  if isInRange sPhi ePhi (getPhiPoint F p) = false then false
  else
    let nB := nBase F phi
    let r : V3 K := ⟨b.d * nB.x, b.d * nB.y, b.d * nB.z⟩
    let w := distanceToPlane flt p r nB (nSide F phi) (nZ p) b.left b.right (gap / 2) b.zEnd
    let c := norm F w
    (differsLess nB.x w.x || isEqual w.x (-c * nB.x))
      && (differsLess nB.y w.y || isEqual w.y (-c * nB.y))
      && (differsLess nB.z w.z || isEqual w.z (-c * nB.z))
      && (decide (c ≤ b.thick) || isEqual c b.thick)

/-- The loop over the layers, params lines 49-186. -/
def pointLoop (F : PlanarFns K) (flt : K → K) (gap : K) (sensitive : Bool) (p : V3 K) : ℕ → Layout K → Option SensorID
  | _, [] => none
  | k, l :: ls =>
    if skipLayer F flt gap sensitive p l then pointLoop F flt gap sensitive p (k + 1) ls
    else match (List.range l.1.NLadders.toNat).find? (ladderHit F flt gap sensitive p l) with
      | none => pointLoop F flt gap sensitive p (k + 1) ls
      | some i => some { layer := k
                         side := if p.z ≥ 0 then 1 else -1
                         module := if i = 0 then 0 else l.1.NLadders - i
                         sensor := 0 }

/-- `isPointInLadder( p, sensitive, sensorID )`, params lines 27-190. -/
def isPointIn (F : PlanarFns K) (flt : K → K) (P : Params K) (p : V3 K) (sensitive : Bool) : Option SensorID :=
  if |P.shellHalfLength| > 1 / 1000 ∧
      (|p.z| > P.shellHalfLength + P.shellGap / 2 ∨ |p.z| < P.shellGap / 2) then none
  else pointLoop F flt P.shellGap sensitive p 0 P.layer

/-- The six faces of a ladder in the order in which they are tried, params lines 298-427. -/
def nearestFaces (F : PlanarFns K) (flt : K → K) (gap : K) (b : Body K) (p : V3 K) (phi : K) (best : Best K) : Best K :=
  let nB := nBase F phi
  let nS := nSide F phi
  let nz := nZ p
  let sp := Vector3D.smul b.d nB
  let best := considerLe F best (distanceToPlane flt p (Vector3D.add sp (Vector3D.smul 0 nB)) nB nS nz
    b.left b.right (gap / 2) b.zEnd)
  let best := considerLe F best (distanceToPlane flt p (Vector3D.add sp (Vector3D.smul b.thick nB)) nB nS nz
    b.left b.right (gap / 2) b.zEnd)
  let best := considerLt F best (distanceToPlane flt p (Vector3D.add sp (Vector3D.smul b.left nS)) nS nB nz
    0 b.thick (gap / 2) b.zEnd)
  let best := considerLt F best (distanceToPlane flt p (Vector3D.add sp (Vector3D.smul b.right nS)) nS nB nz
    0 b.thick (gap / 2) b.zEnd)
  let best := considerLt F best (distanceToPlane flt p (Vector3D.add sp (Vector3D.smul b.zEnd nz)) nz nB nS
    0 b.thick b.left b.right)
  considerLt F best (distanceToPlane flt p (Vector3D.add sp (Vector3D.smul (gap / 2) nz)) nz nB nS
    0 b.thick b.left b.right)

/-- The body of the loop over the ladders, params lines 256-427. -/
def nearestLadder (F : PlanarFns K) (flt : K → K) (gap : K) (sensitive : Bool) (p : V3 K) (l : Layer K × Layer K)
    (best : Best K) (i : ℕ) : Best K :=
  if nearInRange F p l i = false then best
  else nearestFaces F flt gap (body gap sensitive l) p (ladderPhi F l i) best

/-- The body of the loop over the layers, params lines 231-429. -/
def nearestLayer (F : PlanarFns K) (flt : K → K) (gap : K) (sensitive : Bool) (p : V3 K) (best : Best K)
    (l : Layer K × Layer K) : Best K :=
  (List.range l.1.NLadders.toNat).foldl (nearestLadder F flt gap sensitive p l) best

/-- `distanceToNearestLadder( p, sensitive )`, params lines 193-435. -/
def distanceToNearest (F : PlanarFns K) (flt : K → K) (P : Params K) (p : V3 K) (sensitive : Bool) : V3 K :=
  if (isPointIn F flt P p sensitive).isSome then ⟨0, 0, 0⟩
  else if 0 = p.x ∧ 0 = p.y ∧ 0 = p.z then
    match P.layer with
    | [] => ⟨0, 0, 0⟩
    | l :: _ => Vector3D.cylindrical F.toTrigFns l.1.Distance (-l.1.internalPhi0) (P.shellGap / 2)
  else (P.layer.foldl (nearestLayer F flt P.shellGap sensitive p) (Vector3D.zero, 9999999 / 100)).1

/-- One face of a ladder, params lines 519-548, 576-603 and 627-654. -/
def crossFace (F : PlanarFns K) (flt : K → K) (p v spacePoint : V3 K) (best : Best K) (r n u w : V3 K)
    (minU maxU minV maxV : K) : Best K :=
  let interSection := planeLineIntersection F r n p v
  let vip := Vector3D.sub interSection p
  let vn := Vector3D.sub interSection spacePoint
  let inBorder := correctToBorderPoint flt vn u w minU maxU minV maxV
  if isEqualV inBorder vn then
    (if norm F vip < best.2 then (interSection, norm F vip) else best)
  else best

/-- The six faces of a ladder in the order in which they are tried, params lines 482-656. -/
def crossFaces (F : PlanarFns K) (flt : K → K) (p v : V3 K) (b : Body K) (zStart zEnd : K) (phi : K) (best : Best K) :
    Best K :=
  let nB := nBase F phi
  let nS := nSide F phi
  let nz : V3 K := ⟨0, 0, 1⟩
  let sp : V3 K := ⟨b.d * nB.x, b.d * nB.y, b.d * nB.z⟩
  let best := crossFace F flt p v sp best sp nB nS nz b.left b.right zStart zEnd
  let best := crossFace F flt p v sp best ⟨(b.d + b.thick) * nB.x, (b.d + b.thick) * nB.y, (b.d + b.thick) * nB.z⟩
    nB nS nz b.left b.right zStart zEnd
  let best := crossFace F flt p v sp best (Vector3D.add sp (Vector3D.smul b.left nS)) nS nB nz 0 b.thick zStart zEnd
  let best := crossFace F flt p v sp best (Vector3D.add sp (Vector3D.smul b.right nS)) nS nB nz 0 b.thick zStart zEnd
  let best := crossFace F flt p v sp best (Vector3D.add sp (Vector3D.smul zEnd nz)) nz nB nS 0 b.thick b.left b.right
  crossFace F flt p v sp best (Vector3D.add sp (Vector3D.smul zStart nz)) nz nB nS 0 b.thick b.left b.right

/-- The body of the loop over the layers, params lines 448-662. -/
def crossLayer (F : PlanarFns K) (flt : K → K) (gap : K) (sensitive : Bool) (p v : V3 K) (best : Best K)
    (l : Layer K × Layer K) : Best K :=
  let b := body gap sensitive l
  let ladders := List.range l.1.NLadders.toNat
  let best := ladders.foldl (fun s i => crossFaces F flt p v b (gap / 2) b.zEnd (ladderPhi F l i) s) best
  ladders.foldl (fun s i => crossFaces F flt p v b (-gap / 2) (-b.zEnd) (ladderPhi F l i) s) best

/-- `intersectionLadder( p, v, sensitive )`, params lines 440-664. -/
def intersection (F : PlanarFns K) (flt : K → K) (P : Params K) (p v : V3 K) (sensitive : Bool) : V3 K :=
  (P.layer.foldl (crossLayer F flt P.shellGap sensitive p v) (⟨0, 0, 0⟩, 99999)).1

/-- If the conversion to `float` changes nothing, these are the functions of `ZPlanar`. -/
theorem exact_floats (F : PlanarFns K) (P : Params K) (p v : V3 K) (sensitive : Bool) :
    isPointIn F id P p sensitive = ZPlanar.isPointIn F P p sensitive
    ∧ distanceToNearest F id P p sensitive = ZPlanar.distanceToNearest F P p sensitive
    ∧ intersection F id P p v sensitive = ZPlanar.intersection F P p v sensitive := by
  have h : ∀ (L : Layout K) (k : ℕ), pointLoop F id P.shellGap sensitive p k L
      = ZPlanar.pointLoop F P.shellGap sensitive p k L := by
    intro L
    induction L with
    | nil => intro k; rfl
    | cons l ls ih =>
      intro k
      simp only [pointLoop, ZPlanar.pointLoop, ih]
      rfl
  have h1 : isPointIn F id P p sensitive = ZPlanar.isPointIn F P p sensitive := by
    unfold isPointIn ZPlanar.isPointIn
    rw [h]
  refine ⟨h1, ?_, rfl⟩
  unfold distanceToNearest ZPlanar.distanceToNearest
  rw [h1]
  rfl

end Gear.ZPlanar.Float
