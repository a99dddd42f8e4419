/-
Model of the measurement surfaces: `gear::CartesianCoordinateSystem`, `gear::BoundaryRectangle`,
`gear::BoundaryTrapezoid`, `gear::MeasurementSurface`, `gear::MeasurementSurfaceStore`.

Sources in src/gearsurf ("X.cc") and include/gear/gearsurf ("X.h").

Part of the environment: `Hep3Vector` and `HepRotation` of CLHEP.  A `HepRotation` is a matrix of three by three
numbers, its product with a vector the usual one, `inverse()` the transposed matrix and `rotateZ( a )` the
multiplication from the left with the matrix of the rotation by `a` around z.
-/
import Verif.Vector3D

set_option autoImplicit false
set_option linter.unusedSectionVars false

namespace Gear.Surf

open Vector3D (V3)
open TpcModule (TrigFns)

variable {K : Type} [Field K] [LinearOrder K] [IsStrictOrderedRing K]

/-- `CLHEP::HepRotation`. -/
@[ext]
structure Rot (K : Type) where
  xx : K
  xy : K
  xz : K
  yx : K
  yy : K
  yz : K
  zx : K
  zy : K
  zz : K
deriving DecidableEq

/-- `HepRotation::HepRotation()`. -/
def Rot.one : Rot K := ⟨1, 0, 0, 0, 1, 0, 0, 0, 1⟩

/-- `HepRotation::inverse`. -/
def Rot.inverse (R : Rot K) : Rot K := ⟨R.xx, R.yx, R.zx, R.xy, R.yy, R.zy, R.xz, R.yz, R.zz⟩

/-- `HepRotation * Hep3Vector`. -/
def Rot.apply (R : Rot K) (v : V3 K) : V3 K :=
  ⟨R.xx * v.x + R.xy * v.y + R.xz * v.z, R.yx * v.x + R.yy * v.y + R.yz * v.z, R.zx * v.x + R.zy * v.y + R.zz * v.z⟩

/-- `HepRotation::rotateZ`. -/
def Rot.rotateZ (F : TrigFns K) (R : Rot K) (a : K) : Rot K :=
  ⟨F.cos a * R.xx - F.sin a * R.yx, F.cos a * R.xy - F.sin a * R.yy, F.cos a * R.xz - F.sin a * R.yz,
    F.sin a * R.xx + F.cos a * R.yx, F.sin a * R.xy + F.cos a * R.yy, F.sin a * R.xz + F.cos a * R.yz,
    R.zx, R.zy, R.zz⟩

/-- `Hep3Vector + Hep3Vector`. -/
def plus (a b : V3 K) : V3 K := ⟨a.x + b.x, a.y + b.y, a.z + b.z⟩
/-- `Hep3Vector - Hep3Vector`. -/
def minus (a b : V3 K) : V3 K := ⟨a.x - b.x, a.y - b.y, a.z - b.z⟩

/-- `CartesianCoordinateSystem`, CartesianCoordinateSystem.h lines 42-49. -/
structure Cartesian (K : Type) where
  T : V3 K
  R : Rot K
  Rinv : Rot K

/-- The constructor, CartesianCoordinateSystem.h lines 16-20. -/
def Cartesian.mk' (T : V3 K) (R : Rot K) : Cartesian K := ⟨T, R, R.inverse⟩

/-- `getLocalPoint`, CartesianCoordinateSystem.cc lines 5-13. -/
def Cartesian.getLocalPoint (c : Cartesian K) (globalPoint : V3 K) : V3 K :=
  let x := minus globalPoint c.T
  c.Rinv.apply x

/-- `getGlobalPoint`, CartesianCoordinateSystem.cc lines 15-22. -/
def Cartesian.getGlobalPoint (c : Cartesian K) (localPoint : V3 K) : V3 K := plus c.T (c.R.apply localPoint)

/-- `getOrigin`, CartesianCoordinateSystem.h line 29. -/
def Cartesian.getOrigin (c : Cartesian K) : V3 K := c.T
/-- `getLocalXAxis`, CartesianCoordinateSystem.h line 36. -/
def Cartesian.getLocalXAxis (c : Cartesian K) : V3 K := c.R.apply ⟨1, 0, 0⟩
/-- `getLocalYAxis`, CartesianCoordinateSystem.h line 37. -/
def Cartesian.getLocalYAxis (c : Cartesian K) : V3 K := c.R.apply ⟨0, 1, 0⟩
/-- `getLocalZAxis`, CartesianCoordinateSystem.h line 38. -/
def Cartesian.getLocalZAxis (c : Cartesian K) : V3 K := c.R.apply ⟨0, 0, 1⟩

/-- The implementations of `IBoundary`: `BoundaryRectangle` (BoundaryRectangle.h lines 27 and 40-43) and `BoundaryTrapezoid`
(BoundaryTrapezoid.h lines 31-32 and 45-49). -/
inductive Boundary (K : Type) where
  | rectangle (width length deltaW alpha : K)
  | trapezoid (baseBottom baseTop height deltaW alpha : K)

/-- `isInBoundary`, BoundaryRectangle.cc lines 8-29 and BoundaryTrapezoid.cc lines 7-27.  For a trapezoid of height 0 the
width in line 21 is the quotient 0/0, which is not a number, so that the comparison in line 22 is false. -/
def Boundary.isInBoundary (F : TrigFns K) : Boundary K → V3 K → Bool
  | .rectangle width length deltaW alpha, p =>
    if |p.z| > deltaW then false
    else
      let p := ((Rot.one : Rot K).rotateZ F (-alpha)).apply p
      if |p.x| > width / 2 then false
      else if |p.y| > length / 2 then false
      else true
  | .trapezoid baseBottom baseTop height deltaW alpha, p =>
    if |p.z| > deltaW then false
    else
      let p := ((Rot.one : Rot K).rotateZ F (-alpha)).apply p
      if |p.y| > height / 2 then false
      else if height = 0 then true
      else
        let width := (baseBottom + baseTop) / 2 + p.y * (baseTop - baseBottom) / height
        if |p.x| > width / 2 then false
        else true

/-- `MeasurementSurface`, MeasurementSurface.h lines 16-18 and 34-37.  Its coordinate system is Cartesian (the only
implementation there is); its boundary may be a null pointer. -/
structure Surface (K : Type) where
  id : ℤ
  csys : Cartesian K
  boundary : Option (Boundary K)

/-- `isLocalInBoundary`, MeasurementSurface.cc lines 16-26. -/
def Surface.isLocalInBoundary (F : TrigFns K) (s : Surface K) (p : V3 K) : Bool :=
  match s.boundary with
  | some b => b.isInBoundary F p
  | none => true

/-- `isGlobalInBoundary`, MeasurementSurface.cc lines 30-45. -/
def Surface.isGlobalInBoundary (F : TrigFns K) (s : Surface K) (p : V3 K) : Bool :=
  match s.boundary with
  | some _ => s.isLocalInBoundary F (s.csys.getLocalPoint p)
  | none => true

/-! ### The store -/

/-- A surface object, for the store: its address and its ID. -/
structure Obj where
  addr : ℕ
  id : ℤ
deriving DecidableEq

/-- `MeasurementSurfaceStore`, MeasurementSurfaceStore.h lines 53-59. -/
structure Store where
  map : SMap ℤ Obj
  filled : Bool
  fillerName : String
deriving DecidableEq

/-- The constructor, MeasurementSurfaceStore.h line 25. -/
def Store.new : Store := ⟨[], false, ""⟩

/-- The copy constructor, MeasurementSurfaceStore.cc lines 20-28. -/
def Store.copy (right : Store) : Store := ⟨right.map, right.filled, right.fillerName⟩

/-- A `MeasurementSurfaceStoreFiller`, MeasurementSurfaceStore.h lines 63-72: its name, and the pointers it lists (`none` is
a null pointer), or an exception it throws. -/
structure Filler where
  name : String
  surfaces : Res (List (Option Obj))

/-- `GetMeasurementSurface`, MeasurementSurfaceStore.cc lines 44-60. -/
def Store.get (s : Store) (id : ℤ) : Res Obj :=
  match SMap.find? id s.map with
  | none => .throw .gear
  | some o => .ok o

/-- `addMeasurementSurface`, MeasurementSurfaceStore.cc lines 63-81. -/
def Store.add (s : Store) : Option Obj → Res Unit × Store
  | none => (.ub, s)
  | some ms =>
    match SMap.find? ms.id s.map with
    | some _ => (.throw .gear, s)
    | none => (.ok (), { s with map := SMap.set ms.id ms s.map })

/-- The loop of `FillStore`, MeasurementSurfaceStore.cc lines 114-116. -/
def Store.addAll (s : Store) : List (Option Obj) → Res Unit × Store
  | [] => (.ok (), s)
  | ms :: rest => match s.add ms with
    | (.ok (), s') => s'.addAll rest
    | (e, s') => (e, s')

/-- `FillStore`, MeasurementSurfaceStore.cc lines 95-122: how the call ends and the store afterwards. -/
def Store.fillStore (s : Store) (filler : Filler) : Res Unit × Store :=
  if s.filled then (.throw .gear, s)
  else
    let s := { s with fillerName := filler.name }
    match filler.surfaces with
    | .throw e => (.throw e, s)
    | .ub => (.ub, s)
    | .ok list => match s.addAll list with
      | (.ok (), s') => (.ok (), { s' with filled := true })
      | (e, s') => (e, s')

/-- `isFilled`, MeasurementSurfaceStore.h line 41. -/
def Store.isFilled (s : Store) : Bool := s.filled

/-- `getFillerName`, MeasurementSurfaceStore.cc lines 84-93. -/
def Store.getFillerName (s : Store) : Res String := if s.filled = false then .throw .gear else .ok s.fillerName

/-- The loop of the destructor, MeasurementSurfaceStore.cc lines 36-41: the addresses deleted, given those in
`deleted_objects`. -/
def deleteLoop : List Obj → List ℕ → List ℕ
  | [], _ => []
  | o :: rest, deleted =>
    if o.addr ∈ deleted then o.addr :: deleteLoop rest (deleted ++ [o.addr]) else deleteLoop rest deleted

/-- The destructor, MeasurementSurfaceStore.cc lines 31-42: the addresses deleted. -/
def Store.destroy (s : Store) : List ℕ := deleteLoop (s.map.map Prod.snd) []

end Gear.Surf
