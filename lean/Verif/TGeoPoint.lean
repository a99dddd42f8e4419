/-
Model of `gear::TGeoGearPointProperties` (`src/geartgeo/TGeoGearPointProperties.cc`).  ROOT's geometry is a
parameter: which volumes contain a point, and how their coordinate systems are nested.
-/
import Verif.Vector3D

set_option autoImplicit false
set_option linter.unusedSectionVars false

namespace Gear.TGeoPoint

open Vector3D (V3)

variable {K : Type}

/-- What the code reads of a `TGeoMaterial`. -/
structure Material (K : Type) where
  name : String
  density : K
  temperature : K
  pressure : K
  radLen : K
  intLen : K
deriving DecidableEq

/-- A placed volume: a `TGeoNode` with its `TGeoVolume`.  Names are compared by address in the code (lines 178 and
207), so that nodes and volumes have an identity next to their names.  `toLocal` is the step from the coordinates of
the mother to those of the volume. -/
structure Placed (K : Type) where
  nodeId : ℕ
  nodeName : String
  volumeId : ℕ
  volumeName : String
  material : Material K
  toLocal : V3 K → V3 K

/-- A geometry: its top node, and the nodes that contain a point, the innermost first and the top node last; none
outside. -/
structure Geometry (K : Type) where
  top : Placed K
  nodesAt : V3 K → Option (List (Placed K))

/-- The state of the `TGeoManager`: the current node and its mothers up to the top; and the static string of
`getMaterialName`, which the caller gets a reference to. -/
structure State (K : Type) where
  path : List (Placed K)
  matName : String

/-- At first the manager is at the top (ROOT's `CloseGeometry`), and the string is that of line 36. -/
def start (G : Geometry K) : State K := ⟨[G.top], "unknown"⟩

/-- `TGeoManager::FindNode`: the current node becomes the one at the point; outside it is the top. -/
def findNode (G : Geometry K) (s : State K) (pos : V3 K) : State K × Option (Placed K) :=
  match G.nodesAt pos with
  | some l => ({ s with path := l }, l.head?)
  | none => ({ s with path := [G.top] }, none)

/-- `TGeoManager::CdUp`: at the top nothing happens. -/
def cdUp (s : State K) : State K :=
  match s.path with
  | _ :: m :: l => { s with path := m :: l }
  | _ => s

/-- The numbers a point has. -/
inductive Quantity where
  | density
  | temperature
  | pressure
  | radlen
  | intlen
deriving DecidableEq

/-- The value of a quantity. -/
def Quantity.of (q : Quantity) (m : Material K) : K :=
  match q with
  | .density => m.density
  | .temperature => m.temperature
  | .pressure => m.pressure
  | .radlen => m.radLen
  | .intlen => m.intLen

/-- `getDensity` (lines 48-63), `getTemperature` (64-78), `getPressure` (82-97), `getRadlen` (101-115), `getIntlen`
(119-133). -/
def getNumber (G : Geometry K) (q : Quantity) (s : State K) (pos : V3 K) : State K × Res K :=
  let r := findNode G s pos
  match r.2 with
  | some nd => (r.1, .ok (q.of nd.material))
  | none => (r.1, .throw .outsideGeometry)

/-- `getMaterialName`, lines 29-45.  The answer is what the reference refers to when the function returns. -/
def getMaterialName (G : Geometry K) (s : State K) (pos : V3 K) : State K × Res String :=
  let r := findNode G s pos
  match r.2 with
  | some nd => ({ r.1 with matName := nd.material.name }, .ok nd.material.name)
  | none => (r.1, .throw .outsideGeometry)

/-- The coordinates of a point in the innermost of nested volumes: ROOT's `MasterToLocal`. -/
def local' (path : List (Placed K)) (pos : V3 K) : V3 K := path.foldr (fun nd p => nd.toLocal p) pos

/-- `getLocalPosition`, lines 137-146: the transformation of the current node, whatever the point. -/
def getLocalPosition (s : State K) (pos : V3 K) : State K × Res (V3 K) := (s, .ok (local' s.path pos))

/-- The loops of lines 170-181 and 200-210 over `GetCurrentVolume` or `GetCurrentNode`, with a bound on the passes. -/
def climb (G : Geometry K) (name : Placed K → String) (ident : Placed K → ℕ) :
    ℕ → State K → List String → State K × Option (List String)
  | 0, s, _ => (s, none)
  | fuel + 1, s, acc =>
    match s.path with
    | [] => (s, some acc)
    | nd :: _ =>
      if ident nd = ident G.top then (cdUp s, some (acc ++ [name nd]))
      else climb G name ident fuel (cdUp s) (acc ++ [name nd])

/-- `getListOfLogicalVolumes`, lines 155-183, and `getListOfPhysicalVolumes`, lines 186-212. -/
def getList (G : Geometry K) (physical : Bool) (fuel : ℕ) (s : State K) (pos : V3 K) :
    State K × Option (Res (List String)) :=
  let r := findNode G s pos
  match r.2 with
  | none => (r.1, some (.throw .outsideGeometry))
  | some _ =>
    let c := if physical then climb G (·.nodeName) (·.nodeId) fuel r.1 []
      else climb G (·.volumeName) (·.volumeId) fuel r.1 []
    (c.1, c.2.map .ok)

/-- The queries. -/
inductive Query where
  | materialName
  | number (q : Quantity)
  | localPosition
  | logicalVolumes
  | physicalVolumes
  /-- `getCellID`, `getB`, `getE`, `getRegion`, `isTracker`, `isCalorimeter`, lines 20-24, 150-152, 215-229: always
  `NotImplementedException`. -/
  | notImplemented

/-- The state after a query; `fuel` bounds the loops of the lists. -/
def after (G : Geometry K) (fuel : ℕ) (s : State K) (q : Query) (pos : V3 K) : State K :=
  match q with
  | .materialName => (getMaterialName G s pos).1
  | .number q => (getNumber G q s pos).1
  | .localPosition => (getLocalPosition s pos).1
  | .logicalVolumes => (getList G false fuel s pos).1
  | .physicalVolumes => (getList G true fuel s pos).1
  | .notImplemented => s

/-- The state after a history, the oldest query first. -/
def run (G : Geometry K) (fuel : ℕ) (h : List (Query × V3 K)) : State K :=
  h.foldl (fun s x => after G fuel s x.1 x.2) (start G)

end Gear.TGeoPoint
