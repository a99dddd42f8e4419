/-
Model of `gear::GearXML` (src/gearxml/GearXML.cc): writing a manager to a document and reading a document into a manager.

Simplifications.  The content of the manager is kept by value; who owns which object is modelled in GearMgr.lean.  The handlers are those
that the registry has after its construction; a handler of the user's own is not modelled, and neither is the null entry that
`getHandler` leaves for an unknown type.  Output to `std::cout` is left out.
-/
import Verif.XmlTracker
import Verif.XmlTelescope
import Verif.XmlCalo
import Verif.XmlTpc
import Verif.XmlSimple
import Verif.XmlRegistry
import Verif.GearMgr
import Verif.Gdml

set_option autoImplicit false
set_option linter.unusedSectionVars false

namespace Gear.Xml

open ZPlanar (PlanarFns)

/-- The content of a `GearMgrImpl`, GearMgrImpl.cc lines 28-55, as far as it can be in a file; `calo` and `zplanar` hold the sections
of these classes. -/
structure Geometry where
  detectorName : String := ""
  bField : Option BField := none
  tpc : Option TpcSection := none
  calo : Section → Option CaloSection := fun _ => none
  zplanar : Section → Option ZPlanarSection := fun _ => none
  ftd : Option FtdSection := none
  trackerPlanes : Option TrackerSection := none
  siPlanes : Option SiSection := none
  generic : SMap String (Params ℚ) := []
  materials : SMap String Material := []
  pointProperties : Option Gdml.PointProperties := none
  distanceProperties : Option Gdml.DistanceProperties := none

/-- The surroundings: the functions of `<cmath>`, the pad queries of the layouts, and ROOT if `libgeartgeo` can be loaded and has registered
its factory (TGeoMaterialProperties.cc lines 41-50). -/
structure FileEnv where
  planar : PlanarFns ℚ
  tpc : Env
  gdml : Option Gdml.Root

/-! ### Writing -/

/-- A `try` block with an empty `catch( UnknownParameterException& )`. -/
def attempt {α : Type} : Res α → Res (Option α)
  | .ok a => .ok (some a)
  | .throw (.unknownParameter _) => .ok none
  | .throw e => .throw e
  | .ub => .ub

/-- A getter of the manager, GearMgrImpl.cc lines 188-384: an exception if there is no such section. -/
def getSection {α : Type} : Option α → Res α
  | some a => .ok a
  | none => .throw (.unknownParameter "")

/-- The block that writes a section, for example GearXML.cc lines 100-113: the nodes that are inserted into "detectors". -/
def writeSection {α : Type} (toXML : α → Res Node) (name type : String) (s : Option α) : Res (List Node) := do
  let n ← attempt (do
    let s ← getSection s
    let detector ← toXML s
    .ok ((detector.setAttribute "name" name.toList).setAttribute "geartype" type.toList))
  .ok n.toList

/-- The sections of the calorimeters and their names, GearXML.cc lines 116-306. -/
def caloSections : List (Section × String) :=
  [(.ecalBarrel, "EcalBarrel"), (.ecalEndcap, "EcalEndcap"), (.ecalPlug, "EcalPlug"), (.yokeBarrel, "YokeBarrel"),
    (.yokeEndcap, "YokeEndcap"), (.yokePlug, "YokePlug"), (.hcalBarrel, "HcalBarrel"), (.hcalEndcap, "HcalEndcap"),
    (.hcalRing, "HcalRing"), (.lcal, "Lcal"), (.lhcal, "LHcal"), (.beamcal, "BeamCal")]

/-- The content of "detectors", GearXML.cc lines 98-435.  The constants are in src/gearimpl/GEAR.cc lines 5-11. -/
def writeDetectors (E : FileEnv) (g : Geometry) : Res (List Node) := do
  let tpc ← writeSection tpcToXML "TPC" "TPCParameters" g.tpc
  let calos ← caloSections.mapM fun x => writeSection caloToXML x.2 "CalorimeterParameters" (g.calo x.1)
  let vxd ← writeSection (zplanarToXML E.planar) "VXD" "ZPlanarParameters" (g.zplanar .vxd)
  let ftd ← writeSection ftdToXML "FTD" "FTDParameters" g.ftd
  let sit ← writeSection (zplanarToXML E.planar) "SIT" "ZPlanarParameters" (g.zplanar .sit)
  let set ← writeSection (zplanarToXML E.planar) "SET" "ZPlanarParameters" (g.zplanar .set)
  let tracker ← writeSection trackerToXML "TrackerPlanes" "TrackerPlanesParameters" g.trackerPlanes
  let si ← writeSection siToXML "SiPlanes" "SiPlanesParameters" g.siPlanes
  let generic ← g.generic.mapM fun x => do
    let detector ← paramsToXML x.2
    .ok ((detector.setAttribute "name" x.1.toList).setAttribute "geartype" "GearParameters".toList)
  .ok (tpc ++ calos.flatten ++ vxd ++ ftd ++ sit ++ set ++ tracker ++ si ++ generic)

/-- `getDetectorName` in a `try` block, GearXML.cc lines 67-71 and GearMgrImpl.cc lines 169-176. -/
def writtenName (g : Geometry) : String := if g.detectorName.isEmpty then "Unknown" else g.detectorName

/-- The text of the comment, GearXML.cc line 79. -/
def rootComment : String := "Gear XML file automatically created with GearXML::createXMLFile ...."

/-- `createXMLFile`, GearXML.cc lines 50-468, for a manager: the document that is saved. -/
def createXMLFile (E : FileEnv) (g : Geometry) : Res (List Node) := do
  let field ← attempt (do
    let f ← getSection g.bField
    bFieldToXML f)
  let detectors ← writeDetectors E g
  .ok [el "gear" [] ([el "global" [("detectorName", (writtenName g).toList)] [], .comment rootComment.toList] ++ field.toList
    ++ [el "detectors" [] detectors, el "materials" [] (g.materials.map fun m => materialToXML m.2)])]

/-! ### Reading -/

/-- The manager and how the function ended: the manager keeps what was stored before an exception was thrown. -/
abbrev Read := Geometry × Res Unit

/-- What follows is only done if no exception was thrown. -/
def Read.andThen (r : Read) (f : Geometry → Read) : Read :=
  match r.2 with
  | .ok _ => f r.1
  | .throw e => (r.1, .throw e)
  | .ub => (r.1, .ub)

/-- Store a section that was read. -/
def store {α : Type} (r : Res α) (g : Geometry) (f : α → Geometry) : Read :=
  match r with
  | .ok a => (f a, .ok ())
  | .throw e => (g, .throw e)
  | .ub => (g, .ub)

/-- The setters of the forward calorimeters, GearMgrImpl.cc lines 464-525: a missing beam crossing angle is set to 0. -/
def ensureAngle (s : Section) (c : CaloSection) : CaloSection :=
  if s.forward then
    match c.params.getDoubleVal Mgr.crossingAngle with
    | .throw (.unknownParameter _) => { c with params := c.params.setDoubleVal Mgr.crossingAngle 0 }
    | _ => c
  else c

/-- Where a calorimeter is stored, CalorimeterParametersXML.cc lines 257-314. -/
def storeCalo (g : Geometry) (name : Text) (c : CaloSection) : Geometry :=
  match caloSlot name c.calo.type with
  | some s => { g with calo := Function.update g.calo s (some (ensureAngle s c)) }
  | none => g

/-- The section in which ladders are stored, ZPlanarParametersXML.cc lines 208-226. -/
def zplanarSlot (name : Text) : Option Section :=
  if containsText (lower name) "vxd" then some .vxd
  else if containsText (lower name) "sit" then some .sit
  else if containsText (lower name) "set" then some .set
  else none

/-- ZPlanarParametersXML.cc lines 206-228. -/
def storeZPlanar (g : Geometry) (name : Text) (z : ZPlanarSection) : Geometry :=
  match zplanarSlot name with
  | some s => { g with zplanar := Function.update g.zplanar s (some z) }
  | none => g

/-- `fromXML` of the handlers, in the order in which the registry is filled, XMLHandlerMgr.cc lines 48-54, and what they store:
GearParametersXML.cc lines 75-94, TPCParametersXML.cc lines 215-218, CalorimeterParametersXML.cc lines 257-314,
ZPlanarParametersXML.cc lines 206-228, FTDParametersXML.cc lines 168-171, TrackerPlanesParametersXML.cc lines 214-217,
SiPlanesParametersXML.cc lines 295-298.  There, the attribute "name" exists since `createGearMgr` has read it. -/
def handle (E : FileEnv) (h : HandlerPtr) (name : Text) (det : Node) (g : Geometry) : Read :=
  match h with
  | 0 => store (setParametersFromXML det {}) g fun p => { g with generic := g.generic.set (str name) p }
  | 1 => store (tpcFromXML E.tpc det) g fun s => { g with tpc := some s }
  | 2 => store (caloFromXML det) g fun s => storeCalo g name s
  | 3 => store (zplanarFromXML E.planar det) g fun s => storeZPlanar g name s
  | 4 => store (ftdFromXML det) g fun s => { g with ftd := some s }
  | 5 => store (trackerFromXML det) g fun s => { g with trackerPlanes := some s }
  | 6 => store (siFromXML det) g fun s => { g with siPlanes := some s }
  | _ => (g, .ub)

/-- The type with backward compatibility, GearXML.cc lines 595-597. -/
def gearType (t : Text) : String := if t = "VXDParameters".toList then "ZPlanarParameters" else str t

/-- The body of the loop over the detectors, GearXML.cc lines 583-618. -/
def readDetector (E : FileEnv) (det : Node) (g : Geometry) : Read :=
  match det.attr "name" with
  | none => (g, .throw .parse)
  | some name =>
    match det.attr "geartype" with
    | none => (g, .ok ())
    | some t =>
      match (Registry.new.getHandler (gearType t)).1 with
      | none => (g, .throw .parse)
      | some h => handle E h name det g

/-- A loop that ends with the first exception. -/
def readAll (body : Node → Geometry → Read) : List Node → Geometry → Read
  | [], g => (g, .ok ())
  | n :: ns, g => (body n g).andThen (readAll body ns)

/-- `registerSimpleMaterial`, GearMgrImpl.cc lines 607-621. -/
def storeMaterial (g : Geometry) (m : Material) : Read :=
  match g.materials.find? m.name with
  | some _ => (g, .throw .gear)
  | none => ({ g with materials := g.materials.set m.name m }, .ok ())

/-- The body of the loop over the materials, GearXML.cc line 634; a null pointer is used for a node that is not an element. -/
def readMaterial (n : Node) (g : Geometry) : Read :=
  if n.isElt then
    match materialFromXML n with
    | .ok m => storeMaterial g m
    | .throw e => (g, .throw e)
    | .ub => (g, .ub)
  else (g, .ub)

/-- `FirstChild( name )`, src/gearxml/tinyxml.cc lines 330-339. -/
def Node.firstChild (n : Node) (name : String) : Option Node := n.children.find? fun c => c.value = name.toList

/-- The element "global", GearXML.cc lines 515-519. -/
def readGlobal (root : Node) (g : Geometry) : Read :=
  match root.firstChild "global" with
  | none => (g, .ok ())
  | some n => store (getXMLAttribute n "detectorName") g fun t => { g with detectorName := str t }

/-- The field, GearXML.cc lines 528-532; a null pointer is used for a node that is not an element. -/
def readField (root : Node) (g : Geometry) : Read :=
  match root.firstChild "BField" with
  | none => (g, .ok ())
  | some n => if n.isElt then store (bFieldFromXML n) g fun f => { g with bField := some f } else (g, .ub)

/-- The use of the library, GearXML.cc lines 558-566.  The setters, GearMgrImpl.cc lines 557-565, keep any pointer. -/
def useGdml (R : Gdml.Root) (name : String) (g : Geometry) : Read :=
  let p := ({} : Gdml.Plugin).setConfig "GDMLFileName" name
  let (p, r) := p.initialize R
  store r g fun _ => { g with pointProperties := p.getGearPointProperties, distanceProperties := p.getGearDistanceProperties }

/-- The GDML file, GearXML.cc lines 535-576. -/
def readGdml (E : FileEnv) (root : Node) (g : Geometry) : Read :=
  match root.firstChild "GDMLFile" with
  | none => (g, .ok ())
  | some n =>
    match getXMLAttribute n "name" with
    | .ok name =>
      match E.gdml with
      | some R => useGdml R (str name) g
      | none => (g, .ok ())
    | .throw e => (g, .throw e)
    | .ub => (g, .ub)

/-- The materials, GearXML.cc lines 625-637. -/
def readMaterials (root : Node) (g : Geometry) : Read :=
  match root.firstChild "materials" with
  | none => (g, .ok ())
  | some n => readAll readMaterial (n.named "material") g

/-- `createGearMgr` for the root element, GearXML.cc lines 515-637. -/
def readRoot (E : FileEnv) (root : Node) (g : Geometry) : Read :=
  (readGlobal root g).andThen fun g =>
    match root.firstChild "detectors" with
    | none => (g, .throw .parse)
    | some d =>
      (readField root g).andThen fun g => (readGdml E root g).andThen fun g =>
        (readAll (readDetector E) (d.named "detector") g).andThen fun g => readMaterials root g

/-- `createGearMgr` for a document that was loaded, GearXML.cc lines 507-637; `RootElement` is the first element. -/
def readDocument (E : FileEnv) (nodes : List Node) : Read :=
  match nodes.find? Node.isElt with
  | none => ({}, .throw .parse)
  | some root => readRoot E root {}

/-- A `GearXML`: the member `_gearMgr`. -/
structure GearXML where
  gearMgr : Option Geometry := none

/-- `createGearMgr`, GearXML.cc lines 473-645, when loading the file has this result.  An assertion that fails and an endless loop in
the library that loads the file count as undefined behaviour. -/
def createGearMgr (E : FileEnv) (load : Run (Bool × List Node)) (x : GearXML) : GearXML × Res Geometry :=
  match x.gearMgr with
  | some g => (x, .ok g)
  | none =>
    match load with
    | .ok (true, nodes) =>
      let r := readDocument E nodes
      ({ gearMgr := some r.1 }, match r.2 with
        | .ok _ => .ok r.1
        | .throw e => .throw e
        | .ub => .ub)
    | .ok (false, _) => ({ gearMgr := some {} }, .throw .parse)
    | _ => ({ gearMgr := some {} }, .ub)

end Gear.Xml
