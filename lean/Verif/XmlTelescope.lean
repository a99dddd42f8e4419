/-
Model of `gear::SiPlanesParametersXML` (src/gearxml/SiPlanesParametersXML.cc, "si" in the citations) and
`gear::TrackerPlanesParametersXML` (src/gearxml/TrackerPlanesParametersXML.cc, "tracker").
-/
import Verif.XmlRead
import Verif.Telescope

set_option autoImplicit false
set_option linter.unusedSectionVars false

namespace Gear.Xml

open Telescope (Si Layer SensLayer)

/-- A `SiPlanesParametersImpl` (include/gear/gearimpl/SiPlanesParametersImpl.h) with its base class `GearParametersImpl`. -/
structure SiSection where
  id : ℤ
  type : ℤ
  number : ℤ
  layout : Si ℚ
  params : Params ℚ

/-- Si lines 46-57; the constants are in include/gear/SiPlanesParameters.h lines 29-30. -/
def siType (type : ℤ) : String :=
  if type = 1 then "TelescopeWithDUT" else if type = 2 then "TelescopeWithoutDUT" else "Unknown"

/-- The body of the loop over the layers, si lines 118-156. -/
def siLayerToXML (s : Si ℚ) (i : ℤ) : Res Node := do
  let lID ← s.getID i
  let lpositionX ← s.getLayerPositionX i
  let lpositionY ← s.getLayerPositionY i
  let lpositionZ ← s.getLayerPositionZ i
  let lrotationXY ← s.getLayerRotationXY i
  let lrotationZX ← s.getLayerRotationZX i
  let lrotationZY ← s.getLayerRotationZY i
  let lsizeX ← s.getLayerSizeX i
  let lsizeY ← s.getLayerSizeY i
  let lthickness ← s.getLayerThickness i
  let lradLength ← s.getLayerRadLength i
  let sID ← s.getSensitiveID i
  let spositionX ← s.getSensitivePositionX i
  let spositionY ← s.getSensitivePositionY i
  let spositionZ ← s.getSensitivePositionZ i
  let ssizeX ← s.getSensitiveSizeX i
  let ssizeY ← s.getSensitiveSizeY i
  let sthickness ← s.getSensitiveThickness i
  let snpixelX ← s.getSensitiveNpixelX i
  let snpixelY ← s.getSensitiveNpixelY i
  let spitchX ← s.getSensitivePitchX i
  let spitchY ← s.getSensitivePitchY i
  let sresolution ← s.getSensitiveResolution i
  let srotation1 ← s.getSensitiveRotation1 i
  let srotation2 ← s.getSensitiveRotation2 i
  let srotation3 ← s.getSensitiveRotation3 i
  let srotation4 ← s.getSensitiveRotation4 i
  let sradLength ← s.getSensitiveRadLength i
  .ok (el "layer" []
    [el "ladder"
      [("ID", printInt lID), ("positionX", formatE lpositionX), ("positionY", formatE lpositionY),
      ("positionZ", formatE lpositionZ), ("rotationXY", formatE lrotationXY), ("rotationZX", formatE lrotationZX),
      ("rotationZY", formatE lrotationZY), ("sizeX", formatE lsizeX), ("sizeY", formatE lsizeY),
      ("thickness", formatE lthickness), ("radLength", formatE lradLength)] [],
     el "sensitive"
      [("ID", printInt sID), ("positionX", formatE spositionX), ("positionY", formatE spositionY),
      ("positionZ", formatE spositionZ), ("sizeX", formatE ssizeX), ("sizeY", formatE ssizeY),
      ("thickness", formatE sthickness), ("npixelX", printInt snpixelX), ("npixelY", printInt snpixelY),
      ("pitchX", formatE spitchX), ("pitchY", formatE spitchY), ("resolution", formatE sresolution),
      ("rotation1", formatE srotation1), ("rotation2", formatE srotation2), ("rotation3", formatE srotation3),
      ("rotation4", formatE srotation4), ("radLength", formatE sradLength)] []])

/-- The device under test, si lines 73-113. -/
def siDutToXML (s : Si ℚ) : Node :=
  el "dut" []
    [el "dut_ladder"
      [("ID", printInt s.getDUTID), ("positionX", formatE s.getDUTPositionX), ("positionY", formatE s.getDUTPositionY),
      ("positionZ", formatE s.getDUTPositionZ), ("sizeX", formatE s.getDUTSizeX), ("sizeY", formatE s.getDUTSizeY),
      ("thickness", formatE s.getDUTThickness), ("radLength", formatE s.getDUTRadLength)] [],
     el "dut_sensitive"
      [("ID", printInt s.getDUTSensitiveID), ("positionX", formatE s.getDUTSensitivePositionX),
      ("positionY", formatE s.getDUTSensitivePositionY), ("positionZ", formatE s.getDUTSensitivePositionZ),
      ("sizeX", formatE s.getDUTSensitiveSizeX), ("sizeY", formatE s.getDUTSensitiveSizeY),
      ("thickness", formatE s.getDUTSensitiveThickness), ("npixelX", printInt s.getDUTSensitiveNpixelX),
      ("npixelY", printInt s.getDUTSensitiveNpixelY), ("pitchX", formatE s.getDUTSensitivePitchX),
      ("pitchY", formatE s.getDUTSensitivePitchY), ("resolution", formatE s.getDUTSensitiveResolution),
      ("rotation1", formatE s.getDUTSensitiveRotation1), ("rotation2", formatE s.getDUTSensitiveRotation2),
      ("rotation3", formatE s.getDUTSensitiveRotation3), ("rotation4", formatE s.getDUTSensitiveRotation4),
      ("radLength", formatE s.getDUTSensitiveRadLength)] []]

/-- `toXML`, si lines 26-164. -/
def siToXML (s : SiSection) : Res Node := do
  let layers ← (List.range s.layout.lVec.length).mapM fun i : ℕ => siLayerToXML s.layout (i : ℤ)
  let ps ← getXMLForParameters s.params
  .ok (el "detector" [] ([
    el "siplanesID" [("ID", printInt s.id)] [],
    el "siplanesType" [("type", (siType s.type).toList)] [],
    el "siplanesNumber" [("number", printInt s.number)] []]
    ++ (if siType s.type = "TelescopeWithDUT" then [siDutToXML s.layout] else [])
    ++ [el "layers" [] layers] ++ ps))

/-- Si lines 184-195. -/
def siTypeOf (type : Text) : Res ℤ :=
  if type = "TelescopeWithDUT".toList then .ok 1
  else if type = "TelescopeWithoutDUT".toList then .ok 2
  else .throw .gear

/-- Si lines 206-239, without the call of `addDUT`; the unused members of the result are zero.  The element that is missing is found
when one of its children is asked for. -/
def siDutFromXML (xmlDUT : Option Node) : Res (Layer ℚ × SensLayer ℚ) := do
  let lad ← firstOf xmlDUT "dut_ladder"
  let sen ← firstOf xmlDUT "dut_sensitive"
  let lID ← int lad "ID"
  let lpositionX ← num lad "positionX"
  let lpositionY ← num lad "positionY"
  let lpositionZ ← num lad "positionZ"
  let lsizeX ← num lad "sizeX"
  let lsizeY ← num lad "sizeY"
  let lthickness ← num lad "thickness"
  let lradLength ← num lad "radLength"
  let sID ← int sen "ID"
  let spositionX ← num sen "positionX"
  let spositionY ← num sen "positionY"
  let spositionZ ← num sen "positionZ"
  let ssizeX ← num sen "sizeX"
  let ssizeY ← num sen "sizeY"
  let sthickness ← num sen "thickness"
  let snpixelX ← int sen "npixelX"
  let snpixelY ← int sen "npixelY"
  let spitchX ← num sen "pitchX"
  let spitchY ← num sen "pitchY"
  let sresolution ← num sen "resolution"
  let srotation1 ← numOr sen "rotation1" 1
  let srotation2 ← numOr sen "rotation2" 0
  let srotation3 ← numOr sen "rotation3" 0
  let srotation4 ← numOr sen "rotation4" 1
  let sradLength ← num sen "radLength"
  .ok (⟨lID, lpositionX, lpositionY, lpositionZ, 0, 0, 0, lsizeX, lsizeY, lthickness, lradLength⟩,
    ⟨sID, spositionX, spositionY, spositionZ, 0, 0, 0, ssizeX, ssizeY, sthickness, sradLength, snpixelX, snpixelY, spitchX, spitchY,
      sresolution, 0, 0, srotation1, srotation2, srotation3, srotation4⟩)

/-- Si lines 246-288, without the call of `addLayer`. -/
def siLayerFromXML (xmlLayer : Node) : Res (Layer ℚ × SensLayer ℚ) := do
  let lad := xmlLayer.firstElement "ladder"
  let sen := xmlLayer.firstElement "sensitive"
  let lID ← int lad "ID"
  let lpositionX ← num lad "positionX"
  let lpositionY ← num lad "positionY"
  let lpositionZ ← num lad "positionZ"
  let lrotationXY ← numOr lad "rotationXY" 0
  let lrotationZX ← numOr lad "rotationZX" 0
  let lrotationZY ← numOr lad "rotationZY" 0
  let lsizeX ← num lad "sizeX"
  let lsizeY ← num lad "sizeY"
  let lthickness ← num lad "thickness"
  let lradLength ← num lad "radLength"
  let sID ← int sen "ID"
  let spositionX ← num sen "positionX"
  let spositionY ← num sen "positionY"
  let spositionZ ← num sen "positionZ"
  let srotationXY ← numOr sen "rotationXY" 0
  let srotationZX ← numOr sen "rotationZX" 0
  let srotationZY ← numOr sen "rotationZY" 0
  let ssizeX ← num sen "sizeX"
  let ssizeY ← num sen "sizeY"
  let sthickness ← num sen "thickness"
  let snpixelX ← int sen "npixelX"
  let snpixelY ← int sen "npixelY"
  let spitchX ← num sen "pitchX"
  let spitchY ← num sen "pitchY"
  let sresolution ← num sen "resolution"
  let rx ← numOr sen "resolutionX" (-1)
  let ry ← numOr sen "resolutionY" (-1)
  let srotation1 ← numOr sen "rotation1" 1
  let srotation2 ← numOr sen "rotation2" 0
  let srotation3 ← numOr sen "rotation3" 0
  let srotation4 ← numOr sen "rotation4" 1
  let sradLength ← num sen "radLength"
  .ok (⟨lID, lpositionX, lpositionY, lpositionZ, lrotationXY, lrotationZX, lrotationZY, lsizeX, lsizeY, lthickness, lradLength⟩,
    ⟨sID, spositionX, spositionY, spositionZ, srotationXY, srotationZX, srotationZY, ssizeX, ssizeY, sthickness, sradLength,
      snpixelX, snpixelY, spitchX, spitchY, sresolution, if rx < 0 then sresolution else rx, if ry < 0 then sresolution else ry,
      srotation1, srotation2, srotation3, srotation4⟩)

/-- The call of `addLayer`, si lines 290-291. -/
def siAddLayer (x : Si ℚ) (p : Layer ℚ × SensLayer ℚ) : Si ℚ :=
  x.addLayer p.1.id p.1.positionX p.1.positionY p.1.positionZ p.1.rotationXY p.1.rotationZX p.1.rotationZY p.1.sizeX p.1.sizeY
    p.1.thickness p.1.radLength p.2.id p.2.positionX p.2.positionY p.2.positionZ p.2.rotationXY p.2.rotationZX p.2.rotationZY
    p.2.sizeX p.2.sizeY p.2.thickness p.2.npixelX p.2.npixelY p.2.pitchX p.2.pitchY p.2.resolution p.2.resolutionX
    p.2.resolutionY p.2.rotation1 p.2.rotation2 p.2.rotation3 p.2.rotation4 p.2.radLength

/-- The call of `addDUT`, si line 238. -/
def siAddDUT (x : Si ℚ) (p : Layer ℚ × SensLayer ℚ) : Si ℚ :=
  x.addDUT p.1.id p.1.positionX p.1.positionY p.1.positionZ p.1.sizeX p.1.sizeY p.1.thickness p.1.radLength p.2.id p.2.positionX
    p.2.positionY p.2.positionZ p.2.sizeX p.2.sizeY p.2.thickness p.2.npixelX p.2.npixelY p.2.pitchX p.2.pitchY p.2.resolution
    p.2.rotation1 p.2.rotation2 p.2.rotation3 p.2.rotation4 p.2.radLength

/-- `fromXML`, si lines 166-297, without the registration in the manager. -/
def siFromXML (e : Node) : Res SiSection := do
  let id ← int (e.firstElement "siplanesID") "ID"
  let text ← attrOf (e.firstElement "siplanesType") "type"
  let type ← siTypeOf text
  let number ← int (e.firstElement "siplanesNumber") "number"
  let start ← if type = 1 then do
      let d ← siDutFromXML (e.firstElement "dut")
      .ok (siAddDUT .new d)
    else .ok .new
  let nodes ← namedOf (e.firstElement "layers") "layer"
  let layers ← nodes.mapM siLayerFromXML
  let p ← setParametersFromXML e {}
  .ok ⟨id, type, number, layers.foldl siAddLayer start, p⟩

/-- A `TrackerPlanesParametersImpl` (include/gear/gearimpl/TrackerPlanesParametersImpl.h) with its base class. -/
structure TrackerSection where
  id : ℤ
  type : ℤ
  number : ℤ
  layout : Telescope.TLayout ℚ
  params : Params ℚ

/-- Tracker lines 71-86. -/
def trackerMaterialToXML (m : Telescope.Material ℚ) : Node :=
  el "ladder"
    [("ID", printInt m.id), ("info", m.info.toList), ("positionX", formatE m.positionX), ("positionY", formatE m.positionY),
    ("positionZ", formatE m.positionZ), ("rotationXY", formatE m.rotationXY), ("rotationZX", formatE m.rotationZX),
    ("rotationZY", formatE m.rotationZY), ("sizeX", formatE m.sizeX), ("sizeY", formatE m.sizeY),
    ("thickness", formatE m.thickness), ("radLength", formatE m.radLength)] []

/-- Tracker lines 90-112. -/
def trackerSensorToXML (m : Telescope.Sensor ℚ) : Node :=
  el "sensitive"
    [("ID", printInt m.id), ("info", m.info.toList), ("positionX", formatE m.positionX), ("positionY", formatE m.positionY),
    ("positionZ", formatE m.positionZ), ("rotationXY", formatE m.rotationXY), ("rotationZX", formatE m.rotationZX),
    ("rotationZY", formatE m.rotationZY), ("sizeX", formatE m.sizeX), ("sizeY", formatE m.sizeY),
    ("thickness", formatE m.thickness), ("npixelX", printInt m.npixelX), ("npixelY", printInt m.npixelY),
    ("pitchX", formatE m.pitchX), ("pitchY", formatE m.pitchY), ("resolutionX", formatE m.resolutionX),
    ("resolutionY", formatE m.resolutionY), ("radLength", formatE m.radLength)] []

/-- The body of the loop over the layers, tracker lines 60-114.  (`getLayer` is not null for the indices of the loop.) -/
def trackerLayerToXML (l : Telescope.TLayer ℚ) : Node :=
  el "layer" [] (l.materials.map trackerMaterialToXML ++ l.sensors.map trackerSensorToXML)

/-- `toXML`, tracker lines 28-122.  The element `layers` (line 58) is never inserted: the layers become children of the section. -/
def trackerToXML (s : TrackerSection) : Res Node := do
  let ps ← getXMLForParameters s.params
  .ok (el "detector" [] ([
    el "LayoutID" [("ID", printInt s.id)] [],
    el "LayoutNumberOfLayers" [("number", printInt s.number)] []]
    ++ s.layout.layers.map trackerLayerToXML ++ ps))

/-- Tracker lines 158-173, without the call of `addMaterialLayer`. -/
def trackerMaterialFromXML (n : Node) : Res (Telescope.Material ℚ) := do
  let id ← int (some n) "ID"
  let info ← textOr (some n) "info" ""
  let positionX ← numOr (some n) "positionX" 0
  let positionY ← numOr (some n) "positionY" 0
  let positionZ ← numOr (some n) "positionZ" 0
  let rotationXY ← numOr (some n) "rotationXY" 0
  let rotationZX ← numOr (some n) "rotationZX" 0
  let rotationZY ← numOr (some n) "rotationZY" 0
  let sizeX ← numOr (some n) "sizeX" 1
  let sizeY ← numOr (some n) "sizeY" 1
  let thickness ← numOr (some n) "thickness" 0
  let radLength ← numOr (some n) "radLength" 0
  .ok ⟨id, info, positionX, positionY, positionZ, rotationXY, rotationZX, rotationZY, sizeX, sizeY, thickness, radLength⟩

/-- Tracker lines 179-202, without the call of `addSensitiveLayer`. -/
def trackerSensorFromXML (n : Node) : Res (Telescope.Sensor ℚ) := do
  let id ← int (some n) "ID"
  let info ← textOr (some n) "info" ""
  let positionX ← numOr (some n) "positionX" 0
  let positionY ← numOr (some n) "positionY" 0
  let positionZ ← numOr (some n) "positionZ" 0
  let rotationXY ← numOr (some n) "rotationXY" 0
  let rotationZX ← numOr (some n) "rotationZX" 0
  let rotationZY ← numOr (some n) "rotationZY" 0
  let sizeX ← numOr (some n) "sizeX" 1
  let sizeY ← numOr (some n) "sizeY" 1
  let thickness ← numOr (some n) "thickness" 0
  let radLength ← numOr (some n) "radLength" 0
  let npixelX ← intOr (some n) "npixelX" 1
  let npixelY ← intOr (some n) "npixelY" 1
  let pitchX ← numOr (some n) "pitchX" 0
  let pitchY ← numOr (some n) "pitchY" 0
  let resolutionX ← numOr (some n) "resolutionX" 0
  let resolutionY ← numOr (some n) "resolutionY" 0
  .ok ⟨id, info, positionX, positionY, positionZ, rotationXY, rotationZX, rotationZY, sizeX, sizeY, thickness, radLength,
    npixelX, npixelY, pitchX, pitchY, resolutionX, resolutionY⟩

/-- The call of `addMaterialLayer`, tracker line 175. -/
def trackerAddMaterial (l : Telescope.TLayer ℚ) (m : Telescope.Material ℚ) : Telescope.TLayer ℚ :=
  l.addMaterialLayer m.id m.info m.positionX m.positionY m.positionZ m.rotationXY m.rotationZX m.rotationZY m.sizeX m.sizeY
    m.thickness m.radLength

/-- The call of `addSensitiveLayer`, tracker line 204. -/
def trackerAddSensor (l : Telescope.TLayer ℚ) (m : Telescope.Sensor ℚ) : Telescope.TLayer ℚ :=
  l.addSensitiveLayer m.id m.info m.positionX m.positionY m.positionZ m.rotationXY m.rotationZX m.rotationZY m.sizeX m.sizeY
    m.thickness m.radLength m.npixelX m.npixelY m.pitchX m.pitchY m.resolutionX m.resolutionY

/-- The body of the loop over the layers, tracker lines 143-207. -/
def trackerLayerFromXML (n : Node) : Res (Telescope.TLayer ℚ) := do
  let id ← int (some n) "ID"
  let info ← textOr (some n) "info" ""
  let materials ← (n.named "ladder").mapM trackerMaterialFromXML
  let sensors ← (n.named "sensitive").mapM trackerSensorFromXML
  .ok (sensors.foldl trackerAddSensor (materials.foldl trackerAddMaterial ((Telescope.TLayer.new.setID id).setInfo info)))

/-- `fromXML`, tracker lines 124-216, without the registration in the manager. -/
def trackerFromXML (e : Node) : Res TrackerSection := do
  let id ← int (e.firstElement "LayoutID") "ID"
  let number ← int (e.firstElement "LayoutNumberOfLayers") "number"
  let nodes ← namedOf (e.firstElement "layers") "layer"
  let layers ← nodes.mapM trackerLayerFromXML
  let p ← setParametersFromXML e {}
  .ok ⟨id, 0, number, layers.foldl Telescope.TLayout.addLayer .new, p⟩

end Gear.Xml
