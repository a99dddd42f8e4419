/-
Model of `gear::ZPlanarParametersXML` (src/gearxml/ZPlanarParametersXML.cc) and `gear::FTDParametersXML`
(src/gearxml/FTDParametersXML.cc).  The registration in the manager (ZPlanarParametersXML.cc lines 203-228) is in XmlGear.
-/
import Verif.XmlRead
import Verif.ZPlanar
import Verif.Ftd

set_option autoImplicit false
set_option linter.unusedSectionVars false

namespace Gear.Xml

open ZPlanar (PlanarFns)

/-- A `ZPlanarParametersImpl` with its base class `GearParametersImpl`. -/
structure ZPlanarSection where
  geo : ZPlanar.Params ℚ
  params : Params ℚ

/-- The text for the type, ZPlanarParametersXML.cc lines 35-54; the constants are in include/gear/ZPlanarParameters.h
lines 34-36. -/
def zplanarType (type : ℤ) : String :=
  if type = 1 then "CCD" else if type = 2 then "CMOS" else if type = 3 then "HYBRID" else "Unknown"

/-- The body of the loop over the layers, ZPlanarParametersXML.cc lines 82-109. -/
def zplanarLayerToXML (F : PlanarFns ℚ) (L : ZPlanar.Layout ℚ) (i : ℤ) : Res Node := do
  let nLadders ← ZPlanar.getNLadders L i
  let phi0 ← ZPlanar.getPhi0 F L i
  let lDist ← ZPlanar.getLadderDistance L i
  let lThick ← ZPlanar.getLadderThickness L i
  let lWidth ← ZPlanar.getLadderWidth L i
  let lLength ← ZPlanar.getLadderLength L i
  let lOffset ← ZPlanar.getLadderOffset L i
  let lRadLen ← ZPlanar.getLadderRadLength L i
  let sDist ← ZPlanar.getSensitiveDistance L i
  let sThick ← ZPlanar.getSensitiveThickness L i
  let sWidth ← ZPlanar.getSensitiveWidth L i
  let sLength ← ZPlanar.getSensitiveLength L i
  let sOffset ← ZPlanar.getSensitiveOffset L i
  let sRadLen ← ZPlanar.getSensitiveRadLength L i
  .ok (el "layer" [("nLadders", printInt nLadders), ("phi0", formatE phi0)]
    [el "ladder" [("distance", formatE lDist), ("thickness", formatE lThick), ("width", formatE lWidth),
      ("length", formatE lLength), ("offset", formatE lOffset), ("radLength", formatE lRadLen)] [],
     el "sensitive" [("distance", formatE sDist), ("thickness", formatE sThick), ("width", formatE sWidth),
      ("length", formatE sLength), ("offset", formatE sOffset), ("radLength", formatE sRadLen)] []])

/-- `toXML`, ZPlanarParametersXML.cc lines 17-120. -/
def zplanarToXML (F : PlanarFns ℚ) (s : ZPlanarSection) : Res Node := do
  let P := s.geo
  let layers ← (List.range P.layer.length).mapM fun i : ℕ => zplanarLayerToXML F P.layer (i : ℤ)
  let ps ← getXMLForParameters s.params
  .ok (el "detector" [] ([
    el "type" [("technology", (zplanarType P.type).toList)] [],
    el "shell" [("halfLength", formatE P.shellHalfLength), ("gap", formatE P.shellGap),
      ("innerRadius", formatE P.shellInnerRadius), ("outerRadius", formatE P.shellOuterRadius),
      ("radLength", formatE P.shellRadLength)] [],
    el "layers" [] layers] ++ ps))

/-- The arguments of one call of `addLayer`. -/
structure ZLayerArgs where
  nLadders : ℤ
  phi0 : ℚ
  ladder : ZPlanar.Size ℚ
  sensitive : ZPlanar.Size ℚ

/-- ZPlanarParametersXML.cc lines 175-180 and 182-187. -/
def zplanarSizeFromXML (n : Option Node) : Res (ZPlanar.Size ℚ) := do
  let dist ← num n "distance"
  let thick ← num n "thickness"
  let width ← num n "width"
  let length ← num n "length"
  let offset ← num n "offset"
  let radLen ← num n "radLength"
  .ok ⟨dist, offset, thick, length, width, radLen⟩

/-- The body of the loop over the layers, ZPlanarParametersXML.cc lines 167-191, without the call of `addLayer`. -/
def zplanarLayerFromXML (xmlLayer : Node) : Res ZLayerArgs := do
  let nLadders ← int (some xmlLayer) "nLadders"
  let phi0 ← num (some xmlLayer) "phi0"
  let ladder ← zplanarSizeFromXML (xmlLayer.firstElement "ladder")
  let sensitive ← zplanarSizeFromXML (xmlLayer.firstElement "sensitive")
  .ok ⟨nLadders, phi0, ladder, sensitive⟩

/-- The type for a text, ZPlanarParametersXML.cc lines 141-153. -/
def zplanarTypeOf (type : Text) : Res ℤ :=
  if type = "CCD".toList then .ok 1
  else if type = "CMOS".toList then .ok 2
  else if type = "HYBRID".toList then .ok 3
  else .throw .gear

/-- ZPlanarParametersXML.cc lines 189-191. -/
def zplanarAddLayer (F : PlanarFns ℚ) (P : ZPlanar.Params ℚ) (l : ZLayerArgs) : ZPlanar.Params ℚ :=
  P.addLayer F l.nLadders l.phi0 l.ladder l.sensitive

/-- `fromXML`, ZPlanarParametersXML.cc lines 122-198. -/
def zplanarFromXML (F : PlanarFns ℚ) (e : Node) : Res ZPlanarSection := do
  let typeEle := match e.firstElement "type" with
    | some t => some t
    | none => e.firstElement "vxdType"
  let text ← attrOf typeEle "technology"
  let type ← zplanarTypeOf text
  let shell := e.firstElement "shell"
  let halfLength ← num shell "halfLength"
  let gap ← num shell "gap"
  let innerR ← num shell "innerRadius"
  let outerR ← num shell "outerRadius"
  let radLen ← num shell "radLength"
  let nodes ← namedOf (e.firstElement "layers") "layer"
  let layers ← nodes.mapM zplanarLayerFromXML
  let p ← setParametersFromXML e {}
  .ok ⟨layers.foldl (zplanarAddLayer F) (ZPlanar.new type innerR outerR halfLength gap radLen), p⟩

/-- A `FTDParametersImpl` with its base class `GearParametersImpl`. -/
structure FtdSection where
  layers : Ftd.Layout ℚ
  params : Params ℚ

/-- The text for the type of a sensor, FTDParametersXML.cc lines 44-55; the constants are in include/gear/FTDParameters.h
lines 36-37. -/
def ftdType (type : ℤ) : String := if type = 1 then "PIXEL" else if type = 2 then "STRIP" else "Unknown"

/-- The body of the loop over the layers, FTDParametersXML.cc lines 37-86.  `SetAttribute` takes a `bool` as an `int`. -/
def ftdLayerToXML (L : Ftd.Layout ℚ) (i : ℤ) : Res Node := do
  let nPetals ← Ftd.getNPetals L i
  let nSensors ← Ftd.getNSensors L i
  let isDoubleSided ← Ftd.isDoubleSided L i
  let sensorType ← Ftd.getSensorType L i
  let angle ← Ftd.getPhiHalfDistance L i
  let phi0 ← Ftd.getPhi0 L i
  let alpha ← Ftd.getAlpha L i
  let zoffset ← Ftd.getZoffset L i
  let zsign0 ← Ftd.getZoffsetSign0 L i
  let zposition ← Ftd.getZposition L i
  let lThick ← Ftd.getSupportThickness L i
  let lWidth ← Ftd.getSupportWidth L i
  let lLengthMin ← Ftd.getSupportLengthMin L i
  let lLengthMax ← Ftd.getSupportLengthMax L i
  let lRinner ← Ftd.getSupportRinner L i
  let lRadLen ← Ftd.getSupportRadLength L i
  let sThick ← Ftd.getSensitiveThickness L i
  let sWidth ← Ftd.getSensitiveWidth L i
  let sLengthMin ← Ftd.getSensitiveLengthMin L i
  let sLengthMax ← Ftd.getSensitiveLengthMax L i
  let sRinner ← Ftd.getSensitiveRinner L i
  let sRadLen ← Ftd.getSensitiveRadLength L i
  .ok (el "layer" [("nPetals", printInt nPetals), ("nSensors", printInt nSensors),
      ("isDoubleSided", printInt (if isDoubleSided then 1 else 0)), ("sensorType", (ftdType sensorType).toList),
      ("petalOpenningAngle", formatE angle), ("phi0", formatE phi0), ("alpha", formatE alpha), ("zoffset", formatE zoffset),
      ("zsign0", formatE zsign0), ("zposition", formatE zposition)]
    [el "support" [("thickness", formatE lThick), ("width", formatE lWidth), ("lengthMin", formatE lLengthMin),
      ("lengthMax", formatE lLengthMax), ("rInner", formatE lRinner), ("radLength", formatE lRadLen)] [],
     el "sensitive" [("thickness", formatE sThick), ("width", formatE sWidth), ("lengthMin", formatE sLengthMin),
      ("lengthMax", formatE sLengthMax), ("rInner", formatE sRinner), ("radLength", formatE sRadLen)] []])

/-- `toXML`, FTDParametersXML.cc lines 17-95. -/
def ftdToXML (s : FtdSection) : Res Node := do
  let layers ← (List.range s.layers.length).mapM fun i : ℕ => ftdLayerToXML s.layers (i : ℤ)
  let ps ← getXMLForParameters s.params
  .ok (el "detector" [] ([el "layers" [] layers] ++ ps))

/-- The arguments of one call of `addLayer`. -/
structure FtdLayerArgs where
  common : Ftd.Common ℚ
  support : Ftd.Shape ℚ
  sensitive : Ftd.Shape ℚ

/-- FTDParametersXML.cc lines 139-144 and 147-152. -/
def ftdShapeFromXML (n : Option Node) : Res (Ftd.Shape ℚ) := do
  let thick ← num n "thickness"
  let width ← num n "width"
  let lengthMin ← num n "lengthMin"
  let lengthMax ← num n "lengthMax"
  let rinner ← num n "rInner"
  let radLen ← num n "radLength"
  .ok ⟨rinner, thick, lengthMin, lengthMax, width, radLen⟩

/-- The type of sensor for a text, FTDParametersXML.cc lines 113-127. -/
def ftdTypeOf (type : Text) : Res ℤ :=
  if type = "PIXEL".toList then .ok 1
  else if type = "STRIP".toList then .ok 2
  else .throw .gear

/-- The body of the loop over the layers, FTDParametersXML.cc lines 108-158, without the call of `addLayer`. -/
def ftdLayerFromXML (xmlLayer : Node) : Res FtdLayerArgs := do
  let nPetals ← int (some xmlLayer) "nPetals"
  let nSensors ← int (some xmlLayer) "nSensors"
  let isDoubleSided ← int (some xmlLayer) "isDoubleSided"
  let type ← attrOf (some xmlLayer) "sensorType"
  let sensorType ← ftdTypeOf type
  let angle ← num (some xmlLayer) "petalOpenningAngle"
  let phi0 ← num (some xmlLayer) "phi0"
  let alpha ← num (some xmlLayer) "alpha"
  let zposition ← num (some xmlLayer) "zposition"
  let zoffset ← num (some xmlLayer) "zoffset"
  let zsign0 ← num (some xmlLayer) "zsign0"
  let support ← ftdShapeFromXML (xmlLayer.firstElement "support")
  let sensitive ← ftdShapeFromXML (xmlLayer.firstElement "sensitive")
  .ok ⟨⟨nPetals, nSensors, decide (isDoubleSided ≠ 0), sensorType, angle, phi0, alpha, zposition, zoffset, zsign0⟩,
    support, sensitive⟩

/-- FTDParametersXML.cc lines 154-158. -/
def ftdAddLayer (L : Ftd.Layout ℚ) (l : FtdLayerArgs) : Ftd.Layout ℚ := Ftd.addLayer L l.common l.support l.sensitive

/-- `fromXML`, FTDParametersXML.cc lines 97-175, without the registration in the manager. -/
def ftdFromXML (e : Node) : Res FtdSection := do
  let nodes ← namedOf (e.firstElement "layers") "layer"
  let layers ← nodes.mapM ftdLayerFromXML
  let p ← setParametersFromXML e {}
  .ok ⟨layers.foldl ftdAddLayer [], p⟩

end Gear.Xml
