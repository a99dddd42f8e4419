/-
Model of the library that answers questions about the geometry in a GDML file: `GearMaterialProperties`
(include/gear/GearMaterialProperties.h), `TGeoMaterialProperties` (src/geartgeo/TGeoMaterialProperties.cc) and
`TGeoGeometryInitializer` (src/geartgeo/TGeoGeometryInitializer.cc).

Simplifications.  ROOT is not modelled: which geometry is in which file is a function of the name, and a geometry is known by a number.
That ROOT has one current geometry and may delete the previous one when another is read is left out.  The questions themselves are
modelled in TGeoPoint.lean and TGeoDistance.lean.
-/
import Verif.Params

set_option autoImplicit false
set_option linter.unusedSectionVars false

namespace Gear.Gdml

/-- A `TGeoManager`. -/
abbrev GeoMgr := ℕ

/-- `GDMLReadFile` of ROOT and `GetGeoManager`, TGeoGeometryInitializer.cc lines 30 and 34: the geometry in the file with this name, if it
can be read. -/
abbrev Root := String → Option GeoMgr

/-- A `TGeoGearPointProperties`: the geometry that it asks, TGeoGearPointProperties.cc lines 14-16. -/
structure PointProperties where
  geo : GeoMgr
deriving DecidableEq, Repr

/-- A `TGeoGearDistanceProperties`: the geometry that it asks, TGeoGearDistanceProperties.cc lines 14-16. -/
structure DistanceProperties where
  geo : GeoMgr
deriving DecidableEq, Repr

/-- A `TGeoMaterialProperties`: the configuration (GearMaterialProperties.h line 48) and the geometry of `_tgeoInit`, null at first
(TGeoMaterialProperties.cc lines 13-14). -/
structure Plugin where
  cfg : SMap String String := []
  init : Option GeoMgr := none

/-- `config()[ key ] = value`, GearMaterialProperties.h line 32. -/
def Plugin.setConfig (p : Plugin) (key value : String) : Plugin := { p with cfg := SMap.set key value p.cfg }

/-- The constructor of `TGeoGeometryInitializer`, TGeoGeometryInitializer.cc lines 26-37: an exception if the file cannot be read. -/
def initializer (R : Root) (name : String) : Res GeoMgr :=
  match R name with
  | none => .throw .parse
  | some m => .ok m

/-- `_cfg[ key ]`, TGeoMaterialProperties.cc line 23: an empty value is inserted for a missing key. -/
def Plugin.configAt (p : Plugin) (key : String) : Plugin × String :=
  match SMap.find? key p.cfg with
  | some v => (p, v)
  | none => (p.setConfig key "", "")

/-- `initialize`, TGeoMaterialProperties.cc lines 21-27: if the constructor throws, `_tgeoInit` keeps its value. -/
def Plugin.initialize (R : Root) (p : Plugin) : Plugin × Res Unit :=
  let (p, name) := p.configAt "GDMLFileName"
  match initializer R name with
  | .ok m => ({ p with init := some m }, .ok ())
  | .throw e => (p, .throw e)
  | .ub => (p, .ub)

/-- `getGearPointProperties`, TGeoMaterialProperties.cc lines 29-32. -/
def Plugin.getGearPointProperties (p : Plugin) : Option PointProperties := p.init.map fun m => ⟨m⟩

/-- `getGearDistanceProperties`, TGeoMaterialProperties.cc lines 34-37. -/
def Plugin.getGearDistanceProperties (p : Plugin) : Option DistanceProperties := p.init.map fun m => ⟨m⟩

end Gear.Gdml
