/-
What C104 says: which geometries can be saved, and what it means for the geometry that is read from the file to be the same.
`r10 x` is `x` to ten digits; `SameParams` is in XmlParamsProps.lean.
-/
import Verif.XmlFile
import Verif.XmlSimpleProps
import Verif.XmlCaloProps
import Verif.XmlTrackerProps
import Verif.XmlTelescopeProps
import Verif.XmlTpcProps

set_option autoImplicit false
set_option linter.unusedSectionVars false

namespace Gear.Xml.Spec

open ZPlanar (PlanarFns)
open TpcModule.Spec (Known)

/-! ### What can be saved -/

/-- Named parameters after any history of calls, without strings of several words or none, without empty vectors (C53) and without a
reference to a character in names or strings (C56). -/
structure SavableParams (p : Params ℚ) : Prop where
  made : ∃ h, p = Params.run h
  storable : Storable p
  plain : NoReferences p

/-- A calorimeter that can be saved in this section: barrels not in endcap sections nor endcaps in barrel sections (C59); the
forward calorimeters have a beam crossing angle, as the setters of the manager see to. -/
structure SavableCalo (x : Section) (s : CaloSection) : Prop where
  params : SavableParams s.params
  sym : IsInt s.calo.sym
  layers : IsInt s.calo.layout.length
  kind : kindOf x = none ∨ kindOf x = some s.calo.type
  angle : x.forward = true → ∃ a, s.params.getDoubleVal "beam_crossing_angle" = .ok a

/-- Ladders built by any calls, of a documented technology (C60). -/
structure SavableZPlanar (F : PlanarFns ℚ) (s : ZPlanarSection) : Prop where
  params : SavableParams s.params
  made : ∃ b : ZPlanarBuild, s.geo = b.run F ∧ (b.type = 1 ∨ b.type = 2 ∨ b.type = 3) ∧ ∀ l ∈ b.layers, IsInt l.nLadders

/-- At most seven disks of documented types (C61). -/
structure SavableFtd (s : FtdSection) : Prop where
  params : SavableParams s.params
  made : ∃ l : List FtdLayerArgs, s.layers = ftdRun l ∧ l.length ≤ 7 ∧ ∀ a ∈ l, a.Valid

/-- A telescope built by any calls, of a documented type (C62). -/
structure SavableSi (s : SiSection) : Prop where
  params : SavableParams s.params
  made : ∃ past, s.layout = Telescope.Spec.run past
  type : s.type = 1 ∨ s.type = 2
  ints : ValidSi s

/-- A TPC built by any calls, whose modules have layouts that can be read back (C63, C64). -/
structure SavableTpc (E : Env) (s : TpcSection) : Prop where
  params : SavableParams s.params
  made : TpcMade E s
  type : Known (TpcParams.getCoordinateType s.tpc)
  modules : ∀ m ∈ s.mods, Good E (TpcParams.getCoordinateType s.tpc) m ∧ NoReferences m.params
  drift : r10 (TpcParams.getMaxDriftLength s.tpc) ≠ -1

/-- A geometry that can be saved.  There are no `TrackerPlanes`, which cannot be read back (C62), and no properties of
a GDML file, which are not saved. -/
structure Savable (E : FileEnv) (g : Geometry) : Prop where
  name : g.detectorName ≠ "" ∧ NoReference g.detectorName.toList
  field : ∀ f, g.bField = some f → SavableParams f.params
  tpc : ∀ s, g.tpc = some s → SavableTpc E.tpc s
  calo : ∀ x s, g.calo x = some s → x ∈ caloNames.map Prod.fst ∧ SavableCalo x s
  zplanar : ∀ x s, g.zplanar x = some s → (x = .vxd ∨ x = .sit ∨ x = .set) ∧ SavableZPlanar E.planar s
  ftd : ∀ s, g.ftd = some s → SavableFtd s
  si : ∀ s, g.siPlanes = some s → SavableSi s
  tracker : g.trackerPlanes = none
  genericSorted : SMap.Sorted g.generic
  generic : ∀ e ∈ g.generic, NoReference e.1.toList ∧ SavableParams e.2
  materialsSorted : SMap.Sorted g.materials
  materials : ∀ e ∈ g.materials, e.2.name = e.1 ∧ NoReference e.1.toList
  point : g.pointProperties = none
  distance : g.distanceProperties = none

/-! ### The same geometry -/

/-- The same field, to ten digits. -/
def SameField (f f' : BField) : Prop := f'.b = ⟨r10 f.b.x, r10 f.b.y, r10 f.b.z⟩ ∧ SameParams r10 f.params f'.params

/-- The same calorimeter, to ten digits, where a layer may be replaced by a close one (C58). -/
def SameCalo (s s' : CaloSection) : Prop :=
  (∃ ps, Kept (s.calo.layout.map plateOf) ps ∧ s'.calo = readCalo r10 s.calo ps) ∧ SameParams r10 s.params s'.params

/-- Built by the same calls with numbers of ten digits. -/
def SameZ (F : PlanarFns ℚ) (s s' : ZPlanarSection) : Prop :=
  (∃ b : ZPlanarBuild, s.geo = b.run F ∧ s'.geo = (b.map r10).run F) ∧ SameParams r10 s.params s'.params

/-- Built by the same calls with numbers of ten digits. -/
def SameFtd (s s' : FtdSection) : Prop :=
  (∃ l : List FtdLayerArgs, s.layers = ftdRun l ∧ s'.layers = ftdRun (l.map (FtdLayerArgs.map r10)))
    ∧ SameParams r10 s.params s'.params

/-- The same telescope, as far as it is written (C62). -/
def SameSi (s s' : SiSection) : Prop :=
  s'.id = s.id ∧ s'.type = s.type ∧ s'.number = s.number ∧ s'.layout = keptSi s ∧ SameParams r10 s.params s'.params

/-- The same TPC, as far as it is read back (C64); the drift velocity is not. -/
def SameTpc (E : Env) (s s' : TpcSection) : Prop :=
  TpcParams.getMaxDriftLength s'.tpc = r10 (TpcParams.getMaxDriftLength s.tpc)
    ∧ TpcParams.getCoordinateType s'.tpc = TpcParams.getCoordinateType s.tpc
    ∧ List.Forall₂ (SameModule E.F.pi) s.mods s'.mods
    ∧ TpcParams.getModules s'.tpc = s'.mods.map (fun m => TpcParams.ofModule E.F m.module)
    ∧ SameParams r10 s.params s'.params ∧ TpcParams.getDriftVelocity s'.tpc = 0

/-- The same geometry: the same sections exist, and every section is the same; the same holds for the named parameters of the user's
own detectors and for the materials. -/
structure SameGeometry (E : FileEnv) (g g' : Geometry) : Prop where
  name : g'.detectorName = g.detectorName
  field : Option.Rel SameField g.bField g'.bField
  tpc : Option.Rel (SameTpc E.tpc) g.tpc g'.tpc
  calo : ∀ x, Option.Rel SameCalo (g.calo x) (g'.calo x)
  zplanar : ∀ x, Option.Rel (SameZ E.planar) (g.zplanar x) (g'.zplanar x)
  ftd : Option.Rel SameFtd g.ftd g'.ftd
  si : Option.Rel SameSi g.siPlanes g'.siPlanes
  tracker : g'.trackerPlanes = g.trackerPlanes
  genericKeys : SMap.keys g'.generic = SMap.keys g.generic
  generic : ∀ k, Option.Rel (SameParams r10) (SMap.find? k g.generic) (SMap.find? k g'.generic)
  materialKeys : SMap.keys g'.materials = SMap.keys g.materials
  material : ∀ k, SMap.find? k g'.materials = (SMap.find? k g.materials).map fun m =>
    ⟨m.name, r10 m.a, r10 m.z, r10 m.density, r10 m.radLength, r10 m.intLength⟩
  point : g'.pointProperties = g.pointProperties
  distance : g'.distanceProperties = g.distanceProperties

end Gear.Xml.Spec
