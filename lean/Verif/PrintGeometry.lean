/-
Model of `operator<<` of a manager with everything in it, `src/gearimpl/Util.cc`, and of the program printParameters
(`src/test/printParameters.cc`) that reads a file and prints its geometry.

Line numbers are those of `src/gearimpl/Util.cc` if no file is given.  What is written is a list of items: titles, values with the words
in front of them, and the rows of the tables.  The rows of the tables that are written with `sprintf` are texts, the format of the
other numbers is left out; so are the lines of the frames of the tables and empty lines.  What GearXML prints while it reads a file is
left out.
-/
import Verif.XmlFile
import Verif.XmlMergeMain
import Verif.PrintMgr
import Verif.PrintTracker

set_option autoImplicit false
set_option linter.unusedSectionVars false

namespace Gear.Print.Geo

open Xml (Text Geometry FileEnv BField Material CaloSection ZPlanarSection FtdSection SiSection TrackerSection TpcSection ModuleSection
  PadLayout getSection)

/-- An item that is written. -/
inductive Shown where
  | title (t : String)
  | param (l : Line ℚ)
  | value (label : String) (v : ℚ)
  | number (label : String) (n : ℤ)
  | word (label : String) (w : String)
  | caloRow (r : CaloRow ℚ)
  | row (t : Text)
  | material (m : Material)

/-- What a function has written, and how it ended. -/
structure Out where
  shown : List Shown
  result : Res Unit

/-- Something is written. -/
def say (l : List Shown) : Out := ⟨l, .ok ()⟩

/-- The result of a function is written. -/
def write (r : Res (List Shown)) : Out :=
  match r with
  | .ok l => ⟨l, .ok ()⟩
  | .throw e => ⟨[], .throw e⟩
  | .ub => ⟨[], .ub⟩

/-- One after the other, until one of them throws. -/
def seq : List Out → Out
  | [] => ⟨[], .ok ()⟩
  | o :: os =>
    match o.result with
    | .ok _ => ⟨o.shown ++ (seq os).shown, (seq os).result⟩
    | .throw e => ⟨o.shown, .throw e⟩
    | .ub => ⟨o.shown, .ub⟩

/-- `catch(UnknownParameterException &e){}`: what was written before remains. -/
def caught (o : Out) : Out :=
  match o.result with
  | .throw (.unknownParameter _) => ⟨o.shown, .ok ()⟩
  | _ => o

/-- A loop that writes one row for every layer. -/
def rows (row : ℤ → Res Text) (n : ℕ) : Out :=
  seq ((List.range n).map fun i : ℕ => write (do
    let t ← row i
    .ok [.row t]))

/-- `operator<<` of `GearParameters`, lines 237-303. -/
def printParams (p : Params ℚ) : Out := write (do
  let l ← params p
  .ok (l.map .param))

/-- The word for a coordinate type, lines 332-337 and 364-369. -/
def coordinateWord (t : ℤ) : String :=
  if t = TpcModule.CARTESIAN then "cartesian" else if t = TpcModule.POLAR then "polar" else "unknown"

/-- `getNPads` of the four classes of layouts. -/
def nPads : PadLayout → ℤ
  | .rect L => Rect.getNPads L
  | .padSize L => PadSize.getNPads L
  | .padAngle L => PadAngle.getNPads L
  | .versatile L => Versatile.getNPads L

/-- `getNRows` of the four classes of layouts. -/
def nRows : PadLayout → ℤ
  | .rect L => Rect.getNRows L
  | .padSize L => PadSize.getNRows L
  | .padAngle L => PadAngle.getNRows L
  | .versatile L => Versatile.getNRows L

/-- Lines 375-382. -/
def printZPosition (m : TpcModule.Module ℚ) : Out :=
  match TpcModule.getZPosition m with
  | .ok z => say [.value "zPosition" z]
  | .throw .noZPosition => say [.word "zPosition" "no z Position set"]
  | .throw e => ⟨[], .throw e⟩
  | .ub => ⟨[], .ub⟩

/-- `operator<<` of `TPCModule`, lines 354-394. -/
def printModule (m : ModuleSection) : Out :=
  let ext := TpcModule.getPlaneExtent m.module
  seq [say [.title "TPCModule"], printParams m.params,
    say [.value "Readout frequency" (TpcModule.getReadoutFrequency m.module), .word "Type" (coordinateWord m.layout.coordinateType),
      .number "Number of pads" (nPads m.layout), .number "Number of Rows" (nRows m.layout),
      .value "Offset 0" (TpcModule.getOffset m.module).1, .value "Offset 1" (TpcModule.getOffset m.module).2],
    printZPosition m.module,
    say [.value "Angle" (TpcModule.getAngle m.module), .value "extent 0" ext.e0, .value "extent 1" ext.e1, .value "extent 2" ext.e2,
      .value "extent 3" ext.e3]]

/-- `operator<<` of `TPCParameters`, lines 323-352. -/
def printTpc (s : TpcSection) : Out :=
  seq ([say [.title "TPCParameters"], printParams s.params,
    say [.value "maxDriftLength" (TpcParams.getMaxDriftLength s.tpc),
      .word "coordinateType" (coordinateWord (TpcParams.getCoordinateType s.tpc)),
      .number "Number of modules" (TpcParams.getNModules s.tpc)]] ++ s.mods.map printModule)

/-- `operator<<` of `CalorimeterParameters`, lines 396-461. -/
def printCalo (s : CaloSection) : Out :=
  seq [printParams s.params,
    say [.word "calorimeter type" (if s.calo.type = .barrel then "barrel" else "endcap"), .number "symmetry order" s.calo.sym,
      .value "phi0" s.calo.phi, .value "rMin" s.calo.extent0, .value "rMax" s.calo.extent1, .value "zMin" s.calo.extent2,
      .value "zMax" s.calo.extent3, .number "layers" (Calo.getNLayers s.calo.layout)],
    write (do
      let l ← caloRows s.calo.layout
      .ok (l.map .caloRow))]

/-- The word for the type of a vertex detector, lines 476-490. -/
def zplanarWord (t : ℤ) : String := if t = 1 then "CCD" else if t = 2 then "CMOS" else if t = 3 then "HYBRID" else "unknown"

/-- `operator<<` of `ZPlanarParameters`, lines 464-543.  The rows of the table are those of `zplanarRows`. -/
def printZPlanar (s : ZPlanarSection) : Out :=
  seq [say [.title "ZPlanarParameters"], printParams s.params,
    say [.word "type" (zplanarWord s.geo.type), .value "Shell innerR" s.geo.shellInnerRadius, .value "outerR" s.geo.shellOuterRadius,
      .value "length" s.geo.shellHalfLength, .value "gap" s.geo.shellGap, .number "Layers" s.geo.layer.length],
    rows (fun i => do
      let l ← ZPlanar.layerAt s.geo.layer i false
      let x ← ZPlanar.layerAt s.geo.layer i true
      sprintf 1024 (zplanarPieces l x)) s.geo.layer.length]

/-- `operator<<` of `FTDParameters`, lines 545-600.  The rows of the table are those of `ftdRows`. -/
def printFtd (s : FtdSection) : Out :=
  seq [say [.title "FTDParameters"], printParams s.params, say [.number "Layers" s.layers.length],
    rows (fun i => do
      let l ← Ftd.sup s.layers i
      let x ← Ftd.sen s.layers i
      sprintf 1024 (ftdPieces l x)) s.layers.length]

/-- The word for the type of a telescope, lines 619-633. -/
def siWord (t : ℤ) : String := if t = 1 then "TelescopeWithDUT" else if t = 2 then "TelescopeWithoutDUT" else "unknown"

/-- The device under test, lines 700-748: the type is compared as a text, which is empty for another type. -/
def printDut (s : SiSection) : Out :=
  if s.type = 1 then
    seq [say [.title "DUT parameters"], write (do
      let t ← dutRow s.layout
      .ok [.row t])]
  else say []

/-- `operator<<` of `SiPlanesParameters`, lines 602-752.  The rows of the table are those of `siRows`. -/
def printSi (s : SiSection) : Out :=
  seq [say [.title "SiPlanesParameters"], printParams s.params,
    say [.number "Setup ID" s.id, .word "Telescope type" (siWord s.type), .number "Number of telescope planes" s.number,
      .number "Number of layers" s.layout.lVec.length],
    rows (fun i => do
      let l ← Telescope.at' s.layout.lVec i
      let x ← Telescope.at' s.layout.sVec i
      sprintf 1024 (siPieces l x)) s.layout.lVec.length,
    printDut s]

/-- `operator<<` of `TrackerPlanesParameters`, lines 754-776.  The text of the table is one item. -/
def printTracker (s : TrackerSection) : Out :=
  seq [say [.title "TrackerPlanesParameters"], printParams s.params,
    say [.number "Setup ID" s.id, .number "Number of telescope planes" s.number],
    write (do
      let t ← Tracker.printLayers s.layout
      .ok [.row t])]

/-- `operator<<` of `BField`, lines 305-318: the field is constant. -/
def printField (f : BField) : Out :=
  seq [say [.title "BField", .value "Bx" f.b.x, .value "By" f.b.y, .value "Bz" f.b.z], printParams f.params]

/-- One of the blocks with `try` and `catch(UnknownParameterException &e){}`.  With `late`, the getter is called after the heading has
been written, as since C++17; before, the order is up to the compiler. -/
def block {α : Type} (late : Bool) (heading : Option String) (s : Option α) (print : α → Out) : Out :=
  match getSection s with
  | .ok a => caught (seq [say (heading.map Shown.title).toList, print a])
  | .throw (.unknownParameter _) => say (if late then (heading.map Shown.title).toList else [])
  | .throw e => ⟨[], .throw e⟩
  | .ub => ⟨[], .ub⟩

/-- The name, lines 26-45, with `getDetectorName`, GearMgrImpl.cc lines 169-176. -/
def printName (late : Bool) (g : Geometry) : Out :=
  if g.detectorName.isEmpty then say ((if late then [.title "DetectorName"] else []) ++ [.title "WARNING:  NOT FOUND  !"])
  else say [.word "DetectorName" g.detectorName]

/-- The field, lines 47-61. -/
def printFieldOf (g : Geometry) : Out :=
  match getSection g.bField with
  | .ok f => caught (printField f)
  | _ => say [.title "BField", .title "WARNING:  NOT FOUND  !"]

/-- The blocks, lines 64-174. -/
def blocks (late : Bool) (g : Geometry) : List Out :=
  [block late (some "VXD") (g.zplanar .vxd) printZPlanar, block late none g.ftd printFtd,
    block late (some "SIT") (g.zplanar .sit) printZPlanar, block late (some "SET") (g.zplanar .set) printZPlanar,
    block late none (g.zplanar .sit) printZPlanar, block late none (g.zplanar .set) printZPlanar, block late none g.tpc printTpc,
    block late (some "Ecal barrel") (g.calo .ecalBarrel) printCalo, block late (some "Ecal endcap") (g.calo .ecalEndcap) printCalo,
    block late (some "Ecal plug") (g.calo .ecalPlug) printCalo, block late (some "Yoke barrel") (g.calo .yokeBarrel) printCalo,
    block late (some "Yoke endcap") (g.calo .yokeEndcap) printCalo, block late (some "Yoke plug") (g.calo .yokePlug) printCalo,
    block late (some "Hcal barrel") (g.calo .hcalBarrel) printCalo, block late (some "Hcal endcap") (g.calo .hcalEndcap) printCalo,
    block late (some "Hcal ring") (g.calo .hcalRing) printCalo, block late (some "Lcal") (g.calo .lcal) printCalo,
    block late (some "LHcal") (g.calo .lhcal) printCalo, block late (some "BeamCal") (g.calo .beamcal) printCalo,
    block late (some "TrackerPlanes") g.trackerPlanes printTracker, block late (some "SiPlanes") g.siPlanes printSi]

/-- The sections with named parameters, lines 178-194: `getGearParameters` for every key. -/
def printGeneric (g : Geometry) : List Out :=
  (SMap.keys g.generic).map fun k => seq [say [.title k], match Params.lookup k g.generic with
    | .ok p => printParams p
    | .throw e => ⟨[], .throw e⟩
    | .ub => ⟨[], .ub⟩]

/-- The materials, lines 198-210: `getSimpleMaterial` for every name. -/
def printMaterials (g : Geometry) : List Out :=
  (SMap.keys g.materials).map fun k => write (do
    let m ← Params.lookup k g.materials
    .ok [.material m])

/-- `operator<<` of `GearMgr`, lines 18-216. -/
def printManager (late : Bool) (g : Geometry) : Out :=
  seq ([printName late g, printFieldOf g] ++ blocks late g ++ [say [.title "parameter sections (detectors)"]] ++ printGeneric g
    ++ [say [.title "materials"]] ++ printMaterials g)

/-- `main` of printParameters.cc, lines 36-59, with `gear_unexpected`, lines 15-29, for exceptions that nobody catches: what is written,
and the exit status.  The name of the program is not among the arguments. -/
def printParameters (E : FileEnv) (late : Bool) (args : List Text) (d : Xml.Merge.Disk) : Res (List Shown × ℕ) :=
  match args with
  | [] => .ok ([.title "usage:     printParameters input.xml"], 1)
  | fileName :: _ =>
    match (Xml.createGearMgr E (Xml.Merge.load d fileName) {}).2 with
    | .throw _ => .ok ([.title "A runtime error has occured"], 1)
    | .ub => .ub
    | .ok g =>
      let o := printManager late g
      match o.result with
      | .ok _ => .ok (.word "instantiated  GearMgr from file" (Xml.str fileName) :: o.shown, 0)
      | .throw _ => .ok (.word "instantiated  GearMgr from file" (Xml.str fileName) :: o.shown ++ [.title "A runtime error has occured"], 1)
      | .ub => .ub

end Gear.Print.Geo
