/-
Model of `gear::TPCModuleXML` and `gear::TPCParametersXML` (src/gearxml/TPCModuleXML.cc and src/gearxml/TPCParametersXML.cc).
-/
import Verif.XmlLayouts
import Verif.TpcParams

set_option autoImplicit false
set_option linter.unusedSectionVars false

namespace Gear.Xml

open TpcModule (CARTESIAN POLAR Ext LayoutI TrigFns)
open TpcParams (Tpc)

/-- What a pad layout answers about its pads: the functions a module passes on to its layout.  They do not take part in writing and
reading. -/
structure PadQueries where
  getPadCenter : ℤ → Res (ℚ × ℚ)
  getNearestPad : ℚ → ℚ → Res ℤ
  isInsidePad : ℚ → ℚ → ℤ → Res Bool
  getDistanceToPad : ℚ → ℚ → ℤ → Res ℚ

/-- `getCoordinateType` of the four classes: RectangularPadRowLayout.h line 125, and FixedDiskLayoutBase.h line 37 for its three
derived classes. -/
def PadLayout.coordinateType : PadLayout → ℤ
  | .rect _ => CARTESIAN
  | _ => POLAR

/-- A vector of four numbers. -/
def extOf (l : List ℚ) : Ext ℚ := ⟨l.getD 0 0, l.getD 1 0, l.getD 2 0, l.getD 3 0⟩

/-- `getPlaneExtent` of the four classes. -/
def PadLayout.planeExtent : PadLayout → Ext ℚ
  | .rect L => extOf (Rect.getPlaneExtent L)
  | .padSize L => extOf (PadSize.getPlaneExtent L)
  | .padAngle L => extOf (PadAngle.getPlaneExtent L)
  | .versatile L => extOf (Versatile.getPlaneExtent L)

/-- The layout as a module sees it. -/
def PadLayout.view (Q : PadLayout → PadQueries) (L : PadLayout) : LayoutI ℚ where
  coordinateType := L.coordinateType
  planeExtent := L.planeExtent
  getPadCenter := (Q L).getPadCenter
  getNearestPad := (Q L).getNearestPad
  isInsidePad := (Q L).isInsidePad
  getDistanceToPad := (Q L).getDistanceToPad

/-- The surroundings: the functions of `<cmath>` and the pad queries of the layouts. -/
structure Env where
  F : TrigFns ℚ
  Q : PadLayout → PadQueries

/-- A `TPCModuleImpl` with its pad layout and its base class `GearParametersImpl`. -/
structure ModuleSection where
  module : TpcModule.Module ℚ
  layout : PadLayout
  params : Params ℚ

/-- The element with the z position, TPCModuleXML.cc lines 46-56: nothing is inserted when `getZPosition` throws. -/
def zPositionNodes (m : TpcModule.Module ℚ) : List Node :=
  match TpcModule.getZPosition m with
  | .ok z => [el "zPosition" [("value", formatE z)] []]
  | _ => []

/-- `toXML`, TPCModuleXML.cc lines 19-70. -/
def moduleToXML (s : ModuleSection) : Res Node := do
  let layout ← layoutToXML s.layout
  let ps ← getXMLForParameters s.params
  .ok (el "module" [] ([el "moduleID" [("value", printInt (TpcModule.getModuleID s.module))] [],
    el "readoutFrequency" [("value", formatE (TpcModule.getReadoutFrequency s.module))] [], layout,
    el "offset" [("x_r", formatE (TpcModule.getOffset s.module).1), ("y_phi", formatE (TpcModule.getOffset s.module).2)] []]
    ++ zPositionNodes s.module
    ++ [el "angle" [("value", formatE (TpcModule.getAngle s.module))] [],
      el "enlargeActiveAreaBy" [("value", formatE (TpcModule.getBorderWidth s.module))] []] ++ ps))

/-- `moduleElement->FirstChildElement( name )`, or that of the default module, e.g. TPCModuleXML.cc lines 79-83. -/
def orDefault (e : Node) (default : Option Node) (name : String) : Option Node :=
  match e.firstElement name with
  | some c => some c
  | none => default.bind fun d => d.firstElement name

/-- An optional setting: the call is made when the element exists. -/
def setting {α : Type} (e : Option Node) (f : Node → α → Res α) (a : α) : Res α :=
  match e with
  | some e => f e a
  | none => .ok a

/-- `fromXML`, TPCModuleXML.cc lines 73-184.  The frequency is read with `atoi`, line 102. -/
def moduleFromXML (E : Env) (e : Node) (default : Option Node) (tpcCoordinateType moduleID : ℤ) : Res ModuleSection := do
  let moduleID ← setting (orDefault e default "moduleID") (fun c _ => int (some c) "value") moduleID
  match orDefault e default "readoutFrequency" with
  | none => .throw .parse
  | some fe => do
    let readoutFrequency ← int (some fe) "value"
    match orDefault e default "PadRowLayout2D" with
    | none => .throw .parse
    | some le => do
      let layout ← layoutFromXML E.F.pi le
      let m := TpcModule.new moduleID (layout.view E.Q) tpcCoordinateType (readoutFrequency : ℚ)
      let m ← setting (orDefault e default "offset") (fun c m => do
        let x ← num (some c) "x_r"
        let y ← num (some c) "y_phi"
        called (TpcModule.setOffset E.F m x y)) m
      let m ← setting (orDefault e default "zPosition") (fun c m => do
        let z ← num (some c) "value"
        .ok (TpcModule.setZPosition m z)) m
      let m ← setting (orDefault e default "angle") (fun c m => do
        let a ← num (some c) "value"
        called (TpcModule.setAngle E.F m a)) m
      let m ← setting (orDefault e default "enlargeActiveAreaBy") (fun c m => do
        let w ← num (some c) "value"
        called (TpcModule.setBorderWidth E.F m w)) m
      let p ← setParametersFromXML e {}
      .ok ⟨m, layout, p⟩

/-- A `TPCParametersImpl` with its modules and its base class `GearParametersImpl`; `tpc.modules` holds what the TPC asks these modules. -/
structure TpcSection where
  tpc : Tpc ℚ
  mods : List ModuleSection
  params : Params ℚ

/-- `addModule`. -/
def TpcSection.add (E : Env) (s : TpcSection) (m : ModuleSection) : Res TpcSection := do
  let T ← called (TpcParams.addModule s.tpc (some (TpcParams.ofModule E.F m.module)))
  .ok { s with tpc := T, mods := s.mods ++ [m] }

/-- The value of "coordinateType", TPCParametersXML.cc lines 39-47. -/
def coordinateText (t : ℤ) : Res Text :=
  if t = CARTESIAN then .ok "cartesian".toList
  else if t = POLAR then .ok "polar".toList
  else .throw .parse

/-- `toXML`, TPCParametersXML.cc lines 18-69. -/
def tpcToXML (s : TpcSection) : Res Node := do
  let t ← coordinateText (TpcParams.getCoordinateType s.tpc)
  let ms ← s.mods.mapM moduleToXML
  let ps ← getXMLForParameters s.params
  .ok (el "detector" [("geartype", "TPCParameters".toList)]
    ([el "maxDriftLength" [("value", formatE (TpcParams.getMaxDriftLength s.tpc))] [],
      el "driftVelocity" [("value", formatE (TpcParams.getDriftVelocity s.tpc))] [],
      el "coordinateType" [("value", t)] [], el "modules" [] ms] ++ ps))

/-- The variables of the loop over the content of a section of modules: the TPC, the default module and `moduleIDOffset`. -/
structure ModulesLoop where
  tpc : TpcSection
  default : Option Node
  offset : ℤ

/-- The body of the loop, TPCParametersXML.cc lines 174-207.  The overflow of `int` is not modelled. -/
def modulesLoopBody (E : Env) (coordinateType start : ℤ) (st : ModulesLoop) (n : Node) : Res ModulesLoop :=
  if n.isElt = false then .ok st
  else if n.value = "default".toList then .ok { st with default := some n }
  else if n.value ≠ "module".toList then .ok st
  else do
    let m ← moduleFromXML E n st.default coordinateType (start + st.offset)
    let T ← st.tpc.add E m
    .ok { st with tpc := T, offset := st.offset + 1 }

/-- One section of modules, TPCParametersXML.cc lines 158-207. -/
def readModules (E : Env) (coordinateType : ℤ) (s : TpcSection) (modules : Node) : Res TpcSection := do
  let start ← intOr (some modules) "moduleIDStartCount" 0
  let st ← modules.children.foldlM (modulesLoopBody E coordinateType start) ⟨s, modules.firstElement "default", 0⟩
  .ok st.tpc

/-- The modern syntax, TPCParametersXML.cc lines 143-208; the loop ends at a node named "modules" that is not an element. -/
def tpcFromModules (E : Env) (e : Node) (maxDriftLength : ℚ) (coordinateType : ℤ) : Res TpcSection :=
  ((e.named "modules").takeWhile Node.isElt).foldlM (readModules E coordinateType)
    ⟨TpcParams.new maxDriftLength coordinateType, [], {}⟩

/-- The old syntax, TPCParametersXML.cc lines 108-138. -/
def tpcFromLayout (E : Env) (e : Node) (maxDriftLength : ℚ) : Res TpcSection :=
  match e.firstElement "PadRowLayout2D" with
  | none => .throw .parse
  | some le => do
    let layout ← layoutFromXML E.F.pi le
    let T ← called (TpcParams.setPadLayout E.F (TpcParams.new maxDriftLength layout.coordinateType) false (layout.view E.Q))
    let v ← getChildElementValue e "driftVelocity"
    let f ← getChildElementValue e "readoutFrequency"
    let T ← called (TpcParams.setReadoutFrequency (TpcParams.setDriftVelocity T (atof v)) (atof f))
    let m := TpcModule.new 0 (layout.view E.Q) T.coordinateType 0
    .ok ⟨T, [⟨TpcModule.setReadoutFrequency m (atof f), layout, {}⟩], {}⟩

/-- The choice between the two, TPCParametersXML.cc lines 84-145: `t` is the value of "coordinateType", empty if there is no such element. -/
def tpcContent (E : Env) (e : Node) (maxDriftLength : ℚ) (t : Text) : Res TpcSection :=
  if t = [] then tpcFromLayout E e maxDriftLength
  else if t = "cartesian".toList then tpcFromModules E e maxDriftLength CARTESIAN
  else if t = "polar".toList then tpcFromModules E e maxDriftLength POLAR
  else .throw .parse

/-- `fromXML`, TPCParametersXML.cc lines 72-222, but for the last step, which stores the section in the manager. -/
def tpcFromXML (E : Env) (e : Node) : Res TpcSection := do
  let v ← getChildElementValue e "maxDriftLength"
  let t ← getOptionalChildElementValue e "coordinateType" []
  let s ← tpcContent E e (atof v) t
  let p ← setParametersFromXML e {}
  .ok { s with params := p }

end Gear.Xml
