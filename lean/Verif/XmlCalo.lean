/-
Model of `gear::CalorimeterParametersXML` (src/gearxml/CalorimeterParametersXML.cc; line numbers refer to this file).
-/
import Verif.XmlRead
import Verif.Calo
import Verif.GearMgr

set_option autoImplicit false
set_option linter.unusedSectionVars false

namespace Gear.Xml

open Calo (Kind)

/-- A `CalorimeterParametersImpl` with its base class `GearParametersImpl`. -/
structure CaloSection where
  calo : Calo.Calo ℚ
  params : Params ℚ

/-- `isEqual`, lines 320-333, with `_EPSILON` of line 19. -/
def isEqual (valueOne valueTwo : ℚ) : Bool :=
  if valueOne = valueTwo then true
  else decide (|valueOne - valueTwo| < |(valueOne + valueTwo) / 2 * (1 / 10000)|)

/-- The values of a layer that are written: the variables `curThickness`, `curAbsorber`, `curCell0`, `curCell1` of lines 86-89. -/
structure Plate where
  thickness : ℚ
  absorber : ℚ
  cell0 : ℚ
  cell1 : ℚ
deriving DecidableEq

/-- Lines 107-114 and 138-143. -/
def caloLayerNode (repN : ℤ) (cur : Plate) : Node :=
  el "layer" [("repeat", printInt repN), ("thickness", formatE cur.thickness), ("absorberThickness", formatE cur.absorber),
    ("cellSize0", formatE cur.cell0), ("cellSize1", formatE cur.cell1)] []

/-- The variables of the loop over the layers: the elements inserted so far, `repN` and the current values. -/
structure CaloLoop where
  out : List Node
  repN : ℤ
  cur : Plate

/-- The body of the loop, lines 95-129. -/
def caloLoopBody (L : Calo.Layout ℚ) (s : CaloLoop) (i : ℤ) : Res CaloLoop := do
  let thickness ← Calo.getThickness L i
  let absorber ← Calo.getAbsorberThickness L i
  let cell0 ← Calo.getCellSize0 L i
  let cell1 ← Calo.getCellSize1 L i
  let layerChanged := !isEqual s.cur.thickness thickness || !isEqual s.cur.absorber absorber || !isEqual s.cur.cell0 cell0
    || !isEqual s.cur.cell1 cell1
  let next : Plate := ⟨thickness, absorber, cell0, cell1⟩
  if layerChanged = true ∧ 0 < s.repN then .ok ⟨s.out ++ [caloLayerNode s.repN s.cur], 1, next⟩
  else .ok ⟨s.out, s.repN + 1, next⟩

/-- The attribute "type" of lines 46-71; a `CalorimeterParametersImpl` is of one of the two kinds. -/
def kindText : Kind → String
  | .barrel => "Barrel"
  | .endcap => "Endcap"

/-- `vecDim[i]` for the vector of length four returned by `getExtent`. -/
def dim (v : List ℚ) (i : ℕ) : Res ℚ :=
  match v[i]? with
  | some x => .ok x
  | none => .ub

/-- The element "dimensions", lines 46-71. -/
def caloDimensions (k : Kind) (v : List ℚ) : Res Node :=
  match k with
  | .barrel => do
    let a ← dim v 0
    let b ← dim v 3
    .ok (el "dimensions" [("inner_r", formatE a), ("outer_z", formatE b)] [])
  | .endcap => do
    let a ← dim v 0
    let b ← dim v 1
    let c ← dim v 2
    .ok (el "dimensions" [("inner_r", formatE a), ("outer_r", formatE b), ("inner_z", formatE c)] [])

/-- `toXML`, lines 25-151.  (The values that `getExtent` caches in the object are not used again.) -/
def caloToXML (s : CaloSection) : Res Node := do
  let e ← Calo.getExtent s.calo
  let dimensions ← caloDimensions s.calo.type e.2
  let layout := el "layout" [("type", (kindText s.calo.type).toList), ("symmetry", printInt s.calo.sym),
    ("phi0", formatE s.calo.phi)] []
  let l ← (List.range s.calo.layout.length).foldlM (fun (st : CaloLoop) (i : ℕ) => caloLoopBody s.calo.layout st (i : ℤ))
    ⟨[], 0, ⟨0, 0, 0, 0⟩⟩
  let last := if 0 < l.repN then [caloLayerNode l.repN l.cur] else []
  let ps ← getXMLForParameters s.params
  .ok (el "detector" [] ([layout, dimensions] ++ l.out ++ last ++ ps))

/-- `std::transform( … , tolower )`, lines 172 and 263: in the "C" locale only the 26 capital letters change. -/
def lower (t : Text) : Text := t.map Char.toLower

/-- The attributes of an element `layer`, lines 235-239. -/
def caloReadLayer (n : Node) : Res (ℤ × Plate) := do
  let nLayer ← int (some n) "repeat"
  let thickness ← num (some n) "thickness"
  let absorber ← num (some n) "absorberThickness"
  let cell0 ← num (some n) "cellSize0"
  let cell1 ← num (some n) "cellSize1"
  .ok (nLayer, ⟨thickness, absorber, cell0, cell1⟩)

/-- The body of the inner loop, lines 243-250: `layerId` and the layers so far. -/
def caloAddPlate (firstLayerDistance : ℚ) (p : Plate) (s : ℤ × Calo.Layout ℚ) : ℤ × Calo.Layout ℚ :=
  if s.1 = 0 then (s.1 + 1, Calo.positionLayer s.2 firstLayerDistance p.thickness p.cell0 p.cell1 p.absorber)
  else (s.1 + 1, Calo.addLayer s.2 p.thickness p.cell0 p.cell1 p.absorber)

/-- The inner loop, lines 241-251. -/
def caloRepeat (firstLayerDistance : ℚ) (s : ℤ × Calo.Layout ℚ) (x : ℤ × Plate) : ℤ × Calo.Layout ℚ :=
  (caloAddPlate firstLayerDistance x.2)^[x.1.toNat] s

/-- The constructor call and the distance of the first layer, lines 195-223. -/
def caloCreate (layoutType : Text) (dimensions : Node) (symmetry : ℤ) (phi0 : ℚ) : Res (Calo.Calo ℚ × ℚ) :=
  if layoutType = "barrel".toList then do
    let rMin ← num (some dimensions) "inner_r"
    let zMax ← num (some dimensions) "outer_z"
    .ok (Calo.mkBarrel rMin zMax symmetry phi0, rMin)
  else do
    let rMin ← num (some dimensions) "inner_r"
    let rMax ← num (some dimensions) "outer_r"
    let zMin ← num (some dimensions) "inner_z"
    .ok (Calo.mkEndcap rMin rMax zMin symmetry phi0, zMin)

/-- `fromXML`, lines 154-252, without the registration in the manager.  (The named parameters are read before the layers, line 226;
since both parts are independent this only matters for which of two exceptions is thrown.) -/
def caloFromXML (e : Node) : Res CaloSection :=
  match e.firstElement "layout" with
  | none => .throw .parse
  | some layout => do
    let t ← attrOf (some layout) "type"
    if lower t ≠ "barrel".toList ∧ lower t ≠ "endcap".toList then .throw .parse
    else match e.firstElement "dimensions" with
      | none => .throw .parse
      | some dimensions => do
        let symmetry ← int (some layout) "symmetry"
        let phi0 ← num (some layout) "phi0"
        let c ← caloCreate (lower t) dimensions symmetry phi0
        let p ← setParametersFromXML e {}
        let layers ← (e.named "layer").mapM caloReadLayer
        let l := layers.foldl (caloRepeat c.2) (0, [])
        .ok ⟨{ c.1 with layout := l.2 }, p⟩

/-- `name.find( text ) != std::string::npos`. -/
def containsText (name : Text) (text : String) : Bool := decide (text.toList <:+: name)

/-- The section of the manager in which the calorimeter is stored, lines 257-314: the parameters are the attribute "name" and the
kind of the calorimeter. -/
def caloSlot (name : Text) (k : Kind) : Option Section :=
  let caloName := lower name
  if containsText caloName "ecal" then
    if containsText caloName "plug" then some .ecalPlug
    else if k = .barrel then some .ecalBarrel
    else some .ecalEndcap
  else if containsText caloName "yoke" then
    if containsText caloName "plug" then some .yokePlug
    else if k = .barrel then some .yokeBarrel
    else some .yokeEndcap
  else if containsText caloName "lcal" then some .lcal
  else if containsText caloName "lhcal" then some .lhcal
  else if containsText caloName "beamcal" then some .beamcal
  else if containsText caloName "hcal" then
    if containsText caloName "ring" then some .hcalRing
    else if k = .barrel then some .hcalBarrel
    else some .hcalEndcap
  else none

end Gear.Xml
