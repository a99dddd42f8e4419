/-
Beam telescopes in XML: C62.
-/
import Verif.XmlTelescope
import Verif.TelescopeProps

set_option autoImplicit false
set_option linter.unusedSectionVars false

namespace Gear.Xml

open Spec
open Telescope (Si Layer SensLayer)

/-- Apply a function to all numbers. -/
def mapLayer (r : ℚ → ℚ) (l : Layer ℚ) : Layer ℚ :=
  ⟨l.id, r l.positionX, r l.positionY, r l.positionZ, r l.rotationXY, r l.rotationZX, r l.rotationZY, r l.sizeX, r l.sizeY,
    r l.thickness, r l.radLength⟩

/-- Apply a function to all numbers. -/
def mapSens (r : ℚ → ℚ) (s : SensLayer ℚ) : SensLayer ℚ :=
  ⟨s.id, r s.positionX, r s.positionY, r s.positionZ, r s.rotationXY, r s.rotationZX, r s.rotationZY, r s.sizeX, r s.sizeY,
    r s.thickness, r s.radLength, s.npixelX, s.npixelY, r s.pitchX, r s.pitchY, r s.resolution, r s.resolutionX, r s.resolutionY,
    r s.rotation1, r s.rotation2, r s.rotation3, r s.rotation4⟩

/-- What the file keeps of a sensor: it has neither the rotations out of the plane nor the separate resolutions. -/
def keptSens (s : SensLayer ℚ) : SensLayer ℚ :=
  { s with rotationXY := 0, rotationZX := 0, rotationZY := 0, resolutionX := s.resolution, resolutionY := s.resolution }

/-- What the file keeps of the device under test. -/
def keptDutL (l : Layer ℚ) : Layer ℚ := { l with rotationXY := 0, rotationZX := 0, rotationZY := 0 }

/-- What the file keeps of the sensor under test. -/
def keptDutS (s : SensLayer ℚ) : SensLayer ℚ :=
  { s with rotationXY := 0, rotationZX := 0, rotationZY := 0, resolutionX := 0, resolutionY := 0 }

/-- The node of a plane. -/
def siLayerNode (l : Layer ℚ) (s : SensLayer ℚ) : Node :=
  el "layer" []
    [el "ladder"
      [("ID", printInt l.id), ("positionX", formatE l.positionX), ("positionY", formatE l.positionY),
      ("positionZ", formatE l.positionZ), ("rotationXY", formatE l.rotationXY), ("rotationZX", formatE l.rotationZX),
      ("rotationZY", formatE l.rotationZY), ("sizeX", formatE l.sizeX), ("sizeY", formatE l.sizeY),
      ("thickness", formatE l.thickness), ("radLength", formatE l.radLength)] [],
     el "sensitive"
      [("ID", printInt s.id), ("positionX", formatE s.positionX), ("positionY", formatE s.positionY),
      ("positionZ", formatE s.positionZ), ("sizeX", formatE s.sizeX), ("sizeY", formatE s.sizeY),
      ("thickness", formatE s.thickness), ("npixelX", printInt s.npixelX), ("npixelY", printInt s.npixelY),
      ("pitchX", formatE s.pitchX), ("pitchY", formatE s.pitchY), ("resolution", formatE s.resolution),
      ("rotation1", formatE s.rotation1), ("rotation2", formatE s.rotation2), ("rotation3", formatE s.rotation3),
      ("rotation4", formatE s.rotation4), ("radLength", formatE s.radLength)] []]

/-- The node of the device under test. -/
def siDutNode (l : Layer ℚ) (s : SensLayer ℚ) : Node :=
  el "dut" []
    [el "dut_ladder"
      [("ID", printInt l.id), ("positionX", formatE l.positionX), ("positionY", formatE l.positionY),
      ("positionZ", formatE l.positionZ), ("sizeX", formatE l.sizeX), ("sizeY", formatE l.sizeY),
      ("thickness", formatE l.thickness), ("radLength", formatE l.radLength)] [],
     el "dut_sensitive"
      [("ID", printInt s.id), ("positionX", formatE s.positionX), ("positionY", formatE s.positionY),
      ("positionZ", formatE s.positionZ), ("sizeX", formatE s.sizeX), ("sizeY", formatE s.sizeY),
      ("thickness", formatE s.thickness), ("npixelX", printInt s.npixelX), ("npixelY", printInt s.npixelY),
      ("pitchX", formatE s.pitchX), ("pitchY", formatE s.pitchY), ("resolution", formatE s.resolution),
      ("rotation1", formatE s.rotation1), ("rotation2", formatE s.rotation2), ("rotation3", formatE s.rotation3),
      ("rotation4", formatE s.rotation4), ("radLength", formatE s.radLength)] []]

/-- The children of the section. -/
def siChildren (s : SiSection) : List Node :=
  [el "siplanesID" [("ID", printInt s.id)] [],
   el "siplanesType" [("type", (siType s.type).toList)] [],
   el "siplanesNumber" [("number", printInt s.number)] []]
  ++ (if s.type = 1 then [siDutNode s.layout.lDut s.layout.sDut] else [])
  ++ [el "layers" [] ((s.layout.lVec.zip s.layout.sVec).map fun p => siLayerNode p.1 p.2)] ++ paramsNodes s.params

theorem siToXML_eq (s : SiSection) (hl : s.layout.lVec.length = s.layout.sVec.length) (hi : Params.Inv s.params) :
    siToXML s = .ok (el "detector" [] (siChildren s)) := by
  unfold siToXML
  have h := mapM_range (s.layout.lVec.zip s.layout.sVec) (fun i : ℕ => siLayerToXML s.layout (i : ℤ))
    (fun p => siLayerNode p.1 p.2) (by
      intro i p hp
      obtain ⟨h1, h2⟩ := List.getElem?_zip_eq_some.1 hp
      have e1 : Telescope.at' s.layout.lVec (i : ℤ) = .ok p.1 := by rw [Telescope.at'_nat, h1]; rfl
      have e2 : Telescope.at' s.layout.sVec (i : ℤ) = .ok p.2 := by rw [Telescope.at'_nat, h2]; rfl
      simp only [siLayerToXML, Si.getID, Si.getLayerPositionX, Si.getLayerPositionY, Si.getLayerPositionZ, Si.getLayerRotationXY, Si.getLayerRotationZX, Si.getLayerRotationZY, Si.getLayerSizeX, Si.getLayerSizeY, Si.getLayerThickness, Si.getLayerRadLength, Si.getSensitiveID, Si.getSensitivePositionX, Si.getSensitivePositionY, Si.getSensitivePositionZ, Si.getSensitiveSizeX, Si.getSensitiveSizeY, Si.getSensitiveThickness, Si.getSensitiveNpixelX, Si.getSensitiveNpixelY, Si.getSensitivePitchX, Si.getSensitivePitchY, Si.getSensitiveResolution, Si.getSensitiveRotation1, Si.getSensitiveRotation2, Si.getSensitiveRotation3, Si.getSensitiveRotation4, Si.getSensitiveRadLength, e1, e2, Res.bind_ok, Res.pure_eq]
      rfl)
  rw [List.length_zip, ← hl, min_self] at h
  rw [h, Res.bind_ok, getXMLForParameters_eq hi]
  have ht : siType s.type = "TelescopeWithDUT" ↔ s.type = 1 := by
    unfold siType
    split_ifs <;> simp [*]
  simp only [ht]
  rfl

/-- The integers are integers of C++. -/
def ValidPlane (l : Layer ℚ) (s : SensLayer ℚ) : Prop := IsInt l.id ∧ IsInt s.id ∧ IsInt s.npixelX ∧ IsInt s.npixelY

theorem siLayerFromXML_el {l : Layer ℚ} {s : SensLayer ℚ} (h : ValidPlane l s) :
    siLayerFromXML (siLayerNode l s) = .ok (mapLayer r10 l, keptSens (mapSens r10 s)) := by
  unfold siLayerFromXML siLayerNode
  rw [firstElement_cons, if_pos rfl, firstElement_cons, if_neg (by decide), firstElement_cons, if_pos rfl]
  simp only
  rw [int_el rfl h.1, Res.bind_ok]
  iterate 3 rw [num_el rfl, Res.bind_ok]
  iterate 3 rw [numOr_el _ rfl, Res.bind_ok]
  iterate 4 rw [num_el rfl, Res.bind_ok]
  rw [int_el rfl h.2.1, Res.bind_ok]
  iterate 3 rw [num_el rfl, Res.bind_ok]
  iterate 3 rw [numOr_el_none _ rfl, Res.bind_ok]
  iterate 3 rw [num_el rfl, Res.bind_ok]
  rw [int_el rfl h.2.2.1, Res.bind_ok, int_el rfl h.2.2.2, Res.bind_ok]
  iterate 3 rw [num_el rfl, Res.bind_ok]
  iterate 2 rw [numOr_el_none _ rfl, Res.bind_ok]
  iterate 4 rw [numOr_el _ rfl, Res.bind_ok]
  rw [num_el rfl, Res.bind_ok, if_pos (by norm_num)]
  rfl

theorem siDutFromXML_el {l : Layer ℚ} {s : SensLayer ℚ} (h : ValidPlane l s) :
    siDutFromXML (some (siDutNode l s)) = .ok (keptDutL (mapLayer r10 l), keptDutS (mapSens r10 s)) := by
  unfold siDutFromXML siDutNode
  simp only [firstOf, Res.bind_ok]
  rw [firstElement_cons, if_pos rfl, firstElement_cons, if_neg (by decide), firstElement_cons, if_pos rfl]
  rw [int_el rfl h.1, Res.bind_ok]
  iterate 7 rw [num_el rfl, Res.bind_ok]
  rw [int_el rfl h.2.1, Res.bind_ok]
  iterate 6 rw [num_el rfl, Res.bind_ok]
  rw [int_el rfl h.2.2.1, Res.bind_ok, int_el rfl h.2.2.2, Res.bind_ok]
  iterate 3 rw [num_el rfl, Res.bind_ok]
  iterate 4 rw [numOr_el _ rfl, Res.bind_ok]
  rw [num_el rfl, Res.bind_ok]
  rfl

theorem siTypeOf_text {type : ℤ} (h : type = 1 ∨ type = 2) : siTypeOf (siType type).toList = .ok type := by
  rcases h with rfl | rfl <;> simp [siTypeOf, siType]

theorem siAddLayers (l : List (Layer ℚ × SensLayer ℚ)) (x : Si ℚ) :
    l.foldl siAddLayer x = { x with lVec := x.lVec ++ l.map Prod.fst, sVec := x.sVec ++ l.map Prod.snd } := by
  induction l generalizing x with
  | nil => simp
  | cons a l ih => rw [List.foldl_cons, ih]; simp [siAddLayer, Si.addLayer]

/-- What the file keeps of a telescope. -/
def keptSi (s : SiSection) : Si ℚ where
  lVec := s.layout.lVec.map (mapLayer r10)
  sVec := s.layout.sVec.map fun x => keptSens (mapSens r10 x)
  lDut := if s.type = 1 then keptDutL (mapLayer r10 s.layout.lDut) else Layer.zero
  sDut := if s.type = 1 then keptDutS (mapSens r10 s.layout.sDut) else SensLayer.zero

/-- The integers of a section are integers of C++. -/
structure ValidSi (s : SiSection) : Prop where
  id : IsInt s.id
  number : IsInt s.number
  layers : ∀ p ∈ s.layout.lVec.zip s.layout.sVec, ValidPlane p.1 p.2
  dut : ValidPlane s.layout.lDut s.layout.sDut

theorem siFromXML_eq (s : SiSection) (hl : s.layout.lVec.length = s.layout.sVec.length) (hi : Params.Inv s.params)
    (hw : Writable s.params) (ht : s.type = 1 ∨ s.type = 2) (hv : ValidSi s) (attrs : List (String × Text)) :
    siFromXML (el "detector" attrs (siChildren s)) = .ok ⟨s.id, s.type, s.number, keptSi s, readBack s.params⟩ := by
  have hp : setParametersFromXML (el "detector" attrs (siChildren s)) {} = .ok (readBack s.params) := by
    refine parametersToElement _ _ hi hw _ ?_
    intro c hc
    simp only [List.mem_append, List.mem_cons, List.not_mem_nil, or_false] at hc
    rcases hc with (((rfl | rfl | rfl) | hc) | rfl)
    · exact value_ne (by decide)
    · exact value_ne (by decide)
    · exact value_ne (by decide)
    · split_ifs at hc
      · rw [List.mem_singleton] at hc
        subst hc
        exact value_ne (by decide)
      · cases hc
    · exact value_ne (by decide)
  unfold siFromXML
  rw [hp]
  have hlayers : ((s.layout.lVec.zip s.layout.sVec).map fun p => siLayerNode p.1 p.2).mapM siLayerFromXML
      = .ok ((s.layout.lVec.zip s.layout.sVec).map fun p => (mapLayer r10 p.1, keptSens (mapSens r10 p.2))) := by
    exact mapM_map_ok fun p hp => siLayerFromXML_el (hv.layers p hp)
  have z1 : ((s.layout.lVec.zip s.layout.sVec).map fun p => (mapLayer r10 p.1, keptSens (mapSens r10 p.2))).map Prod.fst
      = s.layout.lVec.map (mapLayer r10) := by
    rw [List.map_map]
    have : (Prod.fst ∘ fun p : Layer ℚ × SensLayer ℚ => (mapLayer r10 p.1, keptSens (mapSens r10 p.2))) = mapLayer r10 ∘ Prod.fst := rfl
    rw [this, ← List.map_map, List.map_fst_zip (le_of_eq hl)]
  have z2 : ((s.layout.lVec.zip s.layout.sVec).map fun p => (mapLayer r10 p.1, keptSens (mapSens r10 p.2))).map Prod.snd
      = s.layout.sVec.map fun x => keptSens (mapSens r10 x) := by
    rw [List.map_map]
    have : (Prod.snd ∘ fun p : Layer ℚ × SensLayer ℚ => (mapLayer r10 p.1, keptSens (mapSens r10 p.2)))
        = (fun x => keptSens (mapSens r10 x)) ∘ Prod.snd := rfl
    rw [this, ← List.map_map, List.map_snd_zip (le_of_eq hl.symm)]
  have hnm : ∀ l : List (Layer ℚ × SensLayer ℚ), (el "layers" [] (l.map fun p => siLayerNode p.1 p.2)).named "layer"
      = l.map fun p => siLayerNode p.1 p.2 := by
    intro l
    refine named_of_all fun c hc => ?_
    obtain ⟨p, -, rfl⟩ := List.mem_map.1 hc
    rfl
  unfold siChildren keptSi
  rcases ht with ht | ht
  · rw [ht, if_pos rfl]
    simp only [List.cons_append, List.nil_append, siDutNode, firstElement_cons, String.reduceEq, if_true, if_false]
    rw [int_el rfl hv.id, Res.bind_ok, attrOf_el]
    simp only [find, if_true, Res.bind_ok]
    rw [siTypeOf_text (.inl rfl), Res.bind_ok, int_el rfl hv.number, Res.bind_ok]
    have := siDutFromXML_el hv.dut
    unfold siDutNode at this
    simp only [if_true, this, Res.bind_ok, namedOf, hnm, hlayers, siAddLayers, z1, z2]
    simp only [siAddDUT, Si.addDUT, Si.new, List.nil_append]
    rfl
  · rw [ht, if_neg (by decide)]
    simp only [List.cons_append, List.nil_append, firstElement_cons, String.reduceEq, if_true, if_false]
    rw [int_el rfl hv.id, Res.bind_ok, attrOf_el]
    simp only [find, if_true, Res.bind_ok]
    rw [siTypeOf_text (.inr rfl), Res.bind_ok, int_el rfl hv.number, Res.bind_ok]
    simp only [show ¬ (2 : ℤ) = 1 by decide, if_false, Res.bind_ok, namedOf, hnm, hlayers, siAddLayers, z1, z2]
    rfl

/-! ### C62 -/

theorem dut_plain (past : List (Telescope.Spec.Op ℚ)) :
    (∃ l s, (Telescope.Spec.run past).lDut = keptDutL l ∧ (Telescope.Spec.run past).sDut = keptDutS s)
    ∧ (Telescope.Spec.lastDUT past = none → (Telescope.Spec.run past).lDut = Layer.zero ∧ (Telescope.Spec.run past).sDut = SensLayer.zero) := by
  induction past with
  | nil => exact ⟨⟨.zero, .zero, rfl, rfl⟩, fun _ => ⟨rfl, rfl⟩⟩
  | cons op past ih =>
    rw [Telescope.Spec.run]
    cases op with
    | add l s => exact ih
    | addShort l s => exact ih
    | addShortParams l s => exact ih
    | addDUT l s => exact ⟨⟨l, s, rfl, rfl⟩, fun h => by cases h⟩
    | setL f i v =>
      rw [Telescope.Spec.step, Telescope.Spec.LField.set_eq]
      unfold Telescope.update
      cases Telescope.at' (Telescope.Spec.run past).lVec i <;> exact ih
    | setS f i v =>
      rw [Telescope.Spec.step, Telescope.Spec.SField.set_eq]
      unfold Telescope.update
      cases Telescope.at' (Telescope.Spec.run past).sVec i <;> exact ih

/-- C62, telescopes, for every history of calls that adds and changes planes and devices under test and every history of named
parameters: the telescope is written and read, and all its values are kept, to ten digits, except those `keptSi` leaves out. -/
theorem siplanes_roundtrip_partial (past : List (Telescope.Spec.Op ℚ)) (id type number : ℤ) (h : List (Params.Op ℚ))
    (hp : Storable (Params.run h)) (ht : type = 1 ∨ type = 2)
    (hv : ValidSi ⟨id, type, number, Telescope.Spec.run past, Params.run h⟩) :
    ∃ cs, siToXML ⟨id, type, number, Telescope.Spec.run past, Params.run h⟩ = .ok (el "detector" [] cs)
      ∧ ∀ attrs, ∃ s, siFromXML (el "detector" attrs cs) = .ok s ∧ s.id = id ∧ s.type = type ∧ s.number = number
        ∧ s.layout = keptSi ⟨id, type, number, Telescope.Spec.run past, Params.run h⟩ ∧ SameParams r10 (Params.run h) s.params :=
  have hl := (Telescope.lengths past).1.trans (Telescope.lengths past).2.symm
  ⟨_, siToXML_eq _ hl (Params.inv_run h), fun attrs =>
    ⟨_, siFromXML_eq _ hl (Params.inv_run h) (writable_of_storable (Params.inv_run h) hp) ht hv attrs, rfl, rfl, rfl, rfl,
      same_readBack _⟩⟩

/-- Apply a function to all numbers. -/
def mapSi (r : ℚ → ℚ) (s : Si ℚ) : Si ℚ := ⟨s.lVec.map (mapLayer r), s.sVec.map (mapSens r), mapLayer r s.lDut, mapSens r s.sDut⟩

theorem r10_zero : r10 0 = 0 := r10_eq ⟨0, 0, by norm_num, by norm_num⟩

/-- C62, telescopes whose sensors are not rotated out of the plane and have one resolution, and which have the device under test that
their type says: all values are kept, to ten digits. -/
theorem siplanes_same_partial (past : List (Telescope.Spec.Op ℚ)) (id type number : ℤ) (h : List (Params.Op ℚ))
    (hp : Storable (Params.run h)) (ht : type = 1 ∨ (type = 2 ∧ Telescope.Spec.lastDUT past = none))
    (hv : ValidSi ⟨id, type, number, Telescope.Spec.run past, Params.run h⟩)
    (hs : ∀ s ∈ (Telescope.Spec.run past).sVec, s.rotationXY = 0 ∧ s.rotationZX = 0 ∧ s.rotationZY = 0 ∧ s.resolutionX = s.resolution
      ∧ s.resolutionY = s.resolution) :
    ∃ cs, siToXML ⟨id, type, number, Telescope.Spec.run past, Params.run h⟩ = .ok (el "detector" [] cs)
      ∧ ∀ attrs, ∃ s, siFromXML (el "detector" attrs cs) = .ok s ∧ s.id = id ∧ s.type = type ∧ s.number = number
        ∧ s.layout = mapSi r10 (Telescope.Spec.run past) ∧ SameParams r10 (Params.run h) s.params := by
  obtain ⟨cs, h1, h2⟩ := siplanes_roundtrip_partial past id type number h hp (ht.imp_right And.left) hv
  refine ⟨cs, h1, fun attrs => ?_⟩
  obtain ⟨s, h3, h4, h5, h6, h7, h8⟩ := h2 attrs
  refine ⟨s, h3, h4, h5, h6, ?_, h8⟩
  rw [h7]
  have e1 : (Telescope.Spec.run past).sVec.map (fun x => keptSens (mapSens r10 x)) = (Telescope.Spec.run past).sVec.map (mapSens r10) := by
    refine List.map_congr_left fun x hx => ?_
    obtain ⟨a, b, c, d, e⟩ := hs x hx
    simp [keptSens, mapSens, a, b, c, d, e, r10_zero]
  obtain ⟨⟨l, s', hl, hs'⟩, hz⟩ := dut_plain past
  simp only [keptSi, mapSi, e1]
  rcases ht with rfl | ⟨rfl, hd⟩
  · rw [if_pos rfl, if_pos rfl, hl, hs']
    simp [keptDutL, keptDutS, mapLayer, mapSens, r10_zero]
  · rw [if_neg (by decide), if_neg (by decide), (hz hd).1, (hz hd).2]
    simp [Layer.zero, SensLayer.zero, mapLayer, mapSens, r10_zero]

/-- C62, telescopes: a section of any other type is written, but cannot be read. -/
theorem siplanes_type_false (past : List (Telescope.Spec.Op ℚ)) (id type number : ℤ) (h : List (Params.Op ℚ)) (hid : IsInt id)
    (ht : type ≠ 1 ∧ type ≠ 2) :
    ∃ cs, siToXML ⟨id, type, number, Telescope.Spec.run past, Params.run h⟩ = .ok (el "detector" [] cs)
      ∧ ∀ attrs, siFromXML (el "detector" attrs cs) = .throw .gear := by
  have hl := (Telescope.lengths past).1.trans (Telescope.lengths past).2.symm
  refine ⟨_, siToXML_eq _ hl (Params.inv_run h), fun attrs => ?_⟩
  unfold siFromXML siChildren
  simp only [List.cons_append, firstElement_cons, String.reduceEq, if_true, if_false]
  rw [int_el rfl hid, Res.bind_ok, attrOf_el]
  simp only [find, if_true, Res.bind_ok, siType, if_neg ht.1, if_neg ht.2]
  rfl

/-- A sensor with values that are not written. -/
def lostSensor : SensLayer ℚ := ⟨10, 1, 2, 4, 0, 1 / 20, 0, 18, 9, 1 / 50, 93, 1152, 576, 1 / 50, 1 / 50, 3 / 1000, 1 / 1000,
  2 / 1000, 1, 0, 0, 1⟩

/-- C62 is false for telescopes: the rotation and the resolutions of a sensor are lost, without an error. -/
theorem siplanes_false : ∃ cs s, siToXML ⟨1, 2, 1, Telescope.Spec.run [.add Telescope.examplePlane lostSensor], Params.run []⟩
      = .ok (el "detector" [] cs)
    ∧ siFromXML (el "detector" [] cs) = .ok s
    ∧ (Telescope.Spec.run [.add Telescope.examplePlane lostSensor]).getSensitiveRotationZX 0 = .ok (1 / 20)
    ∧ s.layout.getSensitiveRotationZX 0 = .ok 0
    ∧ (Telescope.Spec.run [.add Telescope.examplePlane lostSensor]).getSensitiveResolutionX 0 = .ok (1 / 1000)
    ∧ s.layout.getSensitiveResolutionX 0 = .ok (3 / 1000) := by
  have hst : Storable (Params.run ([] : List (Params.Op ℚ))) := by constructor <;> (intro k v h; cases h)
  obtain ⟨cs, h1, h2⟩ := siplanes_roundtrip_partial [.add Telescope.examplePlane lostSensor] 1 2 1 [] hst (.inr rfl) (by
    refine ⟨by unfold IsInt; decide, by unfold IsInt; decide, ?_, ?_⟩
    · intro p hp
      rw [show p = (Telescope.examplePlane, lostSensor) from List.mem_singleton.1 hp]
      exact ⟨by unfold IsInt; decide, by unfold IsInt; decide, by unfold IsInt; decide, by unfold IsInt; decide⟩
    · exact ⟨by unfold IsInt; decide, by unfold IsInt; decide, by unfold IsInt; decide, by unfold IsInt; decide⟩)
  obtain ⟨s, h3, -, -, -, h7, -⟩ := h2 []
  refine ⟨cs, s, h1, h3, by decide +kernel, ?_, by decide +kernel, ?_⟩
  · rw [h7]; rfl
  · rw [h7]
    show Res.ok (r10 (3 / 1000)) = _
    rw [r10_eq ⟨3, -3, by norm_num, by norm_num⟩]

/-- C62 is false for telescopes also because of the device under test: it is lost if the type is the one without. -/
theorem siplanes_dut_false : ∃ cs s, siToXML ⟨1, 2, 0, Telescope.Spec.run [.addDUT Telescope.examplePlane lostSensor], Params.run []⟩
      = .ok (el "detector" [] cs)
    ∧ siFromXML (el "detector" [] cs) = .ok s
    ∧ (Telescope.Spec.run [.addDUT Telescope.examplePlane lostSensor]).getDUTPositionZ = 3 ∧ s.layout.getDUTPositionZ = 0 := by
  have hst : Storable (Params.run ([] : List (Params.Op ℚ))) := by constructor <;> (intro k v h; cases h)
  obtain ⟨cs, h1, h2⟩ := siplanes_roundtrip_partial [.addDUT Telescope.examplePlane lostSensor] 1 2 0 [] hst (.inr rfl) (by
    refine ⟨by unfold IsInt; decide, by unfold IsInt; decide, ?_, ?_⟩
    · intro p hp
      cases hp
    · exact ⟨by unfold IsInt; decide, by unfold IsInt; decide, by unfold IsInt; decide, by unfold IsInt; decide⟩)
  obtain ⟨s, h3, -, -, -, h7, -⟩ := h2 []
  refine ⟨cs, s, h1, h3, by decide +kernel, ?_⟩
  rw [h7]; rfl

/-- A telescope with two planes and a device under test. -/
def exampleTelescope : List (Telescope.Spec.Op ℚ) :=
  [.addShortParams Telescope.examplePlane lostSensor, .addDUT Telescope.examplePlane lostSensor,
    .addShortParams Telescope.examplePlane lostSensor]

example : ∃ cs, siToXML ⟨7, 1, 2, Telescope.Spec.run exampleTelescope, Params.run sampleOps⟩ = .ok (el "detector" [] cs)
      ∧ ∀ attrs, ∃ s, siFromXML (el "detector" attrs cs) = .ok s ∧ s.id = 7 ∧ s.type = 1 ∧ s.number = 2
        ∧ s.layout = mapSi r10 (Telescope.Spec.run exampleTelescope) ∧ SameParams r10 (Params.run sampleOps) s.params := by
  refine siplanes_same_partial _ _ _ _ _ storable_sampleOps (.inl rfl) ?_ (by decide +kernel)
  have v : ValidPlane Telescope.examplePlane lostSensor :=
    ⟨by unfold IsInt; decide, by unfold IsInt; decide, by unfold IsInt; decide, by unfold IsInt; decide⟩
  refine ⟨by unfold IsInt; decide, by unfold IsInt; decide, ?_, v⟩
  intro p hp
  rcases List.mem_cons.1 hp with rfl | hp
  · exact v
  · rw [List.mem_singleton.1 hp]
    exact v

theorem wellFormed_si (s : SiSection) (h : NoReferences s.params) : ∀ c ∈ siChildren s, WellFormed c ∧ c.isText = false := by
  intro c hc
  unfold siChildren at hc
  simp only [List.mem_append, List.mem_cons, List.not_mem_nil, or_false] at hc
  have ht : NoReference (siType s.type).toList := by
    unfold siType
    split_ifs <;> decide +kernel
  rcases hc with ((((rfl | rfl | rfl) | hc) | rfl) | hc)
  · refine ⟨?_, rfl⟩
    wf_el
    simp
  · refine ⟨?_, rfl⟩
    wf_el
    simp
  · refine ⟨?_, rfl⟩
    wf_el
    simp
  · split_ifs at hc
    · rw [List.mem_singleton] at hc
      subst hc
      refine ⟨?_, rfl⟩
      unfold siDutNode
      wf_el
      simp only [List.forall_mem_cons, List.not_mem_nil, false_imp_iff, implies_true, and_true]
      refine ⟨⟨?_, rfl⟩, ?_, rfl⟩
      · wf_el
        simp
      · wf_el
        simp
    · cases hc
  · refine ⟨?_, rfl⟩
    wf_el
    intro c hc
    obtain ⟨p, -, rfl⟩ := List.mem_map.1 hc
    refine ⟨?_, rfl⟩
    unfold siLayerNode
    wf_el
    simp only [List.forall_mem_cons, List.not_mem_nil, false_imp_iff, implies_true, and_true]
    refine ⟨⟨?_, rfl⟩, ?_, rfl⟩
    · wf_el
      simp
    · wf_el
      simp
  · exact ⟨wellFormed_paramsNodes h c hc, (paramsNodes_value c hc).2⟩

/-! #### TrackerPlanes -/

/-- C62 is false for TrackerPlanes: no section that is written can be read, whatever it contains. -/
theorem tracker_false (id type number : ℤ) (hid : IsInt id) (hn : IsInt number) (L : Telescope.TLayout ℚ) (h : List (Params.Op ℚ)) :
    ∃ cs, trackerToXML ⟨id, type, number, L, Params.run h⟩ = .ok (el "detector" [] cs)
      ∧ ∀ attrs, trackerFromXML (el "detector" attrs cs) = .ub := by
  refine ⟨_, by rw [trackerToXML, getXMLForParameters_eq (Params.inv_run h)]; rfl, fun attrs => ?_⟩
  have : ∀ a : List (Telescope.TLayer ℚ), (el "detector" attrs (a.map trackerLayerToXML ++ paramsNodes (Params.run h))).firstElement "layers"
      = none := by
    intro a
    unfold Node.firstElement
    rw [named_append', named_params _ _ _ (by decide), List.append_nil, named_of_none]
    · rfl
    · intro c hc
      obtain ⟨p, -, rfl⟩ := List.mem_map.1 hc
      exact value_ne (by decide)
  unfold trackerFromXML
  simp only [List.cons_append, List.nil_append, firstElement_cons, String.reduceEq, if_true, if_false]
  rw [int_el rfl hid, Res.bind_ok, int_el rfl hn, Res.bind_ok, this]
  rfl

namespace Spec

/-- The format that `fromXML` expects, as documented for TrackerPlanes files: the layers in an element of their own, with their
identifiers. -/
def trackerFile (s : TrackerSection) : List Node :=
  [el "LayoutID" [("ID", printInt s.id)] [],
   el "LayoutNumberOfLayers" [("number", printInt s.number)] [],
   el "layers" [] (s.layout.layers.map fun l => el "layer" [("ID", printInt l.id), ("info", l.info.toList)]
     (l.materials.map trackerMaterialToXML ++ l.sensors.map trackerSensorToXML))] ++ paramsNodes s.params

end Spec

/-- Apply a function to all numbers. -/
def mapMaterial (r : ℚ → ℚ) (m : Telescope.Material ℚ) : Telescope.Material ℚ :=
  ⟨m.id, m.info, r m.positionX, r m.positionY, r m.positionZ, r m.rotationXY, r m.rotationZX, r m.rotationZY, r m.sizeX, r m.sizeY,
    r m.thickness, r m.radLength⟩

/-- Apply a function to all numbers. -/
def mapSensor (r : ℚ → ℚ) (m : Telescope.Sensor ℚ) : Telescope.Sensor ℚ :=
  ⟨m.id, m.info, r m.positionX, r m.positionY, r m.positionZ, r m.rotationXY, r m.rotationZX, r m.rotationZY, r m.sizeX, r m.sizeY,
    r m.thickness, r m.radLength, m.npixelX, m.npixelY, r m.pitchX, r m.pitchY, r m.resolutionX, r m.resolutionY⟩

/-- Apply a function to all numbers. -/
def mapTLayer (r : ℚ → ℚ) (l : Telescope.TLayer ℚ) : Telescope.TLayer ℚ :=
  ⟨l.id, l.info, l.materials.map (mapMaterial r), l.sensors.map (mapSensor r)⟩

/-- The integers are integers of C++. -/
def ValidTLayer (l : Telescope.TLayer ℚ) : Prop :=
  IsInt l.id ∧ (∀ m ∈ l.materials, IsInt m.id) ∧ ∀ s ∈ l.sensors, IsInt s.id ∧ IsInt s.npixelX ∧ IsInt s.npixelY

theorem trackerMaterialFromXML_el {m : Telescope.Material ℚ} (h : IsInt m.id) :
    trackerMaterialFromXML (trackerMaterialToXML m) = .ok (mapMaterial r10 m) := by
  unfold trackerMaterialFromXML trackerMaterialToXML
  rw [int_el rfl h, Res.bind_ok, textOr_el _ rfl, Res.bind_ok]
  iterate 10 rw [numOr_el _ rfl, Res.bind_ok]
  rfl

theorem trackerSensorFromXML_el {m : Telescope.Sensor ℚ} (h : IsInt m.id ∧ IsInt m.npixelX ∧ IsInt m.npixelY) :
    trackerSensorFromXML (trackerSensorToXML m) = .ok (mapSensor r10 m) := by
  unfold trackerSensorFromXML trackerSensorToXML
  rw [int_el rfl h.1, Res.bind_ok, textOr_el _ rfl, Res.bind_ok]
  iterate 10 rw [numOr_el _ rfl, Res.bind_ok]
  rw [intOr_el _ rfl h.2.1, Res.bind_ok, intOr_el _ rfl h.2.2, Res.bind_ok]
  iterate 4 rw [numOr_el _ rfl, Res.bind_ok]
  rfl

theorem trackerAddMaterials (l : List (Telescope.Material ℚ)) (x : Telescope.TLayer ℚ) :
    l.foldl trackerAddMaterial x = { x with materials := x.materials ++ l } := by
  induction l generalizing x with
  | nil => simp
  | cons a l ih => rw [List.foldl_cons, ih]; simp [trackerAddMaterial, Telescope.TLayer.addMaterialLayer]

theorem trackerAddSensors (l : List (Telescope.Sensor ℚ)) (x : Telescope.TLayer ℚ) :
    l.foldl trackerAddSensor x = { x with sensors := x.sensors ++ l } := by
  induction l generalizing x with
  | nil => simp
  | cons a l ih =>
    rw [List.foldl_cons, ih]
    simp [trackerAddSensor, Telescope.TLayer.addSensitiveLayer, Telescope.truncInt_intCast]

theorem trackerAddLayers (l : List (Telescope.TLayer ℚ)) (x : Telescope.TLayout ℚ) :
    l.foldl Telescope.TLayout.addLayer x = { x with layers := x.layers ++ l } := by
  induction l generalizing x with
  | nil => simp
  | cons a l ih => rw [List.foldl_cons, ih]; simp [Telescope.TLayout.addLayer]

theorem trackerLayerFromXML_el {l : Telescope.TLayer ℚ} (h : ValidTLayer l) :
    trackerLayerFromXML (el "layer" [("ID", printInt l.id), ("info", l.info.toList)]
     (l.materials.map trackerMaterialToXML ++ l.sensors.map trackerSensorToXML)) = .ok (mapTLayer r10 l) := by
  unfold trackerLayerFromXML
  have n1 : ∀ attrs, (el "layer" attrs (l.materials.map trackerMaterialToXML ++ l.sensors.map trackerSensorToXML)).named "ladder"
      = l.materials.map trackerMaterialToXML := by
    intro attrs
    rw [named_append', named_of_all, named_of_none, List.append_nil]
    · intro c hc
      obtain ⟨p, -, rfl⟩ := List.mem_map.1 hc
      exact value_ne (by decide)
    · intro c hc
      obtain ⟨p, -, rfl⟩ := List.mem_map.1 hc
      rfl
  have n2 : ∀ attrs, (el "layer" attrs (l.materials.map trackerMaterialToXML ++ l.sensors.map trackerSensorToXML)).named "sensitive"
      = l.sensors.map trackerSensorToXML := by
    intro attrs
    rw [named_append', named_of_none, named_of_all, List.nil_append]
    · intro c hc
      obtain ⟨p, -, rfl⟩ := List.mem_map.1 hc
      rfl
    · intro c hc
      obtain ⟨p, -, rfl⟩ := List.mem_map.1 hc
      exact value_ne (by decide)
  rw [int_el rfl h.1, Res.bind_ok, textOr_el _ rfl, Res.bind_ok, n1, n2, mapM_map_ok fun m hm => trackerMaterialFromXML_el (h.2.1 m hm), Res.bind_ok,
    mapM_map_ok fun m hm => trackerSensorFromXML_el (h.2.2 m hm), Res.bind_ok, trackerAddMaterials, trackerAddSensors]
  simp [Telescope.TLayer.new, Telescope.TLayer.setID, Telescope.TLayer.setInfo, mapTLayer]

/-- C62, TrackerPlanes, the reading half: a file in the format that is expected gives the layers it describes, all values of all their
ladders and sensors to ten digits.  (The type of the layout is not in the file.) -/
theorem tracker_read_partial (s : TrackerSection) (h : List (Params.Op ℚ)) (hs : s.params = Params.run h)
    (hp : Storable (Params.run h)) (hid : IsInt s.id) (hn : IsInt s.number) (hl : ∀ l ∈ s.layout.layers, ValidTLayer l)
    (attrs : List (String × Text)) :
    ∃ t, trackerFromXML (el "detector" attrs (trackerFile s)) = .ok t ∧ t.id = s.id ∧ t.number = s.number
      ∧ t.layout.layers = s.layout.layers.map (mapTLayer r10) ∧ SameParams r10 s.params t.params := by
  have hi : Params.Inv s.params := hs ▸ Params.inv_run h
  have hw : Writable s.params := writable_of_storable hi (hs ▸ hp)
  have hp : setParametersFromXML (el "detector" attrs (trackerFile s)) {} = .ok (readBack s.params) := by
    refine parametersToElement _ _ hi hw _ ?_
    simp only [List.forall_mem_cons, List.not_mem_nil, false_imp_iff, implies_true, and_true]
    exact ⟨value_ne (by decide), value_ne (by decide), value_ne (by decide)⟩
  refine ⟨⟨s.id, 0, s.number, { (Telescope.TLayout.new : Telescope.TLayout ℚ) with layers := s.layout.layers.map (mapTLayer r10) },
    readBack s.params⟩, ?_, rfl, rfl, rfl, same_readBack _⟩
  · unfold trackerFromXML
    rw [hp]
    unfold trackerFile
    simp only [List.cons_append, List.nil_append, firstElement_cons, String.reduceEq, if_true, if_false]
    rw [int_el rfl hid, Res.bind_ok, int_el rfl hn, Res.bind_ok]
    simp only [namedOf, Res.bind_ok]
    rw [named_of_all (by
      intro c hc
      obtain ⟨p, -, rfl⟩ := List.mem_map.1 hc
      rfl), mapM_map_ok fun l h => trackerLayerFromXML_el (hl l h), Res.bind_ok, trackerAddLayers]
    rfl

/-- A section with a layer of two ladders and a sensor. -/
def exampleTracker : TrackerSection :=
  ⟨3, 0, 1, ⟨0, "", [⟨5, "front", [⟨1, "box", 0, 0, 1, 0, 0, 0, 20, 10, 1, 90⟩, ⟨2, "", 0, 0, 3, 0, 1 / 10, 0, 20, 10, 1, 90⟩],
    [⟨7, "pixels", 0, 0, 2, 0, 0, 1 / 4, 20, 10, 1 / 20, 93, 1152, 576, 1 / 50, 1 / 50, 3 / 1000, 4 / 1000⟩]⟩]⟩, Params.run sampleOps⟩

example : ∃ t, trackerFromXML (el "detector" [] (trackerFile exampleTracker)) = .ok t ∧ t.id = 3 ∧ t.number = 1
      ∧ t.layout.layers = exampleTracker.layout.layers.map (mapTLayer r10) ∧ SameParams r10 exampleTracker.params t.params :=
  tracker_read_partial exampleTracker sampleOps rfl storable_sampleOps (by unfold IsInt; decide) (by unfold IsInt; decide)
    (by unfold ValidTLayer IsInt; decide) []

end Gear.Xml
