/-
Vertex-like detectors and forward disks in XML: C60, C61.

A section is described by the calls that built it: the constructor, the calls of `addLayer` and the calls that set named
parameters.
-/
import Verif.XmlTracker

set_option autoImplicit false
set_option linter.unusedSectionVars false

namespace Gear.Xml

open Spec
open ZPlanar (PlanarFns)

/-- The arguments of the constructor of a vertex-like detector and of all calls of `addLayer`. -/
structure ZPlanarBuild where
  type : ℤ
  innerRadius : ℚ
  outerRadius : ℚ
  halfLength : ℚ
  gap : ℚ
  radLength : ℚ
  layers : List ZLayerArgs

/-- What these calls build. -/
def ZPlanarBuild.run (F : PlanarFns ℚ) (b : ZPlanarBuild) : ZPlanar.Params ℚ :=
  b.layers.foldl (zplanarAddLayer F) (ZPlanar.new b.type b.innerRadius b.outerRadius b.halfLength b.gap b.radLength)

/-- Apply a function to all numbers. -/
def mapSize (r : ℚ → ℚ) (s : ZPlanar.Size ℚ) : ZPlanar.Size ℚ :=
  ⟨r s.distance, r s.offset, r s.thickness, r s.length, r s.width, r s.radLength⟩

/-- Apply a function to all numbers. -/
def ZLayerArgs.map (r : ℚ → ℚ) (l : ZLayerArgs) : ZLayerArgs :=
  ⟨l.nLadders, r l.phi0, mapSize r l.ladder, mapSize r l.sensitive⟩

/-- Apply a function to all numbers. -/
def ZPlanarBuild.map (r : ℚ → ℚ) (b : ZPlanarBuild) : ZPlanarBuild :=
  ⟨b.type, r b.innerRadius, r b.outerRadius, r b.halfLength, r b.gap, r b.radLength, b.layers.map (ZLayerArgs.map r)⟩

theorem zplanar_run (F : PlanarFns ℚ) : ∀ (l : List ZLayerArgs) (P : ZPlanar.Params ℚ),
    l.foldl (zplanarAddLayer F) P = { P with layer := P.layer ++ l.map fun a =>
      (ZPlanar.mkLayer F a.nLadders a.phi0 a.ladder, ZPlanar.mkLayer F a.nLadders a.phi0 a.sensitive) }
  | [], P => by simp
  | a :: l, P => by
    rw [List.foldl_cons, zplanar_run F l]
    simp [zplanarAddLayer, ZPlanar.Params.addLayer, ZPlanar.addLayer]

/-- The node of a layer. -/
def zLayerNode (a : ZLayerArgs) : Node :=
  el "layer" [("nLadders", printInt a.nLadders), ("phi0", formatE a.phi0)]
    [el "ladder" [("distance", formatE a.ladder.distance), ("thickness", formatE a.ladder.thickness),
      ("width", formatE a.ladder.width), ("length", formatE a.ladder.length), ("offset", formatE a.ladder.offset),
      ("radLength", formatE a.ladder.radLength)] [],
     el "sensitive" [("distance", formatE a.sensitive.distance), ("thickness", formatE a.sensitive.thickness),
      ("width", formatE a.sensitive.width), ("length", formatE a.sensitive.length), ("offset", formatE a.sensitive.offset),
      ("radLength", formatE a.sensitive.radLength)] []]

/-- The children of the section. -/
def zplanarChildren (b : ZPlanarBuild) (p : Params ℚ) : List Node :=
  [el "type" [("technology", (zplanarType b.type).toList)] [],
   el "shell" [("halfLength", formatE b.halfLength), ("gap", formatE b.gap), ("innerRadius", formatE b.innerRadius),
      ("outerRadius", formatE b.outerRadius), ("radLength", formatE b.radLength)] [],
   el "layers" [] (b.layers.map zLayerNode)] ++ paramsNodes p

theorem layerAt_map (F : PlanarFns ℚ) {l : List ZLayerArgs} {i : ℕ} {a : ZLayerArgs} (h : l[i]? = some a) (s : Bool) :
    ZPlanar.layerAt (l.map fun a => (ZPlanar.mkLayer F a.nLadders a.phi0 a.ladder, ZPlanar.mkLayer F a.nLadders a.phi0 a.sensitive))
      (i : ℤ) s = .ok (if s then ZPlanar.mkLayer F a.nLadders a.phi0 a.sensitive else ZPlanar.mkLayer F a.nLadders a.phi0 a.ladder) := by
  unfold ZPlanar.layerAt
  rw [if_neg (show ¬ (i : ℤ) < 0 by omega)]
  simp [h]

theorem zplanarToXML_eq (F : PlanarFns ℚ) (b : ZPlanarBuild) {p : Params ℚ} (hi : Params.Inv p) :
    zplanarToXML F ⟨b.run F, p⟩ = .ok (el "detector" [] (zplanarChildren b p)) := by
  unfold zplanarToXML ZPlanarBuild.run
  rw [zplanar_run]
  simp only [ZPlanar.new, List.nil_append]
  have h := mapM_range b.layers (fun i : ℕ => zplanarLayerToXML F (b.layers.map fun a => (ZPlanar.mkLayer F a.nLadders a.phi0 a.ladder,
    ZPlanar.mkLayer F a.nLadders a.phi0 a.sensitive)) (i : ℤ)) zLayerNode (by
      intro i a ha
      simp only [zplanarLayerToXML, ZPlanar.getNLadders, ZPlanar.getPhi0, ZPlanar.getLadderDistance, ZPlanar.getLadderThickness,
        ZPlanar.getLadderWidth, ZPlanar.getLadderLength, ZPlanar.getLadderOffset, ZPlanar.getLadderRadLength,
        ZPlanar.getSensitiveDistance, ZPlanar.getSensitiveThickness, ZPlanar.getSensitiveWidth, ZPlanar.getSensitiveLength,
        ZPlanar.getSensitiveOffset, ZPlanar.getSensitiveRadLength, layerAt_map F ha, Res.bind_ok, Res.pure_eq]
      simp only [ZPlanar.mkLayer, zLayerNode, reduceIte, Bool.false_eq_true, sub_sub_cancel])
  rw [List.length_map, h, Res.bind_ok, getXMLForParameters_eq hi]
  rfl

theorem zplanarSizeFromXML_el (nm : String) (s : ZPlanar.Size ℚ) (cs : List Node) :
    zplanarSizeFromXML (some (el nm [("distance", formatE s.distance), ("thickness", formatE s.thickness),
      ("width", formatE s.width), ("length", formatE s.length), ("offset", formatE s.offset),
      ("radLength", formatE s.radLength)] cs)) = .ok (mapSize r10 s) := by
  unfold zplanarSizeFromXML
  repeat rw [num_el rfl, Res.bind_ok]
  rfl

theorem zplanarLayerFromXML_el {a : ZLayerArgs} (h : IsInt a.nLadders) :
    zplanarLayerFromXML (zLayerNode a) = .ok (a.map r10) := by
  unfold zplanarLayerFromXML zLayerNode
  rw [int_el rfl h, Res.bind_ok, num_el rfl, Res.bind_ok]
  rw [firstElement_cons, if_pos rfl, firstElement_cons, if_neg (by decide), firstElement_cons, if_pos rfl,
    zplanarSizeFromXML_el, Res.bind_ok, zplanarSizeFromXML_el]
  rfl

theorem zplanarTypeOf_text {type : ℤ} (h : type = 1 ∨ type = 2 ∨ type = 3) : zplanarTypeOf (zplanarType type).toList = .ok type := by
  rcases h with rfl | rfl | rfl <;> simp [zplanarTypeOf, zplanarType]

theorem zplanarFromXML_eq (F : PlanarFns ℚ) (b : ZPlanarBuild) {p : Params ℚ} (hi : Params.Inv p) (hw : Writable p)
    (ht : b.type = 1 ∨ b.type = 2 ∨ b.type = 3) (hl : ∀ l ∈ b.layers, IsInt l.nLadders) (attrs : List (String × Text)) :
    zplanarFromXML F (el "detector" attrs (zplanarChildren b p)) = .ok ⟨(b.map r10).run F, readBack p⟩ := by
  have hp : setParametersFromXML (el "detector" attrs (zplanarChildren b p)) {} = .ok (readBack p) := by
    refine parametersToElement _ _ hi hw _ ?_
    simp only [List.forall_mem_cons, List.not_mem_nil, false_imp_iff, implies_true, and_true]
    exact ⟨value_ne (by decide), value_ne (by decide), value_ne (by decide)⟩
  unfold zplanarFromXML
  rw [hp]
  unfold zplanarChildren
  simp only [List.cons_append, List.nil_append, firstElement_cons, String.reduceEq, if_true, if_false, Option.map]
  rw [attrOf_el]
  simp only [find, if_true, Res.bind_ok]
  rw [zplanarTypeOf_text ht, Res.bind_ok]
  repeat rw [num_el rfl, Res.bind_ok]
  simp only [namedOf, Res.bind_ok]
  rw [named_of_all (by simp [zLayerNode])]
  rw [List.mapM_map, mapM_ok (zplanarLayerFromXML ∘ zLayerNode) (ZLayerArgs.map r10) fun a ha => zplanarLayerFromXML_el (hl a ha)]
  rfl

/-! ### C60 -/

/-- The same section, up to `r` applied to all numbers: what every call of the interface returns is determined by the calls that
built the section. -/
def SameZPlanar (F : PlanarFns ℚ) (r : ℚ → ℚ) (b : ZPlanarBuild) (p : Params ℚ) (s : ZPlanarSection) : Prop :=
  s.geo = (b.map r).run F ∧ SameParams r p s.params

/-- C60: for every section of the documented types, every list of layers and every history of its named parameters, the section that
is written is read back as the one built by the same calls with the numbers rounded to ten digits. -/
theorem zplanar_roundtrip_partial (F : PlanarFns ℚ) (b : ZPlanarBuild) (h : List (Params.Op ℚ)) (hp : Storable (Params.run h))
    (ht : b.type = 1 ∨ b.type = 2 ∨ b.type = 3) (hl : ∀ l ∈ b.layers, IsInt l.nLadders) :
    ∃ cs, zplanarToXML F ⟨b.run F, Params.run h⟩ = .ok (el "detector" [] cs)
      ∧ ∀ attrs, ∃ s, zplanarFromXML F (el "detector" attrs cs) = .ok s ∧ SameZPlanar F r10 b (Params.run h) s :=
  ⟨_, zplanarToXML_eq F b (Params.inv_run h), fun attrs =>
    ⟨_, zplanarFromXML_eq F b (Params.inv_run h) (writable_of_storable (Params.inv_run h) hp) ht hl attrs, rfl, same_readBack _⟩⟩

/-- All numbers of a section. -/
def ZPlanarBuild.numbers (b : ZPlanarBuild) : List ℚ :=
  [b.innerRadius, b.outerRadius, b.halfLength, b.gap, b.radLength] ++ b.layers.flatMap fun l =>
    [l.phi0, l.ladder.distance, l.ladder.offset, l.ladder.thickness, l.ladder.length, l.ladder.width, l.ladder.radLength,
      l.sensitive.distance, l.sensitive.offset, l.sensitive.thickness, l.sensitive.length, l.sensitive.width, l.sensitive.radLength]

theorem zplanar_map_id (b : ZPlanarBuild) (r : ℚ → ℚ) (h : ∀ x ∈ b.numbers, r x = x) : b.map r = b := by
  obtain ⟨t, a, b', c, d, e, l⟩ := b
  simp only [ZPlanarBuild.numbers, List.mem_append, or_imp, forall_and, List.forall_mem_cons, List.mem_flatMap] at h
  obtain ⟨⟨h1, h2, h3, h4, h5, -⟩, hl⟩ := h
  simp only [ZPlanarBuild.map, h1, h2, h3, h4, h5]
  congr
  refine List.map_congr_left (g := id) (fun a ha => ?_) |>.trans (List.map_id _)
  have := fun x hx => hl x ⟨a, ha, hx⟩
  simp only [List.forall_mem_cons, List.not_mem_nil, false_imp_iff, implies_true, and_true] at this
  simp [ZLayerArgs.map, mapSize, this]

/-- C60: sections whose numbers have at most ten digits are read back unchanged. -/
theorem zplanar_exact_partial (F : PlanarFns ℚ) (b : ZPlanarBuild) (h : List (Params.Op ℚ)) (hp : Storable (Params.run h))
    (ht : b.type = 1 ∨ b.type = 2 ∨ b.type = 3) (hl : ∀ l ∈ b.layers, IsInt l.nLadders) (hx : ∀ x ∈ b.numbers, TenDigits x) :
    ∃ cs, zplanarToXML F ⟨b.run F, Params.run h⟩ = .ok (el "detector" [] cs)
      ∧ ∀ attrs, ∃ s, zplanarFromXML F (el "detector" attrs cs) = .ok s ∧ s.geo = b.run F
        ∧ SameParams r10 (Params.run h) s.params := by
  obtain ⟨cs, h1, h2⟩ := zplanar_roundtrip_partial F b h hp ht hl
  refine ⟨cs, h1, fun attrs => ?_⟩
  obtain ⟨s, h3, h4, h5⟩ := h2 attrs
  refine ⟨s, h3, ?_, h5⟩
  rw [h4, zplanar_map_id b r10 fun x hx' => r10_eq (hx x hx')]

/-- C60 is false: a section of any other type is written, but cannot be read. -/
theorem zplanar_false (F : PlanarFns ℚ) (b : ZPlanarBuild) (h : List (Params.Op ℚ)) (ht : b.type ≠ 1 ∧ b.type ≠ 2 ∧ b.type ≠ 3) :
    ∃ cs, zplanarToXML F ⟨b.run F, Params.run h⟩ = .ok (el "detector" [] cs)
      ∧ ∀ attrs, zplanarFromXML F (el "detector" attrs cs) = .throw .gear := by
  refine ⟨_, zplanarToXML_eq F b (Params.inv_run h), fun attrs => ?_⟩
  unfold zplanarFromXML zplanarChildren
  simp only [List.cons_append, List.nil_append, firstElement_cons, String.reduceEq, if_true, if_false]
  rw [attrOf_el]
  simp only [find, if_true, Res.bind_ok, zplanarType, if_neg ht.1, if_neg ht.2.1, if_neg ht.2.2]
  rfl

/-- A vertex detector with two layers. -/
def exampleZPlanar : ZPlanarBuild :=
  ⟨2, 15, 60, 125, 0, 300, [⟨8, 0.5, ⟨16, 1, 0.2, 62.5, 11, 90⟩, ⟨16.1, 1, 0.05, 62.5, 10, 93.6⟩⟩,
    ⟨12, -0.25, ⟨37, 2, 0.2, 125, 22, 90⟩, ⟨37.1, 2, 0.05, 125, 21, 93.6⟩⟩]⟩

example (F : PlanarFns ℚ) : ∃ cs, zplanarToXML F ⟨exampleZPlanar.run F, Params.run sampleOps⟩ = .ok (el "detector" [] cs)
      ∧ ∀ attrs, ∃ s, zplanarFromXML F (el "detector" attrs cs) = .ok s ∧ s.geo = exampleZPlanar.run F
        ∧ SameParams r10 (Params.run sampleOps) s.params := by
  refine zplanar_exact_partial F exampleZPlanar _ storable_sampleOps (by decide) (by unfold IsInt; decide) ?_
  exact tenDigits_of 4 (by decide +kernel)

theorem wellFormed_zplanar (b : ZPlanarBuild) {p : Params ℚ} (h : NoReferences p) :
    ∀ c ∈ zplanarChildren b p, WellFormed c ∧ c.isText = false := by
  intro c hc
  unfold zplanarChildren at hc
  rw [List.mem_append] at hc
  rcases hc with hc | hc
  · revert c
    simp only [List.forall_mem_cons, List.not_mem_nil, false_imp_iff, implies_true, and_true]
    have ht : NoReference (zplanarType b.type).toList := by
      unfold zplanarType
      split_ifs <;> decide +kernel
    refine ⟨⟨?_, rfl⟩, ⟨?_, rfl⟩, ?_, rfl⟩
    · wf_el
      simp
    · wf_el
      simp
    · wf_el
      intro c hc
      obtain ⟨a, -, rfl⟩ := List.mem_map.1 hc
      refine ⟨?_, rfl⟩
      unfold zLayerNode
      wf_el
      simp only [List.forall_mem_cons, List.not_mem_nil, false_imp_iff, implies_true, and_true]
      refine ⟨⟨?_, rfl⟩, ?_, rfl⟩
      · wf_el
        simp
      · wf_el
        simp
  · exact ⟨wellFormed_paramsNodes h c hc, (paramsNodes_value c hc).2⟩

/-! ### C61 -/

/-- Apply a function to all numbers. -/
def mapShape (r : ℚ → ℚ) (s : Ftd.Shape ℚ) : Ftd.Shape ℚ :=
  ⟨r s.rInner, r s.thickness, r s.lengthMin, r s.lengthMax, r s.width, r s.radLength⟩

/-- Apply a function to all numbers. -/
def FtdLayerArgs.map (r : ℚ → ℚ) (l : FtdLayerArgs) : FtdLayerArgs :=
  ⟨⟨l.common.nPetals, l.common.nSensors, l.common.isDoubleSided, l.common.sensorType, r l.common.petalOpAngle, r l.common.phi0,
    r l.common.alpha, r l.common.zposition, r l.common.zoffset, r l.common.zsignpetal0⟩, mapShape r l.support, mapShape r l.sensitive⟩

/-- The disks built by calls of `addLayer`. -/
def ftdRun (l : List FtdLayerArgs) : Ftd.Layout ℚ := l.foldl ftdAddLayer []

theorem ftdRun_eq (l : List FtdLayerArgs) :
    ftdRun l = l.map fun a => (Ftd.mkLayer a.common a.support, Ftd.mkLayer a.common a.sensitive) := by
  have : ∀ (l : List FtdLayerArgs) (L : Ftd.Layout ℚ), l.foldl ftdAddLayer L
      = L ++ l.map fun a => (Ftd.mkLayer a.common a.support, Ftd.mkLayer a.common a.sensitive) := by
    intro l
    induction l with
    | nil => intro L; simp
    | cons a l ih => intro L; rw [List.foldl_cons, ih]; simp [ftdAddLayer, Ftd.addLayer]
  rw [ftdRun, this, List.nil_append]

/-- The node of a layer. -/
def ftdLayerNode (a : FtdLayerArgs) : Node :=
  el "layer" [("nPetals", printInt a.common.nPetals), ("nSensors", printInt a.common.nSensors),
      ("isDoubleSided", printInt (if a.common.isDoubleSided then 1 else 0)), ("sensorType", (ftdType a.common.sensorType).toList),
      ("petalOpenningAngle", formatE a.common.petalOpAngle), ("phi0", formatE a.common.phi0), ("alpha", formatE a.common.alpha),
      ("zoffset", formatE a.common.zoffset), ("zsign0", formatE a.common.zsignpetal0), ("zposition", formatE a.common.zposition)]
    [el "support" [("thickness", formatE a.support.thickness), ("width", formatE a.support.width),
      ("lengthMin", formatE a.support.lengthMin), ("lengthMax", formatE a.support.lengthMax), ("rInner", formatE a.support.rInner),
      ("radLength", formatE a.support.radLength)] [],
     el "sensitive" [("thickness", formatE a.sensitive.thickness), ("width", formatE a.sensitive.width),
      ("lengthMin", formatE a.sensitive.lengthMin), ("lengthMax", formatE a.sensitive.lengthMax),
      ("rInner", formatE a.sensitive.rInner), ("radLength", formatE a.sensitive.radLength)] []]

/-- The children of the section. -/
def ftdChildren (l : List FtdLayerArgs) (p : Params ℚ) : List Node := [el "layers" [] (l.map ftdLayerNode)] ++ paramsNodes p

theorem ftdToXML_eq {l : List FtdLayerArgs} (hl : l.length ≤ 7) {p : Params ℚ} (hi : Params.Inv p) :
    ftdToXML ⟨ftdRun l, p⟩ = .ok (el "detector" [] (ftdChildren l p)) := by
  unfold ftdToXML
  rw [ftdRun_eq]
  have h := mapM_range l (fun i : ℕ => ftdLayerToXML (l.map fun a => (Ftd.mkLayer a.common a.support,
    Ftd.mkLayer a.common a.sensitive)) (i : ℤ)) ftdLayerNode (by
      intro i a ha
      have hlt : i < l.length := (List.getElem?_eq_some_iff.1 ha).1
      have h1 : ∀ L : Ftd.Layout ℚ, Ftd.getEquivLayer L (i : ℤ) = i := by
        intro L
        rw [Ftd.getEquivLayer, if_neg (by omega)]
      have h2 : Ftd.at' (l.map fun a => (Ftd.mkLayer a.common a.support, Ftd.mkLayer a.common a.sensitive)) (i : ℤ)
          = .ok (Ftd.mkLayer a.common a.support, Ftd.mkLayer a.common a.sensitive) := by
        unfold Ftd.at'
        rw [if_neg (show ¬ (i : ℤ) < 0 by omega)]
        simp [ha]
      simp only [ftdLayerToXML, Ftd.getNPetals, Ftd.getNSensors, Ftd.isDoubleSided, Ftd.getSensorType, Ftd.getPhiHalfDistance,
        Ftd.getPhi0, Ftd.getAlpha, Ftd.getZoffset, Ftd.getZoffsetSign0, Ftd.getZposition, Ftd.getSupportThickness,
        Ftd.getSupportWidth, Ftd.getSupportLengthMin, Ftd.getSupportLengthMax, Ftd.getSupportRinner, Ftd.getSupportRadLength,
        Ftd.getSensitiveThickness, Ftd.getSensitiveWidth, Ftd.getSensitiveLengthMin, Ftd.getSensitiveLengthMax,
        Ftd.getSensitiveRinner, Ftd.getSensitiveRadLength, Ftd.sup, Ftd.sen, h1, h2, Res.bind_ok, Res.pure_eq]
      rfl)
  simp only
  rw [List.length_map, h, Res.bind_ok, getXMLForParameters_eq hi]
  rfl

theorem ftdShapeFromXML_el (nm : String) (s : Ftd.Shape ℚ) (cs : List Node) :
    ftdShapeFromXML (some (el nm [("thickness", formatE s.thickness), ("width", formatE s.width),
      ("lengthMin", formatE s.lengthMin), ("lengthMax", formatE s.lengthMax), ("rInner", formatE s.rInner),
      ("radLength", formatE s.radLength)] cs)) = .ok (mapShape r10 s) := by
  unfold ftdShapeFromXML
  repeat rw [num_el rfl, Res.bind_ok]
  rfl

/-- The integers are integers of C++ and the type is one of the documented ones. -/
def FtdLayerArgs.Valid (a : FtdLayerArgs) : Prop :=
  IsInt a.common.nPetals ∧ IsInt a.common.nSensors ∧ (a.common.sensorType = 1 ∨ a.common.sensorType = 2)

theorem ftdTypeOf_text {type : ℤ} (h : type = 1 ∨ type = 2) : ftdTypeOf (ftdType type).toList = .ok type := by
  rcases h with rfl | rfl <;> simp [ftdTypeOf, ftdType]

theorem isInt_bool (b : Bool) : IsInt (if b then 1 else 0) := by cases b <;> (unfold IsInt; decide)

theorem ftdLayerFromXML_el {a : FtdLayerArgs} (h : a.Valid) : ftdLayerFromXML (ftdLayerNode a) = .ok (a.map r10) := by
  unfold ftdLayerFromXML ftdLayerNode
  rw [int_el rfl h.1, Res.bind_ok, int_el rfl h.2.1, Res.bind_ok, int_el rfl (isInt_bool _), Res.bind_ok, attrOf_el]
  simp only [find, String.reduceEq, if_true, if_false, Res.bind_ok]
  rw [ftdTypeOf_text h.2.2, Res.bind_ok]
  repeat rw [num_el rfl, Res.bind_ok]
  rw [firstElement_cons, if_pos rfl, firstElement_cons, if_neg (by decide), firstElement_cons, if_pos rfl,
    ftdShapeFromXML_el, Res.bind_ok, ftdShapeFromXML_el, Res.bind_ok]
  unfold FtdLayerArgs.map
  congr
  cases a.common.isDoubleSided <;> rfl

theorem ftdFromXML_eq {l : List FtdLayerArgs} (hl : ∀ a ∈ l, a.Valid) {p : Params ℚ} (hi : Params.Inv p) (hw : Writable p)
    (attrs : List (String × Text)) :
    ftdFromXML (el "detector" attrs (ftdChildren l p)) = .ok ⟨ftdRun (l.map (FtdLayerArgs.map r10)), readBack p⟩ := by
  have hp : setParametersFromXML (el "detector" attrs (ftdChildren l p)) {} = .ok (readBack p) := by
    refine parametersToElement _ _ hi hw _ ?_
    simp only [List.forall_mem_cons, List.not_mem_nil, false_imp_iff, implies_true, and_true]
    exact value_ne (by decide)
  unfold ftdFromXML
  rw [hp]
  unfold ftdChildren
  simp only [List.cons_append, List.nil_append, firstElement_cons, if_true, namedOf, Res.bind_ok]
  rw [named_of_all (by simp [ftdLayerNode])]
  rw [List.mapM_map, mapM_ok (ftdLayerFromXML ∘ ftdLayerNode) (FtdLayerArgs.map r10) fun a ha => ftdLayerFromXML_el (hl a ha)]
  rfl

/-- C61: for every list of at most seven layers of the documented types and every history of the named parameters, the section that
is written is read back as the one built by the same calls with the numbers rounded to ten digits. -/
theorem ftd_roundtrip_partial (l : List FtdLayerArgs) (h7 : l.length ≤ 7) (hl : ∀ a ∈ l, a.Valid) (h : List (Params.Op ℚ))
    (hp : Storable (Params.run h)) :
    ∃ cs, ftdToXML ⟨ftdRun l, Params.run h⟩ = .ok (el "detector" [] cs)
      ∧ ∀ attrs, ∃ s, ftdFromXML (el "detector" attrs cs) = .ok s ∧ s.layers = ftdRun (l.map (FtdLayerArgs.map r10))
        ∧ SameParams r10 (Params.run h) s.params :=
  ⟨_, ftdToXML_eq h7 (Params.inv_run h), fun attrs =>
    ⟨_, ftdFromXML_eq hl (Params.inv_run h) (writable_of_storable (Params.inv_run h) hp) attrs, rfl, same_readBack _⟩⟩

/-- All numbers of the calls. -/
def ftdNumbers (l : List FtdLayerArgs) : List ℚ :=
  l.flatMap fun a => [a.common.petalOpAngle, a.common.phi0, a.common.alpha, a.common.zposition, a.common.zoffset,
    a.common.zsignpetal0, a.support.rInner, a.support.thickness, a.support.lengthMin, a.support.lengthMax, a.support.width,
    a.support.radLength, a.sensitive.rInner, a.sensitive.thickness, a.sensitive.lengthMin, a.sensitive.lengthMax, a.sensitive.width,
    a.sensitive.radLength]

theorem ftd_map_id (l : List FtdLayerArgs) (r : ℚ → ℚ) (h : ∀ x ∈ ftdNumbers l, r x = x) : l.map (FtdLayerArgs.map r) = l := by
  simp only [ftdNumbers, List.mem_flatMap] at h
  refine List.map_congr_left (g := id) (fun a ha => ?_) |>.trans (List.map_id _)
  have := fun x hx => h x ⟨a, ha, hx⟩
  simp only [List.forall_mem_cons, List.not_mem_nil, false_imp_iff, implies_true, and_true] at this
  simp [FtdLayerArgs.map, mapShape, this]

/-- C61: with numbers of at most ten digits the layers are the same. -/
theorem ftd_exact_partial (l : List FtdLayerArgs) (h7 : l.length ≤ 7) (hl : ∀ a ∈ l, a.Valid) (h : List (Params.Op ℚ))
    (hp : Storable (Params.run h)) (hx : ∀ x ∈ ftdNumbers l, TenDigits x) :
    ∃ cs, ftdToXML ⟨ftdRun l, Params.run h⟩ = .ok (el "detector" [] cs)
      ∧ ∀ attrs, ∃ s, ftdFromXML (el "detector" attrs cs) = .ok s ∧ s.layers = ftdRun l
        ∧ SameParams r10 (Params.run h) s.params := by
  obtain ⟨cs, h1, h2⟩ := ftd_roundtrip_partial l h7 hl h hp
  refine ⟨cs, h1, fun attrs => ?_⟩
  obtain ⟨s, h3, h4, h5⟩ := h2 attrs
  refine ⟨s, h3, ?_, h5⟩
  rw [h4, ftd_map_id l r10 fun x hx' => r10_eq (hx x hx')]

/-- C61 is false: a section with more than seven layers cannot be written, whatever the layers are. -/
theorem ftd_false (l : List FtdLayerArgs) (h7 : 7 < l.length) (p : Params ℚ) : ftdToXML ⟨ftdRun l, p⟩ = .throw .outOfRange := by
  unfold ftdToXML
  rw [ftdRun_eq]
  simp only [List.length_map]
  generalize hL : (l.map fun a => (Ftd.mkLayer a.common a.support, Ftd.mkLayer a.common a.sensitive)) = L
  have hlen : L.length = l.length := by rw [← hL, List.length_map]
  have low : ∀ i : ℕ, i < 7 → ∃ n, ftdLayerToXML L (i : ℤ) = .ok n := by
    intro i hi
    have h1 : Ftd.getEquivLayer L (i : ℤ) = i := by rw [Ftd.getEquivLayer, if_neg (by omega)]
    obtain ⟨x, hx⟩ : ∃ x, L[i]? = some x := ⟨L[i]'(by omega), List.getElem?_eq_getElem _⟩
    have h2 : Ftd.at' L (i : ℤ) = .ok x := by
      unfold Ftd.at'
      rw [if_neg (show ¬ (i : ℤ) < 0 by omega)]
      simp [hx]
    simp only [ftdLayerToXML, Ftd.getNPetals, Ftd.getNSensors, Ftd.isDoubleSided, Ftd.getSensorType, Ftd.getPhiHalfDistance,
        Ftd.getPhi0, Ftd.getAlpha, Ftd.getZoffset, Ftd.getZoffsetSign0, Ftd.getZposition, Ftd.getSupportThickness,
        Ftd.getSupportWidth, Ftd.getSupportLengthMin, Ftd.getSupportLengthMax, Ftd.getSupportRinner, Ftd.getSupportRadLength,
        Ftd.getSensitiveThickness, Ftd.getSensitiveWidth, Ftd.getSensitiveLengthMin, Ftd.getSensitiveLengthMax,
        Ftd.getSensitiveRinner, Ftd.getSensitiveRadLength, Ftd.sup, Ftd.sen, h1, h2, Res.bind_ok, Res.pure_eq]
    exact ⟨_, rfl⟩
  have seven : ftdLayerToXML L ((7 : ℕ) : ℤ) = .throw .outOfRange := by
    have h1 : Ftd.at' L (Ftd.getEquivLayer L ((7 : ℕ) : ℤ)) = .throw .outOfRange := by
      rw [Ftd.getEquivLayer, if_pos (by norm_num), Ftd.getNLayers, hlen, Ftd.at', if_pos (by push_cast; omega)]
    unfold ftdLayerToXML Ftd.getNPetals Ftd.sup
    rw [h1]
    rfl
  have fail : ∀ (f : ℕ → Res Node) (a b : List ℕ) (k : ℕ), (∀ i ∈ a, ∃ n, f i = .ok n) → f k = .throw .outOfRange →
      (a ++ k :: b).mapM f = .throw .outOfRange := by
    intro f a b k ha hk
    induction a with
    | nil => rw [List.nil_append, List.mapM_cons, hk]; rfl
    | cons i a ih =>
      obtain ⟨n, hn⟩ := ha i (by simp)
      rw [List.cons_append, List.mapM_cons, hn, Res.bind_ok, ih fun j hj => ha j (by simp [hj])]
      rfl
  have hr : List.range l.length = List.range 7 ++ 7 :: List.range' 8 (l.length - 8) := by
    obtain ⟨k, hk⟩ : ∃ k, l.length = 8 + k := ⟨l.length - 8, by omega⟩
    rw [hk, List.range_add, List.range_succ]
    simp [List.range'_eq_map_range]
  rw [hr, fail (fun i : ℕ => ftdLayerToXML L (i : ℤ)) _ _ 7 (fun i hi => low i (List.mem_range.1 hi)) seven]
  rfl

/-- C61 is false also for a type of sensors that is not documented: it is written, but cannot be read. -/
theorem ftd_type_false (a : FtdLayerArgs) (l : List FtdLayerArgs) (h7 : l.length ≤ 6) (h1 : IsInt a.common.nPetals)
    (h2 : IsInt a.common.nSensors) (h3 : a.common.sensorType ≠ 1 ∧ a.common.sensorType ≠ 2) (h : List (Params.Op ℚ)) :
    ∃ cs, ftdToXML ⟨ftdRun (a :: l), Params.run h⟩ = .ok (el "detector" [] cs)
      ∧ ∀ attrs, ftdFromXML (el "detector" attrs cs) = .throw .gear := by
  refine ⟨_, ftdToXML_eq (by simpa using h7) (Params.inv_run h), fun attrs => ?_⟩
  unfold ftdFromXML ftdChildren
  simp only [List.cons_append, List.nil_append, firstElement_cons, if_true, namedOf, Res.bind_ok]
  rw [named_of_all (by simp [ftdLayerNode]), List.map_cons, List.mapM_cons]
  have : ftdLayerFromXML (ftdLayerNode a) = .throw .gear := by
    unfold ftdLayerFromXML ftdLayerNode
    rw [int_el rfl h1, Res.bind_ok, int_el rfl h2, Res.bind_ok, int_el rfl (isInt_bool _), Res.bind_ok, attrOf_el]
    simp only [find, String.reduceEq, if_true, if_false, Res.bind_ok, ftdType, if_neg h3.1, if_neg h3.2]
    rfl
  rw [this]
  rfl

/-- Two disks. -/
def exampleFtd : List FtdLayerArgs :=
  [⟨⟨16, 2, true, 1, 0.19635, 0.1, 0, 220, 3, 1⟩, ⟨39, 1, 30, 60, 120, 285⟩, ⟨39.5, 0.02, 30, 60, 120, 93.6⟩⟩,
   ⟨⟨16, 4, false, 2, 0.19635, 0.1, 0, 371.3, 3, -1⟩, ⟨49.6, 1, 30, 60, 120, 285⟩, ⟨50, 0.275, 30, 60, 120, 93.6⟩⟩]

example : ∃ cs, ftdToXML ⟨ftdRun exampleFtd, Params.run sampleOps⟩ = .ok (el "detector" [] cs)
      ∧ ∀ attrs, ∃ s, ftdFromXML (el "detector" attrs cs) = .ok s ∧ s.layers = ftdRun exampleFtd
        ∧ SameParams r10 (Params.run sampleOps) s.params :=
  ftd_exact_partial _ (by decide) (by unfold FtdLayerArgs.Valid IsInt; decide) _ storable_sampleOps
    (tenDigits_of 5 (by decide +kernel))

theorem wellFormed_ftd (l : List FtdLayerArgs) {p : Params ℚ} (h : NoReferences p) :
    ∀ c ∈ ftdChildren l p, WellFormed c ∧ c.isText = false := by
  intro c hc
  unfold ftdChildren at hc
  rw [List.mem_append] at hc
  rcases hc with hc | hc
  · rw [List.mem_singleton] at hc
    subst hc
    refine ⟨?_, rfl⟩
    wf_el
    intro c hc
    obtain ⟨a, -, rfl⟩ := List.mem_map.1 hc
    refine ⟨?_, rfl⟩
    have ht : NoReference (ftdType a.common.sensorType).toList := by
      unfold ftdType
      split_ifs <;> decide +kernel
    unfold ftdLayerNode
    wf_el
    simp only [List.forall_mem_cons, List.not_mem_nil, false_imp_iff, implies_true, and_true]
    refine ⟨⟨?_, rfl⟩, ?_, rfl⟩
    · wf_el
      simp
    · wf_el
      simp
  · exact ⟨wellFormed_paramsNodes h c hc, (paramsNodes_value c hc).2⟩

end Gear.Xml
