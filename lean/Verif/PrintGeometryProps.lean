/-
C161: what the program printParameters shows of a file.
-/
import Verif.PrintGeometry
import Verif.PrintProps
import Verif.PrintTableProps
import Verif.PrintTrackerProps
import Verif.PrintMgrProps
import Verif.XmlFileProps

set_option autoImplicit false
set_option linter.unusedSectionVars false

namespace Gear.Print.Geo

open Xml (Text Geometry FileEnv BField Material CaloSection ZPlanarSection FtdSection SiSection TrackerSection TpcSection ModuleSection
  PadLayout getSection)

/-! ### The specification -/

/-- A value is among the named parameters. -/
def InParams (p : Params ℚ) : Line ℚ → Prop
  | .int k v => p.getIntVal k = .ok v
  | .double k v => p.getDoubleVal k = .ok v
  | .string k v => p.getStringVal k = .ok v
  | .intVec k v => p.getIntVals k = .ok v
  | .doubleVec k v => p.getDoubleVals k = .ok v
  | .stringVec k v => p.getStringVals k = .ok v

/-- The items are the named parameters, all of them and nothing else. -/
def ShowsParams (p : Params ℚ) (l : List Shown) : Prop := ∃ ps : List (Line ℚ), l = ps.map .param ∧ ∀ x, x ∈ ps ↔ InParams p x

/-- The items have parts, in this order, with these properties. -/
def ShowsAll (Ps : List (List Shown → Prop)) (l : List Shown) : Prop :=
  ∃ parts : List (List Shown), l = parts.flatten ∧ List.Forall₂ (fun P x => P x) Ps parts

/-- The items are these. -/
def Are (a : List Shown) (l : List Shown) : Prop := l = a

/-- The items are rows, one for each element of `L`, which shows its values. -/
def ShowsTable {α : Type} (values : α → List Value) (L : List α) (l : List Shown) : Prop :=
  ∃ ts : List Text, l = ts.map .row ∧ List.Forall₂ (fun a t => ShowsRow (values a) t) L ts

/-- The words for the types of vertex detectors. -/
def vertexType : ℤ → String
  | 1 => "CCD"
  | 2 => "CMOS"
  | 3 => "HYBRID"
  | _ => "unknown"

/-- The words for the types of telescopes. -/
def telescopeType : ℤ → String
  | 1 => "TelescopeWithDUT"
  | 2 => "TelescopeWithoutDUT"
  | _ => "unknown"

/-- The words for the types of coordinates. -/
def coordinates : ℤ → String
  | 1 => "cartesian"
  | 2 => "polar"
  | _ => "unknown"

/-- The numbers of pads and of rows of a layout, as its getters tell. -/
def padsAndRows : PadLayout → ℤ × ℤ
  | .rect L => (Rect.getNPads L, Rect.getNRows L)
  | .padSize L => (PadSize.getNPads L, PadSize.getNRows L)
  | .padAngle L => (PadAngle.getNPads L, PadAngle.getNRows L)
  | .versatile L => (Versatile.getNPads L, Versatile.getNRows L)

/-- The field. -/
def ShowsField (f : BField) : List Shown → Prop :=
  ShowsAll [Are [.title "BField", .value "Bx" f.b.x, .value "By" f.b.y, .value "Bz" f.b.z], ShowsParams f.params]

/-- A calorimeter; the thicknesses of all layers can be read off the table (C117). -/
def ShowsCalo (s : CaloSection) : List Shown → Prop :=
  ShowsAll [ShowsParams s.params,
    Are [.word "calorimeter type" (match s.calo.type with | .barrel => "barrel" | _ => "endcap"), .number "symmetry order" s.calo.sym,
      .value "phi0" s.calo.phi, .value "rMin" s.calo.extent0, .value "rMax" s.calo.extent1, .value "zMin" s.calo.extent2,
      .value "zMax" s.calo.extent3, .number "layers" s.calo.layout.length],
    fun l => ∃ rs : List (CaloRow ℚ), l = rs.map .caloRow ∧ (∀ r ∈ rs, ∃ (j : ℕ) (hj : j < s.calo.layout.length), r = rowOf j s.calo.layout[j])
      ∧ ∀ (j : ℕ) (hj : j < s.calo.layout.length),
        readOff (0, 0) rs j = (s.calo.layout[j].thickness, s.calo.layout[j].absorberThickness)]

/-- Ladders. -/
def ShowsZPlanar (s : ZPlanarSection) : List Shown → Prop :=
  ShowsAll [Are [.title "ZPlanarParameters"], ShowsParams s.params,
    Are [.word "type" (vertexType s.geo.type), .value "Shell innerR" s.geo.shellInnerRadius, .value "outerR" s.geo.shellOuterRadius,
      .value "length" s.geo.shellHalfLength, .value "gap" s.geo.shellGap, .number "Layers" s.geo.layer.length],
    ShowsTable (fun x => zplanarValues x.1 x.2) s.geo.layer]

/-- Discs, of which only the first `n` may be shown. -/
def ShowsDiscs (n : ℕ) (s : FtdSection) : List Shown → Prop :=
  ShowsAll [Are [.title "FTDParameters"], ShowsParams s.params, Are [.number "Layers" s.layers.length],
    ShowsTable (fun x => ftdValues x.1 x.2) (s.layers.take n)]

/-- A telescope. -/
def ShowsSi (s : SiSection) : List Shown → Prop :=
  ShowsAll [Are [.title "SiPlanesParameters"], ShowsParams s.params,
    Are [.number "Setup ID" s.id, .word "Telescope type" (telescopeType s.type), .number "Number of telescope planes" s.number,
      .number "Number of layers" s.layout.lVec.length],
    ShowsTable (fun x => siValues x.1 x.2) (s.layout.lVec.zip s.layout.sVec),
    fun l => if s.type = 1 then ∃ t, l = [.title "DUT parameters", .row t] ∧ ShowsRow (dutValues s.layout.lDut s.layout.sDut) t else l = []]

/-- TrackerPlanes, as in C160. -/
def ShowsTracker (s : TrackerSection) : List Shown → Prop :=
  ShowsAll [Are [.title "TrackerPlanesParameters"], ShowsParams s.params,
    Are [.number "Setup ID" s.id, .number "Number of telescope planes" s.number],
    fun l => ∃ ts : List Text, l = [.row (ts.flatten ++ Tracker.footer)] ∧
      List.Forall₂ (fun es r => List.Forall₂ Tracker.Entry.ShownBy es (Tracker.words r)) (Tracker.entries s.layout) ts]

/-- A module of a TPC. -/
def ShowsModule (m : ModuleSection) : List Shown → Prop :=
  ShowsAll [Are [.title "TPCModule"], ShowsParams m.params,
    Are [.value "Readout frequency" m.module.readoutFrequency,
      .word "Type" (match m.layout with | .rect _ => "cartesian" | _ => "polar"),
      .number "Number of pads" (padsAndRows m.layout).1, .number "Number of Rows" (padsAndRows m.layout).2,
      .value "Offset 0" m.module.offset.1, .value "Offset 1" m.module.offset.2,
      if m.module.zPositionIsSet then .value "zPosition" m.module.zPosition else .word "zPosition" "no z Position set",
      .value "Angle" m.module.angle, .value "extent 0" m.module.planeExtent.e0, .value "extent 1" m.module.planeExtent.e1,
      .value "extent 2" m.module.planeExtent.e2, .value "extent 3" m.module.planeExtent.e3]]

/-- A TPC with its modules. -/
def ShowsTpc (s : TpcSection) : List Shown → Prop :=
  ShowsAll ([Are [.title "TPCParameters"], ShowsParams s.params,
    Are [.value "maxDriftLength" s.tpc.maxDriftLength, .word "coordinateType" (coordinates s.tpc.coordinateType),
      .number "Number of modules" s.tpc.modules.length]] ++ s.mods.map ShowsModule)

/-- A section with its heading; for a section that does not exist there is at most the heading. -/
def ShowsSection {α : Type} (heading : Option String) (P : α → List Shown → Prop) (s : Option α) (l : List Shown) : Prop :=
  match s with
  | some a => ShowsAll [Are (heading.map Shown.title).toList, P a] l
  | none => l = [] ∨ l = (heading.map Shown.title).toList

/-- The name: a warning if there is none. -/
def ShowsName (g : Geometry) (l : List Shown) : Prop :=
  if g.detectorName = "" then l = [.title "WARNING:  NOT FOUND  !"] ∨ l = [.title "DetectorName", .title "WARNING:  NOT FOUND  !"] else l = [.word "DetectorName" g.detectorName]

/-- The field: a warning if there is none. -/
def ShowsFieldOf (g : Geometry) (l : List Shown) : Prop :=
  match g.bField with
  | some f => ShowsField f l
  | none => l = [.title "BField", .title "WARNING:  NOT FOUND  !"]

/-- The sections, in the order in which they are printed: SIT and SET twice. -/
def sections (g : Geometry) : List (List Shown → Prop) :=
  [ShowsSection (some "VXD") ShowsZPlanar (g.zplanar .vxd), ShowsSection none (ShowsDiscs 7) g.ftd,
    ShowsSection (some "SIT") ShowsZPlanar (g.zplanar .sit), ShowsSection (some "SET") ShowsZPlanar (g.zplanar .set),
    ShowsSection none ShowsZPlanar (g.zplanar .sit), ShowsSection none ShowsZPlanar (g.zplanar .set), ShowsSection none ShowsTpc g.tpc,
    ShowsSection (some "Ecal barrel") ShowsCalo (g.calo .ecalBarrel), ShowsSection (some "Ecal endcap") ShowsCalo (g.calo .ecalEndcap),
    ShowsSection (some "Ecal plug") ShowsCalo (g.calo .ecalPlug), ShowsSection (some "Yoke barrel") ShowsCalo (g.calo .yokeBarrel),
    ShowsSection (some "Yoke endcap") ShowsCalo (g.calo .yokeEndcap), ShowsSection (some "Yoke plug") ShowsCalo (g.calo .yokePlug),
    ShowsSection (some "Hcal barrel") ShowsCalo (g.calo .hcalBarrel), ShowsSection (some "Hcal endcap") ShowsCalo (g.calo .hcalEndcap),
    ShowsSection (some "Hcal ring") ShowsCalo (g.calo .hcalRing), ShowsSection (some "Lcal") ShowsCalo (g.calo .lcal),
    ShowsSection (some "LHcal") ShowsCalo (g.calo .lhcal), ShowsSection (some "BeamCal") ShowsCalo (g.calo .beamcal),
    ShowsSection (some "TrackerPlanes") ShowsTracker g.trackerPlanes, ShowsSection (some "SiPlanes") ShowsSi g.siPlanes]

/-- Everything in a geometry: the sections, then the sections with named parameters and the materials, in the order of their names. -/
def ShowsGeometry (g : Geometry) : List Shown → Prop :=
  ShowsAll ([ShowsName g, ShowsFieldOf g] ++ sections g ++ [Are [.title "parameter sections (detectors)"]]
    ++ (SMap.keys g.generic).map (fun k => ShowsAll [Are [.title k], fun l => ∃ p, g.generic.find? k = some p ∧ ShowsParams p l])
    ++ [Are [.title "materials"]]
    ++ (SMap.keys g.materials).map (fun k l => ∃ m, g.materials.find? k = some m ∧ l = [.material m]))

/-! ### The parts -/

theorem showsAll_nil : ShowsAll [] [] := ⟨[], rfl, .nil⟩

theorem showsAll_cons {P : List Shown → Prop} {Ps : List (List Shown → Prop)} {a l : List Shown} (h : P a) (h' : ShowsAll Ps l) :
    ShowsAll (P :: Ps) (a ++ l) := by
  obtain ⟨parts, rfl, hp⟩ := h'
  exact ⟨a :: parts, rfl, .cons h hp⟩

/-- A function ends normally, and what it writes has the property. -/
def Good (P : List Shown → Prop) (o : Out) : Prop := o.result = .ok () ∧ P o.shown

theorem seq_good {Ps : List (List Shown → Prop)} {os : List Out} (h : List.Forall₂ Good Ps os) : Good (ShowsAll Ps) (seq os) := by
  induction h with
  | nil => exact ⟨rfl, showsAll_nil⟩
  | cons h _ ih =>
    unfold seq
    rw [h.1]
    exact ⟨ih.1, showsAll_cons h.2 ih.2⟩

theorem say_good {P : List Shown → Prop} {l : List Shown} (h : P l) : Good P (say l) := ⟨rfl, h⟩

theorem are_good (l : List Shown) : Good (Are l) (say l) := ⟨rfl, rfl⟩

/-- A key has its value, the first one with that key. -/
theorem mem_keys_find {α : Type} (m : SMap String α) {k : String} (h : k ∈ SMap.keys m) : ∃ v, Params.lookup k m = .ok v := by
  have := (SMap.find?_isSome_iff k m).2 h
  obtain ⟨v, hv⟩ := Option.isSome_iff_exists.1 this
  exact ⟨v, by unfold Params.lookup; rw [hv]⟩

theorem keys_of_lookup {α : Type} (m : SMap String α) {k : String} {v : α} (h : Params.lookup k m = .ok v) : k ∈ SMap.keys m := by
  unfold Params.lookup at h
  rw [← SMap.find?_isSome_iff]
  cases hf : m.find? k with
  | none => rw [hf] at h; cases h
  | some x => rfl

theorem mem_right {α β : Type} {R : α → β → Prop} {l : List α} {r : List β} (h : List.Forall₂ R l r) {b : β} (hb : b ∈ r) :
    ∃ a ∈ l, R a b := by
  induction h with
  | nil => cases hb
  | cons h _ ih =>
    rcases List.mem_cons.1 hb with rfl | hb
    · exact ⟨_, by simp, h⟩
    · obtain ⟨a, ha, hr⟩ := ih hb
      exact ⟨a, by simp [ha], hr⟩

theorem mem_left {α β : Type} {R : α → β → Prop} {l : List α} {r : List β} (h : List.Forall₂ R l r) {a : α} (ha : a ∈ l) :
    ∃ b ∈ r, R a b := mem_right h.flip ha

theorem loop_lines {α : Type} (m : SMap String α) (line : String → α → Line ℚ) :
    ∃ r, keyLoop (fun k => Params.lookup k m) line (SMap.keys m) = .ok r ∧
      ∀ x, x ∈ r ↔ ∃ k v, Params.lookup k m = .ok v ∧ x = line k v := by
  obtain ⟨r, h1, h2⟩ := keyLoop_ok (fun k => Params.lookup k m) line (SMap.keys m) fun k hk => mem_keys_find m hk
  refine ⟨r, h1, fun x => ⟨fun hx => ?_, ?_⟩⟩
  · obtain ⟨k, _, v, hv, rfl⟩ := mem_right h2 hx
    exact ⟨k, v, hv, rfl⟩
  · rintro ⟨k, v, hv, rfl⟩
    obtain ⟨a, ha, v', hv', rfl⟩ := mem_left h2 (keys_of_lookup m hv)
    have : v = v' := by rw [hv] at hv'; exact Res.ok.inj hv'
    rwa [this]

theorem printParams_good (p : Params ℚ) : Good (ShowsParams p) (printParams p) := by
  obtain ⟨a, ha, la⟩ := loop_lines p.intMap .int
  obtain ⟨b, hb, lb⟩ := loop_lines p.doubleMap .double
  obtain ⟨c, hc, lc⟩ := loop_lines p.stringMap .string
  obtain ⟨d, hd, ld⟩ := loop_lines p.intVecMap .intVec
  obtain ⟨e, he, le⟩ := loop_lines p.doubleVecMap .doubleVec
  obtain ⟨f, hf, lf⟩ := loop_lines p.stringVecMap .stringVec
  have key : params p = .ok (a ++ b ++ c ++ d ++ e ++ f) := by
    unfold params
    simp only [Params.getIntKeys, Params.getDoubleKeys, Params.getStringKeys, Params.getIntVecKeys, Params.getDoubleVecKeys,
      Params.getStringVecKeys, Params.refill_eq]
    unfold Params.getIntVal Params.getDoubleVal Params.getStringVal Params.getIntVals Params.getDoubleVals Params.getStringVals
    erw [ha, Res.bind_ok, hb, Res.bind_ok, hc, Res.bind_ok, hd, Res.bind_ok, he, Res.bind_ok, hf, Res.bind_ok]
    rfl
  unfold printParams
  rw [key]
  refine ⟨rfl, _, rfl, fun x => ?_⟩
  simp only [List.mem_append, la, lb, lc, ld, le, lf]
  cases x <;> simp [InParams, Params.getIntVal, Params.getDoubleVal, Params.getStringVal, Params.getIntVals, Params.getDoubleVals,
    Params.getStringVals]

theorem seq_append {a b : List Out} (h : (seq a).result = .ok ()) :
    seq (a ++ b) = ⟨(seq a).shown ++ (seq b).shown, (seq b).result⟩ := by
  induction a with
  | nil => rfl
  | cons o os ih =>
    rw [List.cons_append]
    simp only [seq] at h ⊢
    cases ho : o.result with
    | ok u =>
      rw [ho] at h
      simp only
      rw [ih h]
      simp
    | throw e => rw [ho] at h; cases h
    | ub => rw [ho] at h; cases h

theorem seq_rows {row : ℤ → Res Text} {text : ℕ → Text} (is : List ℕ) (h : ∀ i ∈ is, row i = .ok (text i)) :
    seq (is.map fun i : ℕ => write (do
      let t ← row i
      .ok [Shown.row t])) = ⟨(is.map text).map .row, .ok ()⟩ := by
  induction is with
  | nil => rfl
  | cons i is ih =>
    rw [List.map_cons, seq, ih fun j hj => h j (by simp [hj]), h i (by simp)]
    rfl

/-- Rows that show the values of a list. -/
theorem rows_good {row : ℤ → Res Text} {α : Type} {values : α → List Value} {L : List α}
    (h : ∀ (i : ℕ) (hi : i < L.length), ∃ t, row i = .ok t ∧ ShowsRow (values L[i]) t) :
    Good (ShowsTable values L) (rows row L.length) := by
  have hr : ∀ i ∈ List.range L.length, row i = .ok (match row i with | .ok t => t | _ => []) := by
    intro i hi
    obtain ⟨t, ht, _⟩ := h i (List.mem_range.1 hi)
    rw [ht]
  unfold rows
  rw [seq_rows _ hr]
  refine ⟨rfl, _, rfl, forall₂_of_getElem (by simp) ?_⟩
  intro i h1 h2
  obtain ⟨t, ht, hs⟩ := h i h1
  rw [List.getElem_map, List.getElem_range, ht]
  exact hs

theorem write_ok {l : List Shown} {r : Res (List Shown)} (h : r = .ok l) : write r = ⟨l, .ok ()⟩ := by rw [h]; rfl

theorem field_good (f : BField) : Good (ShowsField f) (printField f) :=
  seq_good (.cons (are_good _) (.cons (printParams_good _) .nil))

theorem calo_good (s : CaloSection) : Good (ShowsCalo s) (printCalo s) := by
  refine seq_good (.cons (printParams_good _) (.cons ⟨rfl, ?_⟩ (.cons ?_ .nil)))
  · unfold Are say
    cases s.calo.type <;> rfl
  · obtain ⟨rs, h1, h2, _, h4, _⟩ := calo_partial s.calo.layout
    rw [h1]
    exact ⟨rfl, rs, rfl, h2, h4⟩

theorem zplanarWord_eq (t : ℤ) : zplanarWord t = vertexType t := by
  unfold zplanarWord vertexType
  split_ifs with h1 h2 h3
  · rw [h1]; rfl
  · rw [h2]; rfl
  · rw [h3]; rfl
  · split <;> first | rfl | contradiction

theorem siWord_eq (t : ℤ) : siWord t = telescopeType t := by
  unfold siWord telescopeType
  split_ifs with h1 h2
  · rw [h1]; rfl
  · rw [h2]; rfl
  · split <;> first | rfl | contradiction

theorem coordinateWord_eq (t : ℤ) : coordinateWord t = coordinates t := by
  unfold coordinateWord coordinates
  split_ifs with h1 h2
  · rw [h1]; rfl
  · rw [h2]; rfl
  · split
    · exact absurd rfl h1
    · exact absurd rfl h2
    · rfl

theorem module_good (m : ModuleSection) : Good (ShowsModule m) (printModule m) := by
  obtain ⟨h1, h2⟩ := printParams_good m.params
  have hz : printZPosition m.module = say [if m.module.zPositionIsSet then .value "zPosition" m.module.zPosition
      else .word "zPosition" "no z Position set"] := by
    unfold printZPosition TpcModule.getZPosition
    cases m.module.zPositionIsSet <;> rfl
  have hw : coordinateWord m.layout.coordinateType = match m.layout with | .rect _ => "cartesian" | _ => "polar" := by
    cases m.layout <;> rfl
  have hp : nPads m.layout = (padsAndRows m.layout).1 ∧ nRows m.layout = (padsAndRows m.layout).2 := by
    cases m.layout <;> exact ⟨rfl, rfl⟩
  unfold printModule
  rw [hz, hw, hp.1, hp.2]
  simp only [seq, say, h1]
  refine ⟨rfl, showsAll_cons (P := Are _) rfl (showsAll_cons h2 ?_)⟩
  exact ⟨[_], rfl, .cons rfl .nil⟩

theorem forall₂_map {α : Type} {P : α → List Shown → Prop} {f : α → Out} (L : List α) (h : ∀ a ∈ L, Good (P a) (f a)) :
    List.Forall₂ Good (L.map P) (L.map f) := by
  rw [List.forall₂_map_left_iff, List.forall₂_map_right_iff, List.forall₂_same]
  exact h

theorem tpc_good (s : TpcSection) : Good (ShowsTpc s) (printTpc s) := by
  unfold ShowsTpc
  rw [← coordinateWord_eq]
  exact seq_good (.cons (are_good _) (.cons (printParams_good _) (.cons (are_good _) (forall₂_map _ fun m _ => module_good m))))

/-- The layers are small enough for the buffer, and the integers have 32 bits. -/
def PrintableZ (s : ZPlanarSection) : Prop := ∀ x ∈ s.geo.layer, ZSmall x.1 ∧ ZSmall x.2 ∧ IsInt x.1.NLadders

theorem zplanar_good (s : ZPlanarSection) (h : PrintableZ s) : Good (ShowsZPlanar s) (printZPlanar s) := by
  unfold ShowsZPlanar
  rw [← zplanarWord_eq]
  refine seq_good (.cons (are_good _) (.cons (printParams_good _) (.cons (are_good _) (.cons (rows_good ?_) .nil))))
  obtain ⟨rs, _, h2, h3⟩ := table_inv _ _ _ (zplanar_partial s.geo.layer fun x hx => ⟨(h x hx).1, (h x hx).2.1⟩)
  intro i hi
  exact ⟨rs[i]'(by omega), h3 i (by omega), zplanar_row_shows _ (fun x hx => (h x hx).2.2) hi (h3 i (by omega))⟩

/-- The discs are small enough for the buffer, and the integers have 32 bits. -/
def PrintableDiscs (s : FtdSection) : Prop := ∀ x ∈ s.layers, FtdSmall x.1 ∧ FtdSmall x.2 ∧ IsInt x.1.nPetals

theorem ftd_row_ok (s : FtdSection) (h : PrintableDiscs s) {i : ℕ} (hi : i < s.layers.length) (h7 : i < 7) :
    ∃ t, (do
      let l ← Ftd.sup s.layers i
      let x ← Ftd.sen s.layers i
      sprintf 1024 (ftdPieces l x)) = .ok t ∧ ShowsRow (ftdValues s.layers[i].1 s.layers[i].2) t := by
  obtain ⟨rs, _, h2, h3⟩ := table_inv _ _ _ (ftd_partial [s.layers[i]] (by simp) fun x hx => by
    have := h s.layers[i] (List.getElem_mem hi)
    rw [List.mem_singleton.1 hx]
    exact ⟨this.1, this.2.1⟩)
  have e0 : Ftd.at' s.layers (Ftd.getEquivLayer s.layers i) = .ok s.layers[i] := by
    unfold Ftd.getEquivLayer Ftd.at'
    rw [if_neg (by omega), if_neg (by omega), Int.toNat_natCast, List.getElem?_eq_getElem hi]
  have e1 : Ftd.at' [s.layers[i]] (Ftd.getEquivLayer [s.layers[i]] 0) = .ok s.layers[i] := by rfl
  have h4 := h3 0 (by simp at h2; omega)
  have h5 : (do
      let l ← Ftd.sup s.layers i
      let x ← Ftd.sen s.layers i
      sprintf 1024 (ftdPieces l x)) = .ok (rs[0]'(by simp at h2; omega)) := by
    rw [← h4]
    unfold Ftd.sup Ftd.sen
    rw [e0]
    exact congrArg (fun z => (do
      let l ← (do let x ← z; pure x.1)
      let x ← (do let x ← z; pure x.2)
      sprintf 1024 (ftdPieces l x))) e1.symm
  exact ⟨_, h5, ftd_row_shows _ (fun x hx => (h x hx).2.2) h7 hi h5⟩

theorem ftd_good (s : FtdSection) (h : PrintableDiscs s) (h7 : s.layers.length ≤ 7) : Good (ShowsDiscs 7 s) (printFtd s) := by
  refine seq_good (.cons (are_good _) (.cons (printParams_good _) (.cons (are_good _) (.cons ?_ .nil))))
  rw [List.take_of_length_le h7]
  exact rows_good fun i hi => ftd_row_ok s h hi (by omega)

/-- The layers are small enough for the buffer, there are as many sensitive ones, and the integers have 32 bits. -/
structure PrintableSi (s : Telescope.Si ℚ) : Prop where
  same : s.lVec.length = s.sVec.length
  layers : ∀ l ∈ s.lVec, SiSmall l ∧ IsInt l.id
  sensors : ∀ l ∈ s.sVec, SensSmall l ∧ IsInt l.id ∧ IsInt l.npixelX ∧ IsInt l.npixelY
  dut : SiSmall s.lDut ∧ IsInt s.lDut.id
  sensorDut : SensSmall s.sDut ∧ IsInt s.sDut.id ∧ IsInt s.sDut.npixelX ∧ IsInt s.sDut.npixelY

theorem dut_good (s : SiSection) (h : PrintableSi s.layout) :
    Good (fun l => if s.type = 1 then ∃ t, l = [.title "DUT parameters", .row t] ∧ ShowsRow (dutValues s.layout.lDut s.layout.sDut) t
      else l = []) (printDut s) := by
  unfold printDut
  by_cases h1 : s.type = 1
  · simp only [if_pos h1]
    have := dut_partial s.layout h.dut.1 h.sensorDut.1
    rw [this]
    exact ⟨rfl, _, rfl, dut_shows s.layout h.dut.2 h.sensorDut.2.1 h.sensorDut.2.2.1 h.sensorDut.2.2.2 this⟩
  · simp only [if_neg h1]
    exact ⟨rfl, rfl⟩

theorem si_good (s : SiSection) (h : PrintableSi s.layout) : Good (ShowsSi s) (printSi s) := by
  unfold ShowsSi
  rw [← siWord_eq]
  refine seq_good (.cons (are_good _) (.cons (printParams_good _) (.cons (are_good _) (.cons ?_ (.cons (dut_good s h) .nil)))))
  have hl : s.layout.lVec.length = (s.layout.lVec.zip s.layout.sVec).length := by rw [List.length_zip, ← h.same]; simp
  rw [hl]
  obtain ⟨rs, _, h2, h3⟩ := table_inv _ _ _ (si_partial s.layout h.same (fun l hl => (h.layers l hl).1) fun l hl => (h.sensors l hl).1)
  refine rows_good fun i hi => ⟨rs[i]'(by omega), h3 i (by omega), ?_⟩
  rw [List.getElem_zip]
  exact si_row_shows s.layout (fun l hl => (h.layers l hl).2) (fun l hl => (h.sensors l hl).2) _ _ (h3 i (by omega))

theorem tracker_good (s : TrackerSection) (h : ∀ l ∈ s.layout.layers, Tracker.Small l ∧ Tracker.Readable l) :
    Good (ShowsTracker s) (printTracker s) := by
  refine seq_good (.cons (are_good _) (.cons (printParams_good _) (.cons (are_good _) (.cons ?_ .nil))))
  have h1 := Tracker.tracker_partial s.layout fun l hl => (h l hl).1
  obtain ⟨ts, e1, e2⟩ := Tracker.tracker_shows s.layout (fun l hl => (h l hl).2) h1
  rw [h1]
  refine ⟨rfl, ts, ?_, e2.imp fun a b hab => hab.2⟩
  rw [← e1]
  rfl

theorem caught_good {P : List Shown → Prop} {o : Out} (h : Good P o) : Good P (caught o) := by
  unfold caught
  rw [h.1]
  exact h

theorem block_good {α : Type} (late : Bool) (heading : Option String) (s : Option α) {print : α → Out} {P : α → List Shown → Prop}
    (h : ∀ a, s = some a → Good (P a) (print a)) : Good (ShowsSection heading P s) (block late heading s print) := by
  cases s with
  | none =>
    refine ⟨rfl, ?_⟩
    cases late
    · exact Or.inl rfl
    · exact Or.inr rfl
  | some a => exact caught_good (seq_good (.cons (are_good _) (.cons (h a rfl) .nil)))

theorem name_good (late : Bool) (g : Geometry) : Good (ShowsName g) (printName late g) := by
  unfold printName ShowsName
  by_cases h : g.detectorName = ""
  · rw [if_pos (by rw [h]; rfl)]
    simp only [if_pos h]
    cases late
    · exact ⟨rfl, Or.inl rfl⟩
    · exact ⟨rfl, Or.inr rfl⟩
  · rw [if_neg (by simpa using h)]
    simp only [if_neg h]
    exact ⟨rfl, rfl⟩

theorem fieldOf_good (g : Geometry) : Good (ShowsFieldOf g) (printFieldOf g) := by
  unfold printFieldOf ShowsFieldOf
  cases g.bField with
  | none => exact ⟨rfl, rfl⟩
  | some f => exact caught_good (field_good f)

theorem lookup_find {α : Type} {m : SMap String α} {k : String} (h : k ∈ SMap.keys m) :
    ∃ v, m.find? k = some v ∧ Params.lookup k m = .ok v := by
  have := (SMap.find?_isSome_iff k m).2 h
  obtain ⟨v, hv⟩ := Option.isSome_iff_exists.1 this
  exact ⟨v, hv, by unfold Params.lookup; rw [hv]⟩

theorem generic_good (g : Geometry) : List.Forall₂ Good
    ((SMap.keys g.generic).map fun k => ShowsAll [Are [.title k], fun l => ∃ p, g.generic.find? k = some p ∧ ShowsParams p l])
    (printGeneric g) := by
  refine forall₂_map _ fun k hk => seq_good (.cons (are_good _) (.cons ?_ .nil))
  obtain ⟨p, h1, h2⟩ := lookup_find hk
  rw [h2]
  exact ⟨(printParams_good p).1, p, h1, (printParams_good p).2⟩

theorem materials_good (g : Geometry) : List.Forall₂ Good
    ((SMap.keys g.materials).map fun k l => ∃ m, g.materials.find? k = some m ∧ l = [Shown.material m]) (printMaterials g) := by
  refine forall₂_map _ fun k hk => ?_
  obtain ⟨m, h1, h2⟩ := lookup_find hk
  rw [h2]
  exact ⟨rfl, m, h1, rfl⟩

/-- What can be printed: all tables fit in the buffers, there are at most seven discs, the integers have 32 bits and the texts of
TrackerPlanes are words. -/
structure Printable (g : Geometry) : Prop where
  zplanar : ∀ x s, g.zplanar x = some s → PrintableZ s
  discs : ∀ s, g.ftd = some s → PrintableDiscs s ∧ s.layers.length ≤ 7
  si : ∀ s, g.siPlanes = some s → PrintableSi s.layout
  tracker : ∀ s, g.trackerPlanes = some s → ∀ l ∈ s.layout.layers, Tracker.Small l ∧ Tracker.Readable l

theorem manager_good (late : Bool) (g : Geometry) (h : Printable g) : Good (ShowsGeometry g) (printManager late g) := by
  refine seq_good (List.rel_append (List.rel_append (List.rel_append (List.rel_append (List.rel_append ?_ ?_) ?_) (generic_good g)) ?_)
    (materials_good g))
  · exact .cons (name_good late g) (.cons (fieldOf_good g) .nil)
  · have z : ∀ hd x, Good (ShowsSection hd ShowsZPlanar (g.zplanar x)) (block late hd (g.zplanar x) printZPlanar) :=
      fun hd x => block_good late hd _ fun s hs => zplanar_good s (h.zplanar x s hs)
    have c : ∀ hd x, Good (ShowsSection hd ShowsCalo (g.calo x)) (block late hd (g.calo x) printCalo) :=
      fun hd x => block_good late hd _ fun s _ => calo_good s
    refine .cons (z _ _) (.cons (block_good late _ _ fun s hs => ftd_good s (h.discs s hs).1 (h.discs s hs).2) (.cons (z _ _)
      (.cons (z _ _) (.cons (z _ _) (.cons (z _ _) (.cons (block_good late _ _ fun s _ => tpc_good s) (.cons (c _ _) (.cons (c _ _)
      (.cons (c _ _) (.cons (c _ _) (.cons (c _ _) (.cons (c _ _) (.cons (c _ _) (.cons (c _ _) (.cons (c _ _) (.cons (c _ _)
      (.cons (c _ _) (.cons (c _ _) (.cons (block_good late _ _ fun s hs => tracker_good s (h.tracker s hs))
      (.cons (block_good late _ _ fun s hs => si_good s (h.si s hs)) .nil))))))))))))))))))))
  · exact .cons (are_good _) .nil
  · exact .cons (are_good _) .nil

/-! ### More than seven discs -/

theorem seq_fail {Ps : List (List Shown → Prop)} {os : List Out} (h : List.Forall₂ Good Ps os) {P : List Shown → Prop} {o : Out} {e : Exn}
    (ho : o.result = .throw e) (hp : P o.shown) (rest : List Out) :
    (seq (os ++ o :: rest)).result = .throw e ∧ ShowsAll (Ps ++ [P]) (seq (os ++ o :: rest)).shown := by
  obtain ⟨h1, h2⟩ := seq_good h
  rw [seq_append h1]
  have : seq (o :: rest) = ⟨o.shown, .throw e⟩ := by rw [seq, ho]
  rw [this]
  refine ⟨rfl, ?_⟩
  obtain ⟨parts, e1, e2⟩ := h2
  refine ⟨parts ++ [o.shown], ?_, List.rel_append e2 (.cons hp .nil)⟩
  rw [e1]
  simp

theorem ftd_fail (s : FtdSection) (h : PrintableDiscs s) (h7 : 7 < s.layers.length) :
    (printFtd s).result = .throw .outOfRange ∧ ShowsDiscs 7 s (printFtd s).shown := by
  have hlen : (s.layers.take 7).length = 7 := by rw [List.length_take]; omega
  have h1 := rows_good (L := s.layers.take 7) (values := fun x => ftdValues x.1 x.2) (row := fun i => do
      let l ← Ftd.sup s.layers i
      let x ← Ftd.sen s.layers i
      sprintf 1024 (ftdPieces l x)) fun i hi => by
    obtain ⟨t, a, b⟩ := ftd_row_ok s h (i := i) (by omega) (by omega)
    exact ⟨t, a, by rw [List.getElem_take]; exact b⟩
  rw [hlen] at h1
  have hr : List.range s.layers.length = List.range 7 ++ 7 :: (List.range (s.layers.length - 8)).map (8 + ·) := by
    obtain ⟨n, hn⟩ : ∃ n, s.layers.length = 8 + n := ⟨s.layers.length - 8, by omega⟩
    rw [hn, List.range_add, show 8 + n - 8 = n by omega]
    rfl
  have h7' : Ftd.sup s.layers ((7 : ℕ) : ℤ) = .throw .outOfRange := by
    unfold Ftd.sup Ftd.getEquivLayer Ftd.at' Ftd.getNLayers
    rw [if_pos]
    · rfl
    · rw [if_pos (by norm_num)]; push_cast; omega
  have h2 : rows (fun i => do
      let l ← Ftd.sup s.layers i
      let x ← Ftd.sen s.layers i
      sprintf 1024 (ftdPieces l x)) s.layers.length = ⟨(rows (fun i => do
      let l ← Ftd.sup s.layers i
      let x ← Ftd.sen s.layers i
      sprintf 1024 (ftdPieces l x)) 7).shown, .throw .outOfRange⟩ := by
    have h0 := h1.1
    unfold rows at h0 ⊢
    rw [hr, List.map_append, seq_append h0, List.map_cons, seq]
    simp only [h7']
    simp [write]
  have := seq_fail (.cons (are_good [.title "FTDParameters"]) (.cons (printParams_good s.params)
    (.cons (are_good [.number "Layers" s.layers.length]) .nil))) (o := rows (fun i => do
      let l ← Ftd.sup s.layers i
      let x ← Ftd.sen s.layers i
      sprintf 1024 (ftdPieces l x)) s.layers.length) (by rw [h2]) (P := ShowsTable (fun x => ftdValues x.1 x.2) (s.layers.take 7))
    (by rw [h2]; exact h1.2) []
  exact this

/-- Without materials. -/
def NoMaterial (l : List Shown) : Prop := ∀ m, Shown.material m ∉ l

theorem noMaterial_all {Ps : List (List Shown → Prop)} {l : List Shown} (h : ShowsAll Ps l) (hP : ∀ P ∈ Ps, ∀ x, P x → NoMaterial x) :
    NoMaterial l := by
  obtain ⟨parts, rfl, hf⟩ := h
  intro m hm
  obtain ⟨x, hx, hm⟩ := List.mem_flatten.1 hm
  obtain ⟨P, h1, h2⟩ := mem_right hf hx
  exact hP P h1 x h2 m hm

theorem noMaterial_params {p : Params ℚ} {l : List Shown} (h : ShowsParams p l) : NoMaterial l := by
  obtain ⟨ps, rfl, _⟩ := h
  intro m hm
  simp at hm

theorem noMaterial_table {α : Type} {values : α → List Value} {L : List α} {l : List Shown} (h : ShowsTable values L l) :
    NoMaterial l := by
  obtain ⟨ts, rfl, _⟩ := h
  intro m hm
  simp at hm

theorem noMaterial_zplanar {s : ZPlanarSection} {l : List Shown} (h : ShowsZPlanar s l) : NoMaterial l := by
  refine noMaterial_all h ?_
  simp only [List.forall_mem_cons, List.not_mem_nil, false_imp_iff, implies_true, and_true]
  refine ⟨?_, fun x hx => noMaterial_params hx, ?_, fun x hx => noMaterial_table hx⟩
  · rintro x rfl m hm; simp at hm
  · rintro x rfl m hm; simp at hm

theorem noMaterial_discs {n : ℕ} {s : FtdSection} {l : List Shown} (h : ShowsDiscs n s l) : NoMaterial l := by
  refine noMaterial_all h ?_
  simp only [List.forall_mem_cons, List.not_mem_nil, false_imp_iff, implies_true, and_true]
  refine ⟨?_, fun x hx => noMaterial_params hx, ?_, fun x hx => noMaterial_table hx⟩
  · rintro x rfl m hm; simp at hm
  · rintro x rfl m hm; simp at hm

theorem noMaterial_seven {g : Geometry} {s : FtdSection} {l : List Shown}
    (h : ShowsAll [ShowsName g, ShowsFieldOf g, ShowsSection (some "VXD") ShowsZPlanar (g.zplanar .vxd), ShowsDiscs 7 s] l) :
    NoMaterial l := by
  refine noMaterial_all h ?_
  simp only [List.forall_mem_cons, List.not_mem_nil, false_imp_iff, implies_true, and_true]
  refine ⟨?_, ?_, ?_, fun x hx => noMaterial_discs hx⟩
  · intro x hx m hm
    unfold ShowsName at hx
    split_ifs at hx
    · rcases hx with rfl | rfl <;> simp at hm
    · subst hx; simp at hm
  · intro x hx
    unfold ShowsFieldOf at hx
    cases hf : g.bField with
    | none => rw [hf] at hx; subst hx; intro m hm; simp at hm
    | some f =>
      rw [hf] at hx
      refine noMaterial_all hx ?_
      simp only [List.forall_mem_cons, List.not_mem_nil, false_imp_iff, implies_true, and_true]
      refine ⟨?_, fun x hx => noMaterial_params hx⟩
      rintro x rfl m hm; simp at hm
  · intro x hx
    cases hz : g.zplanar .vxd with
    | none => rw [hz] at hx; rcases hx with rfl | rfl <;> intro m hm <;> simp at hm
    | some z =>
      rw [hz] at hx
      refine noMaterial_all hx ?_
      simp only [List.forall_mem_cons, List.not_mem_nil, false_imp_iff, implies_true, and_true]
      refine ⟨?_, fun x hx => noMaterial_zplanar hx⟩
      rintro x rfl m hm; simp at hm

/-! ### C161 -/

/-- The first line of a report. -/
def opened (name : Text) : Shown := .word "instantiated  GearMgr from file" (Xml.str name)

/-- C161: if the file can be read and what is in it can be printed, the status is zero and everything is shown: the name, the field, every
section, the sections with named parameters and the materials.  Missing: tables that do not fit in the buffers (`zplanar_false`,
`tracker_false` and others of C107 and C160) and more than seven discs (`seven_false`); calorimeters as in C117. -/
theorem print_partial (E : FileEnv) (late : Bool) (d : Xml.Merge.Disk) (name : Text) (args : List Text) {g : Geometry}
    (hg : (Xml.createGearMgr E (Xml.Merge.load d name) {}).2 = .ok g) (h : Printable g) :
    ∃ l, printParameters E late (name :: args) d = .ok (opened name :: l, 0) ∧ ShowsGeometry g l := by
  obtain ⟨h1, h2⟩ := manager_good late g h
  refine ⟨_, ?_, h2⟩
  unfold printParameters
  simp only [hg, h1]
  rfl

/-- C161, for files that were written from a manager (C104): what is shown is the same geometry. -/
theorem print_saved_partial (E : FileEnv) (late : Bool) (d : Xml.Merge.Disk) (name : Text) (args : List Text) (g : Geometry)
    (hg : Xml.Spec.Savable E g) :
    ∃ doc g', Xml.createXMLFile E g = .ok doc ∧ Xml.Spec.SameGeometry E g g' ∧ (d.content name = some (Xml.printDocument doc) → Printable g' →
      ∃ l, printParameters E late (name :: args) d = .ok (opened name :: l, 0) ∧ ShowsGeometry g' l) := by
  obtain ⟨doc, g', h1, _, h2, h3⟩ := Xml.file_roundtrip_partial E g hg
  refine ⟨doc, g', h1, h3, fun hd hp => print_partial E late d name args ?_ hp⟩
  unfold Xml.Merge.load
  rw [hd]
  exact h2

/-- C161: a file that cannot be read is reported, with the status one, and nothing else is shown. -/
theorem print_unreadable (E : FileEnv) (late : Bool) (d : Xml.Merge.Disk) (name : Text) (args : List Text) {e : Exn}
    (hg : (Xml.createGearMgr E (Xml.Merge.load d name) {}).2 = .throw e) :
    printParameters E late (name :: args) d = .ok ([.title "A runtime error has occured"], 1) := by
  unfold printParameters
  simp only [hg]

/-- C161: a file that does not exist. -/
theorem print_missing (E : FileEnv) (late : Bool) (d : Xml.Merge.Disk) (name : Text) (args : List Text) (hd : d.content name = none) :
    printParameters E late (name :: args) d = .ok ([.title "A runtime error has occured"], 1) := by
  refine print_unreadable E late d name args (e := .parse) ?_
  unfold Xml.Merge.load
  rw [hd]
  rfl

/-- C161: without the name of a file only the usage is shown, with the status one, whatever is on the disk. -/
theorem print_usage (E : FileEnv) (late : Bool) (d : Xml.Merge.Disk) :
    printParameters E late [] d = .ok ([.title "usage:     printParameters input.xml"], 1) := rfl

/-- C161 is false for more than seven discs, whatever else is in the file: only the name, the field, the vertex detector and seven discs
are shown, then the program ends with an error and the status one. -/
theorem seven_false (E : FileEnv) (late : Bool) (d : Xml.Merge.Disk) (name : Text) (args : List Text) {g : Geometry} {s : FtdSection}
    (hg : (Xml.createGearMgr E (Xml.Merge.load d name) {}).2 = .ok g) (hs : g.ftd = some s) (h7 : 7 < s.layers.length)
    (hd : PrintableDiscs s) (hv : ∀ z, g.zplanar .vxd = some z → PrintableZ z) :
    ∃ l, printParameters E late (name :: args) d = .ok (opened name :: l ++ [.title "A runtime error has occured"], 1) ∧
      ShowsAll [ShowsName g, ShowsFieldOf g, ShowsSection (some "VXD") ShowsZPlanar (g.zplanar .vxd), ShowsDiscs 7 s] l ∧
      ∀ m, Shown.material m ∉ l := by
  obtain ⟨f1, f2⟩ := ftd_fail s hd h7
  have hb : block late none g.ftd printFtd = ⟨(printFtd s).shown, .throw .outOfRange⟩ := by
    rw [hs]
    unfold block
    have : seq [say ((none : Option String).map Shown.title).toList, printFtd s] = ⟨(printFtd s).shown, .throw .outOfRange⟩ := by
      simp only [seq, say, f1]
      rfl
    simp only [getSection, this]
    rfl
  obtain ⟨r1, r2⟩ := seq_fail (.cons (name_good late g) (.cons (fieldOf_good g)
    (.cons (block_good late (some "VXD") (g.zplanar .vxd) fun z hz => zplanar_good z (hv z hz)) .nil)))
    (o := block late none g.ftd printFtd) (e := .outOfRange) (by rw [hb]) (P := ShowsDiscs 7 s) (by rw [hb]; exact f2)
    ((blocks late g).drop 2 ++ [say [.title "parameter sections (detectors)"]] ++ printGeneric g ++ [say [.title "materials"]]
      ++ printMaterials g)
  have hm : printManager late g = seq ([printName late g, printFieldOf g, block late (some "VXD") (g.zplanar .vxd) printZPlanar]
      ++ block late none g.ftd printFtd :: ((blocks late g).drop 2 ++ [say [.title "parameter sections (detectors)"]] ++ printGeneric g
        ++ [say [.title "materials"]] ++ printMaterials g)) := by
    unfold printManager blocks
    simp
  rw [← hm] at r1 r2
  refine ⟨_, ?_, r2, noMaterial_seven r2⟩
  unfold printParameters
  simp only [hg, r1]
  rfl

/-- A file with discs and a material. -/
def discFile (l : List Xml.FtdLayerArgs) (m : Material) : List Xml.Node :=
  [Xml.el "gear" [] [Xml.el "detectors" [] [Xml.el "detector" [("name", "FTD".toList), ("geartype", "FTDParameters".toList)]
    (Xml.ftdChildren l {})], Xml.el "materials" [] [Xml.materialToXML m]]]

/-- What is read from it. -/
def discGeometry (l : List Xml.FtdLayerArgs) (m : Material) : Geometry :=
  { ftd := some ⟨Xml.ftdRun (l.map (Xml.FtdLayerArgs.map Xml.r10)), Xml.readBack {}⟩, materials := [(m.rounded.name, m.rounded)] }

theorem discFile_read (E : FileEnv) {l : List Xml.FtdLayerArgs} (hl : ∀ a ∈ l, a.Valid) (m : Material) :
    (Xml.readDocument E (discFile l m)) = (discGeometry l m, .ok ()) := by
  have hr : ∀ G, Xml.readDetector E (Xml.el "detector" [("name", "FTD".toList), ("geartype", "FTDParameters".toList)]
      (Xml.ftdChildren l {})) G = ({ G with ftd := some ⟨Xml.ftdRun (l.map (Xml.FtdLayerArgs.map Xml.r10)), Xml.readBack {}⟩ }, .ok ()) := by
    intro G
    unfold Xml.readDetector
    rw [Xml.attr_el, Xml.attr_el]
    simp only [Xml.find, String.reduceEq, if_true, if_false]
    rw [Xml.handler_of "FTDParameters" 4 (by simp)]
    show Xml.store (Xml.ftdFromXML _) G _ = _
    rw [Xml.ftdFromXML_eq hl (p := {}) (Params.inv_run []) (by constructor <;> intro e he <;> cases he)]
    rfl
  have hd : Xml.readDocument E (discFile l m) = Xml.Read.andThen (Xml.Read.andThen (Xml.readDetector E (Xml.el "detector"
      [("name", "FTD".toList), ("geartype", "FTDParameters".toList)] (Xml.ftdChildren l {})) {}) (Xml.readAll (Xml.readDetector E) []))
      (fun G => Xml.Read.andThen (Xml.readMaterial (Xml.materialToXML m) G) (Xml.readAll Xml.readMaterial [])) := by
    rfl
  rw [hd, hr]
  have hm : ∀ G, Xml.readMaterial (Xml.materialToXML m) G = Xml.storeMaterial G m.rounded := by
    intro G
    unfold Xml.readMaterial
    rw [Xml.material_roundtrip]
    rfl
  show Xml.Read.andThen (Xml.readMaterial (Xml.materialToXML m) _) _ = _
  rw [hm]
  rfl

theorem discFile_load {l : List Xml.FtdLayerArgs} {m : Material} (hm : Xml.Spec.NoReference m.name.toList) :
    Xml.loadFile (Xml.printDocument (discFile l m)) = .ok (true, discFile l m) := by
  refine Xml.document_roundtrip_partial _ ⟨?_, trivial⟩ (by simp [discFile, Xml.el, Xml.Node.isText]) (by simp [discFile])
  refine Xml.wellFormed_el (by decide +kernel) (by simp) (by simp) (by simp) ?_
  simp only [List.forall_mem_cons, List.not_mem_nil, false_imp_iff, implies_true, and_true]
  refine ⟨⟨?_, rfl⟩, ?_, rfl⟩
  · refine Xml.wellFormed_el (by decide +kernel) (by simp) (by simp) (by simp) ?_
    simp only [List.forall_mem_cons, List.not_mem_nil, false_imp_iff, implies_true, and_true]
    refine ⟨Xml.wellFormed_el (by decide +kernel) ?_ ?_ (by simp) (Xml.wellFormed_ftd l ?_), rfl⟩
    · decide +kernel
    · decide +kernel
    · refine ⟨fun k hk => ?_, fun e he => (by cases he), fun e he => (by cases he)⟩
      rcases hk with hk | hk | hk | hk | hk | hk <;> cases hk
  · refine Xml.wellFormed_el (by decide +kernel) (by simp) (by simp) (by simp) ?_
    simp only [List.forall_mem_cons, List.not_mem_nil, false_imp_iff, implies_true, and_true]
    exact ⟨Xml.wellFormed_material m hm, rfl⟩

/-- C161 is false for a file: whatever the material and the discs, more than seven of them, the file is read completely, but the
material is not shown and the status is one. -/
theorem seven_file_false (E : FileEnv) (late : Bool) (d : Xml.Merge.Disk) (name : Text) (args : List Text) {l : List Xml.FtdLayerArgs}
    (hl : ∀ a ∈ l, a.Valid) (h7 : 7 < l.length)
    (hs : PrintableDiscs ⟨Xml.ftdRun (l.map (Xml.FtdLayerArgs.map Xml.r10)), Xml.readBack {}⟩) {m : Material}
    (hm : Xml.Spec.NoReference m.name.toList) (hd : d.content name = some (Xml.printDocument (discFile l m))) :
    ∃ g shown, (Xml.createGearMgr E (Xml.Merge.load d name) {}).2 = .ok g ∧ g.materials.find? m.name = some m.rounded ∧
      printParameters E late (name :: args) d = .ok (shown, 1) ∧ ∀ x, Shown.material x ∉ shown := by
  have hg : (Xml.createGearMgr E (Xml.Merge.load d name) {}).2 = .ok (discGeometry l m) := by
    refine (Xml.first_call E _ _).2 ⟨discFile l m, ?_, discFile_read E hl m⟩
    unfold Xml.Merge.load
    rw [hd]
    exact discFile_load hm
  obtain ⟨x, h1, _, h2⟩ := seven_false E late d name args hg (s := ⟨Xml.ftdRun (l.map (Xml.FtdLayerArgs.map Xml.r10)), Xml.readBack {}⟩) rfl
    (by rw [Xml.ftdRun_eq]; simpa using h7) hs (by intro z hz; cases hz)
  refine ⟨_, _, hg, ?_, h1, ?_⟩
  · simp [discGeometry, SMap.find?, Xml.Material.rounded]
  · intro y hy
    simp only [List.cons_append, List.mem_cons, List.mem_append, List.not_mem_nil, or_false] at hy
    rcases hy with hy | hy | hy
    · simp [opened] at hy
    · exact h2 y hy
    · simp at hy

/-! ### Examples -/

/-- A disc. -/
def disc : Xml.FtdLayerArgs := ⟨⟨16, 2, false, 1, 0.19, 0, 0, 220, 1.5, 1⟩, ⟨40, 1, 20, 60, 110, 93⟩, ⟨40, 0.3, 20, 60, 110, 93⟩⟩

/-- Air. -/
def air : Material := ⟨"air", 14.61, 7.3, 1.2, 304200, 747750⟩

theorem r10_disc : Xml.FtdLayerArgs.map Xml.r10 disc = disc := by
  unfold Xml.FtdLayerArgs.map disc
  simp only [Xml.FtdLayerArgs.mk.injEq, Ftd.Common.mk.injEq, Ftd.Shape.mk.injEq, Xml.mapShape, true_and]
  decide +kernel

theorem printable_discs (n : ℕ) :
    PrintableDiscs ⟨Xml.ftdRun ((List.replicate n disc).map (Xml.FtdLayerArgs.map Xml.r10)), Xml.readBack {}⟩ := by
  intro x hx
  rw [List.map_replicate, r10_disc, Xml.ftdRun_eq] at hx
  simp only [List.map_replicate] at hx
  rw [(List.mem_replicate.1 hx).2]
  unfold FtdSmall IsInt disc Ftd.mkLayer
  norm_num

theorem valid_discs (n : ℕ) : ∀ a ∈ List.replicate n disc, a.Valid := by
  intro a ha
  rw [(List.mem_replicate.1 ha).2]
  unfold Xml.FtdLayerArgs.Valid Xml.IsInt disc
  decide

/-- A file with eight discs. -/
example (E : FileEnv) : ∃ shown, printParameters E true ["ftd.xml".toList]
    ⟨fun _ => some (Xml.printDocument (discFile (List.replicate 8 disc) air)), fun _ => true⟩ = .ok (shown, 1) ∧
      ∀ x, Shown.material x ∉ shown := by
  obtain ⟨_, s, _, _, h1, h2⟩ := seven_file_false E true ⟨fun _ => some (Xml.printDocument (discFile (List.replicate 8 disc) air)),
    fun _ => true⟩ "ftd.xml".toList [] (valid_discs 8) (by simp) (printable_discs 8) (m := air) (by decide +kernel) rfl
  exact ⟨s, h1, h2⟩

theorem discGeometry_printable {n : ℕ} (h : n ≤ 7) : Printable (discGeometry (List.replicate n disc) air) where
  zplanar x s hs := by cases hs
  discs s hs := by
    cases hs
    exact ⟨printable_discs n, by rw [Xml.ftdRun_eq]; simpa using h⟩
  si s hs := by cases hs
  tracker s hs := by cases hs

/-- With seven discs everything is shown. -/
example (E : FileEnv) : ∃ l, printParameters E true ["ftd.xml".toList]
    ⟨fun _ => some (Xml.printDocument (discFile (List.replicate 7 disc) air)), fun _ => true⟩ = .ok (opened "ftd.xml".toList :: l, 0) ∧
      ShowsGeometry (discGeometry (List.replicate 7 disc) air) l :=
  print_partial E true ⟨fun _ => some (Xml.printDocument (discFile (List.replicate 7 disc) air)), fun _ => true⟩ "ftd.xml".toList []
    ((Xml.first_call E _ _).2 ⟨discFile (List.replicate 7 disc) air, discFile_load (by decide +kernel), discFile_read E (valid_discs 7) air⟩)
    (discGeometry_printable le_rfl)

end Gear.Print.Geo
