/-
Lemmas for C104: every section is written as one element that its handler reads.
-/
import Verif.XmlFileSpec

set_option autoImplicit false
set_option linter.unusedSectionVars false

namespace Gear.Xml

open Spec
open ZPlanar (PlanarFns)
open TpcModule.Spec (Known)

/-! ### Layouts are well-formed -/

theorem rectRows_mem {L : Rect.Layout ℚ} : ∀ (n i : ℕ) (r : ℤ) (rows : List Node), rectRows L n i r = .ok rows →
    ∀ c ∈ rows, ∃ a b, c = rectRowNode a b
  | 0, _, _, rows, h => by cases h; simp
  | n + 1, i, r, rows, h => by
    unfold rectRows at h
    cases h1 : Rect.elemUb L.rows r with
    | throw e => rw [h1] at h; cases h
    | ub => rw [h1] at h; cases h
    | ok row =>
      cases h2 : Rect.elemUb L.nRows (i : ℤ) with
      | throw e => rw [h1, Res.bind_ok, h2] at h; cases h
      | ub => rw [h1, Res.bind_ok, h2] at h; cases h
      | ok nRow =>
        rw [h1, Res.bind_ok, h2, Res.bind_ok] at h
        cases h3 : rectRows L n (i + 1) (r + nRow) with
        | throw e => rw [h3] at h; cases h
        | ub => rw [h3] at h; cases h
        | ok rest =>
          rw [h3] at h
          cases h
          intro c hc
          rcases List.mem_cons.1 hc with rfl | hc
          · exact ⟨_, _, rfl⟩
          · exact rectRows_mem n (i + 1) _ rest h3 c hc

theorem wellFormed_layout {L : PadLayout} {le : Node} (h : layoutToXML L = .ok le) : WellFormed le ∧ le.isText = false := by
  cases L with
  | rect L =>
    change rectToXML L = .ok le at h
    unfold rectToXML at h
    simp only at h
    cases hr : rectRows L (if L.repeatRows > 1 then (L.nRows.length : ℤ).tdiv L.repeatRows else L.nRows.length).toNat 0 0 with
    | throw e => rw [hr] at h; cases h
    | ub => rw [hr] at h; cases h
    | ok rows =>
      rw [hr] at h
      have hw : ∀ c ∈ rows, WellFormed c ∧ c.isText = false := by
        intro c hc
        obtain ⟨a, b, rfl⟩ := rectRows_mem _ _ _ _ hr c hc
        refine ⟨?_, rfl⟩
        unfold rectRowNode
        split_ifs
        · simp only [List.cons_append, List.nil_append]
          wf_el
          simp
        · simp only [List.nil_append]
          wf_el
          simp
      have ht : NoReference "RectangularPadRowLayout".toList := by decide +kernel
      cases h
      refine ⟨?_, rfl⟩
      split_ifs
      · simp only [List.cons_append, List.nil_append]
        wf_el
        exact hw
      · simp only [List.append_nil]
        wf_el
        exact hw
  | padSize L =>
    change padSizeToXML L = .ok le at h
    unfold padSizeToXML at h
    generalize Rect.elemUb _ 0 = r0 at h
    generalize Rect.elemUb _ 1 = r1 at h
    generalize Rect.elemUb _ 3 = r3 at h
    have ht : NoReference "FixedPadSizeDiskLayout".toList := by decide +kernel
    cases r0 <;> cases r1 <;> cases r3 <;> cases h
    refine ⟨?_, rfl⟩
    wf_el
    simp
  | padAngle L =>
    change padAngleToXML L = .ok le at h
    unfold padAngleToXML at h
    generalize Rect.elemUb _ 0 = r0 at h
    generalize Rect.elemUb _ 1 = r1 at h
    generalize Rect.elemUb _ 2 = r2 at h
    generalize Rect.elemUb _ 3 = r3 at h
    have ht : NoReference "FixedPadAngleDiskLayout".toList := by decide +kernel
    cases r0 <;> cases r1 <;> cases r2 <;> cases r3 <;> cases h
    refine ⟨?_, rfl⟩
    wf_el
    simp
  | versatile L =>
    have ht : NoReference "VersatileDiskRowLayout".toList := by decide +kernel
    cases h
    refine ⟨?_, rfl⟩
    wf_el
    intro c hc
    obtain ⟨a, -, rfl⟩ := List.mem_map.1 hc
    refine ⟨?_, rfl⟩
    unfold versatileRowNode
    wf_el
    simp

/-! ### Sections -/

/-- A section is written as an element whose children are read back as the same section, whatever the attributes are. -/
def Through {α : Type} (toXML : α → Res Node) (fromXML : Node → Res α) (Same : α → α → Prop) (type : String) (s : α) : Prop :=
  ∃ attrs cs, toXML s = .ok (el "detector" attrs cs) ∧ (attrs = [] ∨ attrs = [("geartype", type.toList)])
    ∧ (∀ c ∈ cs, WellFormed c ∧ c.isText = false)
    ∧ ∀ attrs', ∃ s', fromXML (el "detector" attrs' cs) = .ok s' ∧ Same s s'

theorem SavableParams.inv {p : Params ℚ} (h : SavableParams p) : Params.Inv p := by
  obtain ⟨⟨l, rfl⟩, -, -⟩ := h
  exact Params.inv_run l

theorem SavableParams.writable {p : Params ℚ} (h : SavableParams p) : Writable p := writable_of_storable (SavableParams.inv h) h.storable

theorem through_params {p : Params ℚ} (h : SavableParams p) (type : String) :
    Through paramsToXML (fun n => setParametersFromXML n {}) (SameParams r10) type p := by
  have hi := SavableParams.inv h
  refine ⟨[], paramsNodes p, ?_, .inl rfl, fun c hc => ⟨wellFormed_paramsNodes h.plain c hc, (paramsNodes_value c hc).2⟩, fun attrs =>
    ⟨readBack p, ?_, same_readBack p⟩⟩
  · rw [paramsToXML, getXMLForParameters_eq hi]; rfl
  · have := setParametersFromXML_el hi (SavableParams.writable h) "detector" attrs (pre := []) (post := []) (by simp) (by simp)
    simpa using this

theorem through_calo {x : Section} {s : CaloSection} (h : SavableCalo x s) (type : String) :
    Through caloToXML caloFromXML (fun s s' => SameCalo s s' ∧ s'.calo.type = s.calo.type) type s := by
  have hi := SavableParams.inv h.params
  refine ⟨[], _, caloToXML_eq s.calo hi, .inl rfl, wellFormed_calo s.calo h.params.plain, fun attrs =>
    ⟨_, caloFromXML_eq s.calo hi (SavableParams.writable h.params) h.sym h.layers attrs,
      ⟨⟨_, kept_groups (s.calo.layout.map plateOf) 0 ⟨0, 0, 0, 0⟩, rfl⟩, same_readBack _⟩, ?_⟩⟩
  unfold readCalo
  cases s.calo.type <;> rfl

theorem through_zplanar {F : PlanarFns ℚ} {s : ZPlanarSection} (h : SavableZPlanar F s) (type : String) :
    Through (zplanarToXML F) (zplanarFromXML F) (SameZ F) type s := by
  obtain ⟨hp, b, hb, ht, hl⟩ := h
  obtain ⟨geo, p⟩ := s
  subst hb
  have hi := SavableParams.inv hp
  exact ⟨[], _, zplanarToXML_eq F b hi, .inl rfl, wellFormed_zplanar b hp.plain, fun attrs =>
    ⟨_, zplanarFromXML_eq F b hi (SavableParams.writable hp) ht hl attrs, ⟨b, rfl, rfl⟩, same_readBack _⟩⟩

theorem through_ftd {s : FtdSection} (h : SavableFtd s) (type : String) : Through ftdToXML ftdFromXML SameFtd type s := by
  obtain ⟨hp, l, hl, h7, hv⟩ := h
  obtain ⟨layers, p⟩ := s
  subst hl
  have hi := SavableParams.inv hp
  exact ⟨[], _, ftdToXML_eq h7 hi, .inl rfl, wellFormed_ftd l hp.plain, fun attrs =>
    ⟨_, ftdFromXML_eq hv hi (SavableParams.writable hp) attrs, ⟨l, rfl, rfl⟩, same_readBack _⟩⟩

theorem through_si {s : SiSection} (h : SavableSi s) (type : String) : Through siToXML siFromXML SameSi type s := by
  have hi := SavableParams.inv h.params
  have hl : s.layout.lVec.length = s.layout.sVec.length := by
    obtain ⟨past, hp⟩ := h.made
    rw [hp]
    exact (Telescope.lengths past).1.trans (Telescope.lengths past).2.symm
  exact ⟨[], _, siToXML_eq s hl hi, .inl rfl, wellFormed_si s h.params.plain, fun attrs =>
    ⟨_, siFromXML_eq s hl hi (SavableParams.writable h.params) h.type h.ints attrs, rfl, rfl, rfl, rfl, same_readBack _⟩⟩

theorem through_tpc {E : Env} {s : TpcSection} (h : SavableTpc E s) :
    Through tpcToXML (tpcFromXML E) (SameTpc E) "TPCParameters" s := by
  have hi := SavableParams.inv h.params
  obtain ⟨cs, h1, h2⟩ := tpc_roundtrip_partial E s h.made h.type (fun m hm => (h.modules m hm).1) hi h.params.storable h.drift
  refine ⟨_, cs, h1, .inr rfl, ?_, fun attrs => ?_⟩
  · obtain ⟨t, ht⟩ : ∃ t, coordinateText s.tpc.coordinateType = .ok t := by
      rcases h.type with h | h
      · exact ⟨_, by rw [show s.tpc.coordinateType = _ from h]; rfl⟩
      · exact ⟨_, by rw [show s.tpc.coordinateType = _ from h]; rfl⟩
    have hl : ∀ m ∈ s.mods, layoutToXML m.layout = .ok (layoutNode m) ∧ Params.Inv m.params := by
      intro m hm
      obtain ⟨⟨⟨L, hL⟩, hi, -⟩, -⟩ := h.modules m hm
      exact ⟨(layoutBack_ok hL).1, hi⟩
    have h3 := tpcToXML_eq ht hl hi
    rw [h1] at h3
    have : cs = tpcChildren s t := by
      injection h3 with h3
      unfold el at h3
      injection h3
    rw [this]
    exact wellFormed_tpc ht (fun m hm => ⟨wellFormed_layout (hl m hm).1, (h.modules m hm).2⟩) h.params.plain
  · obtain ⟨s', e1, e2, e3, e4, e5, e6, e7⟩ := h2 attrs
    exact ⟨s', e1, e2, e3, e4, e5, e6, e7⟩

/-! ### The loop over the detectors -/

theorem readAll_append (body : Node → Geometry → Read) : ∀ (a b : List Node) (g : Geometry),
    readAll body (a ++ b) g = (readAll body a g).andThen (readAll body b)
  | [], b, g => rfl
  | n :: a, b, g => by
    rw [List.cons_append, readAll, readAll]
    obtain ⟨g', r⟩ := body n g
    cases r with
    | ok u => exact readAll_append body a b g'
    | throw e => rfl
    | ub => rfl

/-- An element of "detectors" that can be written to a file. -/
def Detector (n : Node) : Prop := WellFormed n ∧ n.isText = false ∧ n.value = "detector".toList

theorem handler_of (t : String) (h : HandlerPtr)
    (ht : (t, h) ∈ [("GearParameters", 0), ("TPCParameters", 1), ("CalorimeterParameters", 2), ("ZPlanarParameters", 3),
      ("FTDParameters", 4), ("TrackerPlanesParameters", 5), ("SiPlanesParameters", 6)]) :
    (Registry.new.getHandler (gearType t.toList)).1 = some h := by
  have : ∀ x ∈ ([("GearParameters", 0), ("TPCParameters", 1), ("CalorimeterParameters", 2), ("ZPlanarParameters", 3),
      ("FTDParameters", 4), ("TrackerPlanesParameters", 5), ("SiPlanesParameters", 6)] : List (String × HandlerPtr)),
      (Registry.new.getHandler (gearType x.1.toList)).1 = some x.2 := by decide +kernel
  exact this _ ht

/-- The element of a section is read by its handler. -/
theorem section_node {α : Type} {toXML : α → Res Node} {fromXML : Node → Res α} {Same : α → α → Prop} {type : String} {s : α}
    (h : Through toXML fromXML Same type s) {name : String} (hn : NoReference name.toList) {ptr : HandlerPtr} (E : FileEnv)
    (ht : (type, ptr) ∈ [("GearParameters", 0), ("TPCParameters", 1), ("CalorimeterParameters", 2), ("ZPlanarParameters", 3),
      ("FTDParameters", 4), ("TrackerPlanesParameters", 5), ("SiPlanesParameters", 6)]) :
    ∃ d n s', toXML s = .ok d ∧ (d.setAttribute "name" name.toList).setAttribute "geartype" type.toList = n ∧ Detector n
      ∧ fromXML n = .ok s' ∧ Same s s' ∧ ∀ g, readDetector E n g = handle E ptr name.toList n g := by
  obtain ⟨attrs, cs, h1, h2, h3, h4⟩ := h
  have htn : NoReference type.toList := by
    have : ∀ x ∈ ([("GearParameters", 0), ("TPCParameters", 1), ("CalorimeterParameters", 2), ("ZPlanarParameters", 3),
        ("FTDParameters", 4), ("TrackerPlanesParameters", 5), ("SiPlanesParameters", 6)] : List (String × HandlerPtr)),
        NoReference x.1.toList := by decide +kernel
    exact this _ ht
  have key : ∀ attrs', (attrs' = [("name", name.toList), ("geartype", type.toList)]
      ∨ attrs' = [("geartype", type.toList), ("name", name.toList)]) →
      Detector (el "detector" attrs' cs) ∧ ∀ g, readDetector E (el "detector" attrs' cs) g
        = handle E ptr name.toList (el "detector" attrs' cs) g := by
    intro attrs' ha
    refine ⟨⟨?_, rfl, rfl⟩, fun g => ?_⟩
    · rcases ha with rfl | rfl
      · refine wellFormed_el (by decide +kernel) ?_ ?_ (by simp) h3
        · simp only [List.forall_mem_cons, List.not_mem_nil, false_imp_iff, implies_true, and_true]; decide +kernel
        · simp only [List.forall_mem_cons, List.not_mem_nil, false_imp_iff, implies_true, and_true]; exact ⟨hn, htn⟩
      · refine wellFormed_el (by decide +kernel) ?_ ?_ (by simp) h3
        · simp only [List.forall_mem_cons, List.not_mem_nil, false_imp_iff, implies_true, and_true]; decide +kernel
        · simp only [List.forall_mem_cons, List.not_mem_nil, false_imp_iff, implies_true, and_true]; exact ⟨htn, hn⟩
    · have e1 : (el "detector" attrs' cs).attr "name" = some name.toList := by
        rw [attr_el]
        rcases ha with rfl | rfl <;> simp [find]
      have e2 : (el "detector" attrs' cs).attr "geartype" = some type.toList := by
        rw [attr_el]
        rcases ha with rfl | rfl <;> simp [find]
      unfold readDetector
      rw [e1]
      dsimp only
      rw [e2]
      dsimp only
      rw [handler_of type ptr ht]
  rcases h2 with rfl | rfl
  · obtain ⟨k1, k2⟩ := key _ (.inl rfl)
    obtain ⟨s', k3, k4⟩ := h4 [("name", name.toList), ("geartype", type.toList)]
    refine ⟨_, _, s', h1, ?_, k1, k3, k4, k2⟩
    rw [setAttribute_el_nil, setAttribute_el _ _ _ _ _ (by simp [find])]
    rfl
  · obtain ⟨k1, k2⟩ := key _ (.inr rfl)
    obtain ⟨s', k3, k4⟩ := h4 [("geartype", type.toList), ("name", name.toList)]
    refine ⟨_, _, s', h1, ?_, k1, k3, k4, k2⟩
    rw [setAttribute_el _ _ _ _ _ (by simp [find])]
    simp [el, Node.setAttribute, setAttr]

/-- A section, if there is one, is written and read. -/
theorem section_step {α : Type} {toXML : α → Res Node} {fromXML : Node → Res α} {Same : α → α → Prop} {type name : String}
    {o : Option α} (h : ∀ s, o = some s → Through toXML fromXML Same type s) (hn : NoReference name.toList) {ptr : HandlerPtr}
    (E : FileEnv) (ht : (type, ptr) ∈ [("GearParameters", 0), ("TPCParameters", 1), ("CalorimeterParameters", 2), ("ZPlanarParameters", 3),
      ("FTDParameters", 4), ("TrackerPlanesParameters", 5), ("SiPlanesParameters", 6)])
    (put : Option α → Geometry → Geometry) {ok : Geometry → Prop} (hput : ∀ g, ok g → put none g = g)
    (hs : ∀ s' s n g, Same s s' → o = some s → ok g → fromXML n = .ok s' → handle E ptr name.toList n g = (put (some s') g, .ok ())) :
    ∃ l o', writeSection toXML name type o = .ok l ∧ (∀ n ∈ l, Detector n) ∧ Option.Rel Same o o'
      ∧ ∀ g, ok g → readAll (readDetector E) l g = (put o' g, .ok ()) := by
  cases o with
  | none => exact ⟨[], none, rfl, by simp, .none, fun g hg => by rw [hput g hg]; rfl⟩
  | some s =>
    obtain ⟨d, n, s', h1, h2, h3, h4, h5, h6⟩ := section_node (h s rfl) hn E ht
    refine ⟨[n], some s', ?_, by simpa using h3, .some h5, fun g hg => ?_⟩
    · unfold writeSection getSection
      simp only [Res.bind_ok, h1, attempt, h2, Option.toList]
    · rw [readAll, h6, hs s' s n g h5 rfl hg h4]
      rfl

theorem rel_imp {α : Type} {R S : α → α → Prop} (h : ∀ a b, R a b → S a b) {o o' : Option α} (ho : Option.Rel R o o') :
    Option.Rel S o o' := by
  cases ho with
  | none => exact .none
  | some hr => exact .some (h _ _ hr)

theorem ensureAngle_of {x : Section} {s s' : CaloSection} (h : SavableCalo x s) (hs : SameCalo s s') : ensureAngle x s' = s' := by
  unfold ensureAngle
  split_ifs with hf
  · obtain ⟨a, ha⟩ := h.angle hf
    have := hs.2.double "beam_crossing_angle"
    rw [ha] at this
    rw [show Mgr.crossingAngle = "beam_crossing_angle" from rfl, this]
    rfl
  · rfl

/-- All calorimeters are written and read. -/
theorem calos_step (E : FileEnv) {c : Section → Option CaloSection} : ∀ (l : List (Section × String)), (∀ x ∈ l, x ∈ caloNames) →
    (l.map Prod.fst).Nodup → (∀ x ∈ l, ∀ s, c x.1 = some s → SavableCalo x.1 s) →
    ∃ (ns : List (List Node)) (c' : Section → Option CaloSection), (l.mapM fun x => writeSection caloToXML x.2 "CalorimeterParameters" (c x.1)) = .ok ns
      ∧ (∀ n ∈ ns.flatten, Detector n) ∧ (∀ x ∈ l, Option.Rel SameCalo (c x.1) (c' x.1))
      ∧ (∀ x, x ∉ l.map Prod.fst → c' x = none)
      ∧ ∀ g, (∀ x ∈ l, g.calo x.1 = none) → readAll (readDetector E) ns.flatten g
        = ({ g with calo := fun x => if x ∈ l.map Prod.fst then c' x else g.calo x }, .ok ())
  | [], _, _, _ => ⟨[], fun _ => none, rfl, by simp, by simp, by simp, fun g _ => by simp [readAll]⟩
  | x :: l, hl, hd, hs => by
    rw [List.map_cons, List.nodup_cons] at hd
    obtain ⟨ns, c', h1, h2, h3, h4, h5⟩ := calos_step E l (fun y hy => hl y (List.mem_cons_of_mem _ hy)) hd.2
      (fun y hy => hs y (List.mem_cons_of_mem _ hy))
    have hx : x ∈ caloNames := hl x (by simp)
    have hn : NoReference x.2.toList := by
      have : ∀ x ∈ caloNames, NoReference x.2.toList := by decide +kernel
      exact this x hx
    obtain ⟨n, o', k1, k2, k3, k4⟩ := section_step (toXML := caloToXML) (fromXML := caloFromXML) (o := c x.1) (name := x.2)
      (fun s e => through_calo (hs x (by simp) s e) "CalorimeterParameters") hn (ptr := 2) E (by simp)
      (fun o g => { g with calo := Function.update g.calo x.1 o }) (ok := fun g => g.calo x.1 = none)
      (fun g hg => by rw [← hg, Function.update_eq_self])
      (by
        intro s' s n g hsame he hg hf
        show store (caloFromXML n) g _ = _
        rw [hf]
        show (storeCalo g x.2.toList s', Res.ok ()) = _
        have hsav := hs x (by simp) s he
        unfold storeCalo
        rw [hsame.2, calo_slot_partial x hx _ hsav.kind]
        dsimp only
        rw [ensureAngle_of hsav hsame.1])
    refine ⟨n :: ns, Function.update c' x.1 o', ?_, ?_, ?_, ?_, ?_⟩
    · rw [List.mapM_cons, k1, Res.bind_ok, h1]; rfl
    · intro m hm
      rw [List.flatten_cons, List.mem_append] at hm
      exact hm.elim (k2 m) (h2 m)
    · intro y hy
      rcases List.mem_cons.1 hy with rfl | hy
      · rw [Function.update_self]
        exact rel_imp (fun _ _ h => h.1) k3
      · have : y.1 ≠ x.1 := fun e => hd.1 (e ▸ List.mem_map_of_mem hy)
        rw [Function.update_of_ne this]
        exact h3 y hy
    · intro y hy
      rw [List.map_cons, List.mem_cons, not_or] at hy
      rw [Function.update_of_ne hy.1]
      exact h4 y hy.2
    · intro g hg
      rw [List.flatten_cons, readAll_append, k4 g (hg x (by simp))]
      show readAll (readDetector E) ns.flatten _ = _
      rw [h5 _ (by
        intro y hy
        have : y.1 ≠ x.1 := fun e => hd.1 (e ▸ List.mem_map_of_mem hy)
        show Function.update g.calo x.1 o' y.1 = none
        rw [Function.update_of_ne this]
        exact hg y (List.mem_cons_of_mem _ hy))]
      congr 2
      funext y
      by_cases hy : y = x.1
      · subst hy
        simp [hd.1]
      · have e : y ∈ (x :: l).map Prod.fst ↔ y ∈ l.map Prod.fst := by
          rw [List.map_cons, List.mem_cons]
          exact or_iff_right hy
        by_cases hm : y ∈ l.map Prod.fst
        · rw [if_pos hm, if_pos (e.2 hm), Function.update_of_ne hy]
        · rw [if_neg hm, if_neg (mt e.1 hm)]
          exact Function.update_of_ne hy _ _

/-- The user's own detectors are written and read. -/
theorem generic_step (E : FileEnv) : ∀ (m : SMap String (Params ℚ)), SMap.Sorted m →
    (∀ e ∈ m, NoReference e.1.toList ∧ SavableParams e.2) →
    ∃ ns m', (m.mapM fun x => do
        let detector ← paramsToXML x.2
        Res.ok ((detector.setAttribute "name" x.1.toList).setAttribute "geartype" "GearParameters".toList)) = .ok ns
      ∧ (∀ n ∈ ns, Detector n) ∧ List.Forall₂ (fun e e' => e'.1 = e.1 ∧ SameParams r10 e.2 e'.2) m m'
      ∧ ∀ g, (∀ k ∈ SMap.keys g.generic, ∀ k' ∈ SMap.keys m, k < k') → readAll (readDetector E) ns g
        = ({ g with generic := g.generic ++ m' }, .ok ())
  | [], _, _ => ⟨[], [], rfl, by simp, .nil, fun g _ => by simp [readAll]⟩
  | e :: m, hm, he => by
    unfold SMap.Sorted SMap.keys at hm
    rw [List.map_cons, List.pairwise_cons] at hm
    obtain ⟨ns, m', h1, h2, h3, h4⟩ := generic_step E m hm.2 fun e he' => he e (List.mem_cons_of_mem _ he')
    obtain ⟨hr, hp⟩ := he e (by simp)
    obtain ⟨d, n, p', k1, k2, k3, k4, k5, k6⟩ := section_node (through_params hp "GearParameters") hr (ptr := 0) E (by simp)
    refine ⟨n :: ns, (e.1, p') :: m', ?_, ?_, .cons ⟨rfl, k5⟩ h3, ?_⟩
    · rw [List.mapM_cons, k1]
      simp only [Res.bind_ok, k2]
      rw [h1]
      rfl
    · intro y hy
      rcases List.mem_cons.1 hy with rfl | hy
      · exact k3
      · exact h2 y hy
    · intro g hg
      rw [readAll, k6]
      have k4' : setParametersFromXML n {} = .ok p' := k4
      have : handle E 0 e.1.toList n g = ({ g with generic := g.generic ++ [(e.1, p')] }, .ok ()) := by
        show store (setParametersFromXML n {}) g _ = _
        rw [k4']
        show ({ g with generic := g.generic.set (str e.1.toList) p' }, Res.ok ()) = _
        rw [str_toList, set_last fun k hk => hg k hk e.1 (by simp [SMap.keys])]
      rw [this]
      show readAll (readDetector E) ns _ = _
      rw [h4 _ (by
        intro k hk k' hk'
        rw [SMap.keys, List.map_append, List.mem_append] at hk
        rcases hk with hk | hk
        · exact hg k hk k' (by rw [SMap.keys, List.map_cons]; exact List.mem_cons_of_mem _ hk')
        · rw [List.map_cons, List.map_nil, List.mem_singleton] at hk
          subst hk
          exact hm.1 k' hk')]
      simp

/-- The materials are written and read. -/
theorem materials_step : ∀ (m : SMap String Material), SMap.Sorted m → (∀ e ∈ m, e.2.name = e.1) →
    ∀ g, (∀ k ∈ SMap.keys g.materials, ∀ k' ∈ SMap.keys m, k < k') → readAll readMaterial (m.map fun e => materialToXML e.2) g
        = ({ g with materials := g.materials ++ m.map fun e => (e.1, e.2.rounded) }, .ok ())
  | [], _, _, g, _ => by simp [readAll]
  | e :: m, hm, he, g, hg => by
    unfold SMap.Sorted SMap.keys at hm
    rw [List.map_cons, List.pairwise_cons] at hm
    have hr : readMaterial (materialToXML e.2) g = ({ g with materials := g.materials ++ [(e.1, e.2.rounded)] }, .ok ()) := by
      unfold readMaterial
      rw [if_pos (show (materialToXML e.2).isElt = true from rfl), material_roundtrip]
      have hn : e.2.rounded.name = e.1 := he e (by simp)
      have hl : ∀ k ∈ SMap.keys g.materials, k < e.1 := fun k hk => hg k hk e.1 (by simp [SMap.keys])
      dsimp only
      unfold storeMaterial
      rw [hn, (SMap.find?_eq_none_iff e.1 g.materials).2 fun h => lt_irrefl _ (hl _ h)]
      dsimp only
      rw [set_last hl]
    rw [List.map_cons, readAll, hr]
    show readAll readMaterial _ _ = _
    rw [materials_step m hm.2 (fun e he' => he e (List.mem_cons_of_mem _ he')) _ (by
      intro k hk k' hk'
      rw [SMap.keys, List.map_append, List.mem_append] at hk
      rcases hk with hk | hk
      · exact hg k hk k' (by rw [SMap.keys, List.map_cons]; exact List.mem_cons_of_mem _ hk')
      · rw [List.map_cons, List.map_nil, List.mem_singleton] at hk
        subst hk
        exact hm.1 k' hk')]
    simp

theorem forall₂_find {α β : Type} {R : α → β → Prop} {m : SMap String α} {m' : SMap String β}
    (h : List.Forall₂ (fun e e' => e'.1 = e.1 ∧ R e.2 e'.2) m m') (k : String) :
    Option.Rel R (SMap.find? k m) (SMap.find? k m') := by
  induction h with
  | nil => exact .none
  | cons he _ ih =>
    rename_i e e' _ _ _
    obtain ⟨k1, v1⟩ := e
    obtain ⟨k2, v2⟩ := e'
    obtain ⟨rfl, hr⟩ := he
    unfold SMap.find?
    split_ifs
    · exact .some hr
    · exact ih

theorem forall₂_keys {α β : Type} {R : α → β → Prop} {m : SMap String α} {m' : SMap String β}
    (h : List.Forall₂ (fun e e' => e'.1 = e.1 ∧ R e.2 e'.2) m m') : SMap.keys m' = SMap.keys m := by
  induction h with
  | nil => rfl
  | cons he _ ih =>
    unfold SMap.keys at *
    rw [List.map_cons, List.map_cons, he.1, ih]

theorem caloSections_eq : caloSections = caloNames := rfl

theorem then_ok (g : Geometry) (f : Geometry → Read) : Read.andThen (g, .ok ()) f = f g := rfl

/-- All detectors are written and read. -/
theorem detectors_step (E : FileEnv) {g : Geometry} (h : Savable E g) :
    ∃ ns t c vxd ftd sit set si gen, writeDetectors E g = .ok ns ∧ (∀ n ∈ ns, Detector n)
      ∧ Option.Rel (SameTpc E.tpc) g.tpc t ∧ (∀ x, Option.Rel SameCalo (g.calo x) (c x))
      ∧ Option.Rel (SameZ E.planar) (g.zplanar .vxd) vxd ∧ Option.Rel SameFtd g.ftd ftd
      ∧ Option.Rel (SameZ E.planar) (g.zplanar .sit) sit ∧ Option.Rel (SameZ E.planar) (g.zplanar .set) set
      ∧ Option.Rel SameSi g.siPlanes si
      ∧ List.Forall₂ (fun e e' => e'.1 = e.1 ∧ SameParams r10 e.2 e'.2) g.generic gen
      ∧ ∀ (name : String) (f : Option BField), readAll (readDetector E) ns { detectorName := name, bField := f }
        = ({ detectorName := name, bField := f, tpc := t, calo := c, ftd := ftd, siPlanes := si, generic := gen,
             zplanar := Function.update (Function.update (Function.update (fun _ => none) .vxd vxd) .sit sit) .set set }, .ok ()) := by
  obtain ⟨l1, t, a1, a2, a3, a4⟩ := section_step (o := g.tpc) (name := "TPC") (fun s e => through_tpc (h.tpc s e)) (by decide +kernel)
    (ptr := 1) E (by simp) (fun o g => { g with tpc := o }) (ok := fun g => g.tpc = none) (fun g hg => by rw [← hg])
    (by intro s' s n g _ _ _ hf; show store (tpcFromXML E.tpc n) g _ = _; rw [hf]; rfl)
  obtain ⟨l2, c, b1, b2, b3, b4, b5⟩ := calos_step E (c := g.calo) caloNames (fun _ h => h) (by decide +kernel)
    (fun x hx s e => (h.calo x.1 s e).2)
  have hz : ∀ (x : Section) (name : String) (_ : NoReference name.toList) (_ : zplanarSlot name.toList = some x),
      ∃ l o', writeSection (zplanarToXML E.planar) name "ZPlanarParameters" (g.zplanar x) = .ok l ∧ (∀ n ∈ l, Detector n)
        ∧ Option.Rel (SameZ E.planar) (g.zplanar x) o' ∧ ∀ g, g.zplanar x = none → readAll (readDetector E) l g
          = ({ g with zplanar := Function.update g.zplanar x o' }, .ok ()) := by
    intro x name hn hx
    exact section_step (o := g.zplanar x) (name := name)
      (fun s e => through_zplanar (h.zplanar x s e).2 "ZPlanarParameters") hn (ptr := 3) E (by simp)
      (fun o g => { g with zplanar := Function.update g.zplanar x o }) (ok := fun g => g.zplanar x = none)
      (fun g hg => by rw [← hg, Function.update_eq_self])
      (by
        intro s' s n g _ _ _ hf
        show store (zplanarFromXML E.planar n) g _ = _
        rw [hf]
        show (storeZPlanar g name.toList s', Res.ok ()) = _
        unfold storeZPlanar
        rw [hx])
  obtain ⟨l3, vxd, c1, c2, c3, c4⟩ := hz .vxd "VXD" (by decide +kernel) (by decide +kernel)
  obtain ⟨l4, ftd, d1, d2, d3, d4⟩ := section_step (o := g.ftd) (name := "FTD") (fun s e => through_ftd (h.ftd s e) "FTDParameters")
    (by decide +kernel) (ptr := 4) E (by simp) (fun o g => { g with ftd := o }) (ok := fun g => g.ftd = none) (fun g hg => by rw [← hg])
    (by intro s' s n g _ _ _ hf; show store (ftdFromXML n) g _ = _; rw [hf]; rfl)
  obtain ⟨l5, sit, e1, e2, e3, e4⟩ := hz .sit "SIT" (by decide +kernel) (by decide +kernel)
  obtain ⟨l6, set, f1, f2, f3, f4⟩ := hz .set "SET" (by decide +kernel) (by decide +kernel)
  obtain ⟨l7, si, i1, i2, i3, i4⟩ := section_step (o := g.siPlanes) (name := "SiPlanes")
    (fun s e => through_si (h.si s e) "SiPlanesParameters") (by decide +kernel) (ptr := 6) E (by simp)
    (fun o g => { g with siPlanes := o }) (ok := fun g => g.siPlanes = none) (fun g hg => by rw [← hg])
    (by intro s' s n g _ _ _ hf; show store (siFromXML n) g _ = _; rw [hf]; rfl)
  obtain ⟨l8, gen, j1, j2, j3, j4⟩ := generic_step E g.generic h.genericSorted h.generic
  refine ⟨l1 ++ l2.flatten ++ l3 ++ l4 ++ l5 ++ l6 ++ [] ++ l7 ++ l8, t, c, vxd, ftd, sit, set, si, gen, ?_, ?_, a3, ?_, c3, d3, e3, f3,
    i3, j3, ?_⟩
  · unfold writeDetectors
    rw [a1, Res.bind_ok, caloSections_eq, b1, Res.bind_ok, c1, Res.bind_ok, d1, Res.bind_ok, e1, Res.bind_ok, f1, Res.bind_ok, h.tracker,
      show writeSection trackerToXML "TrackerPlanes" "TrackerPlanesParameters" none = .ok [] from rfl, Res.bind_ok, i1, Res.bind_ok, j1]
    rfl
  · intro n hn
    simp only [List.mem_append, List.not_mem_nil, or_false] at hn
    rcases hn with ((((((hn | hn) | hn) | hn) | hn) | hn) | hn) | hn
    exacts [a2 n hn, b2 n hn, c2 n hn, d2 n hn, e2 n hn, f2 n hn, i2 n hn, j2 n hn]
  · intro x
    by_cases hx : x ∈ caloNames.map Prod.fst
    · obtain ⟨y, hy, rfl⟩ := List.mem_map.1 hx
      exact b3 y hy
    · rw [b4 x hx]
      cases hg : g.calo x with
      | none => exact .none
      | some s => exact absurd (h.calo x s hg).1 hx
  · intro name f
    simp only [List.append_assoc, List.nil_append]
    rw [readAll_append, a4 _ rfl, then_ok, readAll_append, b5 _ (fun _ _ => rfl), then_ok, readAll_append, c4 _ rfl, then_ok,
      readAll_append, d4 _ rfl, then_ok, readAll_append,
      e4 _ (by show Function.update (fun _ => none) Section.vxd vxd Section.sit = none; rw [Function.update_of_ne (by decide)]),
      then_ok, readAll_append, f4 _ (by
        show Function.update (Function.update (fun _ => none) Section.vxd vxd) Section.sit sit Section.set = none
        rw [Function.update_of_ne (by decide), Function.update_of_ne (by decide)]),
      then_ok, readAll_append, i4 _ rfl, then_ok, j4 _ (by simp [SMap.keys])]
    have hc : (fun x => if x ∈ caloNames.map Prod.fst then c x else none) = c := by
      funext x
      by_cases hx : x ∈ caloNames.map Prod.fst
      · rw [if_pos hx]
      · rw [if_neg hx, b4 x hx]
    simp only [hc, List.nil_append]

theorem wellFormed_bField' {f : BField} (h : SavableParams f.params) :
    ∃ n f', bFieldToXML f = .ok n ∧ n = el "BField" [("type", "ConstantBField".toList), ("x", formatE f.b.x), ("y", formatE f.b.y),
        ("z", formatE f.b.z)] (paramsNodes f.params) ∧ WellFormed n ∧ bFieldFromXML n = .ok f' ∧ SameField f f' := by
  obtain ⟨⟨l, hl⟩, hs, hr⟩ := h
  obtain ⟨b, p⟩ := f
  dsimp only at hl
  subst hl
  obtain ⟨n, f', h1, h2, h3, h4⟩ := bField_roundtrip_partial b l hs
  have h5 := bFieldToXML_eq (f := ⟨b, Params.run l⟩) (Params.inv_run l)
  rw [h1] at h5
  exact ⟨n, f', h1, by injection h5, wellFormed_bField hr (Params.inv_run l) h1, h2, h3, h4⟩

end Gear.Xml
