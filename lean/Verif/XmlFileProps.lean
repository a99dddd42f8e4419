/-
C66 for `createGearMgr`, and C104: a geometry that is saved with `createXMLFile` and read with `createGearMgr` is the same.
-/
import Verif.XmlFileLemmas

set_option autoImplicit false
set_option linter.unusedSectionVars false

namespace Gear.Xml

/-! ### C66 -/

/-- A history of calls of `createGearMgr` on a new `GearXML`, oldest first; the file may change between the calls. -/
def calls (E : FileEnv) (h : List (Run (Bool × List Node))) : GearXML := h.foldl (fun x load => (createGearMgr E load x).1) {}

/-- A call that returns a manager: whatever is called afterwards and whatever becomes of the file, all later calls return this
manager. -/
theorem same_manager {E : FileEnv} {h : List (Run (Bool × List Node))} {load : Run (Bool × List Node)} {g : Geometry}
    (hg : (createGearMgr E load (calls E h)).2 = .ok g) (later : List (Run (Bool × List Node))) (load' : Run (Bool × List Node)) :
    (createGearMgr E load' (calls E (h ++ [load] ++ later))).2 = .ok g := by
  have h1 : (createGearMgr E load (calls E h)).1.gearMgr = some g := by
    unfold createGearMgr at hg ⊢
    cases hx : (calls E h).gearMgr with
    | some g' =>
      rw [hx] at hg
      cases hg
      exact hx
    | none =>
      rw [hx] at hg
      split at hg
      · cases ‹none = some _›
      · split at hg
        · dsimp only at hg ⊢
          split at hg
          · cases hg; rfl
          · cases hg
          · cases hg
        · cases hg
        · cases hg
  have h2 : ∀ (later : List (Run (Bool × List Node))) (x : GearXML), x.gearMgr = some g →
      (later.foldl (fun x load => (createGearMgr E load x).1) x).gearMgr = some g := by
    intro later
    induction later with
    | nil => exact fun x hx => hx
    | cons l ls ih =>
      intro x hx
      refine ih _ ?_
      show (createGearMgr E l x).1.gearMgr = some g
      unfold createGearMgr
      rw [hx]
      exact hx
  have h3 := h2 later _ h1
  have h4 : (calls E (h ++ [load] ++ later)).gearMgr = some g := by
    unfold calls
    rw [List.foldl_append, List.foldl_append]
    exact h3
  unfold createGearMgr
  rw [h4]

/-- The first call returns a manager exactly if the file could be loaded and was read to the end; it then holds all that was read.
Otherwise it throws. -/
theorem first_call (E : FileEnv) (load : Run (Bool × List Node)) (g : Geometry) :
    (createGearMgr E load {}).2 = .ok g ↔ ∃ nodes, load = .ok (true, nodes) ∧ readDocument E nodes = (g, .ok ()) := by
  unfold createGearMgr
  dsimp only
  constructor
  · intro h
    split at h
    · rename_i nodes
      refine ⟨nodes, rfl, ?_⟩
      dsimp only at h
      split at h
      · rename_i u hu
        cases h
        cases u
        exact Prod.ext rfl hu
      · cases h
      · cases h
    · cases h
    · cases h
  · rintro ⟨nodes, rfl, h⟩
    dsimp only
    rw [h]

/-- The claim is false whenever the first call throws: every later call returns a manager, and it is always the same, incomplete one. -/
theorem after_failure_false {E : FileEnv} {load : Run (Bool × List Node)} {e : Exn} (h : (createGearMgr E load {}).2 = .throw e)
    (later : List (Run (Bool × List Node))) :
    ∃ g, ∀ load', (createGearMgr E load' (calls E ([load] ++ later))).2 = .ok g := by
  obtain ⟨g, hg⟩ : ∃ g, (createGearMgr E load {}).1.gearMgr = some g := by
    unfold createGearMgr
    dsimp only
    split <;> exact ⟨_, rfl⟩
  have h1 : ∀ load', (createGearMgr E load' (calls E [load])).2 = .ok g := by
    intro load'
    have : calls E [load] = (createGearMgr E load {}).1 := rfl
    rw [this]
    unfold createGearMgr at hg ⊢
    rw [hg]
  refine ⟨g, fun load' => ?_⟩
  cases later with
  | nil => exact h1 load'
  | cons l ls =>
    have := same_manager (E := E) (h := [load]) (h1 l) ls load'
    simpa using this

/-- A file that does not exist: the first call throws a `ParseException`, the second one returns an empty manager. -/
example (E : FileEnv) : (createGearMgr E (.ok (false, [])) {}).2 = .throw .parse
    ∧ (createGearMgr E (.ok (false, [])) (calls E [.ok (false, [])])).2 = .ok {} := ⟨rfl, rfl⟩

/-- A file with a detector of unknown type after one of the user's own. -/
def wrongFile : List Node :=
  [el "gear" [] [el "global" [("detectorName", "D".toList)] [],
    el "detectors" [] [el "detector" [("name", "a".toList), ("geartype", "GearParameters".toList)] [],
      el "detector" [("name", "b".toList), ("geartype", "X".toList)] []]]]

/-- A file with a detector of the user's own and a material. -/
def rightFile : List Node :=
  [el "gear" [] [el "detectors" [] [el "detector" [("name", "a".toList), ("geartype", "GearParameters".toList)] []],
    el "materials" [] [el "material" [("name", "Si".toList), ("A", "28".toList), ("Z", "14".toList), ("density", "2.33".toList),
      ("radLength", "1".toList), ("intLength", "2".toList)] []]]]

theorem wrong_throws (E : FileEnv) : (createGearMgr E (.ok (true, wrongFile)) {}).2 = .throw .parse := by rfl

/-- The second call returns a manager with the first detector. -/
example (E : FileEnv) : (createGearMgr E (.ok (true, wrongFile)) (calls E [.ok (true, wrongFile)])).2
    = .ok { detectorName := "D", generic := [("a", {})] } := by rfl

example (E : FileEnv) : ∃ g, ∀ load', (createGearMgr E load' (calls E ([.ok (true, wrongFile)] ++ []))).2 = .ok g :=
  after_failure_false (wrong_throws E) []

theorem right_reads (E : FileEnv) : ∃ g, (createGearMgr E (.ok (true, rightFile)) {}).2 = .ok g ∧ g.generic = [("a", {})]
    ∧ g.materials.map Prod.fst = ["Si"] := ⟨_, rfl, rfl, rfl⟩

/-- A good file keeps its manager although the file becomes bad. -/
example (E : FileEnv) : ∃ g, (createGearMgr E (.ok (true, wrongFile)) (calls E [.ok (true, rightFile), .ok (false, [])])).2 = .ok g
    ∧ g.generic = [("a", {})] := by
  obtain ⟨g, h, h1, -⟩ := right_reads E
  exact ⟨g, same_manager (h := []) h [.ok (false, [])] _, h1⟩

/-! ### C104 -/

open Spec

/-- C104: every geometry that can be saved is written to a file, the file is loaded, a new `GearXML` creates a manager from it, and that
manager has the same geometry.  What cannot be saved is listed at `Savable`. -/
theorem file_roundtrip_partial (E : FileEnv) (g : Geometry) (h : Savable E g) :
    ∃ doc g', createXMLFile E g = .ok doc ∧ loadFile (printDocument doc) = .ok (true, doc)
      ∧ (createGearMgr E (loadFile (printDocument doc)) {}).2 = .ok g' ∧ SameGeometry E g g' := by
  obtain ⟨ns, t, c, vxd, ftd, sit, set, si, gen, h1, h2, h3, h4, h5, h6, h7, h8, h9, h10, h11⟩ := detectors_step E h
  have hname : writtenName g = g.detectorName := by
    unfold writtenName
    rw [if_neg (by simpa using h.name.1)]
  obtain ⟨fl, f', e1, e2, e3, e4⟩ : ∃ (fl : Option Node) (f' : Option BField),
      (attempt (do let f ← getSection g.bField; bFieldToXML f)) = .ok fl
      ∧ (∀ n ∈ fl.toList, WellFormed n ∧ n.isText = false) ∧ Option.Rel SameField g.bField f'
      ∧ ∀ pre post : List Node, (∀ n ∈ pre, n.value ≠ "BField".toList) → (∀ n ∈ post, n.value ≠ "BField".toList) →
        (∀ m : String, m ≠ "BField" → ∀ nm at', (el nm at' (pre ++ fl.toList ++ post)).firstChild m
          = (el nm at' (pre ++ post)).firstChild m)
        ∧ ∀ nm at' G, G.bField = none → readField (el nm at' (pre ++ fl.toList ++ post)) G = ({ G with bField := f' }, .ok ()) := by
    have hnone : ∀ l : List Node, (∀ n ∈ l, n.value ≠ "BField".toList) → l.find? (fun c => c.value = "BField".toList) = none := by
      intro l hl
      rw [List.find?_eq_none]
      intro x hx
      simpa using hl x hx
    cases hf : g.bField with
    | none =>
      refine ⟨none, none, rfl, by simp, .none, fun pre post hp hq => ⟨fun m hm nm at' => by simp, fun nm at' G hG => ?_⟩⟩
      unfold readField Node.firstChild
      rw [children_el, Option.toList_none, List.append_nil, List.find?_append, hnone _ hp, hnone _ hq]
      rw [← hG]
      rfl
    | some f =>
      obtain ⟨n, f'', k1, k2, k3, k4, k5⟩ := wellFormed_bField' (h.field f hf)
      have hv : n.value = "BField".toList := by rw [k2]; rfl
      refine ⟨some n, some f'', ?_, ?_, .some k5, fun pre post hp hq => ⟨fun m hm nm at' => ?_, fun nm at' G hG => ?_⟩⟩
      · rw [getSection, Res.bind_ok, k1]; rfl
      · intro m hm
        rw [Option.toList_some, List.mem_singleton] at hm
        rw [hm]
        exact ⟨k3, by rw [k2]; rfl⟩
      · unfold Node.firstChild
        rw [children_el, children_el, Option.toList_some, List.append_assoc, List.singleton_append, List.find?_append, List.find?_append,
          List.find?_cons_of_neg (by rw [hv, decide_eq_true_eq]; exact fun e => hm (String.toList_injective e.symm))]
      · unfold readField Node.firstChild
        rw [children_el, Option.toList_some, List.append_assoc, List.singleton_append, List.find?_append, hnone _ hp,
          List.find?_cons_of_pos (by simpa using hv)]
        show (if n.isElt = true then _ else _) = _
        rw [if_pos (by rw [k2]; rfl), k4]
        rfl
  have hfind := e4 [el "global" [("detectorName", (writtenName g).toList)] [], .comment rootComment.toList]
    [el "detectors" [] ns, el "materials" [] (g.materials.map fun m => materialToXML m.2)]
    (by
      simp only [List.forall_mem_cons, List.not_mem_nil, false_imp_iff, implies_true, and_true]
      exact ⟨value_ne (by decide), by show rootComment.toList ≠ _; decide +kernel⟩)
    (by
      simp only [List.forall_mem_cons, List.not_mem_nil, false_imp_iff, implies_true, and_true]
      exact ⟨value_ne (by decide), value_ne (by decide)⟩)
  generalize hch : [el "global" [("detectorName", (writtenName g).toList)] [], .comment rootComment.toList] ++ fl.toList
    ++ [el "detectors" [] ns, el "materials" [] (g.materials.map fun m => materialToXML m.2)] = children at hfind
  obtain ⟨hfind, hfield⟩ := hfind
  have hcreate : createXMLFile E g = .ok [el "gear" [] children] := by
    unfold createXMLFile
    rw [e1, Res.bind_ok, h1, Res.bind_ok, hch]
  have hload : loadFile (printDocument [el "gear" [] children]) = .ok (true, [el "gear" [] children]) := by
    refine document_roundtrip_partial _ ⟨?_, trivial⟩ (by simp [el, Node.isText]) (by simp)
    refine wellFormed_el (by decide +kernel) (by simp) (by simp) (by simp) ?_
    intro n hn
    rw [← hch] at hn
    simp only [List.mem_append, List.mem_cons, List.not_mem_nil, or_false] at hn
    rcases hn with ((rfl | rfl) | hn) | (rfl | rfl)
    · refine ⟨?_, rfl⟩
      have hr : NoReference (writtenName g).toList := by rw [hname]; exact h.name.2
      wf_el
      simp
    · exact ⟨by decide +kernel, rfl⟩
    · exact e2 n hn
    · exact ⟨wellFormed_el (by decide +kernel) (by simp) (by simp) (by simp) fun n hn => ⟨(h2 n hn).1, (h2 n hn).2.1⟩, rfl⟩
    · refine ⟨wellFormed_el (by decide +kernel) (by simp) (by simp) (by simp) fun n hn => ?_, rfl⟩
      obtain ⟨e, he, rfl⟩ := List.mem_map.1 hn
      exact ⟨wellFormed_material _ (by rw [(h.materials e he).1]; exact (h.materials e he).2), rfl⟩
  have hread : readDocument E [el "gear" [] children] = ({
      detectorName := g.detectorName, bField := f', tpc := t, calo := c, ftd := ftd,
      siPlanes := si, generic := gen, materials := g.materials.map fun e => (e.1, e.2.rounded),
      zplanar := Function.update (Function.update (Function.update (fun _ => none) .vxd vxd) .sit sit) .set set }, .ok ()) := by
    show readRoot E (el "gear" [] children) {} = _
    have g1 : readGlobal (el "gear" [] children) {} = ({ detectorName := g.detectorName }, .ok ()) := by
      unfold readGlobal
      rw [hfind "global" (by decide)]
      unfold Node.firstChild
      rw [children_el, List.cons_append, List.find?_cons_of_pos (by simp [value_el])]
      show store (getXMLAttribute _ _) _ _ = _
      rw [getXMLAttribute_el]
      simp only [find, if_true, store, str_toList, hname]
    have g2 : (el "gear" [] children).firstChild "detectors" = some (el "detectors" [] ns) := by
      rw [hfind "detectors" (by decide)]
      unfold Node.firstChild
      rw [children_el, List.cons_append, List.cons_append, List.nil_append,
        List.find?_cons_of_neg (by rw [value_el]; decide +kernel),
        List.find?_cons_of_neg (by show ¬ (decide (rootComment.toList = _)) = true; decide +kernel),
        List.find?_cons_of_pos (by simp [value_el])]
    have g3 : readGdml E (el "gear" [] children) = fun G => (G, .ok ()) := by
      funext G
      unfold readGdml
      rw [hfind "GDMLFile" (by decide)]
      unfold Node.firstChild
      rw [children_el, List.cons_append, List.cons_append, List.nil_append,
        List.find?_cons_of_neg (by rw [value_el]; decide +kernel),
        List.find?_cons_of_neg (by show ¬ (decide (rootComment.toList = _)) = true; decide +kernel),
        List.find?_cons_of_neg (by rw [value_el]; decide +kernel),
        List.find?_cons_of_neg (by rw [value_el]; decide +kernel), List.find?_nil]
    have g4 : (el "gear" [] children).firstChild "materials"
        = some (el "materials" [] (g.materials.map fun m => materialToXML m.2)) := by
      rw [hfind "materials" (by decide)]
      unfold Node.firstChild
      rw [children_el, List.cons_append, List.cons_append, List.nil_append,
        List.find?_cons_of_neg (by rw [value_el]; decide +kernel),
        List.find?_cons_of_neg (by show ¬ (decide (rootComment.toList = _)) = true; decide +kernel),
        List.find?_cons_of_neg (by rw [value_el]; decide +kernel),
        List.find?_cons_of_pos (by simp [value_el])]
    have g5 : (el "detectors" [] ns).named "detector" = ns := named_of_all fun n hn => (h2 n hn).2.2
    have g6 : (el "materials" [] (g.materials.map fun m => materialToXML m.2)).named "material"
        = g.materials.map fun m => materialToXML m.2 := by
      refine named_of_all fun n hn => ?_
      obtain ⟨e, -, rfl⟩ := List.mem_map.1 hn
      rfl
    unfold readRoot
    rw [g1, then_ok, g2]
    dsimp only
    rw [hfield _ _ _ rfl, then_ok, g3, then_ok, g5, h11, then_ok]
    unfold readMaterials
    rw [g4]
    dsimp only
    rw [g6, materials_step g.materials h.materialsSorted (fun e he => (h.materials e he).1) _ (by simp [SMap.keys])]
    rfl
  refine ⟨_, _, hcreate, hload, (first_call E _ _).2 ⟨_, hload, hread⟩, ?_⟩
  · refine ⟨rfl, e3, h3, h4, ?_, h6, h9, h.tracker.symm, forall₂_keys h10, forall₂_find h10, ?_, ?_, h.point.symm,
      h.distance.symm⟩
    · intro x
      dsimp only
      by_cases x3 : x = .set
      · subst x3; rw [Function.update_self]; exact h8
      by_cases x2 : x = .sit
      · subst x2; rw [Function.update_of_ne x3, Function.update_self]; exact h7
      by_cases x1 : x = .vxd
      · subst x1; rw [Function.update_of_ne x3, Function.update_of_ne x2, Function.update_self]; exact h5
      rw [Function.update_of_ne x3, Function.update_of_ne x2, Function.update_of_ne x1]
      cases hg : g.zplanar x with
      | none => exact .none
      | some s => exact absurd (h.zplanar x s hg).1 (by simp [x1, x2, x3])
    · simp [SMap.keys, Function.comp_def]
    · intro k
      show SMap.find? k (g.materials.map fun e => (e.1, e.2.rounded)) = _
      induction g.materials with
      | nil => rfl
      | cons e m ih =>
        rw [List.map_cons, SMap.find?, SMap.find?]
        split_ifs
        · rfl
        · exact ih

theorem savable_params : SavableParams (Params.run (.setDouble "beam_crossing_angle" 14 :: sampleOps))
    ∧ SavableParams (Params.run sampleOps) := by
  have hs := storable_sampleOps
  refine ⟨⟨⟨_, rfl⟩, ⟨hs.int, hs.string, hs.intVec, hs.doubleVec, hs.stringVec⟩, ?_⟩, ⟨⟨_, rfl⟩, hs, ?_⟩⟩
  · have : ∀ k ∈ ["n", "beam_crossing_angle", "r", "name", "ids", "zs", "mats"], NoReference k.toList := by decide +kernel
    refine ⟨fun k hk => this k ?_, by decide +kernel, by decide +kernel⟩
    rcases hk with hk | hk | hk | hk | hk | hk <;> revert k <;> decide +kernel
  · have : ∀ k ∈ ["n", "r", "name", "ids", "zs", "mats"], NoReference k.toList := by decide +kernel
    refine ⟨fun k hk => this k ?_, by decide +kernel, by decide +kernel⟩
    rcases hk with hk | hk | hk | hk | hk | hk <;> revert k <;> decide +kernel

/-- A telescope, a TPC with two modules, a calorimeter in a barrel section, a forward calorimeter, ladders, disks, a field, two
detectors of the user's own and a material can be saved together. -/
theorem savable_example (E : FileEnv) : ∃ (s : TpcSection) (g : Geometry), Savable E g ∧ g.tpc = some s ∧ s.mods.length = 2
    ∧ g.detectorName = "LDC" ∧ g.bField = some ⟨⟨0, 0, 4⟩, Params.run sampleOps⟩
    ∧ g.calo .ecalBarrel = some ⟨exampleCalo, Params.run sampleOps⟩
    ∧ g.calo .lcal = some ⟨exampleCalo, Params.run (.setDouble "beam_crossing_angle" 14 :: sampleOps)⟩
    ∧ g.zplanar .vxd = some ⟨exampleZPlanar.run E.planar, Params.run sampleOps⟩
    ∧ g.ftd = some ⟨ftdRun exampleFtd, Params.run sampleOps⟩
    ∧ g.siPlanes = some ⟨7, 1, 2, Telescope.Spec.run exampleTelescope, Params.run sampleOps⟩
    ∧ g.generic = [("MyDetector", Params.run sampleOps), ("Other", Params.run sampleOps)]
    ∧ g.materials = [("air", ⟨"air", 14.61, 7.3, 1.2, 304200, 747750⟩)] := by
  obtain ⟨hp1, hp⟩ := savable_params
  obtain ⟨L, s, m1, m2, hs, h1, h2, -, h3, h4, h5, -, -, -, h6⟩ := exampleTpc E.tpc TpcModule.CARTESIAN (.inl rfl)
  obtain ⟨g1, g2⟩ := h6 (by unfold TpcModule.Unsupported; decide)
  have hv : ValidPlane Telescope.examplePlane lostSensor :=
    ⟨by unfold IsInt; decide, by unfold IsInt; decide, by unfold IsInt; decide, by unfold IsInt; decide⟩
  let calo : Section → Option CaloSection
    | .ecalBarrel => some ⟨exampleCalo, Params.run sampleOps⟩
    | .lcal => some ⟨exampleCalo, Params.run (.setDouble "beam_crossing_angle" 14 :: sampleOps)⟩
    | _ => none
  let zplanar : Section → Option ZPlanarSection
    | .vxd => some ⟨exampleZPlanar.run E.planar, Params.run sampleOps⟩
    | _ => none
  refine ⟨{ s with params := Params.run sampleOps }, {
    detectorName := "LDC", bField := some ⟨⟨0, 0, 4⟩, Params.run sampleOps⟩,
    tpc := some { s with params := Params.run sampleOps }, calo := calo, zplanar := zplanar,
    ftd := some ⟨ftdRun exampleFtd, Params.run sampleOps⟩,
    siPlanes := some ⟨7, 1, 2, Telescope.Spec.run exampleTelescope, Params.run sampleOps⟩,
    generic := [("MyDetector", Params.run sampleOps), ("Other", Params.run sampleOps)],
    materials := [("air", ⟨"air", 14.61, 7.3, 1.2, 304200, 747750⟩)] }, ?_, rfl, by rw [h2]; rfl, rfl, rfl, rfl, rfl, rfl, rfl, rfl, rfl, rfl⟩
  constructor
  · show "LDC" ≠ "" ∧ NoReference "LDC".toList
    exact ⟨by decide +kernel, by decide +kernel⟩
  · rintro f ⟨⟩
    exact hp
  · rintro s' ⟨⟩
    refine ⟨hp, .params _ hs, .inl h1, ?_, ?_⟩
    · intro m hm
      rw [h2] at hm
      show Good E.tpc (TpcParams.getCoordinateType s.tpc) m ∧ _
      rw [h1]
      rcases List.mem_cons.1 hm with rfl | hm
      · exact ⟨g1, by rw [h4]; exact hp.plain⟩
      · rw [List.mem_singleton.1 hm]
        exact ⟨g2, by rw [h5]; constructor <;> simp [SMap.keys]⟩
    · show r10 (TpcParams.getMaxDriftLength s.tpc) ≠ -1
      rw [h3, r10_eq ⟨2500, 0, by norm_num, by norm_num⟩]
      norm_num
  · intro x c hc
    have hx : x = .ecalBarrel ∨ x = .lcal := by
      cases x <;> first | exact .inl rfl | exact .inr rfl | cases hc
    rcases hx with rfl | rfl
    · cases hc
      exact ⟨by decide, hp, by unfold IsInt; decide +kernel, by unfold IsInt; decide +kernel, .inr rfl, fun h => by cases h⟩
    · cases hc
      exact ⟨by decide, hp1, by unfold IsInt; decide +kernel, by unfold IsInt; decide +kernel, .inl rfl, fun _ => ⟨14, rfl⟩⟩
  · intro x z hz
    have hx : x = .vxd := by cases x <;> first | rfl | cases hz
    subst hx
    cases hz
    exact ⟨.inl rfl, hp, exampleZPlanar, rfl, by decide, by unfold IsInt; decide⟩
  · rintro f ⟨⟩
    exact ⟨hp, exampleFtd, rfl, by decide, by unfold FtdLayerArgs.Valid IsInt; decide⟩
  · rintro f ⟨⟩
    refine ⟨hp, ⟨_, rfl⟩, .inl rfl, by unfold IsInt; decide, by unfold IsInt; decide, ?_, hv⟩
    intro p hpm
    rcases List.mem_cons.1 hpm with rfl | hpm
    · exact hv
    · rw [List.mem_singleton.1 hpm]
      exact hv
  · rfl
  · show List.Pairwise (· < ·) ["MyDetector", "Other"]
    decide +kernel
  · intro e he
    rcases List.mem_cons.1 he with rfl | he
    · exact ⟨by decide +kernel, hp⟩
    · rw [List.mem_singleton.1 he]
      exact ⟨by decide +kernel, hp⟩
  · exact List.pairwise_singleton _ _
  · intro e he
    rw [List.mem_singleton.1 he]
    exact ⟨rfl, by decide +kernel⟩
  · rfl
  · rfl

example (E : FileEnv) : ∃ g, (∃ doc g', createXMLFile E g = .ok doc ∧ loadFile (printDocument doc) = .ok (true, doc)
      ∧ (createGearMgr E (loadFile (printDocument doc)) {}).2 = .ok g' ∧ SameGeometry E g g') ∧ g.tpc.isSome ∧ g.siPlanes.isSome
      ∧ g.ftd.isSome ∧ (g.calo .lcal).isSome := by
  obtain ⟨s, g, h, e1, -, -, -, -, e2, -, e3, e4, -⟩ := savable_example E
  exact ⟨g, file_roundtrip_partial E g h, by rw [e1]; rfl, by rw [e4]; rfl, by rw [e3]; rfl, by rw [e2]; rfl⟩

/-- Without a name, the geometry comes back with another one. -/
theorem noName_false (E : FileEnv) : ∃ doc g', createXMLFile E {} = .ok doc
    ∧ (createGearMgr E (loadFile (printDocument doc)) {}).2 = .ok g' ∧ g'.detectorName = "Unknown" := by
  refine ⟨_, { detectorName := "Unknown" }, rfl, ?_, rfl⟩
  refine (first_call E _ _).2 ⟨[el "gear" [] [el "global" [("detectorName", "Unknown".toList)] [], .comment rootComment.toList,
    el "detectors" [] [], el "materials" [] []]], ?_, by rfl⟩
  decide +kernel

/-- The properties of a GDML file are not saved: whatever else is in a manager that answered questions about points and distances, what
is read from its file does not answer them any more. -/
theorem gdmlFile_false (E : FileEnv) (g : Geometry) (h : Savable E g) (p : Gdml.PointProperties) (d : Gdml.DistanceProperties) :
    ∃ doc g', createXMLFile E { g with pointProperties := some p, distanceProperties := some d } = .ok doc
    ∧ (createGearMgr E (loadFile (printDocument doc)) {}).2 = .ok g' ∧ g'.pointProperties = none ∧ g'.distanceProperties = none := by
  obtain ⟨doc, g', h1, -, h2, h3⟩ := file_roundtrip_partial E g h
  exact ⟨doc, g', h1, h2, h3.point.trans h.point, h3.distance.trans h.distance⟩

/-- A geometry with `TrackerPlanes` is written, but reading what was written uses a null pointer, whatever the section contains. -/
theorem trackerFile_false (E : FileEnv) (id type number : ℤ) (hid : IsInt id) (hn : IsInt number) (L : Telescope.TLayout ℚ)
    (h : List (Params.Op ℚ)) :
    ∃ doc, createXMLFile E { detectorName := "D", trackerPlanes := some ⟨id, type, number, L, Params.run h⟩ } = .ok doc
      ∧ (readDocument E doc).2 = .ub := by
  obtain ⟨cs, h1, h2⟩ := tracker_false id type number hid hn L h
  have hw : writeSection trackerToXML "TrackerPlanes" "TrackerPlanesParameters" (some ⟨id, type, number, L, Params.run h⟩)
      = .ok [el "detector" [("name", "TrackerPlanes".toList), ("geartype", "TrackerPlanesParameters".toList)] cs] := by
    unfold writeSection getSection
    rw [Res.bind_ok, h1, Res.bind_ok, setAttribute_el_nil, setAttribute_el _ _ _ _ _ (by simp [find])]
    rfl
  refine ⟨[el "gear" [] [el "global" [("detectorName", "D".toList)] [], .comment rootComment.toList, el "detectors" []
    [el "detector" [("name", "TrackerPlanes".toList), ("geartype", "TrackerPlanesParameters".toList)] cs], el "materials" [] []]], ?_, ?_⟩
  · unfold createXMLFile writeDetectors
    dsimp only
    rw [hw]
    rfl
  · have hr : ∀ G, readDetector E (el "detector" [("name", "TrackerPlanes".toList), ("geartype",
        "TrackerPlanesParameters".toList)] cs) G = (G, .ub) := by
      intro G
      unfold readDetector
      rw [attr_el, attr_el]
      simp only [find, String.reduceEq, if_true, if_false]
      rw [handler_of "TrackerPlanesParameters" 5 (by simp)]
      show store (trackerFromXML _) G _ = _
      rw [h2]
      rfl
    have hd : readDocument E [el "gear" [] [el "global" [("detectorName", "D".toList)] [], .comment rootComment.toList, el "detectors" []
        [el "detector" [("name", "TrackerPlanes".toList), ("geartype", "TrackerPlanesParameters".toList)] cs], el "materials" [] []]]
        = Read.andThen (Read.andThen (readDetector E (el "detector" [("name", "TrackerPlanes".toList), ("geartype",
          "TrackerPlanesParameters".toList)] cs) { detectorName := str "D".toList }) (readAll (readDetector E) []))
          (readMaterials (el "gear" [] [el "global" [("detectorName", "D".toList)] [], .comment rootComment.toList, el "detectors" []
        [el "detector" [("name", "TrackerPlanes".toList), ("geartype", "TrackerPlanesParameters".toList)] cs], el "materials" [] []])) := by
      rfl
    rw [hd, hr]
    rfl

end Gear.Xml
