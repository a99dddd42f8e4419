/-
C131: the properties of the geometry in a GDML file.
-/
import Verif.Gdml
import Verif.XmlFileProps

set_option autoImplicit false
set_option linter.unusedSectionVars false

namespace Gear.Gdml

/-! ### The library -/

/-- A call of the user. -/
inductive Call where
  | config (key value : String)
  | initialize

/-- A call, whether or not it throws. -/
def Call.apply (R : Root) (p : Plugin) : Call → Plugin
  | .config key value => p.setConfig key value
  | .initialize => (p.initialize R).1

/-- The calls on a new object, oldest first. -/
def run (R : Root) (h : List Call) : Plugin := h.foldl (Call.apply R) {}

/-- The file name in a call. -/
def Call.fileName : Call → Option String
  | .config key value => if key = "GDMLFileName" then some value else none
  | .initialize => none

/-- The file name that is configured after these calls: the last one, nothing if there was none. -/
def fileName (h : List Call) : String := (h.filterMap Call.fileName).getLastD ""

/-- The geometry read last: the newest call of `initialize` that found a file. -/
inductive Last (R : Root) : List Call → GeoMgr → Prop
  | read (h later : List Call) (m : GeoMgr) (hm : R (fileName h) = some m)
      (hlater : ∀ a b, later = a ++ .initialize :: b → R (fileName (h ++ .initialize :: a)) = none) :
      Last R (h ++ .initialize :: later) m

theorem run_concat (R : Root) (h : List Call) (c : Call) : run R (h ++ [c]) = c.apply R (run R h) := by
  simp [run]

theorem fileName_concat (h : List Call) (c : Call) : fileName (h ++ [c]) = (c.fileName).getD (fileName h) := by
  unfold fileName
  rw [List.filterMap_append]
  cases hc : c.fileName with
  | none => simp [hc]
  | some v => simp [hc]

theorem find_run (R : Root) (h : List Call) : (SMap.find? "GDMLFileName" (run R h).cfg).getD "" = fileName h := by
  induction h using List.reverseRecOn with
  | nil => rfl
  | append_singleton h c ih =>
    rw [run_concat, fileName_concat]
    cases c with
    | config key value =>
      simp only [Call.apply, Plugin.setConfig, Call.fileName]
      rw [SMap.find?_set]
      split_ifs with h1 h2 h2
      · rfl
      · exact absurd h1 (by simpa [eq_comm] using h2)
      · exact absurd h2 (by simpa [eq_comm] using h1)
      · exact ih
    | «initialize» =>
      simp only [Call.apply, Call.fileName, Option.getD_none]
      rw [← ih]
      unfold Plugin.initialize Plugin.configAt
      cases hf : SMap.find? "GDMLFileName" (run R h).cfg with
      | some v =>
        dsimp only
        unfold initializer
        cases R v <;> simp [hf]
      | none =>
        dsimp only
        unfold initializer
        cases R "" <;> simp [Plugin.setConfig, SMap.find?_set_self]

theorem init_initialize (R : Root) (h : List Call) : (run R (h ++ [.initialize])).init
    = match R (fileName h) with
      | some m => some m
      | none => (run R h).init := by
  rw [run_concat, ← find_run R h]
  simp only [Call.apply]
  unfold Plugin.initialize Plugin.configAt
  cases hf : SMap.find? "GDMLFileName" (run R h).cfg with
  | some v =>
    dsimp only [Option.getD_some]
    unfold initializer
    cases R v <;> rfl
  | none =>
    dsimp only [Option.getD_none]
    unfold initializer
    cases R "" <;> rfl

theorem init_iff (R : Root) (h : List Call) (m : GeoMgr) : (run R h).init = some m ↔ Last R h m := by
  induction h using List.reverseRecOn with
  | nil =>
    constructor
    · intro h; cases h
    · intro h
      generalize e : ([] : List Call) = h' at h
      cases h
      simp at e
  | append_singleton h c ih =>
    have step : ∀ {c : Call}, c ≠ .initialize → (Last R (h ++ [c]) m ↔ Last R h m) := by
      intro c hc
      constructor
      · intro hl
        generalize e : h ++ [c] = h' at hl
        cases hl with
        | read a later _ hm hlater =>
          rcases List.eq_nil_or_concat later with rfl | ⟨l, d, rfl⟩
          · have := List.append_inj' e rfl
            simp at this
            exact absurd this.2 hc
          · rw [List.concat_eq_append, ← List.cons_append, ← List.append_assoc] at e
            obtain ⟨e1, e2⟩ := List.append_inj' e rfl
            subst e1
            refine .read _ _ _ hm fun x y hxy => hlater x (y ++ [d]) ?_
            rw [hxy]; simp
      · intro hl
        cases hl with
        | read a later _ hm hlater =>
          rw [List.append_assoc, List.cons_append]
          refine .read _ _ _ hm fun x y hxy => ?_
          rcases List.eq_nil_or_concat y with rfl | ⟨y, d, rfl⟩
          · have := (List.append_inj' hxy rfl).2
            simp at this
            exact absurd this hc
          · refine hlater x y ?_
            rw [List.concat_eq_append, ← List.cons_append, ← List.append_assoc] at hxy
            exact (List.append_inj' hxy rfl).1
    cases c with
    | config key value =>
      rw [step (by simp), ← ih, run_concat]
      rfl
    | «initialize» =>
      rw [init_initialize]
      cases hr : R (fileName h) with
      | some m' =>
        simp only [Option.some.injEq]
        constructor
        · rintro rfl
          exact .read _ [] _ hr (by simp)
        · intro hl
          generalize e : h ++ [Call.initialize] = h' at hl
          cases hl with
          | read a later _ hm hlater =>
            rcases List.eq_nil_or_concat later with rfl | ⟨l, d, rfl⟩
            · have := (List.append_inj' e rfl).1
              subst this
              rw [hr] at hm
              exact Option.some.inj hm
            · rw [List.concat_eq_append, ← List.cons_append, ← List.append_assoc] at e
              obtain ⟨e1, e2⟩ := List.append_inj' e rfl
              simp only [List.cons.injEq, and_true] at e2
              subst e2
              have := hlater l [] (by simp)
              rw [← e1, hr] at this
              cases this
      | none =>
        dsimp only
        rw [ih]
        constructor
        · intro hl
          cases hl with
          | read a later _ hm hlater =>
            rw [List.append_assoc, List.cons_append]
            refine .read _ _ _ hm fun x y hxy => ?_
            rcases List.eq_nil_or_concat y with rfl | ⟨y, d, rfl⟩
            · have := (List.append_inj' hxy rfl).1
              subst this
              exact hr
            · refine hlater x y ?_
              rw [List.concat_eq_append, ← List.cons_append, ← List.append_assoc] at hxy
              exact (List.append_inj' hxy rfl).1
        · intro hl
          generalize e : h ++ [Call.initialize] = h' at hl
          cases hl with
          | read a later _ hm hlater =>
            rcases List.eq_nil_or_concat later with rfl | ⟨l, d, rfl⟩
            · have := (List.append_inj' e rfl).1
              subst this
              rw [hr] at hm
              cases hm
            · rw [List.concat_eq_append, ← List.cons_append, ← List.append_assoc] at e
              obtain ⟨e1, e2⟩ := List.append_inj' e rfl
              subst e1
              refine .read _ _ _ hm fun x y hxy => hlater x (y ++ [d]) ?_
              rw [hxy]; simp

/-! ### C131 -/

/-- After any calls, both getters give objects for the geometry that was read last; a call of `initialize` that throws changes nothing. -/
theorem properties_of_last (R : Root) (h : List Call) (m : GeoMgr) :
    ((run R h).getGearPointProperties = some ⟨m⟩ ↔ Last R h m) ∧ ((run R h).getGearDistanceProperties = some ⟨m⟩ ↔ Last R h m) := by
  rw [← init_iff]
  unfold Plugin.getGearPointProperties Plugin.getGearDistanceProperties
  cases (run R h).init <;> simp

/-- They are null exactly if no call of `initialize` has found its file. -/
theorem null_iff (R : Root) (h : List Call) :
    ((run R h).getGearPointProperties = none ↔ ∀ a b, h = a ++ .initialize :: b → R (fileName a) = none)
    ∧ ((run R h).getGearDistanceProperties = none ↔ ∀ a b, h = a ++ .initialize :: b → R (fileName a) = none) := by
  have key : (run R h).init = none ↔ ∀ a b, h = a ++ .initialize :: b → R (fileName a) = none := by
    constructor
    · induction h using List.reverseRecOn with
      | nil => intro _ a b e; simp at e
      | append_singleton h c ih =>
        intro hn a b e
        rcases List.eq_nil_or_concat b with rfl | ⟨b, d, rfl⟩
        · obtain ⟨e1, e2⟩ := List.append_inj' e rfl
          simp only [List.cons.injEq, and_true] at e2
          subst e1 e2
          rw [init_initialize] at hn
          cases hr : R (fileName h) with
          | none => rfl
          | some m => rw [hr] at hn; cases hn
        · rw [List.concat_eq_append, ← List.cons_append, ← List.append_assoc] at e
          obtain ⟨e1, -⟩ := List.append_inj' e rfl
          refine ih ?_ a b e1
          cases c with
          | config key value => rw [run_concat] at hn; exact hn
          | «initialize» =>
            rw [init_initialize] at hn
            cases hr : R (fileName h) with
            | none => rw [hr] at hn; exact hn
            | some m => rw [hr] at hn; cases hn
    · intro hall
      cases hi : (run R h).init with
      | none => rfl
      | some m =>
        cases (init_iff R h m).1 hi with
        | read a later _ hm _ => rw [hall a later rfl] at hm; cases hm
  unfold Plugin.getGearPointProperties Plugin.getGearDistanceProperties
  rw [Option.map_eq_none_iff, Option.map_eq_none_iff]
  exact ⟨key, key⟩

/-- `initialize` throws a `ParseException` exactly if there is no geometry in the file that is configured. -/
theorem initialize_throws_iff (R : Root) (h : List Call) :
    ((run R h).initialize R).2 = match R (fileName h) with
      | some _ => .ok ()
      | none => .throw .parse := by
  rw [← find_run R h]
  unfold Plugin.initialize Plugin.configAt
  cases hf : SMap.find? "GDMLFileName" (run R h).cfg with
  | some v =>
    dsimp only [Option.getD_some]
    cases e : R v <;> simp [initializer, e]
  | none =>
    dsimp only [Option.getD_none]
    cases e : R "" <;> simp [initializer, e]

/-- Two files, of which the second is missing at first, and a misspelt key. -/
def calls : List Call := [.initialize, .config "GDMLFileName" "ild.gdml", .config "GDML" "x", .initialize, .config "GDMLFileName" "no.gdml",
  .initialize]

def files : Root := fun n => if n = "ild.gdml" then some 7 else none

example : (run files calls).getGearPointProperties = some ⟨7⟩ := by decide +kernel

example : (run files (calls.take 3)).getGearDistanceProperties = none
    ∧ ((run files (calls.take 3)).initialize files).2 = .ok () ∧ ((run files (calls.take 5)).initialize files).2 = .throw .parse := by
  refine ⟨by decide +kernel, ?_, ?_⟩
  · rw [initialize_throws_iff]; decide +kernel
  · rw [initialize_throws_iff]; decide +kernel

end Gear.Gdml

namespace Gear.Xml

open Gdml (GeoMgr)

/-- The GDML file that a document names: the attribute "name" of the first "GDMLFile" in the root. -/
def gdmlName (nodes : List Node) : Option Text :=
  (nodes.find? Node.isElt).bind fun root => (root.firstChild "GDMLFile").bind fun n => n.attr "name"

/-- The geometry that a manager answers for: that in the file named, if the library can be loaded. -/
def gdmlOf (E : FileEnv) (nodes : List Node) : Option GeoMgr :=
  E.gdml.bind fun R => (gdmlName nodes).bind fun name => R (str name)

theorem store_keeps {α : Type} {β : Type} (f : Geometry → β) {r : Res α} {g : Geometry} {h : α → Geometry} (hk : ∀ a, f (h a) = f g) :
    f (store r g h).1 = f g := by
  unfold store
  cases r <;> simp [hk]

theorem then_keeps {β : Type} (f : Geometry → β) {r : Read} {h : Geometry → Read} (hk : ∀ g, f (h g).1 = f g) :
    f (r.andThen h).1 = f r.1 := by
  unfold Read.andThen
  cases r.2 <;> simp [hk]

theorem readAll_keeps {β : Type} (f : Geometry → β) {body : Node → Geometry → Read} (hk : ∀ n g, f (body n g).1 = f g)
    (l : List Node) (g : Geometry) : f (readAll body l g).1 = f g := by
  induction l generalizing g with
  | nil => rfl
  | cons n ns ih =>
    rw [readAll, then_keeps f ih]
    exact hk n g

/-- The answers that a manager can give. -/
def Geometry.props (g : Geometry) : Option Gdml.PointProperties × Option Gdml.DistanceProperties :=
  (g.pointProperties, g.distanceProperties)

theorem readDetector_keeps (E : FileEnv) (n : Node) (g : Geometry) : (readDetector E n g).1.props = g.props := by
  unfold readDetector
  split
  · rfl
  split
  · rfl
  split
  · rfl
  unfold handle
  split
  · exact store_keeps _ fun _ => rfl
  · exact store_keeps _ fun _ => rfl
  · refine store_keeps _ fun _ => ?_
    unfold storeCalo; split <;> rfl
  · refine store_keeps _ fun _ => ?_
    unfold storeZPlanar; split <;> rfl
  · exact store_keeps _ fun _ => rfl
  · exact store_keeps _ fun _ => rfl
  · exact store_keeps _ fun _ => rfl
  · rfl

theorem readMaterials_keeps (root : Node) (g : Geometry) : (readMaterials root g).1.props = g.props := by
  unfold readMaterials
  split
  · rfl
  refine readAll_keeps _ (fun n g => ?_) _ _
  unfold readMaterial
  split
  · split
    · unfold storeMaterial; split <;> rfl
    · rfl
    · rfl
  · rfl

theorem readGlobal_keeps (root : Node) (g : Geometry) : (readGlobal root g).1.props = g.props := by
  unfold readGlobal
  split
  · rfl
  · exact store_keeps _ fun _ => rfl

theorem readField_keeps (root : Node) (g : Geometry) : (readField root g).1.props = g.props := by
  unfold readField
  split
  · rfl
  split
  · exact store_keeps _ fun _ => rfl
  · rfl

theorem andThen_ok {r : Read} {h : Geometry → Read} {g : Geometry} (e : r.andThen h = (g, .ok ())) :
    r.2 = .ok () ∧ h r.1 = (g, .ok ()) := by
  unfold Read.andThen at e
  split at e
  · exact ⟨‹_›, e⟩
  · cases e
  · cases e

theorem useGdml_eq (R : Gdml.Root) (name : String) (g : Geometry) : useGdml R name g = match R name with
    | some m => ({ g with pointProperties := some ⟨m⟩, distanceProperties := some ⟨m⟩ }, .ok ())
    | none => (g, .throw .parse) := by
  unfold useGdml Gdml.Plugin.initialize Gdml.Plugin.configAt
  dsimp only
  have : SMap.find? "GDMLFileName" (({} : Gdml.Plugin).setConfig "GDMLFileName" name).cfg = some name := SMap.find?_set_self _ _ _
  rw [this]
  dsimp only
  unfold Gdml.initializer
  cases R name <;> rfl

/-- A manager that `createGearMgr` returns answers questions about points and about distances for the geometry in the file that is named in
"GDMLFile"; if there is no such element or the library cannot be loaded, it has neither. -/
theorem gdml_read {E : FileEnv} {nodes : List Node} {g : Geometry} (h : (createGearMgr E (.ok (true, nodes)) {}).2 = .ok g) :
    g.pointProperties = (gdmlOf E nodes).map (⟨·⟩) ∧ g.distanceProperties = (gdmlOf E nodes).map (⟨·⟩) := by
  obtain ⟨ns, e, h⟩ := (first_call E _ _).1 h
  cases e
  unfold readDocument at h
  unfold gdmlOf gdmlName
  cases hr : nodes.find? Node.isElt with
  | none => rw [hr] at h; cases h
  | some root =>
    rw [hr] at h
    dsimp only at h
    unfold readRoot at h
    obtain ⟨-, h⟩ := andThen_ok h
    have k1 := readGlobal_keeps root {}
    cases hd : root.firstChild "detectors" with
    | none => rw [hd] at h; cases h
    | some d =>
      rw [hd] at h
      dsimp only at h
      obtain ⟨-, h⟩ := andThen_ok h
      have k2 := readField_keeps root (readGlobal root {}).1
      obtain ⟨o3, h⟩ := andThen_ok h
      generalize (readField root (readGlobal root {}).1).1 = g2 at *
      obtain ⟨-, h⟩ := andThen_ok h
      have k4 := readAll_keeps Geometry.props (readDetector_keeps E) (d.named "detector") (readGdml E root g2).1
      have k5 := readMaterials_keeps root (readAll (readDetector E) (d.named "detector") (readGdml E root g2).1).1
      rw [h] at k5
      have k : g.props = (readGdml E root g2).1.props := k5.trans k4
      have k0 : g2.props = (none, none) := k2.trans k1
      suffices hs : (readGdml E root g2).1.props = ((gdmlOf E nodes).map (⟨·⟩), (gdmlOf E nodes).map (⟨·⟩)) by
        rw [hs] at k
        unfold gdmlOf gdmlName at k
        rw [hr] at k
        exact ⟨congrArg Prod.fst k, congrArg Prod.snd k⟩
      unfold gdmlOf gdmlName
      rw [hr]
      unfold readGdml at o3 ⊢
      cases hg : root.firstChild "GDMLFile" with
      | none => cases E.gdml <;> simp [hg, k0]
      | some n =>
        rw [hg] at o3
        dsimp only at o3 ⊢
        unfold getXMLAttribute at o3 ⊢
        cases ha : n.attr "name" with
        | none => rw [ha] at o3; cases o3
        | some name =>
          rw [ha] at o3
          dsimp only at o3 ⊢
          cases he : E.gdml with
          | none => simp [he, k0]
          | some R =>
            rw [he] at o3
            dsimp only at o3 ⊢
            rw [useGdml_eq] at o3 ⊢
            cases hm : R (str name) with
            | none => rw [hm] at o3; cases o3
            | some m => simp [hg, ha, hm, Geometry.props]

/-- If the library can be loaded and the file named cannot be read, `createGearMgr` does not return a manager. -/
theorem gdml_unreadable {E : FileEnv} {R : Gdml.Root} (hR : E.gdml = some R) {nodes : List Node} {name : Text}
    (hn : gdmlName nodes = some name) (hm : R (str name) = none) (g : Geometry) :
    (createGearMgr E (.ok (true, nodes)) {}).2 ≠ .ok g := by
  intro h
  obtain ⟨ns, e, h⟩ := (first_call E _ _).1 h
  cases e
  unfold readDocument at h
  unfold gdmlName at hn
  cases hr : nodes.find? Node.isElt with
  | none => rw [hr] at h; cases h
  | some root =>
    rw [hr] at h hn
    dsimp only [Option.bind_some] at h hn
    unfold readRoot at h
    obtain ⟨-, h⟩ := andThen_ok h
    cases hd : root.firstChild "detectors" with
    | none => rw [hd] at h; cases h
    | some d =>
      rw [hd] at h
      dsimp only at h
      obtain ⟨-, h⟩ := andThen_ok h
      obtain ⟨o3, -⟩ := andThen_ok h
      unfold readGdml at o3
      cases hg : root.firstChild "GDMLFile" with
      | none => rw [hg] at hn; cases hn
      | some n =>
        rw [hg] at o3 hn
        dsimp only [Option.bind_some] at o3 hn
        unfold getXMLAttribute at o3
        rw [hn, hR] at o3
        dsimp only at o3
        rw [useGdml_eq, hm] at o3
        cases o3

theorem find_skip {α : Type} {p : α → Bool} {x : α} (h : p x = false) (a b : List α) : (a ++ x :: b).find? p = (a ++ b).find? p := by
  rw [List.find?_append, List.find?_append, List.find?_cons_of_neg (by simp [h])]

/-- Without the library, a document is read as if it did not have the element. -/
theorem gdml_ignored {E : FileEnv} (hE : E.gdml = none) (tag : Text) (attrs : List (Text × Text)) (a b : List Node) {gdml : Node}
    (hv : gdml.value = "GDMLFile".toList) {name : Text} (hn : gdml.attr "name" = some name)
    (hother : ∀ n ∈ a ++ b, n.value ≠ "GDMLFile".toList) (x : GearXML) :
    createGearMgr E (.ok (true, [.element tag attrs (a ++ gdml :: b)])) x
      = createGearMgr E (.ok (true, [.element tag attrs (a ++ b)])) x := by
  have hf : ∀ s : String, s ≠ "GDMLFile" → (Node.element tag attrs (a ++ gdml :: b)).firstChild s
      = (Node.element tag attrs (a ++ b)).firstChild s := by
    intro s hs
    refine find_skip ?_ a b
    rw [hv, decide_eq_false_iff_not]
    exact fun e => hs (String.toList_injective e).symm
  have hg1 : ∀ g, readGdml E (.element tag attrs (a ++ gdml :: b)) g = (g, .ok ()) := by
    intro g
    have : (Node.element tag attrs (a ++ gdml :: b)).firstChild "GDMLFile" = some gdml := by
      show (a ++ gdml :: b).find? _ = _
      rw [List.find?_append, List.find?_eq_none.2 (fun n hn => by rw [decide_eq_true_iff]; exact hother n (List.mem_append_left _ hn)),
        List.find?_cons_of_pos (by rw [decide_eq_true_iff]; exact hv)]
      rfl
    unfold readGdml getXMLAttribute
    rw [this]
    dsimp only
    rw [hn, hE]
  have hg2 : ∀ g, readGdml E (.element tag attrs (a ++ b)) g = (g, .ok ()) := by
    intro g
    have : (Node.element tag attrs (a ++ b)).firstChild "GDMLFile" = none := by
      show (a ++ b).find? _ = _
      exact List.find?_eq_none.2 fun n hn => by rw [decide_eq_true_iff]; exact hother n hn
    unfold readGdml
    rw [this]
  have hr : readRoot E (.element tag attrs (a ++ gdml :: b)) {} = readRoot E (.element tag attrs (a ++ b)) {} := by
    unfold readRoot readGlobal readField readMaterials
    simp only [hf _ (show "global" ≠ "GDMLFile" by decide), hf _ (show "detectors" ≠ "GDMLFile" by decide),
      hf _ (show "BField" ≠ "GDMLFile" by decide), hf _ (show "materials" ≠ "GDMLFile" by decide), hg1, hg2]
  have hd : readDocument E [.element tag attrs (a ++ gdml :: b)] = readDocument E [.element tag attrs (a ++ b)] := hr
  unfold createGearMgr
  dsimp only
  rw [hd]

/-! A file with a GDML file, a field and a detector of the user's own. -/

def gdmlFile : List Node :=
  [el "gear" [] [el "GDMLFile" [("name", "ild.gdml".toList)] [], el "detectors" []
    [el "detector" [("name", "a".toList), ("geartype", "GearParameters".toList)] []]]]

example (E : FileEnv) : (createGearMgr { E with gdml := some Gdml.files } (.ok (true, gdmlFile)) {}).2
    = .ok { generic := [("a", {})], pointProperties := some ⟨7⟩, distanceProperties := some ⟨7⟩ } := by rfl

example (E : FileEnv) : (createGearMgr { E with gdml := some fun _ => none } (.ok (true, gdmlFile)) {}).2 = .throw .parse := by rfl

example (E : FileEnv) : (createGearMgr { E with gdml := none } (.ok (true, gdmlFile)) {}).2 = .ok { generic := [("a", {})] } := by
  have := gdml_ignored (E := { E with gdml := none }) rfl "gear".toList [] [] [el "detectors" []
    [el "detector" [("name", "a".toList), ("geartype", "GearParameters".toList)] []]] (gdml := el "GDMLFile" [("name", "ild.gdml".toList)] [])
    rfl (name := "ild.gdml".toList) rfl (by decide +kernel) {}
  exact (congrArg Prod.snd this).trans rfl

end Gear.Xml
