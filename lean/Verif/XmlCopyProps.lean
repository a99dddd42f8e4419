/-
Copying a geometry file: C136.
-/
import Verif.XmlCopy
import Verif.XmlFileProps
import Verif.XmlDiskProps

set_option autoImplicit false
set_option linter.unusedSectionVars false

namespace Gear.Xml

open ZPlanar (PlanarFns)
open TpcModule.Spec (Known)
open TpcModule (Unsupported)

namespace Spec

/-- Neighbouring layers that are close, before or after their numbers are written with ten digits, are equal. -/
def StableCalo (s : CaloSection) : Prop :=
  ∀ k a b, (s.calo.layout.map plateOf)[k]? = some a → (s.calo.layout.map plateOf)[k + 1]? = some b →
    Close a b ∨ Close (a.map r10) (b.map r10) → a = b

/-- A layout that is written again as before. -/
def StableLayout (pi : ℚ) (L : PadLayout) : Prop :=
  ∃ e L', layoutToXML L = .ok e ∧ layoutFromXML pi e = .ok L' ∧ layoutToXML L' = .ok e

/-- A TPC without a drift velocity, the readout frequencies of which have one digit. -/
structure StableTpc (E : Env) (s : TpcSection) : Prop where
  velocity : TpcParams.getDriftVelocity s.tpc = 0
  frequency : ∀ m ∈ s.mods, ∃ n : ℤ, -9 ≤ n ∧ n ≤ 9 ∧ TpcModule.getReadoutFrequency m.module = n
  layouts : ∀ m ∈ s.mods, StableLayout E.F.pi m.layout

/-- A geometry whose file is not changed by copying it. -/
structure Stable (E : FileEnv) (g : Geometry) : Prop where
  tpc : ∀ s, g.tpc = some s → StableTpc E.tpc s
  calo : ∀ x s, g.calo x = some s → StableCalo s

end Spec

open Spec

/-! ### Sections that are written again -/

theorem format_r10 (x : ℚ) : formatE (r10 x) = formatE x := double_stable x

theorem paramNodes_again {α : Type} (keys : List String) {get get' : String → Res α} (r : α → α) (type : String) {text : α → Text}
    (hg : ∀ k, get' k = r <$> get k) (ht : ∀ v, text (r v) = text v) : paramNodes keys get' type text = paramNodes keys get type text := by
  unfold paramNodes
  congr 1
  funext k
  rw [hg]
  cases get k with
  | ok v => exact congrArg (fun t => Res.ok (paramNode k type t)) (ht v)
  | throw e => rfl
  | ub => rfl

/-- Named parameters that are the same to ten digits are written the same. -/
theorem params_again {p q : Params ℚ} (h : SameParams r10 p q) : getXMLForParameters q = getXMLForParameters p := by
  have id_map : ∀ {α : Type} (x : Res α), id <$> x = x := fun x => by cases x <;> rfl
  unfold getXMLForParameters
  rw [h.intKeys, h.doubleKeys, h.stringKeys, h.intVecKeys, h.doubleVecKeys, h.stringVecKeys]
  rw [paramNodes_again _ id "int" (fun k => (h.int k).trans (id_map _).symm) (fun _ => rfl),
    paramNodes_again _ r10 "double" h.double format_r10,
    paramNodes_again _ id "string" (fun k => (h.string k).trans (id_map _).symm) (fun _ => rfl),
    paramNodes_again _ id "IntVec" (fun k => (h.intVec k).trans (id_map _).symm) (fun _ => rfl),
    paramNodes_again _ (List.map r10) "DoubleVec" h.doubleVec (fun v => by
      rw [List.map_map]
      congr 1
      exact List.map_congr_left fun x _ => format_r10 x),
    paramNodes_again _ id "StringVec" (fun k => (h.stringVec k).trans (id_map _).symm) (fun _ => rfl)]

theorem paramsToXML_again {p q : Params ℚ} (h : SameParams r10 p q) : paramsToXML q = paramsToXML p := by
  unfold paramsToXML
  rw [params_again h]

theorem bField_again {f f' : BField} (h : SameField f f') : bFieldToXML f' = bFieldToXML f := by
  unfold bFieldToXML
  rw [params_again h.2, h.1]
  simp only [format_r10]

theorem material_again (m : Material) :
    materialToXML ⟨m.name, r10 m.a, r10 m.z, r10 m.density, r10 m.radLength, r10 m.intLength⟩ = materialToXML m := by
  unfold materialToXML
  simp only [format_r10]

theorem zplanar_again {F : PlanarFns ℚ} {s s' : ZPlanarSection} (hi : Params.Inv s.params) (h : SameZ F s s') :
    zplanarToXML F s' = zplanarToXML F s := by
  obtain ⟨⟨b, h1, h2⟩, hp⟩ := h
  obtain ⟨geo, p⟩ := s
  obtain ⟨geo', p'⟩ := s'
  dsimp only at h1 h2 hp hi
  subst h1 h2
  have e : zplanarToXML F ⟨(b.map r10).run F, p'⟩ = zplanarToXML F ⟨(b.map r10).run F, p⟩ := by
    unfold zplanarToXML
    rw [params_again hp]
  rw [e, zplanarToXML_eq F b hi, zplanarToXML_eq F (b.map r10) hi]
  have hl : ∀ a : ZLayerArgs, zLayerNode (a.map r10) = zLayerNode a := fun a => by
    simp only [zLayerNode, ZLayerArgs.map, mapSize, format_r10]
  simp only [zplanarChildren, ZPlanarBuild.map, format_r10, List.map_map, Function.comp_def, hl]

theorem ftd_again {s s' : FtdSection} (hs : SavableFtd s) (h : SameFtd s s') : ftdToXML s' = ftdToXML s := by
  have hi := SavableParams.inv hs.params
  obtain ⟨-, l0, h0, h7, -⟩ := hs
  obtain ⟨⟨l, h1, h2⟩, hp⟩ := h
  obtain ⟨geo, p⟩ := s
  obtain ⟨geo', p'⟩ := s'
  dsimp only at h0 h1 h2 hp hi
  subst h1 h2
  have hlen : l.length ≤ 7 := by
    have := congrArg List.length h0
    rw [ftdRun_eq, ftdRun_eq, List.length_map, List.length_map] at this
    omega
  have e : ftdToXML ⟨ftdRun (l.map (FtdLayerArgs.map r10)), p'⟩ = ftdToXML ⟨ftdRun (l.map (FtdLayerArgs.map r10)), p⟩ := by
    unfold ftdToXML
    rw [params_again hp]
  rw [e, ftdToXML_eq hlen hi, ftdToXML_eq (by rw [List.length_map]; exact hlen) hi]
  have hl : ∀ a : FtdLayerArgs, ftdLayerNode (a.map r10) = ftdLayerNode a := fun a => by
    simp only [ftdLayerNode, FtdLayerArgs.map, mapShape, format_r10]
    rfl
  simp only [ftdChildren, List.map_map, Function.comp_def, hl]

theorem si_again {s s' : SiSection} (hs : SavableSi s) (h : SameSi s s') : siToXML s' = siToXML s := by
  have hi := SavableParams.inv hs.params
  have hl : s.layout.lVec.length = s.layout.sVec.length := by
    obtain ⟨past, hp⟩ := hs.made
    rw [hp]
    exact (Telescope.lengths past).1.trans (Telescope.lengths past).2.symm
  obtain ⟨h1, h2, h3, h4, hp⟩ := h
  obtain ⟨id', type', number', layout', p'⟩ := s'
  dsimp only at h1 h2 h3 h4 hp
  subst h1 h2 h3 h4
  have e : siToXML ⟨s.id, s.type, s.number, keptSi s, p'⟩ = siToXML ⟨s.id, s.type, s.number, keptSi s, s.params⟩ := by
    unfold siToXML
    rw [params_again hp]
  rw [e, siToXML_eq s hl hi, siToXML_eq ⟨s.id, s.type, s.number, keptSi s, s.params⟩ (by simp [keptSi, hl]) hi]
  have hn : ∀ (l : Telescope.Layer ℚ) (x : Telescope.SensLayer ℚ),
      siLayerNode (mapLayer r10 l) (keptSens (mapSens r10 x)) = siLayerNode l x := fun l x => by
    simp only [siLayerNode, mapLayer, keptSens, mapSens, format_r10]
  have hd : ∀ (l : Telescope.Layer ℚ) (x : Telescope.SensLayer ℚ),
      siDutNode (keptDutL (mapLayer r10 l)) (keptDutS (mapSens r10 x)) = siDutNode l x := fun l x => by
    simp only [siDutNode, mapLayer, keptDutL, keptDutS, mapSens, format_r10]
  by_cases ht : s.type = 1
  · simp only [siChildren, keptSi, if_pos ht, hd, List.zip_map, List.map_map, Function.comp_def, Prod.map, hn]
  · simp only [siChildren, keptSi, if_neg ht, List.zip_map, List.map_map, Function.comp_def, Prod.map, hn]

/-! ### Calorimeters -/

theorem caloLayerNode_again (n : ℤ) (p : Plate) : caloLayerNode n (p.map r10) = caloLayerNode n p := by
  simp only [caloLayerNode, Plate.map, format_r10]

theorem groups_again : ∀ (vs : List Plate) (rep : ℕ) (cur : Plate),
    (∀ k a b, (cur :: vs)[k]? = some a → (cur :: vs)[k + 1]? = some b → (k = 0 → 0 < rep) →
      Close a b ∨ Close (a.map r10) (b.map r10) → a = b) →
    (groupsFrom rep (cur.map r10) (vs.map (Plate.map r10))) = (groupsFrom rep cur vs).map fun g => (g.1, g.2.map r10) := by
  intro vs
  induction vs with
  | nil =>
    intro rep cur _
    simp only [List.map_nil, groupsFrom]
    split_ifs <;> rfl
  | cons v vs ih =>
    intro rep cur h
    have htail : ∀ n, ∀ k a b, (v :: vs)[k]? = some a → (v :: vs)[k + 1]? = some b → (k = 0 → 0 < n) →
        Close a b ∨ Close (a.map r10) (b.map r10) → a = b := fun _ k a b ha hb _ hc =>
      h (k + 1) a b (by simpa using ha) (by simpa using hb) (by omega) hc
    rw [List.map_cons, groupsFrom, groupsFrom]
    by_cases hr : 0 < rep
    · have hiff : changed (cur.map r10) (v.map r10) = true ↔ changed cur v = true := by
        rw [changed_iff, changed_iff, not_iff_not]
        have := h 0 cur v rfl rfl (fun _ => hr)
        constructor
        · intro hc
          rw [this (.inr hc)]
          exact close_refl _
        · intro hc
          rw [this (.inl hc)]
          exact close_refl _
      by_cases hc : changed cur v = true
      · rw [if_pos ⟨hiff.2 hc, hr⟩, if_pos ⟨hc, hr⟩, ih 1 v (htail 1)]
        rfl
      · rw [if_neg fun hh => hc (hiff.1 hh.1), if_neg fun hh => hc hh.1, ih _ v (htail _)]
    · rw [if_neg fun hh => hr hh.2, if_neg fun hh => hr hh.2, ih _ v (htail _)]

theorem calo_again {s s' : CaloSection} (hi : Params.Inv s.params) (hs : StableCalo s) (h : SameCalo s s') :
    caloToXML s' = caloToXML s := by
  obtain ⟨⟨ps, hk, hc⟩, hp⟩ := h
  have hd : ps = s.calo.layout.map plateOf := kept_distinct hk fun k a b ha hb hcl => hs k a b ha hb (.inl hcl)
  subst hd
  obtain ⟨c, p⟩ := s
  obtain ⟨c', p'⟩ := s'
  dsimp only at hc hp hi hs hk
  subst hc
  have e : caloToXML ⟨readCalo r10 c (c.layout.map plateOf), p'⟩ = caloToXML ⟨readCalo r10 c (c.layout.map plateOf), p⟩ := by
    unfold caloToXML
    rw [params_again hp]
  have hg : groups (readCalo r10 c (c.layout.map plateOf)).layout = (groups c.layout).map fun g => (g.1, g.2.map r10) := by
    have hz : (⟨0, 0, 0, 0⟩ : Plate) = Plate.map r10 ⟨0, 0, 0, 0⟩ := by simp only [Plate.map, r10_zero]
    unfold groups readCalo
    rw [place_plates]
    nth_rewrite 1 [hz]
    refine groups_again _ 0 _ fun k a b ha hb hk0 hcl => ?_
    cases k with
    | zero => exact absurd (hk0 rfl) (lt_irrefl 0)
    | succ k => exact hs k a b (by simpa using ha) (by simpa using hb) hcl
  rw [e, caloToXML_eq _ hi, caloToXML_eq _ hi]
  unfold caloChildren
  rw [hg, List.map_map]
  have hl : (fun g : ℕ × Plate => caloLayerNode g.1 g.2) ∘ (fun g : ℕ × Plate => (g.1, g.2.map r10))
      = fun g : ℕ × Plate => caloLayerNode g.1 g.2 := by
    funext g
    exact caloLayerNode_again _ _
  rw [hl]
  unfold readCalo dimensionsNode
  cases ht : c.type <;> simp only [Calo.mkBarrel, Calo.mkEndcap, format_r10]

/-! ### Time projection chambers -/

theorem module_again {pi : ℚ} {m m' : ModuleSection} (hL : StableLayout pi m.layout)
    (hf : ∃ n : ℤ, -9 ≤ n ∧ n ≤ 9 ∧ TpcModule.getReadoutFrequency m.module = n) (h : SameModule pi m m') :
    moduleToXML m' = moduleToXML m := by
  obtain ⟨e, L', e1, e2, e3⟩ := hL
  obtain ⟨e', f1, f2⟩ := h.layout
  rw [e1] at f1
  cases f1
  rw [e2] at f2
  obtain rfl : L' = m'.layout := by injection f2
  obtain ⟨n, n1, n2, hn⟩ := hf
  have hz : zPositionNodes m'.module = zPositionNodes m.module := by
    unfold zPositionNodes
    by_cases hset : m.module.zPositionIsSet = true
    · have h1 : TpcModule.getZPosition m.module = .ok m.module.zPosition := by
        unfold TpcModule.getZPosition
        rw [if_pos hset]
      rw [h1, h.z _ h1]
      dsimp only
      rw [format_r10]
    · have h1 : TpcModule.getZPosition m.module = .throw .noZPosition := by
        unfold TpcModule.getZPosition
        rw [if_neg hset]
      rw [h1, h.noZ h1]
  unfold moduleToXML
  rw [e1, e3, params_again h.params, h.id, h.frequency n n1 n2 hn, hn, h.offset, h.angle, h.border, hz]
  simp only [format_r10]

theorem mapM_again {α : Type} {f : α → Res Node} {R : α → α → Prop} : ∀ {l l' : List α}, List.Forall₂ R l l' →
    (∀ a ∈ l, ∀ b, R a b → f b = f a) → l'.mapM f = l.mapM f
  | _, _, .nil, _ => rfl
  | a :: l, b :: l', .cons h hs, hf => by
    rw [List.mapM_cons, List.mapM_cons, hf a (by simp) b h, mapM_again hs fun a ha => hf a (by simp [ha])]

theorem tpc_again {E : Env} {s s' : TpcSection} (hs : StableTpc E s) (h : SameTpc E s s') : tpcToXML s' = tpcToXML s := by
  obtain ⟨h1, h2, h3, -, hp, h5⟩ := h
  unfold tpcToXML
  rw [h1, h2, h5, hs.velocity, params_again hp, mapM_again h3 fun m hm m' hmm => module_again (hs.layouts m hm) (hs.frequency m hm) hmm]
  simp only [format_r10]

/-! ### The whole file -/

theorem writeSection_again {α : Type} {toXML : α → Res Node} {R : α → α → Prop} (name type : String) {o o' : Option α}
    (h : Option.Rel R o o') (hw : ∀ s s', o = some s → R s s' → toXML s' = toXML s) :
    writeSection toXML name type o' = writeSection toXML name type o := by
  cases h with
  | none => rfl
  | @some a b hr =>
    unfold writeSection getSection
    simp only [Res.bind_ok]
    rw [hw a b rfl hr]

theorem forall₂_of_find {α : Type} {R : α → α → Prop} : ∀ {m m' : SMap String α}, (SMap.keys m).Nodup → SMap.keys m' = SMap.keys m →
    (∀ k, Option.Rel R (SMap.find? k m) (SMap.find? k m')) → List.Forall₂ (fun e e' : String × α => e'.1 = e.1 ∧ R e.2 e'.2) m m' := by
  intro m
  induction m with
  | nil =>
    intro m' _ hk _
    cases m' with
    | nil => exact .nil
    | cons e m' => cases hk
  | cons e m ih =>
    intro m' hn hk hf
    cases m' with
    | nil => cases hk
    | cons e' m' =>
      obtain ⟨k, v⟩ := e
      obtain ⟨k', v'⟩ := e'
      simp only [SMap.keys, List.map_cons, List.cons.injEq] at hk
      obtain ⟨rfl, hk⟩ := hk
      have hn' : k' ∉ SMap.keys m ∧ (SMap.keys m).Nodup := List.nodup_cons.1 hn
      refine .cons ⟨rfl, ?_⟩ (ih hn'.2 hk fun j => ?_)
      · have := hf k'
        rw [SMap.find?, SMap.find?, if_pos rfl, if_pos rfl] at this
        cases this
        assumption
      · by_cases hj : j = k'
        · subst hj
          rw [(SMap.find?_eq_none_iff _ m).2 hn'.1,
            (SMap.find?_eq_none_iff _ m').2 (by rw [show SMap.keys m' = SMap.keys m from hk]; exact hn'.1)]
          exact .none
        · have := hf j
          rw [SMap.find?, SMap.find?, if_neg (Ne.symm hj), if_neg (Ne.symm hj)] at this
          exact this

/-- The same geometry is written the same. -/
theorem file_again {E : FileEnv} {g g' : Geometry} (h : Savable E g) (hs : Stable E g) (hg : SameGeometry E g g') :
    createXMLFile E g' = createXMLFile E g := by
  have hfield : (do let f ← getSection g'.bField; bFieldToXML f) = (do let f ← getSection g.bField; bFieldToXML f) := by
    have := hg.field
    revert this
    cases g.bField <;> cases g'.bField <;> intro this <;> cases this
    · rfl
    · rename_i hf
      exact bField_again hf
  have hdet : writeDetectors E g' = writeDetectors E g := by
    unfold writeDetectors
    rw [writeSection_again "TPC" "TPCParameters" hg.tpc fun s s' e r => tpc_again (hs.tpc s e) r]
    have hc : (fun x : Section × String => writeSection caloToXML x.2 "CalorimeterParameters" (g'.calo x.1))
        = fun x => writeSection caloToXML x.2 "CalorimeterParameters" (g.calo x.1) := by
      funext x
      exact writeSection_again _ _ (hg.calo x.1) fun s s' e r => calo_again (SavableParams.inv (h.calo _ s e).2.params) (hs.calo _ s e) r
    rw [hc]
    have hz : ∀ x name, writeSection (zplanarToXML E.planar) name "ZPlanarParameters" (g'.zplanar x)
        = writeSection (zplanarToXML E.planar) name "ZPlanarParameters" (g.zplanar x) := fun x name =>
      writeSection_again _ _ (hg.zplanar x) fun s s' e r => zplanar_again (SavableParams.inv (h.zplanar _ s e).2.params) r
    rw [hz, hz, hz, writeSection_again "FTD" "FTDParameters" hg.ftd fun s s' e r => ftd_again (h.ftd s e) r, hg.tracker,
      writeSection_again "SiPlanes" "SiPlanesParameters" hg.si fun s s' e r => si_again (h.si s e) r]
    have hgen := forall₂_of_find (h.genericSorted.nodup) hg.genericKeys hg.generic
    rw [mapM_again hgen fun e _ e' r => by rw [paramsToXML_again r.2, r.1]]
  have hmat : g'.materials.map (fun m => materialToXML m.2) = g.materials.map fun m => materialToXML m.2 := by
    have := forall₂_of_find (R := fun m m' : Material =>
      m' = ⟨m.name, r10 m.a, r10 m.z, r10 m.density, r10 m.radLength, r10 m.intLength⟩) (h.materialsSorted.nodup) hg.materialKeys
      (fun k => by
        rw [hg.material k]
        cases SMap.find? k g.materials with
        | none => exact .none
        | some m => exact .some rfl)
    generalize g.materials = a, g'.materials = b at this
    clear hfield hdet
    induction this with
    | nil => rfl
    | cons h1 _ ih => rw [List.map_cons, List.map_cons, ih, h1.2, material_again]
  unfold createXMLFile
  rw [hfield, hdet, hmat]
  unfold writtenName
  rw [hg.name]

/-! ### C136 -/

/-- C136: the file written for a geometry that can be saved, whose sections are stable, is copied without a change. -/
theorem saved_copy_partial (E : FileEnv) (g : Geometry) (h : Savable E g) (hs : Stable E g) :
    ∃ doc, createXMLFile E g = .ok doc ∧ copyFile E (printDocument doc) = .ok (printDocument doc) := by
  obtain ⟨doc, g', h1, -, h3, h4⟩ := file_roundtrip_partial E g h
  refine ⟨doc, h1, ?_⟩
  unfold copyFile
  rw [h3, Res.bind_ok, file_again h hs h4, h1, Res.bind_ok]

/-- C136: if the geometry in a file can be saved and its sections are stable, the file can be copied, and all further copies are
equal to the first.  What cannot be saved is listed at `Savable`; for what is not stable see the theorems below. -/
theorem copy_copy_partial (E : FileEnv) (file : Text) (g : Geometry) (hr : (createGearMgr E (loadFile file) {}).2 = .ok g)
    (h : Savable E g) (hs : Stable E g) : ∃ first, copyFile E file = .ok first ∧ ∀ n, copies E (n + 1) file = .ok first := by
  obtain ⟨doc, h1, h2⟩ := saved_copy_partial E g h hs
  have h0 : copyFile E file = .ok (printDocument doc) := by
    unfold copyFile
    rw [hr, Res.bind_ok, h1, Res.bind_ok]
  refine ⟨_, h0, fun n => ?_⟩
  have : ∀ n, copies E n (printDocument doc) = .ok (printDocument doc) := by
    intro n
    induction n with
    | zero => rfl
    | succ n ih => rw [copies, h2, Res.bind_ok, ih]
  rw [copies, h0, Res.bind_ok, this]

/-! ### Layouts -/

theorem r10_eq_zero {x : ℚ} (h : r10 x = 0) : x = 0 := by
  have := double_error x
  rw [show atof (formatE x) = 0 from h, zero_sub, abs_neg] at this
  have h0 := abs_nonneg x
  have h1 : |x| ≤ 0 := by
    norm_num at this
    linarith
  exact abs_eq_zero.1 (le_antisymm h1 h0)

theorem rectNode_again (b : RectBuild) : rectNode (b.map r10) = rectNode b := by
  have hrow : ∀ a : RectRow, rectArgNode (a.explicit.map r10).explicit = rectArgNode a.explicit := by
    intro a
    have hh : (a.explicit.map r10).explicit.rowHeight = r10 a.explicit.rowHeight := by
      show (if r10 a.explicit.rowHeight = 0 then r10 a.explicit.padHeight else r10 a.explicit.rowHeight) = r10 a.explicit.rowHeight
      by_cases h1 : r10 a.explicit.rowHeight = 0
      · rw [if_pos h1]
        have h2 : (if a.rowHeight = 0 then a.padHeight else a.rowHeight) = 0 := r10_eq_zero h1
        by_cases h0 : a.rowHeight = 0
        · rw [if_pos h0] at h2
          have : a.explicit.rowHeight = a.explicit.padHeight := by
            show (if a.rowHeight = 0 then a.padHeight else a.rowHeight) = a.padHeight
            rw [if_pos h0]
          rw [this]
        · rw [if_neg h0] at h2
          exact absurd h2 h0
      · rw [if_neg h1]
    have : (a.explicit.map r10).explicit = a.explicit.map r10 := by
      have e : ∀ x : RectRow, x.explicit = { x with rowHeight := x.explicit.rowHeight } := fun x => rfl
      rw [e, hh]
      rfl
    rw [this]
    simp only [rectArgNode, RectRow.map, format_r10]
    rfl
  unfold rectNode RectBuild.map
  simp only [format_r10, List.map_map, Function.comp_def, hrow]

/-- C136, rectangular layouts built by any calls of `addRow`: they are written again as before, if the rows that are read still have
room for their pads. -/
theorem rect_stable_partial (pi : ℚ) (b : RectBuild) (L L' : Rect.Layout ℚ) (h : b.run = .ok L) (hi : b.Ints)
    (h' : (b.map r10).run = .ok L') : StableLayout pi (.rect L) := by
  refine ⟨rectNode b, .rect { L' with repeatRows := 1 }, rectToXML_eq h, ?_, ?_⟩
  · have : rectFromXML (rectNode b) = .ok { L' with repeatRows := 1 } := by
      rw [rectFromXML_eq (rect_inv b h).pos hi, h']
      rfl
    unfold layoutFromXML
    rw [rectNode, attrOf_el]
    simp only [find, if_true, Res.bind_ok]
    exact congrArg (asLayout PadLayout.rect) this
  · have h1 := rectToXML_eq h'
    have hrows : ∀ n i r, rectRows { L' with repeatRows := 1 } n i r = rectRows L' n i r := by
      intro n
      induction n with
      | zero => intros; rfl
      | succ n ih => intro i r; simp only [rectRows, ih]
    have hrep := (rect_inv _ h').rep
    show rectToXML { L' with repeatRows := 1 } = _
    rw [← rectNode_again, ← h1]
    unfold rectToXML
    simp only [hrows, hrep, show ¬ (1 : ℤ) > 1 by decide, show ¬ (0 : ℤ) > 1 by decide, if_false]

/-- C136, disks with pads of a fixed size whose numbers have at most ten digits. -/
theorem padSize_stable_partial (F : Disk.Fns ℚ) (hp : 0 < F.pi) (A : PadSize.Spec.Args ℚ) (L0 L : PadSize.Layout ℚ)
    (h0 : PadSize.new F.pi A.rMin A.rMax A.padHeight A.padWidth A.nRow A.padGap A.phiMax = .ok L0)
    (h : PadSize.Spec.Made F A L) (hi : IsInt (PadSize.getNRows L))
    (hx : ∀ x ∈ [A.rMin, A.rMax, A.padHeight, A.padWidth, A.padGap, PadSize.wrapPhiMax F.pi A.phiMax], TenDigits x) :
    StableLayout F.pi (.padSize L) := by
  obtain ⟨e, h1, h2⟩ := padSize_exact_partial F hp A L0 L h0 h hi hx
  refine ⟨e, _, h1, h2, ?_⟩
  rw [← h1]
  exact (padSizeToXML_eq (.new h0)).trans (padSizeToXML_eq h).symm

/-! ### What changes with every copy -/

/-- C136 is false for a TPC with a drift velocity: the section that is written after reading is another one. -/
theorem velocity_copy_false (E : Env) (s : TpcSection) (h : SavableTpc E s) (hv : TpcParams.getDriftVelocity s.tpc ≠ 0) :
    ∃ e s', tpcToXML s = .ok e ∧ tpcFromXML E e = .ok s' ∧ tpcToXML s' ≠ .ok e := by
  obtain ⟨attrs, cs, h1, -, -, h4⟩ := through_tpc h
  obtain ⟨s', h5, -, -, -, -, -, h6⟩ := h4 attrs
  refine ⟨_, s', h1, h5, fun he => ?_⟩
  rw [← h1] at he
  have find : ∀ {s : TpcSection} {e : Node}, tpcToXML s = .ok e →
      ∃ a b t, e = el "detector" [("geartype", "TPCParameters".toList)] (a :: el "driftVelocity" [("value", t)] [] :: b)
        ∧ t = formatE (TpcParams.getDriftVelocity s.tpc) := by
    intro s e h
    unfold tpcToXML at h
    cases h1 : coordinateText (TpcParams.getCoordinateType s.tpc) <;> rw [h1] at h <;> try cases h
    cases h2 : s.mods.mapM moduleToXML <;> rw [h2] at h <;> try cases h
    cases h3 : getXMLForParameters s.params <;> rw [h3] at h <;> cases h
    exact ⟨_, _, _, rfl, rfl⟩
  obtain ⟨a, b, t, e1, e2⟩ := find (he.trans h1)
  obtain ⟨a', b', t', e1', e2'⟩ := find h1
  rw [e1, el, el] at e1'
  have ht : t = t' := by
    injection e1' with _ _ e
    injection e with _ e
    injection e with e _
    unfold el at e
    injection e with _ e _
    injection e with e _
    exact congrArg Prod.snd e
  rw [e2, e2', h6] at ht
  have : r10 (TpcParams.getDriftVelocity s.tpc) = r10 0 := congrArg atof ht.symm
  rw [r10_zero] at this
  exact hv (r10_eq_zero this)

/-- C136 is false for a module with a readout frequency of ten or more: what is written after reading is another number. -/
theorem frequency_copy_false (E : Env) (t : ℤ) (ht : Known t) (m : ModuleSection) (hm : Good E t m)
    (hf : 10 ≤ |TpcModule.getReadoutFrequency m.module|) (n : ℤ) :
    ∃ e m', moduleToXML m = .ok e ∧ moduleFromXML E e none t n = .ok m' ∧ moduleToXML m' ≠ .ok e := by
  obtain ⟨⟨L, le, h1, h2⟩, hi, hw, hid, hu⟩ := hm
  refine ⟨_, _, moduleToXML_eq h1 hi, moduleFromXML_eq E h1 h2 hi (writable_of_storable hi hw) hid ht hu n, fun he => ?_⟩
  obtain ⟨_, _, _, _, hty⟩ := layout_element h1
  have hu' : ¬ Unsupported t L.coordinateType := by rw [hty _ _ h2]; exact hu
  obtain ⟨-, -, -, hv⟩ := build_ok E m.module.moduleID L (atoi (formatE m.module.readoutFrequency) : ℚ)
    (r10 m.module.offset.1, r10 m.module.offset.2) ((zOf m.module).map r10) (r10 m.module.angle) (r10 m.module.border) ht hu'
  have hv' : (readModule E m.module L t).readoutFrequency = (atoi (formatE m.module.readoutFrequency) : ℚ) :=
    congrArg ModuleValues.frequency hv
  have find : ∀ {m : ModuleSection} {e : Node}, moduleToXML m = .ok e →
      ∃ a b t, e = el "module" [] (a :: el "readoutFrequency" [("value", t)] [] :: b) ∧ t = formatE m.module.readoutFrequency := by
    intro m e h
    unfold moduleToXML at h
    cases h1 : layoutToXML m.layout <;> rw [h1] at h <;> try cases h
    cases h2 : getXMLForParameters m.params <;> rw [h2] at h <;> cases h
    exact ⟨_, _, _, rfl, rfl⟩
  obtain ⟨a, b, x, e1, e2⟩ := find he
  obtain ⟨a', b', x', e1', e2'⟩ := find (moduleToXML_eq h1 hi)
  rw [e1, el, el] at e1'
  have hx : x = x' := by
    injection e1' with _ _ e
    injection e with _ e
    injection e with e _
    unfold el at e
    injection e with _ e _
    injection e with e _
    exact congrArg Prod.snd e
  rw [e2, e2'] at hx
  have hx : r10 (readModule E m.module L t).readoutFrequency = r10 m.module.readoutFrequency := congrArg atof hx
  obtain ⟨b1, b2⟩ := atoi_formatE m.module.readoutFrequency
  rw [hv'] at hx
  generalize atoi (formatE m.module.readoutFrequency) = k at b1 b2 hx
  have hk : r10 (k : ℚ) = k := r10_eq ⟨k, 0, by rw [abs_lt]; omega, by norm_num⟩
  rw [hk] at hx
  have hc := double_error m.module.readoutFrequency
  rw [show atof (formatE m.module.readoutFrequency) = r10 m.module.readoutFrequency from rfl, ← hx] at hc
  have hk9 : |(k : ℚ)| ≤ 9 := by
    rw [abs_le]
    constructor <;> exact_mod_cast (by omega)
  have hf' : 10 ≤ |m.module.readoutFrequency| := hf
  have := abs_sub_abs_le_abs_sub m.module.readoutFrequency (k : ℚ)
  rw [abs_sub_comm] at this
  norm_num at hc
  linarith

/-- C136 is false for versatile disks: every copy divides the pitch of the pads by the radius of their row. -/
theorem versatile_copy_false (pi : ℚ) (L L' : Versatile.Layout ℚ) (hi : ∀ row ∈ L.rows, IsInt row.nPads) (e : Node)
    (h : layoutToXML (.versatile L) = .ok e) (h' : layoutFromXML pi e = .ok (.versatile L')) (i : ℕ) (row row' : Versatile.Row ℚ)
    (hr : L.rows[i]? = some row) (hr' : L'.rows[i]? = some row') (h0 : row.padPitch ≠ 0) (h1 : 2 ≤ row'.rCentre) :
    layoutToXML (.versatile L') ≠ .ok e := by
  intro he
  obtain ⟨-, -, hrow⟩ := versatile_rows_partial pi L L' hi e h h'
  obtain ⟨row1, e1, -, -, -, -, e2, -⟩ := hrow i row hr
  rw [hr'] at e1
  cases e1
  rw [← h] at he
  have hn : versatileRowNode row' = versatileRowNode row := by
    have he : Res.ok (el "PadRowLayout2D" [("type", "VersatileDiskRowLayout".toList), ("rMin", formatE L'.ext0)] (L'.rows.map versatileRowNode))
      = Res.ok (el "PadRowLayout2D" [("type", "VersatileDiskRowLayout".toList), ("rMin", formatE L.ext0)] (L.rows.map versatileRowNode)) := he
    injection he with he
    unfold el at he
    injection he with _ _ he
    have := congrArg (fun l : List Node => l[i]?) he
    simp only [List.getElem?_map, hr, hr', Option.map_some, Option.some.injEq] at this
    exact this
  have hp : formatE row'.padPitch = formatE row.padPitch := by
    unfold versatileRowNode el at hn
    injection hn with _ hn _
    injection hn with _ hn
    injection hn with hn _
    exact congrArg Prod.snd hn
  have hp : r10 row'.padPitch = r10 row.padPitch := congrArg atof hp
  have hc := double_error row'.padPitch
  rw [show atof (formatE row'.padPitch) = r10 row'.padPitch from rfl, hp, e2] at hc
  have hq : r10 row.padPitch ≠ 0 := fun h => h0 (r10_eq_zero h)
  generalize r10 row.padPitch = q at hc hq
  generalize row'.rCentre = c at hc h1
  have hcpos : (0 : ℚ) < c := by linarith
  have e3 : q - q / c = q / c * (c - 1) := by field_simp
  rw [e3, abs_mul, abs_of_pos (show (0 : ℚ) < c - 1 by linarith)] at hc
  have hpos : 0 < |q / c| := abs_pos.2 (div_ne_zero hq hcpos.ne')
  norm_num at hc
  nlinarith

/-- Five layers that become thinner towards the end by five hundred-thousandths. -/
def thinCalo : CaloSection := ⟨{ newCalo .barrel 1700 2600 0 8 0 with
  layout := place 1700 [⟨1, 0, 10, 10⟩, ⟨1.0002, 0, 10, 10⟩, ⟨1.00015, 0, 10, 10⟩, ⟨1.0001, 0, 10, 10⟩, ⟨1.00005, 0, 10, 10⟩] }, {}⟩

/-- C136 is false for calorimeters with layers that differ by little: the first copy replaces the second to the fourth layer by the
last, and since that is close to the first, the second copy replaces the first layer as well. -/
theorem calo_copy_false : ∃ e s e' s', caloToXML thinCalo = .ok e ∧ caloFromXML e = .ok s ∧ caloToXML s = .ok e'
    ∧ caloFromXML e' = .ok s' ∧ e' ≠ e ∧ s.calo.layout.map Calo.Layer.thickness = [1, 1.00005, 1.00005, 1.00005, 1.00005]
    ∧ s'.calo.layout.map Calo.Layer.thickness = [1.00005, 1.00005, 1.00005, 1.00005, 1.00005] := by
  have h : (match caloToXML thinCalo with
    | .ok e => match caloFromXML e with
      | .ok s => match caloToXML s with
        | .ok e' => match caloFromXML e' with
          | .ok s' => decide (e' ≠ e ∧ s.calo.layout.map Calo.Layer.thickness = [1, 1.00005, 1.00005, 1.00005, 1.00005]
            ∧ s'.calo.layout.map Calo.Layer.thickness = [1.00005, 1.00005, 1.00005, 1.00005, 1.00005])
          | _ => false
        | _ => false
      | _ => false
    | _ => false) = true := by decide +kernel
  split at h
  · rename_i e h1
    split at h
    · rename_i s h2
      split at h
      · rename_i e' h3
        split at h
        · rename_i s' h4
          exact ⟨e, s, e', s', h1, h2, h3, h4, of_decide_eq_true h⟩
        · cases h
      · cases h
    · cases h
  · cases h

/-! ### Examples -/

theorem stable_of {s : CaloSection} (h : List.IsChain (fun a b => a = b ∨ (changed a b = true ∧ changed (a.map r10) (b.map r10) = true))
    (s.calo.layout.map plateOf)) : StableCalo s := by
  intro k a b ha hb hc
  rw [List.isChain_iff_getElem] at h
  obtain ⟨h1, rfl⟩ := List.getElem?_eq_some_iff.1 ha
  obtain ⟨h2, rfl⟩ := List.getElem?_eq_some_iff.1 hb
  rcases h k h2 with h | ⟨g1, g2⟩
  · exact h
  · rcases hc with hc | hc
    · exact absurd hc ((changed_iff _ _).1 g1)
    · exact absurd hc ((changed_iff _ _).1 g2)

/-- A TPC with a module that is read out with a frequency of four. -/
theorem exampleStableTpc (E : Env) : ∃ s, SavableTpc E s ∧ StableTpc E s ∧ s.mods.length = 1 := by
  obtain ⟨L, hL, hL'⟩ : ∃ L, exampleRect.run = .ok L ∧ ∃ L', (exampleRect.map r10).run = .ok L' := by
    have h1 : (match exampleRect.run with | .ok _ => true | _ => false) = true := by decide +kernel
    have h2 : (match (exampleRect.map r10).run with | .ok _ => true | _ => false) = true := by decide +kernel
    cases h : exampleRect.run with
    | ok L =>
      cases h' : (exampleRect.map r10).run with
      | ok L' => exact ⟨L, rfl, L', rfl⟩
      | throw e => rw [h'] at h2; cases h2
      | ub => rw [h'] at h2; cases h2
    | throw e => rw [h] at h1; cases h1
    | ub => rw [h] at h1; cases h1
  obtain ⟨L', hL'⟩ := hL'
  have hst := rect_stable_partial E.F.pi exampleRect L L' hL (by unfold RectBuild.Ints IsInt; decide) hL'
  have hread : ∃ L', ReadLayout E.F.pi (.rect L) L' := by
    obtain ⟨e, L1, h1, h2, -⟩ := hst
    exact ⟨L1, e, h1, h2⟩
  have e0 : (TpcParams.new (2500 : ℚ) TpcModule.CARTESIAN).coordinateType = TpcModule.CARTESIAN
      ∧ (TpcParams.new (2500 : ℚ) TpcModule.CARTESIAN).maxDriftLength = 2500 := by decide +kernel
  have s0 : TpcMade E ⟨TpcParams.new 2500 TpcModule.CARTESIAN, [], Params.run sampleOps⟩ := .params _ (.new 2500 _)
  obtain ⟨s1, a1⟩ := add_ok (knows_made s0) (m := ⟨TpcModule.new 7 ((PadLayout.rect L).view E.Q) TpcModule.CARTESIAN 4, .rect L,
    Params.run sampleOps⟩) e0.1.symm (by intro m' h; cases h)
  obtain ⟨-, t1, d1, v1, mm1, p1⟩ := add_inv (knows_made s0) a1
  have hp := savable_params.2
  have t1' : TpcParams.getCoordinateType s1.tpc = TpcModule.CARTESIAN := t1.trans e0.1
  refine ⟨s1, ⟨by rw [p1]; exact hp, .add _ s0 a1, .inl t1', ?_, ?_⟩, ⟨v1, ?_, ?_⟩, by rw [mm1]; rfl⟩
  · rw [mm1, t1']
    simp only [List.nil_append, List.forall_mem_cons, List.not_mem_nil, false_imp_iff, implies_true, and_true]
    exact ⟨⟨hread, Params.inv_run sampleOps, storable_sampleOps, by show IsInt 7; unfold IsInt; decide,
      by show ¬ Unsupported TpcModule.CARTESIAN TpcModule.CARTESIAN; unfold Unsupported; decide⟩, hp.plain⟩
  · show r10 s1.tpc.maxDriftLength ≠ -1
    rw [d1.trans e0.2]
    decide +kernel
  · rw [mm1]
    simp only [List.nil_append, List.forall_mem_cons, List.not_mem_nil, false_imp_iff, implies_true, and_true]
    exact ⟨4, by decide, by decide, by show (4 : ℚ) = ((4 : ℤ) : ℚ); norm_num⟩
  · rw [mm1]
    simp only [List.nil_append, List.forall_mem_cons, List.not_mem_nil, false_imp_iff, implies_true, and_true]
    exact hst

/-- The hypotheses of `velocity_copy_false` are met. -/
example (E : Env) : ∃ s, SavableTpc E s ∧ TpcParams.getDriftVelocity s.tpc = 45 ∧ s.mods.length = 1 := by
  obtain ⟨s, h, -, hl⟩ := exampleStableTpc E
  exact ⟨{ s with tpc := TpcParams.setDriftVelocity s.tpc 45 }, ⟨h.params, .velocity 45 h.made, h.type, h.modules, h.drift⟩, rfl, hl⟩

/-- The hypotheses of `frequency_copy_false` are met. -/
example (E : Env) : ∃ m, Good E TpcModule.CARTESIAN m ∧ 10 ≤ |TpcModule.getReadoutFrequency m.module| := by
  obtain ⟨L, s, m1, m2, -, -, -, -, -, rfl, -, -, -, -, hg⟩ := exampleTpc E TpcModule.CARTESIAN (Or.inl rfl)
  exact ⟨_, (hg (by unfold Unsupported; decide)).1, by show (10 : ℚ) ≤ |40|; norm_num⟩

/-- The hypotheses of `versatile_copy_false` are met. -/
example : ∃ L L' e row row', layoutToXML (.versatile L) = .ok e ∧ layoutFromXML (355 / 113) e = .ok (.versatile L')
    ∧ (∀ row ∈ L.rows, IsInt row.nPads) ∧ L.rows[0]? = some row ∧ L'.rows[0]? = some row' ∧ row.padPitch ≠ 0 ∧ 2 ≤ row'.rCentre
    ∧ layoutToXML (.versatile L') ≠ .ok e := by
  have h : (match exampleVersatile with
    | .ok L => match layoutToXML (.versatile L) with
      | .ok e => match layoutFromXML (355 / 113) e with
        | .ok (.versatile L') => match L.rows[0]?, L'.rows[0]? with
          | some row, some row' => decide (row.padPitch ≠ 0 ∧ 2 ≤ row'.rCentre ∧ ∀ row ∈ L.rows, -2 ^ 31 ≤ row.nPads ∧ row.nPads < 2 ^ 31)
          | _, _ => false
        | _ => false
      | _ => false
    | _ => false) = true := by decide +kernel
  split at h
  · rename_i L h1
    split at h
    · rename_i e h2
      split at h
      · rename_i L' h3
        split at h
        · rename_i row row' h4 h5
          obtain ⟨g1, g2, g3⟩ := of_decide_eq_true h
          exact ⟨L, L', e, row, row', h2, h3, g3, h4, h5, g1, g2, versatile_copy_false _ L L' g3 e h2 h3 0 row row' h4 h5 g1 g2⟩
        · cases h
      · cases h
    · cases h
  · cases h

/-- A geometry with a TPC, calorimeters, ladders, disks, a telescope and materials is saved and copied any number of times without a
change. -/
example (E : FileEnv) : ∃ g doc, g.tpc.isSome ∧ (g.calo .ecalBarrel).isSome ∧ g.siPlanes.isSome ∧ g.ftd.isSome
    ∧ createXMLFile E g = .ok doc ∧ copyFile E (printDocument doc) = .ok (printDocument doc)
    ∧ ∀ n, copies E (n + 1) (printDocument doc) = .ok (printDocument doc) := by
  obtain ⟨-, g, h, -, -, -, -, e1, e2, -, e3, e4, -⟩ := savable_example E
  obtain ⟨s, hs, hst, -⟩ := exampleStableTpc E.tpc
  have hcalo : ∀ x c, (if x = Section.ecalBarrel then g.calo x else none) = some c → g.calo x = some c ∧ x = .ecalBarrel := by
    intro x c hx
    split_ifs at hx with hb
    exact ⟨hx, hb⟩
  have hg : Savable E { g with tpc := some s, calo := fun x => if x = .ecalBarrel then g.calo x else none } :=
    ⟨h.name, h.field, by rintro _ ⟨⟩; exact hs, fun x c hx => h.calo x c (hcalo x c hx).1, h.zplanar, h.ftd, h.si, h.tracker, h.genericSorted, h.generic, h.materialsSorted,
      h.materials, h.point, h.distance⟩
  have hc : ∀ x c, (if x = Section.ecalBarrel then g.calo x else none) = some c → StableCalo c := by
    intro x c hx
    obtain ⟨hx, rfl⟩ := hcalo x c hx
    rw [e1] at hx
    cases hx
    exact stable_of (by decide +kernel)
  obtain ⟨doc, h1, h2⟩ := saved_copy_partial E _ hg ⟨by rintro _ ⟨⟩; exact hst, hc⟩
  refine ⟨_, doc, rfl, by show (if Section.ecalBarrel = .ecalBarrel then g.calo .ecalBarrel else none).isSome = true; rw [if_pos rfl, e1]; rfl, by rw [e4]; rfl, by rw [e3]; rfl, h1, h2, fun n => ?_⟩
  induction n with
  | zero => rw [copies, h2]; rfl
  | succ n ih => rw [copies, h2, Res.bind_ok, ih]

end Gear.Xml
