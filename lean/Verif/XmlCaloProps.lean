/-
Calorimeters in XML: C58, C59.
-/
import Verif.XmlCalo
import Verif.CaloProps

set_option autoImplicit false
set_option linter.unusedSectionVars false

namespace Gear.Xml

open Spec
open Calo (Kind)

/-- What a layer is apart from its place. -/
def plateOf (l : Calo.Layer ℚ) : Plate := ⟨l.thickness, l.absorberThickness, l.cellSize0, l.cellSize1⟩

/-- Apply a function to all numbers. -/
def Plate.map (r : ℚ → ℚ) (p : Plate) : Plate := ⟨r p.thickness, r p.absorber, r p.cell0, r p.cell1⟩

namespace Spec

/-- Two numbers that differ by less than a ten-thousandth of their mean. -/
def CloseNum (a b : ℚ) : Prop := a = b ∨ |a - b| < |a + b| / 2 / 10000

/-- Two layers that differ by so little in all values. -/
def Close (a b : Plate) : Prop :=
  CloseNum a.thickness b.thickness ∧ CloseNum a.absorber b.absorber ∧ CloseNum a.cell0 b.cell0 ∧ CloseNum a.cell1 b.cell1

/-- Layers placed one after the other. -/
def place (d : ℚ) : List Plate → List (Calo.Layer ℚ)
  | [] => []
  | p :: ps => ⟨d, p.thickness, p.absorber, p.cell0, p.cell1⟩ :: place (d + p.thickness) ps

/-- `ps` has as many layers as `L`, each of which is one of `L`: the one at the same place or a later one, with only close neighbours
in between. -/
def Kept (L ps : List Plate) : Prop :=
  ps.length = L.length ∧ ∀ i < L.length, ∃ j, i ≤ j ∧ ps[i]? = L[j]? ∧ j < L.length
    ∧ ∀ k a b, i ≤ k → k < j → L[k]? = some a → L[k + 1]? = some b → Close a b

/-- Neighbours that are close are equal. -/
def Distinct (L : List Plate) : Prop := ∀ k a b, L[k]? = some a → L[k + 1]? = some b → Close a b → a = b

end Spec

/-! ### Runs of layers -/

theorem isEqual_iff (a b : ℚ) : isEqual a b = true ↔ CloseNum a b := by
  unfold isEqual CloseNum
  rw [show (a + b) / 2 * (1 / 10000) = (a + b) / 20000 by ring, abs_div, abs_of_pos (show (0 : ℚ) < 20000 by norm_num),
    show |a + b| / 2 / 10000 = |a + b| / 20000 by ring]
  split_ifs with h
  · simp [h]
  · simp [h]

theorem close_refl (a : Plate) : Close a a := ⟨.inl rfl, .inl rfl, .inl rfl, .inl rfl⟩

/-- The test of the loop. -/
def changed (a b : Plate) : Bool :=
  !isEqual a.thickness b.thickness || !isEqual a.absorber b.absorber || !isEqual a.cell0 b.cell0 || !isEqual a.cell1 b.cell1

theorem changed_iff (a b : Plate) : changed a b = true ↔ ¬ Close a b := by
  unfold changed Close
  simp only [← isEqual_iff, Bool.or_eq_true, Bool.not_eq_true', not_and_or, Bool.not_eq_true, or_assoc]

/-- The runs that are written. -/
def groupsFrom (rep : ℕ) (cur : Plate) : List Plate → List (ℕ × Plate)
  | [] => if 0 < rep then [(rep, cur)] else []
  | v :: vs => if changed cur v = true ∧ 0 < rep then (rep, cur) :: groupsFrom 1 v vs else groupsFrom (rep + 1) v vs

/-- The layers of the runs. -/
def expand (gs : List (ℕ × Plate)) : List Plate := gs.flatMap fun g => List.replicate g.1 g.2

theorem loop_eq (L : Calo.Layout ℚ) : ∀ (vs pre : Calo.Layout ℚ) (out : List Node) (rep : ℕ) (cur : Plate), pre ++ vs = L →
    ∃ st, (List.range' pre.length vs.length).foldlM (fun (st : CaloLoop) (i : ℕ) => caloLoopBody L st (i : ℤ)) ⟨out, rep, cur⟩
      = .ok st ∧ st.out ++ (if 0 < st.repN then [caloLayerNode st.repN st.cur] else [])
        = out ++ (groupsFrom rep cur (vs.map plateOf)).map fun g => caloLayerNode g.1 g.2 := by
  intro vs
  induction vs with
  | nil =>
    intro pre out rep cur _
    refine ⟨_, rfl, ?_⟩
    simp only [List.map_nil, groupsFrom, Int.natCast_pos]
    split_ifs <;> simp
  | cons v vs ih =>
    intro pre out rep cur hL
    have hb : caloLoopBody L ⟨out, rep, cur⟩ ((pre.length : ℕ) : ℤ)
        = if changed cur (plateOf v) = true ∧ 0 < rep then .ok ⟨out ++ [caloLayerNode rep cur], 1, plateOf v⟩
          else .ok ⟨out, rep + 1, plateOf v⟩ := by
      have : L[pre.length]? = some v := by rw [← hL]; simp
      unfold caloLoopBody Calo.getThickness Calo.getAbsorberThickness Calo.getCellSize0 Calo.getCellSize1
      rw [Calo.at'_nat, this]
      simp only [Res.bind_ok, Res.pure_eq, Int.natCast_pos]
      rfl
    rw [List.length_cons, List.range'_succ, List.foldlM_cons, hb]
    have hn : pre.length + 1 = (pre ++ [v]).length := by simp
    rw [List.map_cons, groupsFrom, hn]
    by_cases hc : changed cur (plateOf v) = true ∧ 0 < rep
    · rw [if_pos hc, if_pos hc, Res.bind_ok]
      obtain ⟨st, h1, h2⟩ := ih (pre ++ [v]) (out ++ [caloLayerNode rep cur]) 1 (plateOf v) (by rw [← hL]; simp)
      exact ⟨st, h1, by rw [h2]; simp⟩
    · rw [if_neg hc, if_neg hc, Res.bind_ok]
      exact ih (pre ++ [v]) out (rep + 1) (plateOf v) (by rw [← hL]; simp)

theorem expand_cons (g : ℕ × Plate) (gs : List (ℕ × Plate)) : expand (g :: gs) = List.replicate g.1 g.2 ++ expand gs := rfl

theorem replicate_get {n k : ℕ} {a b : Plate} {l : List Plate} (h : k < n) (he : (List.replicate n a ++ l)[k]? = some b) : b = a := by
  rw [List.getElem?_append_left (by simpa using h), List.getElem?_replicate, if_pos h] at he
  exact (Option.some.inj he).symm

/-- What becomes of a list with `rep` copies of `cur` in front. -/
theorem kept_groups : ∀ (vs : List Plate) (rep : ℕ) (cur : Plate),
    Kept (List.replicate rep cur ++ vs) (expand (groupsFrom rep cur vs)) := by
  intro vs
  induction vs with
  | nil =>
    intro rep cur
    have : expand (groupsFrom rep cur []) = List.replicate rep cur := by
      unfold groupsFrom
      split_ifs with h
      · simp [expand]
      · simp [expand, show rep = 0 by omega]
    rw [this, List.append_nil]
    exact ⟨rfl, fun i hi => ⟨i, le_refl _, rfl, hi, fun k a b h1 h2 => by omega⟩⟩
  | cons v vs ih =>
    intro rep cur
    unfold groupsFrom
    by_cases hc : changed cur v = true ∧ 0 < rep
    · rw [if_pos hc, expand_cons]
      obtain ⟨h1, h2⟩ := ih 1 v
      have e : List.replicate 1 v ++ vs = v :: vs := rfl
      rw [e] at h1 h2
      refine ⟨by simp [h1], fun i hi => ?_⟩
      by_cases hr : i < rep
      · refine ⟨i, le_refl _, ?_, hi, fun k a b h1 h2 => by omega⟩
        rw [List.getElem?_append_left (by simpa using hr), List.getElem?_append_left (by simpa using hr)]
      · obtain ⟨j, g1, g2, g3, g4⟩ := h2 (i - rep) (by simp at hi ⊢; omega)
        have sh : ∀ m, rep ≤ m → ∀ l : List Plate, (List.replicate rep cur ++ l)[m]? = l[m - rep]? := by
          intro m hm l
          rw [List.getElem?_append_right (by simpa using hm), List.length_replicate]
        refine ⟨j + rep, by omega, ?_, by simp at g3 ⊢; omega, ?_⟩
        · rw [sh i (by omega), sh (j + rep) (by omega), g2, Nat.add_sub_cancel]
        · intro k a b k1 k2 ka kb
          rw [sh k (by omega)] at ka
          rw [sh (k + 1) (by omega), show k + 1 - rep = (k - rep) + 1 by omega] at kb
          exact g4 (k - rep) a b (by omega) (by omega) ka kb
    · rw [if_neg hc]
      have hcl : rep = 0 ∨ Close cur v := by
        rw [changed_iff] at hc
        by_cases h : Close cur v
        · exact .inr h
        · exact .inl (by by_contra h0; exact hc ⟨h, by omega⟩)
      obtain ⟨h1, h2⟩ := ih (rep + 1) v
      have hge : ∀ m, rep ≤ m → (List.replicate rep cur ++ v :: vs)[m]? = (List.replicate (rep + 1) v ++ vs)[m]? := by
        intro m hm
        rw [List.getElem?_append_right (by simpa using hm), List.length_replicate]
        rcases Nat.eq_or_lt_of_le hm with rfl | hm
        · rw [List.getElem?_append_left (by simp), List.getElem?_replicate, if_pos (by omega)]
          simp
        · rw [List.getElem?_append_right (by simp; omega), List.length_replicate, show m - rep = (m - (rep + 1)) + 1 by omega,
            List.getElem?_cons_succ]
      refine ⟨by rw [h1]; simp; omega, fun i hi => ?_⟩
      obtain ⟨j, g1, g2, g3, g4⟩ := h2 i (by simp at hi ⊢; omega)
      have hlow : ∀ k a b, k < rep → (List.replicate rep cur ++ v :: vs)[k]? = some a →
          (List.replicate rep cur ++ v :: vs)[k + 1]? = some b → Close a b := by
        intro k a b hk ka kb
        have hv := hcl.resolve_left (by omega)
        rw [replicate_get hk ka]
        by_cases h : k + 1 < rep
        · rw [replicate_get h kb]
          exact close_refl _
        · rw [hge _ (by omega)] at kb
          rw [replicate_get (by omega) kb]
          exact hv
      by_cases hj : j < rep
      · refine ⟨rep, by omega, ?_, by simp, ?_⟩
        · rw [hge rep (le_refl _), g2, List.getElem?_append_left (by simp; omega), List.getElem?_append_left (by simp),
            List.getElem?_replicate, List.getElem?_replicate, if_pos (by omega), if_pos (by omega)]
        · intro k a b k1 k2 ka kb
          exact hlow k a b k2 ka kb
      · refine ⟨j, g1, by rw [g2, hge j (by omega)], by simp at g3 ⊢; omega, ?_⟩
        intro k a b k1 k2 ka kb
        by_cases hk : k < rep
        · exact hlow k a b hk ka kb
        · rw [hge _ (by omega)] at ka kb
          exact g4 k a b k1 k2 ka kb

theorem kept_distinct {L ps : List Plate} (h : Kept L ps) (hd : Distinct L) : ps = L := by
  obtain ⟨h1, h2⟩ := h
  refine List.ext_getElem? fun i => ?_
  by_cases hi : i < L.length
  · obtain ⟨j, g1, g2, g3, g4⟩ := h2 i hi
    rw [g2]
    have : ∀ m, i ≤ m → m ≤ j → L[m]? = L[i]? := by
      intro m hm
      induction m, hm using Nat.le_induction with
      | base => intro; rfl
      | succ m hm ih =>
        intro hmj
        rw [← ih (by omega)]
        have ea : L[m]? = some L[m] := List.getElem?_eq_getElem (by omega)
        have eb : L[m + 1]? = some L[m + 1] := List.getElem?_eq_getElem (by omega)
        rw [ea, eb, hd m _ _ ea eb (g4 m _ _ hm (by omega) ea eb)]
    exact this j g1 (le_refl _)
  · rw [List.getElem?_eq_none (by omega), List.getElem?_eq_none (by omega)]

theorem groups_pos : ∀ (vs : List Plate) (rep : ℕ) (cur : Plate), ∀ g ∈ groupsFrom rep cur vs, 0 < g.1 := by
  intro vs
  induction vs with
  | nil =>
    intro rep cur g hg
    unfold groupsFrom at hg
    split_ifs at hg with h
    · rw [List.mem_singleton] at hg
      subst hg
      exact h
    · cases hg
  | cons v vs ih =>
    intro rep cur g hg
    unfold groupsFrom at hg
    split_ifs at hg with h
    · rcases List.mem_cons.1 hg with rfl | hg
      · exact h.2
      · exact ih _ _ g hg
    · exact ih _ _ g hg

theorem groups_total : ∀ (vs : List Plate) (rep : ℕ) (cur : Plate), ∀ g ∈ groupsFrom rep cur vs, g.1 ≤ rep + vs.length := by
  intro vs
  induction vs with
  | nil =>
    intro rep cur g hg
    unfold groupsFrom at hg
    split_ifs at hg with h
    · rw [List.mem_singleton] at hg
      subst hg
      simp
    · cases hg
  | cons v vs ih =>
    intro rep cur g hg
    unfold groupsFrom at hg
    rw [List.length_cons]
    split_ifs at hg with h
    · rcases List.mem_cons.1 hg with rfl | hg
      · simp
      · have := ih _ _ g hg
        omega
    · have := ih _ _ g hg
      omega

theorem distinct_tail {a : Plate} {l : List Plate} (h : Distinct (a :: l)) : Distinct l := fun k x y hx hy =>
  h (k + 1) x y (by simpa using hx) (by simpa using hy)

theorem groups_chain : ∀ (vs : List Plate) (rep : ℕ) (cur : Plate), 0 < rep → Distinct (cur :: vs) →
    ∃ n rest, groupsFrom rep cur vs = (n, cur) :: rest
      ∧ List.IsChain (fun a b : ℕ × Plate => a.2 ≠ b.2) ((n, cur) :: rest) := by
  intro vs
  induction vs with
  | nil =>
    intro rep cur h _
    exact ⟨rep, [], by rw [groupsFrom, if_pos h], by simp⟩
  | cons v vs ih =>
    intro rep cur h hd
    unfold groupsFrom
    by_cases hc : changed cur v = true
    · rw [if_pos ⟨hc, h⟩]
      obtain ⟨n, rest, h1, h2⟩ := ih 1 v (by omega) (distinct_tail hd)
      refine ⟨rep, _, rfl, ?_⟩
      rw [h1]
      refine List.isChain_cons_cons.2 ⟨?_, h2⟩
      rintro rfl
      exact (changed_iff _ _).1 hc (close_refl _)
    · rw [if_neg fun hh => hc hh.1]
      have hcl : Close cur v := by
        by_contra h'
        exact hc ((changed_iff _ _).2 h')
      obtain rfl := hd 0 cur v rfl rfl hcl
      exact ih (rep + 1) cur (by omega) (distinct_tail hd)

theorem groups_all_close : ∀ (vs : List Plate) (rep : ℕ) (cur : Plate), 0 < rep → List.IsChain Close (cur :: vs) →
    groupsFrom rep cur vs = [(rep + vs.length, (cur :: vs).getLast (by simp))] := by
  intro vs
  induction vs with
  | nil => intro rep cur h _; rw [groupsFrom, if_pos h]; simp
  | cons v vs ih =>
    intro rep cur h hc
    obtain ⟨h1, h2⟩ := List.isChain_cons_cons.1 hc
    unfold groupsFrom
    rw [if_neg (fun hh => (changed_iff _ _).1 hh.1 h1), ih (rep + 1) v (by omega) h2]
    simp only [List.length_cons, List.getLast_cons_cons]
    rw [show rep + 1 + vs.length = rep + (vs.length + 1) by omega]

/-! ### Writing -/

/-- The runs of a calorimeter. -/
def groups (L : Calo.Layout ℚ) : List (ℕ × Plate) := groupsFrom 0 ⟨0, 0, 0, 0⟩ (L.map plateOf)

/-- The element with the dimensions. -/
def dimensionsNode (c : Calo.Calo ℚ) : Node :=
  match c.type with
  | .barrel => el "dimensions" [("inner_r", formatE c.extent0), ("outer_z", formatE c.extent3)] []
  | .endcap => el "dimensions" [("inner_r", formatE c.extent0), ("outer_r", formatE c.extent1), ("inner_z", formatE c.extent2)] []

/-- The children of the section. -/
def caloChildren (c : Calo.Calo ℚ) (p : Params ℚ) : List Node :=
  [el "layout" [("type", (kindText c.type).toList), ("symmetry", printInt c.sym), ("phi0", formatE c.phi)] [], dimensionsNode c]
    ++ ((groups c.layout).map fun g => caloLayerNode g.1 g.2) ++ paramsNodes p

theorem caloToXML_eq (c : Calo.Calo ℚ) {p : Params ℚ} (hi : Params.Inv p) :
    caloToXML ⟨c, p⟩ = .ok (el "detector" [] (caloChildren c p)) := by
  obtain ⟨c', v, h1, -, -, -, -, h2, -⟩ := Calo.getExtent_layout c
  have h3 : caloDimensions c.type v = .ok (dimensionsNode c) := by
    rw [h2]
    unfold dimensionsNode
    cases c.type <;> rfl
  obtain ⟨st, h4, h5⟩ := loop_eq c.layout c.layout [] [] 0 ⟨0, 0, 0, 0⟩ rfl
  unfold caloToXML
  simp only [h1, Res.bind_ok, h3]
  rw [List.range_eq_range', show ((0 : ℕ) : ℤ) = 0 from rfl] at *
  rw [show ([] : Calo.Layout ℚ).length = 0 from rfl] at h4
  rw [h4, Res.bind_ok, getXMLForParameters_eq hi, Res.bind_ok]
  unfold caloChildren groups
  rw [List.nil_append] at h5
  rw [← h5]
  simp only [List.append_assoc]

/-! ### Reading -/

theorem lower_kind (k : Kind) : lower (kindText k).toList = (match k with | .barrel => "barrel" | .endcap => "endcap").toList := by
  cases k <;> decide +kernel

theorem caloReadLayer_el {n : ℕ} (h : IsInt n) (p : Plate) :
    caloReadLayer (caloLayerNode n p) = .ok ((n : ℤ), p.map r10) := by
  unfold caloReadLayer caloLayerNode
  rw [int_el rfl h, Res.bind_ok]
  repeat rw [num_el rfl, Res.bind_ok]
  rfl

theorem addPlates (d : ℚ) : ∀ (ps : List Plate) (n : ℤ) (L : Calo.Layout ℚ) (l : Calo.Layer ℚ), 0 < n →
    ps.foldl (fun s p => caloAddPlate d p s) (n, L ++ [l]) = (n + ps.length, L ++ [l] ++ place (l.distance + l.thickness) ps) := by
  intro ps
  induction ps with
  | nil => intro n L l _; simp [place]
  | cons p ps ih =>
    intro n L l hn
    rw [List.foldl_cons, caloAddPlate, if_neg (show ¬ n = 0 by omega)]
    have : Calo.addLayer (L ++ [l]) p.thickness p.cell0 p.cell1 p.absorber
        = (L ++ [l]) ++ [⟨l.distance + l.thickness, p.thickness, p.absorber, p.cell0, p.cell1⟩] := by
      simp [Calo.addLayer]
    rw [this, ih _ _ _ (by omega)]
    simp only [place, List.length_cons, List.append_assoc, List.cons_append, List.nil_append, Prod.mk.injEq, and_true]
    push_cast
    ring

theorem addPlates_first (d : ℚ) (ps : List Plate) :
    (ps.foldl (fun s p => caloAddPlate d p s) ((0 : ℤ), ([] : Calo.Layout ℚ))).2 = place d ps := by
  cases ps with
  | nil => rfl
  | cons p ps =>
    rw [List.foldl_cons, caloAddPlate, if_pos rfl]
    have := addPlates d ps (0 + 1) [] ⟨d, p.thickness, p.absorber, p.cell0, p.cell1⟩ (by norm_num)
    simp only [List.nil_append] at this
    simp only [Calo.positionLayer, List.nil_append, this, place, List.cons_append]

theorem iterate_replicate {α β : Type} (f : β → α → α) (x : β) : ∀ (n : ℕ) (s : α),
    (f x)^[n] s = (List.replicate n x).foldl (fun s p => f p s) s := by
  intro n
  induction n with
  | zero => intro s; rfl
  | succ n ih => intro s; rw [Function.iterate_succ_apply, ih, List.replicate_succ, List.foldl_cons]

theorem repeat_eq (d : ℚ) : ∀ (gs : List (ℕ × Plate)) (s : ℤ × Calo.Layout ℚ),
    (gs.map fun g => ((g.1 : ℤ), g.2.map r10)).foldl (caloRepeat d) s
      = ((expand gs).map (Plate.map r10)).foldl (fun s p => caloAddPlate d p s) s := by
  intro gs
  induction gs with
  | nil => intro s; rfl
  | cons g gs ih =>
    intro s
    rw [List.map_cons, List.foldl_cons, ih, expand_cons, List.map_append, List.foldl_append, List.map_replicate]
    congr 1
    rw [caloRepeat, Int.toNat_natCast]
    exact iterate_replicate (caloAddPlate d) _ _ _

/-- Where the first layer is placed. -/
def inner (c : Calo.Calo ℚ) : ℚ :=
  match c.type with
  | .barrel => c.extent0
  | .endcap => c.extent2

/-- The calorimeter that is read back. -/
def readCalo (r : ℚ → ℚ) (c : Calo.Calo ℚ) (ps : List Plate) : Calo.Calo ℚ :=
  { (match c.type with
    | .barrel => Calo.mkBarrel (r c.extent0) (r c.extent3) c.sym (r c.phi)
    | .endcap => Calo.mkEndcap (r c.extent0) (r c.extent1) (r c.extent2) c.sym (r c.phi)) with
    layout := place (r (inner c)) (ps.map (Plate.map r)) }

theorem named_caloLayers (c : Calo.Calo ℚ) (p : Params ℚ) (attrs : List (String × Text)) :
    (el "detector" attrs (caloChildren c p)).named "layer" = (groups c.layout).map fun g => caloLayerNode g.1 g.2 := by
  have hlv : ∀ n ∈ (groups c.layout).map (fun g => caloLayerNode g.1 g.2), n.value = "layer".toList := by
    intro n hn
    obtain ⟨g, -, rfl⟩ := List.mem_map.1 hn
    rfl
  have hd : ∃ a, dimensionsNode c = el "dimensions" a [] := by unfold dimensionsNode; cases c.type <;> exact ⟨_, rfl⟩
  obtain ⟨a, ha⟩ := hd
  unfold caloChildren
  rw [named_append', named_append', named_params _ _ _ (by decide), named_of_all hlv, ha, named_cons, named_cons,
    if_neg (by decide), if_neg (by decide), named_nil]
  simp

theorem caloFromXML_eq (c : Calo.Calo ℚ) {p : Params ℚ} (hi : Params.Inv p) (hw : Writable p) (hs : IsInt c.sym)
    (hl : IsInt c.layout.length) (attrs : List (String × Text)) :
    caloFromXML (el "detector" attrs (caloChildren c p)) = .ok ⟨readCalo r10 c (expand (groups c.layout)), readBack p⟩ := by
  have hlv : ∀ n ∈ (groups c.layout).map (fun g => caloLayerNode g.1 g.2), n.value = "layer".toList := by
    intro n hn
    obtain ⟨g, -, rfl⟩ := List.mem_map.1 hn
    rfl
  have hdv : (dimensionsNode c).value = "dimensions".toList := by unfold dimensionsNode; cases c.type <;> rfl
  have hp : setParametersFromXML (el "detector" attrs (caloChildren c p)) {} = .ok (readBack p) := by
    refine parametersToElement _ _ hi hw _ ?_
    intro n hn
    simp only [List.mem_append, List.mem_cons, List.not_mem_nil, or_false] at hn
    rcases hn with (rfl | rfl) | hn
    · exact value_ne (by decide)
    · rw [hdv]; decide
    · rw [hlv n hn]; decide
  have hd : ∃ a, dimensionsNode c = el "dimensions" a [] := by unfold dimensionsNode; cases c.type <;> exact ⟨_, rfl⟩
  obtain ⟨a, ha⟩ := hd
  have hn := named_caloLayers c p attrs
  have hg : ∀ g ∈ groups c.layout, IsInt g.1 := by
    intro g hg
    have := groups_total _ _ _ g hg
    rw [List.length_map, Nat.zero_add] at this
    unfold IsInt at hl ⊢
    omega
  have hm : ((groups c.layout).map fun g => caloLayerNode g.1 g.2).mapM caloReadLayer
      = .ok ((groups c.layout).map fun g => ((g.1 : ℤ), g.2.map r10)) := mapM_map_ok fun g h => caloReadLayer_el (hg g h) g.2
  unfold caloFromXML
  rw [hn, hp, hm]
  unfold caloChildren
  rw [ha]
  simp only [List.cons_append, List.nil_append, firstElement_cons, String.reduceEq, if_true, if_false]
  rw [attrOf_el]
  simp only [find, if_true, Res.bind_ok, lower_kind]
  rw [← ha]
  unfold dimensionsNode readCalo inner
  cases hc : c.type
  · rw [if_neg (by decide +kernel), int_el rfl hs, Res.bind_ok, num_el rfl, Res.bind_ok, caloCreate, if_pos rfl]
    simp only [hc]
    rw [num_el rfl, Res.bind_ok, num_el rfl, Res.bind_ok, Res.bind_ok, repeat_eq, addPlates_first]
  · rw [if_neg (by decide +kernel), int_el rfl hs, Res.bind_ok, num_el rfl, Res.bind_ok, caloCreate, if_neg (by decide +kernel)]
    simp only [hc]
    rw [num_el rfl, Res.bind_ok, num_el rfl, Res.bind_ok, num_el rfl, Res.bind_ok, Res.bind_ok, repeat_eq, addPlates_first]

/-! ### C58 -/

/-- C58, for every calorimeter and every history of its named parameters: it is written and read back with the same kind, symmetry,
angle and dimensions, to ten digits, and with as many layers; each is one of the layers that were written, at the same place or reached
from there over layers that differ by less than a ten-thousandth. -/
theorem calo_roundtrip_partial (c : Calo.Calo ℚ) (h : List (Params.Op ℚ)) (hp : Storable (Params.run h)) (hs : IsInt c.sym)
    (hl : IsInt c.layout.length) :
    ∃ cs ps, caloToXML ⟨c, Params.run h⟩ = .ok (el "detector" [] cs) ∧ Kept (c.layout.map plateOf) ps
      ∧ ∀ attrs, ∃ s, caloFromXML (el "detector" attrs cs) = .ok s ∧ s.calo = readCalo r10 c ps
        ∧ SameParams r10 (Params.run h) s.params :=
  ⟨_, _, caloToXML_eq c (Params.inv_run h), kept_groups (c.layout.map plateOf) 0 ⟨0, 0, 0, 0⟩, fun attrs =>
    ⟨_, caloFromXML_eq c (Params.inv_run h) (writable_of_storable (Params.inv_run h) hp) hs hl attrs, rfl, same_readBack _⟩⟩

/-- C58 if neighbours that are close are equal: all layers come back, in the same order. -/
theorem calo_same_partial (c : Calo.Calo ℚ) (h : List (Params.Op ℚ)) (hp : Storable (Params.run h)) (hs : IsInt c.sym)
    (hl : IsInt c.layout.length) (hd : Distinct (c.layout.map plateOf)) :
    ∃ cs, caloToXML ⟨c, Params.run h⟩ = .ok (el "detector" [] cs)
      ∧ ∀ attrs, ∃ s, caloFromXML (el "detector" attrs cs) = .ok s ∧ s.calo = readCalo r10 c (c.layout.map plateOf)
        ∧ SameParams r10 (Params.run h) s.params := by
  obtain ⟨cs, ps, h1, h2, h3⟩ := calo_roundtrip_partial c h hp hs hl
  rw [kept_distinct h2 hd] at h3
  exact ⟨cs, h1, h3⟩

/-- C58, compression: the elements of the layers are the runs of equal layers, with neither an empty run nor two equal runs side by
side. -/
theorem calo_compressed (c : Calo.Calo ℚ) (h : List (Params.Op ℚ)) (hd : Distinct (c.layout.map plateOf)) :
    ∃ cs gs, caloToXML ⟨c, Params.run h⟩ = .ok (el "detector" [] cs)
      ∧ (el "detector" [] cs).named "layer" = gs.map (fun g : ℕ × Plate =>
          el "layer" [("repeat", printInt g.1), ("thickness", formatE g.2.thickness), ("absorberThickness", formatE g.2.absorber),
            ("cellSize0", formatE g.2.cell0), ("cellSize1", formatE g.2.cell1)] [])
      ∧ gs.flatMap (fun g => List.replicate g.1 g.2) = c.layout.map plateOf
      ∧ (∀ g ∈ gs, 0 < g.1) ∧ List.IsChain (fun a b : ℕ × Plate => a.2 ≠ b.2) gs := by
  refine ⟨_, groups c.layout, caloToXML_eq c (Params.inv_run h), ?_, kept_distinct (kept_groups _ 0 ⟨0, 0, 0, 0⟩) hd,
    groups_pos _ _ _, ?_⟩
  · exact named_caloLayers _ _ _
  · unfold groups
    cases hL : c.layout.map plateOf with
    | nil => simp [groupsFrom]
    | cons v vs =>
      unfold groupsFrom
      rw [if_neg (by simp)]
      obtain ⟨n, rest, h1, h2⟩ := groups_chain vs (0 + 1) v (by omega) (hL ▸ hd)
      rw [h1]
      exact h2

/-- A calorimeter whose layers differ by little: thickness 1, 1.00005, 1.0001, ... -/
def driftCalo (n : ℕ) : Calo.Calo ℚ :=
  { Calo.mkBarrel 100 50 8 0 with
    layout := place 100 ((List.range (n + 1)).map fun i : ℕ => ⟨1 + (i : ℚ) / 20000, 0, 1, 1⟩) }

theorem place_plates (d : ℚ) (ps : List Plate) : (place d ps).map plateOf = ps := by
  induction ps generalizing d with
  | nil => rfl
  | cons p ps ih => simp [place, ih, plateOf]

theorem place_length (d : ℚ) (ps : List Plate) : (place d ps).length = ps.length := by
  induction ps generalizing d with
  | nil => rfl
  | cons p ps ih => simp [place, ih]

/-- C58 is false in general: for up to 10⁹ further layers, each different from the one before by half a ten-thousandth of a millimetre,
the first layer is read back with the thickness of the last one. -/
theorem calo_false (n : ℕ) (hn : n < 10 ^ 9) :
    ∃ cs s, caloToXML ⟨driftCalo n, Params.run []⟩ = .ok (el "detector" [] cs) ∧ caloFromXML (el "detector" [] cs) = .ok s
      ∧ Calo.getThickness (driftCalo n).layout 0 = .ok 1 ∧ Calo.getThickness s.calo.layout 0 = .ok (1 + (n : ℚ) / 20000) := by
  have hst : Storable (Params.run ([] : List (Params.Op ℚ))) := by constructor <;> (intro k v h; cases h)
  have hlen : (driftCalo n).layout.length = n + 1 := by
    unfold driftCalo
    simp [place_length]
  refine ⟨_, _, caloToXML_eq _ (Params.inv_run []), caloFromXML_eq _ (Params.inv_run []) (writable_of_storable (Params.inv_run []) hst)
    (show IsInt 8 by unfold IsInt; decide) (by rw [hlen]; unfold IsInt; omega) [], ?_, ?_⟩
  · simp [driftCalo, Calo.getThickness, Calo.at', List.range_succ_eq_map, place]
  · have hg : groups (driftCalo n).layout = [(n + 1, ⟨1 + (n : ℚ) / 20000, 0, 1, 1⟩)] := by
      unfold groups
      have e : (driftCalo n).layout.map plateOf = (List.range (n + 1)).map fun i : ℕ => (⟨1 + (i : ℚ) / 20000, 0, 1, 1⟩ : Plate) :=
        place_plates _ _
      rw [e]
      have hch : List.IsChain Close ((List.range (n + 1)).map fun i : ℕ => (⟨1 + (i : ℚ) / 20000, 0, 1, 1⟩ : Plate)) := by
        rw [List.isChain_iff_getElem]
        intro i hi
        simp only [List.getElem_map, List.getElem_range]
        refine ⟨.inr ?_, .inl rfl, .inl rfl, .inl rfl⟩
        have hi0 : (0 : ℚ) ≤ i := by positivity
        push_cast
        have : (0 : ℚ) ≤ (i : ℚ) / 20000 := by positivity
        rw [abs_of_nonpos (by linarith), abs_of_nonneg (by linarith)]
        linarith
      rw [List.range_succ_eq_map, List.map_cons] at hch ⊢
      unfold groupsFrom
      rw [if_neg (by simp), groups_all_close _ _ _ (by omega) hch]
      simp only [List.length_map, List.length_range, List.cons.injEq, and_true, Prod.mk.injEq]
      refine ⟨by omega, ?_⟩
      rw [List.getLast_eq_getElem]
      simp only [List.length_cons, List.length_map, List.length_range, Nat.add_sub_cancel]
      cases n with
      | zero => simp
      | succ n => simp
    rw [hg]
    simp only [readCalo, expand, List.flatMap_cons, List.flatMap_nil, List.append_nil, List.map_replicate, List.replicate_succ, place,
      Calo.getThickness, Calo.at']
    show Res.ok (r10 (1 + (n : ℚ) / 20000)) = _
    rw [r10_eq ⟨100000 + 5 * n, -5, ?_, ?_⟩]
    · rw [abs_of_nonneg (by positivity)]
      omega
    · push_cast
      rw [show ((10 : ℚ) ^ (-5 : ℤ)) = 1 / 100000 by norm_num]
      ring

/-- All numbers of a calorimeter. -/
def caloNumbers (c : Calo.Calo ℚ) : List ℚ :=
  [c.extent0, c.phi] ++ (match c.type with | .barrel => [c.extent3] | .endcap => [c.extent1, c.extent2])
    ++ c.layout.flatMap fun l => [l.thickness, l.absorberThickness, l.cellSize0, l.cellSize1]

theorem readCalo_exact {c : Calo.Calo ℚ} (h : ∀ x ∈ caloNumbers c, TenDigits x) :
    readCalo r10 c (c.layout.map plateOf) = readCalo id c (c.layout.map plateOf) := by
  have hp : ∀ l ∈ c.layout, (plateOf l).map r10 = (plateOf l).map id := by
    intro l hl
    have : ∀ x ∈ [l.thickness, l.absorberThickness, l.cellSize0, l.cellSize1], r10 x = x := fun x hx =>
      r10_eq (h x (by simp only [caloNumbers, List.mem_append, List.mem_flatMap]; exact .inr ⟨l, hl, hx⟩))
    simp only [List.mem_cons, List.not_mem_nil, or_false, forall_eq_or_imp, forall_eq] at this
    simp [Plate.map, plateOf, this]
  have hp : (c.layout.map plateOf).map (Plate.map r10) = (c.layout.map plateOf).map (Plate.map id) := by
    rw [List.map_map, List.map_map]
    exact List.map_congr_left hp
  have h' : ∀ x ∈ [c.extent0, c.phi] ++ (match c.type with | .barrel => [c.extent3] | .endcap => [c.extent1, c.extent2]), r10 x = x :=
    fun x hx => r10_eq (h x (by unfold caloNumbers; exact List.mem_append_left _ hx))
  unfold readCalo inner
  rw [hp]
  cases hc : c.type <;>
    (rw [hc] at h'
     simp only [List.cons_append, List.nil_append, List.mem_cons, List.not_mem_nil, or_false, forall_eq_or_imp, forall_eq] at h'
     simp [h'])

/-- The constructors. -/
def newCalo (k : Kind) (a b d : ℚ) (sym : ℤ) (phi : ℚ) : Calo.Calo ℚ :=
  match k with
  | .barrel => Calo.mkBarrel a b sym phi
  | .endcap => Calo.mkEndcap a b d sym phi

/-- The inner face: the inner radius of a barrel, the inner z of an endcap. -/
def face (k : Kind) (a d : ℚ) : ℚ :=
  match k with
  | .barrel => a
  | .endcap => d

/-- C58, for every calorimeter built by a constructor call, a first layer placed at the inner face and any further layers added to it,
with calls of `getExtent` at any time: if all numbers have ten digits and neighbours that are close are equal, then exactly the same
calorimeter is read back — all layers with their distances — and the extent that is reported is the same. -/
theorem calo_exact_partial (k : Kind) (a b d : ℚ) (sym : ℤ) (phi : ℚ) (p : Calo.Spec.Plate ℚ) (ps : List (Calo.Spec.Plate ℚ))
    (h : List (Params.Op ℚ)) (hp : Storable (Params.run h)) (c : Calo.Calo ℚ)
    (hc : c = Calo.Spec.run (newCalo k a b d sym phi) (.position (face k a d) p :: ps.map Calo.Spec.Op.add))
    (hs : IsInt sym) (hl : IsInt (ps.length + 1)) (hd : Distinct (c.layout.map plateOf)) (hn : ∀ x ∈ caloNumbers c, TenDigits x) :
    ∃ cs, caloToXML ⟨c, Params.run h⟩ = .ok (el "detector" [] cs)
      ∧ ∀ attrs, ∃ s, caloFromXML (el "detector" attrs cs) = .ok s ∧ s.calo = c ∧ SameParams r10 (Params.run h) s.params := by
  have hrun : c = { newCalo k a b d sym phi with
      layout := place (face k a d) ((p :: ps).map fun q => ⟨q.thickness, q.absorber, q.cellSize0, q.cellSize1⟩) } := by
    rw [hc]
    have : ∀ (ps : List (Calo.Spec.Plate ℚ)) (c : Calo.Calo ℚ) (L : Calo.Layout ℚ) (l : Calo.Layer ℚ), c.layout = L ++ [l] →
        Calo.Spec.run c (ps.map Calo.Spec.Op.add) = { c with
          layout := c.layout ++ place (l.distance + l.thickness) (ps.map fun q => ⟨q.thickness, q.absorber, q.cellSize0, q.cellSize1⟩) } := by
      intro ps
      induction ps with
      | nil => intro c L l _; simp [Calo.Spec.run, place]
      | cons q ps ih =>
        intro c L l hL
        have : Calo.Spec.run c ((q :: ps).map Calo.Spec.Op.add)
            = Calo.Spec.run { c with layout := Calo.addLayer c.layout q.thickness q.cellSize0 q.cellSize1 q.absorber }
              (ps.map Calo.Spec.Op.add) := rfl
        rw [this, ih _ (L ++ [l]) ⟨l.distance + l.thickness, q.thickness, q.absorber, q.cellSize0, q.cellSize1⟩
          (by simp [hL, Calo.addLayer])]
        simp [hL, Calo.addLayer, place]
    cases k
    · exact this ps _ [] ⟨a, p.thickness, p.absorber, p.cellSize0, p.cellSize1⟩ rfl
    · exact this ps _ [] ⟨d, p.thickness, p.absorber, p.cellSize0, p.cellSize1⟩ rfl
  have hlen : c.layout.length = ps.length + 1 := by
    rw [hrun]
    simp [place_length]
  have hsym : c.sym = sym := by rw [hrun]; cases k <;> rfl
  obtain ⟨cs, h1, h2⟩ := calo_same_partial c h hp (by rw [hsym]; exact hs) (by rw [hlen]; exact_mod_cast hl) hd
  refine ⟨cs, h1, fun attrs => ?_⟩
  obtain ⟨s, h3, h4, h5⟩ := h2 attrs
  refine ⟨s, h3, ?_, h5⟩
  rw [h4, readCalo_exact hn]
  have hid : ∀ l : List Plate, l.map (Plate.map id) = l := fun l => by
    have : Plate.map id = id := rfl
    rw [this, List.map_id]
  unfold readCalo
  rw [hid]
  rw [hrun]
  cases k <;> simp only [place_plates, inner] <;> rfl

theorem wellFormed_calo (c : Calo.Calo ℚ) {p : Params ℚ} (h : NoReferences p) :
    ∀ n ∈ caloChildren c p, WellFormed n ∧ n.isText = false := by
  intro n hn
  unfold caloChildren at hn
  simp only [List.mem_append, List.mem_cons, List.not_mem_nil, or_false] at hn
  rcases hn with ((rfl | rfl) | hn) | hn
  · have ht : NoReference (kindText c.type).toList := by
      cases c.type <;> decide +kernel
    refine ⟨?_, rfl⟩
    wf_el
    simp
  · unfold dimensionsNode
    cases c.type
    · refine ⟨?_, rfl⟩
      wf_el
      simp
    · refine ⟨?_, rfl⟩
      wf_el
      simp
  · obtain ⟨g, -, rfl⟩ := List.mem_map.1 hn
    refine ⟨?_, rfl⟩
    unfold caloLayerNode
    wf_el
    simp
  · exact ⟨wellFormed_paramsNodes h n hn, (paramsNodes_value n hn).2⟩

/-- The further layers of the example. -/
def examplePlates : List (Calo.Spec.Plate ℚ) := List.replicate 19 ⟨4, 10, 10, 2⟩ ++ List.replicate 10 ⟨7, 10, 10, 5⟩

/-- A barrel with twenty layers of one kind and ten of another. -/
def exampleCalo : Calo.Calo ℚ :=
  Calo.Spec.run (newCalo .barrel 1700 2600 0 8 (1 / 4)) (.position (face .barrel 1700 0) ⟨4, 10, 10, 2⟩ :: examplePlates.map Calo.Spec.Op.add)

theorem distinct_of {L : List Plate} (h : List.IsChain (fun a b => a = b ∨ changed a b = true) L) : Distinct L := by
  intro k a b ha hb hcl
  rw [List.isChain_iff_getElem] at h
  obtain ⟨h1, rfl⟩ := List.getElem?_eq_some_iff.1 ha
  obtain ⟨h2, rfl⟩ := List.getElem?_eq_some_iff.1 hb
  exact (h k h2).resolve_right fun hh => (changed_iff _ _).1 hh hcl

example : ∃ cs, caloToXML ⟨exampleCalo, Params.run sampleOps⟩ = .ok (el "detector" [] cs)
      ∧ ∀ attrs, ∃ s, caloFromXML (el "detector" attrs cs) = .ok s ∧ s.calo = exampleCalo
        ∧ SameParams r10 (Params.run sampleOps) s.params :=
  calo_exact_partial .barrel 1700 2600 0 8 (1 / 4) ⟨4, 10, 10, 2⟩ examplePlates
    sampleOps storable_sampleOps exampleCalo rfl (by unfold IsInt; decide) (by unfold IsInt; decide)
    (distinct_of (by decide +kernel)) (tenDigits_of 2 (by decide +kernel))

/-! ### C59 -/

/-- The names that `createXMLFile` writes, src/gearxml/GearXML.cc lines 108-291. -/
def caloNames : List (Section × String) :=
  [(.ecalBarrel, "EcalBarrel"), (.ecalEndcap, "EcalEndcap"), (.ecalPlug, "EcalPlug"), (.yokeBarrel, "YokeBarrel"),
   (.yokeEndcap, "YokeEndcap"), (.yokePlug, "YokePlug"), (.hcalBarrel, "HcalBarrel"), (.hcalEndcap, "HcalEndcap"),
   (.hcalRing, "HcalRing"), (.lcal, "Lcal"), (.lhcal, "LHcal"), (.beamcal, "BeamCal")]

namespace Spec

/-- The kind of calorimeter that a section is for, if its name says so. -/
def kindOf : Section → Option Kind
  | .ecalBarrel | .yokeBarrel | .hcalBarrel => some .barrel
  | .ecalEndcap | .yokeEndcap | .hcalEndcap => some .endcap
  | _ => none

end Spec

/-- C59, if the barrel sections have barrels and the endcap sections endcaps: every calorimeter comes back into its section. -/
theorem calo_slot_partial : ∀ x ∈ caloNames, ∀ k : Kind, (kindOf x.1 = none ∨ kindOf x.1 = some k) →
    caloSlot x.2.toList k = some x.1 := by
  intro x hx k hk
  have : ∀ x ∈ caloNames, ((kindOf x.1 = none ∨ kindOf x.1 = some .barrel) → caloSlot x.2.toList .barrel = some x.1)
      ∧ ((kindOf x.1 = none ∨ kindOf x.1 = some .endcap) → caloSlot x.2.toList .endcap = some x.1) := by
    decide +kernel
  cases k
  · exact (this x hx).1 hk
  · exact (this x hx).2 hk

/-- C59 is false in general: for every such section, a calorimeter of the other kind comes back into the section of the other kind. -/
theorem calo_slot_false : ∀ x ∈ caloNames, ∀ k : Kind, kindOf x.1 = some k → ∀ k', k' ≠ k →
    ∃ s, s ≠ x.1 ∧ caloSlot x.2.toList k' = some s := by
  intro x hx k hk k' hk'
  have : ∀ x ∈ caloNames, (kindOf x.1 = some .barrel → ∃ s ∈ Section.cleanupOrder, s ≠ x.1 ∧ caloSlot x.2.toList .endcap = some s)
      ∧ (kindOf x.1 = some .endcap → ∃ s ∈ Section.cleanupOrder, s ≠ x.1 ∧ caloSlot x.2.toList .barrel = some s) := by
    decide +kernel
  cases k <;> cases k' <;> first | exact absurd rfl hk' | skip
  · obtain ⟨s, -, h⟩ := (this x hx).1 hk
    exact ⟨s, h⟩
  · obtain ⟨s, -, h⟩ := (this x hx).2 hk
    exact ⟨s, h⟩

end Gear.Xml
