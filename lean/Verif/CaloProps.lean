/-
Properties of the calorimeter layers and extent (C47, C95).
-/
import Verif.Calo

set_option autoImplicit false
set_option linter.unusedSectionVars false

namespace Gear.Calo

variable {K : Type} [Field K] [LinearOrder K] [IsStrictOrderedRing K] [FloorRing K]

/-! ### Specification -/

namespace Spec

/-- What a layer looks like apart from its place. -/
structure Plate (K : Type) where
  thickness : K
  cellSize0 : K
  cellSize1 : K
  absorber : K

/-- A call on a calorimeter object. -/
inductive Op (K : Type) where
  | add (p : Plate K)
  | position (d : K) (p : Plate K)
  | extent

/-- The layers a history asks for: where the user put them, and what they are. -/
def Op.plate? {K : Type} : Op K → Option (Option K × Plate K)
  | .add p => some (none, p)
  | .position d p => some (some d, p)
  | .extent => none

/-- The effect of a call on the object. -/
def step {K : Type} [Field K] [LinearOrder K] [IsStrictOrderedRing K] [FloorRing K] (c : Calo K) : Op K → Calo K
  | .add p => { c with layout := addLayer c.layout p.thickness p.cellSize0 p.cellSize1 p.absorber }
  | .position d p => { c with layout := positionLayer c.layout d p.thickness p.cellSize0 p.cellSize1 p.absorber }
  | .extent => match getExtent c with
    | .ok (c', _) => c'
    | _ => c

def run {K : Type} [Field K] [LinearOrder K] [IsStrictOrderedRing K] [FloorRing K] (c : Calo K) (ops : List (Op K)) : Calo K :=
  ops.foldl step c

/-- Where a layer starts, given where the previous one ends. -/
def start {K : Type} [Zero K] (prevEnd : Option K) : Option K → K
  | some d => d
  | none => prevEnd.getD 0

/-- The layers asked for, in order, each with the place where it starts. -/
def places {K : Type} [Zero K] [Add K] : Option K → List (Option K × Plate K) → List (K × Plate K)
  | _, [] => []
  | e, (o, p) :: rest => (start e o, p) :: places (some (start e o + p.thickness)) rest

end Spec

open Spec

theorem at'_nat (L : Layout K) (i : ℕ) :
    at' L i = match L[i]? with | some l => .ok l | none => .throw .outOfRange := by
  rw [at', if_neg (by omega), Int.toNat_natCast]; cases L[i]? <;> rfl

/-- The object's state except for what `getExtent` caches. -/
def layerOf (x : K × Plate K) : Layer K := ⟨x.1, x.2.thickness, x.2.absorber, x.2.cellSize0, x.2.cellSize1⟩

/-- Where the last layer ends. -/
def lastEnd (L : Layout K) : Option K := L.getLast?.map fun l => l.distance + l.thickness

theorem getExtent_layout (c : Calo K) : ∃ c' v, getExtent c = .ok (c', v) ∧ c'.layout = c.layout ∧ c'.type = c.type
    ∧ c'.sym = c.sym ∧ c'.phi = c.phi
    ∧ v = [c.extent0, (match c.type with | .barrel => (lastEnd c.layout).getD c.extent1 | .endcap => c.extent1), c.extent2,
        (match c.type with | .barrel => c.extent3 | .endcap => (lastEnd c.layout).getD c.extent3)]
    ∧ v = [c'.extent0, c'.extent1, c'.extent2, c'.extent3] := by
  unfold getExtent
  dsimp only
  rcases List.eq_nil_or_concat c.layout with h | ⟨L, l, h⟩
  · rw [if_neg (by simp [getNLayers, h])]
    refine ⟨c, _, rfl, rfl, rfl, rfl, rfl, ?_, rfl⟩
    cases c.type <;> simp [h, lastEnd]
  · have e : getNLayers c.layout - 1 = ((L.length : ℕ) : ℤ) := by simp [getNLayers, h]
    rw [if_pos (by simp [getNLayers, h]), e]
    simp only [getDistance, getThickness, at'_nat]
    have : c.layout[L.length]? = some l := by rw [h]; simp
    rw [this]
    have hl : lastEnd c.layout = some (l.distance + l.thickness) := by rw [h]; simp [lastEnd]
    cases ht : c.type
    · refine ⟨⟨.barrel, c.sym, c.phi, c.layout, c.extent0, l.distance + l.thickness, c.extent2, c.extent3⟩, _, rfl, rfl, rfl, rfl, rfl, ?_, rfl⟩
      simp [hl]
    · refine ⟨⟨.endcap, c.sym, c.phi, c.layout, c.extent0, c.extent1, c.extent2, l.distance + l.thickness⟩, _, rfl, rfl, rfl, rfl, rfl, ?_, rfl⟩
      simp [hl]

theorem step_extent_eq (c : Calo K) : ∃ c' v, getExtent c = .ok (c', v) ∧ step c .extent = c' := by
  obtain ⟨c', v, h, -⟩ := getExtent_layout c
  exact ⟨c', v, h, by simp [step, h]⟩

/-- The layers of the object after a history. -/
theorem run_layout (c : Calo K) (ops : List (Op K)) :
    (run c ops).layout = c.layout ++ (places (lastEnd c.layout) (ops.filterMap Op.plate?)).map layerOf := by
  induction ops generalizing c with
  | nil => simp [run, places]
  | cons op ops ih =>
    have e : run c (op :: ops) = run (step c op) ops := rfl
    rw [e, ih]
    cases op with
    | add p =>
      have h1 : (step c (.add p)).layout
          = c.layout ++ [layerOf (start (lastEnd c.layout) none, p)] := by
        simp only [step, addLayer, layerOf, start, lastEnd]
        cases c.layout.getLast? <;> rfl
      have h2 : lastEnd (step c (.add p)).layout = some (start (lastEnd c.layout) none + p.thickness) := by
        rw [h1]; simp [lastEnd, layerOf]
      rw [h2, h1]
      simp [Op.plate?, places]
    | position d p =>
      have h1 : (step c (.position d p)).layout = c.layout ++ [layerOf (d, p)] := rfl
      have h2 : lastEnd (step c (.position d p)).layout = some (d + p.thickness) := by
        rw [h1]; simp [lastEnd, layerOf]
      rw [h2, h1]
      simp [Op.plate?, places, start]
    | extent =>
      obtain ⟨c', v, h1, h2, -⟩ := getExtent_layout c
      have h3 : step c .extent = c' := by simp [step, h1]
      rw [h3, h2]
      rfl

/-- What no call changes. -/
theorem run_const (c : Calo K) (ops : List (Op K)) :
    (run c ops).type = c.type ∧ (run c ops).sym = c.sym ∧ (run c ops).phi = c.phi
      ∧ (run c ops).extent0 = c.extent0 ∧ (run c ops).extent2 = c.extent2
      ∧ (c.type = .barrel → (run c ops).extent3 = c.extent3) ∧ (c.type = .endcap → (run c ops).extent1 = c.extent1) := by
  induction ops generalizing c with
  | nil => simp [run]
  | cons op ops ih =>
    have e : run c (op :: ops) = run (step c op) ops := rfl
    rw [e]
    obtain ⟨i1, i2, i3, i4, i5, i6, i7⟩ := ih (step c op)
    have key : (step c op).type = c.type ∧ (step c op).sym = c.sym ∧ (step c op).phi = c.phi
      ∧ (step c op).extent0 = c.extent0 ∧ (step c op).extent2 = c.extent2
      ∧ (c.type = .barrel → (step c op).extent3 = c.extent3) ∧ (c.type = .endcap → (step c op).extent1 = c.extent1) := by
      cases op with
      | add p => exact ⟨rfl, rfl, rfl, rfl, rfl, fun _ => rfl, fun _ => rfl⟩
      | position d p => exact ⟨rfl, rfl, rfl, rfl, rfl, fun _ => rfl, fun _ => rfl⟩
      | extent =>
        obtain ⟨c', v, h1, h2, h3, h4, h5, h6, h7⟩ := getExtent_layout c
        have h8 : step c .extent = c' := by simp [step, h1]
        rw [h8]
        rw [h7] at h6
        simp only [List.cons.injEq, and_true] at h6
        obtain ⟨a0, a1, a2, a3⟩ := h6
        refine ⟨h3, h4, h5, a0, a2, fun ht => ?_, fun ht => ?_⟩
        · rw [a3, ht]
        · rw [a1, ht]
    obtain ⟨k1, k2, k3, k4, k5, k6, k7⟩ := key
    exact ⟨i1.trans k1, i2.trans k2, i3.trans k3, i4.trans k4, i5.trans k5,
      fun h => (i6 (k1.trans h)).trans (k6 h), fun h => (i7 (k1.trans h)).trans (k7 h)⟩

theorem places_length (e : Option K) (ps : List (Option K × Plate K)) : (places e ps).length = ps.length := by
  induction ps generalizing e with
  | nil => rfl
  | cons p ps ih => obtain ⟨o, p⟩ := p; simp [places, ih]

theorem places_getElem? (e : Option K) (ps : List (Option K × Plate K)) (i : ℕ) :
    ((places e ps)[i]?).map Prod.snd = (ps[i]?).map Prod.snd := by
  induction ps generalizing e i with
  | nil => rfl
  | cons p ps ih =>
    obtain ⟨o, p⟩ := p
    cases i with
    | zero => rfl
    | succ i => simpa [places] using ih _ i

/-! ### C95: layer getters -/

/-- After any history of calls on a new calorimeter, layer `i` is the `i`-th one asked for; there are no others. -/
theorem layers_return (c : Calo K) (hc : c.layout = []) (ops : List (Op K)) :
    getNLayers (run c ops).layout = (ops.filterMap Op.plate?).length
    ∧ (∀ (i : ℕ) o p, (ops.filterMap Op.plate?)[i]? = some (o, p) →
        getThickness (run c ops).layout i = .ok p.thickness
        ∧ getAbsorberThickness (run c ops).layout i = .ok p.absorber
        ∧ getCellSize0 (run c ops).layout i = .ok p.cellSize0
        ∧ getCellSize1 (run c ops).layout i = .ok p.cellSize1
        ∧ ∀ d, o = some d → getDistance (run c ops).layout i = .ok d)
    ∧ ∀ i : ℤ, i < 0 ∨ (ops.filterMap Op.plate?).length ≤ i →
        getThickness (run c ops).layout i = .throw .outOfRange
        ∧ getAbsorberThickness (run c ops).layout i = .throw .outOfRange
        ∧ getCellSize0 (run c ops).layout i = .throw .outOfRange
        ∧ getCellSize1 (run c ops).layout i = .throw .outOfRange
        ∧ getDistance (run c ops).layout i = .throw .outOfRange := by
  have hl := run_layout c ops
  rw [hc] at hl
  generalize hps : ops.filterMap Op.plate? = ps at hl ⊢
  simp only [List.nil_append] at hl
  have hlen : (run c ops).layout.length = ps.length := by rw [hl]; simp [places_length]
  refine ⟨by simp [getNLayers, hlen], ?_, ?_⟩
  · intro i o p hi
    have h1 : ((places (lastEnd ([] : Layout K)) ps)[i]?).map Prod.snd = some p := by rw [places_getElem?, hi]; rfl
    obtain ⟨⟨x, p'⟩, h2, rfl⟩ := Option.map_eq_some_iff.1 h1
    have h3 : (run c ops).layout[i]? = some (layerOf (x, p')) := by rw [hl, List.getElem?_map, h2]; rfl
    have h4 : at' (run c ops).layout i = .ok (layerOf (x, p')) := by rw [at'_nat, h3]
    refine ⟨?_, ?_, ?_, ?_, ?_⟩
    · simp [getThickness, h4, layerOf]
    · simp [getAbsorberThickness, h4, layerOf]
    · simp [getCellSize0, h4, layerOf]
    · simp [getCellSize1, h4, layerOf]
    · rintro d rfl
      have : ∀ (e : Option K) (ps : List (Option K × Plate K)) (i : ℕ) p, ps[i]? = some (some d, p) →
          (places e ps)[i]? = some (d, p) := by
        intro e ps
        induction ps generalizing e with
        | nil => intro i p h; simp at h
        | cons q ps ih =>
          intro i p h
          obtain ⟨o, q⟩ := q
          cases i with
          | zero => simp at h; obtain ⟨rfl, rfl⟩ := h; rfl
          | succ i => simpa [places] using ih _ i p (by simpa using h)
      have h5 := this (lastEnd ([] : Layout K)) ps i _ hi
      rw [h2] at h5
      simp only [Option.some.injEq, Prod.mk.injEq] at h5
      simp [getDistance, h4, layerOf, h5.1]
  · intro i hi
    have : at' (run c ops).layout i = .throw .outOfRange := by
      unfold at'
      by_cases h0 : i < 0
      · rw [if_pos h0]
      · rw [if_neg h0, List.getElem?_eq_none (by omega)]
    simp [getThickness, getAbsorberThickness, getCellSize0, getCellSize1, getDistance, this]

/-! ### C47: contiguous layers -/

/-- A layer added without a place starts where the one before it ends, whatever the history; the first one at 0. -/
theorem contiguous (c : Calo K) (hc : c.layout = []) (ops : List (Op K)) :
    (∀ p, (ops.filterMap Op.plate?)[0]? = some (none, p) → getDistance (run c ops).layout 0 = .ok 0)
    ∧ ∀ (i : ℕ) p, (ops.filterMap Op.plate?)[i + 1]? = some (none, p) → ∃ d t,
      getDistance (run c ops).layout i = .ok d ∧ getThickness (run c ops).layout i = .ok t
        ∧ getDistance (run c ops).layout ((i + 1 : ℕ) : ℤ) = .ok (d + t) := by
  have hl := run_layout c ops
  rw [hc] at hl
  generalize hps : ops.filterMap Op.plate? = ps at hl ⊢
  simp only [List.nil_append] at hl
  constructor
  · intro p hp
    cases ps with
    | nil => simp at hp
    | cons q ps =>
      simp only [List.getElem?_cons_zero, Option.some.injEq] at hp
      subst hp
      have : at' (run c ops).layout ((0 : ℕ) : ℤ) = .ok (layerOf (0, p)) := by
        rw [at'_nat, hl]; simp [places, start, lastEnd]
      simpa [getDistance, layerOf] using congrArg (· >>= fun l => pure l.distance) this
  · intro i p hp
    have : ∀ (e : Option K) (ps : List (Option K × Plate K)) (i : ℕ), ps[i + 1]? = some (none, p) →
        ∃ x q, (places e ps)[i]? = some (x, q) ∧ (places e ps)[i + 1]? = some (x + q.thickness, p) := by
      intro e ps
      induction ps generalizing e with
      | nil => intro i h; simp at h
      | cons q ps ih =>
        obtain ⟨o, q⟩ := q
        intro i h
        cases i with
        | zero =>
          cases ps with
          | nil => simp at h
          | cons r ps =>
            simp only [zero_add, List.getElem?_cons_succ, List.getElem?_cons_zero, Option.some.injEq] at h
            subst h
            exact ⟨start e o, q, rfl, rfl⟩
        | succ i => simpa [places] using ih _ i (by simpa using h)
    obtain ⟨x, q, h1, h2⟩ := this (lastEnd ([] : Layout K)) ps i hp
    have h3 : at' (run c ops).layout i = .ok (layerOf (x, q)) := by rw [at'_nat, hl, List.getElem?_map, h1]; rfl
    have h4 : at' (run c ops).layout ((i + 1 : ℕ) : ℤ) = .ok (layerOf (x + q.thickness, p)) := by
      rw [at'_nat, hl, List.getElem?_map, h2]; rfl
    exact ⟨x, q.thickness, by simp [getDistance, h3, layerOf], by simp [getThickness, h3, layerOf],
      by simp only [getDistance, h4]; rfl⟩

/-- The first layer positioned at `d`, then any number added: layer `i` starts at `d` plus the thicknesses of the earlier
ones. -/
theorem stacked (c : Calo K) (hc : c.layout = []) (d : K) (p : Plate K) (ps : List (Plate K)) {i : ℕ} (hi : i ≤ ps.length) :
    getDistance (run c (.position d p :: ps.map .add)).layout i = .ok (d + (((p :: ps).take i).map Plate.thickness).sum) := by
  induction i with
  | zero =>
    have := ((layers_return c hc (.position d p :: ps.map .add)).2.1 0 (some d) p (by simp [Op.plate?])).2.2.2.2 d rfl
    simpa using this
  | succ i ih =>
    have e : ((.position d p :: ps.map .add : List (Op K)).filterMap Op.plate?)
        = (some d, p) :: ps.map fun q => (none, q) := by
      simp [Op.plate?, List.filterMap_map, Function.comp_def]
    obtain ⟨q, hq⟩ : ∃ q, ps[i]? = some q := ⟨ps[i], by simp [List.getElem?_eq_getElem (show i < ps.length by omega)]⟩
    obtain ⟨x, t, h1, h2, h3⟩ := (contiguous c hc (.position d p :: ps.map .add)).2 i q
      (by rw [e]; simp [hq])
    rw [h3]
    have h4 := ih (by omega)
    rw [h1] at h4
    obtain ⟨r, hr⟩ : ∃ r, (p :: ps)[i]? = some r :=
      ⟨(p :: ps)[i]'(by simp; omega), by simp [List.getElem?_eq_getElem (show i < (p :: ps).length by simp; omega)]⟩
    have h5 := ((layers_return c hc (.position d p :: ps.map .add)).2.1 i (if i = 0 then some d else none) r (by
      rw [e]; cases i with
      | zero => simpa using hr
      | succ i => simp at hr; simp [hr])).1
    rw [h2] at h5
    rw [Res.ok.inj h4, Res.ok.inj h5, List.take_add_one, hr]
    simp [add_assoc]

/-- What the extent is after any history of calls on a new barrel, calls of `getExtent` among them: the radius of the
constructor and, once there are layers, the end of the last one. -/
theorem barrel_extent (rMin zMax : K) (sym : ℤ) (phi0 : K) (ops : List (Op K)) :
    (ops.filterMap Op.plate? = [] → ∃ c', getExtent (run (mkBarrel rMin zMax sym phi0) ops) = .ok (c', [rMin, rMin, 0, zMax]))
    ∧ ∀ n : ℕ, (ops.filterMap Op.plate?).length = n + 1 → ∃ c' d t,
      getDistance (run (mkBarrel rMin zMax sym phi0) ops).layout n = .ok d
      ∧ getThickness (run (mkBarrel rMin zMax sym phi0) ops).layout n = .ok t
      ∧ getExtent (run (mkBarrel rMin zMax sym phi0) ops) = .ok (c', [rMin, d + t, 0, zMax]) := by
  have hl := run_layout (mkBarrel rMin zMax sym phi0) ops
  obtain ⟨t1, -, -, t4, t5, t6, -⟩ := run_const (mkBarrel rMin zMax sym phi0) ops
  have t6 := t6 rfl
  obtain ⟨c', v, h1, -, -, -, -, h6, -⟩ := getExtent_layout (run (mkBarrel rMin zMax sym phi0) ops)
  rw [t1, t4, t5, t6] at h6
  constructor
  · intro h
    refine ⟨c', ?_⟩
    rw [h1, h6]
    have h0 : (run (mkBarrel rMin zMax sym phi0) ops).layout = [] := by rw [hl, h]; simp [places, mkBarrel]
    have h2 : (run (mkBarrel rMin zMax sym phi0) ops).extent1 = rMin := by
      have : ∀ (ops : List (Op K)) (c : Calo K), c.layout = [] → ops.filterMap Op.plate? = [] → run c ops = c := by
        intro ops
        induction ops with
        | nil => intro c _ _; rfl
        | cons op ops ih =>
          intro c hc hp
          cases op with
          | add p => simp [Op.plate?] at hp
          | position d p => simp [Op.plate?] at hp
          | extent =>
            have e : run c (.extent :: ops) = run (step c .extent) ops := rfl
            have : step c .extent = c := by simp [step, getExtent, hc, getNLayers]
            rw [e, this]
            exact ih c hc (by simpa [Op.plate?] using hp)
      rw [this ops _ rfl h]; rfl
    rw [h0, h2]; simp [lastEnd, mkBarrel]
  · intro n hn
    have hlen : (run (mkBarrel rMin zMax sym phi0) ops).layout.length = n + 1 := by
      rw [hl]; simp [mkBarrel, places_length, hn]
    obtain ⟨l, hl'⟩ : ∃ l, (run (mkBarrel rMin zMax sym phi0) ops).layout[n]? = some l :=
      ⟨_, List.getElem?_eq_getElem (by omega)⟩
    have h3 : at' (run (mkBarrel rMin zMax sym phi0) ops).layout n = .ok l := by rw [at'_nat, hl']
    refine ⟨c', l.distance, l.thickness, by simp [getDistance, h3], by simp [getThickness, h3], ?_⟩
    rw [h1, h6]
    have : lastEnd (run (mkBarrel rMin zMax sym phi0) ops).layout = some (l.distance + l.thickness) := by
      rw [lastEnd, List.getLast?_eq_getElem?, hlen, Nat.add_sub_cancel, hl']; rfl
    rw [this]
    simp [mkBarrel]

/-- The same for an endcap, whose outer z is the end of the last layer. -/
theorem endcap_extent (rMin rMax zMin : K) (sym : ℤ) (phi0 : K) (ops : List (Op K)) :
    (ops.filterMap Op.plate? = [] →
      ∃ c', getExtent (run (mkEndcap rMin rMax zMin sym phi0) ops) = .ok (c', [rMin, rMax, zMin, zMin]))
    ∧ ∀ n : ℕ, (ops.filterMap Op.plate?).length = n + 1 → ∃ c' d t,
      getDistance (run (mkEndcap rMin rMax zMin sym phi0) ops).layout n = .ok d
      ∧ getThickness (run (mkEndcap rMin rMax zMin sym phi0) ops).layout n = .ok t
      ∧ getExtent (run (mkEndcap rMin rMax zMin sym phi0) ops) = .ok (c', [rMin, rMax, zMin, d + t]) := by
  have hl := run_layout (mkEndcap rMin rMax zMin sym phi0) ops
  obtain ⟨t1, -, -, t4, t5, -, t6⟩ := run_const (mkEndcap rMin rMax zMin sym phi0) ops
  have t6 := t6 rfl
  obtain ⟨c', v, h1, -, -, -, -, h6, -⟩ := getExtent_layout (run (mkEndcap rMin rMax zMin sym phi0) ops)
  rw [t1, t4, t5, t6] at h6
  constructor
  · intro h
    refine ⟨c', ?_⟩
    rw [h1, h6]
    have h0 : (run (mkEndcap rMin rMax zMin sym phi0) ops).layout = [] := by rw [hl, h]; simp [places, mkEndcap]
    have h2 : (run (mkEndcap rMin rMax zMin sym phi0) ops).extent3 = zMin := by
      have : ∀ (ops : List (Op K)) (c : Calo K), c.layout = [] → ops.filterMap Op.plate? = [] → run c ops = c := by
        intro ops
        induction ops with
        | nil => intro c _ _; rfl
        | cons op ops ih =>
          intro c hc hp
          cases op with
          | add p => simp [Op.plate?] at hp
          | position d p => simp [Op.plate?] at hp
          | extent =>
            have e : run c (.extent :: ops) = run (step c .extent) ops := rfl
            have : step c .extent = c := by simp [step, getExtent, hc, getNLayers]
            rw [e, this]
            exact ih c hc (by simpa [Op.plate?] using hp)
      rw [this ops _ rfl h]; rfl
    rw [h0, h2]; simp [lastEnd, mkEndcap]
  · intro n hn
    have hlen : (run (mkEndcap rMin rMax zMin sym phi0) ops).layout.length = n + 1 := by
      rw [hl]; simp [mkEndcap, places_length, hn]
    obtain ⟨l, hl'⟩ : ∃ l, (run (mkEndcap rMin rMax zMin sym phi0) ops).layout[n]? = some l :=
      ⟨_, List.getElem?_eq_getElem (by omega)⟩
    have h3 : at' (run (mkEndcap rMin rMax zMin sym phi0) ops).layout n = .ok l := by rw [at'_nat, hl']
    refine ⟨c', l.distance, l.thickness, by simp [getDistance, h3], by simp [getThickness, h3], ?_⟩
    rw [h1, h6]
    have : lastEnd (run (mkEndcap rMin rMax zMin sym phi0) ops).layout = some (l.distance + l.thickness) := by
      rw [lastEnd, List.getLast?_eq_getElem?, hlen, Nat.add_sub_cancel, hl']; rfl
    rw [this]
    simp [mkEndcap]

/-- So the extent of a barrel with its first layer at `d` is `d` plus all thicknesses. -/
theorem stacked_extent (rMin zMax : K) (sym : ℤ) (phi0 d : K) (p : Plate K) (ps : List (Plate K)) :
    ∃ c', getExtent (run (mkBarrel rMin zMax sym phi0) (.position d p :: ps.map .add))
      = .ok (c', [rMin, d + ((p :: ps).map Plate.thickness).sum, 0, zMax]) := by
  have e : ((.position d p :: ps.map .add : List (Op K)).filterMap Op.plate?)
      = (some d, p) :: ps.map fun q => (none, q) := by
    simp [Op.plate?, List.filterMap_map, Function.comp_def]
  obtain ⟨c', x, t, h1, h2, h3⟩ := (barrel_extent rMin zMax sym phi0 (.position d p :: ps.map .add)).2 ps.length
    (by rw [e]; simp)
  refine ⟨c', ?_⟩
  rw [h3]
  have h4 := stacked (mkBarrel rMin zMax sym phi0) rfl d p ps (le_refl _)
  rw [h1] at h4
  obtain ⟨r, hr⟩ : ∃ r, (p :: ps)[ps.length]? = some r :=
    ⟨_, List.getElem?_eq_getElem (show ps.length < (p :: ps).length by simp)⟩
  have h5 := ((layers_return (mkBarrel rMin zMax sym phi0) rfl (.position d p :: ps.map .add)).2.1 ps.length
    (if ps.length = 0 then some d else none) r (by
      rw [e]
      cases h : ps.length with
      | zero => rw [h] at hr; simpa using hr
      | succ i => rw [h] at hr; simp at hr; simp [hr])).1
  rw [h2] at h5
  rw [Res.ok.inj h4, Res.ok.inj h5]
  have : (p :: ps).take (ps.length + 1) = p :: ps := List.take_of_length_le (by simp)
  rw [List.take_add_one, hr] at this
  conv_rhs => rw [← this]
  simp [add_assoc]

/-- The extent covers every layer, if thicknesses are not negative and no layer is positioned before the end of the one
before it. -/
theorem extent_covers (rMin zMax : K) (sym : ℤ) (phi0 : K) (ops : List (Op K))
    (hthick : ∀ x ∈ ops.filterMap Op.plate?, 0 ≤ x.2.thickness)
    (hout : ∀ (i : ℕ) d p, (ops.filterMap Op.plate?)[i + 1]? = some (some d, p) → ∃ x t,
      getDistance (run (mkBarrel rMin zMax sym phi0) ops).layout i = .ok x
      ∧ getThickness (run (mkBarrel rMin zMax sym phi0) ops).layout i = .ok t ∧ x + t ≤ d)
    {i : ℕ} (hi : i < (ops.filterMap Op.plate?).length) : ∃ c' x t R,
      getDistance (run (mkBarrel rMin zMax sym phi0) ops).layout i = .ok x
      ∧ getThickness (run (mkBarrel rMin zMax sym phi0) ops).layout i = .ok t
      ∧ getExtent (run (mkBarrel rMin zMax sym phi0) ops) = .ok (c', [rMin, R, 0, zMax])
      ∧ x ≤ R ∧ x + t ≤ R := by
  obtain ⟨n, hn⟩ : ∃ n, (ops.filterMap Op.plate?).length = n + 1 := ⟨(ops.filterMap Op.plate?).length - 1, by omega⟩
  obtain ⟨c', d, t, h1, h2, h3⟩ := (barrel_extent rMin zMax sym phi0 ops).2 n hn
  have hval : ∀ j, j < n + 1 → ∃ x s, getDistance (run (mkBarrel rMin zMax sym phi0) ops).layout j = .ok x
      ∧ getThickness (run (mkBarrel rMin zMax sym phi0) ops).layout j = .ok s ∧ 0 ≤ s := by
    intro j hj
    have h4 : (ops.filterMap Op.plate?)[j]? = some (ops.filterMap Op.plate?)[j] := List.getElem?_eq_getElem (by omega)
    have h5 := (layers_return (mkBarrel rMin zMax sym phi0) rfl ops).2.1 j _ _ h4
    have hlen := (layers_return (mkBarrel rMin zMax sym phi0) rfl ops).1
    simp only [getNLayers] at hlen
    have h6 : at' (run (mkBarrel rMin zMax sym phi0) ops).layout j
        = .ok ((run (mkBarrel rMin zMax sym phi0) ops).layout[j]'(by omega)) := by
      rw [at'_nat, List.getElem?_eq_getElem (by omega)]
    exact ⟨_, _, by simp only [getDistance, h6]; rfl, h5.1, hthick _ (List.getElem_mem _)⟩
  have main : ∀ k j, j + k = n → ∃ x s, getDistance (run (mkBarrel rMin zMax sym phi0) ops).layout j = .ok x
      ∧ getThickness (run (mkBarrel rMin zMax sym phi0) ops).layout j = .ok s ∧ 0 ≤ s ∧ x + s ≤ d + t := by
    intro k
    induction k with
    | zero =>
      intro j hj
      obtain rfl : j = n := by omega
      obtain ⟨x, s, a1, a2, a3⟩ := hval j (by omega)
      refine ⟨x, s, a1, a2, a3, ?_⟩
      rw [h1] at a1; rw [h2] at a2
      rw [Res.ok.inj a1, Res.ok.inj a2]
    | succ k ih =>
      intro j hj
      obtain ⟨y, u, b1, b2, b3, b4⟩ := ih (j + 1) (by omega)
      obtain ⟨x, s, a1, a2, a3⟩ := hval j (by omega)
      refine ⟨x, s, a1, a2, a3, ?_⟩
      obtain ⟨⟨o, p⟩, h4⟩ : ∃ q, (ops.filterMap Op.plate?)[j + 1]? = some q :=
        ⟨_, List.getElem?_eq_getElem (by omega)⟩
      have : x + s ≤ y := by
        cases o with
        | none =>
          obtain ⟨x', s', e1, e2, e3⟩ := (contiguous (mkBarrel rMin zMax sym phi0) rfl ops).2 j p h4
          rw [a1] at e1; rw [a2] at e2; rw [b1] at e3
          rw [Res.ok.inj e1, Res.ok.inj e2, Res.ok.inj e3]
        | some D =>
          obtain ⟨x', s', e1, e2, e3⟩ := hout j D p h4
          have e4 := ((layers_return (mkBarrel rMin zMax sym phi0) rfl ops).2.1 (j + 1) _ _ h4).2.2.2.2 D rfl
          rw [a1] at e1; rw [a2] at e2; rw [b1] at e4
          rw [Res.ok.inj e1, Res.ok.inj e2, Res.ok.inj e4]; exact e3
      linarith
  obtain ⟨x, s, a1, a2, a3, a4⟩ := main (n - i) i (by omega)
  exact ⟨c', x, s, d + t, a1, a2, h3, by linarith, a4⟩

/-- A barrel of three layers, its extent asked for in between. -/
def exampleOps : List (Op ℚ) :=
  [.extent, .position 1808 ⟨3, 10, 10, 2⟩, .extent, .add ⟨3, 10, 10, 2⟩, .add ⟨6, 10, 10, 4⟩]

example : getDistance (run (mkBarrel (1808 : ℚ) 2350 8 0) exampleOps).layout 2 = .ok 1814 := by decide +kernel

/-- Its layers. -/
theorem exampleOps_plates : exampleOps.filterMap Op.plate?
    = [(some 1808, ⟨3, 10, 10, 2⟩), (none, ⟨3, 10, 10, 2⟩), (none, ⟨6, 10, 10, 4⟩)] := rfl

example : (match getExtent (run (mkBarrel (1808 : ℚ) 2350 8 0) exampleOps) with
    | .ok (_, v) => v | _ => []) = [1808, 1820, 0, 2350] := by decide +kernel

/-- The hypotheses of `extent_covers` hold for it. -/
example : ∃ c' x t R, getDistance (run (mkBarrel (1808 : ℚ) 2350 8 0) exampleOps).layout (1 : ℕ) = .ok x
    ∧ getThickness (run (mkBarrel (1808 : ℚ) 2350 8 0) exampleOps).layout (1 : ℕ) = .ok t
    ∧ getExtent (run (mkBarrel (1808 : ℚ) 2350 8 0) exampleOps) = .ok (c', [1808, R, 0, 2350]) ∧ x ≤ R ∧ x + t ≤ R := by
  refine extent_covers 1808 2350 8 0 exampleOps ?_ ?_ (by rw [exampleOps_plates]; simp)
  · intro x hx
    rw [exampleOps_plates] at hx
    simp only [List.mem_cons, List.not_mem_nil, or_false] at hx
    rcases hx with rfl | rfl | rfl <;> norm_num
  · intro i d p h
    rw [exampleOps_plates] at h
    rcases i with _ | _ | i <;> simp at h

end Gear.Calo
