/-
Properties of the calorimeter layers and extent in `double` arithmetic (C144).
-/
import Verif.CaloDouble
import Verif.CaloProps
import Verif.DoublesGrid

set_option autoImplicit false
set_option linter.unusedSectionVars false

namespace Gear.Calo.Double

open Gear.Calo (at'_nat layerOf)
open Gear.Calo.Spec (Plate Op)
open Doubles

variable {K : Type} [Field K] [LinearOrder K] [IsStrictOrderedRing K] [FloorRing K]

/-! ### Specification -/

namespace Spec

/-- The effect of a call on the object. -/
def step {K : Type} [Field K] [LinearOrder K] [IsStrictOrderedRing K] [FloorRing K] (rnd : K → K) (c : Calo K) :
    Op K → Calo K
  | .add p => { c with layout := addLayer rnd c.layout p.thickness p.cellSize0 p.cellSize1 p.absorber }
  | .position d p => { c with layout := positionLayer c.layout d p.thickness p.cellSize0 p.cellSize1 p.absorber }
  | .extent => match getExtent rnd c with
    | .ok (c', _) => c'
    | _ => c

/-- Any sequence of calls. -/
def run {K : Type} [Field K] [LinearOrder K] [IsStrictOrderedRing K] [FloorRing K] (rnd : K → K) (c : Calo K)
    (ops : List (Op K)) : Calo K := ops.foldl (step rnd) c

/-- What the user passes in are doubles. -/
def Given {K : Type} (rnd : K → K) : Op K → Prop
  | .add p => rnd p.thickness = p.thickness
  | .position d p => rnd d = d ∧ rnd p.thickness = p.thickness
  | .extent => True

end Spec

open Spec

/-- Where a layer starts, given where the previous one ends. -/
def starts (rnd : K → K) : Option K → List (Option K × Plate K) → List (K × Plate K)
  | _, [] => []
  | e, (o, p) :: rest => (Calo.Spec.start e o, p) :: starts rnd (some (rnd (Calo.Spec.start e o + p.thickness))) rest

/-- Where the last layer ends. -/
def lastEnd (rnd : K → K) (L : Layout K) : Option K := L.getLast?.map fun l => rnd (l.distance + l.thickness)

theorem getExtent_eq (rnd : K → K) (c : Calo K) : ∃ c' v, getExtent rnd c = .ok (c', v) ∧ c'.layout = c.layout
    ∧ c'.type = c.type
    ∧ v = [c.extent0, (match c.type with | .barrel => (lastEnd rnd c.layout).getD c.extent1 | .endcap => c.extent1), c.extent2,
        (match c.type with | .barrel => c.extent3 | .endcap => (lastEnd rnd c.layout).getD c.extent3)]
    ∧ v = [c'.extent0, c'.extent1, c'.extent2, c'.extent3] := by
  unfold getExtent
  dsimp only
  rcases List.eq_nil_or_concat c.layout with h | ⟨L, l, h⟩
  · rw [if_neg (by simp [getNLayers, h])]
    refine ⟨c, _, rfl, rfl, rfl, ?_, rfl⟩
    cases c.type <;> simp [h, lastEnd]
  · have e : getNLayers c.layout - 1 = ((L.length : ℕ) : ℤ) := by simp [getNLayers, h]
    rw [if_pos (by simp [getNLayers, h]), e]
    simp only [getDistance, getThickness, at'_nat]
    have : c.layout[L.length]? = some l := by rw [h]; simp
    rw [this]
    have hl : lastEnd rnd c.layout = some (rnd (l.distance + l.thickness)) := by rw [h]; simp [lastEnd]
    cases ht : c.type
    · refine ⟨⟨.barrel, c.sym, c.phi, c.layout, c.extent0, rnd (l.distance + l.thickness), c.extent2, c.extent3⟩, _, rfl, rfl, rfl, ?_, rfl⟩
      simp [hl]
    · refine ⟨⟨.endcap, c.sym, c.phi, c.layout, c.extent0, c.extent1, c.extent2, rnd (l.distance + l.thickness)⟩, _, rfl, rfl, rfl, ?_, rfl⟩
      simp [hl]

/-- The layers of the object after a history. -/
theorem run_layout (rnd : K → K) (c : Calo K) (ops : List (Op K)) :
    (run rnd c ops).layout = c.layout ++ (starts rnd (lastEnd rnd c.layout) (ops.filterMap Op.plate?)).map layerOf := by
  induction ops generalizing c with
  | nil => simp [run, starts]
  | cons op ops ih =>
    have e : run rnd c (op :: ops) = run rnd (step rnd c op) ops := rfl
    rw [e, ih]
    cases op with
    | add p =>
      have h1 : (step rnd c (.add p)).layout
          = c.layout ++ [layerOf (Calo.Spec.start (lastEnd rnd c.layout) none, p)] := by
        simp only [step, addLayer, layerOf, Calo.Spec.start, lastEnd]
        cases c.layout.getLast? <;> rfl
      have h2 : lastEnd rnd (step rnd c (.add p)).layout
          = some (rnd (Calo.Spec.start (lastEnd rnd c.layout) none + p.thickness)) := by
        rw [h1]; simp [lastEnd, layerOf]
      rw [h2, h1]
      simp [Op.plate?, starts]
    | position d p =>
      have h1 : (step rnd c (.position d p)).layout = c.layout ++ [layerOf (d, p)] := rfl
      have h2 : lastEnd rnd (step rnd c (.position d p)).layout = some (rnd (d + p.thickness)) := by
        rw [h1]; simp [lastEnd, layerOf]
      rw [h2, h1]
      simp [Op.plate?, starts, Calo.Spec.start]
    | extent =>
      obtain ⟨c', v, h1, h2, -⟩ := getExtent_eq rnd c
      have h3 : step rnd c .extent = c' := by simp [step, h1]
      rw [h3, h2]
      rfl

theorem starts_first (rnd : K → K) (o : Option K) (p : Plate K) (ps : List (Option K × Plate K)) :
    (starts rnd none ((o, p) :: ps))[0]? = some (o.getD 0, p) := by
  cases o <;> rfl

theorem starts_pair (rnd : K → K) (e : Option K) (ps : List (Option K × Plate K)) (i : ℕ) (o : Option K) (p : Plate K)
    (h : ps[i + 1]? = some (o, p)) : ∃ x q, (starts rnd e ps)[i]? = some (x, q) ∧ (ps[i]?).map Prod.snd = some q ∧
      (starts rnd e ps)[i + 1]? = some (o.getD (rnd (x + q.thickness)), p) := by
  induction ps generalizing e i with
  | nil => simp at h
  | cons q ps ih =>
    obtain ⟨r, q⟩ := q
    cases i with
    | zero =>
      cases ps with
      | nil => simp at h
      | cons s ps =>
        simp only [zero_add, List.getElem?_cons_succ, List.getElem?_cons_zero, Option.some.injEq] at h
        subst h
        refine ⟨Calo.Spec.start e r, q, rfl, rfl, ?_⟩
        cases o <;> rfl
    | succ i => simpa [starts] using ih _ i (by simpa using h)

theorem distance_of {L : Layout K} {i : ℕ} {x : K} {p : Plate K} (h : L[i]? = some (layerOf (x, p))) :
    getDistance L i = .ok x ∧ getThickness L i = .ok p.thickness := by
  have h3 : at' L i = .ok (layerOf (x, p)) := by rw [at'_nat, h]
  exact ⟨by simp [getDistance, h3, layerOf], by simp [getThickness, h3, layerOf]⟩

/-! ### C144: the layers in `double` arithmetic -/

/-- Any history on a new calorimeter: the first layer, if added, is at 0; one positioned is where the user put it; and one
added starts at the sum, as a `double`, of the distance and the thickness the getters report for the one before. -/
theorem contiguous_double (rnd : K → K) (c : Calo K) (hc : c.layout = []) (ops : List (Op K)) :
    (∀ o p, (ops.filterMap Op.plate?)[0]? = some (o, p) → getDistance (run rnd c ops).layout 0 = .ok (o.getD 0))
    ∧ ∀ (i : ℕ) o p, (ops.filterMap Op.plate?)[i + 1]? = some (o, p) → ∃ d t q,
      getDistance (run rnd c ops).layout i = .ok d ∧ getThickness (run rnd c ops).layout i = .ok t
        ∧ ((ops.filterMap Op.plate?)[i]?).map Prod.snd = some q ∧ t = q.thickness
        ∧ getDistance (run rnd c ops).layout ((i + 1 : ℕ) : ℤ) = .ok (o.getD (rnd (d + t))) := by
  have hl := run_layout rnd c ops
  rw [hc] at hl
  generalize ops.filterMap Op.plate? = ps at hl ⊢
  simp only [List.nil_append, lastEnd, List.getLast?_nil, Option.map_none] at hl
  constructor
  · intro o p hp
    cases ps with
    | nil => simp at hp
    | cons q ps =>
      simp only [List.getElem?_cons_zero, Option.some.injEq] at hp
      subst hp
      exact (distance_of (i := 0) (x := o.getD 0) (p := p) (by
        rw [hl, List.getElem?_map, starts_first]; rfl)).1
  · intro i o p hp
    obtain ⟨x, q, h1, h2, h3⟩ := starts_pair rnd none ps i o p hp
    have a := distance_of (L := (run rnd c ops).layout) (i := i) (x := x) (p := q) (by
      rw [hl, List.getElem?_map, h1]; rfl)
    have b := distance_of (L := (run rnd c ops).layout) (i := i + 1) (p := p) (by
      rw [hl, List.getElem?_map, h3]; rfl)
    exact ⟨x, q.thickness, q, a.1, a.2, h2, rfl, b.1⟩

theorem starts_double {rnd : K → K} {u : K} (R : Rounding rnd u) {ps : List (Option K × Plate K)}
    (hp : ∀ o p, (o, p) ∈ ps → ∀ d, o = some d → rnd d = d) {e : Option K} (he : ∀ x, e = some x → rnd x = x) {i : ℕ} {x : K}
    {q : Plate K} (h : (starts rnd e ps)[i]? = some (x, q)) : rnd x = x := by
  induction ps generalizing e i with
  | nil => simp [starts] at h
  | cons r ps ih =>
    obtain ⟨o, r⟩ := r
    cases i with
    | zero =>
      simp only [starts, List.getElem?_cons_zero, Option.some.injEq, Prod.mk.injEq] at h
      rw [← h.1]
      cases o with
      | some d => exact hp _ _ (List.mem_cons_self) d rfl
      | none =>
        cases e with
        | some x => exact he x rfl
        | none => exact R.zero
    | succ i =>
      exact ih (fun o p m => hp o p (List.mem_cons_of_mem _ m)) (e := some (rnd (Calo.Spec.start e o + r.thickness))) (fun x hx => by rw [← Option.some.inj hx]; exact R.idem _)
        (by simpa [starts] using h)

/-- No overlap: a layer added after one of non-negative thickness does not start before it, whatever the history, and the
place where it starts is within one rounding of where the one before ends. -/
theorem ordered_double {rnd : K → K} {u : K} (R : Rounding rnd u) (c : Calo K) (hc : c.layout = [])
    (ops : List (Op K)) (hg : ∀ o ∈ ops, Given rnd o) (i : ℕ) {p : Plate K}
    (hp : (ops.filterMap Op.plate?)[i + 1]? = some (none, p)) :
    ∃ d t d', getDistance (run rnd c ops).layout i = .ok d ∧ getThickness (run rnd c ops).layout i = .ok t
      ∧ getDistance (run rnd c ops).layout ((i + 1 : ℕ) : ℤ) = .ok d'
      ∧ |d' - (d + t)| ≤ u * |d + t| ∧ (0 ≤ t → d ≤ d') ∧ (t ≤ 0 → d' ≤ d) := by
  obtain ⟨d, t, q, h1, h2, h3, h4, h5⟩ := (contiguous_double rnd c hc ops).2 i none p hp
  have hd : rnd d = d := by
    have hl := run_layout rnd c ops
    rw [hc] at hl
    simp only [List.nil_append, lastEnd, List.getLast?_nil, Option.map_none] at hl
    obtain ⟨x, r, k1, -, -⟩ := starts_pair rnd none (ops.filterMap Op.plate?) i none p hp
    have a := distance_of (L := (run rnd c ops).layout) (i := i) (x := x) (p := r) (by
      rw [hl, List.getElem?_map, k1]; rfl)
    have hx : x = d := Res.ok.inj (a.1.symm.trans h1)
    rw [← hx]
    refine starts_double R (ps := ops.filterMap Op.plate?) ?_ (e := none) (fun x hx => by cases hx) k1
    rintro o s hm y rfl
    obtain ⟨op, m1, m2⟩ := List.mem_filterMap.1 hm
    cases op with
    | add p => simp [Op.plate?] at m2
    | extent => simp [Op.plate?] at m2
    | position z s' =>
      simp only [Op.plate?, Option.some.injEq, Prod.mk.injEq] at m2
      have := (hg _ m1).1
      rw [m2.1] at this
      exact this
  refine ⟨d, t, rnd (d + t), h1, h2, h5, R.err _, fun ht => ?_, fun ht => ?_⟩
  · have := R.mono d (d + t) (by linarith)
    rwa [hd] at this
  · have := R.mono (d + t) d (by linarith)
    rwa [hd] at this

/-- The first layer positioned at `d`, then any number added, all of non-negative thickness: layer `i` starts where the
thicknesses of the earlier ones put it, within a factor `(1 + u)^i`. -/
theorem stacked_double {rnd : K → K} {u : K} (R : Rounding rnd u) (hu : u ≤ 1) (c : Calo K) (hc : c.layout = []) {d : K} (hd : 0 ≤ d)
    (p : Plate K) (ps : List (Plate K)) (ht : ∀ q ∈ p :: ps, 0 ≤ q.thickness) {i : ℕ} (hi : i ≤ ps.length) :
    ∃ x, getDistance (run rnd c (.position d p :: ps.map .add)).layout i = .ok x ∧
      (1 - u) ^ i * (d + (((p :: ps).take i).map Plate.thickness).sum) ≤ x ∧
      x ≤ (1 + u) ^ i * (d + (((p :: ps).take i).map Plate.thickness).sum) := by
  have e : ((.position d p :: ps.map .add : List (Op K)).filterMap Op.plate?)
      = (some d, p) :: ps.map fun q => (none, q) := by
    simp [Op.plate?, List.filterMap_map, Function.comp_def]
  have hu0 : 0 ≤ u := by
    have := R.err 1
    rw [abs_one, mul_one] at this
    exact (abs_nonneg _).trans this
  induction i with
  | zero =>
    have := (contiguous_double rnd c hc (.position d p :: ps.map .add)).1 (some d) p (by rw [e]; rfl)
    exact ⟨d, this, by simp, by simp⟩
  | succ i ih =>
    obtain ⟨x, h1, h2, h3⟩ := ih (by omega)
    obtain ⟨q, hq⟩ : ∃ q, ps[i]? = some q := ⟨ps[i], by simp [List.getElem?_eq_getElem (show i < ps.length by omega)]⟩
    obtain ⟨y, t, r, k1, k2, k3, k4, k5⟩ := (contiguous_double rnd c hc (.position d p :: ps.map .add)).2 i none q
      (by rw [e]; simp [hq])
    have hxy : x = y := Res.ok.inj (h1.symm.trans k1)
    subst hxy
    have hr : (p :: ps)[i]? = some r := by
      rw [e] at k3
      cases i with
      | zero => simpa using k3
      | succ i => simpa [List.getElem?_map, Option.map_map, Function.comp_def] using k3
    have ht0 : 0 ≤ t := by rw [k4]; exact ht r (List.mem_of_getElem? hr)
    rw [List.take_add_one, hr]
    simp only [Option.toList_some, List.map_append, List.map_cons, List.map_nil, List.sum_append, List.sum_singleton, ← k4]
    have hs : 0 ≤ (((p :: ps).take i).map Plate.thickness).sum := by
      apply List.sum_nonneg
      intro z hz
      obtain ⟨s, hs, rfl⟩ := List.mem_map.1 hz
      exact ht s (List.mem_of_mem_take hs)
    generalize (((p :: ps).take i).map Plate.thickness).sum = S at h2 h3 hs ⊢
    have a1 : (1 - u) ^ i ≤ 1 := pow_le_one₀ (by linarith) (by linarith)
    have a2 : 1 ≤ (1 + u) ^ i := one_le_pow₀ (by linarith)
    have a3 : 0 ≤ (1 - u) ^ i := pow_nonneg (by linarith) i
    have hx0 : 0 ≤ x := le_trans (mul_nonneg a3 (by linarith)) h2
    obtain ⟨b1, b2⟩ := R.bounds (x := x + t) (by linarith)
    have c1 : (1 - u) ^ i * (d + (S + t)) ≤ x + t := by
      have := mul_le_mul_of_nonneg_right a1 ht0
      have e : (1 - u) ^ i * (d + (S + t)) = (1 - u) ^ i * (d + S) + (1 - u) ^ i * t := by ring
      linarith
    have c2 : x + t ≤ (1 + u) ^ i * (d + (S + t)) := by
      have := mul_le_mul_of_nonneg_right a2 ht0
      have e : (1 + u) ^ i * (d + (S + t)) = (1 + u) ^ i * (d + S) + (1 + u) ^ i * t := by ring
      linarith
    refine ⟨rnd (x + t), k5, ?_, ?_⟩
    · have := mul_le_mul_of_nonneg_left c1 (show 0 ≤ 1 - u by linarith)
      have e : (1 - u) ^ (i + 1) * (d + (S + t)) = (1 - u) * ((1 - u) ^ i * (d + (S + t))) := by ring
      linarith
    · have := mul_le_mul_of_nonneg_left c2 (show 0 ≤ 1 + u by linarith)
      have e : (1 + u) ^ (i + 1) * (d + (S + t)) = (1 + u) * ((1 + u) ^ i * (d + (S + t))) := by ring
      linarith

/-- The outer end that `getExtent` reports is the place where a layer added next would start, to the last bit, whatever the
history, calls of `getExtent` among them. -/
theorem extent_double (rnd : K → K) (c : Calo K) (hc : c.layout = []) (ops : List (Op K)) (p : Plate K) (n : ℕ)
    (hn : (ops.filterMap Op.plate?).length = n + 1) :
    ∃ c' e0 e1 e2 e3, getExtent rnd (run rnd c ops) = .ok (c', [e0, e1, e2, e3]) ∧
      getDistance (run rnd c (ops ++ [.add p])).layout ((n + 1 : ℕ) : ℤ) = .ok (match c.type with | .barrel => e1 | .endcap => e3) := by
  have ht : (run rnd c ops).type = c.type := by
    clear hn hc
    induction ops generalizing c with
    | nil => rfl
    | cons op ops ih =>
      have e : run rnd c (op :: ops) = run rnd (step rnd c op) ops := rfl
      rw [e, ih]
      cases op with
      | add p => rfl
      | position d p => rfl
      | extent =>
        obtain ⟨c', v, h1, -, h3, -⟩ := getExtent_eq rnd c
        have h4 : step rnd c .extent = c' := by simp [step, h1]
        rw [h4, h3]
  obtain ⟨c', v, h1, -, -, h4, -⟩ := getExtent_eq rnd (run rnd c ops)
  refine ⟨c', _, _, _, _, by rw [h1, h4], ?_⟩
  have hlen : (run rnd c ops).layout.length = n + 1 := by
    rw [run_layout, hc, ← hn]
    have : ∀ (e : Option K) (ps : List (Option K × Plate K)), (starts rnd e ps).length = ps.length := by
      intro e ps
      induction ps generalizing e with
      | nil => rfl
      | cons p ps ih => obtain ⟨o, p⟩ := p; simp [starts, ih]
    simp [this]
  obtain ⟨L, l, hL⟩ : ∃ L l, (run rnd c ops).layout = L ++ [l] := by
    rcases List.eq_nil_or_concat (run rnd c ops).layout with h | ⟨L, l, h⟩
    · rw [h] at hlen; simp at hlen
    · exact ⟨L, l, by rw [h, List.concat_eq_append]⟩
  have hrun : (run rnd c (ops ++ [.add p])).layout = (run rnd c ops).layout ++ [layerOf (rnd (l.distance + l.thickness), p)] := by
    have hr : run rnd c (ops ++ [.add p]) = step rnd (run rnd c ops) (.add p) := by unfold run; rw [List.foldl_append]; rfl
    rw [hr]
    simp only [step, addLayer, hL, List.getLast?_concat, layerOf]
  have := (distance_of (L := (run rnd c (ops ++ [.add p])).layout) (i := n + 1) (x := rnd (l.distance + l.thickness)) (p := p)
    (by rw [hrun, ← hlen]; simp)).1
  rw [this, ht, hL]
  cases c.type <;> simp [lastEnd]

/-- A plate of the given thickness. -/
def plate (t : ℚ) : Plate ℚ := ⟨t, 10, 10, 1⟩

/-- The double nearest to 0.1. -/
def tenth : ℚ := 3602879701896397 / 36028797018963968

/-- Non-vacuity: three layers of thickness 0.1 behind 1700. -/
example : (∀ o ∈ [.position 1700 (plate tenth), .add (plate tenth), .extent, .add (plate tenth)], Given (MaterialMap.binary64) o) ∧
    getDistance (run MaterialMap.binary64 (mkBarrel (1700 : ℚ) 2000 8 0)
      [.position 1700 (plate tenth), .add (plate tenth), .extent, .add (plate tenth)]).layout 2
      = .ok (1869389669544755 / 1099511627776) := by
  constructor
  · intro o ho
    simp only [List.mem_cons, List.not_mem_nil, or_false] at ho
    rcases ho with rfl | rfl | rfl | rfl <;> simp only [Given] <;> decide +kernel
  · decide +kernel

/-- The places are not the exact sums: three layers of 0.1. -/
theorem stacked_double_false_exact :
    getDistance (run MaterialMap.binary64 (mkBarrel (0 : ℚ) 2000 8 0) (List.replicate 4 (.add (plate tenth)))).layout 3
      ≠ .ok (tenth + tenth + tenth) := by
  decide +kernel

/-- A layer of positive thickness need not move the next one: behind 10^16, one of thickness 1. -/
theorem ordered_double_false_strict :
    let ops : List (Op ℚ) := [.position (10 ^ 16) (plate 1), .add (plate 1)]
    (∀ o ∈ ops, Given MaterialMap.binary64 o) ∧
    getDistance (run MaterialMap.binary64 (mkBarrel (0 : ℚ) 2000 8 0) ops).layout 0 = .ok (10 ^ 16) ∧
    getDistance (run MaterialMap.binary64 (mkBarrel (0 : ℚ) 2000 8 0) ops).layout 1 = .ok (10 ^ 16) := by
  refine ⟨?_, by decide +kernel, by decide +kernel⟩
  intro o ho
  rcases List.mem_pair.1 ho with rfl | rfl <;> simp only [Given] <;> decide +kernel

/-- With exact arithmetic this is the model of `Calo.lean`. -/
theorem exact_arithmetic (c : Calo K) (ops : List (Op K)) : run id c ops = Calo.Spec.run c ops ∧
    getExtent id (run id c ops) = Calo.getExtent (Calo.Spec.run c ops) := by
  have h : step (K := K) id = Calo.Spec.step := by
    funext c o
    cases o <;> rfl
  have e : run id c ops = Calo.Spec.run c ops := by unfold run Calo.Spec.run; rw [h]
  exact ⟨e, by rw [e]; rfl⟩

end Gear.Calo.Double
