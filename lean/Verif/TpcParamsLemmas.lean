/-
Lemmas about `TPCParametersImpl`.
-/
import Verif.TpcParamsSpec

set_option autoImplicit false
set_option linter.unusedSectionVars false

namespace Gear.TpcParams

open TpcModule (CARTESIAN POLAR Ext LayoutI TrigFns)
open Spec

variable {K : Type} [Field K] [LinearOrder K] [IsStrictOrderedRing K] [FloorRing K]

/-! ### Positions -/

section
variable {α : Type}

/-- The positions of the elements with a property. -/
def idx (p : α → Prop) [DecidablePred p] (l : List α) : List ℕ :=
  (List.range l.length).filter (fun i => (l[i]?).any (fun a => decide (p a)))

theorem idx_nil (p : α → Prop) [DecidablePred p] : idx p [] = [] := rfl

theorem idx_append (p : α → Prop) [DecidablePred p] (l : List α) (a : α) :
    idx p (l ++ [a]) = idx p l ++ if p a then [l.length] else [] := by
  unfold idx
  rw [List.length_append, List.length_singleton, List.range_succ, List.filter_append]
  congr 1
  · apply List.filter_congr
    intro i hi
    rw [List.mem_range] at hi
    rw [List.getElem?_append_left hi]
  · rw [List.filter_singleton]
    simp

theorem half_idx (p : α → Prop) [DecidablePred p] (l : List α) :
    (idx p l).filterMap (fun i => l[i]?) = l.filter (fun a => decide (p a)) := by
  induction l using List.reverseRecOn with
  | nil => rfl
  | append_singleton l a ih =>
    rw [idx_append, List.filterMap_append, List.filter_append]
    congr 1
    · rw [← ih]
      apply List.filterMap_congr
      intro i hi
      have hi : i < l.length := by
        have := List.mem_of_mem_filter hi
        rwa [List.mem_range] at this
      rw [List.getElem?_append_left hi]
    · by_cases h : p a
      · simp [h]
      · simp [h]

theorem idx_congr {p : α → Prop} [DecidablePred p] {l l' : List α} (h : l.length = l'.length)
    (hp : ∀ i : ℕ, (l[i]?).any (fun a => decide (p a)) = (l'[i]?).any (fun a => decide (p a))) : idx p l = idx p l' := by
  unfold idx
  rw [h]
  apply List.filter_congr
  intro i _
  rw [hp]

theorem idx_head (p : α → Prop) [DecidablePred p] (l : List α) :
    ((idx p l).head?).bind (fun i => l[i]?) = (l.filter (fun a => decide (p a))).head? := by
  have hall : ∀ i ∈ idx p l, ∃ a, l[i]? = some a := by
    intro i hi
    have := List.mem_of_mem_filter hi
    rw [List.mem_range] at this
    exact ⟨l[i], List.getElem?_eq_getElem this⟩
  rw [← half_idx]
  cases h : idx p l with
  | nil => rfl
  | cons i t =>
    obtain ⟨a, ha⟩ := hall i (by rw [h]; exact List.mem_cons_self)
    simp [ha]

theorem idx_eq_nil {p : α → Prop} [DecidablePred p] {l : List α} :
    idx p l = [] ↔ l.filter (fun a => decide (p a)) = [] := by
  rw [← half_idx]
  have hall : ∀ i ∈ idx p l, ∃ a, l[i]? = some a := by
    intro i hi
    have := List.mem_of_mem_filter hi
    rw [List.mem_range] at this
    exact ⟨l[i], List.getElem?_eq_getElem this⟩
  cases h : idx p l with
  | nil => simp
  | cons i t =>
    obtain ⟨a, ha⟩ := hall i (by rw [h]; exact List.mem_cons_self)
    simp [ha]

end

theorem onPositive_none {m : Mod K} (h : m.z = none) : OnPositive m := fun z' h' => by rw [h] at h'; cases h'

theorem onNegative_none {m : Mod K} (h : m.z = none) : OnNegative m := fun z' h' => by rw [h] at h'; cases h'

theorem onPositive_some {m : Mod K} {z : K} (h : m.z = some z) : OnPositive m ↔ 0 < z :=
  ⟨fun h' => h' z h, fun h0 z' h' => by rw [h] at h'; cases h'; exact h0⟩

theorem onNegative_some {m : Mod K} {z : K} (h : m.z = some z) : OnNegative m ↔ z ≤ 0 :=
  ⟨fun h' => h' z h, fun h0 z' h' => by rw [h] at h'; cases h'; exact h0⟩

/-! ### The invariant -/

/-- What holds of every TPC. -/
structure Inv (t : ℤ) (T : Tpc K) (B : Books K) : Prop where
  type : T.coordinateType = t
  mods : T.modules = B.modules
  drift : T.maxDriftLength = B.drift
  velocity : T.driftVelocity = B.velocity
  pos : T.positive = idx OnPositive B.modules
  neg : T.negative = idx OnNegative B.modules
  ids : ∀ id i, T.moduleIDMap id = some i ↔ ∃ m, B.modules[i]? = some m ∧ m.id = id
  types : ∀ m ∈ B.modules, m.tpcCoordinateType = t
  ext : B.modules ≠ [] → SmallestExtent B.modules T.planeExtent
  cath : (∀ m ∈ B.modules, m.z ≠ none) → T.cathodePosition = cathode B.modules B.drift
  cath0 : (∀ m ∈ B.modules, m.z = none) → T.cathodePosition = 0

theorem Inv.new (maxDrift : K) (type : ℤ) :
    Inv (new maxDrift type).coordinateType (TpcParams.new maxDrift type)
      ⟨[], (TpcParams.new maxDrift type).maxDriftLength, 0⟩ := by
  refine ⟨rfl, rfl, rfl, rfl, rfl, rfl, ?_, ?_, ?_, fun _ => rfl, fun _ => rfl⟩
  · intro id i
    simp [TpcParams.new]
  · intro m hm; cases hm
  · intro h; exact absurd rfl h

/-- Modules with a z position are on one side. -/
theorem filter_neg_head {l : List (Mod K)} (h : ∀ m ∈ l, m.z ≠ none) :
    ((l.filter (fun m => decide (OnNegative m))).head?).bind Mod.z =
      (l.filterMap Mod.z).find? (fun z => decide (z ≤ 0)) := by
  induction l with
  | nil => rfl
  | cons m l ih =>
    have ih := ih (fun m hm => h m (List.mem_cons_of_mem _ hm))
    cases hz : m.z with
    | none => exact absurd hz (h m List.mem_cons_self)
    | some z =>
      rw [List.filterMap_cons_some hz, List.find?_cons]
      by_cases hz0 : z ≤ 0
      · have : OnNegative m := fun z' h' => by rw [hz] at h'; cases h'; exact hz0
        rw [List.filter_cons_of_pos (by simpa using this)]
        simp [hz0, hz]
      · have : ¬ OnNegative m := fun h' => hz0 (h' z hz)
        rw [List.filter_cons_of_neg (by simpa using this)]
        simp only [hz0, decide_false]
        exact ih

theorem filter_pos_head {l : List (Mod K)} (h : ∀ m ∈ l, m.z ≠ none) :
    ((l.filter (fun m => decide (OnPositive m))).head?).bind Mod.z =
      (l.filterMap Mod.z).find? (fun z => decide (0 < z)) := by
  induction l with
  | nil => rfl
  | cons m l ih =>
    have ih := ih (fun m hm => h m (List.mem_cons_of_mem _ hm))
    cases hz : m.z with
    | none => exact absurd hz (h m List.mem_cons_self)
    | some z =>
      rw [List.filterMap_cons_some hz, List.find?_cons]
      by_cases hz0 : 0 < z
      · have : OnPositive m := fun z' h' => by rw [hz] at h'; cases h'; exact hz0
        rw [List.filter_cons_of_pos (by simpa using this)]
        simp [hz0, hz]
      · have : ¬ OnPositive m := fun h' => hz0 (h' z hz)
        rw [List.filter_cons_of_neg (by simpa using this)]
        simp only [hz0, decide_false]
        exact ih

theorem firstZ_eq {T : Tpc K} {p : Mod K → Prop} [DecidablePred p] (l : List ℕ) (h : l = idx p T.modules) :
    firstZ T l = ((T.modules.filter (fun m => decide (p m))).head?).bind Mod.z := by
  rw [← idx_head, ← h]
  cases l with
  | nil => rfl
  | cons i t =>
    show (match T.modules[i]? with | some m => m.z | none => none) = _
    simp only [List.head?_cons, Option.bind_some]
    cases T.modules[i]? <;> rfl

/-- `setCathodePosition` changes at most the cathode position. -/
theorem setCathodePosition_eq (T : Tpc K) :
    ∃ c, setCathodePosition T = { T with cathodePosition := c } := by
  unfold setCathodePosition
  split_ifs
  · split
    · exact ⟨_, rfl⟩
    · exact ⟨_, rfl⟩
  · split
    · exact ⟨_, rfl⟩
    · exact ⟨_, rfl⟩
  · split
    · exact ⟨_, rfl⟩
    · exact ⟨_, rfl⟩
  · exact ⟨_, rfl⟩

/-- If all modules have a z position, the cathode is put where it belongs. -/
theorem setCathodePosition_all {T : Tpc K} (hp : T.positive = idx OnPositive T.modules)
    (hn : T.negative = idx OnNegative T.modules) (h : ∀ m ∈ T.modules, m.z ≠ none) (hne : T.modules ≠ []) :
    (setCathodePosition T).cathodePosition = cathode T.modules T.maxDriftLength := by
  have e1 := firstZ_eq T.negative hn
  have e2 := firstZ_eq T.positive hp
  rw [filter_neg_head h] at e1
  rw [filter_pos_head h] at e2
  have n1 : ∀ (p : Mod K → Prop) [DecidablePred p], idx p T.modules = [] →
      firstZ T (idx p T.modules) = none := by
    intro p _ h; rw [h]; rfl
  have n2 : ∀ (p : Mod K → Prop) [DecidablePred p], idx p T.modules ≠ [] →
      ∃ z, firstZ T (idx p T.modules) = some z := by
    intro p _ hh
    rw [firstZ_eq _ rfl]
    rw [Ne, idx_eq_nil] at hh
    obtain ⟨m, l', hm⟩ := List.exists_cons_of_ne_nil hh
    rw [hm]
    have : m ∈ T.modules := List.mem_of_mem_filter (by rw [hm]; exact List.mem_cons_self)
    obtain ⟨z, hz⟩ := Option.ne_none_iff_exists'.1 (h m this)
    exact ⟨z, by simpa using hz⟩
  unfold setCathodePosition cathode
  rw [← e1, ← e2]
  by_cases a : T.negative ≠ []
  · rw [if_pos a]
    obtain ⟨za, ha⟩ := n2 OnNegative (by rw [← hn]; exact a)
    rw [← hn] at ha
    by_cases b : T.positive ≠ []
    · rw [if_pos b]
      obtain ⟨zb, hb⟩ := n2 OnPositive (by rw [← hp]; exact b)
      rw [← hp] at hb
      rw [ha, hb]
    · rw [if_neg b]
      have hb := n1 OnPositive (by rw [← hp]; exact not_not.1 b)
      rw [← hp] at hb
      rw [ha, hb]
  · rw [if_neg a]
    have ha := n1 OnNegative (by rw [← hn]; exact not_not.1 a)
    rw [← hn] at ha
    by_cases b : T.positive ≠ []
    · rw [if_pos b]
      obtain ⟨zb, hb⟩ := n2 OnPositive (by rw [← hp]; exact b)
      rw [← hp] at hb
      rw [ha, hb]
    · exfalso
      obtain ⟨m, l', hm⟩ := List.exists_cons_of_ne_nil hne
      have hmem : m ∈ T.modules := by rw [hm]; exact List.mem_cons_self
      obtain ⟨z, hz⟩ := Option.ne_none_iff_exists'.1 (h m hmem)
      have a' : idx OnNegative T.modules = [] := by rw [← hn]; exact not_not.1 a
      have b' : idx OnPositive T.modules = [] := by rw [← hp]; exact not_not.1 b
      rw [idx_eq_nil, List.filter_eq_nil_iff] at a' b'
      have a' := a' m hmem
      have b' := b' m hmem
      rw [decide_eq_true_iff] at a' b'
      rcases le_or_gt z 0 with c | c
      · exact a' (fun z' h' => by rw [hz] at h'; cases h'; exact c)
      · exact b' (fun z' h' => by rw [hz] at h'; cases h'; exact c)

/-- If no module has a z position, the cathode stays. -/
theorem setCathodePosition_none {T : Tpc K} (hp : T.positive = idx OnPositive T.modules)
    (hn : T.negative = idx OnNegative T.modules) (h : ∀ m ∈ T.modules, m.z = none) :
    setCathodePosition T = T := by
  have key : ∀ (p : Mod K → Prop) [DecidablePred p], firstZ T (idx p T.modules) = none := by
    intro p _
    rw [firstZ_eq _ rfl]
    cases hh : (T.modules.filter (fun m => decide (p m))).head? with
    | none => rfl
    | some m =>
      have : m ∈ T.modules := List.mem_of_mem_filter (List.mem_of_head? hh)
      simpa using h m this
  unfold setCathodePosition
  rw [hp, hn, key OnNegative, key OnPositive]
  split_ifs <;> rfl

/-! ### Every call keeps the invariant -/

theorem Accepts_iff {t : ℤ} {T : Tpc K} {B : Books K} (h : Inv t T B) (m : Mod K) :
    Accepts t B.modules m ↔ ¬ m.tpcCoordinateType ≠ T.coordinateType ∧ ¬ (T.moduleIDMap m.id).isSome = true := by
  rw [h.type, not_not, Accepts]
  apply and_congr_right
  intro _
  constructor
  · intro hn hs
    obtain ⟨i, hi⟩ := Option.isSome_iff_exists.1 hs
    obtain ⟨m', h1, h2⟩ := (h.ids _ _).1 hi
    exact hn m' (List.mem_of_getElem? h1) h2
  · intro hn m' hm' he
    apply hn
    obtain ⟨i, hi, e⟩ := List.getElem_of_mem hm'
    rw [(h.ids m.id i).2 ⟨m', by rw [List.getElem?_eq_getElem hi, e], he⟩]
    rfl

theorem addToHalves_eq (T : Tpc K) (i : ℕ) (z : Option K) :
    ∃ p n c, addToHalves T i z = { T with positive := p, negative := n, cathodePosition := c } := by
  unfold addToHalves
  cases z with
  | none => exact ⟨_, _, _, rfl⟩
  | some z =>
    dsimp only
    obtain ⟨c, hc⟩ := setCathodePosition_eq
      (if z ≤ 0 then { T with negative := T.negative ++ [i] } else { T with positive := T.positive ++ [i] })
    rw [hc]
    split_ifs
    · exact ⟨_, _, _, rfl⟩
    · exact ⟨_, _, _, rfl⟩

theorem smallest_append {l : List (Mod K)} {e : Ext K} (m : Mod K) (h : SmallestExtent l e) :
    SmallestExtent (l ++ [m])
      { e0 := if m.moduleExtent.e0 < e.e0 then m.moduleExtent.e0 else e.e0
        e1 := if m.moduleExtent.e1 > e.e1 then m.moduleExtent.e1 else e.e1
        e2 := if m.moduleExtent.e2 < e.e2 then m.moduleExtent.e2 else e.e2
        e3 := if m.moduleExtent.e3 > e.e3 then m.moduleExtent.e3 else e.e3 } := by
  have least : ∀ (f : Mod K → K) (v : K), IsLeast {x | ∃ m ∈ l, x = f m} v →
      IsLeast {x | ∃ m' ∈ l ++ [m], x = f m'} (if f m < v then f m else v) := by
    rintro f v ⟨⟨m0, h1, h2⟩, h3⟩
    split_ifs with hlt
    · refine ⟨⟨m, by simp, rfl⟩, ?_⟩
      rintro x ⟨m', hm', rfl⟩
      rcases List.mem_append.1 hm' with hm' | hm'
      · exact hlt.le.trans (h3 ⟨m', hm', rfl⟩)
      · rw [List.mem_singleton.1 hm']
    · refine ⟨⟨m0, by simp [h1], h2⟩, ?_⟩
      rintro x ⟨m', hm', rfl⟩
      rcases List.mem_append.1 hm' with hm' | hm'
      · exact h3 ⟨m', hm', rfl⟩
      · rw [List.mem_singleton.1 hm']; exact not_lt.1 hlt
  have greatest : ∀ (f : Mod K → K) (v : K), IsGreatest {x | ∃ m ∈ l, x = f m} v →
      IsGreatest {x | ∃ m' ∈ l ++ [m], x = f m'} (if f m > v then f m else v) := by
    rintro f v ⟨⟨m0, h1, h2⟩, h3⟩
    split_ifs with hlt
    · refine ⟨⟨m, by simp, rfl⟩, ?_⟩
      rintro x ⟨m', hm', rfl⟩
      rcases List.mem_append.1 hm' with hm' | hm'
      · exact (h3 ⟨m', hm', rfl⟩).trans (le_of_lt hlt)
      · rw [List.mem_singleton.1 hm']
    · refine ⟨⟨m0, by simp [h1], h2⟩, ?_⟩
      rintro x ⟨m', hm', rfl⟩
      rcases List.mem_append.1 hm' with hm' | hm'
      · exact h3 ⟨m', hm', rfl⟩
      · rw [List.mem_singleton.1 hm']; exact not_lt.1 hlt
  exact ⟨least _ _ h.1, greatest _ _ h.2.1, least _ _ h.2.2.1, greatest _ _ h.2.2.2⟩

theorem smallest_singleton (m : Mod K) : SmallestExtent [m] m.moduleExtent := by
  have least : ∀ (f : Mod K → K), IsLeast {x | ∃ m' ∈ [m], x = f m'} (f m) := by
    intro f
    refine ⟨⟨m, by simp, rfl⟩, ?_⟩
    rintro x ⟨m', hm', rfl⟩
    rw [List.mem_singleton.1 hm']
  have greatest : ∀ (f : Mod K → K), IsGreatest {x | ∃ m' ∈ [m], x = f m'} (f m) := by
    intro f
    refine ⟨⟨m, by simp, rfl⟩, ?_⟩
    rintro x ⟨m', hm', rfl⟩
    rw [List.mem_singleton.1 hm']
  exact ⟨least _, greatest _, least _, greatest _⟩

/-- An accepted module. -/
theorem Inv.accept {t : ℤ} {T : Tpc K} {B : Books K} (h : Inv t T B) {m : Mod K} (ha : Accepts t B.modules m) :
    ∃ T', addModule T (some m) = (T', .ok ()) ∧ Inv t T' { B with modules := B.modules ++ [m] } := by
  obtain ⟨h1, h2⟩ := (Accepts_iff h m).1 ha
  unfold addModule
  dsimp only
  rw [if_neg h1, if_neg h2]
  refine ⟨_, rfl, ?_⟩
  set T1 : Tpc K := { T with
    moduleIDMap := Function.update T.moduleIDMap m.id (some T.modules.length), modules := T.modules ++ [m] } with hT1
  have hpos : (addToHalves T1 T.modules.length m.z).positive = idx OnPositive (B.modules ++ [m]) := by
    rw [idx_append, ← h.pos, ← h.mods]
    unfold addToHalves
    cases hz : m.z with
    | none =>
      rw [if_pos (onPositive_none hz)]
    | some z =>
      dsimp only
      obtain ⟨c, hc⟩ := setCathodePosition_eq
        (if z ≤ 0 then { T1 with negative := T1.negative ++ [T.modules.length] }
          else { T1 with positive := T1.positive ++ [T.modules.length] })
      rw [hc]
      by_cases h0 : z ≤ 0
      · rw [if_neg (show ¬ OnPositive m by rw [onPositive_some hz]; exact not_lt.2 h0), if_pos h0]
        simp [hT1]
      · rw [if_pos ((onPositive_some hz).2 (not_le.1 h0)), if_neg h0]
  have hneg : (addToHalves T1 T.modules.length m.z).negative = idx OnNegative (B.modules ++ [m]) := by
    rw [idx_append, ← h.neg, ← h.mods]
    unfold addToHalves
    cases hz : m.z with
    | none =>
      rw [if_pos (onNegative_none hz)]
    | some z =>
      dsimp only
      obtain ⟨c, hc⟩ := setCathodePosition_eq
        (if z ≤ 0 then { T1 with negative := T1.negative ++ [T.modules.length] }
          else { T1 with positive := T1.positive ++ [T.modules.length] })
      rw [hc]
      by_cases h0 : z ≤ 0
      · rw [if_pos ((onNegative_some hz).2 h0), if_pos h0]
      · rw [if_neg (show ¬ OnNegative m by rw [onNegative_some hz]; exact h0), if_neg h0]
        simp [hT1]
  have hcath : (∀ m' ∈ B.modules ++ [m], m'.z ≠ none) →
      (addToHalves T1 T.modules.length m.z).cathodePosition = cathode (B.modules ++ [m]) B.drift := by
    intro hall
    obtain ⟨z, hz⟩ := Option.ne_none_iff_exists'.1 (hall m (by simp))
    obtain ⟨p, n, c, e⟩ := addToHalves_eq T1 T.modules.length m.z
    have hp2 := hpos
    have hn2 := hneg
    unfold addToHalves at hp2 hn2 ⊢
    rw [hz] at hp2 hn2 ⊢
    dsimp only at hp2 hn2 ⊢
    set T2 : Tpc K := if z ≤ 0 then { T1 with negative := T1.negative ++ [T.modules.length] }
          else { T1 with positive := T1.positive ++ [T.modules.length] } with hT2
    have m2 : T2.modules = B.modules ++ [m] := by
      rw [hT2, ← h.mods]; split_ifs <;> rfl
    have d2 : T2.maxDriftLength = B.drift := by
      rw [hT2, ← h.drift]; split_ifs <;> rfl
    obtain ⟨c2, hc2⟩ := setCathodePosition_eq T2
    rw [hc2] at hp2 hn2
    rw [setCathodePosition_all (T := T2) (by rw [m2]; exact hp2) (by rw [m2]; exact hn2)
      (by rw [m2]; exact hall) (by rw [m2]; simp), m2, d2]
  have hcath0 : (∀ m' ∈ B.modules ++ [m], m'.z = none) →
      (addToHalves T1 T.modules.length m.z).cathodePosition = 0 := by
    intro hall
    have hz := hall m (by simp)
    unfold addToHalves
    rw [hz]
    exact h.cath0 (fun m' hm' => hall m' (by simp [hm']))
  obtain ⟨p, n, c, e⟩ := addToHalves_eq T1 T.modules.length m.z
  rw [e] at hpos hneg hcath hcath0 ⊢
  dsimp only at hpos hneg hcath hcath0
  have hext : ∃ x, enlargeExtent { T1 with positive := p, negative := n, cathodePosition := c } m.moduleExtent =
      { T1 with positive := p, negative := n, cathodePosition := c, planeExtent := x } ∧
      SmallestExtent (B.modules ++ [m]) x := by
    unfold enlargeExtent
    dsimp only
    by_cases hl : T1.modules.length = 1
    · rw [if_pos hl]
      refine ⟨_, rfl, ?_⟩
      have : B.modules = [] := by
        rw [hT1, h.mods] at hl
        simp at hl
        exact hl
      rw [this]
      exact smallest_singleton m
    · rw [if_neg hl]
      refine ⟨_, rfl, ?_⟩
      have hne : B.modules ≠ [] := by
        intro hh
        apply hl
        rw [hT1, h.mods, hh]; rfl
      have e0 : T1.planeExtent = T.planeExtent := by rw [hT1]
      rw [e0]
      exact smallest_append m (h.ext hne)
  obtain ⟨x, hx, hbox⟩ := hext
  rw [hx]
  refine ⟨h.type, by rw [hT1, h.mods], h.drift, h.velocity, hpos, hneg, ?_, ?_, fun _ => hbox, hcath, hcath0⟩
  · intro id i
    show Function.update T.moduleIDMap m.id (some T.modules.length) id = some i ↔ _
    rw [h.mods]
    by_cases hid : id = m.id
    · subst hid
      rw [Function.update_self, Option.some.injEq]
      constructor
      · rintro rfl
        exact ⟨m, by simp, rfl⟩
      · rintro ⟨m', h1', h2'⟩
        by_cases hi : i < B.modules.length
        · rw [List.getElem?_append_left hi] at h1'
          exact absurd h2' (ha.2 m' (List.mem_of_getElem? h1'))
        · have : i < (B.modules ++ [m]).length := (List.getElem?_eq_some_iff.1 h1').1
          simp at this
          omega
    · rw [Function.update_of_ne hid, h.ids]
      constructor
      · rintro ⟨m', h1', h2'⟩
        have hi : i < B.modules.length := (List.getElem?_eq_some_iff.1 h1').1
        exact ⟨m', by rw [List.getElem?_append_left hi]; exact h1', h2'⟩
      · rintro ⟨m', h1', h2'⟩
        by_cases hi : i < B.modules.length
        · rw [List.getElem?_append_left hi] at h1'
          exact ⟨m', h1', h2'⟩
        · have hlt : i < (B.modules ++ [m]).length := (List.getElem?_eq_some_iff.1 h1').1
          have hi' : i = B.modules.length := by simp at hlt; omega
          rw [hi'] at h1'
          simp at h1'
          exact absurd (h1' ▸ h2').symm hid
  · intro m' hm'
    rcases List.mem_append.1 hm' with hm' | hm'
    · exact h.types m' hm'
    · rw [List.mem_singleton.1 hm']; exact ha.1

/-- A rejected module. -/
theorem Inv.reject {t : ℤ} {T : Tpc K} {B : Books K} (h : Inv t T B) {m : Mod K} (ha : ¬ Accepts t B.modules m) :
    addModule T (some m) = (T, .throw .gear) := by
  rw [Accepts_iff h, not_and_or, not_not, not_not] at ha
  unfold addModule
  dsimp only
  by_cases h1 : m.tpcCoordinateType ≠ T.coordinateType
  · rw [if_pos h1]
  · rw [if_neg h1, if_pos (ha.resolve_left h1)]

theorem ofModule_new_type (F : TrigFns K) (L : LayoutI K) (t : ℤ) :
    (ofModule F (TpcModule.new 0 L t 0)).tpcCoordinateType = t := rfl

open Classical in
theorem Inv.step {F : TrigFns K} {t : ℤ} {T : Tpc K} {B : Books K} (h : Inv t T B) (o : Op K) :
    Inv t (step F T o) (B.step F t o) := by
  cases o with
  | add m =>
    cases m with
    | none => exact h
    | some m =>
      show Inv t (addModule T (some m)).1 (if Accepts t B.modules m then { B with modules := B.modules ++ [m] } else B)
      by_cases ha : Accepts t B.modules m
      · obtain ⟨T', e, h'⟩ := h.accept ha
        rw [e, if_pos ha]; exact h'
      · rw [h.reject ha, if_neg ha]; exact h
  | drift l =>
    show Inv t (setCathodePosition { T with maxDriftLength := l }) { B with drift := l }
    obtain ⟨c, hc⟩ := setCathodePosition_eq { T with maxDriftLength := l }
    have h1 : (∀ m ∈ B.modules, m.z ≠ none) → c = cathode B.modules l := by
      intro hall
      by_cases hne : B.modules = []
      · have hm : T.modules = [] := by rw [h.mods, hne]
        have hs := setCathodePosition_none (T := { T with maxDriftLength := l })
          (by show T.positive = idx OnPositive T.modules; rw [h.mods]; exact h.pos)
          (by show T.negative = idx OnNegative T.modules; rw [h.mods]; exact h.neg)
          (by intro m hmm; rw [show ({ T with maxDriftLength := l } : Tpc K).modules = T.modules from rfl, hm] at hmm; cases hmm)
        rw [hs] at hc
        have : T.cathodePosition = c := congrArg Tpc.cathodePosition hc
        rw [← this, h.cath0 (by rw [hne]; intro m hmm; cases hmm), hne]
        rfl
      · have := setCathodePosition_all (T := { T with maxDriftLength := l })
          (by show T.positive = idx OnPositive T.modules; rw [h.mods]; exact h.pos)
          (by show T.negative = idx OnNegative T.modules; rw [h.mods]; exact h.neg)
          (by show ∀ m ∈ T.modules, _; rw [h.mods]; exact hall) (by show T.modules ≠ []; rw [h.mods]; exact hne)
        rw [hc] at this
        dsimp only at this
        rw [this, h.mods]
    have h2 : (∀ m ∈ B.modules, m.z = none) → c = 0 := by
      intro hall
      have hs := setCathodePosition_none (T := { T with maxDriftLength := l })
          (by show T.positive = idx OnPositive T.modules; rw [h.mods]; exact h.pos)
          (by show T.negative = idx OnNegative T.modules; rw [h.mods]; exact h.neg)
          (by show ∀ m ∈ T.modules, _; rw [h.mods]; exact hall)
      rw [hs] at hc
      have : T.cathodePosition = c := congrArg Tpc.cathodePosition hc
      rw [← this, h.cath0 hall]
    rw [hc]
    exact ⟨h.type, h.mods, rfl, h.velocity, h.pos, h.neg, h.ids, h.types, h.ext, h1, h2⟩
  | velocity v => exact ⟨h.type, h.mods, h.drift, rfl, h.pos, h.neg, h.ids, h.types, h.ext, h.cath, h.cath0⟩
  | frequency f =>
    show Inv t (setReadoutFrequency T f).1 (match B.modules with
      | [m] => { B with modules := [{ m with readoutFrequency := f }] }
      | _ => B)
    unfold setReadoutFrequency
    cases hB : B.modules with
    | nil =>
      rw [h.mods, hB]
      exact h
    | cons m l =>
      cases l with
      | cons m' l' =>
        rw [if_pos (by rw [h.mods, hB]; simp)]
        exact h
      | nil =>
        rw [if_neg (by rw [h.mods, hB]; simp), h.mods, hB]
        have g : ∀ (p : Mod K → Prop) [DecidablePred p],
            (p m ↔ p { m with readoutFrequency := f }) → idx p [m] = idx p [{ m with readoutFrequency := f }] := by
          intro p _ hp
          refine idx_congr (by simp) ?_
          intro i
          cases i with
          | zero => simp [hp]
          | succ i => simp
        have s1 : SmallestExtent [m] T.planeExtent := by have := h.ext (by rw [hB]; simp); rwa [hB] at this
        refine ⟨h.type, rfl, h.drift, h.velocity, ?_, ?_, ?_, ?_, fun _ => ?_, ?_, ?_⟩
        · show T.positive = _; rw [← g OnPositive Iff.rfl, ← hB]; exact h.pos
        · show T.negative = _; rw [← g OnNegative Iff.rfl, ← hB]; exact h.neg
        · intro id i
          show T.moduleIDMap id = some i ↔ _
          rw [h.ids, hB]
          cases i with
          | zero => simp
          | succ i => simp
        · intro m' hm'
          rw [List.mem_singleton.1 hm']
          exact h.types m (by rw [hB]; simp)
        · simpa [SmallestExtent] using s1
        · intro hall
          have := h.cath (by rw [hB]; intro m' hm'; rw [List.mem_singleton.1 hm']; exact hall { m with readoutFrequency := f } (List.mem_singleton.2 rfl))
          show T.cathodePosition = _
          rw [this, hB]
          rfl
        · intro hall
          exact h.cath0 (by rw [hB]; intro m' hm'; rw [List.mem_singleton.1 hm']; exact hall { m with readoutFrequency := f } (List.mem_singleton.2 rfl))
  | layout b L =>
    show Inv t (setPadLayout F T b L).1 (if B.modules = [] ∧ b = false then
      { B with modules := [ofModule F (TpcModule.new 0 L t 0)] } else B)
    unfold setPadLayout
    by_cases hB : B.modules = []
    · rw [if_neg (by rw [h.mods, hB]; simp)]
      cases b with
      | true => rw [if_pos rfl, if_neg (by simp)]; exact h
      | false =>
        rw [if_neg (by simp), if_pos ⟨hB, rfl⟩, h.type]
        have ha : Accepts t B.modules (ofModule F (TpcModule.new 0 L t 0)) :=
          ⟨rfl, by rw [hB]; intro m hm; cases hm⟩
        obtain ⟨T', e, h'⟩ := h.accept ha
        rw [e]
        rw [hB] at h'
        exact h'
    · rw [if_pos (by rw [h.mods]; simpa using hB), if_neg (fun hh => hB hh.1)]
      exact h

theorem Inv.run {F : TrigFns K} {t : ℤ} (ops : List (Op K)) : ∀ {T : Tpc K} {B : Books K}, Inv t T B →
    Inv t (run F T ops) (ops.foldl (Books.step F t) B) := by
  induction ops with
  | nil => intro T B h; exact h
  | cons o ops ih => intro T B h; exact ih (h.step o)

/-! ### The searches -/

theorem nearestModuleLoop_spec (c0 c1 : K) (l : List (Mod K)) : ∀ (pre : List (Mod K)) (best : Mod K) (d : K) (r : Mod K),
    FirstLeast (fun m => m.getDistanceToModule c0 c1) pre best →
    best.getDistanceToModule c0 c1 = .ok d → nearestModuleLoop c0 c1 l best d = .ok r →
    FirstLeast (fun m => m.getDistanceToModule c0 c1) (pre ++ l) r := by
  induction l with
  | nil =>
    intro pre best d r h _ hr
    obtain rfl := Res.ok.inj hr
    rw [List.append_nil]; exact h
  | cons m l ih =>
    intro pre best d r h hd hr
    unfold nearestModuleLoop at hr
    cases hm : m.getDistanceToModule c0 c1 with
    | throw x => rw [hm] at hr; cases hr
    | ub => rw [hm] at hr; cases hr
    | ok v =>
      rw [hm, Res.bind_ok] at hr
      obtain ⟨p, q, w, e1, e2, e3, e4⟩ := h
      have e2 : best.getDistanceToModule c0 c1 = .ok w := e2
      rw [hd] at e2
      obtain rfl := Res.ok.inj e2
      have e5 : pre ++ m :: l = (pre ++ [m]) ++ l := by simp
      rw [e5]
      by_cases hlt : v < d
      · rw [if_pos hlt] at hr
        refine ih (pre ++ [m]) m v r ⟨pre, [], v, rfl, hm, ?_, by intro m' h'; cases h'⟩ hm hr
        intro m' hm'
        rw [e1] at hm'
        rcases List.mem_append.1 hm' with h' | h'
        · obtain ⟨v', a, b⟩ := e3 m' h'; exact ⟨v', a, hlt.trans b⟩
        · rcases List.mem_cons.1 h' with rfl | h'
          · exact ⟨d, hd, hlt⟩
          · obtain ⟨v', a, b⟩ := e4 m' h'; exact ⟨v', a, hlt.trans_le b⟩
      · rw [if_neg hlt] at hr
        refine ih (pre ++ [m]) best d r ⟨p, q ++ [m], d, by rw [e1]; simp, hd, e3, ?_⟩ hd hr
        intro m' hm'
        rcases List.mem_append.1 hm' with h' | h'
        · exact e4 m' h'
        · rw [List.mem_singleton.1 h']; exact ⟨v, hm, not_lt.1 hlt⟩

theorem nearestModuleLoop_ok (c0 c1 : K) (l : List (Mod K)) : ∀ (best : Mod K) (d : K),
    (∃ r, nearestModuleLoop c0 c1 l best d = .ok r) ↔ ∀ m ∈ l, ∃ v, m.getDistanceToModule c0 c1 = .ok v := by
  induction l with
  | nil => intro best d; exact ⟨fun _ m hm => absurd hm (by simp), fun _ => ⟨best, rfl⟩⟩
  | cons m l ih =>
    intro best d
    unfold nearestModuleLoop
    cases hm : m.getDistanceToModule c0 c1 with
    | throw x =>
      constructor
      · rintro ⟨r, hr⟩; cases hr
      · intro h; obtain ⟨v, hv⟩ := h m List.mem_cons_self; rw [hm] at hv; cases hv
    | ub =>
      constructor
      · rintro ⟨r, hr⟩; cases hr
      · intro h; obtain ⟨v, hv⟩ := h m List.mem_cons_self; rw [hm] at hv; cases hv
    | ok v =>
      rw [Res.bind_ok]
      have key : (∀ m' ∈ m :: l, ∃ v, m'.getDistanceToModule c0 c1 = .ok v) ↔
          ∀ m' ∈ l, ∃ v, m'.getDistanceToModule c0 c1 = .ok v := by
        rw [List.forall_mem_cons]
        exact ⟨fun h => h.2, fun h => ⟨⟨v, hm⟩, h⟩⟩
      rw [key]
      split_ifs
      · exact ih _ _
      · exact ih _ _

/-- The distance to the nearest pad of a module. -/
def padDistance (c0 c1 : K) (m : Mod K) : Res K := do
  let pad ← m.getNearestPad c0 c1
  m.getDistanceToPad c0 c1 pad

theorem nearestPadLoop_spec (c0 c1 : K) (l : List (Mod K)) : ∀ (pre : List (Mod K)) (best : Mod K) (pad : ℤ) (d : K)
    (r : GlobalPadIndex), FirstLeast (padDistance c0 c1) pre best → best.getNearestPad c0 c1 = .ok pad →
    best.getDistanceToPad c0 c1 pad = .ok d → nearestPadLoop c0 c1 l ⟨pad, best.id⟩ d = .ok r →
    ∃ m, FirstLeast (padDistance c0 c1) (pre ++ l) m ∧ m.getNearestPad c0 c1 = .ok r.padIndex ∧ r.moduleID = m.id := by
  induction l with
  | nil =>
    intro pre best pad d r h hp _ hr
    obtain rfl := Res.ok.inj hr
    rw [List.append_nil]; exact ⟨best, h, hp, rfl⟩
  | cons m l ih =>
    intro pre best pad d r h hp hd hr
    unfold nearestPadLoop at hr
    cases hmp : m.getNearestPad c0 c1 with
    | throw x => rw [hmp] at hr; cases hr
    | ub => rw [hmp] at hr; cases hr
    | ok q =>
    rw [hmp, Res.bind_ok] at hr
    cases hm : m.getDistanceToPad c0 c1 q with
    | throw x => rw [hm] at hr; cases hr
    | ub => rw [hm] at hr; cases hr
    | ok v =>
      rw [hm, Res.bind_ok] at hr
      have hpd : padDistance c0 c1 m = .ok v := by unfold padDistance; rw [hmp, Res.bind_ok, hm]
      have hbd : padDistance c0 c1 best = .ok d := by unfold padDistance; rw [hp, Res.bind_ok, hd]
      obtain ⟨p, q', w, e1, e2, e3, e4⟩ := h
      rw [hbd] at e2
      obtain rfl := Res.ok.inj e2
      have e5 : pre ++ m :: l = (pre ++ [m]) ++ l := by simp
      rw [e5]
      by_cases hlt : v < d
      · rw [if_pos hlt] at hr
        refine ih (pre ++ [m]) m q v r ⟨pre, [], v, rfl, hpd, ?_, by intro m' h'; cases h'⟩ hmp hm hr
        intro m' hm'
        rw [e1] at hm'
        rcases List.mem_append.1 hm' with h' | h'
        · obtain ⟨v', a, b⟩ := e3 m' h'; exact ⟨v', a, hlt.trans b⟩
        · rcases List.mem_cons.1 h' with rfl | h'
          · exact ⟨d, hbd, hlt⟩
          · obtain ⟨v', a, b⟩ := e4 m' h'; exact ⟨v', a, hlt.trans_le b⟩
      · rw [if_neg hlt] at hr
        refine ih (pre ++ [m]) best pad d r ⟨p, q' ++ [m], d, by rw [e1]; simp, hbd, e3, ?_⟩ hp hd hr
        intro m' hm'
        rcases List.mem_append.1 hm' with h' | h'
        · exact e4 m' h'
        · rw [List.mem_singleton.1 h']; exact ⟨v, hpd, not_lt.1 hlt⟩

theorem anyOf_true (f : Mod K → Res Bool) (l : List (Mod K)) : anyOf f l true = .ok true := by
  induction l with
  | nil => rfl
  | cons m l ih => unfold anyOf; rw [if_pos rfl, Res.bind_ok]; exact ih

/-- `||` over a list: true exactly if one answers true after others that answer false. -/
theorem anyOf_eq_true (f : Mod K → Res Bool) (l : List (Mod K)) :
    anyOf f l false = .ok true ↔ ∃ pre m post, l = pre ++ m :: post ∧ f m = .ok true ∧ ∀ m' ∈ pre, f m' = .ok false := by
  induction l with
  | nil =>
    constructor
    · intro h; cases h
    · rintro ⟨pre, m, post, h, -⟩
      exact absurd h.symm (by simp)
  | cons m l ih =>
    unfold anyOf
    rw [if_neg (by simp)]
    cases hm : f m with
    | throw x =>
      constructor
      · intro h; cases h
      · rintro ⟨pre, m', post, h1, h2, h3⟩
        cases pre with
        | nil => simp at h1; rw [← h1.1, hm] at h2; cases h2
        | cons a pre => simp at h1; have := h3 a (by simp); rw [← h1.1, hm] at this; cases this
    | ub =>
      constructor
      · intro h; cases h
      · rintro ⟨pre, m', post, h1, h2, h3⟩
        cases pre with
        | nil => simp at h1; rw [← h1.1, hm] at h2; cases h2
        | cons a pre => simp at h1; have := h3 a (by simp); rw [← h1.1, hm] at this; cases this
    | ok b =>
      rw [Res.bind_ok]
      cases b with
      | true =>
        show anyOf f l true = _ ↔ _
        rw [anyOf_true]
        exact ⟨fun _ => ⟨[], m, l, rfl, hm, by intro m' h; cases h⟩, fun _ => rfl⟩
      | false =>
        show anyOf f l false = _ ↔ _
        rw [ih]
        constructor
        · rintro ⟨pre, m', post, h1, h2, h3⟩
          refine ⟨m :: pre, m', post, by rw [h1]; rfl, h2, ?_⟩
          intro x hx
          rcases List.mem_cons.1 hx with rfl | hx
          · exact hm
          · exact h3 x hx
        · rintro ⟨pre, m', post, h1, h2, h3⟩
          cases pre with
          | nil => simp at h1; rw [← h1.1, hm] at h2; cases h2
          | cons a pre =>
            simp at h1
            exact ⟨pre, m', post, h1.2, h2, fun x hx => h3 x (by simp [hx])⟩

theorem anyOf_eq_false (f : Mod K → Res Bool) (l : List (Mod K)) :
    anyOf f l false = .ok false ↔ ∀ m ∈ l, f m = .ok false := by
  induction l with
  | nil => exact ⟨fun _ m hm => absurd hm (by simp), fun _ => rfl⟩
  | cons m l ih =>
    unfold anyOf
    rw [if_neg (by simp), List.forall_mem_cons]
    cases hm : f m with
    | throw x =>
      constructor
      · intro h; cases h
      · intro h; cases h.1
    | ub =>
      constructor
      · intro h; cases h
      · intro h; cases h.1
    | ok b =>
      rw [Res.bind_ok]
      cases b with
      | true =>
        show anyOf f l true = _ ↔ _
        rw [anyOf_true]; constructor
        · intro h; cases h
        · intro h; cases h.1
      | false =>
        show anyOf f l false = _ ↔ _
        rw [ih]; exact ⟨fun h => ⟨rfl, h⟩, fun h => h.2⟩

/-! ### Copying -/

theorem copyModules_spec (l : List (Mod K)) : ∀ (T : Tpc K), T.positive = idx OnPositive T.modules →
    T.negative = idx OnNegative T.modules →
    ∃ p n, copyModules T l = { T with modules := T.modules ++ l, positive := p, negative := n } ∧
      p = idx OnPositive (T.modules ++ l) ∧ n = idx OnNegative (T.modules ++ l) := by
  induction l with
  | nil =>
    intro T hp hn
    refine ⟨T.positive, T.negative, ?_, by rw [List.append_nil]; exact hp, by rw [List.append_nil]; exact hn⟩
    rw [List.append_nil]; rfl
  | cons m l ih =>
    intro T hp hn
    unfold copyModules
    dsimp only
    have e : T.modules ++ m :: l = (T.modules ++ [m]) ++ l := by simp
    rw [e]
    cases hz : m.z with
    | none =>
      dsimp only
      obtain ⟨p, n, h1, h2, h3⟩ := ih { T with modules := T.modules ++ [m], positive := T.positive ++ [T.modules.length], negative := T.negative ++ [T.modules.length] }
        (by show T.positive ++ _ = idx OnPositive (T.modules ++ [m])
            rw [idx_append, ← hp, if_pos (onPositive_none hz)])
        (by show T.negative ++ _ = idx OnNegative (T.modules ++ [m])
            rw [idx_append, ← hn, if_pos (onNegative_none hz)])
      exact ⟨p, n, h1, h2, h3⟩
    | some z =>
      dsimp only
      by_cases h0 : z ≤ 0
      · rw [if_pos h0]
        obtain ⟨p, n, h1, h2, h3⟩ := ih { T with modules := T.modules ++ [m], negative := T.negative ++ [T.modules.length] }
          (by show T.positive = idx OnPositive (T.modules ++ [m])
              rw [idx_append, ← hp, if_neg (show ¬ OnPositive m by rw [onPositive_some hz]; exact not_lt.2 h0), List.append_nil])
          (by show T.negative ++ _ = idx OnNegative (T.modules ++ [m])
              rw [idx_append, ← hn, if_pos ((onNegative_some hz).2 h0)])
        exact ⟨p, n, h1, h2, h3⟩
      · rw [if_neg h0]
        obtain ⟨p, n, h1, h2, h3⟩ := ih { T with modules := T.modules ++ [m], positive := T.positive ++ [T.modules.length] }
          (by show T.positive ++ _ = idx OnPositive (T.modules ++ [m])
              rw [idx_append, ← hp, if_pos ((onPositive_some hz).2 (not_le.1 h0))])
          (by show T.negative = idx OnNegative (T.modules ++ [m])
              rw [idx_append, ← hn, if_neg (show ¬ OnNegative m by rw [onNegative_some hz]; exact h0), List.append_nil])
        exact ⟨p, n, h1, h2, h3⟩

end Gear.TpcParams
