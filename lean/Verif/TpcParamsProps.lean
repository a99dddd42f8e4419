/-
Properties of `TPCParametersImpl` and `GlobalPadIndex`: C30 to C37, C88 and C89.
-/
import Verif.TpcParamsLemmas
import Verif.TpcModuleDistance

set_option autoImplicit false
set_option linter.unusedSectionVars false

namespace Gear.TpcParams

open TpcModule (CARTESIAN POLAR Ext LayoutI TrigFns)
open Spec

section
variable {K : Type} [Field K] [LinearOrder K] [IsStrictOrderedRing K] [FloorRing K]
variable {F : TrigFns K} {d : K} {t : ℤ} {ops : List (Op K)}

namespace Spec

/-- The coordinate type of a TPC: polar unless the drift length and the type are given. -/
def typeOf (d : K) (t : ℤ) : ℤ := if d = -1 ∨ t = -1 then POLAR else t

/-- The drift length of a new TPC. -/
def driftOf (d : K) (t : ℤ) : K := if d = -1 ∨ t = -1 then 0 else d

/-- A TPC after any sequence of calls. -/
def tpc (F : TrigFns K) (d : K) (t : ℤ) (ops : List (Op K)) : Tpc K := run F (new d t) ops

/-- The modules the TPC has accepted, in this order. -/
noncomputable def accepted (F : TrigFns K) (d : K) (t : ℤ) (ops : List (Op K)) : List (Mod K) :=
  (books F (typeOf d t) (driftOf d t) ops).modules

/-- The drift length last set. -/
noncomputable def drift (F : TrigFns K) (d : K) (t : ℤ) (ops : List (Op K)) : K :=
  (books F (typeOf d t) (driftOf d t) ops).drift

end Spec

theorem tpc_inv : Inv (typeOf d t) (tpc F d t ops) (books F (typeOf d t) (driftOf d t) ops) :=
  Inv.run ops (Inv.new d t)

/-! ### C30 -/

/-- The TPC holds the accepted modules in the order in which they were added. -/
theorem getModules_eq : getModules (tpc F d t ops) = accepted F d t ops ∧
    getNModules (tpc F d t ops) = (accepted F d t ops).length ∧
    getCoordinateType (tpc F d t ops) = typeOf d t ∧
    ((accepted F d t ops).map Mod.id).Nodup ∧ ∀ m ∈ accepted F d t ops, m.tpcCoordinateType = typeOf d t := by
  have h := tpc_inv (F := F) (d := d) (t := t) (ops := ops)
  refine ⟨h.mods, by unfold getNModules; rw [h.mods]; rfl, h.type, ?_, h.types⟩
  rw [List.nodup_iff_getElem?_ne_getElem?]
  intro i j hij hj he
  rw [List.length_map] at hj
  rw [List.getElem?_map, List.getElem?_map] at he
  have hj' := List.getElem?_eq_getElem hj
  have hi' := List.getElem?_eq_getElem (hij.trans hj)
  rw [hj', hi'] at he
  have he := Option.some.inj he
  have a := (h.ids _ _).2 ⟨_, hi', rfl⟩
  have b := (h.ids _ _).2 ⟨_, hj', rfl⟩
  rw [he] at a
  rw [a] at b
  exact hij.ne (Option.some.inj b)

/-- A module is accepted if and only if it is not null, has the coordinate type of the TPC and a new ID. -/
theorem addModule_ok_iff (o : Option (Mod K)) : (addModule (tpc F d t ops) o).2 = .ok () ↔
    ∃ m, o = some m ∧ m.tpcCoordinateType = getCoordinateType (tpc F d t ops) ∧
      ∀ m' ∈ getModules (tpc F d t ops), m'.id ≠ m.id := by
  have h := tpc_inv (F := F) (d := d) (t := t) (ops := ops)
  have e1 : getCoordinateType (tpc F d t ops) = typeOf d t := h.type
  have e2 : getModules (tpc F d t ops) = (books F (typeOf d t) (driftOf d t) ops).modules := h.mods
  rw [e1, e2]
  cases o with
  | none =>
    constructor
    · intro h; cases h
    · rintro ⟨m, h, -⟩; cases h
  | some m =>
    by_cases ha : Accepts (typeOf d t) (books F (typeOf d t) (driftOf d t) ops).modules m
    · obtain ⟨T', e, -⟩ := h.accept ha
      rw [e]
      exact ⟨fun _ => ⟨m, rfl, ha⟩, fun _ => rfl⟩
    · rw [h.reject ha]
      constructor
      · intro h; cases h
      · rintro ⟨m', h1, h2⟩
        obtain rfl := Option.some.inj h1
        exact absurd h2 ha

/-- An accepted module becomes the last one; a rejected one changes nothing, and the call throws. -/
theorem addModule_effect (o : Option (Mod K)) :
    ((addModule (tpc F d t ops) o).2 = .ok () → ∃ m, o = some m ∧
      getModules (addModule (tpc F d t ops) o).1 = getModules (tpc F d t ops) ++ [m]) ∧
    ((addModule (tpc F d t ops) o).2 ≠ .ok () → addModule (tpc F d t ops) o = (tpc F d t ops, .throw .gear)) := by
  have h := tpc_inv (F := F) (d := d) (t := t) (ops := ops)
  cases o with
  | none => exact ⟨fun h => absurd h (by simp [addModule]), fun _ => rfl⟩
  | some m =>
    by_cases ha : Accepts (typeOf d t) (books F (typeOf d t) (driftOf d t) ops).modules m
    · obtain ⟨T', e, h'⟩ := h.accept ha
      rw [e]
      refine ⟨fun _ => ⟨m, rfl, ?_⟩, fun hn => absurd rfl hn⟩
      show T'.modules = (tpc F d t ops).modules ++ [m]
      rw [h'.mods, h.mods]
    · rw [h.reject ha]
      exact ⟨fun h => absurd h (by simp), fun _ => rfl⟩

/-- `getModule` returns the module with this ID, and throws if there is none. -/
theorem getModule_spec (i : ℤ) :
    (∀ m, getModule (tpc F d t ops) i = .ok m ↔ m ∈ getModules (tpc F d t ops) ∧ m.id = i) ∧
    ((∀ m ∈ getModules (tpc F d t ops), m.id ≠ i) → getModule (tpc F d t ops) i = .throw .gear) := by
  have h := tpc_inv (F := F) (d := d) (t := t) (ops := ops)
  have e2 : getModules (tpc F d t ops) = (books F (typeOf d t) (driftOf d t) ops).modules := h.mods
  have hat : ∀ j, (tpc F d t ops).at j = match (books F (typeOf d t) (driftOf d t) ops).modules[j]? with
      | some m => .ok m | none => .ub := by
    intro j; unfold Tpc.at; rw [h.mods]; rfl
  rw [e2]
  unfold getModule
  cases hm : (tpc F d t ops).moduleIDMap i with
  | none =>
    dsimp only
    refine ⟨fun m => ⟨fun h => absurd h (by simp), ?_⟩, fun _ => rfl⟩
    rintro ⟨h1, h2⟩
    obtain ⟨j, hj, e⟩ := List.getElem_of_mem h1
    have := (h.ids i j).2 ⟨m, by rw [List.getElem?_eq_getElem hj, e], h2⟩
    rw [hm] at this; cases this
  | some j =>
    dsimp only
    obtain ⟨m0, h1, h2⟩ := (h.ids _ _).1 hm
    rw [hat, h1]
    dsimp only
    constructor
    · intro m
      constructor
      · intro he
        obtain rfl := Res.ok.inj he
        exact ⟨List.mem_of_getElem? h1, h2⟩
      · rintro ⟨h3, h4⟩
        obtain ⟨k, hk, e⟩ := List.getElem_of_mem h3
        have hk' : (books F (typeOf d t) (driftOf d t) ops).modules[k]? = some m := by
          rw [List.getElem?_eq_getElem hk, e]
        have := (h.ids i k).2 ⟨m, hk', h4⟩
        rw [hm] at this
        obtain rfl := Option.some.inj this
        rw [h1] at hk'
        rw [Option.some.inj hk']
    · intro hn
      exact absurd h2 (hn m0 (List.mem_of_getElem? h1))

/-! ### C31 -/

namespace Spec

/-- The queries with a z coordinate are answered as by a TPC that has only the modules of one side: those with
`z ≤ 0` and those without a z position if `z ≤ k`, those with `z > 0` and those without a z position else. -/
def AnswersBySide (T : Tpc K) (k : K) : Prop :=
  ∀ (c0 c1 z : K) (S : Tpc K),
    getModules S = (getModules T).filter
      (fun m => if z ≤ k then decide (OnNegative m) else decide (OnPositive m)) →
    getNearestModule3 T c0 c1 z = getNearestModule S c0 c1 ∧ isInsideModule3 T c0 c1 z = isInsideModule S c0 c1 ∧
      isInsidePad3 T c0 c1 z = isInsidePad S c0 c1 ∧ getNearestPad3 T c0 c1 z = getNearestPad S c0 c1

end Spec

theorem halfOf_eq {T : Tpc K} {B : Books K} (h : Inv t T B) (z : K) :
    halfOf T z = T.modules.filter
      (fun m => if z ≤ T.cathodePosition then decide (OnNegative m) else decide (OnPositive m)) := by
  unfold halfOf
  by_cases hz : z ≤ T.cathodePosition
  · simp only [if_pos hz]
    unfold Tpc.half
    rw [h.neg, ← h.mods, half_idx]
  · simp only [if_neg hz]
    unfold Tpc.half
    rw [h.pos, ← h.mods, half_idx]

theorem answers {T : Tpc K} {B : Books K} (h : Inv t T B) : AnswersBySide T T.cathodePosition := by
  intro c0 c1 z S hS
  have e := halfOf_eq h z
  have hS : S.modules = T.modules.filter _ := hS
  unfold getNearestModule3 isInsideModule3 isInsidePad3 getNearestPad3 getNearestModule isInsideModule isInsidePad
    getNearestPad
  rw [e, hS]
  exact ⟨rfl, rfl, rfl, rfl⟩

/-- Whatever was called before, there is a plane that separates the two halves of the TPC. -/
theorem queries_by_side : ∃ k, AnswersBySide (tpc F d t ops) k := ⟨_, answers tpc_inv⟩

/-! ### C35 -/

/-- If all modules have a z position, this plane is in the middle between the anodes, or a drift length away from
the only one. -/
theorem cathode_partial (h : ∀ m ∈ getModules (tpc F d t ops), m.z ≠ none) :
    AnswersBySide (tpc F d t ops) (cathode (getModules (tpc F d t ops)) (drift F d t ops)) := by
  have hi := tpc_inv (F := F) (d := d) (t := t) (ops := ops)
  have e2 : getModules (tpc F d t ops) = (books F (typeOf d t) (driftOf d t) ops).modules := hi.mods
  rw [e2] at h ⊢
  have e : (tpc F d t ops).cathodePosition = _ := hi.cath h
  show AnswersBySide _ (cathode _ (books F (typeOf d t) (driftOf d t) ops).drift)
  rw [← e]
  exact answers hi

/-- If no module has a z position, the z coordinate is ignored. -/
theorem no_z (h : ∀ m ∈ getModules (tpc F d t ops), m.z = none) (c0 c1 z : K) :
    getNearestModule3 (tpc F d t ops) c0 c1 z = getNearestModule (tpc F d t ops) c0 c1 ∧
      isInsideModule3 (tpc F d t ops) c0 c1 z = isInsideModule (tpc F d t ops) c0 c1 ∧
      isInsidePad3 (tpc F d t ops) c0 c1 z = isInsidePad (tpc F d t ops) c0 c1 ∧
      getNearestPad3 (tpc F d t ops) c0 c1 z = getNearestPad (tpc F d t ops) c0 c1 := by
  refine answers (tpc_inv (F := F) (d := d) (t := t) (ops := ops)) c0 c1 z (tpc F d t ops) ?_
  symm
  rw [List.filter_eq_self]
  intro m hm
  have := h m hm
  split_ifs
  · exact decide_eq_true (onNegative_none this)
  · exact decide_eq_true (onPositive_none this)

/-- The drift length is the one last set. -/
theorem drift_values : getMaxDriftLength (tpc F d t ops) = drift F d t ops ∧
    getDriftVelocity (tpc F d t ops) = (books F (typeOf d t) (driftOf d t) ops).velocity :=
  ⟨tpc_inv.drift, tpc_inv.velocity⟩

/-! ### C32 -/

/-- The plane extent is the smallest box around the extents of all modules; without modules there is none. -/
theorem getPlaneExtent_spec :
    (getModules (tpc F d t ops) = [] → getPlaneExtent (tpc F d t ops) = .throw .gear) ∧
    (getModules (tpc F d t ops) ≠ [] → ∃ e, getPlaneExtent (tpc F d t ops) = .ok e ∧
      SmallestExtent (getModules (tpc F d t ops)) e) := by
  have h := tpc_inv (F := F) (d := d) (t := t) (ops := ops)
  unfold getPlaneExtent getModules
  constructor
  · intro hn; rw [hn]; rfl
  · intro hn
    rw [if_neg (by simpa using hn)]
    exact ⟨_, rfl, by rw [h.mods] at hn ⊢; exact h.ext hn⟩

/-- There is only one smallest box, whatever the order of the modules. -/
theorem smallestExtent_unique {l l' : List (Mod K)} (hp : l.Perm l') {e e' : Ext K} (h : SmallestExtent l e)
    (h' : SmallestExtent l' e') : e = e' := by
  have key : ∀ f : Mod K → K, {x | ∃ m ∈ l, x = f m} = {x | ∃ m ∈ l', x = f m} := by
    intro f; ext x
    constructor
    · rintro ⟨m, hm, rfl⟩; exact ⟨m, hp.mem_iff.1 hm, rfl⟩
    · rintro ⟨m, hm, rfl⟩; exact ⟨m, hp.mem_iff.2 hm, rfl⟩
  obtain ⟨a, b, c, g⟩ := h
  obtain ⟨a', b', c', g'⟩ := h'
  rw [key] at a b c g
  cases e; cases e'
  simp only [Ext.mk.injEq]
  exact ⟨a.unique a', b.unique b', c.unique c', g.unique g'⟩

/-- Two TPCs with the same modules, added in any order, have the same extent. -/
theorem getPlaneExtent_order {F' : TrigFns K} {d' : K} {t' : ℤ} {ops' : List (Op K)}
    (hp : (getModules (tpc F d t ops)).Perm (getModules (tpc F' d' t' ops'))) :
    getPlaneExtent (tpc F d t ops) = getPlaneExtent (tpc F' d' t' ops') := by
  by_cases hn : getModules (tpc F d t ops) = []
  · rw [getPlaneExtent_spec.1 hn, getPlaneExtent_spec.1 (by rw [hn] at hp; exact hp.nil_eq.symm)]
  · have hn' : getModules (tpc F' d' t' ops') ≠ [] := fun h => hn (by rw [h] at hp; exact hp.eq_nil)
    obtain ⟨e, h1, h2⟩ := getPlaneExtent_spec.2 hn
    obtain ⟨e', h1', h2'⟩ := getPlaneExtent_spec.2 hn'
    rw [h1, h1', smallestExtent_unique hp h2 h2']

/-! ### C33 -/

/-- The nearest module is the first one with the smallest distance. -/
theorem getNearestModule_first_least (T : Tpc K) (c0 c1 : K) (m : Mod K) (h : getNearestModule T c0 c1 = .ok m) :
    FirstLeast (fun m => m.getDistanceToModule c0 c1) (getModules T) m := by
  unfold getNearestModule at h
  unfold getModules
  cases hl : T.modules with
  | nil => rw [hl] at h; cases h
  | cons a l =>
    rw [hl] at h
    unfold nearestModule at h
    dsimp only at h
    cases hd : a.getDistanceToModule c0 c1 with
    | throw x => rw [hd] at h; cases h
    | ub => rw [hd] at h; cases h
    | ok v =>
      rw [hd, Res.bind_ok] at h
      have h : nearestModuleLoop c0 c1 l a v = .ok m := by
        unfold nearestModuleLoop at h
        rw [hd, Res.bind_ok, if_neg (lt_irrefl v)] at h
        exact h
      exact nearestModuleLoop_spec c0 c1 l [a] a v m ⟨[], [], v, rfl, hd, by simp, by simp⟩ hd h

/-- There is an answer if and only if there is a module and all of them give a distance; without modules the call
throws. -/
theorem getNearestModule_ok_iff (T : Tpc K) (c0 c1 : K) :
    ((∃ m, getNearestModule T c0 c1 = .ok m) ↔ getModules T ≠ [] ∧
      ∀ m ∈ getModules T, ∃ v, m.getDistanceToModule c0 c1 = .ok v) ∧
    (getModules T = [] → getNearestModule T c0 c1 = .throw .gear) := by
  unfold getNearestModule getModules
  cases hl : T.modules with
  | nil =>
    refine ⟨⟨?_, fun h => absurd rfl h.1⟩, fun _ => rfl⟩
    rintro ⟨m, h⟩; cases h
  | cons a l =>
    refine ⟨?_, fun h => by simp at h⟩
    unfold nearestModule
    dsimp only
    cases hd : a.getDistanceToModule c0 c1 with
    | throw x =>
      constructor
      · rintro ⟨m, h⟩; cases h
      · intro h; obtain ⟨v, hv⟩ := h.2 a (by simp); rw [hd] at hv; cases hv
    | ub =>
      constructor
      · rintro ⟨m, h⟩; cases h
      · intro h; obtain ⟨v, hv⟩ := h.2 a (by simp); rw [hd] at hv; cases hv
    | ok v =>
      simp only [hd, Res.bind_ok]
      rw [nearestModuleLoop_ok]
      exact ⟨fun h => ⟨by simp, h⟩, fun h => h.2⟩

/-! ### C34 -/

/-- The point is in a module of the TPC if a module says so after the earlier ones have denied it; it is in none
if all modules deny it. -/
theorem isInsideModule_spec (T : Tpc K) (c0 c1 : K) :
    (isInsideModule T c0 c1 = .ok true ↔ ∃ pre m post, getModules T = pre ++ m :: post ∧
      m.isInsideModule c0 c1 = .ok true ∧ ∀ m' ∈ pre, m'.isInsideModule c0 c1 = .ok false) ∧
    (isInsideModule T c0 c1 = .ok false ↔ ∀ m ∈ getModules T, m.isInsideModule c0 c1 = .ok false) :=
  ⟨anyOf_eq_true _ _, anyOf_eq_false _ _⟩

/-- The same for the pads. -/
theorem isInsidePad_spec (T : Tpc K) (c0 c1 : K) :
    (isInsidePad T c0 c1 = .ok true ↔ ∃ pre m post, getModules T = pre ++ m :: post ∧
      m.isInsidePad c0 c1 = .ok true ∧ ∀ m' ∈ pre, m'.isInsidePad c0 c1 = .ok false) ∧
    (isInsidePad T c0 c1 = .ok false ↔ ∀ m ∈ getModules T, m.isInsidePad c0 c1 = .ok false) :=
  ⟨anyOf_eq_true _ _, anyOf_eq_false _ _⟩

theorem anyOf_union {f : Mod K → Res Bool} {l : List (Mod K)} (h : ∀ m ∈ l, ∃ b, f m = .ok b) :
    ∃ b, anyOf f l false = .ok b ∧ (b = true ↔ ∃ m ∈ l, f m = .ok true) := by
  induction l with
  | nil => exact ⟨false, rfl, by simp⟩
  | cons a l ih =>
    obtain ⟨b, hb⟩ := h a (by simp)
    unfold anyOf
    rw [if_neg (by simp), hb, Res.bind_ok]
    cases b with
    | true => exact ⟨true, anyOf_true _ _, ⟨fun _ => ⟨a, by simp, hb⟩, fun _ => rfl⟩⟩
    | false =>
      obtain ⟨b', h1, h2⟩ := ih (fun m hm => h m (by simp [hm]))
      refine ⟨b', h1, h2.trans ?_⟩
      constructor
      · rintro ⟨m, hm, e⟩; exact ⟨m, by simp [hm], e⟩
      · rintro ⟨m, hm, e⟩
        rcases List.mem_cons.1 hm with rfl | hm
        · rw [hb] at e; cases e
        · exact ⟨m, hm, e⟩

/-- If all modules answer, the TPC answers with their union. -/
theorem inside_union (T : Tpc K) (c0 c1 : K) :
    ((∀ m ∈ getModules T, ∃ b, m.isInsideModule c0 c1 = .ok b) → ∃ b, isInsideModule T c0 c1 = .ok b ∧
      (b = true ↔ ∃ m ∈ getModules T, m.isInsideModule c0 c1 = .ok true)) ∧
    ((∀ m ∈ getModules T, ∃ b, m.isInsidePad c0 c1 = .ok b) → ∃ b, isInsidePad T c0 c1 = .ok b ∧
      (b = true ↔ ∃ m ∈ getModules T, m.isInsidePad c0 c1 = .ok true)) :=
  ⟨fun h => anyOf_union h, fun h => anyOf_union h⟩

/-! ### C36 -/

/-- Copying or assigning a TPC never ends: however deep the calls are, they are not finished. -/
theorem copy_false_never_ends (n : ℕ) (T right : Tpc K) : copyAndAssign n T right = none := by
  induction n generalizing T with
  | zero => rfl
  | succ n ih => exact ih _

/-- Before the endless recursion the object has been made equal to the other one. -/
theorem copy_equal_partial (S : Tpc K) : copyBody (cleanup S) (tpc F d t ops) = tpc F d t ops := by
  have h := tpc_inv (F := F) (d := d) (t := t) (ops := ops)
  unfold copyBody
  obtain ⟨p, n, h1, h2, h3⟩ := copyModules_spec (tpc F d t ops).modules (cleanup S) rfl rfl
  rw [h1]
  have e : (cleanup S).modules = [] := rfl
  rw [e, List.nil_append] at h2 h3 ⊢
  rw [h2, h3, h.mods, ← h.pos, ← h.neg, ← h.mods]

/-! ### C37 -/

/-- `<` is irreflexive, transitive and total, and `==` holds if and only if neither is smaller. -/
theorem globalPadIndex_order (a b c : GlobalPadIndex) : a.less a = false ∧
    (a.less b = true → b.less c = true → a.less c = true) ∧
    (a.less b = true ∨ a = b ∨ b.less a = true) ∧
    (a.equal b = true ↔ a = b) ∧ (a.equal b = true ↔ a.less b = false ∧ b.less a = false) := by
  obtain ⟨a1, a2⟩ := a
  obtain ⟨b1, b2⟩ := b
  obtain ⟨c1, c2⟩ := c
  simp only [GlobalPadIndex.less, GlobalPadIndex.equal, GlobalPadIndex.mk.injEq, Bool.and_eq_true, decide_eq_true_eq,
    if_true, decide_eq_false_iff_not, lt_irrefl, not_false_eq_true, true_and]
  refine ⟨?_, ?_, ?_, ?_⟩
  · split_ifs with h1 h2 h3 h4 h5 <;> simp only [decide_eq_true_eq] <;> omega
  · split_ifs with h1 h2 <;> simp only [decide_eq_true_eq] <;> omega
  · omega
  · split_ifs with h1 h2 <;> simp only [decide_eq_false_iff_not] <;> omega

/-- The module number counts first. -/
theorem globalPadIndex_less_iff (a b : GlobalPadIndex) :
    a.less b = true ↔ a.moduleID < b.moduleID ∨ (a.moduleID = b.moduleID ∧ a.padIndex < b.padIndex) := by
  unfold GlobalPadIndex.less
  split_ifs with h <;> simp only [decide_eq_true_eq] <;> omega

/-! ### C88 -/

/-- The readout frequency of a TPC is the one of its only module. -/
theorem getReadoutFrequency_ok_iff (T : Tpc K) (f : K) :
    getReadoutFrequency T = .ok f ↔ ∃ m, getModules T = [m] ∧ m.readoutFrequency = f := by
  unfold getReadoutFrequency getModules Tpc.at
  rcases hl : T.modules with _ | ⟨a, _ | ⟨b, l⟩⟩
  · simp
  · simp only [List.length_singleton, lt_irrefl, gt_iff_lt, if_false]
    simp
  · simp

/-- It can be set if and only if there is exactly one module; then it has the new value, and nothing else of this
module has changed. -/
theorem setReadoutFrequency_spec (T : Tpc K) (f : K) :
    (∀ m, getModules T = [m] → (setReadoutFrequency T f).2 = .ok () ∧
      getReadoutFrequency (setReadoutFrequency T f).1 = .ok f ∧
      getModules (setReadoutFrequency T f).1 = [{ m with readoutFrequency := f }]) ∧
    ((¬ ∃ m, getModules T = [m]) → setReadoutFrequency T f = (T, .throw .gear)) := by
  unfold getModules setReadoutFrequency
  rcases hl : T.modules with _ | ⟨a, _ | ⟨b, l⟩⟩
  · simp
  · refine ⟨?_, fun h => absurd ⟨a, rfl⟩ h⟩
    intro m hm
    obtain rfl : a = m := by simpa using hm
    rw [if_neg (by simp)]
    exact ⟨rfl, rfl, rfl⟩
  · simp

/-- `getPadLayout` gives the only module, if it is not rotated or moved. -/
theorem getPadLayout_ok_iff (T : Tpc K) (m : Mod K) :
    getPadLayout T = .ok m ↔ getModules T = [m] ∧ m.angle = 0 ∧ m.offset = (0, 0) := by
  unfold getPadLayout getModules Tpc.at
  rcases hl : T.modules with _ | ⟨a, _ | ⟨b, l⟩⟩
  · simp
  · simp only [List.length_singleton, lt_irrefl, gt_iff_lt, if_false, List.getElem?_cons_zero, Res.bind_ok]
    constructor
    · intro h
      split_ifs at h with hc
      obtain rfl := Res.ok.inj h
      simp only [ne_eq, not_or, not_not] at hc
      exact ⟨rfl, hc.1, Prod.ext hc.2.1 hc.2.2⟩
    · rintro ⟨h1, h2, h3⟩
      obtain rfl : a = m := by simpa using h1
      rw [if_neg (by rw [h2, h3]; simp)]
  · simp

/-- A pad layout can be set exactly if there is no module yet and the layout is not a module itself; it becomes the
only module, with ID 0, no offset and no rotation. -/
theorem setPadLayout_spec (b : Bool) (L : LayoutI K) :
    (getModules (tpc F d t ops) = [] → b = false → (setPadLayout F (tpc F d t ops) b L).2 = .ok () ∧
      ∃ m, getModules (setPadLayout F (tpc F d t ops) b L).1 = [m] ∧
        m = ofModule F (TpcModule.new 0 L (getCoordinateType (tpc F d t ops)) 0) ∧ m.id = 0 ∧
        getPadLayout (setPadLayout F (tpc F d t ops) b L).1 = .ok m) ∧
    (¬ (getModules (tpc F d t ops) = [] ∧ b = false) →
      setPadLayout F (tpc F d t ops) b L = (tpc F d t ops, .throw .gear)) := by
  have h := tpc_inv (F := F) (d := d) (t := t) (ops := ops)
  unfold setPadLayout
  constructor
  · intro hm hb
    have hm' : (tpc F d t ops).modules = [] := hm
    rw [if_neg (by rw [hm']; simp), if_neg (by rw [hb]; simp)]
    have ht : (tpc F d t ops).coordinateType = typeOf d t := h.type
    have hB : (books F (typeOf d t) (driftOf d t) ops).modules = [] := by rw [← h.mods]; exact hm'
    have ha : Accepts (typeOf d t) (books F (typeOf d t) (driftOf d t) ops).modules
        (ofModule F (TpcModule.new 0 L (typeOf d t) 0)) := ⟨rfl, by rw [hB]; intro m hm; cases hm⟩
    obtain ⟨T', e, h'⟩ := h.accept ha
    rw [ht, e]
    have hT : getModules T' = [ofModule F (TpcModule.new 0 L (typeOf d t) 0)] := by
      show T'.modules = _
      rw [h'.mods]
      show (books F (typeOf d t) (driftOf d t) ops).modules ++ _ = _
      rw [hB]; rfl
    refine ⟨rfl, _, hT, ?_, rfl, (getPadLayout_ok_iff _ _).2 ⟨hT, rfl, rfl⟩⟩
    unfold getCoordinateType; rw [ht]
  · intro hn
    rw [not_and_or] at hn
    by_cases hm : (tpc F d t ops).modules.length ≠ 0
    · rw [if_pos hm]
    · rw [if_neg hm]
      rcases hn with hn | hn
      · exact absurd (List.length_eq_zero_iff.1 (not_not.1 hm)) hn
      · rw [if_pos (by simpa using hn)]

/-! ### C89 -/

/-- The nearest pad of a TPC with several modules: of the nearest pads of the modules it is the one with the smallest
distance, of several such the one of the first module. -/
theorem getNearestPad_first_least (T : Tpc K) (c0 c1 : K) (r : GlobalPadIndex) (h : getNearestPad T c0 c1 = .ok r)
    (h2 : 2 ≤ (getModules T).length) :
    ∃ m, FirstLeast (fun m => m.getNearestPad c0 c1 >>= m.getDistanceToPad c0 c1) (getModules T) m ∧
      m.getNearestPad c0 c1 = .ok r.padIndex ∧ r.moduleID = m.id := by
  unfold getNearestPad at h
  unfold getModules at h2 ⊢
  rcases hl : T.modules with _ | ⟨a, _ | ⟨b, l⟩⟩
  · rw [hl] at h2; simp at h2
  · rw [hl] at h2; simp at h2
  · rw [hl] at h
    unfold nearestPad at h
    dsimp only at h
    cases hp : a.getNearestPad c0 c1 with
    | throw x => rw [hp] at h; cases h
    | ub => rw [hp] at h; cases h
    | ok q =>
    rw [hp, Res.bind_ok] at h
    cases hd : a.getDistanceToPad c0 c1 q with
    | throw x => rw [hd] at h; cases h
    | ub => rw [hd] at h; cases h
    | ok v =>
      rw [hd, Res.bind_ok] at h
      have hpd : padDistance c0 c1 a = .ok v := by unfold padDistance; rw [hp, Res.bind_ok, hd]
      exact nearestPadLoop_spec c0 c1 (b :: l) [a] a q v r ⟨[], [], v, rfl, hpd, by simp, by simp⟩ hp hd h

/-- With one module it is the nearest pad of this module, without modules the call throws. -/
theorem getNearestPad_few (T : Tpc K) (c0 c1 : K) :
    (getModules T = [] → getNearestPad T c0 c1 = .throw .gear) ∧
    ∀ m, getModules T = [m] → ∀ r, getNearestPad T c0 c1 = .ok r ↔
      m.getNearestPad c0 c1 = .ok r.padIndex ∧ r.moduleID = m.id := by
  unfold getNearestPad getModules
  constructor
  · intro h; rw [h]; rfl
  · intro m h r
    rw [h]
    show (m.getNearestPad c0 c1 >>= fun pad => pure (⟨pad, m.id⟩ : GlobalPadIndex)) = _ ↔ _
    cases hp : m.getNearestPad c0 c1 with
    | throw x =>
      constructor
      · intro h; cases h
      · intro h; cases h.1
    | ub =>
      constructor
      · intro h; cases h
      · intro h; cases h.1
    | ok q =>
      rw [Res.bind_ok, Res.pure_eq]
      constructor
      · intro h; obtain rfl := Res.ok.inj h; exact ⟨rfl, rfl⟩
      · rintro ⟨h1, h2⟩; rw [Res.ok.inj h1, ← h2]

/-- If each module finds the nearest of its pads, the TPC finds the nearest of all pads. -/
theorem getNearestPad_least (T : Tpc K) (c0 c1 : K) (r : GlobalPadIndex) (h : getNearestPad T c0 c1 = .ok r)
    (pads : Mod K → Set ℤ)
    (hnear : ∀ m ∈ getModules T, ∃ p v, m.getNearestPad c0 c1 = .ok p ∧ m.getDistanceToPad c0 c1 p = .ok v ∧
      ∀ q ∈ pads m, ∃ w, m.getDistanceToPad c0 c1 q = .ok w ∧ v ≤ w) :
    ∃ m ∈ getModules T, m.id = r.moduleID ∧ ∃ v, m.getDistanceToPad c0 c1 r.padIndex = .ok v ∧
      ∀ m' ∈ getModules T, ∀ q ∈ pads m', ∃ w, m'.getDistanceToPad c0 c1 q = .ok w ∧ v ≤ w := by
  rcases hl : getModules T with _ | ⟨a, _ | ⟨b, l⟩⟩
  · rw [(getNearestPad_few T c0 c1).1 hl] at h; cases h
  · obtain ⟨h1, h2⟩ := ((getNearestPad_few T c0 c1).2 a hl r).1 h
    obtain ⟨p, v, e1, e2, e3⟩ := hnear a (by rw [hl]; simp)
    rw [e1] at h1
    obtain rfl := Res.ok.inj h1
    refine ⟨a, by simp, h2.symm, v, e2, ?_⟩
    intro m' hm'
    rw [List.mem_singleton.1 hm']
    exact e3
  · obtain ⟨m, ⟨pre, post, v, f1, f2, f3, f4⟩, h1, h2⟩ := getNearestPad_first_least T c0 c1 r h (by rw [hl]; simp)
    rw [← hl]
    refine ⟨m, by rw [f1]; simp, h2.symm, v, ?_, ?_⟩
    · have f2 : (m.getNearestPad c0 c1 >>= m.getDistanceToPad c0 c1) = .ok v := f2
      rw [h1, Res.bind_ok] at f2; exact f2
    · intro m' hm' q hq
      obtain ⟨p, v', e1, e2, e3⟩ := hnear m' hm'
      obtain ⟨w, w1, w2⟩ := e3 q hq
      refine ⟨w, w1, le_trans ?_ w2⟩
      have hv : (m'.getNearestPad c0 c1 >>= m'.getDistanceToPad c0 c1) = .ok v' := by rw [e1, Res.bind_ok, e2]
      rw [f1] at hm'
      rcases List.mem_append.1 hm' with hm' | hm'
      · obtain ⟨x, x1, x2⟩ := f3 m' hm'
        have x1 : (m'.getNearestPad c0 c1 >>= m'.getDistanceToPad c0 c1) = .ok x := x1
        rw [hv] at x1; rw [Res.ok.inj x1]; exact x2.le
      · rcases List.mem_cons.1 hm' with rfl | hm'
        · have f2 : (m'.getNearestPad c0 c1 >>= m'.getDistanceToPad c0 c1) = .ok v := f2
          rw [hv] at f2; rw [Res.ok.inj f2]
        · obtain ⟨x, x1, x2⟩ := f4 m' hm'
          have x1 : (m'.getNearestPad c0 c1 >>= m'.getDistanceToPad c0 c1) = .ok x := x1
          rw [hv] at x1; rw [Res.ok.inj x1]; exact x2

end

/-! ### Examples -/

/-- A module that is the square of side 2 around a point, with one pad. -/
def square (id : ℤ) (x : ℚ) (z : Option ℚ) : Mod ℚ where
  id := id
  tpcCoordinateType := CARTESIAN
  z := z
  moduleExtent := ⟨x - 1, x + 1, -1, 1⟩
  angle := 0
  offset := (0, 0)
  readoutFrequency := 0
  getDistanceToModule := fun c0 _ => .ok (if c0 < x - 1 then x - 1 - c0 else if x + 1 < c0 then c0 - x - 1 else 0)
  isInsideModule := fun c0 c1 => .ok (decide (x - 1 ≤ c0 ∧ c0 ≤ x + 1 ∧ -1 ≤ c1 ∧ c1 ≤ 1))
  isInsidePad := fun c0 c1 => .ok (decide (x - 1 ≤ c0 ∧ c0 < x + 1 ∧ -1 ≤ c1 ∧ c1 < 1))
  getNearestPad := fun _ _ => .ok 7
  getDistanceToPad := fun c0 _ _ =>
    .ok (if c0 < x - 1 then x - 1 - c0 else if x + 1 < c0 then c0 - x - 1 else 0)

/-- Not used by the examples, which set no pad layout. -/
def someTrig : TrigFns ℚ := ⟨⟨3, fun _ => 1, fun _ => 0, id⟩, fun _ _ => 0, fun _ => 0, 0, 0⟩

/-- Three modules on two sides, a null pointer, a module with a used ID and one of the wrong coordinate type; the
cathode is in the middle between -10 and 40. -/
example :
    let T := tpc someTrig 50 CARTESIAN [.add (some (square 1 0 (some (-10)))), .add none, .add (some (square 1 5 none)),
      .add (some (square 2 10 (some 40))), .add (some { square 9 0 none with tpcCoordinateType := POLAR }),
      .add (some (square 3 20 (some (-11)))), .frequency 4, .velocity 2]
    (getModules T).map Mod.id = [1, 2, 3] ∧ (addModule T (some (square 2 0 none))).2 = .throw .gear ∧
      (addModule T (some (square 4 0 none))).2 = .ok () ∧ ((getModule T 2) >>= fun m => .ok m.id) = .ok 2 ∧
      ((getNearestModule T 14 0) >>= fun m => .ok m.id) = .ok 2 ∧
      ((getNearestModule3 T 14 0 15) >>= fun m => .ok m.id) = .ok 3 ∧
      ((getNearestModule3 T 14 0 16) >>= fun m => .ok m.id) = .ok 2 ∧
      isInsideModule T 9 0 = .ok true ∧ isInsideModule3 T 9 0 0 = .ok false ∧
      getNearestPad T 16 0 = .ok ⟨7, 3⟩ ∧ getNearestPad T 15 0 = .ok ⟨7, 2⟩ ∧
      (∀ m ∈ getModules T, m.z ≠ none) ∧ cathode (getModules T) 50 = 15 ∧ getDriftVelocity T = 2 := by
  decide +kernel

/-- A module without a z position that is added first keeps the cathode at 0: with the only anode at 100 and a drift
length of 50 the cathode is at 50, but the point at z = 25 is taken to be on the side of the anode. -/
theorem cathode_false_module_without_z :
    ∃ ops : List (Op ℚ), let T := tpc someTrig 50 CARTESIAN ops
      cathode (getModules T) 50 = 50 ∧ getMaxDriftLength T = 50 ∧ ¬ AnswersBySide T 50 ∧ AnswersBySide T 0 := by
  refine ⟨[.add (some (square 1 0 none)), .add (some (square 2 10 (some 100)))], by decide +kernel, by decide +kernel,
    ?_, ?_⟩
  · intro h
    have := (h 10 0 25 (tpc someTrig 50 CARTESIAN [.add (some (square 1 0 none))]) rfl).2.1
    revert this
    decide +kernel
  · have h := answers (tpc_inv (F := someTrig) (d := 50) (t := CARTESIAN)
      (ops := [.add (some (square 1 0 none)), .add (some (square 2 10 (some 100)))]))
    have e : (tpc someTrig 50 CARTESIAN
      [.add (some (square 1 0 none)), .add (some (square 2 10 (some 100)))]).cathodePosition = 0 := by decide +kernel
    rw [e] at h
    exact h

/-- A cathode a drift length away from the only side. -/
example :
    let T := tpc someTrig 50 CARTESIAN [.add (some (square 2 10 (some 100))), .drift 30]
    (∀ m ∈ getModules T, m.z ≠ none) ∧ cathode (getModules T) (getMaxDriftLength T) = 70 ∧
      (getModules T).length = 1 ∧ getReadoutFrequency T = .ok 0 := by decide +kernel

/-- The plane extent of two modules; of two TPCs with the modules in the other order. -/
example :
    let a := square 1 0 none
    let b := square 2 10 none
    getPlaneExtent (tpc someTrig 50 CARTESIAN [.add (some a), .add (some b)]) = .ok ⟨-1, 11, -1, 1⟩ ∧
      getPlaneExtent (tpc someTrig 50 CARTESIAN [.add (some b), .add (some a)]) = .ok ⟨-1, 11, -1, 1⟩ := by
  decide +kernel

/-- Module 1 pad 9 comes before module 2 pad 0. -/
example : GlobalPadIndex.less ⟨9, 1⟩ ⟨0, 2⟩ = true ∧ GlobalPadIndex.less ⟨0, 2⟩ ⟨1, 2⟩ = true ∧
    GlobalPadIndex.equal ⟨1, 2⟩ ⟨1, 2⟩ = true := by decide

/-! ### Whole detector -/

section
open TpcModule TpcModule.Spec

theorem made_id {id : ℤ} {L : LayoutI ℝ} {t : ℤ} {f : ℝ} {ops : List TpcModule.Spec.Op} (ht : Known t) :
    getModuleID (made id L t f ops) = id := by
  obtain ⟨a, b, c, g, e, -⟩ := run_has (id := id) (L := L) (f := f) ht ops
  rw [made, e]; rfl

/-- A module with its layout and the calls made on it before it was given to the TPC. -/
structure Unit where
  id : ℤ
  layout : LayoutI ℝ
  frequency : ℝ
  ops : List (TpcModule.Spec.Op)

/-- The module of the TPC. -/
noncomputable def Unit.mod (t : ℤ) (u : Unit) : Mod ℝ := ofModule realTrig (made u.id u.layout t u.frequency u.ops)

/-- The part of the plane the unit covers. -/
noncomputable def Unit.area (t : ℤ) (u : Unit) : Set (ℝ × ℝ) :=
  placement t u.frequency u.ops '' region u.layout.coordinateType (getLocalModuleExtent (made u.id u.layout t u.frequency u.ops))

/-- For a TPC made of `TPCModuleImpl`s a point is inside a module exactly if it is in one of the placed areas. -/
theorem tpc_isInsideModule_iff_partial {t : ℤ} (ht : Known t) (T : Tpc ℝ) (units : List Unit)
    (hT : getModules T = units.map (Unit.mod t)) (c : ℝ × ℝ) (hc : t = POLAR → 0 ≤ c.1)
    (hu : ∀ u ∈ units, Known u.layout.coordinateType ∧ Settled u.ops ∧
      ¬ OffsetAlongY t u.layout.coordinateType (values u.frequency u.ops).offset ∧
      (u.layout.coordinateType = POLAR →
        0 < (getLocalModuleExtent (made u.id u.layout t u.frequency u.ops)).e0)) :
    ∃ b, TpcParams.isInsideModule T c.1 c.2 = .ok b ∧ (b = true ↔ ∃ u ∈ units, plane t c ∈ u.area t) := by
  have key : ∀ u ∈ units, ∃ b, (u.mod t).isInsideModule c.1 c.2 = .ok b ∧ (b = true ↔ plane t c ∈ u.area t) := by
    intro u hm
    obtain ⟨h1, h2, h3, h4⟩ := hu u hm
    exact isInsideModule_iff_partial ht h1 h2 h3 c hc (fun h => ⟨(h4 h).le, fun _ => h4 h⟩)
  obtain ⟨b, h1, h2⟩ := (inside_union T c.1 c.2).1 (by
    rw [hT]
    intro m hm
    obtain ⟨u, hu', rfl⟩ := List.mem_map.1 hm
    obtain ⟨b, hb, -⟩ := key u hu'
    exact ⟨b, hb⟩)
  refine ⟨b, h1, h2.trans ?_⟩
  rw [hT]
  constructor
  · rintro ⟨m, hm, e⟩
    obtain ⟨u, hu', rfl⟩ := List.mem_map.1 hm
    obtain ⟨b', hb, hb'⟩ := key u hu'
    rw [hb] at e
    exact ⟨u, hu', hb'.1 (Res.ok.inj e)⟩
  · rintro ⟨u, hu', e⟩
    obtain ⟨b', hb, hb'⟩ := key u hu'
    exact ⟨u.mod t, List.mem_map.2 ⟨u, hu', rfl⟩, by rw [hb, hb'.2 e]⟩

/-- Two mirrored and moved unit squares, and the TPC made of them. -/
example : ∃ (T : Tpc ℝ) (units : List Unit), Known CARTESIAN ∧ units.length = 2 ∧
    getModules T = units.map (Unit.mod CARTESIAN) ∧
    ∀ u ∈ units, Known u.layout.coordinateType ∧ Settled u.ops ∧
      ¬ OffsetAlongY CARTESIAN u.layout.coordinateType (values u.frequency u.ops).offset ∧
      (u.layout.coordinateType = POLAR →
        0 < (getLocalModuleExtent (made u.id u.layout CARTESIAN u.frequency u.ops)).e0) := by
  have ht : (TpcParams.new (50 : ℝ) CARTESIAN).coordinateType = CARTESIAN := by
    unfold TpcParams.new
    have hn : ¬ ((50 : ℝ) = -1 ∨ CARTESIAN = -1) := by
      rintro (h | h)
      · norm_num at h
      · exact absurd h (by decide)
    simp only [if_neg hn]
  have h0 := TpcParams.Inv.new (50 : ℝ) CARTESIAN
  rw [ht] at h0
  obtain ⟨T1, -, h1⟩ := h0.accept
    (m := Unit.mod CARTESIAN ⟨0, squareLayout, 0, [.z (-1), .offset 3 4, .angle 1, .border 2]⟩)
    ⟨made_type (Or.inl rfl), by intro m hm; cases hm⟩
  obtain ⟨T2, -, h2⟩ := h1.accept
    (m := Unit.mod CARTESIAN ⟨1, squareLayout, 0, [.z (-1), .offset 3 4, .angle 1, .border 2]⟩)
    ⟨made_type (Or.inl rfl), by
      intro m hm
      rw [List.nil_append, List.mem_singleton] at hm
      rw [hm]
      have e0 := made_id (id := 0) (L := squareLayout) (f := 0)
        (ops := [.z (-1), .offset 3 4, .angle 1, .border 2]) (t := CARTESIAN) (Or.inl rfl)
      have e1 := made_id (id := 1) (L := squareLayout) (f := 0)
        (ops := [.z (-1), .offset 3 4, .angle 1, .border 2]) (t := CARTESIAN) (Or.inl rfl)
      show getModuleID _ ≠ getModuleID _
      rw [e0, e1]
      decide⟩
  refine ⟨T2,
    [⟨0, squareLayout, 0, [.z (-1), .offset 3 4, .angle 1, .border 2]⟩,
      ⟨1, squareLayout, 0, [.z (-1), .offset 3 4, .angle 1, .border 2]⟩], Or.inl rfl, rfl, h2.mods, ?_⟩
  · intro u hu
    have e : u.layout = squareLayout ∧ u.ops = [.z (-1), .offset 3 4, .angle 1, .border 2] := by
      simp only [List.mem_cons, List.not_mem_nil, or_false] at hu
      rcases hu with rfl | rfl <;> exact ⟨rfl, rfl⟩
    rw [e.1, e.2]
    exact ⟨Or.inl rfl, settled_example, fun h => absurd h.1 polar_ne, fun h => absurd h polar_ne⟩

end

end Gear.TpcParams
