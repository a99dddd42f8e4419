/-
C117 to C119: what the printing of named parameters, of the layers of a calorimeter and of a whole manager shows.
-/
import Verif.PrintMgr
import Verif.ParamsProps
import Verif.GearMgrProps
import Mathlib.Algebra.Field.Rat
import Mathlib.Algebra.Order.Ring.Rat
import Mathlib.Data.Rat.Floor

set_option autoImplicit false
set_option linter.unusedSectionVars false

namespace Gear.Print

theorem keyLoop_ok {V A : Type} (get : String → Res V) (line : String → V → A) :
    ∀ l : List String, (∀ k ∈ l, ∃ v, get k = .ok v) →
      ∃ r, keyLoop get line l = .ok r ∧ List.Forall₂ (fun k a => ∃ v, get k = .ok v ∧ a = line k v) l r := by
  intro l
  induction l with
  | nil => intro _; exact ⟨[], rfl, .nil⟩
  | cons k ks ih =>
    intro h
    obtain ⟨v, hv⟩ := h k (by simp)
    obtain ⟨r, hr, hf⟩ := ih (fun x hx => h x (by simp [hx]))
    refine ⟨line k v :: r, ?_, .cons ⟨v, hv, rfl⟩ hf⟩
    rw [keyLoop, hv, Res.bind_ok, hr]
    rfl

/-! ### C117 -/

section Calo

variable {K : Type} [Field K] [LinearOrder K] [IsStrictOrderedRing K] [FloorRing K]

/-- How a reader of the table finds the layer `i`: the thicknesses of the last line with an index that is not greater,
and zeros without such a line. -/
def readOff (d : K × K) (rows : List (CaloRow K)) (i : ℕ) : K × K :=
  match (rows.filter (fun r => decide (r.id ≤ (i : ℤ)))).getLast? with
  | some r => (r.thickness, r.absorber)
  | none => d

/-- The line of the layer `i`. -/
def rowOf (i : ℕ) (l : Calo.Layer K) : CaloRow K :=
  ⟨i, l.thickness, l.absorberThickness, l.distance, l.cellSize0, l.cellSize1⟩

/-- The thicknesses of the layer before, zeros before the first. -/
def before (L : Calo.Layout K) : ℕ → K × K
  | 0 => (0, 0)
  | i + 1 => match L[i]? with
    | some l => (l.thickness, l.absorberThickness)
    | none => (0, 0)

theorem readOff_cons (d : K × K) (r : CaloRow K) (rows : List (CaloRow K)) (i : ℕ) (h : r.id ≤ i) :
    readOff d (r :: rows) i = readOff (r.thickness, r.absorber) rows i := by
  unfold readOff
  rw [List.filter_cons_of_pos (by simpa using h)]
  cases hf : rows.filter (fun r => decide (r.id ≤ (i : ℤ))) with
  | nil => rfl
  | cons a t => rw [List.getLast?_cons_cons]; cases ht : (a :: t).getLast? with
    | none => simp at ht
    | some x => rfl

theorem readOff_none (d : K × K) (rows : List (CaloRow K)) (i : ℕ) (h : ∀ r ∈ rows, (i : ℤ) < r.id) :
    readOff d rows i = d := by
  unfold readOff
  have : rows.filter (fun r => decide (r.id ≤ (i : ℤ))) = [] := by
    rw [List.filter_eq_nil_iff]
    intro r hr
    have := h r hr
    simp; omega
  rw [this]
  rfl

theorem at'_getElem (L : Calo.Layout K) (i : ℕ) (h : i < L.length) : Calo.at' L i = .ok L[i] := by
  unfold Calo.at'
  rw [if_neg (by omega), Int.toNat_natCast, List.getElem?_eq_getElem h]

theorem caloLoop_spec (L : Calo.Layout K) : ∀ (n i : ℕ), i + n = L.length →
    ∃ rows, caloLoop L n i (before L i).1 (before L i).2 = .ok rows ∧
      (∀ r ∈ rows, ∃ (j : ℕ) (hj : j < L.length), i ≤ j ∧ r = rowOf j L[j]) ∧
      rows.Pairwise (fun a b => a.id < b.id) ∧
      (∀ (j : ℕ) (hj : j < L.length), i ≤ j →
        readOff (before L i) rows j = (L[j].thickness, L[j].absorberThickness)) ∧
      (∀ (j : ℕ) (hj : j < L.length), i ≤ j →
        (rowOf j L[j] ∈ rows ↔ (L[j].thickness, L[j].absorberThickness) ≠ before L j ∨ j + 1 = L.length)) := by
  intro n
  induction n with
  | zero =>
    intro i hi
    refine ⟨[], rfl, by simp, .nil, fun j hj h => by omega, fun j hj h => by omega⟩
  | succ n ih =>
    intro i hi
    have hlt : i < L.length := by omega
    obtain ⟨rows, h1, h2, h3, h4, h5⟩ := ih (i + 1) (by omega)
    have hb : before L (i + 1) = (L[i].thickness, L[i].absorberThickness) := by
      simp [before, List.getElem?_eq_getElem hlt]
    rw [hb] at h1 h4
    have hgt : ∀ r ∈ rows, (i : ℤ) < r.id := by
      intro r hr
      obtain ⟨j, hj, hij, rfl⟩ := h2 r hr
      show (i : ℤ) < (j : ℤ)
      omega
    rw [caloLoop]
    unfold Calo.getThickness Calo.getAbsorberThickness Calo.getDistance Calo.getCellSize0 Calo.getCellSize1
    rw [at'_getElem L i hlt]
    simp only [Res.bind_ok, Res.pure_eq]
    have hcond : ((L[i].thickness ≠ (before L i).1 ∨ L[i].absorberThickness ≠ (before L i).2) ∨
        (i : ℤ) = Calo.getNLayers L - 1) ↔
        ((L[i].thickness, L[i].absorberThickness) ≠ before L i ∨ i + 1 = L.length) := by
      unfold Calo.getNLayers
      rw [ne_eq (L[i].thickness, L[i].absorberThickness), Prod.ext_iff, not_and_or]
      constructor
      · rintro (h | h)
        · exact .inl h
        · exact .inr (by omega)
      · rintro (h | h)
        · exact .inl h
        · exact .inr (by omega)
    have hnot : rowOf i L[i] ∉ rows := by
      intro h
      have := hgt _ h
      simp [rowOf] at this
    rw [if_congr hcond rfl rfl]
    push_cast at h1
    split_ifs with hc
    · rw [h1]
      refine ⟨rowOf i L[i] :: rows, rfl, ?_, ?_, ?_, ?_⟩
      · intro r hr
        rcases List.mem_cons.1 hr with rfl | hr
        · exact ⟨i, hlt, le_rfl, rfl⟩
        · obtain ⟨j, hj, hij, he⟩ := h2 r hr
          exact ⟨j, hj, by omega, he⟩
      · exact List.pairwise_cons.2 ⟨fun r hr => hgt r hr, h3⟩
      · intro j hj hij
        rw [readOff_cons _ _ _ _ (by show (i : ℤ) ≤ j; omega)]
        rcases Nat.eq_or_lt_of_le hij with rfl | hij'
        · exact readOff_none _ _ _ hgt
        · exact h4 j hj hij'
      · intro j hj hij
        rcases Nat.eq_or_lt_of_le hij with rfl | hij'
        · simp [hc]
        · rw [List.mem_cons, ← h5 j hj hij']
          constructor
          · rintro (h | h)
            · have := congrArg CaloRow.id h
              simp [rowOf] at this
              omega
            · exact h
          · exact .inr
    · rw [h1]
      rw [not_or, not_not] at hc
      refine ⟨rows, rfl, ?_, h3, ?_, ?_⟩
      · intro r hr
        obtain ⟨j, hj, hij, he⟩ := h2 r hr
        exact ⟨j, hj, by omega, he⟩
      · intro j hj hij
        rw [← hc.1]
        rcases Nat.eq_or_lt_of_le hij with rfl | hij'
        · exact readOff_none _ _ _ hgt
        · exact h4 j hj hij'
      · intro j hj hij
        rcases Nat.eq_or_lt_of_le hij with rfl | hij'
        · constructor
          · intro h; exact absurd h hnot
          · rintro (h | h)
            · exact absurd hc.1 h
            · exact absurd h hc.2
        · exact h5 j hj hij'

/-- C117, the part that holds: for every layout the table of a calorimeter is printed, its lines are ascending and each
shows all values of the layer with its index; there is a line exactly for the last layer and for every layer with other
thicknesses than the layer before; and the thicknesses of every layer are those of the last line that is not below it.
Missing: the cell sizes and distances of layers without a line, which cannot be read off (`calo_false`). -/
theorem calo_partial (L : Calo.Layout K) :
    ∃ rows, caloRows L = .ok rows ∧
      (∀ r ∈ rows, ∃ (j : ℕ) (hj : j < L.length), r = rowOf j L[j]) ∧
      rows.Pairwise (fun a b => a.id < b.id) ∧
      (∀ (j : ℕ) (hj : j < L.length), readOff (0, 0) rows j = (L[j].thickness, L[j].absorberThickness)) ∧
      (∀ (j : ℕ) (hj : j < L.length),
        (rowOf j L[j] ∈ rows ↔ (L[j].thickness, L[j].absorberThickness) ≠ before L j ∨ j + 1 = L.length)) := by
  obtain ⟨rows, h1, h2, h3, h4, h5⟩ := caloLoop_spec L L.length 0 (by omega)
  refine ⟨rows, ?_, ?_, h3, fun j hj => h4 j hj (by omega), fun j hj => h5 j hj (by omega)⟩
  · unfold caloRows Calo.getNLayers
    rw [Int.toNat_natCast]
    exact h1
  · intro r hr
    obtain ⟨j, hj, _, he⟩ := h2 r hr
    exact ⟨j, hj, he⟩

/-- C117 is false for the cell sizes: two layouts with other cell sizes in their second layer are printed alike. -/
theorem calo_false :
    ∃ L L' : Calo.Layout ℚ, caloRows L = caloRows L' ∧ Calo.getCellSize0 L 1 ≠ Calo.getCellSize0 L' 1 := by
  refine ⟨Calo.addLayer (Calo.addLayer (Calo.addLayer [] 2 5 5 1) 2 5 5 1) 2 5 5 1,
    Calo.addLayer (Calo.addLayer (Calo.addLayer [] 2 5 5 1) 2 7 5 1) 2 5 5 1, ?_, ?_⟩ <;> decide +kernel

example : caloRows (Calo.addLayer (Calo.addLayer (Calo.addLayer (Calo.addLayer [] 2 5 5 1) 2 5 5 1) 3 5 5 1) 3 5 5 (1 : ℚ))
    = .ok [⟨0, 2, 1, 0, 5, 5⟩, ⟨2, 3, 1, 4, 5, 5⟩, ⟨3, 3, 1, 7, 5, 5⟩] := by decide +kernel

end Calo

/-! ### C118 -/

variable {D : Type}

/-- The lines a reader expects for the keys of one kind. -/
def Listed {V : Type} (last : String → Option V) (line : String → V → Line D) (r : List (Line D)) : Prop :=
  ∃ ks : List String, Params.IsListing (fun k => (last k).isSome) ks ∧
    List.Forall₂ (fun k a => ∃ v, last k = some v ∧ a = line k v) ks r

theorem keyLoop_listed {V : Type} {get : String → Res V} {last : String → Option V} {line : String → V → Line D}
    {ks : List String} (hg : ∀ k, get k = Params.answer k (last k))
    (hl : Params.IsListing (fun k => (last k).isSome) ks) :
    ∃ r, keyLoop get line ks = .ok r ∧ Listed last line r := by
  obtain ⟨r, h1, h2⟩ := keyLoop_ok get line ks (by
    intro k hk
    obtain ⟨v, hv⟩ := Option.isSome_iff_exists.1 ((hl.2 k).1 hk)
    exact ⟨v, by rw [hg, hv]; rfl⟩)
  refine ⟨r, h1, ks, hl, h2.imp ?_⟩
  rintro k a ⟨v, hv, ha⟩
  refine ⟨v, ?_, ha⟩
  rw [hg] at hv
  cases hlk : last k with
  | none => rw [hlk] at hv; cases hv
  | some x => rw [hlk] at hv; cases hv; rfl

/-- C118: printing a collection of named parameters shows, after any history of calls, for each of the six kinds one line
for every key that was set, in ascending order and with the value set last, and nothing else; it never throws. -/
theorem params_history (h : List (Params.Op D)) :
    ∃ a b c d e f, params (Params.run h) = .ok (a ++ b ++ c ++ d ++ e ++ f) ∧
      Listed (fun k => Params.lastInt k h) .int a ∧ Listed (fun k => Params.lastDouble k h) .double b ∧
      Listed (fun k => Params.lastString k h) .string c ∧ Listed (fun k => Params.lastInts k h) .intVec d ∧
      Listed (fun k => Params.lastDoubles k h) .doubleVec e ∧
      Listed (fun k => Params.lastStrings k h) .stringVec f := by
  obtain ⟨a, ha, la⟩ := keyLoop_listed (D := D) (line := .int) (Params.getIntVal_run h) (Params.getIntKeys_run h)
  obtain ⟨b, hb, lb⟩ := keyLoop_listed (D := D) (line := .double) (Params.getDoubleVal_run h) (Params.getDoubleKeys_run h)
  obtain ⟨c, hc, lc⟩ := keyLoop_listed (D := D) (line := .string) (Params.getStringVal_run h) (Params.getStringKeys_run h)
  obtain ⟨d, hd, ld⟩ := keyLoop_listed (D := D) (line := .intVec) (Params.getIntVals_run h) (Params.getIntVecKeys_run h)
  obtain ⟨e, he, le⟩ := keyLoop_listed (D := D) (line := .doubleVec) (Params.getDoubleVals_run h) (Params.getDoubleVecKeys_run h)
  obtain ⟨f, hf, lf⟩ := keyLoop_listed (D := D) (line := .stringVec) (Params.getStringVals_run h) (Params.getStringVecKeys_run h)
  refine ⟨a, b, c, d, e, f, ?_, la, lb, lc, ld, le, lf⟩
  have ha' : keyLoop (Params.run h).getIntKeys.getIntVal Line.int (Params.run h).getIntKeys.intKeys = .ok a := ha
  unfold params
  dsimp only
  rw [ha', Res.bind_ok]
  have : ∀ {α : Type} (x : Res α) (y : α), x = .ok y → x = .ok y := fun _ _ h => h
  erw [hb, Res.bind_ok, hc, Res.bind_ok, hd, Res.bind_ok, he, Res.bind_ok, hf, Res.bind_ok]
  rfl

example : params (Params.run [.setInt "b" 1, .setDouble "x" (2 : ℤ), .setInt "a" 3, .setInt "b" 4, .setStrings "s" []])
    = .ok [.int "a" 3, .int "b" 4, .double "x" 2, .stringVec "s" []] := by decide +kernel

/-! ### C119 -/

/-- How often the object of a section is printed. -/
def times : Section → ℕ
  | .sit | .set => 2
  | .pointProperties | .distanceProperties => 0
  | _ => 1

section Mgr

variable [Zero D]

/-- The items that name an object of a section, a collection, a material, or the detector. -/
def isObject : Item → Bool
  | .object _ _ => true
  | _ => false

/-- As `isObject`. -/
def isGear : Item → Bool
  | .gear _ _ => true
  | _ => false

/-- As `isObject`. -/
def isMaterial : Item → Bool
  | .material _ => true
  | _ => false

/-- As `isObject`. -/
def isName : Item → Bool
  | .name _ => true
  | .nameMissing => true
  | _ => false

theorem forall₂_all {A B : Type} {R : A → B → Prop} {P : B → Prop} (h : ∀ a b, R a b → P b) :
    ∀ {l : List A} {r : List B}, List.Forall₂ R l r → ∀ b ∈ r, P b := by
  intro l r hf
  induction hf with
  | nil => intro b hb; simp at hb
  | cons h1 _ ih =>
    intro b hb
    rcases List.mem_cons.1 hb with rfl | hb
    · exact h _ _ h1
    · exact ih b hb

theorem filter_none {P : Item → Bool} {l : List Item} (h : ∀ x ∈ l, P x = false) : l.filter P = [] := by
  rw [List.filter_eq_nil_iff]; intro x hx; simp [h x hx]

theorem filter_all {P : Item → Bool} {l : List Item} (h : ∀ x ∈ l, P x = true) : l.filter P = l := by
  rw [List.filter_eq_self]; exact h

theorem count_none {x : Item} {l : List Item} (h : ∀ y ∈ l, isObject y = false) (hx : isObject x = true) : l.count x = 0 := by
  rw [List.count_eq_zero]
  intro hm
  rw [h x hm] at hx
  cases hx

theorem block_kind (late : Bool) (w : Mgr D) (t : Option String) (s : Section) :
    ∀ x ∈ block late w t s, isGear x = false ∧ isMaterial x = false ∧ isName x = false := by
  intro x hx
  unfold block at hx
  split at hx
  · cases t with
    | none => simp at hx; subst hx; exact ⟨rfl, rfl, rfl⟩
    | some t => simp at hx; rcases hx with rfl | rfl <;> exact ⟨rfl, rfl, rfl⟩
  · cases late <;> cases t <;> simp at hx
    subst hx; exact ⟨rfl, rfl, rfl⟩

theorem block_count (late : Bool) (w : Mgr D) (t : Option String) (s s' : Section) (p : Ptr) :
    (block late w t s').count (.object s p) = if s' = s ∧ w.slot s = some p then 1 else 0 := by
  unfold block Mgr.getSection
  cases hs : w.slot s' with
  | none =>
    have hn : ¬ (s' = s ∧ w.slot s = some p) := by rintro ⟨rfl, h⟩; rw [hs] at h; cases h
    rw [if_neg hn]
    cases late <;> cases t <;> simp
  | some q =>
    by_cases h : s' = s ∧ w.slot s = some p
    · rw [if_pos h]
      obtain ⟨rfl, h⟩ := h
      rw [hs] at h; cases h
      cases t <;> simp
    · rw [if_neg h, List.count_eq_zero]
      intro hm
      have : Item.object s p = Item.object s' q := by cases t <;> simpa using hm
      cases this
      exact h ⟨rfl, hs⟩

theorem blocks_count (late : Bool) (w : Mgr D) (s : Section) (p : Ptr) (l : List (Option String × Section)) :
    (l.flatMap fun b => block late w b.1 b.2).count (.object s p) =
      if w.slot s = some p then (l.map Prod.snd).count s else 0 := by
  induction l with
  | nil => simp
  | cons b l ih =>
    rw [List.flatMap_cons, List.count_append, ih, block_count, List.map_cons, List.count_cons]
    by_cases h1 : w.slot s = some p
    · by_cases h2 : b.2 = s
      · simp [h1, h2, Nat.add_comm]
      · simp [h1, h2]
    · simp [h1]

/-- C119, the part that holds: after any history printing the manager shows every registered object of the sections other
than the inner and outer silicon trackers exactly once and no other object, the two trackers twice; every named collection
and every material once, in the order of their names; and the name that was set.  Missing: that the two trackers are shown
once, which is false (`manager_false`), and the objects for points and distances, which are not shown. -/
theorem manager_partial {obj : Ptr → Params D} {mn : Ptr → String} {h : List Mgr.Op} {w : Mgr D}
    (hr : Mgr.run (Mgr.init obj mn) h = some w) (late : Bool) :
    ∃ items, manager late w = .ok items ∧
      (∀ s p, items.count (.object s p) = if (Mgr.lastSet s h).getD none = some p then times s else 0) ∧
      (∃ ks : List String, Params.IsListing (fun k => (Mgr.lastGear k h).isSome) ks ∧
        List.Forall₂ (fun k a => ∃ p, Mgr.lastGear k h = some p ∧ a = Item.gear k p) ks (items.filter isGear)) ∧
      (∃ ks : List String, Params.IsListing (fun k => (Mgr.firstMaterial mn k h).isSome) ks ∧
        List.Forall₂ (fun k a => ∃ p, Mgr.firstMaterial mn k h = some p ∧ a = Item.material p) ks
          (items.filter isMaterial)) ∧
      items.filter isName = (if Mgr.lastName h = "" then [.nameMissing] else [.name (Mgr.lastName h)]) := by
  have hk1 := Mgr.gearKeys_run hr
  have hk2 := Mgr.materialNames_run hr
  have hexp : ∀ {o : Option Ptr} {q : Ptr}, Mgr.expect o = .ok q → o = some q := by
    intro o q h; cases o <;> cases h; rfl
  obtain ⟨g, hg1, hg2⟩ := keyLoop_ok w.getGear Item.gear w.gearKeys (by
    intro k hk
    obtain ⟨v, hv⟩ := Option.isSome_iff_exists.1 ((hk1.2 k).1 hk)
    exact ⟨v, by rw [Mgr.getGear_run hr, hv]; rfl⟩)
  obtain ⟨m, hm1, hm2⟩ := keyLoop_ok w.getMaterial (fun _ => Item.material) w.materialNames (by
    intro k hk
    obtain ⟨v, hv⟩ := Option.isSome_iff_exists.1 ((hk2.2 k).1 hk)
    exact ⟨v, by rw [Mgr.getMaterial_run hr, hv]; rfl⟩)
  have gall : ∀ x ∈ g, isGear x = true ∧ isMaterial x = false ∧ isName x = false ∧ isObject x = false :=
    forall₂_all (by rintro k a ⟨v, _, rfl⟩; exact ⟨rfl, rfl, rfl, rfl⟩) hg2
  have mall : ∀ x ∈ m, isGear x = false ∧ isMaterial x = true ∧ isName x = false ∧ isObject x = false :=
    forall₂_all (by rintro k a ⟨v, _, rfl⟩; exact ⟨rfl, rfl, rfl, rfl⟩) hm2
  obtain ⟨N, hN⟩ : ∃ N, N = (match w.getDetectorName with | .ok n => [Item.name n] | _ => [.nameMissing]) := ⟨_, rfl⟩
  obtain ⟨B, hB⟩ : ∃ B, B = (match w.getSection .bField with | .ok p => [Item.object .bField p] | _ => [.fieldMissing]) :=
    ⟨_, rfl⟩
  have hN' : N = if Mgr.lastName h = "" then [.nameMissing] else [.name (Mgr.lastName h)] := by
    rw [hN, Mgr.getDetectorName_run hr]
    split_ifs <;> rfl
  have nall : ∀ x ∈ N, isGear x = false ∧ isMaterial x = false ∧ isName x = true ∧ isObject x = false := by
    rw [hN']
    split_ifs <;> (intro x hx; simp at hx; subst hx; exact ⟨rfl, rfl, rfl, rfl⟩)
  have ball : ∀ x ∈ B, isGear x = false ∧ isMaterial x = false ∧ isName x = false := by
    rw [hB]
    split <;> (intro x hx; simp at hx; subst hx; exact ⟨rfl, rfl, rfl⟩)
  have cB : ∀ s p, B.count (.object s p) = if w.slot s = some p ∧ s = .bField then 1 else 0 := by
    intro s p
    rw [hB]
    unfold Mgr.getSection
    cases hs : w.slot .bField with
    | none =>
      rw [if_neg]
      · simp
      · rintro ⟨h1, rfl⟩; rw [hs] at h1; cases h1
    | some q =>
      by_cases hc : w.slot s = some p ∧ s = .bField
      · rw [if_pos hc]
        obtain ⟨h1, rfl⟩ := hc
        rw [hs] at h1; cases h1; simp
      · rw [if_neg hc, List.count_eq_zero]
        intro hmem
        have : Item.object s p = Item.object .bField q := by simpa using hmem
        cases this
        exact hc ⟨hs, rfl⟩
  have lall : ∀ x ∈ blocks.flatMap (fun b => block late w b.1 b.2), isGear x = false ∧ isMaterial x = false ∧
      isName x = false := by
    intro x hx
    obtain ⟨b, _, hb⟩ := List.mem_flatMap.1 hx
    exact block_kind late w b.1 b.2 x hb
  have cL := blocks_count late w
  obtain ⟨L, hL⟩ : ∃ L, L = blocks.flatMap (fun b => block late w b.1 b.2) := ⟨_, rfl⟩
  rw [← hL] at lall
  refine ⟨N ++ B ++ L ++ g ++ m, ?_, ?_, ⟨w.gearKeys, hk1, ?_⟩, ⟨w.materialNames, hk2, ?_⟩, ?_⟩
  · unfold manager
    dsimp only
    rw [hg1, Res.bind_ok, hm1, Res.bind_ok, hN, hB, hL]
    rfl
  · intro s p
    have hslot : w.slot s = (Mgr.lastSet s h).getD none := (Mgr.inv_run h hr).slot s
    simp only [List.count_append]
    rw [count_none (fun y hy => (nall y hy).2.2.2) rfl, count_none (fun y hy => (gall y hy).2.2.2) rfl,
      count_none (fun y hy => (mall y hy).2.2.2) rfl, cB, hL, cL, ← hslot]
    by_cases h1 : w.slot s = some p
    · simp only [h1, true_and, if_true]
      cases s <;> decide
    · simp [h1]
  · simp only [List.filter_append]
    rw [filter_none (fun x hx => (nall x hx).1), filter_none (fun x hx => (ball x hx).1),
      filter_none (fun x hx => (lall x hx).1), filter_all (fun x hx => (gall x hx).1),
      filter_none (fun x hx => (mall x hx).1), List.append_nil, List.nil_append]
    refine hg2.imp ?_
    rintro k a ⟨v, hv, ha⟩
    exact ⟨v, hexp (by rw [← Mgr.getGear_run hr]; exact hv), ha⟩
  · simp only [List.filter_append]
    rw [filter_none (fun x hx => (nall x hx).2.1), filter_none (fun x hx => (ball x hx).2.1),
      filter_none (fun x hx => (lall x hx).2.1), filter_none (fun x hx => (gall x hx).2.1),
      filter_all (fun x hx => (mall x hx).2.1), List.nil_append]
    refine hm2.imp ?_
    rintro k a ⟨v, hv, ha⟩
    exact ⟨v, hexp (by rw [← Mgr.getMaterial_run hr]; exact hv), ha⟩
  · simp only [List.filter_append]
    rw [filter_all (fun x hx => (nall x hx).2.2.1), filter_none (fun x hx => (ball x hx).2.2),
      filter_none (fun x hx => (lall x hx).2.2), filter_none (fun x hx => (gall x hx).2.2.1),
      filter_none (fun x hx => (mall x hx).2.2.1)]
    simpa using hN'

/-- C119 is false for the silicon trackers: a manager with only an inner silicon tracker shows it twice. -/
theorem manager_false (obj : Ptr → Params D) (mn : Ptr → String) (late : Bool) :
    ∃ (w : Mgr D) (items : List Item), Mgr.run (Mgr.init obj mn) [.setSection .sit (some 1)] = some w ∧
      manager late w = .ok items ∧ items.count (.object .sit 1) = 2 := by
  obtain ⟨w, hw⟩ := Mgr.run_defined obj mn [.setSection .sit (some 1)] ⟨by
      intro s hs hm; simp at hm, by simp⟩ (by simp [Mgr.handed])
  obtain ⟨items, h1, h2, -⟩ := manager_partial hw late
  refine ⟨w, items, hw, h1, ?_⟩
  rw [h2 .sit 1]
  simp [Mgr.lastSet, times]

example (obj : Ptr → Params D) (late : Bool) :
    ∃ w items, Mgr.run (Mgr.init obj (fun _ => "Si")) Mgr.demo = some w ∧ manager late w = .ok items ∧
      items.count (.object .ecalBarrel 6) = 1 ∧ items.count (.object .ecalBarrel 2) = 0 := by
  obtain ⟨w, hw⟩ := Mgr.run_defined obj (fun _ => "Si") Mgr.demo Mgr.demo_ok.1 Mgr.demo_ok.2
  obtain ⟨items, h1, h2, -⟩ := manager_partial hw late
  refine ⟨w, items, hw, h1, ?_, ?_⟩
  · rw [h2]; simp [Mgr.demo, Mgr.lastSet, times]
  · rw [h2]; simp [Mgr.demo, Mgr.lastSet]

end Mgr

end Gear.Print
