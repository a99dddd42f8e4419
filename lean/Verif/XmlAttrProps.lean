import Verif.XmlAttrLemmas
set_option autoImplicit false
set_option linter.unusedSectionVars false
/-!
Properties C124 and C125: the attributes of XML elements in memory are the lists that the calls so far have made.
-/
namespace Gear.Xml.Attr

open Dom (Ptr)
open Dom.Spec (Visits)
open Spec

/-! ### All elements -/

/-- The rings of elements. -/
def elemCells : List Element → Multiset (Ptr × Cell)
  | [] => 0
  | e :: es => ring e.ptr e.attrs + elemCells es

theorem elemCells_append (as bs : List Element) : elemCells (as ++ bs) = elemCells as + elemCells bs := by
  induction as with
  | nil => simp [elemCells]
  | cons a as ih => simp only [List.cons_append, elemCells, ih]; abel

/-- The objects of elements. -/
def objects (es : List Element) : List Ptr := es.flatMap fun e => e.ptr :: e.attrs.map Item.ptr

theorem keys_elem (es : List Element) : (elemCells es).map Prod.fst = (objects es : List Ptr) := by
  induction es with
  | nil => rfl
  | cons e es ih =>
    rw [elemCells, Multiset.map_add, keys_ring, ih, objects, objects, List.flatMap_cons, Multiset.coe_add]

/-- The memory has the elements with their attributes. -/
def Holds (h : Heap) (F : State) : Prop := Is h (elemCells F.elements) ∧ h.fresh = F.made

theorem Holds.nodup {h : Heap} {F : State} (H : Holds h F) : (objects F.elements).Nodup := by
  have := H.1.nodup
  rwa [keys_elem, Multiset.coe_nodup] at this

theorem ne_of_nodup {as bs : List Element} {e : Element} (hn : (objects (as ++ e :: bs)).Nodup) :
    ∀ f, f ∈ as ∨ f ∈ bs → f.ptr ≠ e.ptr := by
  intro f hf he
  rw [objects, List.flatMap_append, List.flatMap_cons, List.nodup_append] at hn
  obtain ⟨h1, h2, h3⟩ := hn
  rcases hf with hf | hf
  · exact h3 f.ptr (List.mem_flatMap.2 ⟨f, hf, by simp⟩) e.ptr (by simp) he
  · rw [List.nodup_append] at h2
    exact h2.2.2 e.ptr (by simp) f.ptr (List.mem_flatMap.2 ⟨f, hf, by simp⟩) he.symm

theorem find_split {h : Heap} {F : State} (H : Holds h F) {s : Ptr} {e : Element} (hf : F.find s = some e) :
    e.ptr = s ∧ ∃ as bs, F.elements = as ++ e :: bs ∧ (∀ f, f ∈ as ∨ f ∈ bs → f.ptr ≠ s) := by
  have hp : e.ptr = s := by simpa using List.find?_some hf
  obtain ⟨as, bs, hs⟩ := List.append_of_mem (List.mem_of_find?_eq_some hf)
  refine ⟨hp, as, bs, hs, ?_⟩
  have := H.nodup
  rw [hs] at this
  rw [← hp]
  exact ne_of_nodup this

theorem put_split {as bs : List Element} {e : Element} (hn : ∀ f, f ∈ as ∨ f ∈ bs → f.ptr ≠ e.ptr) (xs : List Item) :
    (as ++ e :: bs).map (fun f => if f.ptr = e.ptr then { f with attrs := xs } else f) = as ++ { e with attrs := xs } :: bs := by
  rw [List.map_append, List.map_cons, if_pos rfl]
  congr 1
  · conv_rhs => rw [← List.map_id as]
    exact List.map_congr_left fun f hf => by simp [hn f (Or.inl hf)]
  · congr 1
    conv_rhs => rw [← List.map_id bs]
    exact List.map_congr_left fun f hf => by simp [hn f (Or.inr hf)]

theorem same {h h' : Heap} {M : Multiset (Ptr × Cell)} (H : Is h M) (H' : Is h' M) (hf : h.fresh = h'.fresh) : h = h' := by
  obtain ⟨c, f⟩ := h
  obtain ⟨c', f'⟩ := h'
  have : c = c' := by
    funext x
    cases hx : c' x with
    | some d => exact (H.cells x d).2 ((H'.cells x d).1 hx)
    | none =>
      cases hy : c x with
      | none => rfl
      | some d =>
        have : c' x = some d := (H'.cells x d).2 ((H.cells x d).1 hy)
        rw [hx] at this
        cases this
  subst this
  exact congrArg _ hf

/-- An action whose result does not depend on the bound for the number of steps. -/
theorem settle (act : ℕ → Run Heap) (k m : ℕ) (M : Multiset (Ptr × Cell))
    (ha : ∀ n > k, ∃ h', act n = .ok h' ∧ h'.fresh = m ∧ Is h' M) :
    ∃ h', (∃ n₀, ∀ n ≥ n₀, act n = .ok h') ∧ h'.fresh = m ∧ Is h' M := by
  obtain ⟨h', _, f1, H1⟩ := ha (k + 1) (by omega)
  refine ⟨h', ⟨k + 1, fun n hn => ?_⟩, f1, H1⟩
  obtain ⟨h'', e2, f2, H2⟩ := ha n (by omega)
  rw [e2, same H2 H1 (f2.trans f1.symm)]

/-- What is done to one element. -/
theorem one {h : Heap} {F : State} (H : Holds h F) {s : Ptr} {e : Element} (hf : F.find s = some e) (act : ℕ → Run Heap)
    (r : List Item × ℕ) (k : ℕ)
    (ha : ∀ R, Is h (R + ring s e.attrs) → ∀ n > k, ∃ h', act n = .ok h' ∧ h'.fresh = r.2 ∧ Is h' (R + ring s r.1)) :
    ∃ h', (∃ n₀, ∀ n ≥ n₀, act n = .ok h') ∧ Holds h' (F.put s r) := by
  obtain ⟨hp, as, bs, hs, hn⟩ := find_split H hf
  subst hp
  obtain ⟨h', e1, f1, H1⟩ := settle act k r.2 _
    (ha (elemCells as + elemCells bs) (H.1.of_eq (by rw [hs, elemCells_append, elemCells]; abel)))
  refine ⟨h', e1, H1.of_eq ?_, f1⟩
  rw [State.put, hs, put_split hn, elemCells_append, elemCells]
  abel

theorem change_split {xs : List Item} {a : Ptr} (ha : a ∈ xs.map Item.ptr) (hn : (xs.map Item.ptr).Nodup) (f : Item → Item) :
    ∃ as x bs, xs = as ++ x :: bs ∧ x.ptr = a ∧ change a f xs = as ++ f x :: bs := by
  obtain ⟨x, hx, rfl⟩ := List.mem_map.1 ha
  obtain ⟨as, bs, rfl⟩ := List.append_of_mem hx
  refine ⟨as, x, bs, rfl, rfl, ?_⟩
  rw [List.map_append, List.map_cons, List.nodup_append] at hn
  rw [change, List.map_append, List.map_cons, if_pos rfl]
  congr 1
  · conv_rhs => rw [← List.map_id as]
    refine List.map_congr_left fun y hy => ?_
    have : y.ptr ≠ x.ptr := hn.2.2 y.ptr (List.mem_map_of_mem hy) x.ptr (by simp)
    simp [this]
  · congr 1
    conv_rhs => rw [← List.map_id bs]
    refine List.map_congr_left fun y hy => ?_
    have : y.ptr ≠ x.ptr := by
      intro e
      have := (List.nodup_cons.1 hn.2.1).1
      rw [← e] at this
      exact this (List.mem_map_of_mem hy)
    simp [this]

theorem filter_split {as bs : List Element} {e : Element} (hn : ∀ f, f ∈ as ∨ f ∈ bs → f.ptr ≠ e.ptr) :
    (as ++ e :: bs).filter (fun f => f.ptr ≠ e.ptr) = as ++ bs := by
  rw [List.filter_append, List.filter_cons_of_neg (by simp)]
  rw [List.filter_eq_self.2 fun f hf => by simpa using hn f (Or.inl hf), List.filter_eq_self.2 fun f hf => by simpa using hn f (Or.inr hf)]

theorem lift {h' : Heap} {F' : State} {act : ℕ → Run Heap} {r : Option Ptr} (H : (∃ n₀, ∀ n ≥ n₀, act n = .ok h') ∧ Holds h' F') :
    ∃ h', (∃ n₀, ∀ n ≥ n₀, (do let h ← act n; (.ok (h, r) : Run (Heap × Option Ptr))) = .ok (h', r)) ∧ Holds h' F' := by
  obtain ⟨⟨n₀, e⟩, H'⟩ := H
  exact ⟨h', ⟨n₀, fun n hn => by rw [e n hn, Run.bind_ok]⟩, H'⟩

theorem step_holds {h : Heap} {F F' : State} {o : Op} {r : Option Ptr} (H : Holds h F) (hs : F.step o = some (F', r)) :
    ∃ h', (∃ n₀, ∀ n ≥ n₀, step n h o = .ok (h', r)) ∧ Holds h' F' := by
  cases o with
  | make =>
    obtain ⟨rfl, rfl⟩ : _ = F' ∧ _ = r := by simpa [State.step] using hs
    obtain ⟨h', e, f, H'⟩ := make_is H.1
    refine ⟨h', ⟨0, fun n _ => ?_⟩, H'.of_eq (by rw [elemCells, H.2]; abel), by rw [f, H.2]⟩
    rw [step, e, Run.bind_ok, H.2]
  | setAttribute s name value =>
    obtain ⟨e, hf, he⟩ := Option.map_eq_some_iff.1 hs
    obtain ⟨rfl, rfl⟩ : _ = F' ∧ _ = r := by simpa using he
    obtain ⟨h', H'⟩ := one H hf (fun n => setAttribute n h s name value) (assign F.made name value e.attrs) e.attrs.length
      (fun R HR => by rw [← H.2]; exact setAttribute_is name value HR)
    exact lift H'
  | removeAttribute s name =>
    obtain ⟨e, hf, he⟩ := Option.map_eq_some_iff.1 hs
    obtain ⟨rfl, rfl⟩ : _ = F' ∧ _ = r := by simpa using he
    obtain ⟨h', H'⟩ := one H hf (fun n => removeAttribute n h s name) (erase name e.attrs, F.made) e.attrs.length
      (fun R HR => by rw [← H.2]; exact removeAttribute_is name HR)
    exact lift H'
  | setName s a name =>
    obtain ⟨e, hf, he⟩ := Option.bind_eq_some_iff.1 hs
    by_cases ha : a ∈ e.attrs.map Item.ptr
    · rw [if_pos ha] at he
      obtain ⟨rfl, rfl⟩ : _ = F' ∧ _ = r := by simpa using he
      obtain ⟨h', H'⟩ := one H hf (fun _ => h.upd a fun c => { c with name := name })
        (change a (fun x => { x with name := name }) e.attrs, F.made) 0
        (fun R HR n _ => by
          obtain ⟨as, x, bs, h1, h2, h3⟩ := change_split ha (sentinel_not HR).2 (fun x => { x with name := name })
          rw [h3, ← H.2, ← h2]
          rw [h1] at HR
          exact item_upd as bs x { x with name := name } _ rfl (fun _ _ => rfl) HR)
      exact lift H'
    · rw [if_neg ha] at he; cases he
  | setValue s a value =>
    obtain ⟨e, hf, he⟩ := Option.bind_eq_some_iff.1 hs
    by_cases ha : a ∈ e.attrs.map Item.ptr
    · rw [if_pos ha] at he
      obtain ⟨rfl, rfl⟩ : _ = F' ∧ _ = r := by simpa using he
      obtain ⟨h', H'⟩ := one H hf (fun _ => h.upd a fun c => { c with value := value })
        (change a (fun x => { x with value := value }) e.attrs, F.made) 0
        (fun R HR n _ => by
          obtain ⟨as, x, bs, h1, h2, h3⟩ := change_split ha (sentinel_not HR).2 (fun x => { x with value := value })
          rw [h3, ← H.2, ← h2]
          rw [h1] at HR
          exact item_upd as bs x { x with value := value } _ rfl (fun _ _ => rfl) HR)
      exact lift H'
    · rw [if_neg ha] at he; cases he
  | clear s =>
    obtain ⟨e, hf, he⟩ := Option.map_eq_some_iff.1 hs
    obtain ⟨rfl, rfl⟩ : _ = F' ∧ _ = r := by simpa using he
    obtain ⟨h', H'⟩ := one H hf (fun n => clear n h s) ([], F.made) (e.attrs.length + 1)
      (fun R HR => by rw [← H.2]; exact clear_is HR)
    exact lift H'
  | copyTo s t =>
    obtain ⟨e, hf, he⟩ := Option.bind_eq_some_iff.1 hs
    obtain ⟨f, hg, he⟩ := Option.bind_eq_some_iff.1 he
    by_cases hst : s = t
    · rw [if_pos hst] at he; cases he
    · rw [if_neg hst] at he
      obtain ⟨rfl, rfl⟩ : _ = F' ∧ _ = r := by simpa using he
      obtain ⟨hp, as, bs, hs1, hn⟩ := find_split H hg
      obtain ⟨hp', _⟩ := find_split H hf
      have hm : e ∈ as ++ bs := by
        have := List.mem_of_find?_eq_some hf
        rw [hs1] at this
        simp only [List.mem_append, List.mem_cons] at this ⊢
        rcases this with h1 | h1 | h1
        · exact Or.inl h1
        · subst h1; exact absurd (hp'.symm.trans hp) hst
        · exact Or.inr h1
      obtain ⟨cs, ds, hcd⟩ := List.append_of_mem hm
      have hcells : elemCells as + elemCells bs = elemCells cs + elemCells ds + ring s e.attrs := by
        rw [← elemCells_append, hcd, elemCells_append, elemCells, hp']; abel
      subst hp
      obtain ⟨h', e1, f1, H1⟩ := settle (fun n => copyTo n h s f.ptr) _ _ _
        (copyTo_is (R := elemCells cs + elemCells ds) (t := f.ptr) e.attrs f.attrs (H.1.of_eq (by
          rw [hs1, elemCells_append, elemCells, ← hcells]; abel)))
      rw [H.2] at f1 H1
      refine lift (h' := h') ⟨e1, H1.of_eq ?_, f1⟩
      rw [State.put, hs1, put_split hn, elemCells_append, elemCells, ← hcells]
      abel
  | delete s =>
    obtain ⟨e, hf, he⟩ := Option.map_eq_some_iff.1 hs
    obtain ⟨rfl, rfl⟩ : _ = F' ∧ _ = r := by exact ⟨congrArg Prod.fst (Option.some.inj (congrArg some he)), congrArg Prod.snd (Option.some.inj (congrArg some he))⟩
    obtain ⟨hp, as, bs, hs1, hn⟩ := find_split H hf
    subst hp
    obtain ⟨h', e1, f1, H1⟩ := settle (fun n => destroy n h e.ptr) _ _ _
      (destroy_is (R := elemCells as + elemCells bs) (xs := e.attrs) (H.1.of_eq (by rw [hs1, elemCells_append, elemCells]; abel)))
    refine lift (h' := h') ⟨e1, H1.of_eq ?_, f1.trans H.2⟩
    rw [hs1, filter_split hn, elemCells_append]

theorem run_holds (os : List Op) {h : Heap} {F F' : State} {rs : List (Option Ptr)} (H : Holds h F) (hs : F.run os = some (F', rs)) :
    ∃ h', (∃ n₀, ∀ n ≥ n₀, run n h os = .ok (h', rs)) ∧ Holds h' F' := by
  induction os generalizing h F rs with
  | nil =>
    obtain ⟨rfl, rfl⟩ : F = F' ∧ [] = rs := by simpa [State.run] using hs
    exact ⟨h, ⟨0, fun n _ => rfl⟩, H⟩
  | cons o os ih =>
    obtain ⟨⟨F1, r⟩, h1, hs⟩ := Option.bind_eq_some_iff.1 hs
    obtain ⟨⟨F2, q⟩, h2, hs⟩ := Option.bind_eq_some_iff.1 hs
    obtain ⟨rfl, rfl⟩ : F2 = F' ∧ r :: q = rs := by simpa using hs
    obtain ⟨h', ⟨n1, e1⟩, H1⟩ := step_holds H h1
    obtain ⟨h'', ⟨n2, e2⟩, H2⟩ := ih H1 h2
    refine ⟨h'', ⟨max n1 n2, fun n hn => ?_⟩, H2⟩
    rw [run, e1 n (le_trans (le_max_left _ _) hn), Run.bind_ok, e2 n (le_trans (le_max_right _ _) hn), Run.bind_ok]

theorem empty_holds : Holds Heap.empty ⟨[], 0⟩ :=
  ⟨⟨by simp [elemCells], by intro x c; simp [elemCells, Heap.empty], by simp [elemCells]⟩, rfl⟩

/-- The ring of one element. -/
theorem Holds.ring {h : Heap} {F : State} (H : Holds h F) {e : Element} (he : e ∈ F.elements) :
    ∃ R, Is h (R + ring e.ptr e.attrs) := by
  obtain ⟨as, bs, hs⟩ := List.append_of_mem he
  exact ⟨elemCells as + elemCells bs, H.1.of_eq (by rw [hs, elemCells_append, elemCells]; abel)⟩

/-! ### Walking -/

theorem visits_next {h : Heap} {R : Multiset (Ptr × Cell)} {s : Ptr} (xs : List Item) (H : Is h (R + Attr.ring s xs)) (as : List Item) (x : Item)
    (bs : List Item) (hx : xs = as ++ x :: bs) :
    Visits (next h) (next h x.ptr) ((bs.takeWhile fun y => ¬ (y.value = [] ∧ y.name = [])).map Item.ptr) := by
  induction bs generalizing as x with
  | nil =>
    subst hx
    exact next_is as [] x H
  | cons y bs ih =>
    have hn := next_is as (y :: bs) x (H.of_eq (by rw [hx]))
    by_cases hy : y.value = [] ∧ y.name = []
    · rw [List.takeWhile_cons_of_neg (by simpa using hy)]
      rw [hn]
      simp [Visits, Option.filter, hy]
    · rw [List.takeWhile_cons_of_pos (p := fun y : Item => decide (¬ (y.value = [] ∧ y.name = []))) (decide_eq_true hy), List.map_cons]
      refine ⟨?_, ih (as ++ [x]) y (by rw [hx]; simp)⟩
      rw [hn, List.head?_cons, Option.filter, if_pos (decide_eq_true hy)]
      rfl

theorem visits_prev {h : Heap} {R : Multiset (Ptr × Cell)} {s : Ptr} (xs : List Item) (H : Is h (R + Attr.ring s xs)) (as : List Item) (x : Item)
    (bs : List Item) (hx : xs = as.reverse ++ x :: bs) :
    Visits (previous h) (previous h x.ptr) ((as.takeWhile fun y => ¬ (y.value = [] ∧ y.name = [])).map Item.ptr) := by
  induction as generalizing bs x with
  | nil =>
    subst hx
    exact previous_is [] bs x H
  | cons y as ih =>
    have hn := previous_is (y :: as).reverse bs x (H.of_eq (by rw [hx]))
    rw [List.reverse_cons, List.getLast?_append, List.getLast?_singleton, Option.some_or] at hn
    by_cases hy : y.value = [] ∧ y.name = []
    · rw [List.takeWhile_cons_of_neg (by simpa using hy)]
      rw [hn]
      simp [Visits, Option.filter, hy]
    · rw [List.takeWhile_cons_of_pos (p := fun y : Item => decide (¬ (y.value = [] ∧ y.name = []))) (decide_eq_true hy), List.map_cons]
      refine ⟨?_, ih y (x :: bs) (by rw [hx]; simp)⟩
      rw [hn, Option.filter, if_pos (decide_eq_true hy)]
      rfl

theorem value_of {h : Heap} {R : Multiset (Ptr × Cell)} {s : Ptr} {xs : List Item} (H : Is h (R + Attr.ring s xs)) (name : Text) :
    ∀ n > xs.length, valueOf n h s name = .ok (attrValue (plain xs) name) := by
  intro n hn
  have hv : ∀ ys : List Item, attrValue (plain ys) name = (ys.find? fun x => x.name = name).map Item.value := by
    intro ys
    induction ys with
    | nil => rfl
    | cons y ys ih =>
      rw [plain, List.map_cons, attrValue, List.find?_cons]
      by_cases hy : y.name = name
      · simp [hy]
      · simp only [hy, if_false, decide_false]; exact ih
  rw [valueOf, find_spec name H n hn, Run.bind_ok, hv]
  cases hf : xs.find? fun x => x.name = name with
  | none => rfl
  | some x =>
    obtain ⟨as, bs, hs⟩ := List.append_of_mem (List.mem_of_find?_eq_some hf)
    rw [hs] at H
    simp only [Option.map_some]
    rw [item_cell as bs x H, Run.bind_ok]

/-! ### C124 -/

/-- For every sequence of allowed calls: none of them fails, and afterwards the value of an attribute of an element is the one that was
last given to the first attribute of this name; going through the attributes from the first to the last and from the last to the
first one finds those that were set, in the order in which they were first set, up to one without name and value; and their names and
values are as set. -/
theorem attr_history_partial (os : List Op) (F : State) (rs : List (Option Ptr)) (hF : (⟨[], 0⟩ : State).run os = some (F, rs)) :
    ∃ h, (∃ n₀, ∀ n ≥ n₀, run n Heap.empty os = .ok (h, rs)) ∧ ∀ e ∈ F.elements,
      (∀ name, ∃ n₀, ∀ n ≥ n₀, valueOf n h e.ptr name = .ok (attrValue (plain e.attrs) name)) ∧
      (∀ x ∈ e.attrs, ∃ c, h.get x.ptr = .ok c ∧ c.name = x.name ∧ c.value = x.value) ∧
      Visits (next h) (first h e.ptr) ((walked e.attrs).map Item.ptr) ∧
      Visits (previous h) (last h e.ptr) ((walked e.attrs.reverse).map Item.ptr) := by
  obtain ⟨h, e0, H⟩ := run_holds os empty_holds hF
  refine ⟨h, e0, fun e he => ?_⟩
  obtain ⟨R, HR⟩ := H.ring he
  refine ⟨fun name => ⟨e.attrs.length + 1, fun n hn => value_of HR name n (by omega)⟩, ?_, ?_, ?_⟩
  · intro x hx
    obtain ⟨as, bs, hs⟩ := List.append_of_mem hx
    rw [hs] at HR
    exact ⟨_, item_cell as bs x HR, rfl, rfl⟩
  · rw [first_is HR]
    cases hx : e.attrs with
    | nil => rfl
    | cons x xs => exact ⟨rfl, visits_next e.attrs HR [] x xs hx⟩
  · rw [last_is HR]
    rcases List.eq_nil_or_concat e.attrs with hx | ⟨xs, x, hx⟩
    · rw [hx]; rfl
    · rw [List.concat_eq_append] at hx
      rw [hx, List.reverse_append, List.reverse_singleton, List.singleton_append, List.getLast?_append, List.getLast?_singleton,
        Option.some_or]
      exact ⟨rfl, visits_prev e.attrs HR xs.reverse x [] (by rw [hx, List.reverse_reverse])⟩

/-- Unless an attribute after the first is without name and value, all are found. -/
theorem walked_all (xs : List Item) (hx : ∀ x ∈ xs, ¬ (x.value = [] ∧ x.name = [])) : walked xs = xs := by
  cases xs with
  | nil => rfl
  | cons x xs =>
    have : ∀ ys : List Item, (∀ y ∈ ys, ¬ (y.value = [] ∧ y.name = [])) →
        ys.takeWhile (fun y => ¬ (y.value = [] ∧ y.name = [])) = ys := by
      intro ys
      induction ys with
      | nil => intro _; rfl
      | cons y ys ih =>
        intro h
        rw [List.takeWhile_cons_of_pos (p := fun y : Item => decide (¬ (y.value = [] ∧ y.name = []))) (decide_eq_true (h y List.mem_cons_self)), ih fun z hz => h z (List.mem_cons_of_mem _ hz)]
    rw [walked, this xs fun y hy => hx y (List.mem_cons_of_mem _ hy)]

/-- Two attributes, the first changed afterwards, and a copy of them. -/
def sample : List Op :=
  [.make, .setAttribute 0 ['a'] ['1'], .setAttribute 0 ['b'] ['2'], .setAttribute 0 ['a'] ['3'], .make, .copyTo 0 3]

example : ∃ F rs, (⟨[], 0⟩ : State).run sample = some (F, rs) ∧
    F.elements.map (fun e => (e.ptr, plain e.attrs)) = [(3, [(['a'], ['3']), (['b'], ['2'])]), (0, [(['a'], ['3']), (['b'], ['2'])])] := by
  refine ⟨_, _, rfl, ?_⟩; decide

/-- An attribute without name and value hides those set after it from the walk, from printing and from copies, although they have
their values. -/
theorem attr_history_false :
    (run 20 Heap.empty [.make, .setAttribute 0 ['a'] ['1'], .setAttribute 0 [] [], .setAttribute 0 ['b'] ['2'], .make, .copyTo 0 4] >>=
      fun r => do
        let v ← valueOf 20 r.1 0 ['b']
        let w ← next r.1 1
        let u ← valueOf 20 r.1 4 ['b']
        .ok (v, w, u)) = .ok (some ['2'], none, none) := by
  decide

/-! ### C125 -/

/-- The memory has exactly the attributes (and sentinels) of the elements: what is removed, cleared or deleted with its element is
released, once, and nothing else is. -/
theorem attr_memory (os : List Op) (F : State) (rs : List (Option Ptr)) (hF : (⟨[], 0⟩ : State).run os = some (F, rs)) :
    ∃ h, (∃ n₀, ∀ n ≥ n₀, run n Heap.empty os = .ok (h, rs)) ∧
      (∀ x, (h.cell x).isSome ↔ ∃ e ∈ F.elements, x = e.ptr ∨ ∃ a ∈ e.attrs, x = a.ptr) ∧ (objects F.elements).Nodup := by
  obtain ⟨h, e, H⟩ := run_holds os empty_holds hF
  refine ⟨h, e, ?_, H.nodup⟩
  intro x
  have hk : x ∈ (elemCells F.elements).map Prod.fst ↔ ∃ e ∈ F.elements, x = e.ptr ∨ ∃ a ∈ e.attrs, x = a.ptr := by
    rw [keys_elem, Multiset.mem_coe, objects, List.mem_flatMap]
    simp only [List.mem_cons, List.mem_map, eq_comm]
  rw [← hk, Option.isSome_iff_exists, Multiset.mem_map]
  constructor
  · rintro ⟨c, hc⟩
    exact ⟨(x, c), (H.1.cells x c).1 hc, rfl⟩
  · rintro ⟨⟨y, c⟩, hc, rfl⟩
    exact ⟨c, (H.1.cells y c).2 hc⟩

/-- As long as no attribute is renamed, the names of the attributes of an element are different from each other. -/
theorem attr_unique_partial (os : List Op) (F : State) (rs : List (Option Ptr)) (hF : (⟨[], 0⟩ : State).run os = some (F, rs))
    (hr : ∀ s a n, Op.setName s a n ∉ os) : ∀ e ∈ F.elements, (e.attrs.map Item.name).Nodup := by
  have names_assign : ∀ (m : ℕ) (n v : Text) (xs : List Item), (xs.map Item.name).Nodup → ((assign m n v xs).1.map Item.name).Nodup := by
    intro m n v xs hx
    rcases set_split m n v xs with ⟨h1, h2⟩ | ⟨as, x, bs, h1, h2, h3⟩
    · rw [h2, List.map_append, List.nodup_append]
      refine ⟨hx, by simp, ?_⟩
      intro a ha b hb e
      simp only [List.map_cons, List.map_nil, List.mem_singleton] at hb
      obtain ⟨y, hy, rfl⟩ := List.mem_map.1 ha
      exact (List.find?_eq_none.1 h1 y hy) (by simp [e, hb])
    · rw [h3]; rw [h1] at hx; simpa using hx
  have names_all : ∀ (ys : List Item) (m : ℕ) (xs : List Item), (xs.map Item.name).Nodup → ((setAll m xs ys).1.map Item.name).Nodup := by
    intro ys
    induction ys with
    | nil => intro m xs hx; exact hx
    | cons y ys ih => intro m xs hx; exact ih _ _ (names_assign m y.name y.value xs hx)
  have put : ∀ (G : State) (s : Ptr) (r : List Item × ℕ), (∀ e ∈ G.elements, (e.attrs.map Item.name).Nodup) →
      (r.1.map Item.name).Nodup → ∀ e ∈ (G.put s r).elements, (e.attrs.map Item.name).Nodup := by
    intro G s r hG hr e he
    obtain ⟨f, hf, rfl⟩ := List.mem_map.1 he
    split_ifs
    · exact hr
    · exact hG f hf
  have one : ∀ (G G' : State) (o : Op) (r : Option Ptr), (∀ s a n, o ≠ Op.setName s a n) → G.step o = some (G', r) →
      (∀ e ∈ G.elements, (e.attrs.map Item.name).Nodup) → ∀ e ∈ G'.elements, (e.attrs.map Item.name).Nodup := by
    intro G G' o r ho hs hG
    cases o with
    | make =>
      obtain ⟨rfl, rfl⟩ : _ = G' ∧ _ = r := by simpa [State.step] using hs
      intro e he
      rcases List.mem_cons.1 he with rfl | he
      · exact List.nodup_nil
      · exact hG e he
    | setAttribute s name value =>
      obtain ⟨e, hf, he⟩ := Option.map_eq_some_iff.1 hs
      obtain ⟨rfl, rfl⟩ : _ = G' ∧ _ = r := by simpa using he
      exact put G s _ hG (names_assign _ _ _ _ (hG e (List.mem_of_find?_eq_some hf)))
    | removeAttribute s name =>
      obtain ⟨e, hf, he⟩ := Option.map_eq_some_iff.1 hs
      obtain ⟨rfl, rfl⟩ : _ = G' ∧ _ = r := by simpa using he
      exact put G s _ hG ((hG e (List.mem_of_find?_eq_some hf)).sublist (List.Sublist.map _ (List.eraseP_sublist)))
    | setName s a name => exact absurd rfl (ho s a name)
    | setValue s a value =>
      obtain ⟨e, hf, he⟩ := Option.bind_eq_some_iff.1 hs
      by_cases ha : a ∈ e.attrs.map Item.ptr
      · rw [if_pos ha] at he
        obtain ⟨rfl, rfl⟩ : _ = G' ∧ _ = r := by simpa using he
        refine put G s _ hG ?_
        have : (change a (fun x => { x with value := value }) e.attrs).map Item.name = e.attrs.map Item.name := by
          rw [change, List.map_map]
          refine List.map_congr_left fun y _ => ?_
          simp only [Function.comp]
          split_ifs <;> rfl
        show ((change a (fun x => { x with value := value }) e.attrs).map Item.name).Nodup
        rw [this]
        exact hG e (List.mem_of_find?_eq_some hf)
      · rw [if_neg ha] at he; cases he
    | clear s =>
      obtain ⟨e, hf, he⟩ := Option.map_eq_some_iff.1 hs
      obtain ⟨rfl, rfl⟩ : _ = G' ∧ _ = r := by simpa using he
      exact put G s _ hG List.nodup_nil
    | copyTo s t =>
      obtain ⟨e, hf, he⟩ := Option.bind_eq_some_iff.1 hs
      obtain ⟨f, hg, he⟩ := Option.bind_eq_some_iff.1 he
      by_cases hst : s = t
      · rw [if_pos hst] at he; cases he
      · rw [if_neg hst] at he
        obtain ⟨rfl, rfl⟩ : _ = G' ∧ _ = r := by simpa using he
        exact put G t _ hG (names_all _ _ _ (hG f (List.mem_of_find?_eq_some hg)))
    | delete s =>
      obtain ⟨e, hf, he⟩ := Option.map_eq_some_iff.1 hs
      obtain ⟨rfl, rfl⟩ : _ = G' ∧ _ = r := by simpa using he
      exact fun e he => hG e (List.mem_filter.1 he).1
  have all : ∀ (os : List Op) (G : State) (rs : List (Option Ptr)), (∀ s a n, Op.setName s a n ∉ os) → G.run os = some (F, rs) →
      (∀ e ∈ G.elements, (e.attrs.map Item.name).Nodup) → ∀ e ∈ F.elements, (e.attrs.map Item.name).Nodup := by
    intro os
    induction os with
    | nil =>
      intro G rs _ hs hG
      obtain ⟨rfl, rfl⟩ : G = F ∧ [] = rs := by simpa [State.run] using hs
      exact hG
    | cons o os ih =>
      intro G rs ho hs hG
      obtain ⟨⟨F1, r⟩, h1, hs⟩ := Option.bind_eq_some_iff.1 hs
      obtain ⟨⟨F2, q⟩, h2, hs⟩ := Option.bind_eq_some_iff.1 hs
      obtain ⟨rfl, rfl⟩ : F2 = F ∧ r :: q = rs := by simpa using hs
      refine ih F1 q (fun s a n hm => ho s a n (List.mem_cons_of_mem _ hm)) h2 ?_
      exact one G F1 o r (fun s a n e => ho s a n (by rw [e]; exact List.mem_cons_self)) h1 hG
  exact all os _ rs hr hF (fun e he => by cases he)

example : ∀ s a n, Op.setName s a n ∉ sample := by simp [sample]

/-- Renaming gives two attributes the same name; the second has no way to be asked for by name. -/
theorem attr_unique_false :
    (run 20 Heap.empty [.make, .setAttribute 0 ['a'] ['1'], .setAttribute 0 ['b'] ['2'], .setName 0 2 ['a']] >>= fun r => do
        let v ← valueOf 20 r.1 0 ['a']
        let c ← r.1.get 1
        let d ← r.1.get 2
        .ok (v, c.name, d.name)) = .ok (some ['1'], ['a'], ['a']) := by
  decide

/-- A copy into a new element has the same attributes in the same order, if their names differ and none is without name and value. -/
theorem attr_copy_partial (m : ℕ) (xs : List Item) (hn : (xs.map Item.name).Nodup) (hb : ∀ x ∈ xs, ¬ (x.value = [] ∧ x.name = [])) :
    plain (setAll m [] (walked xs)).1 = plain xs := by
  rw [walked_all xs hb]
  have main : ∀ (ys : List Item) (m : ℕ) (zs : List Item), ((zs ++ ys).map Item.name).Nodup →
      plain (setAll m zs ys).1 = plain zs ++ plain ys := by
    intro ys
    induction ys with
    | nil => intro m zs _; simp [setAll, plain]
    | cons y ys ih =>
      intro m zs hz
      have hno : zs.find? (fun x => x.name = y.name) = none := by
        rw [List.find?_eq_none]
        intro x hx
        rw [List.map_append, List.map_cons, List.nodup_append] at hz
        simpa using hz.2.2 x.name (List.mem_map_of_mem hx) y.name (by simp)
      rcases set_split m y.name y.value zs with ⟨h1, h2⟩ | ⟨as, x, bs, h1, h2, h3⟩
      · rw [setAll, h2, ih]
        · simp [plain]
        · simpa using hz
      · rw [hno] at h2; cases h2
  simpa [plain] using main xs m [] (by simpa using hn)

example : ((⟨1, ['a'], []⟩ : Item) :: [⟨2, ['b'], ['2']⟩]).map Item.name = [['a'], ['b']] := rfl

/-- The lists are those of the model of documents (Xml.lean): setting an attribute, and what is printed. -/
theorem attr_lists (m : ℕ) (name value : Text) (xs : List Item) :
    plain (assign m name value xs).1 = Gear.Xml.setAttribute (plain xs) name value ∧ plain (walked xs) = visible (plain xs) := by
  constructor
  · induction xs with
    | nil => rfl
    | cons x xs ih =>
      have e : plain (x :: xs) = (x.name, x.value) :: plain xs := rfl
      rw [assign, e, Gear.Xml.setAttribute]
      by_cases hx : x.name = name
      · rw [if_pos hx, if_pos hx]; rfl
      · rw [if_neg hx, if_neg hx, ← ih]; rfl
  · cases xs with
    | nil => rfl
    | cons x xs =>
      rw [walked, plain, List.map_cons, plain, List.map_cons, visible]
      congr 1
      rw [List.takeWhile_map]
      rfl

end Gear.Xml.Attr
