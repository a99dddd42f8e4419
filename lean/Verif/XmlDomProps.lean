import Verif.XmlDomRefine
set_option autoImplicit false
set_option linter.unusedSectionVars false
/-!
Properties C120 to C123: the nodes of an XML document in memory are the trees that the calls so far have built.
-/
namespace Gear.Xml.Dom

open Spec

variable {D : Type}

/-! ### Reading lists of children -/

theorem visits_next {h : Heap D} {R : Multiset (Ptr × Cell D)} (par prv : Option Ptr) (ks : List (Tree D)) (r : Run (Option Ptr))
    (hr : r = .ok (headPtr ks)) (H : Is h (R + listCells par prv ks none)) :
    Visits (nextSibling h) r (ks.map Tree.ptr) := by
  induction ks generalizing R prv r with
  | nil => exact hr
  | cons k ks ih =>
    refine ⟨hr, ?_⟩
    refine ih (some k.ptr) _ ?_ (H.of_eq (N := R + treeCells par prv (headPtr ks) k + listCells par (some k.ptr) ks none)
      (by simp only [listCells, orElse_none]; abel))
    have g := (H.of_eq (N := R + listCells par (some k.ptr) ks none + listCells (some k.ptr) none k.kids none + {(k.ptr, _)})
      (by simp only [listCells, orElse_none]; rw [treeCells_eq]; abel)).get
    simp only [nextSibling, g, Run.bind_ok]

theorem visits_prev {h : Heap D} {R : Multiset (Ptr × Cell D)} (par nxt : Option Ptr) (ks : List (Tree D)) (r : Run (Option Ptr))
    (hr : r = .ok (lastPtr ks)) (H : Is h (R + listCells par none ks nxt)) :
    Visits (previousSibling h) r (ks.map Tree.ptr).reverse := by
  induction ks using List.reverseRecOn generalizing R nxt r with
  | nil => exact hr
  | append_singleton ks k ih =>
    rw [List.map_append, List.reverse_append, List.map_singleton, List.reverse_singleton, List.singleton_append]
    rw [lastPtr_concat] at hr
    refine ⟨hr, ?_⟩
    refine ih (some k.ptr) _ ?_ (H.of_eq (N := R + treeCells par (lastPtr ks) nxt k + listCells par none ks (some k.ptr))
      (by simp only [listCells_append, listCells, orElse_none, headPtr_cons, headPtr_nil, some_orElse, none_orElse]; abel))
    have g := (H.of_eq (N := R + listCells par none ks (some k.ptr) + listCells (some k.ptr) none k.kids none +
      {(k.ptr, ⟨k.kind, k.data, par, lastPtr ks, nxt, headPtr k.kids, lastPtr k.kids⟩)})
      (by simp only [listCells_append, listCells, orElse_none, headPtr_cons, headPtr_nil, some_orElse, none_orElse]
          rw [treeCells_eq]; abel)).get
    simp only [previousSibling, g, Run.bind_ok]

/-- What the memory shows of the trees that it holds. -/
structure Shows (h : Heap D) (F : Forest D) : Prop where
  content : ∀ t ∈ allOf F.trees, ∃ c, h.get t.ptr = .ok c ∧ c.kind = t.kind ∧ c.data = t.data
  forward : ∀ t ∈ allOf F.trees, Visits (nextSibling h) (firstChild h t.ptr) (t.kids.map Tree.ptr)
  backward : ∀ t ∈ allOf F.trees, Visits (previousSibling h) (lastChild h t.ptr) (t.kids.map Tree.ptr).reverse
  child : ∀ t ∈ allOf F.trees, ∀ k ∈ t.kids, parent h k.ptr = .ok (some t.ptr)
  root : ∀ t ∈ F.trees, parent h t.ptr = .ok none ∧ nextSibling h t.ptr = .ok none ∧ previousSibling h t.ptr = .ok none

theorem Holds.shows {h : Heap D} {F : Forest D} (H : Holds h F) : Shows h F := by
  have hn := H.nodup
  refine ⟨?_, ?_, ?_, ?_, ?_⟩
  · intro t ht
    obtain ⟨c, g, h1, h2, _⟩ := get_node H (find_eq hn ht)
    exact ⟨c, g, h1, h2⟩
  · intro t ht
    obtain ⟨c, g, _, _, h3, _, _⟩ := get_node H (find_eq hn ht)
    obtain ⟨R, x, y, z, e⟩ := part_root F.trees t ht
    refine visits_next (some t.ptr) none t.kids _ ?_ (H.1.of_eq (N := R + {(t.ptr, _)} + listCells (some t.ptr) none t.kids none)
      (by rw [e, treeCells_eq]; abel))
    simp only [firstChild, g, Run.bind_ok, h3]
  · intro t ht
    obtain ⟨c, g, _, _, _, h4, _⟩ := get_node H (find_eq hn ht)
    obtain ⟨R, x, y, z, e⟩ := part_root F.trees t ht
    refine visits_prev (some t.ptr) none t.kids _ ?_ (H.1.of_eq (N := R + {(t.ptr, _)} + listCells (some t.ptr) none t.kids none)
      (by rw [e, treeCells_eq]; abel))
    simp only [lastChild, g, Run.bind_ok, h4]
  · intro t ht k hk
    obtain ⟨R, x, y, z, e⟩ := part_root F.trees t ht
    obtain ⟨as, bs, ek⟩ := List.append_of_mem hk
    have g := child_cell (H.1.of_eq (N := R + {(t.ptr, _)} + listCells (some t.ptr) none (as ++ k :: bs) none)
      (by rw [e, treeCells_eq, ek]; abel))
    simp only [parent, g, Run.bind_ok]
  · intro t ht
    obtain ⟨as, bs, e⟩ := List.append_of_mem ht
    have g := (H.1.of_eq (N := rootCells as + rootCells bs + listCells (some t.ptr) none t.kids none + {(t.ptr, _)})
      (by rw [e, rootCells_append, rootCells, treeCells_eq]; abel)).get
    simp only [parent, nextSibling, previousSibling, g, Run.bind_ok, and_self]

/-! ### C120 -/

/-- For every sequence of allowed calls, whatever nodes they make, link, copy, replace, remove, assign or delete: none of them fails, each
returns the node it should, and afterwards the children of every node, asked for from the first to the last and from the last to the
first, are those that the calls have put there, in their order, with the data they were given; and the parent of each is that node. -/
theorem tree_history (blank : D → D) (os : List (Op D)) (F : Forest D) (rs : List (Option Ptr))
    (hF : (⟨[], 0⟩ : Forest D).run os = some (F, rs)) :
    ∃ h, (∃ n₀, ∀ n ≥ n₀, run blank n Heap.empty os = .ok (h, rs)) ∧ Shows h F := by
  obtain ⟨h, e, H⟩ := run_holds blank os empty_holds hF
  exact ⟨h, e, H.shows⟩

/-! ### C121 -/

/-- The memory has exactly the nodes of the trees: what was removed, replaced, cleared or deleted is released with all below it, and
nothing else is. -/
theorem memory_history (blank : D → D) (os : List (Op D)) (F : Forest D) (rs : List (Option Ptr))
    (hF : (⟨[], 0⟩ : Forest D).run os = some (F, rs)) :
    ∃ h, (∃ n₀, ∀ n ≥ n₀, run blank n Heap.empty os = .ok (h, rs)) ∧
      (∀ x, (h.cell x).isSome ↔ x ∈ names F.trees) ∧ (names F.trees).Nodup := by
  obtain ⟨h, e, H⟩ := run_holds blank os empty_holds hF
  refine ⟨h, e, ?_, H.nodup⟩
  intro x
  have hk : x ∈ (rootCells F.trees).map Prod.fst ↔ x ∈ names F.trees := by rw [keys_root]; exact Multiset.mem_coe
  rw [← hk, Option.isSome_iff_exists, Multiset.mem_map]
  constructor
  · rintro ⟨c, hc⟩
    exact ⟨(x, c), (H.1.cells x c).1 hc, rfl⟩
  · rintro ⟨⟨y, c⟩, hc, rfl⟩
    exact ⟨c, (H.1.cells y c).2 hc⟩

/-- When every tree was deleted, nothing is left. -/
theorem no_leak (blank : D → D) (os : List (Op D)) (m : ℕ) (rs : List (Option Ptr))
    (hF : (⟨[], 0⟩ : Forest D).run os = some (⟨[], m⟩, rs)) :
    ∃ h, (∃ n₀, ∀ n ≥ n₀, run blank n Heap.empty os = .ok (h, rs)) ∧ ∀ x, h.cell x = none := by
  obtain ⟨h, e, hx, _⟩ := memory_history blank os _ rs hF
  refine ⟨h, e, ?_⟩
  intro x
  have := hx x
  rw [show names (⟨[], m⟩ : Forest D).trees = [] from rfl] at this
  cases hc : h.cell x with
  | none => rfl
  | some c => rw [hc] at this; simp at this

/-! ### C122 -/

mutual

theorem copy_content_tree (t : Tree D) (n : ℕ) (hl : ∀ s ∈ t.all, s.kind = .leaf → s.kids = []) :
    (t.copy n).1.content = t.content := by
  match t, hl with
  | .node p .leaf d ks, hl =>
    have : ks = [] := hl (.node p .leaf d ks) (by simp [Tree.all]) rfl
    subst this
    rfl
  | .node p .document d ks, hl =>
    have := copy_content_list ks (n + 1) (fun s hs => hl s (List.mem_cons_of_mem _ hs))
    simp only [Tree.copy, Tree.content, this]
  | .node p .element d ks, hl =>
    have := copy_content_list ks (n + 1) (fun s hs => hl s (List.mem_cons_of_mem _ hs))
    simp only [Tree.copy, Tree.content, this]

theorem copy_content_list (ts : List (Tree D)) (n : ℕ) (hl : ∀ s ∈ allOf ts, s.kind = .leaf → s.kids = []) :
    contentOf (copyOf n ts).1 = contentOf ts := by
  match ts, hl with
  | [], _ => rfl
  | t :: ts, hl =>
    have h1 := copy_content_tree t n (fun s hs => hl s (List.mem_append_left _ hs))
    have h2 := copy_content_list ts (t.copy n).2 (fun s hs => hl s (List.mem_append_right _ hs))
    simp only [copyOf, contentOf, h1, h2]

end

/-- A copy (of an element or a document: with all below it) has the same content, and consists of new nodes. -/
theorem copy_content_partial (t : Tree D) (n : ℕ) (hl : LeavesBare [t]) :
    (t.copy n).1.content = t.content ∧ (∀ x ∈ names [(t.copy n).1], n ≤ x) ∧ n < (t.copy n).2 := by
  refine ⟨copy_content_tree t n (fun s hs => hl s (by simpa [allOf] using hs)), ?_, ?_⟩
  · intro x hx
    rw [names_single] at hx
    exact (copy_ge t n).2 x hx
  · obtain ⟨p, k, d, ks⟩ := t
    cases k with
    | leaf => simp [Tree.copy]
    | document => exact lt_of_lt_of_le (Nat.lt_succ_self n) (copyOf_ge ks (n + 1)).1
    | element => exact lt_of_lt_of_le (Nat.lt_succ_self n) (copyOf_ge ks (n + 1)).1

/-- The children of a comment or a text are not copied. -/
theorem copy_content_false : ∃ t : Tree ℕ, (t.copy 10).1.content ≠ t.content := by
  refine ⟨.node 0 .leaf 1 [.node 1 .leaf 2 []], ?_⟩
  simp [Tree.copy, Tree.content, contentOf]

/-- Three nodes: a document, an element linked to it and a text copied twice into the element. -/
def sample : List (Op ℕ) :=
  [.make .document 7, .make .element 8, .make .leaf 9, .insertEnd 1 2, .insertBefore 1 (some 3) 2, .link 0 1]

example : ∃ F rs, (⟨[], 0⟩ : Forest ℕ).run sample = some (F, rs) ∧ names F.trees = [0, 1, 4, 3, 2] ∧
    rs = [some 0, some 1, some 2, some 3, some 4, some 1] := by
  refine ⟨_, _, rfl, ?_, ?_⟩ <;> decide

/-- Assigning an element to itself takes its children and attributes away. -/
theorem assign_false_self :
    (run (fun _ => 0) 20 (Heap.empty : Heap ℕ) [.make .element 8, .make .leaf 9, .insertEnd 0 1, .assign 0 0] >>= fun r => do
      let b ← noChildren r.1 0
      let c ← r.1.get 0
      .ok (b, c.data)) = .ok (true, 0) := by
  decide

/-- Assigning an element one of its children reads the child after it was deleted. -/
theorem assign_false_child :
    (run (fun _ => 0) 20 (Heap.empty : Heap ℕ) [.make .element 8, .make .element 9, .insertEnd 0 1, .assign 0 2] >>= fun r =>
      noChildren r.1 0) = .ub := by
  decide

/-- A node that is linked to a second parent is a child of both, and is deleted twice. -/
theorem link_false_twice :
    (run (fun _ => 0) 20 (Heap.empty : Heap ℕ) [.make .element 8, .make .element 9, .make .leaf 5, .link 0 2, .link 1 2]
      >>= fun r => do
        let a ← firstChild r.1 0
        let b ← firstChild r.1 1
        .ok (a, b)) = .ok (some 2, some 2) ∧
    (run (fun _ => 0) 20 (Heap.empty : Heap ℕ)
      [.make .element 8, .make .element 9, .make .leaf 5, .link 0 2, .link 1 2, .delete 0, .delete 1] >>= fun r =>
        noChildren r.1 0) = .ub := by
  constructor <;> decide

/-! ### C123 -/

theorem scanNext_spec {h : Heap D} {R : Multiset (Ptr × Cell D)} (has : Cell D → Bool) (is : Tree D → Bool) (par prv : Option Ptr)
    (ks : List (Tree D))
    (hi : ∀ t ∈ ks, ∀ y z, has ⟨t.kind, t.data, par, y, z, headPtr t.kids, lastPtr t.kids⟩ = is t)
    (H : Is h (R + listCells par prv ks none)) :
    ∃ n₀, ∀ n ≥ n₀, scanNext has n h (headPtr ks) = .ok ((ks.find? is).map Tree.ptr) := by
  induction ks generalizing R prv with
  | nil =>
    refine ⟨1, fun n hn => ?_⟩
    obtain ⟨m, rfl⟩ : ∃ m, n = m + 1 := ⟨n - 1, by omega⟩
    rfl
  | cons k ks ih =>
    obtain ⟨n₀, e⟩ := ih (R := R + treeCells par prv (headPtr ks) k) (some k.ptr) (fun t ht => hi t (List.mem_cons_of_mem _ ht))
      (H.of_eq (by simp only [listCells, orElse_none]; abel))
    have g := (H.of_eq (N := R + listCells par (some k.ptr) ks none + listCells (some k.ptr) none k.kids none + {(k.ptr, _)})
      (by simp only [listCells, orElse_none]; rw [treeCells_eq]; abel)).get
    refine ⟨n₀ + 1, fun n hn => ?_⟩
    obtain ⟨m, rfl⟩ : ∃ m, n = m + 1 := ⟨n - 1, by omega⟩
    simp only [headPtr_cons, scanNext]
    rw [g, Run.bind_ok, hi k List.mem_cons_self]
    cases hk : is k with
    | true => simp [hk]
    | false =>
      simp only [Bool.false_eq_true, if_false, List.find?_cons, hk]
      exact e m (by omega)

theorem scanPrev_spec {h : Heap D} {R : Multiset (Ptr × Cell D)} (has : Cell D → Bool) (is : Tree D → Bool) (par nxt : Option Ptr)
    (ks : List (Tree D))
    (hi : ∀ t ∈ ks, ∀ y z, has ⟨t.kind, t.data, par, y, z, headPtr t.kids, lastPtr t.kids⟩ = is t)
    (H : Is h (R + listCells par none ks nxt)) :
    ∃ n₀, ∀ n ≥ n₀, scanPrev has n h (lastPtr ks) = .ok ((ks.reverse.find? is).map Tree.ptr) := by
  induction ks using List.reverseRecOn generalizing R nxt with
  | nil =>
    refine ⟨1, fun n hn => ?_⟩
    obtain ⟨m, rfl⟩ : ∃ m, n = m + 1 := ⟨n - 1, by omega⟩
    rfl
  | append_singleton ks k ih =>
    obtain ⟨n₀, e⟩ := ih (R := R + treeCells par (lastPtr ks) nxt k) (some k.ptr)
      (fun t ht => hi t (List.mem_append_left _ ht))
      (H.of_eq (by
        simp only [listCells_append, listCells, orElse_none, headPtr_cons, headPtr_nil, some_orElse, none_orElse]; abel))
    have g := (H.of_eq (N := R + listCells par none ks (some k.ptr) + listCells (some k.ptr) none k.kids none +
      {(k.ptr, ⟨k.kind, k.data, par, lastPtr ks, nxt, headPtr k.kids, lastPtr k.kids⟩)})
      (by simp only [listCells_append, listCells, orElse_none, headPtr_cons, headPtr_nil, some_orElse, none_orElse]
          rw [treeCells_eq]; abel)).get
    refine ⟨n₀ + 1, fun n hn => ?_⟩
    obtain ⟨m, rfl⟩ : ∃ m, n = m + 1 := ⟨n - 1, by omega⟩
    simp only [lastPtr_concat, scanPrev]
    rw [g, Run.bind_ok, hi k (by simp), List.reverse_append, List.reverse_singleton, List.singleton_append]
    cases hk : is k with
    | true => simp [hk]
    | false =>
      simp only [Bool.false_eq_true, if_false, List.find?_cons, hk]
      exact e m (by omega)

/-- The cells of a node in the memory, and those of its children. -/
theorem Holds.part {h : Heap D} {F : Forest D} (H : Holds h F) {t : Tree D} (ht : t ∈ allOf F.trees) :
    ∃ R, ∃ c : Cell D, h.get t.ptr = .ok c ∧ c.first = headPtr t.kids ∧ c.last = lastPtr t.kids ∧
      Is h (R + listCells (some t.ptr) none t.kids none) := by
  obtain ⟨R, x, y, z, e⟩ := part_root F.trees t ht
  rw [treeCells_eq] at e
  exact ⟨R + {(t.ptr, ⟨t.kind, t.data, x, y, z, headPtr t.kids, lastPtr t.kids⟩)}, _,
    (H.1.of_eq (N := R + listCells (some t.ptr) none t.kids none + {(t.ptr, _)}) (by rw [e]; abel)).get, rfl, rfl,
    H.1.of_eq (by rw [e]; abel)⟩

section
variable {h : Heap D} {F : Forest D}

/-- Looking for a child by its value finds the first, or the last, that has it. -/
theorem child_of (H : Holds h F) {t : Tree D} (ht : t ∈ allOf F.trees) (is : D → Bool) :
    ∃ n₀, ∀ n ≥ n₀,
      firstChildOf is n h t.ptr = .ok ((t.kids.find? fun k => is k.data).map Tree.ptr) ∧
      lastChildOf is n h t.ptr = .ok ((t.kids.reverse.find? fun k => is k.data).map Tree.ptr) ∧
      iterateChildren is n h t.ptr none = .ok ((t.kids.find? fun k => is k.data).map Tree.ptr) ∧
      noChildren h t.ptr = .ok t.kids.isEmpty := by
  obtain ⟨R, c, g, h1, h2, H'⟩ := H.part ht
  obtain ⟨n1, e1⟩ := scanNext_spec (fun c => is c.data) (fun k => is k.data) _ _ t.kids (fun _ _ _ _ => rfl) H'
  obtain ⟨n2, e2⟩ := scanPrev_spec (fun c => is c.data) (fun k => is k.data) _ _ t.kids (fun _ _ _ _ => rfl) H'
  refine ⟨max n1 n2, fun n hn => ⟨?_, ?_, ?_, ?_⟩⟩
  · rw [firstChildOf, g, Run.bind_ok, h1, e1 n (le_trans (le_max_left _ _) hn)]
  · rw [lastChildOf, g, Run.bind_ok, h2, e2 n (le_trans (le_max_right _ _) hn)]
  · rw [iterateChildren, firstChildOf, g, Run.bind_ok, h1, e1 n (le_trans (le_max_left _ _) hn)]
  · rw [noChildren, g, Run.bind_ok, h1]
    cases t.kids <;> rfl

/-- Looking for a sibling by its value finds the next, or the previous, that has it. -/
theorem sibling_of (H : Holds h F) {t k : Tree D} (ht : t ∈ allOf F.trees) {as bs : List (Tree D)} (hk : t.kids = as ++ k :: bs)
    (is : D → Bool) :
    ∃ n₀, ∀ n ≥ n₀,
      nextSiblingOf is n h k.ptr = .ok ((bs.find? fun k => is k.data).map Tree.ptr) ∧
      previousSiblingOf is n h k.ptr = .ok ((as.reverse.find? fun k => is k.data).map Tree.ptr) ∧
      iterateChildren is n h t.ptr (some k.ptr) = .ok ((bs.find? fun k => is k.data).map Tree.ptr) := by
  obtain ⟨R, c, g, h1, h2, H'⟩ := H.part ht
  rw [hk] at H'
  have gk := child_cell H'
  obtain ⟨n1, e1⟩ := scanNext_spec (fun c => is c.data) (fun k => is k.data) _ _ bs (fun _ _ _ _ => rfl)
    (H'.of_eq (N := R + listCells (some t.ptr) none (as ++ [k]) (headPtr bs) + listCells (some t.ptr) (some k.ptr) bs none)
      (by simp only [listCells_append, listCells, headPtr_cons, headPtr_nil, orElse_none, some_orElse, none_orElse]; abel))
  obtain ⟨n2, e2⟩ := scanPrev_spec (fun c => is c.data) (fun k => is k.data) _ _ as (fun _ _ _ _ => rfl)
    (H'.of_eq (N := R + listCells (some t.ptr) (lastPtr as) (k :: bs) none + listCells (some t.ptr) none as (some k.ptr))
      (by simp only [listCells_append, headPtr_cons, orElse_none, some_orElse]; abel))
  refine ⟨max n1 n2, fun n hn => ⟨?_, ?_, ?_⟩⟩
  · rw [nextSiblingOf, gk, Run.bind_ok, e1 n (le_trans (le_max_left _ _) hn)]
  · rw [previousSiblingOf, gk, Run.bind_ok, e2 n (le_trans (le_max_right _ _) hn)]
  · rw [iterateChildren]
    rw [gk, Run.bind_ok, if_pos rfl, nextSiblingOf, gk, Run.bind_ok, e1 n (le_trans (le_max_left _ _) hn)]

/-- The loop for elements, from a node on. -/
theorem scanElement_spec {R : Multiset (Ptr × Cell D)} (is : D → Bool) (par prv : Option Ptr) (ks : List (Tree D))
    (H : Is h (R + listCells par prv ks none)) :
    ∃ n₀, ∀ n ≥ n₀, scanElement is n h ((ks.find? fun k => is k.data).map Tree.ptr) =
      .ok ((ks.find? fun k => is k.data ∧ k.kind = .element).map Tree.ptr) := by
  induction ks generalizing R prv with
  | nil =>
    refine ⟨1, fun n hn => ?_⟩
    obtain ⟨m, rfl⟩ : ∃ m, n = m + 1 := ⟨n - 1, by omega⟩
    rfl
  | cons k ks ih =>
    have H2 := H.of_eq (N := R + treeCells par prv (headPtr ks) k + listCells par (some k.ptr) ks none)
      (by simp only [listCells, orElse_none]; abel)
    obtain ⟨n₀, e⟩ := ih _ H2
    obtain ⟨n1, e1⟩ := scanNext_spec (fun c => is c.data) (fun k => is k.data) _ _ ks (fun _ _ _ _ => rfl) H2
    have g := (H.of_eq (N := R + listCells par (some k.ptr) ks none + listCells (some k.ptr) none k.kids none + {(k.ptr, _)})
      (by simp only [listCells, orElse_none]; rw [treeCells_eq]; abel)).get
    cases hk : is k.data with
    | false =>
      refine ⟨n₀, fun n hn => ?_⟩
      simp only [List.find?_cons, hk, Bool.false_eq_true, false_and, decide_false]
      exact e n hn
    | true =>
      refine ⟨max n₀ n1 + 1, fun n hn => ?_⟩
      obtain ⟨m, rfl⟩ : ∃ m, n = m + 1 := ⟨n - 1, by omega⟩
      have l0 : n₀ ≤ m := by have := le_max_left n₀ n1; omega
      have l1 : n1 ≤ m := by have := le_max_right n₀ n1; omega
      simp only [List.find?_cons, hk, true_and, Option.map_some, scanElement]
      rw [g, Run.bind_ok]
      dsimp only
      by_cases he : k.kind = .element
      · rw [if_pos he]
        simp [he]
      · rw [if_neg he, nextSiblingOf, g, Run.bind_ok]
        dsimp only
        rw [e1 m l1, Run.bind_ok]
        simp only [he, decide_false]
        exact e m l0

/-- Looking for an element by its name finds the first child, or the next sibling, that is an element of this name, whatever texts,
comments and other elements are in between. -/
theorem element_of (H : Holds h F) {t : Tree D} (ht : t ∈ allOf F.trees) (is : D → Bool) :
    (∃ n₀, ∀ n ≥ n₀, firstChildElement is n h t.ptr =
      .ok ((t.kids.find? fun k => is k.data ∧ k.kind = .element).map Tree.ptr)) ∧
    ∀ as k bs, t.kids = as ++ k :: bs → ∃ n₀, ∀ n ≥ n₀, nextSiblingElement is n h k.ptr =
      .ok ((bs.find? fun k => is k.data ∧ k.kind = .element).map Tree.ptr) := by
  obtain ⟨R, c, g, h1, h2, H'⟩ := H.part ht
  constructor
  · obtain ⟨n1, e1⟩ := child_of H ht is
    obtain ⟨n2, e2⟩ := scanElement_spec is _ _ t.kids H'
    refine ⟨max n1 n2, fun n hn => ?_⟩
    rw [firstChildElement, (e1 n (le_trans (le_max_left _ _) hn)).1, Run.bind_ok, e2 n (le_trans (le_max_right _ _) hn)]
  · intro as k bs hk
    obtain ⟨n1, e1⟩ := sibling_of H ht hk is
    rw [hk] at H'
    obtain ⟨n2, e2⟩ := scanElement_spec is _ _ bs
      (H'.of_eq (N := R + listCells (some t.ptr) none (as ++ [k]) (headPtr bs) + listCells (some t.ptr) (some k.ptr) bs none)
        (by simp only [listCells_append, listCells, headPtr_cons, headPtr_nil, orElse_none, some_orElse, none_orElse]; abel))
    refine ⟨max n1 n2, fun n hn => ?_⟩
    rw [nextSiblingElement, (e1 n (le_trans (le_max_left _ _) hn)).1, Run.bind_ok, e2 n (le_trans (le_max_right _ _) hn)]

end

mutual

theorem doc_tree {h : Heap D} {R : Multiset (Ptr × Cell D)} (x y z v : Option Ptr) (t : Tree D) (H : Is h (R + treeCells x y z t))
    (hv : ∃ n₀, ∀ n ≥ n₀, getDocument n h x = .ok v) (hk : ∀ s ∈ t.all, s.kind ≠ .document) (s : Tree D) (hs : s ∈ t.all) :
    ∃ n₀, ∀ n ≥ n₀, getDocument n h (some s.ptr) = .ok v := by
  match t, H, hk, hs with
  | .node p k d ks, H, hk, hs =>
    have hp : ∃ n₀, ∀ n ≥ n₀, getDocument n h (some p) = .ok v := by
      obtain ⟨n₀, e⟩ := hv
      have g := (H.of_eq (N := R + listCells (some p) none ks none + {(p, _)}) (by simp only [treeCells]; abel)).get
      refine ⟨n₀ + 1, fun n hn => ?_⟩
      obtain ⟨m, rfl⟩ : ∃ m, n = m + 1 := ⟨n - 1, by omega⟩
      rw [getDocument, g, Run.bind_ok, if_neg (show ¬ k = .document from hk (.node p k d ks) (by simp [Tree.all])), e m (by omega)]
    rcases List.mem_cons.1 hs with rfl | hs
    · exact hp
    · exact doc_list (some p) none none v ks (R := R + {(p, ⟨k, d, x, y, z, headPtr ks, lastPtr ks⟩)})
        (H.of_eq (by simp only [treeCells]; abel)) hp (fun s hs => hk s (List.mem_cons_of_mem _ hs)) s hs

theorem doc_list {h : Heap D} {R : Multiset (Ptr × Cell D)} (x y z v : Option Ptr) (ts : List (Tree D))
    (H : Is h (R + listCells x y ts z)) (hv : ∃ n₀, ∀ n ≥ n₀, getDocument n h x = .ok v)
    (hk : ∀ s ∈ allOf ts, s.kind ≠ .document) (s : Tree D) (hs : s ∈ allOf ts) :
    ∃ n₀, ∀ n ≥ n₀, getDocument n h (some s.ptr) = .ok v := by
  match ts, H, hk, hs with
  | t :: ts, H, hk, hs =>
    rcases List.mem_append.1 hs with hs | hs
    · exact doc_tree x y _ v t (R := R + listCells x (some t.ptr) ts z) (H.of_eq (by simp only [listCells]; abel)) hv
        (fun s hs => hk s (List.mem_append_left _ hs)) s hs
    · exact doc_list x (some t.ptr) z v ts (R := R + treeCells x y ((headPtr ts).orElse fun _ => z) t)
        (H.of_eq (by simp only [listCells]; abel)) hv
        (fun s hs => hk s (List.mem_append_right _ hs)) s hs

end

/-- The document of a node is the root of its tree, if that is a document (documents being roots). -/
theorem document_of {h : Heap D} {F : Forest D} (H : Holds h F) {r s : Tree D} (hr : r ∈ F.trees) (hs : s ∈ r.all)
    (hd : ∀ t ∈ allOf r.kids, t.kind ≠ .document) :
    ∃ n₀, ∀ n ≥ n₀, getDocument n h (some s.ptr) = .ok (if r.kind = .document then some r.ptr else none) := by
  obtain ⟨as, bs, e⟩ := List.append_of_mem hr
  have H' := H.1.of_eq (N := rootCells as + rootCells bs + treeCells none none none r)
    (by rw [e, rootCells_append, rootCells]; abel)
  obtain ⟨p, k, d, ks⟩ := r
  have g := (H'.of_eq (N := rootCells as + rootCells bs + listCells (some p) none ks none + {(p, _)})
    (by simp only [treeCells]; abel)).get
  have hp : ∃ n₀, ∀ n ≥ n₀, getDocument n h (some p) = .ok (if k = .document then some p else none) := by
    refine ⟨2, fun n hn => ?_⟩
    obtain ⟨m, rfl⟩ : ∃ m, n = m + 2 := ⟨n - 2, by omega⟩
    rw [getDocument, g, Run.bind_ok]
    dsimp only
    by_cases hk : k = .document
    · rw [if_pos hk, if_pos hk]
    · rw [if_neg hk, if_neg hk]; rfl
  rcases List.mem_cons.1 hs with rfl | hs
  · exact hp
  · exact doc_list (some p) none none _ ks (H'.of_eq (N := rootCells as + rootCells bs + {(p, _)} + listCells (some p) none ks none)
      (by simp only [treeCells]; abel)) hp hd s hs

/-- After every sequence of allowed calls: looking for a child or sibling by a value (`is` says which data have it) finds the first,
last, next or previous one that has it; looking for an element finds the first or next element of that name, whatever texts and
comments are in between; and the document of a node is the root of its tree if that is a document. -/
theorem reads_history (blank : D → D) (os : List (Op D)) (F : Forest D) (rs : List (Option Ptr))
    (hF : (⟨[], 0⟩ : Forest D).run os = some (F, rs)) (is : D → Bool) :
    ∃ h, (∃ n₀, ∀ n ≥ n₀, run blank n Heap.empty os = .ok (h, rs)) ∧
      (∀ t ∈ allOf F.trees, ∃ n₀, ∀ n ≥ n₀,
        firstChildOf is n h t.ptr = .ok ((t.kids.find? fun k => is k.data).map Tree.ptr) ∧
        lastChildOf is n h t.ptr = .ok ((t.kids.reverse.find? fun k => is k.data).map Tree.ptr) ∧
        iterateChildren is n h t.ptr none = .ok ((t.kids.find? fun k => is k.data).map Tree.ptr) ∧
        firstChildElement is n h t.ptr = .ok ((t.kids.find? fun k => is k.data ∧ k.kind = .element).map Tree.ptr) ∧
        noChildren h t.ptr = .ok t.kids.isEmpty) ∧
      (∀ t ∈ allOf F.trees, ∀ as k bs, t.kids = as ++ k :: bs → ∃ n₀, ∀ n ≥ n₀,
        nextSiblingOf is n h k.ptr = .ok ((bs.find? fun k => is k.data).map Tree.ptr) ∧
        previousSiblingOf is n h k.ptr = .ok ((as.reverse.find? fun k => is k.data).map Tree.ptr) ∧
        iterateChildren is n h t.ptr (some k.ptr) = .ok ((bs.find? fun k => is k.data).map Tree.ptr) ∧
        nextSiblingElement is n h k.ptr = .ok ((bs.find? fun k => is k.data ∧ k.kind = .element).map Tree.ptr)) ∧
      (∀ r ∈ F.trees, (∀ t ∈ allOf r.kids, t.kind ≠ .document) → ∀ s ∈ r.all, ∃ n₀, ∀ n ≥ n₀,
        getDocument n h (some s.ptr) = .ok (if r.kind = .document then some r.ptr else none)) := by
  obtain ⟨h, e, H⟩ := run_holds blank os empty_holds hF
  refine ⟨h, e, ?_, ?_, fun r hr hd s hs => document_of H hr hs hd⟩
  · intro t ht
    obtain ⟨n1, e1⟩ := child_of H ht is
    obtain ⟨n2, e2⟩ := (element_of H ht is).1
    refine ⟨max n1 n2, fun n hn => ?_⟩
    obtain ⟨a, b, c, d⟩ := e1 n (le_trans (le_max_left _ _) hn)
    exact ⟨a, b, c, e2 n (le_trans (le_max_right _ _) hn), d⟩
  · intro t ht as k bs hk
    obtain ⟨n1, e1⟩ := sibling_of H ht hk is
    obtain ⟨n2, e2⟩ := (element_of H ht is).2 as k bs hk
    refine ⟨max n1 n2, fun n hn => ?_⟩
    obtain ⟨a, b, c⟩ := e1 n (le_trans (le_max_left _ _) hn)
    exact ⟨a, b, c, e2 n (le_trans (le_max_right _ _) hn)⟩

/-- In the sample the first child of the element is the text that was inserted before the other. -/
example : ∃ F rs, (⟨[], 0⟩ : Forest ℕ).run sample = some (F, rs) ∧
    ((F.find 1).map fun t => (t.kids.map Tree.ptr, (t.kids.find? fun k => k.data == 9).map Tree.ptr)) = some ([4, 3], some 4) := by
  refine ⟨_, _, rfl, ?_⟩; decide

end Gear.Xml.Dom
