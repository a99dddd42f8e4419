import Verif.XmlDomSpec
import Mathlib.Data.Multiset.Bind
import Mathlib.Tactic.Abel
set_option autoImplicit false
set_option linter.unusedSectionVars false
/-!
Lemmas about the nodes of tinyxml in memory: the memory is a multiset of nodes with their addresses, and every function changes only
the part of it that it is about.
-/
namespace Gear.Xml.Dom

open Spec

variable {D : Type}

/-- The memory consists of the nodes of `M`, at different addresses. -/
structure Is (h : Heap D) (M : Multiset (Ptr × Cell D)) : Prop where
  nodup : (M.map Prod.fst).Nodup
  cells : ∀ x c, h.cell x = some c ↔ (x, c) ∈ M
  lt : ∀ x ∈ M.map Prod.fst, x < h.fresh

theorem Is.get {h : Heap D} {M : Multiset (Ptr × Cell D)} {x : Ptr} {c : Cell D} (H : Is h (M + {(x, c)})) :
    h.get x = .ok c := by
  have : h.cell x = some c := (H.cells x c).2 (by simp)
  simp [Heap.get, this]

theorem Is.upd {h : Heap D} {M : Multiset (Ptr × Cell D)} {x : Ptr} {c : Cell D} (H : Is h (M + {(x, c)}))
    (f : Cell D → Cell D) :
    ∃ h', h.upd x f = .ok h' ∧ h'.fresh = h.fresh ∧ Is h' (M + {(x, f c)}) := by
  have hc : h.cell x = some c := (H.cells x c).2 (by simp)
  have hM : ∀ e, (x, e) ∉ M := by
    intro e he
    have := H.nodup
    rw [Multiset.map_add, Multiset.nodup_add] at this
    exact Multiset.disjoint_left.1 this.2.2 (Multiset.mem_map_of_mem Prod.fst he) (by simp)
  refine ⟨{ h with cell := Function.update h.cell x (some (f c)) }, by simp [Heap.upd, hc], rfl, ?_, ?_, ?_⟩
  · have := H.nodup
    simpa using this
  · intro y e
    by_cases hy : y = x
    · subst hy
      simp only [Function.update_self, Multiset.mem_add, Multiset.mem_singleton, Prod.mk.injEq, true_and, Option.some.injEq]
      constructor
      · intro h'; exact Or.inr h'.symm
      · rintro (h' | h')
        · exact absurd h' (hM e)
        · exact h'.symm
    · simp only [Function.update_of_ne hy, H.cells, Multiset.mem_add, Multiset.mem_singleton, Prod.mk.injEq, hy, false_and,
        or_false]
  · have := H.lt
    simpa using this

theorem Is.free {h : Heap D} {M : Multiset (Ptr × Cell D)} {x : Ptr} {c : Cell D} (H : Is h (M + {(x, c)})) :
    ∃ h', h.free x = .ok h' ∧ h'.fresh = h.fresh ∧ Is h' M := by
  have hc : h.cell x = some c := (H.cells x c).2 (by simp)
  have hM : ∀ e, (x, e) ∉ M := by
    intro e he
    have := H.nodup
    rw [Multiset.map_add, Multiset.nodup_add] at this
    exact Multiset.disjoint_left.1 this.2.2 (Multiset.mem_map_of_mem Prod.fst he) (by simp)
  refine ⟨{ h with cell := Function.update h.cell x none }, by simp [Heap.free, hc], rfl, ?_, ?_, ?_⟩
  · have := H.nodup
    rw [Multiset.map_add, Multiset.nodup_add] at this
    exact this.1
  · intro y e
    by_cases hy : y = x
    · subst hy
      simp only [Function.update_self, reduceCtorEq, false_iff]
      exact hM e
    · simp only [Function.update_of_ne hy, H.cells, Multiset.mem_add, Multiset.mem_singleton, Prod.mk.injEq, hy, false_and,
        or_false]
  · intro y hy
    exact H.lt y (by rw [Multiset.map_add, Multiset.mem_add]; exact Or.inl hy)

theorem Is.alloc {h : Heap D} {M : Multiset (Ptr × Cell D)} (H : Is h M) (k : Kind) (d : D) :
    Is (h.alloc k d).1 (M + {(h.fresh, ⟨k, d, none, none, none, none, none⟩)}) := by
  have hM : ∀ e, (h.fresh, e) ∉ M := by
    intro e he
    exact absurd (H.lt _ (Multiset.mem_map_of_mem Prod.fst he)) (lt_irrefl _)
  refine ⟨?_, ?_, ?_⟩
  · rw [Multiset.map_add, Multiset.nodup_add]
    refine ⟨H.nodup, by simp, ?_⟩
    rw [Multiset.disjoint_left]
    intro y hy hy'
    have : y = h.fresh := by simpa using hy'
    subst this
    exact absurd (H.lt _ hy) (lt_irrefl _)
  · intro y e
    by_cases hy : y = h.fresh
    · subst hy
      simp only [Heap.alloc, Function.update_self, Multiset.mem_add, Multiset.mem_singleton, Prod.mk.injEq, true_and,
        Option.some.injEq]
      constructor
      · intro h'; exact Or.inr h'.symm
      · rintro (h' | h')
        · exact absurd h' (hM e)
        · exact h'.symm
    · simp only [Heap.alloc, Function.update_of_ne hy, H.cells, Multiset.mem_add, Multiset.mem_singleton, Prod.mk.injEq, hy,
        false_and, or_false]
  · intro y hy
    rw [Multiset.map_add, Multiset.mem_add] at hy
    rcases hy with hy | hy
    · exact Nat.lt_succ_of_lt (H.lt y hy)
    · have : y = h.fresh := by simpa using hy
      subst this
      exact Nat.lt_succ_self _

theorem Is.of_eq {h : Heap D} {M N : Multiset (Ptr × Cell D)} (H : Is h M) (e : M = N) : Is h N := e ▸ H

/-! ### The nodes of trees -/

/-- The first node of a list, if there is one. -/
def headPtr (ts : List (Tree D)) : Option Ptr := ts.head?.map Tree.ptr

/-- The last node of a list. -/
def lastPtr (ts : List (Tree D)) : Option Ptr := ts.getLast?.map Tree.ptr

mutual

/-- The nodes of a tree whose root has the parent and the siblings given. -/
def treeCells (par prv nxt : Option Ptr) : Tree D → Multiset (Ptr × Cell D)
  | .node p k d ks => {(p, ⟨k, d, par, prv, nxt, headPtr ks, lastPtr ks⟩)} + listCells (some p) none ks none

/-- The nodes of trees that are siblings, after `prv` and before `nxt`. -/
def listCells (par prv : Option Ptr) : List (Tree D) → Option Ptr → Multiset (Ptr × Cell D)
  | [], _ => 0
  | t :: ts, nxt => treeCells par prv ((headPtr ts).orElse fun _ => nxt) t + listCells par (some t.ptr) ts nxt

end

/-- The nodes of trees of their own. -/
def rootCells : List (Tree D) → Multiset (Ptr × Cell D)
  | [] => 0
  | t :: ts => treeCells none none none t + rootCells ts

@[simp] theorem headPtr_nil : headPtr ([] : List (Tree D)) = none := rfl
@[simp] theorem headPtr_cons (t : Tree D) (ts : List (Tree D)) : headPtr (t :: ts) = some t.ptr := rfl
@[simp] theorem lastPtr_nil : lastPtr ([] : List (Tree D)) = none := rfl
@[simp] theorem lastPtr_concat (t : Tree D) (ts : List (Tree D)) : lastPtr (ts ++ [t]) = some t.ptr := by
  simp [lastPtr]

theorem headPtr_append (as bs : List (Tree D)) : headPtr (as ++ bs) = (headPtr as).orElse fun _ => headPtr bs := by
  cases as <;> rfl

theorem lastPtr_cons (t : Tree D) (ts : List (Tree D)) : lastPtr (t :: ts) = (lastPtr ts).orElse fun _ => some t.ptr := by
  cases ts with
  | nil => rfl
  | cons u us =>
    simp only [lastPtr, List.getLast?_cons_cons]
    cases h : (u :: us).getLast? with
    | none => simp at h
    | some v => rfl

theorem lastPtr_append (as bs : List (Tree D)) : lastPtr (as ++ bs) = (lastPtr bs).orElse fun _ => lastPtr as := by
  induction as with
  | nil => rw [List.nil_append]; cases lastPtr bs <;> rfl
  | cons a as ih =>
    rw [List.cons_append, lastPtr_cons, ih, lastPtr_cons]
    cases lastPtr bs <;> rfl

theorem listCells_append (par prv nxt : Option Ptr) (as bs : List (Tree D)) :
    listCells par prv (as ++ bs) nxt =
      listCells par prv as ((headPtr bs).orElse fun _ => nxt) + listCells par ((lastPtr as).orElse fun _ => prv) bs nxt := by
  induction as generalizing prv with
  | nil => simp [listCells]
  | cons a as ih =>
    simp only [List.cons_append, listCells, ih, headPtr_append, lastPtr_cons]
    rw [add_assoc]
    congr 2
    · cases headPtr as <;> rfl
    · cases lastPtr as <;> rfl

theorem rootCells_append (as bs : List (Tree D)) : rootCells (as ++ bs) = rootCells as + rootCells bs := by
  induction as with
  | nil => simp [rootCells]
  | cons a as ih => simp only [List.cons_append, rootCells, ih]; abel

/-- The cells of a tree: that of the root, with its pointers, and those below. -/
theorem treeCells_eq (par prv nxt : Option Ptr) (t : Tree D) :
    treeCells par prv nxt t =
      {(t.ptr, ⟨t.kind, t.data, par, prv, nxt, headPtr t.kids, lastPtr t.kids⟩)} + listCells (some t.ptr) none t.kids none := by
  cases t; rfl

theorem orElse_none (x : Option Ptr) : (x.orElse fun _ => none) = x := by cases x <;> rfl

theorem some_orElse (x : Ptr) (y : Option Ptr) : ((some x).orElse fun _ => y) = some x := rfl

theorem none_orElse (y : Option Ptr) : ((none : Option Ptr).orElse fun _ => y) = y := rfl

theorem node_ptr (p : Ptr) (k : Kind) (d : D) (ks : List (Tree D)) : (Tree.node p k d ks).ptr = p := rfl

/-! ### Linking -/

theorem link_is {h : Heap D} {R : Multiset (Ptr × Cell D)} {p : Ptr} {c : Cell D} {ks : List (Tree D)} {t : Tree D}
    {x y z : Option Ptr} (hf : c.first = headPtr ks) (hl : c.last = lastPtr ks)
    (H : Is h (R + {(p, c)} + listCells (some p) none ks none + treeCells x y z t)) :
    ∃ h', linkEndChild h p t.ptr = .ok h' ∧ h'.fresh = h.fresh ∧
      Is h' (R + {(p, { c with first := headPtr (ks ++ [t]), last := some t.ptr })} +
        listCells (some p) none (ks ++ [t]) none) := by
  obtain ⟨q, k, d, us⟩ := t
  simp only [Tree.ptr] at *
  obtain ⟨h1, e1, f1, H1⟩ := (H.of_eq (N := R + {(p, c)} + listCells (some p) none ks none +
    listCells (some q) none us none + {(q, ⟨k, d, x, y, z, headPtr us, lastPtr us⟩)}) (by simp only [treeCells]; abel)).upd
    fun c => { c with parent := some p }
  obtain ⟨h2, e2, f2, H2⟩ := H1.upd fun e => { e with prev := c.last }
  obtain ⟨h3, e3, f3, H3⟩ := H2.upd fun c => { c with next := none }
  have g1 : h1.get p = .ok c := (H1.of_eq (N := R + listCells (some p) none ks none + listCells (some q) none us none +
    {(q, _)} + {(p, c)}) (by abel)).get
  have g3 : h3.get p = .ok c := (H3.of_eq (N := R + listCells (some p) none ks none + listCells (some q) none us none +
    {(q, _)} + {(p, c)}) (by abel)).get
  unfold linkEndChild
  rw [e1, Run.bind_ok, g1, Run.bind_ok, e2, Run.bind_ok, e3, Run.bind_ok, g3, Run.bind_ok]
  rcases List.eq_nil_or_concat ks with rfl | ⟨ks, l, rfl⟩
  · simp only [lastPtr_nil, headPtr_nil] at hf hl
    obtain ⟨h4, e4, f4, H4⟩ := (H3.of_eq (N := R + listCells (some q) none us none + {(q, _)} + {(p, c)})
      (by simp only [listCells]; abel)).upd fun c => { c with first := some q }
    obtain ⟨h5, e5, f5, H5⟩ := H4.upd fun c => { c with last := some q }
    refine ⟨h5, ?_, by rw [f5, f4, f3, f2, f1], H5.of_eq ?_⟩
    · rw [hl]; dsimp only; rw [e4, Run.bind_ok, e5]
    · simp only [hl, List.nil_append, listCells, treeCells, headPtr_nil, headPtr_cons, Tree.ptr, orElse_none, some_orElse, none_orElse]
      abel
  · simp only [List.concat_eq_append] at *
    rw [lastPtr_concat] at hl
    obtain ⟨l, kl, dl, ul⟩ := l
    simp only [Tree.ptr] at hl
    obtain ⟨h4, e4, f4, H4⟩ := (H3.of_eq (N := R + {(p, c)} + listCells (some p) none ks (some l) +
      listCells (some l) none ul none + listCells (some q) none us none + {(q, _)} +
      {(l, ⟨kl, dl, some p, (lastPtr ks).orElse fun _ => none, none, headPtr ul, lastPtr ul⟩)})
      (by simp only [listCells_append, listCells, treeCells, headPtr_nil, headPtr_cons, Tree.ptr, orElse_none, some_orElse, none_orElse]; abel)).upd
      fun c => { c with next := some q }
    obtain ⟨h5, e5, f5, H5⟩ := (H4.of_eq (N := R + listCells (some p) none ks (some l) +
      listCells (some l) none ul none + listCells (some q) none us none + {(q, _)} +
      {(l, _)} + {(p, c)}) (by abel)).upd fun c => { c with last := some q }
    refine ⟨h5, ?_, by rw [f5, f4, f3, f2, f1], H5.of_eq ?_⟩
    · rw [hl]; dsimp only; rw [e4, Run.bind_ok, e5]
    · have e : headPtr ((ks ++ [Tree.node l kl dl ul]) ++ [Tree.node q k d us]) = c.first := by
        rw [hf, headPtr_append]; cases ks <;> rfl
      rw [e]
      simp only [hl, listCells_append, listCells, treeCells, headPtr_nil, headPtr_cons, Tree.ptr, orElse_none, some_orElse, none_orElse, lastPtr_concat]
      abel

/-! ### Copying -/

/-- The node with pointers to other children. -/
def Cell.withKids (c : Cell D) (ks : List (Tree D)) : Cell D := { c with first := headPtr ks, last := lastPtr ks }

theorem copy_ptr (n : ℕ) (t : Tree D) : (t.copy n).1.ptr = n := by
  obtain ⟨p, k, d, ks⟩ := t
  cases k <;> rfl

mutual

theorem clone_is (t : Tree D) {h : Heap D} {R : Multiset (Ptr × Cell D)} {x y z : Option Ptr}
    (H : Is h (R + treeCells x y z t)) :
    ∃ h', (∃ n₀, ∀ n ≥ n₀, clone n h t.ptr = .ok (h', h.fresh)) ∧ h'.fresh = (t.copy h.fresh).2 ∧
      Is h' (R + treeCells x y z t + treeCells none none none (t.copy h.fresh).1) := by
  match t, H with
  | .node p k d ks, H =>
    have g : h.get p = .ok ⟨k, d, x, y, z, headPtr ks, lastPtr ks⟩ :=
      (H.of_eq (N := R + listCells (some p) none ks none + {(p, _)}) (by simp only [treeCells]; abel)).get
    have HA := H.alloc k d
    by_cases hk : k = .leaf
    · subst hk
      refine ⟨(h.alloc .leaf d).1, ⟨1, ?_⟩, rfl, HA.of_eq ?_⟩
      · intro n hn
        obtain ⟨m, rfl⟩ : ∃ m, n = m + 1 := ⟨n - 1, by omega⟩
        simp only [clone, Tree.ptr]
        rw [g, Run.bind_ok]
        rfl
      · simp only [Tree.copy, treeCells, listCells, headPtr_nil, lastPtr_nil, add_zero]
    · obtain ⟨h', ⟨n₀, e⟩, f, H'⟩ := copyChildren_is ks (h := (h.alloc k d).1)
        (R := R + {(p, ⟨k, d, x, y, z, headPtr ks, lastPtr ks⟩)}) (x := some p) (y := none) (q := h.fresh)
        (c := ⟨k, d, none, none, none, none, none⟩) (old := []) rfl rfl
        (HA.of_eq (by simp only [treeCells, listCells]; abel))
      refine ⟨h', ⟨n₀ + 1, ?_⟩, ?_, H'.of_eq ?_⟩
      · intro n hn
        obtain ⟨m, rfl⟩ : ∃ m, n = m + 1 := ⟨n - 1, by omega⟩
        have e' := e m (by omega)
        simp only [clone, Tree.ptr]
        rw [g, Run.bind_ok]
        cases k with
        | leaf => exact absurd rfl hk
        | document => dsimp only [Heap.alloc] at e' ⊢; rw [e', Run.bind_ok]
        | element => dsimp only [Heap.alloc] at e' ⊢; rw [e', Run.bind_ok]
      · cases k with
        | leaf => exact absurd rfl hk
        | document => exact f
        | element => exact f
      · cases k with
        | leaf => exact absurd rfl hk
        | document =>
          simp only [Tree.copy, treeCells, Heap.alloc, List.nil_append, Cell.withKids]; abel
        | element =>
          simp only [Tree.copy, treeCells, Heap.alloc, List.nil_append, Cell.withKids]; abel

theorem copyChildren_is (ks : List (Tree D)) {h : Heap D} {R : Multiset (Ptr × Cell D)} {x y : Option Ptr} {q : Ptr}
    {c : Cell D} {old : List (Tree D)} (hf : c.first = headPtr old) (hl : c.last = lastPtr old)
    (H : Is h (R + listCells x y ks none + {(q, c)} + listCells (some q) none old none)) :
    ∃ h', (∃ n₀, ∀ n ≥ n₀, copyChildren n h (headPtr ks) q = .ok h') ∧ h'.fresh = (copyOf h.fresh ks).2 ∧
      Is h' (R + listCells x y ks none + {(q, c.withKids (old ++ (copyOf h.fresh ks).1))} +
        listCells (some q) none (old ++ (copyOf h.fresh ks).1) none) := by
  match ks, H with
  | [], H =>
    refine ⟨h, ⟨1, ?_⟩, rfl, H.of_eq ?_⟩
    · intro n hn
      obtain ⟨m, rfl⟩ : ∃ m, n = m + 1 := ⟨n - 1, by omega⟩
      rfl
    · simp only [copyOf, List.append_nil, Cell.withKids, ← hf, ← hl]
  | t :: ts, H =>
    obtain ⟨h1, ⟨n1, e1⟩, f1, H1⟩ := clone_is t (h := h) (x := x) (y := y) (z := (headPtr ts).orElse fun _ => none)
      (R := R + listCells x (some t.ptr) ts none + {(q, c)} + listCells (some q) none old none)
      (H.of_eq (by simp only [listCells]; abel))
    obtain ⟨h2, e2, f2, H2⟩ := link_is (h := h1) (p := q) (c := c) (ks := old) (t := (t.copy h.fresh).1) (x := none) (y := none)
      (z := none) (R := R + listCells x (some t.ptr) ts none + treeCells x y ((headPtr ts).orElse fun _ => none) t) hf hl
      (H1.of_eq (by abel))
    rw [copy_ptr] at e2 H2
    have g : h2.get t.ptr = .ok ⟨t.kind, t.data, x, y, (headPtr ts).orElse fun _ => none, headPtr t.kids, lastPtr t.kids⟩ :=
      (H2.of_eq (N := R + listCells x (some t.ptr) ts none + listCells (some t.ptr) none t.kids none +
        {(q, { c with first := headPtr (old ++ [(t.copy h.fresh).1]), last := some h.fresh })} +
        listCells (some q) none (old ++ [(t.copy h.fresh).1]) none + {(t.ptr, _)})
        (by rw [treeCells_eq]; abel)).get
    obtain ⟨h3, ⟨n3, e3⟩, f3, H3⟩ := copyChildren_is ts (h := h2) (x := x) (y := some t.ptr) (q := q)
      (R := R + treeCells x y ((headPtr ts).orElse fun _ => none) t)
      (c := { c with first := headPtr (old ++ [(t.copy h.fresh).1]), last := some h.fresh })
      (old := old ++ [(t.copy h.fresh).1]) rfl (by rw [lastPtr_concat, copy_ptr])
      (H2.of_eq (by abel))
    have ef : h2.fresh = (t.copy h.fresh).2 := by rw [f2, f1]
    rw [ef] at f3 H3
    have en : ((headPtr ts).orElse fun _ => none) = headPtr ts := by cases headPtr ts <;> rfl
    refine ⟨h3, ⟨max n1 n3 + 1, ?_⟩, ?_, H3.of_eq ?_⟩
    · intro n hn
      obtain ⟨m, rfl⟩ : ∃ m, n = m + 1 := ⟨n - 1, by omega⟩
      have l1 : n1 ≤ m := by have := le_max_left n1 n3; omega
      have l3 : n3 ≤ m := by have := le_max_right n1 n3; omega
      simp only [headPtr_cons, copyChildren]
      rw [e1 m l1, Run.bind_ok]
      dsimp only
      rw [e2, Run.bind_ok, g, Run.bind_ok]
      dsimp only
      rw [en, e3 m l3]
    · rw [f3]; rfl
    · simp only [copyOf, listCells, List.append_assoc, List.singleton_append, Cell.withKids]
      abel

end

/-! ### Deleting -/

mutual

theorem destroy_is (t : Tree D) {h : Heap D} {R : Multiset (Ptr × Cell D)} {x y z : Option Ptr}
    (H : Is h (R + treeCells x y z t)) :
    ∃ h', (∃ n₀, ∀ n ≥ n₀, destroy n h t.ptr = .ok h') ∧ h'.fresh = h.fresh ∧ Is h' R := by
  match t, H with
  | .node p k d ks, H =>
    have g : h.get p = .ok ⟨k, d, x, y, z, headPtr ks, lastPtr ks⟩ :=
      (H.of_eq (N := R + listCells (some p) none ks none + {(p, _)}) (by simp only [treeCells]; abel)).get
    obtain ⟨h1, ⟨n1, e1⟩, f1, H1⟩ := destroyChildren_is ks (h := h) (x := some p) (y := none)
      (R := R + {(p, ⟨k, d, x, y, z, headPtr ks, lastPtr ks⟩)}) (H.of_eq (by simp only [treeCells]; abel))
    by_cases hk : k = .element
    · subst hk
      obtain ⟨h2, e2, f2, H2⟩ := H1.upd fun c => { c with first := none, last := none }
      have g2 := H2.get
      obtain ⟨h3, e3, f3, H3⟩ := H2.free
      refine ⟨h3, ⟨n1 + 2, ?_⟩, by rw [f3, f2, f1], H3⟩
      intro n hn
      obtain ⟨m, rfl⟩ : ∃ m, n = m + 2 := ⟨n - 2, by omega⟩
      simp only [destroy, Tree.ptr]
      rw [g, Run.bind_ok]
      dsimp only
      rw [e1 _ (by omega), Run.bind_ok, e2, Run.bind_ok, g2, Run.bind_ok]
      simp only [destroyChildren, Run.bind_ok]
      exact e3
    · have g1 := H1.get
      obtain ⟨h3, e3, f3, H3⟩ := H1.free
      refine ⟨h3, ⟨n1 + 1, ?_⟩, by rw [f3, f1], H3⟩
      intro n hn
      obtain ⟨m, rfl⟩ : ∃ m, n = m + 1 := ⟨n - 1, by omega⟩
      have e1' := e1 m (by omega)
      simp only [destroy, Tree.ptr]
      rw [g, Run.bind_ok]
      dsimp only
      cases k with
      | element => exact absurd rfl hk
      | document =>
        dsimp only
        rw [Run.pure_eq, Run.bind_ok, g, Run.bind_ok]
        dsimp only
        rw [e1', Run.bind_ok, e3]
      | leaf =>
        dsimp only
        rw [Run.pure_eq, Run.bind_ok, g, Run.bind_ok]
        dsimp only
        rw [e1', Run.bind_ok, e3]

theorem destroyChildren_is (ks : List (Tree D)) {h : Heap D} {R : Multiset (Ptr × Cell D)} {x y : Option Ptr}
    (H : Is h (R + listCells x y ks none)) :
    ∃ h', (∃ n₀, ∀ n ≥ n₀, destroyChildren n h (headPtr ks) = .ok h') ∧ h'.fresh = h.fresh ∧ Is h' R := by
  match ks, H with
  | [], H =>
    refine ⟨h, ⟨1, ?_⟩, rfl, H.of_eq (by simp only [listCells, add_zero])⟩
    intro n hn
    obtain ⟨m, rfl⟩ : ∃ m, n = m + 1 := ⟨n - 1, by omega⟩
    rfl
  | t :: ts, H =>
    have en : ((headPtr ts).orElse fun _ => none) = headPtr ts := by cases headPtr ts <;> rfl
    have g : h.get t.ptr = .ok ⟨t.kind, t.data, x, y, (headPtr ts).orElse fun _ => none, headPtr t.kids, lastPtr t.kids⟩ :=
      (H.of_eq (N := R + listCells x (some t.ptr) ts none + listCells (some t.ptr) none t.kids none + {(t.ptr, _)})
        (by simp only [listCells]; rw [treeCells_eq]; abel)).get
    obtain ⟨h1, ⟨n1, e1⟩, f1, H1⟩ := destroy_is t (h := h) (x := x) (y := y) (z := (headPtr ts).orElse fun _ => none)
      (R := R + listCells x (some t.ptr) ts none) (H.of_eq (by simp only [listCells]; abel))
    obtain ⟨h2, ⟨n2, e2⟩, f2, H2⟩ := destroyChildren_is ts H1
    refine ⟨h2, ⟨max n1 n2 + 1, ?_⟩, by rw [f2, f1], H2⟩
    intro n hn
    obtain ⟨m, rfl⟩ : ∃ m, n = m + 1 := ⟨n - 1, by omega⟩
    have l1 : n1 ≤ m := by have := le_max_left n1 n2; omega
    have l2 : n2 ≤ m := by have := le_max_right n1 n2; omega
    simp only [headPtr_cons, destroyChildren]
    rw [g, Run.bind_ok, e1 m l1, Run.bind_ok]
    dsimp only
    rw [en, e2 m l2]

end

/-! ### Changing the neighbours of a place in a list of children -/

theorem patch_prev {h : Heap D} {R : Multiset (Ptr × Cell D)} {p : Ptr} {c : Cell D} {as : List (Tree D)} {z : Option Ptr}
    (v : Option Ptr) (H : Is h (R + {(p, c)} + listCells (some p) none as z)) :
    ∃ h', (match lastPtr as with
        | some x => h.upd x fun c => { c with next := v }
        | none => h.upd p fun c => { c with first := v }) = .ok h' ∧ h'.fresh = h.fresh ∧
      Is h' (R + {(p, { c with first := if as = [] then v else c.first })} + listCells (some p) none as v) := by
  rcases List.eq_nil_or_concat as with rfl | ⟨as, l, rfl⟩
  · obtain ⟨h', e, f, H'⟩ := (H.of_eq (N := R + {(p, c)}) (by simp only [listCells]; abel)).upd fun c => { c with first := v }
    exact ⟨h', e, f, H'.of_eq (by simp only [if_true, listCells]; abel)⟩
  · simp only [List.concat_eq_append] at *
    obtain ⟨l, kl, dl, ul⟩ := l
    obtain ⟨h', e, f, H'⟩ := (H.of_eq (N := R + {(p, c)} + listCells (some p) none as (some l) +
      listCells (some l) none ul none +
      {(l, ⟨kl, dl, some p, (lastPtr as).orElse fun _ => none, z, headPtr ul, lastPtr ul⟩)})
      (by simp only [listCells_append, listCells, treeCells, headPtr_nil, headPtr_cons, node_ptr, orElse_none, some_orElse, none_orElse]; abel)).upd
      fun c => { c with next := v }
    refine ⟨h', ?_, f, H'.of_eq ?_⟩
    · rw [lastPtr_concat]; exact e
    · rw [if_neg (by simp)]
      simp only [listCells_append, listCells, treeCells, headPtr_nil, headPtr_cons, node_ptr, orElse_none, some_orElse, none_orElse]; abel

theorem patch_next {h : Heap D} {R : Multiset (Ptr × Cell D)} {p : Ptr} {c : Cell D} {bs : List (Tree D)} {y : Option Ptr}
    (v : Option Ptr) (H : Is h (R + {(p, c)} + listCells (some p) y bs none)) :
    ∃ h', (match headPtr bs with
        | some x => h.upd x fun c => { c with prev := v }
        | none => h.upd p fun c => { c with last := v }) = .ok h' ∧ h'.fresh = h.fresh ∧
      Is h' (R + {(p, { c with last := if bs = [] then v else c.last })} + listCells (some p) v bs none) := by
  cases bs with
  | nil =>
    obtain ⟨h', e, f, H'⟩ := (H.of_eq (N := R + {(p, c)}) (by simp only [listCells]; abel)).upd fun c => { c with last := v }
    exact ⟨h', e, f, H'.of_eq (by simp only [if_true, listCells]; abel)⟩
  | cons b bs =>
    obtain ⟨b, kb, db, ub⟩ := b
    obtain ⟨h', e, f, H'⟩ := (H.of_eq (N := R + {(p, c)} + listCells (some p) (some b) bs none +
      listCells (some b) none ub none +
      {(b, ⟨kb, db, some p, y, (headPtr bs).orElse fun _ => none, headPtr ub, lastPtr ub⟩)})
      (by simp only [listCells, treeCells, node_ptr]; abel)).upd
      fun c => { c with prev := v }
    refine ⟨h', e, f, H'.of_eq ?_⟩
    rw [if_neg (by simp)]
    simp only [listCells, treeCells, node_ptr]; abel

theorem first_split (as : List (Tree D)) (t : Tree D) (bs cs : List (Tree D)) :
    (if as = [] then some t.ptr else headPtr (as ++ cs)) = headPtr (as ++ t :: bs) := by
  cases as with
  | nil => rfl
  | cons a as => rfl

theorem last_split (as : List (Tree D)) (t : Tree D) (bs cs : List (Tree D)) :
    (if bs = [] then some t.ptr else lastPtr (cs ++ bs)) = lastPtr (as ++ t :: bs) := by
  rcases List.eq_nil_or_concat bs with rfl | ⟨bs, l, rfl⟩
  · rw [if_pos rfl, lastPtr_concat]
  · rw [if_neg (by simp), List.concat_eq_append, ← List.cons_append, ← List.append_assoc, ← List.append_assoc,
      lastPtr_concat, lastPtr_concat]

theorem first_removed (as bs cs : List (Tree D)) :
    (if as = [] then headPtr bs else headPtr (as ++ cs)) = headPtr (as ++ bs) := by
  cases as with
  | nil => rfl
  | cons a as => rfl

theorem last_removed (as bs cs : List (Tree D)) :
    (if bs = [] then lastPtr as else lastPtr (cs ++ bs)) = lastPtr (as ++ bs) := by
  rcases List.eq_nil_or_concat bs with rfl | ⟨bs, l, rfl⟩
  · rw [if_pos rfl, List.append_nil]
  · rw [if_neg (by simp), List.concat_eq_append, ← List.append_assoc, ← List.append_assoc,
      lastPtr_concat, lastPtr_concat]

/-- The cell of a child among its siblings. -/
theorem child_cell {h : Heap D} {R : Multiset (Ptr × Cell D)} {par : Option Ptr} {as bs : List (Tree D)} {s : Tree D}
    (H : Is h (R + listCells par none (as ++ s :: bs) none)) :
    h.get s.ptr = .ok ⟨s.kind, s.data, par, lastPtr as, headPtr bs, headPtr s.kids, lastPtr s.kids⟩ := by
  refine (H.of_eq (N := R + listCells par none as (some s.ptr) + listCells (some s.ptr) none s.kids none +
    listCells par (some s.ptr) bs none + {(s.ptr, _)}) ?_).get
  simp only [listCells_append, listCells, headPtr_cons, orElse_none, some_orElse, none_orElse]
  rw [treeCells_eq]
  abel

section
variable {h : Heap D} {R : Multiset (Ptr × Cell D)} {p : Ptr} {c : Cell D} {as bs : List (Tree D)} {s t : Tree D}

theorem insertBefore_is (hf : c.first = headPtr (as ++ s :: bs)) (hl : c.last = lastPtr (as ++ s :: bs)) (a : Ptr) (n₀ : ℕ)
    (h₀ : Heap D) (g₀ : ∃ e : Cell D, h₀.get s.ptr = .ok e ∧ e.parent = some p)
    (e₀ : ∀ n ≥ n₀, clone n h₀ a = .ok (h, t.ptr))
    (H : Is h (R + {(p, c)} + listCells (some p) none (as ++ s :: bs) none + treeCells none none none t)) :
    ∃ h', (∀ n ≥ n₀, insertBeforeChild n h₀ p (some s.ptr) a = .ok (h', some t.ptr)) ∧ h'.fresh = h.fresh ∧
      Is h' (R + {(p, c.withKids (as ++ t :: s :: bs))} + listCells (some p) none (as ++ t :: s :: bs) none) := by
  obtain ⟨e, ge, he⟩ := g₀
  obtain ⟨q, k, d, us⟩ := t
  simp only [node_ptr] at e₀ ⊢
  obtain ⟨h1, e1, f1, H1⟩ := (H.of_eq (N := R + {(p, c)} + listCells (some p) none (as ++ s :: bs) none +
    listCells (some q) none us none + {(q, _)}) (by simp only [treeCells]; abel)).upd fun c => { c with parent := some p }
  obtain ⟨h2, e2, f2, H2⟩ := H1.upd fun c => { c with next := some s.ptr }
  have g2 := child_cell (H2.of_eq (N := R + {(p, c)} + listCells (some q) none us none + {(q, _)} +
    listCells (some p) none (as ++ s :: bs) none) (by abel))
  obtain ⟨h3, e3, f3, H3⟩ := H2.upd fun d => { d with prev := lastPtr as }
  have g3 := child_cell (H3.of_eq (N := R + {(p, c)} + listCells (some q) none us none + {(q, _)} +
    listCells (some p) none (as ++ s :: bs) none) (by abel))
  have g4 : h3.get p = .ok c := (H3.of_eq (N := R + listCells (some q) none us none + {(q, _)} +
    listCells (some p) none (as ++ s :: bs) none + {(p, c)}) (by abel)).get
  obtain ⟨h5, e5, f5, H5⟩ := patch_prev (h := h3) (p := p) (c := c) (as := as) (z := some s.ptr) (some q)
    (H3.of_eq (N := R + listCells (some p) (lastPtr as) (s :: bs) none + listCells (some q) none us none + {(q, _)} + {(p, c)} +
      listCells (some p) none as (some s.ptr))
      (by simp only [listCells_append, headPtr_cons, orElse_none, some_orElse, none_orElse]; abel))
  obtain ⟨h6, e6, f6, H6⟩ := (H5.of_eq (N := R + listCells (some s.ptr) none s.kids none + listCells (some p) (some s.ptr) bs none +
      listCells (some q) none us none + {(q, _)} + {(p, _)} + listCells (some p) none as (some q) + {(s.ptr, _)})
      (by simp only [listCells]; rw [treeCells_eq]; abel)).upd fun c => { c with prev := some q }
  refine ⟨h6, ?_, by rw [f6, f5, f3, f2, f1], H6.of_eq ?_⟩
  · intro n hn
    unfold insertBeforeChild
    dsimp only
    rw [ge, Run.bind_ok, if_neg (by simp [he]), e₀ n hn, Run.bind_ok]
    dsimp only
    rw [e1, Run.bind_ok, e2, Run.bind_ok, g2, Run.bind_ok]
    dsimp only
    rw [e3, Run.bind_ok, g3, Run.bind_ok]
    dsimp only
    cases hh : lastPtr as with
    | some x =>
      rw [hh] at e5
      dsimp only at e5 ⊢
      rw [e5, Run.bind_ok, e6, Run.bind_ok]
    | none =>
      rw [hh] at e5
      dsimp only at e5 ⊢
      have ha : as = [] := by
        rcases List.eq_nil_or_concat as with h | ⟨as, l, h⟩
        · exact h
        · rw [h, List.concat_eq_append, lastPtr_concat] at hh
          cases hh
      rw [g4, Run.bind_ok, if_pos (by rw [hf, ha]; rfl), e5, Run.bind_ok, e6, Run.bind_ok]
  · have e1 := first_split as (Tree.node q k d us) (s :: bs) (s :: bs)
    have e2 : lastPtr (as ++ s :: bs) = lastPtr (as ++ Tree.node q k d us :: s :: bs) := by
      rw [lastPtr_append, lastPtr_append, lastPtr_cons _ (s :: bs), lastPtr_cons s bs]
      cases lastPtr bs <;> rfl
    simp only [node_ptr] at e1
    simp only [Cell.withKids, ← e1, ← e2, hf, hl, listCells_append, listCells, headPtr_cons, treeCells, node_ptr, orElse_none, some_orElse, none_orElse]
    rw [treeCells_eq]
    abel

theorem insertAfter_is (hf : c.first = headPtr (as ++ s :: bs)) (hl : c.last = lastPtr (as ++ s :: bs)) (a : Ptr) (n₀ : ℕ)
    (h₀ : Heap D) (g₀ : ∃ e : Cell D, h₀.get s.ptr = .ok e ∧ e.parent = some p)
    (e₀ : ∀ n ≥ n₀, clone n h₀ a = .ok (h, t.ptr))
    (H : Is h (R + {(p, c)} + listCells (some p) none (as ++ s :: bs) none + treeCells none none none t)) :
    ∃ h', (∀ n ≥ n₀, insertAfterChild n h₀ p (some s.ptr) a = .ok (h', some t.ptr)) ∧ h'.fresh = h.fresh ∧
      Is h' (R + {(p, c.withKids (as ++ s :: t :: bs))} + listCells (some p) none (as ++ s :: t :: bs) none) := by
  obtain ⟨e, ge, he⟩ := g₀
  obtain ⟨q, k, d, us⟩ := t
  simp only [node_ptr] at e₀ ⊢
  obtain ⟨h1, e1, f1, H1⟩ := (H.of_eq (N := R + {(p, c)} + listCells (some p) none (as ++ s :: bs) none +
    listCells (some q) none us none + {(q, _)}) (by simp only [treeCells]; abel)).upd fun c => { c with parent := some p }
  obtain ⟨h2, e2, f2, H2⟩ := H1.upd fun c => { c with prev := some s.ptr }
  have g2 := child_cell (H2.of_eq (N := R + {(p, c)} + listCells (some q) none us none + {(q, _)} +
    listCells (some p) none (as ++ s :: bs) none) (by abel))
  obtain ⟨h3, e3, f3, H3⟩ := H2.upd fun d => { d with next := headPtr bs }
  have g3 := child_cell (H3.of_eq (N := R + {(p, c)} + listCells (some q) none us none + {(q, _)} +
    listCells (some p) none (as ++ s :: bs) none) (by abel))
  have g4 : h3.get p = .ok c := (H3.of_eq (N := R + listCells (some q) none us none + {(q, _)} +
    listCells (some p) none (as ++ s :: bs) none + {(p, c)}) (by abel)).get
  obtain ⟨h5, e5, f5, H5⟩ := patch_next (h := h3) (p := p) (c := c) (bs := bs) (y := some s.ptr) (some q)
    (H3.of_eq (N := R + listCells (some p) none (as ++ [s]) (headPtr bs) + listCells (some q) none us none + {(q, _)} + {(p, c)} +
      listCells (some p) (some s.ptr) bs none)
      (by simp only [listCells_append, listCells, headPtr_cons, headPtr_nil, orElse_none, some_orElse, none_orElse]; abel))
  obtain ⟨h6, e6, f6, H6⟩ := (H5.of_eq (N := R + listCells (some s.ptr) none s.kids none + listCells (some p) none as (some s.ptr) +
      listCells (some q) none us none + {(q, _)} + {(p, _)} + listCells (some p) (some q) bs none + {(s.ptr, _)})
      (by simp only [listCells_append, listCells, headPtr_cons, headPtr_nil, orElse_none, some_orElse, none_orElse]
          rw [treeCells_eq]; abel)).upd fun c => { c with next := some q }
  refine ⟨h6, ?_, by rw [f6, f5, f3, f2, f1], H6.of_eq ?_⟩
  · intro n hn
    unfold insertAfterChild
    dsimp only
    rw [ge, Run.bind_ok, if_neg (by simp [he]), e₀ n hn, Run.bind_ok]
    dsimp only
    rw [e1, Run.bind_ok, e2, Run.bind_ok, g2, Run.bind_ok]
    dsimp only
    rw [e3, Run.bind_ok, g3, Run.bind_ok]
    dsimp only
    cases hh : headPtr bs with
    | some x =>
      rw [hh] at e5
      dsimp only at e5 ⊢
      rw [e5, Run.bind_ok, e6, Run.bind_ok]
    | none =>
      rw [hh] at e5
      dsimp only at e5 ⊢
      have ha : bs = [] := by
        cases bs with
        | nil => rfl
        | cons b bs => cases hh
      rw [g4, Run.bind_ok, if_pos (by rw [hl, ha, lastPtr_concat]), e5, Run.bind_ok, e6, Run.bind_ok]
  · have e1 := last_split (as ++ [s]) (Tree.node q k d us) bs (as ++ [s])
    have e2 : headPtr (as ++ s :: bs) = headPtr (as ++ s :: Tree.node q k d us :: bs) := by
      rw [headPtr_append, headPtr_append]; rfl
    simp only [node_ptr, List.append_assoc, List.singleton_append] at e1
    simp only [Cell.withKids, ← e1, ← e2, hf, hl, listCells_append, listCells, headPtr_cons, treeCells, node_ptr, orElse_none,
      some_orElse, none_orElse]
    rw [treeCells_eq]
    abel

/-- Taking a child out of the list of its siblings, after which the pointers of the neighbours are as if it were replaced by `v`. -/
theorem replace_is (hf : c.first = headPtr (as ++ s :: bs)) (hl : c.last = lastPtr (as ++ s :: bs)) (a : Ptr) (n₀ : ℕ)
    (h₀ : Heap D) (g₀ : ∃ e : Cell D, h₀.get s.ptr = .ok e ∧ e.parent = some p)
    (e₀ : ∀ n ≥ n₀, clone n h₀ a = .ok (h, t.ptr))
    (H : Is h (R + {(p, c)} + listCells (some p) none (as ++ s :: bs) none + treeCells none none none t)) :
    ∃ h', (∃ n₁, ∀ n ≥ n₁, replaceChild n h₀ p s.ptr a = .ok (h', some t.ptr)) ∧ h'.fresh = h.fresh ∧
      Is h' (R + {(p, c.withKids (as ++ t :: bs))} + listCells (some p) none (as ++ t :: bs) none) := by
  obtain ⟨e, ge, he⟩ := g₀
  obtain ⟨q, k, d, us⟩ := t
  simp only [node_ptr] at e₀ ⊢
  have g1 := child_cell (H.of_eq (N := R + {(p, c)} + treeCells none none none (Tree.node q k d us) +
    listCells (some p) none (as ++ s :: bs) none) (by abel))
  obtain ⟨h1, e1, f1, H1⟩ := (H.of_eq (N := R + {(p, c)} + listCells (some p) none (as ++ s :: bs) none +
    listCells (some q) none us none + {(q, _)}) (by simp only [treeCells]; abel)).upd fun c => { c with next := headPtr bs }
  have g2 := child_cell (H1.of_eq (N := R + {(p, c)} + listCells (some q) none us none + {(q, _)} +
    listCells (some p) none (as ++ s :: bs) none) (by abel))
  obtain ⟨h2, e2, f2, H2⟩ := H1.upd fun c => { c with prev := lastPtr as }
  have g3 := child_cell (H2.of_eq (N := R + {(p, c)} + listCells (some q) none us none + {(q, _)} +
    listCells (some p) none (as ++ s :: bs) none) (by abel))
  obtain ⟨h3, e3, f3, H3⟩ := patch_next (h := h2) (p := p) (c := c) (bs := bs) (y := some s.ptr) (some q)
    (H2.of_eq (N := R + listCells (some p) none (as ++ [s]) (headPtr bs) + listCells (some q) none us none + {(q, _)} + {(p, c)} +
      listCells (some p) (some s.ptr) bs none)
      (by simp only [listCells_append, listCells, headPtr_cons, headPtr_nil, orElse_none, some_orElse, none_orElse]; abel))
  have g4 : h3.get s.ptr = .ok ⟨s.kind, s.data, some p, lastPtr as, headPtr bs, headPtr s.kids, lastPtr s.kids⟩ :=
    (H3.of_eq (N := R + listCells (some p) none as (some s.ptr) + listCells (some s.ptr) none s.kids none +
      listCells (some q) none us none + {(q, _)} + {(p, _)} + listCells (some p) (some q) bs none + {(s.ptr, _)})
      (by simp only [listCells_append, listCells, headPtr_cons, headPtr_nil, orElse_none, some_orElse, none_orElse]
          rw [treeCells_eq]; abel)).get
  obtain ⟨h4, e4, f4, H4⟩ := patch_prev (h := h3) (p := p) (as := as) (z := some s.ptr) (some q)
    (c := { c with last := if bs = [] then some q else c.last })
    (H3.of_eq (N := R + treeCells (some p) (lastPtr as) (headPtr bs) s + listCells (some q) none us none + {(q, _)} +
      listCells (some p) (some q) bs none + {(p, _)} + listCells (some p) none as (some s.ptr))
      (by simp only [listCells_append, listCells, headPtr_cons, headPtr_nil, orElse_none, some_orElse, none_orElse]; abel))
  obtain ⟨h5, ⟨n5, e5⟩, f5, H5⟩ := destroy_is s (h := h4) (H4.of_eq (N := R + listCells (some q) none us none + {(q, _)} +
      listCells (some p) (some q) bs none + {(p, _)} + listCells (some p) none as (some q) +
      treeCells (some p) (lastPtr as) (headPtr bs) s) (by abel))
  obtain ⟨h6, e6, f6, H6⟩ := (H5.of_eq (N := R + listCells (some q) none us none +
      listCells (some p) (some q) bs none + {(p, _)} + listCells (some p) none as (some q) + {(q, _)}) (by abel)).upd
      fun c => { c with parent := some p }
  refine ⟨h6, ⟨max n₀ n5, ?_⟩, by rw [f6, f5, f4, f3, f2, f1], H6.of_eq ?_⟩
  · intro n hn
    have l1 : n₀ ≤ n := le_trans (le_max_left _ _) hn
    have l5 : n5 ≤ n := le_trans (le_max_right _ _) hn
    unfold replaceChild
    rw [ge, Run.bind_ok, if_neg (by simp [he]), e₀ n l1, Run.bind_ok]
    dsimp only
    rw [g1, Run.bind_ok]
    dsimp only
    rw [e1, Run.bind_ok, g2, Run.bind_ok]
    dsimp only
    rw [e2, Run.bind_ok, g3, Run.bind_ok]
    dsimp only
    cases hb : headPtr bs with
    | some x =>
      rw [hb] at e3 g4
      dsimp only at e3 ⊢
      rw [e3, Run.bind_ok, g4, Run.bind_ok]
      dsimp only
      cases ha : lastPtr as with
      | some x =>
        rw [ha] at e4
        dsimp only at e4 ⊢
        rw [e4, Run.bind_ok, e5 n l5, Run.bind_ok, e6, Run.bind_ok]
      | none =>
        rw [ha] at e4
        dsimp only at e4 ⊢
        rw [e4, Run.bind_ok, e5 n l5, Run.bind_ok, e6, Run.bind_ok]
    | none =>
      rw [hb] at e3 g4
      dsimp only at e3 ⊢
      rw [e3, Run.bind_ok, g4, Run.bind_ok]
      dsimp only
      cases ha : lastPtr as with
      | some x =>
        rw [ha] at e4
        dsimp only at e4 ⊢
        rw [e4, Run.bind_ok, e5 n l5, Run.bind_ok, e6, Run.bind_ok]
      | none =>
        rw [ha] at e4
        dsimp only at e4 ⊢
        rw [e4, Run.bind_ok, e5 n l5, Run.bind_ok, e6, Run.bind_ok]
  · have e1 := last_split as (Tree.node q k d us) bs (as ++ [s])
    have e2 := first_split as (Tree.node q k d us) bs (s :: bs)
    simp only [node_ptr, List.append_assoc, List.singleton_append] at e1 e2
    simp only [Cell.withKids, ← e1, ← e2, hf, hl, listCells_append, listCells, headPtr_cons, treeCells, node_ptr, orElse_none,
      some_orElse, none_orElse]
    abel

theorem remove_is (hf : c.first = headPtr (as ++ s :: bs)) (hl : c.last = lastPtr (as ++ s :: bs))
    (H : Is h (R + {(p, c)} + listCells (some p) none (as ++ s :: bs) none)) :
    ∃ h', (∃ n₁, ∀ n ≥ n₁, removeChild n h p s.ptr = .ok h') ∧ h'.fresh = h.fresh ∧
      Is h' (R + {(p, c.withKids (as ++ bs))} + listCells (some p) none (as ++ bs) none) := by
  have g1 := child_cell H
  obtain ⟨h3, e3, f3, H3⟩ := patch_next (h := h) (p := p) (c := c) (bs := bs) (y := some s.ptr) (lastPtr as)
    (H.of_eq (N := R + listCells (some p) none (as ++ [s]) (headPtr bs) + {(p, c)} +
      listCells (some p) (some s.ptr) bs none)
      (by simp only [listCells_append, listCells, headPtr_cons, headPtr_nil, orElse_none, some_orElse, none_orElse]; abel))
  have g4 : h3.get s.ptr = .ok ⟨s.kind, s.data, some p, lastPtr as, headPtr bs, headPtr s.kids, lastPtr s.kids⟩ :=
    (H3.of_eq (N := R + listCells (some p) none as (some s.ptr) + listCells (some s.ptr) none s.kids none +
      {(p, _)} + listCells (some p) (lastPtr as) bs none + {(s.ptr, _)})
      (by simp only [listCells_append, listCells, headPtr_cons, headPtr_nil, orElse_none, some_orElse, none_orElse]
          rw [treeCells_eq]; abel)).get
  obtain ⟨h4, e4, f4, H4⟩ := patch_prev (h := h3) (p := p) (as := as) (z := some s.ptr) (headPtr bs)
    (c := { c with last := if bs = [] then lastPtr as else c.last })
    (H3.of_eq (N := R + treeCells (some p) (lastPtr as) (headPtr bs) s +
      listCells (some p) (lastPtr as) bs none + {(p, _)} + listCells (some p) none as (some s.ptr))
      (by simp only [listCells_append, listCells, headPtr_cons, headPtr_nil, orElse_none, some_orElse, none_orElse]; abel))
  obtain ⟨h5, ⟨n5, e5⟩, f5, H5⟩ := destroy_is s (h := h4) (H4.of_eq (N := R +
      listCells (some p) (lastPtr as) bs none + {(p, _)} + listCells (some p) none as (headPtr bs) +
      treeCells (some p) (lastPtr as) (headPtr bs) s) (by abel))
  refine ⟨h5, ⟨n5, ?_⟩, by rw [f5, f4, f3], H5.of_eq ?_⟩
  · intro n l5
    unfold removeChild
    rw [g1, Run.bind_ok, if_neg (by simp)]
    dsimp only
    cases hb : headPtr bs with
    | some x =>
      rw [hb] at e3 g4 e4
      dsimp only at e3 ⊢
      rw [e3, Run.bind_ok, g4, Run.bind_ok]
      dsimp only
      cases ha : lastPtr as with
      | some x =>
        rw [ha] at e4
        dsimp only at e4 ⊢
        rw [e4, Run.bind_ok, e5 n l5]
      | none =>
        rw [ha] at e4
        dsimp only at e4 ⊢
        rw [e4, Run.bind_ok, e5 n l5]
    | none =>
      rw [hb] at e3 g4 e4
      dsimp only at e3 ⊢
      rw [e3, Run.bind_ok, g4, Run.bind_ok]
      dsimp only
      cases ha : lastPtr as with
      | some x =>
        rw [ha] at e4
        dsimp only at e4 ⊢
        rw [e4, Run.bind_ok, e5 n l5]
      | none =>
        rw [ha] at e4
        dsimp only at e4 ⊢
        rw [e4, Run.bind_ok, e5 n l5]
  · have e1 := last_removed as bs (as ++ [s])
    have e2 := first_removed as bs (s :: bs)
    simp only [List.append_assoc, List.singleton_append] at e1 e2
    simp only [Cell.withKids, ← e1, ← e2, hf, hl, listCells_append, listCells, orElse_none, some_orElse, none_orElse]
    abel

end

end Gear.Xml.Dom
