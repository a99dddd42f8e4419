import Verif.XmlAttrSpec
import Mathlib.Data.Multiset.Bind
import Mathlib.Tactic.Abel
set_option autoImplicit false
set_option linter.unusedSectionVars false
/-!
Lemmas about the rings of attributes in memory.
-/
namespace Gear.Xml.Attr

open Dom (Ptr)
open Spec

/-- The memory consists of the nodes of `M`, at different addresses. -/
structure Is (h : Heap) (M : Multiset (Ptr × Cell)) : Prop where
  nodup : (M.map Prod.fst).Nodup
  cells : ∀ x c, h.cell x = some c ↔ (x, c) ∈ M
  lt : ∀ x ∈ M.map Prod.fst, x < h.fresh

theorem Is.get {h : Heap} {M : Multiset (Ptr × Cell)} {x : Ptr} {c : Cell} (H : Is h (M + {(x, c)})) :
    h.get x = .ok c := by
  have : h.cell x = some c := (H.cells x c).2 (by simp)
  simp [Heap.get, this]

theorem Is.upd {h : Heap} {M : Multiset (Ptr × Cell)} {x : Ptr} {c : Cell} (H : Is h (M + {(x, c)}))
    (f : Cell → Cell) :
    ∃ h', h.upd x f = .ok h' ∧ h'.fresh = h.fresh ∧ Is h' (M + {(x, f c)}) := by
  have hc : h.cell x = some c := (H.cells x c).2 (by simp)
  have hM : ∀ e, (x, e) ∉ M := by
    intro e he
    have := H.nodup
    rw [Multiset.map_add, Multiset.nodup_add] at this
    exact Multiset.disjoint_left.1 this.2.2 (Multiset.mem_map_of_mem Prod.fst he) (by simp)
  refine ⟨{ h with cell := Function.update h.cell x (some (f c)) }, by simp [Heap.upd, hc], rfl, ?_, ?_, ?_⟩
  · have := H.nodup
    simpa using this
  · intro y e
    by_cases hy : y = x
    · subst hy
      simp only [Function.update_self, Multiset.mem_add, Multiset.mem_singleton, Prod.mk.injEq, true_and, Option.some.injEq]
      constructor
      · intro h'; exact Or.inr h'.symm
      · rintro (h' | h')
        · exact absurd h' (hM e)
        · exact h'.symm
    · simp only [Function.update_of_ne hy, H.cells, Multiset.mem_add, Multiset.mem_singleton, Prod.mk.injEq, hy, false_and,
        or_false]
  · have := H.lt
    simpa using this

theorem Is.free {h : Heap} {M : Multiset (Ptr × Cell)} {x : Ptr} {c : Cell} (H : Is h (M + {(x, c)})) :
    ∃ h', h.free x = .ok h' ∧ h'.fresh = h.fresh ∧ Is h' M := by
  have hc : h.cell x = some c := (H.cells x c).2 (by simp)
  have hM : ∀ e, (x, e) ∉ M := by
    intro e he
    have := H.nodup
    rw [Multiset.map_add, Multiset.nodup_add] at this
    exact Multiset.disjoint_left.1 this.2.2 (Multiset.mem_map_of_mem Prod.fst he) (by simp)
  refine ⟨{ h with cell := Function.update h.cell x none }, by simp [Heap.free, hc], rfl, ?_, ?_, ?_⟩
  · have := H.nodup
    rw [Multiset.map_add, Multiset.nodup_add] at this
    exact this.1
  · intro y e
    by_cases hy : y = x
    · subst hy
      simp only [Function.update_self, reduceCtorEq, false_iff]
      exact hM e
    · simp only [Function.update_of_ne hy, H.cells, Multiset.mem_add, Multiset.mem_singleton, Prod.mk.injEq, hy, false_and,
        or_false]
  · intro y hy
    exact H.lt y (by rw [Multiset.map_add, Multiset.mem_add]; exact Or.inl hy)

theorem Is.alloc {h : Heap} {M : Multiset (Ptr × Cell)} (H : Is h M) (k d : Text) :
    Is (h.alloc k d).1 (M + {(h.fresh, ⟨k, d, none, none⟩)}) := by
  have hM : ∀ e, (h.fresh, e) ∉ M := by
    intro e he
    exact absurd (H.lt _ (Multiset.mem_map_of_mem Prod.fst he)) (lt_irrefl _)
  refine ⟨?_, ?_, ?_⟩
  · rw [Multiset.map_add, Multiset.nodup_add]
    refine ⟨H.nodup, by simp, ?_⟩
    rw [Multiset.disjoint_left]
    intro y hy hy'
    have : y = h.fresh := by simpa using hy'
    subst this
    exact absurd (H.lt _ hy) (lt_irrefl _)
  · intro y e
    by_cases hy : y = h.fresh
    · subst hy
      simp only [Heap.alloc, Function.update_self, Multiset.mem_add, Multiset.mem_singleton, Prod.mk.injEq, true_and,
        Option.some.injEq]
      constructor
      · intro h'; exact Or.inr h'.symm
      · rintro (h' | h')
        · exact absurd h' (hM e)
        · exact h'.symm
    · simp only [Heap.alloc, Function.update_of_ne hy, H.cells, Multiset.mem_add, Multiset.mem_singleton, Prod.mk.injEq, hy,
        false_and, or_false]
  · intro y hy
    rw [Multiset.map_add, Multiset.mem_add] at hy
    rcases hy with hy | hy
    · exact Nat.lt_succ_of_lt (H.lt y hy)
    · have : y = h.fresh := by simpa using hy
      subst this
      exact Nat.lt_succ_self _

theorem Is.of_eq {h : Heap} {M N : Multiset (Ptr × Cell)} (H : Is h M) (e : M = N) : Is h N := e ▸ H

/-! ### Rings -/

/-- The first attribute of a list, or what follows it. -/
def headD (d : Ptr) (xs : List Item) : Ptr :=
  match xs with
  | [] => d
  | x :: _ => x.ptr

/-- The last attribute of a list, or what is before it. -/
def lastD (d : Ptr) : List Item → Ptr
  | [] => d
  | x :: xs => lastD x.ptr xs

/-- Attributes between `prv` and `nxt`. -/
def chain (prv : Ptr) : List Item → Ptr → Multiset (Ptr × Cell)
  | [], _ => 0
  | x :: xs, nxt => {(x.ptr, ⟨x.name, x.value, some prv, some (headD nxt xs)⟩)} + chain x.ptr xs nxt

/-- The attributes of an element with the sentinel. -/
def ring (s : Ptr) (xs : List Item) : Multiset (Ptr × Cell) :=
  {(s, ⟨[], [], some (lastD s xs), some (headD s xs)⟩)} + chain s xs s

@[simp] theorem headD_nil (d : Ptr) : headD d [] = d := rfl
@[simp] theorem headD_cons (d : Ptr) (x : Item) (xs : List Item) : headD d (x :: xs) = x.ptr := rfl
@[simp] theorem lastD_nil (d : Ptr) : lastD d [] = d := rfl
@[simp] theorem lastD_cons (d : Ptr) (x : Item) (xs : List Item) : lastD d (x :: xs) = lastD x.ptr xs := rfl

theorem headD_append (d : Ptr) (xs ys : List Item) : headD d (xs ++ ys) = headD (headD d ys) xs := by
  cases xs <;> rfl

theorem lastD_append (d : Ptr) (xs ys : List Item) : lastD d (xs ++ ys) = lastD (lastD d xs) ys := by
  induction xs generalizing d with
  | nil => rfl
  | cons x xs ih => simpa using ih x.ptr

theorem chain_append (p q : Ptr) (xs ys : List Item) :
    chain p (xs ++ ys) q = chain p xs (headD q ys) + chain (lastD p xs) ys q := by
  induction xs generalizing p with
  | nil => simp [chain]
  | cons x xs ih => simp only [List.cons_append, chain, ih, headD_append, lastD_cons]; abel

theorem keys_chain (p q : Ptr) (xs : List Item) : (chain p xs q).map Prod.fst = (xs.map Item.ptr : List Ptr) := by
  induction xs generalizing p with
  | nil => rfl
  | cons x xs ih => simp [chain, ih]

theorem keys_ring (s : Ptr) (xs : List Item) : (ring s xs).map Prod.fst = (s :: xs.map Item.ptr : List Ptr) := by
  simp [ring, keys_chain]

/-- The `next` of the last of some attributes, or of the sentinel before them, is set. -/
theorem set_next {h : Heap} {R : Multiset (Ptr × Cell)} {s b : Ptr} {q : Option Ptr} {xs : List Item} (c : Ptr)
    (H : Is h (R + {(s, ⟨[], [], q, some (headD b xs)⟩)} + chain s xs b)) :
    ∃ h', h.upd (lastD s xs) (fun d => { d with next := some c }) = .ok h' ∧ h'.fresh = h.fresh ∧
      Is h' (R + {(s, ⟨[], [], q, some (headD c xs)⟩)} + chain s xs c) := by
  rcases List.eq_nil_or_concat xs with rfl | ⟨ys, y, rfl⟩
  · obtain ⟨h', e, f, H'⟩ := (H.of_eq (N := R + {(s, ⟨[], [], q, some b⟩)}) (by simp [chain])).upd (fun d => { d with next := some c })
    exact ⟨h', e, f, H'.of_eq (by simp [chain])⟩
  · rw [List.concat_eq_append] at H ⊢
    obtain ⟨h', e, f, H'⟩ := (H.of_eq (N := R + {(s, ⟨[], [], q, some (headD y.ptr ys)⟩)} + chain s ys y.ptr +
        {(y.ptr, ⟨y.name, y.value, some (lastD s ys), some b⟩)})
      (by simp only [chain_append, chain, headD_append, headD_cons, headD_nil]; abel)).upd (fun d => { d with next := some c })
    refine ⟨h', by simpa [lastD_append] using e, f, H'.of_eq ?_⟩
    simp only [chain_append, chain, headD_append, headD_cons, headD_nil]; abel

/-- The `prev` of the first of some attributes, or of the sentinel after them, is set. -/
theorem set_prev {h : Heap} {R : Multiset (Ptr × Cell)} {s a : Ptr} {q : Option Ptr} {xs : List Item} (c : Ptr)
    (H : Is h (R + {(s, ⟨[], [], some (lastD a xs), q⟩)} + chain a xs s)) :
    ∃ h', h.upd (headD s xs) (fun d => { d with prev := some c }) = .ok h' ∧ h'.fresh = h.fresh ∧
      Is h' (R + {(s, ⟨[], [], some (lastD c xs), q⟩)} + chain c xs s) := by
  cases xs with
  | nil =>
    obtain ⟨h', e, f, H'⟩ := (H.of_eq (N := R + {(s, ⟨[], [], some a, q⟩)}) (by simp [chain])).upd (fun d => { d with prev := some c })
    exact ⟨h', e, f, H'.of_eq (by simp [chain])⟩
  | cons x xs =>
    obtain ⟨h', e, f, H'⟩ := (H.of_eq (N := R + {(s, ⟨[], [], some (lastD x.ptr xs), q⟩)} + chain x.ptr xs s +
        {(x.ptr, ⟨x.name, x.value, some a, some (headD s xs)⟩)})
      (by simp only [chain, lastD_cons]; abel)).upd (fun d => { d with prev := some c })
    refine ⟨h', e, f, H'.of_eq ?_⟩
    simp only [chain, lastD_cons]; abel

theorem findFrom_spec {h : Heap} {R : Multiset (Ptr × Cell)} (p s : Ptr) (name : Text) (xs : List Item)
    (hs : s ∉ xs.map Item.ptr) (H : Is h (R + chain p xs s)) :
    ∀ n > xs.length, findFrom s name n h (some (headD s xs)) = .ok ((xs.find? fun x => x.name = name).map Item.ptr) := by
  induction xs generalizing R p with
  | nil =>
    intro n hn
    obtain ⟨m, rfl⟩ : ∃ m, n = m + 1 := ⟨n - 1, by omega⟩
    simp [findFrom]
  | cons x xs ih =>
    intro n hn
    rw [List.length_cons] at hn
    obtain ⟨m, rfl⟩ : ∃ m, n = m + 1 := ⟨n - 1, by omega⟩
    have g := (H.of_eq (N := R + chain x.ptr xs s + {(x.ptr, _)}) (by simp only [chain]; abel)).get
    have hx : ¬ (some x.ptr = some s) := by
      intro e; exact hs (by simp [Option.some.inj e])
    rw [headD_cons, findFrom, if_neg hx]
    simp only [deref, Run.bind_ok]
    rw [g, Run.bind_ok]
    dsimp only
    by_cases hn' : x.name = name
    · rw [if_pos hn']; simp [hn']
    · rw [if_neg hn', List.find?_cons]
      simp only [hn', decide_false]
      exact ih (R := R + {(x.ptr, ⟨x.name, x.value, some p, some (headD s xs)⟩)}) x.ptr (fun hc => hs (List.mem_cons_of_mem _ hc))
        (H.of_eq (by simp only [chain]; abel)) m (by omega)

/-- The sentinel is none of the attributes. -/
theorem sentinel_not {h : Heap} {R : Multiset (Ptr × Cell)} {s : Ptr} {xs : List Item} (H : Is h (R + ring s xs)) :
    s ∉ xs.map Item.ptr ∧ (xs.map Item.ptr).Nodup := by
  have := H.nodup
  rw [Multiset.map_add, Multiset.nodup_add, keys_ring] at this
  have h2 := this.2.1
  rw [Multiset.coe_nodup, List.nodup_cons] at h2
  exact h2

theorem find_spec {h : Heap} {R : Multiset (Ptr × Cell)} {s : Ptr} {xs : List Item} (name : Text) (H : Is h (R + ring s xs)) :
    ∀ n > xs.length, find n h s name = .ok ((xs.find? fun x => x.name = name).map Item.ptr) := by
  intro n hn
  have g := (H.of_eq (N := R + chain s xs s + {(s, _)}) (by simp only [ring]; abel)).get
  rw [find, g, Run.bind_ok]
  exact findFrom_spec (R := R + {(s, ⟨[], [], some (lastD s xs), some (headD s xs)⟩)}) s s name xs (sentinel_not H).1
    (H.of_eq (by simp only [ring]; abel)) n hn

theorem add_is {h : Heap} {R : Multiset (Ptr × Cell)} {s a : Ptr} {xs : List Item} {name value : Text} {y z : Option Ptr}
    (hx : xs.find? (fun x => x.name = name) = none) (H : Is h (R + ring s xs + {(a, ⟨name, value, y, z⟩)})) :
    ∀ n > xs.length, ∃ h', add n h s a = .ok h' ∧ h'.fresh = h.fresh ∧ Is h' (R + ring s (xs ++ [⟨a, name, value⟩])) := by
  intro n hn
  have hf := find_spec (R := R + {(a, ⟨name, value, y, z⟩)}) name (H.of_eq (by abel)) n hn
  obtain ⟨h1, e1, f1, H1⟩ := H.upd (fun c => { c with next := some s })
  have g1 := (H1.of_eq (N := R + chain s xs s + {(a, _)} + {(s, _)}) (by simp only [ring]; abel)).get
  obtain ⟨h2, e2, f2, H2⟩ := H1.upd (fun c => { c with prev := some (lastD s xs) })
  have g2 := (H2.of_eq (N := R + chain s xs s + {(a, _)} + {(s, _)}) (by simp only [ring]; abel)).get
  obtain ⟨h3, e3, f3, H3⟩ := set_next a (H2.of_eq (N := R + {(a, ⟨name, value, some (lastD s xs), some s⟩)} + {(s, _)} + chain s xs s)
    (by simp only [ring]; abel))
  obtain ⟨h4, e4, f4, H4⟩ := (H3.of_eq (N := R + {(a, ⟨name, value, some (lastD s xs), some s⟩)} + chain s xs a + {(s, _)})
    (by abel)).upd (fun c => { c with prev := some a })
  refine ⟨h4, ?_, by rw [f4, f3, f2, f1], H4.of_eq ?_⟩
  · rw [add, H.get, Run.bind_ok]
    dsimp only
    rw [hf, hx, Run.bind_ok]
    simp only [Option.map_none, Option.isSome_none, Bool.false_eq_true, if_false]
    rw [e1, Run.bind_ok, g1, Run.bind_ok, e2, Run.bind_ok, g2, Run.bind_ok]
    simp only [deref, Run.bind_ok]
    rw [e3, Run.bind_ok, e4]
  · simp only [ring, chain_append, lastD_append, headD_append, chain, headD_cons, headD_nil, lastD_cons, lastD_nil]; abel

theorem removeFrom_is {h : Heap} {R : Multiset (Ptr × Cell)} {s : Ptr} (xs bs : List Item) (x : Item) (H : Is h (R + ring s (xs ++ x :: bs)))
    (ds as : List Item) (hd : xs = ds ++ as) :
    ∀ n > as.length, ∃ h', removeFrom s x.ptr n h (some (headD x.ptr as)) = .ok h' ∧ h'.fresh = h.fresh ∧
      Is h' (R + ring s (xs ++ bs) + {(x.ptr, ⟨x.name, x.value, none, none⟩)}) := by
  have hs := sentinel_not H
  induction as generalizing ds with
  | nil =>
    intro n hn
    obtain ⟨m, rfl⟩ : ∃ m, n = m + 1 := ⟨n - 1, by omega⟩
    have hx : ¬ (some x.ptr = some s) := by
      intro e; exact hs.1 (by simp [Option.some.inj e])
    let X : Multiset (Ptr × Cell) := {(x.ptr, ⟨x.name, x.value, some (lastD s xs), some (headD s bs)⟩)}
    have H0 := H.of_eq (N := R + chain x.ptr bs s + X + {(s, ⟨[], [], some (lastD x.ptr bs), some (headD x.ptr xs)⟩)} +
        chain s xs x.ptr)
      (by simp only [ring, chain_append, lastD_append, headD_append, chain, headD_cons, lastD_cons, X]; abel)
    have g0 := (H0.of_eq (N := R + chain x.ptr bs s + {(s, ⟨[], [], some (lastD x.ptr bs), some (headD x.ptr xs)⟩)} +
        chain s xs x.ptr + X) (by abel)).get
    obtain ⟨h1, e1, f1, H1⟩ := set_next (headD s bs) H0
    have g1 := (H1.of_eq (N := R + chain x.ptr bs s + {(s, ⟨[], [], some (lastD x.ptr bs), some (headD (headD s bs) xs)⟩)} +
        chain s xs (headD s bs) + X) (by abel)).get
    obtain ⟨h2, e2, f2, H2⟩ := set_prev (R := R + chain s xs (headD s bs) + X) (a := x.ptr) (xs := bs) (lastD s xs)
      (H1.of_eq (by abel))
    obtain ⟨h3, e3, f3, H3⟩ := (H2.of_eq (N := R + chain s xs (headD s bs) +
        {(s, ⟨[], [], some (lastD (lastD s xs) bs), some (headD (headD s bs) xs)⟩)} + chain (lastD s xs) bs s + X) (by abel)).upd
      (fun d => { d with next := none })
    obtain ⟨h4, e4, f4, H4⟩ := H3.upd (fun d => { d with prev := none })
    refine ⟨h4, ?_, by rw [f4, f3, f2, f1], H4.of_eq ?_⟩
    · rw [headD_nil, removeFrom, if_neg hx]
      simp only [deref, Run.bind_ok]
      rw [g0, Run.bind_ok, if_pos trivial]
      dsimp only
      rw [Run.bind_ok, e1, Run.bind_ok, g1, Run.bind_ok]
      dsimp only
      rw [Run.bind_ok, e2, Run.bind_ok, e3, Run.bind_ok, e4]
    · simp only [ring, chain_append, lastD_append, headD_append]; abel
  | cons a as ih =>
    intro n hn
    rw [List.length_cons] at hn
    obtain ⟨m, rfl⟩ : ∃ m, n = m + 1 := ⟨n - 1, by omega⟩
    have ha : ¬ (some a.ptr = some s) := by
      intro e; exact hs.1 (by simp [hd, Option.some.inj e])
    have hax : ¬ (a.ptr = x.ptr) := by
      intro e
      have := hs.2
      rw [hd] at this
      simp [List.nodup_append, e] at this
    have g := (H.of_eq (N := R + {(s, ⟨[], [], some (lastD s (xs ++ x :: bs)), some (headD s (xs ++ x :: bs))⟩)} + chain s ds a.ptr +
        chain a.ptr (as ++ x :: bs) s + {(a.ptr, _)})
      (by
        rw [hd]
        simp only [ring, List.append_assoc, List.cons_append, chain_append, chain, headD_cons]; abel)).get
    obtain ⟨h', e, f, H'⟩ := ih (ds ++ [a]) (by rw [hd]; simp) m (by omega)
    refine ⟨h', ?_, f, H'⟩
    rw [headD_cons, removeFrom, if_neg ha]
    simp only [deref, Run.bind_ok]
    rw [g, Run.bind_ok, if_neg hax]
    dsimp only
    rw [headD_append, headD_cons]
    exact e

theorem remove_is {h : Heap} {R : Multiset (Ptr × Cell)} {s : Ptr} (as bs : List Item) (x : Item) (H : Is h (R + ring s (as ++ x :: bs))) :
    ∀ n > as.length, ∃ h', remove n h s x.ptr = .ok h' ∧ h'.fresh = h.fresh ∧
      Is h' (R + ring s (as ++ bs) + {(x.ptr, ⟨x.name, x.value, none, none⟩)}) := by
  intro n hn
  obtain ⟨h', e, f, H'⟩ := removeFrom_is as bs x H [] as rfl n hn
  have g := (H.of_eq (N := R + chain s (as ++ x :: bs) s + {(s, _)}) (by simp only [ring]; abel)).get
  refine ⟨h', ?_, f, H'⟩
  rw [remove, g, Run.bind_ok]
  dsimp only
  rw [headD_append, headD_cons]
  exact e

/-! ### The calls on an element -/

theorem make_is {h : Heap} {R : Multiset (Ptr × Cell)} (H : Is h R) :
    ∃ h', make h = .ok (h', h.fresh) ∧ h'.fresh = h.fresh + 1 ∧ Is h' (R + ring h.fresh []) := by
  have H0 := H.alloc [] []
  obtain ⟨h1, e1, f1, H1⟩ := H0.upd (fun c => { c with next := some h.fresh })
  obtain ⟨h2, e2, f2, H2⟩ := H1.upd (fun c => { c with prev := some h.fresh })
  refine ⟨h2, ?_, by rw [f2, f1]; rfl, H2.of_eq (by simp [ring, chain])⟩
  rw [make]
  show (h.alloc [] []).1.upd h.fresh (fun c => { c with next := some h.fresh }) >>= _ = _
  rw [e1, Run.bind_ok]
  show h1.upd h.fresh (fun c => { c with prev := some h.fresh }) >>= _ = _
  rw [e2, Run.bind_ok]
  rfl

theorem set_split (made : ℕ) (name value : Text) (xs : List Item) :
    (xs.find? (fun x => x.name = name) = none ∧ assign made name value xs = (xs ++ [⟨made, name, value⟩], made + 1)) ∨
    ∃ as x bs, xs = as ++ x :: bs ∧ xs.find? (fun x => x.name = name) = some x ∧
      assign made name value xs = (as ++ { x with value := value } :: bs, made) := by
  induction xs with
  | nil => exact Or.inl ⟨rfl, rfl⟩
  | cons y xs ih =>
    by_cases hy : y.name = name
    · exact Or.inr ⟨[], y, xs, rfl, by simp [hy], by simp [assign, hy]⟩
    · rcases ih with ⟨h1, h2⟩ | ⟨as, x, bs, h1, h2, h3⟩
      · left
        refine ⟨by rw [List.find?_cons]; simp only [hy, decide_false]; exact h1, ?_⟩
        simp [assign, hy, h2]
      · right
        refine ⟨y :: as, x, bs, by rw [h1]; rfl, by rw [List.find?_cons]; simp only [hy, decide_false]; exact h2, ?_⟩
        simp [assign, hy, h3]

/-- The members of one attribute of the list. -/
theorem item_cell {h : Heap} {R : Multiset (Ptr × Cell)} {s : Ptr} (as bs : List Item) (x : Item) (H : Is h (R + ring s (as ++ x :: bs))) :
    h.get x.ptr = .ok ⟨x.name, x.value, some (lastD s as), some (headD s bs)⟩ :=
  (H.of_eq (N := R + {(s, ⟨[], [], some (lastD s (as ++ x :: bs)), some (headD s (as ++ x :: bs))⟩)} + chain s as x.ptr +
    chain x.ptr bs s + {(x.ptr, ⟨x.name, x.value, some (lastD s as), some (headD s bs)⟩)})
    (by simp only [ring, chain_append, chain, headD_cons]; abel)).get

/-- Name and value of one attribute of the list are changed. -/
theorem item_upd {h : Heap} {R : Multiset (Ptr × Cell)} {s : Ptr} (as bs : List Item) (x x' : Item) (f : Cell → Cell) (hp : x'.ptr = x.ptr)
    (hf : ∀ p q, f ⟨x.name, x.value, p, q⟩ = ⟨x'.name, x'.value, p, q⟩) (H : Is h (R + ring s (as ++ x :: bs))) :
    ∃ h', h.upd x.ptr f = .ok h' ∧ h'.fresh = h.fresh ∧ Is h' (R + ring s (as ++ x' :: bs)) := by
  obtain ⟨h', e, f', H'⟩ := (H.of_eq (N := R + {(s, ⟨[], [], some (lastD s (as ++ x :: bs)), some (headD s (as ++ x :: bs))⟩)} +
    chain s as x.ptr + chain x.ptr bs s + {(x.ptr, ⟨x.name, x.value, some (lastD s as), some (headD s bs)⟩)})
    (by simp only [ring, chain_append, chain, headD_cons]; abel)).upd f
  refine ⟨h', e, f', H'.of_eq ?_⟩
  rw [hf]
  simp only [ring, chain_append, chain, headD_cons, headD_append, lastD_append, lastD_cons, hp]; abel

theorem setAttribute_is {h : Heap} {R : Multiset (Ptr × Cell)} {s : Ptr} {xs : List Item} (name value : Text) (H : Is h (R + ring s xs)) :
    ∀ n > xs.length, ∃ h', setAttribute n h s name value = .ok h' ∧ h'.fresh = (assign h.fresh name value xs).2 ∧
      Is h' (R + ring s (assign h.fresh name value xs).1) := by
  intro n hn
  have hf := find_spec name H n hn
  rcases set_split h.fresh name value xs with ⟨h1, h2⟩ | ⟨as, x, bs, h1, h2, h3⟩
  · obtain ⟨h', e, f, H'⟩ := add_is h1 (H.alloc name value) n hn
    refine ⟨h', ?_, by rw [f, h2]; rfl, by rw [h2]; exact H'⟩
    rw [setAttribute, hf, h1, Run.bind_ok]
    exact e
  · rw [h3]
    rw [h1] at H
    obtain ⟨h', e, f, H'⟩ := item_upd as bs x { x with value := value } (fun c => { c with value := value }) rfl (fun _ _ => rfl) H
    refine ⟨h', ?_, f, H'⟩
    rw [setAttribute, hf, h2, Run.bind_ok]
    exact e

theorem erase_split (name : Text) (xs : List Item) :
    (xs.find? (fun x => x.name = name) = none ∧ erase name xs = xs) ∨
    ∃ as x bs, xs = as ++ x :: bs ∧ xs.find? (fun x => x.name = name) = some x ∧ erase name xs = as ++ bs := by
  induction xs with
  | nil => exact Or.inl ⟨rfl, rfl⟩
  | cons y xs ih =>
    by_cases hy : y.name = name
    · exact Or.inr ⟨[], y, xs, rfl, by simp [hy], by simp [erase, hy]⟩
    · rcases ih with ⟨h1, h2⟩ | ⟨as, x, bs, h1, h2, h3⟩
      · left
        refine ⟨by rw [List.find?_cons]; simp only [hy, decide_false]; exact h1, ?_⟩
        rw [erase] at h2 ⊢
        simp [hy, h2]
      · right
        refine ⟨y :: as, x, bs, by rw [h1]; rfl, by rw [List.find?_cons]; simp only [hy, decide_false]; exact h2, ?_⟩
        rw [erase] at h3 ⊢
        simp [hy, h3]

theorem removeAttribute_is {h : Heap} {R : Multiset (Ptr × Cell)} {s : Ptr} {xs : List Item} (name : Text) (H : Is h (R + ring s xs)) :
    ∀ n > xs.length, ∃ h', removeAttribute n h s name = .ok h' ∧ h'.fresh = h.fresh ∧ Is h' (R + ring s (erase name xs)) := by
  intro n hn
  have hf := find_spec name H n hn
  rcases erase_split name xs with ⟨h1, h2⟩ | ⟨as, x, bs, h1, h2, h3⟩
  · refine ⟨h, ?_, rfl, by rw [h2]; exact H⟩
    rw [removeAttribute, hf, h1, Run.bind_ok]
    rfl
  · have hl : n > as.length := by rw [h1] at hn; simp at hn; omega
    rw [h3]
    rw [h1] at H
    obtain ⟨h', e, f, H'⟩ := remove_is as bs x H n hl
    obtain ⟨h'', e', f', H''⟩ := H'.free
    refine ⟨h'', ?_, by rw [f', f], H''⟩
    rw [removeAttribute, hf, h2, Run.bind_ok]
    simp only [Option.map_some]
    rw [e, Run.bind_ok, e']

theorem first_is {h : Heap} {R : Multiset (Ptr × Cell)} {s : Ptr} {xs : List Item} (H : Is h (R + ring s xs)) :
    first h s = .ok (xs.head?.map Item.ptr) := by
  have hs := (sentinel_not H).1
  have g := (H.of_eq (N := R + chain s xs s + {(s, _)}) (by simp only [ring]; abel)).get
  rw [first, g, Run.bind_ok]
  cases xs with
  | nil => simp
  | cons x xs =>
    have : ¬ (x.ptr = s) := by rintro rfl; exact hs (by simp)
    simp [this]

theorem clear_is {h : Heap} {R : Multiset (Ptr × Cell)} {s : Ptr} {xs : List Item} (H : Is h (R + ring s xs)) :
    ∀ n > xs.length + 1, ∃ h', clear n h s = .ok h' ∧ h'.fresh = h.fresh ∧ Is h' (R + ring s []) := by
  induction xs generalizing h with
  | nil =>
    intro n hn
    obtain ⟨m, rfl⟩ : ∃ m, n = m + 1 := ⟨n - 1, by omega⟩
    refine ⟨h, ?_, rfl, H⟩
    rw [clear, first_is H, Run.bind_ok]
    rfl
  | cons x xs ih =>
    intro n hn
    rw [List.length_cons] at hn
    obtain ⟨m, rfl⟩ : ∃ m, n = m + 1 := ⟨n - 1, by omega⟩
    obtain ⟨h1, e1, f1, H1⟩ := remove_is [] xs x H m (by simp; omega)
    obtain ⟨h2, e2, f2, H2⟩ := H1.free
    obtain ⟨h3, e3, f3, H3⟩ := ih H2 m (by omega)
    refine ⟨h3, ?_, by rw [f3, f2, f1], H3⟩
    rw [clear, first_is H, Run.bind_ok]
    simp only [List.head?_cons, Option.map_some]
    rw [e1, Run.bind_ok, e2, Run.bind_ok, e3]

theorem destroy_is {h : Heap} {R : Multiset (Ptr × Cell)} {s : Ptr} {xs : List Item} (H : Is h (R + ring s xs)) :
    ∀ n > xs.length + 1, ∃ h', destroy n h s = .ok h' ∧ h'.fresh = h.fresh ∧ Is h' R := by
  intro n hn
  obtain ⟨h1, e1, f1, H1⟩ := clear_is H n hn
  have H1 := H1.of_eq (N := R + {(s, ⟨[], [], some s, some s⟩)}) (by simp [ring, chain])
  obtain ⟨h2, e2, f2, H2⟩ := H1.free
  refine ⟨h2, ?_, by rw [f2, f1], H2⟩
  rw [destroy, e1, Run.bind_ok, H1.get, Run.bind_ok]
  simp [e2]

/-- `Next` of an attribute of the list. -/
theorem next_is {h : Heap} {R : Multiset (Ptr × Cell)} {s : Ptr} (as bs : List Item) (x : Item) (H : Is h (R + ring s (as ++ x :: bs))) :
    next h x.ptr = .ok (((bs.head?).filter fun y => ¬ (y.value = [] ∧ y.name = [])).map Item.ptr) := by
  rw [next, item_cell as bs x H, Run.bind_ok]
  simp only [deref, Run.bind_ok]
  cases bs with
  | nil =>
    have g := (H.of_eq (N := R + chain s (as ++ [x]) s + {(s, _)}) (by simp only [ring]; abel)).get
    rw [headD_nil, g, Run.bind_ok]
    simp
  | cons y bs =>
    have g := item_cell (R := R) (s := s) (as ++ [x]) bs y (H.of_eq (by simp))
    rw [headD_cons, g, Run.bind_ok]
    by_cases hy : y.value = [] ∧ y.name = []
    · simp [hy]
    · have : (¬ (y.value = [] ∧ y.name = [])) := hy
      simp only [hy, if_false, List.head?_cons, Option.filter, decide_not, decide_false, Bool.not_false, if_true, Option.map_some]

/-- `Previous` of an attribute of the list. -/
theorem previous_is {h : Heap} {R : Multiset (Ptr × Cell)} {s : Ptr} (as bs : List Item) (x : Item) (H : Is h (R + ring s (as ++ x :: bs))) :
    previous h x.ptr = .ok (((as.getLast?).filter fun y => ¬ (y.value = [] ∧ y.name = [])).map Item.ptr) := by
  rw [previous, item_cell as bs x H, Run.bind_ok]
  simp only [deref, Run.bind_ok]
  rcases List.eq_nil_or_concat as with rfl | ⟨as, y, rfl⟩
  · have g := (H.of_eq (N := R + chain s ([] ++ x :: bs) s + {(s, _)}) (by simp only [ring]; abel)).get
    rw [lastD_nil, g, Run.bind_ok]
    simp
  · rw [List.concat_eq_append] at H ⊢
    have g := item_cell (R := R) (s := s) as (x :: bs) y (H.of_eq (by simp))
    rw [lastD_append, lastD_cons, lastD_nil, g, Run.bind_ok]
    by_cases hy : y.value = [] ∧ y.name = []
    · simp [hy]
    · simp only [hy, if_false, List.getLast?_append, List.getLast?_singleton, Option.some_or, Option.filter, decide_not, decide_false,
        Bool.not_false, if_true, Option.map_some]

theorem last_is {h : Heap} {R : Multiset (Ptr × Cell)} {s : Ptr} {xs : List Item} (H : Is h (R + ring s xs)) :
    last h s = .ok (xs.getLast?.map Item.ptr) := by
  have hs := (sentinel_not H).1
  have g := (H.of_eq (N := R + chain s xs s + {(s, _)}) (by simp only [ring]; abel)).get
  rw [last, g, Run.bind_ok]
  rcases List.eq_nil_or_concat xs with rfl | ⟨xs, x, rfl⟩
  · simp
  · rw [List.concat_eq_append] at hs ⊢
    have : ¬ (x.ptr = s) := by rintro rfl; exact hs (by simp)
    simp [lastD_append, this]

theorem set_length (m : ℕ) (name value : Text) (xs : List Item) : (assign m name value xs).1.length ≤ xs.length + 1 := by
  induction xs with
  | nil => simp [assign]
  | cons x xs ih =>
    rw [assign]
    split_ifs
    · simp
    · simpa using ih

theorem copyFrom_is {h : Heap} {R : Multiset (Ptr × Cell)} {s t : Ptr} (xs : List Item) (as : List Item) (x : Item) (bs ys : List Item)
    (hx : xs = as ++ x :: bs) (H : Is h (R + ring s xs + ring t ys)) :
    ∀ n > bs.length + ys.length + bs.length + 2, ∃ h', copyFrom t n h (some x.ptr) = .ok h' ∧
      h'.fresh = (setAll h.fresh ys (walked (x :: bs))).2 ∧
      Is h' (R + ring s xs + ring t (setAll h.fresh ys (walked (x :: bs))).1) := by
  induction bs generalizing h as x ys with
  | nil =>
    intro n hn
    simp only [List.length_nil] at hn
    obtain ⟨m, rfl⟩ : ∃ m, n = m + 2 := ⟨n - 2, by omega⟩
    have g := item_cell as [] x (H.of_eq (N := R + ring t ys + ring s (as ++ x :: [])) (by rw [hx]; abel))
    obtain ⟨h1, e1, f1, H1⟩ := setAttribute_is x.name x.value H (m + 1) (by omega)
    have gn := next_is as [] x (H1.of_eq (N := R + ring t (assign h.fresh x.name x.value ys).1 + ring s (as ++ x :: [])) (by rw [hx]; abel))
    refine ⟨h1, ?_, by simp only [walked, List.takeWhile_nil, setAll]; exact f1,
      by simp only [walked, List.takeWhile_nil, setAll]; exact H1⟩
    rw [copyFrom, g, Run.bind_ok]
    dsimp only
    rw [e1, Run.bind_ok, gn, Run.bind_ok]
    rfl
  | cons y bs ih =>
    intro n hn
    rw [List.length_cons] at hn
    obtain ⟨m, rfl⟩ : ∃ m, n = m + 2 := ⟨n - 2, by omega⟩
    have g := item_cell as (y :: bs) x (H.of_eq (N := R + ring t ys + ring s (as ++ x :: y :: bs)) (by rw [hx]; abel))
    obtain ⟨h1, e1, f1, H1⟩ := setAttribute_is x.name x.value H (m + 1) (by omega)
    have gn := next_is as (y :: bs) x
      (H1.of_eq (N := R + ring t (assign h.fresh x.name x.value ys).1 + ring s (as ++ x :: y :: bs)) (by rw [hx]; abel))
    by_cases hy : y.value = [] ∧ y.name = []
    · have hw : walked (x :: y :: bs) = [x] := by simp [walked, hy]
      rw [hw]
      refine ⟨h1, ?_, f1, H1⟩
      rw [copyFrom, g, Run.bind_ok]
      dsimp only
      rw [e1, Run.bind_ok, gn, Run.bind_ok]
      have : (Option.filter (fun z : Item => decide (¬ (z.value = [] ∧ z.name = []))) (y :: bs).head?).map Item.ptr = none := by
        simp only [List.head?_cons, Option.filter, hy, not_true_eq_false, and_self, decide_false, Bool.false_eq_true, if_false, Option.map_none]
      rw [this]
      rfl
    · have hw : walked (x :: y :: bs) = x :: walked (y :: bs) := by
        simp only [walked, List.takeWhile_cons, hy, not_false_eq_true, decide_true, if_true]
      rw [hw, setAll]
      have hl := set_length h.fresh x.name x.value ys
      obtain ⟨h2, e2, f2, H2⟩ := ih (h := h1) (as ++ [x]) y (assign h.fresh x.name x.value ys).1 (by rw [hx]; simp) H1 (m + 1) (by omega)
      rw [f1] at f2 H2
      refine ⟨h2, ?_, f2, H2⟩
      rw [copyFrom, g, Run.bind_ok]
      dsimp only
      rw [e1, Run.bind_ok, gn, Run.bind_ok]
      have : (Option.filter (fun z : Item => decide (¬ (z.value = [] ∧ z.name = []))) (y :: bs).head?).map Item.ptr = some y.ptr := by
        simp only [List.head?_cons, Option.filter, hy, not_false_eq_true, decide_true, if_true, Option.map_some]
      rw [this]
      exact e2

theorem copyTo_is {h : Heap} {R : Multiset (Ptr × Cell)} {s t : Ptr} (xs ys : List Item) (H : Is h (R + ring s xs + ring t ys)) :
    ∀ n > xs.length + ys.length + xs.length + 2, ∃ h', copyTo n h s t = .ok h' ∧
      h'.fresh = (setAll h.fresh ys (walked xs)).2 ∧ Is h' (R + ring s xs + ring t (setAll h.fresh ys (walked xs)).1) := by
  intro n hn
  have hf := first_is (H.of_eq (N := R + ring t ys + ring s xs) (by abel))
  rw [copyTo, hf, Run.bind_ok]
  cases xs with
  | nil =>
    obtain ⟨m, rfl⟩ : ∃ m, n = m + 1 := ⟨n - 1, by omega⟩
    exact ⟨h, rfl, rfl, H⟩
  | cons x xs =>
    rw [List.length_cons] at hn
    exact copyFrom_is (x :: xs) [] x xs ys rfl H n (by omega)

end Gear.Xml.Attr
