import Verif.XmlDomLemmas
set_option autoImplicit false
set_option linter.unusedSectionVars false
/-!
Lemmas about trees of nodes: what a change of one node does to the nodes in memory.
-/
namespace Gear.Xml.Dom

open Spec

variable {D : Type}

theorem names_nil : names ([] : List (Tree D)) = [] := rfl

theorem names_cons (t : Tree D) (ts : List (Tree D)) : names (t :: ts) = t.all.map Tree.ptr ++ names ts := by
  simp [names, allOf]

theorem names_single (t : Tree D) : names [t] = t.all.map Tree.ptr := by
  simp [names, allOf]

theorem allOf_append (as bs : List (Tree D)) : allOf (as ++ bs) = allOf as ++ allOf bs := by
  induction as with
  | nil => rfl
  | cons a as ih => simp [allOf, ih]

theorem names_append (as bs : List (Tree D)) : names (as ++ bs) = names as ++ names bs := by
  simp [names, allOf_append]

theorem all_eq (t : Tree D) : t.all = t :: allOf t.kids := by cases t; rfl

theorem all_names (t : Tree D) : t.all.map Tree.ptr = t.ptr :: names t.kids := by
  rw [all_eq]; rfl

theorem ptr_mem_names {t : Tree D} {ts : List (Tree D)} (h : t ∈ ts) : t.ptr ∈ names ts := by
  induction ts with
  | nil => simp at h
  | cons u us ih =>
    rw [names_cons, all_names]
    rcases List.mem_cons.1 h with rfl | h
    · simp
    · exact List.mem_append_right _ (ih h)

mutual

theorem keys_tree (x y z : Option Ptr) (t : Tree D) :
    (treeCells x y z t).map Prod.fst = (t.all.map Tree.ptr : Multiset Ptr) := by
  match t with
  | .node p k d ks =>
    have := keys_list (some p) none none ks
    simp only [treeCells, Multiset.map_add, Multiset.map_singleton, this, Tree.all, List.map_cons, Tree.ptr]
    rfl

theorem keys_list (x y z : Option Ptr) (ts : List (Tree D)) :
    (listCells x y ts z).map Prod.fst = (names ts : Multiset Ptr) := by
  match ts with
  | [] => rfl
  | t :: ts =>
    have h1 := keys_tree x y ((headPtr ts).orElse fun _ => z) t
    have h2 := keys_list x (some t.ptr) z ts
    simp only [listCells, Multiset.map_add, h1, h2, names_cons]
    rfl

end

theorem keys_root (ts : List (Tree D)) : (rootCells ts).map Prod.fst = (names ts : Multiset Ptr) := by
  induction ts with
  | nil => rfl
  | cons t ts ih =>
    simp only [rootCells, Multiset.map_add, keys_tree, ih, names_cons]
    rfl

/-! ### Parts -/

mutual

theorem part_tree (x y z : Option Ptr) (t : Tree D) (s : Tree D) (h : s ∈ t.all) :
    ∃ R x' y' z', treeCells x y z t = R + treeCells x' y' z' s := by
  match t, h with
  | .node p k d ks, h =>
    rcases List.mem_cons.1 h with rfl | h
    · exact ⟨0, x, y, z, by simp⟩
    · obtain ⟨R, x', y', z', e⟩ := part_list (some p) none none ks s h
      refine ⟨{(p, ⟨k, d, x, y, z, headPtr ks, lastPtr ks⟩)} + R, x', y', z', ?_⟩
      rw [treeCells, e]; abel

theorem part_list (x y z : Option Ptr) (ts : List (Tree D)) (s : Tree D) (h : s ∈ allOf ts) :
    ∃ R x' y' z', listCells x y ts z = R + treeCells x' y' z' s := by
  match ts, h with
  | t :: ts, h =>
    rcases List.mem_append.1 h with h | h
    · obtain ⟨R, x', y', z', e⟩ := part_tree x y ((headPtr ts).orElse fun _ => z) t s h
      refine ⟨R + listCells x (some t.ptr) ts z, x', y', z', ?_⟩
      rw [listCells, e]; abel
    · obtain ⟨R, x', y', z', e⟩ := part_list x (some t.ptr) z ts s h
      refine ⟨treeCells x y ((headPtr ts).orElse fun _ => z) t + R, x', y', z', ?_⟩
      rw [listCells, e]; abel

end

theorem part_root (ts : List (Tree D)) (s : Tree D) (h : s ∈ allOf ts) :
    ∃ R x y z, rootCells ts = R + treeCells x y z s := by
  induction ts with
  | nil => simp [allOf] at h
  | cons t ts ih =>
    rcases List.mem_append.1 h with h | h
    · obtain ⟨R, x', y', z', e⟩ := part_tree none none none t s h
      refine ⟨R + rootCells ts, x', y', z', ?_⟩
      rw [rootCells, e]; abel
    · obtain ⟨R, x', y', z', e⟩ := ih h
      refine ⟨treeCells none none none t + R, x', y', z', ?_⟩
      rw [rootCells, e]; abel

/-! ### Changes elsewhere -/

theorem edit_ptr (p : Ptr) (g : List (Tree D) → List (Tree D)) (t : Tree D) : (t.edit p g).ptr = t.ptr := by
  obtain ⟨q, k, d, ks⟩ := t
  simp only [Tree.edit]
  split <;> rfl

theorem setData_ptr (p : Ptr) (e : D) (t : Tree D) : (t.setData p e).ptr = t.ptr := by
  obtain ⟨q, k, d, ks⟩ := t
  rfl

theorem editOf_map (p : Ptr) (g : List (Tree D) → List (Tree D)) (ts : List (Tree D)) :
    editOf p g ts = ts.map (Tree.edit p g) := by
  induction ts with
  | nil => rfl
  | cons t ts ih => simp [editOf, ih]

theorem setDataOf_map (p : Ptr) (e : D) (ts : List (Tree D)) : setDataOf p e ts = ts.map (Tree.setData p e) := by
  induction ts with
  | nil => rfl
  | cons t ts ih => simp [setDataOf, ih]

theorem headPtr_map {f : Tree D → Tree D} (hf : ∀ t, (f t).ptr = t.ptr) (ts : List (Tree D)) :
    headPtr (ts.map f) = headPtr ts := by
  cases ts <;> simp [headPtr, hf]

theorem lastPtr_map {f : Tree D → Tree D} (hf : ∀ t, (f t).ptr = t.ptr) (ts : List (Tree D)) :
    lastPtr (ts.map f) = lastPtr ts := by
  simp only [lastPtr, List.getLast?_map, Option.map_map]
  congr 1
  funext t
  exact hf t

mutual

theorem edit_other (p : Ptr) (g : List (Tree D) → List (Tree D)) (t : Tree D) (h : p ∉ t.all.map Tree.ptr) :
    t.edit p g = t := by
  match t, h with
  | .node q k d ks, h =>
    rw [all_names] at h
    simp only [List.mem_cons, not_or, Tree.ptr, Tree.kids] at h
    rw [Tree.edit, if_neg (fun e => h.1 e.symm), editOf_other p g ks h.2]

theorem editOf_other (p : Ptr) (g : List (Tree D) → List (Tree D)) (ts : List (Tree D)) (h : p ∉ names ts) :
    editOf p g ts = ts := by
  match ts, h with
  | [], _ => rfl
  | t :: ts, h =>
    rw [names_cons, List.mem_append, not_or] at h
    rw [editOf, edit_other p g t h.1, editOf_other p g ts h.2]

end

mutual

theorem setData_other (p : Ptr) (e : D) (t : Tree D) (h : p ∉ t.all.map Tree.ptr) : t.setData p e = t := by
  match t, h with
  | .node q k d ks, h =>
    rw [all_names] at h
    simp only [List.mem_cons, not_or, Tree.ptr, Tree.kids] at h
    rw [Tree.setData, if_neg (fun e => h.1 e.symm), setDataOf_other p e ks h.2]

theorem setDataOf_other (p : Ptr) (e : D) (ts : List (Tree D)) (h : p ∉ names ts) : setDataOf p e ts = ts := by
  match ts, h with
  | [], _ => rfl
  | t :: ts, h =>
    rw [names_cons, List.mem_append, not_or] at h
    rw [setDataOf, setData_other p e t h.1, setDataOf_other p e ts h.2]

end

mutual

theorem edit_id (p : Ptr) (t : Tree D) : t.edit p id = t := by
  match t with
  | .node q k d ks =>
    rw [Tree.edit, editOf_id p ks]
    split <;> rfl

theorem editOf_id (p : Ptr) (ts : List (Tree D)) : editOf p id ts = ts := by
  match ts with
  | [] => rfl
  | t :: ts => rw [editOf, edit_id p t, editOf_id p ts]

end

/-! ### The change of one node -/

/-- Among the nodes of `M` is the node `p` with the children `ks`; and the nodes of `N g e` are the same, up to the children of this
node, which are `g ks`, and its data, which is `e`. -/
def Focus (p : Ptr) (s : Tree D) (M : Multiset (Ptr × Cell D)) (N : (List (Tree D) → List (Tree D)) → Multiset (Ptr × Cell D))
    (N' : (List (Tree D) → List (Tree D)) → D → Multiset (Ptr × Cell D)) : Prop :=
  s.ptr = p ∧ ∃ R, ∃ c : Cell D, c.kind = s.kind ∧ c.data = s.data ∧ c.first = headPtr s.kids ∧ c.last = lastPtr s.kids ∧
    M = R + {(p, c)} + listCells (some p) none s.kids none ∧
    (∀ g, N g = R + {(p, c.withKids (g s.kids))} + listCells (some p) none (g s.kids) none) ∧
    ∀ g e, p ∉ names (g s.kids) →
      N' g e = R + {(p, { c.withKids (g s.kids) with data := e })} + listCells (some p) none (g s.kids) none

mutual

theorem focus_tree (p : Ptr) (x y z : Option Ptr) (t : Tree D) (hn : (t.all.map Tree.ptr).Nodup) (hp : p ∈ t.all.map Tree.ptr) :
    ∃ s ∈ t.all, Focus p s (treeCells x y z t) (fun g => treeCells x y z (t.edit p g))
      (fun g e => treeCells x y z ((t.edit p g).setData p e)) := by
  match t, hn, hp with
  | .node q k d ks, hn, hp =>
    by_cases hq : q = p
    · subst hq
      rw [all_names, List.nodup_cons] at hn
      refine ⟨.node q k d ks, by simp [Tree.all], rfl, 0, ⟨k, d, x, y, z, headPtr ks, lastPtr ks⟩, rfl, rfl, rfl, rfl, ?_, ?_, ?_⟩
      · simp only [treeCells, Tree.kids]; abel
      · intro g
        simp only [Tree.edit, if_true, treeCells, Tree.kids, Cell.withKids]; abel
      · intro g e hg
        simp only [Tree.edit, if_true, Tree.setData, treeCells, Tree.kids, Cell.withKids] at hg ⊢
        rw [setDataOf_other q e _ hg]; abel
    · rw [all_names, List.nodup_cons] at hn
      have hp' : p ∈ names ks := by
        rw [all_names, List.mem_cons] at hp
        rcases hp with h | h
        · exact absurd h.symm hq
        · exact h
      obtain ⟨s, hs, e0, R, c, h1, h2, h3, h4, h5, h6, h7⟩ := focus_list p (some q) none none ks hn.2 hp'
      refine ⟨s, List.mem_cons_of_mem _ hs, e0, {(q, ⟨k, d, x, y, z, headPtr ks, lastPtr ks⟩)} + R, c, h1, h2, h3, h4, ?_, ?_, ?_⟩
      · rw [treeCells, h5]; abel
      · intro g
        dsimp only at h6 ⊢
        rw [Tree.edit, if_neg hq, treeCells, h6, editOf_map, headPtr_map (edit_ptr p g), lastPtr_map (edit_ptr p g)]; abel
      · intro g e hg
        dsimp only at h7 ⊢
        rw [Tree.edit, if_neg hq, Tree.setData, if_neg hq, treeCells, h7 g e hg, setDataOf_map, editOf_map,
          headPtr_map (setData_ptr p e), lastPtr_map (setData_ptr p e), headPtr_map (edit_ptr p g), lastPtr_map (edit_ptr p g)]; abel

theorem focus_list (p : Ptr) (x y z : Option Ptr) (ts : List (Tree D)) (hn : (names ts).Nodup) (hp : p ∈ names ts) :
    ∃ s ∈ allOf ts, Focus p s (listCells x y ts z) (fun g => listCells x y (editOf p g ts) z)
      (fun g e => listCells x y (setDataOf p e (editOf p g ts)) z) := by
  match ts, hn, hp with
  | t :: ts, hn, hp =>
    rw [names_cons, List.nodup_append] at hn
    rw [names_cons, List.mem_append] at hp
    have hd : ∀ a, a ∈ t.all.map Tree.ptr → a ∈ names ts → False := fun a h1 h2 => hn.2.2 a h1 a h2 rfl
    rcases hp with hp | hp
    · have hp' : p ∉ names ts := hd p hp
      obtain ⟨s, hs, e0, R, c, h1, h2, h3, h4, h5, h6, h7⟩ :=
        focus_tree p x y ((headPtr ts).orElse fun _ => z) t hn.1 hp
      refine ⟨s, List.mem_append_left _ hs, e0, R + listCells x (some t.ptr) ts z, c, h1, h2, h3, h4, ?_, ?_, ?_⟩
      · rw [listCells, h5]; abel
      · intro g
        dsimp only at h6 ⊢
        rw [editOf, listCells, editOf_other p g ts hp', h6, edit_ptr]; abel
      · intro g e hg
        dsimp only at h7 ⊢
        rw [editOf, setDataOf, listCells, editOf_other p g ts hp', setDataOf_other p e ts hp', h7 g e hg, setData_ptr, edit_ptr]
        abel
    · have hp' : p ∉ t.all.map Tree.ptr := fun h => hd p h hp
      obtain ⟨s, hs, e0, R, c, h1, h2, h3, h4, h5, h6, h7⟩ := focus_list p x (some t.ptr) z ts hn.2.1 hp
      refine ⟨s, List.mem_append_right _ hs, e0, R + treeCells x y ((headPtr ts).orElse fun _ => z) t, c, h1, h2, h3, h4, ?_, ?_, ?_⟩
      · rw [listCells, h5]; abel
      · intro g
        dsimp only at h6 ⊢
        rw [editOf, listCells, edit_other p g t hp', h6, editOf_map, headPtr_map (edit_ptr p g)]; abel
      · intro g e hg
        dsimp only at h7 ⊢
        rw [editOf, setDataOf, listCells, edit_other p g t hp', setData_other p e t hp', h7 g e hg, setDataOf_map, editOf_map,
          headPtr_map (setData_ptr p e), headPtr_map (edit_ptr p g)]; abel

end

theorem focus_root (p : Ptr) (ts : List (Tree D)) (hn : (names ts).Nodup) (hp : p ∈ names ts) :
    ∃ s ∈ allOf ts, Focus p s (rootCells ts) (fun g => rootCells (editOf p g ts))
      (fun g e => rootCells (setDataOf p e (editOf p g ts))) := by
  induction ts with
  | nil => simp [names_nil] at hp
  | cons t ts ih =>
    rw [names_cons, List.nodup_append] at hn
    rw [names_cons, List.mem_append] at hp
    have hd : ∀ a, a ∈ t.all.map Tree.ptr → a ∈ names ts → False := fun a h1 h2 => hn.2.2 a h1 a h2 rfl
    rcases hp with hp | hp
    · have hp' : p ∉ names ts := hd p hp
      obtain ⟨s, hs, e0, R, c, h1, h2, h3, h4, h5, h6, h7⟩ := focus_tree p none none none t hn.1 hp
      refine ⟨s, List.mem_append_left _ hs, e0, R + rootCells ts, c, h1, h2, h3, h4, ?_, ?_, ?_⟩
      · rw [rootCells, h5]; abel
      · intro g
        dsimp only at h6 ⊢
        rw [editOf, rootCells, editOf_other p g ts hp', h6]; abel
      · intro g e hg
        dsimp only at h7 ⊢
        rw [editOf, setDataOf, rootCells, editOf_other p g ts hp', setDataOf_other p e ts hp', h7 g e hg]
        abel
    · have hp' : p ∉ t.all.map Tree.ptr := fun h => hd p h hp
      obtain ⟨s, hs, e0, R, c, h1, h2, h3, h4, h5, h6, h7⟩ := ih hn.2.1 hp
      refine ⟨s, List.mem_append_right _ hs, e0, R + treeCells none none none t, c, h1, h2, h3, h4, ?_, ?_, ?_⟩
      · rw [rootCells, h5]; abel
      · intro g
        dsimp only at h6 ⊢
        rw [editOf, rootCells, edit_other p g t hp', h6]; abel
      · intro g e hg
        dsimp only at h7 ⊢
        rw [editOf, setDataOf, rootCells, edit_other p g t hp', setData_other p e t hp', h7 g e hg]; abel

end Gear.Xml.Dom
