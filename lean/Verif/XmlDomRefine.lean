import Verif.XmlDomFocus
set_option autoImplicit false
set_option linter.unusedSectionVars false
/-!
The calls that change nodes of tinyxml do to the memory what the specification says.
-/
namespace Gear.Xml.Dom

open Spec

variable {D : Type}

/-- The memory has exactly the nodes of the trees in it. -/
def Holds (h : Heap D) (F : Forest D) : Prop := Is h (rootCells F.trees) ∧ h.fresh = F.made

theorem Holds.nodup {h : Heap D} {F : Forest D} (H : Holds h F) : (names F.trees).Nodup := by
  have := H.1.nodup
  rw [keys_root] at this
  exact Multiset.coe_nodup.1 this

theorem find_mem {F : Forest D} {p : Ptr} {s : Tree D} (h : F.find p = some s) : s ∈ allOf F.trees ∧ s.ptr = p := by
  have h1 := List.mem_of_find?_eq_some h
  have h2 := List.find?_some h
  exact ⟨h1, by simpa using h2⟩

theorem find_names {F : Forest D} {p : Ptr} {s : Tree D} (h : F.find p = some s) : p ∈ names F.trees := by
  obtain ⟨h1, h2⟩ := find_mem h
  exact List.mem_map.2 ⟨s, h1, h2⟩

theorem unique {ts : List (Tree D)} (hn : (names ts).Nodup) {s t : Tree D} (hs : s ∈ allOf ts) (ht : t ∈ allOf ts)
    (e : s.ptr = t.ptr) : s = t := List.inj_on_of_nodup_map hn hs ht e

theorem find_eq {F : Forest D} (hn : (names F.trees).Nodup) {t : Tree D} (ht : t ∈ allOf F.trees) :
    F.find t.ptr = some t := by
  cases h : F.find t.ptr with
  | none =>
    have := List.find?_eq_none.1 h t ht
    simp at this
  | some s =>
    obtain ⟨h1, h2⟩ := find_mem h
    rw [unique hn h1 ht h2]

/-- The node named `p` and what changes of it do to the memory. -/
theorem focus_find {F : Forest D} (hn : (names F.trees).Nodup) {p : Ptr} {s : Tree D} (h : F.find p = some s) :
    Focus p s (rootCells F.trees) (fun g => rootCells (editOf p g F.trees))
      (fun g e => rootCells (setDataOf p e (editOf p g F.trees))) := by
  obtain ⟨s', hs', hf⟩ := focus_root p F.trees hn (find_names h)
  obtain ⟨h1, h2⟩ := find_mem h
  rw [unique hn h1 hs' (h2.trans hf.1.symm)]
  exact hf

theorem kids_fresh {ts : List (Tree D)} (hn : (names ts).Nodup) {s : Tree D} (hs : s ∈ allOf ts) :
    (s.ptr :: names s.kids).Nodup := by
  obtain ⟨R, x, y, z, e⟩ := part_root ts s hs
  have : ((rootCells ts).map Prod.fst).Nodup := by rw [keys_root]; exact Multiset.coe_nodup.2 hn
  rw [e, Multiset.map_add, Multiset.nodup_add, keys_tree, all_names] at this
  exact Multiset.coe_nodup.1 this.2.1

theorem roots_of_names {ks : List (Tree D)} (h : (names ks).Nodup) : (ks.map Tree.ptr).Nodup := by
  induction ks with
  | nil => simp
  | cons k ks ih =>
    rw [names_cons, List.nodup_append, all_names] at h
    rw [List.map_cons, List.nodup_cons]
    refine ⟨?_, ih h.2.1⟩
    intro hk
    obtain ⟨t, ht, e⟩ := List.mem_map.1 hk
    exact h.2.2 k.ptr (by simp) t.ptr (ptr_mem_names ht) e.symm

theorem at_none (b : Ptr) (r : Tree D → List (Tree D)) (ks : List (Tree D)) (h : b ∉ ks.map Tree.ptr) : at_ b r ks = ks := by
  induction ks with
  | nil => rfl
  | cons k ks ih =>
    simp only [List.map_cons, List.mem_cons, not_or] at h
    have := ih h.2
    simp only [at_] at this ⊢
    rw [List.flatMap_cons, if_neg (fun e => h.1 e.symm), this]
    rfl

theorem at_split {b : Ptr} {ks : List (Tree D)} (hn : (ks.map Tree.ptr).Nodup) (h : b ∈ ks.map Tree.ptr) :
    ∃ as u bs, ks = as ++ u :: bs ∧ u.ptr = b ∧ ∀ r, at_ b r ks = as ++ (r u ++ bs) := by
  obtain ⟨u, hu, e⟩ := List.mem_map.1 h
  obtain ⟨as, bs, rfl⟩ := List.append_of_mem hu
  refine ⟨as, u, bs, rfl, e, ?_⟩
  intro r
  rw [List.map_append, List.map_cons, List.nodup_append, List.nodup_cons, e] at hn
  have h1 : b ∉ as.map Tree.ptr := fun hb => hn.2.2 b hb b (by simp) rfl
  have h2 := hn.2.1.1
  have h3 : at_ b r (as ++ u :: bs) = at_ b r as ++ (r u ++ at_ b r bs) := by
    simp only [at_, List.flatMap_append, List.flatMap_cons, if_pos e]
  rw [h3, at_none b r as h1, at_none b r bs h2]

theorem root_split {ts : List (Tree D)} (hn : (names ts).Nodup) {q : Ptr} {t : Tree D} (ht : t ∈ ts) (hq : t.ptr = q) :
    ∃ as bs, ts = as ++ t :: bs ∧ (ts.filter fun t => t.ptr ≠ q) = as ++ bs := by
  obtain ⟨as, bs, rfl⟩ := List.append_of_mem ht
  refine ⟨as, bs, rfl, ?_⟩
  have hr := roots_of_names hn
  rw [List.map_append, List.map_cons, List.nodup_append, List.nodup_cons, hq] at hr
  have h1 : ∀ x ∈ as, x.ptr ≠ q := fun x hx e => hr.2.2 x.ptr (List.mem_map_of_mem hx) q (by simp) e
  have h2 : ∀ x ∈ bs, x.ptr ≠ q := fun x hx e => hr.2.1.1 (by rw [← e]; exact List.mem_map_of_mem hx)
  rw [List.filter_append, List.filter_cons]
  rw [if_neg (by simp [hq]), List.filter_eq_self.2 (by simpa using h1), List.filter_eq_self.2 (by simpa using h2)]

mutual

theorem parent_tree (x y z : Option Ptr) (t : Tree D) (b : Ptr) (c : Cell D) (h : (b, c) ∈ treeCells x y z t) :
    (b = t.ptr ∧ c.parent = x) ∨ ∃ s ∈ t.all, c.parent = some s.ptr ∧ b ∈ s.kids.map Tree.ptr := by
  match t, h with
  | .node p k d ks, h =>
    rw [treeCells, Multiset.mem_add, Multiset.mem_singleton] at h
    rcases h with h | h
    · cases h
      exact Or.inl ⟨rfl, rfl⟩
    · rcases parent_list (some p) none none ks b c h with ⟨h1, h2⟩ | ⟨s, hs, h1, h2⟩
      · exact Or.inr ⟨.node p k d ks, by simp [Tree.all], h2, h1⟩
      · exact Or.inr ⟨s, List.mem_cons_of_mem _ hs, h1, h2⟩

theorem parent_list (x y z : Option Ptr) (ts : List (Tree D)) (b : Ptr) (c : Cell D) (h : (b, c) ∈ listCells x y ts z) :
    (b ∈ ts.map Tree.ptr ∧ c.parent = x) ∨ ∃ s ∈ allOf ts, c.parent = some s.ptr ∧ b ∈ s.kids.map Tree.ptr := by
  match ts, h with
  | [], h => simp [listCells] at h
  | t :: ts, h =>
    rw [listCells, Multiset.mem_add] at h
    rcases h with h | h
    · rcases parent_tree x y _ t b c h with ⟨h1, h2⟩ | ⟨s, hs, h1, h2⟩
      · exact Or.inl ⟨by simp [h1], h2⟩
      · exact Or.inr ⟨s, List.mem_append_left _ hs, h1, h2⟩
    · rcases parent_list x (some t.ptr) z ts b c h with ⟨h1, h2⟩ | ⟨s, hs, h1, h2⟩
      · exact Or.inl ⟨List.mem_cons_of_mem _ h1, h2⟩
      · exact Or.inr ⟨s, List.mem_append_right _ hs, h1, h2⟩

end

theorem parent_root (ts : List (Tree D)) (b : Ptr) (c : Cell D) (h : (b, c) ∈ rootCells ts) :
    (b ∈ ts.map Tree.ptr ∧ c.parent = none) ∨ ∃ s ∈ allOf ts, c.parent = some s.ptr ∧ b ∈ s.kids.map Tree.ptr := by
  induction ts with
  | nil => simp [rootCells] at h
  | cons t ts ih =>
    rw [rootCells, Multiset.mem_add] at h
    rcases h with h | h
    · rcases parent_tree none none none t b c h with ⟨h1, h2⟩ | ⟨s, hs, h1, h2⟩
      · exact Or.inl ⟨by simp [h1], h2⟩
      · exact Or.inr ⟨s, List.mem_append_left _ hs, h1, h2⟩
    · rcases ih h with ⟨h1, h2⟩ | ⟨s, hs, h1, h2⟩
      · exact Or.inl ⟨List.mem_cons_of_mem _ h1, h2⟩
      · exact Or.inr ⟨s, List.mem_append_right _ hs, h1, h2⟩

/-- Every node there is can be read, and has the parent that the trees say. -/
theorem get_node {h : Heap D} {F : Forest D} (H : Holds h F) {b : Ptr} {u : Tree D} (hu : F.find b = some u) :
    ∃ c, h.get b = .ok c ∧ c.kind = u.kind ∧ c.data = u.data ∧ c.first = headPtr u.kids ∧ c.last = lastPtr u.kids ∧
      ∀ p s, F.find p = some s → (c.parent = some p ↔ b ∈ s.kids.map Tree.ptr) := by
  have hn := H.nodup
  obtain ⟨hm, hb⟩ := find_mem hu
  obtain ⟨R, x, y, z, e⟩ := part_root F.trees u hm
  rw [treeCells_eq, hb] at e
  have g := (H.1.of_eq (N := R + listCells (some b) none u.kids none + {(b, _)}) (by rw [e]; abel)).get
  refine ⟨_, g, rfl, rfl, rfl, rfl, ?_⟩
  intro p s hs
  obtain ⟨hsm, hsp⟩ := find_mem hs
  constructor
  · intro hp
    have hmem : (b, (⟨u.kind, u.data, x, y, z, headPtr u.kids, lastPtr u.kids⟩ : Cell D)) ∈ rootCells F.trees := by
      rw [e]; simp
    rcases parent_root F.trees b _ hmem with ⟨_, h2⟩ | ⟨s', hs', h1, h2⟩
    · rw [h2] at hp; cases hp
    · have : s'.ptr = p := by
        rw [h1] at hp; exact Option.some.inj hp
      rw [unique hn hsm hs' (hsp.trans this.symm)]
      exact h2
  · intro hk
    obtain ⟨as, v, bs, e1, e2, _⟩ := at_split (roots_of_names (List.nodup_cons.1 (kids_fresh hn hsm)).2) hk
    obtain ⟨R', x', y', z', e'⟩ := part_root F.trees s hsm
    rw [treeCells_eq, e1, hsp] at e'
    have g' := child_cell (H.1.of_eq (N := R' + {(p, _)} + listCells (some p) none (as ++ v :: bs) none) (by rw [e']; abel))
    rw [e2, g] at g'
    have := Run.ok.inj g'
    exact congrArg Cell.parent this

/-! ### Nodes that are not in each other's trees -/

mutual

theorem all_trans (t s u : Tree D) (hs : s ∈ t.all) (hu : u ∈ s.all) : u ∈ t.all := by
  match t, hs with
  | .node p k d ks, hs =>
    rcases List.mem_cons.1 hs with rfl | hs
    · exact hu
    · exact List.mem_cons_of_mem _ (allOf_trans ks s u hs hu)

theorem allOf_trans (ts : List (Tree D)) (s u : Tree D) (hs : s ∈ allOf ts) (hu : u ∈ s.all) : u ∈ allOf ts := by
  match ts, hs with
  | t :: ts, hs =>
    rcases List.mem_append.1 hs with hs | hs
    · exact List.mem_append_left _ (all_trans t s u hs hu)
    · exact List.mem_append_right _ (allOf_trans ts s u hs hu)

end

mutual

theorem apart_tree (t s u : Tree D) (hn : (t.all.map Tree.ptr).Nodup) (hs : s ∈ t.all) (hu : u ∈ t.all) (h1 : s ∉ u.all)
    (h2 : u ∉ s.all) (x : Ptr) (hx : x ∈ s.all.map Tree.ptr) (hx' : x ∈ u.all.map Tree.ptr) : False := by
  match t, hn, hs, hu with
  | .node p k d ks, hn, hs, hu =>
    rcases List.mem_cons.1 hs with rfl | hs'
    · exact h2 hu
    · rcases List.mem_cons.1 hu with rfl | hu'
      · exact h1 hs
      · rw [all_names, List.nodup_cons] at hn
        exact apart_list ks s u hn.2 hs' hu' h1 h2 x hx hx'

theorem apart_list (ts : List (Tree D)) (s u : Tree D) (hn : (names ts).Nodup) (hs : s ∈ allOf ts) (hu : u ∈ allOf ts)
    (h1 : s ∉ u.all) (h2 : u ∉ s.all) (x : Ptr) (hx : x ∈ s.all.map Tree.ptr) (hx' : x ∈ u.all.map Tree.ptr) : False := by
  match ts, hn, hs, hu with
  | t :: ts, hn, hs, hu =>
    rw [names_cons, List.nodup_append] at hn
    have sub1 : ∀ v : Tree D, v ∈ t.all → ∀ y ∈ v.all.map Tree.ptr, y ∈ t.all.map Tree.ptr := by
      intro v hv y hy
      obtain ⟨w, hw, rfl⟩ := List.mem_map.1 hy
      exact List.mem_map_of_mem (all_trans t v w hv hw)
    have sub2 : ∀ v : Tree D, v ∈ allOf ts → ∀ y ∈ v.all.map Tree.ptr, y ∈ names ts := by
      intro v hv y hy
      obtain ⟨w, hw, rfl⟩ := List.mem_map.1 hy
      exact List.mem_map_of_mem (allOf_trans ts v w hv hw)
    rcases List.mem_append.1 hs with hs | hs <;> rcases List.mem_append.1 hu with hu | hu
    · exact apart_tree t s u hn.1 hs hu h1 h2 x hx hx'
    · exact hn.2.2 x (sub1 s hs x hx) x (sub2 u hu x hx') rfl
    · exact hn.2.2 x (sub1 u hu x hx') x (sub2 s hs x hx) rfl
    · exact apart_list ts s u hn.2.1 hs hu h1 h2 x hx hx'

end

mutual

theorem copy_ge (t : Tree D) (n : ℕ) : n ≤ (t.copy n).2 ∧ ∀ x ∈ (t.copy n).1.all.map Tree.ptr, n ≤ x := by
  match t with
  | .node p .leaf d ks => simp [Tree.copy, Tree.all, allOf, Tree.ptr]
  | .node p .document d ks =>
    obtain ⟨h1, h2⟩ := copyOf_ge ks (n + 1)
    refine ⟨by simp only [Tree.copy]; omega, ?_⟩
    intro x hx
    rw [all_names] at hx
    rcases List.mem_cons.1 hx with rfl | hx
    · exact le_rfl
    · exact le_trans (Nat.le_succ n) (h2 x hx)
  | .node p .element d ks =>
    obtain ⟨h1, h2⟩ := copyOf_ge ks (n + 1)
    refine ⟨by simp only [Tree.copy]; omega, ?_⟩
    intro x hx
    rw [all_names] at hx
    rcases List.mem_cons.1 hx with rfl | hx
    · exact le_rfl
    · exact le_trans (Nat.le_succ n) (h2 x hx)

theorem copyOf_ge (ts : List (Tree D)) (n : ℕ) : n ≤ (copyOf n ts).2 ∧ ∀ x ∈ names (copyOf n ts).1, n ≤ x := by
  match ts with
  | [] => exact ⟨le_rfl, by simp [copyOf, names_nil]⟩
  | t :: ts =>
    obtain ⟨h1, h2⟩ := copy_ge t n
    obtain ⟨h3, h4⟩ := copyOf_ge ts (t.copy n).2
    refine ⟨le_trans h1 h3, ?_⟩
    intro x hx
    rw [copyOf, names_cons, List.mem_append] at hx
    rcases hx with hx | hx
    · exact h2 x hx
    · exact le_trans h1 (h4 x hx)

end

/-! ### One call -/

section
variable {h : Heap D} {F : Forest D}

theorem make_holds (H : Holds h F) (k : Kind) (d : D) :
    Holds (h.alloc k d).1 ⟨F.trees ++ [.node F.made k d []], F.made + 1⟩ := by
  refine ⟨(H.1.alloc k d).of_eq ?_, by simp [Heap.alloc, H.2]⟩
  simp only [rootCells_append, rootCells, treeCells, listCells, headPtr_nil, lastPtr_nil, H.2]
  abel

theorem setData_holds (H : Holds h F) {p : Ptr} {s : Tree D} (hs : F.find p = some s) (d : D) :
    ∃ h', (h.upd p fun c => { c with data := d }) = .ok h' ∧ Holds h' ⟨setDataOf p d F.trees, F.made⟩ := by
  obtain ⟨e0, R, c, h1, h2, h3, h4, h5, h6, h7⟩ := focus_find H.nodup hs
  obtain ⟨hm, hp⟩ := find_mem hs
  have hk := List.nodup_cons.1 (kids_fresh H.nodup hm)
  have := h7 id d (by rw [← hp]; exact hk.1)
  dsimp only at this
  rw [editOf_id] at this
  obtain ⟨h', e, f, H'⟩ := (H.1.of_eq (N := R + listCells (some p) none s.kids none + {(p, c)}) (by rw [h5]; abel)).upd
    fun c => { c with data := d }
  refine ⟨h', e, H'.of_eq ?_, f.trans H.2⟩
  simp only [this, Cell.withKids, id, ← h3, ← h4]
  abel

theorem link_holds (H : Holds h F) {p q : Ptr} {s t : Tree D} (ht : t ∈ F.trees) (hq : t.ptr = q) (hs : F.find p = some s)
    (hp : p ∉ names [t]) :
    ∃ h', linkEndChild h p q = .ok h' ∧
      Holds h' ⟨editOf p (fun ks => ks ++ [t]) (F.trees.filter fun t => t.ptr ≠ q), F.made⟩ := by
  obtain ⟨as, bs, e1, e2⟩ := root_split H.nodup ht hq
  have hn : (names (as ++ bs)).Nodup := by
    have := H.nodup
    rw [e1, names_append, names_cons] at this
    rw [names_append]
    exact this.sublist (List.Sublist.append_left (List.sublist_append_right _ _) _)
  have hp' : p ∈ names (as ++ bs) := by
    have := find_names hs
    rw [e1, names_append, names_cons] at this
    rw [names_single] at hp
    rw [names_append]
    simp only [List.mem_append] at this ⊢
    tauto
  obtain ⟨s', hs', e0, R, c, h1, h2, h3, h4, h5, h6, h7⟩ := focus_root p (as ++ bs) hn hp'
  have eM : rootCells F.trees = R + {(p, c)} + listCells (some p) none s'.kids none + treeCells none none none t := by
    rw [← h5, e1, rootCells_append, rootCells_append, rootCells]; abel
  obtain ⟨h', e, f, H'⟩ := link_is (h := h) h3 h4 (H.1.of_eq eM)
  rw [hq] at e
  refine ⟨h', e, H'.of_eq ?_, f.trans H.2⟩
  simp only [e2, h6, Cell.withKids, lastPtr_concat]

theorem clone_holds (H : Holds h F) {a : Ptr} {t : Tree D} (ht : F.find a = some t) :
    ∃ h', (∃ n₀, ∀ n ≥ n₀, clone n h a = .ok (h', (t.copy F.made).1.ptr)) ∧ h'.fresh = (t.copy F.made).2 ∧
      Is h' (rootCells F.trees + treeCells none none none (t.copy F.made).1) := by
  obtain ⟨hm, ha⟩ := find_mem ht
  obtain ⟨R, x, y, z, e⟩ := part_root F.trees t hm
  obtain ⟨h', e1, f, H'⟩ := clone_is t (H.1.of_eq e)
  rw [H.2, ha] at e1
  rw [H.2] at H' f
  refine ⟨h', ?_, f, H'.of_eq (by rw [e])⟩
  rw [copy_ptr]
  exact e1

theorem insertEnd_holds (H : Holds h F) {p a : Ptr} {s t : Tree D} (hs : F.find p = some s) (ht : F.find a = some t) :
    ∃ h', (∃ n₀, ∀ n ≥ n₀, insertEndChild n h p a = .ok (h', some F.made)) ∧
      Holds h' ⟨editOf p (fun ks => ks ++ [(t.copy F.made).1]) F.trees, (t.copy F.made).2⟩ := by
  obtain ⟨h1, ⟨n1, e1⟩, f1, H1⟩ := clone_holds H ht
  obtain ⟨e0, R, c, k1, k2, k3, k4, k5, k6, k7⟩ := focus_find H.nodup hs
  obtain ⟨h2, e2, f2, H2⟩ := link_is (h := h1) (R := R) (t := (t.copy F.made).1) k3 k4 (H1.of_eq (by rw [k5]))
  refine ⟨h2, ⟨n1, ?_⟩, H2.of_eq ?_, f2.trans f1⟩
  · intro n hn
    unfold insertEndChild
    rw [e1 n hn, Run.bind_ok]
    dsimp only
    rw [e2, Run.bind_ok, copy_ptr]
  · simp only [k6, Cell.withKids, lastPtr_concat]

theorem insertBefore_holds (H : Holds h F) {p a b : Ptr} {s t : Tree D} (hs : F.find p = some s) (ht : F.find a = some t)
    (hb : b ∈ s.kids.map Tree.ptr) {u : Tree D} (hu : F.find b = some u) :
    ∃ h', (∃ n₀, ∀ n ≥ n₀, insertBeforeChild n h p (some b) a = .ok (h', some F.made)) ∧
      Holds h' ⟨editOf p (at_ b fun u => [(t.copy F.made).1, u]) F.trees, (t.copy F.made).2⟩ := by
  obtain ⟨h1, ⟨n1, e1⟩, f1, H1⟩ := clone_holds H ht
  obtain ⟨e0, R, c, k1, k2, k3, k4, k5, k6, k7⟩ := focus_find H.nodup hs
  obtain ⟨hm, hp⟩ := find_mem hs
  obtain ⟨as, v, bs, ek, ev, er⟩ := at_split (roots_of_names (List.nodup_cons.1 (kids_fresh H.nodup hm)).2) hb
  obtain ⟨cb, gb, _, _, _, _, hpar⟩ := get_node H hu
  rw [ek] at k3 k4 k5
  obtain ⟨h2, e2, f2, H2⟩ := insertBefore_is (h := h1) (R := R) (t := (t.copy F.made).1) k3 k4 a n1 h
    ⟨cb, by rw [ev]; exact gb, (hpar p s hs).2 hb⟩ e1 (H1.of_eq (by rw [k5]))
  rw [ev, copy_ptr] at e2
  refine ⟨h2, ⟨n1, e2⟩, H2.of_eq ?_, f2.trans f1⟩
  simp only [k6, er, Cell.withKids, List.cons_append, List.nil_append]

theorem insertAfter_holds (H : Holds h F) {p a b : Ptr} {s t : Tree D} (hs : F.find p = some s) (ht : F.find a = some t)
    (hb : b ∈ s.kids.map Tree.ptr) {u : Tree D} (hu : F.find b = some u) :
    ∃ h', (∃ n₀, ∀ n ≥ n₀, insertAfterChild n h p (some b) a = .ok (h', some F.made)) ∧
      Holds h' ⟨editOf p (at_ b fun u => [u, (t.copy F.made).1]) F.trees, (t.copy F.made).2⟩ := by
  obtain ⟨h1, ⟨n1, e1⟩, f1, H1⟩ := clone_holds H ht
  obtain ⟨e0, R, c, k1, k2, k3, k4, k5, k6, k7⟩ := focus_find H.nodup hs
  obtain ⟨hm, hp⟩ := find_mem hs
  obtain ⟨as, v, bs, ek, ev, er⟩ := at_split (roots_of_names (List.nodup_cons.1 (kids_fresh H.nodup hm)).2) hb
  obtain ⟨cb, gb, _, _, _, _, hpar⟩ := get_node H hu
  rw [ek] at k3 k4 k5
  obtain ⟨h2, e2, f2, H2⟩ := insertAfter_is (h := h1) (R := R) (t := (t.copy F.made).1) k3 k4 a n1 h
    ⟨cb, by rw [ev]; exact gb, (hpar p s hs).2 hb⟩ e1 (H1.of_eq (by rw [k5]))
  rw [ev, copy_ptr] at e2
  refine ⟨h2, ⟨n1, e2⟩, H2.of_eq ?_, f2.trans f1⟩
  simp only [k6, er, Cell.withKids, List.cons_append, List.nil_append]

theorem replace_holds (H : Holds h F) {p a b : Ptr} {s t : Tree D} (hs : F.find p = some s) (ht : F.find a = some t)
    (hb : b ∈ s.kids.map Tree.ptr) {u : Tree D} (hu : F.find b = some u) :
    ∃ h', (∃ n₀, ∀ n ≥ n₀, replaceChild n h p b a = .ok (h', some F.made)) ∧
      Holds h' ⟨editOf p (at_ b fun _ => [(t.copy F.made).1]) F.trees, (t.copy F.made).2⟩ := by
  obtain ⟨h1, ⟨n1, e1⟩, f1, H1⟩ := clone_holds H ht
  obtain ⟨e0, R, c, k1, k2, k3, k4, k5, k6, k7⟩ := focus_find H.nodup hs
  obtain ⟨hm, hp⟩ := find_mem hs
  obtain ⟨as, v, bs, ek, ev, er⟩ := at_split (roots_of_names (List.nodup_cons.1 (kids_fresh H.nodup hm)).2) hb
  obtain ⟨cb, gb, _, _, _, _, hpar⟩ := get_node H hu
  rw [ek] at k3 k4 k5
  obtain ⟨h2, e2, f2, H2⟩ := replace_is (h := h1) (R := R) (t := (t.copy F.made).1) k3 k4 a n1 h
    ⟨cb, by rw [ev]; exact gb, (hpar p s hs).2 hb⟩ e1 (H1.of_eq (by rw [k5]))
  rw [ev, copy_ptr] at e2
  refine ⟨h2, e2, H2.of_eq ?_, f2.trans f1⟩
  simp only [k6, er, Cell.withKids, List.cons_append, List.nil_append]

theorem remove_holds (H : Holds h F) {p b : Ptr} {s : Tree D} (hs : F.find p = some s) (hb : b ∈ s.kids.map Tree.ptr) :
    ∃ h', (∃ n₀, ∀ n ≥ n₀, removeChild n h p b = .ok h') ∧ Holds h' ⟨editOf p (at_ b fun _ => []) F.trees, F.made⟩ := by
  obtain ⟨e0, R, c, k1, k2, k3, k4, k5, k6, k7⟩ := focus_find H.nodup hs
  obtain ⟨hm, hp⟩ := find_mem hs
  obtain ⟨as, v, bs, ek, ev, er⟩ := at_split (roots_of_names (List.nodup_cons.1 (kids_fresh H.nodup hm)).2) hb
  rw [ek] at k3 k4 k5
  obtain ⟨h2, e2, f2, H2⟩ := remove_is (h := h) (R := R) k3 k4 (H.1.of_eq (by rw [k5]))
  rw [ev] at e2
  refine ⟨h2, e2, H2.of_eq ?_, f2.trans H.2⟩
  simp only [k6, er, List.nil_append]

theorem clear_is {R : Multiset (Ptr × Cell D)} {p : Ptr} {c : Cell D} {ks : List (Tree D)} (hf : c.first = headPtr ks)
    (H : Is h (R + {(p, c)} + listCells (some p) none ks none)) :
    ∃ h', (∃ n₀, ∀ n ≥ n₀, clear n h p = .ok h') ∧ h'.fresh = h.fresh ∧ Is h' (R + {(p, c.withKids [])}) := by
  have g : h.get p = .ok c := (H.of_eq (N := R + listCells (some p) none ks none + {(p, c)}) (by abel)).get
  obtain ⟨h1, ⟨n1, e1⟩, f1, H1⟩ := destroyChildren_is ks H
  obtain ⟨h2, e2, f2, H2⟩ := H1.upd fun c => { c with first := none, last := none }
  refine ⟨h2, ⟨n1, ?_⟩, by rw [f2, f1], H2⟩
  intro n hn
  unfold clear
  rw [g, Run.bind_ok, hf, e1 n hn, Run.bind_ok, e2]

theorem clear_holds (H : Holds h F) {p : Ptr} {s : Tree D} (hs : F.find p = some s) :
    ∃ h', (∃ n₀, ∀ n ≥ n₀, clear n h p = .ok h') ∧ Holds h' ⟨editOf p (fun _ => []) F.trees, F.made⟩ := by
  obtain ⟨e0, R, c, k1, k2, k3, k4, k5, k6, k7⟩ := focus_find H.nodup hs
  obtain ⟨h1, e1, f1, H1⟩ := clear_is k3 (H.1.of_eq k5)
  refine ⟨h1, e1, H1.of_eq ?_, f1.trans H.2⟩
  simp only [k6, listCells, add_zero]

theorem delete_holds (H : Holds h F) {p : Ptr} (hp : p ∈ F.trees.map Tree.ptr) :
    ∃ h', (∃ n₀, ∀ n ≥ n₀, destroy n h p = .ok h') ∧ Holds h' ⟨F.trees.filter fun t => t.ptr ≠ p, F.made⟩ := by
  obtain ⟨t, ht, e⟩ := List.mem_map.1 hp
  obtain ⟨as, bs, e1, e2⟩ := root_split H.nodup ht e
  obtain ⟨h1, k1, f1, H1⟩ := destroy_is t (h := h) (R := rootCells as + rootCells bs) (x := none) (y := none) (z := none)
    (H.1.of_eq (by rw [e1, rootCells_append, rootCells]; abel))
  rw [e] at k1
  refine ⟨h1, k1, H1.of_eq ?_, f1.trans H.2⟩
  rw [e2, rootCells_append]

theorem assign_holds (blank : D → D) (H : Holds h F) {p b : Ptr} {s t : Tree D} (hs : F.find p = some s) (ht : F.find b = some t)
    (hb : b ∉ names [s]) (hp : p ∉ names [t]) :
    ∃ h', (∃ n₀, ∀ n ≥ n₀, assign blank n h p b = .ok h') ∧
      Holds h' ⟨setDataOf p t.data (editOf p (fun _ => (copyOf F.made t.kids).1) F.trees), (copyOf F.made t.kids).2⟩ := by
  obtain ⟨e0, R, c, k1, k2, k3, k4, k5, k6, k7⟩ := focus_find H.nodup hs
  obtain ⟨hm, hp'⟩ := find_mem hs
  obtain ⟨htm, hb'⟩ := find_mem ht
  obtain ⟨h1, ⟨n1, e1⟩, f1, H1⟩ := clear_is k3 (H.1.of_eq k5)
  obtain ⟨R₂, x, y, z, eR⟩ : ∃ R₂ x y z, R = R₂ + treeCells x y z t := by
    classical
    obtain ⟨R', x, y, z, e⟩ := part_root F.trees t htm
    have hle : treeCells x y z t ≤ R := by
      rw [Multiset.le_iff_count]
      intro a
      by_cases ha : a ∈ treeCells x y z t
      · have hat : a.1 ∈ t.all.map Tree.ptr := by
          have := Multiset.mem_map_of_mem Prod.fst ha
          rw [keys_tree] at this
          exact Multiset.mem_coe.1 this
        have has : a ∉ {(p, c)} + listCells (some p) none s.kids none := by
          intro h'
          have h'' : a.1 ∈ s.all.map Tree.ptr := by
            rw [all_names, hp', List.mem_cons]
            rcases Multiset.mem_add.1 h' with h' | h'
            · left
              rw [Multiset.mem_singleton] at h'
              rw [h']
            · right
              have := Multiset.mem_map_of_mem Prod.fst h'
              rw [keys_list] at this
              exact Multiset.mem_coe.1 this
          refine apart_list F.trees s t H.nodup hm htm ?_ ?_ a.1 h'' hat
          · intro h1
            apply hp
            rw [names_single, ← hp']
            exact List.mem_map_of_mem h1
          · intro h1
            apply hb
            rw [names_single, ← hb']
            exact List.mem_map_of_mem h1
        have e' : R' + treeCells x y z t = R + ({(p, c)} + listCells (some p) none s.kids none) := by
          rw [← e, k5, add_assoc]
        have := congrArg (Multiset.count a) e'
        rw [Multiset.count_add, Multiset.count_add, Multiset.count_eq_zero.2 has] at this
        omega
      · rw [Multiset.count_eq_zero.2 ha]
        exact Nat.zero_le _
    obtain ⟨R₂, h⟩ := Multiset.le_iff_exists_add.1 hle
    exact ⟨R₂, x, y, z, by rw [h, add_comm]⟩
  obtain ⟨h2, e2, f2, H2⟩ := H1.upd fun c => { c with data := blank c.data }
  have g2 : h2.get b = .ok ⟨t.kind, t.data, x, y, z, headPtr t.kids, lastPtr t.kids⟩ := by
    rw [← hb']
    exact (H2.of_eq (N := R₂ + listCells (some t.ptr) none t.kids none + {(p, _)} + {(t.ptr, _)})
      (by rw [eR, treeCells_eq]; abel)).get
  obtain ⟨h3, e3, f3, H3⟩ := H2.upd fun c => { c with data := t.data }
  have g3 : h3.get b = .ok ⟨t.kind, t.data, x, y, z, headPtr t.kids, lastPtr t.kids⟩ := by
    rw [← hb']
    exact (H3.of_eq (N := R₂ + listCells (some t.ptr) none t.kids none + {(p, _)} + {(t.ptr, _)})
      (by rw [eR, treeCells_eq]; abel)).get
  obtain ⟨h4, ⟨n4, e4⟩, f4, H4⟩ := copyChildren_is t.kids (h := h3) (q := p) (x := some t.ptr) (y := none) (old := [])
    (R := R₂ + {(t.ptr, ⟨t.kind, t.data, x, y, z, headPtr t.kids, lastPtr t.kids⟩)})
    (c := { c.withKids [] with data := t.data }) rfl rfl
    (H3.of_eq (by rw [eR, treeCells_eq]; simp only [listCells, Cell.withKids]; abel))
  have ef : h3.fresh = F.made := by rw [f3, f2, f1, H.2]
  rw [ef, List.nil_append] at H4
  rw [ef] at f4
  have hfresh : p ∉ names (copyOf F.made t.kids).1 := by
    intro hx
    have h1 := (copyOf_ge t.kids F.made).2 p hx
    have h2 := H.1.lt p (by rw [keys_root]; exact Multiset.mem_coe.2 (find_names hs))
    rw [H.2] at h2
    exact absurd h2 (not_lt.2 h1)
  refine ⟨h4, ⟨max n1 n4, ?_⟩, H4.of_eq ?_, f4⟩
  · intro n hn
    have l1 : n1 ≤ n := le_trans (le_max_left _ _) hn
    have l4 : n4 ≤ n := le_trans (le_max_right _ _) hn
    unfold assign
    rw [e1 n l1, Run.bind_ok, e2, Run.bind_ok, g2, Run.bind_ok]
    dsimp only
    rw [e3, Run.bind_ok, g3, Run.bind_ok]
    exact e4 n l4
  · have := k7 (fun _ => (copyOf F.made t.kids).1) t.data hfresh
    dsimp only at this ⊢
    rw [this, eR, treeCells_eq x y z t]
    simp only [Cell.withKids]
    abel

/-- What a call does. -/
theorem step_holds (blank : D → D) (H : Holds h F) (o : Op D) {F' : Forest D} {r : Option Ptr} (hF : F.step o = some (F', r)) :
    ∃ h', (∃ n₀, ∀ n ≥ n₀, step blank n h o = .ok (h', r)) ∧ Holds h' F' := by
  cases o with
  | make k d =>
    simp only [Forest.step, Option.some.injEq, Prod.mk.injEq] at hF
    obtain ⟨rfl, rfl⟩ := hF
    refine ⟨(h.alloc k d).1, ⟨0, ?_⟩, make_holds H k d⟩
    intro n _
    simp only [step, Heap.alloc, H.2]
  | setData p d =>
    simp only [Forest.step] at hF
    cases hs : F.find p with
    | none => rw [hs] at hF; cases hF
    | some s =>
      rw [hs] at hF
      simp only [Option.some.injEq, Prod.mk.injEq] at hF
      obtain ⟨rfl, rfl⟩ := hF
      obtain ⟨h', e, H'⟩ := setData_holds H hs d
      refine ⟨h', ⟨0, ?_⟩, H'⟩
      intro n _
      simp only [step, e, Run.bind_ok]
  | link p q =>
    simp only [Forest.step] at hF
    cases ht : F.trees.find? (fun t => t.ptr = q) with
    | none => rw [ht] at hF; cases hF
    | some t =>
      cases hs : F.find p with
      | none => rw [ht, hs] at hF; cases hF
      | some s =>
        rw [ht, hs] at hF
        dsimp only at hF
        by_cases hp : p ∈ names [t]
        · rw [if_pos hp] at hF; cases hF
        · rw [if_neg hp] at hF
          simp only [Option.some.injEq, Prod.mk.injEq] at hF
          obtain ⟨rfl, rfl⟩ := hF
          obtain ⟨h', e, H'⟩ := link_holds H (List.mem_of_find?_eq_some ht) (by simpa using List.find?_some ht) hs hp
          refine ⟨h', ⟨0, ?_⟩, H'⟩
          intro n _
          simp only [step, e, Run.bind_ok]
  | insertEnd p a =>
    simp only [Forest.step] at hF
    cases hs : F.find p with
    | none => rw [hs] at hF; cases hF
    | some s =>
      cases ht : F.find a with
      | none => rw [hs, ht] at hF; cases hF
      | some t =>
        rw [hs, ht] at hF
        simp only [Option.some.injEq, Prod.mk.injEq] at hF
        obtain ⟨rfl, rfl⟩ := hF
        exact insertEnd_holds H hs ht
  | insertBefore p b a =>
    simp only [Forest.step] at hF
    cases hs : F.find p with
    | none => rw [hs] at hF; cases hF
    | some s =>
      cases ht : F.find a with
      | none => rw [hs, ht] at hF; cases hF
      | some t =>
        rw [hs, ht] at hF
        cases b with
        | none =>
          simp only [Option.some.injEq, Prod.mk.injEq] at hF
          obtain ⟨rfl, rfl⟩ := hF
          exact ⟨h, ⟨0, fun n _ => rfl⟩, H⟩
        | some b =>
          dsimp only at hF
          cases hu : F.find b with
          | none => rw [hu] at hF; cases hF
          | some u =>
            rw [hu] at hF
            dsimp only at hF
            by_cases hb : b ∈ s.kids.map Tree.ptr
            · rw [if_pos hb] at hF
              simp only [Option.some.injEq, Prod.mk.injEq] at hF
              obtain ⟨rfl, rfl⟩ := hF
              exact insertBefore_holds H hs ht hb hu
            · rw [if_neg hb] at hF
              simp only [Option.some.injEq, Prod.mk.injEq] at hF
              obtain ⟨rfl, rfl⟩ := hF
              obtain ⟨c, g, _, _, _, _, hpar⟩ := get_node H hu
              refine ⟨h, ⟨0, ?_⟩, H⟩
              intro n _
              simp only [step, insertBeforeChild, g, Run.bind_ok]
              rw [if_pos (fun e => hb ((hpar p s hs).1 e))]
  | insertAfter p b a =>
    simp only [Forest.step] at hF
    cases hs : F.find p with
    | none => rw [hs] at hF; cases hF
    | some s =>
      cases ht : F.find a with
      | none => rw [hs, ht] at hF; cases hF
      | some t =>
        rw [hs, ht] at hF
        cases b with
        | none =>
          simp only [Option.some.injEq, Prod.mk.injEq] at hF
          obtain ⟨rfl, rfl⟩ := hF
          exact ⟨h, ⟨0, fun n _ => rfl⟩, H⟩
        | some b =>
          dsimp only at hF
          cases hu : F.find b with
          | none => rw [hu] at hF; cases hF
          | some u =>
            rw [hu] at hF
            dsimp only at hF
            by_cases hb : b ∈ s.kids.map Tree.ptr
            · rw [if_pos hb] at hF
              simp only [Option.some.injEq, Prod.mk.injEq] at hF
              obtain ⟨rfl, rfl⟩ := hF
              exact insertAfter_holds H hs ht hb hu
            · rw [if_neg hb] at hF
              simp only [Option.some.injEq, Prod.mk.injEq] at hF
              obtain ⟨rfl, rfl⟩ := hF
              obtain ⟨c, g, _, _, _, _, hpar⟩ := get_node H hu
              refine ⟨h, ⟨0, ?_⟩, H⟩
              intro n _
              simp only [step, insertAfterChild, g, Run.bind_ok]
              rw [if_pos (fun e => hb ((hpar p s hs).1 e))]
  | replace p b a =>
    simp only [Forest.step] at hF
    cases hs : F.find p with
    | none => rw [hs] at hF; cases hF
    | some s =>
      cases ht : F.find a with
      | none => rw [hs, ht] at hF; cases hF
      | some t =>
        cases hu : F.find b with
        | none => rw [hs, ht, hu] at hF; cases hF
        | some u =>
          rw [hs, ht, hu] at hF
          dsimp only at hF
          by_cases hb : b ∈ s.kids.map Tree.ptr
          · rw [if_pos hb] at hF
            simp only [Option.some.injEq, Prod.mk.injEq] at hF
            obtain ⟨rfl, rfl⟩ := hF
            exact replace_holds H hs ht hb hu
          · rw [if_neg hb] at hF
            simp only [Option.some.injEq, Prod.mk.injEq] at hF
            obtain ⟨rfl, rfl⟩ := hF
            obtain ⟨c, g, _, _, _, _, hpar⟩ := get_node H hu
            refine ⟨h, ⟨0, ?_⟩, H⟩
            intro n _
            simp only [step, replaceChild, g, Run.bind_ok]
            rw [if_pos (fun e => hb ((hpar p s hs).1 e))]
  | remove p b =>
    simp only [Forest.step] at hF
    cases hs : F.find p with
    | none => rw [hs] at hF; cases hF
    | some s =>
      rw [hs] at hF
      dsimp only at hF
      by_cases hb : b ∈ s.kids.map Tree.ptr
      · rw [if_pos hb] at hF
        simp only [Option.some.injEq, Prod.mk.injEq] at hF
        obtain ⟨rfl, rfl⟩ := hF
        obtain ⟨h', ⟨n₀, e⟩, H'⟩ := remove_holds H hs hb
        refine ⟨h', ⟨n₀, ?_⟩, H'⟩
        intro n hn
        simp only [step, e n hn, Run.bind_ok]
      · rw [if_neg hb] at hF; cases hF
  | clear p =>
    simp only [Forest.step] at hF
    cases hs : F.find p with
    | none => rw [hs] at hF; cases hF
    | some s =>
      rw [hs] at hF
      simp only [Option.some.injEq, Prod.mk.injEq] at hF
      obtain ⟨rfl, rfl⟩ := hF
      obtain ⟨h', ⟨n₀, e⟩, H'⟩ := clear_holds H hs
      refine ⟨h', ⟨n₀, ?_⟩, H'⟩
      intro n hn
      simp only [step, e n hn, Run.bind_ok]
  | delete p =>
    simp only [Forest.step] at hF
    by_cases hp : p ∈ F.trees.map Tree.ptr
    · rw [if_pos hp] at hF
      simp only [Option.some.injEq, Prod.mk.injEq] at hF
      obtain ⟨rfl, rfl⟩ := hF
      obtain ⟨h', ⟨n₀, e⟩, H'⟩ := delete_holds H hp
      refine ⟨h', ⟨n₀, ?_⟩, H'⟩
      intro n hn
      simp only [step, e n hn, Run.bind_ok]
    · rw [if_neg hp] at hF; cases hF
  | assign p b =>
    simp only [Forest.step] at hF
    cases hs : F.find p with
    | none => rw [hs] at hF; cases hF
    | some s =>
      cases ht : F.find b with
      | none => rw [hs, ht] at hF; cases hF
      | some t =>
        rw [hs, ht] at hF
        dsimp only at hF
        by_cases hc : b ∈ names [s] ∨ p ∈ names [t] ∨ s.kind ≠ t.kind ∨ s.kind = .leaf
        · rw [if_pos hc] at hF; cases hF
        · rw [if_neg hc] at hF
          simp only [not_or] at hc
          simp only [Option.some.injEq, Prod.mk.injEq] at hF
          obtain ⟨rfl, rfl⟩ := hF
          obtain ⟨h', ⟨n₀, e⟩, H'⟩ := assign_holds blank H hs ht hc.1 hc.2.1
          refine ⟨h', ⟨n₀, ?_⟩, H'⟩
          intro n hn
          simp only [step, e n hn, Run.bind_ok]

end

section
variable {h : Heap D} {F : Forest D}

theorem run_holds (blank : D → D) (os : List (Op D)) {h : Heap D} {F : Forest D} (H : Holds h F) {F' : Forest D}
    {rs : List (Option Ptr)} (hF : F.run os = some (F', rs)) :
    ∃ h', (∃ n₀, ∀ n ≥ n₀, run blank n h os = .ok (h', rs)) ∧ Holds h' F' := by
  induction os generalizing h F rs with
  | nil =>
    simp only [Forest.run, Option.some.injEq, Prod.mk.injEq] at hF
    obtain ⟨rfl, rfl⟩ := hF
    exact ⟨h, ⟨0, fun n _ => rfl⟩, H⟩
  | cons o os ih =>
    simp only [Forest.run, Option.bind_eq_bind, Option.bind_eq_some_iff] at hF
    obtain ⟨⟨F1, r⟩, e1, ⟨F2, rs'⟩, e2, e3⟩ := hF
    simp only [Option.some.injEq, Prod.mk.injEq] at e3
    obtain ⟨rfl, rfl⟩ := e3
    obtain ⟨h1, ⟨n1, k1⟩, H1⟩ := step_holds blank H o e1
    obtain ⟨h2, ⟨n2, k2⟩, H2⟩ := ih H1 e2
    refine ⟨h2, ⟨max n1 n2, ?_⟩, H2⟩
    intro n hn
    simp only [run]
    rw [k1 n (le_trans (le_max_left _ _) hn), Run.bind_ok, k2 n (le_trans (le_max_right _ _) hn), Run.bind_ok]

theorem empty_holds : Holds (Heap.empty : Heap D) ⟨[], 0⟩ := by
  refine ⟨⟨by simp [rootCells], ?_, by simp [rootCells]⟩, rfl⟩
  intro x c
  simp [rootCells, Heap.empty]

end

end Gear.Xml.Dom
