import Verif.XmlHandleSpec
import Verif.XmlDomProps
set_option autoImplicit false
set_option linter.unusedSectionVars false
/-!
Properties of handles (C132).
-/
namespace Gear.Xml.Dom

open Spec

variable {D : Type}

theorem skip_spec (next : ℕ → Ptr → Run (Option Ptr)) (p : Tree D → Bool) (kids : List (Tree D))
    (hn : ∀ as k bs, kids = as ++ k :: bs → ∃ n₀, ∀ n ≥ n₀, next n k.ptr = .ok ((bs.find? p).map Tree.ptr)) :
    ∀ (m : ℕ) (as l : List (Tree D)), kids = as ++ l →
      ∃ n₀, ∀ n ≥ n₀, skip (next n) m ((l.find? p).map Tree.ptr) = .ok ((l.filter p)[m]?.map Tree.ptr) := by
  intro m
  induction m with
  | zero =>
    intro as l _
    refine ⟨0, fun n _ => ?_⟩
    rw [skip, ← List.head?_filter, List.head?_eq_getElem?]
  | succ m ih =>
    intro as l e
    cases hf : l.find? p with
    | none =>
      refine ⟨0, fun n _ => ?_⟩
      have : l.filter p = [] := List.filter_eq_nil_iff.2 (List.find?_eq_none.1 hf)
      rw [this]
      rfl
    | some k =>
      obtain ⟨hk, cs, bs, rfl, hc⟩ := List.find?_eq_some_iff_append.1 hf
      obtain ⟨n1, e1⟩ := hn (as ++ cs) k bs (by rw [e]; simp)
      obtain ⟨n2, e2⟩ := ih (as ++ cs ++ [k]) bs (by rw [e]; simp)
      refine ⟨max n1 n2, fun n h => ?_⟩
      have : (cs ++ k :: bs).filter p = k :: bs.filter p := by
        rw [List.filter_append, List.filter_eq_nil_iff.2 (fun a ha => by simpa using hc a ha), List.filter_cons, if_pos hk]
        rfl
      rw [this, List.getElem?_cons_succ, Option.map_some, skip, e1 n (le_trans (le_max_left _ _) h), Run.bind_ok]
      exact e2 n (le_trans (le_max_right _ _) h)

/-- What the searches without a value are. -/
theorem firstChild_spec {h : Heap D} {F : Forest D} (H : Holds h F) {t : Tree D} (ht : t ∈ allOf F.trees) :
    firstChild h t.ptr = .ok ((t.kids.find? fun _ => true).map Tree.ptr) ∧
    ∀ as k bs, t.kids = as ++ k :: bs → nextSibling h k.ptr = .ok ((bs.find? fun _ => true).map Tree.ptr) := by
  obtain ⟨R, c, g, h1, h2, H'⟩ := H.part ht
  have hh : ∀ l : List (Tree D), headPtr l = (l.find? fun _ => true).map Tree.ptr := by
    intro l; cases l <;> rfl
  refine ⟨by rw [firstChild, g, Run.bind_ok, h1, hh], fun as k bs e => ?_⟩
  rw [e] at H'
  rw [nextSibling, child_cell H', Run.bind_ok, ← hh]

theorem allOf_kids {ts : List (Tree D)} {t u : Tree D} (ht : t ∈ allOf ts) (hu : u ∈ t.kids) : u ∈ allOf ts := by
  have hall : ∀ (l : List (Tree D)), u ∈ l → u ∈ allOf l := by
    intro l
    induction l with
    | nil => simp
    | cons a l ih =>
      intro h
      rcases List.mem_cons.1 h with rfl | h
      · exact List.mem_append_left _ (by rw [all_eq]; exact List.mem_cons_self)
      · exact List.mem_append_right _ (ih h)
  have hin : u ∈ t.all := by rw [all_eq]; exact List.mem_cons_of_mem _ (hall _ hu)
  induction ts with
  | nil => cases ht
  | cons a ts ih =>
    rcases List.mem_append.1 ht with h | h
    · exact List.mem_append_left _ (all_trans a t u h hin)
    · exact List.mem_append_right _ (ih h)

/-- One call. -/
theorem call_spec {h : Heap D} {F : Forest D} (H : Holds h F) {t : Tree D} (ht : t ∈ allOf F.trees) (c : Call D) :
    ∃ n₀, ∀ n ≥ n₀, call n h (some t.ptr) c = .ok ((t.kids.filter (counts c))[position c]?.map Tree.ptr) := by
  have h0 : ∀ p : Tree D → Bool, (t.kids.filter p)[0]? = t.kids.find? p := fun p => by
    rw [← List.head?_filter, List.head?_eq_getElem?]
  have loop : ∀ (first : ℕ → Run (Option Ptr)) (next : ℕ → Ptr → Run (Option Ptr)) (p : Tree D → Bool) (m : ℕ),
      (∃ n₀, ∀ n ≥ n₀, first n = .ok ((t.kids.find? p).map Tree.ptr)) →
      (∀ as k bs, t.kids = as ++ k :: bs → ∃ n₀, ∀ n ≥ n₀, next n k.ptr = .ok ((bs.find? p).map Tree.ptr)) →
      ∃ n₀, ∀ n ≥ n₀, (first n >>= fun q => skip (next n) m q) = .ok ((t.kids.filter p)[m]?.map Tree.ptr) := by
    intro first next p m hf hn
    obtain ⟨n1, e1⟩ := hf
    obtain ⟨n2, e2⟩ := skip_spec next p t.kids hn m [] t.kids rfl
    refine ⟨max n1 n2, fun n hh => ?_⟩
    rw [e1 n (le_trans (le_max_left _ _) hh), Run.bind_ok]
    exact e2 n (le_trans (le_max_right _ _) hh)
  have hc := fun is => child_of H ht is
  have he := fun is => element_of H ht is
  have hs := fun is as k bs e => sibling_of H ht (as := as) (k := k) (bs := bs) e is
  cases c with
  | firstChild =>
    refine ⟨0, fun n _ => ?_⟩
    simp only [call, (firstChild_spec H ht).1, position, h0]; rfl
  | firstChildOf is =>
    obtain ⟨n₀, e⟩ := hc is
    refine ⟨n₀, fun n hh => ?_⟩
    simp only [call, (e n hh).1, position, h0]; rfl
  | firstChildElement =>
    obtain ⟨n₀, e⟩ := (he fun _ => true).1
    refine ⟨n₀, fun n hh => ?_⟩
    simp only [call, e n hh, position, h0, true_and]; rfl
  | firstChildElementOf is =>
    obtain ⟨n₀, e⟩ := (he is).1
    refine ⟨n₀, fun n hh => ?_⟩
    simp only [call, e n hh, position, h0]; rfl
  | child i =>
    exact loop (fun _ => firstChild h t.ptr) (fun _ => nextSibling h) _ i.toNat ⟨0, fun n _ => (firstChild_spec H ht).1⟩
      (fun as k bs e => ⟨0, fun n _ => (firstChild_spec H ht).2 as k bs e⟩)
  | childOf is i =>
    exact loop (fun n => firstChildOf is n h t.ptr) (fun n => nextSiblingOf is n h) _ i.toNat
      ((hc is).imp fun _ e n hh => (e n hh).1) (fun as k bs e => (hs is as k bs e).imp fun _ e n hh => (e n hh).1)
  | childElement i =>
    have := loop (fun n => firstChildElement (fun _ => true) n h t.ptr) (fun n => nextSiblingElement (fun _ => true) n h) _ i.toNat
      (he fun _ => true).1 (he fun _ => true).2
    simp only [true_and] at this
    exact this
  | childElementOf is i =>
    exact loop (fun n => firstChildElement is n h t.ptr) (fun n => nextSiblingElement is n h) _ i.toNat (he is).1 (he is).2

theorem calls_null (n : ℕ) (h : Heap D) (cs : List (Call D)) : calls n h none cs = .ok none := by
  induction cs with
  | nil => rfl
  | cons c cs ih => exact ih

/-- After every sequence of allowed calls on nodes: from a handle of any node, any calls lead where they should lead in the tree; if at one of
them there is no such child, the handle is null from there on.  `Element`, `Text` and `Unknown` give the node if it is one, or null. -/
theorem handle_history (blank : D → D) (os : List (Op D)) (F : Forest D) (rs : List (Option Ptr))
    (hF : (⟨[], 0⟩ : Forest D).run os = some (F, rs)) :
    ∃ h, (∃ n₀, ∀ n ≥ n₀, run blank n Heap.empty os = .ok (h, rs)) ∧
      (∀ t ∈ allOf F.trees, ∀ cs, ∃ n₀, ∀ n ≥ n₀,
        calls n h (some t.ptr) cs = .ok ((follow t cs).map Tree.ptr) ∧
        (calls n h (some t.ptr) cs >>= handleElement h)
          = .ok (((follow t cs).filter fun u => u.kind = .element).map Tree.ptr) ∧
        ∀ is, (calls n h (some t.ptr) cs >>= handleLeaf is h)
          = .ok (((follow t cs).filter fun u => u.kind = .leaf ∧ is u.data).map Tree.ptr)) ∧
      ∀ n cs is, calls n h none cs = .ok none ∧ handleElement h none = .ok none ∧ handleLeaf is h none = .ok none := by
  obtain ⟨h, e, H⟩ := run_holds blank os empty_holds hF
  refine ⟨h, e, fun t ht cs => ?_, fun n cs is => ⟨calls_null n h cs, rfl, rfl⟩⟩
  have main : ∀ (cs : List (Call D)) (t : Tree D), t ∈ allOf F.trees →
      (∃ n₀, ∀ n ≥ n₀, calls n h (some t.ptr) cs = .ok ((follow t cs).map Tree.ptr)) ∧ ∀ u, follow t cs = some u → u ∈ allOf F.trees := by
    intro cs
    induction cs with
    | nil => exact fun t ht => ⟨⟨0, fun n _ => rfl⟩, fun u hu => by cases hu; exact ht⟩
    | cons c cs ih =>
      intro t ht
      obtain ⟨n1, e1⟩ := call_spec H ht c
      rw [follow]
      cases hu : (t.kids.filter (counts c))[position c]? with
      | none =>
        refine ⟨⟨n1, fun n hn => ?_⟩, by simp⟩
        rw [calls, e1 n hn, hu, Run.bind_ok]
        exact calls_null n h cs
      | some u =>
        have hm : u ∈ allOf F.trees := allOf_kids ht (List.mem_filter.1 (List.mem_of_getElem? hu)).1
        obtain ⟨⟨n2, e2⟩, h2⟩ := ih u hm
        refine ⟨⟨max n1 n2, fun n hn => ?_⟩, by simpa using h2⟩
        rw [calls, e1 n (le_trans (le_max_left _ _) hn), hu, Run.bind_ok]
        exact e2 n (le_trans (le_max_right _ _) hn)
  obtain ⟨⟨n₀, e1⟩, hm⟩ := main cs t ht
  refine ⟨n₀, fun n hn => ?_⟩
  rw [e1 n hn]
  refine ⟨rfl, ?_⟩
  cases hu : follow t cs with
  | none => exact ⟨rfl, fun _ => rfl⟩
  | some u =>
    obtain ⟨R, x, y, z, e⟩ := part_root F.trees u (hm u hu)
    rw [treeCells_eq] at e
    have g := (H.1.of_eq (N := R + listCells (some u.ptr) none u.kids none +
      {(u.ptr, ⟨u.kind, u.data, x, y, z, headPtr u.kids, lastPtr u.kids⟩)}) (by rw [e]; abel)).get
    constructor
    · rw [Option.map_some, Run.bind_ok, handleElement, g, Run.bind_ok]
      by_cases hk : u.kind = .element <;> simp [hk, Option.filter]
    · intro is
      rw [Option.map_some, Run.bind_ok, handleLeaf, g, Run.bind_ok]
      by_cases hk : u.kind = .leaf ∧ is u.data = true <;> simp [hk, Option.filter]

/-- In the sample the second text of the element in the document is the one made first; there is no third, and a negative index is the first. -/
example : ∃ F rs t, (⟨[], 0⟩ : Forest ℕ).run sample = some (F, rs) ∧ F.find 0 = some t ∧
    (follow t [.firstChildElement, .childOf (fun d => d == 9) 1]).map Tree.ptr = some 3 ∧
    (follow t [.firstChildElement, .childOf (fun d => d == 9) 2]).map Tree.ptr = none ∧
    (follow t [.childElement 0, .child (-5)]).map Tree.ptr = some 4 := by
  refine ⟨_, _, _, rfl, rfl, ?_, ?_, ?_⟩ <;> decide

end Gear.Xml.Dom
