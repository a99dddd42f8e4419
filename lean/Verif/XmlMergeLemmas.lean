/-
Merging documents: C67, C68.
-/
import Verif.XmlMergeSpec

set_option autoImplicit false
set_option linter.unusedSectionVars false

namespace Gear.Xml.Merge

open Spec

/-! ### What is kept -/

mutual
theorem keeps_refl : ∀ n : Node, Keeps n n
  | .element n as cs => by rw [Keeps]; exact ⟨as, cs, rfl, List.prefix_refl _, keepsAll_refl cs⟩
  | .comment _ => by simp [Keeps]
  | .unknown _ => by simp [Keeps]
  | .text _ => by simp [Keeps]
  | .declaration .. => by simp [Keeps]
theorem keepsAll_refl : ∀ l : List Node, KeepsAll l l
  | [] => by simp [KeepsAll]
  | c :: cs => by rw [KeepsAll]; exact ⟨c, cs, rfl, keeps_refl c, keepsAll_refl cs⟩
end

mutual
theorem keeps_trans : ∀ a : Node, ∀ {b c : Node}, Keeps a b → Keeps b c → Keeps a c
  | .element n as cs, b, c, h1, h2 => by
    rw [Keeps] at h1
    obtain ⟨as', rs, rfl, hp, hk⟩ := h1
    rw [Keeps] at h2 ⊢
    obtain ⟨as'', rs', rfl, hp', hk'⟩ := h2
    exact ⟨as'', rs', rfl, hp.trans hp', keepsAll_trans cs hk hk'⟩
  | .comment _, b, c, h1, h2 => by simp only [Keeps] at h1; subst h1; exact h2
  | .unknown _, b, c, h1, h2 => by simp only [Keeps] at h1; subst h1; exact h2
  | .text _, b, c, h1, h2 => by simp only [Keeps] at h1; subst h1; exact h2
  | .declaration .., b, c, h1, h2 => by simp only [Keeps] at h1; subst h1; exact h2
theorem keepsAll_trans : ∀ a : List Node, ∀ {b c : List Node}, KeepsAll a b → KeepsAll b c → KeepsAll a c
  | [], b, c, _, _ => by simp [KeepsAll]
  | x :: a, b, c, h1, h2 => by
    rw [KeepsAll] at h1
    obtain ⟨r, rs, rfl, k1, k2⟩ := h1
    rw [KeepsAll] at h2 ⊢
    obtain ⟨r', rs', rfl, k3, k4⟩ := h2
    exact ⟨r', rs', rfl, keeps_trans x k1 k3, keepsAll_trans a k2 k4⟩
end

theorem keepsAll_append : ∀ (l m : List Node), KeepsAll l (l ++ m)
  | [], _ => by simp [KeepsAll]
  | c :: cs, m => by rw [KeepsAll]; exact ⟨c, cs ++ m, rfl, keeps_refl c, keepsAll_append cs m⟩

theorem keepsAll_set : ∀ (l : List Node) (i : ℕ) (d r : Node), l[i]? = some d → Keeps d r → KeepsAll l (l.set i r)
  | [], i, d, r, h, _ => by simp at h
  | c :: cs, 0, d, r, h, hk => by
    rw [KeepsAll]
    simp at h
    subst h
    exact ⟨r, cs, rfl, hk, keepsAll_refl cs⟩
  | c :: cs, i + 1, d, r, h, hk => by
    rw [KeepsAll]
    exact ⟨c, cs.set i r, rfl, keeps_refl c, keepsAll_set cs i d r (by simpa using h) hk⟩

theorem setAttribute_new : ∀ (as : List (Text × Text)) (n v : Text), attrValue as n = none → setAttribute as n v = as ++ [(n, v)]
  | [], n, v, _ => rfl
  | (m, w) :: as, n, v, h => by
    rw [attrValue] at h
    rw [setAttribute]
    split_ifs at h ⊢ with hm
    rw [setAttribute_new as n v h]
    rfl

theorem mergeAttribute_prefix : ∀ (as das : List (Text × Text)), das <+: mergeAttribute as das
  | [], das => List.prefix_refl _
  | a :: as, das => by
    rw [mergeAttribute]
    refine List.IsPrefix.trans ?_ (mergeAttribute_prefix as _)
    split_ifs with h
    · rw [setAttribute_new _ _ _ (by simpa using h)]
      exact List.prefix_append _ _
    · exact List.prefix_refl _

theorem bind_eq_ok {α β : Type} {x : Res α} {f : α → Res β} {b : β} (h : (x >>= f) = .ok b) : ∃ a, x = .ok a ∧ f a = .ok b := by
  cases x with
  | ok a => exact ⟨a, rfl, h⟩
  | throw e => cases h
  | ub => cases h

mutual
theorem mergeChild_keeps : ∀ (c d : Node) {r : Node}, mergeChild c d = .ok r → Keeps d r
  | .element n as cs, .element dn das ds, r, h => by
    rw [mergeChild] at h
    rw [Keeps]
    split_ifs at h with hn h0 ht
    · cases h
      exact ⟨_, _, rfl, mergeAttribute_prefix _ _, keepsAll_refl _⟩
    · obtain ⟨rs, h1, h2⟩ := bind_eq_ok h
      cases h2
      exact ⟨_, _, rfl, mergeAttribute_prefix _ _, mergeLoop_keeps cs cs _ _ _ h1⟩
    · cases h
      exact ⟨_, _, rfl, mergeAttribute_prefix _ _, keepsAll_refl _⟩
  | .element n as cs, .comment _, r, h => by rw [mergeChild] at h; cases h; exact keeps_refl _; simp
  | .element n as cs, .unknown _, r, h => by rw [mergeChild] at h; cases h; exact keeps_refl _; simp
  | .element n as cs, .text _, r, h => by rw [mergeChild] at h; cases h; exact keeps_refl _; simp
  | .element n as cs, .declaration .., r, h => by rw [mergeChild] at h; cases h; exact keeps_refl _; simp
  | .comment _, d, r, h => by rw [mergeChild] at h; cases h; exact keeps_refl _; simp
  | .unknown _, d, r, h => by rw [mergeChild] at h; cases h; exact keeps_refl _; simp
  | .text _, d, r, h => by rw [mergeChild] at h; cases h; exact keeps_refl _; simp
  | .declaration .., d, r, h => by rw [mergeChild] at h; cases h; exact keeps_refl _; simp
theorem mergeLoop_keeps (all : List Node) : ∀ (cs : List Node) (last : Text) (occ : ℕ) (ds : List Node) {rs : List Node},
    mergeLoop all cs last occ ds = .ok rs → KeepsAll ds rs
  | [], last, occ, ds, rs, h => by
    rw [mergeLoop] at h
    cases h
    exact keepsAll_refl _
  | c :: cs, last, occ, ds, rs, h => by
    rw [mergeLoop] at h
    split_ifs at h
    split at h
    · exact keepsAll_trans ds (keepsAll_append ds [c]) (mergeLoop_keeps all cs _ _ _ h)
    · rename_i i hi
      cases hd : ds[i]? with
      | none => rw [hd] at h; cases h
      | some d =>
        rw [hd] at h
        obtain ⟨r, h1, h2⟩ := bind_eq_ok h
        exact keepsAll_trans ds (keepsAll_set ds i d r hd (mergeChild_keeps c d h1)) (mergeLoop_keeps all cs _ _ _ h2)
end

/-! ### What is added -/

theorem same_iff (a b : Node) : same a b = true ↔ Same a b := by
  unfold same Same nodeName hasName
  cases a.attr "name" <;> cases b.attr "name" <;> simp [eq_comm]

theorem Spec.Same.name {a b : Node} (h : Same a b) : nodeName a = nodeName b := by
  have := (same_iff a b).2 h
  unfold same at this
  simp at this
  exact this.1

theorem Spec.Same.symm {a b : Node} (h : Same a b) : Same b a := by
  rcases h with ⟨v, h1, h2⟩ | ⟨h1, h2, h3⟩
  · exact Or.inl ⟨v, h2, h1⟩
  · exact Or.inr ⟨h2, h1, h3.symm⟩

theorem Spec.Same.trans {a b c : Node} (h : Same a b) (h' : Same b c) : Same a c := by
  rw [← same_iff] at *
  unfold same at *
  simp at *
  exact ⟨h.1.trans h'.1, h.2.trans h'.2⟩

theorem Spec.Same.refl (a : Node) : Same a a := by
  rw [← same_iff]
  simp [same]

theorem attrValue_append (as : List (Text × Text)) (n v m : Text) :
    attrValue (as ++ [(n, v)]) m = (attrValue as m).or (if n = m then some v else none) := by
  induction as with
  | nil => simp [attrValue]
  | cons a as ih =>
    rw [List.cons_append, attrValue, attrValue]
    by_cases h : a.1 = m
    · rw [if_pos h, if_pos h]
      rfl
    · rw [if_neg h, if_neg h, ih]

theorem mergeAttribute_value : ∀ (as das : List (Text × Text)) (n : Text),
    attrValue (mergeAttribute as das) n = (attrValue das n).or (attrValue as n)
  | [], das, n => by simp [mergeAttribute, attrValue]
  | (m, v) :: as, das, n => by
    rw [mergeAttribute, mergeAttribute_value as]
    dsimp only
    cases h : attrValue das m with
    | none =>
      rw [Option.isNone_none, if_pos rfl, setAttribute_new _ _ _ h, attrValue_append, attrValue]
      cases hn : attrValue das n with
      | some w => simp
      | none =>
        split_ifs <;> simp
    | some w =>
      rw [Option.isNone_some, if_neg (by decide), attrValue]
      split_ifs with hm
      · subst hm
        rw [h]
        rfl
      · rfl

theorem getChildNode_some (c : Node) : ∀ (ds : List Node) (i : ℕ), getChildNode c ds 1 = some i → ∃ d, ds[i]? = some d ∧ Same c d
  | [], i, h => by cases h
  | d :: ds, i, h => by
    rw [getChildNode] at h
    by_cases hs : same d c = true
    · rw [if_pos hs, if_pos rfl] at h
      cases h
      exact ⟨d, rfl, ((same_iff _ _).1 hs).symm⟩
    · rw [if_neg hs] at h
      obtain ⟨j, hj, rfl⟩ := Option.map_eq_some_iff.1 h
      obtain ⟨d', h1, h2⟩ := getChildNode_some c ds j hj
      exact ⟨d', by simpa using h1, h2⟩

theorem getChildNode_none (c : Node) : ∀ (ds : List Node), getChildNode c ds 1 = none → ∀ d ∈ ds, ¬ Same c d
  | [], h => by simp
  | d :: ds, h => by
    rw [getChildNode] at h
    by_cases hs : same d c = true
    · rw [if_pos hs, if_pos rfl] at h
      cases h
    · rw [if_neg hs, Option.map_eq_none_iff] at h
      intro d' hd'
      rcases List.mem_cons.1 hd' with rfl | hd'
      · exact fun h' => hs ((same_iff _ _).2 h'.symm)
      · exact getChildNode_none c ds h d' hd'

theorem countNodes_le (c : Node) : ∀ (ds : List Node), (ds.Pairwise fun a b => ¬ Same a b) → countNodes c ds ≤ 1
  | [], _ => by simp [countNodes]
  | d :: ds, h => by
    rw [List.pairwise_cons] at h
    unfold countNodes
    rw [List.filter_cons]
    split_ifs with hs
    · rw [List.filter_eq_nil_iff.2]
      · simp
      · intro d' hd' hs'
        exact h.1 d' hd' (((same_iff _ _).1 hs).trans ((same_iff _ _).1 hs').symm)
    · exact countNodes_le c ds h.2

theorem clearAll_pairwise : ∀ (cs ds : List Node), ClearAll cs ds → ds.Pairwise fun a b => ¬ Same a b
  | [], ds, h => by rwa [ClearAll] at h
  | c :: cs, ds, h => by rw [ClearAll] at h; exact clearAll_pairwise cs ds h.2.2

theorem clearAll_names : ∀ (cs ds : List Node), ClearAll cs ds → cs.Pairwise fun a b => nodeName b ≠ nodeName a
  | [], ds, h => List.Pairwise.nil
  | c :: cs, ds, h => by
    rw [ClearAll] at h
    exact List.Pairwise.cons h.1 (clearAll_names cs ds h.2.2)

theorem clearAll_transfer : ∀ (cs : List Node) {ds ms : List Node}, ClearAll cs ds → (ms.Pairwise fun a b => ¬ Same a b) →
    (∀ c ∈ cs, ∀ x, Same c x → x ∈ ms → x ∈ ds) → ClearAll cs ms
  | [], ds, ms, _, h, _ => by rwa [ClearAll]
  | c :: cs, ds, ms, h, hp, ht => by
    rw [ClearAll] at h ⊢
    exact ⟨h.1, fun d hd hs => h.2.1 d (ht c (by simp) d hs hd) hs,
      clearAll_transfer cs h.2.2 hp (fun c' hc' => ht c' (by simp [hc']))⟩

theorem addsAll_transfer : ∀ (cs : List Node) {ds ms rs : List Node}, AddsAll cs ms rs →
    (∀ c ∈ cs, ∀ x, Same c x → (x ∈ ms ↔ x ∈ ds)) → AddsAll cs ds rs
  | [], ds, ms, rs, _, _ => by simp [AddsAll]
  | c :: cs, ds, ms, rs, h, ht => by
    rw [AddsAll] at h ⊢
    exact ⟨fun hn => h.1 fun d hd hs => hn d ((ht c (by simp) d hs).1 hd) hs,
      fun d hd hs => h.2.1 d ((ht c (by simp) d hs).2 hd) hs, addsAll_transfer cs h.2.2 (fun c' hc' => ht c' (by simp [hc']))⟩

theorem countNodes_self : ∀ (cs : List Node), (cs.Pairwise fun a b => nodeName b ≠ nodeName a) → ∀ c ∈ cs, countNodes c cs = 1 := by
  intro cs h c hc
  have h1 : countNodes c cs ≤ 1 := countNodes_le c cs (h.imp fun h hs => h hs.name.symm)
  have h2 : 0 < countNodes c cs := by
    unfold countNodes
    exact List.length_pos_of_mem (List.mem_filter.2 ⟨hc, (same_iff _ _).2 (Same.refl c)⟩)
  omega

theorem count_one {last : Text} {occ : ℕ} {c : Node} (h : occ = 0 ∨ nodeName c ≠ last) : count last occ c = 1 := by
  unfold count
  rcases h with rfl | h
  · split_ifs <;> rfl
  · rw [if_neg fun he => h he.symm]

theorem pairwise_set {ds : List Node} {i : ℕ} {d r : Node} (hp : ds.Pairwise fun a b => ¬ Same a b) (hi : ds[i]? = some d)
    (hs : Same d r) : (ds.set i r).Pairwise fun a b => ¬ Same a b := by
  rw [List.pairwise_iff_getElem] at hp ⊢
  intro a b ha hb hab
  rw [List.length_set] at ha hb
  have := hp a b ha hb hab
  obtain ⟨hi', rfl⟩ := List.getElem?_eq_some_iff.1 hi
  rw [List.getElem_set, List.getElem_set]
  split_ifs with h1 h2 h2
  · omega
  · subst h1
    exact fun h => this (hs.trans h)
  · subst h2
    exact fun h => this (h.trans hs.symm)
  · exact this

theorem mem_set_iff {ds : List Node} {i : ℕ} {d r x : Node} (hi : ds[i]? = some d) (h1 : x ≠ d) (h2 : x ≠ r) :
    x ∈ ds.set i r ↔ x ∈ ds := by
  obtain ⟨hi', rfl⟩ := List.getElem?_eq_some_iff.1 hi
  constructor
  · intro h
    rcases List.mem_or_eq_of_mem_set h with h | h
    · exact h
    · exact absurd h h2
  · intro h
    obtain ⟨j, hj, rfl⟩ := List.getElem_of_mem h
    have hne : i ≠ j := fun he => h1 (by subst he; rfl)
    rw [List.mem_iff_getElem]
    exact ⟨j, by simpa using hj, by rw [List.getElem_set_ne hne]⟩

mutual
theorem mergeChild_adds : ∀ (c d : Node), Clear c d → Same c d → ∃ r, mergeChild c d = .ok r ∧ Same d r ∧ Adds c d r
  | .element n as cs, .element dn das ds, hc, hs => by
    rw [Clear] at hc
    obtain ⟨-, hne⟩ := hc
    have hsame : ∀ rs, Same (.element dn das ds) (.element dn (mergeAttribute as das) rs) := by
      intro rs
      have e : (Node.element dn (mergeAttribute as das) rs).attr "name" = (Node.element dn das ds).attr "name" := by
        show attrValue (mergeAttribute as das) _ = attrValue das _
        rw [mergeAttribute_value]
        rcases hs with ⟨v, h1, h2⟩ | ⟨h1, h2, -⟩
        · have h2 : attrValue das "name".toList = some v := h2
          rw [h2]
          rfl
        · have h1 : attrValue as "name".toList = none := h1
          have h2 : attrValue das "name".toList = none := h2
          rw [h1, h2]
          rfl
      cases h : (Node.element dn das ds).attr "name" with
      | none => exact Or.inr ⟨h, e.trans h, rfl⟩
      | some v => exact Or.inl ⟨v, h, e.trans h⟩
    rw [mergeChild]
    by_cases hn : hasName (.element n as cs) = true
    · have hn' : (Node.element n as cs).attr "name" ≠ none := by
        unfold hasName at hn
        exact Option.isSome_iff_ne_none.1 hn
      have hcs := (hne hn').2
      rw [if_pos hn, if_neg (hne hn').1]
      cases ht : startsWithText cs with
      | true =>
        rw [if_pos rfl]
        refine ⟨_, rfl, hsame _, ?_⟩
        rw [Adds]
        exact ⟨fun name => mergeAttribute_value as das name, fun _ h => by rw [ht] at h; cases h⟩
      | false =>
        rw [if_neg (by decide)]
        obtain ⟨rs, h1, h2, -⟩ := mergeLoop_adds cs cs [] 0 ds hcs (countNodes_self cs (clearAll_names cs _ hcs)) (Or.inl rfl)
        rw [h1, Res.bind_ok]
        refine ⟨_, rfl, hsame _, ?_⟩
        rw [Adds]
        exact ⟨fun name => mergeAttribute_value as das name, fun _ _ => h2⟩
    · rw [if_neg hn]
      refine ⟨_, rfl, hsame _, ?_⟩
      rw [Adds]
      refine ⟨fun name => mergeAttribute_value as das name, fun h => ?_⟩
      unfold hasName at hn
      exact absurd (Option.isSome_iff_ne_none.2 h) hn
  | .element n as cs, .comment _, hc, hs => by rw [Clear] at hc; exact absurd hc.1 (by simp [Node.isElt])
  | .element n as cs, .unknown _, hc, hs => by rw [Clear] at hc; exact absurd hc.1 (by simp [Node.isElt])
  | .element n as cs, .text _, hc, hs => by rw [Clear] at hc; exact absurd hc.1 (by simp [Node.isElt])
  | .element n as cs, .declaration .., hc, hs => by rw [Clear] at hc; exact absurd hc.1 (by simp [Node.isElt])
  | .comment _, d, hc, hs => ⟨d, by rw [mergeChild]; simp, Same.refl d, by simp [Adds]⟩
  | .unknown _, d, hc, hs => ⟨d, by rw [mergeChild]; simp, Same.refl d, by simp [Adds]⟩
  | .text _, d, hc, hs => ⟨d, by rw [mergeChild]; simp, Same.refl d, by simp [Adds]⟩
  | .declaration .., d, hc, hs => ⟨d, by rw [mergeChild]; simp, Same.refl d, by simp [Adds]⟩
theorem mergeLoop_adds (all : List Node) : ∀ (cs : List Node) (last : Text) (occ : ℕ) (ds : List Node), ClearAll cs ds →
    (∀ c ∈ cs, countNodes c all = 1) → (occ = 0 ∨ ∀ c ∈ cs, nodeName c ≠ last) →
    ∃ rs, mergeLoop all cs last occ ds = .ok rs ∧ AddsAll cs ds rs ∧ ∀ d ∈ ds, (∀ c ∈ cs, ¬ Same c d) → d ∈ rs
  | [], last, occ, ds, hc, ha, hl => ⟨ds, by rw [mergeLoop], by simp [AddsAll], fun d hd _ => hd⟩
  | c :: cs, last, occ, ds, hc, ha, hl => by
    have hp := clearAll_pairwise _ _ hc
    rw [ClearAll] at hc
    obtain ⟨hn, hm, hcs⟩ := hc
    rw [mergeLoop]
    have h1 := ha c (by simp)
    have h2 := countNodes_le c ds hp
    rw [if_neg (by omega), count_one (hl.imp id fun h => h c (by simp))]
    have ha' : ∀ c' ∈ cs, countNodes c' all = 1 := fun c' hc' => ha c' (by simp [hc'])
    have hdiff : ∀ c' ∈ cs, ∀ x, Same c' x → ¬ Same c x := fun c' hc' x h h' => hn c' hc' (h.name.trans h'.name.symm)
    cases hg : getChildNode c ds 1 with
    | none =>
      have hnone := getChildNode_none c ds hg
      have hp' : (ds ++ [c]).Pairwise fun a b => ¬ Same a b := by
        rw [List.pairwise_append]
        refine ⟨hp, by simp, fun a had b hb => ?_⟩
        rw [List.mem_singleton] at hb
        subst hb
        exact fun h => hnone a had h.symm
      have htr : ∀ c' ∈ cs, ∀ x, Same c' x → (x ∈ ds ++ [c] ↔ x ∈ ds) := by
        intro c' hc' x hx
        rw [List.mem_append, List.mem_singleton]
        refine ⟨fun h => h.resolve_right ?_, Or.inl⟩
        rintro rfl
        exact hdiff c' hc' x hx (Same.refl x)
      obtain ⟨rs, e1, e2, e3⟩ := mergeLoop_adds all cs (nodeName c) 1 (ds ++ [c])
        (clearAll_transfer cs hcs hp' fun c' hc' x hx => (htr c' hc' x hx).1) ha' (Or.inr hn)
      refine ⟨rs, e1, ?_, fun d hd h => e3 d (by simp [hd]) fun c' hc' => h c' (by simp [hc'])⟩
      rw [AddsAll]
      exact ⟨fun _ => e3 c (by simp) fun c' hc' h => hdiff c' hc' c h (Same.refl c), fun d hd h => absurd h (hnone d hd),
        addsAll_transfer cs e2 htr⟩
    | some i =>
      obtain ⟨d, hd, hs⟩ := getChildNode_some c ds i hg
      have hmem : d ∈ ds := List.mem_of_getElem? hd
      obtain ⟨r, hr, hsr, hadd⟩ := mergeChild_adds c d (hm d hmem hs) hs
      dsimp only
      rw [hd]
      dsimp only
      rw [hr, Res.bind_ok]
      have hp' := pairwise_set hp hd hsr
      have htr : ∀ c' ∈ cs, ∀ x, Same c' x → (x ∈ ds.set i r ↔ x ∈ ds) := by
        intro c' hc' x hx
        refine mem_set_iff hd ?_ ?_
        · rintro rfl
          exact hdiff c' hc' x hx hs
        · rintro rfl
          exact hdiff c' hc' x hx (hs.trans hsr)
      have hri : r ∈ ds.set i r := by
        obtain ⟨hi', -⟩ := List.getElem?_eq_some_iff.1 hd
        rw [List.mem_iff_getElem]
        exact ⟨i, by simpa using hi', by simp⟩
      obtain ⟨rs, e1, e2, e3⟩ := mergeLoop_adds all cs (nodeName c) 1 (ds.set i r)
        (clearAll_transfer cs hcs hp' fun c' hc' x hx => (htr c' hc' x hx).1) ha' (Or.inr hn)
      refine ⟨rs, e1, ?_, ?_⟩
      · rw [AddsAll]
        refine ⟨fun h => absurd hs (h d hmem), fun d' hd' hs' => ?_, addsAll_transfer cs e2 htr⟩
        have : d' = d := by
          by_contra hne
          have := List.Pairwise.forall_of_forall_of_flip (R := fun a b => ¬ Same a b ∨ a = b) ?_ ?_ ?_ hd' hmem
          · rcases this with h | h
            · exact h (hs'.symm.trans hs)
            · exact hne h
          · intro a _
            exact Or.inr rfl
          · exact hp.imp Or.inl
          · exact hp.imp fun h => Or.inl fun h' => h h'.symm
        subst this
        exact ⟨r, e3 r hri fun c' hc' h => hdiff c' hc' r h (hs.trans hsr), hsr, hadd⟩
      · intro d' hd' h
        have hne : ¬ Same c d' := h c (by simp)
        refine e3 d' ((mem_set_iff hd ?_ ?_).2 hd') fun c' hc' => h c' (by simp [hc'])
        · rintro rfl
          exact hne hs
        · rintro rfl
          exact hne (hs.trans hsr)
end

/-! ### Safety -/

theorem getChildNode_lt (c : Node) : ∀ (ds : List Node) (k i : ℕ), getChildNode c ds k = some i → i < ds.length
  | [], k, i, h => by cases h
  | d :: ds, k, i, h => by
    rw [getChildNode] at h
    split_ifs at h with hs hk
    · cases h
      simp
    · obtain ⟨j, hj, rfl⟩ := Option.map_eq_some_iff.1 h
      simpa using getChildNode_lt c ds _ j hj
    · obtain ⟨j, hj, rfl⟩ := Option.map_eq_some_iff.1 h
      simpa using getChildNode_lt c ds _ j hj

theorem bind_ne_ub {α β : Type} {x : Res α} {f : α → Res β} (h : x ≠ .ub) (hf : ∀ a, f a ≠ .ub) : (x >>= f) ≠ .ub := by
  cases x with
  | ok a => exact hf a
  | throw e => exact fun h => by cases h
  | ub => exact absurd rfl h

mutual
theorem mergeChild_safe : ∀ (c d : Node), NoEmptyNamed c → mergeChild c d ≠ .ub
  | .element n as cs, .element dn das ds, h => by
    rw [NoEmptyNamed] at h
    rw [mergeChild]
    split_ifs with hn h0 ht
    · exact absurd h0 (h.1 (Option.isSome_iff_ne_none.1 hn))
    · exact fun h => by cases h
    · exact bind_ne_ub (mergeLoop_safe cs cs _ _ _ h.2) fun a h => by cases h
    · exact fun h => by cases h
  | .element n as cs, .comment _, h => by rw [mergeChild] <;> simp
  | .element n as cs, .unknown _, h => by rw [mergeChild] <;> simp
  | .element n as cs, .text _, h => by rw [mergeChild] <;> simp
  | .element n as cs, .declaration .., h => by rw [mergeChild] <;> simp
  | .comment _, d, h => by rw [mergeChild] <;> simp
  | .unknown _, d, h => by rw [mergeChild] <;> simp
  | .text _, d, h => by rw [mergeChild] <;> simp
  | .declaration .., d, h => by rw [mergeChild] <;> simp
theorem mergeLoop_safe (all : List Node) : ∀ (cs : List Node) (last : Text) (occ : ℕ) (ds : List Node), NoEmptyNamedAll cs →
    mergeLoop all cs last occ ds ≠ .ub
  | [], last, occ, ds, h => by rw [mergeLoop]; exact fun h => by cases h
  | c :: cs, last, occ, ds, h => by
    rw [NoEmptyNamedAll] at h
    rw [mergeLoop]
    split_ifs
    · exact fun h => by cases h
    · split
      · exact mergeLoop_safe all cs _ _ _ h.2
      · rename_i i hi
        have := getChildNode_lt c ds _ i hi
        rw [List.getElem?_eq_getElem this]
        exact bind_ne_ub (mergeChild_safe c _ h.1) fun a => mergeLoop_safe all cs _ _ _ h.2
end

/-! ### Documents -/

theorem setFirst_keeps (name : String) : ∀ (l : List Node) {d r : Node}, first l name = some d → Keeps d r → KeepsAll l (setFirst l name r)
  | [], d, r, h, _ => by cases h
  | c :: cs, d, r, h, hk => by
    unfold first at h
    rw [List.find?_cons] at h
    rw [KeepsAll, setFirst]
    by_cases hc : c.value = name.toList
    · rw [if_pos hc]
      simp only [hc, decide_true] at h
      cases h
      exact ⟨r, cs, rfl, hk, keepsAll_refl cs⟩
    · rw [if_neg hc]
      simp only [hc, decide_false] at h
      exact ⟨c, _, rfl, keeps_refl c, setFirst_keeps name cs h hk⟩

theorem first_value {l : List Node} {name : String} {d : Node} (h : first l name = some d) : d.value = name.toList := by
  simpa using List.find?_some h

theorem first_setFirst (name : String) : ∀ (l : List Node) {d r : Node}, first l name = some d → r.value = name.toList →
    first (setFirst l name r) name = some r
  | [], d, r, h, _ => by cases h
  | c :: cs, d, r, h, hv => by
    unfold first at h
    rw [List.find?_cons] at h
    rw [setFirst]
    by_cases hc : c.value = name.toList
    · rw [if_pos hc]
      simp [first, hv]
    · rw [if_neg hc]
      simp only [hc, decide_false] at h
      have := first_setFirst name cs h hv
      unfold first at this ⊢
      rw [List.find?_cons]
      simp only [hc, decide_false]
      exact this

theorem first_setFirst_ne {name other : String} (hne : other.toList ≠ name.toList) : ∀ (l : List Node) {r : Node},
    r.value = name.toList → first (setFirst l name r) other = first l other
  | [], r, _ => rfl
  | c :: cs, r, hv => by
    rw [setFirst]
    have ih := first_setFirst_ne hne cs hv
    unfold first at ih ⊢
    by_cases hc : c.value = name.toList
    · rw [if_pos hc, List.find?_cons, List.find?_cons]
      have h1 : ¬ r.value = other.toList := by rw [hv]; exact fun h => hne h.symm
      have h2 : ¬ c.value = other.toList := by rw [hc]; exact fun h => hne h.symm
      simp only [h1, h2, decide_false]
    · rw [if_neg hc, List.find?_cons, List.find?_cons, ih]

theorem mergeSection_keeps {name : String} {g dom r : List Node} (h : mergeSection name g dom = .ok r) : KeepsAll dom r := by
  unfold mergeSection at h
  cases h1 : first g name with
  | none => rw [h1] at h; cases h
  | some n =>
    rw [h1] at h
    dsimp only at h
    split at h
    · cases h; exact keepsAll_refl _
    · split at h
      · cases h
      · rename_i dn das ds h2
        obtain ⟨rs, h3, h4⟩ := bind_eq_ok h
        cases h4
        refine setFirst_keeps name dom h2 ?_
        rw [Keeps]
        exact ⟨das, rs, rfl, List.prefix_refl _, mergeLoop_keeps _ _ _ _ _ h3⟩
      · obtain ⟨rs, h3, h4⟩ := bind_eq_ok h
        cases h4
        exact keepsAll_refl _

theorem mergeDocuments_keeps {rec dom r : List Node} (h : mergeDocuments rec dom = .ok (some r)) : KeepsAll dom r := by
  unfold mergeDocuments at h
  split at h
  · rename_i g dn das ds h1 h2
    split_ifs at h
    · obtain ⟨d1, e1, h⟩ := bind_eq_ok h
      obtain ⟨d2, e2, h⟩ := bind_eq_ok h
      obtain ⟨d3, e3, h⟩ := bind_eq_ok h
      cases h
      refine setFirst_keeps _ dom h2 ?_
      rw [Keeps]
      exact ⟨das, d3, rfl, List.prefix_refl _,
        keepsAll_trans ds (mergeSection_keeps e1) (keepsAll_trans d1 (mergeSection_keeps e2) (mergeSection_keeps e3))⟩
    · cases h
  · cases h

/-- One section: what is merged is what `AddsAll` says, and the other sections are unchanged. -/
theorem mergeSection_adds {name : String} {g dom : List Node} {n d : Node} (hn : first g name = some n) (hd : first dom name = some d)
    (he : d.isElt = true) (hc : ClearAll n.children d.children) :
    ∃ r s, mergeSection name g dom = .ok r ∧ first r name = some s ∧ s.isElt = true ∧ AddsAll n.children d.children s.children
      ∧ ∀ other : String, other.toList ≠ name.toList → first r other = first dom other := by
  unfold mergeSection
  rw [hn]
  dsimp only
  cases hcs : n.children with
  | nil => exact ⟨dom, d, rfl, hd, he, by rw [AddsAll]; exact True.intro, fun _ _ => rfl⟩
  | cons c cs =>
    rw [hcs] at hc
    dsimp only
    rw [hd]
    cases d with
    | element dn das ds =>
      obtain ⟨rs, h1, h2, -⟩ := mergeLoop_adds (c :: cs) (c :: cs) [] 0 ds hc (countNodes_self _ (clearAll_names _ _ hc)) (Or.inl rfl)
      have hv : (Node.element dn das rs).value = name.toList := by
        have := first_value hd
        exact this
      dsimp only
      rw [h1, Res.bind_ok]
      exact ⟨_, _, rfl, first_setFirst name dom hd hv, rfl, h2, fun other ho => first_setFirst_ne ho dom hv⟩
    | _ => simp [Node.isElt] at he

theorem mergeSection_safe {name : String} {g dom : List Node} {n d : Node} (hn : first g name = some n) (hd : first dom name = some d)
    (hc : NoEmptyNamedAll n.children) :
    mergeSection name g dom ≠ .ub ∧ ∀ r, mergeSection name g dom = .ok r → ∀ other : String, (first dom other).isSome → (first r other).isSome := by
  have key : mergeSection name g dom ≠ .ub := by
    unfold mergeSection
    rw [hn]
    dsimp only
    cases hcs : n.children with
    | nil => exact fun h => by cases h
    | cons c cs =>
      rw [hcs] at hc
      dsimp only
      rw [hd]
      cases d <;> exact bind_ne_ub (mergeLoop_safe _ _ _ _ _ hc) fun a h => by cases h
  refine ⟨key, fun r hr other ho => ?_⟩
  unfold mergeSection at hr
  rw [hn] at hr
  dsimp only at hr
  split at hr
  · cases hr; exact ho
  · rw [hd] at hr
    split at hr
    · cases hr
    · rename_i dn das ds heq
      cases heq
      obtain ⟨rs, h3, h4⟩ := bind_eq_ok hr
      cases h4
      have hv : (Node.element dn das rs).value = name.toList := by
        have := first_value hd
        exact this
      by_cases he : other.toList = name.toList
      · have : other = name := String.toList_injective he
        subst this
        rw [first_setFirst _ dom hd hv]
        rfl
      · rw [first_setFirst_ne he dom hv]
        exact ho
    · obtain ⟨rs, h3, h4⟩ := bind_eq_ok hr
      cases h4
      exact ho

end Gear.Xml.Merge
