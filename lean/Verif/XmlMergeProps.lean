/-
C67 and C68 for merging gear files.
-/
import Verif.XmlMergeLemmas

set_option autoImplicit false
set_option linter.unusedSectionVars false

namespace Gear.Xml.Merge

open Spec

/-! ### C67 -/

/-- All that is in the dominant file is in the result: with two files set, it is the second one, or the first one after
`makeDominant( 1 )` (at the first call of `mergeFiles`, see `merge_repeat_false`). -/
theorem merge_keeps {m : Merger} {a b r : List Node} (ha : m.file1 = some a) (hb : m.file2 = some b)
    (h : (mergeFiles m).2 = .ok (some r)) : (m.domFile ≠ 1 → KeepsAll b r) ∧ (m.domFile = 1 → KeepsAll a r) := by
  unfold mergeFiles at h
  rw [ha, hb] at h
  dsimp only at h
  unfold correctDominantFile at h
  by_cases hd : m.domFile = 1
  · rw [if_pos hd, ha, hb] at h
    exact ⟨fun h' => absurd hd h', fun _ => mergeDocuments_keeps h⟩
  · rw [if_neg hd, ha, hb] at h
    exact ⟨fun _ => mergeDocuments_keeps h, fun h' => absurd h' hd⟩

theorem mergeFiles_two (a b : List Node) : (mergeFiles { file1 := some a, file2 := some b }).2 = mergeDocuments a b := rfl

theorem mergeFiles_one (a b : List Node) :
    (mergeFiles (makeDominant { file1 := some a, file2 := some b } 1)).2 = mergeDocuments b a := rfl

/-- What is only in the other file is added, and nothing of the dominant file is lost, if all three sections exist in both files and
are clear: elements can be told apart by their names, elements with a name that exist in both files have content (and so have those
below).  Partial: what is below elements without a name (`unnamed_lost_false`) and what is not in one of the three sections
(`others_lost_false`) is not merged, and an element that occurs several times is not covered. -/
theorem merge_adds_partial {rec dom : List Node} {g gl de ma g' gl' de' ma' : Node} (h : Sections rec g gl de ma)
    (h' : Sections dom g' gl' de' ma') (c1 : ClearAll gl.children gl'.children) (c2 : ClearAll de.children de'.children)
    (c3 : ClearAll ma.children ma'.children) :
    ∃ r, (mergeFiles { file1 := some rec, file2 := some dom }).2 = .ok (some r)
      ∧ (mergeFiles (makeDominant { file1 := some dom, file2 := some rec } 1)).2 = .ok (some r)
      ∧ KeepsAll dom r
      ∧ ∃ g'' gl'' de'' ma'', Sections r g'' gl'' de'' ma'' ∧ AddsAll gl.children gl'.children gl''.children
        ∧ AddsAll de.children de'.children de''.children ∧ AddsAll ma.children ma'.children ma''.children := by
  rw [mergeFiles_two, mergeFiles_one]
  obtain ⟨n1, n2, n3⟩ := h'.elements
  obtain ⟨r1, s1, e1, f1, i1, a1, o1⟩ := mergeSection_adds h.hasGlobal h'.hasGlobal n1 c1
  have hd1 : first r1 "detectors" = some de' := by rw [o1 _ (by decide)]; exact h'.hasDetectors
  obtain ⟨r2, s2, e2, f2, i2, a2, o2⟩ := mergeSection_adds h.hasDetectors hd1 n2 c2
  have hd2 : first r2 "materials" = some ma' := by rw [o2 _ (by decide), o1 _ (by decide)]; exact h'.hasMaterials
  obtain ⟨r3, s3, e3, f3, i3, a3, o3⟩ := mergeSection_adds h.hasMaterials hd2 n3 c3
  cases hg : g' with
  | element dn das ds =>
    have h1 := h'.hasGear
    have h2 := h'.hasDetectors
    rw [hg] at h1 h2 e1
    have hv : (Node.element dn das r3).value = "gear".toList := by
      have := first_value h1
      exact this
    have key : mergeDocuments rec dom = .ok (some (setFirst dom "gear" (.element dn das r3))) := by
      have e1 : mergeSection "global" g.children ds = .ok r1 := e1
      have h2 : first ds "detectors" = some de' := h2
      unfold mergeDocuments
      rw [h.hasGear, h1]
      dsimp only
      rw [h.hasDetectors, h2, if_pos (show ((some de).isSome && (some de').isSome) = true from rfl), e1, Res.bind_ok, e2, Res.bind_ok, e3, Res.bind_ok]
    refine ⟨_, key, key, mergeDocuments_keeps key, .element dn das r3, s1, s2, s3, ?_, a1, a2, a3⟩
    have g1 : first r3 "global" = some s1 := by rw [o3 _ (by decide), o2 _ (by decide), f1]
    have g2 : first r3 "detectors" = some s2 := by rw [o3 _ (by decide), f2]
    refine ⟨first_setFirst _ dom h1 hv, rfl, g1, g2, f3, i1, i2, i3⟩
  | _ => have := h'.isElt; rw [hg] at this; simp [Node.isElt] at this

theorem mergeSection_others {name other : String} {g dom r : List Node} (h : mergeSection name g dom = .ok r)
    (ho : other.toList ≠ name.toList) : first r other = first dom other := by
  unfold mergeSection at h
  cases h1 : first g name with
  | none => rw [h1] at h; cases h
  | some n =>
    rw [h1] at h
    dsimp only at h
    split at h
    · cases h; rfl
    · split at h
      · cases h
      · rename_i dn das ds h2
        obtain ⟨rs, h3, h4⟩ := bind_eq_ok h
        cases h4
        refine first_setFirst_ne ho dom ?_
        have := first_value h2
        exact this
      · obtain ⟨rs, h3, h4⟩ := bind_eq_ok h
        cases h4
        rfl

/-- The claim is false of everything below "gear" but the three sections: it is never merged, whatever the files contain.  A magnetic
field, for example, that is only in the other file is lost. -/
theorem others_lost_false {rec dom r : List Node} {g g' : Node} (other : String)
    (h : (mergeFiles { file1 := some rec, file2 := some dom }).2 = .ok (some r)) (hg : first dom "gear" = some g)
    (hr : first r "gear" = some g') (h1 : other ≠ "global") (h2 : other ≠ "detectors") (h3 : other ≠ "materials") :
    first g'.children other = first g.children other := by
  rw [mergeFiles_two] at h
  have ne : ∀ {x : String}, other ≠ x → other.toList ≠ x.toList := fun h h' => h (String.toList_injective h')
  unfold mergeDocuments at h
  split at h
  · rename_i g0 dn das ds h0 h2'
    split_ifs at h
    · obtain ⟨d1, e1, h⟩ := bind_eq_ok h
      obtain ⟨d2, e2, h⟩ := bind_eq_ok h
      obtain ⟨d3, e3, h⟩ := bind_eq_ok h
      cases h
      have hv : (Node.element dn das d3).value = "gear".toList := by
        have := first_value h2'
        exact this
      rw [first_setFirst _ dom h2' hv] at hr
      cases hr
      rw [hg] at h2'
      cases h2'
      show first d3 other = first ds other
      rw [mergeSection_others e3 (ne h3), mergeSection_others e2 (ne h2), mergeSection_others e1 (ne h1)]
    · cases h
  · cases h

/-! ### C68 -/

/-- If both files are set, have all three sections, and no element with a name in the other file is without content, then no null
pointer is used: the files are merged or an exception is thrown.  Partial: see `merge_ub_false` and `section_ub_false`. -/
theorem merge_safe_partial {rec dom : List Node} {g gl de ma g' gl' de' ma' : Node} (h : Sections rec g gl de ma)
    (h' : Sections dom g' gl' de' ma') (c1 : NoEmptyNamedAll gl.children) (c2 : NoEmptyNamedAll de.children)
    (c3 : NoEmptyNamedAll ma.children) :
    (mergeFiles { file1 := some rec, file2 := some dom }).2 ≠ .ub
      ∧ (mergeFiles (makeDominant { file1 := some dom, file2 := some rec } 1)).2 ≠ .ub := by
  rw [mergeFiles_two, mergeFiles_one, and_self]
  unfold mergeDocuments
  have h1 := h'.hasGear
  have h2 := h'.hasDetectors
  have h3 := h'.hasGlobal
  have h4 := h'.hasMaterials
  rw [h.hasGear]
  cases g' with
  | element dn das ds =>
    rw [h1]
    have h2 : first ds "detectors" = some de' := h2
    have h3 : first ds "global" = some gl' := h3
    have h4 : first ds "materials" = some ma' := h4
    dsimp only
    rw [h.hasDetectors, h2, if_pos (show ((some de).isSome && (some de').isSome) = true from rfl)]
    cases e1 : mergeSection "global" g.children ds with
    | ub => exact absurd e1 (mergeSection_safe h.hasGlobal h3 c1).1
    | throw e => exact fun h => by cases h
    | ok d1 =>
      rw [Res.bind_ok]
      have h5 : first d1 "detectors" = some de' := by rw [mergeSection_others e1 (by decide)]; exact h2
      cases e2 : mergeSection "detectors" g.children d1 with
      | ub => exact absurd e2 (mergeSection_safe h.hasDetectors h5 c2).1
      | throw e => exact fun h => by cases h
      | ok d2 =>
        rw [Res.bind_ok]
        have h6 : first d2 "materials" = some ma' := by
          rw [mergeSection_others e2 (by decide), mergeSection_others e1 (by decide)]
          exact h4
        exact bind_ne_ub (mergeSection_safe h.hasMaterials h6 c3).1 fun a h => by cases h
  | _ => have := h'.isElt; simp [Node.isElt] at this

/-- Files that are not gear files are refused. -/
theorem merge_refused {rec dom : List Node}
    (h : ∀ g g', first rec "gear" = some g → first dom "gear" = some g' → first g.children "detectors" = none ∨ first g'.children "detectors" = none) :
    (mergeFiles { file1 := some rec, file2 := some dom }).2 = .ok none := by
  rw [mergeFiles_two]
  unfold mergeDocuments
  split
  · rename_i g0 dn das ds h0 h2'
    rw [if_neg]
    intro hh
    rw [Bool.and_eq_true] at hh
    rcases h _ _ h0 h2' with h | h
    · rw [h] at hh
      exact Bool.noConfusion hh.1
    · have h : first ds "detectors" = none := h
      rw [h] at hh
      exact Bool.noConfusion hh.2
  · rfl

/-- With the second file dominant, merging does not change the object: every further call has the same result. -/
theorem merge_repeat {m : Merger} (h : m.domFile ≠ 1) : (mergeFiles m).1 = m := by
  have hc : correctDominantFile m = m := by
    unfold correctDominantFile
    rw [if_neg h]
  unfold mergeFiles
  split
  · dsimp only
    rw [hc]
    split <;> rfl
  · rfl

/-- With the first file dominant, the claim is false: the files change their roles with every call. -/
theorem merge_swaps (a b : List Node) :
    (mergeFiles (mergeFiles (makeDominant { file1 := some a, file2 := some b } 1)).1).2 = mergeDocuments a b
      ∧ (mergeFiles (makeDominant { file1 := some a, file2 := some b } 1)).2 = mergeDocuments b a := ⟨rfl, rfl⟩

/-- A section that does not exist in the other file, or that does not exist in the dominant file and has content in the other one: a
null pointer is used, in every gear file. -/
theorem section_ub_false {rec dom : List Node} {g g' de de' : Node} (hg : first rec "gear" = some g) (hg' : first dom "gear" = some g')
    (he : g'.isElt = true) (hd : first g.children "detectors" = some de) (hd' : first g'.children "detectors" = some de')
    (hn : first g.children "global" = none
      ∨ first g'.children "global" = none ∧ ∃ n, first g.children "global" = some n ∧ n.children ≠ []) :
    (mergeFiles { file1 := some rec, file2 := some dom }).2 = .ub := by
  rw [mergeFiles_two]
  unfold mergeDocuments
  rw [hg]
  cases g' with
  | element dn das ds =>
    rw [hg']
    dsimp only
    have hd' : first ds "detectors" = some de' := hd'
    rw [hd, hd', if_pos (show ((some de).isSome && (some de').isSome) = true from rfl)]
    have : mergeSection "global" g.children ds = .ub := by
      unfold mergeSection
      rcases hn with hn | ⟨h1, n, h2, h3⟩
      · rw [hn]
      · have h1 : first ds "global" = none := h1
        rw [h2]
        dsimp only
        split
        · rename_i h4
          exact absurd h4 h3
        · rw [h1]
    rw [this]
    rfl
  | _ => simp [Node.isElt] at he

/-- An element with a name and without content, for example the parameters of a detector that has none, that is in the sections
"detectors" of both files (here: as the first node of the other file, and only once): a null pointer is used, in every gear file. -/
theorem merge_ub_false {rec dom : List Node} {g gl de ma g' gl' de' ma' c d : Node} {rest : List Node} (h : Sections rec g gl de ma)
    (h' : Sections dom g' gl' de' ma') (hgl : gl.children = []) (hc : de.children = c :: rest) (hd : d ∈ de'.children) (hs : Same c d)
    (he : c.isElt = true) (hde : d.isElt = true) (hn : c.attr "name" ≠ none) (h0 : c.children = [])
    (hu : ∀ c' ∈ rest, ¬ Same c c') (hu' : de'.children.Pairwise fun a b => ¬ Same a b) :
    (mergeFiles { file1 := some rec, file2 := some dom }).2 = .ub := by
  rw [mergeFiles_two]
  unfold mergeDocuments
  have h1 := h'.hasGear
  have h2 := h'.hasDetectors
  rw [h.hasGear]
  cases g' with
  | element dn das ds =>
    rw [h1]
    have h2 : first ds "detectors" = some de' := h2
    dsimp only
    rw [h.hasDetectors, h2, if_pos (show ((some de).isSome && (some de').isSome) = true from rfl)]
    have e1 : mergeSection "global" g.children ds = .ok ds := by
      unfold mergeSection
      rw [h.hasGlobal]
      dsimp only
      rw [hgl]
    rw [e1, Res.bind_ok]
    have e2 : mergeSection "detectors" g.children ds = .ub := by
      unfold mergeSection
      rw [h.hasDetectors]
      dsimp only
      rw [hc]
      dsimp only
      rw [h2]
      cases de' with
      | element en eas es =>
        dsimp only
        have hd : d ∈ es := hd
        have hu' : es.Pairwise fun a b => ¬ Same a b := hu'
        rw [mergeLoop]
        have c1 : countNodes c (c :: rest) = 1 := by
          unfold countNodes
          rw [List.filter_cons, if_pos ((same_iff c c).2 (Same.refl c)), List.filter_eq_nil_iff.2]
          · rfl
          · intro c' hc' hs'
            exact hu c' hc' ((same_iff _ _).1 hs').symm
        have c2 := countNodes_le c es hu'
        rw [if_neg (by omega), count_one (Or.inl rfl)]
        cases hg : getChildNode c es 1 with
        | none => exact absurd hs (getChildNode_none c es hg d hd)
        | some i =>
          obtain ⟨d', hd', hs'⟩ := getChildNode_some c es i hg
          have : d' = d := by
            by_contra hne
            have := List.Pairwise.forall_of_forall_of_flip (R := fun a b => ¬ Same a b ∨ a = b) ?_ ?_ ?_
              (List.mem_of_getElem? hd') hd
            · rcases this with h | h
              · exact h (hs'.symm.trans hs)
              · exact hne h
            · intro a _
              exact Or.inr rfl
            · exact hu'.imp Or.inl
            · exact hu'.imp fun h => Or.inl fun h' => h h'.symm
          subst this
          dsimp only
          rw [hd']
          dsimp only
          have : mergeChild c d' = .ub := by
            cases c with
            | element n as cs =>
              have h0 : cs = [] := h0
              subst h0
              cases d' with
              | element =>
                rw [mergeChild, if_pos (show hasName _ = true from Option.isSome_iff_ne_none.2 hn), if_pos rfl]
              | _ => simp [Node.isElt] at hde
            | _ => simp [Node.isElt] at he
          rw [this]
          rfl
      | _ => have := h'.elements.2.1; simp [Node.isElt] at this
    rw [e2]
    rfl
  | _ => have := h'.isElt; simp [Node.isElt] at this

/-! ### Examples -/

/-- A detector with parameters. -/
def detector (name : String) (children : List Node) : Node := el "detector" [("name", name.toList), ("geartype", "X".toList)] children

/-- A gear file. -/
def file (detectors materials : List Node) (more : List Node := []) : List Node :=
  [el "gear" [] ([el "global" [("detectorName", "D".toList)] []] ++ more ++ [el "detectors" [] detectors, el "materials" [] materials])]

/-- The gear file with the detectors VXD and SIT, a layer of VXD, and a field. -/
def file1 : List Node :=
  file [detector "VXD" [el "layer" [("id", "1".toList), ("width", "3".toList)] [el "a" [] []]],
        detector "SIT" [el "layer" [("id", "7".toList)] []]]
    [el "material" [("name", "Si".toList)] []] [el "BField" [("z", "4".toList)] []]

/-- The gear file with the detectors VXD and TPC. -/
def file2 : List Node :=
  file [detector "TPC" [el "layer" [("id", "8".toList)] []],
        detector "VXD" [el "layer" [("id", "2".toList)] [], el "b" [] []]]
    [el "material" [("name", "Cu".toList)] []]

/-- Their merger. -/
def merged : List Node :=
  file [detector "TPC" [el "layer" [("id", "8".toList)] []],
        detector "VXD" [el "layer" [("id", "2".toList), ("width", "3".toList)] [], el "b" [] []],
        detector "SIT" [el "layer" [("id", "7".toList)] []]]
    [el "material" [("name", "Cu".toList)] [], el "material" [("name", "Si".toList)] []]

theorem sections_file1 : ∃ g de ma, Sections file1 g (el "global" [("detectorName", "D".toList)] []) de ma
    ∧ de.children = [detector "VXD" [el "layer" [("id", "1".toList), ("width", "3".toList)] [el "a" [] []]],
        detector "SIT" [el "layer" [("id", "7".toList)] []]]
    ∧ ma.children = [el "material" [("name", "Si".toList)] []] := ⟨_, _, _, ⟨rfl, rfl, rfl, rfl, rfl, rfl, rfl, rfl⟩, rfl, rfl⟩

theorem merged_eq : (mergeFiles { file1 := some file1, file2 := some file2 }).2 = .ok (some merged) := by rfl

/-- The hypotheses of `merge_adds_partial` are met by the two files. -/
theorem clear_files : ClearAll
    [detector "VXD" [el "layer" [("id", "1".toList), ("width", "3".toList)] [el "a" [] []]], detector "SIT" [el "layer" [("id", "7".toList)] []]]
    [detector "TPC" [el "layer" [("id", "8".toList)] []], detector "VXD" [el "layer" [("id", "2".toList)] [], el "b" [] []]] := by
  have n1 : ∀ cs, nodeName (detector "VXD" cs) = "VXD".toList := fun _ => rfl
  have n2 : ∀ cs, nodeName (detector "SIT" cs) = "SIT".toList := fun _ => rfl
  have n3 : ∀ cs, nodeName (detector "TPC" cs) = "TPC".toList := fun _ => rfl
  rw [ClearAll, ClearAll, ClearAll]
  refine ⟨?_, ?_, ?_, ?_, ?_⟩
  · intro c hc
    rw [List.mem_singleton] at hc
    subst hc
    rw [n1, n2]
    decide
  · intro d hd hs
    rcases List.mem_cons.1 hd with rfl | hd
    · have := hs.name
      rw [n1, n3] at this
      exact absurd this (by decide)
    · rw [List.mem_singleton] at hd
      subst hd
      show Clear (.element _ _ _) _
      rw [Clear]
      refine ⟨rfl, fun _ => ⟨List.cons_ne_nil _ _, ?_⟩⟩
      rw [ClearAll, ClearAll]
      refine ⟨fun _ h => (by cases h), ?_, ?_⟩
      · intro d hd hs
        show Clear (.element _ _ _) _
        rw [Clear]
        rcases List.mem_cons.1 hd with rfl | hd
        · exact ⟨rfl, fun h => absurd (show (el "layer" [("id", "1".toList), ("width", "3".toList)] [el "a" [] []]).attr "name" = none from rfl) h⟩
        · rw [List.mem_singleton] at hd
          subst hd
          exact ⟨rfl, fun h => absurd (show (el "layer" [("id", "1".toList), ("width", "3".toList)] [el "a" [] []]).attr "name" = none from rfl) h⟩
      · refine List.Pairwise.cons ?_ (List.Pairwise.cons (fun _ h => by cases h) List.Pairwise.nil)
        intro b hb hs
        rw [List.mem_singleton] at hb
        subst hb
        have : "layer".toList = "b".toList := hs.name
        exact absurd this (by decide)
  · intro c hc
    cases hc
  · intro d hd hs
    rcases List.mem_cons.1 hd with rfl | hd
    · have := hs.name
      rw [n2, n3] at this
      exact absurd this (by decide)
    · rw [List.mem_singleton] at hd
      subst hd
      have := hs.name
      rw [n1, n2] at this
      exact absurd this (by decide)
  · refine List.Pairwise.cons ?_ (List.Pairwise.cons (fun _ h => by cases h) List.Pairwise.nil)
    intro b hb hs
    rw [List.mem_singleton] at hb
    subst hb
    have := hs.name
    rw [n1, n3] at this
    exact absurd this (by decide)

theorem sections_file2 : ∃ g de ma, Sections file2 g (el "global" [("detectorName", "D".toList)] []) de ma
    ∧ de.children = [detector "TPC" [el "layer" [("id", "8".toList)] []], detector "VXD" [el "layer" [("id", "2".toList)] [], el "b" [] []]]
    ∧ ma.children = [el "material" [("name", "Cu".toList)] []] := ⟨_, _, _, ⟨rfl, rfl, rfl, rfl, rfl, rfl, rfl, rfl⟩, rfl, rfl⟩

theorem clear_materials : ClearAll [el "material" [("name", "Si".toList)] []] [el "material" [("name", "Cu".toList)] []] := by
  rw [ClearAll, ClearAll]
  refine ⟨fun _ h => (by cases h), fun d hd hs => ?_, List.pairwise_singleton _ _⟩
  rw [List.mem_singleton] at hd
  subst hd
  have : "Si".toList = "Cu".toList := hs.name
  exact absurd this (by decide)

example : ∃ r, (mergeFiles { file1 := some file1, file2 := some file2 }).2 = .ok (some r) ∧ KeepsAll file2 r
    ∧ ∃ g'' gl'' de'' ma'', Sections r g'' gl'' de'' ma'' ∧ detector "SIT" [el "layer" [("id", "7".toList)] []] ∈ de''.children
      ∧ el "material" [("name", "Si".toList)] [] ∈ ma''.children := by
  obtain ⟨g, de, ma, h, e1, e2⟩ := sections_file1
  obtain ⟨g', de', ma', h', e1', e2'⟩ := sections_file2
  obtain ⟨r, h1, -, h2, g'', gl'', de'', ma'', hs, -, ha, hm⟩ := merge_adds_partial h h'
    (by show ClearAll [] []; rw [ClearAll]; exact List.Pairwise.nil) (by rw [e1, e1']; exact clear_files)
    (by rw [e2, e2']; exact clear_materials)
  refine ⟨r, h1, h2, g'', gl'', de'', ma'', hs, ?_, ?_⟩
  · rw [e1, e1', AddsAll, AddsAll] at ha
    refine ha.2.2.1 fun d hd hs => ?_
    rcases List.mem_cons.1 hd with rfl | hd
    · have : "SIT".toList = "TPC".toList := hs.name
      exact absurd this (by decide)
    · rw [List.mem_singleton] at hd
      subst hd
      have : "SIT".toList = "VXD".toList := hs.name
      exact absurd this (by decide)
  · rw [e2, e2', AddsAll] at hm
    refine hm.1 fun d hd hs => ?_
    rw [List.mem_singleton] at hd
    subst hd
    have : "Si".toList = "Cu".toList := hs.name
    exact absurd this (by decide)

example : KeepsAll file2 merged := (merge_keeps rfl rfl merged_eq).1 (by decide)

/-- The field of the first file is lost. -/
theorem field_lost_false : ∃ g g', first file1 "gear" = some g ∧ (first g.children "BField").isSome = true
    ∧ first merged "gear" = some g' ∧ first g'.children "BField" = none := ⟨_, _, rfl, rfl, rfl, rfl⟩

/-- What is below an element without a name is not merged: the first of these files has a "layer" that contains an "a", the second one
has a "layer" without content, and so has the result. -/
theorem unnamed_lost_false :
    (mergeFiles { file1 := some (file [detector "VXD" [el "layer" [] [el "a" [] []]]] [])
                  file2 := some (file [detector "VXD" [el "layer" [] []]] []) }).2
      = .ok (some (file [detector "VXD" [el "layer" [] []]] [])) := by rfl

/-- Elements of the same name that are not next to one another are mixed up: the attribute of the second "layer" of the first file
comes to the first "layer". -/
theorem repeated_false :
    (mergeFiles { file1 := some (file [detector "VXD" [el "layer" [] [], el "gap" [] [], el "layer" [("width", "3".toList)] []]] [])
                  file2 := some (file [detector "VXD" [el "layer" [] [], el "gap" [] [], el "layer" [] []]] []) }).2
      = .ok (some (file [detector "VXD" [el "layer" [("width", "3".toList)] [], el "gap" [] [], el "layer" [] []]] [])) := by rfl

/-- With the first file dominant, the second call has another result than the first: the width is 2 and then 3. -/
theorem merge_repeat_false :
    let m := makeDominant { file1 := some (file [detector "VXD" [el "layer" [("width", "2".toList)] []]] [])
                            file2 := some (file [detector "VXD" [el "layer" [("width", "3".toList)] []]] []) } 1
    (mergeFiles m).2 = .ok (some (file [detector "VXD" [el "layer" [("width", "2".toList)] []]] []))
      ∧ (mergeFiles (mergeFiles m).1).2 = .ok (some (file [detector "VXD" [el "layer" [("width", "3".toList)] []]] [])) :=
  ⟨by rfl, by rfl⟩

example : (mergeFiles (mergeFiles { file1 := some file1, file2 := some file2 }).1).2 = .ok (some merged) := by
  rw [merge_repeat (by decide)]
  exact merged_eq

/-- Two files with a common material, as written by GEAR: a null pointer is used. -/
theorem material_ub_false :
    (mergeFiles { file1 := some (file [] [el "material" [("name", "Si".toList), ("A", "28".toList)] []])
                  file2 := some (file [] [el "material" [("name", "Si".toList), ("A", "28.1".toList)] []]) }).2 = .ub := by rfl

/-- Two files with a common parameter of a common detector, as written by GEAR: a null pointer is used. -/
theorem parameter_ub_false :
    (mergeFiles { file1 := some (file [detector "VXD" [el "parameter" [("name", "a".toList), ("type", "int".toList), ("value", "1".toList)] []]] [])
                  file2 := some (file [detector "VXD" [el "parameter" [("name", "a".toList), ("type", "int".toList), ("value", "2".toList)] []]] []) }).2
      = .ub := by rfl

example : (mergeFiles { file1 := some (file [detector "VXD" []] []), file2 := some (file [detector "TPC" [], detector "VXD" []] []) }).2 = .ub := by
  have s1 : Sections (file [detector "VXD" []] []) _ _ _ _ := ⟨rfl, rfl, rfl, rfl, rfl, rfl, rfl, rfl⟩
  have s2 : Sections (file [detector "TPC" [], detector "VXD" []] []) _ _ _ _ := ⟨rfl, rfl, rfl, rfl, rfl, rfl, rfl, rfl⟩
  refine merge_ub_false (c := detector "VXD" []) (d := detector "VXD" []) (rest := []) s1 s2 rfl rfl
    (List.mem_cons_of_mem _ (List.mem_singleton_self _)) (Same.refl _) rfl rfl (fun h => by cases h) rfl (fun _ h => by cases h) ?_
  refine List.Pairwise.cons ?_ (List.Pairwise.cons (fun _ h => by cases h) List.Pairwise.nil)
  intro b hb hs
  rw [List.mem_singleton] at hb
  subst hb
  have : "TPC".toList = "VXD".toList := hs.name
  exact absurd this (by decide)

example : (mergeFiles { file1 := some (file [detector "VXD" [el "layer" [] []], el "a" [] []] []), file2 := some (file [detector "VXD" []] []) }).2
    ≠ .ub := by
  have s1 : Sections (file [detector "VXD" [el "layer" [] []], el "a" [] []] []) _ _ _ _ := ⟨rfl, rfl, rfl, rfl, rfl, rfl, rfl, rfl⟩
  have s2 : Sections (file [detector "VXD" []] []) _ _ _ _ := ⟨rfl, rfl, rfl, rfl, rfl, rfl, rfl, rfl⟩
  refine (merge_safe_partial s1 s2 ?_ ?_ ?_).1
  · show NoEmptyNamedAll []
    rw [NoEmptyNamedAll]
    exact True.intro
  · show NoEmptyNamedAll [.element _ _ [.element _ _ []], .element _ _ []]
    simp only [NoEmptyNamedAll, NoEmptyNamed, and_true]
    refine ⟨⟨fun _ => List.cons_ne_nil _ _, fun h => ?_⟩, fun h => ?_⟩
    · exact absurd rfl h
    · exact absurd rfl h
  · show NoEmptyNamedAll []
    rw [NoEmptyNamedAll]
    exact True.intro

example : (mergeFiles { file1 := some [el "gear" [] []], file2 := some file2 }).2 = .ok none := by
  refine merge_refused fun g g' h _ => Or.inl ?_
  cases h
  rfl

/-- A file without "global": a null pointer is used. -/
example : (mergeFiles { file1 := some [el "gear" [] [el "detectors" [] []]], file2 := some file2 }).2 = .ub :=
  section_ub_false (g := el "gear" [] [el "detectors" [] []]) rfl rfl rfl rfl rfl (Or.inl rfl)

end Gear.Xml.Merge
