/-
Which files are accepted and what is read from them (C130), and files that are cut off (C100).
-/
import Verif.XmlGrammarNodes

set_option autoImplicit false
set_option linter.unusedSectionVars false

namespace Gear.Xml.Grammar

/-! ### C130: the files that are accepted -/

/-- `LoadFile` accepts a file with some nodes if and only if the grammar says that they stand there. -/
theorem load_iff (file : Text) (nodes : List Node) : loadFile file = .ok (true, nodes) ↔ File file nodes := by
  unfold loadFile
  constructor
  · intro h
    split_ifs at h with hf
    · simp at h
    · cases hd : parseDocument file with
      | ok x =>
        obtain ⟨ns, e⟩ := x
        rw [hd] at h
        simp only [Run.bind_ok, Run.ok.injEq, Prod.mk.injEq, Bool.not_eq_true'] at h
        obtain ⟨rfl, rfl⟩ := h
        unfold parseDocument at hd
        split at hd
        · exact absurd rfl hf
        · cases hg : skipWhiteSpace (startEncoding file) (some file) with
          | none => rw [hg] at hd; simp at hd
          | some p =>
            rw [hg] at hd
            simp only at hd
            cases hp : parseNodes (p.length + 1) (startEncoding file) p [] with
            | ok y =>
              obtain ⟨ms, e⟩ := y
              rw [hp] at hd
              simp only [Run.bind_ok, Run.ok.injEq, Prod.mk.injEq, Bool.or_eq_false_iff, decide_eq_false_iff_not] at hd
              obtain ⟨rfl, rfl, hne⟩ := hd
              obtain ⟨ms', h1, h2⟩ := parseNodes_sound _ _ _ _ _ hp
              rw [List.nil_append] at h1
              subst h1
              exact ⟨_, p, first_iff.1 rfl, gap_iff.1 hg, h2, hne⟩
            | ub => rw [hp] at hd; simp at hd
            | assertFailed => rw [hp] at hd; simp at hd
            | endless => rw [hp] at hd; simp at hd
      | ub => rw [hd] at h; simp at h
      | assertFailed => rw [hd] at h; simp at h
      | endless => rw [hd] at h; simp at h
  · rintro ⟨enc, p, h1, h2, h3, hne⟩
    obtain rfl := first_iff.2 h1
    rw [if_neg h2.1]
    unfold parseDocument
    split
    · exact absurd rfl h2.1
    · rw [gap_iff.2 h2]
      simp only
      rw [parseNodes_complete h3 _ _ (by omega)]
      simp [hne]

/-- No two trees are spelt by the same file. -/
theorem file_unique {file : Text} {nodes nodes' : List Node} (h : File file nodes) (h' : File file nodes') : nodes = nodes' := by
  rw [← load_iff] at h h'
  rw [h] at h'
  simpa using h'

/-- A file as written by hand: a declaration, comments, both kinds of quotes, entities, text over several lines. -/
def byHand : Text := "<?xml version='1.0' encoding=\"UTF-8\" ?>
<!-- made by hand -->
<gear>
  <detector name = 'a &lt; b' n=\"&#x41;\"/>
  some
     text <i></i>
</gear>
".toList

example : File byHand [.declaration "1.0".toList "UTF-8".toList [], .comment " made by hand ".toList,
    .element "gear".toList [] [.element "detector".toList [("name".toList, "a < b".toList), (['n'], ['A'])] [],
      .text "some text".toList, .element ['i'] [] []]] :=
  (load_iff _ _).1 (by decide +kernel)

/-- Where the grammar is more lenient than that of XML: a reference hides an element, and what follows the root is not read. -/
theorem load_lenient : loadFile "<a>&#x<b>x41;</a>".toList = .ok (true, [.element ['a'] [] [.text ['A']]]) ∧
    loadFile "<a/> </b>".toList = .ok (true, [.element ['a'] [] [], .unknown "/b".toList]) ∧
    loadFile "<a/> b </c>".toList = .ok (true, [.element ['a'] [] []]) := by
  decide +kernel

/-! ### C100: files cut off -/

/-- Behind the last complete child of an element without end tag there is white space. -/
theorem content_end {enc : Enc} {p : Text} {ns : List Node} {q : Text} (h : Content enc p ns q) : q = [] → p ≠ [] →
    ∃ g, g <:+ p ∧ g ≠ [] ∧ Blanks enc g [] := by
  have suf : ∀ {p1 : Text} (a : Text), (∃ g, g <:+ p1 ∧ g ≠ [] ∧ Blanks enc g []) → p1 <:+ a → ∃ g, g <:+ a ∧ g ≠ [] ∧ Blanks enc g [] :=
    fun a ⟨g, h1, h2⟩ h => ⟨g, h1.trans h, h2⟩
  have gap : ∀ {p1 p2 : Text}, Gap enc p1 p2 → (p2 ≠ [] → ∃ g, g <:+ p2 ∧ g ≠ [] ∧ Blanks enc g []) →
      ∃ g, g <:+ p1 ∧ g ≠ [] ∧ Blanks enc g [] := by
    intro p1 p2 hg ih
    by_cases h2 : p2 = []
    · subst h2; exact ⟨p1, List.suffix_rfl, hg.1, hg.2.1⟩
    · exact suf _ (ih h2) hg.suffix
  induction h with
  | stop => rintro e; cases e
  | «end» => rintro - e; exact absurd rfl e
  | text c p v p' ns q _ hc hne _ _ ih => intro e _; exact suf _ (ih e hne) hc.suffix
  | noText c p v p' ns q _ hc hne _ _ ih => intro e _; exact suf _ (ih e hne) hc.suffix
  | other p n p1 p2 ns q _ ho hg _ ih => intro e _; exact suf _ (gap hg (ih e)) ho.suffix
  | empty p name attrs p1 p2 ns q hs hg _ ih => intro e _; exact suf _ (gap hg (ih e)) hs.suffix
  | element p name attrs p1 p2 children p3 p4 ns q hs hg hc hg' hc' _ ih =>
    intro e _
    refine suf _ (gap hg' (ih e)) (List.IsSuffix.trans ?_ (hc.isSuffix.trans (hg.suffix.trans hs.suffix)))
    exact ⟨'<' :: '/' :: name ++ ['>'], by simp⟩

theorem blanks_last {enc : Enc} {p q : Text} (h : Blanks enc p q) : q = [] → p ≠ [] → ∃ a c, p = a ++ [c] ∧ (Space c ∨ 128 ≤ c.toNat) := by
  induction h with
  | none q => intro e h; exact absurd e h
  | space c p q hs _ ih =>
    intro e _
    by_cases hp : p = []
    · exact ⟨[], c, by rw [hp]; rfl, .inl hs⟩
    · obtain ⟨a, d, rfl, h⟩ := ih e hp
      exact ⟨c :: a, d, rfl, h⟩
  | mark m p q _ hm _ ih =>
    intro e _
    by_cases hp : p = []
    · obtain ⟨a, b, c, rfl⟩ := mark_cons hm
      refine ⟨[a, b], c, by rw [hp]; rfl, .inr ?_⟩
      rcases hm with hm | hm | hm <;> simp at hm <;> omega
    · obtain ⟨a, d, rfl, h⟩ := ih e hp
      exact ⟨m ++ a, d, by simp, h⟩

theorem Encoding.unique {enc : Enc} {n : Node} {e e' : Enc} (h : Encoding enc n e) (h' : Encoding enc n e') : e = e' := by
  rw [← encoding_iff] at h h'; rw [← h, ← h']

theorem Complete.unique {enc : Enc} {p : Text} {n n' : Node} {q q' : Text} (h : Complete enc p n q) (h' : Complete enc p n' q') :
    n = n' ∧ q = q' := by
  have e := parseNode_complete h _ le_rfl
  rw [parseNode_complete h' _ le_rfl] at e
  simp only [Run.ok.injEq, Prod.mk.injEq, Option.some.injEq, and_true] at e
  exact ⟨e.1.symm, e.2.symm⟩

theorem not_incomplete {enc : Enc} {p : Text} {n n' : Node} {q : Text} (h : Complete enc p n q) (h' : Incomplete enc p n') : False := by
  have e := parseNode_complete h _ le_rfl
  rw [parseNode_incomplete h' _ le_rfl] at e
  simp at e

/-- Behind complete nodes the rest of the file is read. -/
theorem Before.nodes {enc : Enc} {p : Text} {enc' : Enc} {q : Text} (h : Before enc p enc' q) :
    ∀ ns, Nodes enc p ns → q ≠ [] → ∃ ms, Nodes enc' q ms := by
  induction h with
  | none enc p => intro ns h _; exact ⟨ns, h⟩
  | node enc p n p1 enc1 p2 enc2 q hc he hg _ ih =>
    intro ns hns hq
    have inc : ∀ {m}, Incomplete enc p m → False := fun h => not_incomplete hc h
    cases hns with
    | «end» => obtain ⟨t, e⟩ := hc.lt; cases e
    | rest _ c t hc' => obtain ⟨t, e⟩ := hc.lt; cases e; exact absurd rfl hc'
    | node _ _ n' p1' enc1' p2' ns' hc' he' hg' hns' =>
      obtain ⟨rfl, rfl⟩ := hc.unique hc'
      obtain rfl := he.unique he'
      obtain rfl := hg.unique hg'
      exact ih _ hns' hq
    | last _ _ n' hc' =>
      obtain ⟨rfl, rfl⟩ := hc.unique hc'
      exact absurd rfl hg.1
    | unclosed _ _ name attrs p1 p2 children h1 h2 h3 => exact (inc (.unclosed _ _ _ _ _ _ h1 h2 h3)).elim
    | repeated _ _ name p1 attrs h1 h2 => exact (inc (.repeated _ _ _ _ h1 h2)).elim
    | declaration _ _ _ h1 => exact (inc (.declaration _ _ h1)).elim

theorem Before.build {enc : Enc} {p : Text} {enc' : Enc} {q : Text} (h : Before enc p enc' q) :
    ∀ ns, Nodes enc' q ns → ns ≠ [] → ∃ ms, Nodes enc p ms ∧ ms ≠ [] := by
  induction h with
  | none enc p => intro ns h hne; exact ⟨ns, h, hne⟩
  | node enc p n p1 enc1 p2 enc2 q hc he hg _ ih =>
    intro ns hns hne
    obtain ⟨ms, h1, -⟩ := ih ns hns hne
    exact ⟨n :: ms, .node _ _ _ _ _ _ _ hc he hg h1, by simp⟩

theorem Before.isSuffix {enc : Enc} {p : Text} {enc' : Enc} {q : Text} (h : Before enc p enc' q) : q <:+ p := by
  induction h with
  | none enc p => exact List.suffix_rfl
  | node enc p n p1 enc1 p2 enc2 q hc he hg _ ih =>
    refine ih.trans (hg.suffix.trans ?_)
    cases hc with
    | other n q ho => exact ho.suffix
    | empty name attrs q hs => exact hs.suffix
    | element name attrs p1 p2 children q hs hg hc =>
      refine List.IsSuffix.trans ?_ (hc.isSuffix.trans (hg.suffix.trans hs.suffix))
      exact ⟨'<' :: '/' :: name ++ ['>'], by simp⟩

theorem Start.unique {enc : Enc} {p n q n' q' : Text} (h : Start enc p n q) (h' : Start enc p n' q') : n = n' ∧ q = q' := by
  obtain ⟨c, r, p0, rfl, -, hg, hn, -⟩ := h
  obtain ⟨c', r', p0', e, -, hg', hn', -⟩ := h'
  cases e
  obtain rfl := hg.unique hg'
  exact hn.unique hn'

theorem Tag.unique {enc : Enc} {p : Text} {b b' : List (Text × Text)} {c c' : Bool} {q q' : Text} (h : Tag enc [] p b c q)
    (h' : Tag enc [] p b' c' q') : b = b' ∧ c = c' ∧ q = q' := by
  have e := parseTag_complete h _ (Nat.lt_succ_self _)
  rw [parseTag_complete h' _ (Nat.lt_succ_self _)] at e
  simp only [Run.ok.injEq, Prod.mk.injEq] at e
  cases c <;> cases c' <;> simp at e <;> exact ⟨e.1.symm, rfl, e.2.symm⟩

theorem Tag.not_repeats {enc : Enc} {p : Text} {b b' : List (Text × Text)} {c : Bool} {q : Text} (h : Tag enc [] p b c q)
    (h' : Repeats enc [] p b') : False := by
  have e := parseTag_complete h _ (Nat.lt_succ_self _)
  rw [parseTag_repeats h' (by simp) _ (Nat.lt_succ_self _)] at e
  simp only [Run.ok.injEq, Prod.mk.injEq] at e
  cases c <;> simp at e

/-- A file with an element at the top that is not complete is accepted if and only if its content consists of complete
nodes, of which the last is followed by white space up to the end of the file. -/
theorem unclosed_iff {file : Text} {enc : Enc} {p name : Text} {attrs : List (Text × Text)} {q : Text}
    (hs : TopStart file enc p name attrs q) (hopen : ∀ n r, ¬ Complete enc p n r) :
    (∃ nodes, loadFile file = .ok (true, nodes)) ↔ ∃ q' children, Gap enc q q' ∧ Content enc q' children [] := by
  obtain ⟨enc0, p0, hf, hg, hb, p1, hst, htag⟩ := hs
  constructor
  · rintro ⟨nodes, h⟩
    obtain ⟨enc0', p0', hf', hg', hns, -⟩ := (load_iff _ _).1 h
    obtain rfl : enc0 = enc0' := by rw [← first_iff] at hf hf'; rw [← hf, ← hf']
    obtain rfl := hg.unique hg'
    have hpe : p ≠ [] := by obtain ⟨t, rfl⟩ := hst.element.2; simp
    obtain ⟨ms, hms⟩ := hb.nodes _ hns hpe
    cases hms with
    | «end» => exact absurd rfl hpe
    | rest _ c t hc => obtain ⟨t', e⟩ := hst.element.2; cases e; exact absurd rfl hc
    | node _ _ n _ _ _ _ hc _ _ _ => exact absurd hc (hopen _ _)
    | last _ _ n hc => exact absurd hc (hopen _ _)
    | unclosed _ _ name' attrs' q' q2 children h1 h2 h3 =>
      obtain ⟨p1', hst', htag'⟩ := h1
      obtain ⟨rfl, rfl⟩ := hst.unique hst'
      obtain ⟨-, -, rfl⟩ := htag.unique htag'
      exact ⟨q2, children, h2, h3⟩
    | repeated _ _ name' p1' attrs' h1 h2 =>
      obtain ⟨rfl, rfl⟩ := hst.unique h1
      exact (htag.not_repeats h2).elim
    | declaration _ _ n h1 =>
      have := hst.element.1
      rw [h1.lt.2] at this; cases this
  · rintro ⟨q', children, h1, h2⟩
    obtain ⟨ms, hms, hne⟩ := hb.build _ (.unclosed enc p name attrs q q' children ⟨p1, hst, htag⟩ h1 h2) (by simp)
    exact ⟨ms, (load_iff _ _).2 ⟨enc0, p0, hf, hg, hms, hne⟩⟩

/-- A file with an element at the top that is not complete is rejected if it does not end in white space. -/
theorem unclosed_rejected_partial {file : Text} {enc : Enc} {p name : Text} {attrs : List (Text × Text)} {q : Text}
    (hs : TopStart file enc p name attrs q) (hopen : ∀ n r, ¬ Complete enc p n r) (a : Text) (c : Char)
    (hlast : file = a ++ [c]) (hc : ¬ Space c ∧ c.toNat < 128) (nodes : List Node) : loadFile file ≠ .ok (true, nodes) := by
  intro h
  obtain ⟨q', children, h1, h2⟩ := (unclosed_iff hs hopen).1 ⟨nodes, h⟩
  obtain ⟨enc0, p0, hf, hg, hb, hst⟩ := hs
  obtain ⟨g, hsuf, hne, hbl⟩ : ∃ g, g <:+ q ∧ g ≠ [] ∧ Blanks enc g [] := by
    by_cases h3 : q' = []
    · subst h3; exact ⟨q, List.suffix_rfl, h1.1, h1.2.1⟩
    · obtain ⟨g, s1, s2, s3⟩ := content_end h2 rfl h3
      exact ⟨g, s1.trans h1.suffix, s2, s3⟩
  obtain ⟨b, d, rfl, hd⟩ := blanks_last hbl rfl hne
  obtain ⟨u, hu⟩ := hsuf.trans (hst.suffix.trans (hb.isSuffix.trans hg.suffix))
  rw [hlast, ← List.append_assoc] at hu
  obtain ⟨-, e⟩ := List.append_inj' hu rfl
  simp only [List.cons.injEq, and_true] at e
  subst e
  rcases hd with hd | hd
  · exact hc.1 hd
  · omega

theorem Condensed.unique {enc : Enc} {p u q u' q' : Text} (h : Condensed enc false p u q) (h' : Condensed enc false p u' q') :
    u = u' ∧ q = q' := by
  have e := readTrim_complete h _ [] le_rfl
  rw [readTrim_complete h' _ [] le_rfl] at e
  simp only [List.nil_append, Run.ok.injEq, Prod.mk.injEq] at e
  exact ⟨e.1.symm, e.2.symm⟩

theorem Content.complete {enc : Enc} {p : Text} {ns : List Node} {q : Text} (h : Content enc p ns q) (hlt : ∃ t, p = '<' :: t)
    (hns : ¬ ['<', '/'] <+: p) : ∃ n p1 p2 ms, Complete enc p n p1 ∧ Gap enc p1 p2 ∧ Content enc p2 ms q := by
  obtain ⟨t, rfl⟩ := hlt
  generalize hp : '<' :: t = p at h hns
  cases h with
  | stop q => exact absurd ⟨q, rfl⟩ hns
  | «end» => cases hp
  | text c p v p' ns q hc => cases hp; exact absurd rfl hc
  | noText c p v p' ns q hc => cases hp; exact absurd rfl hc
  | other p n p1 p2 ns q _ ho hg hc => exact ⟨n, p1, p2, ns, .other _ _ _ ho, hg, hc⟩
  | empty p name attrs p1 p2 ns q hs hg hc => exact ⟨_, p1, p2, ns, .empty _ _ _ _ hs, hg, hc⟩
  | element p name attrs p1 p2 children p3 p4 ns q hs hg hc hg' hc' =>
    exact ⟨_, p3, p4, ns, .element _ _ _ _ _ _ _ hs hg hc, hg', hc'⟩

theorem Siblings.content {enc : Enc} {p q : Text} (h : Siblings enc p q) : ∀ ns r, Content enc p ns r → ∃ ms, Content enc q ms r := by
  induction h with
  | none p => intro ns r h; exact ⟨ns, h⟩
  | text c p v p' q hc hcon hne _ ih =>
    intro ns r h
    generalize hp : c :: p = p0 at h
    cases h with
    | stop => cases hp; exact absurd rfl hc
    | «end» => cases hp
    | text c' p1 v' p1' ns q' hc' hcon' _ _ hc2 =>
      cases hp
      obtain ⟨-, rfl⟩ := hcon.unique hcon'
      exact ih _ _ hc2
    | noText c' p1 v' p1' ns q' hc' hcon' _ _ hc2 =>
      cases hp
      obtain ⟨-, rfl⟩ := hcon.unique hcon'
      exact ih _ _ hc2
    | other p1 n p2 p3 ns q' _ ho => obtain ⟨t, e⟩ := ho.lt.1; rw [e] at hp; cases hp; exact absurd rfl hc
    | empty p1 name attrs p2 p3 ns q' hs => obtain ⟨d, t, e, -⟩ := hs.lt; rw [e] at hp; cases hp; exact absurd rfl hc
    | element p1 name attrs p2 p3 children p4 p5 ns q' hs => obtain ⟨d, t, e, -⟩ := hs.lt; rw [e] at hp; cases hp; exact absurd rfl hc
  | node p n p1 p2 q hns hcm hg _ ih =>
    intro ns r h
    obtain ⟨n', p1', p2', ms, hcm', hg', hc⟩ := h.complete hcm.lt hns
    obtain ⟨-, rfl⟩ := hcm.unique hcm'
    obtain rfl := hg.unique hg'
    exact ih _ _ hc

/-- A file that ends in an element inside another one is rejected. -/
theorem cut_in_child_rejected_partial {file : Text} {enc : Enc} {p name : Text} {attrs : List (Text × Text)} {q q' : Text}
    (hs : TopStart file enc p name attrs q) (hopen : ∀ n r, ¬ Complete enc p n r) (hg : Gap enc q q') {child name' r : Text}
    (hsib : Siblings enc q' child) (hchild : Start enc child name' r) (hcut : ∀ n r, ¬ Complete enc child n r)
    (nodes : List Node) : loadFile file ≠ .ok (true, nodes) := by
  intro h
  obtain ⟨q2, children, h1, h2⟩ := (unclosed_iff hs hopen).1 ⟨nodes, h⟩
  obtain rfl := hg.unique h1
  obtain ⟨ms, hms⟩ := hsib.content _ _ h2
  obtain ⟨c, t, p0, rfl, hc, -⟩ := hchild
  obtain ⟨n, p1, -, -, hcm, -⟩ := hms.complete ⟨_, rfl⟩ (by
    rintro ⟨u, e⟩
    simp only [List.cons_append, List.nil_append, List.cons.injEq, true_and] at e
    rw [← nameStart_iff, ← e.1] at hc
    revert hc; decide)
  exact hcut _ _ hcm

/-! A file that is cut off in a child of the root, and one that is cut off behind it. -/

theorem not_complete {enc : Enc} {p : Text} (h : ∀ n q, parseNode enc (3 * p.length) p ≠ .ok (n, some q, false)) (n : Node)
    (q : Text) : ¬ Complete enc p n q := fun hc => h n q (parseNode_complete hc _ le_rfl)

theorem first_lt (r : Text) : First ('<' :: r) .unknown := by
  refine .none _ ?_
  rintro m q e h
  cases m with
  | nil => simp at h
  | cons a m =>
    simp only [List.cons_append, List.cons.injEq] at e
    obtain ⟨rfl, -⟩ := e
    simp at h

theorem start_letter {c d : Char} (h : (isAlpha c || decide (c = '_')) = true) (hc : isSpace c = false ∧ c.toNat < 128)
    (hn : isNameChar c = true) (hd : isNameChar d = false) (r : Text) : Start .unknown ('<' :: c :: d :: r) [c] (d :: r) :=
  ⟨c, d :: r, c :: d :: r, rfl, nameStart_iff.1 h, gap_self (by rw [← space_iff, hc.1]; simp) hc.2,
    ⟨rfl, ⟨c, [], rfl, nameStart_iff.1 h⟩, by simpa using nameChar_iff.1 hn, by
      rintro e t he; cases he; rw [← nameChar_iff, hd]; simp⟩, by simp⟩

/-- `<g><b> ` and a newline. -/
example (nodes : List Node) : loadFile ['<', 'g', '>', '<', 'b', '>', ' ', '\n'] ≠ .ok (true, nodes) := by
  have g1 : Start .unknown ['<', 'g', '>', '<', 'b', '>', ' ', '\n'] ['g'] ['>', '<', 'b', '>', ' ', '\n'] :=
    start_letter (by decide) (by decide) (by decide) (by decide) _
  have g2 : Start .unknown ['<', 'b', '>', ' ', '\n'] ['b'] ['>', ' ', '\n'] :=
    start_letter (by decide) (by decide) (by decide) (by decide) _
  refine cut_in_child_rejected_partial (attrs := []) ⟨_, _, first_lt _, gap_lt _, .none _ _, _, g1, .open _ _ _ (gap_iff.1 rfl)⟩ ?_
    (gap_lt _) (.none _) g2 ?_ nodes
  · refine not_complete fun n q => ?_
    have : parseNode .unknown (3 * 8) ['<', 'g', '>', '<', 'b', '>', ' ', '\n']
        = .ok (.element ['g'] [] [.element ['b'] [] []], none, true) := by decide +kernel
    show parseNode .unknown (3 * 8) _ ≠ _
    rw [this]; simp
  · refine not_complete fun n q => ?_
    have : parseNode .unknown (3 * 5) ['<', 'b', '>', ' ', '\n'] = .ok (.element ['b'] [] [], none, false) := by decide +kernel
    show parseNode .unknown (3 * 5) _ ≠ _
    rw [this]; simp

/-- `<g><b/>`, and with a newline: only then it is accepted. -/
example (nodes : List Node) : loadFile ['<', 'g', '>', '<', 'b', '/', '>'] ≠ .ok (true, nodes) := by
  have g1 : Start .unknown ['<', 'g', '>', '<', 'b', '/', '>'] ['g'] ['>', '<', 'b', '/', '>'] :=
    start_letter (by decide) (by decide) (by decide) (by decide) _
  refine unclosed_rejected_partial (attrs := []) ⟨_, _, first_lt _, gap_lt _, .none _ _, _, g1, .open _ _ _ (gap_iff.1 rfl)⟩ ?_
    ['<', 'g', '>', '<', 'b', '/'] '>' rfl (by rw [← space_iff]; decide) nodes
  refine not_complete fun n q => ?_
  have : parseNode .unknown (3 * 7) ['<', 'g', '>', '<', 'b', '/', '>']
      = .ok (.element ['g'] [] [.element ['b'] [] []], none, true) := by decide +kernel
  show parseNode .unknown (3 * 7) _ ≠ _
  rw [this]; simp

example : ∃ nodes, loadFile ['<', 'g', '>', '<', 'b', '/', '>', '\n'] = .ok (true, nodes) :=
  ⟨[.element ['g'] [] [.element ['b'] [] []]], by decide +kernel⟩

end Gear.Xml.Grammar
