/-
Lemmas for XmlGrammarProps.lean: elements, their content and files.
-/
import Verif.XmlGrammarTags

set_option autoImplicit false
set_option linter.unusedSectionVars false

namespace Gear.Xml.Grammar

/-- A node that is not complete, but sets no error. -/
inductive Incomplete (enc : Enc) : Text → Node → Prop
  | unclosed (p name : Text) (attrs : List (Text × Text)) (p₁ p₂ : Text) (children : List Node) :
      StartTag enc p name attrs false p₁ → Gap enc p₁ p₂ → Content enc p₂ children [] →
      Incomplete enc p (.element name attrs children)
  | repeated (p name p₁ : Text) (attrs : List (Text × Text)) : Start enc p name p₁ → Repeats enc [] p₁ attrs →
      Incomplete enc p (.element name attrs [])
  | declaration (p : Text) (n : Node) : Other enc p n none → Incomplete enc p n

/-- What reading a node without error means. -/
def NodeOk (enc : Enc) (p : Text) (n : Node) : Option Text → Prop
  | some q => Complete enc p n q
  | none => Incomplete enc p n

/-- An element from behind its name on. -/
def elementRest (enc : Enc) (fuel : ℕ) (name p : Text) : Run (Node × Option Text × Bool) := do
  match ← parseTag enc (p.length + 1) p [] with
  | (attrs, .failed error) => .ok (.element name attrs [], none, error)
  | (attrs, .closed p) => .ok (.element name attrs [], some p, false)
  | (attrs, .opened p) => do
    let (children, p, error) ← match skipWhiteSpace enc (some p) with
      | none => .ok ([], none, true)
      | some p => readValue enc fuel p []
    match p with
    | none => .ok (.element name attrs children, none, error)
    | some [] => .ok (.element name attrs children, none, error)
    | some p =>
      let endTag := '<' :: '/' :: name ++ ['>']
      if endTag.isPrefixOf p then .ok (.element name attrs children, some (p.drop endTag.length), error)
      else .ok (.element name attrs children, none, true)

theorem parseElement_start {enc : Enc} {p name p1 : Text} (h : Start enc p name p1) (fuel : ℕ) :
    parseElement enc (fuel + 1) p = elementRest enc fuel name p1 := by
  obtain ⟨c, r, p0, rfl, hc, hg, hn, hne⟩ := h
  rw [parseElement, List.drop_succ_cons, List.drop_zero, gap_iff.2 hg]
  simp only
  rw [name_iff.2 hn]
  cases p1 with
  | nil => exact absurd rfl hne
  | cons a t => rfl

theorem Start.shorter {enc : Enc} {p name p1 : Text} (h : Start enc p name p1) : p1.length + 2 ≤ p.length := by
  obtain ⟨c, r, p0, rfl, hc, hg, hn, hne⟩ := h
  have := hg.suffix.length_le
  have := hn.shorter
  simp only [List.length_cons] at *
  omega

theorem Start.element {enc : Enc} {p name p1 : Text} (h : Start enc p name p1) : isElement p = true ∧ ∃ t, p = '<' :: t := by
  obtain ⟨c, r, p0, rfl, hc, -⟩ := h
  exact (start_iff (enc := enc)).2 ⟨c, r, rfl, hc⟩

theorem StartTag.shorter {enc : Enc} {p name : Text} {attrs : List (Text × Text)} {c : Bool} {q : Text}
    (h : StartTag enc p name attrs c q) : q.length + 3 ≤ p.length := by
  obtain ⟨p1, h1, h2⟩ := h
  have := h1.shorter
  have := h2.suffix.2
  omega

theorem blank_iff {v : Text} : blank v = true ↔ ∀ d ∈ v, Space d := by
  rw [blank, List.all_eq_true]
  exact forall_congr' fun c => imp_congr_right fun _ => space_iff

theorem gap_lt {enc : Enc} (r : Text) : Gap enc ('<' :: r) ('<' :: r) :=
  gap_self (by rw [← space_iff]; decide) (by decide)

/-! ### What is read without error stands there -/

theorem nodes_sound (enc : Enc) : ∀ fuel,
    (∀ p n r, isElement p = true → (∃ t, p = '<' :: t) → parseElement enc fuel p = .ok (n, r, false) → NodeOk enc p n r) ∧
    (∀ p acc ns r, readValue enc fuel p acc = .ok (ns, r, false) → ∃ q ms, r = some q ∧ ns = acc ++ ms ∧ Content enc p ms q) ∧
    (∀ p n r, (∃ t, p = '<' :: t) → parseNode enc fuel p = .ok (n, r, false) → NodeOk enc p n r) := by
  intro fuel
  induction fuel with
  | zero =>
    exact ⟨fun p n r _ _ h => by simp [parseElement] at h, fun p acc ns r h => by simp [readValue] at h,
      fun p n r _ h => by simp [parseNode] at h⟩
  | succ fuel ih =>
    obtain ⟨ihE, ihV, ihN⟩ := ih
    refine ⟨fun p n r he hlt h => ?_, fun p acc ns r h => ?_, fun p n r hlt h => ?_⟩
    · obtain ⟨c, t, rfl, hc⟩ := (start_iff (enc := enc)).1 ⟨he, hlt⟩
      have h' := h
      rw [parseElement, List.drop_succ_cons, List.drop_zero] at h'
      cases hg : skipWhiteSpace enc (some (c :: t)) with
      | none => rw [hg] at h'; simp at h'
      | some p0 =>
        rw [hg] at h'
        simp only at h'
        cases hn : readName p0 with
        | none => rw [hn] at h'; simp at h'
        | some x =>
          obtain ⟨name, p1⟩ := x
          rw [hn] at h'
          cases p1 with
          | nil => simp at h'
          | cons a u =>
            clear h'
            have hs : Start enc ('<' :: c :: t) name (a :: u) :=
              ⟨c, t, p0, rfl, hc, gap_iff.1 hg, name_iff.1 hn, by simp⟩
            rw [parseElement_start hs] at h
            unfold elementRest at h
            cases ht : parseTag enc ((a :: u).length + 1) (a :: u) [] with
            | ok x =>
              have htag := parseTag_sound enc _ _ _ _ (by simp) ht
              rw [ht] at h
              obtain ⟨attrs, te⟩ := x
              cases te with
              | failed e =>
                simp only [Run.bind_ok, Run.ok.injEq, Prod.mk.injEq] at h
                obtain ⟨rfl, rfl, rfl⟩ := h
                exact .repeated _ _ _ _ hs htag
              | closed q =>
                simp only [Run.bind_ok, Run.ok.injEq, Prod.mk.injEq] at h
                obtain ⟨rfl, rfl, -⟩ := h
                exact .empty _ _ _ _ ⟨_, hs, htag⟩
              | opened q =>
                have htag : StartTag enc ('<' :: c :: t) name attrs false q := ⟨_, hs, htag⟩
                simp only [Run.bind_ok] at h
                cases hq : skipWhiteSpace enc (some q) with
                | none => rw [hq] at h; simp at h
                | some q' =>
                  rw [hq] at h
                  simp only at h
                  cases hv : readValue enc fuel q' [] with
                  | ok y =>
                    obtain ⟨children, o, e⟩ := y
                    rw [hv] at h
                    simp only [Run.bind_ok] at h
                    have key : e = false → ∃ q₂, o = some q₂ ∧ Content enc q' children q₂ := by
                      rintro rfl
                      obtain ⟨q₂, ms, h1, h2, h3⟩ := ihV _ _ _ _ hv
                      rw [List.nil_append] at h2
                      exact ⟨q₂, h1, h2 ▸ h3⟩
                    split at h
                    · simp only [Run.ok.injEq, Prod.mk.injEq] at h
                      obtain ⟨rfl, rfl, h3⟩ := h
                      obtain ⟨q₂, h, -⟩ := key h3
                      cases h
                    · simp only [Run.ok.injEq, Prod.mk.injEq] at h
                      obtain ⟨rfl, rfl, h3⟩ := h
                      obtain ⟨q₂, h, hc⟩ := key h3
                      cases h
                      exact .unclosed _ _ _ _ _ _ htag (gap_iff.1 hq) hc
                    · rename_i o _ _
                      split_ifs at h with hp
                      · simp only [Run.ok.injEq, Prod.mk.injEq] at h
                        obtain ⟨rfl, rfl, h3⟩ := h
                        obtain ⟨q₂, h, hc⟩ := key h3
                        cases h
                        rw [List.isPrefixOf_iff_prefix] at hp
                        obtain ⟨w, rfl⟩ := hp
                        rw [List.drop_left]
                        refine .element _ _ _ _ _ _ _ htag (gap_iff.1 hq) ?_
                        simpa using hc
                      · simp at h
                  | ub => rw [hv] at h; simp at h
                  | assertFailed => rw [hv] at h; simp at h
                  | endless => rw [hv] at h; simp at h
            | ub => rw [ht] at h; simp at h
            | assertFailed => rw [ht] at h; simp at h
            | endless => rw [ht] at h; simp at h
    · cases p with
      | nil =>
        simp only [readValue, Run.ok.injEq, Prod.mk.injEq] at h
        obtain ⟨rfl, rfl, -⟩ := h
        exact ⟨[], [], rfl, by simp, .end⟩
      | cons c t =>
        rw [readValue] at h
        split_ifs at h with h1 h2
        · cases hr : readTrim enc ['<'] (t.length + 1) false (c :: t) [] with
          | ok x =>
            obtain ⟨v, p'⟩ := x
            rw [hr] at h
            simp only [Run.bind_ok] at h
            obtain ⟨u, hu, hcon⟩ := readTrim_sound enc _ _ _ _ _ _ hr
            rw [List.nil_append] at hu
            subst hu
            cases hg : skipWhiteSpace enc (some p') with
            | none => rw [hg] at h; simp at h
            | some p'' =>
              rw [hg] at h
              simp only at h
              have hne : p' ≠ [] := (gap_iff.1 hg).1
              obtain ⟨w, rfl⟩ : ∃ r, p' = '<' :: r := hcon.ends.resolve_left hne
              obtain rfl := (gap_iff.1 hg).unique (gap_lt w)
              obtain ⟨q, ms, rfl, rfl, hc⟩ := ihV _ _ _ _ h
              by_cases hb : blank v = true
              · rw [if_pos hb]
                exact ⟨q, ms, rfl, rfl, .noText _ _ _ _ _ _ h1 hcon hne (blank_iff.1 hb) hc⟩
              · rw [if_neg hb]
                refine ⟨q, .text v :: ms, rfl, by simp, .text _ _ _ _ _ _ h1 hcon hne ?_ hc⟩
                rw [blank_iff] at hb
                push Not at hb
                exact hb
          | ub => rw [hr] at h; simp at h
          | assertFailed => rw [hr] at h; simp at h
          | endless => rw [hr] at h; simp at h
        · simp only [Run.ok.injEq, Prod.mk.injEq] at h
          obtain ⟨rfl, rfl, -⟩ := h
          rw [List.isPrefixOf_iff_prefix] at h2
          obtain ⟨w, hw⟩ := h2
          refine ⟨c :: t, [], rfl, by simp, ?_⟩
          rw [← hw]
          exact .stop w
        · have hlt : ∃ t', c :: t = '<' :: t' := ⟨t, by rw [not_not.1 h1]⟩
          cases hn : parseNode enc fuel (c :: t) with
          | ok x =>
            obtain ⟨n, o, e⟩ := x
            rw [hn] at h
            simp only [Run.bind_ok] at h
            cases hg : skipWhiteSpace enc o with
            | none => rw [hg] at h; simp at h
            | some p2 =>
              rw [hg] at h
              simp only at h
              cases hv : readValue enc fuel p2 (acc ++ [n]) with
              | ok y =>
                obtain ⟨ms', o', e'⟩ := y
                rw [hv] at h
                simp only [Run.bind_ok, Run.ok.injEq, Prod.mk.injEq, Bool.or_eq_false_iff] at h
                obtain ⟨rfl, rfl, rfl, rfl⟩ := h
                obtain ⟨q, ms, rfl, rfl, hc⟩ := ihV _ _ _ _ hv
                cases o with
                | none => simp [skipWhiteSpace] at hg
                | some p1 =>
                  have hok : Complete enc (c :: t) n p1 := ihN _ _ _ hlt hn
                  have hg := gap_iff.1 hg
                  refine ⟨q, n :: ms, rfl, by simp, ?_⟩
                  cases hok with
                  | other _ _ ho =>
                    exact .other _ _ _ _ _ _ (by rw [← List.isPrefixOf_iff_prefix]; exact h2) ho hg hc
                  | empty _ _ _ hs => exact .empty _ _ _ _ _ _ _ hs hg hc
                  | element _ _ _ _ _ _ hs hg' hc' => exact .element _ _ _ _ _ _ _ _ _ _ hs hg' hc' hg hc
              | ub => rw [hv] at h; simp at h
              | assertFailed => rw [hv] at h; simp at h
              | endless => rw [hv] at h; simp at h
          | ub => rw [hn] at h; simp at h
          | assertFailed => rw [hn] at h; simp at h
          | endless => rw [hn] at h; simp at h
    · rw [parseNode] at h
      split_ifs at h with he
      · exact ihE p n r he hlt h
      · cases ho : parseOther enc p with
        | ok x =>
          obtain ⟨m, o⟩ := x
          rw [ho] at h
          simp only [Run.bind_ok, Run.ok.injEq, Prod.mk.injEq] at h
          obtain ⟨rfl, rfl, -⟩ := h
          have := (other_iff hlt (by simpa using he)).1 ho
          cases o with
          | none => exact .declaration _ _ this
          | some q => exact .other _ _ _ this
        | ub => rw [ho] at h; simp at h
        | assertFailed => rw [ho] at h; simp at h
        | endless => rw [ho] at h; simp at h

/-! ### What stands there is read -/

theorem parseNode_other {enc : Enc} {p : Text} {n : Node} {r : Option Text} (h : Other enc p n r) (fuel : ℕ) :
    parseNode enc (fuel + 1) p = .ok (n, r, false) := by
  obtain ⟨hlt, he⟩ := h.lt
  rw [parseNode, if_neg (by rw [he]; simp), (other_iff hlt he).2 h]
  rfl

theorem parseNode_start {enc : Enc} {p name p1 : Text} (h : Start enc p name p1) (fuel : ℕ) :
    parseNode enc (fuel + 2) p = elementRest enc fuel name p1 := by
  rw [parseNode, if_pos h.element.1, parseElement_start h]

theorem parseNode_empty {enc : Enc} {p name : Text} {attrs : List (Text × Text)} {q : Text} (h : StartTag enc p name attrs true q)
    (fuel : ℕ) : parseNode enc (fuel + 2) p = .ok (.element name attrs [], some q, false) := by
  obtain ⟨p1, hs, ht⟩ := h
  rw [parseNode_start hs, elementRest, parseTag_complete ht _ (by omega)]
  rfl

theorem parseNode_repeats {enc : Enc} {p name p1 : Text} {attrs : List (Text × Text)} (hs : Start enc p name p1)
    (ht : Repeats enc [] p1 attrs) (fuel : ℕ) : parseNode enc (fuel + 2) p = .ok (.element name attrs [], none, false) := by
  rw [parseNode_start hs, elementRest, parseTag_repeats ht (by simp) _ (by omega)]
  rfl

theorem parseNode_content {enc : Enc} {p name : Text} {attrs : List (Text × Text)} {p1 p2 : Text} {children : List Node} {q : Text}
    (h : StartTag enc p name attrs false p1) (hg : Gap enc p1 p2) (fuel : ℕ)
    (hv : readValue enc fuel p2 [] = .ok (children, some ('<' :: '/' :: name ++ '>' :: q), false)) :
    parseNode enc (fuel + 2) p = .ok (.element name attrs children, some q, false) := by
  obtain ⟨p0, hs, ht⟩ := h
  rw [parseNode_start hs, elementRest, parseTag_complete ht _ (by omega)]
  simp only [Run.bind_ok, Bool.false_eq_true, if_false]
  rw [gap_iff.2 hg]
  simp only
  rw [hv]
  simp only [Run.bind_ok, List.cons_append]
  have e : '<' :: '/' :: (name ++ '>' :: q) = ('<' :: '/' :: (name ++ ['>'])) ++ q := by simp
  rw [if_pos (by rw [List.isPrefixOf_iff_prefix]; exact ⟨q, e.symm⟩), e, List.drop_left]

theorem parseNode_unclosed {enc : Enc} {p name : Text} {attrs : List (Text × Text)} {p1 p2 : Text} {children : List Node}
    (h : StartTag enc p name attrs false p1) (hg : Gap enc p1 p2) (fuel : ℕ)
    (hv : readValue enc fuel p2 [] = .ok (children, some [], false)) :
    parseNode enc (fuel + 2) p = .ok (.element name attrs children, none, false) := by
  obtain ⟨p0, hs, ht⟩ := h
  rw [parseNode_start hs, elementRest, parseTag_complete ht _ (by omega)]
  simp only [Run.bind_ok, Bool.false_eq_true, if_false]
  rw [gap_iff.2 hg]
  simp only
  rw [hv]
  rfl

theorem StartTag.lt {enc : Enc} {p name : Text} {attrs : List (Text × Text)} {c : Bool} {q : Text}
    (h : StartTag enc p name attrs c q) : ∃ d t, p = '<' :: d :: t ∧ d ≠ '/' := by
  obtain ⟨p1, ⟨d, t, p0, rfl, hd, -⟩, -⟩ := h
  refine ⟨d, t, rfl, ?_⟩
  rintro rfl
  rw [← nameStart_iff] at hd
  revert hd; decide

theorem Start.shorter' {enc : Enc} {p name p1 : Text} (h : Start enc p name p1) : 1 ≤ p.length := by
  have := h.shorter; omega

theorem DeclBody.length {enc : Enc} {d : Declaration} {p : Text} {d' : Declaration} {r : Option Text}
    (h : DeclBody enc d p d' r) : ∀ q, r = some q → q.length ≤ p.length := by
  induction h with
  | close d q => rintro q' e; cases e; simp
  | «end» => rintro q' e; cases e
  | field d p p1 word n v d1 p2 d2 r _ hg _ ha _ _ ih =>
    intro q e
    have := ih q e
    have := ha.suffix.2
    have := hg.suffix.length_le
    omega
  | broken => rintro q' e; cases e
  | word d p w p2 d2 r _ hg _ _ _ _ _ _ _ ih =>
    intro q e
    have := ih q e
    have := hg.suffix.length_le
    rw [List.length_append] at this
    omega

theorem Other.shorter {enc : Enc} {p : Text} {n : Node} {q : Text} (h : Other enc p n (some q)) : q.length < p.length := by
  generalize hr : some q = r at h
  cases h with
  | declaration p d r hb hd =>
    have h1 := hd.length q hr.symm
    rw [List.length_drop] at h1
    have : p ≠ [] := Begins.ne_nil hb
    have := List.length_pos_of_ne_nil this
    omega
  | comment p v q' hu =>
    cases hr
    have := hu.suffix.length_le
    rw [List.length_append]
    have : "<!--".toList.length = 4 := rfl
    omega
  | unknown v t _ _ _ _ _ =>
    cases hr
    simp only [List.cons_append, List.length_cons, List.length_append, List.length_drop]
    omega

theorem DeclBody.suffix {enc : Enc} {d : Declaration} {p : Text} {d' : Declaration} {r : Option Text}
    (h : DeclBody enc d p d' r) : ∀ q, r = some q → q <:+ p := by
  induction h with
  | close d q => rintro q' e; cases e; exact List.suffix_cons _ _
  | «end» => rintro q' e; cases e
  | field d p p1 word n v d1 p2 d2 r _ hg _ ha _ _ ih => intro q e; exact (ih q e).trans (ha.suffix.1.trans hg.suffix)
  | broken => rintro q' e; cases e
  | word d p w p2 d2 r _ hg _ _ _ _ _ _ _ ih => intro q e; exact (ih q e).trans ((List.suffix_append _ _).trans hg.suffix)

theorem Other.suffix {enc : Enc} {p : Text} {n : Node} {q : Text} (h : Other enc p n (some q)) : q <:+ p := by
  generalize hr : some q = r at h
  cases h with
  | declaration p d r hb hd => exact (hd.suffix q hr.symm).trans (List.drop_suffix _ _)
  | comment p v q' hu => cases hr; exact hu.suffix.trans (List.suffix_append _ _)
  | unknown v t _ _ _ _ _ => cases hr; exact (List.drop_suffix _ _).trans (List.suffix_append _ _)

theorem Start.suffix {enc : Enc} {p name p1 : Text} (h : Start enc p name p1) : p1 <:+ p := by
  obtain ⟨c, r, p0, rfl, hc, hg, hn, hne⟩ := h
  exact hn.suffix.trans (hg.suffix.trans (List.suffix_cons _ _))

theorem StartTag.suffix {enc : Enc} {p name : Text} {attrs : List (Text × Text)} {c : Bool} {q : Text}
    (h : StartTag enc p name attrs c q) : q <:+ p := by
  obtain ⟨p1, h1, h2⟩ := h
  exact h2.suffix.1.trans h1.suffix

theorem Content.isSuffix {enc : Enc} {p : Text} {ns : List Node} {q : Text} (h : Content enc p ns q) : q <:+ p := by
  induction h with
  | stop => exact List.suffix_rfl
  | «end» => exact List.suffix_rfl
  | text c p v p' ns q _ hc _ _ _ ih => exact ih.trans hc.suffix
  | noText c p v p' ns q _ hc _ _ _ ih => exact ih.trans hc.suffix
  | other p n p1 p2 ns q _ ho hg _ ih => exact ih.trans (hg.suffix.trans ho.suffix)
  | empty p name attrs p1 p2 ns q hs hg _ ih => exact ih.trans (hg.suffix.trans hs.suffix)
  | element p name attrs p1 p2 children p3 p4 ns q hs hg hc hg' hc' ih1 ih2 =>
    refine ih2.trans (hg'.suffix.trans (List.IsSuffix.trans ?_ (ih1.trans (hg.suffix.trans hs.suffix))))
    exact ⟨'<' :: '/' :: name ++ ['>'], by simp⟩

theorem Content.suffix {enc : Enc} {p : Text} {ns : List Node} {q : Text} (h : Content enc p ns q) : q.length ≤ p.length := by
  induction h with
  | stop => exact le_rfl
  | «end» => exact le_rfl
  | text c p v p' ns q _ hc _ _ _ ih => exact ih.trans hc.suffix.length_le
  | noText c p v p' ns q _ hc _ _ _ ih => exact ih.trans hc.suffix.length_le
  | other p n p1 p2 ns q _ ho hg _ ih => have := ho.shorter; have := hg.suffix.length_le; omega
  | empty p name attrs p1 p2 ns q hs hg _ ih => have := hs.shorter; have := hg.suffix.length_le; omega
  | element p name attrs p1 p2 children p3 p4 ns q hs hg hc hg' hc' ih1 ih2 =>
    have := hs.shorter
    have := hg.suffix.length_le
    have := hg'.suffix.length_le
    simp only [List.cons_append, List.length_cons, List.length_append] at ih1
    omega

theorem readValue_node {enc : Enc} {p : Text} {n : Node} {p1 p2 : Text} {ns : List Node} {r : Text} (fuel : ℕ) (acc : List Node)
    (hlt : ∃ t, p = '<' :: t) (hns : ¬ ['<', '/'] <+: p) (hn : parseNode enc fuel p = .ok (n, some p1, false)) (hg : Gap enc p1 p2)
    (hv : readValue enc fuel p2 (acc ++ [n]) = .ok (acc ++ n :: ns, some r, false)) :
    readValue enc (fuel + 1) p acc = .ok (acc ++ n :: ns, some r, false) := by
  obtain ⟨t, rfl⟩ := hlt
  rw [readValue, if_neg (by simp), if_neg (by rw [List.isPrefixOf_iff_prefix]; exact hns), hn]
  simp only [Run.bind_ok]
  rw [gap_iff.2 hg]
  simp only
  rw [hv]
  rfl

theorem readValue_complete {enc : Enc} {p : Text} {ns : List Node} {q : Text} (h : Content enc p ns q) :
    ∀ (fuel : ℕ) (acc : List Node), 3 * p.length + 1 ≤ fuel → readValue enc fuel p acc = .ok (acc ++ ns, some q, false) := by
  induction h with
  | stop q =>
    intro fuel acc hf
    obtain ⟨fuel, rfl⟩ : ∃ k, fuel = k + 1 := ⟨fuel - 1, by omega⟩
    rw [readValue, if_neg (by simp), if_pos (by simp [List.isPrefixOf]), List.append_nil]
  | «end» =>
    intro fuel acc hf
    obtain ⟨fuel, rfl⟩ : ∃ k, fuel = k + 1 := ⟨fuel - 1, by omega⟩
    rw [readValue, List.append_nil]
  | text c p v p' ns q hc hcon hne hv hcont ih =>
    intro fuel acc hf
    obtain ⟨fuel, rfl⟩ : ∃ k, fuel = k + 1 := ⟨fuel - 1, by omega⟩
    obtain ⟨w, rfl⟩ : ∃ r, p' = '<' :: r := hcon.ends.resolve_left hne
    have hl : ('<' :: w).length < (c :: p).length := by
      rcases Nat.lt_or_ge ('<' :: w).length (c :: p).length with h | h
      · exact h
      · have := hcon.suffix.eq_of_length_le h
        cases this; exact absurd rfl hc
    rw [readValue, if_pos hc, readTrim_complete hcon _ _ (by simp)]
    simp only [Run.bind_ok, List.nil_append]
    rw [if_neg (by rw [blank_iff]; push Not; exact hv), gap_iff.2 (gap_lt w)]
    simp only
    rw [ih fuel _ (by omega)]
    simp
  | noText c p v p' ns q hc hcon hne hv hcont ih =>
    intro fuel acc hf
    obtain ⟨fuel, rfl⟩ : ∃ k, fuel = k + 1 := ⟨fuel - 1, by omega⟩
    obtain ⟨w, rfl⟩ : ∃ r, p' = '<' :: r := hcon.ends.resolve_left hne
    have hl : ('<' :: w).length < (c :: p).length := by
      rcases Nat.lt_or_ge ('<' :: w).length (c :: p).length with h | h
      · exact h
      · have := hcon.suffix.eq_of_length_le h
        cases this; exact absurd rfl hc
    rw [readValue, if_pos hc, readTrim_complete hcon _ _ (by simp)]
    simp only [Run.bind_ok, List.nil_append]
    rw [if_pos (blank_iff.2 hv), gap_iff.2 (gap_lt w)]
    simp only
    rw [ih fuel _ (by omega)]
  | other p n p1 p2 ns q hns ho hg hcont ih =>
    intro fuel acc hf
    have l1 := ho.shorter
    have l2 := hg.suffix.length_le
    obtain ⟨fuel, rfl⟩ : ∃ k, fuel = k + 2 := ⟨fuel - 2, by omega⟩
    refine readValue_node (fuel + 1) acc ho.lt.1 hns (parseNode_other ho _) hg ?_
    rw [ih _ _ (by omega)]
    simp
  | empty p name attrs p1 p2 ns q hs hg hcont ih =>
    intro fuel acc hf
    have l1 := hs.shorter
    have l2 := hg.suffix.length_le
    obtain ⟨fuel, rfl⟩ : ∃ k, fuel = k + 3 := ⟨fuel - 3, by omega⟩
    obtain ⟨d, t, rfl, hd⟩ := hs.lt
    refine readValue_node (fuel + 2) acc ⟨_, rfl⟩ (by simpa using fun e => hd e.symm) (parseNode_empty hs _) hg ?_
    rw [ih _ _ (by omega)]
    simp
  | element p name attrs p1 p2 children p3 p4 ns q hs hg hc hg' hc' ih1 ih2 =>
    intro fuel acc hf
    have l1 := hs.shorter
    have l2 := hg.suffix.length_le
    have l3 := hc.suffix
    have l4 := hg'.suffix.length_le
    simp only [List.cons_append, List.length_cons, List.length_append] at l3
    obtain ⟨fuel, rfl⟩ : ∃ k, fuel = k + 3 := ⟨fuel - 3, by omega⟩
    obtain ⟨d, t, rfl, hd⟩ := hs.lt
    refine readValue_node (fuel + 2) acc ⟨_, rfl⟩ (by simpa using fun e => hd e.symm) (parseNode_content hs hg _ (ih1 _ _ (by omega)))
      hg' ?_
    rw [ih2 _ _ (by omega)]
    simp

theorem parseNode_complete {enc : Enc} {p : Text} {n : Node} {q : Text} (h : Complete enc p n q) (fuel : ℕ)
    (hf : 3 * p.length ≤ fuel) : parseNode enc fuel p = .ok (n, some q, false) := by
  cases h with
  | other n q ho =>
    have := ho.shorter
    obtain ⟨fuel, rfl⟩ : ∃ k, fuel = k + 1 := ⟨fuel - 1, by omega⟩
    exact parseNode_other ho _
  | empty name attrs q hs =>
    have := hs.shorter
    obtain ⟨fuel, rfl⟩ : ∃ k, fuel = k + 2 := ⟨fuel - 2, by omega⟩
    exact parseNode_empty hs _
  | element name attrs p1 p2 children q hs hg hc =>
    have := hs.shorter
    have l2 := hg.suffix.length_le
    obtain ⟨fuel, rfl⟩ : ∃ k, fuel = k + 2 := ⟨fuel - 2, by omega⟩
    exact parseNode_content hs hg _ (readValue_complete hc _ _ (by omega))

theorem parseNode_incomplete {enc : Enc} {p : Text} {n : Node} (h : Incomplete enc p n) (fuel : ℕ)
    (hf : 3 * p.length ≤ fuel) : parseNode enc fuel p = .ok (n, none, false) := by
  cases h with
  | unclosed name attrs p1 p2 children hs hg hc =>
    have := hs.shorter
    have l2 := hg.suffix.length_le
    obtain ⟨fuel, rfl⟩ : ∃ k, fuel = k + 2 := ⟨fuel - 2, by omega⟩
    exact parseNode_unclosed hs hg _ (readValue_complete hc _ _ (by omega))
  | repeated name p1 attrs hs hr =>
    have := hs.shorter
    obtain ⟨fuel, rfl⟩ : ∃ k, fuel = k + 2 := ⟨fuel - 2, by omega⟩
    exact parseNode_repeats hs hr _
  | declaration n ho =>
    obtain ⟨t, rfl⟩ := ho.lt.1
    simp only [List.length_cons] at hf
    obtain ⟨fuel, rfl⟩ : ∃ k, fuel = k + 1 := ⟨fuel - 1, by omega⟩
    exact parseNode_other ho _

theorem Complete.lt {enc : Enc} {p : Text} {n : Node} {q : Text} (h : Complete enc p n q) : ∃ t, p = '<' :: t := by
  cases h with
  | other n q ho => exact ho.lt.1
  | empty name attrs q hs => obtain ⟨d, t, rfl, -⟩ := hs.lt; exact ⟨_, rfl⟩
  | element name attrs p1 p2 children q hs hg hc => obtain ⟨d, t, rfl, -⟩ := hs.lt; exact ⟨_, rfl⟩

theorem Complete.shorter {enc : Enc} {p : Text} {n : Node} {q : Text} (h : Complete enc p n q) : q.length < p.length := by
  cases h with
  | other n q ho => exact ho.shorter
  | empty name attrs q hs => have := hs.shorter; omega
  | element name attrs p1 p2 children q hs hg hc =>
    have := hs.shorter
    have := hg.suffix.length_le
    have := hc.suffix
    simp only [List.cons_append, List.length_cons, List.length_append] at this
    omega

theorem Incomplete.lt {enc : Enc} {p : Text} {n : Node} (h : Incomplete enc p n) : ∃ t, p = '<' :: t := by
  cases h with
  | unclosed name attrs p1 p2 children hs hg hc => obtain ⟨d, t, rfl, -⟩ := hs.lt; exact ⟨_, rfl⟩
  | repeated name p1 attrs hs hr => exact hs.element.2
  | declaration n ho => exact ho.lt.1

theorem encoding_iff {enc enc' : Enc} {n : Node} : nextEncoding enc n = enc' ↔ Encoding enc n enc' := by
  constructor
  · rintro rfl
    by_cases he : enc = .unknown
    · subst he
      cases n with
      | declaration v e s =>
        simp only [nextEncoding, ne_eq, not_true_eq_false, if_false]
        split_ifs with h1 h2 h3
        · exact .utf8 _ _ _ (.inl h1)
        · exact .utf8 _ _ _ (.inr (.inl (begins_utf.1 h2)))
        · exact .utf8 _ _ _ (.inr (.inr (begins_utf'.1 h3)))
        · exact .legacy _ _ _ h1 (fun h => h2 (begins_utf.2 h)) (fun h => h3 (begins_utf'.2 h))
      | _ => exact .other _ (by simp)
    · have : nextEncoding enc n = enc := by
        cases n <;> simp [nextEncoding, he]
      rw [this]; exact .settled _ _ he
  · intro h
    cases h with
    | settled _ _ he => cases n <;> simp [nextEncoding, he]
    | other _ hn => exact nextEncoding_plain hn
    | utf8 v e s he =>
      simp only [nextEncoding, ne_eq, not_true_eq_false, if_false]
      rw [← begins_utf, ← begins_utf'] at he
      split_ifs <;> first | rfl | tauto
    | legacy v e s h1 h2 h3 =>
      simp only [nextEncoding, ne_eq, not_true_eq_false, if_false]
      rw [if_neg h1, if_neg (fun e => h2 (begins_utf.1 e)), if_neg (fun e => h3 (begins_utf'.1 e))]

theorem parseNodes_sound : ∀ (fuel : ℕ) (enc : Enc) (p : Text) (acc ns : List Node),
    parseNodes fuel enc p acc = .ok (ns, false) → ∃ ms, ns = acc ++ ms ∧ Nodes enc p ms := by
  intro fuel
  induction fuel with
  | zero =>
    intro enc p acc ns h
    cases p with
    | nil => simp only [parseNodes, Run.ok.injEq, Prod.mk.injEq] at h; exact ⟨[], by simp [h.1], .end _⟩
    | cons c t => simp [parseNodes] at h
  | succ fuel ih =>
    intro enc p acc ns h
    cases p with
    | nil => simp only [parseNodes, Run.ok.injEq, Prod.mk.injEq] at h; exact ⟨[], by simp [h.1], .end _⟩
    | cons c t =>
      rw [parseNodes] at h
      split_ifs at h with hc
      · simp only [Run.ok.injEq, Prod.mk.injEq] at h; exact ⟨[], by simp [h.1], .rest _ _ _ hc⟩
      · have hlt : ∃ t', c :: t = '<' :: t' := ⟨t, by rw [not_not.1 hc]⟩
        cases hn : parseNode enc (3 * (t.length + 2)) (c :: t) with
        | ok x =>
          obtain ⟨n, o, e⟩ := x
          rw [hn] at h
          simp only [Run.bind_ok] at h
          cases hg : skipWhiteSpace (nextEncoding enc n) o with
          | none =>
            rw [hg] at h
            simp only [Run.ok.injEq, Prod.mk.injEq] at h
            obtain ⟨rfl, rfl⟩ := h
            refine ⟨[n], rfl, ?_⟩
            have := (nodes_sound enc _).2.2 _ _ _ hlt hn
            cases o with
            | none =>
              have this : Incomplete enc (c :: t) n := this
              cases this with
              | unclosed _ _ _ _ _ h1 h2 h3 => exact .unclosed _ _ _ _ _ _ _ h1 h2 h3
              | repeated _ _ _ h1 h2 => exact .repeated _ _ _ _ _ h1 h2
              | declaration _ h1 => exact .declaration _ _ _ h1
            | some q =>
              rw [skipWhiteSpace_none] at hg
              subst hg
              exact .last _ _ _ this
          | some p2 =>
            rw [hg] at h
            simp only at h
            cases hv : parseNodes fuel (nextEncoding enc n) p2 (acc ++ [n]) with
            | ok y =>
              obtain ⟨ms', e'⟩ := y
              rw [hv] at h
              simp only [Run.bind_ok, Run.ok.injEq, Prod.mk.injEq, Bool.or_eq_false_iff] at h
              obtain ⟨rfl, rfl, rfl⟩ := h
              obtain ⟨ms, rfl, hms⟩ := ih _ _ _ _ hv
              cases o with
              | none => simp [skipWhiteSpace] at hg
              | some p1 =>
                exact ⟨n :: ms, by simp, .node _ _ _ _ _ _ _ ((nodes_sound enc _).2.2 _ _ _ hlt hn) (encoding_iff.1 rfl)
                  (gap_iff.1 hg) hms⟩
            | ub => rw [hv] at h; simp at h
            | assertFailed => rw [hv] at h; simp at h
            | endless => rw [hv] at h; simp at h
        | ub => rw [hn] at h; simp at h
        | assertFailed => rw [hn] at h; simp at h
        | endless => rw [hn] at h; simp at h

theorem parseNodes_incomplete {enc : Enc} {p : Text} {n : Node} (h : Incomplete enc p n) (fuel : ℕ) (acc : List Node)
    (hf : p.length ≤ fuel) : parseNodes fuel enc p acc = .ok (acc ++ [n], false) := by
  obtain ⟨t, rfl⟩ := h.lt
  simp only [List.length_cons] at hf
  obtain ⟨fuel, rfl⟩ : ∃ k, fuel = k + 1 := ⟨fuel - 1, by omega⟩
  rw [parseNodes, if_neg (by simp), parseNode_incomplete h _ (by simp only [List.length_cons]; omega)]
  rfl

theorem parseNodes_complete {enc : Enc} {p : Text} {ns : List Node} (h : Nodes enc p ns) :
    ∀ (fuel : ℕ) (acc : List Node), p.length ≤ fuel → parseNodes fuel enc p acc = .ok (acc ++ ns, false) := by
  induction h with
  | «end» enc => intro fuel acc _; cases fuel <;> simp [parseNodes]
  | rest enc c p hc =>
    intro fuel acc hf
    simp only [List.length_cons] at hf
    obtain ⟨fuel, rfl⟩ : ∃ k, fuel = k + 1 := ⟨fuel - 1, by omega⟩
    rw [parseNodes, if_pos hc, List.append_nil]
  | node enc p n p1 enc' p2 ns hn he hg hns ih =>
    intro fuel acc hf
    have l1 := hn.shorter
    have l2 := hg.suffix.length_le
    obtain ⟨t, rfl⟩ := hn.lt
    obtain ⟨fuel, rfl⟩ : ∃ k, fuel = k + 1 := ⟨fuel - 1, by simp at hf; omega⟩
    rw [parseNodes, if_neg (by simp), parseNode_complete hn _ (by simp only [List.length_cons]; omega)]
    simp only [Run.bind_ok]
    rw [encoding_iff.2 he, gap_iff.2 hg]
    simp only
    rw [ih fuel _ (by omega)]
    simp
  | last enc p n hn =>
    intro fuel acc hf
    have l1 := hn.shorter
    obtain ⟨t, rfl⟩ := hn.lt
    obtain ⟨fuel, rfl⟩ : ∃ k, fuel = k + 1 := ⟨fuel - 1, by simp at hf; omega⟩
    rw [parseNodes, if_neg (by simp), parseNode_complete hn _ (by simp only [List.length_cons]; omega)]
    rfl
  | unclosed enc p name attrs p1 p2 children h1 h2 h3 =>
    intro fuel acc hf; exact parseNodes_incomplete (.unclosed _ _ _ _ _ _ h1 h2 h3) fuel acc hf
  | repeated enc p name p1 attrs h1 h2 =>
    intro fuel acc hf; exact parseNodes_incomplete (.repeated _ _ _ _ h1 h2) fuel acc hf
  | declaration enc p n h1 =>
    intro fuel acc hf; exact parseNodes_incomplete (.declaration _ _ h1) fuel acc hf

theorem first_iff {p : Text} {enc : Enc} : startEncoding p = enc ↔ First p enc := by
  have yes : ∀ a b c r, (a.toNat = 0xef && b.toNat = 0xbb && c.toNat = 0xbf) = true ↔
      ∃ m q, a :: b :: c :: r = m ++ q ∧ m.map Char.toNat = [0xef, 0xbb, 0xbf] := by
    intro a b c r
    constructor
    · intro h
      exact ⟨[a, b, c], r, rfl, by simpa [and_assoc] using h⟩
    · rintro ⟨m, q, e, h⟩
      match m, h with
      | [x, y, z], h =>
        simp only [List.cons_append, List.nil_append, List.cons.injEq] at e
        obtain ⟨rfl, rfl, rfl, -⟩ := e
        simpa [and_assoc] using h
      | [], h => simp at h
      | [x], h => simp at h
      | [x, y], h => simp at h
      | _ :: _ :: _ :: _ :: _, h => simp at h
  have no : ∀ p : Text, p.length < 3 → ∀ m q, p = m ++ q → m.map Char.toNat ≠ [0xef, 0xbb, 0xbf] := by
    rintro p hp m q rfl h
    have := congrArg List.length h
    simp at this hp
    omega
  have key : First p (startEncoding p) := by
    match p with
    | [] => exact .none _ (no _ (by simp))
    | [a] => exact .none _ (no _ (by simp))
    | [a, b] => exact .none _ (no _ (by simp))
    | a :: b :: c :: r =>
      rw [startEncoding]
      split_ifs with h
      · obtain ⟨m, q, e, hm⟩ := (yes a b c r).1 h
        rw [e]; exact .mark _ _ hm
      · refine .none _ fun m q e hm => h ((yes a b c r).2 ⟨m, q, e, hm⟩)
  constructor
  · rintro rfl; exact key
  · intro h
    generalize startEncoding p = enc' at key
    cases h with
    | mark m q hm =>
      generalize hp : m ++ q = p at key
      cases key with
      | mark => rfl
      | none _ h => exact absurd hm (h m q hp.symm)
    | none _ h =>
      cases key with
      | mark m q hm => exact absurd hm (h m q rfl)
      | none => rfl

end Gear.Xml.Grammar
