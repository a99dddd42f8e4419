/-
Trees written in any style follow the grammar of files.
-/
import Verif.XmlSaveLemmas
import Verif.XmlStream
import Verif.XmlRoundTrip

set_option autoImplicit false
set_option linter.unusedSectionVars false

namespace Gear.Xml.Save

open Grammar Spec

/-- A way of writing: the white space before nodes and end tags, and how declarations are written. -/
structure Style where
  sep : ℕ → Node → Text
  close : ℕ → Text
  decl : Text → Text → Text → Text

mutual
def Style.out (R : Style) (depth : ℕ) : Node → Text
  | .element name attrs children =>
    '<' :: name ++ ((visible attrs).flatMap (fun a => ' ' :: printAttribute a) ++
      (if children.isEmpty then [' ', '/', '>']
      else '>' :: (R.outList (depth + 1) children ++ ((if isSoleText children then [] else R.close depth) ++ '<' :: '/' :: (name ++ ['>'])))))
  | .comment v => "<!--".toList ++ (v ++ "-->".toList)
  | .unknown v => '<' :: v ++ ['>']
  | .text v => putString false v
  | .declaration v e s => R.decl v e s
def Style.outList (R : Style) (depth : ℕ) : List Node → Text
  | [] => []
  | n :: ns => (if n.isText then [] else R.sep depth n) ++ (R.out depth n ++ R.outList depth ns)
end

/-- What is needed for the result to be read. -/
structure Style.Good (R : Style) (enc : Enc) (field : Text → Prop) : Prop where
  sep : ∀ d n, ∀ c ∈ R.sep d n, Space c
  close : ∀ d, ∀ c ∈ R.close d, Space c
  decl : ∀ v e s, (∀ x ∈ [v, e, s], field x ∧ (enc = .utf8 → Signs x)) → ∀ q, Other enc (R.decl v e s ++ q) (.declaration v e s) (some q)
  first : ∀ v e s, ∃ t, R.decl v e s = '<' :: '?' :: t

theorem DocumentSurvives.cons {field : Text → Prop} {enc enc' : Enc} {n : Node} {ns : List Node} (h1 : n.isText = false) (h2 : Survives (enc = .utf8) field n)
    (h3 : Encoding enc n enc') (h4 : DocumentSurvives field enc' ns) : DocumentSurvives field enc (n :: ns) := ⟨h1, h2, enc', h3, h4⟩

theorem content_complete {enc : Enc} {p : Text} {n : Node} {p₁ p₂ : Text} {ns : List Node} {q : Text} (h : Complete enc p n p₁)
    (he : ¬ ['<', '/'] <+: p) (hg : Gap enc p₁ p₂) (hc : Content enc p₂ ns q) : Content enc p (n :: ns) q := by
  cases h with
  | other _ _ ho => exact .other _ _ _ _ _ _ he ho hg hc
  | empty _ _ _ hs => exact .empty _ _ _ _ _ _ _ hs hg hc
  | element _ _ _ _ _ _ hs hg' hc' => exact .element _ _ _ _ _ _ _ _ _ _ hs hg' hc' hg hc

variable {R : Style} {enc : Enc} {field : Text → Prop}

/-- What a node other than a text is written as. -/
theorem out_first (hR : R.Good enc field) {n : Node} (ht : n.isText = false) (hs : Survives (enc = .utf8) field n) (d : ℕ) :
    ∃ t, R.out d n = '<' :: t ∧ ((∀ v, n ≠ .unknown ('/' :: v)) → ∀ q, ¬ ['<', '/'] <+: R.out d n ++ q) := by
  cases n with
  | element name attrs children =>
    rw [Survives] at hs
    obtain ⟨c, r, hc, -, -, e, -⟩ := name_first hs.1
    rw [Style.out]
    refine ⟨_, rfl, fun _ q hp => ?_⟩
    rw [hc] at hp
    simp only [List.cons_append, List.cons_prefix_cons] at hp
    exact e hp.2.1.symm
  | comment v =>
    rw [Style.out]
    refine ⟨_, rfl, fun _ q hp => ?_⟩
    simp [show "<!--".toList = ['<', '!', '-', '-'] from rfl] at hp
  | unknown v =>
    rw [Style.out]
    refine ⟨_, rfl, fun hu q hp => ?_⟩
    cases v with
    | nil => simp at hp
    | cons c v =>
      simp only [List.cons_append, List.cons_prefix_cons] at hp
      exact hu v (by rw [← hp.2.1])
  | text v => simp [Node.isText] at ht
  | declaration v e s =>
    rw [Style.out]
    obtain ⟨t, ht⟩ := hR.first v e s
    refine ⟨_, ht, fun hu q hp => ?_⟩
    rw [ht] at hp
    simp at hp

/-- After a text comes white space and a tag. -/
theorem list_first (hR : R.Good enc field) {ns : List Node} (hns : ∀ v rest, ns ≠ .text v :: rest) (hs : AllSurvive (enc = .utf8) field ns)
    (d : ℕ) {ws : Text} (hws : ∀ c ∈ ws, Space c) (tail : Text) :
    ∃ ws' r, (∀ c ∈ ws', Space c) ∧ R.outList d ns ++ (ws ++ '<' :: '/' :: tail) = ws' ++ '<' :: r := by
  cases ns with
  | nil => exact ⟨ws, _, hws, by rw [Style.outList]; rfl⟩
  | cons n ns =>
    have hnt : n.isText = false := by
      cases n with
      | text v => exact absurd rfl (hns v ns)
      | _ => rfl
    rw [AllSurvive] at hs
    obtain ⟨t, ht, -⟩ := out_first hR hnt hs.1 d
    refine ⟨R.sep d n, t ++ (R.outList d ns ++ (ws ++ '<' :: '/' :: tail)), hR.sep d n, ?_⟩
    rw [Style.outList, hnt, ht]
    simp

theorem noTwoTexts_tail {n : Node} {ns : List Node} (h : NoTwoTexts (n :: ns)) : NoTwoTexts ns := by
  cases n with
  | text v => cases ns with
    | nil => trivial
    | cons m ms => cases m with
      | text w => exact absurd h (by simp [NoTwoTexts])
      | _ => simpa [NoTwoTexts] using h
  | _ => simpa [NoTwoTexts] using h

theorem noTwoTexts_head {v : Text} {ns : List Node} (h : NoTwoTexts (.text v :: ns)) : ∀ w rest, ns ≠ .text w :: rest := by
  rintro w rest rfl
  simp [NoTwoTexts] at h

theorem condensed_nonspace {v : Text} (h : CondensedText v) : ∃ d ∈ v, ¬ Space d := by
  obtain ⟨-, -, -, c, hc, h1, h2⟩ := h
  refine ⟨c, hc, fun hs => ?_⟩
  simp only [Space, List.mem_cons, List.not_mem_nil, or_false] at hs
  rcases hs with rfl | rfl | rfl | rfl | rfl | rfl
  · simp [Char.isWhitespace] at h1
  all_goals revert h2; decide

mutual
/-- The trees that survive without declarations. -/
theorem survives_of {u : Prop} (hu : ¬ u) : ∀ n : Node, WellFormed n → Survives u field n
  | .element name attrs children, h => by
    simp only [WellFormed] at h
    rw [Survives]
    refine ⟨h.1, fun x => absurd x hu, fun a ha => ⟨(h.2.1 a ha).1, fun x => absurd x hu, (h.2.1 a ha).2, fun x => absurd x hu⟩, h.2.2.1,
      allSurvive_of hu children h.2.2.2.1, h.2.2.2.2, ?_⟩
    intro v hv
    have := allSurvive_of hu children h.2.2.2.1
    have hw : ∀ ns : List Node, AllWellFormed ns → .unknown ('/' :: v) ∉ ns := by
      intro ns
      induction ns with
      | nil => simp
      | cons n ns ih =>
        intro hn hm
        simp only [AllWellFormed] at hn
        rcases List.mem_cons.1 hm with rfl | hm
        · simp only [WellFormed] at hn
          exact (hn.1.2.1 _ _ rfl).1 rfl
        · exact ih hn.2 hm
    exact hw children h.2.2.2.1 hv
  | .text v, h => by
    simp only [WellFormed] at h
    rw [Survives]
    exact ⟨⟨h.1.1, h.1.2.1, h.1.2.2.1, condensed_nonspace h.1⟩, h.2, fun x => absurd x hu⟩
  | .comment v, h => by
    simp only [WellFormed] at h
    rw [Survives]
    exact ⟨h.1, h.2, fun x => absurd x hu⟩
  | .unknown v, h => by
    simp only [WellFormed] at h
    rw [Survives]
    refine ⟨h.1, ?_, h.2.2, ?_⟩
    · rintro c r rfl
      have := h.2.1 c r rfl
      rintro (h' | h' | h')
      · rw [this.2.2.2.1] at h'; cases h'
      · exact this.2.2.1 h'
      · omega
    · intro hb
      cases v with
      | nil => simp [Begins] at hb
      | cons c v =>
        rw [Begins, show "?xml".toList.length = 4 from rfl, List.take_succ_cons, List.map_cons] at hb
        have hc : c.toLower = '?' := (List.cons.inj hb).1
        rw [← toLower_eq] at hc
        exact toLower_ne (h.2.1 c v rfl).2.1 hc
  | .declaration .., h => by simp [WellFormed] at h
theorem allSurvive_of {u : Prop} (hu : ¬ u) : ∀ ns : List Node, AllWellFormed ns → AllSurvive u field ns
  | [], _ => trivial
  | n :: ns, h => by
    simp only [AllWellFormed] at h
    exact ⟨survives_of hu n h.1, allSurvive_of hu ns h.2⟩
end

mutual
/-- A node that is no text is read back. -/
theorem complete_out (hR : R.Good enc field) : ∀ n : Node, n.isText = false → Survives (enc = .utf8) field n → ∀ d q, Complete enc (R.out d n ++ q) n q
  | .element name attrs children, _, hs, d, q => by
    rw [Survives] at hs
    obtain ⟨h1, h2, h3, h4, h5, h6, h7⟩ := hs
    have hv : visible attrs = attrs := visible_eq fun a ha => (h3 a ha).1
    rw [Style.out, hv]
    have hstart : ∀ (closed : Bool) (c : Char) (tail q : Text), ¬ NameChar c → c.toNat < 128 → (∀ a, Tag enc a (c :: tail) a closed q) →
        StartTag enc ('<' :: name ++ (attrs.flatMap (fun a => ' ' :: printAttribute a) ++ c :: tail)) name attrs closed q := by
      intro closed c tail q hc hc' ht
      refine ⟨attrs.flatMap (fun a => ' ' :: printAttribute a) ++ c :: tail, ?_, ?_⟩
      · cases attrs with
        | nil => exact start_name h1 h2 hc hc' tail
        | cons a attrs =>
          have := start_name h1 h2 not_nameChar.1 (by decide) (printAttribute a ++ (attrs.flatMap (fun a => ' ' :: printAttribute a) ++ c :: tail))
          simpa using this
      · have := tag_print (by simp) ht attrs [] h3 (by simpa using h4)
        simpa using this
    cases hc : children with
    | nil =>
      have := hstart true ' ' ('/' :: '>' :: q) q not_nameChar.1 (by decide) (fun a =>
        .close a _ q (gap_spaces (ws := [' ']) (by unfold Space; decide) (gap_self (by unfold Space; decide) (by decide))))
      refine .empty _ name attrs q ?_
      simpa using this
    | cons n ns =>
      rw [← hc]
      have hcl : ∀ c ∈ (if isSoleText children then [] else R.close d), Space c := by
        split_ifs
        · simp
        · exact hR.close d
      obtain ⟨p, hg, hcont⟩ := content_out hR children h5 h6 h7 (d + 1) _ hcl (name ++ '>' :: q)
      have := hstart false '>' (R.outList (d + 1) children ++ ((if isSoleText children then [] else R.close d) ++ '<' :: '/' :: (name ++ '>' :: q))) _
        not_nameChar.2.2 (by decide) (fun a => .open a _ _ (gap_self (by unfold Space; decide) (by decide)))
      refine .element _ name attrs _ p children q ?_ hg hcont
      rw [if_neg (by simp [hc])]
      simpa using this
  | .comment v, _, hs, d, q => by
    rw [Survives] at hs
    rw [Style.out]
    have := Other.comment (enc := enc) _ v q (upto_comment hs.1 hs.2.1 hs.2.2 q)
    refine .other _ _ _ ?_
    simpa using this
  | .unknown v, _, hs, d, q => by
    rw [Survives] at hs
    obtain ⟨h1, h2, h3, h4⟩ := hs
    rw [Style.out]
    have := Other.unknown (enc := enc) v ('>' :: q) (by
      intro c r hcr
      cases v with
      | nil => cases hcr; rw [← nameStart_iff]; decide
      | cons d v => cases hcr; exact h2 _ _ rfl) (by
      intro hb
      rw [Begins] at hb
      have e : ('<' :: v ++ '>' :: q).take 5 = '<' :: (v ++ '>' :: q).take 4 := rfl
      rw [show "<?xml".toList.length = 5 from rfl, e, List.map_cons] at hb
      have hb' : ((v ++ '>' :: q).take 4).map Char.toLower = "?xml".toList := (List.cons.inj hb).2
      by_cases hl : 4 ≤ v.length
      · rw [List.take_append_of_le_length hl] at hb'
        exact h4 hb'
      · have hm : '>' ∈ (v ++ '>' :: q).take 4 := by
          rw [List.take_append]
          obtain ⟨k, hk⟩ : ∃ k, 4 - v.length = k + 1 := ⟨3 - v.length, by omega⟩
          rw [hk, List.take_succ_cons]
          simp
        have := List.mem_map_of_mem (f := Char.toLower) hm
        rw [hb'] at this
        revert this
        decide) (by
      rintro ⟨t, ht⟩
      by_cases hl : 3 ≤ v.length
      · refine h3 ?_
        have := congrArg (List.take 3) ht
        rw [List.take_append_of_le_length hl] at this
        rw [show "!--".toList = ("!--".toList ++ t).take 3 from rfl, this]
        exact List.take_prefix _ _
      · have hm : '>' ∈ (v ++ '>' :: q).take 3 := by
          rw [List.take_append]
          obtain ⟨k, hk⟩ : ∃ k, 3 - v.length = k + 1 := ⟨2 - v.length, by omega⟩
          rw [hk, List.take_succ_cons]
          simp
        rw [← ht] at hm
        revert hm
        simp [show "!--".toList = ['!', '-', '-'] from rfl]) h1 (Or.inr ⟨q, rfl⟩)
    refine .other _ _ _ ?_
    simpa using this
  | .text v, ht, _, _, _ => by simp [Node.isText] at ht
  | .declaration v e s, _, hs, d, q => by
    rw [Survives] at hs
    rw [Style.out]
    exact .other _ _ _ (hR.decl v e s hs q)
/-- Children are read back. -/
theorem content_out (hR : R.Good enc field) : ∀ ns : List Node, AllSurvive (enc = .utf8) field ns → NoTwoTexts ns → (∀ v, .unknown ('/' :: v) ∉ ns) →
    ∀ (d : ℕ) (ws : Text), (∀ c ∈ ws, Space c) → ∀ tail, ∃ p, Gap enc (R.outList d ns ++ (ws ++ '<' :: '/' :: tail)) p ∧ Content enc p ns ('<' :: '/' :: tail)
  | [], _, _, _, d, ws, hws, tail => by
    rw [Style.outList, List.nil_append]
    exact ⟨_, gap_spaces hws (gap_lt _), .stop _⟩
  | n :: ns, hs, h2, hu, d, ws, hws, tail => by
    rw [AllSurvive] at hs
    obtain ⟨p, hg, hc⟩ := content_out hR ns hs.2 (noTwoTexts_tail h2) (fun v hv => hu v (by simp [hv])) d ws hws tail
    by_cases ht : n.isText = true
    · cases n with
      | text v =>
        obtain ⟨ws', r, hws', hr⟩ := list_first hR (noTwoTexts_head h2) hs.2 d hws tail
        rw [hr] at hg
        have hp : p = '<' :: r := hg.unique (gap_spaces hws' (gap_lt r))
        subst hp
        have hsv := hs.1
        rw [Survives] at hsv
        obtain ⟨h3, h4, h5⟩ := hsv
        have hv : v ≠ [] := by
          rintro rfl
          obtain ⟨c, hc, -⟩ := h3.2.2.2
          simp at hc
        have hcond := condensed_escape (enc := enc) hws' r v.length v le_rfl (fun he => (h5 he).1) hv h3.1 h3.2.1 h3.2.2.1 false
        rw [Style.outList]
        simp only [Node.isText, if_true, List.nil_append, Style.out, putString_flatMap h4, List.append_assoc, hr]
        obtain ⟨c, v', rfl⟩ := List.exists_cons_of_ne_nil hv
        obtain ⟨x, t, hx, e1, -, -, e2, e3⟩ := escape_first c
        refine ⟨_, ⟨by simp, .none _, ?_, ?_⟩, ?_⟩
        · intro y z hyz
          rw [List.flatMap_cons, hx] at hyz
          simp only [List.cons_append, List.cons.injEq] at hyz
          rw [← hyz.1]
          exact e2 fun hc => h3.1 v' (by rw [hc])
        · intro he
          rcases e3 with rfl | ⟨rfl, rfl⟩
          · rw [List.flatMap_cons, hx]
            exact noMark_append (v := []) (by
              rintro m hM ⟨t, ht⟩
              obtain ⟨a, b, d, rfl⟩ := mark_cons hM
              simp at ht) (by decide) _
          · obtain ⟨s, w, hsw, hh, -⟩ := piece_escape (enc := enc) (c := x) (v := v') fun he => (h5 he).1
            by_cases hm : ∃ m t, (x :: v').flatMap escape ++ (ws' ++ '<' :: r) = m ++ t ∧ Grammar.Mark m
            · exfalso
              obtain ⟨m, t, hmt, hM⟩ := hm
              obtain ⟨a, b, d, rfl⟩ := mark_cons hM
              rw [List.flatMap_cons, hx] at hmt
              simp only [List.cons_append, List.nil_append, List.cons.injEq] at hmt
              obtain ⟨rfl, hmt⟩ := hmt
              have hM' := hM
              simp only [Grammar.Mark, List.map_cons, List.map_nil, List.cons.injEq, and_true] at hM
              have hx' : x.toNat = 0xef := by omega
              obtain ⟨s, w, hsw, hl, hh⟩ := (h5 he).1 [] x v' rfl
              have hl' : s.length = 2 := by
                rw [width, if_neg (by omega), if_pos (by omega)] at hl
                simpa using hl
              obtain ⟨s1, s2, rfl⟩ := List.length_eq_two.1 hl'
              rw [hsw] at hmt
              simp only [List.cons_append, List.nil_append, List.flatMap_cons, escape_high (hh s1 (by simp)).1, escape_high (hh s2 (by simp)).1,
                List.cons.injEq] at hmt
              obtain ⟨rfl, rfl, -⟩ := hmt
              exact (h5 he).2 _ hM' ⟨w, by rw [hsw]; rfl⟩
            · intro m t hmt hM
              exact hm ⟨m, t, hmt, hM⟩
        · have e : (c :: v').flatMap escape ++ (ws' ++ '<' :: r) = x :: (t ++ v'.flatMap escape ++ (ws' ++ '<' :: r)) := by
            rw [List.flatMap_cons, hx]; simp
          rw [e] at hcond ⊢
          exact .text x _ _ _ ns _ e1 hcond (by simp) h3.2.2.2 hc
      | _ => simp [Node.isText] at ht
    · have ht : n.isText = false := by simpa using ht
      obtain ⟨t, hl, he⟩ := out_first hR ht hs.1 d
      have hcomp := complete_out hR n ht hs.1 d (R.outList d ns ++ (ws ++ '<' :: '/' :: tail))
      have hcont := content_complete hcomp (he (fun v hv => hu v (by simp [hv])) _) hg hc
      refine ⟨_, ?_, hcont⟩
      rw [Style.outList, ht]
      have := gap_spaces (enc := enc) (hR.sep d n) (gap_lt (t ++ (R.outList d ns ++ (ws ++ '<' :: '/' :: tail))))
      simpa [hl] using this
end

end Gear.Xml.Save
