/-
Printing and parsing of whole trees.
-/
import Verif.XmlLemmas

set_option autoImplicit false
set_option linter.unusedSectionVars false

namespace Gear.Xml

open Spec

/-- What is shown for each node that is no text: it is printed as an indented tag, from which it is read back. -/
def Reads (enc : Enc) (n : Node) : Prop :=
  ∀ depth, ∃ b, n.print depth = indent depth ++ '<' :: b ∧ (b ≠ [] ∧ ∀ rest, b ≠ '/' :: rest) ∧
    ∀ r fuel, 3 * (b.length + 1 + r.length) ≤ fuel → parseNode enc fuel ('<' :: b ++ r) = .ok (n, some r, false)

/-- What is shown for each list of children: they are read back, up to the end tag. -/
def ReadsList (enc : Enc) (ns : List Node) : Prop :=
  ∀ depth (ws : Text), (∀ c ∈ ws, isSpace c = true) → ∀ tail acc fuel,
    3 * (Node.printList depth ns ++ (ws ++ '<' :: '/' :: tail)).length + 1 ≤ fuel →
    readValue enc fuel (skipBody enc (Node.printList depth ns ++ (ws ++ '<' :: '/' :: tail))) acc
      = .ok (acc ++ ns, some ('<' :: '/' :: tail), false)

theorem toLower_ne {c : Char} (h : c ≠ '?') : toLower c ≠ '?' := by
  unfold toLower
  split_ifs with hu
  · simp only [Bool.and_eq_true, decide_eq_true_eq] at hu
    have all : ∀ k < 26, Char.ofNat (65 + k + 32) ≠ '?' := by decide
    have := all (c.toNat - 65) (by omega)
    rwa [show 65 + (c.toNat - 65) + 32 = c.toNat + 32 by omega] at this
  · exact h

theorem isElement_name {n : Text} (h : ValidName n) (r : Text) : isElement ('<' :: n ++ r) = true := by
  obtain ⟨c, rest, rfl, h1, h2, h3, h4, h5, h6, h7⟩ := name_head h
  have e1 : prefixNoCase "<?xml".toList ('<' :: (c :: rest) ++ r) = false := by
    have : toLower c ≠ '?' := toLower_ne h6
    have h' : toLower '?' = '?' := rfl
    simp only [show "<?xml".toList = ['<', '?', 'x', 'm', 'l'] from rfl, List.cons_append, prefixNoCase, h', this,
      decide_false, Bool.false_and, Bool.and_false]
  have e2 : "<!".toList.isPrefixOf ('<' :: (c :: rest) ++ r) = false := by
    simp [show "<!".toList = ['<', '!'] from rfl, List.isPrefixOf, Ne.symm h5]
  simp only [isElement, e1, e2, Bool.not_false, Bool.true_and]
  exact h7

theorem parseTag_closed {enc : Enc} (he : enc ≠ .utf8) (r : Text) (fuel : ℕ) (acc : List (Text × Text)) :
    parseTag enc (fuel + 1) (' ' :: '/' :: '>' :: r) acc = .ok (acc, .closed r) := by
  have : skipWhiteSpace enc (some (' ' :: '/' :: '>' :: r)) = some ('/' :: '>' :: r) := by
    simp only [skipWhiteSpace]
    rw [skipBody_of_space he (by decide), skipBody_of_not_space he (by decide)]
  rw [parseTag, this]
  rfl

theorem parseTag_opened {enc : Enc} (he : enc ≠ .utf8) (r : Text) (fuel : ℕ) (acc : List (Text × Text)) :
    parseTag enc (fuel + 1) ('>' :: r) acc = .ok (acc, .opened r) := by
  rw [parseTag, skip_cons he (by decide)]
  rfl

theorem length_attrs (attrs : List (Text × Text)) :
    attrs.length ≤ (attrs.flatMap fun a => ' ' :: printAttribute a).length := by
  induction attrs with
  | nil => simp
  | cons a rest ih => simp only [List.flatMap_cons, List.length_append, List.length_cons]; omega

/-- The beginning of an element: its name and attributes. -/
theorem parseElement_tag {enc : Enc} (he : enc ≠ .utf8) {name : Text} (hn : ValidName name) {attrs : List (Text × Text)}
    (ha : ∀ a ∈ attrs, ValidName a.1 ∧ NoReference a.2) (hnd : (attrs.map Prod.fst).Nodup) (te : TagEnd) (c0 : Char)
    (hc0 : isNameChar c0 = false) (tail : Text)
    (hte : ∀ fuel acc, parseTag enc (fuel + 1) (c0 :: tail) acc = .ok (acc, te)) (fuel : ℕ) :
    parseElement enc (fuel + 1) ('<' :: name ++ (attrs.flatMap (fun a => ' ' :: printAttribute a) ++ c0 :: tail))
      = (match te with
        | .failed error => .ok (.element name attrs [], none, error)
        | .closed p => .ok (.element name attrs [], some p, false)
        | .opened p => do
          let (children, p, error) ← match skipWhiteSpace enc (some p) with
            | none => .ok ([], none, true)
            | some p => readValue enc fuel p []
          match p with
          | none => .ok (.element name attrs children, none, error)
          | some [] => .ok (.element name attrs children, none, error)
          | some p =>
            let endTag := '<' :: '/' :: name ++ ['>']
            if endTag.isPrefixOf p then .ok (.element name attrs children, some (p.drop endTag.length), error)
            else .ok (.element name attrs children, none, true)) := by
  obtain ⟨d, t', hd, hdn⟩ : ∃ d t', attrs.flatMap (fun a => ' ' :: printAttribute a) ++ c0 :: tail = d :: t'
      ∧ isNameChar d = false := by
    cases attrs with
    | nil => exact ⟨c0, tail, rfl, hc0⟩
    | cons a rest => exact ⟨' ', _, rfl, rfl⟩
  have hp : parseTag enc ((d :: t').length + 1) (d :: t') [] = .ok (attrs, te) := by
    rw [← hd]
    have := parseTag_print he attrs te (c0 :: tail) (by simp) hte
      ((attrs.flatMap (fun a => ' ' :: printAttribute a) ++ c0 :: tail).length + 1) []
      (by have := length_attrs attrs; rw [List.length_append]; omega) ha (by simpa using hnd)
    simpa using this
  rw [hd, parseElement]
  rw [show ('<' :: name ++ d :: t').drop 1 = name ++ d :: t' from rfl, skip_name he hn]
  simp only
  rw [readName_append hn hdn]
  simp only
  rw [hp]
  simp only [Run.bind_ok]
  cases te <;> rfl

theorem printList_cons_of_not_text {n : Node} (h : n.isText = false) (ns : List Node) (depth : ℕ) :
    Node.printList depth (n :: ns) = '\n' :: n.print depth ++ Node.printList depth ns := by
  simp [Node.printList, h]

/-- After a text comes white space and a tag. -/
theorem after_text {enc : Enc} (he : enc ≠ .utf8) {ns : List Node} (hns : ∀ v rest, ns ≠ .text v :: rest)
    (hR : ∀ n ∈ ns, n.isText = false → Reads enc n) (depth : ℕ) {ws : Text}
    (hws : ∀ c ∈ ws, isSpace c = true) (tail : Text) :
    ∃ ws' r, (∀ c ∈ ws', isSpace c = true) ∧ Node.printList depth ns ++ (ws ++ '<' :: '/' :: tail) = ws' ++ '<' :: r := by
  cases ns with
  | nil => exact ⟨ws, '/' :: tail, hws, by simp [Node.printList]⟩
  | cons n ns =>
    have hnt : n.isText = false := by
      cases n with
      | text v => exact absurd rfl (hns v ns)
      | _ => rfl
    obtain ⟨b, hb, -⟩ := hR n (by simp) hnt depth
    refine ⟨'\n' :: indent depth, b ++ (Node.printList depth ns ++ (ws ++ '<' :: '/' :: tail)), ?_, ?_⟩
    · intro c hc
      rcases List.mem_cons.1 hc with rfl | hc
      · rfl
      · exact indent_space depth c hc
    · rw [printList_cons_of_not_text hnt, hb]; simp

theorem readsList_of {enc : Enc} (he : enc ≠ .utf8) : ∀ {ns : List Node}, (∀ n ∈ ns, n.isText = false → Reads enc n) →
    (∀ v, .text v ∈ ns → CondensedText v ∧ NoReference v) → NoTwoTexts ns → ReadsList enc ns := by
  intro ns
  induction ns with
  | nil =>
    intro _ _ _ depth ws hws tail acc fuel hf
    obtain ⟨fuel, rfl⟩ : ∃ k, fuel = k + 1 := ⟨fuel - 1, by omega⟩
    simp only [Node.printList, List.nil_append]
    rw [skipBody_append he hws, skipBody_of_not_space he (by decide), readValue]
    simp
  | cons n ns ih =>
    intro hR hT h2 depth ws hws tail acc fuel hf
    obtain ⟨fuel, rfl⟩ : ∃ k, fuel = k + 1 := ⟨fuel - 1, by omega⟩
    have h2' : NoTwoTexts ns := by
      cases n with
      | text v => cases ns with
        | nil => trivial
        | cons m ms => cases m with
          | text w => exact absurd h2 (by simp [NoTwoTexts])
          | _ => simpa [NoTwoTexts] using h2
      | _ => simpa [NoTwoTexts] using h2
    have ih := ih (fun m hm => hR m (by simp [hm])) (fun v hv => hT v (by simp [hv])) h2' depth ws hws tail
    cases hnt : n.isText with
    | false =>
      obtain ⟨b, hb, hslash, hp⟩ := hR n (by simp) hnt depth
      have e : Node.printList depth (n :: ns) ++ (ws ++ '<' :: '/' :: tail)
          = ('\n' :: indent depth) ++ ('<' :: b ++ (Node.printList depth ns ++ (ws ++ '<' :: '/' :: tail))) := by
        rw [printList_cons_of_not_text hnt, hb]; simp
      rw [e] at hf ⊢
      generalize hX : Node.printList depth ns ++ (ws ++ '<' :: '/' :: tail) = X at *
      rw [skipBody_append he (by
        intro c hc
        rcases List.mem_cons.1 hc with rfl | hc
        · rfl
        · exact indent_space depth c hc)]
      rw [List.cons_append, skipBody_of_not_space he (by decide), readValue]
      have hns : List.isPrefixOf ['<', '/'] ('<' :: (b ++ X)) = false := by
        rw [← Bool.not_eq_true, List.isPrefixOf_iff_prefix]
        rintro ⟨t, ht⟩
        simp only [List.cons_append, List.nil_append, List.cons.injEq, true_and] at ht
        cases b with
        | nil => exact hslash.1 rfl
        | cons c b =>
          simp only [List.cons_append, List.cons.injEq] at ht
          exact hslash.2 b (by rw [← ht.1])
      have hl : 3 * (b.length + 1 + X.length) ≤ fuel := by
        simp only [List.length_append, List.length_cons] at hf; omega
      have := hp X fuel hl
      rw [List.cons_append] at this
      simp only [ne_eq, not_true_eq_false, if_false, hns, Bool.false_eq_true, this, Run.bind_ok]
      obtain ⟨x0, X', hX'⟩ : ∃ x0 X', X = x0 :: X' := by
        apply List.exists_cons_of_ne_nil
        rw [← hX]; simp
      have hsk : skipWhiteSpace enc (some X) = some (skipBody enc X) := by rw [hX']; rfl
      rw [hsk]
      simp only
      rw [ih (acc ++ [n]) fuel (by omega)]
      simp
    | true =>
      obtain ⟨v, rfl⟩ : ∃ v, n = .text v := by cases n <;> simp [Node.isText] at hnt; exact ⟨_, rfl⟩
      obtain ⟨hcond, href⟩ := hT v (by simp)
      have hns : ∀ w rest, ns ≠ .text w :: rest := by
        rintro w rest rfl; exact absurd h2 (by simp [NoTwoTexts])
      obtain ⟨ws', r, hws', hX⟩ := after_text he hns (fun m hm => hR m (by simp [hm])) depth hws tail
      have e : Node.printList depth (.text v :: ns) ++ (ws ++ '<' :: '/' :: tail)
          = v.flatMap escape ++ (ws' ++ '<' :: r) := by
        rw [← hX]; simp [Node.printList, Node.isText, Node.print, putString_flatMap href]
      rw [hX] at ih
      rw [e] at hf ⊢
      obtain ⟨c, v', rfl⟩ : ∃ c v', v = c :: v' := by
        obtain ⟨-, -, -, c, hc, -⟩ := hcond
        exact List.exists_cons_of_ne_nil (List.ne_nil_of_mem hc)
      obtain ⟨c', ee, h1, -, h3, -, -, h6⟩ := getChar_escape he c []
      have hcsp : isSpace c' = false := by
        rcases h3 with rfl | ⟨rfl, h32⟩
        · rfl
        · refine isSpace_of_toNat (by omega) fun h => hcond.1 v' ?_
          have : Char.ofNat c'.toNat = Char.ofNat 32 := by rw [h]
          rw [Char.ofNat_toNat] at this
          rw [this]
      have hhead : (c :: v').flatMap escape ++ (ws' ++ '<' :: r) = c' :: (ee ++ (v'.flatMap escape ++ (ws' ++ '<' :: r))) := by
        rw [List.flatMap_cons, h1]; simp
      have hlen := length_flatMap_escape (c :: v')
      have hread := readTrim_escape he (c :: v') hws' r
        ((ee ++ (v'.flatMap escape ++ (ws' ++ '<' :: r))).length + 1) false [] (by
          have := congrArg List.length hhead
          simp only [List.length_append, List.length_cons] at this hlen ⊢
          omega) (by simp) hcond.2.1 hcond.2.2.1
      rw [hhead] at hread hf ⊢
      rw [skipBody_of_not_space he hcsp, readValue]
      simp only [ne_eq, h6, not_false_eq_true, if_true, hread, Run.bind_ok, List.nil_append, Bool.false_eq_true, if_false,
        not_blank hcond]
      have hsk : skipWhiteSpace enc (some ('<' :: r)) = some (skipBody enc (ws' ++ '<' :: r)) := by
        rw [skipBody_append he hws', skipBody_of_not_space he (by decide), skip_cons he (by decide)]
      rw [hsk]
      simp only
      refine (ih (acc ++ [.text (c :: v')]) fuel ?_).trans ?_
      · have := congrArg List.length hhead
        simp only [List.length_append, List.length_cons] at hf this hlen ⊢
        omega
      · simp

theorem allWellFormed_mem {ns : List Node} (h : AllWellFormed ns) : ∀ n ∈ ns, WellFormed n := by
  induction ns with
  | nil => simp
  | cons n ns ih =>
    intro m hm
    simp only [AllWellFormed] at h
    rcases List.mem_cons.1 hm with rfl | hm
    · exact h.1
    · exact ih h.2 m hm

theorem endTag_prefix (name r : Text) : List.isPrefixOf ('<' :: '/' :: name ++ ['>']) ('<' :: '/' :: (name ++ '>' :: r)) = true := by
  rw [List.isPrefixOf_iff_prefix]
  exact ⟨r, by simp⟩

/-- An element with children is read back if these are. -/
theorem reads_element {enc : Enc} (he : enc ≠ .utf8) {name : Text} {attrs : List (Text × Text)} {children : List Node}
    (hn : ValidName name) (ha : ∀ a ∈ attrs, ValidName a.1 ∧ NoReference a.2) (hnd : (attrs.map Prod.fst).Nodup)
    (hc : ReadsList enc children) : Reads enc (.element name attrs children) := by
  intro depth
  obtain ⟨c, rest, hname, hsp, hsl, hgt, -⟩ := name_head hn
  have hvis : visible attrs = attrs := visible_eq fun a h => (ha a h).1
  have start : ∀ X : Text, name ++ X ≠ [] ∧ ∀ rest', name ++ X ≠ '/' :: rest' := by
    intro X
    rw [hname]
    refine ⟨by simp, fun rest' h => ?_⟩
    simp only [List.cons_append, List.cons.injEq] at h
    exact hsl h.1
  -- with children
  have withChildren : ∀ (ws : Text) (d : ℕ), (∀ c ∈ ws, isSpace c = true) → ∀ r fuel,
      3 * ((name ++ (attrs.flatMap (fun a => ' ' :: printAttribute a)
        ++ '>' :: (Node.printList d children ++ (ws ++ '<' :: '/' :: (name ++ ['>']))))).length + 1 + r.length) ≤ fuel →
      parseNode enc fuel ('<' :: (name ++ (attrs.flatMap (fun a => ' ' :: printAttribute a)
        ++ '>' :: (Node.printList d children ++ (ws ++ '<' :: '/' :: (name ++ ['>']))))) ++ r)
        = .ok (.element name attrs children, some r, false) := by
    intro ws d hws r fuel hf
    obtain ⟨fuel, rfl⟩ : ∃ k, fuel = k + 2 := ⟨fuel - 2, by omega⟩
    have e : '<' :: (name ++ (attrs.flatMap (fun a => ' ' :: printAttribute a)
        ++ '>' :: (Node.printList d children ++ (ws ++ '<' :: '/' :: (name ++ ['>']))))) ++ r
        = '<' :: name ++ (attrs.flatMap (fun a => ' ' :: printAttribute a)
        ++ '>' :: (Node.printList d children ++ (ws ++ '<' :: '/' :: (name ++ '>' :: r)))) := by simp
    rw [e, parseNode, if_pos (isElement_name hn _)]
    rw [parseElement_tag he hn ha hnd _ '>' rfl _ (parseTag_opened he _) fuel]
    have hne : Node.printList d children ++ (ws ++ '<' :: '/' :: (name ++ '>' :: r)) ≠ [] := by simp
    obtain ⟨x0, X', hX'⟩ := List.exists_cons_of_ne_nil hne
    have hsk : skipWhiteSpace enc (some (Node.printList d children ++ (ws ++ '<' :: '/' :: (name ++ '>' :: r))))
        = some (skipBody enc (Node.printList d children ++ (ws ++ '<' :: '/' :: (name ++ '>' :: r)))) := by
      rw [hX']; rfl
    simp only [hsk]
    rw [hc d ws hws (name ++ '>' :: r) [] fuel (by
      simp only [List.length_append, List.length_cons, List.length_nil] at hf ⊢
      omega)]
    simp only [Run.bind_ok, List.nil_append]
    rw [if_pos (endTag_prefix name r)]
    have : ('<' :: '/' :: (name ++ '>' :: r)).drop ('<' :: '/' :: name ++ ['>']).length = r := by
      rw [show '<' :: '/' :: (name ++ '>' :: r) = ('<' :: '/' :: name ++ ['>']) ++ r by simp, List.drop_left]
    rw [this]
  match children, hc, withChildren with
  | [], _, _ =>
    refine ⟨name ++ (attrs.flatMap (fun a => ' ' :: printAttribute a) ++ [' ', '/', '>']), ?_, start _, ?_⟩
    · simp [Node.print, hvis]
    · intro r fuel hf
      obtain ⟨fuel, rfl⟩ : ∃ k, fuel = k + 2 := ⟨fuel - 2, by omega⟩
      rw [show '<' :: (name ++ (attrs.flatMap (fun a => ' ' :: printAttribute a) ++ [' ', '/', '>'])) ++ r
        = '<' :: name ++ (attrs.flatMap (fun a => ' ' :: printAttribute a) ++ ' ' :: ('/' :: '>' :: r)) by simp]
      rw [parseNode, if_pos (isElement_name hn _),
        parseElement_tag he hn ha hnd (.closed r) ' ' rfl _ (parseTag_closed he r) fuel]
  | n :: ns, _, withChildren =>
    refine ⟨_, ?_, start _, withChildren (if isSoleText (n :: ns) then [] else '\n' :: indent depth) (depth + 1) ?_⟩
    · simp [Node.print, hvis]
    · intro c hc
      split_ifs at hc with h
      · simp at hc
      · rcases List.mem_cons.1 hc with rfl | hc
        · rfl
        · exact indent_space depth c hc

theorem reads_comment {enc : Enc} (he : enc ≠ .utf8) {v : Text} (h : WellFormed (.comment v)) : Reads enc (.comment v) := by
  intro depth
  refine ⟨'!' :: '-' :: '-' :: (v ++ ['-', '-', '>']), by simp [Node.print], ⟨by simp, by simp⟩, ?_⟩
  intro r fuel hf
  obtain ⟨fuel, rfl⟩ : ∃ k, fuel = k + 1 := ⟨fuel - 1, by omega⟩
  have := parseOther_comment he h.1 h.2 r
  rw [show '<' :: '!' :: '-' :: '-' :: v ++ '-' :: '-' :: '>' :: r = '<' :: '!' :: '-' :: '-' :: (v ++ '-' :: '-' :: '>' :: r) by simp] at this
  rw [show '<' :: '!' :: '-' :: '-' :: (v ++ ['-', '-', '>']) ++ r = '<' :: '!' :: '-' :: '-' :: (v ++ '-' :: '-' :: '>' :: r) by simp]
  rw [parseNode, if_neg, this]
  · rfl
  · simp [isElement, prefixNoCase, List.isPrefixOf, show "<!".toList = ['<', '!'] from rfl]

theorem reads_unknown {enc : Enc} {v : Text} (h : WellFormed (.unknown v)) : Reads enc (.unknown v) := by
  obtain ⟨hgt, hhead, hcom⟩ := h
  intro depth
  refine ⟨v ++ ['>'], by simp [Node.print], ⟨by simp, ?_⟩, ?_⟩
  · intro rest hr
    cases v with
    | nil => simp at hr
    | cons c v =>
      simp only [List.cons_append, List.cons.injEq] at hr
      exact (hhead c v rfl).1 hr.1
  intro r fuel hf
  obtain ⟨fuel, rfl⟩ : ∃ k, fuel = k + 1 := ⟨fuel - 1, by omega⟩
  have hx : prefixNoCase "<?xml".toList ('<' :: (v ++ '>' :: r)) = false := by
    rw [show "<?xml".toList = ['<', '?', 'x', 'm', 'l'] from rfl]
    cases v with
    | nil => rfl
    | cons c v =>
      have hc := hhead c v rfl
      have : toLower c ≠ '?' := toLower_ne hc.2.1
      simp only [List.cons_append, prefixNoCase, show toLower '?' = '?' from rfl, this, decide_false, Bool.false_and,
        Bool.and_false]
  have hcm : "<!--".toList.isPrefixOf ('<' :: (v ++ '>' :: r)) = false := by
    rw [← Bool.not_eq_true, List.isPrefixOf_iff_prefix]
    rintro ⟨t, ht⟩
    rw [show "<!--".toList = ['<', '!', '-', '-'] from rfl] at ht
    simp only [List.cons_append, List.nil_append, List.cons.injEq, true_and] at ht
    match v, hcom, ht with
    | [], _, ht => simp at ht
    | [a], _, ht => simp at ht
    | [a, b], _, ht => simp at ht
    | a :: b :: c :: v, hcom, ht =>
      simp only [List.cons_append, List.cons.injEq] at ht
      obtain ⟨h1, h2, h3, -⟩ := ht
      exact hcom ⟨v, by rw [← h1, ← h2, ← h3]; rfl⟩
  have hall : ∀ c ∈ v, (fun c => decide (c ≠ '>')) c = true := by
    intro c hc
    simp only [decide_eq_true_eq]
    rintro rfl
    exact hgt hc
  have hel : isElement ('<' :: (v ++ '>' :: r)) = false := by
    simp only [isElement, hx]
    cases v with
    | nil => simp [isAlpha, isLetter]
    | cons c v =>
      have hc := hhead c v rfl
      have : isAlpha c = false := by
        rw [isAlpha, if_pos hc.2.2.2.2, ← Bool.not_eq_true, isLetter_iff, hc.2.2.2.1]; simp
      simp [this, hc.2.2.1]
  rw [show '<' :: (v ++ ['>']) ++ r = '<' :: (v ++ '>' :: r) by simp]
  rw [parseNode, if_neg (by rw [hel]; simp), parseOther, hx, hcm]
  simp only [Bool.false_eq_true, if_false, parseUnknown, List.drop_succ_cons, List.drop_zero, Run.bind_ok]
  rw [List.takeWhile_append_of_pos hall, List.dropWhile_append_of_pos hall]
  simp

mutual
theorem reads_node {enc : Enc} (he : enc ≠ .utf8) : ∀ n : Node, WellFormed n → n.isText = false → Reads enc n
  | .element name attrs children, h, _ => by
    simp only [WellFormed] at h
    exact reads_element he h.1 h.2.1 h.2.2.1 (readsList_of he (reads_nodes he children h.2.2.2.1)
      (fun v hv => by have := allWellFormed_mem h.2.2.2.1 _ hv; simpa only [WellFormed] using this) h.2.2.2.2)
  | .comment _, h, _ => reads_comment he h
  | .unknown _, h, _ => reads_unknown h
  | .text _, _, h => by simp [Node.isText] at h
  | .declaration .., h, _ => by simp [WellFormed] at h
theorem reads_nodes {enc : Enc} (he : enc ≠ .utf8) : ∀ ns : List Node, AllWellFormed ns →
    ∀ n ∈ ns, n.isText = false → Reads enc n
  | [], _ => by simp
  | m :: ms, h => by
    simp only [AllWellFormed] at h
    have h1 := reads_node he m h.1
    have h2 := reads_nodes he ms h.2
    intro n hn
    rcases List.mem_cons.1 hn with rfl | hn
    · exact h1
    · exact h2 n hn
end

end Gear.Xml
