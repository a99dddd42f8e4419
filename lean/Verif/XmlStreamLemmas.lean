/-
Finding the end of what was written in a stream.
-/
import Verif.XmlSaveRender
import Verif.XmlStreamSpec
import Verif.XmlRoundTrip

set_option autoImplicit false
set_option linter.unusedSectionVars false

namespace Gear.Xml.Stream

open Gear.Xml.Spec
open Stream.Spec

theorem streamAttribute_eq (a : Text × Text) : streamAttribute a = printAttribute a := rfl

/-- A byte that ends neither a tag nor a text. -/
def Inside (c : Char) : Prop := c ≠ '>' ∧ c ≠ zero

instance (c : Char) : Decidable (Inside c) := inferInstanceAs (Decidable (c ≠ '>' ∧ c ≠ zero))

theorem escape_inside {x c : Char} (h : c ∈ escape x) : Inside c ∧ c ≠ '<' := by
  have hz : ∀ {c : Char}, c.toNat ≠ 0 → c ≠ zero := by rintro c h rfl; exact h rfl
  have hd : ∀ k < 16, hexDigit k ≠ '>' ∧ hexDigit k ≠ zero ∧ hexDigit k ≠ '<' := by decide
  unfold escape at h
  unfold Inside
  split_ifs at h with h1 h2 h3 h4 h5 h6
  · revert c; decide
  · revert c; decide
  · revert c; decide
  · revert c; decide
  · revert c; decide
  · simp only [List.mem_cons, List.not_mem_nil, or_false] at h
    have a1 := hd (x.toNat / 16) (by omega)
    have a2 := hd (x.toNat % 16) (by omega)
    rcases h with rfl | rfl | rfl | rfl | rfl | rfl
    · decide
    · decide
    · decide
    · exact ⟨⟨a1.1, a1.2.1⟩, a1.2.2⟩
    · exact ⟨⟨a2.1, a2.2.1⟩, a2.2.2⟩
    · decide
  · simp only [List.mem_singleton] at h
    subst h
    exact ⟨⟨h3, hz (by omega)⟩, h2⟩

theorem value_inside {v : Text} (hv : NoReference v) {c : Char} (h : c ∈ putString false v) : Inside c ∧ c ≠ '<' := by
  rw [putString_flatMap hv] at h
  obtain ⟨x, -, hx⟩ := List.mem_flatMap.1 h
  exact escape_inside hx

theorem name_inside {n : Text} (hn : ValidName n) {c : Char} (h : c ∈ n) : Inside c ∧ c ≠ '/' ∧ c ≠ '<' := by
  have hc := nameChar_code (hn.2 c h)
  refine ⟨⟨toNat_ne ?_, toNat_ne ?_⟩, toNat_ne ?_, toNat_ne ?_⟩
  · show c.toNat ≠ 62; omega
  · show c.toNat ≠ 0; omega
  · show c.toNat ≠ 47; omega
  · show c.toNat ≠ 60; omega

theorem putString_name {n : Text} (hn : ValidName n) : NoReference n := by
  rintro ⟨a, b, h⟩
  have : '&' ∈ n := by rw [← h]; simp
  have hc := nameChar_code (hn.2 _ this)
  have : ('&' : Char).toNat = 38 := rfl
  omega

theorem attribute_inside {a : Text × Text} (h1 : ValidName a.1) (h2 : NoReference a.2) {c : Char} (h : c ∈ printAttribute a) :
    Inside c := by
  have q : ∀ {c : Char}, c = '=' ∨ c = '"' ∨ c = '\'' → Inside c := by
    rintro c (rfl | rfl | rfl) <;> decide
  unfold printAttribute at h
  dsimp only at h
  split_ifs at h
  all_goals
    simp only [List.mem_append, List.mem_cons, List.not_mem_nil, or_false] at h
    rcases h with (h | h | h | h) | h
    · exact (value_inside (putString_name h1) h).1
    · exact q (by simp [h])
    · exact q (by simp [h])
    · exact (value_inside h2 h).1
    · exact q (by simp [h])

theorem attributes_inside {attrs : List (Text × Text)} (ha : ∀ a ∈ attrs, ValidName a.1 ∧ NoReference a.2) {c : Char}
    (h : c ∈ attrs.flatMap fun a => ' ' :: printAttribute a) : Inside c := by
  obtain ⟨a, h1, h2⟩ := List.mem_flatMap.1 h
  rcases List.mem_cons.1 h2 with rfl | h2
  · decide
  · exact attribute_inside (ha a h1).1 (ha a h1).2 h2

/-- The start tag does not end with a slash. -/
theorem tag_last {name : Text} {attrs : List (Text × Text)} (hn : ValidName name) :
    ∃ q x, name ++ attrs.flatMap (fun a => ' ' :: printAttribute a) = q ++ [x] ∧ x ≠ '/' := by
  rcases List.eq_nil_or_concat attrs with rfl | ⟨l, a, rfl⟩
  · rcases List.eq_nil_or_concat name with rfl | ⟨q, x, rfl⟩
    · obtain ⟨⟨c, r, h, -⟩, -⟩ := hn; cases h
    · exact ⟨q, x, by simp, (name_inside hn (c := x) (by simp)).2.1⟩
  · unfold printAttribute
    dsimp only
    by_cases hq : '"' ∈ a.2
    · exact ⟨name ++ l.flatMap (fun a => ' ' :: printAttribute a) ++ (' ' :: putString false a.1 ++ '=' :: '\'' :: putString false a.2), '\'',
        by simp [hq, printAttribute], by decide⟩
    · exact ⟨name ++ l.flatMap (fun a => ' ' :: printAttribute a) ++ (' ' :: putString false a.1 ++ '=' :: '"' :: putString false a.2), '"',
        by simp [hq, printAttribute], by decide⟩

/-! ### The loops -/

theorem upTo_append {a : Text} (h : ∀ c ∈ a, Inside c) (r tag : Text) :
    upTo (a ++ '>' :: r) tag = (⟨'>' :: r, true⟩, tag ++ a) := by
  induction a generalizing tag with
  | nil => simp [upTo]
  | cons c a ih =>
    have hc := h c (by simp)
    rw [List.cons_append, upTo, if_neg hc.1, if_neg hc.2, ih (fun c hc => h c (by simp [hc]))]
    simp

theorem inner_found {a : Text} (h : ∀ c ∈ a, Inside c) (r tag : Text) (closing : Bool) :
    inner (a ++ '>' :: r) tag true closing = (⟨'>' :: r, true⟩, tag ++ a, some closing) := by
  induction a generalizing tag with
  | nil => simp [inner, zero]
  | cons c a ih =>
    have hc := h c (by simp)
    rw [List.cons_append, inner, if_neg hc.2, if_neg hc.1]
    simp only [Bool.not_true, Bool.false_and, Bool.false_eq_true, if_false]
    rw [ih (fun c hc => h c (by simp [hc]))]
    simp

/-- Whether the tag is an end tag is decided by the first byte that is no `<` and no white space. -/
theorem inner_append {a : Text} (h : ∀ c ∈ a, Inside c) (r tag : Text)
    (ho : ∀ b c, a = b ++ '/' :: c → ∃ x ∈ b, x ≠ '<' ∧ isSpace x = false) :
    inner (a ++ '>' :: r) tag false false = (⟨'>' :: r, true⟩, tag ++ a, some false) := by
  induction a generalizing tag with
  | nil => simp [inner, zero]
  | cons c a ih =>
    have hc := h c (by simp)
    rw [List.cons_append, inner, if_neg hc.2, if_neg hc.1]
    by_cases hf : c ≠ '<' ∧ isSpace c = false
    · rw [if_pos (by simp [hf.1, hf.2]), inner_found (fun c hc => h c (by simp [hc]))]
      have : c ≠ '/' := by
        rintro rfl
        obtain ⟨x, hx, -⟩ := ho [] a rfl
        simp at hx
      simp [this]
    · rw [if_neg, ih (fun c hc => h c (by simp [hc]))]
      · simp
      · intro b d e
        obtain ⟨x, hx, hx'⟩ := ho (c :: b) d (by rw [e]; rfl)
        rcases List.mem_cons.1 hx with rfl | hx
        · exact absurd hx' hf
        · exact ⟨x, hx, hx'⟩
      · intro hh
        simp only [Bool.not_false, Bool.true_and, Bool.and_eq_true, decide_eq_true_eq, Bool.not_eq_eq_eq_not, Bool.not_true] at hh
        exact hf hh

theorem text_append {a : Text} (h : ∀ c ∈ a, Inside c ∧ c ≠ '<') (r tag : Text) :
    text (a ++ '<' :: r) tag = (⟨'<' :: r, true⟩, tag ++ a) := by
  induction a generalizing tag with
  | nil => simp [text]
  | cons c a ih =>
    have hc := h c (by simp)
    rw [List.cons_append, text, if_neg hc.2, if_neg hc.1.2, ih (fun c hc => h c (by simp [hc]))]
    simp

theorem white_stop {c : Char} (h : isSpace c = false) (r tag : Text) : white (c :: r) tag = (⟨c :: r, true⟩, tag) := by
  simp [white, h]

theorem fromEnd_one (t : Text) (x : Char) : fromEnd (t ++ [x]) 1 = .ok x := by
  simp [fromEnd]

theorem fromEnd_two (t : Text) (x y : Char) : fromEnd (t ++ [x] ++ [y]) 2 = .ok x := by
  simp [fromEnd]

theorem fromEnd_three (t : Text) (w x y : Char) : fromEnd (t ++ [w] ++ [x] ++ [y]) 3 = .ok w := by
  simp [fromEnd]

theorem last_two {tag : Text} (h : 2 ≤ tag.length) : ∃ t w x, tag = t ++ [w] ++ [x] := by
  rcases List.eq_nil_or_concat tag with rfl | ⟨q, x, rfl⟩
  · simp at h
  · rcases List.eq_nil_or_concat q with rfl | ⟨t, w, rfl⟩
    · simp at h
    · exact ⟨t, w, x, by simp⟩

/-- One byte in a comment. -/
theorem comment_step {tag : Text} (h : 2 ≤ tag.length) (c : Char) (rest : Text) (hz : c ≠ zero) :
    comment (c :: rest) tag = if c = '>' ∧ ['-', '-'] <:+ tag then .ok (⟨rest, true⟩, tag ++ [c]) else comment rest (tag ++ [c]) := by
  obtain ⟨t, w, x, rfl⟩ := last_two h
  have hs : ['-', '-'] <:+ t ++ [w] ++ [x] ↔ w = '-' ∧ x = '-' := by
    constructor
    · rintro ⟨p, hp⟩
      have : p ++ ['-'] ++ ['-'] = t ++ [w] ++ [x] := by rw [← hp]; simp
      obtain ⟨h1, h2⟩ := List.append_inj' this rfl
      obtain ⟨-, h3⟩ := List.append_inj' h1 rfl
      cases h2; cases h3; exact ⟨rfl, rfl⟩
    · rintro ⟨rfl, rfl⟩; exact ⟨t, by simp⟩
  simp only [hs]
  rw [comment, if_neg hz, fromEnd_two, fromEnd_three]
  simp only [Run.bind_ok]
  by_cases h1 : c = '>' <;> by_cases h2 : x = '-' <;> by_cases h3 : w = '-' <;> simp [h1, h2, h3]

theorem comment_append {w : Text} (hz : zero ∉ w) (r : Text) : ∀ tag : Text, 2 ≤ tag.length →
    (∀ a b, w = a ++ '>' :: b → ¬ ['-', '-'] <:+ tag ++ a) →
    comment (w ++ '-' :: '-' :: '>' :: r) tag = .ok (⟨r, true⟩, tag ++ (w ++ ['-', '-', '>'])) := by
  induction w with
  | nil =>
    intro tag ht _
    rw [List.nil_append, comment_step ht _ _ (by decide), if_neg (by simp),
      comment_step (by simp; omega) _ _ (by decide), if_neg (by simp),
      comment_step (by simp) _ _ (by decide), if_pos ⟨rfl, ⟨tag, by simp⟩⟩]
    simp
  | cons c w ih =>
    intro tag ht hw
    rw [List.cons_append, comment_step ht _ _ (by rintro rfl; exact hz (by simp)), if_neg,
      ih (fun h => hz (by simp [h])) _ (by simp; omega)]
    · simp
    · intro a b e hs
      exact hw (c :: a) b (by rw [e]; rfl) (by simpa using hs)
    · rintro ⟨rfl, hs⟩
      exact hw [] w rfl (by simpa using hs)

/-! ### Nodes -/

theorem isSpace_iff_space {c : Char} : isSpace c = false ↔ ¬ Grammar.Space c := by
  rw [← Bool.not_eq_true, Grammar.space_iff]

/-- What is shown for each node that is no text: in the stream it begins with a tag up to a first `>`, by which its kind is known, and
its end is found. -/
def Framed (n : Node) : Prop :=
  ∃ k pre post, streamOut n = '<' :: pre ++ '>' :: post ∧ (∀ c ∈ pre, Inside c) ∧ identify ('<' :: pre) = some k ∧
    (k = .element ↔ isElementNode n = true) ∧
    (∀ b c, '<' :: pre = b ++ '/' :: c → ∃ x ∈ b, x ≠ '<' ∧ isSpace x = false) ∧
    ∀ fuel tag r, 3 * (post.length + 1) ≤ fuel →
      node fuel k ('>' :: post ++ r) (tag ++ '<' :: pre) = .ok (⟨r, true⟩, tag ++ streamOut n)

theorem identify_lt (p : Text) : identify ('<' :: p) =
    if prefixNoCase "<?xml".toList ('<' :: p) then some .declaration
    else if "<!--".toList.isPrefixOf ('<' :: p) then some .comment
    else if isElement ('<' :: p) then some .element
    else some .unknown := by
  unfold identify
  rw [skip_cons (by decide) (by decide)]
  rfl

theorem identify_element {p : Text} (h : isElement ('<' :: p) = true) : identify ('<' :: p) = some .element := by
  rw [identify_lt]
  have h' := h
  simp only [isElement, Bool.and_eq_true, Bool.not_eq_true', Bool.not_eq_eq_eq_not, Bool.not_true] at h'
  rw [h'.1.1, if_neg (by simp), if_neg, if_pos h]
  intro hc
  rw [List.isPrefixOf_iff_prefix] at hc
  have : "<!".toList.isPrefixOf ('<' :: p) = true := by
    rw [List.isPrefixOf_iff_prefix]
    exact List.IsPrefix.trans ⟨['-', '-'], rfl⟩ hc
  rw [this] at h'
  exact absurd h'.1.2 (by simp)

theorem framed_comment {v : Text} (h : ¬ ['-', '-', '>'] <:+: v) (hs : Streamable (.comment v)) : Framed (.comment v) := by
  simp only [Streamable] at hs
  obtain ⟨hz, h1, h2⟩ := hs
  -- the first `>`
  obtain ⟨pre, post, e, hpre⟩ : ∃ pre post, v ++ ['-', '-', '>'] = pre ++ '>' :: post ∧ ∀ c ∈ pre, c ≠ '>' := by
    refine ⟨(v ++ ['-', '-', '>']).takeWhile (· ≠ '>'), ((v ++ ['-', '-', '>']).dropWhile (· ≠ '>')).tail, ?_, ?_⟩
    · conv_lhs => rw [← List.takeWhile_append_dropWhile (p := (· ≠ '>')) (l := v ++ ['-', '-', '>'])]
      congr 1
      cases hd : (v ++ ['-', '-', '>']).dropWhile (· ≠ '>') with
      | nil =>
        have := List.dropWhile_eq_nil_iff.1 hd '>' (by simp)
        simp at this
      | cons c r =>
        have := List.head?_dropWhile_not (p := (· ≠ '>')) (v ++ ['-', '-', '>'])
        rw [hd] at this
        simp only [List.head?_cons, ne_eq, decide_not, Bool.not_not, Bool.not_eq_false', decide_eq_true_eq] at this
        rw [this]; rfl
    · intro c hc
      have := List.mem_takeWhile_imp hc
      simpa using this
  have hin : ∀ c ∈ v ++ ['-', '-', '>'], c ≠ zero := by
    intro c hc
    simp only [List.mem_append, List.mem_cons, List.not_mem_nil, or_false] at hc
    rcases hc with hc | rfl | rfl | rfl
    · rintro rfl; exact hz hc
    all_goals decide
  refine ⟨.comment, '!' :: '-' :: '-' :: pre, post, ?_, ?_, ?_, by simp [isElementNode], ?_, ?_⟩
  · simp only [streamOut, List.cons_append, e]
  · intro c hc
    simp only [List.mem_cons] at hc
    rcases hc with rfl | rfl | rfl | hc
    · decide
    · decide
    · decide
    · exact ⟨hpre c hc, hin c (by rw [e]; simp [hc])⟩
  · rw [identify_lt, if_neg, if_pos]
    · simp [show "<!--".toList = ['<', '!', '-', '-'] from rfl, List.isPrefixOf]
    · simp [prefixNoCase, show "<?xml".toList = ['<', '?', 'x', 'm', 'l'] from rfl, toLower]
  · intro b c hb
    match b, hb with
    | [], hb => simp at hb
    | [x], hb => simp at hb
    | x :: y :: b, hb =>
      simp only [List.cons_append, List.cons.injEq] at hb
      exact ⟨y, by simp, by rw [← hb.2.1]; decide, by rw [← hb.2.1]; decide⟩
  · intro fuel tag r hf
    obtain ⟨fuel, rfl⟩ : ∃ k, fuel = k + 1 := ⟨fuel - 1, by omega⟩
    rw [node]
    have hno : ∀ a b, v = a ++ '>' :: b → ¬ ['-', '-'] <:+ (tag ++ ['<', '!', '-', '-']) ++ a := by
      intro a b hv hsuf
      rcases List.eq_nil_or_concat a with rfl | ⟨a', y, rfl⟩
      · exact h1 ⟨b, by rw [hv]; rfl⟩
      · rcases List.eq_nil_or_concat a' with rfl | ⟨a'', x, rfl⟩
        · obtain ⟨p, hp⟩ := hsuf
          have := congrArg List.getLast? hp
          simp at this
          exact h2 ⟨b, by rw [hv, ← this]; rfl⟩
        · obtain ⟨p, hp⟩ := hsuf
          have : p ++ ['-'] ++ ['-'] = (tag ++ ['<', '!', '-', '-'] ++ a'') ++ [x] ++ [y] := by rw [List.append_assoc, List.singleton_append, hp]; simp
          obtain ⟨e1, e2⟩ := List.append_inj' this rfl
          obtain ⟨-, e3⟩ := List.append_inj' e1 rfl
          cases e2; cases e3
          exact h ⟨a'', b, by rw [hv]; simp⟩
    -- skipping the part that is already read
    have hskip : ∀ (p q t : Text), 2 ≤ t.length → (∀ c ∈ p, Inside c) → comment (p ++ q) t = comment q (t ++ p) := by
      intro p
      induction p with
      | nil => intro q t _ _; simp
      | cons c p ih =>
        intro q t ht hp
        have hc := hp c (by simp)
        rw [List.cons_append, comment_step ht _ _ hc.2, if_neg (fun hh => hc.1 hh.1),
          ih q _ (by simp; omega) fun c hc => hp c (by simp [hc])]
        simp
    have hfull := comment_append hz r (tag ++ ['<', '!', '-', '-']) (by simp) hno
    rw [show v ++ '-' :: '-' :: '>' :: r = (v ++ ['-', '-', '>']) ++ r by simp, e, List.append_assoc,
      hskip pre _ _ (by simp) (fun c hc => ⟨hpre c hc, hin c (by rw [e]; simp [hc])⟩), ← e] at hfull
    rw [show tag ++ '<' :: '!' :: '-' :: '-' :: pre = tag ++ ['<', '!', '-', '-'] ++ pre by simp, hfull]
    simp [streamOut]

theorem framed_unknown {u : Prop} {field : Text → Prop} {v : Text} (h : Save.Survives u field (.unknown v)) (hs : Streamable (.unknown v)) : Framed (.unknown v) := by
  rw [Save.Survives] at h
  simp only [Streamable] at hs
  obtain ⟨hgt, hhead, hcom, hxml⟩ := h
  refine ⟨.unknown, v, [], rfl, ?_, ?_, by simp [isElementNode], ?_, ?_⟩
  · intro c hc
    exact ⟨fun h => hgt (h ▸ hc), fun h => hs.1 (by have := h ▸ hc; exact this)⟩
  · rw [identify_lt, if_neg, if_neg, if_neg]
    · intro he
      obtain ⟨c, r, hcr, hc⟩ := Grammar.start_iff (enc := .unknown).1 ⟨he, v, rfl⟩
      exact hhead c r (List.cons.inj hcr).2 hc
    · rw [List.isPrefixOf_iff_prefix]
      rintro ⟨t, ht⟩
      rw [show "<!--".toList = ['<', '!', '-', '-'] from rfl] at ht
      simp only [List.cons_append, List.nil_append, List.cons.injEq, true_and] at ht
      exact hcom ⟨t, by rw [← ht]; rfl⟩
    · intro hr
      have hb := Grammar.begins_xml.1 hr
      unfold Grammar.Begins at hb
      rw [show "<?xml".toList.length = 5 from rfl, List.take_succ_cons, List.map_cons] at hb
      exact hxml (List.cons.inj hb).2
  · intro b c e
    cases b with
    | nil => simp at e
    | cons x b =>
      simp only [List.cons_append, List.cons.injEq] at e
      obtain ⟨y, hy, h1, h2⟩ := hs.2 b c e.2
      exact ⟨y, by simp [hy], h1, isSpace_iff_space.2 h2⟩
  · intro fuel tag r hf
    obtain ⟨fuel, rfl⟩ : ∃ k, fuel = k + 1 := ⟨fuel - 1, by omega⟩
    rw [node]
    · simp [through, zero, streamOut]
    all_goals simp

theorem written_inside {word v : Text} (hw : ∀ c ∈ word, Inside c) (hv : NoReference v) : ∀ c ∈ Save.written (putString false) word v, Inside c := by
  intro c hc
  unfold Save.written at hc
  split_ifs at hc
  · simp only [List.mem_append, show "=\"".toList = ['=', '"'] from rfl, show "\" ".toList = ['"', ' '] from rfl, List.mem_cons, List.not_mem_nil, or_false] at hc
    rcases hc with ((hc | rfl | rfl) | hc) | rfl | rfl
    · exact hw c hc
    · decide
    · decide
    · exact (value_inside hv hc).1
    · decide
    · decide
  · simp at hc

theorem streamDeclaration_eq (v e s : Text) : streamDeclaration v e s = "<?xml ".toList ++ Save.written (putString false) "version".toList v
    ++ Save.written (putString false) "encoding".toList e ++ Save.written (putString false) "standalone".toList s ++ "?>".toList := rfl

theorem framed_declaration {v e s : Text} (h : ∀ x ∈ [v, e, s], NoReference x) : Framed (.declaration v e s) := by
  have hin : ∀ c ∈ Save.written (putString false) "version".toList v ++ Save.written (putString false) "encoding".toList e
      ++ Save.written (putString false) "standalone".toList s, Inside c := by
    intro c hc
    simp only [List.mem_append] at hc
    rcases hc with (hc | hc) | hc
    · exact written_inside (by decide) (h v (by simp)) c hc
    · exact written_inside (by decide) (h e (by simp)) c hc
    · exact written_inside (by decide) (h s (by simp)) c hc
  have eq := streamDeclaration_eq v e s
  rw [show ∀ a b c d f : Text, a ++ b ++ c ++ d ++ f = a ++ (b ++ c ++ d) ++ f by intros; simp] at eq
  generalize Save.written (putString false) "version".toList v ++ Save.written (putString false) "encoding".toList e
      ++ Save.written (putString false) "standalone".toList s = w at hin eq
  have eq' : streamOut (.declaration v e s) = '<' :: ("?xml ".toList ++ w ++ ['?']) ++ '>' :: [] := by
    rw [streamOut, eq]
    simp [show "<?xml ".toList = '<' :: "?xml ".toList from rfl, show "?>".toList = ['?', '>'] from rfl]
  refine ⟨.declaration, "?xml ".toList ++ w ++ ['?'], [], eq', ?_, ?_, by simp [isElementNode], ?_, ?_⟩
  · intro c hc
    rcases List.mem_append.1 hc with hc | hc
    · rcases List.mem_append.1 hc with hc | hc
      · have : ∀ c ∈ "?xml ".toList, Inside c := by decide
        exact this c hc
      · exact hin c hc
    · rw [List.mem_singleton.1 hc]; decide
  · rw [identify_lt, if_pos]
    rw [Grammar.begins_xml]
    rfl
  · intro b c hb
    match b, hb with
    | [], hb => simp at hb
    | [x], hb => simp [show "?xml ".toList = ['?', 'x', 'm', 'l', ' '] from rfl] at hb
    | x :: y :: b, hb =>
      simp only [show "?xml ".toList = ['?', 'x', 'm', 'l', ' '] from rfl, List.cons_append, List.cons.injEq] at hb
      exact ⟨y, by simp, by rw [← hb.2.1]; decide, by rw [← hb.2.1]; decide⟩
  · intro fuel tag r hf
    obtain ⟨fuel, rfl⟩ : ∃ k, fuel = k + 1 := ⟨fuel - 1, by omega⟩
    rw [node]
    · rw [eq']
      simp [through, zero]
    all_goals simp

/-- What is shown for each list of children: the end tag is found. -/
def FramedList (ns : List Node) : Prop :=
  ∀ name r tag fuel, ValidName name → 3 * (streamList ns ++ '<' :: '/' :: (name ++ ['>'])).length ≤ fuel →
    content fuel ⟨streamList ns ++ '<' :: '/' :: (name ++ '>' :: r), true⟩ tag
      = .ok (⟨r, true⟩, tag ++ (streamList ns ++ '<' :: '/' :: (name ++ ['>'])))

/-- The step of the loop over the content at a tag that is no end tag. -/
theorem content_node {k : Kind} {pre post r : Text} (hpre : ∀ c ∈ pre, Inside c) (hk : identify ('<' :: pre) = some k)
    (ho : ∀ b c, '<' :: pre = b ++ '/' :: c → ∃ x ∈ b, x ≠ '<' ∧ isSpace x = false) {fuel : ℕ} {tag tag' : Text} {s : In}
    (hn : node fuel k ('>' :: post ++ r) (tag ++ '<' :: pre) = .ok (s, tag')) :
    content (fuel + 1) ⟨'<' :: pre ++ '>' :: post ++ r, true⟩ tag = content fuel s tag' := by
  have hin : ∀ c ∈ '<' :: pre, Inside c := by
    intro c hc
    rcases List.mem_cons.1 hc with rfl | hc
    · decide
    · exact hpre c hc
  have hi := inner_append hin (post ++ r) tag ho
  have e : '<' :: pre ++ '>' :: post ++ r = '<' :: (pre ++ '>' :: (post ++ r)) := by simp
  rw [e, content]
  simp only [if_true]
  rw [white_stop (by decide)]
  simp only [ne_eq, not_true_eq_false, if_false]
  rw [show '<' :: (pre ++ '>' :: (post ++ r)) = '<' :: pre ++ '>' :: (post ++ r) by simp, hi]
  simp only [List.drop_left, hk]
  rw [show '>' :: (post ++ r) = '>' :: post ++ r by simp, hn]
  rfl

theorem content_end {name : Text} (hn : ValidName name) (r tag : Text) (fuel : ℕ) :
    content (fuel + 1) ⟨'<' :: '/' :: (name ++ '>' :: r), true⟩ tag
      = .ok (⟨r, true⟩, tag ++ '<' :: '/' :: (name ++ ['>'])) := by
  rw [content]
  simp only [if_true]
  rw [white_stop (by decide)]
  simp only [ne_eq, not_true_eq_false, if_false]
  have hi : inner ('<' :: '/' :: (name ++ '>' :: r)) tag false false
      = (⟨'>' :: r, true⟩, tag ++ '<' :: '/' :: name, some true) := by
    rw [inner, if_neg (by decide), if_neg (by decide), if_neg (by decide), inner, if_neg (by decide), if_neg (by decide),
      if_pos (by decide)]
    have := inner_found (fun c hc => (name_inside hn (c := c) hc).1) r (tag ++ ['<'] ++ ['/']) true
    simp only [decide_true, Bool.or_true]
    rw [this]; simp
  rw [hi]
  simp only
  rw [if_neg (by decide), if_neg (by decide)]
  simp

theorem framedList_of {ns : List Node} (hF : ∀ n ∈ ns, n.isText = false → Framed n)
    (hT : ∀ v, .text v ∈ ns → Save.TidyText v ∧ NoReference v) (h2 : NoTwoTexts ns) : FramedList ns := by
  induction ns with
  | nil =>
    intro name r tag fuel hn hf
    simp only [streamList, List.nil_append, List.length_cons] at hf ⊢
    obtain ⟨fuel, rfl⟩ : ∃ k, fuel = k + 1 := ⟨fuel - 1, by omega⟩
    exact content_end hn r tag fuel
  | cons n ns ih =>
    intro name r tag fuel hn hf
    have ih := ih (fun m hm => hF m (by simp [hm])) (fun v hv => hT v (by simp [hv])) (Save.noTwoTexts_tail h2) name r
    obtain ⟨fuel, rfl⟩ : ∃ k, fuel = k + 1 := ⟨fuel - 1, by
      have : 0 < (streamList (n :: ns) ++ '<' :: '/' :: (name ++ ['>'])).length := by simp
      omega⟩
    cases hnt : n.isText with
    | false =>
      obtain ⟨k, pre, post, e, hpre, hk, -, ho, hp⟩ := hF n (by simp) hnt
      have hlen : (streamOut n).length = pre.length + post.length + 2 := by
        rw [e]; simp only [List.length_append, List.length_cons]; omega
      simp only [streamList, List.length_append, hlen, List.length_cons, List.length_nil] at hf
      have hh := hp fuel tag (streamList ns ++ '<' :: '/' :: (name ++ '>' :: r)) (by omega)
      have hstep := content_node hpre hk ho hh
      rw [← e] at hstep
      rw [streamList, List.append_assoc, hstep, ih _ fuel hn (by
        simp only [List.length_append, List.length_cons, List.length_nil]; omega)]
      simp
    | true =>
      obtain ⟨v, rfl⟩ : ∃ v, n = .text v := by cases n <;> simp [Node.isText] at hnt; exact ⟨_, rfl⟩
      obtain ⟨hcond, href⟩ := hT v (by simp)
      obtain ⟨q, hq⟩ : ∃ q, streamList ns ++ '<' :: '/' :: (name ++ '>' :: r) = '<' :: q := by
        cases ns with
        | nil => exact ⟨_, rfl⟩
        | cons m ms =>
          have hm : m.isText = false := by
            cases m with
            | text w => exact absurd h2 (by simp [NoTwoTexts])
            | _ => rfl
          obtain ⟨k, pre, post, e, -⟩ := hF m (by simp) hm
          exact ⟨pre ++ '>' :: post ++ (streamList ms ++ '<' :: '/' :: (name ++ '>' :: r)), by rw [streamList, e]; simp⟩
      obtain ⟨c, v', rfl⟩ : ∃ c v', v = c :: v' := by
        obtain ⟨-, -, -, c, hc, -⟩ := hcond
        exact List.exists_cons_of_ne_nil (List.ne_nil_of_mem hc)
      obtain ⟨c', ee, h1, -, h3, -, -, h6⟩ := getChar_escape (enc := .unknown) (by decide) c []
      have hcsp : isSpace c' = false := by
        rcases h3 with rfl | ⟨rfl, h32⟩
        · rfl
        · refine isSpace_of_toNat (by omega) fun h => hcond.1 v' ?_
          have : Char.ofNat c'.toNat = Char.ofNat 32 := by rw [h]
          rw [Char.ofNat_toNat] at this
          rw [this]
      have hhead : streamOut (.text (c :: v')) = c' :: (ee ++ v'.flatMap escape) := by
        rw [streamOut, putString_flatMap href, List.flatMap_cons, h1]; simp
      have hin : ∀ x ∈ streamOut (.text (c :: v')), Inside x ∧ x ≠ '<' := by
        intro x hx
        rw [streamOut] at hx
        exact value_inside href hx
      have ht := text_append hin q tag
      rw [streamList, List.append_assoc, hq]
      have hpos : 0 < (streamOut (.text (c :: v'))).length := by rw [hhead]; simp
      rw [hhead, List.cons_append] at ht ⊢
      rw [content]
      simp only [if_true]
      rw [white_stop hcsp]
      simp only [ne_eq, h6, not_false_eq_true, if_true]
      rw [ht]
      simp only
      rw [← hq, ih _ fuel hn (by
        simp only [streamList, List.length_append, List.length_cons, List.length_nil] at hf ⊢; omega)]
      simp

theorem framed_element {name : Text} {attrs : List (Text × Text)} {children : List Node} (hn : ValidName name)
    (ha : ∀ a ∈ attrs, ValidName a.1 ∧ NoReference a.2) (hc : FramedList children) : Framed (.element name attrs children) := by
  have hvis : visible attrs = attrs := visible_eq fun a h => (ha a h).1
  obtain ⟨c0, rest, hname, hsp, hsl, hgt, hlt, -⟩ := name_head hn
  have hopen : ∀ X b c, '<' :: (name ++ X) = b ++ '/' :: c → ∃ x ∈ b, x ≠ '<' ∧ isSpace x = false := by
    intro X b c hb
    rw [hname] at hb
    match b, hb with
    | [], hb => simp at hb
    | [x], hb =>
      simp only [List.cons_append, List.nil_append, List.cons.injEq] at hb
      exact absurd hb.2.1 hsl
    | x :: y :: b, hb =>
      simp only [List.cons_append, List.cons.injEq] at hb
      exact ⟨y, by simp, by rw [← hb.2.1]; exact hlt, by rw [← hb.2.1]; exact hsp⟩
  have hin : ∀ c ∈ name ++ attrs.flatMap (fun a => ' ' :: printAttribute a), Inside c := by
    intro c hc
    rcases List.mem_append.1 hc with hc | hc
    · exact (name_inside hn hc).1
    · exact attributes_inside ha hc
  have hid : ∀ X, identify ('<' :: (name ++ X)) = some .element := fun X => identify_element (isElement_name hn X)
  have hl := tag_last (attrs := attrs) hn
  generalize hA : attrs.flatMap (fun a => ' ' :: printAttribute a) = A at *
  cases children with
  | nil =>
    have e : streamOut (.element name attrs []) = '<' :: (name ++ (A ++ [' ', '/'])) ++ ['>'] := by
      simp [streamOut, hvis, streamAttribute_eq, ← hA]
    refine ⟨.element, name ++ (A ++ [' ', '/']), [], by rw [e], ?_, hid _, by simp [isElementNode], hopen _, ?_⟩
    · intro c hc
      rw [← List.append_assoc] at hc
      rcases List.mem_append.1 hc with hc | hc
      · exact hin c hc
      · simp only [List.mem_cons, List.not_mem_nil, or_false] at hc
        rcases hc with rfl | rfl <;> decide
    · intro fuel tag r hf
      obtain ⟨fuel, rfl⟩ : ∃ k, fuel = k + 2 := ⟨fuel - 2, by simp at hf; omega⟩
      rw [node, element]
      have ht : through ('>' :: [] ++ r) (tag ++ '<' :: (name ++ (A ++ [' ', '/'])))
          = (⟨r, true⟩, tag ++ '<' :: (name ++ (A ++ [' '])) ++ ['/'] ++ ['>'], true) := by
        simp [through, zero]
      rw [ht]
      simp only
      rw [if_neg (by simp; omega), fromEnd_one, fromEnd_two]
      simp only [Run.bind_ok, if_true]
      rw [e]; simp
  | cons n ns =>
    obtain ⟨q, x, hqx, hx⟩ := hl
    have e : streamOut (.element name attrs (n :: ns))
        = '<' :: (name ++ A) ++ '>' :: (streamList (n :: ns) ++ '<' :: '/' :: (name ++ ['>'])) := by
      simp [streamOut, hvis, streamAttribute_eq, ← hA]
    refine ⟨.element, name ++ A, streamList (n :: ns) ++ '<' :: '/' :: (name ++ ['>']), e, hin, hid _, by simp [isElementNode],
      hopen _, ?_⟩
    intro fuel tag r hf
    obtain ⟨fuel, rfl⟩ : ∃ k, fuel = k + 2 := ⟨fuel - 2, by omega⟩
    rw [node, element]
    have ht : through ('>' :: (streamList (n :: ns) ++ '<' :: '/' :: (name ++ ['>'])) ++ r) (tag ++ '<' :: (name ++ A))
        = (⟨streamList (n :: ns) ++ '<' :: '/' :: (name ++ '>' :: r), true⟩, tag ++ '<' :: q ++ [x] ++ ['>'], true) := by
      rw [hqx]
      simp [through, zero]
    rw [ht]
    simp only
    rw [if_neg (by simp; omega), fromEnd_one, fromEnd_two]
    simp only [Run.bind_ok, if_true, if_neg hx]
    rw [hc name r _ fuel hn (by omega), e, hqx]
    simp

theorem allSurvive_mem {u : Prop} {field : Text → Prop} : ∀ {ns : List Node}, Save.AllSurvive u field ns → ∀ n ∈ ns, Save.Survives u field n
  | [], _, n, hn => by simp at hn
  | m :: ms, h, n, hn => by
    rw [Save.AllSurvive] at h
    rcases List.mem_cons.1 hn with rfl | hn
    · exact h.1
    · exact allSurvive_mem h.2 n hn

mutual
theorem framed_node {u : Prop} : ∀ n : Node, Save.Survives u NoReference n → Streamable n → n.isText = false → Framed n
  | .element name attrs children, h, hs, _ => by
    rw [Save.Survives] at h
    simp only [Streamable] at hs
    exact framed_element h.1 (fun a ha => ⟨(h.2.2.1 a ha).1, (h.2.2.1 a ha).2.2.1⟩) (framedList_of (framed_nodes children h.2.2.2.2.1 hs)
      (fun v hv => by
        have := allSurvive_mem h.2.2.2.2.1 _ hv
        rw [Save.Survives] at this
        exact ⟨this.1, this.2.1⟩) h.2.2.2.2.2.1)
  | .comment _, h, hs, _ => by
    rw [Save.Survives] at h
    exact framed_comment h.2.1 hs
  | .unknown _, h, hs, _ => framed_unknown h hs
  | .text _, _, _, h => by simp [Node.isText] at h
  | .declaration .., h, _, _ => by
    rw [Save.Survives] at h
    exact framed_declaration fun x hx => (h x hx).1
theorem framed_nodes {u : Prop} : ∀ ns : List Node, Save.AllSurvive u NoReference ns → AllStreamable ns → ∀ n ∈ ns, n.isText = false → Framed n
  | [], _, _ => by simp
  | m :: ms, h, hs => by
    rw [Save.AllSurvive] at h
    simp only [AllStreamable] at hs
    have h1 := framed_node m h.1 hs.1
    have h2 := framed_nodes ms h.2 hs.2
    intro n hn
    rcases List.mem_cons.1 hn with rfl | hn
    · exact h1
    · exact h2 n hn
end

theorem framed_document : ∀ (ns : List Node) (enc : Enc), Save.DocumentSurvives NoReference enc ns → AllStreamable ns → ∀ n ∈ ns, n.isText = false ∧ Framed n
  | [], _, _, _ => by simp
  | m :: ms, enc, h, hs => by
    rw [Save.DocumentSurvives] at h
    simp only [AllStreamable] at hs
    obtain ⟨h1, h2, enc', -, h4⟩ := h
    have h3 := framed_document ms enc' h4 hs.2
    intro n hn
    rcases List.mem_cons.1 hn with rfl | hn
    · exact ⟨h1, framed_node n h2 hs.1 h1⟩
    · exact h3 n hn

/-! ### Parsing what was written -/

/-- How streams are written. -/
def style : Save.Style where
  sep _ _ := []
  close _ := []
  decl := streamDeclaration

theorem style_good (enc : Enc) : style.Good enc NoReference where
  sep _ _ := by simp [style]
  close _ := by simp [style]
  decl v e s h q := by
    have := Save.declaration_written (enc := enc) (val := putString false) (v := v) (e := e) (s := s) (fun x hx r => by
      rw [putString_flatMap (h x hx).1]
      exact Save.upto_escape (Or.inl rfl) r _ x le_rfl (h x hx).2) q
    rw [← streamDeclaration_eq] at this
    exact this
  first v e s := ⟨_, by
    change streamDeclaration v e s = _
    rw [streamDeclaration_eq]; rfl⟩

mutual
theorem streamOut_style : ∀ (n : Node) (d : ℕ), streamOut n = style.out d n
  | .element name attrs children, d => by
    rw [streamOut, Save.Style.out, streamList_style children (d + 1)]
    by_cases hc : children.isEmpty <;> simp [hc, style, streamAttribute_eq]
  | .comment v, d => by rw [streamOut, Save.Style.out]; simp
  | .unknown v, d => by rw [streamOut, Save.Style.out]
  | .text v, d => by rw [streamOut, Save.Style.out]
  | .declaration v e s, d => by rw [streamOut, Save.Style.out]; rfl
theorem streamList_style : ∀ (ns : List Node) (d : ℕ), streamList ns = style.outList d ns
  | [], d => by rw [streamList, Save.Style.outList]
  | n :: ns, d => by
    rw [streamList, Save.Style.outList, streamOut_style n d, streamList_style ns d]
    simp [style]
end

theorem nodes_stream : ∀ (doc : List Node) (enc : Enc), Save.DocumentSurvives NoReference enc doc → Grammar.Nodes enc (streamList doc) doc
  | [], enc, _ => .end enc
  | n :: ns, enc, h => by
    rw [Save.DocumentSurvives] at h
    obtain ⟨h1, h2, enc', h3, h4⟩ := h
    have hc := Save.complete_out (style_good enc) n h1 h2 0 (streamList ns)
    rw [← streamOut_style] at hc
    rw [streamList]
    cases ns with
    | nil => exact .last enc _ n hc
    | cons m ms =>
      refine .node enc _ n _ enc' _ _ hc h3 ?_ (nodes_stream (m :: ms) enc' h4)
      rw [Save.DocumentSurvives] at h4
      obtain ⟨t, ht, -⟩ := Save.out_first (style_good enc') h4.1 h4.2.1 0
      rw [streamList, streamOut_style m 0, ht]
      exact Grammar.gap_lt _

/-- The nodes of a document up to the root. -/
theorem nodes_framed (before : List Node) (root : Node) (hb : ∀ n ∈ before, Framed n ∧ isElementNode n = false) (hr : Framed root)
    (he : isElementNode root = true) (r : Text) (deep : ℕ) : ∀ (tag : Text) (fuel : ℕ), before.length < fuel →
    3 * (streamList (before ++ [root])).length ≤ deep →
    nodes deep fuel ⟨streamList (before ++ [root]) ++ r, true⟩ tag = .ok (⟨r, true⟩, tag ++ streamList (before ++ [root])) := by
  have step : ∀ n, Framed n → ∀ (tag X : Text) (fuel : ℕ), 3 * (streamOut n).length ≤ deep →
      nodes deep (fuel + 1) ⟨streamOut n ++ X, true⟩ tag
        = if isElementNode n = true then .ok (⟨X, true⟩, tag ++ streamOut n) else nodes deep fuel ⟨X, true⟩ (tag ++ streamOut n) := by
    rintro n ⟨k, pre, post, e, hpre, hk, hke, -, hp⟩ tag X fuel hd
    have hin : ∀ c ∈ '<' :: pre, Inside c := by
      intro c hc
      rcases List.mem_cons.1 hc with rfl | hc
      · decide
      · exact hpre c hc
    have hu := upTo_append hin (post ++ X) tag
    have hh := hp deep tag X (by rw [e] at hd; simp only [List.length_append, List.length_cons] at hd; omega)
    have e' : streamOut n ++ X = '<' :: pre ++ '>' :: (post ++ X) := by rw [e]; simp
    rw [nodes, if_pos rfl, e']
    simp only [hu, if_true, List.drop_left, hk]
    rw [show '>' :: (post ++ X) = '>' :: post ++ X by simp, hh]
    simp only [Run.bind_ok]
    by_cases h : k = .element
    · rw [if_pos h, if_pos (hke.1 h)]
    · rw [if_neg h, if_neg (fun h' => h (hke.2 h'))]
  induction before with
  | nil =>
    intro tag fuel hf hd
    obtain ⟨fuel, rfl⟩ : ∃ k, fuel = k + 1 := ⟨fuel - 1, by omega⟩
    simp only [List.nil_append, streamList, List.append_nil] at hd ⊢
    rw [step root hr _ _ _ hd, if_pos he]
  | cons n before ih =>
    intro tag fuel hf hd
    obtain ⟨fuel, rfl⟩ : ∃ k, fuel = k + 1 := ⟨fuel - 1, by omega⟩
    have hn := hb n (by simp)
    simp only [List.cons_append, streamList, List.length_append, List.length_cons] at hd hf ⊢
    rw [List.append_assoc, step n hn.1 _ _ _ (by omega), if_neg (by rw [hn.2]; simp),
      ih (fun m hm => hb m (by simp [hm])) _ fuel (by omega) (by omega)]
    simp

end Gear.Xml.Stream
