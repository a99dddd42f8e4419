/-
Lemmas about printing and parsing XML.
-/
import Verif.XmlSpec
import Mathlib.Data.List.TakeWhile

set_option autoImplicit false
set_option linter.unusedSectionVars false

namespace Gear.Xml

open Spec

/-! ### Characters -/

theorem isLetter_iff (c : Char) : isLetter c = true ↔ c.isAlpha = true := by
  simp only [isLetter, Char.isAlpha, Char.isUpper, Char.isLower, Bool.or_eq_true, Bool.and_eq_true, decide_eq_true_eq]
  have e1 : ∀ k : ℕ, k < 256 → (c.val ≥ UInt32.ofNat k ↔ k ≤ c.toNat) := by
    intro k hk
    rw [ge_iff_le, UInt32.le_iff_toNat_le]
    have : (UInt32.ofNat k).toNat = k := by simp; omega
    rw [this]; rfl
  have e2 : ∀ k : ℕ, k < 256 → (c.val ≤ UInt32.ofNat k ↔ c.toNat ≤ k) := by
    intro k hk
    rw [UInt32.le_iff_toNat_le]
    have : (UInt32.ofNat k).toNat = k := by simp; omega
    rw [this]; rfl
  have a1 := e1 65 (by decide)
  have a2 := e2 90 (by decide)
  have a3 := e1 97 (by decide)
  have a4 := e2 122 (by decide)
  constructor
  · rintro (⟨h1, h2⟩ | ⟨h1, h2⟩)
    · exact Or.inl ⟨a1.2 h1, a2.2 h2⟩
    · exact Or.inr ⟨a3.2 h1, a4.2 h2⟩
  · rintro (⟨h1, h2⟩ | ⟨h1, h2⟩)
    · exact Or.inl ⟨a1.1 h1, a2.1 h2⟩
    · exact Or.inr ⟨a3.1 h1, a4.1 h2⟩

theorem isDigit_iff (c : Char) : c.isDigit = true ↔ 48 ≤ c.toNat ∧ c.toNat ≤ 57 := by
  simp only [Char.isDigit, Bool.and_eq_true, decide_eq_true_eq, ge_iff_le, UInt32.le_iff_toNat_le]
  exact Iff.rfl

theorem isAlphanum_iff (c : Char) : c.isAlphanum = true ↔ isLetter c = true ∨ (48 ≤ c.toNat ∧ c.toNat ≤ 57) := by
  rw [Char.isAlphanum, Bool.or_eq_true, ← isLetter_iff, isDigit_iff]

theorem isLetter_bounds {c : Char} (h : isLetter c = true) :
    (65 ≤ c.toNat ∧ c.toNat ≤ 90) ∨ (97 ≤ c.toNat ∧ c.toNat ≤ 122) := by
  simpa [isLetter] using h

theorem isAlpha_of {c : Char} (h : c.isAlpha = true ∨ c = '_' ∨ 127 ≤ c.toNat) : (isAlpha c || decide (c = '_')) = true := by
  rcases h with h | h | h
  · rw [← isLetter_iff] at h
    have := isLetter_bounds h
    simp [isAlpha, h]
  · simp [h]
  · simp [isAlpha, show ¬ c.toNat < 127 by omega]

theorem isNameChar_of {c : Char}
    (h : c.isAlphanum = true ∨ c = '_' ∨ c = '-' ∨ c = '.' ∨ c = ':' ∨ 127 ≤ c.toNat) : isNameChar c = true := by
  rcases h with h | h | h | h | h | h
  · rw [isAlphanum_iff] at h
    rcases h with h | ⟨h1, h2⟩
    · have := isLetter_bounds h
      simp [isNameChar, isAlphaNum, h]
    · simp [isNameChar, isAlphaNum, h1, h2]
  all_goals first
    | simp [isNameChar, h]; done
    | simp [isNameChar, isAlphaNum, show ¬ c.toNat < 127 by omega]

/-- The codes a character of a name does not have. -/
theorem nameChar_code {c : Char} (h : c.isAlphanum = true ∨ c = '_' ∨ c = '-' ∨ c = '.' ∨ c = ':' ∨ 127 ≤ c.toNat) :
    45 ≤ c.toNat ∧ c.toNat ≠ 47 ∧ (c.toNat < 59 ∨ 64 < c.toNat) := by
  rcases h with h | h | h | h | h | h
  · rw [isAlphanum_iff] at h
    rcases h with h | ⟨h1, h2⟩
    · have := isLetter_bounds h; omega
    · omega
  · subst h; decide
  · subst h; decide
  · subst h; decide
  · subst h; decide
  · omega

theorem toNat_ne {c : Char} {d : Char} (h : c.toNat ≠ d.toNat) : c ≠ d := by rintro rfl; exact h rfl

/-! ### White space -/

theorem skipBody_of_not_space {enc : Enc} (he : enc ≠ .utf8) {c : Char} (h : isSpace c = false) (t : Text) :
    skipBody enc (c :: t) = c :: t := by
  match t with
  | [] => simp [skipBody, h]
  | [b] => simp [skipBody, h]
  | b :: d :: r => simp [skipBody, h, he]

theorem skipBody_of_space {enc : Enc} (he : enc ≠ .utf8) {c : Char} (h : isSpace c = true) (t : Text) :
    skipBody enc (c :: t) = skipBody enc t := by
  match t with
  | [] => simp [skipBody, h]
  | [b] => simp [skipBody, h]
  | b :: d :: r => simp [skipBody, h, he]

theorem skipBody_append {enc : Enc} (he : enc ≠ .utf8) {ws : Text} (h : ∀ c ∈ ws, isSpace c = true) (t : Text) :
    skipBody enc (ws ++ t) = skipBody enc t := by
  induction ws with
  | nil => rfl
  | cons c ws ih =>
    rw [List.cons_append, skipBody_of_space he (h c (by simp))]
    exact ih fun c hc => h c (by simp [hc])

theorem skipBody_length (enc : Enc) (t : Text) : (skipBody enc t).length ≤ t.length := by
  fun_induction skipBody enc t <;> simp_all <;> omega

theorem indent_space (d : ℕ) : ∀ c ∈ indent d, isSpace c = true := by
  intro c hc
  rw [indent, List.mem_replicate] at hc
  rw [hc.2]; rfl

/-! ### Escaping -/

theorem hex_two : ∀ n < 32, hexValue [hexDigit (n % 16), hexDigit (n / 16)] 1 0 = some n
    ∧ hexDigit (n / 16) ≠ ';' ∧ hexDigit (n % 16) ≠ ';' := by
  decide

theorem getEntity_hex {enc : Enc} (he : enc ≠ .utf8) {n : ℕ} (hn : n < 32) (r : Text) :
    getEntity enc ('#' :: 'x' :: hexDigit (n / 16) :: hexDigit (n % 16) :: ';' :: r) = some ([Char.ofNat n], r) := by
  obtain ⟨h1, h2, h3⟩ := hex_two n hn
  have ht : (hexDigit (n / 16) :: hexDigit (n % 16) :: ';' :: r).takeWhile (· ≠ ';')
      = [hexDigit (n / 16), hexDigit (n % 16)] := by simp [h2, h3]
  have hd : (hexDigit (n / 16) :: hexDigit (n % 16) :: ';' :: r).dropWhile (· ≠ ';') = ';' :: r := by
    simp [List.dropWhile_cons, h2, h3]
  simp only [getEntity]
  rw [ht, hd, if_pos (by simp)]
  simp only [List.reverse_cons, List.reverse_nil, List.nil_append, List.cons_append, h1]
  simp [refChar, he, show n % 256 = n by omega]

/-- An escaped character is read back. -/
theorem getChar_escape {enc : Enc} (he : enc ≠ .utf8) (c : Char) (r : Text) :
    ∃ c' e, escape c = c' :: e ∧ getChar enc c' (e ++ r) = .ok (some ([c], r))
      ∧ (c' = '&' ∨ c' = c ∧ 32 ≤ c.toNat) ∧ c' ≠ '"' ∧ c' ≠ '\'' ∧ c' ≠ '<' := by
  have hg : ∀ e, getChar enc '&' (e ++ r) = .ok (getEntity enc (e ++ r)) := by
    intro e; simp [getChar, he]
  unfold escape
  split_ifs with h1 h2 h3 h4 h5 h6
  · exact ⟨'&', ['a', 'm', 'p', ';'], rfl, by rw [hg]; subst h1; rfl, by simp, by decide, by decide, by decide⟩
  · exact ⟨'&', ['l', 't', ';'], rfl, by rw [hg]; subst h2; rfl, by simp, by decide, by decide, by decide⟩
  · exact ⟨'&', ['g', 't', ';'], rfl, by rw [hg]; subst h3; rfl, by simp, by decide, by decide, by decide⟩
  · exact ⟨'&', ['q', 'u', 'o', 't', ';'], rfl, by rw [hg]; subst h4; rfl, by simp, by decide, by decide, by decide⟩
  · exact ⟨'&', ['a', 'p', 'o', 's', ';'], rfl, by rw [hg]; subst h5; rfl, by simp, by decide, by decide, by decide⟩
  · refine ⟨'&', _, rfl, ?_, by simp, by decide, by decide, by decide⟩
    rw [hg]
    have := getEntity_hex he h6 r
    rw [Char.ofNat_toNat] at this
    simpa using this
  · refine ⟨c, [], rfl, ?_, Or.inr ⟨rfl, by omega⟩, h4, h5, h2⟩
    simp [getChar, he, h1]

theorem escape_ne_nil (c : Char) : escape c ≠ [] := by
  unfold escape; split_ifs <;> simp

theorem putString_flatMap {v : Text} (h : NoReference v) : putString false v = v.flatMap escape := by
  induction v with
  | nil => rfl
  | cons c v ih =>
    have ih := ih fun hi => h (hi.trans (List.infix_cons List.infix_rfl))
    cases v with
    | nil => simp [putString]
    | cons d rest =>
      have : (decide (c = '&') && hexFollows (d :: rest)) = false := by
        by_contra hc
        rw [Bool.not_eq_false, Bool.and_eq_true, decide_eq_true_eq] at hc
        obtain ⟨rfl, hx⟩ := hc
        unfold hexFollows at hx
        split at hx
        · rename_i r he
          rw [he] at h
          exact h ⟨[], r, by simp⟩
        · cases hx
      simp only [putString, this, Bool.false_eq_true, if_false]
      rw [ih]; rfl

/-- The name needs no escaping. -/
theorem putString_name {n : Text} (h : ValidName n) : putString false n = n := by
  have hc : ∀ c ∈ n, 45 ≤ c.toNat ∧ c.toNat ≠ 47 ∧ (c.toNat < 59 ∨ 64 < c.toNat) := fun c hc => nameChar_code (h.2 c hc)
  have : NoReference n := by
    rintro ⟨a, b, hab⟩
    have := hc '&' (by rw [← hab]; simp)
    simp at this
  rw [putString_flatMap this]
  have he : ∀ c ∈ n, escape c = [c] := by
    intro c hcn
    have := hc c hcn
    unfold escape
    rw [if_neg (toNat_ne (by show c.toNat ≠ 38; omega)), if_neg (toNat_ne (by show c.toNat ≠ 60; omega)),
      if_neg (toNat_ne (by show c.toNat ≠ 62; omega)), if_neg (toNat_ne (by show c.toNat ≠ 34; omega)),
      if_neg (toNat_ne (by show c.toNat ≠ 39; omega)), if_neg (by omega)]
  clear h hc this
  induction n with
  | nil => rfl
  | cons c n ih =>
    rw [List.flatMap_cons, he c (by simp), ih fun c hc => he c (by simp [hc])]; rfl

/-- Reading an escaped value up to the quote. -/
theorem readKeep_escape {enc : Enc} (he : enc ≠ .utf8) {q : Char} (hq : q = '"' ∨ q = '\'') (v : Text) (r : Text) :
    ∀ (fuel : ℕ) (acc : Text), v.length < fuel →
      readKeep enc [q] fuel (v.flatMap escape ++ q :: r) acc = .ok (acc ++ v, q :: r) := by
  induction v with
  | nil =>
    intro fuel acc hf
    obtain ⟨fuel, rfl⟩ : ∃ k, fuel = k + 1 := ⟨fuel - 1, by simp at hf; omega⟩
    simp [readKeep]
  | cons c v ih =>
    intro fuel acc hf
    obtain ⟨fuel, rfl⟩ : ∃ k, fuel = k + 1 := ⟨fuel - 1, by simp at hf; omega⟩
    obtain ⟨c', e, h1, h2, h3, h4, h5, h6⟩ := getChar_escape he c (v.flatMap escape ++ q :: r)
    have hne : q ≠ c' := by rcases hq with rfl | rfl <;> [exact h4.symm; exact h5.symm]
    rw [List.flatMap_cons, h1]
    simp only [List.cons_append, List.append_assoc, readKeep, List.isPrefixOf, beq_iff_eq, hne, Bool.and_true,
      if_false, h2, Run.bind_ok]
    rw [ih fuel (acc ++ [c]) (by simp at hf; omega)]
    simp

theorem length_flatMap_escape (v : Text) : v.length ≤ (v.flatMap escape).length := by
  induction v with
  | nil => simp
  | cons c v ih =>
    have : 0 < (escape c).length := List.length_pos_of_ne_nil (escape_ne_nil c)
    simp only [List.flatMap_cons, List.length_append, List.length_cons]
    omega

theorem readQuoted_escape {enc : Enc} (he : enc ≠ .utf8) {q : Char} (hq : q = '"' ∨ q = '\'') (v : Text) (r : Text) :
    readQuoted enc [q] (v.flatMap escape ++ q :: r) = .ok (v, r) := by
  have := length_flatMap_escape v
  have hl : v.length < (v.flatMap escape ++ q :: r).length := by
    rw [List.length_append, List.length_cons]; omega
  unfold readQuoted
  rw [readKeep_escape he hq v r _ [] hl]
  simp

/-! ### Names and attributes -/

theorem readName_append {n : Text} (h : ValidName n) {c : Char} (hc : isNameChar c = false) (r : Text) :
    readName (n ++ c :: r) = some (n, c :: r) := by
  obtain ⟨⟨c₀, rest, rfl, hs⟩, hall⟩ := h
  have ha := isAlpha_of hs
  have hall' : ∀ x ∈ c₀ :: rest, isNameChar x = true := fun x hx => isNameChar_of (hall x hx)
  have e : readName ((c₀ :: rest) ++ c :: r) = if isAlpha c₀ || decide (c₀ = '_') then
      some ((c₀ :: rest ++ c :: r).takeWhile isNameChar, (c₀ :: rest ++ c :: r).dropWhile isNameChar) else none := rfl
  rw [e, if_pos ha, List.takeWhile_append_of_pos hall', List.dropWhile_append_of_pos hall']
  simp [hc]

/-- The first character of a name. -/
theorem name_head {n : Text} (h : ValidName n) :
    ∃ c rest, n = c :: rest ∧ isSpace c = false ∧ c ≠ '/' ∧ c ≠ '>' ∧ c ≠ '<' ∧ c ≠ '!' ∧ c ≠ '?'
      ∧ (isAlpha c || decide (c = '_')) = true := by
  obtain ⟨⟨c₀, rest, rfl, hs⟩, hall⟩ := h
  have hc := nameChar_code (hall c₀ (by simp))
  refine ⟨c₀, rest, rfl, ?_, toNat_ne ?_, toNat_ne ?_, toNat_ne ?_, toNat_ne ?_, toNat_ne ?_, isAlpha_of hs⟩
  · simp only [isSpace, Bool.or_eq_false_iff, decide_eq_false_iff_not, Bool.and_eq_false_iff]
    omega
  · show c₀.toNat ≠ 47; omega
  · show c₀.toNat ≠ 62; omega
  · show c₀.toNat ≠ 60; omega
  · show c₀.toNat ≠ 33; omega
  · show c₀.toNat ≠ 63; omega

theorem skip_cons {enc : Enc} (he : enc ≠ .utf8) {c : Char} (h : isSpace c = false) (t : Text) :
    skipWhiteSpace enc (some (c :: t)) = some (c :: t) := by
  simp [skipWhiteSpace, skipBody_of_not_space he h]

theorem skip_name {enc : Enc} (he : enc ≠ .utf8) {n : Text} (h : ValidName n) (t : Text) :
    skipWhiteSpace enc (some (n ++ t)) = some (n ++ t) := by
  obtain ⟨c, rest, rfl, hs, -⟩ := name_head h
  exact skip_cons he hs _

/-- An attribute is read back, whatever follows. -/
theorem parseAttribute_print {enc : Enc} (he : enc ≠ .utf8) {a : Text × Text} (hn : ValidName a.1) (hv : NoReference a.2)
    (r : Text) : parseAttribute enc (printAttribute a ++ r) = .ok (some (a.1, a.2, r)) := by
  have key : ∀ q : Char, q = '"' ∨ q = '\'' →
      parseAttribute enc (a.1 ++ '=' :: q :: (a.2.flatMap escape ++ q :: r)) = .ok (some (a.1, a.2, r)) := by
    intro q hq
    unfold parseAttribute
    rw [skip_name he hn]
    simp only
    rw [readName_append hn (by decide)]
    simp only
    rw [skip_cons he (by decide)]
    simp only
    rw [skip_cons he (by rcases hq with rfl | rfl <;> decide)]
    rcases hq with rfl | rfl
    · simp only [readQuoted_escape he (Or.inl rfl), Run.bind_ok]
    · simp only [readQuoted_escape he (Or.inr rfl), Run.bind_ok]
  unfold printAttribute
  simp only [putString_name hn, putString_flatMap hv]
  split_ifs
  · simpa using key '\'' (Or.inr rfl)
  · simpa using key '"' (Or.inl rfl)

theorem visible_eq {attrs : List (Text × Text)} (h : ∀ a ∈ attrs, ValidName a.1) : visible attrs = attrs := by
  cases attrs with
  | nil => rfl
  | cons a rest =>
    simp only [visible]
    congr 1
    rw [List.takeWhile_eq_self_iff]
    intro b hb
    obtain ⟨⟨c, r, hc, -⟩, -⟩ := h b (by simp [hb])
    simp [hc]

theorem attrValue_eq_none {attrs : List (Text × Text)} {n : Text} : attrValue attrs n = none ↔ n ∉ attrs.map Prod.fst := by
  induction attrs with
  | nil => simp [attrValue]
  | cons a rest ih =>
    obtain ⟨m, v⟩ := a
    simp only [attrValue, List.map_cons, List.mem_cons, not_or]
    split_ifs with h
    · simp [h]
    · rw [ih]; exact ⟨fun h' => ⟨fun e => h e.symm, h'⟩, fun h' => h'.2⟩

theorem printAttribute_head {a : Text × Text} (h : ValidName a.1) :
    ∃ c rest, printAttribute a = c :: rest ∧ isSpace c = false ∧ c ≠ '/' ∧ c ≠ '>' := by
  obtain ⟨c, rest, hr, h1, h2, h3, -⟩ := name_head h
  unfold printAttribute
  simp only [putString_name h]
  split_ifs
  · exact ⟨c, _, by rw [hr]; rfl, h1, h2, h3⟩
  · exact ⟨c, _, by rw [hr]; rfl, h1, h2, h3⟩

theorem parseTag_attribute {enc : Enc} (he : enc ≠ .utf8) (fuel : ℕ) {a : Text × Text} (hn : ValidName a.1)
    (hv : NoReference a.2) {acc : List (Text × Text)} (hacc : a.1 ∉ acc.map Prod.fst) {tail : Text} (ht : tail ≠ []) :
    parseTag enc (fuel + 1) (' ' :: printAttribute a ++ tail) acc = parseTag enc fuel tail (acc ++ [a]) := by
  obtain ⟨c, rest, hc, h1, h2, h3⟩ := printAttribute_head hn
  have hp := parseAttribute_print he hn hv tail
  obtain ⟨t0, t1, rfl⟩ : ∃ t0 t1, tail = t0 :: t1 := List.exists_cons_of_ne_nil ht
  have hskip : skipWhiteSpace enc (some (' ' :: printAttribute a ++ t0 :: t1)) = some (printAttribute a ++ t0 :: t1) := by
    rw [hc]
    simp only [List.cons_append, skipWhiteSpace]
    rw [skipBody_of_space he (by decide), skipBody_of_not_space he h1]
  rw [parseTag, hskip]
  rw [hc] at hp ⊢
  rw [List.cons_append] at hp ⊢
  split
  · rename_i h; simp at h
  · rename_i h; simp at h
  · rename_i h; simp only [Option.some.injEq, List.cons.injEq] at h; exact absurd h.1 h2
  · rename_i h; simp only [Option.some.injEq, List.cons.injEq] at h; exact absurd h.1 h2
  · rename_i h; simp only [Option.some.injEq, List.cons.injEq] at h; exact absurd h.1 h3
  · rename_i h
    simp only [Option.some.injEq] at h
    subst h
    rw [hp]
    simp [attrValue_eq_none.2 hacc]

/-- The attributes of a tag are read back. -/
theorem parseTag_print {enc : Enc} (he : enc ≠ .utf8) (attrs : List (Text × Text)) (te : TagEnd) (tail : Text)
    (ht : tail ≠ []) (hte : ∀ fuel acc, parseTag enc (fuel + 1) tail acc = .ok (acc, te)) :
    ∀ (fuel : ℕ) (acc : List (Text × Text)), attrs.length < fuel → (∀ a ∈ attrs, ValidName a.1 ∧ NoReference a.2) →
      ((acc ++ attrs).map Prod.fst).Nodup →
      parseTag enc fuel (attrs.flatMap (fun a => ' ' :: printAttribute a) ++ tail) acc = .ok (acc ++ attrs, te) := by
  induction attrs with
  | nil =>
    intro fuel acc hf _ _
    obtain ⟨fuel, rfl⟩ : ∃ k, fuel = k + 1 := ⟨fuel - 1, by simp at hf; omega⟩
    simpa using hte fuel acc
  | cons a attrs ih =>
    intro fuel acc hf ha hnd
    obtain ⟨fuel, rfl⟩ : ∃ k, fuel = k + 1 := ⟨fuel - 1, by simp at hf; omega⟩
    rw [List.flatMap_cons, List.append_assoc]
    rw [parseTag_attribute he fuel (ha a (by simp)).1 (ha a (by simp)).2 ?_ (by simp [ht])]
    · rw [ih fuel (acc ++ [a]) (by simp at hf; omega) (fun b hb => ha b (by simp [hb])) (by simpa using hnd)]
      simp
    · intro hm
      rw [List.map_append, List.nodup_append] at hnd
      exact hnd.2.2 a.1 hm a.1 (by simp) rfl

/-! ### Texts and comments -/

theorem isSpace_of_toNat {c : Char} (h : 13 < c.toNat) (h' : c.toNat ≠ 32) : isSpace c = false := by
  simp only [isSpace, Bool.or_eq_false_iff, decide_eq_false_iff_not, Bool.and_eq_false_iff]
  omega

/-- Reading a condensed text up to the next tag. -/
theorem readTrim_escape {enc : Enc} (he : enc ≠ .utf8) (v : Text) {ws : Text} (hws : ∀ c ∈ ws, isSpace c = true) (r : Text) :
    ∀ (fuel : ℕ) (white : Bool) (acc : Text), v.length + ws.length < fuel →
      (white = true → v ≠ [] ∧ ∀ rest, v ≠ ' ' :: rest) → (∀ rest, v ≠ rest ++ [' ']) → ¬ [' ', ' '] <:+: v →
      readTrim enc ['<'] fuel white (v.flatMap escape ++ (ws ++ '<' :: r)) acc
        = .ok (acc ++ (if white then ' ' :: v else v), '<' :: r) := by
  induction v with
  | nil =>
    intro fuel white acc hf hw _ _
    have hw : white = false := by cases white <;> simp_all
    subst hw
    simp only [List.flatMap_nil, List.nil_append, Bool.false_eq_true, if_false, List.append_nil]
    have : ∀ (ws : Text) (fuel : ℕ) (white : Bool), ws.length < fuel → (∀ c ∈ ws, isSpace c = true) →
        readTrim enc ['<'] fuel white (ws ++ '<' :: r) acc = .ok (acc, '<' :: r) := by
      intro ws
      induction ws with
      | nil =>
        intro fuel white hf _
        obtain ⟨fuel, rfl⟩ : ∃ k, fuel = k + 1 := ⟨fuel - 1, by simp at hf; omega⟩
        simp [readTrim]
      | cons c ws ih =>
        intro fuel white hf hws
        obtain ⟨fuel, rfl⟩ : ∃ k, fuel = k + 1 := ⟨fuel - 1, by simp at hf; omega⟩
        have hc := hws c (by simp)
        have hne : '<' ≠ c := by rintro rfl; simp [isSpace] at hc
        simp only [List.cons_append, readTrim, List.isPrefixOf, beq_iff_eq, hne, Bool.and_true, if_false, hc, if_true]
        exact ih fuel true (by simp at hf; omega) fun c hc => hws c (by simp [hc])
    exact this ws fuel false (by simpa using hf) hws
  | cons c v ih =>
    intro fuel white acc hf hw hend hdbl
    obtain ⟨fuel, rfl⟩ : ∃ k, fuel = k + 1 := ⟨fuel - 1, by simp at hf; omega⟩
    obtain ⟨c', e, h1, h2, h3, h4, h5, h6⟩ := getChar_escape he c (v.flatMap escape ++ (ws ++ '<' :: r))
    have hend' : ∀ rest, v ≠ rest ++ [' '] := by
      rintro rest rfl; exact hend (c :: rest) rfl
    have hdbl' : ¬ [' ', ' '] <:+: v := fun hi => hdbl (hi.trans (List.infix_cons List.infix_rfl))
    rw [List.flatMap_cons, h1]
    by_cases hsp : c = ' '
    · subst hsp
      have hwf : white = false := by
        cases white with
        | false => rfl
        | true => exact absurd rfl ((hw rfl).2 v)
      subst hwf
      have : escape ' ' = [' '] := rfl
      rw [this] at h1
      injection h1 with hc' hee
      subst hc' hee
      simp only [List.cons_append, List.nil_append, readTrim, List.isPrefixOf, beq_iff_eq,
        show ¬ ('<' = ' ') by decide, Bool.and_true, if_false, show isSpace ' ' = true from rfl, if_true]
      rw [ih fuel true acc (by simp at hf; omega) ?_ hend' hdbl']
      · simp
      · intro _
        refine ⟨?_, ?_⟩
        · rintro rfl; exact hend [] rfl
        · rintro rest rfl; exact hdbl ⟨[], rest, rfl⟩
    · have hns : isSpace c' = false := by
        rcases h3 with rfl | ⟨rfl, h32⟩
        · rfl
        · refine isSpace_of_toNat (by omega) fun h => hsp ?_
          have : Char.ofNat c'.toNat = Char.ofNat 32 := by rw [h]
          rwa [Char.ofNat_toNat] at this
      simp only [List.cons_append, List.append_assoc, readTrim, List.isPrefixOf, beq_iff_eq, Ne.symm h6, Bool.and_true,
        if_false, hns, Bool.false_eq_true, h2, Run.bind_ok]
      rw [ih fuel false _ (by simp at hf; omega) (by simp) hend' hdbl']
      cases white <;> simp

theorem not_blank {v : Text} (h : CondensedText v) : blank v = false := by
  obtain ⟨-, -, -, c, hc, hw, h13⟩ := h
  have : isSpace c = false := by
    refine isSpace_of_toNat h13 fun h => ?_
    have : Char.ofNat c.toNat = Char.ofNat 32 := by rw [h]
    rw [Char.ofNat_toNat] at this
    rw [this] at hw
    exact absurd hw (by decide)
  unfold blank
  rw [List.all_eq_false]
  exact ⟨c, hc, by simp [this]⟩

/-- A comment is read back. -/
theorem readKeep_comment (enc : Enc) (he : enc ≠ .utf8) (v r : Text) :
    ∀ (fuel : ℕ) (acc : Text), v.length < fuel → '&' ∉ v → ¬ ['-', '-', '>'] <:+: v →
      readKeep enc ['-', '-', '>'] fuel (v ++ '-' :: '-' :: '>' :: r) acc = .ok (acc ++ v, '-' :: '-' :: '>' :: r) := by
  induction v with
  | nil =>
    intro fuel acc hf _ _
    obtain ⟨fuel, rfl⟩ : ∃ k, fuel = k + 1 := ⟨fuel - 1, by simp at hf; omega⟩
    simp [readKeep]
  | cons c v ih =>
    intro fuel acc hf hamp hin
    obtain ⟨fuel, rfl⟩ : ∃ k, fuel = k + 1 := ⟨fuel - 1, by simp at hf; omega⟩
    have hnp : List.isPrefixOf ['-', '-', '>'] (c :: (v ++ '-' :: '-' :: '>' :: r)) = false := by
      rw [← Bool.not_eq_true, List.isPrefixOf_iff_prefix]
      intro hp
      match v, hin, hp with
      | [], _, ⟨t, ht⟩ => simp at ht
      | [d], _, ⟨t, ht⟩ => simp at ht
      | d :: e :: v, hin, ⟨t, ht⟩ =>
        simp only [List.cons_append, List.nil_append, List.cons.injEq] at ht
        obtain ⟨h1, h2, h3, -⟩ := ht
        exact hin ⟨[], v, by rw [← h1, ← h2, ← h3]; rfl⟩
    have hc : c ≠ '&' := by rintro rfl; exact hamp (by simp)
    simp only [List.cons_append, readKeep, hnp, Bool.false_eq_true, if_false]
    simp only [getChar, he, if_false, hc, if_true, Run.bind_ok]
    rw [ih fuel (acc ++ [c]) (by simp at hf; omega) (fun h => hamp (by simp [h]))
      fun hi => hin (hi.trans (List.infix_cons List.infix_rfl))]
    simp

theorem parseOther_comment {enc : Enc} (he : enc ≠ .utf8) {v : Text} (h1 : '&' ∉ v) (h2 : ¬ ['-', '-', '>'] <:+: v) (r : Text) :
    parseOther enc ('<' :: '!' :: '-' :: '-' :: v ++ '-' :: '-' :: '>' :: r) = .ok (.comment v, some r) := by
  have hx : prefixNoCase "<?xml".toList ('<' :: '!' :: '-' :: '-' :: v ++ '-' :: '-' :: '>' :: r) = false := rfl
  have hc : "<!--".toList.isPrefixOf ('<' :: '!' :: '-' :: '-' :: v ++ '-' :: '-' :: '>' :: r) = true := rfl
  have hk := readKeep_comment enc he v r (v ++ '-' :: '-' :: '>' :: r).length [] (by simp) h1 h2
  unfold parseOther
  rw [hx, hc]
  simp only [Bool.false_eq_true, if_false, if_true]
  rw [show ('<' :: '!' :: '-' :: '-' :: v ++ '-' :: '-' :: '>' :: r).drop 4 = v ++ '-' :: '-' :: '>' :: r from rfl]
  rw [show "-->".toList = ['-', '-', '>'] from rfl]
  simp only [readQuoted, hk, Run.bind_ok]
  simp

end Gear.Xml
