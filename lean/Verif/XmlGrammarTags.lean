/-
Lemmas for XmlGrammarProps.lean: attributes, tags, declarations, comments and unknown nodes.
-/
import Verif.XmlGrammarLemmas
import Verif.XmlClosed

set_option autoImplicit false
set_option linter.unusedSectionVars false

namespace Gear.Xml.Grammar

/-! ### Attributes -/

/-- Reading the value of an attribute. -/
def parseValue (enc : Enc) (name : Text) (p : Text) : Run (Option (Text × Text × Text)) :=
  match p with
  | '\'' :: p => do
    let (value, p) ← readQuoted enc ['\''] p
    .ok (some (name, value, p))
  | '"' :: p => do
    let (value, p) ← readQuoted enc ['"'] p
    .ok (some (name, value, p))
  | p =>
    let inValue := fun c => !isSpace c && c ≠ '/' && c ≠ '>'
    .ok (some (name, p.takeWhile inValue, p.dropWhile inValue))

theorem parseAttribute_start {enc : Enc} {p n q : Text} (h : AttrStart enc p n q) : parseAttribute enc p = parseValue enc n q := by
  obtain ⟨p1, p2, p3, h1, h2, h3, h4, hq⟩ := h
  unfold parseAttribute
  rw [gap_iff.2 h1]
  simp only
  rw [name_iff.2 h2]
  cases p2 with
  | nil => exact absurd rfl h3.1
  | cons a r =>
    simp only
    rw [gap_iff.2 h3]
    simp only
    rw [gap_iff.2 h4]
    cases q with
    | nil => exact absurd rfl hq
    | cons b t =>
      unfold parseValue
      by_cases hb : b = '\''
      · subst hb; rfl
      · by_cases hb' : b = '"'
        · subst hb'; rfl
        · split
          · rename_i h; cases h
          · rename_i h; cases h
          · rename_i h; cases h; exact absurd rfl hb
          · rename_i h; cases h; exact absurd rfl hb'
          · rename_i h
            cases h
            split
            · rename_i h; cases h; exact absurd rfl hb
            · rename_i h; cases h; exact absurd rfl hb'
            · rfl

theorem parseAttribute_other {enc : Enc} {p : Text} (h : ∀ n q, ¬ AttrStart enc p n q) : parseAttribute enc p = .ok none := by
  unfold parseAttribute
  split
  · rfl
  · rename_i p1 h1
    split
    · rfl
    · rfl
    · rename_i n p2 _ h2
      split
      · rename_i p3 h3
        cases h4 : skipWhiteSpace enc (some p3) with
        | none => rfl
        | some q =>
          cases q with
          | nil => rfl
          | cons b t =>
            exact absurd ⟨p1, p2, p3, gap_iff.1 h1, name_iff.1 h2, gap_iff.1 h3, gap_iff.1 h4, by simp⟩ (h n (b :: t))
      · rfl

theorem not_both {b : Bool} (h : b = true) : b ≠ false := by rw [h]; simp

theorem bare_iff {c : Char} : (!isSpace c && decide (c ≠ '/') && decide (c ≠ '>')) = true ↔ ¬ Space c ∧ c ≠ '/' ∧ c ≠ '>' := by
  rw [← space_iff]
  simp [and_assoc]

theorem parseValue_iff {enc : Enc} {n p n' v q : Text} : parseValue enc n p = .ok (some (n', v, q)) ↔ n' = n ∧ Value enc p v q := by
  have bare : ((p.takeWhile fun c => !isSpace c && decide (c ≠ '/') && decide (c ≠ '>')) = v ∧
      (p.dropWhile fun c => !isSpace c && decide (c ≠ '/') && decide (c ≠ '>')) = q) ↔
      (p = v ++ q ∧ (∀ c ∈ v, ¬ Space c ∧ c ≠ '/' ∧ c ≠ '>') ∧ ∀ c r, q = c :: r → Space c ∨ c = '/' ∨ c = '>') := by
    rw [takeWhile_iff]
    refine and_congr Iff.rfl (and_congr ?_ ?_)
    · exact forall_congr' fun c => imp_congr_right fun _ => bare_iff
    · refine forall_congr' fun c => forall_congr' fun r => imp_congr_right fun _ => ?_
      rw [← Bool.not_eq_true, bare_iff]
      tauto
  unfold parseValue
  constructor
  · intro h
    split at h
    · rename_i p
      cases hq : readQuoted enc ['\''] p with
      | ok x =>
        rw [hq] at h
        simp only [Run.bind_ok, Run.ok.injEq, Option.some.injEq, Prod.mk.injEq] at h
        obtain ⟨rfl, rfl, rfl⟩ := h
        exact ⟨rfl, .single _ _ _ ((upto_iff (by simp)).1 hq)⟩
      | ub => rw [hq] at h; simp at h
      | assertFailed => rw [hq] at h; simp at h
      | endless => rw [hq] at h; simp at h
    · rename_i p
      cases hq : readQuoted enc ['"'] p with
      | ok x =>
        rw [hq] at h
        simp only [Run.bind_ok, Run.ok.injEq, Option.some.injEq, Prod.mk.injEq] at h
        obtain ⟨rfl, rfl, rfl⟩ := h
        exact ⟨rfl, .double _ _ _ ((upto_iff (by simp)).1 hq)⟩
      | ub => rw [hq] at h; simp at h
      | assertFailed => rw [hq] at h; simp at h
      | endless => rw [hq] at h; simp at h
    · rename_i h1 h2
      simp only [Run.ok.injEq, Option.some.injEq, Prod.mk.injEq] at h
      obtain ⟨rfl, hv⟩ := h
      obtain ⟨rfl, h3, h4⟩ := bare.1 hv
      exact ⟨rfl, .bare _ _ h1 h2 h3 h4⟩
  · rintro ⟨rfl, h⟩
    cases h with
    | single p v q h =>
      simp only
      rw [(upto_iff (by simp)).2 h]; rfl
    | double p v q h =>
      simp only
      rw [(upto_iff (by simp)).2 h]; rfl
    | bare v q h1 h2 h3 h4 =>
      split
      · rename_i h; exact absurd h (h1 _)
      · rename_i h; exact absurd h (h2 _)
      · obtain ⟨e1, e2⟩ := bare.2 ⟨rfl, h3, h4⟩
        simp only [e1, e2]

theorem parseValue_some {enc : Enc} {n p : Text} : parseValue enc n p ≠ .ok none := by
  unfold parseValue
  split
  · rename_i p
    cases hq : readQuoted enc ['\''] p <;> simp
  · rename_i p
    cases hq : readQuoted enc ['"'] p <;> simp
  · simp

theorem attr_iff {enc : Enc} {p n v q : Text} : parseAttribute enc p = .ok (some (n, v, q)) ↔ Attr enc p n v q := by
  by_cases h : ∃ m r, AttrStart enc p m r
  · obtain ⟨m, r, h⟩ := h
    rw [parseAttribute_start h, parseValue_iff]
    constructor
    · rintro ⟨rfl, hv⟩; exact ⟨r, h, hv⟩
    · rintro ⟨r', ⟨a1, a2, a3, h1, h2, h3, h4, -⟩, hv⟩
      obtain ⟨b1, b2, b3, g1, g2, g3, g4, -⟩ := h
      obtain rfl := h1.unique g1
      obtain ⟨rfl, rfl⟩ := h2.unique g2
      obtain e := h3.unique g3
      cases e
      obtain rfl := h4.unique g4
      exact ⟨rfl, hv⟩
  · push Not at h
    rw [parseAttribute_other h]
    simp only [Run.ok.injEq, reduceCtorEq, false_iff]
    rintro ⟨r, h', -⟩
    exact h _ _ h'

theorem noAttr_iff {enc : Enc} {p : Text} : parseAttribute enc p = .ok none ↔ ∀ n q, ¬ AttrStart enc p n q := by
  constructor
  · intro h n q hs
    rw [parseAttribute_start hs] at h
    exact parseValue_some h
  · exact parseAttribute_other

theorem Value.suffix {enc : Enc} {p v q : Text} (h : Value enc p v q) : q <:+ p := by
  cases h with
  | single p v q h => exact h.suffix.trans (List.suffix_cons _ _)
  | double p v q h => exact h.suffix.trans (List.suffix_cons _ _)
  | bare v q _ _ _ _ => exact List.suffix_append _ _

theorem AttrStart.suffix {enc : Enc} {p n q : Text} (h : AttrStart enc p n q) : q <:+ p ∧ q.length < p.length := by
  obtain ⟨p1, p2, p3, h1, h2, h3, h4, -⟩ := h
  have s := h4.suffix.trans ((List.suffix_cons _ _).trans h3.suffix)
  refine ⟨s.trans (h2.suffix.trans h1.suffix), ?_⟩
  have := s.length_le
  have := h2.shorter
  have := h1.suffix.length_le
  omega

theorem Attr.suffix {enc : Enc} {p n v q : Text} (h : Attr enc p n v q) : q <:+ p ∧ q.length < p.length := by
  obtain ⟨p1, h1, h2⟩ := h
  have := h2.suffix.length_le
  exact ⟨h2.suffix.trans h1.suffix.1, by have := h1.suffix.2; omega⟩

/-! ### Tags -/

theorem isSome_iff {a : List (Text × Text)} {n : Text} : (attrValue a n).isSome = true ↔ n ∈ a.map Prod.fst := by
  have h := attrValue_eq_none (attrs := a) (n := n)
  cases hv : attrValue a n with
  | none => simp [h.1 hv]
  | some v =>
    simp only [Option.isSome_some, true_iff]
    by_contra hc
    rw [h.2 hc] at hv; cases hv

theorem setAttribute_map {n v : Text} : ∀ {a : List (Text × Text)}, (a.map Prod.fst).Nodup → n ∈ a.map Prod.fst →
    setAttribute a n v = a.map fun x => if x.1 = n then (n, v) else x
  | [], _, h => by simp at h
  | (m, w) :: a, hn, h => by
    rw [List.map_cons, List.nodup_cons] at hn
    rw [setAttribute, List.map_cons]
    by_cases e : m = n
    · subst e
      rw [if_pos rfl, if_pos rfl]
      congr 1
      conv_lhs => rw [← List.map_id a]
      refine List.map_congr_left fun x hx => ?_
      rw [if_neg]; rfl
      rintro rfl
      exact hn.1 (List.mem_map.2 ⟨x, hx, rfl⟩)
    · rw [if_neg e, if_neg e]
      rw [setAttribute_map hn.2]
      simp only [List.map_cons, List.mem_cons] at h
      rcases h with h | h
      · exact absurd h.symm e
      · exact h

theorem nodup_snoc {a : List (Text × Text)} {n v : Text} (h : (a.map Prod.fst).Nodup) (hn : n ∉ a.map Prod.fst) :
    ((a ++ [(n, v)]).map Prod.fst).Nodup := by
  rw [List.map_append, List.nodup_append]
  refine ⟨h, by simp, ?_⟩
  rintro x hx y hy rfl
  simp only [List.map_cons, List.map_nil, List.mem_singleton] at hy
  exact hn (hy ▸ hx)

/-- How the loop over the attributes ends, in terms of the grammar. -/
def TagOk (enc : Enc) (a : List (Text × Text)) (p : Text) : List (Text × Text) × TagEnd → Prop
  | (b, .closed q) => Tag enc a p b true q
  | (b, .opened q) => Tag enc a p b false q
  | (b, .failed false) => Repeats enc a p b
  | (_, .failed true) => True

theorem parseTag_sound (enc : Enc) : ∀ (fuel : ℕ) (p : Text) (a : List (Text × Text)) (r : List (Text × Text) × TagEnd),
    (a.map Prod.fst).Nodup → parseTag enc fuel p a = .ok r → TagOk enc a p r := by
  intro fuel
  induction fuel with
  | zero => intro p a r _ h; simp [parseTag] at h
  | succ fuel ih =>
    intro p a r hn h
    rw [parseTag] at h
    split at h
    · cases h; trivial
    · cases h; trivial
    · rename_i hg; cases h; exact .close _ _ _ (gap_iff.1 hg)
    · cases h; trivial
    · rename_i hg; cases h; exact .open _ _ _ (gap_iff.1 hg)
    · rename_i p1 h1 h2 h3 h4 hg
      cases hp : parseAttribute enc p1 with
      | ok o =>
        rw [hp] at h
        simp only [Run.bind_ok] at h
        split at h
        · cases h; trivial
        · cases h; trivial
        · rename_i n v p2 h5
          have hone : OneAttr enc p n v p2 := ⟨p1, gap_iff.1 hg, fun r e => h3 r e, fun r e => h4 r e, attr_iff.1 hp, h5⟩
          split_ifs at h with hs
          · cases h
            have hm := isSome_iff.1 hs
            show Repeats enc a p _
            rw [setAttribute_map hn hm]
            exact .here _ _ _ _ _ hone hm
          · have hm : n ∉ a.map Prod.fst := fun e => hs (isSome_iff.2 e)
            have := ih _ _ _ (nodup_snoc hn hm) h
            obtain ⟨b, te⟩ := r
            cases te with
            | closed q => exact .attr _ _ _ _ _ _ _ _ hone hm this
            | opened q => exact .attr _ _ _ _ _ _ _ _ hone hm this
            | failed e =>
              cases e with
              | true => trivial
              | false => exact .later _ _ _ _ _ _ hone hm this
      | ub => rw [hp] at h; simp at h
      | assertFailed => rw [hp] at h; simp at h
      | endless => rw [hp] at h; simp at h

theorem parseTag_attr {enc : Enc} {p n v p' : Text} (h : OneAttr enc p n v p') (fuel : ℕ) (a : List (Text × Text)) :
    parseTag enc (fuel + 1) p a = if (attrValue a n).isSome then .ok (setAttribute a n v, .failed false)
      else parseTag enc fuel p' (a ++ [(n, v)]) := by
  obtain ⟨p1, hg, h1, h2, ha, h3⟩ := h
  have hne : p1 ≠ [] := by
    rintro rfl
    have := ha.suffix.2
    simp at this
  rw [parseTag]
  split
  · rename_i h; rw [gap_iff.2 hg] at h; cases h
  · rename_i h; rw [gap_iff.2 hg] at h; cases h; exact absurd rfl hne
  · rename_i h; rw [gap_iff.2 hg] at h; cases h; exact absurd rfl (h1 _)
  · rename_i h; rw [gap_iff.2 hg] at h; cases h; exact absurd rfl (h1 _)
  · rename_i h; rw [gap_iff.2 hg] at h; cases h; exact absurd rfl (h2 _)
  · rename_i h
    rw [gap_iff.2 hg] at h
    cases h
    rw [attr_iff.2 ha]
    simp only [Run.bind_ok]

theorem OneAttr.suffix {enc : Enc} {p n v q : Text} (h : OneAttr enc p n v q) : q <:+ p ∧ q.length < p.length := by
  obtain ⟨p1, hg, -, -, ha, -⟩ := h
  have := hg.suffix.length_le
  exact ⟨ha.suffix.1.trans hg.suffix, by have := ha.suffix.2; omega⟩

theorem parseTag_complete {enc : Enc} {a : List (Text × Text)} {p : Text} {b : List (Text × Text)} {c : Bool} {q : Text}
    (h : Tag enc a p b c q) : ∀ fuel, p.length < fuel → parseTag enc fuel p a = .ok (b, if c then .closed q else .opened q) := by
  induction h with
  | close a p q hg =>
    intro fuel hf
    obtain ⟨fuel, rfl⟩ : ∃ k, fuel = k + 1 := ⟨fuel - 1, by omega⟩
    rw [parseTag, gap_iff.2 hg]
    rfl
  | «open» a p q hg =>
    intro fuel hf
    obtain ⟨fuel, rfl⟩ : ∃ k, fuel = k + 1 := ⟨fuel - 1, by omega⟩
    rw [parseTag, gap_iff.2 hg]
    rfl
  | attr a p n v p' b c q ho hn ht ih =>
    intro fuel hf
    obtain ⟨fuel, rfl⟩ : ∃ k, fuel = k + 1 := ⟨fuel - 1, by omega⟩
    have := ho.suffix.2
    rw [parseTag_attr ho, if_neg (fun e => hn (isSome_iff.1 e)), ih fuel (by omega)]

theorem parseTag_repeats {enc : Enc} {a : List (Text × Text)} {p : Text} {b : List (Text × Text)} (h : Repeats enc a p b) :
    (a.map Prod.fst).Nodup → ∀ fuel, p.length < fuel → parseTag enc fuel p a = .ok (b, .failed false) := by
  induction h with
  | here a p n v p' ho hm =>
    intro hn fuel hf
    obtain ⟨fuel, rfl⟩ : ∃ k, fuel = k + 1 := ⟨fuel - 1, by omega⟩
    rw [parseTag_attr ho, if_pos (isSome_iff.2 hm), setAttribute_map hn hm]
  | later a p n v p' b ho hm hr ih =>
    intro hn fuel hf
    obtain ⟨fuel, rfl⟩ : ∃ k, fuel = k + 1 := ⟨fuel - 1, by omega⟩
    have := ho.suffix.2
    rw [parseTag_attr ho, if_neg (fun e => hm (isSome_iff.1 e)), ih (nodup_snoc hn hm) fuel (by omega)]

theorem Tag.suffix {enc : Enc} {a : List (Text × Text)} {p : Text} {b : List (Text × Text)} {c : Bool} {q : Text}
    (h : Tag enc a p b c q) : q <:+ p ∧ q.length < p.length := by
  induction h with
  | close a p q hg =>
    have := hg.suffix.length_le
    refine ⟨((List.suffix_cons _ _).trans (List.suffix_cons _ _)).trans hg.suffix, by simp at this; omega⟩
  | «open» a p q hg =>
    have := hg.suffix.length_le
    exact ⟨(List.suffix_cons _ _).trans hg.suffix, by simp at this; omega⟩
  | attr a p n v p' b c q ho hn ht ih => exact ⟨ih.1.trans ho.suffix.1, by have := ho.suffix.2; have := ih.2; omega⟩

/-! ### Declarations, comments and unknown nodes -/

theorem toLower_eq (c : Char) : toLower c = c.toLower := by
  unfold toLower Char.toLower
  simp only [Bool.and_eq_true, decide_eq_true_eq]
  by_cases h : 65 ≤ c.toNat ∧ c.toNat ≤ 90
  · have h' : c.val ≥ 'A'.val ∧ c.val ≤ 'Z'.val := h
    have hv : (c.toNat + 32).isValidChar := by left; omega
    have e : (Char.ofNat (c.toNat + 32)).toNat = c.toNat + 32 := by
      unfold Char.ofNat; rw [dif_pos hv]; rfl
    rw [if_pos h, dif_pos h', toNat_eq, e]
    show c.toNat + 32 = (c.val + ('a'.val - 'A'.val)).toNat
    rw [UInt32.toNat_add]
    have : ('a'.val - 'A'.val).toNat = 32 := by decide
    rw [this]
    show c.toNat + 32 = (c.toNat + 32) % 2 ^ 32
    omega
  · have h' : ¬ (c.val ≥ 'A'.val ∧ c.val ≤ 'Z'.val) := h
    rw [if_neg h, dif_neg h']

theorem prefixNoCase_iff : ∀ (w p : Text), prefixNoCase w p = true ↔ (p.take w.length).map Char.toLower = w.map Char.toLower
  | [], p => by simp [prefixNoCase]
  | t :: ts, [] => by simp [prefixNoCase]
  | t :: ts, c :: cs => by
    rw [prefixNoCase, Bool.and_eq_true, decide_eq_true_eq, prefixNoCase_iff ts cs, toLower_eq, toLower_eq]
    simp

theorem begins_iff {w p : Text} (h : w.map Char.toLower = w) : prefixNoCase w p = true ↔ Begins w p := by
  rw [prefixNoCase_iff, h]; rfl

theorem begins_version {p : Text} : prefixNoCase "version".toList p = true ↔ Begins "version".toList p := begins_iff (by decide)
theorem begins_encoding {p : Text} : prefixNoCase "encoding".toList p = true ↔ Begins "encoding".toList p := begins_iff (by decide)
theorem begins_standalone {p : Text} : prefixNoCase "standalone".toList p = true ↔ Begins "standalone".toList p :=
  begins_iff (by decide)
theorem begins_xml {p : Text} : prefixNoCase "<?xml".toList p = true ↔ Begins "<?xml".toList p := begins_iff (by decide)
theorem begins_utf {p : Text} : prefixNoCase "UTF-8".toList p = true ↔ Begins "utf-8".toList p := by
  rw [prefixNoCase_iff]; unfold Begins
  rw [show "UTF-8".toList.map Char.toLower = "utf-8".toList by decide]; rfl
theorem begins_utf' {p : Text} : prefixNoCase "UTF8".toList p = true ↔ Begins "utf8".toList p := by
  rw [prefixNoCase_iff]; unfold Begins
  rw [show "UTF8".toList.map Char.toLower = "utf8".toList by decide]; rfl

/-- Two words that begin differently do not begin the same text. -/
theorem Begins.head {a b : Char} {v w p : Text} (h : Begins (a :: v) p) (h' : Begins (b :: w) p) : a = b := by
  cases p with
  | nil => simp [Begins] at h
  | cons c p =>
    simp only [Begins, List.length_cons, List.take_succ_cons, List.map_cons, List.cons.injEq] at h h'
    rw [← h.1, h'.1]

theorem word_iff {p w q : Text} : (p.takeWhile (fun c => decide (c ≠ '>') && !isSpace c) = w ∧
    p.dropWhile (fun c => decide (c ≠ '>') && !isSpace c) = q) ↔
    (p = w ++ q ∧ (∀ c ∈ w, ¬ Space c ∧ c ≠ '>') ∧ ∀ c r, q = c :: r → Space c ∨ c = '>') := by
  have key : ∀ c, (decide (c ≠ '>') && !isSpace c) = true ↔ ¬ Space c ∧ c ≠ '>' := by
    intro c
    rw [← space_iff]
    simp [and_comm]
  rw [takeWhile_iff]
  refine and_congr Iff.rfl (and_congr ?_ ?_)
  · exact forall_congr' fun c => imp_congr_right fun _ => key c
  · refine forall_congr' fun c => forall_congr' fun r => imp_congr_right fun _ => ?_
    rw [← Bool.not_eq_true, key]
    tauto

/-- The node of a declaration. -/
def Declaration.node (d : Declaration) : Node := .declaration d.version d.encoding d.standalone

theorem parseDeclaration_sound (enc : Enc) : ∀ (fuel : ℕ) (p v e s : Text) (n : Node) (r : Option Text),
    parseDeclaration enc fuel p v e s = .ok (n, r) → ∃ d, n = d.node ∧ DeclBody enc ⟨v, e, s⟩ p d r := by
  intro fuel
  induction fuel with
  | zero =>
    intro p v e s n r h
    cases p with
    | nil => simp only [parseDeclaration, Run.ok.injEq, Prod.mk.injEq] at h; obtain ⟨rfl, rfl⟩ := h; exact ⟨_, rfl, .end _⟩
    | cons c t => simp [parseDeclaration] at h
  | succ fuel ih =>
    intro p v e s n r h
    unfold parseDeclaration at h
    split at h
    · simp only [Run.ok.injEq, Prod.mk.injEq] at h; obtain ⟨rfl, rfl⟩ := h; exact ⟨_, rfl, .end _⟩
    · rename_i h0; cases h0
    · simp only [Run.ok.injEq, Prod.mk.injEq] at h; obtain ⟨rfl, rfl⟩ := h; exact ⟨_, rfl, .close _ _⟩
    · rename_i p v e s _ _ _ _ _ f hf h1 h2
      cases hf
      have hgt : ∀ t, p ≠ '>' :: t := fun t e => h2 t e
      split at h
      · cases h
      · cases h
      · rename_i p1 hne hg
        have hg := gap_iff.1 hg
        split_ifs at h with hv he hs
        · have hb := begins_version.1 hv
          cases ha : parseAttribute enc p1 with
          | ok o =>
            rw [ha] at h
            simp only [Run.bind_ok] at h
            split at h
            · simp only [Run.ok.injEq, Prod.mk.injEq] at h
              obtain ⟨rfl, rfl⟩ := h
              exact ⟨⟨[], e, s⟩, rfl, .broken _ _ _ _ _ hgt hg hb (noAttr_iff.1 ha) .version⟩
            · obtain ⟨d, rfl, hd⟩ := ih _ _ _ _ _ _ h
              exact ⟨d, rfl, .field _ _ _ _ _ _ _ _ _ _ hgt hg hb (attr_iff.1 ha) .version hd⟩
          | ub => rw [ha] at h; simp at h
          | assertFailed => rw [ha] at h; simp at h
          | endless => rw [ha] at h; simp at h
        · have hb := begins_encoding.1 he
          cases ha : parseAttribute enc p1 with
          | ok o =>
            rw [ha] at h
            simp only [Run.bind_ok] at h
            split at h
            · simp only [Run.ok.injEq, Prod.mk.injEq] at h
              obtain ⟨rfl, rfl⟩ := h
              exact ⟨⟨v, [], s⟩, rfl, .broken _ _ _ _ _ hgt hg hb (noAttr_iff.1 ha) .encoding⟩
            · obtain ⟨d, rfl, hd⟩ := ih _ _ _ _ _ _ h
              exact ⟨d, rfl, .field _ _ _ _ _ _ _ _ _ _ hgt hg hb (attr_iff.1 ha) .encoding hd⟩
          | ub => rw [ha] at h; simp at h
          | assertFailed => rw [ha] at h; simp at h
          | endless => rw [ha] at h; simp at h
        · have hb := begins_standalone.1 hs
          cases ha : parseAttribute enc p1 with
          | ok o =>
            rw [ha] at h
            simp only [Run.bind_ok] at h
            split at h
            · simp only [Run.ok.injEq, Prod.mk.injEq] at h
              obtain ⟨rfl, rfl⟩ := h
              exact ⟨⟨v, e, []⟩, rfl, .broken _ _ _ _ _ hgt hg hb (noAttr_iff.1 ha) .standalone⟩
            · obtain ⟨d, rfl, hd⟩ := ih _ _ _ _ _ _ h
              exact ⟨d, rfl, .field _ _ _ _ _ _ _ _ _ _ hgt hg hb (attr_iff.1 ha) .standalone hd⟩
          | ub => rw [ha] at h; simp at h
          | assertFailed => rw [ha] at h; simp at h
          | endless => rw [ha] at h; simp at h
        · obtain ⟨d, rfl, hd⟩ := ih _ _ _ _ _ _ h
          obtain ⟨e1, e2, e3⟩ := (word_iff (p := p1)).1 ⟨rfl, rfl⟩
          refine ⟨d, rfl, .word _ _ _ _ _ _ hgt (e1 ▸ hg) ?_ ?_ ?_ ?_ e2 e3 hd⟩
          · rw [← e1]; exact fun e => hne e
          · rw [← e1, ← begins_version]; exact hv
          · rw [← e1, ← begins_encoding]; exact he
          · rw [← e1, ← begins_standalone]; exact hs

theorem parseDeclaration_step {enc : Enc} {p p1 : Text} (hgt : ∀ t, p ≠ '>' :: t) (hg : Gap enc p p1) (hne : p1 ≠ [])
    (fuel : ℕ) (v e s : Text) : parseDeclaration enc (fuel + 1) p v e s =
      if prefixNoCase "version".toList p1 then do
        match ← parseAttribute enc p1 with
        | none => .ok (.declaration [] e s, none)
        | some (_, v, p) => parseDeclaration enc fuel p v e s
      else if prefixNoCase "encoding".toList p1 then do
        match ← parseAttribute enc p1 with
        | none => .ok (.declaration v [] s, none)
        | some (_, e, p) => parseDeclaration enc fuel p v e s
      else if prefixNoCase "standalone".toList p1 then do
        match ← parseAttribute enc p1 with
        | none => .ok (.declaration v e [], none)
        | some (_, s, p) => parseDeclaration enc fuel p v e s
      else
        parseDeclaration enc fuel (p1.dropWhile fun c => c ≠ '>' && !isSpace c) v e s := by
  conv_lhs => unfold parseDeclaration
  split
  · exact absurd rfl hg.1
  · rename_i h; cases h
  · exact absurd rfl (hgt _)
  · rename_i p v e s _ _ _ _ _ f hf h1 h2
    cases hf
    split
    · rename_i h; rw [gap_iff.2 hg] at h; cases h
    · rename_i h; rw [gap_iff.2 hg] at h; cases h; exact absurd rfl hne
    · rename_i h; rw [gap_iff.2 hg] at h; cases h; rfl

theorem Begins.ne_nil {c : Char} {w p : Text} (h : Begins (c :: w) p) : p ≠ [] := by rintro rfl; simp [Begins] at h

theorem parseDeclaration_complete {enc : Enc} {d : Declaration} {p : Text} {d' : Declaration} {r : Option Text}
    (h : DeclBody enc d p d' r) : ∀ fuel, p.length ≤ fuel →
    parseDeclaration enc fuel p d.version d.encoding d.standalone = .ok (d'.node, r) := by
  induction h with
  | close d q =>
    intro fuel hf
    obtain ⟨fuel, rfl⟩ : ∃ k, fuel = k + 1 := ⟨fuel - 1, by simp at hf; omega⟩
    rw [parseDeclaration]; rfl
  | «end» d =>
    intro fuel hf
    cases fuel <;> rw [parseDeclaration] <;> rfl
  | field d p p1 word n v d1 p2 d2 r hgt hg hb ha hset hd ih =>
    intro fuel hf
    have l1 := hg.suffix.length_le
    have l2 := ha.suffix.2
    obtain ⟨fuel, rfl⟩ : ∃ k, fuel = k + 1 := ⟨fuel - 1, by omega⟩
    have hne : p1 ≠ [] := by rintro rfl; simp at l2
    rw [parseDeclaration_step hgt hg hne]
    have ih := ih fuel (by omega)
    cases hset with
    | version =>
      rw [if_pos (begins_version.2 hb), attr_iff.2 ha]; exact ih
    | encoding =>
      rw [if_neg (fun e => absurd (Begins.head hb (begins_version.1 e)) (by decide)), if_pos (begins_encoding.2 hb),
        attr_iff.2 ha]; exact ih
    | standalone =>
      rw [if_neg (fun e => absurd (Begins.head hb (begins_version.1 e)) (by decide)),
        if_neg (fun e => absurd (Begins.head hb (begins_encoding.1 e)) (by decide)), if_pos (begins_standalone.2 hb),
        attr_iff.2 ha]; exact ih
  | broken d p p1 word d1 hgt hg hb ha hset =>
    intro fuel hf
    have l1 := List.length_pos_of_ne_nil hg.1
    obtain ⟨fuel, rfl⟩ : ∃ k, fuel = k + 1 := ⟨fuel - 1, by omega⟩
    cases hset with
    | version =>
      rw [parseDeclaration_step hgt hg (Begins.ne_nil hb)]
      rw [if_pos (begins_version.2 hb), noAttr_iff.2 ha]; rfl
    | encoding =>
      rw [parseDeclaration_step hgt hg (Begins.ne_nil hb)]
      rw [if_neg (fun e => absurd (Begins.head hb (begins_version.1 e)) (by decide)), if_pos (begins_encoding.2 hb),
        noAttr_iff.2 ha]; rfl
    | standalone =>
      rw [parseDeclaration_step hgt hg (Begins.ne_nil hb)]
      rw [if_neg (fun e => absurd (Begins.head hb (begins_version.1 e)) (by decide)),
        if_neg (fun e => absurd (Begins.head hb (begins_encoding.1 e)) (by decide)), if_pos (begins_standalone.2 hb),
        noAttr_iff.2 ha]; rfl
  | word d p w p2 d2 r hgt hg hne hv he hs hw hp2 hd ih =>
    intro fuel hf
    have l1 := List.length_pos_of_ne_nil hg.1
    obtain ⟨fuel, rfl⟩ : ∃ k, fuel = k + 1 := ⟨fuel - 1, by omega⟩
    have l2 : p2.length < p.length := by
      have l3 := hg.suffix.length_le
      rw [List.length_append] at l3
      rcases Nat.lt_or_ge p2.length p.length with h | h
      · exact h
      · have : w = [] := List.eq_nil_of_length_eq_zero (by omega)
        subst this
        have e := hg.suffix.eq_of_length_le (by simpa using h)
        cases p2 with
        | nil => exact absurd rfl hne
        | cons c t =>
          rcases hp2 c t rfl with h | rfl
          · exact absurd h (hg.2.2.1 c t rfl)
          · exact absurd e.symm (hgt t)
    rw [parseDeclaration_step hgt hg hne, if_neg (fun e => hv (begins_version.1 e)), if_neg (fun e => he (begins_encoding.1 e)),
      if_neg (fun e => hs (begins_standalone.1 e)), (word_iff.2 ⟨rfl, hw, hp2⟩).2, ih fuel (by omega)]

theorem other_iff {enc : Enc} {p : Text} {n : Node} {r : Option Text} (hp : ∃ t, p = '<' :: t) (he : isElement p = false) :
    parseOther enc p = .ok (n, r) ↔ Other enc p n r := by
  obtain ⟨t, rfl⟩ := hp
  unfold parseOther
  constructor
  · intro h
    split_ifs at h with h1 h2
    · obtain ⟨d, rfl, hd⟩ := parseDeclaration_sound enc _ _ _ _ _ _ _ h
      exact .declaration _ _ _ (begins_xml.1 h1) hd
    · cases hq : readQuoted enc "-->".toList (('<' :: t).drop 4) with
      | ok x =>
        rw [hq] at h
        simp only [Run.bind_ok, Run.ok.injEq, Prod.mk.injEq] at h
        obtain ⟨rfl, rfl⟩ := h
        rw [List.isPrefixOf_iff_prefix] at h2
        obtain ⟨u, hu⟩ := h2
        rw [← hu] at hq ⊢
        exact .comment _ _ _ ((upto_iff (by decide)).1 hq)
      | ub => rw [hq] at h; simp at h
      | assertFailed => rw [hq] at h; simp at h
      | endless => rw [hq] at h; simp at h
    · simp only [parseUnknown, List.drop_succ_cons, List.drop_zero, Run.ok.injEq, Prod.mk.injEq] at h
      obtain ⟨rfl, rfl⟩ := h
      obtain ⟨e1, e2, e3⟩ := (takeWhile_iff (p := t) (f := (· ≠ '>'))).1 ⟨rfl, rfl⟩
      conv => enter [2]; rw [e1]
      refine .unknown _ _ ?_ ?_ ?_ (fun h => by simpa using e2 _ h) ?_
      · rw [← e1]
        rintro c r rfl hs
        have hs := nameStart_iff.2 hs
        have : isElement ('<' :: c :: r) = true := by
          simp only [isElement, Bool.and_eq_true, Bool.not_eq_true', List.drop_succ_cons, List.drop_zero]
          refine ⟨⟨by simpa using h1, ?_⟩, hs⟩
          simp only [show "<!".toList = ['<', '!'] from rfl, List.isPrefixOf, Bool.and_true, beq_self_eq_true, Bool.true_and,
            beq_eq_false_iff_ne, ne_eq]
          rintro rfl
          revert hs; decide
        rw [he] at this; cases this
      · rw [List.cons_append, ← e1, ← begins_xml]; exact h1
      · rw [← e1]
        rintro ⟨u, rfl⟩
        exact h2 (by simp [List.isPrefixOf])
      · cases hd : t.dropWhile (· ≠ '>') with
        | nil => exact .inl rfl
        | cons c r =>
          have := e3 c r hd
          simp only [ne_eq, decide_not, Bool.not_eq_eq_eq_not, Bool.not_false, decide_eq_true_eq] at this
          exact .inr ⟨r, by rw [this]⟩
  · intro h
    generalize hp : '<' :: t = p at h he ⊢
    cases h with
    | declaration p d r hb hd =>
      rw [if_pos (begins_xml.2 hb)]
      exact parseDeclaration_complete hd _ (by simp)
    | comment p v q hu =>
      rw [if_neg (by
        rw [begins_xml]
        simp [Begins]), if_pos (by simp [List.isPrefixOf]), show (("<!--".toList ++ p).drop 4) = p from rfl,
        (upto_iff (by decide)).2 hu]
      rfl
    | unknown v t' h1 h2 h3 h4 h5 =>
      simp only [List.cons_append, List.cons.injEq, true_and] at hp
      rw [if_neg (fun e => h2 (begins_xml.1 e)), if_neg]
      · have e : (v ++ t').takeWhile (· ≠ '>') = v ∧ (v ++ t').dropWhile (· ≠ '>') = t' := by
          rw [takeWhile_iff]
          refine ⟨rfl, fun c hc => ?_, fun c r hc => ?_⟩
          · simp only [ne_eq, decide_not, Bool.not_eq_eq_eq_not, Bool.not_true, decide_eq_false_iff_not]
            rintro rfl; exact h4 hc
          · rcases h5 with rfl | ⟨q, rfl⟩
            · cases hc
            · cases hc; simp
        simp only [parseUnknown, List.cons_append, List.drop_succ_cons, List.drop_zero]
        rw [e.1, e.2]
      · rw [List.isPrefixOf_iff_prefix]
        rintro ⟨u, hu⟩
        simp only [List.cons_append] at hu
        have hu : '<' :: ("!--".toList ++ u) = '<' :: (v ++ t') := hu
        exact h3 ⟨u, List.tail_eq_of_cons_eq hu⟩

theorem Other.lt {enc : Enc} {p : Text} {n : Node} {r : Option Text} (h : Other enc p n r) :
    (∃ t, p = '<' :: t) ∧ isElement p = false := by
  cases h with
  | declaration p d r hb hd =>
    have := begins_xml.2 hb
    obtain ⟨t, rfl⟩ := prefixNoCase_xml this
    exact ⟨⟨_, rfl⟩, by unfold isElement; rw [this]; rfl⟩
  | comment p v q hu => exact ⟨⟨_, rfl⟩, by simp [isElement, List.isPrefixOf]⟩
  | unknown v t h1 _ _ _ _ =>
    refine ⟨⟨v ++ t, rfl⟩, ?_⟩
    simp only [isElement, List.cons_append, List.drop_succ_cons, List.drop_zero, Bool.and_eq_false_iff]
    right
    cases hv : v ++ t with
    | nil => rfl
    | cons c r =>
      have := h1 c r hv
      rw [← nameStart_iff] at this
      simpa using this

theorem start_iff {enc : Enc} {p : Text} : isElement p = true ∧ (∃ t, p = '<' :: t) ↔ ∃ c r, p = '<' :: c :: r ∧ NameStart c := by
  constructor
  · rintro ⟨h, t, rfl⟩
    cases t with
    | nil => simp [isElement] at h
    | cons c r =>
      simp only [isElement, Bool.and_eq_true, List.drop_succ_cons, List.drop_zero] at h
      exact ⟨c, r, rfl, nameStart_iff.1 h.2⟩
  · rintro ⟨c, r, rfl, h⟩
    refine ⟨?_, _, rfl⟩
    have h := nameStart_iff.2 h
    simp only [isElement, Bool.and_eq_true, Bool.not_eq_true', List.drop_succ_cons, List.drop_zero]
    refine ⟨⟨?_, ?_⟩, h⟩
    · rw [← Bool.not_eq_true]
      intro e
      obtain ⟨u, e⟩ := prefixNoCase_xml e
      cases e
      revert h; decide
    · simp only [show "<!".toList = ['<', '!'] from rfl, List.isPrefixOf, Bool.and_true, beq_self_eq_true, Bool.true_and,
        beq_eq_false_iff_ne, ne_eq]
      rintro rfl
      revert h; decide

end Gear.Xml.Grammar
