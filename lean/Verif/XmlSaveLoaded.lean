/-
What is loaded from a file whose ampersands begin entities survives saving.
-/
import Verif.XmlSaveLemmas

set_option autoImplicit false
set_option linter.unusedSectionVars false

namespace Gear.Xml.Save

open Grammar Spec

/-- Texts without ampersands and, in UTF-8, with complete characters. -/
def Bare (enc : Enc) (p : Text) : Prop := '&' ∉ p ∧ (enc = .utf8 → Signs p)

/-- The texts dealt with: with entities (if `A`, otherwise without ampersands) and, in UTF-8, with complete characters. -/
def Fine (A : Prop) (enc : Enc) (p : Text) : Prop := (A ∨ '&' ∉ p) ∧ References p ∧ (enc = .utf8 → Signs p)

/-- What is read from them. -/
def FineValue (A : Prop) (enc : Enc) (v : Text) : Prop := (A ∨ '&' ∉ v) ∧ NoReference v ∧ (enc = .utf8 → Signs v)

variable {A : Prop} {enc : Enc}

theorem Bare.suffix {p q : Text} (h : Bare enc p) (hq : q <:+ p) : Bare enc q := by
  obtain ⟨a, rfl⟩ := hq
  exact ⟨fun hm => h.1 (by simp [hm]), fun he => (h.2 he).suffix⟩

theorem References.suffix {p q : Text} (h : References p) (hq : q <:+ p) : References q := by
  obtain ⟨x, rfl⟩ := hq
  rintro a b rfl
  exact h (x ++ a) b (by simp)

theorem Fine.suffix {p q : Text} (h : Fine A enc p) (hq : q <:+ p) : Fine A enc q := by
  refine ⟨h.1.imp_right fun hn hm => hn (hq.mem hm), h.2.1.suffix hq, fun he => ?_⟩
  obtain ⟨a, rfl⟩ := hq
  exact (h.2.2 he).suffix

theorem references_bare {p : Text} (h : '&' ∉ p) : References p := by
  rintro a b rfl
  exact absurd (by simp) h

theorem signs_before {v t : Text} {d : Char} (h : Signs (v ++ d :: t)) (hd : d.toNat < 0x80) : Signs v := by
  rintro a c b rfl
  obtain ⟨s, r, hs, hl, hx⟩ := h a c (b ++ d :: t) (by simp)
  by_cases hle : s.length ≤ b.length
  · refine ⟨s, b.drop s.length, ?_, hl, hx⟩
    have := congrArg (List.take s.length) hs
    rw [List.take_append_of_le_length hle, List.take_left] at this
    rw [← this]
    conv_lhs => rw [← List.take_append_drop s.length b]
    rw [this]
  · have : d ∈ (s ++ r).take s.length := by
      rw [← hs, List.take_append]
      obtain ⟨k, hk⟩ : ∃ k, s.length - b.length = k + 1 := ⟨s.length - b.length - 1, by omega⟩
      rw [hk, List.take_succ_cons]
      simp
    rw [List.take_left] at this
    have := (hx d this).1
    omega

/-- A text that ends before a character that is in no entity. -/
theorem References.before {v t : Text} {d : Char} (h : References (v ++ d :: t)) (hd : ∀ e ∈ entityNames, d ∉ e.1 ++ [';']) : References v := by
  rintro a b rfl
  obtain ⟨e, he, r, hr, hx⟩ := h a (b ++ d :: t) (by simp)
  have hr' : b ++ d :: t = (e.1 ++ [';']) ++ r := by simpa using hr
  rcases List.append_eq_append_iff.1 hr' with ⟨y, hy, hy'⟩ | ⟨y, rfl, rfl⟩
  · cases y with
    | nil =>
      rw [List.append_nil] at hy
      exact ⟨e, he, [], by rw [← hy], fun _ hp => by simp at hp⟩
    | cons z y =>
      simp only [List.cons_append, List.cons.injEq] at hy'
      exact absurd (by rw [hy, ← hy'.1]; simp) (hd e he)
  · exact ⟨e, he, y, by simp, fun h2 hp => hx h2 (hp.trans (List.prefix_append _ _))⟩

theorem entity_first : ∀ e ∈ entityNames, e.1.head? ≠ some '#' := by decide

theorem References.noReference {v : Text} (h : References v) : NoReference v := by
  rintro ⟨a, b, rfl⟩
  obtain ⟨e, he, r, hr, -⟩ := h a ('#' :: 'x' :: b) (by simp)
  have := entity_first e he
  cases hn : e.1 with
  | nil =>
    rw [hn] at hr
    simp at hr
  | cons c n =>
    rw [hn] at hr this
    simp only [List.cons_append, List.cons.injEq] at hr
    exact this (by rw [← hr.1]; rfl)

theorem Signs.cons {c : Char} {s t : Text} (hl : (c :: s).length = width .utf8 c) (hs : ∀ x ∈ s, 0x80 ≤ x.toNat ∧ x.toNat ≤ 0xbf) (ht : Signs t) :
    Signs (c :: s ++ t) := by
  intro a d b hab
  cases a with
  | nil =>
    simp only [List.cons_append, List.nil_append, List.cons.injEq] at hab
    obtain ⟨rfl, rfl⟩ := hab
    exact ⟨s, t, rfl, hl, hs⟩
  | cons a0 a =>
    simp only [List.cons_append, List.cons.injEq] at hab
    obtain ⟨-, hab⟩ := hab
    rcases List.append_eq_append_iff.1 hab with ⟨x, rfl, rfl⟩ | ⟨x, rfl, hx⟩
    · exact ht x d b rfl
    · cases x with
      | nil =>
        simp only [List.nil_append] at hx
        exact ht [] d b hx.symm
      | cons y x =>
        simp only [List.cons_append, List.cons.injEq] at hx
        obtain ⟨rfl, rfl⟩ := hx
        have := hs d (by simp)
        refine ⟨[], x ++ t, rfl, ?_, by simp⟩
        rw [width_low (by omega)]; rfl

theorem piece_char {p v q : Text} (h : Piece enc p v q) (hf : Bare enc p) : p = v ++ q ∧ ∃ c s, v = c :: s ∧ c ≠ '&' ∧
    (∀ x ∈ s, 0x80 ≤ x.toNat ∧ x.toNat ≤ 0xbf) ∧ (c :: s).length = width enc c := by
  cases h with
  | char c s _ hc hl =>
    refine ⟨rfl, c, s, rfl, hc, ?_, hl⟩
    by_cases he : enc = .utf8
    · obtain ⟨s', r, hs, hl', hx⟩ := hf.2 he [] c (s ++ q) rfl
      have hlen : s.length = s'.length := by
        rw [he] at hl
        simp only [List.length_cons] at hl hl'
        omega
      have : s = s' := by
        have := congrArg (List.take s.length) hs
        rwa [List.take_left, hlen, List.take_left] at this
      rw [this]; exact hx
    · have : width enc c = 1 := by
        cases enc
        · rfl
        · exact absurd rfl he
        · rfl
      rw [this] at hl
      have : s = [] := List.length_eq_zero_iff.1 (by simpa using hl)
      simp [this]
  | entity => exact absurd (by simp) hf.1
  | hex => exact absurd (by simp) hf.1
  | decimal => exact absurd (by simp) hf.1
  | stray => exact absurd (by simp) hf.1

/-- Text up to the first `stop`. -/
theorem upto_value {stop : Text} {p v q : Text} (h : Upto enc stop p v q) {d : Char} {t : Text} (hst : stop = d :: t) (hd : d.toNat < 0x80)
    (hf : Bare enc p) : p = v ++ stop ++ q ∧ ∀ a b, v = a ++ b → b ≠ [] → ¬ stop <+: b := by
  induction h with
  | stop q => exact ⟨rfl, by
      intro a b hab hb
      exact absurd (List.append_eq_nil_iff.1 hab.symm).2 hb⟩
  | piece p v p' vs q hn hp hu ih =>
    obtain ⟨rfl, c, s, rfl, hc, hs, hl⟩ := piece_char hp hf
    obtain ⟨rfl, hv⟩ := ih (hf.suffix ⟨_, rfl⟩)
    refine ⟨by simp, ?_⟩
    intro a b hab hb hpre
    cases a with
    | nil =>
      rw [List.nil_append] at hab
      subst hab
      refine hn ?_
      rw [List.append_assoc, ← List.append_assoc]
      exact hpre.trans (List.prefix_append _ _)
    | cons a0 a =>
      simp only [List.cons_append, List.cons.injEq] at hab
      obtain ⟨-, hab⟩ := hab
      rcases List.append_eq_append_iff.1 hab with ⟨x, rfl, hx⟩ | ⟨x, rfl, rfl⟩
      · exact hv x b hx hb hpre
      · cases x with
        | nil =>
          rw [List.nil_append] at hb hpre
          exact hv [] vs rfl hb hpre
        | cons y x =>
          have := hs y (by simp)
          rw [hst] at hpre
          simp only [List.cons_append, List.cons_prefix_cons] at hpre
          rw [← hpre.1] at this
          omega

theorem semicolon_inj {x y q r : Text} (hx : ';' ∉ x) (hy : ';' ∉ y) (h : x ++ ';' :: q = y ++ ';' :: r) : x = y ∧ q = r := by
  induction x generalizing y with
  | nil =>
    cases y with
    | nil => simpa using h
    | cons c y =>
      simp only [List.nil_append, List.cons_append, List.cons.injEq] at h
      exact absurd (by rw [← h.1]; simp) hy
  | cons c x ih =>
    cases y with
    | nil =>
      simp only [List.nil_append, List.cons_append, List.cons.injEq] at h
      exact absurd (by simp [h.1]) hx
    | cons d y =>
      simp only [List.cons_append, List.cons.injEq] at h
      obtain ⟨rfl, h⟩ := h
      obtain ⟨rfl, h'⟩ := ih (fun hm => hx (by simp [hm])) (fun hm => hy (by simp [hm])) h
      exact ⟨rfl, h'⟩

theorem entity_table : ∀ e ∈ entityNames, ';' ∉ e.1 ∧ (∀ e' ∈ entityNames, e.1 = e'.1 → e.2 = e'.2) ∧ e.2 ∉ ['#', 'x'] ∧
    e.2 ∉ [' ', '\t', '\n', '\x0b', '\x0c', '\r'] ∧ e.2.toNat < 0x80 := by decide

/-- What a piece of such a text is: a character, or one of the five entities. -/
theorem piece_fine {p v q : Text} (h : Piece enc p v q) (hf : Fine A enc p) :
    (p = v ++ q ∧ ∃ c s, v = c :: s ∧ c ≠ '&' ∧ (∀ x ∈ s, 0x80 ≤ x.toNat ∧ x.toNat ≤ 0xbf) ∧ (c :: s).length = width enc c) ∨
    (A ∧ q <:+ p ∧ ∃ e ∈ entityNames, v = [e.2] ∧ (e.2 = '&' → ¬ ['#', 'x'] <+: q)) := by
  have hno : ∀ r, p = '&' :: '#' :: r → False := by
    rintro r rfl
    obtain ⟨e, he, t, ht, -⟩ := hf.2.1 [] ('#' :: r) rfl
    have := entity_first e he
    cases hn : e.1 with
    | nil =>
      rw [hn] at ht
      simp at ht
    | cons c n =>
      rw [hn] at ht this
      simp only [List.cons_append, List.cons.injEq] at ht
      exact this (by rw [← ht.1]; rfl)
  cases h with
  | char c s _ hc hl =>
    refine Or.inl ⟨rfl, c, s, rfl, hc, ?_, hl⟩
    by_cases he : enc = .utf8
    · obtain ⟨s', r, hs, hl', hx⟩ := hf.2.2 he [] c (s ++ q) rfl
      have hlen : s.length = s'.length := by
        rw [he] at hl
        simp only [List.length_cons] at hl hl'
        omega
      have : s = s' := by
        have := congrArg (List.take s.length) hs
        rwa [List.take_left, hlen, List.take_left] at this
      rw [this]; exact hx
    · have : width enc c = 1 := by
        cases enc
        · rfl
        · exact absurd rfl he
        · rfl
      rw [this] at hl
      have : s = [] := List.length_eq_zero_iff.1 (by simpa using hl)
      simp [this]
  | entity name c _ hm =>
    refine Or.inr ⟨hf.1.resolve_right fun hn => hn (by simp), ⟨'&' :: name ++ [';'], by simp⟩, (name, c), hm, rfl, ?_⟩
    rintro rfl
    obtain ⟨e, he, r, hr, hx⟩ := hf.2.1 [] (name ++ ';' :: q) rfl
    obtain ⟨h1, rfl⟩ := semicolon_inj (entity_table _ hm).1 (entity_table e he).1 hr
    exact hx ((entity_table _ hm).2.1 e he h1).symm
  | hex body n _ => exact (hno _ rfl).elim
  | decimal body n _ => exact (hno _ rfl).elim
  | stray _ h1 h2 =>
    obtain ⟨e, he, r, hr, -⟩ := hf.2.1 [] q rfl
    exact absurd hr (h2 e he r)

theorem piece_value {v vs : Text} (h : (∃ c s, v = c :: s ∧ c ≠ '&' ∧ (∀ x ∈ s, 0x80 ≤ x.toNat ∧ x.toNat ≤ 0xbf) ∧ (c :: s).length = width enc c) ∨
      (A ∧ ∃ e ∈ entityNames, v = [e.2] ∧ (e.2 = '&' → ¬ ['#', 'x'] <+: vs))) (hv : FineValue A enc vs) : FineValue A enc (v ++ vs) := by
  rcases h with ⟨c, s, rfl, hc, hs, hl⟩ | ⟨hA, e, he, rfl, hx⟩
  · have hamp : '&' ∉ c :: s := by
      intro hm
      rcases List.mem_cons.1 hm with rfl | hm
      · exact hc rfl
      · have := hs '&' hm
        revert this; decide
    refine ⟨hv.1.imp_right fun hn hm => ?_, ?_, fun he => Signs.cons (by rw [hl, he]) hs (hv.2.2 he)⟩
    · rcases List.mem_append.1 hm with hm | hm
      · exact hamp hm
      · exact hn hm
    · have key : ∀ x : Text, '&' ∉ x → ['&', '#', 'x'] <:+: x ++ vs → ['&', '#', 'x'] <:+: vs := by
        intro x hx hi
        induction x with
        | nil => exact hi
        | cons y x ih =>
          rw [List.cons_append, List.infix_cons_iff] at hi
          rcases hi with hi | hi
          · rw [List.cons_prefix_cons] at hi
            exact absurd (List.mem_cons.2 (Or.inl hi.1)) hx
          · exact ih (fun hm => hx (by simp [hm])) hi
      exact fun hi => hv.2.1 (key _ hamp hi)
  · refine ⟨Or.inl hA, ?_, fun h8 => ?_⟩
    · intro hi
      rw [List.singleton_append, List.infix_cons_iff] at hi
      rcases hi with hi | hi
      · rw [List.cons_prefix_cons] at hi
        exact hx hi.1.symm hi.2
      · exact hv.2.1 hi
    · refine Signs.cons (c := e.2) (s := []) ?_ (by simp) (hv.2.2 h8)
      rw [width_low (by have := (entity_table e he).2.2.2.2; omega)]
      rfl

theorem fineValue_nil : FineValue A enc [] := ⟨Or.inr (by simp), by rintro ⟨a, b, h⟩; simp at h, fun _ a c b hab => by simp at hab⟩

/-- A `#` or an `x` is read from one. -/
theorem upto_head {stop p v q : Text} (h : Upto enc stop p v q) (hf : Fine A enc p) {c : Char} {w : Text} (hv : v = c :: w) (hc : c ∈ ['#', 'x']) :
    ∃ p', p = c :: p' ∧ Upto enc stop p' w q := by
  cases h with
  | stop => simp at hv
  | piece _ v' p' vs _ hn hp hu =>
    rcases piece_fine hp hf with ⟨rfl, d, s, rfl, hd, hs, hl⟩ | ⟨-, -, e, he, rfl, -⟩
    · simp only [List.cons_append, List.cons.injEq] at hv
      obtain ⟨rfl, rfl⟩ := hv
      have : width enc d = 1 := width_low (by
        simp only [List.mem_cons, List.not_mem_nil, or_false] at hc
        rcases hc with rfl | rfl <;> decide)
      rw [this] at hl
      have : s = [] := List.length_eq_zero_iff.1 (by simpa using hl)
      subst this
      exact ⟨p', rfl, hu⟩
    · simp only [List.cons_append, List.cons.injEq] at hv
      rw [← hv.1] at hc
      exact absurd hc (entity_table e he).2.2.1

theorem upto_hex {stop p v q : Text} (h : Upto enc stop p v q) (hf : Fine A enc p) (hx : ¬ ['#', 'x'] <+: p) : ¬ ['#', 'x'] <+: v := by
  rintro ⟨t, rfl⟩
  obtain ⟨p', rfl, h'⟩ := upto_head h hf (c := '#') rfl (by simp)
  obtain ⟨p'', rfl, -⟩ := upto_head h' (hf.suffix ⟨['#'], rfl⟩) (c := 'x') rfl (by simp)
  exact hx ⟨p'', rfl⟩

theorem upto_fine {stop p v q : Text} (h : Upto enc stop p v q) : Fine A enc p → FineValue A enc v := by
  induction h with
  | stop => exact fun _ => fineValue_nil
  | piece p v p' vs q hn hp hu ih =>
    intro hf
    rcases piece_fine hp hf with ⟨rfl, hv⟩ | ⟨hA, hsuf, e, he, rfl, hx⟩
    · exact piece_value (Or.inl hv) (ih (hf.suffix ⟨_, rfl⟩))
    · have hf' := hf.suffix hsuf
      exact piece_value (Or.inr ⟨hA, e, he, rfl, fun h2 => upto_hex hu hf' (hx h2)⟩) (ih hf')

/-- Texts without superfluous blanks. -/
def Tidy (v : Text) : Prop := (∀ t, v ≠ ' ' :: t) ∧ (∀ t, v ≠ t ++ [' ']) ∧ ¬ [' ', ' '] <:+: v

theorem infix_after {x v : Text} (h : [' ', ' '] <:+: x ++ v) (hx : ' ' ∉ x) : [' ', ' '] <:+: v := by
  induction x with
  | nil => exact h
  | cons c x ih =>
    rw [List.cons_append, List.infix_cons_iff] at h
    rcases h with h | h
    · rw [List.cons_prefix_cons] at h
      exact absurd (List.mem_cons.2 (Or.inl h.1)) hx
    · exact ih h fun hm => hx (by simp [hm])

theorem last_after {x v t : Text} (h : x ++ v = t ++ [' ']) (hx : ' ' ∉ x) : ∃ t', v = t' ++ [' '] := by
  rcases List.append_eq_append_iff.1 h with ⟨y, rfl, hy⟩ | ⟨y, hy, hy'⟩
  · exact ⟨y, hy⟩
  · cases y with
    | nil => exact ⟨[], hy'.symm⟩
    | cons c y =>
      simp only [List.cons_append, List.cons.injEq] at hy'
      exact absurd (by rw [hy, ← hy'.1]; simp) hx

theorem condensed_true {w : Bool} {p v q : Text} (h : Condensed enc w p v q) : w = true → v = [] ∨ ∃ t, v = ' ' :: t := by
  induction h with
  | stop => exact fun _ => Or.inl rfl
  | space _ _ _ _ _ _ _ ih => exact fun _ => ih rfl
  | piece w c r v p' vs q => rintro rfl; exact Or.inr ⟨v ++ vs, rfl⟩

theorem condensed_head {w : Bool} {p v q : Text} (h : Condensed enc w p v q) (hf : Fine A enc p) {c : Char} {r : Text} (hv : v = c :: r)
    (hc : c ∈ ['#', 'x']) : ∃ p', p = c :: p' ∧ Condensed enc false p' r q := by
  have hb : c ≠ ' ' := by rintro rfl; revert hc; decide
  cases h with
  | stop => simp at hv
  | space _ d p v _ hd h' =>
    rcases condensed_true h' rfl with rfl | ⟨t, rfl⟩
    · simp at hv
    · simp only [List.cons.injEq] at hv
      exact absurd hv.1.symm hb
  | piece _ d r' v' p' vs _ hs hd hp hu =>
    cases w with
    | true =>
      simp only [if_true, List.cons_append, List.nil_append, List.cons.injEq] at hv
      exact absurd hv.1.symm hb
    | false =>
      simp only [Bool.false_eq_true, if_false, List.nil_append] at hv
      rcases piece_fine hp hf with ⟨hp', x, s, rfl, hx, hs', hl⟩ | ⟨-, -, e, he, rfl, -⟩
      · simp only [List.cons_append, List.cons.injEq] at hv hp'
        obtain ⟨rfl, rfl⟩ := hv
        obtain ⟨rfl, rfl⟩ := hp'
        have : width enc d = 1 := width_low (by
          simp only [List.mem_cons, List.not_mem_nil, or_false] at hc
          rcases hc with rfl | rfl <;> decide)
        rw [this] at hl
        have : s = [] := List.length_eq_zero_iff.1 (by simpa using hl)
        subst this
        exact ⟨p', rfl, hu⟩
      · simp only [List.cons_append, List.cons.injEq] at hv
        rw [← hv.1] at hc
        exact absurd hc (entity_table e he).2.2.1

theorem condensed_hex {w : Bool} {p v q : Text} (h : Condensed enc w p v q) (hf : Fine A enc p) (hx : ¬ ['#', 'x'] <+: p) : ¬ ['#', 'x'] <+: v := by
  rintro ⟨t, rfl⟩
  obtain ⟨p', rfl, h'⟩ := condensed_head h hf (c := '#') rfl (by simp)
  obtain ⟨p'', rfl, -⟩ := condensed_head h' (hf.suffix ⟨['#'], rfl⟩) (c := 'x') rfl (by simp)
  exact hx ⟨p'', rfl⟩

theorem condensed_value {w : Bool} {p v q : Text} (h : Condensed enc w p v q) (hf : Fine A enc p) :
    ∃ u, Tidy u ∧ FineValue A enc u ∧ (v = u ∨ (v = ' ' :: u ∧ u ≠ [])) ∧ ((∀ c r, p = c :: r → ¬ Space c) → w = false → v = u ∧
      ((∀ m r, enc = .utf8 → p = m ++ r → ¬ Grammar.Mark m) → enc = .utf8 → NoMark u)) := by
  induction h with
  | stop w q hq =>
    refine ⟨[], ⟨by simp, by simp, by simp⟩, fineValue_nil, Or.inl rfl, fun _ _ => ⟨rfl, ?_⟩⟩
    rintro - - m hM ⟨t, ht⟩
    obtain ⟨a, b, d, rfl⟩ := mark_cons hM
    simp at ht
  | space w c p v q hc _ ih =>
    obtain ⟨u, h1, h2, h3, -⟩ := ih (hf.suffix ⟨[c], rfl⟩)
    exact ⟨u, h1, h2, h3, fun hs => absurd hc (hs c p rfl)⟩
  | piece w c r v p' vs q hs hc hp hcond ih =>
    have hpf := piece_fine hp hf
    have hsuf : p' <:+ c :: r := by
      rcases hpf with ⟨h1, -⟩ | ⟨-, h1, -⟩
      · rw [h1]; exact ⟨v, rfl⟩
      · exact h1
    have hf' := hf.suffix hsuf
    obtain ⟨u, h1, h2, h3, -⟩ := ih hf'
    have hv : ' ' ∉ v ∧ v ≠ [] := by
      rcases hpf with ⟨hp', d, s, rfl, ha, hx, hl⟩ | ⟨-, -, e, he, rfl, -⟩
      · refine ⟨?_, by simp⟩
        intro hm
        rcases List.mem_cons.1 hm with rfl | hm
        · simp only [List.cons_append, List.cons.injEq] at hp'
          rw [hp'.1] at hs
          exact hs (by unfold Space; decide)
        · have := hx ' ' hm
          revert this; decide
      · refine ⟨?_, by simp⟩
        intro hm
        rw [List.mem_singleton] at hm
        exact (entity_table e he).2.2.2.1 (by rw [← hm]; simp)
    have hvs : (∀ t, vs ≠ t ++ [' ']) ∧ ¬ [' ', ' '] <:+: vs ∧ FineValue A enc vs := by
      rcases h3 with rfl | ⟨rfl, hu⟩
      · exact ⟨h1.2.1, h1.2.2, h2⟩
      · refine ⟨?_, ?_, ?_⟩
        · intro t ht
          cases t with
          | nil => exact hu (by simpa using ht)
          | cons y t =>
            simp only [List.cons_append, List.cons.injEq] at ht
            exact h1.2.1 t ht.2
        · intro hi
          rw [List.infix_cons_iff] at hi
          rcases hi with hi | hi
          · rw [List.cons_prefix_cons] at hi
            obtain ⟨t, ht⟩ := hi.2
            exact h1.1 t (by simpa using ht.symm)
          · exact h1.2.2 hi
        · exact piece_value (v := [' ']) (Or.inl ⟨' ', [], rfl, by decide, by simp, by rw [width_low (by decide)]; rfl⟩) h2
    have hfv : FineValue A enc (v ++ vs) := by
      refine piece_value ?_ hvs.2.2
      rcases hpf with ⟨-, hv'⟩ | ⟨hA, -, e, he, rfl, hx⟩
      · exact Or.inl hv'
      · exact Or.inr ⟨hA, e, he, rfl, fun h2 => condensed_hex hcond hf' (hx h2)⟩
    refine ⟨v ++ vs, ⟨?_, ?_, ?_⟩, hfv, ?_, ?_⟩
    · intro t ht
      obtain ⟨d, s, rfl⟩ := List.exists_cons_of_ne_nil hv.2
      simp only [List.cons_append, List.cons.injEq] at ht
      exact hv.1 (by simp [ht.1])
    · intro t ht
      obtain ⟨t', ht'⟩ := last_after ht hv.1
      exact hvs.1 t' ht'
    · exact fun hi => hvs.2.1 (infix_after hi hv.1)
    · cases w
      · exact Or.inl rfl
      · refine Or.inr ⟨by simp, ?_⟩
        intro h0
        exact hv.2 (List.append_eq_nil_iff.1 h0).1
    · rintro - rfl
      refine ⟨rfl, ?_⟩
      rintro hm he m hM ⟨t, ht⟩
      obtain ⟨a, b, d, rfl⟩ := mark_cons hM
      have hM' := hM
      simp only [Grammar.Mark, List.map_cons, List.map_nil, List.cons.injEq, and_true] at hM'
      rcases hpf with ⟨hp', c', s, rfl, ha, hx, hl⟩ | ⟨-, -, e, he', rfl, -⟩
      · simp only [List.cons_append, List.cons.injEq] at hp'
        obtain ⟨rfl, rfl⟩ := hp'
        simp only [List.cons_append, List.nil_append, List.cons.injEq] at ht
        obtain ⟨rfl, ht⟩ := ht
        have hl' : s.length = 2 := by
          rw [he, width, if_neg (by omega), if_pos (by omega)] at hl
          simpa using hl
        obtain ⟨s1, s2, rfl⟩ := List.length_eq_two.1 hl'
        simp only [List.cons_append, List.nil_append, List.cons.injEq] at ht
        obtain ⟨rfl, rfl, -⟩ := ht
        exact hm [a, b, d] p' he rfl hM
      · simp only [List.cons_append, List.nil_append, List.cons.injEq] at ht
        have := (entity_table e he').2.2.2.2
        rw [← ht.1] at this
        omega

/-! ### Tags -/

theorem name_valid {p n q : Text} (h : Name p n q) : ValidName n := ⟨h.2.1, h.2.2.1⟩

theorem name_noMark {p₀ p n q : Text} (hg : Gap enc p₀ p) (h : Name p n q) (he : enc = .utf8) : NoMark n := by
  rintro m hM ⟨t, ht⟩
  refine hg.2.2.2 he m (t ++ q) ?_ hM
  rw [h.1, ← ht, List.append_assoc]

/-- What holds for the attributes. -/
def FineAttr (enc : Enc) (a : Text × Text) : Prop := ValidName a.1 ∧ (enc = .utf8 → NoMark a.1) ∧ NoReference a.2 ∧ (enc = .utf8 → Signs a.2)

theorem Fine.value {v : Text} (h : Fine A enc v) : FineValue A enc v := ⟨h.1, h.2.1.noReference, h.2.2⟩

theorem value_fine {p v q : Text} (h : Value enc p v q) (hf : Fine A enc p) : FineValue A enc v := by
  cases h with
  | single p _ _ hu => exact upto_fine hu (hf.suffix ⟨['\''], rfl⟩)
  | double p _ _ hu => exact upto_fine hu (hf.suffix ⟨['"'], rfl⟩)
  | bare _ _ h1 h2 h3 h4 =>
    cases q with
    | nil => rw [List.append_nil] at hf; exact hf.value
    | cons c q =>
      have hc : c ∈ [' ', '\t', '\n', '\x0b', '\x0c', '\r', '/', '>'] := by
        rcases h4 c q rfl with hs | rfl | rfl
        · simp only [Space, List.mem_cons, List.not_mem_nil, or_false] at hs
          rcases hs with rfl | rfl | rfl | rfl | rfl | rfl <;> decide
        · decide
        · decide
      have h5 : ∀ c ∈ [' ', '\t', '\n', '\x0b', '\x0c', '\r', '/', '>'], c.toNat < 0x80 ∧ ∀ e ∈ entityNames, c ∉ e.1 ++ [';'] := by decide
      refine Fine.value ⟨hf.1.imp_right fun hn hm => hn (by simp [hm]), hf.2.1.before (h5 c hc).2, fun he => signs_before (hf.2.2 he) (h5 c hc).1⟩

theorem attr_fine {p n v q : Text} (h : Attr enc p n v q) (hf : Fine A enc p) : FineAttr enc (n, v) ∧ FineValue A enc v := by
  obtain ⟨p₁, hs, hv⟩ := h
  have hf' := value_fine hv (hf.suffix hs.suffix.1)
  obtain ⟨p₂, p₃, p₄, hg, hn, -⟩ := hs
  exact ⟨⟨name_valid hn, name_noMark hg hn, hf'.2.1, hf'.2.2⟩, hf'⟩

theorem oneAttr_fine {p n v q : Text} (h : OneAttr enc p n v q) (hf : Fine A enc p) : FineAttr enc (n, v) := by
  obtain ⟨p₁, hg, -, -, ha, -⟩ := h
  exact (attr_fine ha (hf.suffix hg.suffix)).1

theorem tag_fine {a : List (Text × Text)} {p : Text} {b : List (Text × Text)} {c : Bool} {q : Text} (h : Tag enc a p b c q) :
    Fine A enc p → (∀ x ∈ a, FineAttr enc x) → (a.map Prod.fst).Nodup → (∀ x ∈ b, FineAttr enc x) ∧ (b.map Prod.fst).Nodup := by
  induction h with
  | close => exact fun _ h1 h2 => ⟨h1, h2⟩
  | «open» => exact fun _ h1 h2 => ⟨h1, h2⟩
  | attr a p n v p' b c q ho hn ht ih =>
    intro hf h1 h2
    refine ih (hf.suffix ho.suffix.1) ?_ (nodup_snoc h2 hn)
    intro x hx
    rcases List.mem_append.1 hx with hx | hx
    · exact h1 x hx
    · rw [List.mem_singleton.1 hx]; exact oneAttr_fine ho hf

theorem repeats_fine {a : List (Text × Text)} {p : Text} {b : List (Text × Text)} (h : Repeats enc a p b) :
    Fine A enc p → (∀ x ∈ a, FineAttr enc x) → (a.map Prod.fst).Nodup → (∀ x ∈ b, FineAttr enc x) ∧ (b.map Prod.fst).Nodup := by
  induction h with
  | here a p n v p' ho hn =>
    intro hf h1 h2
    refine ⟨?_, ?_⟩
    · intro x hx
      obtain ⟨y, hy, rfl⟩ := List.mem_map.1 hx
      split_ifs
      · exact oneAttr_fine ho hf
      · exact h1 y hy
    · have : (a.map fun x => if x.1 = n then (n, v) else x).map Prod.fst = a.map Prod.fst := by
        rw [List.map_map]
        refine List.map_congr_left fun x _ => ?_
        simp only [Function.comp]
        split_ifs with hx
        · exact hx.symm
        · rfl
      rw [this]; exact h2
  | later a p n v p' b ho hn ht ih =>
    intro hf h1 h2
    refine ih (hf.suffix ho.suffix.1) ?_ (nodup_snoc h2 hn)
    intro x hx
    rcases List.mem_append.1 hx with hx | hx
    · exact h1 x hx
    · rw [List.mem_singleton.1 hx]; exact oneAttr_fine ho hf

theorem start_fine {p n q : Text} (h : Start enc p n q) : ValidName n ∧ (enc = .utf8 → NoMark n) := by
  obtain ⟨c, r, p₁, -, -, hg, hn, -⟩ := h
  exact ⟨name_valid hn, name_noMark hg hn⟩

theorem startTag_fine {p name : Text} {attrs : List (Text × Text)} {c : Bool} {q : Text} (h : StartTag enc p name attrs c q) (hf : Fine A enc p) :
    ValidName name ∧ (enc = .utf8 → NoMark name) ∧ (∀ x ∈ attrs, FineAttr enc x) ∧ (attrs.map Prod.fst).Nodup := by
  obtain ⟨p₁, hs, ht⟩ := h
  have := tag_fine ht (hf.suffix hs.suffix) (by simp) (by simp)
  exact ⟨(start_fine hs).1, (start_fine hs).2, this.1, this.2⟩

mutual
/-- What holds for the nodes. -/
def Loaded (A utf8 : Prop) : Node → Prop
  | .element name attrs children =>
    ValidName name ∧ (utf8 → NoMark name) ∧
      (∀ a ∈ attrs, ValidName a.1 ∧ (utf8 → NoMark a.1) ∧ NoReference a.2 ∧ (utf8 → Signs a.2)) ∧ (attrs.map Prod.fst).Nodup ∧
      AllLoaded A utf8 children ∧ NoTwoTexts children ∧ ∀ v, .unknown ('/' :: v) ∉ children
  | .text v => TidyText v ∧ NoReference v ∧ (utf8 → Signs v ∧ NoMark v)
  | .comment v => (A ∨ '&' ∉ v ∧ ¬ "-->".toList <:+: v) ∧ (utf8 → Signs v)
  | .unknown v => '>' ∉ v ∧ (∀ c r, v = c :: r → ¬ (c.isAlpha = true ∨ c = '_' ∨ 127 ≤ c.toNat)) ∧ ¬ "!--".toList <+: v ∧
      ¬ Grammar.Begins "?xml".toList v
  | .declaration v e s => ∀ x ∈ [v, e, s], (A ∨ '&' ∉ x) ∧ (utf8 → Signs x)
/-- All of them. -/
def AllLoaded (A utf8 : Prop) : List Node → Prop
  | [] => True
  | n :: ns => Loaded A utf8 n ∧ AllLoaded A utf8 ns
end

/-! ### Other nodes -/

/-- What holds for the fields of a declaration. -/
def FineDecl (A : Prop) (enc : Enc) (d : Declaration) : Prop :=
  FineValue A enc d.version ∧ FineValue A enc d.encoding ∧ FineValue A enc d.standalone

theorem set_fine {d d₁ : Declaration} {v w : Text} (h : d.Set v w d₁) (hd : FineDecl A enc d) (hv : FineValue A enc v) : FineDecl A enc d₁ := by
  cases h with
  | version => exact ⟨hv, hd.2.1, hd.2.2⟩
  | encoding => exact ⟨hd.1, hv, hd.2.2⟩
  | standalone => exact ⟨hd.1, hd.2.1, hv⟩

theorem declBody_fine {d : Declaration} {p : Text} {d' : Declaration} {r : Option Text} (h : DeclBody enc d p d' r) :
    Fine A enc p → FineDecl A enc d → FineDecl A enc d' := by
  induction h with
  | close => exact fun _ h => h
  | «end» => exact fun _ h => h
  | field d p p₁ word n v d₁ p₂ d₂ r _ hg _ ha hs _ ih =>
    intro hf hd
    have hf₁ := hf.suffix hg.suffix
    exact ih (hf₁.suffix ha.suffix.1) (set_fine hs hd (attr_fine ha hf₁).2)
  | broken d p p₁ word d₁ _ _ _ _ hs => exact fun _ hd => set_fine hs hd fineValue_nil
  | word d p w p₂ d₂ r _ hg _ _ _ _ _ _ _ ih =>
    intro hf hd
    exact ih ((hf.suffix hg.suffix).suffix ⟨w, rfl⟩) hd

theorem other_survives {p : Text} {n : Node} {r : Option Text} (h : Other enc p n r) (hf : Fine A enc p) :
    Loaded A (enc = .utf8) n ∧ n.isText = false ∧ (¬ ['<', '/'] <+: p → ∀ v, n ≠ .unknown ('/' :: v)) := by
  cases h with
  | declaration p d r hb hd =>
    have := declBody_fine hd (hf.suffix (List.drop_suffix _ _)) ⟨fineValue_nil, fineValue_nil, fineValue_nil⟩
    refine ⟨?_, rfl, by simp⟩
    rw [Loaded]
    intro x hx
    simp only [List.mem_cons, List.not_mem_nil, or_false] at hx
    rcases hx with rfl | rfl | rfl
    · exact ⟨this.1.1, this.1.2.2⟩
    · exact ⟨this.2.1.1, this.2.1.2.2⟩
    · exact ⟨this.2.2.1, this.2.2.2.2⟩
  | comment p v q hu =>
    have hf' : Fine A enc p := hf.suffix ⟨_, rfl⟩
    have hv := upto_fine hu hf'
    refine ⟨?_, rfl, by simp⟩
    rw [Loaded]
    refine ⟨hf'.1.imp_right fun hn => ?_, hv.2.2⟩
    have hb : Bare enc p := ⟨hn, hf'.2.2⟩
    have hval := upto_value hu (d := '-') rfl (by decide) hb
    refine ⟨fun hm => hn (by rw [hval.1]; simp [hm]), ?_⟩
    rintro ⟨a, b, hab⟩
    exact hval.2 a ("-->".toList ++ b) (by rw [← hab, List.append_assoc]) (by simp) ⟨b, rfl⟩
  | unknown v t h1 h2 h3 h4 h5 =>
    refine ⟨?_, rfl, ?_⟩
    · rw [Loaded]
      refine ⟨h4, ?_, ?_, ?_⟩
      · rintro c r rfl
        exact h1 c (r ++ t) rfl
      · exact fun hp => h3 (hp.trans (List.prefix_append _ _))
      · intro hb
        refine h2 ?_
        rw [Begins] at hb ⊢
        have hl : 4 ≤ v.length := by
          have := congrArg List.length hb
          simp at this
          omega
        rw [show "<?xml".toList.length = 5 from rfl, List.cons_append, List.take_succ_cons, List.take_append_of_le_length hl, List.map_cons]
        rw [show "?xml".toList.length = 4 from rfl] at hb
        rw [hb]; rfl
    · rintro hn w hw
      cases hw
      exact hn (by simp)

/-! ### Content and files -/

theorem survives_element {name : Text} {attrs : List (Text × Text)} {children : List Node} (hs : ValidName name ∧ (enc = .utf8 → NoMark name) ∧
    (∀ x ∈ attrs, FineAttr enc x) ∧ (attrs.map Prod.fst).Nodup) (hc : AllLoaded A (enc = .utf8) children ∧ NoTwoTexts children ∧
    ∀ v, .unknown ('/' :: v) ∉ children) : Loaded A (enc = .utf8) (.element name attrs children) := by
  rw [Loaded]
  exact ⟨hs.1, hs.2.1, hs.2.2.1, hs.2.2.2, hc⟩

theorem noTwo_cons {n : Node} {ns : List Node} (hn : n.isText = false) (h : NoTwoTexts ns) : NoTwoTexts (n :: ns) := by
  cases n with
  | text v => simp [Node.isText] at hn
  | _ => simpa [NoTwoTexts] using h

theorem content_survives {p : Text} {ns : List Node} {q : Text} (h : Content enc p ns q) : Fine A enc p → (p = [] ∨ Gap enc p p) →
    (AllLoaded A (enc = .utf8) ns ∧ NoTwoTexts ns ∧ ∀ v, .unknown ('/' :: v) ∉ ns) ∧
      ((∃ t, p = '<' :: t) → ∀ v ms, ns ≠ .text v :: ms) := by
  induction h with
  | stop q => exact fun _ _ => ⟨⟨trivial, trivial, by simp⟩, by simp⟩
  | «end» => exact fun _ _ => ⟨⟨trivial, trivial, by simp⟩, by simp⟩
  | text c p v p' ns q hc hco hne hv hcont ih =>
    intro hf hg
    have hg : Gap enc (c :: p) (c :: p) := hg.resolve_left (by simp)
    obtain ⟨u, h1, h2, -, h4⟩ := condensed_value hco hf
    obtain ⟨rfl, h5⟩ := h4 hg.2.2.1 rfl
    have hlt : ∃ t, p' = '<' :: t := hco.ends.resolve_left hne
    have := ih (hf.suffix hco.suffix) (by obtain ⟨t, rfl⟩ := hlt; exact Or.inr (gap_lt t))
    refine ⟨⟨⟨?_, this.1.1⟩, ?_, ?_⟩, ?_⟩
    · rw [Loaded]
      exact ⟨⟨h1.1, h1.2.1, h1.2.2, hv⟩, h2.2.1, fun he => ⟨h2.2.2 he, h5 (fun m r he hm => hg.2.2.2 he m r hm) he⟩⟩
    · have h' := this.2 hlt
      cases ns with
      | nil => simp [NoTwoTexts]
      | cons m ms =>
        cases m with
        | text w => exact absurd rfl (h' w ms)
        | _ => have := this.1.2.1; simpa [NoTwoTexts] using this
    · intro w hw
      rcases List.mem_cons.1 hw with hw | hw
      · cases hw
      · exact this.1.2.2 w hw
    · rintro ⟨t, ht⟩
      simp only [List.cons.injEq] at ht
      exact absurd ht.1 hc
  | noText c p v p' ns q hc hco hne hv hcont ih =>
    intro hf hg
    have hlt : ∃ t, p' = '<' :: t := hco.ends.resolve_left hne
    have := ih (hf.suffix hco.suffix) (by obtain ⟨t, rfl⟩ := hlt; exact Or.inr (gap_lt t))
    refine ⟨this.1, ?_⟩
    rintro ⟨t, ht⟩
    simp only [List.cons.injEq] at ht
    exact absurd ht.1 hc
  | other p n p₁ p₂ ns q hn ho hg hcont ih =>
    intro hf _
    obtain ⟨h1, h2, h3⟩ := other_survives ho hf
    have := ih ((hf.suffix ho.suffix).suffix hg.suffix) (by
      by_cases hp : p₂ = []
      · exact Or.inl hp
      · exact Or.inr (hg.again hp))
    refine ⟨⟨⟨h1, this.1.1⟩, noTwo_cons h2 this.1.2.1, ?_⟩, ?_⟩
    · intro v hv
      rcases List.mem_cons.1 hv with hv | hv
      · exact h3 hn v hv.symm
      · exact this.1.2.2 v hv
    · rintro - v ms hvm
      simp only [List.cons.injEq] at hvm
      rw [hvm.1] at h2
      simp [Node.isText] at h2
  | empty p name attrs p₁ p₂ ns q hs hg hcont ih =>
    intro hf _
    have := ih ((hf.suffix hs.suffix).suffix hg.suffix) (by
      by_cases hp : p₂ = []
      · exact Or.inl hp
      · exact Or.inr (hg.again hp))
    refine ⟨⟨⟨survives_element (startTag_fine hs hf) ⟨trivial, trivial, by simp⟩, this.1.1⟩, noTwo_cons rfl this.1.2.1, ?_⟩, by simp⟩
    intro v hv
    rcases List.mem_cons.1 hv with hv | hv
    · cases hv
    · exact this.1.2.2 v hv
  | element p name attrs p₁ p₂ children p₃ p₄ ns q hs hg hc hg' hcont ih ih' =>
    intro hf _
    have hf₂ := (hf.suffix hs.suffix).suffix hg.suffix
    have h1 := ih hf₂ (by
      by_cases hp : p₂ = []
      · exact Or.inl hp
      · exact Or.inr (hg.again hp))
    have hf₃ : Fine A enc p₃ := (hf₂.suffix hc.isSuffix).suffix ⟨'<' :: '/' :: name ++ ['>'], by simp⟩
    have h2 := ih' (hf₃.suffix hg'.suffix) (by
      by_cases hp : p₄ = []
      · exact Or.inl hp
      · exact Or.inr (hg'.again hp))
    refine ⟨⟨⟨survives_element (startTag_fine hs hf) h1.1, h2.1.1⟩, noTwo_cons rfl h2.1.2.1, ?_⟩, by simp⟩
    intro v hv
    rcases List.mem_cons.1 hv with hv | hv
    · cases hv
    · exact h2.1.2.2 v hv

end Gear.Xml.Save
