/-
Saved documents follow the grammar of files.
-/
import Verif.XmlLemmas
import Verif.XmlGrammarProps
import Verif.XmlSaveSpec

set_option autoImplicit false
set_option linter.unusedSectionVars false

namespace Gear.Xml.Save

open Grammar Spec

/-! ### Texts -/

theorem Signs.suffix {a b : Text} (h : Signs (a ++ b)) : Signs b := by
  intro x c r hb
  exact h (a ++ x) c r (by rw [hb, List.append_assoc])

theorem escape_high {c : Char} (h : 0x80 ≤ c.toNat) : escape c = [c] := by
  have e : ∀ d : Char, d.toNat < 0x80 → c ≠ d := fun d hd => by rintro rfl; omega
  unfold escape
  rw [if_neg (e _ (by decide)), if_neg (e _ (by decide)), if_neg (e _ (by decide)), if_neg (e _ (by decide)),
    if_neg (e _ (by decide)), if_neg (by omega)]

theorem flatMap_high {s : Text} (h : ∀ x ∈ s, 0x80 ≤ x.toNat) : s.flatMap escape = s := by
  induction s with
  | nil => rfl
  | cons c s ih => rw [List.flatMap_cons, escape_high (h c (by simp)), ih fun x hx => h x (by simp [hx])]; rfl

theorem width_low {enc : Enc} {c : Char} (h : c.toNat < 0xc2) : width enc c = 1 := by
  cases enc
  · rfl
  · rw [width, if_neg (by omega), if_neg (by omega), if_neg (by omega)]
  · rfl

theorem hex_number : ∀ n < 32, number 16 [hexDigit (n / 16), hexDigit (n % 16)] = some n ∧ hexDigit (n / 16) ≠ ';' ∧ hexDigit (n % 16) ≠ ';' := by
  decide

theorem coded_low {enc : Enc} {n : ℕ} (h : n < 0x80) : coded enc n = [Char.ofNat n] := by
  cases enc
  · rw [coded, Nat.mod_eq_of_lt (by omega)]; nofun
  · rw [coded, utf8, if_pos h]; rfl
  · rw [coded, Nat.mod_eq_of_lt (by omega)]; nofun

/-- An escaped character of one byte is read back. -/
theorem piece_one {enc : Enc} {c : Char} (hw : width enc c = 1) (q : Text) : Piece enc (escape c ++ q) [c] q := by
  unfold escape
  split_ifs with h1 h2 h3 h4 h5 h6
  · subst h1; exact .entity "amp".toList '&' q (by simp [entityNames])
  · subst h2; exact .entity "lt".toList '<' q (by simp [entityNames])
  · subst h3; exact .entity "gt".toList '>' q (by simp [entityNames])
  · subst h4; exact .entity "quot".toList '"' q (by simp [entityNames])
  · subst h5; exact .entity "apos".toList '\'' q (by simp [entityNames])
  · obtain ⟨e1, e2, e3⟩ := hex_number c.toNat h6
    have := Piece.hex (enc := enc) [hexDigit (c.toNat / 16), hexDigit (c.toNat % 16)] c.toNat q
      (by simp [Ne.symm e2, Ne.symm e3]) ⟨[], _, rfl, Or.inl rfl, e1⟩
    rwa [coded_low (by omega), Char.ofNat_toNat] at this
  · exact .char c [] q h1 (by simpa using hw.symm)

theorem escape_first (c : Char) : ∃ d t, escape c = d :: t ∧ d ≠ '<' ∧ d ≠ '"' ∧ d ≠ '\'' ∧ (c ≠ ' ' → ¬ Space d) ∧ (d = '&' ∨ (d = c ∧ t = [])) := by
  by_cases hb : escape c = [c]
  · refine ⟨c, [], hb, ?_, ?_, ?_, ?_, Or.inr ⟨rfl, rfl⟩⟩
    · rintro rfl; revert hb; decide
    · rintro rfl; revert hb; decide
    · rintro rfl; revert hb; decide
    · intro hc hs
      simp only [Space, List.mem_cons, List.not_mem_nil, or_false] at hs
      rcases hs with rfl | rfl | rfl | rfl | rfl | rfl
      · exact hc rfl
      all_goals revert hb; decide
  · have : ∃ t, escape c = '&' :: t := by
      unfold escape at hb ⊢
      split_ifs at hb ⊢ <;> first | exact ⟨_, rfl⟩ | exact absurd rfl hb
    obtain ⟨t, ht⟩ := this
    exact ⟨'&', t, ht, by decide, by decide, by decide, fun _ => by unfold Space; decide, Or.inl rfl⟩

/-- An escaped character is read back. -/
theorem piece_escape {enc : Enc} {c : Char} {v : Text} (h : enc = .utf8 → Signs (c :: v)) :
    ∃ s w, v = s ++ w ∧ (∀ x ∈ s, 0x80 ≤ x.toNat) ∧ (∀ q, Piece enc ((c :: s).flatMap escape ++ q) (c :: s) q) ∧
      (c ≠ '&' → ∀ q, Piece enc (c :: s ++ q) (c :: s) q) := by
  by_cases hw : width enc c = 1
  · exact ⟨[], v, rfl, by simp, fun q => by simpa using piece_one hw q, fun hc q => .char c [] q hc (by simpa using hw.symm)⟩
  · have he : enc = .utf8 := by
      cases enc
      · exact absurd rfl hw
      · rfl
      · exact absurd rfl hw
    obtain ⟨s, w, hs, hl, hx⟩ := h he [] c v rfl
    have hc : 0xc2 ≤ c.toNat := by
      by_contra hc
      exact hw (width_low (by omega))
    have hamp : c ≠ '&' := by rintro rfl; revert hc; decide
    have hp : ∀ q, Piece enc (c :: s ++ q) (c :: s) q := fun q => .char c s q hamp (by rw [hl, he])
    have hx : ∀ x ∈ s, 0x80 ≤ x.toNat := fun x h => (hx x h).1
    refine ⟨s, w, hs, hx, fun q => ?_, fun _ => hp⟩
    rw [List.flatMap_cons, escape_high (by omega), flatMap_high hx]
    exact hp q

theorem Signs.rest {enc : Enc} {a b : Text} (h : enc = .utf8 → Signs (a ++ b)) : enc = .utf8 → Signs b := fun he => (h he).suffix

/-- Escaped text up to a quote. -/
theorem upto_escape {enc : Enc} {q : Char} (hq : q = '"' ∨ q = '\'') (r : Text) : ∀ (k : ℕ) (v : Text), v.length ≤ k →
    (enc = .utf8 → Signs v) → Upto enc [q] (v.flatMap escape ++ q :: r) v r := by
  intro k
  induction k with
  | zero =>
    intro v hk _
    cases v with
    | nil => exact .stop (stop := [q]) r
    | cons c v => simp at hk
  | succ k ih =>
    intro v hk hs
    cases v with
    | nil => exact .stop (stop := [q]) r
    | cons c v =>
      obtain ⟨s, w, rfl, hx, hp, -⟩ := piece_escape hs
      have hw : enc = .utf8 → Signs w := Signs.rest (a := c :: s) (by simpa using hs)
      have := ih w (by simp at hk; omega) hw
      rw [show (c :: (s ++ w)).flatMap escape ++ q :: r = (c :: s).flatMap escape ++ (w.flatMap escape ++ q :: r) by simp,
        show c :: (s ++ w) = (c :: s) ++ w from rfl]
      refine .piece _ _ _ _ _ ?_ (hp _) this
      obtain ⟨d, t, hd, -, h1, h2, -⟩ := escape_first c
      rw [List.flatMap_cons, hd]
      rintro ⟨t', ht⟩
      simp only [List.cons_append, List.nil_append, List.cons.injEq] at ht
      rcases hq with rfl | rfl
      · exact h1 ht.1.symm
      · exact h2 ht.1.symm

/-- Text without ampersands up to the first `stop`. -/
theorem upto_raw {enc : Enc} {stop : Text} (r : Text) : ∀ (k : ℕ) (v : Text), v.length ≤ k → '&' ∉ v →
    (enc = .utf8 → Signs v) → (∀ a c b, v = a ++ c :: b → ¬ stop <+: c :: b ++ stop ++ r) → Upto enc stop (v ++ stop ++ r) v r := by
  intro k
  induction k with
  | zero =>
    intro v hk _ _ _
    cases v with
    | nil => exact .stop r
    | cons c v => simp at hk
  | succ k ih =>
    intro v hk ha hs hst
    cases v with
    | nil => exact .stop r
    | cons c v =>
      obtain ⟨s, w, rfl, hx, -, hp⟩ := piece_escape hs
      have hw : enc = .utf8 → Signs w := Signs.rest (a := c :: s) (by simpa using hs)
      have hc : c ≠ '&' := fun hc => ha (by simp [hc])
      have := ih w (by simp at hk; omega) (fun hm => ha (by simp [hm])) hw
        (fun a d b hb => hst ((c :: s) ++ a) d b (by rw [hb]; simp))
      have h0 := hst [] c (s ++ w) rfl
      rw [show c :: (s ++ w) ++ stop ++ r = (c :: s) ++ (w ++ stop ++ r) by simp] at h0 ⊢
      rw [show c :: (s ++ w) = (c :: s) ++ w from rfl]
      exact .piece _ _ _ _ _ h0 (hp hc _) this

theorem upto_quoted {enc : Enc} {q : Char} {v : Text} (hq : q ∉ v) (ha : '&' ∉ v) (hs : enc = .utf8 → Signs v) (r : Text) :
    Upto enc [q] (v ++ q :: r) v r := by
  have := upto_raw (enc := enc) (stop := [q]) r v.length v le_rfl ha hs (by
    rintro a c b rfl ⟨t, ht⟩
    simp only [List.cons_append, List.nil_append, List.cons.injEq] at ht
    exact hq (by simp [ht.1]))
  simpa using this

theorem upto_comment {enc : Enc} {v : Text} (h1 : '&' ∉ v) (h2 : ¬ "-->".toList <:+: v) (hs : enc = .utf8 → Signs v) (r : Text) :
    Upto enc "-->".toList (v ++ "-->".toList ++ r) v r := by
  refine upto_raw r v.length v le_rfl h1 hs ?_
  rintro a c b rfl hp
  match b, hp with
  | [], hp => simp [show "-->".toList = ['-', '-', '>'] from rfl, List.cons_prefix_cons] at hp
  | [d], hp => simp [show "-->".toList = ['-', '-', '>'] from rfl, List.cons_prefix_cons] at hp
  | d :: e :: b, hp =>
    simp only [show "-->".toList = ['-', '-', '>'] from rfl, List.cons_append, List.cons_prefix_cons, List.nil_prefix, and_true] at hp
    obtain ⟨rfl, rfl, rfl⟩ := hp
    exact h2 ⟨a, b, by simp [show "-->".toList = ['-', '-', '>'] from rfl]⟩

theorem condensed_spaces {enc : Enc} {ws : Text} (h : ∀ c ∈ ws, Space c) (r : Text) (w : Bool) :
    Condensed enc w (ws ++ '<' :: r) [] ('<' :: r) := by
  induction ws generalizing w with
  | nil => exact .stop w _ (Or.inr ⟨r, rfl⟩)
  | cons c ws ih => exact .space w c _ _ _ (h c (by simp)) (ih (fun d hd => h d (by simp [hd])) true)

/-- Escaped text up to a tag, with white space before the tag. -/
theorem condensed_escape {enc : Enc} {ws : Text} (hws : ∀ c ∈ ws, Space c) (r : Text) : ∀ (k : ℕ) (v : Text), v.length ≤ k →
    (enc = .utf8 → Signs v) → v ≠ [] → (∀ t, v ≠ ' ' :: t) → (∀ t, v ≠ t ++ [' ']) → ¬ [' ', ' '] <:+: v → ∀ w : Bool,
    Condensed enc w (v.flatMap escape ++ (ws ++ '<' :: r)) ((if w then [' '] else []) ++ v) ('<' :: r) := by
  intro k
  induction k with
  | zero => intro v hk _ hv; exact absurd (List.length_eq_zero_iff.1 (by omega)) hv
  | succ k ih =>
    intro v hk hs hv h1 h2 h3 w
    cases v with
    | nil => exact absurd rfl hv
    | cons c v =>
      obtain ⟨s, u, rfl, hx, hp, -⟩ := piece_escape hs
      have hu : enc = .utf8 → Signs u := Signs.rest (a := c :: s) (by simpa using hs)
      have hrest : Condensed enc false (u.flatMap escape ++ (ws ++ '<' :: r)) u ('<' :: r) := by
        cases u with
        | nil => exact condensed_spaces hws r false
        | cons d u =>
          by_cases hd : d = ' '
          · subst hd
            have hne : u ≠ [] := by
              rintro rfl
              exact h2 (c :: s) (by simp)
            have hu' : enc = .utf8 → Signs u := Signs.rest (a := [' ']) hu
            have := ih u (by simp at hk; omega) hu' hne (by
                rintro t rfl
                exact h3 ⟨c :: s, t, by simp⟩) (by
                rintro t rfl
                exact h2 (c :: s ++ ' ' :: t) (by simp)) (by
                rintro ⟨a, b, hab⟩
                exact h3 ⟨c :: s ++ ' ' :: a, b, by rw [← hab]; simp⟩) true
            rw [List.flatMap_cons, show escape ' ' = [' '] from rfl]
            exact .space false ' ' _ _ _ (by unfold Space; decide) this
          · have := ih (d :: u) (by simp at hk ⊢; omega) hu (by simp) (by simpa using hd) (by
                intro t ht
                exact h2 (c :: s ++ t) (by rw [ht]; simp)) (by
                rintro ⟨a, b, hab⟩
                exact h3 ⟨c :: s ++ a, b, by rw [← hab]; simp⟩) false
            exact this
      obtain ⟨d, t, hd, e1, -, -, e2, -⟩ := escape_first c
      have hp' := hp (u.flatMap escape ++ (ws ++ '<' :: r))
      rw [show (c :: (s ++ u)).flatMap escape ++ (ws ++ '<' :: r) = (c :: s).flatMap escape ++ (u.flatMap escape ++ (ws ++ '<' :: r)) by simp,
        show c :: (s ++ u) = (c :: s) ++ u from rfl, ← List.append_assoc (if w then [' '] else [])]
      rw [show (c :: s).flatMap escape ++ (u.flatMap escape ++ (ws ++ '<' :: r))
        = d :: (t ++ s.flatMap escape ++ (u.flatMap escape ++ (ws ++ '<' :: r))) by rw [List.flatMap_cons, hd]; simp] at hp' ⊢
      exact .piece w d _ _ _ _ _ (e2 fun hc => h1 _ (by rw [hc])) e1 hp' hrest

/-! ### White space -/

theorem gap_spaces {enc : Enc} {ws q : Text} (h : ∀ c ∈ ws, Space c) (hq : Gap enc q q) : Gap enc (ws ++ q) q := by
  refine ⟨by simp [hq.1], ?_, hq.2.2.1, hq.2.2.2⟩
  induction ws with
  | nil => exact .none _
  | cons c ws ih => exact .space _ _ _ (h c (by simp)) (ih fun d hd => h d (by simp [hd]))

theorem gap_end {enc : Enc} {ws : Text} (h : ∀ c ∈ ws, Space c) (hne : ws ≠ []) : Gap enc ws [] := by
  refine ⟨hne, ?_, by simp, ?_⟩
  · clear hne
    induction ws with
    | nil => exact .none _
    | cons c ws ih => exact .space _ _ _ (h c (by simp)) (ih fun d hd => h d (by simp [hd]))
  · intro _ m r hm hM
    obtain ⟨rfl, -⟩ := List.append_eq_nil_iff.1 hm.symm
    simp [Grammar.Mark] at hM

/-- A text that does not begin with a mark does not do so if something in ASCII follows. -/
theorem noMark_append {v : Text} (h : NoMark v) {c : Char} (hc : c.toNat < 128) (r : Text) : ∀ m t, v ++ c :: r = m ++ t → ¬ Grammar.Mark m := by
  intro m t hm hM
  have hlen : m.length = 3 := by
    obtain ⟨a, b, d, rfl⟩ := mark_cons hM; rfl
  have hall : ∀ x ∈ m, 128 ≤ x.toNat := by
    intro x hx
    have hx' : x.toNat ∈ m.map Char.toNat := List.mem_map_of_mem hx
    rcases hM with hM | hM | hM <;> rw [hM] at hx' <;> simp at hx' <;> omega
  by_cases hv : 3 ≤ v.length
  · refine h m hM ?_
    have : m = v.take 3 := by
      have := congrArg (List.take 3) hm
      rw [List.take_append_of_le_length hv, ← hlen, List.take_left] at this
      rw [← hlen, this]
    rw [this]
    exact List.take_prefix _ _
  · have : c ∈ m := by
      have hc' : c ∈ (m ++ t).take 3 := by
        rw [← hm, List.take_append]
        obtain ⟨k, hk⟩ : ∃ k, 3 - v.length = k + 1 := ⟨2 - v.length, by omega⟩
        rw [hk, List.take_succ_cons]
        simp
      rwa [← hlen, List.take_left] at hc'
    have := hall c this
    omega

theorem name_first {n : Text} (h : ValidName n) : ∃ c r, n = c :: r ∧ NameStart c ∧ ¬ Space c ∧ c ≠ '/' ∧ c ≠ '>' ∧ c ≠ '?' ∧ c ≠ '!' ∧ c ≠ '<' := by
  obtain ⟨⟨c, r, rfl, hc⟩, ha⟩ := h
  have hk := nameChar_code (ha c (by simp))
  refine ⟨c, r, rfl, hc, ?_, ?_, ?_, ?_, ?_, ?_⟩
  · intro hs
    simp only [Space, List.mem_cons, List.not_mem_nil, or_false] at hs
    rcases hs with rfl | rfl | rfl | rfl | rfl | rfl <;> revert hk <;> decide
  all_goals rintro rfl; revert hk; decide

theorem gap_name {enc : Enc} {n : Text} (h : ValidName n) (hm : enc = .utf8 → NoMark n) {c : Char} (hc : c.toNat < 128) (r : Text) :
    Gap enc (n ++ c :: r) (n ++ c :: r) := by
  refine ⟨by simp, .none _, ?_, fun he => noMark_append (hm he) hc r⟩
  obtain ⟨d, t, rfl, -, hd, -⟩ := name_first h
  intro x y hxy
  simp only [List.cons_append, List.cons.injEq] at hxy
  rw [← hxy.1]; exact hd

theorem name_name {n : Text} (h : ValidName n) {c : Char} (hc : ¬ NameChar c) (r : Text) : Name (n ++ c :: r) n (c :: r) := by
  obtain ⟨⟨d, t, rfl, hd⟩, ha⟩ := h
  exact ⟨rfl, ⟨d, t, rfl, hd⟩, ha, by rintro x y hxy; cases hxy; exact hc⟩

theorem not_nameChar : ¬ NameChar ' ' ∧ ¬ NameChar '=' ∧ ¬ NameChar '>' := by
  refine ⟨?_, ?_, ?_⟩ <;> · rw [← nameChar_iff]; decide

/-! ### Attributes -/

theorem attr_quoted {enc : Enc} {n : Text} (h : ValidName n) (hm : enc = .utf8 → NoMark n) {q : Char} (hq : q = '"' ∨ q = '\'') {w v r : Text}
    (hu : Upto enc [q] w v r) : Attr enc (n ++ '=' :: q :: w) n v r := by
  refine ⟨q :: w, ⟨n ++ '=' :: q :: w, '=' :: q :: w, q :: w, gap_name h hm (by decide) _, name_name h not_nameChar.2.1 _, ?_, ?_, by simp⟩, ?_⟩
  · exact gap_self (by unfold Space; decide) (by decide)
  · rcases hq with rfl | rfl <;> exact gap_self (by unfold Space; decide) (by decide)
  · rcases hq with rfl | rfl
    · exact .double _ _ _ hu
    · exact .single _ _ _ hu

theorem attr_print {enc : Enc} {a : Text × Text} (h : ValidName a.1) (hm : enc = .utf8 → NoMark a.1) (hr : NoReference a.2)
    (hs : enc = .utf8 → Signs a.2) (r : Text) : Attr enc (printAttribute a ++ r) a.1 a.2 r := by
  unfold printAttribute
  simp only [Xml.putString_name h, putString_flatMap hr]
  split_ifs
  · have := attr_quoted h hm (Or.inr rfl) (upto_escape (enc := enc) (Or.inr rfl) r _ a.2 le_rfl hs)
    simpa using this
  · have := attr_quoted h hm (Or.inl rfl) (upto_escape (enc := enc) (Or.inl rfl) r _ a.2 le_rfl hs)
    simpa using this

theorem print_first {a : Text × Text} (h : ValidName a.1) : ∃ t, printAttribute a = a.1 ++ '=' :: t := by
  unfold printAttribute
  simp only [Xml.putString_name h]
  split_ifs <;> exact ⟨_, by simp; rfl⟩

theorem tag_print {enc : Enc} {closed : Bool} {tail q : Text} (htail : tail ≠ []) (hend : ∀ a, Tag enc a tail a closed q) :
    ∀ (attrs acc : List (Text × Text)), (∀ a ∈ attrs, ValidName a.1 ∧ (enc = .utf8 → NoMark a.1) ∧ NoReference a.2 ∧ (enc = .utf8 → Signs a.2)) →
      ((acc ++ attrs).map Prod.fst).Nodup → Tag enc acc (attrs.flatMap (fun a => ' ' :: printAttribute a) ++ tail) (acc ++ attrs) closed q := by
  intro attrs
  induction attrs with
  | nil => intro acc _ _; simpa using hend acc
  | cons a attrs ih =>
    intro acc ha hn
    obtain ⟨h1, h2, h3, h4⟩ := ha a (by simp)
    have := ih (acc ++ [a]) (fun b hb => ha b (by simp [hb])) (by simpa using hn)
    rw [List.append_assoc] at this
    rw [List.flatMap_cons, List.append_assoc]
    refine .attr acc _ a.1 a.2 (attrs.flatMap (fun a => ' ' :: printAttribute a) ++ tail) _ _ _ ?_ ?_ this
    · refine ⟨printAttribute a ++ (attrs.flatMap (fun a => ' ' :: printAttribute a) ++ tail), ?_, ?_, ?_, attr_print h1 h2 h3 h4 _, by simp [htail]⟩
      · obtain ⟨t, ht⟩ := print_first h1
        rw [ht]
        have := gap_spaces (ws := [' ']) (by unfold Space; decide)
          (gap_name h1 h2 (c := '=') (by decide) (t ++ (attrs.flatMap (fun a => ' ' :: printAttribute a) ++ tail)))
        simpa using this
      all_goals
        obtain ⟨t, ht⟩ := print_first h1
        obtain ⟨c, r, hc, -, -, e1, e2, -⟩ := name_first h1
        rw [ht, hc]
        intro r' hr
        simp only [List.cons_append, List.cons.injEq] at hr
        first | exact e1 hr.1 | exact e2 hr.1
    · intro hm
      rw [List.map_append, List.map_cons, List.nodup_append] at hn
      exact hn.2.2 _ hm _ (by simp) rfl

theorem start_name {enc : Enc} {n : Text} (h : ValidName n) (hm : enc = .utf8 → NoMark n) {c : Char} (hc : ¬ NameChar c) (hc' : c.toNat < 128)
    (r : Text) : Start enc ('<' :: n ++ c :: r) n (c :: r) := by
  have hg := gap_name h hm hc' r
  have hn := name_name h hc r
  obtain ⟨d, t, rfl, hd, -⟩ := name_first h
  exact ⟨d, t ++ c :: r, _, rfl, hd, hg, hn, by simp⟩

/-! ### Declarations -/

/-- The fields that are written. -/
def written (val : Text → Text) (word v : Text) : Text := if v ≠ [] then word ++ "=\"".toList ++ val v ++ "\" ".toList else []

theorem declaration_end {enc : Enc} (d : Declaration) (q : Text) : DeclBody enc d (' ' :: '?' :: '>' :: q) d (some q) := by
  refine .word d _ ['?'] ('>' :: q) d (some q) (by simp) ?_ (by simp) ?_ ?_ ?_ ?_ ?_ (.close d q)
  · exact gap_spaces (ws := [' ']) (by unfold Space; decide) (gap_self (by unfold Space; decide) (by decide))
  · simp [Begins]
  · simp [Begins]
  · simp [Begins]
  · unfold Space; decide
  · rintro c t h; cases h; exact Or.inr rfl

theorem declaration_field {enc : Enc} {val : Text → Text} {word v : Text} (hw : word ∈ ["version".toList, "encoding".toList, "standalone".toList])
    {d d₁ : Declaration} (hd : d.Set v word d₁) {d₂ : Declaration} {o : Option Text}
    (hv : ∀ r, Upto enc ['"'] (val v ++ '"' :: r) v r) {t : Text} (hb : DeclBody enc d₁ (' ' :: t) d₂ o) :
    DeclBody enc d (' ' :: (word ++ "=\"".toList ++ val v ++ "\" ".toList ++ t)) d₂ o := by
  have hname : ValidName word ∧ word.map Char.toLower = word ∧ ∀ c ∈ word, c.toNat < 128 := by
    simp only [List.mem_cons, List.not_mem_nil, or_false] at hw
    rcases hw with rfl | rfl | rfl <;> decide +kernel
  have hmark : NoMark word := by
    rintro m hM ⟨t, ht⟩
    obtain ⟨a, b, c, rfl⟩ := mark_cons hM
    have := hname.2.2 a (by rw [← ht]; simp)
    simp [Grammar.Mark] at hM
    omega
  have ha := attr_quoted (enc := enc) hname.1 (fun _ => hmark) (Or.inl rfl) (hv (' ' :: t))
  have e : word ++ "=\"".toList ++ val v ++ "\" ".toList ++ t = word ++ '=' :: '"' :: (val v ++ '"' :: ' ' :: t) := by
    simp [show "=\"".toList = ['=', '"'] from rfl, show "\" ".toList = ['"', ' '] from rfl]
  rw [e]
  refine .field d _ _ word word v d₁ (' ' :: t) d₂ o (by simp) ?_ ?_ ha hd hb
  · exact gap_spaces (ws := [' ']) (by unfold Space; decide) (gap_name hname.1 (fun _ => hmark) (by decide) _)
  · rw [Begins, List.take_left]
    exact hname.2.1

theorem declaration_written {enc : Enc} {val : Text → Text} {v e s : Text} (h : ∀ x ∈ [v, e, s], ∀ r, Upto enc ['"'] (val x ++ '"' :: r) x r) (q : Text) :
    Other enc ("<?xml ".toList ++ written val "version".toList v ++ written val "encoding".toList e ++ written val "standalone".toList s ++ "?>".toList ++ q)
      (.declaration v e s) (some q) := by
  have h3 : ∀ v e, DeclBody enc ⟨v, e, []⟩ (' ' :: (written val "standalone".toList s ++ "?>".toList ++ q)) ⟨v, e, s⟩ (some q) := by
    intro v e
    unfold written
    by_cases hs : s = []
    · rw [if_neg (by simp [hs]), hs]
      exact declaration_end _ q
    · rw [if_pos hs, List.append_assoc]
      exact declaration_field (by simp) .standalone (h s (by simp)) (declaration_end _ q)
  have h2 : ∀ v, DeclBody enc ⟨v, [], []⟩ (' ' :: (written val "encoding".toList e ++ (written val "standalone".toList s ++ "?>".toList ++ q))) ⟨v, e, s⟩ (some q) := by
    intro v
    rw [written]
    by_cases he : e = []
    · rw [if_neg (by simp [he]), he]
      have := h3 v []
      rwa [List.nil_append]
    · rw [if_pos he]
      exact declaration_field (by simp) .encoding (h e (by simp)) (h3 v e)
  have h1 : DeclBody enc {} (' ' :: (written val "version".toList v ++ (written val "encoding".toList e ++ (written val "standalone".toList s ++ "?>".toList ++ q))))
      ⟨v, e, s⟩ (some q) := by
    rw [written]
    by_cases hv : v = []
    · rw [if_neg (by simp [hv]), hv]
      have := h2 []
      rwa [List.nil_append]
    · rw [if_pos hv]
      exact declaration_field (by simp) .version (h v (by simp)) (h2 v)
  have := Other.declaration (enc := enc) ("<?xml".toList ++ ' ' :: (written val "version".toList v ++ (written val "encoding".toList e
    ++ (written val "standalone".toList s ++ "?>".toList ++ q)))) ⟨v, e, s⟩ (some q) (by
      rw [Begins, List.take_left]; decide) h1
  have e : "<?xml ".toList = "<?xml".toList ++ [' '] := rfl
  rw [e]
  simpa only [List.append_assoc, List.cons_append, List.nil_append] using this

end Gear.Xml.Save
