/-
Reading from a stream without zero bytes ends, and takes a part of it.
-/
import Verif.XmlStreamLemmas
import Verif.XmlSafety

set_option autoImplicit false
set_option linter.unusedSectionVars false

namespace Gear.Xml.Stream

/-- From `rest` a part was taken, and added to `tag`; a stream that is not good is at its end. -/
def Took (rest tag : Text) (s : In) (tag' : Text) : Prop :=
  ∃ t, tag' = tag ++ t ∧ rest = t ++ s.rest ∧ (s.good = false → s.rest = [])

theorem Took.step {c : Char} {rest tag tag' : Text} {s : In} (h : Took rest (tag ++ [c]) s tag') : Took (c :: rest) tag s tag' := by
  obtain ⟨t, rfl, rfl, h⟩ := h
  exact ⟨c :: t, by simp, by simp, h⟩

theorem Took.trans {rest tag tag' tag'' : Text} {s s' : In} (h : Took rest tag s tag') (h' : Took s.rest tag' s' tag'') :
    Took rest tag s' tag'' := by
  obtain ⟨t, rfl, e, -⟩ := h
  obtain ⟨t', rfl, e', h'⟩ := h'
  exact ⟨t ++ t', by simp, by rw [e, e']; simp, h'⟩

theorem Took.stop (rest tag : Text) : Took rest tag ⟨rest, true⟩ tag := ⟨[], by simp, by simp, by simp⟩

theorem Took.eof (tag : Text) : Took [] tag ⟨[], false⟩ tag := ⟨[], by simp, by simp, by simp⟩

theorem Took.le {rest tag tag' : Text} {s : In} (h : Took rest tag s tag') : s.rest.length ≤ rest.length := by
  obtain ⟨t, -, e, -⟩ := h
  rw [e]; simp

theorem Took.zero {rest tag tag' : Text} {s : In} (h : Took rest tag s tag') (hz : zero ∉ rest) : zero ∉ s.rest := by
  obtain ⟨t, -, e, -⟩ := h
  rw [e] at hz
  exact fun hh => hz (by simp [hh])

theorem white_took {rest : Text} (hz : zero ∉ rest) (tag : Text) :
    Took rest tag (white rest tag).1 (white rest tag).2 ∧
      ((white rest tag).1.good = true → ∃ c r, (white rest tag).1.rest = c :: r) := by
  induction rest generalizing tag with
  | nil => exact ⟨Took.eof tag, by simp [white]⟩
  | cons c rest ih =>
    rw [white]
    split_ifs with h
    · exact ⟨Took.stop .., fun _ => ⟨c, rest, rfl⟩⟩
    · have := ih (fun hh => hz (by simp [hh])) (tag ++ [c])
      exact ⟨this.1.step, this.2⟩

theorem upTo_took {rest : Text} (hz : zero ∉ rest) (tag : Text) :
    Took rest tag (upTo rest tag).1 (upTo rest tag).2 ∧
      ((upTo rest tag).1.good = true → ∃ r, (upTo rest tag).1.rest = '>' :: r) := by
  induction rest generalizing tag with
  | nil => exact ⟨Took.eof tag, by simp [upTo]⟩
  | cons c rest ih =>
    rw [upTo]
    split_ifs with h h0
    · subst h; exact ⟨Took.stop .., fun _ => ⟨rest, rfl⟩⟩
    · exact absurd (by simp [h0]) hz
    · have := ih (fun hh => hz (by simp [hh])) (tag ++ [c])
      exact ⟨this.1.step, this.2⟩

theorem streamTo_took {rest : Text} (hz : zero ∉ rest) (ch : Char) (tag : Text) :
    Took rest tag (streamTo ch rest tag).1 (streamTo ch rest tag).2.1 ∧
      ((streamTo ch rest tag).2.2 = false → (streamTo ch rest tag).1 = ⟨[], false⟩) := by
  induction rest generalizing tag with
  | nil => exact ⟨Took.eof tag, by simp [streamTo]⟩
  | cons c rest ih =>
    rw [streamTo]
    split_ifs with h h0
    · exact ⟨Took.stop .., by simp⟩
    · exact absurd (by simp [h0]) hz
    · have := ih (fun hh => hz (by simp [hh])) (tag ++ [c])
      exact ⟨this.1.step, this.2⟩

theorem through_took {rest : Text} (hz : zero ∉ rest) (tag : Text) :
    Took rest tag (through rest tag).1 (through rest tag).2.1 ∧
      ((through rest tag).2.2 = true → (through rest tag).1.rest.length < rest.length ∧ ∃ t, (through rest tag).2.1 = t ++ ['>']) ∧
      ((through rest tag).2.2 = false → (through rest tag).1.rest = []) := by
  induction rest generalizing tag with
  | nil => exact ⟨Took.eof tag, by simp [through], by simp [through]⟩
  | cons c rest ih =>
    rw [through]
    split_ifs with h0 h
    · exact absurd (by simp [h0]) hz
    · subst h; exact ⟨Took.step (Took.stop ..), fun _ => ⟨by simp, ⟨tag, rfl⟩⟩, by simp⟩
    · have := ih (fun hh => hz (by simp [hh])) (tag ++ [c])
      refine ⟨this.1.step, fun hh => ?_, this.2.2⟩
      obtain ⟨h2, h3⟩ := this.2.1 hh
      exact ⟨by simp only [List.length_cons]; omega, h3⟩

theorem text_took {rest : Text} (hz : zero ∉ rest) (tag : Text) : Took rest tag (text rest tag).1 (text rest tag).2 := by
  induction rest generalizing tag with
  | nil => exact Took.eof tag
  | cons c rest ih =>
    rw [text]
    split_ifs with h h0
    · exact Took.stop ..
    · exact absurd (by simp [h0]) hz
    · exact (ih (fun hh => hz (by simp [hh])) (tag ++ [c])).step

theorem comment_took {rest : Text} (hz : zero ∉ rest) (tag : Text) (h2 : 2 ≤ tag.length) :
    ∃ s tag', comment rest tag = .ok (s, tag') ∧ Took rest tag s tag' := by
  induction rest generalizing tag with
  | nil => exact ⟨_, _, rfl, Took.eof tag⟩
  | cons c rest ih =>
    rw [comment_step h2 c rest (fun hh => hz (by simp [hh]))]
    split_ifs
    · exact ⟨_, _, rfl, Took.step (Took.stop ..)⟩
    · obtain ⟨s, tag', e, h⟩ := ih (fun hh => hz (by simp [hh])) (tag ++ [c]) (by simp; omega)
      exact ⟨s, tag', e, h.step⟩

theorem inner_took {rest : Text} (hz : zero ∉ rest) (tag : Text) (found closing : Bool) :
    Took rest tag (inner rest tag found closing).1 (inner rest tag found closing).2.1 ∧
      ((inner rest tag found closing).2.2 ≠ none → (inner rest tag found closing).1.good = true ∧
        ∃ r, (inner rest tag found closing).1.rest = '>' :: r) := by
  induction rest generalizing tag found closing with
  | nil => exact ⟨Took.eof tag, by simp [inner]⟩
  | cons c rest ih =>
    have hz' : zero ∉ rest := fun hh => hz (by simp [hh])
    rw [inner]
    split_ifs with h0 h h'
    · exact absurd (by simp [h0]) hz
    · subst h; exact ⟨Took.stop .., fun _ => ⟨rfl, rest, rfl⟩⟩
    · have := ih hz' (tag ++ [c]) true (closing || c = '/')
      exact ⟨this.1.step, this.2⟩
    · have := ih hz' (tag ++ [c]) found closing
      exact ⟨this.1.step, this.2⟩

theorem identify_comment {p : Text} (h : identify p = some .comment) : 4 ≤ p.length := by
  unfold identify at h
  split at h
  · rename_i q hq
    have hl := (skipWhiteSpace_suffix hq).length_le
    by_cases h2 : "<!--".toList.isPrefixOf ('<' :: q) = true
    · have := (List.isPrefixOf_iff_prefix.1 h2).length_le
      rw [show "<!--".toList.length = 4 from rfl] at this
      omega
    · rw [if_neg h2] at h
      split_ifs at h <;> cases h
  · cases h

theorem through_less {rest : Text} (hz : zero ∉ rest) (hne : rest ≠ []) (tag : Text) :
    (through rest tag).1.rest.length < rest.length := by
  obtain ⟨-, h1, h2⟩ := through_took hz tag
  cases h : (through rest tag).2.2 with
  | true => exact (h1 h).1
  | false => rw [h2 h]; exact List.length_pos_iff.2 hne

/-- The element, its content and its nodes, by the number of steps. -/
theorem took (fuel : ℕ) :
    (∀ rest tag : Text, zero ∉ rest → 3 * rest.length ≤ fuel + 1 → rest ≠ [] →
      ∃ s tag', element fuel rest tag = .ok (s, tag') ∧ Took rest tag s tag' ∧ s.rest.length < rest.length) ∧
    (∀ (s : In) (tag : Text), zero ∉ s.rest → (s.good = false → s.rest = []) → 3 * s.rest.length + 1 ≤ fuel →
      ∃ s' tag', content fuel s tag = .ok (s', tag') ∧ Took s.rest tag s' tag') ∧
    (∀ k (rest tag : Text), zero ∉ rest → 3 * rest.length ≤ fuel → rest ≠ [] → (k = .comment → 2 ≤ tag.length) →
      ∃ s tag', node fuel k rest tag = .ok (s, tag') ∧ Took rest tag s tag' ∧ s.rest.length < rest.length) := by
  induction fuel with
  | zero =>
    refine ⟨fun rest tag _ hf hne => ?_, fun s tag _ _ hf => ?_, fun k rest tag _ hf hne => ?_⟩
    · have := List.length_pos_iff.2 hne; omega
    · omega
    · have := List.length_pos_iff.2 hne; omega
  | succ fuel ih =>
    obtain ⟨ih1, ih2, ih3⟩ := ih
    refine ⟨fun rest tag hz hf hne => ?_, fun s tag hz hb hf => ?_, fun k rest tag hz hf hne hk => ?_⟩
    · have hpos : 0 < rest.length := List.length_pos_iff.2 hne
      have ht := through_took hz tag
      have hl := through_less hz hne tag
      rw [element]
      generalize through rest tag = x at *
      obtain ⟨s, tag', fl⟩ := x
      obtain ⟨hT, hfl, -⟩ := ht
      simp only at hT hfl hl
      cases fl with
      | false => exact ⟨_, _, rfl, hT, hl⟩
      | true =>
        obtain ⟨-, t, h3⟩ := hfl rfl
        simp only
        split_ifs with hlen
        · exact ⟨_, _, rfl, hT, hl⟩
        · obtain ⟨u, w, x, hx⟩ := last_two (tag := tag') (by omega)
          have hgt : x = '>' := by
            have := hx.symm.trans h3
            obtain ⟨-, e⟩ := List.append_inj' this rfl
            cases e; rfl
          subst hgt
          rw [hx, fromEnd_one, fromEnd_two]
          simp only [Run.bind_ok, if_true]
          split_ifs with hw
          · exact ⟨_, _, rfl, by rw [← hx]; exact hT, hl⟩
          · obtain ⟨s', tag'', e, hT'⟩ := ih2 s tag' (hT.zero hz) (by obtain ⟨_, _, _, h⟩ := hT; exact h) (by omega)
            rw [← hx]
            exact ⟨s', tag'', e, hT.trans hT', lt_of_le_of_lt hT'.le hl⟩
    · rw [content]
      obtain ⟨s₁, tag₁, hw, hT, hc, hz₁⟩ : ∃ s₁ tag₁, (if s.good = true then white s.rest tag else (s, tag)) = (s₁, tag₁) ∧
          Took s.rest tag s₁ tag₁ ∧ (s₁.good = true → ∃ c r, s₁.rest = c :: r) ∧ zero ∉ s₁.rest := by
        by_cases h : s.good = true
        · have := white_took hz tag
          exact ⟨_, _, by rw [if_pos h], this.1, this.2, this.1.zero hz⟩
        · refine ⟨s, tag, by rw [if_neg h], ⟨[], by simp, by simp, hb⟩, fun h' => absurd h' h, hz⟩
      have hle := hT.le
      simp only [hw]
      obtain ⟨rest₁, good₁⟩ := s₁
      cases good₁ with
      | false => exact ⟨_, _, rfl, hT⟩
      | true =>
        obtain ⟨c, r, hr⟩ := hc rfl
        simp only at hr
        subst hr
        simp only at hz₁ hle
        simp only
        by_cases hlt : c = '<'
        · subst hlt
          simp only [ne_eq, not_true_eq_false, if_false]
          have hi := inner_took hz₁ tag₁ false false
          have hil : (inner ('<' :: r) tag₁ false false).1.rest.length ≤ r.length := by
            rw [inner, if_neg (by decide), if_neg (by decide), if_neg (by decide)]
            exact (inner_took (fun hh => hz₁ (by simp [hh])) (tag₁ ++ ['<']) false false).1.le
          generalize inner ('<' :: r) tag₁ false false = x at *
          obtain ⟨s₂, tag₂, o⟩ := x
          obtain ⟨hT₂, hg⟩ := hi
          simp only at hT₂ hg hil
          cases o with
          | none => exact ⟨_, _, rfl, hT.trans hT₂⟩
          | some cl =>
            obtain ⟨hgood, q, hq⟩ := hg (by simp)
            have hz₂ := hT₂.zero hz₁
            simp only [List.length_cons] at hle
            cases cl with
            | true =>
              simp only [hq]
              rw [if_neg (by decide), if_neg (by decide)]
              refine ⟨_, _, rfl, (hT.trans hT₂).trans ?_⟩
              rw [hq]
              exact Took.step (Took.stop ..)
            | false =>
              simp only
              split
              · exact ⟨_, _, rfl, hT.trans hT₂⟩
              · rename_i k hk
                have h2 : k = .comment → 2 ≤ tag₂.length := by
                  rintro rfl
                  have := identify_comment hk
                  simp only [List.length_drop] at this
                  omega
                obtain ⟨s₃, tag₃, e, hT₃, hl⟩ := ih3 k s₂.rest tag₂ hz₂ (by omega) (by rw [hq]; simp) h2
                rw [e]
                simp only [Run.bind_ok]
                obtain ⟨s₄, tag₄, e', hT₄⟩ := ih2 s₃ tag₃ (hT₃.zero hz₂) (by obtain ⟨_, _, _, h⟩ := hT₃; exact h) (by omega)
                exact ⟨s₄, tag₄, e', ((hT.trans hT₂).trans hT₃).trans hT₄⟩
        · simp only [ne_eq, hlt, not_false_eq_true, if_true]
          have ht := text_took hz₁ tag₁
          have htl : (text (c :: r) tag₁).1.rest.length ≤ r.length := by
            rw [text, if_neg hlt, if_neg (fun hh => hz₁ (by simp [hh]))]
            exact (text_took (fun hh => hz₁ (by simp [hh])) (tag₁ ++ [c])).le
          generalize text (c :: r) tag₁ = x at *
          obtain ⟨s₂, tag₂⟩ := x
          simp only at ht htl
          simp only [List.length_cons] at hle
          obtain ⟨s₃, tag₃, e, hT₃⟩ := ih2 s₂ tag₂ (ht.zero hz₁) (by obtain ⟨_, _, _, h⟩ := ht; exact h) (by omega)
          exact ⟨s₃, tag₃, e, (hT.trans ht).trans hT₃⟩
    · have ht := (through_took hz tag).1
      have hl := through_less hz hne tag
      cases k with
      | element =>
        rw [node]
        exact ih1 rest tag hz (by omega) hne
      | comment =>
        rw [node]
        obtain ⟨c, r, rfl⟩ := List.exists_cons_of_ne_nil hne
        have h2 := hk rfl
        have hz' : zero ∉ r := fun hh => hz (by simp [hh])
        rw [comment_step h2 c r (fun hh => hz (by simp [hh]))]
        split_ifs
        · exact ⟨_, _, rfl, Took.step (Took.stop ..), by simp⟩
        · obtain ⟨s, tag', e, h⟩ := comment_took hz' (tag ++ [c]) (by simp; omega)
          exact ⟨s, tag', e, h.step, by have := h.le; simp only [List.length_cons]; omega⟩
      | declaration =>
        rw [node]
        · exact ⟨_, _, rfl, ht, hl⟩
        all_goals simp
      | unknown =>
        rw [node]
        · exact ⟨_, _, rfl, ht, hl⟩
        all_goals simp

theorem nodes_took (deep : ℕ) : ∀ (fuel : ℕ) (s : In) (tag : Text), zero ∉ s.rest → (s.good = false → s.rest = []) →
    3 * s.rest.length ≤ deep → s.rest.length + 2 ≤ fuel →
    ∃ s' tag', nodes deep fuel s tag = .ok (s', tag') ∧ Took s.rest tag s' tag' := by
  intro fuel
  induction fuel with
  | zero => intro s tag _ _ _ h; omega
  | succ fuel ih =>
    intro s tag hz hb hd hf
    rw [nodes]
    split_ifs with hg
    · have hu := upTo_took hz tag
      generalize upTo s.rest tag = x at *
      obtain ⟨s₁, tag₁⟩ := x
      obtain ⟨hT, hgt⟩ := hu
      simp only at hT hgt
      have hz₁ := hT.zero hz
      have hle := hT.le
      simp only
      split_ifs with hg₁
      · obtain ⟨r, hr⟩ := hgt hg₁
        split
        · exact ⟨_, _, rfl, hT⟩
        · rename_i k hk
          have h2 : k = .comment → 2 ≤ tag₁.length := by
            rintro rfl
            have := identify_comment hk
            simp only [List.length_drop] at this
            omega
          obtain ⟨s₂, tag₂, e, hT₂, hl⟩ := (took deep).2.2 k s₁.rest tag₁ hz₁ (by omega) (by rw [hr]; simp) h2
          rw [e]
          simp only [Run.bind_ok]
          split_ifs
          · exact ⟨_, _, rfl, hT.trans hT₂⟩
          · obtain ⟨s₃, tag₃, e', hT₃⟩ := ih s₂ tag₂ (hT₂.zero hz₁) (by obtain ⟨_, _, _, h⟩ := hT₂; exact h) (by omega) (by omega)
            exact ⟨s₃, tag₃, e', (hT.trans hT₂).trans hT₃⟩
      · have hempty : s₁.rest = [] := by obtain ⟨_, _, _, h⟩ := hT; exact h (by simpa using hg₁)
        obtain ⟨fuel, rfl⟩ : ∃ k, fuel = k + 1 := ⟨fuel - 1, by omega⟩
        rw [nodes, if_neg hg₁]
        exact ⟨_, _, rfl, hT⟩
    · exact ⟨_, _, rfl, ⟨[], by simp, by simp, hb⟩⟩

theorem streamIn_took {s : In} (hz : zero ∉ s.rest) (hb : s.good = false → s.rest = []) {fuel : ℕ}
    (hf : 3 * s.rest.length + 2 ≤ fuel) : ∃ s' tag, streamIn fuel s = .ok (s', tag) ∧ Took s.rest [] s' tag := by
  unfold streamIn
  split_ifs with hg
  · have ht := streamTo_took hz '<' []
    generalize streamTo '<' s.rest [] = x at *
    obtain ⟨s₁, tag, fl⟩ := x
    obtain ⟨hT, -⟩ := ht
    simp only at hT
    cases fl with
    | false => exact ⟨_, _, rfl, hT⟩
    | true =>
      have hle := hT.le
      obtain ⟨s₂, tag₂, e, hT₂⟩ := nodes_took fuel fuel s₁ tag (hT.zero hz) (by obtain ⟨_, _, _, h⟩ := hT; exact h) (by omega) (by omega)
      exact ⟨s₂, tag₂, e, hT.trans hT₂⟩
  · exact ⟨_, _, rfl, ⟨[], by simp, by simp, hb⟩⟩

end Gear.Xml.Stream
