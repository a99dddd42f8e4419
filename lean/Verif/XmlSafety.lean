/-
Reading arbitrary text: how far the functions of the parser advance, that they end, and when they stay within the text.
-/
import Verif.XmlRoundTrip

set_option autoImplicit false
set_option linter.unusedSectionVars false

namespace Gear.Xml

/-- Text in which nothing is quoted, referred to, commented or declared. -/
def Plain (p : Text) : Prop := '&' ∉ p ∧ '"' ∉ p ∧ '\'' ∉ p ∧ ¬ ['<', '!'] <:+: p ∧ ¬ ['<', '?'] <:+: p

theorem Plain.suffix {p q : Text} (h : Plain p) (hq : q <:+ p) : Plain q :=
  ⟨fun hm => h.1 (hq.subset hm), fun hm => h.2.1 (hq.subset hm), fun hm => h.2.2.1 (hq.subset hm),
    fun hi => h.2.2.2.1 (hi.trans hq.isInfix), fun hi => h.2.2.2.2 (hi.trans hq.isInfix)⟩

/-- The run ends, its result satisfies `P`, and if `safe` it is a result. -/
def Run.Good {α : Type} (safe : Prop) (P : α → Prop) : Run α → Prop
  | .ok a => P a
  | .endless => False
  | _ => ¬ safe

theorem Run.Good.bind {α β : Type} {safe safe' : Prop} {P : α → Prop} {Q : β → Prop} {x : Run α} {f : α → Run β}
    (hx : x.Good safe' P) (hs : safe → safe') (hf : ∀ a, P a → (f a).Good safe Q) : (x >>= f).Good safe Q := by
  cases x with
  | ok a => exact hf a hx
  | ub => exact fun h => hx (hs h)
  | assertFailed => exact fun h => hx (hs h)
  | endless => exact hx

theorem Run.Good.mono {α : Type} {safe safe' : Prop} {P Q : α → Prop} {x : Run α} (hx : x.Good safe' P)
    (hs : safe → safe') (h : ∀ a, P a → Q a) : x.Good safe Q := by
  cases x with
  | ok a => exact h a hx
  | ub => exact fun h => hx (hs h)
  | assertFailed => exact fun h => hx (hs h)
  | endless => exact hx

theorem skipBody_suffix (enc : Enc) (t : Text) : skipBody enc t <:+ t := by
  fun_induction skipBody enc t with
  | case1 => exact List.suffix_rfl
  | case2 => exact List.nil_suffix
  | case3 => exact List.suffix_rfl
  | case4 a b h ih => exact ih.trans (List.suffix_cons _ _)
  | case5 => exact List.suffix_rfl
  | case6 a b c rest h ih =>
    exact ih.trans ((List.suffix_cons c rest).trans ((List.suffix_cons b _).trans (List.suffix_cons a _)))
  | case7 a b c rest _ h ih => exact ih.trans (List.suffix_cons _ _)
  | case8 => exact List.suffix_rfl

theorem skipBody_head (enc : Enc) (t : Text) {c : Char} {r : Text} (h : skipBody enc t = c :: r) : isSpace c = false := by
  fun_induction skipBody enc t with
  | case1 => cases h
  | case2 => cases h
  | case3 a hs => cases h; simpa using hs
  | case4 a b hs ih => exact ih h
  | case5 a b hs => cases h; simpa using hs
  | case6 a b c rest h' ih => exact ih h
  | case7 a b c rest _ h' ih => exact ih h
  | case8 a b c rest _ hs => cases h; simpa using hs

theorem skipWhiteSpace_suffix {enc : Enc} {p q : Text} (h : skipWhiteSpace enc (some p) = some q) : q <:+ p := by
  cases p with
  | nil => cases h
  | cons c r =>
    simp only [skipWhiteSpace, Option.some.injEq] at h
    rw [← h]; exact skipBody_suffix _ _

theorem skipWhiteSpace_none {enc : Enc} {p : Text} : skipWhiteSpace enc (some p) = none ↔ p = [] := by
  cases p <;> simp [skipWhiteSpace]

theorem dropWhile_suffix' {p : Char → Bool} (t : Text) : t.dropWhile p <:+ t := List.dropWhile_suffix p

theorem matchEntity_suffix (c : Char) (rest : Text) : ∀ es : List (Text × Char), (∀ e ∈ es, e.1 ≠ []) →
    (matchEntity (c :: rest) es).2 <:+ rest := by
  intro es
  induction es with
  | nil => intro _; exact List.suffix_rfl
  | cons e es ih =>
    intro h
    obtain ⟨str, chr⟩ := e
    simp only [matchEntity]
    split_ifs
    · have : str ≠ [] := h (str, chr) (by simp)
      obtain ⟨a, s, rfl⟩ := List.exists_cons_of_ne_nil this
      show List.drop (s.length + 1) (c :: rest) <:+ rest
      rw [List.drop_succ_cons]
      exact List.drop_suffix _ _
    · exact ih fun e he => h e (by simp [he])

theorem getEntity_suffix {enc : Enc} {rest v p : Text} (h : getEntity enc rest = some (v, p)) : p <:+ rest := by
  unfold getEntity at h
  split at h
  · rename_i digits
    split_ifs at h
    split at h
    · cases h
    · simp only [Option.some.injEq, Prod.mk.injEq] at h
      rw [← h.2]
      exact (List.drop_suffix _ _).trans ((dropWhile_suffix' _).trans ((List.suffix_cons _ _).trans (List.suffix_cons _ _)))
  · rename_i c digits _
    split_ifs at h
    split at h
    · cases h
    · simp only [Option.some.injEq, Prod.mk.injEq] at h
      rw [← h.2]
      exact (List.drop_suffix _ _).trans ((dropWhile_suffix' _).trans (List.suffix_cons _ _))
  · simp only [Option.some.injEq] at h
    have := matchEntity_suffix '&' rest entities (by decide)
    rw [h] at this
    exact this

theorem getChar_good (enc : Enc) (c : Char) (rest : Text) :
    (getChar enc c rest).Good (enc ≠ .utf8) fun
      | none => c = '&'
      | some (_, p) => p <:+ rest := by
  simp only [getChar]
  have h1 : 1 ≤ (if enc = .utf8 then utf8Width c else 1) := by
    unfold utf8Width; split_ifs <;> decide
  have h2 : enc ≠ .utf8 → (if enc = .utf8 then utf8Width c else 1) = 1 := fun h => if_neg h
  generalize (if enc = .utf8 then utf8Width c else 1) = l at h1 h2
  by_cases hl : l = 1
  · rw [if_pos hl]
    by_cases hc : c = '&'
    · rw [if_pos hc]
      show (match getEntity enc rest with | none => c = '&' | some (_, p) => p <:+ rest)
      cases h : getEntity enc rest with
      | none => exact hc
      | some r => exact getEntity_suffix h
    · rw [if_neg hc]
      exact List.suffix_rfl
  · rw [if_neg hl]
    split_ifs with h
    · exact fun hne => hl (h2 hne)
    · obtain ⟨k, rfl⟩ : ∃ k, l = k + 1 := ⟨l - 1, by omega⟩
      show List.drop (k + 1) (c :: rest) <:+ rest
      rw [List.drop_succ_cons]
      exact List.drop_suffix _ _

theorem readKeep_good (enc : Enc) (endTag : Text) : ∀ (fuel : ℕ) (p acc : Text), p.length ≤ fuel →
    (readKeep enc endTag fuel p acc).Good (enc ≠ .utf8 ∧ '&' ∉ p) fun r => r.2 <:+ p ∧ (r.2 = [] ∨ endTag <+: r.2) := by
  intro fuel
  induction fuel with
  | zero =>
    intro p acc h
    have : p = [] := List.eq_nil_of_length_eq_zero (by omega)
    subst this
    exact ⟨List.suffix_rfl, .inl rfl⟩
  | succ fuel ih =>
    intro p acc h
    cases p with
    | nil => exact ⟨List.suffix_rfl, .inl rfl⟩
    | cons c rest =>
      rw [readKeep]
      split_ifs with he
      · exact ⟨List.suffix_rfl, .inr (by rwa [List.isPrefixOf_iff_prefix] at he)⟩
      · refine (getChar_good enc c rest).bind (fun hs => hs.1) fun r hr => ?_
        match r, hr with
        | none, hr => exact fun hs => hs.2 (by rw [hr]; simp)
        | some (v, q), hr =>
          have hl := hr.length_le
          simp only [List.length_cons] at h
          refine (ih q (acc ++ v) (by omega)).mono (fun hs => ⟨hs.1, fun hm => hs.2 ?_⟩) fun a ha => ⟨?_, ha.2⟩
          · exact List.mem_cons_of_mem _ (hr.subset hm)
          · exact ha.1.trans (hr.trans (List.suffix_cons _ _))

theorem readTrim_good (enc : Enc) (endTag : Text) : ∀ (fuel : ℕ) (w : Bool) (p acc : Text), p.length ≤ fuel →
    (readTrim enc endTag fuel w p acc).Good (enc ≠ .utf8 ∧ '&' ∉ p) fun r => r.2 <:+ p ∧ (r.2 = [] ∨ endTag <+: r.2) := by
  intro fuel
  induction fuel with
  | zero =>
    intro w p acc h
    have : p = [] := List.eq_nil_of_length_eq_zero (by omega)
    subst this
    exact ⟨List.suffix_rfl, .inl rfl⟩
  | succ fuel ih =>
    intro w p acc h
    cases p with
    | nil => exact ⟨List.suffix_rfl, .inl rfl⟩
    | cons c rest =>
      rw [readTrim]
      simp only [List.length_cons] at h
      split_ifs with he hsp
      · exact ⟨List.suffix_rfl, .inr (by rwa [List.isPrefixOf_iff_prefix] at he)⟩
      · refine (ih true rest acc (by omega)).mono (fun hs => ⟨hs.1, fun hm => hs.2 ?_⟩) fun a ha => ⟨?_, ha.2⟩
        · exact List.mem_cons_of_mem _ hm
        · exact ha.1.trans (List.suffix_cons _ _)
      all_goals
        refine (getChar_good enc c rest).bind (fun hs => hs.1) fun r hr => ?_
        match r, hr with
        | none, hr => exact fun hs => hs.2 (by rw [hr]; simp)
        | some (v, q), hr =>
          have hl := hr.length_le
          refine (ih false q _ (by omega)).mono (fun hs => ⟨hs.1, fun hm => hs.2 ?_⟩) fun a ha => ⟨?_, ha.2⟩
          · exact List.mem_cons_of_mem _ (hr.subset hm)
          · exact ha.1.trans (hr.trans (List.suffix_cons _ _))

theorem readQuoted_good (enc : Enc) (endTag p : Text) :
    (readQuoted enc endTag p).Good False fun r => r.2 <:+ p := by
  unfold readQuoted
  refine (readKeep_good enc endTag p.length p [] le_rfl).bind False.elim fun r hr => ?_
  obtain ⟨v, q⟩ := r
  simp only
  split_ifs
  · exact not_false
  · exact (List.drop_suffix _ _).trans hr.1

theorem readName_suffix {p n q : Text} (h : readName p = some (n, q)) : q <:+ p ∧ q.length < p.length := by
  cases p with
  | nil => cases h
  | cons c rest =>
    simp only [readName] at h
    split_ifs at h with hc
    simp only [Option.some.injEq, Prod.mk.injEq] at h
    have hn : isNameChar c = true := by
      simp only [isNameChar, isAlphaNum]
      simp only [isAlpha, Bool.or_eq_true, decide_eq_true_eq] at hc
      rcases hc with hc | hc
      · split_ifs at hc ⊢ <;> simp [hc]
      · simp [hc]
    rw [← h.2, List.dropWhile_cons_of_pos hn]
    have := dropWhile_suffix' (p := isNameChar) rest
    exact ⟨this.trans (List.suffix_cons _ _), by have := this.length_le; simp only [List.length_cons]; omega⟩

theorem parseAttribute_good (enc : Enc) (p : Text) :
    (parseAttribute enc p).Good ('"' ∉ p ∧ '\'' ∉ p) fun
      | none => True
      | some (_, _, q) => q <:+ p ∧ q.length < p.length := by
  unfold parseAttribute
  split
  · trivial
  · rename_i p1 h1
    have s1 := skipWhiteSpace_suffix h1
    split
    · trivial
    · trivial
    · rename_i name p2 _ h2
      have s2 := readName_suffix h2
      split
      · rename_i p3 h3
        have s3 := skipWhiteSpace_suffix h3
        have l1 := s1.length_le
        have l3 := s3.length_le
        split
        · trivial
        · trivial
        · rename_i p4 h4
          have s4 := skipWhiteSpace_suffix h4
          have sub : '\'' :: p4 <:+ p := s4.trans ((List.suffix_cons _ _).trans (s3.trans (s2.1.trans s1)))
          have l4 := s4.length_le
          refine (readQuoted_good enc ['\''] p4).bind (fun hs => hs.2 (sub.subset (by simp))) fun r hr => ?_
          have l5 := hr.length_le
          simp only [List.length_cons] at l3 l4
          exact ⟨hr.trans ((List.suffix_cons _ _).trans sub), by show r.2.length < p.length; omega⟩
        · rename_i p4 h4
          have s4 := skipWhiteSpace_suffix h4
          have sub : '"' :: p4 <:+ p := s4.trans ((List.suffix_cons _ _).trans (s3.trans (s2.1.trans s1)))
          have l4 := s4.length_le
          refine (readQuoted_good enc ['"'] p4).bind (fun hs => hs.1 (sub.subset (by simp))) fun r hr => ?_
          have l5 := hr.length_le
          simp only [List.length_cons] at l3 l4
          exact ⟨hr.trans ((List.suffix_cons _ _).trans sub), by show r.2.length < p.length; omega⟩
        · rename_i p4 _ _ _ h4
          have s4 := skipWhiteSpace_suffix h4
          have s5 := dropWhile_suffix' (p := fun c => !isSpace c && c ≠ '/' && c ≠ '>') p4
          have l4 := s4.length_le
          have l5 := s5.length_le
          simp only [List.length_cons] at l3 l4
          refine ⟨s5.trans (s4.trans ((List.suffix_cons _ _).trans (s3.trans (s2.1.trans s1)))), ?_⟩
          show (List.dropWhile _ p4).length < p.length
          omega
      · trivial

theorem parseTag_good (enc : Enc) : ∀ (fuel : ℕ) (p : Text) (attrs : List (Text × Text)), p.length < fuel →
    (parseTag enc fuel p attrs).Good ('"' ∉ p ∧ '\'' ∉ p) fun
      | (_, .failed _) => True
      | (_, .opened q) => q <:+ p ∧ q.length < p.length
      | (_, .closed q) => q <:+ p ∧ q.length < p.length := by
  intro fuel
  induction fuel with
  | zero => intro p _ h; omega
  | succ fuel ih =>
    intro p attrs h
    rw [parseTag]
    split
    · trivial
    · trivial
    · rename_i q hq
      have s := skipWhiteSpace_suffix hq
      have := s.length_le
      simp only [List.length_cons] at this
      exact ⟨((List.suffix_cons _ _).trans (List.suffix_cons _ _)).trans s, by omega⟩
    · trivial
    · rename_i q hq
      have s := skipWhiteSpace_suffix hq
      have := s.length_le
      simp only [List.length_cons] at this
      exact ⟨(List.suffix_cons _ _).trans s, by omega⟩
    · rename_i q _ _ _ _ hq
      have s := skipWhiteSpace_suffix hq
      have l := s.length_le
      refine (parseAttribute_good enc q).bind
        (fun hs => ⟨fun hm => hs.1 (s.subset hm), fun hm => hs.2 (s.subset hm)⟩) fun r hr => ?_
      match r, hr with
      | none, _ => trivial
      | some (_, _, []), _ => trivial
      | some (name, value, c :: t), hr =>
        simp only
        split_ifs
        · trivial
        · have l2 := hr.2
          have s2 := hr.1.trans s
          refine (ih (c :: t) _ (by omega)).mono
            (fun hs => ⟨fun hm => hs.1 (s2.subset hm), fun hm => hs.2 (s2.subset hm)⟩) fun a ha => ?_
          obtain ⟨as, te⟩ := a
          cases te with
          | failed => trivial
          | opened q' => exact ⟨ha.1.trans s2, by have := ha.2; omega⟩
          | closed q' => exact ⟨ha.1.trans s2, by have := ha.2; omega⟩

theorem parseDeclaration_good (enc : Enc) : ∀ (fuel : ℕ) (p v e s : Text), p.length ≤ fuel →
    (parseDeclaration enc fuel p v e s).Good False fun
      | (_, none) => True
      | (_, some q) => q <:+ p := by
  intro fuel
  induction fuel with
  | zero =>
    intro p v e s h
    have : p = [] := List.eq_nil_of_length_eq_zero (by omega)
    subst this
    trivial
  | succ fuel ih =>
    intro p v e s h
    generalize hF : fuel + 1 = F
    unfold parseDeclaration
    split
    · trivial
    · exact absurd hF (by simp)
    · exact List.suffix_cons _ _
    · rename_i fuel' hnil hgt
      obtain rfl : fuel = fuel' := Nat.succ.inj hF
      split
      · exact not_false
      · exact not_false
      · rename_i q _ hq
        have sq := skipWhiteSpace_suffix hq
        have lq := sq.length_le
        have attr : ∀ (f : Text → Node × Option Text) (g : Text → Text → Run (Node × Option Text)) (d : Node),
            (∀ a t : Text, t <:+ q → t.length < q.length → (g a t).Good False fun
              | (_, none) => True
              | (_, some q') => q' <:+ p) →
            (do match ← parseAttribute enc q with
              | none => .ok (d, none)
              | some (_, a, t) => g a t : Run (Node × Option Text)).Good False fun
              | (_, none) => True
              | (_, some q') => q' <:+ p := by
          intro _ g d hg
          refine (parseAttribute_good enc q).bind False.elim fun r hr => ?_
          match r, hr with
          | none, _ => trivial
          | some (_, a, t), hr => exact hg a t hr.1 hr.2
        have rec' : ∀ t v e s, t <:+ p → t.length < p.length → (parseDeclaration enc fuel t v e s).Good False fun
            | (_, none) => True
            | (_, some q') => q' <:+ p := by
          intro t v e s ht hl
          refine (ih t v e s (by omega)).mono id fun a ha => ?_
          obtain ⟨n, o⟩ := a
          cases o with
          | none => trivial
          | some o => exact List.IsSuffix.trans ha ht
        split_ifs
        · exact attr (fun _ => (.comment [], none)) _ _ fun a t h1 h2 => rec' _ _ _ _ (h1.trans sq) (by omega)
        · exact attr (fun _ => (.comment [], none)) _ _ fun a t h1 h2 => rec' _ _ _ _ (h1.trans sq) (by omega)
        · exact attr (fun _ => (.comment [], none)) _ _ fun a t h1 h2 => rec' _ _ _ _ (h1.trans sq) (by omega)
        · have sd := dropWhile_suffix' (p := fun c => c ≠ '>' && !isSpace c) q
          refine rec' _ _ _ _ (sd.trans sq) ?_
          cases q with
          | nil => rename_i hne _ _ _; exact absurd rfl (hne ·)
          | cons c t =>
            have hsp : isSpace c = false := by
              cases p with
              | nil => cases hq
              | cons a b =>
                simp only [skipWhiteSpace, Option.some.injEq] at hq
                exact skipBody_head enc _ hq
            by_cases hc : c = '>'
            · subst hc
              rcases Nat.lt_or_ge ('>' :: t).length p.length with hlt | hge
              · exact lt_of_le_of_lt sd.length_le hlt
              · have : '>' :: t = p := sq.eq_of_length_le hge
                exact absurd this.symm (hgt t)
            · rw [List.dropWhile_cons_of_pos (by simp [hc, hsp])]
              have := (dropWhile_suffix' (p := fun c => c ≠ '>' && !isSpace c) t).length_le
              simp only [List.length_cons] at lq
              omega

theorem prefixNoCase_xml {p : Text} (h : prefixNoCase "<?xml".toList p = true) : ∃ rest, p = '<' :: '?' :: rest := by
  rw [show "<?xml".toList = ['<', '?', 'x', 'm', 'l'] from rfl] at h
  have low : ∀ c d : Char, toLower c = d → d.toNat < 65 → c = d := by
    intro c d h hd
    unfold toLower at h
    split_ifs at h with hu
    · simp only [Bool.and_eq_true, decide_eq_true_eq] at hu
      have all : ∀ k < 26, ¬ (Char.ofNat (65 + k + 32)).toNat < 65 := by decide
      have := all (c.toNat - 65) (by omega)
      rw [show 65 + (c.toNat - 65) + 32 = c.toNat + 32 by omega, h] at this
      exact absurd hd this
    · exact h
  match p, h with
  | [], h => cases h
  | [a], h => simp [prefixNoCase] at h
  | a :: b :: rest, h =>
    simp only [prefixNoCase, Bool.and_eq_true, decide_eq_true_eq] at h
    rw [low a '<' h.1 (by decide), low b '?' h.2.1 (by decide)]
    exact ⟨rest, rfl⟩

theorem parseOther_good (enc : Enc) (p : Text) (hp : p ≠ []) :
    (parseOther enc p).Good (Plain p) fun
      | (_, none) => ¬ Plain p
      | (_, some q) => q <:+ p ∧ q.length < p.length := by
  have hpl : 0 < p.length := List.length_pos_of_ne_nil hp
  unfold parseOther
  split_ifs with h1 h2
  · obtain ⟨rest, hr⟩ := prefixNoCase_xml h1
    have hnp : ¬ Plain p := fun h => h.2.2.2.2 ⟨[], rest, by rw [hr]; rfl⟩
    refine (parseDeclaration_good enc p.length (p.drop 5) [] [] [] (by rw [List.length_drop]; omega)).mono hnp fun a ha => ?_
    obtain ⟨n, o⟩ := a
    cases o with
    | none => exact hnp
    | some q =>
      have ha : q <:+ p.drop 5 := ha
      have := ha.length_le
      rw [List.length_drop] at this
      exact ⟨ha.trans (List.drop_suffix _ _), by omega⟩
  · have hnp : ¬ Plain p := by
      rw [List.isPrefixOf_iff_prefix] at h2
      exact fun h => h.2.2.2.1 (((show ['<', '!'] <+: "<!--".toList from ⟨['-', '-'], rfl⟩).trans h2).isInfix)
    refine (readQuoted_good enc "-->".toList (p.drop 4)).bind hnp fun r hr => ?_
    have := hr.length_le
    rw [List.length_drop] at this
    exact ⟨hr.trans (List.drop_suffix _ _), by show r.2.length < p.length; omega⟩
  · have s : (List.dropWhile (fun x => decide (x ≠ '>')) (p.drop 1)).drop 1 <:+ p.drop 1 :=
      (List.drop_suffix _ _).trans (dropWhile_suffix' _)
    have := s.length_le
    rw [List.length_drop (l := p)] at this
    exact ⟨s.trans (List.drop_suffix _ _), by
      show ((List.dropWhile (fun x => decide (x ≠ '>')) (p.drop 1)).drop 1).length < p.length; omega⟩

/-- What is shown for reading one node. -/
def NodeGood (p : Text) : Node × Option Text × Bool → Prop
  | (_, none, _) => True
  | (_, some q, _) => q <:+ p ∧ q.length < p.length

/-- What is shown for reading the children. -/
def ListGood (p : Text) : List Node × Option Text × Bool → Prop
  | (_, none, _) => True
  | (_, some q, _) => q <:+ p

theorem isElement_cons {p : Text} (h : isElement p = true) : ∃ c d rest, p = c :: d :: rest := by
  match p, h with
  | [], h => simp [isElement] at h
  | [a], h => simp [isElement] at h
  | a :: b :: rest, _ => exact ⟨a, b, rest, rfl⟩

theorem nodes_good (enc : Enc) : ∀ fuel,
    (∀ p, 3 * p.length ≤ fuel + 1 → isElement p = true →
      (parseElement enc fuel p).Good (enc ≠ .utf8 ∧ Plain p) (NodeGood p)) ∧
    (∀ p acc, 3 * p.length + 1 ≤ fuel → (readValue enc fuel p acc).Good (enc ≠ .utf8 ∧ Plain p) (ListGood p)) ∧
    (∀ p, p ≠ [] → 3 * p.length ≤ fuel → (parseNode enc fuel p).Good (enc ≠ .utf8 ∧ Plain p) (NodeGood p)) := by
  intro fuel
  induction fuel with
  | zero =>
    refine ⟨fun p h he => ?_, fun p acc h => by omega, fun p hp h => ?_⟩
    · obtain ⟨c, d, rest, rfl⟩ := isElement_cons he
      simp only [List.length_cons] at h; omega
    · have := List.length_pos_of_ne_nil hp; omega
  | succ fuel ih =>
    obtain ⟨ihE, ihV, ihN⟩ := ih
    refine ⟨fun p h he => ?_, fun p acc h => ?_, fun p hp h => ?_⟩
    · obtain ⟨c, d, rest, rfl⟩ := isElement_cons he
      rw [parseElement]
      split
      · rename_i h1
        rw [skipWhiteSpace_none] at h1
        simp at h1
      · rename_i p1 h1
        have s1 := skipWhiteSpace_suffix h1
        simp only [List.drop_succ_cons, List.drop_zero] at s1
        have s1' : p1 <:+ c :: d :: rest := s1.trans (List.suffix_cons _ _)
        have l1 := s1.length_le
        simp only [List.length_cons] at l1 h
        split
        · trivial
        · trivial
        · rename_i name p2 _ h2
          obtain ⟨s2, l2⟩ := readName_suffix h2
          have s2' := s2.trans s1'
          refine (parseTag_good enc (p2.length + 1) p2 [] (by omega)).bind
            (fun hs => ⟨(hs.2.suffix s2').2.1, (hs.2.suffix s2').2.2.1⟩) fun r hr => ?_
          obtain ⟨attrs, te⟩ := r
          cases te with
          | failed e => trivial
          | closed q => exact ⟨hr.1.trans s2', by have := hr.2; simp only [List.length_cons]; omega⟩
          | opened q =>
            obtain ⟨sq, lq⟩ := hr
            have sq' := sq.trans s2'
            simp only
            split
            · trivial
            · rename_i q' hq'
              have s3 := skipWhiteSpace_suffix hq'
              have l3 := s3.length_le
              refine (ihV q' [] (by omega)).bind (fun hs => ⟨hs.1, hs.2.suffix (s3.trans sq')⟩) fun a ha => ?_
              obtain ⟨ns, o, e⟩ := a
              simp only
              split
              · trivial
              · trivial
              · rename_i o _
                have ha : o <:+ q' := ha
                split_ifs
                · have sd := (List.drop_suffix ('<' :: '/' :: name ++ ['>']).length o).trans (ha.trans s3)
                  have ld := sd.length_le
                  exact ⟨sd.trans sq', by simp only [List.length_cons] at ld ⊢; omega⟩
                · trivial
    · cases p with
      | nil => rw [readValue]; exact List.suffix_rfl
      | cons c rest =>
        rw [readValue]
        simp only [List.length_cons] at h
        split_ifs with h1 h2
        · refine (readTrim_good enc ['<'] (rest.length + 1) false (c :: rest) [] (by simp)).bind
            (fun hs => ⟨hs.1, hs.2.1⟩) fun r hr => ?_
          obtain ⟨value, q⟩ := r
          obtain ⟨sq, hq⟩ := hr
          have lq : q.length < (c :: rest).length := by
            rcases Nat.lt_or_ge q.length (c :: rest).length with h | h
            · exact h
            · have hh : q = c :: rest := sq.eq_of_length_le h
              rcases hq with hq | hq
              · have hq : q = [] := hq
                rw [hq] at hh; cases hh
              · simp only [hh, List.cons_prefix_cons] at hq
                exact absurd hq.1.symm h1
          simp only
          split
          · trivial
          · rename_i p' hp'
            have s3 := (skipWhiteSpace_suffix hp')
            have l3 := s3.length_le
            simp only [List.length_cons] at lq
            refine (ihV p' _ (by omega)).mono (fun hs => ⟨hs.1, hs.2.suffix (s3.trans sq)⟩) fun a ha => ?_
            obtain ⟨ns, o, e⟩ := a
            cases o with
            | none => trivial
            | some o => exact List.IsSuffix.trans ha (s3.trans sq)
        · exact List.suffix_rfl
        · refine (ihN (c :: rest) (by simp) (by simp only [List.length_cons]; omega)).bind id fun r hr => ?_
          obtain ⟨node, p', error⟩ := r
          simp only
          split
          · trivial
          · rename_i q hq
            cases p' with
            | none => cases hq
            | some p' =>
              obtain ⟨sp, lp⟩ := hr
              have s3 := (skipWhiteSpace_suffix hq)
              have l3 := s3.length_le
              simp only [List.length_cons] at lp
              refine (ihV q _ (by omega)).bind (fun hs => ⟨hs.1, hs.2.suffix (s3.trans sp)⟩) fun a ha => ?_
              obtain ⟨ns, o, e⟩ := a
              cases o with
              | none => trivial
              | some o => exact List.IsSuffix.trans ha (s3.trans sp)
    · rw [parseNode]
      split_ifs with he
      · exact ihE p h he
      · refine (parseOther_good enc p hp).bind (fun hs => hs.2) fun r hr => ?_
        obtain ⟨n, o⟩ := r
        cases o with
        | none => trivial
        | some q => exact hr

theorem nextEncoding_plain {enc : Enc} {n : Node} (h : ∀ v e s, n ≠ .declaration v e s) : nextEncoding enc n = enc := by
  cases n <;> first | rfl | exact absurd rfl (h _ _ _)

/-- Plain text holds no declarations. -/
theorem parseNode_no_declaration {enc : Enc} {fuel : ℕ} {p : Text} (h : Plain p) {n : Node} {o : Option Text} {e : Bool}
    (hr : parseNode enc fuel p = .ok (n, o, e)) : ∀ v en s, n ≠ .declaration v en s := by
  rintro v en s rfl
  cases fuel with
  | zero => simp [parseNode] at hr
  | succ fuel =>
    rw [parseNode] at hr
    split_ifs at hr with he
    · cases fuel with
      | zero => simp [parseElement] at hr
      | succ fuel =>
        rw [parseElement] at hr
        split at hr
        · cases hr
        · split at hr
          · simp at hr
          · simp at hr
          · cases ht : parseTag enc (List.length ‹Text› + 1) ‹Text› [] with
            | ok r =>
              rw [ht] at hr
              obtain ⟨attrs, te⟩ := r
              cases te with
              | failed => simp at hr
              | closed => simp at hr
              | opened q =>
                simp only [Run.bind_ok] at hr
                split at hr
                · simp at hr
                · rename_i q' _
                  cases hx : readValue enc fuel q' [] with
                  | ok a =>
                    rw [hx] at hr
                    obtain ⟨ns, o', e'⟩ := a
                    simp only [Run.bind_ok] at hr
                    split at hr
                    · simp at hr
                    · simp at hr
                    · split_ifs at hr <;> simp at hr
                  | _ => rw [hx] at hr; cases hr
            | _ => rw [ht] at hr; cases hr
    · unfold parseOther at hr
      split_ifs at hr with h1 h2
      · obtain ⟨rest, hp⟩ := prefixNoCase_xml h1
        exact h.2.2.2.2 ⟨[], rest, by rw [hp]; rfl⟩
      · cases hx : readQuoted enc "-->".toList (p.drop 4) with
        | ok r => rw [hx] at hr; simp at hr
        | _ => rw [hx] at hr; cases hr
      · simp [parseUnknown] at hr

theorem parseNodes_good : ∀ (fuel : ℕ) (enc : Enc) (p : Text) (acc : List Node), p.length ≤ fuel →
    (parseNodes fuel enc p acc).Good (enc ≠ .utf8 ∧ Plain p) fun _ => True := by
  intro fuel
  induction fuel with
  | zero =>
    intro enc p acc h
    have : p = [] := List.eq_nil_of_length_eq_zero (by omega)
    subst this
    trivial
  | succ fuel ih =>
    intro enc p acc h
    cases p with
    | nil => trivial
    | cons c rest =>
      rw [parseNodes]
      split_ifs
      · trivial
      · have hg := (nodes_good enc (3 * (rest.length + 2))).2.2 (c :: rest) (by simp) (by simp only [List.length_cons]; omega)
        cases hr : parseNode enc (3 * (rest.length + 2)) (c :: rest) with
        | ok r =>
          rw [hr] at hg
          obtain ⟨node, o, e⟩ := r
          simp only [Run.bind_ok]
          split
          · trivial
          · rename_i q hq
            cases o with
            | none => cases hq
            | some p' =>
              obtain ⟨sp, lp⟩ := hg
              have s3 := skipWhiteSpace_suffix hq
              have l3 := s3.length_le
              simp only [List.length_cons] at lp h
              refine (ih (nextEncoding enc node) q (acc ++ [node]) (by omega)).bind ?_ fun _ _ => trivial
              rintro ⟨h1, h2⟩
              rw [nextEncoding_plain (parseNode_no_declaration h2 hr)]
              exact ⟨h1, h2.suffix (s3.trans sp)⟩
        | ub => rw [hr] at hg; exact hg
        | assertFailed => rw [hr] at hg; exact hg
        | endless => rw [hr] at hg; exact hg

end Gear.Xml
