/-
Lemmas for XmlGrammarProps.lean: the functions of the parser up to attributes recognise what the grammar says.
-/
import Verif.XmlGrammarSpec
import Verif.XmlSafety

set_option autoImplicit false
set_option linter.unusedSectionVars false

namespace Gear.Xml.Grammar

/-! ### White space and names -/

theorem toNat_eq {c d : Char} : c = d ↔ c.toNat = d.toNat := by
  constructor
  · rintro rfl; rfl
  · intro h; exact Char.ext (UInt32.toNat_inj.1 h)

theorem space_iff {c : Char} : isSpace c = true ↔ Space c := by
  simp only [isSpace, Space, List.mem_cons, List.not_mem_nil, or_false, toNat_eq]
  have h1 : ' '.toNat = 32 := rfl
  have h2 : '\t'.toNat = 9 := rfl
  have h3 : '\n'.toNat = 10 := rfl
  have h4 : '\x0b'.toNat = 11 := rfl
  have h5 : '\x0c'.toNat = 12 := rfl
  have h6 : '\r'.toNat = 13 := rfl
  rw [h1, h2, h3, h4, h5, h6]
  simp only [Bool.or_eq_true, decide_eq_true_eq, Bool.and_eq_true]
  omega

theorem mark_iff {a b c : Char} : isMark a b c = true ↔ Mark [a, b, c] := by
  simp only [isMark, Mark, Bool.and_eq_true, decide_eq_true_eq, Bool.or_eq_true, List.map_cons, List.map_nil, List.cons.injEq,
    and_true]
  omega

theorem mark_cons {m : Text} (h : Mark m) : ∃ a b c, m = [a, b, c] := by
  have : m.length = 3 := by
    rcases h with h | h | h <;> simpa using congrArg List.length h
  match m, this with
  | [a, b, c], _ => exact ⟨a, b, c, rfl⟩

theorem space_not_mark {a b c : Char} (h : isSpace a = true) : isMark a b c = false := by
  simp only [isSpace, isMark, Bool.or_eq_true, decide_eq_true_eq, Bool.and_eq_true, Bool.and_eq_false_iff] at h ⊢
  left
  rw [decide_eq_false_iff_not]; omega

theorem skipBody_blanks (enc : Enc) (t : Text) : Blanks enc t (skipBody enc t) := by
  induction t using skipBody.induct (enc := enc) with
  | case1 => exact .none _
  | case2 a h => rw [skipBody, if_pos h]; exact .space _ _ _ (space_iff.1 h) (.none _)
  | case3 a h => rw [skipBody, if_neg h]; exact .none _
  | case4 a b h ih => rw [skipBody, if_pos h]; exact .space _ _ _ (space_iff.1 h) ih
  | case5 a b h => rw [skipBody, if_neg h]; exact .none _
  | case6 a b c rest h ih =>
    rw [skipBody, if_pos h]
    simp only [Bool.and_eq_true, decide_eq_true_eq] at h
    exact .mark [a, b, c] _ _ h.1 (mark_iff.1 h.2) ih
  | case7 a b c rest h h' ih => rw [skipBody, if_neg h, if_pos h']; exact .space _ _ _ (space_iff.1 h') ih
  | case8 a b c rest h h' => rw [skipBody, if_neg h, if_neg h']; exact .none _

theorem skipBody_clean (enc : Enc) (t : Text) (henc : enc = .utf8) : ∀ m r, skipBody enc t = m ++ r → ¬ Mark m := by
  induction t using skipBody.induct (enc := enc) with
  | case1 =>
    rintro m r h hm
    obtain ⟨a, b, c, rfl⟩ := mark_cons hm
    simp [skipBody] at h
  | case2 a h =>
    rw [skipBody, if_pos h]
    rintro m r h hm
    obtain ⟨a, b, c, rfl⟩ := mark_cons hm
    simp at h
  | case3 a h =>
    rw [skipBody, if_neg h]
    rintro m r h hm
    obtain ⟨a, b, c, rfl⟩ := mark_cons hm
    simp at h
  | case4 a b h ih => rw [skipBody, if_pos h]; exact ih
  | case5 a b h =>
    rw [skipBody, if_neg h]
    rintro m r h hm
    obtain ⟨a, b, c, rfl⟩ := mark_cons hm
    simp at h
  | case6 a b c rest h ih => rw [skipBody, if_pos h]; exact ih
  | case7 a b c rest h h' ih => rw [skipBody, if_neg h, if_pos h']; exact ih
  | case8 a b c rest h h' =>
    rw [skipBody, if_neg h, if_neg h']
    rintro m r hm hm'
    obtain ⟨x, y, z, rfl⟩ := mark_cons hm'
    simp only [List.cons_append, List.nil_append, List.cons.injEq] at hm
    obtain ⟨rfl, rfl, rfl, -⟩ := hm
    exact h (by simp [henc, mark_iff.2 hm'])

theorem skipBody_space {enc : Enc} {c : Char} (h : isSpace c = true) (t : Text) : skipBody enc (c :: t) = skipBody enc t := by
  match t with
  | [] => simp [skipBody, h]
  | [b] => rw [show skipBody enc [c, b] = if isSpace c = true then skipBody enc [b] else [c, b] from rfl, if_pos h]
  | a :: b :: r =>
    rw [skipBody, if_neg (by simp [space_not_mark h]), if_pos h]

theorem skipBody_fix {enc : Enc} {q : Text} (h1 : ∀ c r, q = c :: r → ¬ Space c)
    (h2 : enc = .utf8 → ∀ m r, q = m ++ r → ¬ Mark m) : skipBody enc q = q := by
  match q with
  | [] => rfl
  | [a] => rw [skipBody, if_neg (fun h => h1 a [] rfl (space_iff.1 h))]
  | [a, b] => rw [skipBody, if_neg (fun h => h1 a [b] rfl (space_iff.1 h))]
  | a :: b :: c :: r =>
    rw [skipBody, if_neg, if_neg (fun h => h1 a _ rfl (space_iff.1 h))]
    simp only [Bool.and_eq_true, decide_eq_true_eq, not_and]
    intro he hm
    exact h2 he [a, b, c] r rfl (mark_iff.1 hm)

theorem gap_iff {enc : Enc} {p q : Text} : skipWhiteSpace enc (some p) = some q ↔ Gap enc p q := by
  constructor
  · intro h
    cases p with
    | nil => simp [skipWhiteSpace] at h
    | cons a r =>
      simp only [skipWhiteSpace, Option.some.injEq] at h
      subst h
      refine ⟨by simp, skipBody_blanks _ _, fun c r h hs => ?_, skipBody_clean _ _⟩
      have := skipBody_head _ _ h
      rw [space_iff.2 hs] at this; cases this
  · rintro ⟨hp, hb, h1, h2⟩
    have : skipBody enc p = q := by
      clear hp
      induction hb with
      | none q => exact skipBody_fix h1 h2
      | space c p q hs _ ih => rw [skipBody_space (space_iff.2 hs)]; exact ih h1 h2
      | mark m p q he hm _ ih =>
        obtain ⟨a, b, c, rfl⟩ := mark_cons hm
        show skipBody enc (a :: b :: c :: p) = q
        rw [skipBody, if_pos (by simp [he, mark_iff.2 hm])]
        exact ih h1 h2
    cases p with
    | nil => exact absurd rfl hp
    | cons a r => rw [skipWhiteSpace, this]; simp

theorem gap_self {enc : Enc} {c : Char} {r : Text} (h : ¬ Space c) (h' : c.toNat < 128) : Gap enc (c :: r) (c :: r) := by
  refine ⟨by simp, .none _, ?_, ?_⟩
  · rintro d t e; cases e; exact h
  · rintro - m t e hm
    obtain ⟨a, b, d, rfl⟩ := mark_cons hm
    simp only [List.cons_append, List.cons.injEq] at e
    obtain ⟨rfl, -⟩ := e
    rcases hm with hm | hm | hm <;> simp at hm <;> omega

theorem Gap.unique {enc : Enc} {p q q' : Text} (h : Gap enc p q) (h' : Gap enc p q') : q = q' := by
  rw [← gap_iff] at h h'
  rw [h] at h'; exact Option.some.inj h'

theorem Gap.suffix {enc : Enc} {p q : Text} (h : Gap enc p q) : q <:+ p := skipWhiteSpace_suffix (gap_iff.2 h)

/-- Behind a gap no further one can be. -/
theorem Gap.again {enc : Enc} {p q : Text} (h : Gap enc p q) (hq : q ≠ []) : Gap enc q q := ⟨hq, .none _, h.2.2.1, h.2.2.2⟩

theorem nameStart_iff {c : Char} : (isAlpha c || decide (c = '_')) = true ↔ NameStart c := by
  constructor
  · intro h
    simp only [Bool.or_eq_true, decide_eq_true_eq] at h
    rcases h with h | h
    · unfold isAlpha at h
      split_ifs at h with h1
      · exact .inl ((isLetter_iff c).1 h)
      · exact .inr (.inr (by omega))
    · exact .inr (.inl h)
  · exact isAlpha_of

theorem nameChar_iff {c : Char} : isNameChar c = true ↔ NameChar c := by
  constructor
  · intro h
    simp only [isNameChar, isAlphaNum, Bool.or_eq_true, decide_eq_true_eq] at h
    unfold NameChar
    rw [isAlphanum_iff]
    split_ifs at h with h1
    · simp only [Bool.or_eq_true, Bool.and_eq_true, decide_eq_true_eq] at h
      tauto
    · exact .inr (.inr (.inr (.inr (.inr (by omega)))))
  · exact isNameChar_of

theorem takeWhile_iff {f : Char → Bool} {p n q : Text} : (p.takeWhile f = n ∧ p.dropWhile f = q) ↔
    (p = n ++ q ∧ (∀ c ∈ n, f c = true) ∧ ∀ c r, q = c :: r → f c = false) := by
  constructor
  · rintro ⟨rfl, rfl⟩
    refine ⟨(List.takeWhile_append_dropWhile).symm, fun c hc => ?_, fun c r h => ?_⟩
    · exact List.mem_takeWhile_imp hc
    · have := List.head?_dropWhile_not f p
      rw [h] at this
      simpa using this
  · rintro ⟨rfl, h1, h2⟩
    rw [List.takeWhile_append_of_pos h1, List.dropWhile_append_of_pos h1]
    cases q with
    | nil => simp
    | cons c r =>
      have := h2 c r rfl
      simp [this]

theorem name_iff {p n q : Text} : readName p = some (n, q) ↔ Name p n q := by
  have key : (∀ c ∈ n, isNameChar c = true) ↔ ∀ c ∈ n, NameChar c :=
    forall_congr' fun c => imp_congr_right fun _ => nameChar_iff
  have key' : (∀ c r, q = c :: r → isNameChar c = false) ↔ ∀ c r, q = c :: r → ¬ NameChar c :=
    forall_congr' fun c => forall_congr' fun r => imp_congr_right fun _ => by
      rw [← nameChar_iff, Bool.not_eq_true]
  constructor
  · intro h
    cases p with
    | nil => simp [readName] at h
    | cons c r =>
      simp only [readName] at h
      split_ifs at h with h1
      simp only [Option.some.injEq, Prod.mk.injEq] at h
      obtain ⟨e, h2, h3⟩ := takeWhile_iff.1 h
      refine ⟨e, ?_, key.1 h2, key'.1 h3⟩
      have hc : isNameChar c = true := by
        simp only [Bool.or_eq_true, decide_eq_true_eq] at h1
        rcases h1 with h1 | h1
        · simp only [isNameChar, Bool.or_eq_true]
          left; left; left; left
          unfold isAlpha at h1; unfold isAlphaNum
          split_ifs at h1 ⊢ <;> simp [h1]
        · subst h1; decide
      cases n with
      | nil =>
        have := h3 c r (by simpa using e.symm)
        rw [hc] at this; cases this
      | cons d s =>
        simp only [List.cons_append, List.cons.injEq] at e
        obtain ⟨rfl, -⟩ := e
        exact ⟨_, _, rfl, nameStart_iff.1 h1⟩
  · rintro ⟨rfl, ⟨c, r, rfl, hc⟩, h2, h3⟩
    obtain ⟨e1, e2⟩ := takeWhile_iff.2 ⟨rfl, key.2 h2, key'.2 h3⟩
    rw [show readName (c :: r ++ q) = if (isAlpha c || decide (c = '_')) = true then
      some ((c :: r ++ q).takeWhile isNameChar, (c :: r ++ q).dropWhile isNameChar) else none from rfl,
      if_pos (nameStart_iff.2 hc), e1, e2]

theorem Name.unique {p n q n' q' : Text} (h : Name p n q) (h' : Name p n' q') : n = n' ∧ q = q' := by
  rw [← name_iff] at h h'
  rw [h] at h'
  simpa using h'

theorem Name.suffix {p n q : Text} (h : Name p n q) : q <:+ p := ⟨n, h.1.symm⟩

theorem Name.shorter {p n q : Text} (h : Name p n q) : q.length < p.length := (readName_suffix (name_iff.2 h)).2

/-! ### Characters and references -/

theorem width_eq (enc : Enc) (c : Char) : (if enc = .utf8 then utf8Width c else 1) = width enc c := by
  cases enc with
  | utf8 =>
    rw [if_pos rfl]
    unfold utf8Width width
    simp only
    split_ifs <;> first | rfl | omega
  | unknown => rfl
  | legacy => rfl

theorem width_pos (enc : Enc) (c : Char) : 0 < width enc c := by
  unfold width
  cases enc <;> simp only <;> (try split_ifs) <;> omega

theorem digit_hex (c : Char) : digit 16 c = if 48 ≤ c.toNat && c.toNat ≤ 57 then some (c.toNat - 48)
    else if 97 ≤ c.toNat && c.toNat ≤ 102 then some (c.toNat - 97 + 10)
    else if 65 ≤ c.toNat && c.toNat ≤ 70 then some (c.toNat - 65 + 10) else none := by
  simp only [digit, Bool.and_eq_true, decide_eq_true_eq, true_and]
  rfl

theorem digit_dec (c : Char) : digit 10 c = if 48 ≤ c.toNat && c.toNat ≤ 57 then some (c.toNat - 48) else none := by
  simp only [digit, Bool.and_eq_true, decide_eq_true_eq, show ¬ ((10 : ℕ) = 16) by decide, false_and, if_false]
  rfl

/-- The number spelt by digits given from the last on, from the `k`-th on. -/
def lowNumber (base : ℕ) : ℕ → Text → Option ℕ
  | _, [] => some 0
  | k, c :: cs => do
    let d ← digit base c
    let n ← lowNumber base (k + 1) cs
    some (base ^ k % 2 ^ 32 * d % 2 ^ 32 + n)

theorem lowNumber_append (base : ℕ) (c : Char) : ∀ (cs : Text) (k : ℕ), lowNumber base k (cs ++ [c]) = do
    let d ← digit base c
    let n ← lowNumber base k cs
    some (base ^ (k + cs.length) % 2 ^ 32 * d % 2 ^ 32 + n)
  | [], k => by simp [lowNumber]
  | a :: cs, k => by
    simp only [List.cons_append, lowNumber]
    rw [lowNumber_append base c cs (k + 1)]
    cases digit base c with
    | none => cases digit base a <;> rfl
    | some d =>
      cases digit base a with
      | none => rfl
      | some x =>
        cases lowNumber base (k + 1) cs with
        | none => rfl
        | some n =>
          simp only [Option.bind_eq_bind, Option.bind_some, List.length_cons, Option.some.injEq]
          rw [show k + 1 + cs.length = k + (cs.length + 1) by omega]
          omega

theorem number_reverse (base : ℕ) : ∀ ds : Text, lowNumber base 0 ds.reverse = number base ds
  | [] => rfl
  | c :: cs => by
    rw [List.reverse_cons, lowNumber_append, number, number_reverse base cs]
    simp

theorem digit_ne {base : ℕ} {c : Char} {d : ℕ} (h : digit base c = some d) : c ≠ 'x' ∧ c ≠ '#' := by
  unfold digit at h
  constructor <;> rintro rfl <;> revert h <;> simp

theorem pow_step (b k : ℕ) : b ^ k % 2 ^ 32 * b % 2 ^ 32 = b ^ (k + 1) % 2 ^ 32 := by
  rw [Nat.mod_mul_mod, ← pow_succ b k]

theorem hexValue_iff : ∀ (cs : Text) (k u n : ℕ), hexValue cs (16 ^ k % 2 ^ 32) u = some n ↔
    ∃ ds t m, cs = ds ++ t ∧ (t = [] ∨ ∃ r, t = 'x' :: r) ∧ lowNumber 16 k ds = some m ∧ n = u + m
  | [], k, u, n => by
    simp only [hexValue, Option.some.injEq]
    constructor
    · rintro rfl; exact ⟨[], [], 0, rfl, .inl rfl, rfl, rfl⟩
    · rintro ⟨ds, t, m, h, -, h2, rfl⟩
      obtain ⟨rfl, rfl⟩ := List.append_eq_nil_iff.1 h.symm
      simp only [lowNumber, Option.some.injEq] at h2
      omega
  | c :: cs, k, u, n => by
    rw [hexValue]
    by_cases hx : c = 'x'
    · rw [if_pos hx]
      constructor
      · rintro h; cases h; exact ⟨[], c :: cs, 0, rfl, .inr ⟨cs, by rw [hx]⟩, rfl, rfl⟩
      · rintro ⟨ds, t, m, h, -, h2, rfl⟩
        cases ds with
        | nil => simp only [lowNumber, Option.some.injEq] at h2; subst h2; rfl
        | cons d ds =>
          simp only [List.cons_append, List.cons.injEq] at h
          obtain ⟨rfl, -⟩ := h
          rw [lowNumber] at h2
          cases hd : digit 16 c with
          | none => rw [hd] at h2; simp at h2
          | some d => exact absurd hx (digit_ne hd).1
    · rw [if_neg hx]
      have step : (let next := fun d => hexValue cs (16 ^ k % 2 ^ 32 * 16 % 2 ^ 32) (u + 16 ^ k % 2 ^ 32 * d % 2 ^ 32)
          if 48 ≤ c.toNat && c.toNat ≤ 57 then next (c.toNat - 48)
          else if 97 ≤ c.toNat && c.toNat ≤ 102 then next (c.toNat - 97 + 10)
          else if 65 ≤ c.toNat && c.toNat ≤ 70 then next (c.toNat - 65 + 10)
          else none) = (digit 16 c).bind fun d => hexValue cs (16 ^ (k + 1) % 2 ^ 32) (u + 16 ^ k % 2 ^ 32 * d % 2 ^ 32) := by
        rw [digit_hex, ← pow_step]
        simp only
        split_ifs <;> rfl
      rw [step]
      cases hd : digit 16 c with
      | none =>
        simp only [Option.bind_none, reduceCtorEq, false_iff]
        rintro ⟨ds, t, m, h, ht, h2, rfl⟩
        cases ds with
        | nil =>
          rcases ht with rfl | ⟨r, rfl⟩
          · simp at h
          · simp only [List.nil_append, List.cons.injEq] at h; exact hx h.1
        | cons d ds =>
          simp only [List.cons_append, List.cons.injEq] at h
          obtain ⟨rfl, -⟩ := h
          simp [lowNumber, hd] at h2
      | some d =>
        simp only [Option.bind_some]
        rw [hexValue_iff cs (k + 1)]
        constructor
        · rintro ⟨ds, t, m, rfl, ht, h2, rfl⟩
          exact ⟨c :: ds, t, 16 ^ k % 2 ^ 32 * d % 2 ^ 32 + m, rfl, ht, by
            simp only [lowNumber, hd, h2, Option.bind_eq_bind, Option.bind_some], by omega⟩
        · rintro ⟨ds, t, m, h, ht, h2, rfl⟩
          cases ds with
          | nil =>
            rcases ht with rfl | ⟨r, rfl⟩
            · simp at h
            · simp only [List.nil_append, List.cons.injEq] at h; exact absurd h.1 hx
          | cons d' ds =>
            simp only [List.cons_append, List.cons.injEq] at h
            obtain ⟨rfl, rfl⟩ := h
            rw [lowNumber, hd] at h2
            cases hl : lowNumber 16 (k + 1) ds with
            | none => rw [hl] at h2; simp at h2
            | some m' =>
              rw [hl] at h2
              simp only [Option.bind_eq_bind, Option.bind_some, Option.some.injEq] at h2
              exact ⟨ds, t, m', rfl, ht, hl, by omega⟩

theorem decValue_iff : ∀ (cs : Text) (k u n : ℕ), decValue cs (10 ^ k % 2 ^ 32) u = some n ↔
    ∃ ds t m, cs = ds ++ t ∧ (t = [] ∨ ∃ r, t = '#' :: r) ∧ lowNumber 10 k ds = some m ∧ n = u + m
  | [], k, u, n => by
    simp only [decValue, Option.some.injEq]
    constructor
    · rintro rfl; exact ⟨[], [], 0, rfl, .inl rfl, rfl, rfl⟩
    · rintro ⟨ds, t, m, h, -, h2, rfl⟩
      obtain ⟨rfl, rfl⟩ := List.append_eq_nil_iff.1 h.symm
      simp only [lowNumber, Option.some.injEq] at h2
      omega
  | c :: cs, k, u, n => by
    rw [decValue]
    by_cases hx : c = '#'
    · rw [if_pos hx]
      constructor
      · rintro h; cases h; exact ⟨[], c :: cs, 0, rfl, .inr ⟨cs, by rw [hx]⟩, rfl, rfl⟩
      · rintro ⟨ds, t, m, h, -, h2, rfl⟩
        cases ds with
        | nil => simp only [lowNumber, Option.some.injEq] at h2; subst h2; rfl
        | cons d ds =>
          simp only [List.cons_append, List.cons.injEq] at h
          obtain ⟨rfl, -⟩ := h
          rw [lowNumber] at h2
          cases hd : digit 10 c with
          | none => rw [hd] at h2; simp at h2
          | some d => exact absurd hx (digit_ne hd).2
    · rw [if_neg hx]
      have step : (if (48 ≤ c.toNat && c.toNat ≤ 57) = true then
            decValue cs (10 ^ k % 2 ^ 32 * 10 % 2 ^ 32) (u + 10 ^ k % 2 ^ 32 * (c.toNat - 48) % 2 ^ 32)
          else none) = (digit 10 c).bind fun d => decValue cs (10 ^ (k + 1) % 2 ^ 32) (u + 10 ^ k % 2 ^ 32 * d % 2 ^ 32) := by
        rw [digit_dec, ← pow_step]
        split_ifs <;> rfl
      rw [step]
      cases hd : digit 10 c with
      | none =>
        simp only [Option.bind_none, reduceCtorEq, false_iff]
        rintro ⟨ds, t, m, h, ht, h2, rfl⟩
        cases ds with
        | nil =>
          rcases ht with rfl | ⟨r, rfl⟩
          · simp at h
          · simp only [List.nil_append, List.cons.injEq] at h; exact hx h.1
        | cons d ds =>
          simp only [List.cons_append, List.cons.injEq] at h
          obtain ⟨rfl, -⟩ := h
          simp [lowNumber, hd] at h2
      | some d =>
        simp only [Option.bind_some]
        rw [decValue_iff cs (k + 1)]
        constructor
        · rintro ⟨ds, t, m, rfl, ht, h2, rfl⟩
          exact ⟨c :: ds, t, 10 ^ k % 2 ^ 32 * d % 2 ^ 32 + m, rfl, ht, by
            simp only [lowNumber, hd, h2, Option.bind_eq_bind, Option.bind_some], by omega⟩
        · rintro ⟨ds, t, m, h, ht, h2, rfl⟩
          cases ds with
          | nil =>
            rcases ht with rfl | ⟨r, rfl⟩
            · simp at h
            · simp only [List.nil_append, List.cons.injEq] at h; exact absurd h.1 hx
          | cons d' ds =>
            simp only [List.cons_append, List.cons.injEq] at h
            obtain ⟨rfl, rfl⟩ := h
            rw [lowNumber, hd] at h2
            cases hl : lowNumber 10 (k + 1) ds with
            | none => rw [hl] at h2; simp at h2
            | some m' =>
              rw [hl] at h2
              simp only [Option.bind_eq_bind, Option.bind_some, Option.some.injEq] at h2
              exact ⟨ds, t, m', rfl, ht, hl, by omega⟩

/-- From the digits in reverse to the number of the reference. -/
theorem refNumber_iff {base : ℕ} {sep : Char} {body : Text} {n : ℕ} :
    (∃ ds t m, body.reverse = ds ++ t ∧ (t = [] ∨ ∃ r, t = sep :: r) ∧ lowNumber base 0 ds = some m ∧ n = 0 + m) ↔
      RefNumber base sep body n := by
  constructor
  · rintro ⟨ds, t, m, h, ht, h2, rfl⟩
    refine ⟨t.reverse, ds.reverse, ?_, ?_, ?_⟩
    · rw [← List.reverse_append, ← h, List.reverse_reverse]
    · rcases ht with rfl | ⟨r, rfl⟩
      · exact .inl rfl
      · exact .inr ⟨r.reverse, by simp⟩
    · rw [← number_reverse, List.reverse_reverse, h2, zero_add]
  · rintro ⟨before, ds, rfl, hb, h⟩
    refine ⟨ds.reverse, before.reverse, n, by simp, ?_, by rw [number_reverse, h], by omega⟩
    rcases hb with rfl | ⟨b, rfl⟩
    · exact .inl rfl
    · exact .inr ⟨b.reverse, by simp⟩

theorem hex_iff {body : Text} {n : ℕ} : hexValue body.reverse 1 0 = some n ↔ RefNumber 16 'x' body n := by
  rw [← refNumber_iff]; exact hexValue_iff body.reverse 0 0 n

theorem dec_iff {body : Text} {n : ℕ} : decValue body.reverse 1 0 = some n ↔ RefNumber 10 '#' body n := by
  rw [← refNumber_iff]; exact decValue_iff body.reverse 0 0 n

theorem coded_eq (enc : Enc) (n : ℕ) : refChar enc n = coded enc n := by
  cases enc with
  | utf8 =>
    simp only [refChar, coded, utf32ToUtf8, utf8, if_true]
    split_ifs <;> simp [Nat.div_div_eq_div_mul]
  | unknown => rfl
  | legacy => rfl

theorem semi_iff {l body q : Text} : (';' ∈ l ∧ l.takeWhile (· ≠ ';') = body ∧ (l.dropWhile (· ≠ ';')).drop 1 = q) ↔
    (l = body ++ ';' :: q ∧ ';' ∉ body) := by
  constructor
  · rintro ⟨hm, rfl, rfl⟩
    obtain ⟨e, h1, h2⟩ := (takeWhile_iff (p := l) (f := (· ≠ ';'))).1 ⟨rfl, rfl⟩
    have hn : ';' ∉ l.takeWhile (· ≠ ';') := fun h => by simpa using h1 _ h
    refine ⟨?_, hn⟩
    cases hd : l.dropWhile (· ≠ ';') with
    | nil => rw [hd, List.append_nil] at e; rw [← e] at hn; exact absurd hm hn
    | cons c r =>
      have := h2 c r hd
      simp only [ne_eq, decide_not, Bool.not_eq_eq_eq_not, Bool.not_false, decide_eq_true_eq] at this
      subst this
      rw [hd] at e
      simpa using e
  · rintro ⟨rfl, h⟩
    obtain ⟨e1, e2⟩ := (takeWhile_iff (p := body ++ ';' :: q) (f := (· ≠ ';'))).2 ⟨rfl, fun c hc => by
      simp only [ne_eq, decide_not, Bool.not_eq_eq_eq_not, Bool.not_true, decide_eq_false_iff_not]
      rintro rfl; exact h hc, by rintro c r e; cases e; simp⟩
    refine ⟨by simp, e1, by rw [e2]; rfl⟩

theorem semi_unique {a b q r : Text} (h : a ++ ';' :: q = b ++ ';' :: r) (ha : ';' ∉ a) (hb : ';' ∉ b) : a = b ∧ q = r := by
  obtain ⟨-, h1, h2⟩ := semi_iff.2 ⟨h, hb⟩
  obtain ⟨-, h3, h4⟩ := (semi_iff (l := a ++ ';' :: q) (q := q)).2 ⟨rfl, ha⟩
  rw [h1] at h3; rw [h2] at h4
  exact ⟨h3.symm, h4.symm⟩

theorem matchEntity_names (rest v q : Text) : ∀ es : List (Text × Char), (es.map Prod.fst).Nodup → (∀ e ∈ es, ';' ∉ e.1) →
    (matchEntity ('&' :: rest) (es.map fun e => ('&' :: e.1 ++ [';'], e.2)) = (v, q) ↔
    ((∃ name c, (name, c) ∈ es ∧ v = [c] ∧ rest = name ++ ';' :: q) ∨
      (v = [] ∧ q = rest ∧ ∀ e ∈ es, ∀ r, rest ≠ e.1 ++ ';' :: r)))
  | [], _, _ => by
    simp only [List.map_nil, matchEntity, List.drop_succ_cons, List.drop_zero, Prod.mk.injEq]
    constructor
    · rintro ⟨rfl, rfl⟩; exact .inr ⟨rfl, rfl, by simp⟩
    · rintro (⟨name, c, h, -⟩ | ⟨rfl, rfl, -⟩)
      · cases h
      · exact ⟨rfl, rfl⟩
  | (n, d) :: es, hn, hs => by
    have ih := matchEntity_names rest v q es (List.nodup_cons.1 hn).2 fun e he => hs e (List.mem_cons_of_mem _ he)
    have hns : ';' ∉ n := hs (n, d) (by simp)
    rw [List.map_cons, matchEntity]
    by_cases hp : ∃ r, rest = n ++ ';' :: r
    · obtain ⟨r, rfl⟩ := hp
      rw [if_pos (by simp)]
      simp only [Prod.mk.injEq]
      constructor
      · rintro ⟨rfl, h2⟩
        refine .inl ⟨n, d, by simp, rfl, ?_⟩
        rw [← h2]; simp
      · rintro (⟨name, c, hm, rfl, h⟩ | ⟨-, -, h⟩)
        · obtain ⟨rfl, rfl⟩ := semi_unique h hns (hs _ hm)
          rcases List.mem_cons.1 hm with hm | hm
          · cases hm; exact ⟨rfl, by simp⟩
          · exact absurd (List.mem_map.2 ⟨_, hm, rfl⟩) (List.nodup_cons.1 hn).1
        · exact absurd rfl (h (n, d) (by simp) r)
    · rw [if_neg, ih]
      · constructor
        · rintro (⟨name, c, hm, h⟩ | ⟨h1, h2, h3⟩)
          · exact .inl ⟨name, c, List.mem_cons_of_mem _ hm, h⟩
          · refine .inr ⟨h1, h2, ?_⟩
            rintro e he r h
            rcases List.mem_cons.1 he with rfl | he
            · exact hp ⟨r, h⟩
            · exact h3 e he r h
        · rintro (⟨name, c, hm, h⟩ | ⟨h1, h2, h3⟩)
          · rcases List.mem_cons.1 hm with hm | hm
            · cases hm; exact absurd ⟨q, h.2⟩ hp
            · exact .inl ⟨name, c, hm, h⟩
          · exact .inr ⟨h1, h2, fun e he => h3 e (List.mem_cons_of_mem _ he)⟩
      · rw [List.isPrefixOf_iff_prefix]
        rintro ⟨r, h⟩
        simp only [List.cons_append, List.append_assoc, List.nil_append, List.cons.injEq, true_and] at h
        exact hp ⟨r, h.symm⟩

theorem matchEntity_iff {rest v q : Text} : matchEntity ('&' :: rest) entities = (v, q) ↔
    ((∃ name c, (name, c) ∈ entityNames ∧ v = [c] ∧ rest = name ++ ';' :: q) ∨
      (v = [] ∧ q = rest ∧ ∀ e ∈ entityNames, ∀ r, rest ≠ e.1 ++ ';' :: r)) :=
  matchEntity_names rest v q entityNames (by decide) (by decide)

theorem entity_head {name : Text} {c : Char} (h : (name, c) ∈ entityNames) : ∃ d r, name = d :: r ∧ d ≠ '#' := by
  simp only [entityNames, List.mem_cons, Prod.mk.injEq, List.not_mem_nil, or_false] at h
  rcases h with ⟨rfl, -⟩ | ⟨rfl, -⟩ | ⟨rfl, -⟩ | ⟨rfl, -⟩ | ⟨rfl, -⟩ <;> exact ⟨_, _, rfl, by decide⟩

theorem getEntity_iff {enc : Enc} {rest v q : Text} : getEntity enc rest = some (v, q) ↔ Piece enc ('&' :: rest) v q := by
  constructor
  · intro h
    unfold getEntity at h
    split at h
    · rename_i digits
      split_ifs at h with hm
      split at h
      · cases h
      · rename_i ucs hu
        simp only [Option.some.injEq, Prod.mk.injEq] at h
        obtain ⟨rfl, rfl⟩ := h
        obtain ⟨e, hn⟩ := semi_iff.1 ⟨hm, rfl, rfl⟩
        rw [coded_eq]
        conv => enter [2]; rw [e]
        exact .hex _ _ _ hn (hex_iff.1 hu)
    · rename_i c digits hx
      split_ifs at h with hm
      split at h
      · cases h
      · rename_i ucs hu
        simp only [Option.some.injEq, Prod.mk.injEq] at h
        obtain ⟨rfl, rfl⟩ := h
        obtain ⟨e, hn⟩ := semi_iff.1 ⟨hm, rfl, rfl⟩
        rw [coded_eq]
        conv => enter [2]; rw [e]
        refine .decimal _ _ _ hn ?_ (dec_iff.1 hu)
        intro r hr
        rw [hr] at e
        simp only [List.cons_append, List.cons.injEq] at e
        exact hx e.1
    · rename_i h1 h2
      simp only [Option.some.injEq] at h
      rcases matchEntity_iff.1 h with ⟨name, c, hm, rfl, rfl⟩ | ⟨rfl, rfl, h3⟩
      · exact .entity name c q hm
      · exact .stray q (fun c r h => h2 c r h) h3
  · intro h
    generalize hp : '&' :: rest = p at h
    cases h with
    | char c s q hc hw => simp only [List.cons_append, List.cons.injEq] at hp; exact absurd hp.1.symm hc
    | entity name c q hm =>
      simp only [List.cons_append, List.cons.injEq, true_and] at hp
      subst hp
      obtain ⟨d, r, rfl, hd⟩ := entity_head hm
      have := (matchEntity_iff (q := q)).2 (.inl ⟨d :: r, c, hm, rfl, rfl⟩)
      unfold getEntity
      split
      · rename_i h; simp only [List.cons_append, List.cons.injEq] at h; exact absurd h.1 hd
      · rename_i h; simp only [List.cons_append, List.cons.injEq] at h; exact absurd h.1 hd
      · rw [this]
    | hex body n q hn hr =>
      simp only [List.cons_append, List.cons.injEq, true_and] at hp
      subst hp
      obtain ⟨h1, h2, h3⟩ := (semi_iff (l := body ++ ';' :: q) (q := q)).2 ⟨rfl, hn⟩
      rw [getEntity]
      rw [if_pos h1, h2, hex_iff.2 hr, h3, ← coded_eq]
    | decimal body n q hn hx hr =>
      simp only [List.cons_append, List.cons.injEq, true_and] at hp
      subst hp
      obtain ⟨h1, h2, h3⟩ := (semi_iff (l := body ++ ';' :: q) (q := q)).2 ⟨rfl, hn⟩
      cases hb : body ++ ';' :: q with
      | nil => simp at hb
      | cons c r =>
        rw [hb] at h1 h2 h3
        have hc : c ≠ 'x' := by
          rintro rfl
          cases body with
          | nil => simp at hb
          | cons b bs => simp only [List.cons_append, List.cons.injEq] at hb; exact hx bs (by rw [hb.1])
        unfold getEntity
        split
        · rename_i h; simp only [List.cons.injEq, true_and] at h; exact absurd h.1 hc
        · rename_i c' r' _ h
          simp only [List.cons.injEq, true_and] at h
          obtain ⟨rfl, rfl⟩ := h
          rw [if_pos h1, h2, dec_iff.2 hr, h3, ← coded_eq]
        · rename_i h; exact absurd rfl (h c r)
    | stray q h1 h2 =>
      simp only [List.cons.injEq, true_and] at hp
      subst hp
      have := matchEntity_iff.2 (.inr ⟨rfl, rfl, h2⟩)
      unfold getEntity
      split
      · exact absurd rfl (h1 _ _)
      · exact absurd rfl (h1 _ _)
      · rw [this]

theorem width_amp (enc : Enc) : width enc '&' = 1 := by cases enc <;> decide

theorem piece_iff {enc : Enc} {c : Char} {rest v q : Text} : getChar enc c rest = .ok (some (v, q)) ↔ Piece enc (c :: rest) v q := by
  unfold getChar
  rw [width_eq]
  simp only
  by_cases hc : c = '&'
  · subst hc
    rw [width_amp, if_pos rfl, if_pos rfl, ← getEntity_iff]
    simp
  · have hp : Piece enc (c :: rest) v q ↔ ∃ s, c :: rest = c :: s ++ q ∧ (c :: s).length = width enc c ∧ v = c :: s := by
      constructor
      · intro h
        generalize hp : c :: rest = p at h
        cases h with
        | char d s q hd hw =>
          have e := hp
          simp only [List.cons_append, List.cons.injEq] at hp
          obtain ⟨rfl, rfl⟩ := hp
          exact ⟨s, rfl, hw, rfl⟩
        | entity => simp only [List.cons_append, List.cons.injEq] at hp; exact absurd hp.1 hc
        | hex => simp only [List.cons_append, List.cons.injEq] at hp; exact absurd hp.1 hc
        | decimal => simp only [List.cons_append, List.cons.injEq] at hp; exact absurd hp.1 hc
        | stray => simp only [List.cons.injEq] at hp; exact absurd hp.1 hc
      · rintro ⟨s, h, hw, rfl⟩
        rw [h]; exact .char c s q hc hw
    rw [hp]
    split_ifs with h1 h2
    · simp only [Run.ok.injEq, Option.some.injEq, Prod.mk.injEq]
      constructor
      · rintro ⟨rfl, rfl⟩; exact ⟨[], rfl, h1.symm, rfl⟩
      · rintro ⟨s, h, hw, rfl⟩
        rw [h1, List.length_cons] at hw
        obtain rfl := List.eq_nil_of_length_eq_zero (by omega : s.length = 0)
        simp only [List.cons_append, List.nil_append, List.cons.injEq, true_and] at h
        exact ⟨rfl, h⟩
    · simp only [reduceCtorEq, false_iff]
      rintro ⟨s, h, hw, -⟩
      rw [h, List.length_append, hw] at h2
      omega
    · simp only [Run.ok.injEq, Option.some.injEq, Prod.mk.injEq]
      constructor
      · rintro ⟨rfl, rfl⟩
        have hpos := width_pos enc c
        obtain ⟨k, hk⟩ : ∃ k, width enc c = k + 1 := ⟨width enc c - 1, by omega⟩
        rw [hk]
        refine ⟨rest.take k, by simp, ?_, by simp⟩
        simp only [List.length_cons, List.length_take] at h2 ⊢
        omega
      · rintro ⟨s, h, hw, rfl⟩
        rw [h, ← hw, List.take_left, List.drop_left]
        exact ⟨rfl, rfl⟩

theorem Piece.suffix {enc : Enc} {p v q : Text} (h : Piece enc p v q) : q <:+ p ∧ q.length < p.length := by
  cases h with
  | char c s q _ _ => exact ⟨⟨c :: s, rfl⟩, by simp; omega⟩
  | entity name c q _ => exact ⟨⟨'&' :: name ++ [';'], by simp⟩, by simp; omega⟩
  | hex body n q _ _ => exact ⟨⟨'&' :: '#' :: 'x' :: body ++ [';'], by simp⟩, by simp; omega⟩
  | decimal body n q _ _ _ => exact ⟨⟨'&' :: '#' :: body ++ [';'], by simp⟩, by simp; omega⟩
  | stray q _ _ => exact ⟨⟨['&'], rfl⟩, by simp⟩

/-! ### Quoted text and text -/

theorem readKeep_sound (enc : Enc) (stop : Text) : ∀ (fuel : ℕ) (p acc v r : Text), readKeep enc stop fuel p acc = .ok (v, r) →
    r ≠ [] → ∃ u, v = acc ++ u ∧ Upto enc stop p u (r.drop stop.length) ∧ stop <+: r := by
  intro fuel
  induction fuel with
  | zero =>
    intro p acc v r h hr
    cases p with
    | nil => simp only [readKeep, Run.ok.injEq, Prod.mk.injEq] at h; exact absurd h.2.symm hr
    | cons c rest => simp [readKeep] at h
  | succ fuel ih =>
    intro p acc v r h hr
    cases p with
    | nil => simp only [readKeep, Run.ok.injEq, Prod.mk.injEq] at h; exact absurd h.2.symm hr
    | cons c rest =>
      rw [readKeep] at h
      split_ifs at h with hp
      · simp only [Run.ok.injEq, Prod.mk.injEq] at h
        obtain ⟨rfl, rfl⟩ := h
        rw [List.isPrefixOf_iff_prefix] at hp
        obtain ⟨t, ht⟩ := hp
        refine ⟨[], by simp, ?_, ⟨t, ht⟩⟩
        rw [← ht, List.drop_left]
        exact .stop t
      · cases hg : getChar enc c rest with
        | ok o =>
          rw [hg] at h
          cases o with
          | none => simp at h
          | some x =>
            obtain ⟨value, p'⟩ := x
            simp only [Run.bind_ok] at h
            obtain ⟨u, rfl, hu, hs⟩ := ih _ _ _ _ h hr
            refine ⟨value ++ u, by simp, .piece _ _ _ _ _ ?_ (piece_iff.1 hg) hu, hs⟩
            rw [← List.isPrefixOf_iff_prefix]; exact hp
        | ub => rw [hg] at h; simp at h
        | assertFailed => rw [hg] at h; simp at h
        | endless => rw [hg] at h; simp at h

theorem readKeep_complete {enc : Enc} {stop : Text} (hs : stop ≠ []) {p u q : Text} (h : Upto enc stop p u q) :
    ∀ (fuel : ℕ) (acc : Text), p.length ≤ fuel → readKeep enc stop fuel p acc = .ok (acc ++ u, stop ++ q) := by
  induction h with
  | stop q =>
    intro fuel acc hf
    cases hq : stop ++ q with
    | nil => exact absurd (List.append_eq_nil_iff.1 hq).1 hs
    | cons c r =>
      rw [hq] at hf
      obtain ⟨fuel, rfl⟩ : ∃ k, fuel = k + 1 := ⟨fuel - 1, by simp at hf; omega⟩
      rw [readKeep, if_pos (by rw [List.isPrefixOf_iff_prefix]; exact ⟨q, hq⟩), List.append_nil]
  | piece p v p' vs q hp hc hu ih =>
    intro fuel acc hf
    have hl := hc.suffix.2
    cases p with
    | nil => simp at hl
    | cons c r =>
      obtain ⟨fuel, rfl⟩ : ∃ k, fuel = k + 1 := ⟨fuel - 1, by simp at hf; omega⟩
      rw [readKeep, if_neg (by rw [List.isPrefixOf_iff_prefix]; exact hp), piece_iff.2 hc]
      simp only [Run.bind_ok]
      rw [ih _ _ (by omega), List.append_assoc]

theorem upto_iff {enc : Enc} {stop p u q : Text} (hs : stop ≠ []) : readQuoted enc stop p = .ok (u, q) ↔ Upto enc stop p u q := by
  unfold readQuoted
  constructor
  · intro h
    cases hk : readKeep enc stop p.length p [] with
    | ok x =>
      obtain ⟨v, r⟩ := x
      rw [hk] at h
      simp only [Run.bind_ok] at h
      split_ifs at h with hr
      simp only [Run.ok.injEq, Prod.mk.injEq] at h
      obtain ⟨rfl, rfl⟩ := h
      obtain ⟨u, rfl, hu, -⟩ := readKeep_sound enc stop _ _ _ _ _ hk hr
      simpa using hu
    | ub => rw [hk] at h; simp at h
    | assertFailed => rw [hk] at h; simp at h
    | endless => rw [hk] at h; simp at h
  · intro h
    rw [readKeep_complete hs h _ _ le_rfl]
    simp only [Run.bind_ok]
    rw [if_neg (by simp [hs]), List.drop_left]
    rfl

theorem Upto.suffix {enc : Enc} {stop p u q : Text} (h : Upto enc stop p u q) : q <:+ p := by
  induction h with
  | stop q => exact List.suffix_append _ _
  | piece p v p' vs q _ hc _ ih => exact ih.trans hc.suffix.1

theorem readTrim_sound (enc : Enc) : ∀ (fuel : ℕ) (w : Bool) (p acc v r : Text), readTrim enc ['<'] fuel w p acc = .ok (v, r) →
    ∃ u, v = acc ++ u ∧ Condensed enc w p u r := by
  intro fuel
  induction fuel with
  | zero =>
    intro w p acc v r h
    cases p with
    | nil =>
      simp only [readTrim, Run.ok.injEq, Prod.mk.injEq] at h
      obtain ⟨rfl, rfl⟩ := h
      exact ⟨[], by simp, .stop _ _ (.inl rfl)⟩
    | cons c rest => simp [readTrim] at h
  | succ fuel ih =>
    intro w p acc v r h
    cases p with
    | nil =>
      simp only [readTrim, Run.ok.injEq, Prod.mk.injEq] at h
      obtain ⟨rfl, rfl⟩ := h
      exact ⟨[], by simp, .stop _ _ (.inl rfl)⟩
    | cons c rest =>
      rw [readTrim] at h
      split_ifs at h with hp hsp hw
      · simp only [Run.ok.injEq, Prod.mk.injEq] at h
        obtain ⟨rfl, rfl⟩ := h
        simp only [List.isPrefixOf, Bool.and_true, beq_iff_eq] at hp
        exact ⟨[], by simp, .stop _ _ (.inr ⟨rest, by rw [hp]⟩)⟩
      · obtain ⟨u, rfl, hu⟩ := ih _ _ _ _ _ h
        exact ⟨u, rfl, .space _ _ _ _ _ (space_iff.1 hsp) hu⟩
      all_goals
        have hc : c ≠ '<' := fun e => hp (by simp [List.isPrefixOf, e])
        have hsp : ¬ Space c := fun e => hsp (space_iff.2 e)
        cases hg : getChar enc c rest with
        | ok o =>
          rw [hg] at h
          cases o with
          | none => simp at h
          | some x =>
            obtain ⟨value, p'⟩ := x
            simp only [Run.bind_ok] at h
            obtain ⟨u, rfl, hu⟩ := ih _ _ _ _ _ h
            have := Condensed.piece w c rest value p' u r hsp hc (piece_iff.1 hg) hu
            exact ⟨(if w then [' '] else []) ++ value ++ u, by simp [hw], this⟩
        | ub => rw [hg] at h; simp at h
        | assertFailed => rw [hg] at h; simp at h
        | endless => rw [hg] at h; simp at h

theorem readTrim_complete {enc : Enc} {w : Bool} {p u q : Text} (h : Condensed enc w p u q) :
    ∀ (fuel : ℕ) (acc : Text), p.length ≤ fuel → readTrim enc ['<'] fuel w p acc = .ok (acc ++ u, q) := by
  induction h with
  | stop w q hq =>
    intro fuel acc hf
    rcases hq with rfl | ⟨r, rfl⟩
    · cases fuel <;> simp [readTrim]
    · obtain ⟨fuel, rfl⟩ : ∃ k, fuel = k + 1 := ⟨fuel - 1, by simp at hf; omega⟩
      rw [readTrim, if_pos (by simp [List.isPrefixOf]), List.append_nil]
  | space w c p v q hs hc ih =>
    intro fuel acc hf
    obtain ⟨fuel, rfl⟩ : ∃ k, fuel = k + 1 := ⟨fuel - 1, by simp at hf; omega⟩
    rw [readTrim, if_neg, if_pos (space_iff.2 hs), ih _ _ (by simp at hf; omega)]
    simp only [List.isPrefixOf, Bool.and_true, beq_iff_eq]
    rintro rfl
    have := space_iff.2 hs
    revert this; decide
  | piece w c r v p' vs q hs hc hpc hu ih =>
    intro fuel acc hf
    have hl := hpc.suffix.2
    obtain ⟨fuel, rfl⟩ : ∃ k, fuel = k + 1 := ⟨fuel - 1, by simp at hf; omega⟩
    rw [readTrim, if_neg (by simp only [List.isPrefixOf, Bool.and_true, beq_iff_eq]; exact fun e => hc e.symm),
      if_neg (fun e => hs (space_iff.1 e)), piece_iff.2 hpc]
    simp only [Run.bind_ok]
    rw [ih _ _ (by omega)]
    cases w <;> simp

theorem Condensed.suffix {enc : Enc} {w : Bool} {p u q : Text} (h : Condensed enc w p u q) : q <:+ p := by
  induction h with
  | stop => exact List.suffix_rfl
  | space w c p v q _ _ ih => exact ih.trans (List.suffix_cons _ _)
  | piece w c r v p' vs q _ _ hc _ ih => exact ih.trans hc.suffix.1

theorem Condensed.ends {enc : Enc} {w : Bool} {p u q : Text} (h : Condensed enc w p u q) : q = [] ∨ ∃ r, q = '<' :: r := by
  induction h with
  | stop w q h => exact h
  | space _ _ _ _ _ _ _ ih => exact ih
  | piece _ _ _ _ _ _ _ _ _ _ _ ih => exact ih

end Gear.Xml.Grammar
