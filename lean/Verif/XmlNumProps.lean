/-
Numbers in XML files: C54 (ten significant digits) and C55 (integers).
-/
import Verif.XmlNum
import Mathlib.Data.List.TakeWhile
import Mathlib.Tactic.Positivity

set_option autoImplicit false
set_option linter.unusedSectionVars false

namespace Gear.Xml

/-! ### Digits -/

theorem digit_cases (n : ℕ) : digit n ∈ ['0', '1', '2', '3', '4', '5', '6', '7', '8', '9'] ∧ (digit n).toNat - 48 = n % 10 := by
  have all : ∀ k < 10, Char.ofNat (48 + k) ∈ ['0', '1', '2', '3', '4', '5', '6', '7', '8', '9']
      ∧ (Char.ofNat (48 + k)).toNat - 48 = k := by decide
  exact all _ (Nat.mod_lt _ (by decide))

theorem isDigit_digit (n : ℕ) : isDigit (digit n) = true := by
  have all : ∀ c ∈ ['0', '1', '2', '3', '4', '5', '6', '7', '8', '9'], isDigit c = true := by decide
  exact all _ (digit_cases n).1

theorem digitsOf_isDigit (w n : ℕ) : ∀ c ∈ digitsOf w n, isDigit c = true := by
  induction w generalizing n with
  | zero => simp [digitsOf]
  | succ w ih =>
    intro c hc
    simp only [digitsOf, List.mem_append, List.mem_singleton] at hc
    rcases hc with hc | rfl
    · exact ih _ c hc
    · exact isDigit_digit n

theorem length_digitsOf (w n : ℕ) : (digitsOf w n).length = w := by
  induction w generalizing n with
  | zero => rfl
  | succ w ih => simp [digitsOf, ih]

theorem digitsVal_append (a : ℕ) (s t : Text) : digitsVal a (s ++ t) = digitsVal (digitsVal a s) t := by
  induction s generalizing a with
  | nil => rfl
  | cons c s ih => exact ih _

theorem digitsVal_digitsOf (a w n : ℕ) : digitsVal a (digitsOf w n) = a * 10 ^ w + n % 10 ^ w := by
  induction w generalizing n with
  | zero => show a = a * 10 ^ 0 + n % 10 ^ 0; rw [pow_zero, Nat.mod_one]; omega
  | succ w ih =>
    rw [digitsOf, digitsVal_append, ih]
    show 10 * (a * 10 ^ w + n / 10 % 10 ^ w) + ((digit n).toNat - 48) = _
    rw [(digit_cases n).2, pow_succ, mul_comm (10 ^ w) 10, Nat.mod_mul]
    ring

theorem width_spec (n : ℕ) : ∀ fuel, n ≤ fuel → n < 10 ^ width fuel n ∧ 0 < width fuel n := by
  intro fuel
  induction fuel generalizing n with
  | zero => intro h; simp only [width, Nat.le_zero.1 h]; decide
  | succ fuel ih =>
    intro h
    rw [width]
    split_ifs with hn
    · simpa using hn
    · have := ih (n / 10) (by omega)
      rw [pow_succ]
      omega

theorem natText_isDigit (n : ℕ) : ∀ c ∈ natText n, isDigit c = true := digitsOf_isDigit _ _

theorem natText_ne_nil (n : ℕ) : natText n ≠ [] := by
  intro h
  have := length_digitsOf (width n n) n
  rw [show digitsOf (width n n) n = [] from h] at this
  have := (width_spec n n le_rfl).2
  simp_all

theorem digitsVal_natText (n : ℕ) : digitsVal 0 (natText n) = n := by
  rw [natText, digitsVal_digitsOf, Nat.mod_eq_of_lt (width_spec n n le_rfl).1]
  simp

theorem isDigit_not {c : Char} (h : isDigit c = true) : isSpace c = false ∧ c ≠ '-' ∧ c ≠ '+' ∧ c ≠ ' ' ∧ c ≠ '&' := by
  simp only [isDigit, Bool.and_eq_true, decide_eq_true_eq] at h
  refine ⟨?_, ?_, ?_, ?_, ?_⟩
  · simp only [isSpace, Bool.or_eq_false_iff, decide_eq_false_iff_not, Bool.and_eq_false_iff]; omega
  all_goals
    rintro rfl
    revert h
    decide

theorem takeWhile_digits {s : Text} (h : ∀ c ∈ s, isDigit c = true) (t : Text) (ht : ∀ c r, t = c :: r → isDigit c = false) :
    (s ++ t).takeWhile isDigit = s ∧ (s ++ t).dropWhile isDigit = t := by
  rw [List.takeWhile_append_of_pos h, List.dropWhile_append_of_pos h]
  cases t with
  | nil => simp
  | cons c r => simp [ht c r rfl]

theorem readSign_digits {s : Text} (h : ∀ c ∈ s, isDigit c = true) : readSign s = (false, s) := by
  cases s with
  | nil => rfl
  | cons c s =>
    obtain ⟨-, h1, h2, -⟩ := isDigit_not (h c (by simp))
    unfold readSign
    split
    · rename_i h; cases h; exact absurd rfl h1
    · rename_i h; cases h; exact absurd rfl h2
    · rfl

theorem dropWhile_space {c : Char} (h : isSpace c = false) (t : Text) : (c :: t).dropWhile isSpace = c :: t := by
  simp [h]

/-! ### C55: integers -/

/-- Every int written is read back. -/
theorem int_roundtrip (n : ℤ) (h1 : -2 ^ 31 ≤ n) (h2 : n < 2 ^ 31) : atoi (printInt n) = n := by
  have key : ∀ m : ℤ, -2 ^ 31 ≤ m → m < 2 ^ 31 → toInt32 (max (-2 ^ 63) (min (2 ^ 63 - 1) m)) = m := by
    intro m h1 h2
    have : max (-2 ^ 63) (min (2 ^ 63 - 1) m) = m := by
      rw [min_eq_right (by norm_num at *; omega), max_eq_right (by norm_num at *; omega)]
    rw [this, toInt32, Int.emod_eq_of_lt (by omega) (by norm_num at *; omega)]
    ring
  have hd := natText_isDigit n.natAbs
  have ht := (takeWhile_digits hd [] (by simp)).1
  rw [List.append_nil] at ht
  unfold printInt atoi
  split_ifs with hn
  · rw [dropWhile_space (by decide)]
    simp only [readSign, ht, digitsVal_natText, if_true]
    rw [show -(n.natAbs : ℤ) = n by omega]
    exact key n h1 h2
  · have hne := natText_ne_nil n.natAbs
    have : (natText n.natAbs).dropWhile isSpace = natText n.natAbs := by
      obtain ⟨c, s, hc⟩ := List.exists_cons_of_ne_nil hne
      rw [hc] at hd ⊢
      exact dropWhile_space (isDigit_not (hd c (by simp))).1 s
    rw [this, readSign_digits hd]
    simp only [ht, digitsVal_natText, Bool.false_eq_true, if_false]
    rw [show (n.natAbs : ℤ) = n by omega]
    exact key n h1 h2

example : atoi (printInt (-2147483648)) = -2147483648 := int_roundtrip _ (by norm_num) (by norm_num)

/-! ### C54: doubles -/

theorem roundEven_int (n : ℤ) : roundEven n = n := by simp [roundEven]

theorem roundEven_near (q : ℚ) : |(roundEven q : ℚ) - q| ≤ 1 / 2 ∧ ⌊q⌋ ≤ roundEven q ∧ roundEven q ≤ ⌊q⌋ + 1 := by
  have h1 := Int.floor_le q
  have h2 := Int.lt_floor_add_one q
  unfold roundEven
  split_ifs with ha hb hc <;> refine ⟨?_, by omega, by omega⟩ <;> rw [abs_le] <;> push_cast <;> constructor <;> linarith

theorem log_bounds {x : ℚ} (hx : 0 < x) : (10 : ℚ) ^ Int.log 10 x ≤ x ∧ x < 10 ^ (Int.log 10 x + 1) := by
  have h1 := Int.zpow_log_le_self (b := 10) (by norm_num) hx
  have h2 := Int.lt_zpow_succ_log_self (b := 10) (by norm_num) x
  exact ⟨by exact_mod_cast h1, by exact_mod_cast h2⟩

theorem log_eq {x : ℚ} (hx : 0 < x) {e : ℤ} (h1 : (10 : ℚ) ^ e ≤ x) (h2 : x < 10 ^ (e + 1)) : Int.log 10 x = e := by
  obtain ⟨h3, h4⟩ := log_bounds hx
  have a := (zpow_lt_zpow_iff_right₀ (by norm_num : (1 : ℚ) < 10)).1 (lt_of_le_of_lt h1 h4)
  have b := (zpow_lt_zpow_iff_right₀ (by norm_num : (1 : ℚ) < 10)).1 (lt_of_le_of_lt h3 h2)
  omega

theorem ten_zpow_pos (e : ℤ) : (0 : ℚ) < 10 ^ e := zpow_pos (by norm_num) e

/-- The mantissa has ten digits and is the nearest one. -/
theorem mantissa_spec {x : ℚ} (hx : 0 < x) :
    10 ^ 9 ≤ (mantissa x).1 ∧ (mantissa x).1 < 10 ^ 10
      ∧ |((mantissa x).1 : ℚ) * 10 ^ ((mantissa x).2 - 9) - x| ≤ 5 / 10 ^ 10 * x := by
  obtain ⟨h1, h2⟩ := log_bounds hx
  set e := Int.log 10 x with he
  set q := x / 10 ^ (e - 9) with hq
  have hp := ten_zpow_pos (e - 9)
  have hxq : x = q * 10 ^ (e - 9) := by rw [hq]; field_simp
  have e1 : (10 : ℚ) ^ e = 10 ^ 9 * 10 ^ (e - 9) := by
    rw [← zpow_natCast, ← zpow_add₀ (by norm_num : (10 : ℚ) ≠ 0)]; congr 1; push_cast; ring
  have e2 : (10 : ℚ) ^ (e + 1) = 10 ^ 10 * 10 ^ (e - 9) := by
    rw [← zpow_natCast, ← zpow_add₀ (by norm_num : (10 : ℚ) ≠ 0)]; congr 1; push_cast; ring
  have q1 : (10 : ℚ) ^ 9 ≤ q := by
    rw [e1, hxq] at h1; exact le_of_mul_le_mul_right h1 hp
  have q2 : q < 10 ^ 10 := by
    rw [e2, hxq] at h2; exact lt_of_mul_lt_mul_right h2 hp.le
  obtain ⟨hn, hl, hu⟩ := roundEven_near q
  have f1 : (10 : ℤ) ^ 9 ≤ ⌊q⌋ := Int.le_floor.2 (by push_cast; exact q1)
  have f2 : ⌊q⌋ < 10 ^ 10 := Int.floor_lt.2 (by push_cast; exact q2)
  have hm : ((roundEven q).toNat : ℚ) = roundEven q := by
    have : ((roundEven q).toNat : ℤ) = roundEven q := Int.toNat_of_nonneg (by omega)
    exact_mod_cast this
  have near : |(roundEven q : ℚ) * 10 ^ (e - 9) - x| ≤ 5 / 10 ^ 10 * x := by
    have : (roundEven q : ℚ) * 10 ^ (e - 9) - x = ((roundEven q : ℚ) - q) * 10 ^ (e - 9) := by rw [sub_mul, ← hxq]
    rw [this, abs_mul, abs_of_pos hp]
    have a1 : |(roundEven q : ℚ) - q| * 10 ^ (e - 9) ≤ 1 / 2 * 10 ^ (e - 9) := mul_le_mul_of_nonneg_right hn hp.le
    have a2 : (10 : ℚ) ^ 9 * 10 ^ (e - 9) ≤ x := by rw [← e1]; exact h1
    norm_num at a2 ⊢
    linarith
  simp only [mantissa, ← he, ← hq]
  split_ifs with h
  · refine ⟨by norm_num, by norm_num, ?_⟩
    have : ((10 ^ 9 : ℕ) : ℚ) * 10 ^ (e + 1 - 9) = (roundEven q : ℚ) * 10 ^ (e - 9) := by
      rw [← hm, h, show e + 1 - 9 = 1 + (e - 9) by ring, zpow_add₀ (by norm_num : (10 : ℚ) ≠ 0)]
      push_cast; ring
    rw [this]; exact near
  · refine ⟨by omega, ?_, by rw [hm]; exact near⟩
    have : (roundEven q).toNat ≤ 10 ^ 10 := by omega
    omega

/-- Of a number with ten digits it consists of these. -/
theorem mantissa_of_digits {n : ℕ} {e : ℤ} (h1 : 10 ^ 9 ≤ n) (h2 : n < 10 ^ 10) :
    mantissa ((n : ℚ) * 10 ^ (e - 9)) = (n, e) := by
  have hp := ten_zpow_pos (e - 9)
  have hn1 : (10 : ℚ) ^ 9 ≤ n := by exact_mod_cast h1
  have hn2 : (n : ℚ) < 10 ^ 10 := by exact_mod_cast h2
  have e1 : (10 : ℚ) ^ e = 10 ^ 9 * 10 ^ (e - 9) := by
    rw [← zpow_natCast, ← zpow_add₀ (by norm_num : (10 : ℚ) ≠ 0)]; congr 1; push_cast; ring
  have e2 : (10 : ℚ) ^ (e + 1) = 10 ^ 10 * 10 ^ (e - 9) := by
    rw [← zpow_natCast, ← zpow_add₀ (by norm_num : (10 : ℚ) ≠ 0)]; congr 1; push_cast; ring
  have hlog : Int.log 10 ((n : ℚ) * 10 ^ (e - 9)) = e := by
    refine log_eq (mul_pos (by linarith [show (0 : ℚ) < 10 ^ 9 by norm_num]) hp) ?_ ?_
    · rw [e1]; exact mul_le_mul_of_nonneg_right hn1 hp.le
    · rw [e2]; exact mul_lt_mul_of_pos_right hn2 hp
  simp only [mantissa, hlog]
  have : (n : ℚ) * 10 ^ (e - 9) / 10 ^ (e - 9) = ((n : ℤ) : ℚ) := by field_simp; simp
  rw [this, roundEven_int, Int.toNat_natCast, if_neg (by omega)]

theorem exponentText_spec (e : ℤ) : readExponent ('e' :: exponentText e) = e := by
  have hd : ∀ c ∈ (if e.natAbs < 10 then '0' :: natText e.natAbs else natText e.natAbs), isDigit c = true := by
    intro c hc
    split_ifs at hc
    · rcases List.mem_cons.1 hc with rfl | hc
      · rfl
      · exact natText_isDigit _ c hc
    · exact natText_isDigit _ c hc
  have hv : digitsVal 0 (if e.natAbs < 10 then '0' :: natText e.natAbs else natText e.natAbs) = e.natAbs := by
    split_ifs
    · exact digitsVal_natText _
    · exact digitsVal_natText _
  have ht := (takeWhile_digits hd [] (by simp)).1
  rw [List.append_nil] at ht
  unfold readExponent exponentText
  generalize (if e.natAbs < 10 then '0' :: natText e.natAbs else natText e.natAbs) = T at hd hv ht
  simp only [decide_true, Bool.true_or, if_true]
  by_cases h : e < 0
  · rw [if_pos h]
    simp only [readSign, ht, hv, if_true]
    omega
  · rw [if_neg h]
    simp only [readSign, ht, hv, Bool.false_eq_true, if_false]
    omega

theorem atof_positive (d : ℕ) (m : ℕ) (e : ℤ) (neg : Bool) :
    atof ((if neg then ['-'] else []) ++ digit d :: '.' :: digitsOf 9 m ++ 'e' :: exponentText e)
      = (if neg then -1 else 1) * ((d % 10 * 10 ^ 9 + m % 10 ^ 9 : ℕ) : ℚ) * 10 ^ (e - 9) := by
  have hd := isDigit_digit d
  obtain ⟨hs, hm, hp, -⟩ := isDigit_not hd
  have hexp := exponentText_spec e
  obtain ⟨R, hR⟩ : ∃ R, R = 'e' :: exponentText e := ⟨_, rfl⟩
  rw [← hR] at hexp ⊢
  have h1 : readSign (((if neg then ['-'] else []) ++ digit d :: '.' :: digitsOf 9 m ++ R).dropWhile isSpace)
      = (neg, digit d :: '.' :: digitsOf 9 m ++ R) := by
    cases neg with
    | true => rfl
    | false =>
      show readSign (List.dropWhile isSpace (digit d :: _)) = _
      rw [dropWhile_space hs]
      unfold readSign
      split
      · rename_i h; injection h with h _; exact absurd h hm
      · rename_i h; injection h with h _; exact absurd h hp
      · rfl
  have h2 : (digit d :: '.' :: digitsOf 9 m ++ R).takeWhile isDigit = [digit d]
      ∧ (digit d :: '.' :: digitsOf 9 m ++ R).dropWhile isDigit = '.' :: digitsOf 9 m ++ R := by
    have : isDigit '.' = false := rfl
    simp [hd, this]
  have h3 := takeWhile_digits (digitsOf_isDigit 9 m) R (by rw [hR]; intro c r h; cases h; rfl)
  have h4 : readFraction ('.' :: digitsOf 9 m ++ R) = (digitsOf 9 m, R) := by
    show (List.takeWhile isDigit (digitsOf 9 m ++ R), List.dropWhile isDigit (digitsOf 9 m ++ R)) = _
    rw [h3.1, h3.2]
  have h5 : digitsVal 0 ([digit d] ++ digitsOf 9 m) = d % 10 * 10 ^ 9 + m % 10 ^ 9 := by
    rw [digitsVal_append, digitsVal_digitsOf]
    show (10 * 0 + ((digit d).toNat - 48)) * 10 ^ 9 + _ = _
    rw [(digit_cases d).2]; ring
  unfold atof
  simp only [h1, h2.1, h2.2, h4, h5, length_digitsOf, hexp]
  rw [if_neg (by simp)]
  cases neg
  · simp
  · simp; ring

/-- The sign of a number. -/
theorem atof_formatE {x : ℚ} (hx : x ≠ 0) :
    atof (formatE x) = (if x < 0 then -1 else 1) * ((mantissa |x|).1 : ℚ) * 10 ^ ((mantissa |x|).2 - 9) := by
  obtain ⟨h1, h2, -⟩ := mantissa_spec (abs_pos.2 hx)
  rw [formatE, if_neg hx]
  simp only
  have := atof_positive ((mantissa |x|).1 / 10 ^ 9) (mantissa |x|).1 (mantissa |x|).2 (decide (x < 0))
  simp only [decide_eq_true_eq] at this
  rw [this]
  have e : (mantissa |x|).1 / 10 ^ 9 % 10 * 10 ^ 9 + (mantissa |x|).1 % 10 ^ 9 = (mantissa |x|).1 := by
    rw [Nat.mod_eq_of_lt (by omega : (mantissa |x|).1 / 10 ^ 9 < 10)]; omega
  rw [e]

theorem atof_zero : atof (formatE 0) = 0 := by decide +kernel

theorem abs_sign (x : ℚ) : x = (if x < 0 then -1 else 1) * |x| := by
  split_ifs with h
  · rw [abs_of_neg h]; ring
  · rw [abs_of_nonneg (not_lt.1 h)]; ring

/-- Every number is read back with a relative error of at most 5e-10. -/
theorem double_error (x : ℚ) : |atof (formatE x) - x| ≤ 5 / 10 ^ 10 * |x| := by
  by_cases hx : x = 0
  · subst hx; rw [atof_zero]; simp
  · obtain ⟨-, -, h⟩ := mantissa_spec (abs_pos.2 hx)
    rw [atof_formatE hx]
    have hsg := abs_sign x
    generalize mantissa |x| = M at h ⊢
    have e : (if x < 0 then -1 else 1) * (M.1 : ℚ) * 10 ^ (M.2 - 9) - x
        = (if x < 0 then -1 else 1) * ((M.1 : ℚ) * 10 ^ (M.2 - 9) - |x|) := by
      rw [mul_sub, ← hsg, mul_assoc]
    rw [e, abs_mul]
    have : |(if x < 0 then -1 else 1 : ℚ)| = 1 := by split_ifs <;> simp
    rw [this, one_mul]
    exact h

/-- A number with at most ten significant digits is read back exactly. -/
theorem double_exact (x : ℚ) (n : ℤ) (k : ℤ) (hn : |n| < 10 ^ 10) (hx : x = n * 10 ^ k) : atof (formatE x) = x := by
  by_cases h0 : x = 0
  · subst h0; exact atof_zero
  have hax : 0 < |x| := abs_pos.2 h0
  have habs : |x| = (n.natAbs : ℚ) * 10 ^ k := by
    rw [hx, abs_mul, abs_of_pos (ten_zpow_pos k), ← Int.cast_abs, Int.abs_eq_natAbs, Int.cast_natCast]
  have hnn : n.natAbs < 10 ^ 10 := by rw [Int.abs_eq_natAbs] at hn; exact_mod_cast hn
  obtain ⟨h1, h2⟩ := log_bounds hax
  set e := Int.log 10 |x| with he
  have hke : 0 ≤ k - (e - 9) := by
    have : |x| < 10 ^ (10 + k) := by
      rw [habs, zpow_add₀ (by norm_num : (10 : ℚ) ≠ 0)]
      refine mul_lt_mul_of_pos_right ?_ (ten_zpow_pos k)
      exact_mod_cast hnn
    have := (zpow_lt_zpow_iff_right₀ (by norm_num : (1 : ℚ) < 10)).1 (lt_of_le_of_lt h1 this)
    omega
  obtain ⟨j, hj⟩ := Int.eq_ofNat_of_zero_le hke
  have habs' : |x| = ((n.natAbs * 10 ^ j : ℕ) : ℚ) * 10 ^ (e - 9) := by
    rw [habs, show k = (j : ℤ) + (e - 9) by omega, zpow_add₀ (by norm_num : (10 : ℚ) ≠ 0)]
    push_cast; rw [zpow_natCast]; ring
  have hp := ten_zpow_pos (e - 9)
  have e1 : (10 : ℚ) ^ e = 10 ^ 9 * 10 ^ (e - 9) := by
    rw [← zpow_natCast, ← zpow_add₀ (by norm_num : (10 : ℚ) ≠ 0)]; congr 1; push_cast; ring
  have e2 : (10 : ℚ) ^ (e + 1) = 10 ^ 10 * 10 ^ (e - 9) := by
    rw [← zpow_natCast, ← zpow_add₀ (by norm_num : (10 : ℚ) ≠ 0)]; congr 1; push_cast; ring
  have q1 : 10 ^ 9 ≤ n.natAbs * 10 ^ j := by
    rw [habs', e1] at h1; exact_mod_cast le_of_mul_le_mul_right h1 hp
  have q2 : n.natAbs * 10 ^ j < 10 ^ 10 := by
    rw [habs', e2] at h2; exact_mod_cast lt_of_mul_lt_mul_right h2 hp.le
  have hm := mantissa_of_digits (e := e) q1 q2
  rw [← habs'] at hm
  rw [atof_formatE h0, hm]
  simp only
  rw [mul_assoc, ← habs', ← abs_sign x]

/-- Writing the number read back gives the same text. -/
theorem double_stable (x : ℚ) : formatE (atof (formatE x)) = formatE x := by
  by_cases hx : x = 0
  · subst hx; rw [atof_zero]
  obtain ⟨h1, h2, -⟩ := mantissa_spec (abs_pos.2 hx)
  set M := mantissa |x| with hM
  have hpos : (0 : ℚ) < (M.1 : ℚ) * 10 ^ (M.2 - 9) := by
    refine mul_pos ?_ (ten_zpow_pos _)
    have : 0 < M.1 := by omega
    exact_mod_cast this
  have hm := mantissa_of_digits (e := M.2) h1 h2
  rw [atof_formatE hx, ← hM]
  have hne : (if x < 0 then -1 else 1) * (M.1 : ℚ) * 10 ^ (M.2 - 9) ≠ 0 := by
    rw [mul_assoc]
    split_ifs
    · simpa using hpos.ne'
    · simpa using hpos.ne'
  have hab : |(if x < 0 then -1 else 1) * (M.1 : ℚ) * 10 ^ (M.2 - 9)| = (M.1 : ℚ) * 10 ^ (M.2 - 9) := by
    rw [mul_assoc, abs_mul, abs_of_pos hpos]
    split_ifs <;> simp
  have hs : ((if x < 0 then -1 else 1) * (M.1 : ℚ) * 10 ^ (M.2 - 9) < 0) ↔ x < 0 := by
    rw [mul_assoc]
    split_ifs with h
    · simp only [h, iff_true]; linarith
    · simp only [h, iff_false, not_lt]; linarith
  rw [formatE, if_neg hne, hab, hm, formatE, if_neg hx, ← hM]
  simp only [hs]

example : atof (formatE (-0.00123456789)) = -0.00123456789 :=
  double_exact _ (-123456789) (-11) (by norm_num) (by norm_num [zpow_neg])

/-- Ten digits are not enough for all numbers. -/
theorem double_not_exact : atof (formatE (1 / 3)) ≠ 1 / 3 := by decide +kernel

end Gear.Xml
