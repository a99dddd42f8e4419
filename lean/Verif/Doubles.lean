/-
What the theorems about `double` arithmetic assume of the rounding, and a proof that the rounding of IEEE doubles
(`binary64`, in `MaterialMap.lean`) has these properties.
-/
import Verif.MaterialMap
import Mathlib.Algebra.Order.Round
import Mathlib.Tactic.Linarith
import Mathlib.Tactic.Positivity
import Mathlib.Tactic.FieldSimp
import Mathlib.Data.Rat.Floor

set_option autoImplicit false
set_option linter.unusedSectionVars false

namespace Gear.Doubles

open MaterialMap (Arith binary64 roundEven)

/-- Rounding to nearest with relative error `u`, as IEEE 754-2019, 4.3 has it: it respects the order, a rounded number
is not rounded again, the error is at most `u` times the number, and integers with a sign and 53 bits are not rounded,
nor are their multiples with powers of two.  Overflow and underflow are left out. -/
structure Rounding {K : Type} [Field K] [LinearOrder K] (rnd : K → K) (u : K) : Prop where
  mono : ∀ x y, x ≤ y → rnd x ≤ rnd y
  idem : ∀ x, rnd (rnd x) = rnd x
  err : ∀ x, |rnd x - x| ≤ u * |x|
  scaled : ∀ n k : ℤ, |n| ≤ 2 ^ 53 → rnd (n * 2 ^ k) = n * 2 ^ k

variable {K : Type} [Field K] [LinearOrder K] [IsStrictOrderedRing K] [FloorRing K]

/-! ### The nearest integer -/

theorem roundEven_cases (q : K) : (roundEven q = ⌊q⌋ ∧ q - ⌊q⌋ ≤ 1 / 2) ∨ (roundEven q = ⌊q⌋ + 1 ∧ 1 / 2 ≤ q - ⌊q⌋) := by
  unfold roundEven
  dsimp only
  by_cases h1 : q - ⌊q⌋ < 1 / 2
  · rw [if_pos h1]; exact Or.inl ⟨rfl, h1.le⟩
  · rw [if_neg h1]
    by_cases h2 : 1 / 2 < q - ⌊q⌋
    · rw [if_pos h2]; exact Or.inr ⟨rfl, h2.le⟩
    · rw [if_neg h2]
      by_cases h3 : ⌊q⌋ % 2 = 0
      · rw [if_pos h3]; exact Or.inl ⟨rfl, not_lt.1 h2⟩
      · rw [if_neg h3]; exact Or.inr ⟨rfl, not_lt.1 h1⟩

theorem roundEven_err (q : K) : |(roundEven q : K) - q| ≤ 1 / 2 := by
  have h0 := Int.floor_le q
  have h1 := Int.lt_floor_add_one q
  rcases roundEven_cases q with ⟨h, h2⟩ | ⟨h, h2⟩ <;> rw [h, abs_le] <;> push_cast <;> constructor <;> linarith

theorem roundEven_int (n : ℤ) : roundEven (n : K) = n := by
  rcases roundEven_cases (n : K) with ⟨h, h2⟩ | ⟨h, h2⟩
  · rw [h, Int.floor_intCast]
  · rw [Int.floor_intCast, sub_self] at h2; norm_num at h2

theorem roundEven_near {q : K} {n : ℤ} (h : |q - n| < 1 / 2) : roundEven q = n := by
  have h1 := roundEven_err q
  rw [abs_lt] at h
  rw [abs_le] at h1
  have h2 : ((roundEven q : K) - n) < 1 := by linarith
  have h3 : (-1 : K) < (roundEven q : K) - n := by linarith
  have h2' : roundEven q - n < 1 := by exact_mod_cast h2
  have h3' : -1 < roundEven q - n := by exact_mod_cast h3
  omega

theorem roundEven_mono {p q : K} (h : p ≤ q) : roundEven p ≤ roundEven q := by
  rcases lt_or_eq_of_le (Int.floor_mono h) with hf | hf
  · rcases roundEven_cases p with ⟨h1, -⟩ | ⟨h1, -⟩ <;> rcases roundEven_cases q with ⟨h2, -⟩ | ⟨h2, -⟩ <;> omega
  · have key : p - ⌊p⌋ ≤ q - ⌊q⌋ := by rw [hf]; linarith
    unfold roundEven
    dsimp only
    rw [← hf] at key ⊢
    split_ifs <;> first | omega | (exfalso; linarith)

theorem roundEven_neg (q : K) : roundEven (-q) = -roundEven q := by
  by_cases hi : ∃ n : ℤ, q = n
  · obtain ⟨n, rfl⟩ := hi
    have : (-(n : K)) = ((-n : ℤ) : K) := by push_cast; ring
    rw [this, roundEven_int, roundEven_int]
  · have h0 := Int.floor_le q
    have h1 := Int.lt_floor_add_one q
    have h2 : (⌊q⌋ : K) ≠ q := fun e => hi ⟨⌊q⌋, e.symm⟩
    have h3 : (⌊q⌋ : K) < q := lt_of_le_of_ne h0 h2
    have hf : ⌊-q⌋ = -⌊q⌋ - 1 := by
      rw [Int.floor_eq_iff]
      push_cast
      constructor <;> linarith
    unfold roundEven
    dsimp only
    rw [hf]
    push_cast
    by_cases c1 : q - ⌊q⌋ < 1 / 2
    · rw [if_neg (by linarith), if_pos (by linarith), if_pos c1]; ring
    · by_cases c2 : 1 / 2 < q - ⌊q⌋
      · rw [if_pos (by linarith), if_neg c1, if_pos c2]; ring
      · rw [if_neg (by linarith), if_neg (by linarith), if_neg c1, if_neg c2]
        split_ifs <;> omega

/-! ### The rounding of IEEE doubles -/

theorem binary64_zero : binary64 (0 : K) = 0 := if_pos rfl

theorem binary64_neg (q : K) : binary64 (-q) = -binary64 q := by
  unfold binary64
  by_cases h : q = 0
  · subst h; simp
  · rw [if_neg (neg_ne_zero.2 h), if_neg h, abs_neg]
    dsimp only
    rw [neg_mul, roundEven_neg]
    push_cast
    ring

theorem log_bounds {q : K} (h : 0 < q) : (2 : K) ^ Int.log 2 q ≤ q ∧ q < 2 ^ (Int.log 2 q + 1) := by
  have h1 := Int.zpow_log_le_self (b := 2) (by norm_num) h
  have h2 := Int.lt_zpow_succ_log_self (b := 2) (by norm_num) q
  exact ⟨by exact_mod_cast h1, by exact_mod_cast h2⟩

theorem two_zpow_pos (k : ℤ) : (0 : K) < 2 ^ k := zpow_pos (by norm_num) k

theorem two_zpow_add (a b : ℤ) : (2 : K) ^ (a + b) = 2 ^ a * 2 ^ b := zpow_add₀ (by norm_num) a b

theorem binary64_pos {q : K} (h : 0 < q) :
    binary64 q = roundEven (q * (2 : K) ^ (52 - Int.log 2 q)) * (2 : K) ^ (Int.log 2 q - 52) := by
  unfold binary64
  rw [if_neg h.ne', abs_of_pos h]

/-- The rounded number is between the same powers of two. -/
theorem binary64_between {q : K} (h : 0 < q) :
    (2 : K) ^ Int.log 2 q ≤ binary64 q ∧ binary64 q ≤ 2 ^ (Int.log 2 q + 1) := by
  obtain ⟨h1, h2⟩ := log_bounds h
  set e := Int.log 2 q with he
  have hp := two_zpow_pos (K := K) (52 - e)
  have hp2 := two_zpow_pos (K := K) (e - 52)
  have e1 : (2 : K) ^ e * 2 ^ (52 - e) = ((2 ^ 52 : ℤ) : K) := by
    rw [← two_zpow_add, show e + (52 - e) = (52 : ℤ) by ring]; norm_num
  have e2 : (2 : K) ^ (e + 1) * 2 ^ (52 - e) = ((2 ^ 53 : ℤ) : K) := by
    rw [← two_zpow_add, show e + 1 + (52 - e) = (53 : ℤ) by ring]; norm_num
  have m1 : (2 ^ 52 : ℤ) ≤ roundEven (q * 2 ^ (52 - e)) := by
    rw [← roundEven_int (K := K) (2 ^ 52)]
    exact roundEven_mono (by rw [← e1]; exact mul_le_mul_of_nonneg_right h1 hp.le)
  have m2 : roundEven (q * 2 ^ (52 - e)) ≤ (2 ^ 53 : ℤ) := by
    rw [← roundEven_int (K := K) (2 ^ 53)]
    exact roundEven_mono (by rw [← e2]; exact mul_le_mul_of_nonneg_right h2.le hp.le)
  rw [binary64_pos h, ← he]
  have i1 : (2 : K) ^ e = ((2 ^ 52 : ℤ) : K) * 2 ^ (e - 52) := by
    rw [← e1, mul_assoc, ← two_zpow_add, show 52 - e + (e - 52) = (0 : ℤ) by ring]; simp
  have i2 : (2 : K) ^ (e + 1) = ((2 ^ 53 : ℤ) : K) * 2 ^ (e - 52) := by
    rw [← e2, mul_assoc, ← two_zpow_add, show 52 - e + (e - 52) = (0 : ℤ) by ring]; simp
  rw [i1, i2]
  exact ⟨mul_le_mul_of_nonneg_right (by exact_mod_cast m1) hp2.le,
    mul_le_mul_of_nonneg_right (by exact_mod_cast m2) hp2.le⟩

theorem binary64_mono_pos {x y : K} (hx : 0 < x) (h : x ≤ y) : binary64 x ≤ binary64 y := by
  have hy : 0 < y := hx.trans_le h
  have hl : Int.log 2 x ≤ Int.log 2 y := Int.log_mono_right hx h
  rcases lt_or_eq_of_le hl with hl | hl
  · calc binary64 x ≤ 2 ^ (Int.log 2 x + 1) := (binary64_between hx).2
      _ ≤ 2 ^ Int.log 2 y := zpow_le_zpow_right₀ (by norm_num) hl
      _ ≤ binary64 y := (binary64_between hy).1
  · rw [binary64_pos hx, binary64_pos hy, hl]
    refine mul_le_mul_of_nonneg_right ?_ (two_zpow_pos _).le
    exact_mod_cast roundEven_mono (mul_le_mul_of_nonneg_right h (two_zpow_pos _).le)

theorem binary64_nonneg {x : K} (h : 0 ≤ x) : 0 ≤ binary64 x := by
  rcases lt_or_eq_of_le h with h | h
  · exact (two_zpow_pos _).le.trans (binary64_between h).1
  · rw [← h, binary64_zero]

theorem binary64_mono {x y : K} (h : x ≤ y) : binary64 x ≤ binary64 y := by
  rcases lt_or_ge 0 x with hx | hx
  · exact binary64_mono_pos hx h
  · rcases lt_or_ge y 0 with hy | hy
    · have := binary64_mono_pos (x := -y) (y := -x) (by linarith) (by linarith)
      rw [binary64_neg, binary64_neg] at this
      linarith
    · have h1 := binary64_nonneg hy
      have h2 := binary64_nonneg (x := -x) (by linarith)
      rw [binary64_neg] at h2
      linarith

theorem binary64_err_pos {x : K} (h : 0 < x) : |binary64 x - x| ≤ 1 / 2 ^ 53 * x := by
  obtain ⟨h1, -⟩ := log_bounds h
  rw [binary64_pos h]
  set e := Int.log 2 x
  have hr := roundEven_err (x * 2 ^ (52 - e))
  have hx : x = x * 2 ^ (52 - e) * 2 ^ (e - 52) := by
    rw [mul_assoc, ← two_zpow_add, show 52 - e + (e - 52) = (0 : ℤ) by ring]; simp
  have hp := two_zpow_pos (K := K) (e - 52)
  have : |(roundEven (x * 2 ^ (52 - e)) : K) * 2 ^ (e - 52) - x| =
      |(roundEven (x * 2 ^ (52 - e)) : K) - x * 2 ^ (52 - e)| * 2 ^ (e - 52) := by
    conv_lhs => rw [hx]
    rw [← sub_mul, abs_mul, abs_of_pos hp]
    rw [← hx]
  rw [this]
  calc _ ≤ 1 / 2 * (2 : K) ^ (e - 52) := mul_le_mul_of_nonneg_right hr hp.le
    _ = 1 / 2 ^ 53 * 2 ^ e := by
        rw [show e - 52 = -52 + e by ring, two_zpow_add]; norm_num; ring
    _ ≤ 1 / 2 ^ 53 * x := mul_le_mul_of_nonneg_left h1 (by norm_num)

theorem binary64_err (x : K) : |binary64 x - x| ≤ 1 / 2 ^ 53 * |x| := by
  rcases lt_trichotomy x 0 with h | h | h
  · have := binary64_err_pos (x := -x) (by linarith)
    rw [binary64_neg] at this
    rw [abs_of_neg h]
    rw [show binary64 x - x = -(-binary64 x - -x) by ring, abs_neg]
    exact this
  · subst h; simp [binary64_zero]
  · rw [abs_of_pos h]; exact binary64_err_pos h

/-- An integer with 53 bits times a power of two is a double. -/
theorem binary64_scaled_pos (n k : ℤ) (h0 : 0 < n) (h : n ≤ 2 ^ 53) : binary64 ((n : K) * 2 ^ k) = n * 2 ^ k := by
  have hn : (0 : K) < n := by exact_mod_cast h0
  have hq : (0 : K) < n * 2 ^ k := mul_pos hn (two_zpow_pos k)
  obtain ⟨h1, -⟩ := log_bounds hq
  rw [binary64_pos hq]
  set e := Int.log 2 ((n : K) * 2 ^ k)
  have hint : ∃ m : ℤ, (n : K) * 2 ^ k * 2 ^ (52 - e) = m := by
    rw [mul_assoc, ← two_zpow_add]
    by_cases hj : 0 ≤ k + (52 - e)
    · obtain ⟨j, hj⟩ := Int.eq_ofNat_of_zero_le hj
      refine ⟨n * 2 ^ j, ?_⟩
      rw [hj]
      push_cast
      rw [zpow_natCast]
    · -- the number is the power of two itself
      push Not at hj
      have h3 : (2 : K) ^ e ≤ 2 ^ (53 + k) := by
        refine h1.trans ?_
        rw [two_zpow_add]
        refine mul_le_mul_of_nonneg_right ?_ (two_zpow_pos k).le
        have : ((n : ℤ) : K) ≤ ((2 ^ 53 : ℤ) : K) := by exact_mod_cast h
        refine this.trans_eq ?_
        norm_num
      have h4 : e ≤ 53 + k := (zpow_le_zpow_iff_right₀ (by norm_num : (1 : K) < 2)).1 h3
      have h5 : e = 53 + k := by omega
      rw [h5] at h1
      have h6 : ((2 ^ 53 : ℤ) : K) ≤ n := by
        rw [two_zpow_add] at h1
        have := le_of_mul_le_mul_right h1 (two_zpow_pos k)
        refine le_trans (le_of_eq ?_) this
        norm_num
      have h7 : n = 2 ^ 53 := le_antisymm h (by exact_mod_cast h6)
      refine ⟨2 ^ 52, ?_⟩
      rw [h5, h7, show k + (52 - (53 + k)) = (-1 : ℤ) by ring]
      norm_num
  obtain ⟨m, hm⟩ := hint
  rw [hm, roundEven_int, ← hm, mul_assoc, ← two_zpow_add, show 52 - e + (e - 52) = (0 : ℤ) by ring]
  simp

theorem binary64_scaled (n k : ℤ) (h : |n| ≤ 2 ^ 53) : binary64 ((n : K) * 2 ^ k) = n * 2 ^ k := by
  rw [abs_le] at h
  rcases lt_trichotomy n 0 with h0 | h0 | h0
  · have := binary64_scaled_pos (K := K) (-n) k (by omega) (by omega)
    push_cast at this
    rw [neg_mul, binary64_neg] at this
    linarith
  · subst h0; simp [binary64_zero]
  · exact binary64_scaled_pos n k h0 h.2

/-- A rounded number is such a product. -/
theorem binary64_form (x : K) : ∃ n k : ℤ, |n| ≤ 2 ^ 53 ∧ binary64 x = n * 2 ^ k := by
  have pos : ∀ x : K, 0 < x → ∃ n k : ℤ, |n| ≤ 2 ^ 53 ∧ binary64 x = n * 2 ^ k := by
    intro x hx
    have hb := (binary64_between hx).2
    have h0 := binary64_nonneg hx.le
    rw [binary64_pos hx] at hb h0 ⊢
    refine ⟨_, _, ?_, rfl⟩
    set e := Int.log 2 x
    set m := roundEven (x * 2 ^ (52 - e))
    have h1 : (0 : K) ≤ m := nonneg_of_mul_nonneg_left h0 (two_zpow_pos _)
    have h2 : (m : K) ≤ ((2 ^ 53 : ℤ) : K) := by
      rw [show e + 1 = 53 + (e - 52) by ring, two_zpow_add] at hb
      refine (le_of_mul_le_mul_right hb (two_zpow_pos _)).trans_eq ?_
      norm_num
    have h1' : 0 ≤ m := by exact_mod_cast h1
    rw [abs_of_nonneg h1']
    exact_mod_cast h2
  rcases lt_trichotomy x 0 with h | h | h
  · obtain ⟨n, k, h1, h2⟩ := pos (-x) (by linarith)
    rw [binary64_neg] at h2
    exact ⟨-n, k, by rw [abs_neg]; exact h1, by push_cast; linarith⟩
  · exact ⟨0, 0, by norm_num, by subst h; simp [binary64_zero]⟩
  · exact pos x h

/-- The rounding of IEEE doubles has the properties. -/
theorem binary64_rounding : Rounding (binary64 : K → K) (1 / 2 ^ 53) where
  mono _ _ h := binary64_mono h
  idem x := by
    obtain ⟨n, k, h1, h2⟩ := binary64_form x
    rw [h2, binary64_scaled n k h1]
  err := binary64_err
  scaled := binary64_scaled

/-- If the bits of a positive number from some position on, as a number with 53 bits, are near an integer, then it is
rounded to that. -/
theorem binary64_eval {x : K} {n k : ℤ} (h1 : (2 : K) ^ (k + 52) ≤ x) (h2 : x < 2 ^ (k + 53))
    (h3 : |x * 2 ^ (-k) - n| < 1 / 2) : binary64 x = n * 2 ^ k := by
  have hx : 0 < x := (two_zpow_pos _).trans_le h1
  have hl : Int.log 2 x = k + 52 := by
    obtain ⟨l1, l2⟩ := log_bounds hx
    have a1 : (2 : K) ^ (Int.log 2 x) < 2 ^ (k + 53) := l1.trans_lt h2
    have a2 : (2 : K) ^ (k + 52) < 2 ^ (Int.log 2 x + 1) := h1.trans_lt l2
    rw [zpow_lt_zpow_iff_right₀ (by norm_num)] at a1 a2
    omega
  rw [binary64_pos hx, hl, show 52 - (k + 52) = -k by ring, roundEven_near h3]
  congr 2
  ring

/-- From `2 ^ 57` on, subtracting less than 8 changes no double. -/
theorem binary64_absorbs {x t : K} (hx : binary64 x = x) (h : 2 ^ 57 ≤ x) (ht : 0 ≤ t ∧ t < 8) : binary64 (x - t) = x := by
  have h0 : 0 < x := lt_of_lt_of_le (by norm_num) h
  have hy : (2 : K) ^ (56 : ℤ) ≤ x - t := by
    have : (2 : K) ^ (56 : ℤ) + 8 ≤ 2 ^ 57 := by norm_num
    linarith [ht.2]
  have hy0 : 0 < x - t := (two_zpow_pos _).trans_le hy
  obtain ⟨m1, m2⟩ := log_bounds hy0
  obtain ⟨e, he⟩ : ∃ e, e = Int.log 2 (x - t) := ⟨_, rfl⟩
  have he56 : 56 ≤ e := by
    have a2 : (2 : K) ^ (56 : ℤ) < 2 ^ (e + 1) := by rw [he]; exact hy.trans_lt m2
    rw [zpow_lt_zpow_iff_right₀ (by norm_num)] at a2
    omega
  -- `x` is a multiple of `2 ^ (e - 52)`
  have key : ∃ N : ℤ, x = N * 2 ^ (e - 52) := by
    have hle : e ≤ Int.log 2 x := by rw [he]; exact Int.log_mono_right hy0 (by linarith [ht.1])
    refine ⟨roundEven (x * (2 : K) ^ (52 - Int.log 2 x)) * 2 ^ (Int.log 2 x - e).toNat, ?_⟩
    conv_lhs => rw [← hx, binary64_pos h0]
    push_cast
    rw [mul_assoc]
    congr 1
    rw [← zpow_natCast, Int.toNat_of_nonneg (by omega), ← two_zpow_add]
    congr 1
    ring
  obtain ⟨N, hN⟩ := key
  rw [binary64_pos hy0, ← he]
  have hp := two_zpow_pos (K := K) (52 - e)
  have hpp : (2 : K) ^ (e - 52) * 2 ^ (52 - e) = 1 := by rw [← two_zpow_add]; simp
  have : roundEven ((x - t) * 2 ^ (52 - e)) = N := by
    apply roundEven_near
    have : (x - t) * 2 ^ (52 - e) - N = -(t * 2 ^ (52 - e)) := by
      conv_lhs => rw [hN]
      rw [sub_mul, mul_assoc, hpp]; ring
    rw [this, abs_neg, abs_mul, abs_of_pos hp]
    have h4 : (2 : K) ^ (52 - e) ≤ 2 ^ (-4 : ℤ) := zpow_le_zpow_right₀ (by norm_num) (by omega)
    have h5 : |t| < 8 := by rw [abs_of_nonneg ht.1]; exact ht.2
    calc |t| * 2 ^ (52 - e) < 8 * 2 ^ (52 - e) := mul_lt_mul_of_pos_right h5 hp
      _ ≤ 8 * 2 ^ (-4 : ℤ) := mul_le_mul_of_nonneg_left h4 (by norm_num)
      _ = 1 / 2 := by norm_num
  rw [this, ← hN]

/-- So does exact arithmetic. -/
theorem exact_rounding : Rounding (id : K → K) 0 where
  mono _ _ h := h
  idem _ := rfl
  err x := by simp
  scaled _ _ _ := rfl

end Gear.Doubles
