/-
C141, a point just below the inner radius of a layout with a fixed pad angle: with the real cosine and sine, rounded to
doubles, `getNearestPad` asks for a row of number -1.
-/
import Verif.PadAngleDoubleProps
import Mathlib.Analysis.Complex.Trigonometric

set_option autoImplicit false
set_option linter.unusedSectionVars false

namespace Gear.PadAngle.Double

open PadIndex Disk Doubles Spec
open MaterialMap (Arith binary64)

/-! ### Bounds of cosine and sine -/

section
open Complex Finset

theorem cos_bound6 {x : ℂ} (hx : ‖x‖ ≤ 1) : ‖cos x - (1 - x ^ 2 / 2 + x ^ 4 / 24)‖ ≤ ‖x‖ ^ 6 * (7 / 4320) :=
  calc
    ‖cos x - (1 - x ^ 2 / 2 + x ^ 4 / 24)‖ =
        ‖(exp (-x * I) - ∑ m ∈ range 6, (-x * I) ^ m / m.factorial) / 2 +
         (exp (x * I) - ∑ m ∈ range 6, (x * I) ^ m / m.factorial) / 2‖ := by
      simp [cos, field, Finset.sum_range_succ, Nat.factorial]
      grind [I_sq, two_ne_zero]
    _ ≤ ‖exp (-x * I) - ∑ m ∈ range 6, (-x * I) ^ m / m.factorial‖ / 2 +
        ‖exp (x * I) - ∑ m ∈ range 6, (x * I) ^ m / m.factorial‖ / 2 := by
      grw [norm_add_le]
      simp
    _ ≤ ‖-x * I‖ ^ 6 * (Nat.succ 6 * (Nat.factorial 6 * (6 : ℕ) : ℝ)⁻¹) / 2 +
        ‖x * I‖ ^ 6 * (Nat.succ 6 * (Nat.factorial 6 * (6 : ℕ) : ℝ)⁻¹) / 2 := by
      grw [exp_bound (by simpa) (by simp), exp_bound (by simpa) (by simp)]
    _ ≤ ‖x‖ ^ 6 * (7 / 4320) := by norm_num [Nat.factorial]

theorem sin_bound7 {x : ℂ} (hx : ‖x‖ ≤ 1) : ‖sin x - (x - x ^ 3 / 6 + x ^ 5 / 120)‖ ≤ ‖x‖ ^ 7 / 4410 :=
  calc
    ‖sin x - (x - x ^ 3 / 6 + x ^ 5 / 120)‖ =
        ‖(exp (-x * I) - ∑ m ∈ range 7, (-x * I) ^ m / m.factorial) * I / 2 -
         (exp (x * I) - ∑ m ∈ range 7, (x * I) ^ m / m.factorial) * I / 2‖ := by
      simp [sin, field, Finset.sum_range_succ, Nat.factorial]
      grind [I_sq, two_ne_zero]
    _ ≤ ‖exp (-x * I) - ∑ m ∈ range 7, (-x * I) ^ m / m.factorial‖ / 2 +
        ‖exp (x * I) - ∑ m ∈ range 7, (x * I) ^ m / m.factorial‖ / 2 := by
      grw [norm_sub_le]
      simp
    _ ≤ ‖-x * I‖ ^ 7 * (Nat.succ 7 * (Nat.factorial 7 * (7 : ℕ) : ℝ)⁻¹) / 2 +
        ‖x * I‖ ^ 7 * (Nat.succ 7 * (Nat.factorial 7 * (7 : ℕ) : ℝ)⁻¹) / 2 := by
      grw [exp_bound (by simpa) (by simp), exp_bound (by simpa) (by simp)]
    _ = ‖x‖ ^ 7 / 4410 := by norm_num [Nat.factorial, mul_one_div]

theorem real_cos_bound6 {x : ℝ} (hx : |x| ≤ 1) : |Real.cos x - (1 - x ^ 2 / 2 + x ^ 4 / 24)| ≤ |x| ^ 6 * (7 / 4320) := by
  simpa [← ofReal_cos, ← Real.norm_eq_abs, ← norm_real] using cos_bound6 (x := x) (by simpa)

theorem real_sin_bound7 {x : ℝ} (hx : |x| ≤ 1) : |Real.sin x - (x - x ^ 3 / 6 + x ^ 5 / 120)| ≤ |x| ^ 7 / 4410 := by
  simpa [← ofReal_sin, ← Real.norm_eq_abs, ← norm_real] using sin_bound7 (x := x) (by simpa)

end

/-! ### The computation -/

/-- Doubles with the real cosine, sine and square root, rounded. -/
noncomputable def realDoubles : Arith ℝ :=
  { pi := 884279719003555 / 2 ^ 48, cos := Real.cos, sin := Real.sin, sqrt := Real.sqrt, rnd := binary64 }

/-- The first edge of the layout, and the double below it. -/
noncomputable def edge : ℝ := 833 / 2 ^ 22

noncomputable def below : ℝ := 833 / 2 ^ 22 - 1 / 2 ^ 65

theorem cos_edge : binary64 (Real.cos edge) = 9007199077105409 / 2 ^ 53 ∧ binary64 (Real.cos below) = 9007199077105409 / 2 ^ 53 := by
  have key : ∀ x : ℝ, |x| ≤ 1 → |x| ^ 6 * (7 / 4320) ≤ 1 / 2 ^ 80 → |(1 - x ^ 2 / 2 + x ^ 4 / 24) * 2 ^ 53 - 9007199077105409| < 1 / 2 - 1 / 2 ^ 27 →
      binary64 (Real.cos x) = 9007199077105409 / 2 ^ 53 := by
    intro x hx h1 h2
    have h3 := (real_cos_bound6 hx).trans h1
    rw [_root_.abs_le] at h3
    rw [abs_lt] at h2
    have := binary64_eval (x := Real.cos x) (n := 9007199077105409) (k := -53)
      (by norm_num at *; linarith [h2.1, h2.2, h3.1, h3.2]) (by norm_num at *; linarith [h2.1, h2.2, h3.1, h3.2])
      (by rw [abs_lt]; constructor <;> norm_num at * <;> linarith [h2.1, h2.2, h3.1, h3.2])
    rw [this]
    norm_num
  constructor
  · apply key <;> norm_num [edge, abs_lt, abs_le]
  · apply key <;> norm_num [below, abs_lt, abs_le]

theorem sin_edge : binary64 (Real.sin edge) = 7327145439331803 / 2 ^ 65 ∧ binary64 (Real.sin below) = 7327145439331802 / 2 ^ 65 := by
  have key : ∀ (x : ℝ) (n : ℤ), |x| ≤ 1 → |x| ^ 7 / 4410 ≤ 1 / 2 ^ 80 →
      |(x - x ^ 3 / 6 + x ^ 5 / 120) * 2 ^ 65 - n| < 1 / 2 - 1 / 2 ^ 15 → (n = 7327145439331803 ∨ n = 7327145439331802) →
      binary64 (Real.sin x) = n / 2 ^ 65 := by
    intro x n hx h1 h2 hn
    have h3 := (real_sin_bound7 hx).trans h1
    rw [_root_.abs_le] at h3
    rw [abs_lt] at h2
    have hn1 : (7327145439331802 : ℝ) ≤ n := by rcases hn with h | h <;> rw [h] <;> norm_num
    have hn2 : (n : ℝ) ≤ 7327145439331803 := by rcases hn with h | h <;> rw [h] <;> norm_num
    have := binary64_eval (x := Real.sin x) (n := n) (k := -65)
      (by norm_num at *; linarith [h2.1, h2.2, h3.1, h3.2]) (by norm_num at *; linarith [h2.1, h2.2, h3.1, h3.2])
      (by rw [abs_lt]; constructor <;> norm_num at * <;> linarith [h2.1, h2.2, h3.1, h3.2])
    rw [this, zpow_neg, div_eq_mul_inv]
    norm_cast
  constructor
  · have := key edge 7327145439331803 (by norm_num [edge, abs_le]) (by norm_num [edge, abs_le]) (by norm_num [edge, abs_lt]) (Or.inl rfl)
    rw [this]; norm_num
  · have := key below 7327145439331802 (by norm_num [below, abs_le]) (by norm_num [below, abs_le]) (by norm_num [below, abs_lt]) (Or.inr rfl)
    rw [this]; norm_num

theorem intersect_edge : rIntersect realDoubles (1 - 1 / 2 ^ 53) below edge = 1 := by
  unfold rIntersect Arith.mul Arith.add
  change binary64 (_ * binary64 (binary64 (binary64 (Real.cos below) * binary64 (Real.cos edge)) +
    binary64 (binary64 (Real.sin below) * binary64 (Real.sin edge)))) = 1
  rw [cos_edge.1, cos_edge.2, sin_edge.1, sin_edge.2]
  have h1 : binary64 ((9007199077105409 / 2 ^ 53 : ℝ) * (9007199077105409 / 2 ^ 53)) = 9007198899469830 / 2 ^ 53 := by
    rw [binary64_eval (n := 9007198899469830) (k := -53) (by norm_num) (by norm_num) (by rw [abs_lt]; norm_num)]
    norm_num
  have h2 : binary64 ((7327145439331802 / 2 ^ 65 : ℝ) * (7327145439331803 / 2 ^ 65)) = 5960461045742086 / 2 ^ 77 := by
    rw [binary64_eval (n := 5960461045742086) (k := -77) (by norm_num) (by norm_num) (by rw [abs_lt]; norm_num)]
    norm_num
  have h3 : binary64 ((9007198899469830 / 2 ^ 53 : ℝ) + 5960461045742086 / 2 ^ 77) = 1 + 1 / 2 ^ 52 := by
    rw [binary64_eval (n := 2 ^ 52 + 1) (k := -52) (by norm_num) (by norm_num) (by rw [abs_lt]; norm_num)]
    norm_num
  rw [h1, h2, h3, binary64_eval (n := 2 ^ 52) (k := -52) (by norm_num) (by norm_num) (by rw [abs_lt]; norm_num)]
  norm_num

/-- Just below the inner radius of a layout, and just before its first edge, there is a point for which the projection on the
edge is computed to be at the inner radius; then the number of the row is -1, and making an index of it is undefined. -/
theorem nearest_valid_false_below : ∃ L : Layout ℝ, new realDoubles 1 2 1 edge 2 1 = .ok L ∧
    binary64 below = below ∧ binary64 (1 - 1 / 2 ^ 53 : ℝ) = 1 - 1 / 2 ^ 53 ∧
    ∀ fuel, getNearestPad realDoubles L (fuel + 1) (1 - 1 / 2 ^ 53) below = some .ub := by
  have R : Rounding realDoubles.rnd (1 / 2 ^ 53) := binary64_rounding
  have sc : ∀ (x : ℝ) (n k : ℤ), |n| ≤ 2 ^ 53 → x = n * 2 ^ k → realDoubles.rnd x = x := by
    intro x n k h1 h2
    rw [h2]
    exact R.scaled n k h1
  have hL : new realDoubles 1 2 1 edge 2 1 = .ok _ := if_neg (by norm_num)
  obtain ⟨L, hLL⟩ : ∃ L, L = (⟨1, 2, 1, realDoubles.div (realDoubles.sub 2 1) (1 : ℤ), edge, 2,
    realDoubles.div (realDoubles.sub 2 edge) (1 : ℤ), 1, 1 * 1, [1, 2, edge, 2], List.replicate (1 : ℤ).toNat none⟩ : Layout ℝ) := ⟨_, rfl⟩
  have hb : realDoubles.rnd below = below :=
    sc below (833 * 2 ^ 43 - 1) (-65) (by norm_num) (by norm_num [below])
  have hr : realDoubles.rnd (1 - 1 / 2 ^ 53) = 1 - 1 / 2 ^ 53 := sc _ (2 ^ 53 - 1) (-53) (by norm_num) (by norm_num)
  refine ⟨L, by rw [hLL]; exact hL, hb, hr, fun fuel => ?_⟩
  have e0 : L.phiMin = edge := by rw [hLL]
  have e1 : L.phiMax = 2 := by rw [hLL]
  have e2 : L.rMin = 1 := by rw [hLL]
  have e3 : L.nRow = 1 := by rw [hLL]
  have e4 : L.rowHeight = 1 := by
    rw [hLL]
    change realDoubles.rnd (realDoubles.rnd (2 - 1) / (1 : ℤ)) = 1
    have h1 : realDoubles.rnd (2 - 1) = 2 - 1 := sc _ 1 0 (by norm_num) (by norm_num)
    rw [h1]
    have h2 : realDoubles.rnd ((2 - 1) / (1 : ℤ)) = (2 - 1) / (1 : ℤ) := sc _ 1 0 (by norm_num) (by norm_num)
    rw [h2]
    norm_num
  have e5 : L.nPadsInRow = 1 := by rw [hLL]
  have mean : realDoubles.div (realDoubles.add L.phiMax L.phiMin) 2 = 1 + 833 / 2 ^ 23 := by
    rw [e0, e1]
    change realDoubles.rnd (realDoubles.rnd (2 + edge) / 2) = _
    have h1 : realDoubles.rnd (2 + edge) = 2 + edge := sc _ (2 ^ 23 + 833) (-22) (by norm_num) (by norm_num [edge])
    have h2 : realDoubles.rnd ((2 + edge) / 2) = (2 + edge) / 2 := sc _ (2 ^ 23 + 833) (-23) (by norm_num) (by norm_num [edge])
    rw [h1, h2]
    norm_num [edge]
  have hpi : realDoubles.pi = 884279719003555 / 2 ^ 48 := rfl
  have int : ∀ n : ℤ, |n| ≤ 2 ^ 53 → realDoubles.rnd n = n := fun n h => sc _ n 0 h (by simp)
  have i1 : realDoubles.sub (1 + 833 / 2 ^ 23) realDoubles.pi ≤ below := by
    have := R.mono (1 + 833 / 2 ^ 23 - realDoubles.pi) (0 : ℤ) (by rw [hpi]; norm_num)
    rw [int 0 (by norm_num)] at this
    refine le_trans this ?_
    norm_num [below]
  have i2 : below ≤ realDoubles.add (1 + 833 / 2 ^ 23) realDoubles.pi := by
    have := R.mono (1 : ℤ) (1 + 833 / 2 ^ 23 + realDoubles.pi) (by rw [hpi]; norm_num)
    rw [int 1 (by norm_num)] at this
    refine le_trans ?_ this
    norm_num [below]
  unfold getNearestPad
  rw [if_neg (by norm_num), mean]
  dsimp only
  rw [(loops_id (F := realDoubles) (fuel := fuel) i1 i2).1]
  dsimp only
  rw [(loops_id (F := realDoubles) (fuel := fuel) i1 i2).2]
  dsimp only
  have half1 : (1 : ℝ) ≤ realDoubles.div realDoubles.pi 2 := by
    have := R.mono (1 : ℤ) (realDoubles.pi / 2) (by rw [hpi]; norm_num)
    rw [int 1 (by norm_num)] at this
    exact_mod_cast this
  have half2 : realDoubles.div realDoubles.pi 2 ≤ 13 / 8 := by
    have := R.mono (realDoubles.pi / 2) (13 / 8) (by rw [hpi]; norm_num)
    rwa [sc (13 / 8) 13 (-3) (by norm_num) (by norm_num)] at this
  have right : edgeRow realDoubles L (1 - 1 / 2 ^ 53) below L.phiMin = .ok (-1) := by
    unfold edgeRow
    have hd : realDoubles.sub below L.phiMin = -(1 / 2 ^ 65) := by
      rw [e0]
      have : realDoubles.rnd (below - edge) = below - edge := sc _ (-1) (-65) (by norm_num) (by norm_num [below, edge])
      unfold Arith.sub
      rw [this]
      norm_num [below, edge]
    rw [hd, if_neg (by rw [abs_neg, abs_of_nonneg (by norm_num)]; norm_num at *; linarith), e0, intersect_edge, e2,
      decide_eq_false (lt_irrefl _)]
    unfold rowOf
    rw [e2, e3, e4]
    have h1 : realDoubles.div (realDoubles.sub (1 - 1 / 2 ^ 53) 1) 1 = -(1 / 2 ^ 53) := by
      unfold Arith.div Arith.sub
      have h1 : realDoubles.rnd (1 - 1 / 2 ^ 53 - 1) = 1 - 1 / 2 ^ 53 - 1 := sc _ (-1) (-53) (by norm_num) (by norm_num)
      rw [h1, div_one, h1]
      norm_num
    have h2 : floorInt (-(1 / 2 ^ 53) : ℝ) = .ok (-1) := by
      unfold floorInt
      have : ⌊(-(1 / 2 ^ 53) : ℝ)⌋ = -1 := by rw [Int.floor_eq_iff]; norm_num
      rw [this]
      have t : truncInt (((-1 : ℤ) : ℤ) : ℝ) = -1 := by
        unfold truncInt
        rw [if_neg (by norm_num)]
        norm_num
      unfold toInt
      rw [t]
      norm_num
    simp only [Bool.false_eq_true, if_false, h1, h2, Res.bind_ok]
    rfl
  have left : edgeRow realDoubles L (1 - 1 / 2 ^ 53) below L.phiMax = .ok 0 := by
    unfold edgeRow
    have hd : realDoubles.sub below L.phiMax ≤ -(15 / 8) := by
      rw [e1]
      have := R.mono (below - 2) (-(15 / 8)) (by norm_num [below])
      rwa [sc (-(15 / 8)) (-15) (-3) (by norm_num) (by norm_num)] at this
    rw [if_pos]
    rw [abs_of_nonpos (by linarith)]
    linarith
  have idx : getPadIndex L (-1) 0 = .ub := by
    unfold getPadIndex
    rw [e3, e5]
    decide
  unfold nearestFrom
  rw [if_neg (by rw [e0]; norm_num [below, edge]), right, Res.bind_ok, left, Res.bind_ok, idx]
  rfl

end Gear.PadAngle.Double
