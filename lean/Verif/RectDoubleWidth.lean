/-
Horizontal positions in rectangular layouts, with the arithmetic of `double`.
-/
import Verif.RectDoubleSearch
import Verif.PadAngleDoubleLemmas

set_option autoImplicit false
set_option linter.unusedSectionVars false

namespace Gear.Rect.Double

open PadIndex Doubles Spec
open MaterialMap (Arith)
open PadAngle.Double (toInt toInt_nonneg)
open PadAngle.Double.Spec (Rounded)

variable {K : Type} [Field K] [LinearOrder K] [IsStrictOrderedRing K] [FloorRing K]
variable {F : Arith K} {u : K} {A : Args K} {L : Layout K}

/-- A point between two numbers is between their roundings. -/
theorem mix_near (R : Rounded F u) {t : K} (h0 : 0 ≤ t) (h1 : t ≤ 1) :
    |F.rnd A.left + t * (F.rnd A.right - F.rnd A.left) - (A.left + t * (A.right - A.left))| ≤ A.xError u := by
  have e1 := R.rounding.err A.left
  have e2 := R.rounding.err A.right
  have f1 := mul_le_mul_of_nonneg_left e1 (show 0 ≤ 1 - t by linarith)
  have f2 := mul_le_mul_of_nonneg_left e2 h0
  have g1 : 0 ≤ t * (u * |A.left|) := mul_nonneg h0 (mul_nonneg R.nonneg (abs_nonneg _))
  have g2 : 0 ≤ (1 - t) * (u * |A.right|) := mul_nonneg (by linarith) (mul_nonneg R.nonneg (abs_nonneg _))
  rw [show F.rnd A.left + t * (F.rnd A.right - F.rnd A.left) - (A.left + t * (A.right - A.left)) =
    (1 - t) * (F.rnd A.left - A.left) + t * (F.rnd A.right - A.right) by ring]
  refine (abs_add_le _ _).trans ?_
  rw [abs_mul, abs_mul, abs_of_nonneg h0, abs_of_nonneg (show 0 ≤ 1 - t by linarith)]
  unfold Args.xError
  linarith

theorem mix_abs {t : K} (h0 : 0 ≤ t) (h1 : t ≤ 1) : |A.left + t * (A.right - A.left)| ≤ |A.left| + |A.right| := by
  rw [show A.left + t * (A.right - A.left) = (1 - t) * A.left + t * A.right by ring]
  refine (abs_add_le _ _).trans ?_
  rw [abs_mul, abs_mul, abs_of_nonneg h0, abs_of_nonneg (show 0 ≤ 1 - t by linarith)]
  have := mul_le_mul_of_nonneg_right h1 (abs_nonneg A.right)
  have := mul_nonneg h0 (abs_nonneg A.left)
  linarith

/-- The calculated width of the row. -/
theorem width_le (R : Rounded F u) (hA : A.Proper u) :
    0 ≤ F.rnd A.right - F.rnd A.left ∧ F.rnd A.right - F.rnd A.left ≤ 1001 / 1000 * (|A.left| + |A.right|) := by
  refine ⟨by linarith [R.rounding.mono _ _ hA.width.le], ?_⟩
  have e1 := R.rounding.abs_le A.left
  have e2 := R.rounding.abs_le A.right
  have f1 := mul_le_mul_of_nonneg_right R.small (abs_nonneg A.left)
  have f2 := mul_le_mul_of_nonneg_right R.small (abs_nonneg A.right)
  linarith [neg_abs_le (F.rnd A.left), le_abs_self (F.rnd A.right)]

theorem xError_pos (R : Rounded F u) (hA : A.Proper u) : 0 < A.xError u := by
  refine mul_pos R.pos ?_
  have := hA.width
  linarith [neg_abs_le A.left, le_abs_self A.right]

/-- A column number as a part of the width. -/
theorem part (B : Built F A L) {j : ℤ} (h0 : 0 ≤ j) (h1 : j ≤ A.nPad) : 0 ≤ (j : K) / A.nPad ∧ (j : K) / A.nPad ≤ 1 := by
  have hm : (0 : K) < A.nPad := by exact_mod_cast B.pads
  have : (0 : K) ≤ j := by exact_mod_cast h0
  have : (j : K) ≤ A.nPad := by exact_mod_cast h1
  exact ⟨by positivity, (div_le_one hm).2 this⟩

/-- The pad of a point that is not too near to the ends of its column. -/
theorem padInRow_near (R : Rounded F u) (hA : A.Proper u) (B : Built F A L) {i j : ℤ} (h0 : 0 ≤ i) (hi : i < A.nRow) (j0 : 0 ≤ j)
    (hj : j < A.nPad) {x : K} (hx : |x - A.xCenter j| ≤ A.pitch / 2 - 12 * A.xError u) :
    padInRow F L x i = getPadIndex L i j := by
  have he := xError_pos R hA
  have hm : (0 : K) < A.nPad := by exact_mod_cast B.pads
  obtain ⟨p0, p1⟩ := part B j0 hj.le
  obtain ⟨p2, p3⟩ := part B (j := j + 1) (by omega) (by omega)
  have m1 := mix_near (F := F) (A := A) R p0 p1
  have m2 := mix_near (F := F) (A := A) R p2 p3
  have m3 := mix_near (F := F) (A := A) R le_rfl zero_le_one
  have m4 := mix_near (F := F) (A := A) R zero_le_one le_rfl
  obtain ⟨w1, w2⟩ := width_le R hA
  have hW : 8 * u * (F.rnd A.right - F.rnd A.left) ≤ 9 * A.xError u := by
    have := mul_le_mul_of_nonneg_left w2 R.nonneg
    unfold Args.xError at *
    linarith
  have hp : A.pitch = (A.right - A.left) / A.nPad := rfl
  have c1 : A.left + (j : K) / A.nPad * (A.right - A.left) + 12 * A.xError u ≤ x ∧
      x ≤ A.left + ((j + 1 : ℤ) : K) / A.nPad * (A.right - A.left) - 12 * A.xError u := by
    rw [abs_le] at hx
    have : A.xCenter j = A.left + (j + 1 / 2) * A.pitch := rfl
    have k1 : (j : K) / A.nPad * (A.right - A.left) = j * A.pitch := by rw [hp]; ring
    have k2 : ((j + 1 : ℤ) : K) / A.nPad * (A.right - A.left) = (j + 1) * A.pitch := by rw [hp]; push_cast; ring
    rw [k1, k2]
    constructor <;> linarith [hx.1, hx.2]
  have q1 : 0 ≤ (j : K) / A.nPad * (A.right - A.left) := mul_nonneg p0 (by linarith [hA.width])
  have q2 : ((j + 1 : ℤ) : K) / A.nPad * (A.right - A.left) ≤ 1 * (A.right - A.left) :=
    mul_le_mul_of_nonneg_right p3 (by linarith [hA.width])
  have hlt : F.rnd A.left < F.rnd A.right := by
    by_contra hc
    have : F.rnd A.right - F.rnd A.left = 0 := by linarith
    rw [this] at m1 m2
    rw [abs_le] at m1 m2
    linarith [m1.2, m2.1, c1.1, c1.2]
  rw [abs_le] at m1 m2 m3 m4
  have l1 : F.rnd A.left < x := by linarith [m3.2, c1.1]
  have l2 : x < F.rnd A.right := by linarith [m4.1, c1.2]
  obtain ⟨g1, g2⟩ := R.rounding.cell R.nonneg R.small hlt j0 hj (x := x)
    (by rw [show (j : K) * ((F.rnd A.right - F.rnd A.left) / A.nPad) = (j : K) / A.nPad * (F.rnd A.right - F.rnd A.left) by ring]
        linarith [m1.2, c1.1])
    (by rw [show ((j : K) + 1) * ((F.rnd A.right - F.rnd A.left) / A.nPad) =
          ((j + 1 : ℤ) : K) / A.nPad * (F.rnd A.right - F.rnd A.left) by push_cast; ring]
        linarith [m2.1, c1.2])
  unfold padInRow
  rw [elemUb_of (B.row i h0 hi), Res.bind_ok]
  dsimp only
  unfold Arith.add Arith.sub Arith.div
  rw [B.xMin, B.xMax]
  have hl : F.rnd (A.xMin + A.leftOffset) = F.rnd A.left := rfl
  have hr : F.rnd (A.xMax - A.rightOffset) = F.rnd A.right := rfl
  rw [hl, hr, if_neg (not_le.2 l1), if_neg (not_le.2 l2)]
  rw [toInt_nonneg g1 ?_, g2, Res.bind_ok]
  have := Int.lt_floor_add_one (F.rnd (F.rnd (x - F.rnd A.left) / F.rnd (F.rnd (F.rnd A.right - F.rnd A.left) / A.nPad)))
  rw [g2] at this
  have hj2 : (j : K) + 1 ≤ 65536 := by
    have := hA.pads
    have : j + 1 ≤ 65536 := by omega
    exact_mod_cast this
  linarith

/-- The calculated pitch. -/
theorem pitch_near (R : Rounded F u) (hA : A.Proper u) (B : Built F A L) :
    |F.rnd (F.rnd (F.rnd A.right - F.rnd A.left) / A.nPad) - (F.rnd A.right - F.rnd A.left) / A.nPad| * A.nPad ≤
      21 / 10 * A.xError u := by
  have hm : (0 : K) < A.nPad := by exact_mod_cast B.pads
  obtain ⟨w1, w2⟩ := width_le R hA
  have hW := mul_le_mul_of_nonneg_left w2 R.nonneg
  have he : A.xError u = u * (|A.left| + |A.right|) := rfl
  have e0 := (xError_pos R hA).le
  generalize F.rnd A.right - F.rnd A.left = W at *
  have h1 := R.rounding.err W
  rw [abs_of_nonneg w1] at h1
  have h2 := R.rounding.err (F.rnd W / A.nPad)
  rw [abs_of_nonneg (div_nonneg (R.rounding.nonneg w1) hm.le)] at h2
  have h3 := (R.rounding.bounds w1).2
  have h4 := mul_le_mul_of_nonneg_left h3 R.nonneg
  have h5 := mul_le_mul_of_nonneg_left R.small (mul_nonneg R.nonneg w1)
  have h6 : |F.rnd (F.rnd W / A.nPad) - W / A.nPad| ≤ u * (F.rnd W / A.nPad) + |F.rnd W - W| / A.nPad := by
    rw [show F.rnd (F.rnd W / A.nPad) - W / A.nPad = (F.rnd (F.rnd W / A.nPad) - F.rnd W / A.nPad) +
      (F.rnd W - W) / A.nPad by ring]
    refine (abs_add_le _ _).trans ?_
    rw [abs_div, abs_of_pos hm]
    linarith
  have h7 := mul_le_mul_of_nonneg_right h6 hm.le
  rw [add_mul, div_mul_cancel₀ _ hm.ne', mul_assoc, div_mul_cancel₀ _ hm.ne'] at h7
  linarith

/-- The calculated start of column `j`. -/
theorem column_near (R : Rounded F u) (hA : A.Proper u) (B : Built F A L) {j : ℤ} (h0 : 0 ≤ j) (h1 : j ≤ A.nPad) :
    |F.rnd (F.rnd A.left + F.rnd (j * F.rnd (F.rnd (F.rnd A.right - F.rnd A.left) / A.nPad))) - (A.left + j * A.pitch)| ≤
      11 / 2 * A.xError u := by
  have hm : (0 : K) < A.nPad := by exact_mod_cast B.pads
  have j0 : (0 : K) ≤ j := by exact_mod_cast h0
  have j1 : (j : K) ≤ A.nPad := by exact_mod_cast h1
  obtain ⟨p0, p1⟩ := part B h0 h1
  have m1 := mix_near (F := F) (A := A) R p0 p1
  have m2 := mix_abs (A := A) p0 p1
  have k1 : (j : K) / A.nPad * (A.right - A.left) = j * A.pitch := by unfold Args.pitch; ring
  have k2 : (j : K) / A.nPad * (F.rnd A.right - F.rnd A.left) = j * ((F.rnd A.right - F.rnd A.left) / A.nPad) := by ring
  rw [k1] at m2
  rw [k1, k2] at m1
  obtain ⟨w1, w2⟩ := width_le R hA
  have hpn := pitch_near R hA B
  have he : A.xError u = u * (|A.left| + |A.right|) := rfl
  have e0 := (xError_pos R hA).le
  have w3 : |(j : K) * ((F.rnd A.right - F.rnd A.left) / A.nPad)| ≤ 1001 / 1000 * (|A.left| + |A.right|) := by
    rw [← k2, abs_of_nonneg (mul_nonneg p0 w1)]
    have := mul_le_mul_of_nonneg_right p1 w1
    linarith
  generalize (F.rnd A.right - F.rnd A.left) / (A.nPad : K) = p' at *
  generalize F.rnd (F.rnd (F.rnd A.right - F.rnd A.left) / (A.nPad : K)) = w at *
  have a1 : |j * w - j * p'| ≤ 21 / 10 * A.xError u := by
    rw [← mul_sub, abs_mul, abs_of_nonneg j0, mul_comm]
    exact (mul_le_mul_of_nonneg_left j1 (abs_nonneg _)).trans hpn
  have hu : u * (1001 / 1000 * (|A.left| + |A.right|)) ≤ 1001 / 1000 * A.xError u := by rw [he]; linarith
  have a2 := near' R hu a1 w3 le_rfl
  have a3 := near' R (v := F.rnd A.left + F.rnd (j * w)) (V := A.left + j * A.pitch) he.ge (e := 17 / 4 * A.xError u) (by
    rw [show F.rnd A.left + F.rnd (j * w) - (A.left + j * A.pitch) = (F.rnd (j * w) - j * p') +
      (F.rnd A.left + j * p' - (A.left + j * A.pitch)) by ring]
    exact (abs_add_le _ _).trans (by linarith)) m2 (eta := 5 * A.xError u) (by linarith)
  linarith

/-- The calculated pitch and the exact one. -/
theorem pitch_near' (R : Rounded F u) (hA : A.Proper u) (B : Built F A L) :
    |F.rnd (F.rnd (F.rnd A.right - F.rnd A.left) / A.nPad) - A.pitch| ≤ 31 / 10 * A.xError u := by
  have hm : (1 : K) ≤ A.nPad := by exact_mod_cast B.pads
  have hpn := pitch_near R hA B
  have e1 := R.rounding.err A.left
  have e2 := R.rounding.err A.right
  have he : A.xError u = u * (|A.left| + |A.right|) := rfl
  have e0 := (xError_pos R hA).le
  have h1 : |(F.rnd A.right - F.rnd A.left) / (A.nPad : K) - A.pitch| ≤ A.xError u := by
    unfold Args.pitch
    rw [← sub_div, abs_div, abs_of_nonneg (by linarith : (0 : K) ≤ A.nPad), div_le_iff₀ (by linarith)]
    have : |F.rnd A.right - F.rnd A.left - (A.right - A.left)| ≤ A.xError u := by
      rw [show F.rnd A.right - F.rnd A.left - (A.right - A.left) = (F.rnd A.right - A.right) - (F.rnd A.left - A.left) by ring]
      exact (abs_sub _ _).trans (by rw [he]; linarith)
    have := mul_le_mul_of_nonneg_left hm e0
    linarith
  generalize (F.rnd A.right - F.rnd A.left) / (A.nPad : K) = p' at *
  generalize F.rnd (F.rnd (F.rnd A.right - F.rnd A.left) / (A.nPad : K)) = w at *
  have h2 : |w - p'| ≤ 21 / 10 * A.xError u := by
    have := mul_le_mul_of_nonneg_left hm (abs_nonneg (w - p'))
    linarith
  rw [show w - A.pitch = (w - p') + (p' - A.pitch) by ring]
  exact (abs_add_le _ _).trans (by linarith)

theorem pitch_le (hA : A.Proper u) (B : Built F A L) : 0 ≤ A.pitch ∧ A.pitch ≤ |A.left| + |A.right| := by
  have hm : (1 : K) ≤ A.nPad := by exact_mod_cast B.pads
  have h : 0 ≤ A.right - A.left := by linarith [hA.width]
  unfold Args.pitch
  refine ⟨div_nonneg h (by linarith), ?_⟩
  refine (div_le_self h hm).trans ?_
  linarith [neg_abs_le A.left, le_abs_self A.right]

theorem xCenter_abs (B : Built F A L) {j : ℤ} (h0 : 0 ≤ j) (h1 : j < A.nPad) :
    |A.xCenter j| ≤ |A.left| + |A.right| := by
  have hm : (0 : K) < A.nPad := by exact_mod_cast B.pads
  have j0 : (0 : K) ≤ j := by exact_mod_cast h0
  have j1 : (j : K) + 1 ≤ A.nPad := by exact_mod_cast h1
  have := mix_abs (A := A) (t := ((j : K) + 1 / 2) / A.nPad) (by positivity) ((div_le_one hm).2 (by linarith))
  unfold Args.xCenter Args.pitch
  rwa [show ((j : K) + 1 / 2) * ((A.right - A.left) / A.nPad) = ((j : K) + 1 / 2) / A.nPad * (A.right - A.left) by ring]

/-- The calculated middle of column `j`. -/
theorem xCenter_near (R : Rounded F u) (hA : A.Proper u) (B : Built F A L) {j : ℤ} (h0 : 0 ≤ j) (h1 : j < A.nPad) :
    |F.rnd (F.rnd (F.rnd A.left + F.rnd (j * F.rnd (F.rnd (F.rnd A.right - F.rnd A.left) / A.nPad))) +
      F.rnd (F.rnd (F.rnd (F.rnd A.right - F.rnd A.left) / A.nPad) / 2)) - A.xCenter j| ≤ 10 * A.xError u := by
  have h2 := column_near R hA B h0 h1.le
  have h3 := pitch_near' R hA B
  obtain ⟨p0, p1⟩ := pitch_le hA B
  have he : A.xError u = u * (|A.left| + |A.right|) := rfl
  have e0 := (xError_pos R hA).le
  generalize F.rnd (F.rnd (F.rnd A.right - F.rnd A.left) / (A.nPad : K)) = w at *
  generalize F.rnd (F.rnd A.left + F.rnd (j * w)) = c at *
  have h4 := near' R (v := w / 2) (V := A.pitch / 2) he.ge (e := 31 / 20 * A.xError u) (by
    rw [← sub_div, abs_div, abs_of_pos (by norm_num : (0 : K) < 2)]; linarith)
    (by rw [abs_of_nonneg (by linarith)]; linarith) (eta := 2 * A.xError u) (by linarith)
  have h5 := near' R (v := c + F.rnd (w / 2)) (V := A.xCenter j) he.ge (e := 17 / 2 * A.xError u) (by
    rw [show c + F.rnd (w / 2) - A.xCenter j = (c - (A.left + j * A.pitch)) + (F.rnd (w / 2) - A.pitch / 2) by
      unfold Args.xCenter; ring]
    exact (abs_add_le _ _).trans (by linarith)) (xCenter_abs B h0 h1) (eta := 9 * A.xError u) (by linarith)
  linarith

theorem padWidth_le (R : Rounded F u) (hA : A.Proper u) (B : Built F A L) :
    A.padWidth ≤ 101 / 100 * (|A.left| + |A.right|) := by
  have hm : (1 : K) ≤ A.nPad := by exact_mod_cast B.pads
  obtain ⟨w1, w2⟩ := width_le R hA
  have h1 := B.fits
  have h2 := (R.rounding.bounds (mul_nonneg (by linarith : (0 : K) ≤ A.nPad) B.padWidth)).1
  have h3 := (R.rounding.bounds w1).2
  have h4 := mul_le_mul_of_nonneg_right R.small w1
  have h5 := mul_le_mul_of_nonneg_right hm B.padWidth
  have h6 := mul_le_mul_of_nonneg_right R.small (mul_nonneg (by linarith : (0 : K) ≤ A.nPad) B.padWidth)
  linarith

/-- The calculated ends of a pad. -/
theorem ends_near (R : Rounded F u) (hA : A.Proper u) (B : Built F A L) {j : ℤ} (h0 : 0 ≤ j) (h1 : j < A.nPad) :
    |F.rnd (F.rnd (F.rnd A.left + F.rnd (j * F.rnd (F.rnd (F.rnd A.right - F.rnd A.left) / A.nPad))) +
      F.rnd (F.rnd (F.rnd (F.rnd (F.rnd A.right - F.rnd A.left) / A.nPad) - A.padWidth) / 2)) -
        (A.xCenter j - A.padWidth / 2)| ≤ 12 * A.xError u ∧
    |F.rnd (F.rnd (F.rnd A.left + F.rnd ((j + 1) * F.rnd (F.rnd (F.rnd A.right - F.rnd A.left) / A.nPad))) -
      F.rnd (F.rnd (F.rnd (F.rnd (F.rnd A.right - F.rnd A.left) / A.nPad) - A.padWidth) / 2)) -
        (A.xCenter j + A.padWidth / 2)| ≤ 12 * A.xError u := by
  have h2 := column_near R hA B h0 h1.le
  have h2' := column_near R hA B (j := j + 1) (by omega) (by omega)
  push_cast at h2'
  have h3 := pitch_near' R hA B
  obtain ⟨p0, p1⟩ := pitch_le hA B
  have hx := xCenter_abs B h0 h1
  have hw0 := B.padWidth
  have hw1 := padWidth_le R hA B
  have he : A.xError u = u * (|A.left| + |A.right|) := rfl
  have e0 := (xError_pos R hA).le
  generalize F.rnd (F.rnd (F.rnd A.right - F.rnd A.left) / (A.nPad : K)) = w at *
  generalize F.rnd (F.rnd A.left + F.rnd (j * w)) = c at *
  generalize F.rnd (F.rnd A.left + F.rnd (((j : K) + 1) * w)) = c' at *
  have hq : u * (101 / 100 * (|A.left| + |A.right|)) ≤ 101 / 100 * A.xError u := by rw [he]; linarith
  have hq' : u * (2 * (|A.left| + |A.right|)) ≤ 2 * A.xError u := by rw [he]; linarith
  have h4 := near' R (v := w - A.padWidth) (V := A.pitch - A.padWidth) hq (e := 31 / 10 * A.xError u) (by
    rw [sub_sub_sub_cancel_right]; exact h3)
    (by rw [abs_le]; constructor <;> linarith [abs_nonneg A.left, abs_nonneg A.right]) (eta := 4 * A.xError u) (by linarith)
  generalize F.rnd (w - A.padWidth) = g at *
  have h5 := near' R (v := g / 2) (V := (A.pitch - A.padWidth) / 2) hq (e := 21 / 10 * A.xError u) (by
    rw [← sub_div, abs_div, abs_of_pos (by norm_num : (0 : K) < 2)]; linarith)
    (by rw [abs_le]; constructor <;> linarith [abs_nonneg A.left, abs_nonneg A.right]) (eta := 3 * A.xError u) (by linarith)
  have hx2 := abs_le.1 hx
  constructor
  · have h6 := near' R (v := c + F.rnd (g / 2)) (V := A.xCenter j - A.padWidth / 2) hq' (e := 9 * A.xError u) (by
      rw [show c + F.rnd (g / 2) - (A.xCenter j - A.padWidth / 2) = (c - (A.left + j * A.pitch)) +
        (F.rnd (g / 2) - (A.pitch - A.padWidth) / 2) by unfold Args.xCenter; ring]
      exact (abs_add_le _ _).trans (by linarith))
      (by rw [abs_le]; constructor <;> linarith [abs_nonneg A.left, abs_nonneg A.right, hx2.1, hx2.2])
      (eta := 9 * A.xError u) le_rfl
    linarith
  · have h6 := near' R (v := c' - F.rnd (g / 2)) (V := A.xCenter j + A.padWidth / 2) hq' (e := 9 * A.xError u) (by
      rw [show c' - F.rnd (g / 2) - (A.xCenter j + A.padWidth / 2) = (c' - (A.left + (j + 1) * A.pitch)) -
        (F.rnd (g / 2) - (A.pitch - A.padWidth) / 2) by unfold Args.xCenter; ring]
      exact (abs_sub _ _).trans (by linarith))
      (by rw [abs_le]; constructor <;> linarith [abs_nonneg A.left, abs_nonneg A.right, hx2.1, hx2.2])
      (eta := 9 * A.xError u) le_rfl
    linarith

end Gear.Rect.Double
