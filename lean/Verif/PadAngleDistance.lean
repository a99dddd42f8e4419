/-
Properties C77 and C78 for layouts with a fixed pad angle: distances and the nearest pad, over the real
numbers with the mathematical functions.
-/
import Verif.PadAngleProps
import Verif.DiskDistance
import Mathlib.Analysis.Real.Pi.Bounds

set_option autoImplicit false
set_option linter.unusedSectionVars false

namespace Gear.PadAngle

open PadIndex Disk Spec Disk.Spec Real
open Rect (elem)

/-! ### C77 distance to a pad -/

/-- The points of pad `pad` of row `row`. -/
noncomputable def Spec.Args.keystone (A : Args ℝ) (row pad : ℤ) : Set (ℝ × ℝ) :=
  {q | ∃ ρ θ, A.InPad row pad ρ θ ∧ q = point ρ θ}

theorem distance_of {A : Args ℝ} {L : Layout ℝ} (hA : A.Proper) (hL : Made A L) {row pad p : ℤ}
    (h : IsIndex A L row pad p) (r phi : ℝ) :
    getDistanceToPad realFns L r phi p =
      keystoneDistance realFns r phi (A.rMin + row * A.dr) (A.rMin + (row + 1) * A.dr)
        (A.phiMin + pad * A.dphi) (A.phiMin + (pad + 1) * A.dphi) := by
  have hi := inv_made hL
  unfold getDistanceToPad getRowHeight getPadPitch
  rw [center_of hA hi h, hi.rowHeight, hi.padAngle]
  dsimp only
  congr 1 <;> ring

/-- For a point within a full turn of the pad, `getDistanceToPad` is the Euclidean distance to it. -/
theorem distance_isLeast {A : Args ℝ} {L : Layout ℝ} (hA : A.Proper) (hL : Made A L) (h0 : 0 ≤ A.rMin)
    {row pad p : ℤ} (h : IsIndex A L row pad p) {r phi : ℝ} (hr : 0 ≤ r)
    (h1 : A.phiMin + (pad + 1) * A.dphi - 2 * π ≤ phi) (h2 : phi ≤ A.phiMin + pad * A.dphi + 2 * π) :
    IsLeast (distancesTo (A.keystone row pad) r phi) (getDistanceToPad realFns L r phi p) := by
  have hdr := hA.dr_pos
  have hdp := hA.dphi_pos
  have e1 : (0 : ℝ) ≤ row := by exact_mod_cast h.1.1.1
  have hs : A.keystone row pad = keystone (A.rMin + row * A.dr) (A.rMin + (row + 1) * A.dr)
      (A.phiMin + pad * A.dphi) (A.phiMin + (pad + 1) * A.dphi) := by
    ext q
    constructor
    · rintro ⟨ρ, θ, ⟨⟨a, b⟩, c, d⟩, rfl⟩; exact ⟨ρ, θ, a, b, c, d, rfl⟩
    · rintro ⟨ρ, θ, a, b, c, d, rfl⟩; exact ⟨ρ, θ, ⟨⟨a, b⟩, c, d⟩, rfl⟩
  rw [distance_of hA hL h, hs]
  have := mul_nonneg e1 hdr.le
  exact keystoneDistance_isLeast hr (by linarith) (by linarith) (by linarith) h1 h2

/-- A quarter ring of two rows with two pads each. -/
noncomputable def quarterArgs : Args ℝ := ⟨1, 3, 2, 0, π / 2, 2⟩

theorem quarterArgs_proper : quarterArgs.Proper := by
  refine ⟨by norm_num [quarterArgs], ?_, by norm_num [quarterArgs], by norm_num [quarterArgs]⟩
  have := Real.pi_pos
  simp only [quarterArgs]; linarith

theorem quarter_made : ∃ L, Made quarterArgs L := by
  have h : ∃ L, PadAngle.new quarterArgs.rMin quarterArgs.rMax quarterArgs.nRow quarterArgs.phiMin
      quarterArgs.phiMax quarterArgs.nPads = .ok L := by
    unfold PadAngle.new
    rw [if_neg (by norm_num [quarterArgs])]
    exact ⟨_, rfl⟩
  obtain ⟨L, h⟩ := h
  exact ⟨L, .new h⟩

theorem quarter_dr : quarterArgs.dr = 1 := by norm_num [quarterArgs, Args.dr]
theorem quarter_dphi : quarterArgs.dphi = π / 4 := by norm_num [quarterArgs, Args.dphi]; ring

example : ∃ L p, Made quarterArgs L ∧ IsIndex quarterArgs L 1 0 p ∧
    IsLeast (distancesTo (quarterArgs.keystone 1 0) (5/2) (-(π / 3)))
      (getDistanceToPad realFns L (5/2) (-(π / 3)) p) := by
  obtain ⟨L, hL⟩ := quarter_made
  have hpi := Real.pi_pos
  have hp : quarterArgs.IsPad 1 0 := by simp [Args.IsPad, quarterArgs]
  obtain ⟨p, h⟩ := index_isSome quarterArgs_proper (inv_made hL) hp
  refine ⟨L, p, hL, ⟨hp, h⟩, distance_isLeast quarterArgs_proper hL (by norm_num [quarterArgs]) ⟨hp, h⟩
    (by norm_num) ?_ ?_⟩ <;>
  · rw [quarter_dphi]; simp only [quarterArgs]; push_cast; linarith

/-! ### C78 no pad is nearer than the nearest pad -/

theorem dist2_radial {r phi ρ θ : ℝ} (hr : 0 ≤ r) (hρ : 0 ≤ ρ) :
    |r - ρ| ≤ dist2 (point r phi) (point ρ θ) := by
  rw [dist2_point, ← Real.sqrt_sq_eq_abs]
  apply Real.sqrt_le_sqrt
  have : ρ * r * cos (phi - θ) ≤ ρ * r * 1 := mul_le_mul_of_nonneg_left (cos_le_one _) (mul_nonneg hρ hr)
  nlinarith

/-- Partial: for a point at an angle of the ring segment, below, inside or above it, no pad is nearer than
the returned one.  Missing: points at other angles; there the claim is false, see
`nearest_false_outside`. -/
theorem nearest_least_partial {A : Args ℝ} {L : Layout ℝ} (hA : A.Proper) (hL : Made A L)
    (h0 : 0 ≤ A.rMin) (hspan : A.phiMax - A.phiMin ≤ 2 * π) {r phi : ℝ} (hr : 0 ≤ r)
    (h1 : A.phiMin ≤ phi) (h2 : phi < A.phiMax) :
    ∃ p, getNearestPad realFns L r phi = .ok p ∧
      ∀ row' pad' p', IsIndex A L row' pad' p' →
        getDistanceToPad realFns L r phi p ≤ getDistanceToPad realFns L r phi p' := by
  obtain ⟨row, pad, p, hp, hn, ⟨ha, hb⟩, hc, hd, he, hf⟩ :=
    nearest_in_sector realFns_ok hA hL hspan hr h1 h2
  refine ⟨p, hn, fun row' pad' p' hp' => ?_⟩
  have hdr := hA.dr_pos
  have hdp := hA.dphi_pos
  have hmax := hA.rMax_eq
  have hpm := hA.phiMax_eq
  have bnd : ∀ row pad p, IsIndex A L row pad p →
      0 ≤ (row : ℝ) * A.dr ∧ ((row : ℝ) + 1) * A.dr ≤ A.nRow * A.dr ∧
      0 ≤ (pad : ℝ) * A.dphi ∧ ((pad : ℝ) + 1) * A.dphi ≤ A.nPads * A.dphi := by
    rintro row pad p ⟨⟨⟨a0, a1⟩, b0, b1⟩, -⟩
    have e1 : (0 : ℝ) ≤ row := by exact_mod_cast a0
    have e2 : (row : ℝ) + 1 ≤ A.nRow := by exact_mod_cast a1
    have e3 : (0 : ℝ) ≤ pad := by exact_mod_cast b0
    have e4 : (pad : ℝ) + 1 ≤ A.nPads := by exact_mod_cast b1
    exact ⟨mul_nonneg e1 hdr.le, mul_le_mul_of_nonneg_right e2 hdr.le, mul_nonneg e3 hdp.le,
      mul_le_mul_of_nonneg_right e4 hdp.le⟩
  obtain ⟨b1, b2, b3, b4⟩ := bnd _ _ _ hp
  obtain ⟨b1', b2', b3', b4'⟩ := bnd _ _ _ hp'
  obtain ⟨⟨q, ⟨ρ, θ, ⟨⟨q1, q2⟩, q3, q4⟩, rfl⟩, hq⟩, -⟩ :=
    distance_isLeast hA hL h0 hp' (r := r) (phi := phi) hr (by linarith) (by linarith)
  rw [hq]
  have hrad := dist2_radial (r := r) (phi := phi) (ρ := ρ) (θ := θ) hr (by linarith)
  rw [distance_of hA hL hp]
  unfold keystoneDistance
  rw [if_pos ⟨ha, hb.le⟩]
  split_ifs with c1 c2
  · exact le_trans (abs_nonneg _) hrad
  · have hlt : r < A.rMin := by
      by_contra hh
      have := hc (not_lt.1 hh)
      linarith
    rw [he hlt] at c1 c2 ⊢
    simp only [Int.cast_zero, zero_mul, add_zero] at *
    refine le_trans ?_ hrad
    rw [abs_sub_comm]; exact le_trans (by linarith) (le_abs_self _)
  · have hgt : A.rMax < r := by
      by_contra hh
      exact c1 ⟨not_lt.1 c2, hd (not_lt.1 hh)⟩
    rw [hf hgt]
    push_cast
    refine le_trans ?_ hrad
    exact le_trans (by linarith) (le_abs_self _)

/-- At other angles the returned pad need not be the nearest one: the row is taken from the radius of the
point instead of the radius of the nearest point on the edge. -/
theorem nearest_false_outside : ∃ L p row' pad' p', Made quarterArgs L ∧
    getNearestPad realFns L (5/2) (-(π / 3)) = .ok p ∧ IsIndex quarterArgs L row' pad' p' ∧
    getDistanceToPad realFns L (5/2) (-(π / 3)) p' < getDistanceToPad realFns L (5/2) (-(π / 3)) p := by
  obtain ⟨L, hL⟩ := quarter_made
  have hi := inv_made hL
  have hA := quarterArgs_proper
  have hpi := Real.pi_pos
  have i00 : quarterArgs.IsPad 0 0 := by simp [Args.IsPad, quarterArgs]
  have i10 : quarterArgs.IsPad 1 0 := by simp [Args.IsPad, quarterArgs]
  have i01 : quarterArgs.IsPad 0 1 := by simp [Args.IsPad, quarterArgs]
  obtain ⟨p00, h00⟩ := index_isSome hA hi i00
  obtain ⟨p10, h10⟩ := index_isSome hA hi i10
  obtain ⟨p01, h01⟩ := index_isSome hA hi i01
  -- distances
  have d00 : getDistanceToPad realFns L (5/2) (-(π / 3)) p00 ≤ √(75 / 16) := by
    rw [distance_of hA hL ⟨i00, h00⟩, quarter_dr, quarter_dphi]
    unfold keystoneDistance
    rw [if_neg (by simp only [quarterArgs]; push_cast; intro h; linarith [h.1])]
    dsimp only
    have he : edgeDistance realFns (5/2) (-(π / 3)) (quarterArgs.rMin + ((0 : ℤ) : ℝ) * 1)
        (quarterArgs.rMin + (((0 : ℤ) : ℝ) + 1) * 1) (quarterArgs.phiMin + ((0 : ℤ) : ℝ) * (π / 4))
        = √(75 / 16) := by
      simp only [edgeDistance, realFns, quarterArgs, Int.cast_zero, zero_mul, add_zero, cos_zero, sin_zero,
        cos_neg, cos_pi_div_three, sin_neg, sin_pi_div_three]
      norm_num
      rw [abs_of_nonneg (by positivity)]
      rw [show (75 : ℝ) = 5 ^ 2 * 3 by norm_num, show (16 : ℝ) = 4 ^ 2 by norm_num,
        Real.sqrt_mul (by norm_num), Real.sqrt_sq (by norm_num), Real.sqrt_sq (by norm_num)]
      ring
    rw [he]
    split_ifs with h
    · exact le_rfl
    · exact not_lt.1 h
  have hE : ∀ rMin rMax phiE, 1 ≤ rMin → rMin ≤ rMax →
      (2 ≤ rMin ∧ 0 ≤ phiE ∨ π / 4 ≤ phiE) → 0 ≤ phiE → phiE ≤ π / 2 →
      √(75 / 16) < edgeDistance realFns (5/2) (-(π / 3)) rMin rMax phiE := by
    intro rMin rMax phiE a b c d e
    rw [edgeDistance_eq, dist2_point]
    apply Real.sqrt_lt_sqrt (by norm_num)
    obtain ⟨f, g⟩ := edgeRadius_mem (r := 5/2) (phi := -(π / 3)) (phiE := phiE) b
    set ρ := edgeRadius (5/2) (-(π / 3)) rMin rMax phiE
    have hcos : cos (-(π / 3) - phiE) = cos (π / 3 + phiE) := by
      rw [← cos_neg]; congr 1; ring
    rw [hcos]
    rcases c with ⟨c, -⟩ | c
    · have h1 : cos (π / 3 + phiE) ≤ 1 / 2 := by
        rw [← cos_pi_div_three]
        exact cos_le_cos_of_nonneg_of_le_pi (by linarith) (by linarith) (by linarith)
      nlinarith
    · have h1 : cos (π / 3 + phiE) ≤ 0 := by
        apply cos_nonpos_of_pi_div_two_le_of_le <;> linarith
      nlinarith
  have hout : ∀ rMin rMax phiMin phiMax, 1 ≤ rMin → rMin ≤ rMax →
      (2 ≤ rMin ∧ 0 ≤ phiMin ∨ π / 4 ≤ phiMin) → 0 ≤ phiMin → phiMin ≤ phiMax → phiMax ≤ π / 2 →
      √(75 / 16) < keystoneDistance realFns (5/2) (-(π / 3)) rMin rMax phiMin phiMax := by
    intro rMin rMax phiMin phiMax a b c d e f
    unfold keystoneDistance
    rw [if_neg (by intro h; linarith [h.1])]
    dsimp only
    have g1 := hE rMin rMax phiMin a b c d (by linarith)
    have g2 := hE rMin rMax phiMax a b
      (c.imp (fun x => ⟨x.1, by linarith⟩) (fun x => by linarith)) (by linarith) f
    split_ifs
    · exact g1
    · exact g2
  have d10 : √(75 / 16) < getDistanceToPad realFns L (5/2) (-(π / 3)) p10 := by
    rw [distance_of hA hL ⟨i10, h10⟩, quarter_dr, quarter_dphi]
    simp only [quarterArgs]; push_cast
    apply hout <;> norm_num <;> linarith
  have d01 : √(75 / 16) < getDistanceToPad realFns L (5/2) (-(π / 3)) p01 := by
    rw [distance_of hA hL ⟨i01, h01⟩, quarter_dr, quarter_dphi]
    simp only [quarterArgs]; push_cast
    apply hout <;> norm_num <;> linarith
  -- the candidates
  have e1 : wrapUp π ((π / 2 + 0) / 2 - π) (-(π / 3)) = -(π / 3) := wrapUp_id (by linarith)
  have e2 : wrapDown π ((π / 2 + 0) / 2 + π) (-(π / 3)) = -(π / 3) := wrapDown_id (by linarith)
  have r1 : edgeRow realFns L (5/2) (-(π / 3)) 0 = 1 := by
    unfold edgeRow
    rw [hi.rMin, hi.rowHeight, quarter_dr, hi.nRow]
    have : ¬ |(-(π / 3)) - 0| > realFns.pi / 2 := by
      show ¬ |(-(π / 3)) - 0| > π / 2
      rw [sub_zero, abs_neg, abs_of_pos (by linarith)]; linarith
    rw [if_neg this]
    simp only [realFns, cos_zero, sin_zero, cos_neg, cos_pi_div_three, quarterArgs]
    norm_num
  have r2 : edgeRow realFns L (5/2) (-(π / 3)) (π / 2) = 0 := by
    unfold edgeRow
    rw [if_pos]
    simp only [realFns]
    rw [abs_of_neg (by linarith)]; linarith
  refine ⟨L, if getDistanceToPad realFns L (5/2) (-(π / 3)) p10 <
    getDistanceToPad realFns L (5/2) (-(π / 3)) p01 then p10 else p01, 0, 0, p00, hL, ?_, ⟨i00, h00⟩, ?_⟩
  · unfold getNearestPad
    rw [if_neg (by norm_num), hi.phiMax, hi.phiMin]
    have hpi' : realFns.pi = π := rfl
    have hM : quarterArgs.phiMax = π / 2 := rfl
    have hm : quarterArgs.phiMin = 0 := rfl
    have hnp : quarterArgs.nPads - 1 = 1 := rfl
    dsimp only
    rw [hpi', hM, hm, e1, e2, if_neg (by intro h; linarith [h.2]), r1, r2, hi.nPadsInRow, hnp, h10,
      Res.bind_ok, h01, Res.bind_ok, Res.pure_eq]
  · split_ifs
    · exact lt_of_le_of_lt d00 d10
    · exact lt_of_le_of_lt d00 d01

example : ∃ L, Made quarterArgs L ∧ 0 ≤ quarterArgs.rMin ∧ quarterArgs.phiMax - quarterArgs.phiMin ≤ 2 * π ∧
    quarterArgs.phiMin ≤ 1 ∧ 1 < quarterArgs.phiMax := by
  obtain ⟨L, hL⟩ := quarter_made
  have hpi := Real.pi_gt_three
  refine ⟨L, hL, ?_, ?_, ?_, ?_⟩ <;> simp only [quarterArgs] <;> linarith

end Gear.PadAngle
