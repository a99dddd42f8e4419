/-
Property C77: the distance to a pad of a polar layout is the Euclidean distance to its keystone.
-/
import Verif.DiskLemmas
import Mathlib.Analysis.SpecialFunctions.Trigonometric.Basic
import Mathlib.Analysis.Real.Sqrt

set_option autoImplicit false
set_option linter.unusedSectionVars false

namespace Gear.Disk

open Real

/-- The mathematical functions. -/
noncomputable def realFns : Fns ℝ := ⟨Real.pi, Real.cos, Real.sin, Real.sqrt⟩

theorem realFns_ok : realFns.Ok := by
  refine ⟨Real.pi_pos, fun a b => ?_⟩
  have := Real.cos_le_one (a - b)
  rw [Real.cos_sub] at this
  exact this

namespace Spec

/-- The point of the plane with the given polar coordinates. -/
noncomputable def point (r phi : ℝ) : ℝ × ℝ := (r * cos phi, r * sin phi)

/-- Euclidean distance of two points of the plane. -/
noncomputable def dist2 (p q : ℝ × ℝ) : ℝ := √((p.1 - q.1) ^ 2 + (p.2 - q.2) ^ 2)

/-- The points of a keystone. -/
def keystone (rMin rMax phiMin phiMax : ℝ) : Set (ℝ × ℝ) :=
  {q | ∃ ρ θ, rMin ≤ ρ ∧ ρ ≤ rMax ∧ phiMin ≤ θ ∧ θ ≤ phiMax ∧ q = point ρ θ}

/-- The distances from the point `(r, phi)` to the points of a set. -/
def distancesTo (s : Set (ℝ × ℝ)) (r phi : ℝ) : Set ℝ := {d | ∃ q ∈ s, d = dist2 (point r phi) q}

end Spec

open Spec

theorem dist2_point (r phi ρ θ : ℝ) :
    dist2 (point r phi) (point ρ θ) = √(r ^ 2 + ρ ^ 2 - 2 * ρ * (r * cos (phi - θ))) := by
  unfold dist2 point
  congr 1
  rw [cos_sub]
  have h1 := sin_sq_add_cos_sq phi
  have h2 := sin_sq_add_cos_sq θ
  have h3 : r ^ 2 = r ^ 2 * (sin phi ^ 2 + cos phi ^ 2) := by rw [h1]; ring
  have h4 : ρ ^ 2 = ρ ^ 2 * (sin θ ^ 2 + cos θ ^ 2) := by rw [h2]; ring
  rw [h3, h4]; ring

/-- The nearest radius on an edge. -/
noncomputable def edgeRadius (r phi rMin rMax phiE : ℝ) : ℝ :=
  if r * cos (phi - phiE) < rMin then rMin
  else if r * cos (phi - phiE) > rMax then rMax else r * cos (phi - phiE)

theorem edgeDistance_eq (r phi rMin rMax phiE : ℝ) :
    edgeDistance realFns r phi rMin rMax phiE =
      dist2 (point r phi) (point (edgeRadius r phi rMin rMax phiE) phiE) := by
  rw [dist2_point]
  unfold edgeDistance edgeRadius realFns
  dsimp only
  rw [← cos_sub]
  split_ifs with h1 h2
  · congr 1; ring
  · congr 1; ring
  · rw [← Real.sqrt_sq_eq_abs]
    congr 1
    have h3 := sin_sq_add_cos_sq (phi - phiE)
    have h4 : cos phi * sin phiE - sin phi * cos phiE = -sin (phi - phiE) := by rw [sin_sub]; ring
    rw [h4]
    have : r ^ 2 = r ^ 2 * (sin (phi - phiE) ^ 2 + cos (phi - phiE) ^ 2) := by rw [h3]; ring
    nlinarith

theorem edgeRadius_mem {r phi rMin rMax phiE : ℝ} (h : rMin ≤ rMax) :
    rMin ≤ edgeRadius r phi rMin rMax phiE ∧ edgeRadius r phi rMin rMax phiE ≤ rMax := by
  unfold edgeRadius
  split_ifs with h1 h2
  · exact ⟨le_rfl, h⟩
  · exact ⟨h, le_rfl⟩
  · exact ⟨not_lt.1 h1, not_lt.1 h2⟩

/-- The edge point is the nearest one among the points seen under no smaller an angle. -/
theorem edge_le {r phi rMin rMax phiE ρ θ : ℝ} (hr : 0 ≤ r) (h0 : 0 ≤ rMin) (h1 : rMin ≤ ρ)
    (h2 : ρ ≤ rMax) (hc : cos (phi - θ) ≤ cos (phi - phiE)) :
    edgeDistance realFns r phi rMin rMax phiE ≤ dist2 (point r phi) (point ρ θ) := by
  rw [edgeDistance_eq, dist2_point, dist2_point]
  apply Real.sqrt_le_sqrt
  have h3 : ρ * (r * cos (phi - θ)) ≤ ρ * (r * cos (phi - phiE)) :=
    mul_le_mul_of_nonneg_left (mul_le_mul_of_nonneg_left hc hr) (by linarith)
  set t := r * cos (phi - phiE) with ht
  have h4 : (edgeRadius r phi rMin rMax phiE - t) ^ 2 ≤ (ρ - t) ^ 2 := by
    unfold edgeRadius
    rw [← ht]
    split_ifs with h5 h6
    · apply pow_le_pow_left₀ (by linarith); linarith
    · rw [← neg_sub t rMax, ← neg_sub t ρ, neg_sq, neg_sq]
      apply pow_le_pow_left₀ (by linarith); linarith
    · rw [sub_self, zero_pow two_ne_zero]; exact sq_nonneg _
  nlinarith

/-- On [0, 2 pi] the cosine has no maximum inside an interval. -/
theorem cos_le_max {a x b : ℝ} (h0 : 0 ≤ a) (h1 : a ≤ x) (h2 : x ≤ b) (h3 : b ≤ 2 * π) :
    cos x ≤ cos a ∨ cos x ≤ cos b := by
  rcases le_total x π with h | h
  · exact Or.inl (cos_le_cos_of_nonneg_of_le_pi h0 h h1)
  · right
    rw [← cos_two_pi_sub x, ← cos_two_pi_sub b]
    exact cos_le_cos_of_nonneg_of_le_pi (by linarith) (by linarith) (by linarith)

/-- For a point given within a full turn of the keystone, `getDistanceToPad` is the Euclidean distance:
attained, and not larger than the distance to any point of the keystone. -/
theorem keystoneDistance_isLeast {r phi rMin rMax phiMin phiMax : ℝ} (hr : 0 ≤ r) (h0 : 0 ≤ rMin)
    (h1 : rMin ≤ rMax) (h2 : phiMin ≤ phiMax) (h3 : phiMax - 2 * π ≤ phi) (h4 : phi ≤ phiMin + 2 * π) :
    IsLeast (distancesTo (keystone rMin rMax phiMin phiMax) r phi)
      (keystoneDistance realFns r phi rMin rMax phiMin phiMax) := by
  have hdist : ∀ ρ θ, rMin ≤ ρ → |r - ρ| ≤ dist2 (point r phi) (point ρ θ) := by
    intro ρ θ hρ
    rw [dist2_point, ← Real.sqrt_sq_eq_abs]
    apply Real.sqrt_le_sqrt
    have : ρ * r * cos (phi - θ) ≤ ρ * r * 1 :=
      mul_le_mul_of_nonneg_left (cos_le_one _) (mul_nonneg (by linarith) hr)
    nlinarith
  have hself : ∀ ρ, dist2 (point r phi) (point ρ phi) = |r - ρ| := by
    intro ρ
    rw [dist2_point, sub_self, cos_zero, ← Real.sqrt_sq_eq_abs]; congr 1; ring
  unfold keystoneDistance
  split_ifs with hp hq hl
  · refine ⟨⟨point r phi, ⟨r, phi, hq.1, hq.2, hp.1, hp.2, rfl⟩, ?_⟩, ?_⟩
    · rw [hself, sub_self, abs_zero]
    · rintro d ⟨q, -, rfl⟩; exact Real.sqrt_nonneg _
  · refine ⟨⟨point rMin phi, ⟨rMin, phi, le_rfl, h1, hp.1, hp.2, rfl⟩, ?_⟩, ?_⟩
    · rw [hself, abs_of_neg (by linarith)]; ring
    · rintro d ⟨q, ⟨ρ, θ, a, b, c, e, rfl⟩, rfl⟩
      refine le_trans ?_ (hdist ρ θ a)
      rw [abs_sub_comm]; exact le_trans (by linarith) (le_abs_self _)
  · have : rMax < r := by
      by_contra hh; exact hq ⟨not_lt.1 hl, not_lt.1 hh⟩
    refine ⟨⟨point rMax phi, ⟨rMax, phi, h1, le_rfl, hp.1, hp.2, rfl⟩, ?_⟩, ?_⟩
    · rw [hself, abs_of_pos (by linarith)]
    · rintro d ⟨q, ⟨ρ, θ, a, b, c, e, rfl⟩, rfl⟩
      refine le_trans ?_ (hdist ρ θ a)
      exact le_trans (by linarith) (le_abs_self _)
  · -- outside the angular range: one of the two edges
    have hmem : ∀ phiE, phiMin ≤ phiE → phiE ≤ phiMax →
        edgeDistance realFns r phi rMin rMax phiE ∈ distancesTo (keystone rMin rMax phiMin phiMax) r phi := by
      intro phiE a b
      have := edgeRadius_mem (r := r) (phi := phi) (phiE := phiE) h1
      exact ⟨_, ⟨_, phiE, this.1, this.2, a, b, rfl⟩, edgeDistance_eq ..⟩
    have hlow : ∀ ρ θ, rMin ≤ ρ → ρ ≤ rMax → phiMin ≤ θ → θ ≤ phiMax →
        edgeDistance realFns r phi rMin rMax phiMin ≤ dist2 (point r phi) (point ρ θ) ∨
        edgeDistance realFns r phi rMin rMax phiMax ≤ dist2 (point r phi) (point ρ θ) := by
      intro ρ θ a b c e
      have hcos : cos (phi - θ) ≤ cos (phi - phiMin) ∨ cos (phi - θ) ≤ cos (phi - phiMax) := by
        rcases lt_or_ge phi phiMin with hh | hh
        · rw [← cos_neg (phi - θ), ← cos_neg (phi - phiMin), ← cos_neg (phi - phiMax)]
          exact cos_le_max (by linarith) (by linarith) (by linarith) (by linarith)
        · have : phiMax < phi := by by_contra hn; exact hp ⟨hh, not_lt.1 hn⟩
          exact (cos_le_max (a := phi - phiMax) (b := phi - phiMin) (by linarith) (by linarith)
            (by linarith) (by linarith)).symm
      exact hcos.imp (edge_le hr h0 a b) (edge_le hr h0 a b)
    dsimp only
    split_ifs with hlt
    · refine ⟨hmem _ le_rfl h2, ?_⟩
      rintro d ⟨q, ⟨ρ, θ, a, b, c, e, rfl⟩, rfl⟩
      rcases hlow ρ θ a b c e with h | h <;> linarith
    · refine ⟨hmem _ h2 le_rfl, ?_⟩
      rintro d ⟨q, ⟨ρ, θ, a, b, c, e, rfl⟩, rfl⟩
      rcases hlow ρ θ a b c e with h | h <;> linarith

/-- Without the bound on the angle it is not the distance: the point (1, 2 pi + 1/2) is inside the keystone
1/2 ≤ r ≤ 2, 0 ≤ phi ≤ 1 but its distance is not 0. -/
theorem keystoneDistance_false_turn :
    0 ∈ distancesTo (keystone (1/2) 2 0 1) 1 (2 * π + 1 / 2) ∧
    keystoneDistance realFns 1 (2 * π + 1 / 2) (1/2) 2 0 1 ≠ 0 := by
  have hpi := Real.two_le_pi
  constructor
  · refine ⟨point 1 (1/2), ⟨1, 1/2, by norm_num, by norm_num, by norm_num, by norm_num, rfl⟩, ?_⟩
    rw [dist2_point]
    have : 2 * π + 1 / 2 - 1 / 2 = 2 * π := by ring
    rw [this, cos_two_pi]; norm_num
  · have hne : ∀ phiE, phiE = 0 ∨ phiE = 1 → edgeDistance realFns 1 (2 * π + 1 / 2) (1/2) 2 phiE ≠ 0 := by
      intro phiE h
      rw [edgeDistance_eq, dist2_point]
      set ρ := edgeRadius 1 (2 * π + 1 / 2) (1/2) 2 phiE
      have hρ := (edgeRadius_mem (r := 1) (phi := 2 * π + 1/2) (phiE := phiE)
        (show (1:ℝ)/2 ≤ 2 by norm_num)).1
      have hc : cos (2 * π + 1 / 2 - phiE) < 1 := by
        have h1 : cos (2 * π + 1 / 2 - phiE) = cos (1 / 2) := by
          rcases h with rfl | rfl
          · rw [sub_zero, add_comm, cos_add_two_pi]
          · rw [show 2 * π + 1 / 2 - 1 = -(1/2) + 2 * π by ring, cos_add_two_pi, cos_neg]
        rw [h1]
        calc cos (1 / 2) < cos 0 := ?_
          _ = 1 := cos_zero
        exact cos_lt_cos_of_nonneg_of_le_pi le_rfl (by linarith) (by norm_num)
      have : 0 < 1 ^ 2 + ρ ^ 2 - 2 * ρ * (1 * cos (2 * π + 1 / 2 - phiE)) := by
        have : 0 < ρ := by linarith
        have := mul_lt_mul_of_pos_left hc this
        nlinarith [sq_nonneg (1 - ρ)]
      exact (Real.sqrt_pos.2 this).ne'
    unfold keystoneDistance
    rw [if_neg (by intro h; linarith [h.2])]
    dsimp only
    split_ifs
    · exact hne 0 (Or.inl rfl)
    · exact hne 1 (Or.inr rfl)

/-- A case with the point beside the keystone: the distance is that to the corner (1/2, 0). -/
example : IsLeast (distancesTo (keystone (1/2) 3 0 (π / 2)) 2 (-(π / 2)))
    (keystoneDistance realFns 2 (-(π / 2)) (1/2) 3 0 (π / 2)) ∧
    keystoneDistance realFns 2 (-(π / 2)) (1/2) 3 0 (π / 2) = √(17 / 4) := by
  have hpi := Real.two_le_pi
  refine ⟨keystoneDistance_isLeast (by norm_num) (by norm_num) (by norm_num) (by linarith) (by linarith)
    (by linarith), ?_⟩
  have h : √(17 / 4 : ℝ) < √(25 / 4) := Real.sqrt_lt_sqrt (by norm_num) (by norm_num)
  unfold keystoneDistance
  rw [if_neg (by intro h; linarith [h.1])]
  simp only [edgeDistance, realFns, cos_neg, sin_neg, cos_pi_div_two, sin_pi_div_two, cos_zero, sin_zero]
  norm_num
  norm_num at h
  exact h

end Gear.Disk
