/-
The directions in which the points of an annular sector are seen from a point of its plane.  Used for the angles
in the extents of polar modules that are moved off the centre, property C87.
-/
import Verif.TpcModuleExtent

set_option autoImplicit false
set_option linter.unusedSectionVars false

namespace Gear.TpcModule

open Disk Real
open Spec

/-- From the point at the distance `d` on the axis, the point with the polar coordinates `r` and `δ` is seen in
the direction `β`. -/
def See (d r δ β : ℝ) : Prop := ∃ s > 0, r * cos δ - d = s * cos β ∧ r * sin δ = s * sin β

/-- The two points are not the same. -/
def Apart (d r δ : ℝ) : Prop := ¬ (r * cos δ - d = 0 ∧ r * sin δ = 0)

/-- The direction between -π and π. -/
noncomputable def sight (d r δ : ℝ) : ℝ := Complex.arg ⟨r * cos δ - d, r * sin δ⟩

variable {d r δ β : ℝ}

theorem See.apart (h : See d r δ β) : Apart d r δ := by
  rintro ⟨h1, h2⟩
  obtain ⟨s, hs, a, b⟩ := h
  rw [h1] at a
  rw [h2] at b
  have c : cos β = 0 := by rcases mul_eq_zero.1 a.symm with h | h; exact absurd h hs.ne'; exact h
  have c' : sin β = 0 := by rcases mul_eq_zero.1 b.symm with h | h; exact absurd h hs.ne'; exact h
  have := sin_sq_add_cos_sq β
  rw [c, c'] at this
  norm_num at this

theorem sight_see (h : Apart d r δ) : See d r δ (sight d r δ) := by
  set z : ℂ := ⟨r * cos δ - d, r * sin δ⟩ with hz
  have hne : z ≠ 0 := by
    intro h0
    exact h ⟨congrArg Complex.re h0, congrArg Complex.im h0⟩
  refine ⟨‖z‖, norm_pos_iff.2 hne, ?_, ?_⟩
  · exact (Complex.norm_mul_cos_arg z).symm
  · exact (Complex.norm_mul_sin_arg z).symm

theorem See.turn (h : See d r δ β) (k j : ℤ) : See d r (δ + k * (2 * π)) (β + j * (2 * π)) := by
  obtain ⟨s, hs, a, b⟩ := h
  exact ⟨s, hs, by rw [cos_add_int_mul_two_pi, cos_add_int_mul_two_pi, a],
    by rw [sin_add_int_mul_two_pi, sin_add_int_mul_two_pi, b]⟩

theorem See.neg (h : See d r δ β) : See d r (-δ) (-β) := by
  obtain ⟨s, hs, a, b⟩ := h
  exact ⟨s, hs, by rw [cos_neg, cos_neg, a], by rw [sin_neg, sin_neg]; linarith⟩

theorem See.turn' (h : See d r δ β) : See d r (2 * π - δ) (2 * π - β) := by
  have := h.neg.turn 1 1
  push_cast at this
  have e1 : -δ + 1 * (2 * π) = 2 * π - δ := by ring
  have e2 : -β + 1 * (2 * π) = 2 * π - β := by ring
  rwa [e1, e2] at this

theorem sight_nonneg (hr : 0 ≤ r) (h0 : 0 ≤ δ) (h1 : δ ≤ π) : 0 ≤ sight d r δ := by
  rw [sight, Complex.arg_nonneg_iff]
  exact mul_nonneg hr (sin_nonneg_of_nonneg_of_le_pi h0 h1)

theorem sight_le_pi : sight d r δ ≤ π := Complex.arg_le_pi _

/-- Directions in the upper half plane are ordered as the sign of the vector product says. -/
theorem see_le {r1 r2 δ1 δ2 β1 β2 : ℝ} (h1 : See d r1 δ1 β1) (h2 : See d r2 δ2 β2)
    (b1 : 0 ≤ β1) (b1' : β1 ≤ π) (b2 : 0 ≤ β2) (b2' : β2 ≤ π)
    (hc : 0 ≤ (r1 * cos δ1 - d) * (r2 * sin δ2) - (r1 * sin δ1) * (r2 * cos δ2 - d))
    (hd : r1 * cos δ1 - d < 0 → r1 * sin δ1 = 0 → r2 * sin δ2 = 0 → r2 * cos δ2 - d ≤ 0) : β1 ≤ β2 := by
  by_contra hlt
  push Not at hlt
  obtain ⟨s, hs, x1, y1⟩ := h1
  obtain ⟨t, ht, x2, y2⟩ := h2
  rw [x1, x2, y1, y2] at hc
  have e : s * cos β1 * (t * sin β2) - s * sin β1 * (t * cos β2) = -(s * t * sin (β1 - β2)) := by
    rw [sin_sub]; ring
  rw [e] at hc
  have hst : 0 < s * t := mul_pos hs ht
  have hsin : sin (β1 - β2) ≤ 0 := by
    by_contra hh
    push Not at hh
    have := mul_pos hst hh
    linarith
  have hpi : β1 - β2 = π := by
    by_contra hne
    have : β1 - β2 < π := lt_of_le_of_ne (by linarith) hne
    have := sin_pos_of_pos_of_lt_pi (by linarith : 0 < β1 - β2) this
    linarith
  have g1 : β1 = π := by linarith
  have g2 : β2 = 0 := by linarith
  rw [g1] at x1 y1
  rw [g2] at x2 y2
  rw [cos_pi] at x1
  rw [sin_pi] at y1
  rw [cos_zero] at x2
  rw [sin_zero] at y2
  have := hd (by rw [x1]; linarith) (by rw [y1]; ring) (by rw [y2]; ring)
  rw [x2] at this
  linarith

/-- Farther points of a ray are seen closer to the axis. -/
theorem sight_far {r1 r2 : ℝ} (hd : 0 < d) (h0 : 0 ≤ r1) (h : r1 ≤ r2) (hδ : 0 ≤ δ) (hδ' : δ ≤ π)
    (a1 : Apart d r1 δ) (a2 : Apart d r2 δ) : sight d r2 δ ≤ sight d r1 δ := by
  have hs : 0 ≤ sin δ := sin_nonneg_of_nonneg_of_le_pi hδ hδ'
  refine see_le (sight_see a2) (sight_see a1) (sight_nonneg (h0.trans h) hδ hδ') sight_le_pi
    (sight_nonneg h0 hδ hδ') sight_le_pi ?_ ?_
  · have : (r2 * cos δ - d) * (r1 * sin δ) - r2 * sin δ * (r1 * cos δ - d) = d * sin δ * (r2 - r1) := by ring
    rw [this]
    exact mul_nonneg (mul_nonneg hd.le hs) (by linarith)
  · intro g1 g2 g3
    rcases le_total 0 (cos δ) with hc | hc
    · have := mul_le_mul_of_nonneg_right h hc
      linarith
    · have := mul_nonpos_of_nonneg_of_nonpos h0 hc
      linarith

theorem cross_eq (d r δ1 δ2 : ℝ) : (r * cos δ1 - d) * (r * sin δ2) - (r * sin δ1) * (r * cos δ2 - d) =
    2 * r * sin ((δ2 - δ1) / 2) * (r * cos ((δ2 - δ1) / 2) - d * cos ((δ1 + δ2) / 2)) := by
  have h1 : δ1 = (δ1 + δ2) / 2 - (δ2 - δ1) / 2 := by ring
  have h2 : δ2 = (δ1 + δ2) / 2 + (δ2 - δ1) / 2 := by ring
  set M := (δ1 + δ2) / 2
  set D := (δ2 - δ1) / 2
  rw [h1, h2, cos_sub, sin_add, sin_sub, cos_add]
  have s1 := sin_sq_add_cos_sq M
  linear_combination (2 * r ^ 2 * sin D * cos D) * s1

/-- On a circle, from the point where the line of sight touches it on, the directions grow with the angle. -/
theorem sight_grow {δ1 δ2 : ℝ} (hd : 0 < d) (hr : 0 ≤ r) (h1 : 0 ≤ δ1) (h12 : δ1 ≤ δ2) (h2 : δ2 ≤ π)
    (ht : d * cos δ1 ≤ r) (a1 : Apart d r δ1) (a2 : Apart d r δ2) : sight d r δ1 ≤ sight d r δ2 := by
  refine see_le (sight_see a1) (sight_see a2) (sight_nonneg hr h1 (h12.trans h2)) sight_le_pi
    (sight_nonneg hr (h1.trans h12) h2) sight_le_pi ?_ ?_
  · rw [cross_eq]
    have g1 : 0 ≤ sin ((δ2 - δ1) / 2) := sin_nonneg_of_nonneg_of_le_pi (by linarith) (by linarith)
    have g2 : 0 ≤ cos ((δ2 - δ1) / 2) := cos_nonneg_of_mem_Icc ⟨by linarith, by linarith⟩
    have g3 : 0 ≤ sin δ1 := sin_nonneg_of_nonneg_of_le_pi h1 (by linarith)
    have e : cos ((δ1 + δ2) / 2) = cos δ1 * cos ((δ2 - δ1) / 2) - sin δ1 * sin ((δ2 - δ1) / 2) := by
      rw [← cos_add]; congr 1; ring
    have k1 := mul_le_mul_of_nonneg_right ht g2
    have k2 := mul_nonneg hd.le (mul_nonneg g3 g1)
    apply mul_nonneg (mul_nonneg (by linarith) g1)
    rw [e]
    nlinarith
  · intro q1 q2 q3
    rcases eq_or_lt_of_le hr with h | h
    · rw [← h]; linarith
    · have z1 : sin δ1 = 0 := by rcases mul_eq_zero.1 q2 with q | q; exact absurd q h.ne'; exact q
      have z2 : sin δ2 = 0 := by rcases mul_eq_zero.1 q3 with q | q; exact absurd q h.ne'; exact q
      by_contra hh
      push Not at hh
      have c2 : 0 < cos δ2 := by
        by_contra hc
        push Not at hc
        have := mul_nonpos_of_nonneg_of_nonpos hr hc
        linarith
      have e2 : cos δ2 = 1 := by
        have := sin_sq_add_cos_sq δ2
        rw [z2] at this
        nlinarith
      have e2' : δ2 = 0 := by
        have : cos δ2 = cos 0 := by rw [e2, cos_zero]
        exact injOn_cos ⟨by linarith, h2⟩ ⟨le_rfl, pi_pos.le⟩ this
      have e1' : δ1 = δ2 := by linarith
      rw [e1'] at q1
      linarith

/-- On a circle, up to the point where the line of sight touches it, the directions fall with the angle. -/
theorem sight_fall {δ1 δ2 : ℝ} (hd : 0 < d) (hr : 0 ≤ r) (h1 : 0 ≤ δ1) (h12 : δ1 ≤ δ2) (h2 : δ2 ≤ π)
    (ht : r ≤ d * cos δ2) (a1 : Apart d r δ1) (a2 : Apart d r δ2) : sight d r δ2 ≤ sight d r δ1 := by
  refine see_le (sight_see a2) (sight_see a1) (sight_nonneg hr (h1.trans h12) h2) sight_le_pi
    (sight_nonneg hr h1 (h12.trans h2)) sight_le_pi ?_ ?_
  · have hneg : (r * cos δ2 - d) * (r * sin δ1) - (r * sin δ2) * (r * cos δ1 - d) =
      -((r * cos δ1 - d) * (r * sin δ2) - (r * sin δ1) * (r * cos δ2 - d)) := by ring
    rw [hneg, cross_eq]
    have g1 : 0 ≤ sin ((δ2 - δ1) / 2) := sin_nonneg_of_nonneg_of_le_pi (by linarith) (by linarith)
    have g2 : 0 ≤ cos ((δ2 - δ1) / 2) := cos_nonneg_of_mem_Icc ⟨by linarith, by linarith⟩
    have g3 : 0 ≤ sin δ2 := sin_nonneg_of_nonneg_of_le_pi (by linarith) h2
    have e : cos ((δ1 + δ2) / 2) = cos δ2 * cos ((δ2 - δ1) / 2) + sin δ2 * sin ((δ2 - δ1) / 2) := by
      rw [← cos_sub]; congr 1; ring
    have k1 := mul_le_mul_of_nonneg_right ht g2
    have k2 := mul_nonneg hd.le (mul_nonneg g3 g1)
    rw [← mul_neg]
    apply mul_nonneg (mul_nonneg (by linarith) g1)
    rw [e]
    nlinarith
  · intro q1 q2 q3
    have c2 : cos δ2 ≤ 1 := cos_le_one δ2
    have c1 : cos δ1 ≤ 1 := cos_le_one δ1
    have k1 : r ≤ d := by nlinarith
    nlinarith

/-- On an arc in the upper half plane the direction is not above both of those of its ends. -/
theorem sight_ends {δ1 δ2 : ℝ} (hd : 0 < d) (hr : 0 ≤ r) (h1 : 0 ≤ δ1) (h : δ1 ≤ δ) (h' : δ ≤ δ2) (h2 : δ2 ≤ π)
    (a1 : Apart d r δ1) (a : Apart d r δ) (a2 : Apart d r δ2) :
    sight d r δ ≤ sight d r δ1 ∨ sight d r δ ≤ sight d r δ2 := by
  rcases le_total (d * cos δ) r with ht | ht
  · exact Or.inr (sight_grow hd hr (h1.trans h) h' h2 ht a a2)
  · exact Or.inl (sight_fall hd hr h1 h (h'.trans h2) ht a1 a)

theorem sight_zero (h : d < r) : sight d r 0 = 0 := by
  unfold sight
  rw [cos_zero, sin_zero, mul_one, mul_zero]
  exact Complex.arg_ofReal_of_nonneg (x := r - d) (by linarith)

theorem sight_pi (hd : 0 < d) (hr : 0 ≤ r) : sight d r π = π := by
  unfold sight
  rw [cos_pi, sin_pi, mul_zero]
  exact Complex.arg_ofReal_of_neg (x := r * -1 - d) (by linarith)

theorem apart_of_lt (hd : 0 < d) (h : d < r ∨ (0 ≤ r ∧ r < d)) : Apart d r δ := by
  rintro ⟨h1, h2⟩
  have s := sin_sq_add_cos_sq δ
  have : r ^ 2 = d ^ 2 := by
    have h1 : r * cos δ = d := by linarith
    have : (r * cos δ) ^ 2 + (r * sin δ) ^ 2 = r ^ 2 := by linear_combination r ^ 2 * s
    rw [h1, h2] at this
    linarith
  rcases h with h | ⟨h, h'⟩ <;> nlinarith

theorem apart_of_mem (hd : 0 < d) (hr : 0 ≤ r) (h0 : 0 < δ) (h1 : δ < 2 * π) : Apart d r δ := by
  rintro ⟨g1, g2⟩
  have hr0 : 0 < r := by
    rcases eq_or_lt_of_le hr with h | h
    · rw [← h] at g1; linarith
    · exact h
  have z : sin δ = 0 := by rcases mul_eq_zero.1 g2 with q | q; exact absurd q hr0.ne'; exact q
  have c : 0 < cos δ := by
    by_contra hc
    push Not at hc
    have := mul_nonpos_of_nonneg_of_nonpos hr hc
    linarith
  have e : cos δ = 1 := by
    have := sin_sq_add_cos_sq δ
    rw [z] at this
    nlinarith
  obtain ⟨k, hk⟩ := (cos_eq_one_iff δ).1 e
  have k1 : (0 : ℝ) < k := by by_contra hh; push Not at hh; nlinarith [pi_pos]
  have k2 : (k : ℝ) < 1 := by by_contra hh; push Not at hh; nlinarith [pi_pos]
  have k1' : 0 < k := by exact_mod_cast k1
  have k2' : k < 1 := by exact_mod_cast k2
  omega

/-! ### The range of the directions of a sector -/

/-- The points of the sector are seen between the directions `lo` and `hi`. -/
def Within (d e0 e1 a b lo hi : ℝ) : Prop :=
  ∀ r δ, e0 ≤ r → r ≤ e1 → a ≤ δ → δ ≤ b → ∃ β, lo ≤ β ∧ β ≤ hi ∧ See d r δ β

variable {e0 e1 a b : ℝ}

theorem Within.neg {lo hi : ℝ} (h : Within d e0 e1 a b lo hi) : Within d e0 e1 (-b) (-a) (-hi) (-lo) := by
  intro r δ h0 h1 h2 h3
  obtain ⟨β, b1, b2, b3⟩ := h r (-δ) h0 h1 (by linarith) (by linarith)
  have := b3.neg
  rw [neg_neg] at this
  exact ⟨-β, by linarith, by linarith, this⟩

theorem Within.turn {lo hi : ℝ} (h : Within d e0 e1 a b lo hi) (k j : ℤ) :
    Within d e0 e1 (a + k * (2 * π)) (b + k * (2 * π)) (lo + j * (2 * π)) (hi + j * (2 * π)) := by
  intro r δ h0 h1 h2 h3
  obtain ⟨β, b1, b2, b3⟩ := h r (δ - k * (2 * π)) h0 h1 (by linarith) (by linarith)
  have := b3.turn k j
  rw [sub_add_cancel] at this
  exact ⟨β + j * (2 * π), by linarith, by linarith, this⟩

theorem Within.join {c lo mid hi : ℝ} (h1 : Within d e0 e1 a c lo mid) (h2 : Within d e0 e1 c b mid hi)
    (g1 : lo ≤ mid) (g2 : mid ≤ hi) : Within d e0 e1 a b lo hi := by
  intro r δ q0 q1 q2 q3
  rcases le_total δ c with h | h
  · obtain ⟨β, b1, b2, b3⟩ := h1 r δ q0 q1 q2 h
    exact ⟨β, b1, by linarith, b3⟩
  · obtain ⟨β, b1, b2, b3⟩ := h2 r δ q0 q1 h q3
    exact ⟨β, by linarith, b2, b3⟩

/-- The last direction if the sector reaches from the axis to the angle `b`, seen from within the inner circle. -/
noncomputable def top (d e0 e1 b : ℝ) : ℝ := if b ≤ π then sight d e0 b else 2 * π - sight d e1 (2 * π - b)

/-- The radius of the corner that is seen there. -/
noncomputable def topR (e0 e1 b : ℝ) : ℝ := if b ≤ π then e0 else e1

theorem top_see (hd : 0 < d) (h0 : d < e0) (h01 : e0 ≤ e1) : See d (topR e0 e1 b) b (top d e0 e1 b) := by
  unfold topR top
  split_ifs with h
  · exact sight_see (apart_of_lt hd (Or.inl h0))
  · have := (sight_see (d := d) (r := e1) (δ := 2 * π - b) (apart_of_lt hd (Or.inl (by linarith)))).turn'
    rwa [sub_sub_cancel] at this

theorem top_nonneg (hd : 0 < d) (h0 : d < e0) (hb : 0 ≤ b) : 0 ≤ top d e0 e1 b := by
  unfold top
  split_ifs with h
  · exact sight_nonneg (by linarith) hb h
  · have := sight_le_pi (d := d) (r := e1) (δ := 2 * π - b)
    linarith [pi_pos]

theorem top_le (hd : 0 < d) (h0 : d < e0) (h01 : e0 ≤ e1) (hb : b ≤ 2 * π) : top d e0 e1 b ≤ 2 * π := by
  unfold top
  split_ifs with h
  · have := sight_le_pi (d := d) (r := e0) (δ := b)
    linarith [pi_pos]
  · have := sight_nonneg (d := d) (r := e1) (δ := 2 * π - b) (by linarith) (by linarith) (by linarith)
    linarith

theorem top_within (hd : 0 < d) (h0 : d < e0) (h01 : e0 ≤ e1) (hb0 : 0 ≤ b) (hb : b ≤ 2 * π) :
    Within d e0 e1 0 b 0 (top d e0 e1 b) := by
  intro r δ q0 q1 q2 q3
  have hap : ∀ r' δ', e0 ≤ r' → Apart d r' δ' := fun r' δ' h => apart_of_lt hd (Or.inl (by linarith))
  have hcos : ∀ r' x, e0 ≤ r' → d * cos x ≤ r' := by
    intro r' x h
    have := cos_le_one x
    nlinarith
  by_cases hδ : δ ≤ π
  · refine ⟨sight d r δ, sight_nonneg (by linarith) q2 hδ, ?_, sight_see (hap _ _ q0)⟩
    unfold top
    split_ifs with h
    · exact (sight_far hd (by linarith) q0 q2 hδ (hap _ _ le_rfl) (hap _ _ q0)).trans
        (sight_grow hd (by linarith) q2 q3 h (hcos _ _ le_rfl) (hap _ _ le_rfl) (hap _ _ le_rfl))
    · have := sight_le_pi (d := d) (r := r) (δ := δ)
      have := sight_le_pi (d := d) (r := e1) (δ := 2 * π - b)
      linarith
  · push Not at hδ
    have hs := (sight_see (hap r (2 * π - δ) q0)).turn'
    rw [sub_sub_cancel] at hs
    have k1 := sight_le_pi (d := d) (r := r) (δ := 2 * π - δ)
    refine ⟨2 * π - sight d r (2 * π - δ), by linarith [pi_pos], ?_, hs⟩
    unfold top
    rw [if_neg (by push Not; linarith)]
    have := sight_far hd (r1 := r) (r2 := e1) (δ := 2 * π - δ) (by linarith) q1 (by linarith) (by linarith)
      (hap _ _ q0) (hap _ _ (by linarith))
    have := sight_grow hd (r := e1) (δ1 := 2 * π - b) (δ2 := 2 * π - δ) (by linarith) (by linarith) (by linarith)
      (by linarith) (hcos _ _ (by linarith)) (hap _ _ (by linarith)) (hap _ _ (by linarith))
    linarith

/-- A sector that is seen from within its inner circle and that the axis goes through. -/
theorem within_ahead (hd : 0 < d) (h0 : d < e0) (h01 : e0 ≤ e1) (ha : a ≤ 0) (ha' : -(2 * π) ≤ a) (hb0 : 0 ≤ b)
    (hb : b ≤ 2 * π) : Within d e0 e1 a b (-top d e0 e1 (-a)) (top d e0 e1 b) := by
  have h1 := (top_within (b := -a) hd h0 h01 (by linarith) (by linarith)).neg
  rw [neg_neg, neg_zero] at h1
  exact h1.join (top_within hd h0 h01 hb0 hb) (by have := top_nonneg (e1 := e1) (b := -a) hd h0 (by linarith); linarith)
    (top_nonneg hd h0 hb0)

/-- A sector on one side of the axis. -/
theorem within_upper (hd : 0 < d) (h0 : 0 ≤ e0) (h01 : e0 ≤ e1) (h1 : d ≤ e1) (ha : 0 ≤ a) (hab : a ≤ b)
    (hb : b ≤ π) (hap : ∀ r δ, e0 ≤ r → r ≤ e1 → a ≤ δ → δ ≤ b → Apart d r δ) :
    Within d e0 e1 a b (sight d e1 a) (max (sight d e0 a) (sight d e0 b)) := by
  intro r δ q0 q1 q2 q3
  have hc : d * cos a ≤ e1 := by
    have := cos_le_one a
    nlinarith
  refine ⟨sight d r δ, ?_, ?_, sight_see (hap _ _ q0 q1 q2 q3)⟩
  · exact (sight_grow hd (h0.trans h01) ha q2 (q3.trans hb) hc (hap _ _ h01 le_rfl le_rfl hab)
      (hap _ _ h01 le_rfl q2 q3)).trans
      (sight_far hd (h0.trans q0) q1 (ha.trans q2) (q3.trans hb) (hap _ _ q0 q1 q2 q3) (hap _ _ h01 le_rfl q2 q3))
  · have k1 := sight_far hd h0 q0 (ha.trans q2) (q3.trans hb) (hap _ _ le_rfl h01 q2 q3) (hap _ _ q0 q1 q2 q3)
    rcases sight_ends hd h0 ha q2 q3 hb (hap _ _ le_rfl h01 le_rfl hab) (hap _ _ le_rfl h01 q2 q3)
      (hap _ _ le_rfl h01 hab le_rfl) with h | h
    · exact le_max_of_le_left (k1.trans h)
    · exact le_max_of_le_right (k1.trans h)

/-- The part of a sector from an angle on up to the far side of the axis. -/
theorem within_behind_half (hd : 0 < d) (h0 : 0 ≤ e0) (h01 : e0 ≤ e1) (h1 : d ≤ e1) (ha : 0 ≤ a) (ha' : a ≤ π)
    (hap : ∀ r δ, e0 ≤ r → r ≤ e1 → a ≤ δ → δ ≤ π → Apart d r δ) :
    Within d e0 e1 a π (sight d e1 a) π := by
  intro r δ q0 q1 q2 q3
  obtain ⟨β, b1, b2, b3⟩ := within_upper hd h0 h01 h1 ha ha' le_rfl hap r δ q0 q1 q2 q3
  exact ⟨β, b1, b2.trans (max_le sight_le_pi sight_le_pi), b3⟩

/-- A sector that the axis goes through on the far side. -/
theorem within_behind (hd : 0 < d) (h0 : 0 ≤ e0) (h01 : e0 ≤ e1) (h1 : d ≤ e1) (ha : 0 ≤ a) (ha' : a ≤ π)
    (hb : π ≤ b) (hb' : b ≤ 2 * π) (hap : ∀ r δ, e0 ≤ r → r ≤ e1 → a ≤ δ → δ ≤ b → Apart d r δ) :
    Within d e0 e1 a b (sight d e1 a) (2 * π - sight d e1 (2 * π - b)) := by
  have k1 := within_behind_half hd h0 h01 h1 ha ha' (fun r δ q0 q1 q2 q3 => hap r δ q0 q1 q2 (by linarith))
  have k2 := within_behind_half (a := 2 * π - b) hd h0 h01 h1 (by linarith) (by linarith)
    (fun r δ q0 q1 q2 q3 hh => by
      refine hap r (2 * π - δ) q0 q1 (by linarith) (by linarith) ?_
      rw [cos_two_pi_sub, sin_two_pi_sub]
      exact ⟨hh.1, by rw [mul_neg, hh.2, neg_zero]⟩)
  have k3 := k2.neg.turn 1 1
  have r1 : -π + ((1 : ℤ) : ℝ) * (2 * π) = π := by push_cast; ring
  have r2 : -(2 * π - b) + ((1 : ℤ) : ℝ) * (2 * π) = b := by push_cast; ring
  have r3 : -sight d e1 (2 * π - b) + ((1 : ℤ) : ℝ) * (2 * π) = 2 * π - sight d e1 (2 * π - b) := by push_cast; ring
  rw [r1, r2, r3] at k3
  refine k1.join k3 sight_le_pi ?_
  have := sight_le_pi (d := d) (r := e1) (δ := 2 * π - b)
  linarith

/-! ### Seen from outside of the outer circle -/

/-- The direction of the tangent to the outer circle. -/
noncomputable def tangent (d e1 : ℝ) : ℝ := π - arcsin (e1 / d)

/-- The angle of the point where the tangent touches the circle. -/
noncomputable def touch (d e1 : ℝ) : ℝ := arccos (e1 / d)

theorem touch_cos (hd : 0 < d) (h0 : 0 ≤ e1) (h1 : e1 ≤ d) : d * cos (touch d e1) = e1 := by
  unfold touch
  rw [cos_arccos (by have := div_nonneg h0 hd.le; linarith) ((div_le_one hd).2 h1)]
  field_simp

theorem tangent_sin (hd : 0 < d) (h0 : 0 ≤ e1) (h1 : e1 ≤ d) : d * sin (tangent d e1) = e1 := by
  unfold tangent
  rw [sin_pi_sub, sin_arcsin (by have := div_nonneg h0 hd.le; linarith) ((div_le_one hd).2 h1)]
  field_simp

theorem touch_range (hd : 0 < d) (h0 : 0 ≤ e1) : 0 ≤ touch d e1 ∧ touch d e1 ≤ π / 2 :=
  ⟨arccos_nonneg _, arccos_le_pi_div_two.2 (div_nonneg h0 hd.le)⟩

theorem tangent_range (hd : 0 < d) (h0 : 0 < e1) : π / 2 ≤ tangent d e1 ∧ tangent d e1 < π := by
  unfold tangent
  have h1 := arcsin_le_pi_div_two (e1 / d)
  have h2 : 0 < arcsin (e1 / d) := arcsin_pos.2 (div_pos h0 hd)
  constructor <;> linarith

theorem tangent_touch (d e1 : ℝ) : tangent d e1 = π / 2 + touch d e1 := by
  unfold tangent touch
  rw [arccos]
  ring

/-- The tangent. -/
theorem touch_see (hd : 0 < d) (h0 : 0 ≤ e1) (h1 : e1 < d) : See d e1 (touch d e1) (tangent d e1) := by
  have c := touch_cos hd h0 h1.le
  have s := sin_sq_add_cos_sq (touch d e1)
  have hs0 : 0 < sin (touch d e1) := by
    have h := touch_range hd h0
    rcases eq_or_lt_of_le h.1 with h' | h'
    · rw [← h', cos_zero] at c; linarith
    · exact sin_pos_of_pos_of_lt_pi h' (by linarith [h.2, pi_pos])
  refine ⟨d * sin (touch d e1), mul_pos hd hs0, ?_, ?_⟩
  · rw [tangent_touch, cos_add, cos_pi_div_two, sin_pi_div_two]
    linear_combination d * s - cos (touch d e1) * c
  · rw [tangent_touch, sin_add, cos_pi_div_two, sin_pi_div_two]
    linear_combination -sin (touch d e1) * c

/-- No point of the disk is seen beyond the tangent. -/
theorem tangent_le {δ : ℝ} (hd : 0 < d) (h0 : 0 < e1) (h1 : e1 ≤ d) (hr : 0 ≤ r) (hr1 : r ≤ e1) (q0 : 0 ≤ δ)
    (q1 : δ ≤ π) (ha : Apart d r δ) : tangent d e1 ≤ sight d r δ := by
  by_contra hlt
  push Not at hlt
  have hn := sight_nonneg (d := d) hr q0 q1
  obtain ⟨t1, t2⟩ := tangent_range hd h0
  obtain ⟨s, hs, x, y⟩ := sight_see ha
  have k1 : sin (tangent d e1 - sight d r δ) > 0 := sin_pos_of_pos_of_lt_pi (by linarith) (by linarith)
  have k2 := tangent_sin hd h0.le h1
  have k3 : s * sin (tangent d e1 - sight d r δ) = -(r * sin (δ - tangent d e1) + d * sin (tangent d e1)) := by
    rw [sin_sub, sin_sub]
    linear_combination -sin (tangent d e1) * x + cos (tangent d e1) * y
  have k4 := mul_pos hs k1
  have k5 := neg_one_le_sin (δ - tangent d e1)
  nlinarith

/-- Only the point where the tangent touches the circle is seen in the direction of the tangent. -/
theorem tangent_unique {δ : ℝ} (hd : 0 < d) (h0 : 0 < e1) (h1 : e1 ≤ d) (hr : 0 ≤ r) (hr1 : r ≤ e1)
    (h : See d r δ (tangent d e1)) : r = e1 ∧ d * cos δ = e1 := by
  obtain ⟨s, hs, x, y⟩ := h
  have k2 := tangent_sin hd h0.le h1
  have k3 : r * sin (tangent d e1 - δ) = e1 := by
    rw [sin_sub]
    linear_combination k2 + sin (tangent d e1) * x - cos (tangent d e1) * y
  have k5 := sin_le_one (tangent d e1 - δ)
  have k6 : r = e1 := le_antisymm hr1 (by nlinarith)
  refine ⟨k6, ?_⟩
  rw [k6] at k3
  have k7 : sin (tangent d e1 - δ) = 1 := by
    have : e1 * (sin (tangent d e1 - δ) - 1) = 0 := by linear_combination k3
    rcases mul_eq_zero.1 this with q | q
    · exact absurd q h0.ne'
    · linarith
  have k8 : cos (tangent d e1 - δ) = 0 := by
    have := sin_sq_add_cos_sq (tangent d e1 - δ)
    rw [k7] at this
    nlinarith
  have k9 : cos δ = sin (tangent d e1) := by
    have : cos δ = cos (tangent d e1 - (tangent d e1 - δ)) := by congr 1; ring
    rw [this, cos_sub, k8, k7]
    ring
  rw [k9, k2]

/-- A corner of the sector. -/
def Corner (e0 e1 a b r δ : ℝ) : Prop := (r = e0 ∨ r = e1) ∧ (δ = a ∨ δ = b)

/-- The direction of a point of a sector on one side of the axis, and corners on both sides of it. -/
theorem outside_upper (hd : 0 < d) (h0 : 0 ≤ e0) (h01 : e0 ≤ e1) (hp : 0 < e1) (h1 : e1 ≤ d)
    (hap : ∀ r δ, e0 ≤ r → r ≤ e1 → a ≤ δ → δ ≤ b → Apart d r δ) {r δ : ℝ} (q0 : e0 ≤ r) (q1 : r ≤ e1)
    (q2 : a ≤ δ) (q3 : δ ≤ b) (p0 : 0 ≤ δ) (p1 : δ ≤ π) :
    ∃ β, tangent d e1 ≤ β ∧ β ≤ 2 * π - tangent d e1 ∧ See d r δ β ∧
      (¬ (a ≤ touch d e1 ∧ touch d e1 ≤ b) →
        ∃ r' δ' β', Corner e0 e1 a b r' δ' ∧ See d r' δ' β' ∧ tangent d e1 ≤ β' ∧ β' ≤ β) ∧
      (¬ (a ≤ -touch d e1 ∧ -touch d e1 ≤ b) → ¬ (a ≤ 2 * π - touch d e1 ∧ 2 * π - touch d e1 ≤ b) →
        ∃ r' δ' β', Corner e0 e1 a b r' δ' ∧ See d r' δ' β' ∧ β ≤ β' ∧ β' ≤ 2 * π - tangent d e1) := by
  have hpi := pi_pos
  obtain ⟨τ0, τ1⟩ := touch_range hd hp.le
  obtain ⟨t0, t1⟩ := tangent_range hd hp
  have hτ := touch_cos hd hp.le h1
  have hab : a ≤ b := q2.trans q3
  have ha := hap r δ q0 q1 q2 q3
  have hle := sight_le_pi (d := d) (r := r) (δ := δ)
  have cdec : ∀ {x y : ℝ}, 0 ≤ x → x ≤ y → y ≤ π → d * cos y ≤ d * cos x := fun hx hxy hy =>
    mul_le_mul_of_nonneg_left (cos_le_cos_of_nonneg_of_le_pi hx hy hxy) hd.le
  have h0r : 0 ≤ r := h0.trans q0
  have hge := tangent_le hd hp h1 h0r q1 p0 p1 ha
  have hfar := sight_far hd h0r q1 p0 p1 ha (hap _ _ h01 le_rfl q2 q3)
  have hfar' := sight_far hd h0 q0 p0 p1 (hap _ _ le_rfl h01 q2 q3) ha
  refine ⟨sight d r δ, hge, by linarith, sight_see ha, ?_, ?_⟩
  · intro hn
    rcases le_total δ (touch d e1) with h | h
    · have hb : b < touch d e1 := by
        by_contra hh
        push Not at hh
        exact hn ⟨q2.trans h, hh⟩
      refine ⟨e1, b, sight d e1 b, ⟨Or.inr rfl, Or.inr rfl⟩, sight_see (hap _ _ h01 le_rfl hab le_rfl),
        tangent_le hd hp h1 hp.le le_rfl (by linarith) (by linarith) (hap _ _ h01 le_rfl hab le_rfl), ?_⟩
      refine le_trans ?_ hfar
      exact sight_fall hd hp.le p0 q3 (by linarith)
        (by have := cdec (p0.trans q3) hb.le (by linarith); linarith) (hap _ _ h01 le_rfl q2 q3)
        (hap _ _ h01 le_rfl hab le_rfl)
    · have hb : touch d e1 < a := by
        by_contra hh
        push Not at hh
        exact hn ⟨hh, h.trans q3⟩
      refine ⟨e1, a, sight d e1 a, ⟨Or.inr rfl, Or.inl rfl⟩, sight_see (hap _ _ h01 le_rfl le_rfl hab),
        tangent_le hd hp h1 hp.le le_rfl (by linarith) (by linarith) (hap _ _ h01 le_rfl le_rfl hab), ?_⟩
      refine le_trans ?_ hfar
      exact sight_grow hd hp.le (by linarith) q2 p1
        (by have := cdec τ0 hb.le (by linarith); linarith) (hap _ _ h01 le_rfl le_rfl hab)
        (hap _ _ h01 le_rfl q2 q3)
  · intro hn1 hn2
    by_cases hbπ : π ≤ b
    · have hb : b < 2 * π - touch d e1 := by
        by_contra hh
        push Not at hh
        exact hn2 ⟨by linarith, hh⟩
      have hapb := hap _ _ h01 le_rfl hab le_rfl
      have hapb' : Apart d e1 (2 * π - b) := by
        rintro ⟨g1, g2⟩
        rw [cos_two_pi_sub] at g1
        rw [sin_two_pi_sub] at g2
        exact hapb ⟨g1, by linarith⟩
      have hs := (sight_see hapb').turn'
      rw [sub_sub_cancel] at hs
      have k1 := sight_le_pi (d := d) (r := e1) (δ := 2 * π - b)
      have k2 := tangent_le hd hp h1 hp.le le_rfl (δ := 2 * π - b) (by linarith) (by linarith) hapb'
      exact ⟨e1, b, _, ⟨Or.inr rfl, Or.inr rfl⟩, hs, by linarith, by linarith⟩
    · push Not at hbπ
      by_cases ha0 : a ≤ 0
      · have hb : -touch d e1 < a := by
          by_contra hh
          push Not at hh
          exact hn1 ⟨hh, by linarith⟩
        have hapb := hap _ _ h01 le_rfl le_rfl hab
        have hapb' : Apart d e1 (-a) := by
          rintro ⟨g1, g2⟩
          rw [cos_neg] at g1
          rw [sin_neg] at g2
          exact hapb ⟨g1, by linarith⟩
        have hs := (sight_see hapb').neg.turn 0 1
        push_cast at hs
        rw [neg_neg, zero_mul, add_zero] at hs
        have k1 := sight_le_pi (d := d) (r := e1) (δ := -a)
        have k2 := tangent_le hd hp h1 hp.le le_rfl (δ := -a) (by linarith) (by linarith) hapb'
        exact ⟨e1, a, _, ⟨Or.inr rfl, Or.inl rfl⟩, hs, by linarith, by linarith⟩
      · push Not at ha0
        rcases sight_ends hd h0 ha0.le q2 q3 hbπ.le (hap _ _ le_rfl h01 le_rfl hab) (hap _ _ le_rfl h01 q2 q3)
          (hap _ _ le_rfl h01 hab le_rfl) with h | h
        · have := sight_le_pi (d := d) (r := e0) (δ := a)
          exact ⟨e0, a, _, ⟨Or.inl rfl, Or.inl rfl⟩, sight_see (hap _ _ le_rfl h01 le_rfl hab), hfar'.trans h,
            by linarith⟩
        · have := sight_le_pi (d := d) (r := e0) (δ := b)
          exact ⟨e0, b, _, ⟨Or.inl rfl, Or.inr rfl⟩, sight_see (hap _ _ le_rfl h01 hab le_rfl), hfar'.trans h,
            by linarith⟩

/-- The same for all points of a sector. -/
theorem outside_corners (hd : 0 < d) (h0 : 0 ≤ e0) (h01 : e0 ≤ e1) (hp : 0 < e1) (h1 : e1 ≤ d)
    (hap : ∀ r δ, e0 ≤ r → r ≤ e1 → a ≤ δ → δ ≤ b → Apart d r δ) {r δ : ℝ} (q0 : e0 ≤ r) (q1 : r ≤ e1)
    (q2 : a ≤ δ) (q3 : δ ≤ b) :
    ∃ β, tangent d e1 ≤ β ∧ β ≤ 2 * π - tangent d e1 ∧ See d r δ β ∧
      ((∀ k : ℤ, ¬ (a ≤ touch d e1 + k * (2 * π) ∧ touch d e1 + k * (2 * π) ≤ b)) →
        ∃ r' δ' β', Corner e0 e1 a b r' δ' ∧ See d r' δ' β' ∧ tangent d e1 ≤ β' ∧ β' ≤ β) ∧
      ((∀ k : ℤ, ¬ (a ≤ -touch d e1 + k * (2 * π) ∧ -touch d e1 + k * (2 * π) ≤ b)) →
        ∃ r' δ' β', Corner e0 e1 a b r' δ' ∧ See d r' δ' β' ∧ β ≤ β' ∧ β' ≤ 2 * π - tangent d e1) := by
  have hpi := pi_pos
  have h2p : (0 : ℝ) < 2 * π := by linarith
  set k : ℤ := ⌊δ / (2 * π)⌋ with hk
  have k1 : (k : ℝ) * (2 * π) ≤ δ := by rw [← le_div_iff₀ h2p]; exact Int.floor_le _
  have k2 : δ < ((k : ℝ) + 1) * (2 * π) := by rw [← div_lt_iff₀ h2p]; exact Int.lt_floor_add_one _
  have hapk : ∀ r δ', e0 ≤ r → r ≤ e1 → a - k * (2 * π) ≤ δ' → δ' ≤ b - k * (2 * π) → Apart d r δ' := by
    intro r δ' g0 g1 g2 g3 hh
    refine hap r (δ' + k * (2 * π)) g0 g1 (by linarith) (by linarith) ?_
    rw [cos_add_int_mul_two_pi, sin_add_int_mul_two_pi]
    exact hh
  by_cases hδ : δ - k * (2 * π) ≤ π
  · obtain ⟨β, b1, b2, b3, b4, b5⟩ := outside_upper hd h0 h01 hp h1 hapk (r := r) (δ := δ - k * (2 * π)) q0 q1
      (by linarith) (by linarith) (by linarith) hδ
    have b3' := b3.turn k 0
    push_cast at b3'
    rw [sub_add_cancel, zero_mul, add_zero] at b3'
    have back : ∀ {r' δ' β'}, Corner e0 e1 (a - k * (2 * π)) (b - k * (2 * π)) r' δ' → See d r' δ' β' →
        Corner e0 e1 a b r' (δ' + k * (2 * π)) ∧ See d r' (δ' + k * (2 * π)) β' := by
      intro r' δ' β' hc hs
      have := hs.turn k 0
      push_cast at this
      rw [zero_mul, add_zero] at this
      refine ⟨⟨hc.1, ?_⟩, this⟩
      rcases hc.2 with h | h
      · exact Or.inl (by rw [h]; ring)
      · exact Or.inr (by rw [h]; ring)
    refine ⟨β, b1, b2, b3', ?_, ?_⟩
    · intro hn
      obtain ⟨r', δ', β', c1, c2, c3, c4⟩ := b4 (fun hh => hn k ⟨by linarith [hh.1], by linarith [hh.2]⟩)
      obtain ⟨c1', c2'⟩ := back c1 c2
      exact ⟨r', _, β', c1', c2', c3, c4⟩
    · intro hn
      obtain ⟨r', δ', β', c1, c2, c3, c4⟩ := b5 (fun hh => hn k ⟨by linarith [hh.1], by linarith [hh.2]⟩)
        (fun hh => hn (k + 1) ⟨by push_cast; linarith [hh.1], by push_cast; linarith [hh.2]⟩)
      obtain ⟨c1', c2'⟩ := back c1 c2
      exact ⟨r', _, β', c1', c2', c3, c4⟩
  · push Not at hδ
    -- the mirrored sector
    have hapm : ∀ r δ', e0 ≤ r → r ≤ e1 → (k + 1) * (2 * π) - b ≤ δ' → δ' ≤ (k + 1) * (2 * π) - a →
        Apart d r δ' := by
      intro r δ' g0 g1 g2 g3 hh
      refine hap r (-δ' + (k + 1 : ℤ) * (2 * π)) g0 g1 (by push_cast; linarith) (by push_cast; linarith) ?_
      rw [cos_add_int_mul_two_pi, sin_add_int_mul_two_pi, cos_neg, sin_neg]
      exact ⟨hh.1, by linarith [hh.2]⟩
    obtain ⟨β, b1, b2, b3, b4, b5⟩ := outside_upper hd h0 h01 hp h1 hapm (r := r) (δ := (k + 1) * (2 * π) - δ)
      q0 q1 (by linarith) (by linarith) (by linarith) (by linarith)
    have mir : ∀ {r' δ' β'}, See d r' δ' β' → See d r' ((k + 1) * (2 * π) - δ') (2 * π - β') := by
      intro r' δ' β' hs
      have := hs.neg.turn (k + 1) 1
      push_cast at this
      have e1 : -δ' + (↑k + 1) * (2 * π) = (k + 1) * (2 * π) - δ' := by ring
      have e2 : -β' + 1 * (2 * π) = 2 * π - β' := by ring
      rwa [e1, e2] at this
    have b3' := mir b3
    rw [sub_sub_cancel] at b3'
    have back : ∀ {r' δ'}, Corner e0 e1 ((k + 1) * (2 * π) - b) ((k + 1) * (2 * π) - a) r' δ' →
        Corner e0 e1 a b r' ((k + 1) * (2 * π) - δ') := by
      intro r' δ' hc
      refine ⟨hc.1, ?_⟩
      rcases hc.2 with h | h
      · exact Or.inr (by rw [h]; ring)
      · exact Or.inl (by rw [h]; ring)
    refine ⟨2 * π - β, by linarith, by linarith, b3', ?_, ?_⟩
    · intro hn
      obtain ⟨r', δ', β', c1, c2, c3, c4⟩ := b5
        (fun hh => hn (k + 1) ⟨by push_cast; linarith [hh.1, hh.2], by push_cast; linarith [hh.1, hh.2]⟩)
        (fun hh => hn k ⟨by linarith [hh.1, hh.2], by linarith [hh.1, hh.2]⟩)
      exact ⟨r', _, 2 * π - β', back c1, mir c2, by linarith, by linarith⟩
    · intro hn
      obtain ⟨r', δ', β', c1, c2, c3, c4⟩ := b4
        (fun hh => hn (k + 1) ⟨by push_cast; linarith [hh.1, hh.2], by push_cast; linarith [hh.1, hh.2]⟩)
      exact ⟨r', _, 2 * π - β', back c1, mir c2, by linarith, by linarith⟩

end Gear.TpcModule
