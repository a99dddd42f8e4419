/-
Lemmas for C87: the angles in the extent of a polar module that is moved off the centre, case by case.
-/
import Verif.TpcModuleSight

set_option autoImplicit false
set_option linter.unusedSectionVars false

namespace Gear.TpcModule

open Disk Real
open Spec

variable {d r δ β : ℝ}

/-! ### Angles and turns -/

theorem turn_unique {x y lo : ℝ} {k : ℤ} (h : x = y + k * (2 * π)) (x0 : lo ≤ x) (x1 : x < lo + 2 * π)
    (y0 : lo ≤ y) (y1 : y < lo + 2 * π) : k = 0 := by
  have hp := pi_pos
  have k1 : (k : ℝ) < 1 := by by_contra hh; push Not at hh; nlinarith
  have k2 : (-1 : ℝ) < k := by by_contra hh; push Not at hh; nlinarith
  have k1' : k < 1 := by exact_mod_cast k1
  have k2' : -1 < k := by exact_mod_cast k2
  omega

theorem see_unique {β' : ℝ} (h : See d r δ β) (h' : See d r δ β') : ∃ k : ℤ, β' = β + k * (2 * π) := by
  obtain ⟨s, hs, a, b⟩ := h
  obtain ⟨t, ht, a', b'⟩ := h'
  have q1 := sin_sq_add_cos_sq β
  have q2 := sin_sq_add_cos_sq β'
  have e1 : s * cos β = t * cos β' := by rw [← a, ← a']
  have e2 : s * sin β = t * sin β' := by rw [← b, ← b']
  have e3 : s ^ 2 = t ^ 2 := by
    have : (s * cos β) ^ 2 + (s * sin β) ^ 2 = (t * cos β') ^ 2 + (t * sin β') ^ 2 := by rw [e1, e2]
    linear_combination this - s ^ 2 * q1 + t ^ 2 * q2
  have e4 : s = t := by nlinarith
  rw [e4] at e1 e2
  have c := mul_left_cancel₀ ht.ne' e1
  have c' := mul_left_cancel₀ ht.ne' e2
  have hA := Real.Angle.cos_sin_inj c.symm c'.symm
  obtain ⟨k, hk⟩ := Real.Angle.angle_eq_iff_two_pi_dvd_sub.1 hA
  exact ⟨k, by linear_combination hk⟩

theorem wrapInto_spec (lo x : ℝ) :
    lo ≤ wrapInto π lo x ∧ wrapInto π lo x ≤ lo + 2 * π ∧ ∃ k : ℤ, wrapInto π lo x = x + k * (2 * π) := by
  have hp := pi_pos
  unfold wrapInto
  obtain ⟨k1, e1⟩ := wrapUp_shift π lo x
  obtain ⟨k2, e2⟩ := wrapDown_shift π (lo + 2 * π) (wrapUp π lo x)
  refine ⟨?_, wrapDown_le hp _, k1 + k2, by rw [e2, e1]; push_cast; ring⟩
  by_cases h : lo + 2 * π < wrapUp π lo x
  · have := wrapDown_gt hp h; linarith
  · rw [wrapDown_id (not_lt.1 h)]; exact wrapUp_ge hp x

theorem wrapInto_window {lo x : ℝ} (l0 : 0 ≤ lo) (l1 : lo < 2 * π) (x0 : 0 ≤ x) (x1 : x < 2 * π) :
    lo ≤ wrapInto π lo x ∧ wrapInto π lo x < lo + 2 * π ∧ ∃ k : ℤ, wrapInto π lo x = x + k * (2 * π) := by
  obtain ⟨a, b, k, c⟩ := wrapInto_spec lo x
  refine ⟨a, ?_, k, c⟩
  have hp := pi_pos
  unfold wrapInto
  rw [wrapDown_id]
  · by_cases h : x < lo
    · exact wrapUp_lt hp h
    · rw [wrapUp_id (not_lt.1 h)]; linarith
  · by_cases h : x < lo
    · exact (wrapUp_lt hp h).le
    · rw [wrapUp_id (not_lt.1 h)]; linarith

theorem wrapAboveOf_window {lo x : ℝ} (l0 : 0 ≤ lo) (l1 : lo < 2 * π) (x0 : 0 ≤ x) (x1 : x < 2 * π) :
    lo ≤ wrapAboveOf π lo x ∧ wrapAboveOf π lo x < lo + 2 * π ∧ ∃ k : ℤ, wrapAboveOf π lo x = x + k * (2 * π) := by
  have hp := pi_pos
  unfold wrapAboveOf
  rw [wrapDown_id (by linarith)]
  refine ⟨wrapUp_ge hp x, ?_, wrapUp_shift π lo x⟩
  by_cases h : x < lo
  · exact wrapUp_lt hp h
  · rw [wrapUp_id (not_lt.1 h)]; linarith

theorem wrapBelowOf_window {hi x : ℝ} (l0 : 0 ≤ hi) (l1 : hi < 2 * π) (x0 : 0 ≤ x) (x1 : x < 2 * π) :
    hi - 2 * π < wrapBelowOf π hi x ∧ wrapBelowOf π hi x ≤ hi ∧ ∃ k : ℤ, wrapBelowOf π hi x = x + k * (2 * π) := by
  have hp := pi_pos
  unfold wrapBelowOf
  rw [wrapUp_id (by linarith)]
  refine ⟨?_, wrapDown_le hp x, wrapDown_shift π hi x⟩
  by_cases h : hi < x
  · exact wrapDown_gt hp h
  · rw [wrapDown_id (not_lt.1 h)]; linarith

/-- The two angles are ordered without changing their difference. -/
theorem orderAngles_spec {x y W : ℝ} {j : ℤ} (h : y - x = W + j * (2 * π)) (w0 : 0 ≤ W) (w1 : W < 2 * π)
    (hxy : y - x < 2 * π) : ∃ k : ℤ, orderAngles π x y = (y + k * (2 * π) - W, y + k * (2 * π)) := by
  have hp := pi_pos
  have key : wrapDown π y x = y - W := by
    obtain ⟨k, hk⟩ := wrapDown_shift π y x
    have g1 := wrapDown_le hp (hi := y) x
    have g2 : y - 2 * π < wrapDown π y x := by
      by_cases hh : y < x
      · exact wrapDown_gt hp hh
      · rw [wrapDown_id (not_lt.1 hh)]; linarith
    have e : W = (y - wrapDown π y x) + (k - j : ℤ) * (2 * π) := by
      rw [hk]; push_cast; linear_combination -h
    have := turn_unique (lo := 0) e w0 (by linarith) (by linarith) (by linarith)
    rw [this] at e
    push_cast at e
    linarith
  unfold orderAngles
  dsimp only
  obtain ⟨k1, h1⟩ := wrapDown_shift π (2 * π) y
  obtain ⟨k2, h2⟩ := wrapUp_shift π (-2 * π) (wrapDown π y x + (wrapDown π (2 * π) y - y))
  refine ⟨k1 + k2, ?_⟩
  rw [h2, h1, key]
  ext
  · push_cast; ring
  · push_cast; ring

theorem orderWide_spec {x y W : ℝ} {j : ℤ} (h : y - x = W + j * (2 * π)) (w0 : π ≤ W) (w1 : W < 3 * π)
    (hxy : y - x < 2 * π) :
    (W < 2 * π → ∃ k : ℤ, orderWide realTrig x y = (y + k * (2 * π) - W, y + k * (2 * π))) ∧
      (2 * π ≤ W → orderWide realTrig x y = (0, 2 * π)) := by
  have hp := pi_pos
  obtain ⟨k, hk⟩ := wrapDown_shift π y x
  have g1 := wrapDown_le hp (hi := y) x
  have g2 : y - 2 * π < wrapDown π y x := by
    by_cases hh : y < x
    · exact wrapDown_gt hp hh
    · rw [wrapDown_id (not_lt.1 hh)]; linarith
  unfold orderWide
  rw [realTrig_pi]
  constructor
  · intro w2
    have e : W = (y - wrapDown π y x) + (k - j : ℤ) * (2 * π) := by
      rw [hk]; push_cast; linear_combination -h
    have := turn_unique (lo := 0) e (by linarith) (by linarith) (by linarith) (by linarith)
    rw [this] at e
    push_cast at e
    rw [if_neg (by push Not; linarith)]
    exact orderAngles_spec h (by linarith) w2 hxy
  · intro w2
    have e : W - 2 * π = (y - wrapDown π y x) + (k - j - 1 : ℤ) * (2 * π) := by
      rw [hk]; push_cast; linear_combination -h
    have := turn_unique (lo := 0) e (by linarith) (by linarith) (by linarith) (by linarith)
    rw [this] at e
    push_cast at e
    rw [if_pos (by linarith)]

/-! ### Directions in the plane of the end plate -/

/-- The point with the local coordinates `r` and `θ` belongs to the sector. -/
def InE (e : Ext ℝ) (r θ : ℝ) : Prop := e.e0 ≤ r ∧ r ≤ e.e1 ∧ e.e2 ≤ θ ∧ θ ≤ e.e3

/-- Some point of the sector is seen in the direction `Φ`. -/
def InSight (d ψ σ c : ℝ) (e : Ext ℝ) (Φ : ℝ) : Prop := ∃ r θ, InE e r θ ∧ See d r (θ - ψ) (σ * (Φ - c))

/-- The directions of the sector are those between the two angles. -/
structure Framed (d ψ σ c : ℝ) (e : Ext ℝ) (p : ℝ × ℝ) : Prop where
  le : p.1 ≤ p.2
  all : ∀ r θ, InE e r θ → Apart d r (θ - ψ) → ∃ Φ, p.1 ≤ Φ ∧ Φ ≤ p.2 ∧ See d r (θ - ψ) (σ * (Φ - c))
  tight : (p.2 - p.1 < 2 * π ∧ InSight d ψ σ c e p.1 ∧ InSight d ψ σ c e p.2) ∨
    (p.2 - p.1 = 2 * π ∧ ∀ Φ, InSight d ψ σ c e Φ)

/-- A corner and its global angle. -/
structure Hits (d ψ σ c : ℝ) (g : ℝ × ℝ) (r θ : ℝ) : Prop where
  nonneg : 0 ≤ g.2
  lt : g.2 < 2 * π
  see : See d r (θ - ψ) (σ * (g.2 - c))

variable {ψ σ c : ℝ} {e : Ext ℝ}

theorem framed_pos {lo hi : ℝ} {k : ℤ} (hσ : σ = 1)
    (hw : ∀ r θ, InE e r θ → Apart d r (θ - ψ) → ∃ β, lo ≤ β ∧ β ≤ hi ∧ See d r (θ - ψ) β)
    (hle : lo ≤ hi) (hlt : hi - lo < 2 * π) (h1 : ∃ r θ, InE e r θ ∧ See d r (θ - ψ) lo)
    (h2 : ∃ r θ, InE e r θ ∧ See d r (θ - ψ) hi) :
    Framed d ψ σ c e (c + lo + k * (2 * π), c + hi + k * (2 * π)) := by
  have key : ∀ {r θ β}, See d r (θ - ψ) β → See d r (θ - ψ) (σ * ((c + β + k * (2 * π)) - c)) := by
    intro r θ β h
    have := h.turn 0 k
    push_cast at this
    rw [zero_mul, add_zero] at this
    rw [hσ]
    have e : (1 : ℝ) * ((c + β + k * (2 * π)) - c) = β + k * (2 * π) := by ring
    rwa [e]
  refine ⟨by dsimp only; linarith, ?_, Or.inl ⟨by dsimp only; linarith, ?_, ?_⟩⟩
  · intro r θ hm ha
    obtain ⟨β, b1, b2, b3⟩ := hw r θ hm ha
    exact ⟨c + β + k * (2 * π), by dsimp only; linarith, by dsimp only; linarith, key b3⟩
  · obtain ⟨r, θ, hm, hs⟩ := h1
    exact ⟨r, θ, hm, key hs⟩
  · obtain ⟨r, θ, hm, hs⟩ := h2
    exact ⟨r, θ, hm, key hs⟩

theorem framed_neg {lo hi : ℝ} {k : ℤ} (hσ : σ = -1)
    (hw : ∀ r θ, InE e r θ → Apart d r (θ - ψ) → ∃ β, lo ≤ β ∧ β ≤ hi ∧ See d r (θ - ψ) β)
    (hle : lo ≤ hi) (hlt : hi - lo < 2 * π) (h1 : ∃ r θ, InE e r θ ∧ See d r (θ - ψ) lo)
    (h2 : ∃ r θ, InE e r θ ∧ See d r (θ - ψ) hi) :
    Framed d ψ σ c e (c - hi + k * (2 * π), c - lo + k * (2 * π)) := by
  have key : ∀ {r θ β}, See d r (θ - ψ) β → See d r (θ - ψ) (σ * ((c - β + k * (2 * π)) - c)) := by
    intro r θ β h
    have := h.turn 0 (-k)
    push_cast at this
    rw [zero_mul, add_zero] at this
    rw [hσ]
    have e : (-1 : ℝ) * ((c - β + k * (2 * π)) - c) = β + -k * (2 * π) := by ring
    rwa [e]
  refine ⟨by dsimp only; linarith, ?_, Or.inl ⟨by dsimp only; linarith, ?_, ?_⟩⟩
  · intro r θ hm ha
    obtain ⟨β, b1, b2, b3⟩ := hw r θ hm ha
    exact ⟨c - β + k * (2 * π), by dsimp only; linarith, by dsimp only; linarith, key b3⟩
  · obtain ⟨r, θ, hm, hs⟩ := h2
    exact ⟨r, θ, hm, key hs⟩
  · obtain ⟨r, θ, hm, hs⟩ := h1
    exact ⟨r, θ, hm, key hs⟩

theorem framed_full (h : ∀ β, ∃ r θ, InE e r θ ∧ See d r (θ - ψ) β) (hσ : σ = 1 ∨ σ = -1) :
    Framed d ψ σ c e (0, 2 * π) := by
  have hp := pi_pos
  refine ⟨by dsimp only; linarith, ?_, Or.inr ⟨by dsimp only; ring, fun Φ => h _⟩⟩
  intro r θ hm ha
  have hs := sight_see ha
  obtain ⟨a, b, k, hk⟩ := wrapInto_spec 0 (c + σ * sight d r (θ - ψ))
  refine ⟨_, a, by dsimp only; linarith, ?_⟩
  rw [hk]
  rcases hσ with hσ | hσ
  · have := hs.turn 0 k
    push_cast at this
    rw [zero_mul, add_zero] at this
    rw [hσ]
    have e : (1 : ℝ) * (c + 1 * sight d r (θ - ψ) + k * (2 * π) - c) = sight d r (θ - ψ) + k * (2 * π) := by ring
    rwa [e]
  · have := hs.turn 0 (-k)
    push_cast at this
    rw [zero_mul, add_zero] at this
    rw [hσ]
    have e : (-1 : ℝ) * (c + -1 * sight d r (θ - ψ) + k * (2 * π) - c) = sight d r (θ - ψ) + -k * (2 * π) := by ring
    rwa [e]

/-- The angle of a corner, up to full turns. -/
theorem Hits.pos {g : ℝ × ℝ} {r θ β : ℝ} (h : Hits d ψ σ c g r θ) (hσ : σ = 1) (hs : See d r (θ - ψ) β) :
    ∃ k : ℤ, g.2 = c + β + k * (2 * π) := by
  obtain ⟨k, hk⟩ := see_unique hs h.see
  rw [hσ] at hk
  exact ⟨k, by linarith⟩

theorem Hits.neg {g : ℝ × ℝ} {r θ β : ℝ} (h : Hits d ψ σ c g r θ) (hσ : σ = -1) (hs : See d r (θ - ψ) β) :
    ∃ k : ℤ, g.2 = c - β + k * (2 * π) := by
  obtain ⟨k, hk⟩ := see_unique hs h.see
  rw [hσ] at hk
  exact ⟨-k, by push_cast; linarith⟩

/-- `orderAngles` of the angles of two corners. -/
theorem framed_order {lo hi r1 θ1 r2 θ2 : ℝ} {x y : ℝ × ℝ}
    (hw : ∀ r θ, InE e r θ → Apart d r (θ - ψ) → ∃ β, lo ≤ β ∧ β ≤ hi ∧ See d r (θ - ψ) β)
    (hle : lo ≤ hi) (hlt : hi - lo < 2 * π) (m1 : InE e r1 θ1) (s1 : See d r1 (θ1 - ψ) lo)
    (x1 : Hits d ψ σ c x r1 θ1) (m2 : InE e r2 θ2) (s2 : See d r2 (θ2 - ψ) hi) (x2 : Hits d ψ σ c y r2 θ2) :
    (σ = 1 → Framed d ψ σ c e (orderAngles π x.2 y.2)) ∧ (σ = -1 → Framed d ψ σ c e (orderAngles π y.2 x.2)) := by
  constructor
  · intro hσ
    obtain ⟨k1, h1⟩ := x1.pos hσ s1
    obtain ⟨k2, h2⟩ := x2.pos hσ s2
    obtain ⟨k, hk⟩ := orderAngles_spec (x := x.2) (y := y.2) (W := hi - lo) (j := k2 - k1)
      (by rw [h1, h2]; push_cast; ring) (by linarith) hlt (by linarith [x1.nonneg, x2.lt])
    rw [hk]
    have e1 : y.2 + k * (2 * π) - (hi - lo) = c + lo + (k2 + k : ℤ) * (2 * π) := by rw [h2]; push_cast; ring
    have e2 : y.2 + k * (2 * π) = c + hi + (k2 + k : ℤ) * (2 * π) := by rw [h2]; push_cast; ring
    rw [e1, e2]
    exact framed_pos hσ hw hle hlt ⟨_, _, m1, s1⟩ ⟨_, _, m2, s2⟩
  · intro hσ
    obtain ⟨k1, h1⟩ := x1.neg hσ s1
    obtain ⟨k2, h2⟩ := x2.neg hσ s2
    obtain ⟨k, hk⟩ := orderAngles_spec (x := y.2) (y := x.2) (W := hi - lo) (j := k1 - k2)
      (by rw [h1, h2]; push_cast; ring) (by linarith) hlt (by linarith [x2.nonneg, x1.lt])
    rw [hk]
    have e1 : x.2 + k * (2 * π) - (hi - lo) = c - hi + (k1 + k : ℤ) * (2 * π) := by rw [h1]; push_cast; ring
    have e2 : x.2 + k * (2 * π) = c - lo + (k1 + k : ℤ) * (2 * π) := by rw [h1]; push_cast; ring
    rw [e1, e2]
    exact framed_neg hσ hw hle hlt ⟨_, _, m1, s1⟩ ⟨_, _, m2, s2⟩

/-- `orderWide` of the angles of two corners. -/
theorem framed_wide {lo hi r1 θ1 r2 θ2 : ℝ} {x y : ℝ × ℝ}
    (hw : ∀ r θ, InE e r θ → Apart d r (θ - ψ) → ∃ β, lo ≤ β ∧ β ≤ hi ∧ See d r (θ - ψ) β)
    (w0 : π ≤ hi - lo) (w1 : hi - lo < 3 * π) (hfull : 2 * π ≤ hi - lo → ∀ β, ∃ r θ, InE e r θ ∧ See d r (θ - ψ) β)
    (m1 : InE e r1 θ1) (s1 : See d r1 (θ1 - ψ) lo)
    (x1 : Hits d ψ σ c x r1 θ1) (m2 : InE e r2 θ2) (s2 : See d r2 (θ2 - ψ) hi) (x2 : Hits d ψ σ c y r2 θ2) :
    (σ = 1 → Framed d ψ σ c e (orderWide realTrig x.2 y.2)) ∧
      (σ = -1 → Framed d ψ σ c e (orderWide realTrig y.2 x.2)) := by
  have hp := pi_pos
  constructor
  · intro hσ
    obtain ⟨k1, h1⟩ := x1.pos hσ s1
    obtain ⟨k2, h2⟩ := x2.pos hσ s2
    obtain ⟨q1, q2⟩ := orderWide_spec (x := x.2) (y := y.2) (W := hi - lo) (j := k2 - k1)
      (by rw [h1, h2]; push_cast; ring) w0 w1 (by linarith [x1.nonneg, x2.lt])
    by_cases hlt : hi - lo < 2 * π
    · obtain ⟨k, hk⟩ := q1 hlt
      rw [hk]
      have e1 : y.2 + k * (2 * π) - (hi - lo) = c + lo + (k2 + k : ℤ) * (2 * π) := by rw [h2]; push_cast; ring
      have e2 : y.2 + k * (2 * π) = c + hi + (k2 + k : ℤ) * (2 * π) := by rw [h2]; push_cast; ring
      rw [e1, e2]
      exact framed_pos hσ hw (by linarith) hlt ⟨_, _, m1, s1⟩ ⟨_, _, m2, s2⟩
    · rw [q2 (not_lt.1 hlt)]
      exact framed_full (hfull (not_lt.1 hlt)) (Or.inl hσ)
  · intro hσ
    obtain ⟨k1, h1⟩ := x1.neg hσ s1
    obtain ⟨k2, h2⟩ := x2.neg hσ s2
    obtain ⟨q1, q2⟩ := orderWide_spec (x := y.2) (y := x.2) (W := hi - lo) (j := k1 - k2)
      (by rw [h1, h2]; push_cast; ring) w0 w1 (by linarith [x2.nonneg, x1.lt])
    by_cases hlt : hi - lo < 2 * π
    · obtain ⟨k, hk⟩ := q1 hlt
      rw [hk]
      have e1 : x.2 + k * (2 * π) - (hi - lo) = c - hi + (k1 + k : ℤ) * (2 * π) := by rw [h1]; push_cast; ring
      have e2 : x.2 + k * (2 * π) = c - lo + (k1 + k : ℤ) * (2 * π) := by rw [h1]; push_cast; ring
      rw [e1, e2]
      exact framed_neg hσ hw (by linarith) hlt ⟨_, _, m1, s1⟩ ⟨_, _, m2, s2⟩
    · rw [q2 (not_lt.1 hlt)]
      exact framed_full (hfull (not_lt.1 hlt)) (Or.inr hσ)

theorem if_gt_max (x y : ℝ) : (if x > y then x else y) = max x y := by
  split_ifs with h
  · exact (max_eq_left h.le).symm
  · exact (max_eq_right (not_lt.1 h)).symm

theorem if_lt_min (x y : ℝ) : (if x < y then x else y) = min x y := by
  split_ifs with h
  · exact (min_eq_left h.le).symm
  · exact (min_eq_right (not_lt.1 h)).symm

theorem up_value {w x u bw bx : ℝ} {k j i : ℤ} (hw : w = c + bw + k * (2 * π)) (hx : x = c + bx + j * (2 * π))
    (hu : u = x + i * (2 * π)) (u0 : w ≤ u) (u1 : u < w + 2 * π) (b0 : bw ≤ bx) (b1 : bx < bw + 2 * π) :
    u = c + bx + k * (2 * π) := by
  have e : u = (c + bx + k * (2 * π)) + (i + j - k : ℤ) * (2 * π) := by rw [hu, hx]; push_cast; ring
  have := turn_unique (lo := w) e u0 u1 (by linarith) (by linarith)
  rw [this] at e
  push_cast at e
  linarith

theorem dn_value {w x u bw bx : ℝ} {k j i : ℤ} (hw : w = c + bw + k * (2 * π)) (hx : x = c + bx + j * (2 * π))
    (hu : u = x + i * (2 * π)) (u0 : w - 2 * π < u) (u1 : u ≤ w) (b0 : bw - 2 * π < bx) (b1 : bx ≤ bw) :
    u = c + bx + k * (2 * π) := by
  have e : -u = -(c + bx + k * (2 * π)) + (k - i - j : ℤ) * (2 * π) := by rw [hu, hx]; push_cast; ring
  have := turn_unique (lo := -w) e (by linarith) (by linarith) (by linarith) (by linarith)
  rw [this] at e
  push_cast at e
  linarith

/-- The first angle is that of one corner, the last one the larger of two others. -/
theorem framed_from {lo b1 b2 r0 θ0 r1 θ1 r2 θ2 : ℝ} {w x y : ℝ × ℝ}
    (hw : ∀ r θ, InE e r θ → Apart d r (θ - ψ) → ∃ β, lo ≤ β ∧ β ≤ max b1 b2 ∧ See d r (θ - ψ) β)
    (l1 : lo ≤ b1) (l1' : b1 < lo + 2 * π) (l2 : lo ≤ b2) (l2' : b2 < lo + 2 * π)
    (m0 : InE e r0 θ0) (s0 : See d r0 (θ0 - ψ) lo) (x0 : Hits d ψ σ c w r0 θ0)
    (m1 : InE e r1 θ1) (s1 : See d r1 (θ1 - ψ) b1) (x1 : Hits d ψ σ c x r1 θ1)
    (m2 : InE e r2 θ2) (s2 : See d r2 (θ2 - ψ) b2) (x2 : Hits d ψ σ c y r2 θ2) :
    (σ = 1 → ∀ u v : ℝ, (w.2 ≤ u ∧ u < w.2 + 2 * π ∧ ∃ k : ℤ, u = x.2 + k * (2 * π)) →
      (w.2 ≤ v ∧ v < w.2 + 2 * π ∧ ∃ k : ℤ, v = y.2 + k * (2 * π)) →
      Framed d ψ σ c e (w.2, if u > v then u else v)) ∧
    (σ = -1 → ∀ u v : ℝ, (w.2 - 2 * π < u ∧ u ≤ w.2 ∧ ∃ k : ℤ, u = x.2 + k * (2 * π)) →
      (w.2 - 2 * π < v ∧ v ≤ w.2 ∧ ∃ k : ℤ, v = y.2 + k * (2 * π)) →
      Framed d ψ σ c e (if u < v then u else v, w.2)) := by
  have hend : ∃ r θ, InE e r θ ∧ See d r (θ - ψ) (max b1 b2) := by
    rcases max_choice b1 b2 with h | h <;> rw [h]
    · exact ⟨_, _, m1, s1⟩
    · exact ⟨_, _, m2, s2⟩
  have hlt : max b1 b2 - lo < 2 * π := by
    rcases max_choice b1 b2 with h | h <;> rw [h] <;> linarith
  constructor
  · rintro hσ u v ⟨u0, u1, i, hu⟩ ⟨v0, v1, i', hv⟩
    obtain ⟨k0, h0⟩ := x0.pos hσ s0
    obtain ⟨k1, h1⟩ := x1.pos hσ s1
    obtain ⟨k2, h2⟩ := x2.pos hσ s2
    have eu := up_value h0 h1 hu u0 u1 l1 l1'
    have ev := up_value h0 h2 hv v0 v1 l2 l2'
    have e3 : max u v = c + max b1 b2 + k0 * (2 * π) := by
      rw [eu, ev, max_add_add_right, max_add_add_left]
    rw [if_gt_max, e3, h0]
    exact framed_pos hσ hw (le_max_of_le_left l1) hlt ⟨_, _, m0, s0⟩ hend
  · rintro hσ u v ⟨u0, u1, i, hu⟩ ⟨v0, v1, i', hv⟩
    obtain ⟨k0, h0⟩ := x0.neg hσ s0
    obtain ⟨k1, h1⟩ := x1.neg hσ s1
    obtain ⟨k2, h2⟩ := x2.neg hσ s2
    have eu := dn_value (bw := -lo) (bx := -b1) (c := c) (by rw [h0]; ring) (by rw [h1]; ring) hu u0 u1
      (by linarith) (by linarith)
    have ev := dn_value (bw := -lo) (bx := -b2) (c := c) (by rw [h0]; ring) (by rw [h2]; ring) hv v0 v1
      (by linarith) (by linarith)
    have e3 : min u v = c - max b1 b2 + k0 * (2 * π) := by
      rw [eu, ev, min_add_add_right, min_add_add_left, min_neg_neg]
      ring
    rw [if_lt_min, e3, h0]
    exact framed_neg hσ hw (le_max_of_le_left l1) hlt ⟨_, _, m0, s0⟩ hend

/-- The last angle is that of one corner, the first one the smaller of two others. -/
theorem framed_to {hi b1 b2 r0 θ0 r1 θ1 r2 θ2 : ℝ} {w x y : ℝ × ℝ}
    (hw : ∀ r θ, InE e r θ → Apart d r (θ - ψ) → ∃ β, min b1 b2 ≤ β ∧ β ≤ hi ∧ See d r (θ - ψ) β)
    (l1 : b1 ≤ hi) (l1' : hi - 2 * π < b1) (l2 : b2 ≤ hi) (l2' : hi - 2 * π < b2)
    (m0 : InE e r0 θ0) (s0 : See d r0 (θ0 - ψ) hi) (x0 : Hits d ψ σ c w r0 θ0)
    (m1 : InE e r1 θ1) (s1 : See d r1 (θ1 - ψ) b1) (x1 : Hits d ψ σ c x r1 θ1)
    (m2 : InE e r2 θ2) (s2 : See d r2 (θ2 - ψ) b2) (x2 : Hits d ψ σ c y r2 θ2) :
    (σ = -1 → ∀ u v : ℝ, (w.2 ≤ u ∧ u < w.2 + 2 * π ∧ ∃ k : ℤ, u = x.2 + k * (2 * π)) →
      (w.2 ≤ v ∧ v < w.2 + 2 * π ∧ ∃ k : ℤ, v = y.2 + k * (2 * π)) →
      Framed d ψ σ c e (w.2, if u > v then u else v)) ∧
    (σ = 1 → ∀ u v : ℝ, (w.2 - 2 * π < u ∧ u ≤ w.2 ∧ ∃ k : ℤ, u = x.2 + k * (2 * π)) →
      (w.2 - 2 * π < v ∧ v ≤ w.2 ∧ ∃ k : ℤ, v = y.2 + k * (2 * π)) →
      Framed d ψ σ c e (if u < v then u else v, w.2)) := by
  have hend : ∃ r θ, InE e r θ ∧ See d r (θ - ψ) (min b1 b2) := by
    rcases min_choice b1 b2 with h | h <;> rw [h]
    · exact ⟨_, _, m1, s1⟩
    · exact ⟨_, _, m2, s2⟩
  have hlt : hi - min b1 b2 < 2 * π := by
    rcases min_choice b1 b2 with h | h <;> rw [h] <;> linarith
  constructor
  · rintro hσ u v ⟨u0, u1, i, hu⟩ ⟨v0, v1, i', hv⟩
    obtain ⟨k0, h0⟩ := x0.neg hσ s0
    obtain ⟨k1, h1⟩ := x1.neg hσ s1
    obtain ⟨k2, h2⟩ := x2.neg hσ s2
    have eu := up_value (bw := -hi) (bx := -b1) (c := c) (by rw [h0]; ring) (by rw [h1]; ring) hu u0 u1
      (by linarith) (by linarith)
    have ev := up_value (bw := -hi) (bx := -b2) (c := c) (by rw [h0]; ring) (by rw [h2]; ring) hv v0 v1
      (by linarith) (by linarith)
    have e3 : max u v = c - min b1 b2 + k0 * (2 * π) := by
      rw [eu, ev, max_add_add_right, max_add_add_left, max_neg_neg]
      ring
    rw [if_gt_max, e3, h0]
    exact framed_neg hσ hw (min_le_of_left_le l1) hlt hend ⟨_, _, m0, s0⟩
  · rintro hσ u v ⟨u0, u1, i, hu⟩ ⟨v0, v1, i', hv⟩
    obtain ⟨k0, h0⟩ := x0.pos hσ s0
    obtain ⟨k1, h1⟩ := x1.pos hσ s1
    obtain ⟨k2, h2⟩ := x2.pos hσ s2
    have eu := dn_value h0 h1 hu u0 u1 l1' l1
    have ev := dn_value h0 h2 hv v0 v1 l2' l2
    have e3 : min u v = c + min b1 b2 + k0 * (2 * π) := by
      rw [eu, ev, min_add_add_right, min_add_add_left]
    rw [if_lt_min, e3, h0]
    exact framed_pos hσ hw (min_le_of_left_le l1) hlt hend ⟨_, _, m0, s0⟩

/-! ### The cases of the code -/

theorem sight_lt_pi (hd : 0 < d) (hr : d < r) (h0 : 0 ≤ δ) (h1 : δ < π) : sight d r δ < π := by
  refine lt_of_le_of_ne sight_le_pi ?_
  intro h
  obtain ⟨h1', h2'⟩ := Complex.arg_eq_pi_iff.1 h
  dsimp only at h1' h2'
  have hs : sin δ = 0 := by
    rcases mul_eq_zero.1 h2' with q | q
    · linarith
    · exact q
  have : δ = 0 := by
    by_contra hh
    have := sin_pos_of_pos_of_lt_pi (lt_of_le_of_ne h0 (Ne.symm hh)) h1
    linarith
  rw [this, cos_zero] at h1'
  linarith

theorem sight_pos (hd : 0 < d) (hr : 0 < r) (h0 : 0 < δ) (h1 : δ ≤ π) : 0 < sight d r δ := by
  refine lt_of_le_of_ne (sight_nonneg hr.le h0.le h1) ?_
  intro h
  have h' := Complex.arg_eq_zero_iff.1 h.symm
  obtain ⟨h1', h2'⟩ := h'
  dsimp only at h1' h2'
  rcases eq_or_lt_of_le h1 with q | q
  · rw [q, cos_pi] at h1'; linarith
  · have := mul_pos hr (sin_pos_of_pos_of_lt_pi h0 q)
    linarith

/-- All that is needed of the corners. -/
structure Corners (d ψ σ c : ℝ) (e : Ext ℝ) (g0 g1 g2 g3 : ℝ × ℝ) : Prop where
  c0 : Hits d ψ σ c g0 e.e0 e.e2
  c1 : Hits d ψ σ c g1 e.e0 e.e3
  c2 : Hits d ψ σ c g2 e.e1 e.e2
  c3 : Hits d ψ σ c g3 e.e1 e.e3

/-- The sector is well formed. -/
structure Shape (d : ℝ) (e : Ext ℝ) : Prop where
  d0 : 0 < d
  h0 : 0 ≤ e.e0
  h01 : e.e0 ≤ e.e1
  h23 : e.e2 ≤ e.e3
  turn : e.e3 ≤ e.e2 + 2 * π

variable {m : Module ℝ} {g0 g1 g2 g3 : ℝ × ℝ}

theorem see_shift {p ψ' : ℝ} {k : ℤ} (hk : p = ψ' + k * (2 * π)) {r x β : ℝ} (h : See d r (x - p) β) :
    See d r (x - ψ') β := by
  have := h.turn k 0
  push_cast at this
  rw [zero_mul, add_zero] at this
  have e : x - p + k * (2 * π) = x - ψ' := by rw [hk]; ring
  rwa [e] at this

theorem apart_shift {p ψ' : ℝ} {k : ℤ} (hk : p = ψ' + k * (2 * π)) {r x : ℝ} (h : Apart d r (x - ψ')) :
    Apart d r (x - p) := by
  rintro ⟨h1, h2⟩
  apply h
  have e : x - ψ' = x - p + k * (2 * π) := by rw [hk]; ring
  rw [e, cos_add_int_mul_two_pi, sin_add_int_mul_two_pi]
  exact ⟨h1, h2⟩

theorem within_shift {p lo hi : ℝ} {k : ℤ} (hk : p = ψ + k * (2 * π))
    (h : Within d e.e0 e.e1 (e.e2 - p) (e.e3 - p) lo hi) :
    ∀ r θ, InE e r θ → Apart d r (θ - ψ) → ∃ β, lo ≤ β ∧ β ≤ hi ∧ See d r (θ - ψ) β := by
  rintro r θ ⟨q0, q1, q2, q3⟩ -
  obtain ⟨β, b1, b2, b3⟩ := h r (θ - p) q0 q1 (by linarith) (by linarith)
  exact ⟨β, b1, b2, see_shift hk b3⟩

/-- The global origin in front of the sector. -/
theorem lt_of_ahead {p : ℝ} {k : ℤ} (hd1 : d < e.e1) (hk : p = ψ + k * (2 * π))
    (hap : ∀ r θ, InE e r θ → Apart d r (θ - ψ)) (p0 : e.e2 ≤ p) (p1 : p ≤ e.e3) : d < e.e0 := by
  by_contra h
  push Not at h
  refine apart_shift hk (hap d p ⟨h, hd1.le, p0, p1⟩) ?_
  rw [sub_self, cos_zero, sin_zero]
  exact ⟨by ring, by ring⟩

theorem framed_sigma {P : ℝ × ℝ → Prop} (hσ : σ = if m.zPosition > 0 then 1 else -1) {x y : ℝ × ℝ}
    (h1 : σ = 1 → P x) (h2 : σ = -1 → P y) : P (if m.zPosition > 0 then x else y) := by
  split_ifs with h
  · exact h1 (by rw [hσ, if_pos h])
  · exact h2 (by rw [hσ, if_neg h])

/-- The angles if the global origin is within the outer circle and behind the sector, `orderAngles` of the outer
corners. -/
theorem framed_behind {p : ℝ} {k : ℤ} (S : Shape d e) (hd1 : d < e.e1) (C : Corners d ψ σ c e g0 g1 g2 g3)
    (hσ : σ = if m.zPosition > 0 then 1 else -1) (hk : p = ψ + k * (2 * π))
    (hap : ∀ r θ, InE e r θ → Apart d r (θ - ψ)) (p0 : e.e3 ≤ p) (p1 : e.e2 + π ≤ p) (p2 : p ≤ e.e3 + π)
    (p3 : p ≤ e.e2 + 2 * π) (p4 : p ≠ e.e3 ∨ e.e3 - e.e2 < 2 * π) :
    Framed d ψ σ c e (if m.zPosition > 0 then orderAngles π g2.2 g3.2 else orderAngles π g3.2 g2.2) := by
  have hp := pi_pos
  obtain ⟨d0, h0, h01, h23, h2p⟩ := S
  have he1 : 0 < e.e1 := d0.trans hd1
  have hap' : ∀ r δ', e.e0 ≤ r → r ≤ e.e1 → e.e2 - p + 2 * π ≤ δ' → δ' ≤ e.e3 - p + 2 * π → Apart d r δ' := by
    intro r δ' q0 q1 q2 q3
    have := apart_shift (p := p - 2 * π) (k := k - 1) (by rw [hk]; push_cast; ring)
      (hap r (δ' + p - 2 * π) ⟨q0, q1, by linarith, by linarith⟩)
    have e : δ' + p - 2 * π - (p - 2 * π) = δ' := by ring
    rwa [e] at this
  have W := within_behind (a := e.e2 - p + 2 * π) (b := e.e3 - p + 2 * π) d0 h0 h01 hd1.le (by linarith)
    (by linarith) (by linarith) (by linarith) hap'
  have hk' : p - 2 * π = ψ + (k - 1 : ℤ) * (2 * π) := by rw [hk]; push_cast; ring
  have ea : e.e2 - p + 2 * π = e.e2 - (p - 2 * π) := by ring
  have eb : e.e3 - p + 2 * π = e.e3 - (p - 2 * π) := by ring
  have m2 : InE e e.e1 e.e2 := ⟨h01, le_rfl, le_rfl, h23⟩
  have m3 : InE e e.e1 e.e3 := ⟨h01, le_rfl, h23, le_rfl⟩
  have s2 : See d e.e1 (e.e2 - ψ) (sight d e.e1 (e.e2 - p + 2 * π)) := by
    have := sight_see (hap' e.e1 (e.e2 - p + 2 * π) h01 le_rfl le_rfl (by linarith))
    exact see_shift hk' (by rw [← ea]; exact this)
  have hapb : Apart d e.e1 (2 * π - (e.e3 - p + 2 * π)) := apart_of_lt d0 (Or.inl hd1)
  have s3 : See d e.e1 (e.e3 - ψ) (2 * π - sight d e.e1 (2 * π - (e.e3 - p + 2 * π))) := by
    have := (sight_see hapb).turn'
    rw [sub_sub_cancel] at this
    exact see_shift hk' (by rw [← eb]; exact this)
  have n1 := sight_nonneg (d := d) (r := e.e1) (δ := e.e2 - p + 2 * π) he1.le (by linarith) (by linarith)
  have n2 := sight_nonneg (d := d) (r := e.e1) (δ := 2 * π - (e.e3 - p + 2 * π)) he1.le (by linarith) (by linarith)
  have n3 := sight_le_pi (d := d) (r := e.e1) (δ := e.e2 - p + 2 * π)
  have n4 := sight_le_pi (d := d) (r := e.e1) (δ := 2 * π - (e.e3 - p + 2 * π))
  have hlt : 2 * π - sight d e.e1 (2 * π - (e.e3 - p + 2 * π)) - sight d e.e1 (e.e2 - p + 2 * π) < 2 * π := by
    by_cases q : p = e.e3
    · have p4' : e.e3 - e.e2 < 2 * π := by
        rcases p4 with h | h
        · exact absurd q h
        · exact h
      have := sight_pos (r := e.e1) (δ := e.e2 - p + 2 * π) d0 he1 (by linarith) (by linarith)
      linarith
    · have : e.e3 < p := lt_of_le_of_ne p0 (Ne.symm q)
      have := sight_pos (r := e.e1) (δ := 2 * π - (e.e3 - p + 2 * π)) d0 he1 (by linarith) (by linarith)
      linarith
  rw [ea, eb] at W
  have hw := within_shift hk' W
  rw [← ea, ← eb] at hw
  obtain ⟨f1, f2⟩ := framed_order hw (by linarith) hlt m2 s2 C.c2 m3 s3 C.c3
  exact framed_sigma hσ f1 f2

/-- The angles if the global origin is in front of the sector, `orderAngles` of the inner corners. -/
theorem framed_ahead {p : ℝ} {k : ℤ} (S : Shape d e) (hd1 : d < e.e1) (C : Corners d ψ σ c e g0 g1 g2 g3)
    (hσ : σ = if m.zPosition > 0 then 1 else -1) (hk : p = ψ + k * (2 * π))
    (hap : ∀ r θ, InE e r θ → Apart d r (θ - ψ)) (p0 : e.e2 ≤ p) (p1 : p ≤ e.e3) (p2 : e.e3 - π ≤ p)
    (p3 : p < e.e2 + π) :
    Framed d ψ σ c e (if m.zPosition > 0 then orderAngles π g0.2 g1.2 else orderAngles π g1.2 g0.2) := by
  have hp := pi_pos
  obtain ⟨d0, h0, h01, h23, h2p⟩ := S
  have hd0 := lt_of_ahead hd1 hk hap p0 p1
  have W := within_ahead (a := e.e2 - p) (b := e.e3 - p) d0 hd0 h01 (by linarith) (by linarith) (by linarith)
    (by linarith)
  have s0 := (top_see (b := -(e.e2 - p)) d0 hd0 h01).neg
  have s1 := top_see (b := e.e3 - p) d0 hd0 h01
  have n0 := top_nonneg (e1 := e.e1) (b := -(e.e2 - p)) d0 hd0 (by linarith)
  have n1 := top_nonneg (e1 := e.e1) (b := e.e3 - p) d0 hd0 (by linarith)
  rw [neg_neg] at s0
  unfold topR at s0 s1
  rw [if_pos (by linarith)] at s0 s1
  have hlt : top d e.e0 e.e1 (e.e3 - p) - -top d e.e0 e.e1 (-(e.e2 - p)) < 2 * π := by
    unfold top
    rw [if_pos (by linarith), if_pos (by linarith)]
    have := sight_lt_pi (δ := -(e.e2 - p)) d0 hd0 (by linarith) (by linarith)
    have := sight_le_pi (d := d) (r := e.e0) (δ := e.e3 - p)
    linarith
  obtain ⟨f1, f2⟩ := framed_order (within_shift hk W) (by linarith) hlt ⟨le_rfl, h01, le_rfl, h23⟩ (see_shift hk s0)
    C.c0 ⟨le_rfl, h01, h23, le_rfl⟩ (see_shift hk s1) C.c1
  exact framed_sigma hσ f1 f2

/-- The angles if the global origin is within the outer circle and the sector is less than pi. -/
theorem polarPhiA_framed (S : Shape d e) (hd1 : d < e.e1) (hw : e.e3 - e.e2 < π)
    (C : Corners d ψ σ c e g0 g1 g2 g3) (hσ : σ = if m.zPosition > 0 then 1 else -1)
    (hap : ∀ r θ, InE e r θ → Apart d r (θ - ψ)) :
    Framed d ψ σ c e (polarPhiA realTrig m e (d, ψ) g0 g1 g2 g3) := by
  have hp := pi_pos
  have S' := S
  obtain ⟨d0, h0, h01, h23, h2p⟩ := S'
  have he1 : 0 < e.e1 := d0.trans hd1
  obtain ⟨p0, p1, k, hk⟩ := wrapInto_spec e.e2 ψ
  unfold polarPhiA phiGlobalOrigin
  dsimp only
  rw [realTrig_pi]
  set p := wrapInto π e.e2 ψ with hpdef
  by_cases c1 : p < e.e3
  · rw [if_pos c1]
    have hd0 := lt_of_ahead hd1 hk hap p0 c1.le
    rw [if_pos hd0.le]
    exact framed_ahead S hd1 C hσ hk hap p0 c1.le (by linarith) (by linarith)
  · rw [if_neg c1]
    push Not at c1
    by_cases c2 : p < e.e2 + π
    · rw [if_pos c2]
      have hap' : ∀ r δ', e.e0 ≤ r → r ≤ e.e1 → p - e.e3 ≤ δ' → δ' ≤ p - e.e2 → Apart d r δ' := by
        intro r δ' q0 q1 q2 q3 hh
        refine apart_shift hk (hap r (p - δ') ⟨q0, q1, by linarith, by linarith⟩) ?_
        have e : p - δ' - p = -δ' := by ring
        rw [e, cos_neg, sin_neg]
        exact ⟨hh.1, by linarith [hh.2]⟩
      have W := (within_upper (a := p - e.e3) (b := p - e.e2) d0 h0 h01 hd1.le (by linarith) (by linarith)
        (by linarith) hap').neg
      rw [neg_sub, neg_sub] at W
      have s3 : See d e.e1 (e.e3 - p) (-sight d e.e1 (p - e.e3)) := by
        have := (sight_see (hap' e.e1 (p - e.e3) h01 le_rfl le_rfl (by linarith))).neg
        rwa [neg_sub] at this
      have s1 : See d e.e0 (e.e3 - p) (-sight d e.e0 (p - e.e3)) := by
        have := (sight_see (hap' e.e0 (p - e.e3) le_rfl h01 le_rfl (by linarith))).neg
        rwa [neg_sub] at this
      have s0 : See d e.e0 (e.e2 - p) (-sight d e.e0 (p - e.e2)) := by
        have := (sight_see (hap' e.e0 (p - e.e2) le_rfl h01 (by linarith) le_rfl)).neg
        rwa [neg_sub] at this
      have k1 := sight_far d0 h0 h01 (δ := p - e.e3) (by linarith) (by linarith)
        (hap' _ _ le_rfl h01 le_rfl (by linarith)) (hap' _ _ h01 le_rfl le_rfl (by linarith))
      have k2 := sight_far d0 h0 h01 (δ := p - e.e2) (by linarith) (by linarith)
        (hap' _ _ le_rfl h01 (by linarith) le_rfl) (hap' _ _ h01 le_rfl (by linarith) le_rfl)
      have k3 := sight_grow (r := e.e1) (δ1 := p - e.e3) (δ2 := p - e.e2) d0 he1.le (by linarith) (by linarith)
        (by linarith) (by have := cos_le_one (p - e.e3); nlinarith) (hap' _ _ h01 le_rfl le_rfl (by linarith))
        (hap' _ _ h01 le_rfl (by linarith) le_rfl)
      have k4 := sight_le_pi (d := d) (r := e.e0) (δ := p - e.e3)
      have k5 := sight_le_pi (d := d) (r := e.e0) (δ := p - e.e2)
      have k6 := sight_nonneg (d := d) (r := e.e1) (δ := p - e.e3) he1.le (by linarith) (by linarith)
      rw [max_comm, ← min_neg_neg] at W
      obtain ⟨f1, f2⟩ := framed_to (within_shift hk W) (by linarith) (by linarith) (by linarith) (by linarith)
        ⟨h01, le_rfl, h23, le_rfl⟩ (see_shift hk s3) C.c3 ⟨le_rfl, h01, le_rfl, h23⟩ (see_shift hk s0) C.c0
        ⟨le_rfl, h01, h23, le_rfl⟩ (see_shift hk s1) C.c1
      exact framed_sigma hσ
        (fun h => f2 h _ _ (wrapBelowOf_window C.c3.nonneg C.c3.lt C.c0.nonneg C.c0.lt)
          (wrapBelowOf_window C.c3.nonneg C.c3.lt C.c1.nonneg C.c1.lt))
        (fun h => f1 h _ _ (wrapAboveOf_window C.c3.nonneg C.c3.lt C.c0.nonneg C.c0.lt)
          (wrapAboveOf_window C.c3.nonneg C.c3.lt C.c1.nonneg C.c1.lt))
    · rw [if_neg c2]
      push Not at c2
      by_cases c3 : p < e.e3 + π
      · rw [if_pos c3]
        exact framed_behind S hd1 C hσ hk hap c1 c2 c3.le p1 (Or.inr (by linarith))
      · rw [if_neg c3]
        push Not at c3
        have hk' : p - 2 * π = ψ + (k - 1 : ℤ) * (2 * π) := by rw [hk]; push_cast; ring
        have hap' : ∀ r δ', e.e0 ≤ r → r ≤ e.e1 → e.e2 - (p - 2 * π) ≤ δ' → δ' ≤ e.e3 - (p - 2 * π) →
            Apart d r δ' := by
          intro r δ' q0 q1 q2 q3
          have := apart_shift hk' (hap r (δ' + (p - 2 * π)) ⟨q0, q1, by linarith, by linarith⟩)
          rwa [add_sub_cancel_right] at this
        have W := within_upper (a := e.e2 - (p - 2 * π)) (b := e.e3 - (p - 2 * π)) d0 h0 h01 hd1.le (by linarith)
          (by linarith) (by linarith) hap'
        have s2 := sight_see (hap' e.e1 (e.e2 - (p - 2 * π)) h01 le_rfl le_rfl (by linarith))
        have s0 := sight_see (hap' e.e0 (e.e2 - (p - 2 * π)) le_rfl h01 le_rfl (by linarith))
        have s1 := sight_see (hap' e.e0 (e.e3 - (p - 2 * π)) le_rfl h01 (by linarith) le_rfl)
        have k1 := sight_far d0 h0 h01 (δ := e.e2 - (p - 2 * π)) (by linarith) (by linarith)
          (hap' _ _ le_rfl h01 le_rfl (by linarith)) (hap' _ _ h01 le_rfl le_rfl (by linarith))
        have k2 := sight_far d0 h0 h01 (δ := e.e3 - (p - 2 * π)) (by linarith) (by linarith)
          (hap' _ _ le_rfl h01 (by linarith) le_rfl) (hap' _ _ h01 le_rfl (by linarith) le_rfl)
        have k3 := sight_grow (r := e.e1) (δ1 := e.e2 - (p - 2 * π)) (δ2 := e.e3 - (p - 2 * π)) d0 he1.le
          (by linarith) (by linarith) (by linarith) (by have := cos_le_one (e.e2 - (p - 2 * π)); nlinarith)
          (hap' _ _ h01 le_rfl le_rfl (by linarith)) (hap' _ _ h01 le_rfl (by linarith) le_rfl)
        have k4 := sight_le_pi (d := d) (r := e.e0) (δ := e.e2 - (p - 2 * π))
        have k5 := sight_le_pi (d := d) (r := e.e0) (δ := e.e3 - (p - 2 * π))
        have k6 := sight_nonneg (d := d) (r := e.e1) (δ := e.e2 - (p - 2 * π)) he1.le (by linarith) (by linarith)
        obtain ⟨f1, f2⟩ := framed_from (within_shift hk' W) (by linarith) (by linarith) (by linarith) (by linarith)
          ⟨h01, le_rfl, le_rfl, h23⟩ (see_shift hk' s2) C.c2 ⟨le_rfl, h01, le_rfl, h23⟩ (see_shift hk' s0) C.c0
          ⟨le_rfl, h01, h23, le_rfl⟩ (see_shift hk' s1) C.c1
        exact framed_sigma hσ
          (fun h => f1 h _ _ (wrapInto_window C.c2.nonneg C.c2.lt C.c0.nonneg C.c0.lt)
            (wrapInto_window C.c2.nonneg C.c2.lt C.c1.nonneg C.c1.lt))
          (fun h => f2 h _ _ (wrapBelowOf_window C.c2.nonneg C.c2.lt C.c0.nonneg C.c0.lt)
            (wrapBelowOf_window C.c2.nonneg C.c2.lt C.c1.nonneg C.c1.lt))

/-- From within a circle every direction leads to a point of it. -/
theorem reach (hd : 0 < d) (hr : d < r) (b0 : 0 ≤ β) (b1 : β ≤ π) : ∃ δ, 0 ≤ δ ∧ δ ≤ π ∧ See d r δ β := by
  have q := sin_sq_add_cos_sq β
  set t := √(r ^ 2 - (d * sin β) ^ 2) with ht
  have hpos : (d * cos β) ^ 2 < r ^ 2 - (d * sin β) ^ 2 := by
    have : (d * cos β) ^ 2 + (d * sin β) ^ 2 = d ^ 2 := by linear_combination d ^ 2 * q
    nlinarith
  have ht2 : t ^ 2 = r ^ 2 - (d * sin β) ^ 2 := sq_sqrt (by nlinarith [sq_nonneg (d * cos β)])
  have hts : 0 < t - d * cos β := by
    have h1 : |d * cos β| < t := by
      rw [ht]
      apply lt_sqrt_of_sq_lt
      rwa [sq_abs]
    have := le_abs_self (d * cos β)
    linarith
  set s := t - d * cos β with hs
  -- the point
  set z : ℂ := ⟨d + s * cos β, s * sin β⟩ with hz
  have hn : ‖z‖ = r := by
    have h2 : ‖z‖ ^ 2 = r ^ 2 := by
      rw [← Complex.normSq_eq_norm_sq, Complex.normSq_apply]
      show (d + s * cos β) * (d + s * cos β) + s * sin β * (s * sin β) = r ^ 2
      have e1 : t = s + d * cos β := by rw [hs]; ring
      rw [e1] at ht2
      linear_combination ht2 + s ^ 2 * q - d ^ 2 * q
    exact (pow_left_inj₀ (norm_nonneg _) (by linarith) two_ne_zero).1 h2
  have him : 0 ≤ s * sin β := mul_nonneg hts.le (sin_nonneg_of_nonneg_of_le_pi b0 b1)
  refine ⟨Complex.arg z, Complex.arg_nonneg_iff.2 him, Complex.arg_le_pi z, s, hts, ?_, ?_⟩
  · rw [← hn, Complex.norm_mul_cos_arg]
    show d + s * cos β - d = s * cos β
    ring
  · rw [← hn, Complex.norm_mul_sin_arg]

theorem sight_eq (hr : 0 ≤ r) (h0 : 0 ≤ δ) (h1 : δ ≤ π) (b0 : 0 ≤ β) (b1 : β ≤ π) (hs : See d r δ β) :
    sight d r δ = β := by
  obtain ⟨k, hk⟩ := see_unique (sight_see hs.apart) hs
  have hp := pi_pos
  have n0 := sight_nonneg (d := d) hr h0 h1
  have n1 := sight_le_pi (d := d) (r := r) (δ := δ)
  have := turn_unique (lo := 0) hk b0 (by linarith) n0 (by linarith)
  rw [this] at hk
  push_cast at hk
  linarith

theorem top_reach {e0 e1 b : ℝ} (hd : 0 < d) (h0 : d < e0) (h01 : e0 ≤ e1) (hb0 : 0 ≤ b) (hb : b ≤ 2 * π)
    (b0 : 0 ≤ β) (b1 : β ≤ top d e0 e1 b) : ∃ r δ, e0 ≤ r ∧ r ≤ e1 ∧ 0 ≤ δ ∧ δ ≤ b ∧ See d r δ β := by
  have hp := pi_pos
  have hcos : ∀ r' x, e0 ≤ r' → d * cos x ≤ r' := by
    intro r' x h
    have := cos_le_one x
    nlinarith
  have hap : ∀ r' δ', e0 ≤ r' → Apart d r' δ' := fun r' δ' h => apart_of_lt hd (Or.inl (by linarith))
  unfold top at b1
  split_ifs at b1 with h
  · have bπ : β ≤ π := b1.trans sight_le_pi
    obtain ⟨δ, q0, q1, q2⟩ := reach hd h0 b0 bπ
    by_cases hδ : δ ≤ b
    · exact ⟨e0, δ, le_rfl, h01, q0, hδ, q2⟩
    · push Not at hδ
      have e1' := sight_eq (by linarith) q0 q1 b0 bπ q2
      have := sight_grow hd (r := e0) (by linarith) hb0 hδ.le q1 (hcos _ _ le_rfl) (hap _ _ le_rfl) (hap _ _ le_rfl)
      have e2 : β = sight d e0 b := le_antisymm b1 (by rw [← e1']; exact this)
      exact ⟨e0, b, le_rfl, h01, hb0, le_rfl, by rw [e2]; exact sight_see (hap _ _ le_rfl)⟩
  · push Not at h
    by_cases bπ : β ≤ π
    · obtain ⟨δ, q0, q1, q2⟩ := reach hd h0 b0 bπ
      exact ⟨e0, δ, le_rfl, h01, q0, q1.trans h.le, q2⟩
    · push Not at bπ
      have n0 := sight_nonneg (d := d) (r := e1) (δ := 2 * π - b) (by linarith) (by linarith) (by linarith)
      obtain ⟨η, q0, q1, q2⟩ := reach hd (r := e1) (β := 2 * π - β) (by linarith) (by linarith) (by linarith)
      have q2' := q2.turn'
      rw [sub_sub_cancel] at q2'
      by_cases hη : 2 * π - b ≤ η
      · exact ⟨e1, 2 * π - η, h01, le_rfl, by linarith, by linarith, q2'⟩
      · push Not at hη
        have e1' := sight_eq (by linarith) q0 q1 (by linarith) (by linarith) q2
        have := sight_grow hd (r := e1) (by linarith) q0 hη.le (by linarith) (hcos _ _ h01) (hap _ _ h01)
          (hap _ _ h01)
        have e2 : 2 * π - β = sight d e1 (2 * π - b) := by linarith
        have hs := (sight_see (hap e1 (2 * π - b) h01)).turn'
        rw [← e2, sub_sub_cancel, sub_sub_cancel] at hs
        exact ⟨e1, b, h01, le_rfl, hb0, le_rfl, hs⟩

/-- If the sector goes all around the point it is seen from, it is seen in every direction. -/
theorem ahead_full {e0 e1 a b : ℝ} (hd : 0 < d) (h0 : d < e0) (h01 : e0 ≤ e1) (ha : a ≤ 0) (ha' : -(2 * π) ≤ a)
    (hb0 : 0 ≤ b) (hb : b ≤ 2 * π) (hf : 2 * π ≤ top d e0 e1 b - -top d e0 e1 (-a)) (β : ℝ) :
    ∃ r δ, e0 ≤ r ∧ r ≤ e1 ∧ a ≤ δ ∧ δ ≤ b ∧ See d r δ β := by
  obtain ⟨w0, w1, k, hk⟩ := wrapInto_spec (-top d e0 e1 (-a)) β
  set β' := wrapInto π (-top d e0 e1 (-a)) β with hβ
  have back : ∀ {r δ}, See d r δ β' → See d r δ β := by
    intro r δ h
    have := h.turn 0 (-k)
    push_cast at this
    rw [zero_mul, add_zero] at this
    have e : β' + -k * (2 * π) = β := by rw [hk]; ring
    rwa [e] at this
  rcases le_total 0 β' with h | h
  · obtain ⟨r, δ, q0, q1, q2, q3, q4⟩ := top_reach hd h0 h01 hb0 hb h (by linarith)
    exact ⟨r, δ, q0, q1, by linarith, q3, back q4⟩
  · obtain ⟨r, δ, q0, q1, q2, q3, q4⟩ := top_reach (b := -a) (β := -β') hd h0 h01 (by linarith) (by linarith)
      (by linarith) (by linarith)
    have := q4.neg
    rw [neg_neg] at this
    exact ⟨r, -δ, q0, q1, by linarith, by linarith, back this⟩

theorem top_see_outer {e0 e1 b : ℝ} (hd : 0 < d) (h0 : d < e0) (h01 : e0 ≤ e1) (hb : π ≤ b) :
    See d e1 b (top d e0 e1 b) := by
  rcases eq_or_lt_of_le hb with h | h
  · subst h
    have : top d e0 e1 π = sight d e1 π := by
      unfold top
      rw [if_pos le_rfl, sight_pi hd (by linarith), sight_pi hd (by linarith)]
    rw [this]
    exact sight_see (apart_of_lt hd (Or.inl (by linarith)))
  · have := top_see (b := b) hd h0 h01
    unfold topR at this
    rwa [if_neg (by push Not; exact h)] at this

/-- The angles if the global origin is within the outer circle and the sector is at least pi. -/
theorem polarPhiB_framed (S : Shape d e) (hd1 : d < e.e1) (hw : π ≤ e.e3 - e.e2)
    (C : Corners d ψ σ c e g0 g1 g2 g3) (hσ : σ = if m.zPosition > 0 then 1 else -1)
    (hap : ∀ r θ, InE e r θ → Apart d r (θ - ψ)) :
    Framed d ψ σ c e (polarPhiB realTrig m e (d, ψ) g0 g1 g2 g3) := by
  have hp := pi_pos
  have S' := S
  obtain ⟨d0, h0, h01, h23, h2p⟩ := S'
  obtain ⟨p0, p1, k, hk⟩ := wrapInto_spec e.e2 ψ
  unfold polarPhiB phiGlobalOrigin
  dsimp only
  rw [realTrig_pi]
  set p := wrapInto π e.e2 ψ with hpdef
  by_cases c1 : p > e.e3
  · rw [if_pos c1]
    exact framed_behind S hd1 C hσ hk hap c1.le (by linarith) (by linarith) p1 (Or.inl (ne_of_gt c1))
  · rw [if_neg c1]
    push Not at c1
    have hd0 := lt_of_ahead hd1 hk hap p0 c1
    rw [if_pos hd0.le]
    have W := within_ahead (a := e.e2 - p) (b := e.e3 - p) d0 hd0 h01 (by linarith) (by linarith) (by linarith)
      (by linarith)
    have n0 := top_nonneg (e1 := e.e1) (b := -(e.e2 - p)) d0 hd0 (by linarith)
    have n1 := top_nonneg (e1 := e.e1) (b := e.e3 - p) d0 hd0 (by linarith)
    have n2 := top_le (b := -(e.e2 - p)) d0 hd0 h01 (by linarith)
    have n3 := top_le (b := e.e3 - p) d0 hd0 h01 (by linarith)
    have hfull : 2 * π ≤ top d e.e0 e.e1 (e.e3 - p) - -top d e.e0 e.e1 (-(e.e2 - p)) →
        ∀ β, ∃ r θ, InE e r θ ∧ See d r (θ - ψ) β := by
      intro hf β
      obtain ⟨r, δ, q0, q1, q2, q3, q4⟩ := ahead_full (a := e.e2 - p) (b := e.e3 - p) d0 hd0 h01 (by linarith)
        (by linarith) (by linarith) (by linarith) hf β
      refine ⟨r, δ + p, ⟨q0, q1, by linarith, by linarith⟩, see_shift hk ?_⟩
      rwa [add_sub_cancel_right]
    by_cases c2 : p < e.e3 - π
    · rw [if_pos c2]
      have s0 := (top_see (b := -(e.e2 - p)) d0 hd0 h01).neg
      have s3 := top_see (b := e.e3 - p) d0 hd0 h01
      rw [neg_neg] at s0
      unfold topR at s0 s3
      rw [if_pos (by linarith)] at s0
      rw [if_neg (by push Not; linarith)] at s3
      have g1 : π ≤ top d e.e0 e.e1 (e.e3 - p) := by
        unfold top
        rw [if_neg (by push Not; linarith)]
        have := sight_le_pi (d := d) (r := e.e1) (δ := 2 * π - (e.e3 - p))
        linarith
      have g2 : top d e.e0 e.e1 (-(e.e2 - p)) < π := by
        unfold top
        rw [if_pos (by linarith)]
        exact sight_lt_pi d0 hd0 (by linarith) (by linarith)
      obtain ⟨f1, f2⟩ := framed_wide (within_shift hk W) (by linarith) (by linarith) hfull
        ⟨le_rfl, h01, le_rfl, h23⟩ (see_shift hk s0) C.c0 ⟨h01, le_rfl, h23, le_rfl⟩ (see_shift hk s3) C.c3
      exact framed_sigma hσ f1 f2
    · rw [if_neg c2]
      push Not at c2
      by_cases c3 : p < e.e2 + π
      · rw [if_pos c3]
        exact framed_ahead S hd1 C hσ hk hap p0 c1 c2 c3
      · rw [if_neg c3]
        push Not at c3
        rw [if_pos (by linarith)]
        have s2 := (top_see_outer (b := -(e.e2 - p)) d0 hd0 h01 (by linarith)).neg
        have s1 := top_see (b := e.e3 - p) d0 hd0 h01
        rw [neg_neg] at s2
        unfold topR at s1
        rw [if_pos (by linarith)] at s1
        have g1 : π ≤ top d e.e0 e.e1 (-(e.e2 - p)) := by
          unfold top
          split_ifs with hh
          · have : -(e.e2 - p) = π := by linarith
            rw [this, sight_pi d0 (by linarith)]
          · have := sight_le_pi (d := d) (r := e.e1) (δ := 2 * π - -(e.e2 - p))
            linarith
        have g2 : top d e.e0 e.e1 (e.e3 - p) + top d e.e0 e.e1 (-(e.e2 - p)) < 3 * π := by
          by_cases hb : e.e3 - p = π
          · have ha : -(e.e2 - p) = π := by linarith
            rw [ha, hb]
            unfold top
            rw [if_pos le_rfl, sight_pi d0 (by linarith)]
            linarith
          · have : top d e.e0 e.e1 (e.e3 - p) < π := by
              unfold top
              rw [if_pos (by linarith)]
              exact sight_lt_pi d0 hd0 (by linarith) (lt_of_le_of_ne (by linarith) hb)
            linarith
        obtain ⟨f1, f2⟩ := framed_wide (within_shift hk W) (by linarith) (by linarith) hfull
          ⟨h01, le_rfl, le_rfl, h23⟩ (see_shift hk s2) C.c2 ⟨le_rfl, h01, h23, le_rfl⟩ (see_shift hk s1) C.c1
        exact framed_sigma hσ f1 f2

/-! ### The global origin outside of the outer circle -/

theorem min4_spec (a0 a1 a2 a3 : ℝ) : (min4 a0 a1 a2 a3 = a0 ∨ min4 a0 a1 a2 a3 = a1 ∨ min4 a0 a1 a2 a3 = a2 ∨
    min4 a0 a1 a2 a3 = a3) ∧ min4 a0 a1 a2 a3 ≤ a0 ∧ min4 a0 a1 a2 a3 ≤ a1 ∧ min4 a0 a1 a2 a3 ≤ a2 ∧
    min4 a0 a1 a2 a3 ≤ a3 := by
  unfold min4
  dsimp only
  split_ifs <;> refine ⟨by tauto, ?_, ?_, ?_, ?_⟩ <;> linarith

theorem max4_spec (a0 a1 a2 a3 : ℝ) : (max4 a0 a1 a2 a3 = a0 ∨ max4 a0 a1 a2 a3 = a1 ∨ max4 a0 a1 a2 a3 = a2 ∨
    max4 a0 a1 a2 a3 = a3) ∧ a0 ≤ max4 a0 a1 a2 a3 ∧ a1 ≤ max4 a0 a1 a2 a3 ∧ a2 ≤ max4 a0 a1 a2 a3 ∧
    a3 ≤ max4 a0 a1 a2 a3 := by
  unfold max4
  dsimp only
  split_ifs <;> refine ⟨by tauto, ?_, ?_, ?_, ?_⟩ <;> linarith

theorem min4_add (x b0 b1 b2 b3 : ℝ) : min4 (x + b0) (x + b1) (x + b2) (x + b3) = x + min4 b0 b1 b2 b3 := by
  unfold min4
  dsimp only
  split_ifs <;> first | rfl | (exfalso; linarith)

theorem max4_add (x b0 b1 b2 b3 : ℝ) : max4 (x + b0) (x + b1) (x + b2) (x + b3) = x + max4 b0 b1 b2 b3 := by
  unfold max4
  dsimp only
  split_ifs <;> first | rfl | (exfalso; linarith)

theorem min4_sub (x b0 b1 b2 b3 : ℝ) : min4 (x - b0) (x - b1) (x - b2) (x - b3) = x - max4 b0 b1 b2 b3 := by
  unfold min4 max4
  dsimp only
  split_ifs <;> first | rfl | (exfalso; linarith)

theorem max4_sub (x b0 b1 b2 b3 : ℝ) : max4 (x - b0) (x - b1) (x - b2) (x - b3) = x - min4 b0 b1 b2 b3 := by
  unfold min4 max4
  dsimp only
  split_ifs <;> first | rfl | (exfalso; linarith)

/-- Whether the point where a tangent touches the outer circle is found to be in the sector. -/
theorem touch_found {x t e1 : ℝ} {j : ℤ} (h23 : e.e2 ≤ e.e3) (hx : x = ψ + t + j * (2 * π)) (hcos : d * cos t = e1)
    (n2 : d * cos (e.e2 - ψ) ≠ e1) (n3 : d * cos (e.e3 - ψ) ≠ e1) :
    (wrapInto π e.e2 x < e.e3 → ∃ θ, e.e2 ≤ θ ∧ θ ≤ e.e3 ∧ ∃ k : ℤ, θ - ψ = t + k * (2 * π)) ∧
      (¬ wrapInto π e.e2 x < e.e3 → ∀ k : ℤ, ¬ (e.e2 - ψ ≤ t + k * (2 * π) ∧ t + k * (2 * π) ≤ e.e3 - ψ)) := by
  have hp := pi_pos
  obtain ⟨w0, w1, i, hi⟩ := wrapInto_spec e.e2 x
  have hθ : wrapInto π e.e2 x - ψ = t + (i + j : ℤ) * (2 * π) := by rw [hi, hx]; push_cast; ring
  constructor
  · intro h
    exact ⟨_, w0, h.le, i + j, hθ⟩
  · rintro h k ⟨q0, q1⟩
    push Not at h
    have e : wrapInto π e.e2 x = (ψ + (t + k * (2 * π))) + (i + j - k : ℤ) * (2 * π) := by
      push_cast at hθ ⊢
      linear_combination hθ
    have hend : ∀ k' : ℤ, cos (t + k' * (2 * π)) = cos t := fun k' => cos_add_int_mul_two_pi t k'
    rcases eq_or_lt_of_le q0 with h2 | h2
    · apply n2
      rw [h2, hend, hcos]
    · rcases eq_or_lt_of_le q1 with h3 | h3
      · apply n3
        rw [← h3, hend, hcos]
      · have := turn_unique (lo := ψ + (t + k * (2 * π))) e (by linarith) (by linarith) le_rfl (by linarith)
        rw [this] at e
        push_cast at e
        linarith

/-- The angles if the global origin is outside of the outer circle. -/
theorem framed_outside (S : Shape d e) (he1 : 0 < e.e1) (hd1 : e.e1 ≤ d) (C : Corners d ψ σ c e g0 g1 g2 g3)
    (hap : ∀ r θ, InE e r θ → Apart d r (θ - ψ))
    (n2 : d * cos (e.e2 - ψ) ≠ e.e1) (n3 : d * cos (e.e3 - ψ) ≠ e.e1)
    {og : ℝ} {j0 : ℤ} (hog : og = c + σ * π + j0 * (2 * π)) {x y : ℝ} {j1 j2 : ℤ}
    (hx : x = ψ + touch d e.e1 + j1 * (2 * π)) (hy : y = ψ + -touch d e.e1 + j2 * (2 * π)) :
    let tangentMin := og - arcsin (e.e1 / d)
    let tangentMax := og + arcsin (e.e1 / d)
    let a0 := wrapInto π tangentMin g0.2
    let a1 := wrapInto π tangentMin g1.2
    let a2 := wrapInto π tangentMin g2.2
    let a3 := wrapInto π tangentMin g3.2
    (σ = 1 → Framed d ψ σ c e
      (if wrapInto π e.e2 x < e.e3 then tangentMin else min4 a0 a1 a2 a3,
       if wrapInto π e.e2 y < e.e3 then tangentMax else max4 a0 a1 a2 a3)) ∧
    (σ = -1 → Framed d ψ σ c e
      (if wrapInto π e.e2 y < e.e3 then tangentMin else min4 a0 a1 a2 a3,
       if wrapInto π e.e2 x < e.e3 then tangentMax else max4 a0 a1 a2 a3)) := by
  intro tangentMin tangentMax a0 a1 a2 a3
  have hp := pi_pos
  obtain ⟨d0, h0, h01, h23, h2p⟩ := S
  have hap' : ∀ r δ', e.e0 ≤ r → r ≤ e.e1 → e.e2 - ψ ≤ δ' → δ' ≤ e.e3 - ψ → Apart d r δ' := by
    intro r δ' q0 q1 q2 q3
    have := hap r (δ' + ψ) ⟨q0, q1, by linarith, by linarith⟩
    rwa [add_sub_cancel_right] at this
  obtain ⟨t0, t1⟩ := tangent_range d0 he1
  have hτ := touch_cos d0 he1.le hd1
  have hasin : arcsin (e.e1 / d) = π - tangent d e.e1 := by unfold tangent; ring
  -- the directions of the corners
  have hcor : ∀ r θ, InE e r θ → ∃ β, tangent d e.e1 ≤ β ∧ β ≤ 2 * π - tangent d e.e1 ∧ See d r (θ - ψ) β := by
    rintro r θ ⟨q0, q1, q2, q3⟩
    obtain ⟨β, b1, b2, b3, -⟩ := outside_corners d0 h0 h01 he1 hd1 hap' (r := r) (δ := θ - ψ) q0 q1 (by linarith)
      (by linarith)
    exact ⟨β, b1, b2, b3⟩
  have m0 : InE e e.e0 e.e2 := ⟨le_rfl, h01, le_rfl, h23⟩
  have m1 : InE e e.e0 e.e3 := ⟨le_rfl, h01, h23, le_rfl⟩
  have m2 : InE e e.e1 e.e2 := ⟨h01, le_rfl, le_rfl, h23⟩
  have m3 : InE e e.e1 e.e3 := ⟨h01, le_rfl, h23, le_rfl⟩
  obtain ⟨b0, l0, u0, s0⟩ := hcor _ _ m0
  obtain ⟨b1, l1, u1, s1⟩ := hcor _ _ m1
  obtain ⟨b2, l2, u2, s2⟩ := hcor _ _ m2
  obtain ⟨b3, l3, u3, s3⟩ := hcor _ _ m3
  -- none of them is that of a tangent
  have ne1 : ∀ {r θ β}, InE e r θ → (θ = e.e2 ∨ θ = e.e3) → See d r (θ - ψ) β → β ≠ tangent d e.e1 := by
    rintro r θ β hm hθ hs rfl
    have := (tangent_unique d0 he1 hd1 (h0.trans hm.1) hm.2.1 hs).2
    rcases hθ with rfl | rfl
    · exact n2 this
    · exact n3 this
  have ne2 : ∀ {r θ β}, InE e r θ → (θ = e.e2 ∨ θ = e.e3) → See d r (θ - ψ) β → β ≠ 2 * π - tangent d e.e1 := by
    rintro r θ β hm hθ hs rfl
    have hs' := hs.neg.turn 0 1
    push_cast at hs'
    rw [zero_mul, add_zero] at hs'
    have e1 : -(2 * π - tangent d e.e1) + 1 * (2 * π) = tangent d e.e1 := by ring
    rw [e1] at hs'
    have := (tangent_unique d0 he1 hd1 (h0.trans hm.1) hm.2.1 hs').2
    rw [cos_neg] at this
    rcases hθ with rfl | rfl
    · exact n2 this
    · exact n3 this
  have uniq : ∀ {r θ β β'}, tangent d e.e1 ≤ β → β ≤ 2 * π - tangent d e.e1 → tangent d e.e1 ≤ β' →
      β' ≤ 2 * π - tangent d e.e1 → See d r (θ - ψ) β → See d r (θ - ψ) β' → β = β' := by
    intro r θ β β' q0 q1 q2 q3 hs hs'
    obtain ⟨k, hk⟩ := see_unique hs' hs
    have := turn_unique (lo := tangent d e.e1) hk q0 (by linarith) q2 (by linarith)
    rw [this] at hk
    push_cast at hk
    linarith
  have pick : ∀ {r δ' β'}, Corner e.e0 e.e1 (e.e2 - ψ) (e.e3 - ψ) r δ' → See d r δ' β' → tangent d e.e1 ≤ β' →
      β' ≤ 2 * π - tangent d e.e1 → β' = b0 ∨ β' = b1 ∨ β' = b2 ∨ β' = b3 := by
    rintro r δ' β' ⟨hr, hδ⟩ hs q0 q1
    rcases hr with rfl | rfl <;> rcases hδ with rfl | rfl
    · exact Or.inl (uniq q0 q1 l0 u0 hs s0)
    · exact Or.inr (Or.inl (uniq q0 q1 l1 u1 hs s1))
    · exact Or.inr (Or.inr (Or.inl (uniq q0 q1 l2 u2 hs s2)))
    · exact Or.inr (Or.inr (Or.inr (uniq q0 q1 l3 u3 hs s3)))
  obtain ⟨f1, f2⟩ := touch_found (t := touch d e.e1) h23 hx hτ n2 n3
  obtain ⟨f3, f4⟩ := touch_found (t := -touch d e.e1) h23 hy (by rw [cos_neg]; exact hτ) n2 n3
  set lo := if wrapInto π e.e2 x < e.e3 then tangent d e.e1 else min4 b0 b1 b2 b3 with hlo
  set hi := if wrapInto π e.e2 y < e.e3 then 2 * π - tangent d e.e1 else max4 b0 b1 b2 b3 with hhi
  obtain ⟨ms, ml0, ml1, ml2, ml3⟩ := min4_spec b0 b1 b2 b3
  obtain ⟨xs, xl0, xl1, xl2, xl3⟩ := max4_spec b0 b1 b2 b3
  have hw : ∀ r θ, InE e r θ → Apart d r (θ - ψ) → ∃ β, lo ≤ β ∧ β ≤ hi ∧ See d r (θ - ψ) β := by
    rintro r θ ⟨q0, q1, q2, q3⟩ -
    obtain ⟨β, c1, c2, c3, c4, c5⟩ := outside_corners d0 h0 h01 he1 hd1 hap' (r := r) (δ := θ - ψ) q0 q1 (by linarith)
      (by linarith)
    refine ⟨β, ?_, ?_, c3⟩
    · rw [hlo]
      split_ifs with h
      · exact c1
      · obtain ⟨r', δ', β', k1, k2, k3, k4⟩ := c4 (f2 h)
        rcases pick k1 k2 k3 (k4.trans c2) with h | h | h | h <;> rw [h] at k4 <;> linarith
    · rw [hhi]
      split_ifs with h
      · exact c2
      · obtain ⟨r', δ', β', k1, k2, k3, k4⟩ := c5 (f4 h)
        rcases pick k1 k2 (c1.trans k3) k4 with h | h | h | h <;> rw [h] at k3 <;> linarith
  have hloT : tangent d e.e1 ≤ lo := by
    rw [hlo]
    split_ifs
    · exact le_rfl
    · rcases ms with h | h | h | h <;> rw [h] <;> assumption
  have hhiT : hi ≤ 2 * π - tangent d e.e1 := by
    rw [hhi]
    split_ifs
    · exact le_rfl
    · rcases xs with h | h | h | h <;> rw [h] <;> assumption
  have hle : lo ≤ hi := by
    obtain ⟨β, k1, k2, -⟩ := hw _ _ m0 (hap _ _ m0)
    exact k1.trans k2
  have hlt : hi - lo < 2 * π := by linarith
  have hne : ∀ {t : ℝ} {θ : ℝ} {k : ℤ}, e.e2 ≤ θ → θ ≤ e.e3 → θ - ψ = t + k * (2 * π) → cos t = cos (touch d e.e1) →
      sin t ^ 2 = sin (touch d e.e1) ^ 2 → e.e1 < d := by
    intro t θ k q0 q1 q2 hc hs
    refine lt_of_le_of_ne hd1 ?_
    intro heq
    have hc1 : cos (touch d e.e1) = 1 := by
      have : d * (cos (touch d e.e1) - 1) = 0 := by linear_combination hτ + heq
      rcases mul_eq_zero.1 this with h | h
      · exact absurd h d0.ne'
      · linarith
    have hs1 : sin t = 0 := by
      have h1 := sin_sq_add_cos_sq t
      rw [hc, hc1] at h1
      nlinarith
    refine hap e.e1 θ ⟨h01, le_rfl, q0, q1⟩ ?_
    rw [q2, cos_add_int_mul_two_pi, sin_add_int_mul_two_pi, hs1, hc, hc1]
    exact ⟨by linarith, by ring⟩
  have hend1 : ∃ r θ, InE e r θ ∧ See d r (θ - ψ) lo := by
    rw [hlo]
    split_ifs with h
    · obtain ⟨θ, q0, q1, k, q2⟩ := f1 h
      have hlt' := hne q0 q1 q2 rfl rfl
      have := (touch_see d0 he1.le hlt').turn k 0
      push_cast at this
      rw [zero_mul, add_zero, ← q2] at this
      exact ⟨e.e1, θ, ⟨h01, le_rfl, q0, q1⟩, this⟩
    · rcases ms with h | h | h | h <;> rw [h]
      · exact ⟨_, _, m0, s0⟩
      · exact ⟨_, _, m1, s1⟩
      · exact ⟨_, _, m2, s2⟩
      · exact ⟨_, _, m3, s3⟩
  have hend2 : ∃ r θ, InE e r θ ∧ See d r (θ - ψ) hi := by
    rw [hhi]
    split_ifs with h
    · obtain ⟨θ, q0, q1, k, q2⟩ := f3 h
      have hlt' := hne q0 q1 q2 (cos_neg _) (by rw [sin_neg]; ring)
      have := (touch_see d0 he1.le hlt').neg.turn k 1
      push_cast at this
      rw [← q2] at this
      have e1 : -tangent d e.e1 + 1 * (2 * π) = 2 * π - tangent d e.e1 := by ring
      rw [e1] at this
      exact ⟨e.e1, θ, ⟨h01, le_rfl, q0, q1⟩, this⟩
    · rcases xs with h | h | h | h <;> rw [h]
      · exact ⟨_, _, m0, s0⟩
      · exact ⟨_, _, m1, s1⟩
      · exact ⟨_, _, m2, s2⟩
      · exact ⟨_, _, m3, s3⟩
  constructor
  · intro hσ
    have htm : tangentMin = c + tangent d e.e1 + j0 * (2 * π) := by
      show og - arcsin (e.e1 / d) = _
      rw [hasin, hog, hσ]; ring
    have htM : tangentMax = c + (2 * π - tangent d e.e1) + j0 * (2 * π) := by
      show og + arcsin (e.e1 / d) = _
      rw [hasin, hog, hσ]; ring
    have val : ∀ {g : ℝ × ℝ} {r θ b : ℝ}, Hits d ψ σ c g r θ → See d r (θ - ψ) b → tangent d e.e1 ≤ b →
        b ≤ 2 * π - tangent d e.e1 → b ≠ tangent d e.e1 →
        wrapInto π tangentMin g.2 = c + j0 * (2 * π) + b := by
      intro g r θ b hg hs q0 q1 q2
      obtain ⟨k, hk⟩ := hg.pos hσ hs
      obtain ⟨w0, w1, i, hi'⟩ := wrapInto_spec tangentMin g.2
      have q3 : tangent d e.e1 < b := lt_of_le_of_ne q0 (Ne.symm q2)
      have ee : wrapInto π tangentMin g.2 = (c + j0 * (2 * π) + b) + (i + k - j0 : ℤ) * (2 * π) := by
        rw [hi', hk]; push_cast; ring
      have hne' : wrapInto π tangentMin g.2 ≠ tangentMin + 2 * π := by
        intro hh
        rw [hh, htm] at ee
        have e' : tangent d e.e1 = b + (i + k - j0 - 1 : ℤ) * (2 * π) := by push_cast at ee ⊢; linarith
        have := turn_unique (lo := tangent d e.e1) e' le_rfl (by linarith) q0 (by linarith)
        rw [this] at e'
        push_cast at e'
        linarith
      have := turn_unique (lo := tangentMin) ee w0 (lt_of_le_of_ne w1 hne') (by rw [htm]; linarith)
        (by rw [htm]; linarith)
      rw [this] at ee
      push_cast at ee
      linarith
    have ea0 : a0 = c + j0 * (2 * π) + b0 := val C.c0 s0 l0 u0 (ne1 m0 (Or.inl rfl) s0)
    have ea1 : a1 = c + j0 * (2 * π) + b1 := val C.c1 s1 l1 u1 (ne1 m1 (Or.inr rfl) s1)
    have ea2 : a2 = c + j0 * (2 * π) + b2 := val C.c2 s2 l2 u2 (ne1 m2 (Or.inl rfl) s2)
    have ea3 : a3 = c + j0 * (2 * π) + b3 := val C.c3 s3 l3 u3 (ne1 m3 (Or.inr rfl) s3)
    have E1 : (if wrapInto π e.e2 x < e.e3 then tangentMin else min4 a0 a1 a2 a3) = c + lo + j0 * (2 * π) := by
      rw [hlo, ea0, ea1, ea2, ea3, min4_add, htm]
      split_ifs <;> ring
    have E2 : (if wrapInto π e.e2 y < e.e3 then tangentMax else max4 a0 a1 a2 a3) = c + hi + j0 * (2 * π) := by
      rw [hhi, ea0, ea1, ea2, ea3, max4_add, htM]
      split_ifs <;> ring
    rw [E1, E2]
    exact framed_pos hσ hw hle hlt hend1 hend2
  · intro hσ
    have htm : tangentMin = c - (2 * π - tangent d e.e1) + j0 * (2 * π) := by
      show og - arcsin (e.e1 / d) = _
      rw [hasin, hog, hσ]; ring
    have htM : tangentMax = c - tangent d e.e1 + j0 * (2 * π) := by
      show og + arcsin (e.e1 / d) = _
      rw [hasin, hog, hσ]; ring
    have val : ∀ {g : ℝ × ℝ} {r θ b : ℝ}, Hits d ψ σ c g r θ → See d r (θ - ψ) b → tangent d e.e1 ≤ b →
        b ≤ 2 * π - tangent d e.e1 → b ≠ 2 * π - tangent d e.e1 →
        wrapInto π tangentMin g.2 = c + j0 * (2 * π) - b := by
      intro g r θ b hg hs q0 q1 q2
      obtain ⟨k, hk⟩ := hg.neg hσ hs
      obtain ⟨w0, w1, i, hi'⟩ := wrapInto_spec tangentMin g.2
      have q3 : b < 2 * π - tangent d e.e1 := lt_of_le_of_ne q1 q2
      have ee : wrapInto π tangentMin g.2 = (c + j0 * (2 * π) - b) + (i + k - j0 : ℤ) * (2 * π) := by
        rw [hi', hk]; push_cast; ring
      have hne' : wrapInto π tangentMin g.2 ≠ tangentMin + 2 * π := by
        intro hh
        rw [hh, htm] at ee
        have e' : -(2 * π - tangent d e.e1) = -b + (i + k - j0 - 1 : ℤ) * (2 * π) := by push_cast at ee ⊢; linarith
        have := turn_unique (lo := -(2 * π - tangent d e.e1)) e' le_rfl (by linarith) (by linarith) (by linarith)
        rw [this] at e'
        push_cast at e'
        linarith
      have := turn_unique (lo := tangentMin) ee w0 (lt_of_le_of_ne w1 hne') (by rw [htm]; linarith)
        (by rw [htm]; linarith)
      rw [this] at ee
      push_cast at ee
      linarith
    have ea0 : a0 = c + j0 * (2 * π) - b0 := val C.c0 s0 l0 u0 (ne2 m0 (Or.inl rfl) s0)
    have ea1 : a1 = c + j0 * (2 * π) - b1 := val C.c1 s1 l1 u1 (ne2 m1 (Or.inr rfl) s1)
    have ea2 : a2 = c + j0 * (2 * π) - b2 := val C.c2 s2 l2 u2 (ne2 m2 (Or.inl rfl) s2)
    have ea3 : a3 = c + j0 * (2 * π) - b3 := val C.c3 s3 l3 u3 (ne2 m3 (Or.inr rfl) s3)
    have E1 : (if wrapInto π e.e2 y < e.e3 then tangentMin else min4 a0 a1 a2 a3) = c - hi + j0 * (2 * π) := by
      rw [hhi, ea0, ea1, ea2, ea3, min4_sub, htm]
      split_ifs <;> ring
    have E2 : (if wrapInto π e.e2 x < e.e3 then tangentMax else max4 a0 a1 a2 a3) = c - lo + j0 * (2 * π) := by
      rw [hlo, ea0, ea1, ea2, ea3, max4_sub, htM]
      split_ifs <;> ring
    rw [E1, E2]
    exact framed_neg hσ hw hle hlt hend1 hend2

end Gear.TpcModule
