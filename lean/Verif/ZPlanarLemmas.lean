/-
Lemmas about the model of the planar vertex detector.
-/
import Verif.ZPlanarSpec
import Mathlib.Tactic.Linarith
import Mathlib.Tactic.LinearCombination
import Mathlib.Tactic.FieldSimp
import Mathlib.Analysis.SpecialFunctions.Trigonometric.Angle

set_option autoImplicit false
set_option linter.unusedSectionVars false

namespace Gear.ZPlanar

open Vector3D (V3)
open Real (pi)

section Frame

variable {K : Type} [Field K] [LinearOrder K] [IsStrictOrderedRing K]

/-- Clamping to an interval, as `correctToBorderPoint` does it. -/
def clamp (x lo hi : K) : K := if x > hi then hi else if x < lo then lo else x

theorem clamp_mem {x lo hi : K} (h : lo ≤ hi) : lo ≤ clamp x lo hi ∧ clamp x lo hi ≤ hi := by
  unfold clamp; split_ifs <;> constructor <;> linarith

theorem clamp_of_mem {x lo hi : K} (h1 : lo ≤ x) (h2 : x ≤ hi) : clamp x lo hi = x := by
  unfold clamp; rw [if_neg (not_lt.mpr h2), if_neg (not_lt.mpr h1)]

theorem clamp_nearest {x lo hi y : K} (h1 : lo ≤ y) (h2 : y ≤ hi) : (clamp x lo hi - x) ^ 2 ≤ (y - x) ^ 2 := by
  unfold clamp; split_ifs with h3 h4
  · nlinarith
  · nlinarith
  · simp; positivity

theorem clamp_eq_iff {x lo hi : K} : clamp x lo hi = x ↔ (lo ≤ x ∧ x ≤ hi) ∨ (hi < x ∧ hi = x) := by
  unfold clamp; split_ifs with h3 h4
  · constructor
    · intro h; exact absurd h h3.ne
    · rintro (⟨_, h⟩ | ⟨_, h⟩)
      · exact absurd h3 (not_lt.mpr h)
      · exact h
  · constructor
    · intro h; exact absurd h h4.ne'
    · rintro (⟨h, _⟩ | ⟨h, h'⟩)
      · exact absurd h4 (not_lt.mpr h)
      · exact absurd h' h.ne
  · exact ⟨fun _ => Or.inl ⟨not_lt.mp h4, not_lt.mp h3⟩, fun _ => rfl⟩

/-- An orthonormal frame. -/
structure Frame (n u v : V3 K) : Prop where
  nn : n.x * n.x + n.y * n.y + n.z * n.z = 1
  uu : u.x * u.x + u.y * u.y + u.z * u.z = 1
  vv : v.x * v.x + v.y * v.y + v.z * v.z = 1
  nu : n.x * u.x + n.y * u.y + n.z * u.z = 0
  nv : n.x * v.x + n.y * v.y + n.z * v.z = 0
  uv : u.x * v.x + u.y * v.y + u.z * v.z = 0

/-- The point with coordinates `a`, `b`, `c` in a frame at `r`. -/
def at3 (r n u v : V3 K) (a b c : K) : V3 K :=
  ⟨r.x + a * n.x + b * u.x + c * v.x, r.y + a * n.y + b * u.y + c * v.y, r.z + a * n.z + b * u.z + c * v.z⟩

theorem Frame.u_at {r n u v : V3 K} (f : Frame n u v) (a b c : K) :
    ((at3 r n u v a b c).x - r.x) * u.x + ((at3 r n u v a b c).y - r.y) * u.y
      + ((at3 r n u v a b c).z - r.z) * u.z = b := by
  simp only [at3]; linear_combination a * f.nu + b * f.uu + c * f.uv

theorem Frame.v_at {r n u v : V3 K} (f : Frame n u v) (a b c : K) :
    ((at3 r n u v a b c).x - r.x) * v.x + ((at3 r n u v a b c).y - r.y) * v.y
      + ((at3 r n u v a b c).z - r.z) * v.z = c := by
  simp only [at3]; linear_combination a * f.nv + b * f.uv + c * f.vv

theorem Frame.n_at {r n u v : V3 K} (f : Frame n u v) (a b c : K) :
    ((at3 r n u v a b c).x - r.x) * n.x + ((at3 r n u v a b c).y - r.y) * n.y
      + ((at3 r n u v a b c).z - r.z) * n.z = a := by
  simp only [at3]; linear_combination a * f.nn + b * f.nu + c * f.nv

theorem Frame.norm2 {r n u v : V3 K} (f : Frame n u v) (a b c a' b' c' : K) :
    ((at3 r n u v a b c).x - (at3 r n u v a' b' c').x) ^ 2 + ((at3 r n u v a b c).y - (at3 r n u v a' b' c').y) ^ 2
      + ((at3 r n u v a b c).z - (at3 r n u v a' b' c').z) ^ 2 = (a - a') ^ 2 + (b - b') ^ 2 + (c - c') ^ 2 := by
  simp only [at3]
  linear_combination (a - a') ^ 2 * f.nn + (b - b') ^ 2 * f.uu + (c - c') ^ 2 * f.vv
    + 2 * (a - a') * (b - b') * f.nu + 2 * (a - a') * (c - c') * f.nv + 2 * (b - b') * (c - c') * f.uv

theorem Frame.inj {r n u v : V3 K} (f : Frame n u v) {a b c a' b' c' : K}
    (h : at3 r n u v a b c = at3 r n u v a' b' c') : a = a' ∧ b = b' ∧ c = c' := by
  refine ⟨?_, ?_, ?_⟩
  · rw [← f.n_at (r := r) a b c, h, f.n_at]
  · rw [← f.u_at (r := r) a b c, h, f.u_at]
  · rw [← f.v_at (r := r) a b c, h, f.v_at]

/-- `correctToBorderPoint` clamps the coordinates of a vector in the plane. -/
theorem correctToBorderPoint_eq {n u v : V3 K} (f : Frame n u v) (b c minU maxU minV maxV : K) :
    correctToBorderPoint ⟨b * u.x + c * v.x, b * u.y + c * v.y, b * u.z + c * v.z⟩ u v minU maxU minV maxV
      = ⟨clamp b minU maxU * u.x + clamp c minV maxV * v.x, clamp b minU maxU * u.y + clamp c minV maxV * v.y,
          clamp b minU maxU * u.z + clamp c minV maxV * v.z⟩ := by
  have hb : (b * u.x + c * v.x) * u.x + (b * u.y + c * v.y) * u.y + (b * u.z + c * v.z) * u.z = b := by
    linear_combination b * f.uu + c * f.uv
  have hc : (b * u.x + c * v.x) * v.x + (b * u.y + c * v.y) * v.y + (b * u.z + c * v.z) * v.z = c := by
    linear_combination b * f.uv + c * f.vv
  unfold correctToBorderPoint
  dsimp only
  rw [hb, hc]
  by_cases h : b < minU ∨ b > maxU ∨ c < minV ∨ c > maxV
  · rw [if_pos h]; rfl
  · rw [if_neg h]
    push Not at h
    rw [clamp_of_mem h.1 h.2.1, clamp_of_mem h.2.2.1 h.2.2.2]

/-- `distanceToPlane` leads to the point whose in-plane coordinates are clamped. -/
theorem distanceToPlane_eq {n u v : V3 K} (f : Frame n u v) (r : V3 K) (a b c minU maxU minV maxV : K) :
    distanceToPlane (at3 r n u v a b c) r n u v minU maxU minV maxV
      = Vector3D.sub (at3 r n u v 0 (clamp b minU maxU) (clamp c minV maxV)) (at3 r n u v a b c) := by
  unfold distanceToPlane
  rw [if_neg, if_neg]
  · dsimp only
    have ha := f.n_at (r := r) a b c
    set p := at3 r n u v a b c with hp
    have ht : -(n.x * p.x + n.y * p.y + n.z * p.z - (r.x * n.x + r.y * n.y + r.z * n.z)) = -a := by
      linear_combination -ha
    rw [ht]
    have hv : (⟨p.x + n.x * -a - r.x, p.y + n.y * -a - r.y, p.z + n.z * -a - r.z⟩ : V3 K)
        = ⟨b * u.x + c * v.x, b * u.y + c * v.y, b * u.z + c * v.z⟩ := by
      rw [hp]; simp only [at3]; ext <;> simp only <;> ring
    rw [hv, correctToBorderPoint_eq f]
    simp only [Vector3D.sub, at3]
    ext <;> simp only <;> ring
  · have : n.x * (u.x + v.x) + n.y * (u.y + v.y) + n.z * (u.z + v.z) = 0 := by
      linear_combination f.nu + f.nv
    rw [this]; simp [isEqual]
  · rintro ⟨h1, h2, h3⟩
    have := f.nn; rw [h1, h2, h3] at this; simp at this

end Frame

/-! The frame of a ladder -/

@[simp] theorem rp_pi : realPlanar.pi = pi := rfl
@[simp] theorem rp_cos (a : ℝ) : realPlanar.cos a = Real.cos a := rfl
@[simp] theorem rp_sin (a : ℝ) : realPlanar.sin a = Real.sin a := rfl
@[simp] theorem rp_sqrt (a : ℝ) : realPlanar.sqrt a = Real.sqrt a := rfl
@[simp] theorem rp_atan (a : ℝ) : realPlanar.atan a = Real.arctan a := rfl

theorem sign_sq (p : V3 ℝ) : (if p.z < 0 then (-1 : ℝ) else 1) * (if p.z < 0 then (-1 : ℝ) else 1) = 1 := by
  split_ifs <;> norm_num

theorem frameB (phi : ℝ) {z : ℝ} (hz : z * z = 1) :
    Frame (nBase realPlanar phi) (nSide realPlanar phi) (⟨0, 0, z⟩ : V3 ℝ) := by
  have h := Real.sin_sq_add_cos_sq phi
  constructor <;> simp only [nBase, nSide, rp_cos, rp_sin] <;>
    first | linear_combination h | linear_combination hz | ring

theorem frameS (phi : ℝ) {z : ℝ} (hz : z * z = 1) :
    Frame (nSide realPlanar phi) (nBase realPlanar phi) (⟨0, 0, z⟩ : V3 ℝ) := by
  have h := Real.sin_sq_add_cos_sq phi
  constructor <;> simp only [nBase, nSide, rp_cos, rp_sin] <;>
    first | linear_combination h | linear_combination hz | ring

theorem frameZ (phi : ℝ) {z : ℝ} (hz : z * z = 1) :
    Frame (⟨0, 0, z⟩ : V3 ℝ) (nBase realPlanar phi) (nSide realPlanar phi) := by
  have h := Real.sin_sq_add_cos_sq phi
  constructor <;> simp only [nBase, nSide, rp_cos, rp_sin] <;>
    first | linear_combination h | linear_combination hz | ring

/-- The point of the detector's frame with coordinates `h`, `s`, `z` along the normal, the side and the beam. -/
noncomputable def loc (phi : ℝ) (h s z : ℝ) : V3 ℝ :=
  ⟨h * Real.sin phi + s * Real.cos phi, h * Real.cos phi - s * Real.sin phi, z⟩

theorem loc_coords (phi : ℝ) (p : V3 ℝ) : p = loc phi (p.x * Real.sin phi + p.y * Real.cos phi)
    (p.x * Real.cos phi - p.y * Real.sin phi) p.z := by
  have h := Real.sin_sq_add_cos_sq phi
  ext <;> simp only [loc]
  · linear_combination -p.x * h
  · linear_combination -p.y * h

theorem loc_eq_at3 (phi d h s : ℝ) {e : ℝ} (he : e * e = 1) (z : ℝ) :
    loc phi h s z = at3 ⟨d * (nBase realPlanar phi).x, d * (nBase realPlanar phi).y, d * (nBase realPlanar phi).z⟩
      (nBase realPlanar phi) (nSide realPlanar phi) ⟨0, 0, e⟩ (h - d) s (e * z) := by
  ext <;> simp only [loc, at3, nBase, nSide, rp_cos, rp_sin] <;> try ring
  linear_combination -z * he

/-! Angles -/

theorem corr_cases (a : ℝ) : (pi < a ∧ correctPhiRange realPlanar a = a - 2 * pi)
    ∨ (a ≤ pi ∧ a ≤ -pi ∧ correctPhiRange realPlanar a = a + 2 * pi)
    ∨ (a ≤ pi ∧ -pi < a ∧ correctPhiRange realPlanar a = a) := by
  unfold correctPhiRange
  by_cases h1 : a > realPlanar.pi
  · exact Or.inl ⟨h1, by rw [if_pos h1]; rfl⟩
  · by_cases h2 : a ≤ -realPlanar.pi
    · exact Or.inr (Or.inl ⟨not_lt.mp h1, h2, by rw [if_neg h1, if_pos h2]; rfl⟩)
    · exact Or.inr (Or.inr ⟨not_lt.mp h1, not_le.mp h2, by rw [if_neg h1, if_neg h2]⟩)

theorem corr_sin (a : ℝ) : Real.sin (correctPhiRange realPlanar a) = Real.sin a := by
  rcases corr_cases a with ⟨_, h⟩ | ⟨_, _, h⟩ | ⟨_, _, h⟩ <;> rw [h]
  · exact Real.sin_sub_two_pi a
  · exact Real.sin_add_two_pi a

theorem corr_cos (a : ℝ) : Real.cos (correctPhiRange realPlanar a) = Real.cos a := by
  rcases corr_cases a with ⟨_, h⟩ | ⟨_, _, h⟩ | ⟨_, _, h⟩ <;> rw [h]
  · exact Real.cos_sub_two_pi a
  · exact Real.cos_add_two_pi a

theorem corr_range {a : ℝ} (h1 : -(3 * pi) < a) (h2 : a ≤ 3 * pi) :
    -pi < correctPhiRange realPlanar a ∧ correctPhiRange realPlanar a ≤ pi
      ∧ ∃ k : ℤ, correctPhiRange realPlanar a = a - 2 * pi * k := by
  have hp := Real.pi_pos
  rcases corr_cases a with ⟨h3, h⟩ | ⟨h3, h4, h⟩ | ⟨h3, h4, h⟩ <;> rw [h]
  · exact ⟨by linarith, by linarith, 1, by push_cast; ring⟩
  · exact ⟨by linarith, by linarith, -1, by push_cast; ring⟩
  · exact ⟨by linarith, by linarith, 0, by push_cast; ring⟩

theorem int_le_of_pi {k l : ℤ} (h : 2 * pi * k < 2 * pi * l + 2 * pi) : k ≤ l := by
  have hp := Real.pi_pos
  have : ((k : ℤ) : ℝ) < ((l + 1 : ℤ) : ℝ) := by push_cast; nlinarith
  have := Int.cast_lt.mp this
  omega

/-- The test whether an angle lies in a range works if the corrections bring all angles to the same turn. -/
theorem isInRange_of {s e a f : ℝ} {k : ℤ} (hs : -(3 * pi) < s) (he : e ≤ 3 * pi) (h1 : s ≤ a) (h2 : a ≤ e)
    (h3 : e - s < 2 * pi) (hf1 : -pi < f) (hf2 : f ≤ pi) (hf : f = a - 2 * pi * k) :
    isInRange (some (correctPhiRange realPlanar s)) (some (correctPhiRange realPlanar e)) (some f) = true := by
  have hp := Real.pi_pos
  obtain ⟨s1, s2, m, hm⟩ := corr_range hs (by linarith)
  obtain ⟨e1, e2, n, hn⟩ := corr_range (a := e) (by linarith) he
  have hmk : m ≤ k := int_le_of_pi (by linarith)
  have hkn : k ≤ n := int_le_of_pi (by linarith)
  have hnm : n ≤ m + 1 := by
    apply int_le_of_pi; push_cast; linarith
  unfold isInRange leO ltO
  simp only [Bool.or_eq_true, Bool.and_eq_true, decide_eq_true_eq]
  rcases lt_or_eq_of_le hmk with h | h
  · have hk : k = n := by omega
    have hn1 : n = m + 1 := by omega
    left; right
    rw [hm, hn, hf, hk, hn1]; push_cast
    constructor <;> linarith
  · rcases lt_or_eq_of_le hkn with h' | h'
    · have hn1 : n = m + 1 := by omega
      right
      rw [hm, hn, hf, ← h, hn1]; push_cast
      constructor <;> linarith
    · left; left
      rw [hm, hn, hf, ← h', ← h]
      constructor <;> linarith

theorem arctan_polar (x : ℝ) {y : ℝ} (hy : 0 < y) :
    Real.sqrt (x * x + y * y) * Real.sin (Real.arctan (x / y)) = x
      ∧ Real.sqrt (x * x + y * y) * Real.cos (Real.arctan (x / y)) = y := by
  have hs : Real.sqrt (x * x + y * y) = y * Real.sqrt (1 + (x / y) ^ 2) := by
    rw [show x * x + y * y = y ^ 2 * (1 + (x / y) ^ 2) by field_simp; ring, Real.sqrt_mul (sq_nonneg y),
      Real.sqrt_sq hy.le]
  have hpos : 0 < Real.sqrt (1 + (x / y) ^ 2) := Real.sqrt_pos.mpr (by positivity)
  rw [hs, Real.sin_arctan, Real.cos_arctan]
  constructor <;> field_simp

/-- The angle of a point off the axis and off the negative y axis. -/
theorem getPhiPoint_spec {p : V3 ℝ} (h : ¬ (p.x = 0 ∧ p.y ≤ 0)) :
    ∃ f, getPhiPoint realPlanar p = some f ∧ -pi < f ∧ f ≤ pi
      ∧ p.x = Real.sqrt (p.x * p.x + p.y * p.y) * Real.sin f
      ∧ p.y = Real.sqrt (p.x * p.x + p.y * p.y) * Real.cos f := by
  have hp := Real.pi_pos
  have key : ∃ a, (if p.x ≠ 0 ∧ p.y < 0 then (atanQuot realPlanar p.x p.y).map (· + realPlanar.pi)
      else atanQuot realPlanar p.x p.y) = some a ∧ -pi < a ∧ a ≤ 3 * pi
      ∧ p.x = Real.sqrt (p.x * p.x + p.y * p.y) * Real.sin a
      ∧ p.y = Real.sqrt (p.x * p.x + p.y * p.y) * Real.cos a := by
    rcases lt_trichotomy p.y 0 with hy | hy | hy
    · have hx : p.x ≠ 0 := fun hx => h ⟨hx, hy.le⟩
      refine ⟨Real.arctan (p.x / p.y) + pi, ?_, ?_, ?_, ?_, ?_⟩
      · rw [if_pos ⟨hx, hy⟩, atanQuot, if_neg hy.ne]; simp
      · linarith [Real.neg_pi_div_two_lt_arctan (p.x / p.y)]
      · linarith [Real.arctan_lt_pi_div_two (p.x / p.y)]
      · have := (arctan_polar (-p.x) (y := -p.y) (by linarith)).1
        rw [neg_div_neg_eq] at this
        rw [Real.sin_add_pi]
        rw [show -p.x * -p.x + -p.y * -p.y = p.x * p.x + p.y * p.y by ring] at this
        linarith
      · have := (arctan_polar (-p.x) (y := -p.y) (by linarith)).2
        rw [neg_div_neg_eq] at this
        rw [Real.cos_add_pi]
        rw [show -p.x * -p.x + -p.y * -p.y = p.x * p.x + p.y * p.y by ring] at this
        linarith
    · have hx : p.x ≠ 0 := fun hx => h ⟨hx, hy.le⟩
      have hr : Real.sqrt (p.x * p.x + p.y * p.y) = |p.x| := by
        rw [hy, mul_zero, add_zero, Real.sqrt_mul_self_eq_abs]
      rw [hr, if_neg (by rw [hy]; simp), atanQuot, if_pos hy, if_neg hx]
      rcases lt_or_gt_of_ne hx with hx' | hx'
      · refine ⟨-pi / 2, by rw [if_neg (not_lt.mpr hx'.le)]; rfl, by linarith, by linarith, ?_, ?_⟩
        · rw [abs_of_neg hx', neg_div, Real.sin_neg, Real.sin_pi_div_two]; ring
        · rw [neg_div, Real.cos_neg, Real.cos_pi_div_two]; simpa using hy
      · refine ⟨pi / 2, by rw [if_pos hx']; rfl, by linarith, by linarith, ?_, ?_⟩
        · rw [abs_of_pos hx', Real.sin_pi_div_two]; ring
        · rw [Real.cos_pi_div_two]; simpa using hy
    · refine ⟨Real.arctan (p.x / p.y), ?_, ?_, ?_, ?_, ?_⟩
      · rw [if_neg (fun hc => absurd hc.2 (not_lt.mpr hy.le)), atanQuot, if_neg hy.ne']; rfl
      · linarith [Real.neg_pi_div_two_lt_arctan (p.x / p.y)]
      · linarith [Real.arctan_lt_pi_div_two (p.x / p.y)]
      · exact (arctan_polar p.x hy).1.symm
      · exact (arctan_polar p.x hy).2.symm
  obtain ⟨a, h1, h2, h3, h4, h5⟩ := key
  obtain ⟨c1, c2, -⟩ := corr_range (a := a) (by linarith) h3
  refine ⟨correctPhiRange realPlanar a, ?_, c1, c2, ?_, ?_⟩
  · unfold getPhiPoint; dsimp only; rw [h1]; rfl
  · rw [corr_sin]; exact h4
  · rw [corr_cos]; exact h5

/-- Two angles of the same direction differ by full turns. -/
theorem angle_turns {r a b : ℝ} (hr : r ≠ 0) (hs : r * Real.sin a = r * Real.sin b)
    (hc : r * Real.cos a = r * Real.cos b) : ∃ k : ℤ, a = b - 2 * pi * k := by
  have h1 := mul_left_cancel₀ hr hs
  have h2 := mul_left_cancel₀ hr hc
  have := Real.Angle.cos_sin_inj h2 h1
  obtain ⟨k, hk⟩ := Real.Angle.angle_eq_iff_two_pi_dvd_sub.mp this
  exact ⟨-k, by push_cast; linarith⟩

/-- A point of given local coordinates, in polar form. -/
theorem loc_polar (phi s z : ℝ) {h : ℝ} (hh : 0 < h) :
    (loc phi h s z).x = Real.sqrt (s * s + h * h) * Real.sin (phi + Real.arctan (s / h))
      ∧ (loc phi h s z).y = Real.sqrt (s * s + h * h) * Real.cos (phi + Real.arctan (s / h)) := by
  obtain ⟨h1, h2⟩ := arctan_polar s hh
  simp only [loc, Real.sin_add, Real.cos_add]
  constructor
  · linear_combination -Real.sin phi * h2 - Real.cos phi * h1
  · linear_combination -Real.cos phi * h2 + Real.sin phi * h1

theorem loc_radius (phi h s z : ℝ) :
    (loc phi h s z).x * (loc phi h s z).x + (loc phi h s z).y * (loc phi h s z).y = s * s + h * h := by
  have := Real.sin_sq_add_cos_sq phi
  simp only [loc]; linear_combination (s * s + h * h) * this

/-! The ladders of a layer -/

open Spec

/-- What a call of `addLayer` stores. -/
noncomputable def stored (c : Call ℝ) : Layer ℝ × Layer ℝ :=
  (mkLayer realPlanar c.nLadders c.phi0 c.ladder, mkLayer realPlanar c.nLadders c.phi0 c.sensitive)

theorem stored_sel (c : Call ℝ) (sens : Bool) :
    (if sens then (stored c).2 else (stored c).1) = mkLayer realPlanar c.nLadders c.phi0 (c.size sens) := by
  cases sens <;> rfl

theorem detector_layer (P : Params ℝ) (calls : List (Call ℝ)) :
    (detector realPlanar P calls).layer = P.layer ++ calls.map stored := by
  induction calls generalizing P with
  | nil => simp [detector]
  | cons c cs ih =>
    show (detector realPlanar (P.addLayer realPlanar c.nLadders c.phi0 c.ladder c.sensitive) cs).layer = _
    rw [ih]
    simp [Params.addLayer, addLayer, stored]

theorem detector_shell {K : Type} [Field K] [LinearOrder K] [IsStrictOrderedRing K] (F : PlanarFns K)
    (P : Params K) (calls : List (Call K)) :
    (detector F P calls).shellGap = P.shellGap ∧ (detector F P calls).shellHalfLength = P.shellHalfLength := by
  induction calls generalizing P with
  | nil => exact ⟨rfl, rfl⟩
  | cons c cs ih => exact ih (P.addLayer F c.nLadders c.phi0 c.ladder c.sensitive)

/-- The number reported for the ladder the code visits as number `i`. -/
def moduleOf (n : ℤ) (i : ℕ) : ℤ := if i = 0 then 0 else n - i

theorem ladderPhi_azimuth (c : Call ℝ) (hN : 0 < c.nLadders) (i : ℕ) :
    Real.sin (ladderPhi realPlanar (stored c) i) = Real.cos (azimuth c (moduleOf c.nLadders i))
      ∧ Real.cos (ladderPhi realPlanar (stored c) i) = Real.sin (azimuth c (moduleOf c.nLadders i)) := by
  have hN' : (c.nLadders : ℝ) ≠ 0 := by exact_mod_cast hN.ne'
  unfold ladderPhi
  rw [corr_sin, corr_cos]
  simp only [stored, mkLayer, rp_pi]
  set D := 2 * pi / (c.nLadders : ℝ) with hD
  have hND : (c.nLadders : ℝ) * D = 2 * pi := by rw [hD]; field_simp
  have e1 : pi / 2 - c.phi0 + i * D = pi / 2 - (c.phi0 - i * D) := by ring
  rw [e1, Real.sin_pi_div_two_sub, Real.cos_pi_div_two_sub]
  by_cases hi : i = 0
  · subst hi; simp [azimuth, moduleOf]
  · have : azimuth c (moduleOf c.nLadders i) = (c.phi0 - i * D) + 2 * pi := by
      simp only [azimuth, moduleOf, if_neg hi, ← hD]; push_cast; linear_combination hND
    rw [this, Real.cos_add_two_pi, Real.sin_add_two_pi]; exact ⟨rfl, rfl⟩

theorem loc_point (c : Call ℝ) (hN : 0 < c.nLadders) (i : ℕ) (h s z : ℝ) :
    loc (ladderPhi realPlanar (stored c) i) h s z = point (azimuth c (moduleOf c.nLadders i)) h (-s) z := by
  obtain ⟨h1, h2⟩ := ladderPhi_azimuth c hN i
  ext <;> simp only [loc, point, h1, h2] <;> ring

/-- Every module is visited. -/
theorem moduleOf_surj {n m : ℤ} (h0 : 0 ≤ m) (h1 : m < n) : ∃ i : ℕ, i < n.toNat ∧ moduleOf n i = m := by
  by_cases hm : m = 0
  · exact ⟨0, by omega, by simp [moduleOf, hm]⟩
  · refine ⟨(n - m).toNat, by omega, ?_⟩
    unfold moduleOf; rw [if_neg (by omega)]; omega

theorem moduleOf_range {n : ℤ} {i : ℕ} (h : i < n.toNat) : 0 ≤ moduleOf n i ∧ moduleOf n i < n := by
  unfold moduleOf; split_ifs <;> omega

theorem abs_sign (p : V3 ℝ) : (if p.z < 0 then (-1 : ℝ) else 1) * p.z = |p.z| := by
  split_ifs with h
  · rw [abs_of_neg h]; ring
  · rw [abs_of_nonneg (not_lt.mp h)]; ring

theorem eps_pos : (0 : ℝ) < EPSILON := by unfold EPSILON; norm_num

theorem isEqual_bound {a b : ℝ} (h : isEqual a b = true) : |a - b| ≤ EPSILON * (2 + (|a| + |b|) / 2) := by
  have he := eps_pos
  have ha := abs_nonneg a
  have hb := abs_nonneg b
  unfold isEqual at h
  by_cases h1 : a = b
  · subst h1; simp only [sub_self, abs_zero]; positivity
  · rw [if_neg h1] at h
    by_cases h2 : a * b = 0
    · rw [if_pos h2] at h; have := of_decide_eq_true h; nlinarith
    · rw [if_neg h2] at h
      by_cases h3 : |a| < EPSILON ∧ |b| < EPSILON
      · have := abs_sub a b; nlinarith [h3.1, h3.2]
      · rw [if_neg h3] at h
        have := of_decide_eq_true h
        have hpos : 0 < |a| + |b| := by
          have : a ≠ 0 := fun h => h2 (by rw [h, zero_mul])
          have := abs_pos.mpr this; linarith
        rw [div_lt_iff₀ hpos, abs_mul, abs_two] at this
        nlinarith

theorem isEqual_self (a : ℝ) : isEqual a a = true := by simp [isEqual]

theorem comp_bound {n w c : ℝ} (hc : 0 ≤ c) (hn : |n| ≤ 1) (hw : |w| ≤ c)
    (h : (differsLess n w || isEqual w (-c * n)) = true) : |w + c * n| ≤ EPSILON * (2 + c) := by
  have he := eps_pos
  rw [Bool.or_eq_true] at h
  rcases h with h | h
  · have := of_decide_eq_true h
    have h1 : |w + c * n| ≤ |w| + c * |n| := by
      have := abs_add_le w (c * n); rwa [abs_mul, abs_of_nonneg hc] at this
    have := abs_nonneg w
    have := abs_nonneg n
    nlinarith
  · have := isEqual_bound h
    rw [show w - -c * n = w + c * n by ring] at this
    have h2 : |-c * n| ≤ c := by rw [abs_mul, abs_neg, abs_of_nonneg hc]; nlinarith [abs_nonneg n]
    nlinarith

theorem norm_bounds (w : V3 ℝ) : 0 ≤ norm realPlanar w ∧ |w.x| ≤ norm realPlanar w ∧ |w.y| ≤ norm realPlanar w
    ∧ |w.z| ≤ norm realPlanar w := by
  unfold norm; simp only [rp_sqrt]
  refine ⟨Real.sqrt_nonneg _, ?_, ?_, ?_⟩ <;> apply Real.abs_le_sqrt <;>
    nlinarith [mul_self_nonneg w.x, mul_self_nonneg w.y, mul_self_nonneg w.z]

/-- The vector `isPointInLadder` computes for a ladder, for a point with the given local coordinates. -/
theorem hit_vector (b : Body ℝ) (gap phi h s : ℝ) (p : V3 ℝ) (hp : p = loc phi h s p.z) :
    distanceToPlane p ⟨b.d * (nBase realPlanar phi).x, b.d * (nBase realPlanar phi).y, b.d * (nBase realPlanar phi).z⟩
      (nBase realPlanar phi) (nSide realPlanar phi) (nZ p) b.left b.right (gap / 2) b.zEnd
    = Vector3D.sub (loc phi b.d (clamp s b.left b.right)
        ((if p.z < 0 then -1 else 1) * clamp |p.z| (gap / 2) b.zEnd)) p := by
  have he := sign_sq p
  have hf := frameB phi he
  have e1 := loc_eq_at3 phi b.d h s he p.z
  have e2 := loc_eq_at3 phi b.d b.d (clamp s b.left b.right) he
    ((if p.z < 0 then -1 else 1) * clamp |p.z| (gap / 2) b.zEnd)
  rw [← hp] at e1
  rw [← mul_assoc, he, one_mul, sub_self] at e2
  rw [e2]
  unfold nZ
  generalize hz : |p.z| = az at *
  generalize he' : (if p.z < 0 then (-1 : ℝ) else 1) = e at *
  have hez : e * p.z = az := by rw [← he', ← hz]; exact abs_sign p
  rw [hez] at e1
  clear hz he' hez e2
  rw [e1]
  exact distanceToPlane_eq hf _ _ _ _ _ _ _ _

end Gear.ZPlanar
