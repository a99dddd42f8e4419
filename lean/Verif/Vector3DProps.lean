/-
Properties of `Vector3D`: C38 and C90.
-/
import Verif.Vector3D
import Verif.TpcModuleSpec
import Mathlib.Analysis.Real.Pi.Bounds

set_option autoImplicit false
set_option linter.unusedSectionVars false

namespace Gear.Vector3D

open TpcModule (TrigFns realTrig)
open Real

theorem realTrig_cos (a : ℝ) : realTrig.cos a = Real.cos a := rfl
theorem realTrig_sin (a : ℝ) : realTrig.sin a = Real.sin a := rfl
theorem realTrig_sqrt (a : ℝ) : realTrig.sqrt a = Real.sqrt a := rfl
theorem realTrig_atan2 (y x : ℝ) : realTrig.atan2 y x = Complex.arg ⟨x, y⟩ := rfl

theorem atan2_polar {r t : ℝ} (hr : 0 < r) (ht : t ∈ Set.Ioc (-π) π) :
    Complex.arg ⟨r * Real.cos t, r * Real.sin t⟩ = t := by
  have : (⟨r * Real.cos t, r * Real.sin t⟩ : ℂ) = (r : ℂ) * (Complex.cos t + Complex.sin t * Complex.I) := by
    apply Complex.ext
    · simp [← Complex.ofReal_cos, ← Complex.ofReal_sin]
    · simp [← Complex.ofReal_cos, ← Complex.ofReal_sin]
  rw [this, Complex.arg_mul_cos_add_sin_mul_I hr ht]

theorem sqrt_polar {r : ℝ} (hr : 0 ≤ r) (t : ℝ) :
    √(r * Real.cos t * (r * Real.cos t) + r * Real.sin t * (r * Real.sin t)) = r := by
  have : r * Real.cos t * (r * Real.cos t) + r * Real.sin t * (r * Real.sin t) = r ^ 2 := by
    have := Real.sin_sq_add_cos_sq t
    linear_combination r ^ 2 * this
  rw [this, Real.sqrt_sq hr]

/-! ### C38 -/

/-- A vector made from cylindrical coordinates has these cylindrical coordinates. -/
theorem cylindrical_coordinates {a p z : ℝ} (ha : 0 < a) (hp : p ∈ Set.Ioc (-π) π) :
    rho realTrig (cylindrical realTrig a p z) = a ∧ phi realTrig (cylindrical realTrig a p z) = p ∧
      (cylindrical realTrig a p z).z = z := by
  refine ⟨?_, ?_, rfl⟩
  · show √_ = a
    exact sqrt_polar ha.le p
  · unfold phi
    rw [if_neg]
    · exact atan2_polar ha hp
    · rintro ⟨h1, h2⟩
      have h1 : a * Real.cos p = 0 := h1
      have h2 : a * Real.sin p = 0 := h2
      have e1 := (mul_eq_zero.1 h1).resolve_left ha.ne'
      have e2 := (mul_eq_zero.1 h2).resolve_left ha.ne'
      have := Real.sin_sq_add_cos_sq p
      rw [e1, e2] at this; norm_num at this

/-- A vector made from spherical coordinates has these spherical coordinates. -/
theorem spherical_coordinates {a p t : ℝ} (ha : 0 < a) (hp : p ∈ Set.Ioc (-π) π) (ht : t ∈ Set.Ioo 0 π) :
    r realTrig (spherical realTrig a p t) = a ∧ phi realTrig (spherical realTrig a p t) = p ∧
      theta realTrig (spherical realTrig a p t) = t := by
  have hs : 0 < Real.sin t := Real.sin_pos_of_pos_of_lt_pi ht.1 ht.2
  have hst : 0 < a * Real.sin t := mul_pos ha hs
  have hrho : rho realTrig (spherical realTrig a p t) = a * Real.sin t := sqrt_polar hst.le p
  have hxy : ¬ ((spherical realTrig a p t).x = 0 ∧ (spherical realTrig a p t).y = 0) := by
    rintro ⟨h1, h2⟩
    have h1 : a * Real.sin t * Real.cos p = 0 := h1
    have h2 : a * Real.sin t * Real.sin p = 0 := h2
    have e1 := (mul_eq_zero.1 h1).resolve_left hst.ne'
    have e2 := (mul_eq_zero.1 h2).resolve_left hst.ne'
    have := Real.sin_sq_add_cos_sq p
    rw [e1, e2] at this; norm_num at this
  refine ⟨?_, ?_, ?_⟩
  · show √(a * Real.sin t * Real.cos p * (a * Real.sin t * Real.cos p) +
        a * Real.sin t * Real.sin p * (a * Real.sin t * Real.sin p) + a * Real.cos t * (a * Real.cos t)) = a
    have : a * Real.sin t * Real.cos p * (a * Real.sin t * Real.cos p) +
        a * Real.sin t * Real.sin p * (a * Real.sin t * Real.sin p) + a * Real.cos t * (a * Real.cos t) = a ^ 2 := by
      have h1 := Real.sin_sq_add_cos_sq p
      have h2 := Real.sin_sq_add_cos_sq t
      linear_combination a ^ 2 * Real.sin t ^ 2 * h1 + a ^ 2 * h2
    rw [this, Real.sqrt_sq ha.le]
  · unfold phi
    rw [if_neg hxy]
    exact atan2_polar hst hp
  · unfold theta
    rw [if_neg (fun h => hxy ⟨h.1, h.2.1⟩), hrho]
    exact atan2_polar ha ⟨by linarith [ht.1, Real.pi_pos], ht.2.le⟩

/-- Every vector is given by its cylindrical and by its spherical coordinates. -/
theorem coordinates_determine (v : V3 ℝ) :
    cylindrical realTrig (rho realTrig v) (phi realTrig v) v.z = v ∧
      spherical realTrig (r realTrig v) (phi realTrig v) (theta realTrig v) = v := by
  obtain ⟨x, y, z⟩ := v
  have key : ∀ a b : ℝ, √(a * a + b * b) * Real.cos (Complex.arg ⟨a, b⟩) = a ∧
      √(a * a + b * b) * Real.sin (Complex.arg ⟨a, b⟩) = b := by
    intro a b
    have h1 := Complex.norm_mul_cos_arg ⟨a, b⟩
    have h2 := Complex.norm_mul_sin_arg ⟨a, b⟩
    have hn : ‖(⟨a, b⟩ : ℂ)‖ = √(a * a + b * b) := by
      rw [Complex.norm_def, Complex.normSq_mk]
    rw [hn] at h1 h2
    exact ⟨h1, h2⟩
  have hphi : √(x * x + y * y) * Real.cos (phi realTrig ⟨x, y, z⟩) = x ∧
      √(x * x + y * y) * Real.sin (phi realTrig ⟨x, y, z⟩) = y := by
    unfold phi
    split_ifs with h
    · obtain ⟨h1, h2⟩ := h
      have h1 : x = 0 := h1
      have h2 : y = 0 := h2
      rw [h1, h2]; simp
    · exact key x y
  constructor
  · exact V3.ext hphi.1 hphi.2 rfl
  · have ht : √(x * x + y * y + z * z) * Real.sin (theta realTrig ⟨x, y, z⟩) = √(x * x + y * y) ∧
        √(x * x + y * y + z * z) * Real.cos (theta realTrig ⟨x, y, z⟩) = z := by
      unfold theta
      split_ifs with h
      · obtain ⟨h1, h2, h3⟩ := h
        have h1 : x = 0 := h1
        have h2 : y = 0 := h2
        have h3 : z = 0 := h3
        rw [h1, h2, h3]; simp
      · have := key z (√(x * x + y * y))
        rw [Real.mul_self_sqrt (by nlinarith [mul_self_nonneg x, mul_self_nonneg y]), add_comm (z * z)] at this
        exact ⟨this.2, this.1⟩
    show (⟨r realTrig ⟨x, y, z⟩ * Real.sin (theta realTrig ⟨x, y, z⟩) * Real.cos (phi realTrig ⟨x, y, z⟩),
      r realTrig ⟨x, y, z⟩ * Real.sin (theta realTrig ⟨x, y, z⟩) * Real.sin (phi realTrig ⟨x, y, z⟩),
      r realTrig ⟨x, y, z⟩ * Real.cos (theta realTrig ⟨x, y, z⟩)⟩ : V3 ℝ) = ⟨x, y, z⟩
    have hr : r realTrig ⟨x, y, z⟩ = √(x * x + y * y + z * z) := rfl
    rw [hr, ht.1, ht.2, hphi.1, hphi.2]

/-- The accessors give the lengths and their squares, and the angles are in their ranges. -/
theorem accessors (v : V3 ℝ) :
    r realTrig v ^ 2 = r2 v ∧ trans realTrig v ^ 2 = trans2 v ∧ rho realTrig v = trans realTrig v ∧
      r2 v = dot v v ∧ r2 v = trans2 v + v.z ^ 2 ∧ 0 ≤ r realTrig v ∧ 0 ≤ rho realTrig v ∧
      phi realTrig v ∈ Set.Ioc (-π) π ∧ theta realTrig v ∈ Set.Icc 0 π := by
  have h1 : 0 ≤ v.x * v.x + v.y * v.y := by nlinarith [mul_self_nonneg v.x, mul_self_nonneg v.y]
  have h2 : 0 ≤ v.x * v.x + v.y * v.y + v.z * v.z := by nlinarith [mul_self_nonneg v.z]
  refine ⟨Real.sq_sqrt h2, Real.sq_sqrt h1, rfl, rfl, ?_, Real.sqrt_nonneg _, Real.sqrt_nonneg _, ?_, ?_⟩
  · unfold r2 trans2; ring
  · unfold phi
    split_ifs
    · exact ⟨by linarith [Real.pi_pos], Real.pi_pos.le⟩
    · exact Complex.arg_mem_Ioc _
  · unfold theta
    split_ifs
    · exact ⟨le_rfl, Real.pi_pos.le⟩
    · refine ⟨Complex.arg_nonneg_iff.2 (Real.sqrt_nonneg _), Complex.arg_le_pi _⟩

section
variable {K : Type} [Field K] [LinearOrder K] [IsStrictOrderedRing K]

/-- The vectors form a vector space. -/
theorem vector_space (a b c : V3 K) (s t : K) :
    add a b = add b a ∧ add (add a b) c = add a (add b c) ∧ add a zero = a ∧ add a (smul (-1) a) = zero ∧
      sub a b = add a (smul (-1) b) ∧ smul s (add a b) = add (smul s a) (smul s b) ∧
      smul (s + t) a = add (smul s a) (smul t a) ∧ smul (s * t) a = smul s (smul t a) ∧ smul 1 a = a := by
  refine ⟨?_, ?_, ?_, ?_, ?_, ?_, ?_, ?_, ?_⟩ <;> apply V3.ext <;> simp only [add, sub, smul, zero] <;> ring

/-- The scalar product is symmetric, bilinear and positive definite. -/
theorem dot_laws (a b c : V3 K) (s : K) :
    dot a b = dot b a ∧ dot (add a b) c = dot a c + dot b c ∧ dot (smul s a) b = s * dot a b ∧ 0 ≤ dot a a ∧
      (dot a a = 0 ↔ a = zero) := by
  refine ⟨by simp only [dot]; ring, by simp only [dot, add]; ring, by simp only [dot, smul]; ring, ?_, ?_⟩
  · simp only [dot]; nlinarith [mul_self_nonneg a.x, mul_self_nonneg a.y, mul_self_nonneg a.z]
  · constructor
    · intro h
      simp only [dot] at h
      have hx := mul_self_nonneg a.x
      have hy := mul_self_nonneg a.y
      have hz := mul_self_nonneg a.z
      exact V3.ext (mul_self_eq_zero.1 (by linarith)) (mul_self_eq_zero.1 (by linarith))
        (mul_self_eq_zero.1 (by linarith))
    · rintro rfl; simp [dot, zero]

/-- The vector product is antisymmetric, bilinear, orthogonal to both factors, right-handed and has the length of
the area of the parallelogram. -/
theorem cross_laws (a b c : V3 K) (s : K) :
    cross a b = smul (-1) (cross b a) ∧ cross a a = zero ∧ cross (add a b) c = add (cross a c) (cross b c) ∧
      cross (smul s a) b = smul s (cross a b) ∧ dot a (cross a b) = 0 ∧ dot b (cross a b) = 0 ∧
      dot (cross a b) (cross a b) + dot a b * dot a b = dot a a * dot b b ∧
      dot a (cross b c) = dot (cross a b) c ∧
      cross (⟨1, 0, 0⟩ : V3 K) ⟨0, 1, 0⟩ = ⟨0, 0, 1⟩ := by
  refine ⟨?_, ?_, ?_, ?_, ?_, ?_, ?_, ?_, ?_⟩
  · apply V3.ext <;> simp only [cross, smul] <;> ring
  · apply V3.ext <;> simp only [cross, zero] <;> ring
  · apply V3.ext <;> simp only [cross, add] <;> ring
  · apply V3.ext <;> simp only [cross, smul] <;> ring
  · simp only [cross, dot]; ring
  · simp only [cross, dot]; ring
  · simp only [cross, dot]; ring
  · simp only [cross, dot]; ring
  · apply V3.ext <;> simp [cross]

/-- `==` is equality. -/
theorem equal_iff (a b : V3 K) : equal a b = true ↔ a = b := by
  unfold equal
  rw [decide_eq_true_iff]
  exact ⟨fun h => V3.ext h.1 h.2.1 h.2.2, by rintro rfl; exact ⟨rfl, rfl, rfl⟩⟩

/-- Vectors from arrays. -/
theorem ofArray_eq (f : ℕ → K) : ofArray f = cartesian (f 0) (f 1) (f 2) ∧
    ∀ i : ℕ, i < 3 → get (ofArray f) i = f i := by
  refine ⟨rfl, ?_⟩
  intro i hi
  have : i = 0 ∨ i = 1 ∨ i = 2 := by omega
  rcases this with rfl | rfl | rfl <;> simp [get, ofArray]

end

/-- The unit vector has length 1 and the same direction. -/
theorem unit_laws (v : V3 ℝ) (h : v ≠ zero) : r realTrig (unit realTrig v) = 1 ∧
    smul (r realTrig v) (unit realTrig v) = v ∧ 0 < r realTrig v := by
  have h2 : 0 < v.x * v.x + v.y * v.y + v.z * v.z := by
    obtain ⟨-, -, -, h1, h2⟩ := dot_laws v v v 1
    exact lt_of_le_of_ne h1 (fun e => h (h2.1 e.symm))
  have hr : 0 < r realTrig v := Real.sqrt_pos.2 h2
  have hs : r realTrig v * r realTrig v = v.x * v.x + v.y * v.y + v.z * v.z := Real.mul_self_sqrt h2.le
  refine ⟨?_, ?_, hr⟩
  · show √(v.x / r realTrig v * (v.x / r realTrig v) + v.y / r realTrig v * (v.y / r realTrig v) +
      v.z / r realTrig v * (v.z / r realTrig v)) = 1
    rw [Real.sqrt_eq_one]
    field_simp
    linarith
  · apply V3.ext <;> simp only [smul, unit] <;> field_simp

/-- The vector (3, 4, 12). -/
example : r2 (⟨3, 4, 12⟩ : V3 ℚ) = 13 ^ 2 ∧ cross (⟨1, 2, 3⟩ : V3 ℚ) ⟨4, 5, 6⟩ = ⟨-3, 6, -3⟩ ∧
    (⟨3, 4, 12⟩ : V3 ℚ) ≠ zero := by decide +kernel

example : (0 : ℝ) < 2 ∧ (3 : ℝ) ∈ Set.Ioc (-π) π ∧ (1 : ℝ) ∈ Set.Ioo 0 π := by
  have := Real.pi_gt_three
  exact ⟨by norm_num, ⟨by linarith, this.le⟩, by norm_num, by linarith⟩

/-! ### C90 -/

section
variable {K : Type} [Field K] [LinearOrder K] [IsStrictOrderedRing K]

/-- The bracket operator reads and assigns the components 0, 1, 2; an assignment changes only this component. -/
theorem bracket_components (v : V3 K) (w a : K) (i j : ℤ) (hi : 0 ≤ i ∧ i ≤ 2) :
    getRef (v, w) i = get v i ∧ get (set (v, w) i a).1 i = a ∧ (j ≠ i → get (set (v, w) i a).1 j = get v j) ∧
      (set (v, w) i a).2 = w ∧ get v 0 = v.x ∧ get v 1 = v.y ∧ get v 2 = v.z := by
  have : i = 0 ∨ i = 1 ∨ i = 2 := by omega
  refine ⟨?_, ?_, ?_, ?_, by simp [get], by simp [get], by simp [get]⟩
  · rcases this with rfl | rfl | rfl <;> simp [getRef, get]
  · rcases this with rfl | rfl | rfl <;> simp [set, get]
  · intro hj
    rcases this with rfl | rfl | rfl
    · simp [set, get, hj]
    · by_cases h0 : j = 0 <;> simp [set, get, h0, hj]
    · by_cases h0 : j = 0 <;> by_cases h1 : j = 1 <;> simp [set, get, h0, h1, hj]
  · rcases this with rfl | rfl | rfl <;> simp [set]

/-- Other indices: an assignment changes no vector, and a const vector reads 0. -/
theorem bracket_outside_partial (v : V3 K) (w a : K) (i : ℤ) (hi : ¬ (0 ≤ i ∧ i ≤ 2)) :
    (set (v, w) i a).1 = v ∧ get v i = 0 := by
  have h0 : i ≠ 0 := by rintro rfl; exact hi (by norm_num)
  have h1 : i ≠ 1 := by rintro rfl; exact hi (by norm_num)
  have h2 : i ≠ 2 := by rintro rfl; exact hi (by norm_num)
  simp [set, get, h0, h1, h2]

end

/-- A vector that is not const reads at such an index what was last assigned to such an index of any vector. -/
theorem bracket_outside_false_not_const : ∃ (v u : V3 ℚ) (s : V3 ℚ × ℚ), set (v, 0) 3 7 = s ∧
    getRef (u, s.2) 5 = 7 ∧ get u 5 = 0 :=
  ⟨⟨1, 2, 3⟩, ⟨4, 5, 6⟩, _, rfl, by decide +kernel, by decide +kernel⟩

end Gear.Vector3D
