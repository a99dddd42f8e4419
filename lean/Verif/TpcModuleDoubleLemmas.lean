/-
Helper lemmas about the transformations of `TPCModuleImpl` in `double` arithmetic.
-/
import Verif.TpcModuleDouble
import Verif.TpcModuleProps
import Verif.DoublesGrid
import Mathlib.Analysis.SpecialFunctions.Trigonometric.Bounds
import Mathlib.Analysis.Real.Pi.Irrational

set_option autoImplicit false
set_option linter.unusedSectionVars false

namespace Gear.TpcModule.Double

open Disk Real
open TpcModule.Spec (Known plane place Op Values values Settled)
open Doubles (Rounding)

namespace Spec

/-- The arithmetic of `double` with a good mathematical library: the operations round with a relative error of at most `u`,
doubles are multiples of powers of two, `M_PI` is `π` rounded, and the functions have a relative error of at most `u`.
For doubles and a library that is right to the last bit, `u` is `2^-52`. -/
structure Rounded (F : Arith ℝ) (u : ℝ) : Prop where
  rounding : Rounding F.rnd u
  small : u ≤ 1 / 1000
  form : ∀ x, ∃ n k : ℤ, F.rnd x = n * 2 ^ k
  pi : |F.pi - π| ≤ u * π
  cos : ∀ x, |F.cos x - cos x| ≤ u * |cos x|
  sin : ∀ x, |F.sin x - sin x| ≤ u * |sin x|
  sqrt : ∀ x, 0 ≤ x → |F.sqrt x - √x| ≤ u * √x
  atan2 : ∀ x y, |F.atan2 y x - Complex.arg ⟨x, y⟩| ≤ u * |Complex.arg ⟨x, y⟩|

/-- The distance of two points of the plane. -/
noncomputable def far (p q : ℝ × ℝ) : ℝ := √((p.1 - q.1) ^ 2 + (p.2 - q.2) ^ 2)

/-- How large coordinates are, as far as rounding goes. -/
noncomputable def weight (t : ℤ) (c : ℝ × ℝ) : ℝ := if t = POLAR then |c.1| * (1 + |c.2|) else |c.1| + |c.2|

/-- One call of a setter. -/
noncomputable def step (F : Arith ℝ) (m : Module ℝ) : Op → Module ℝ
  | .border w => { m with border := w }
  | .offset a b => setOffset F m a b
  | .angle a => setAngle F m a
  | .z z => setZPosition m z
  | .frequency f => setReadoutFrequency m f

/-- Any sequence of setter calls. -/
noncomputable def run (F : Arith ℝ) (m : Module ℝ) (ops : List Op) : Module ℝ := ops.foldl (step F) m

/-- What the user passes for the angle of an offset is a double. -/
def Given (F : Arith ℝ) : Op → Prop
  | .offset _ b => F.rnd b = b
  | _ => True

end Spec

open Spec

/-! ### The plane as complex numbers -/

/-- The point as a complex number. -/
def toC (p : ℝ × ℝ) : ℂ := ⟨p.1, p.2⟩

@[simp] theorem toC_re (p : ℝ × ℝ) : (toC p).re = p.1 := rfl
@[simp] theorem toC_im (p : ℝ × ℝ) : (toC p).im = p.2 := rfl

theorem far_eq (p q : ℝ × ℝ) : far p q = ‖toC p - toC q‖ := by
  rw [Complex.norm_eq_sqrt_sq_add_sq]; rfl

theorem abs_fst_le (p : ℝ × ℝ) : |p.1| ≤ ‖toC p‖ := Complex.abs_re_le_norm (toC p)
theorem abs_snd_le (p : ℝ × ℝ) : |p.2| ≤ ‖toC p‖ := Complex.abs_im_le_norm (toC p)
theorem norm_le (p : ℝ × ℝ) : ‖toC p‖ ≤ |p.1| + |p.2| := Complex.norm_le_abs_re_add_abs_im (toC p)

/-- Components with a relative error. -/
theorem components {p q : ℝ × ℝ} {e : ℝ} (he : 0 ≤ e) (h1 : |p.1 - q.1| ≤ e * |q.1|) (h2 : |p.2 - q.2| ≤ e * |q.2|) :
    ‖toC p - toC q‖ ≤ e * ‖toC q‖ := by
  have e1 : ‖toC p - toC q‖ = √((p.1 - q.1) ^ 2 + (p.2 - q.2) ^ 2) := (far_eq p q).symm
  have e2 : e * ‖toC q‖ = √(e ^ 2 * (q.1 ^ 2 + q.2 ^ 2)) := by
    rw [Complex.norm_eq_sqrt_sq_add_sq, Real.sqrt_mul (by positivity), Real.sqrt_sq he]; rfl
  rw [e1, e2]
  apply Real.sqrt_le_sqrt
  have a1 : (p.1 - q.1) ^ 2 ≤ (e * |q.1|) ^ 2 := by rw [← sq_abs]; gcongr
  have a2 : (p.2 - q.2) ^ 2 ≤ (e * |q.2|) ^ 2 := by rw [← sq_abs]; gcongr
  rw [mul_pow, sq_abs] at a1 a2
  linarith

theorem norm_polar (r phi : ℝ) : ‖toC (r * cos phi, r * sin phi)‖ = |r| := by
  have e : toC (r * cos phi, r * sin phi) = r * Complex.exp (phi * Complex.I) := by
    rw [Complex.exp_mul_I, ← Complex.ofReal_cos, ← Complex.ofReal_sin]
    apply Complex.ext <;> simp [← Complex.ofReal_cos, ← Complex.ofReal_sin, -Complex.ofReal_cos, -Complex.ofReal_sin]
  rw [e, norm_mul, Complex.norm_exp_ofReal_mul_I, mul_one, Complex.norm_real, Real.norm_eq_abs]

/-- Polar coordinates with errors. -/
theorem polar_near {r r' phi phi' e : ℝ} (k : ℤ) (h : |phi' - phi - k * (2 * π)| ≤ e) :
    ‖toC (r' * cos phi', r' * sin phi') - toC (r * cos phi, r * sin phi)‖ ≤ |r' - r| + |r| * e := by
  have e1 : ∀ r phi : ℝ, toC (r * cos phi, r * sin phi) = r * Complex.exp (phi * Complex.I) := by
    intro r phi
    rw [Complex.exp_mul_I, ← Complex.ofReal_cos, ← Complex.ofReal_sin]
    apply Complex.ext <;> simp [← Complex.ofReal_cos, ← Complex.ofReal_sin, -Complex.ofReal_cos, -Complex.ofReal_sin]
  have e2 : toC (r' * cos phi', r' * sin phi') - toC (r * cos phi, r * sin phi) =
      toC ((r' - r) * cos phi', (r' - r) * sin phi') +
        r * Complex.exp (phi * Complex.I) * (Complex.exp (Complex.I * ((phi' - phi - k * (2 * π) : ℝ) : ℂ)) - 1) := by
    rw [e1, e1, e1, mul_sub, mul_one, mul_assoc (r : ℂ), ← Complex.exp_add]
    have : (phi : ℂ) * Complex.I + Complex.I * ((phi' - phi - k * (2 * π) : ℝ) : ℂ) =
        phi' * Complex.I - k * (2 * π * Complex.I) := by push_cast; ring
    rw [this, Complex.exp_periodic.sub_int_mul_eq]
    push_cast
    ring
  rw [e2]
  refine (norm_add_le _ _).trans (add_le_add (le_of_eq (norm_polar _ _)) ?_)
  rw [norm_mul, norm_mul, Complex.norm_exp_ofReal_mul_I, mul_one, Complex.norm_real, Real.norm_eq_abs]
  refine mul_le_mul_of_nonneg_left ?_ (abs_nonneg r)
  exact (Real.norm_exp_I_mul_ofReal_sub_one_le (x := phi' - phi - k * (2 * π))).trans h

/-! ### The operations -/

section
variable {F : Arith ℝ} {u : ℝ} (R : Rounded F u)
include R

theorem Spec.Rounded.nonneg : 0 ≤ u := by
  have := R.rounding.err 1
  rw [abs_one, mul_one] at this
  exact (abs_nonneg _).trans this

/-- A product with one factor of relative error `u`. -/
theorem mul_err (x : ℝ) {c c' : ℝ} (h : |c' - c| ≤ u * |c|) : |F.mul x c' - x * c| ≤ 3 * u * |x * c| := by
  have hu := R.nonneg
  have hs := R.small
  have h1 := R.rounding.err (x * c')
  have h2 : |x * c' - x * c| ≤ u * |x * c| := by
    rw [← mul_sub, abs_mul, abs_mul]
    have := mul_le_mul_of_nonneg_left h (abs_nonneg x)
    linarith
  have h3 : |x * c'| ≤ |x * c| + u * |x * c| := by
    have := abs_sub_abs_le_abs_sub (x * c') (x * c)
    linarith
  have h4 := abs_sub_le (F.mul x c') (x * c') (x * c)
  have h5 : u * |x * c'| ≤ u * |x * c| + u * u * |x * c| := by
    have := mul_le_mul_of_nonneg_left h3 hu
    linarith
  have h6 : u * u * |x * c| ≤ u * |x * c| := by
    have : u * u ≤ u * 1 := mul_le_mul_of_nonneg_left (by linarith) hu
    have := mul_le_mul_of_nonneg_right this (abs_nonneg (x * c))
    linarith
  unfold MaterialMap.Arith.mul at h4 ⊢
  linarith

theorem turn_err : |F.turn - 2 * π| ≤ 14 * u ∧ |F.turn| ≤ 7 := by
  have hu := R.nonneg
  have hs := R.small
  have hp := R.pi
  have p1 := Real.pi_gt_three
  have p2 := Real.pi_lt_d2
  have h1 := R.rounding.err (2 * F.pi)
  rw [_root_.abs_le] at hp
  have h2 : u * π ≤ u * 3.15 := mul_le_mul_of_nonneg_left p2.le hu
  have h3 : |2 * F.pi| ≤ 6.5 := by rw [_root_.abs_le]; constructor <;> linarith
  have h4 : u * |2 * F.pi| ≤ u * 6.5 := mul_le_mul_of_nonneg_left h3 hu
  rw [_root_.abs_le] at h1
  unfold Arith.turn MaterialMap.Arith.mul
  constructor <;> rw [_root_.abs_le] <;> constructor <;> linarith [h1.1, h1.2]

theorem add_turn (a : ℝ) : |F.add a F.turn - a - 2 * π| ≤ u * (21 + |a|) ∧ |F.add a F.turn| ≤ 1.001 * |a| + 8 := by
  have hu := R.nonneg
  have hs := R.small
  obtain ⟨h1, h2⟩ := turn_err R
  have h3 := R.rounding.err (a + F.turn)
  have h4 : |a + F.turn| ≤ |a| + 7 := (abs_add_le _ _).trans (by linarith)
  have h5 : u * |a + F.turn| ≤ u * (|a| + 7) := mul_le_mul_of_nonneg_left h4 hu
  have h6 : u * (|a| + 7) ≤ 1 / 1000 * (|a| + 7) := mul_le_mul_of_nonneg_right hs (by have := abs_nonneg a; linarith)
  have h7 : |F.rnd (a + F.turn)| ≤ |a + F.turn| + u * |a + F.turn| := by
    have := abs_sub_abs_le_abs_sub (F.rnd (a + F.turn)) (a + F.turn); linarith
  unfold MaterialMap.Arith.add
  constructor
  · have e : F.rnd (a + F.turn) - a - 2 * π = (F.rnd (a + F.turn) - (a + F.turn)) + (F.turn - 2 * π) := by ring
    rw [e]
    refine (abs_add_le _ _).trans ?_
    linarith
  · linarith

theorem sub_turn (a : ℝ) : |F.sub a F.turn - a + 2 * π| ≤ u * (21 + |a|) ∧ |F.sub a F.turn| ≤ 1.001 * |a| + 8 := by
  have hu := R.nonneg
  have hs := R.small
  obtain ⟨h1, h2⟩ := turn_err R
  have h3 := R.rounding.err (a - F.turn)
  have h4 : |a - F.turn| ≤ |a| + 7 := (abs_sub _ _).trans (by linarith)
  have h5 : u * |a - F.turn| ≤ u * (|a| + 7) := mul_le_mul_of_nonneg_left h4 hu
  have h6 : u * (|a| + 7) ≤ 1 / 1000 * (|a| + 7) := mul_le_mul_of_nonneg_right hs (by have := abs_nonneg a; linarith)
  have h7 : |F.rnd (a - F.turn)| ≤ |a - F.turn| + u * |a - F.turn| := by
    have := abs_sub_abs_le_abs_sub (F.rnd (a - F.turn)) (a - F.turn); linarith
  unfold MaterialMap.Arith.sub
  constructor
  · have e : F.rnd (a - F.turn) - a + 2 * π = (F.rnd (a - F.turn) - (a - F.turn)) - (F.turn - 2 * π) := by ring
    rw [e]
    refine (abs_sub _ _).trans ?_
    linarith
  · linarith

/-- A conditional turn forwards. -/
theorem wrap_add (a : ℝ) (p : Prop) [Decidable p] :
    (∃ k : ℤ, |(if p then F.add a F.turn else a) - a - k * (2 * π)| ≤ u * (21 + |a|)) ∧
      |if p then F.add a F.turn else a| ≤ 1.001 * |a| + 8 := by
  have hu := R.nonneg
  have ha := abs_nonneg a
  obtain ⟨h1, h2⟩ := add_turn R a
  split_ifs
  · exact ⟨⟨1, by rw [Int.cast_one, one_mul]; exact h1⟩, h2⟩
  · exact ⟨⟨0, by simp; positivity⟩, by linarith⟩

/-- A conditional turn backwards. -/
theorem wrap_sub (a : ℝ) (p : Prop) [Decidable p] :
    (∃ k : ℤ, |(if p then F.sub a F.turn else a) - a - k * (2 * π)| ≤ u * (21 + |a|)) ∧
      |if p then F.sub a F.turn else a| ≤ 1.001 * |a| + 8 := by
  have hu := R.nonneg
  have ha := abs_nonneg a
  obtain ⟨h1, h2⟩ := sub_turn R a
  split_ifs
  · refine ⟨⟨-1, ?_⟩, h2⟩
    have e : F.sub a F.turn - a - ((-1 : ℤ) : ℝ) * (2 * π) = F.sub a F.turn - a + 2 * π := by push_cast; ring
    rw [e]; exact h1
  · exact ⟨⟨0, by simp; positivity⟩, by linarith⟩

theorem pi_sub (a : ℝ) : |F.sub F.pi a - (π - a)| ≤ u * (8 + |a|) ∧ |F.sub F.pi a| ≤ 1.001 * |a| + 4 := by
  have hu := R.nonneg
  have hs := R.small
  have hp := R.pi
  have p1 := Real.pi_gt_three
  have p2 := Real.pi_lt_d2
  have h2 : u * π ≤ u * 3.15 := mul_le_mul_of_nonneg_left p2.le hu
  have h0 : |F.pi| ≤ 3.2 := by
    have := hp
    rw [_root_.abs_le] at this ⊢
    constructor <;> linarith [this.1, this.2]
  have h3 := R.rounding.err (F.pi - a)
  have h4 : |F.pi - a| ≤ |a| + 3.2 := (abs_sub _ _).trans (by linarith)
  have h5 : u * |F.pi - a| ≤ u * (|a| + 3.2) := mul_le_mul_of_nonneg_left h4 hu
  have h6 : u * (|a| + 3.2) ≤ 1 / 1000 * (|a| + 3.2) := mul_le_mul_of_nonneg_right hs (by have := abs_nonneg a; linarith)
  have h7 : |F.rnd (F.pi - a)| ≤ |F.pi - a| + u * |F.pi - a| := by
    have := abs_sub_abs_le_abs_sub (F.rnd (F.pi - a)) (F.pi - a); linarith
  unfold MaterialMap.Arith.sub
  constructor
  · have e : F.rnd (F.pi - a) - (π - a) = (F.rnd (F.pi - a) - (F.pi - a)) + (F.pi - π) := by ring
    rw [e]
    refine (abs_add_le _ _).trans ?_
    linarith
  · linarith

/-- The Cartesian coordinates computed from polar ones. -/
theorem cart_err (r phi : ℝ) : ‖toC (F.mul r (F.cos phi), F.mul r (F.sin phi)) - toC (r * cos phi, r * sin phi)‖ ≤ 3 * u * |r| := by
  have h := components (p := (F.mul r (F.cos phi), F.mul r (F.sin phi))) (q := (r * cos phi, r * sin phi))
    (show 0 ≤ 3 * u by have := R.nonneg; linarith) (mul_err R r (R.cos phi)) (mul_err R r (R.sin phi))
  rwa [norm_polar] at h

/-- Sums and differences of two products. -/
theorem lin_err {x y c s c' s' X : ℝ} (hx : |x| ≤ X) (hy : |y| ≤ X) (hc : |c| ≤ 1) (hs : |s| ≤ 1)
    (h1 : |c' - c| ≤ u * |c|) (h2 : |s' - s| ≤ u * |s|) :
    |F.add (F.mul x c') (F.mul y s') - (x * c + y * s)| ≤ 9 * u * X ∧
    |F.sub (F.mul x c') (F.mul y s') - (x * c - y * s)| ≤ 9 * u * X := by
  have hu := R.nonneg
  have hsm := R.small
  have hX : 0 ≤ X := (abs_nonneg x).trans hx
  have a1 := mul_err R x h1
  have a2 := mul_err R y h2
  have b1 : |x * c| ≤ X := by
    rw [abs_mul]
    calc |x| * |c| ≤ X * 1 := mul_le_mul hx hc (abs_nonneg _) hX
      _ = X := mul_one X
  have b2 : |y * s| ≤ X := by
    rw [abs_mul]
    calc |y| * |s| ≤ X * 1 := mul_le_mul hy hs (abs_nonneg _) hX
      _ = X := mul_one X
  have a1' : |F.mul x c' - x * c| ≤ 3 * u * X := a1.trans (mul_le_mul_of_nonneg_left b1 (by linarith))
  have a2' : |F.mul y s' - y * s| ≤ 3 * u * X := a2.trans (mul_le_mul_of_nonneg_left b2 (by linarith))
  have hux : u * X ≤ 1 / 1000 * X := mul_le_mul_of_nonneg_right hsm hX
  generalize F.mul x c' = A at *
  generalize F.mul y s' = B at *
  have m1 : |A| ≤ 1.1 * X := by
    have := abs_sub_abs_le_abs_sub A (x * c); linarith
  have m2 : |B| ≤ 1.1 * X := by
    have := abs_sub_abs_le_abs_sub B (y * s); linarith
  unfold MaterialMap.Arith.add MaterialMap.Arith.sub
  constructor
  · have r := R.rounding.err (A + B)
    have r2 : u * |A + B| ≤ u * (2.2 * X) := mul_le_mul_of_nonneg_left ((abs_add_le _ _).trans (by linarith)) hu
    have e : F.rnd (A + B) - (x * c + y * s) = (F.rnd (A + B) - (A + B)) + ((A - x * c) + (B - y * s)) := by ring
    rw [e]
    have t1 := abs_add_le (F.rnd (A + B) - (A + B)) ((A - x * c) + (B - y * s))
    have t2 := abs_add_le (A - x * c) (B - y * s)
    have : 0 ≤ u * X := mul_nonneg hu hX
    linarith
  · have r := R.rounding.err (A - B)
    have r2 : u * |A - B| ≤ u * (2.2 * X) := mul_le_mul_of_nonneg_left ((abs_sub _ _).trans (by linarith)) hu
    have e : F.rnd (A - B) - (x * c - y * s) = (F.rnd (A - B) - (A - B)) + ((A - x * c) - (B - y * s)) := by ring
    rw [e]
    have t1 := abs_add_le (F.rnd (A - B) - (A - B)) ((A - x * c) - (B - y * s))
    have t2 := abs_sub (A - x * c) (B - y * s)
    have : 0 ≤ u * X := mul_nonneg hu hX
    linarith

/-- Rounding both components. -/
theorem rnd_err (p : ℝ × ℝ) : ‖toC (F.rnd p.1, F.rnd p.2) - toC p‖ ≤ u * ‖toC p‖ :=
  components R.nonneg (R.rounding.err _) (R.rounding.err _)

/-- The polar coordinates computed from Cartesian ones. -/
theorem polar_err (x y : ℝ) : ‖toC (plane POLAR (polar F x y)) - toC (x, y)‖ ≤ 40 * u * ‖toC (x, y)‖ ∧
    0 ≤ (polar F x y).1 ∧ (polar F x y).1 ≤ 1.1 * ‖toC (x, y)‖ ∧ |(polar F x y).2| ≤ 13 := by
  have hu := R.nonneg
  have hs := R.small
  have p1 := Real.pi_gt_three
  have p2 := Real.pi_lt_d2
  set n := ‖toC (x, y)‖ with hn
  have hn0 : 0 ≤ n := norm_nonneg _
  have hnn : n ^ 2 = x * x + y * y := by
    rw [hn, Complex.sq_norm, Complex.normSq_apply]; rfl
  -- the radius
  have q1 := R.rounding.bounds (x := x * x) (mul_self_nonneg x)
  have q2 := R.rounding.bounds (x := y * y) (mul_self_nonneg y)
  have q0 : 0 ≤ F.mul x x + F.mul y y := by
    have := mul_nonneg (show 0 ≤ 1 - u by linarith) (mul_self_nonneg x)
    have := mul_nonneg (show 0 ≤ 1 - u by linarith) (mul_self_nonneg y)
    unfold MaterialMap.Arith.mul; linarith
  have q3 := R.rounding.bounds (x := F.mul x x + F.mul y y) q0
  have s0 : 0 ≤ F.add (F.mul x x) (F.mul y y) := R.rounding.nonneg q0
  have lo : ((1 - u) * n) ^ 2 ≤ F.add (F.mul x x) (F.mul y y) := by
    have e : ((1 - u) * n) ^ 2 = (1 - u) * ((1 - u) * (x * x) + (1 - u) * (y * y)) := by rw [mul_pow, hnn]; ring
    rw [e]
    refine le_trans (mul_le_mul_of_nonneg_left ?_ (by linarith)) q3.1
    unfold MaterialMap.Arith.mul; linarith
  have hi : F.add (F.mul x x) (F.mul y y) ≤ ((1 + u) * n) ^ 2 := by
    have e : ((1 + u) * n) ^ 2 = (1 + u) * ((1 + u) * (x * x) + (1 + u) * (y * y)) := by rw [mul_pow, hnn]; ring
    rw [e]
    refine le_trans q3.2 (mul_le_mul_of_nonneg_left ?_ (by linarith))
    unfold MaterialMap.Arith.mul; linarith
  have lo' : (1 - u) * n ≤ √(F.add (F.mul x x) (F.mul y y)) := by
    rw [← Real.sqrt_sq (mul_nonneg (show 0 ≤ 1 - u by linarith) hn0)]
    exact Real.sqrt_le_sqrt lo
  have hi' : √(F.add (F.mul x x) (F.mul y y)) ≤ (1 + u) * n := by
    rw [← Real.sqrt_sq (mul_nonneg (show 0 ≤ 1 + u by linarith) hn0)]
    exact Real.sqrt_le_sqrt hi
  have hr := R.sqrt _ s0
  have er : (polar F x y).1 = F.sqrt (F.add (F.mul x x) (F.mul y y)) := rfl
  rw [← er] at hr
  have un : u * n ≤ 1 / 1000 * n := mul_le_mul_of_nonneg_right hs hn0
  have un0 : 0 ≤ u * n := mul_nonneg hu hn0
  have un2 : u * √(F.add (F.mul x x) (F.mul y y)) ≤ u * ((1 + u) * n) := mul_le_mul_of_nonneg_left hi' hu
  have un3 : u * (u * n) ≤ 1 / 1000 * (u * n) := mul_le_mul_of_nonneg_right hs un0
  have e4 : u * ((1 + u) * n) = u * n + u * (u * n) := by ring
  have hr2 : |(polar F x y).1 - n| ≤ 3 * u * n := by
    have := hr
    rw [_root_.abs_le] at this ⊢
    constructor <;> linarith [this.1, this.2]
  -- the angle
  set a := Complex.arg ⟨x, y⟩ with ha
  have ha1 : |a| ≤ 3.15 := by
    rw [_root_.abs_le]
    have := Complex.neg_pi_lt_arg (⟨x, y⟩ : ℂ)
    have := Complex.arg_le_pi (⟨x, y⟩ : ℂ)
    constructor <;> linarith
  have ha2 := R.atan2 x y
  rw [← ha] at ha2
  have ha3 : u * |a| ≤ u * 3.15 := mul_le_mul_of_nonneg_left ha1 hu
  have ha4 : |F.atan2 y x| ≤ 3.2 := by
    have := abs_sub_abs_le_abs_sub (F.atan2 y x) a; linarith
  obtain ⟨⟨k, hk⟩, hb⟩ := wrap_add R (F.atan2 y x) (F.atan2 y x < 0)
  have ep : (polar F x y).2 = if F.atan2 y x < 0 then F.add (F.atan2 y x) F.turn else F.atan2 y x := rfl
  rw [← ep] at hk hb
  have hk2 : |(polar F x y).2 - a - k * (2 * π)| ≤ 30 * u := by
    have e : (polar F x y).2 - a - k * (2 * π) = ((polar F x y).2 - F.atan2 y x - k * (2 * π)) + (F.atan2 y x - a) := by ring
    rw [e]
    refine (abs_add_le _ _).trans ?_
    have : u * (21 + |F.atan2 y x|) ≤ u * 24.2 := mul_le_mul_of_nonneg_left (by linarith) hu
    linarith
  have exact : toC (n * cos a, n * sin a) = toC (x, y) := by
    apply Complex.ext
    · exact Complex.norm_mul_cos_arg _
    · exact Complex.norm_mul_sin_arg _
  refine ⟨?_, ?_, ?_, by linarith⟩
  · have := polar_near (r := n) (r' := (polar F x y).1) (phi := a) (phi' := (polar F x y).2) k hk2
    rw [exact] at this
    rw [plane_polar]
    rw [abs_of_nonneg hn0] at this
    linarith
  · rw [_root_.abs_le] at hr2
    linarith [hr2.1]
  · rw [_root_.abs_le] at hr2
    linarith [hr2.2]

end

end Gear.TpcModule.Double
