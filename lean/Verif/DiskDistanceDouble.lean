/-
Property C154: `getDistanceToPad` of the disk layouts with the arithmetic of `double`
(`src/gearimpl/FixedDiskLayoutBase.cc`).
-/
import Verif.DiskDistance
import Verif.PadAngleDoubleEdge
import Verif.RectDistanceDouble
import Mathlib.Analysis.SpecialFunctions.Trigonometric.Bounds

set_option autoImplicit false
set_option linter.unusedSectionVars false

namespace Gear.Disk.Double

open MaterialMap (Arith binary64)
open Doubles (Rounding)
open PadAngle.Double (rIntersect)

section model

variable {K : Type} [Field K] [LinearOrder K] [IsStrictOrderedRing K] [FloorRing K]

/-- `sqrt`; `none` is NaN.  Simplification: the result is the nearest double. -/
def squareRoot (F : Arith K) (v : K) : Option K := if v < 0 then none else some (F.rnd (F.sqrt v))

/-- `a < b ? a : b`, line 91; every comparison with NaN is false. -/
def smaller : Option K → Option K → Option K
  | some a, some b => if a < b then some a else some b
  | _, b => b

/-- The distance to one radial edge at the angle `phiE`, lines 54-69 and 73-88; `none` is NaN.  Simplification: the results of
`cos` and `sin` are the nearest doubles. -/
def edgeDistance (F : Arith K) (r phi rMin rMax phiE : K) : Option K :=
  let rI := rIntersect F r phi phiE
  let m := F.mul r (F.sub (F.mul (F.rnd (F.cos phi)) (F.rnd (F.sin phiE))) (F.mul (F.rnd (F.sin phi)) (F.rnd (F.cos phiE))))
  if rI < rMin then squareRoot F (F.sub (F.add (F.mul r r) (F.mul rMin rMin)) (F.mul (F.mul 2 rMin) rI))
  else if rI > rMax then squareRoot F (F.sub (F.add (F.mul r r) (F.mul rMax rMax)) (F.mul (F.mul 2 rMax) rI))
  else some |m|

/-- `FixedDiskLayoutBase::getDistanceToPad`, lines 34-94, with the limits of lines 25-28; `none` is NaN. -/
def keystoneDistance (F : Arith K) (r phi rMin rMax phiMin phiMax : K) : Option K :=
  if phi ≥ phiMin ∧ phi ≤ phiMax then
    if r ≥ rMin ∧ r ≤ rMax then some 0
    else if r < rMin then some (F.sub rMin r)
    else some (F.sub r rMax)
  else smaller (edgeDistance F r phi rMin rMax phiMin) (edgeDistance F r phi rMin rMax phiMax)

/-- `FixedDiskLayoutBase::getDistanceToPad`, lines 20-96, where `getPadCenter`, `getRowHeight` and `getPadPitch` of the layout
return `center`, `rowHeight` and `pitch`. -/
def getDistanceToPad (F : Arith K) (center : K × K) (rowHeight pitch r phi : K) : Option K :=
  keystoneDistance F r phi (F.sub center.1 (F.div rowHeight 2)) (F.add center.1 (F.div rowHeight 2))
    (F.sub center.2 (F.div pitch 2)) (F.add center.2 (F.div pitch 2))

/-- `FixedDiskLayoutBase::getDistanceToPad` of a `FixedPadAngleDiskLayout` (`getRowHeight` and `getPadPitch`:
`FixedPadAngleDiskLayout.h`). -/
def angleDistance (F : Arith K) (L : PadAngle.Layout K) (r phi : K) (padIndex : ℤ) : Option K :=
  getDistanceToPad F (PadAngle.Double.getPadCenter F L padIndex) L.rowHeight L.padAngle r phi

end model

namespace Spec

open Disk.Spec

/-- The arithmetic of `double` with relative errors of at most `u`, and the mathematical functions. -/
structure Rounded (F : Arith ℝ) (u : ℝ) : Prop where
  rounding : Rounding F.rnd u
  small : u ≤ 1 / 1000
  cos : F.cos = Real.cos
  sin : F.sin = Real.sin
  sqrt : F.sqrt = Real.sqrt

/-- The points of a pad with this centre, height and angle, between limits rounded to doubles. -/
def pad (F : Arith ℝ) (center : ℝ × ℝ) (rowHeight pitch : ℝ) : Set (ℝ × ℝ) :=
  keystone (F.sub center.1 (F.div rowHeight 2)) (F.add center.1 (F.div rowHeight 2))
    (F.sub center.2 (F.div pitch 2)) (F.add center.2 (F.div pitch 2))

end Spec

open Disk.Spec Spec

variable {F : Arith ℝ} {u : ℝ}

/-! ### Rounding errors -/

/-- The distance of `(rho, m)` from the point `t` of the first axis. -/
noncomputable def reach (rho m t : ℝ) : ℝ := √(m ^ 2 + (rho - t) ^ 2)

theorem reach_near (rho m t t' : ℝ) : |reach rho m t - reach rho m t'| ≤ |t - t'| := by
  have := Rect.Double.plane_near m (rho - t') m (rho - t)
  rw [sub_self, abs_zero, zero_add, sub_sub_sub_cancel_left, abs_sub_comm t' t] at this
  exact this

theorem reach_nonneg (rho m t : ℝ) : 0 ≤ reach rho m t := Real.sqrt_nonneg _

/-- The exact distance to an edge. -/
theorem edge_reach (r phi rMin rMax phiE : ℝ) : Disk.edgeDistance realFns r phi rMin rMax phiE =
    reach (r * Real.cos (phi - phiE)) (r * Real.sin (phi - phiE)) (edgeRadius r phi rMin rMax phiE) := by
  rw [edgeDistance_eq, dist2_point]
  unfold reach
  congr 1
  have h := Real.sin_sq_add_cos_sq (phi - phiE)
  have : r ^ 2 = r ^ 2 * (Real.sin (phi - phiE) ^ 2 + Real.cos (phi - phiE) ^ 2) := by rw [h, mul_one]
  rw [this]; ring

theorem sides (a b : ℝ) : |Real.cos a * Real.cos b| + |Real.sin a * Real.sin b| ≤ 1 ∧
    |Real.cos a * Real.sin b| + |Real.sin a * Real.cos b| ≤ 1 := by
  have ha := Real.sin_sq_add_cos_sq a
  have hb := Real.sin_sq_add_cos_sq b
  have am : ∀ x y : ℝ, |x * y| ≤ (x ^ 2 + y ^ 2) / 2 := by
    intro x y
    rw [abs_mul]
    have := two_mul_le_add_sq |x| |y|
    rw [sq_abs, sq_abs] at this
    linarith
  have h1 := am (Real.cos a) (Real.cos b)
  have h2 := am (Real.sin a) (Real.sin b)
  have h3 := am (Real.cos a) (Real.sin b)
  have h4 := am (Real.sin a) (Real.cos b)
  constructor <;> linarith

section
variable (R : Rounded F u)
include R

theorem Spec.Rounded.nonneg : 0 ≤ u := by
  have := R.rounding.err 1
  rw [abs_one, mul_one] at this
  exact (abs_nonneg _).trans this

theorem product_near (a b : ℝ) : |F.mul (F.rnd a) (F.rnd b) - a * b| ≤ 4 * u * |a * b| := by
  have hu := R.nonneg
  have hs := R.small
  have ea := R.rounding.err a
  have eb := R.rounding.err b
  have la := R.rounding.abs_le a
  have e := R.rounding.err (F.rnd a * F.rnd b)
  have h1 : |F.rnd a * F.rnd b - a * b| ≤ (2 * u + u ^ 2) * |a * b| := by
    have : F.rnd a * F.rnd b - a * b = F.rnd a * (F.rnd b - b) + (F.rnd a - a) * b := by ring
    rw [this]
    refine (abs_add_le _ _).trans ?_
    rw [abs_mul, abs_mul, abs_mul]
    have p1 := mul_le_mul la eb (abs_nonneg _) (by positivity)
    have p2 := mul_le_mul_of_nonneg_right ea (abs_nonneg b)
    linarith
  have h2 : |F.rnd a * F.rnd b| ≤ |a * b| + (2 * u + u ^ 2) * |a * b| := by
    have := abs_sub_abs_le_abs_sub (F.rnd a * F.rnd b) (a * b); linarith
  have h3 := mul_le_mul_of_nonneg_left h2 hu
  have h4 := abs_sub_le (F.mul (F.rnd a) (F.rnd b)) (F.rnd a * F.rnd b) (a * b)
  have n := abs_nonneg (a * b)
  have k : u * (1 + 2 * u + u ^ 2) + (2 * u + u ^ 2) ≤ 4 * u := by nlinarith [mul_nonneg hu hu]
  have := mul_le_mul_of_nonneg_right k n
  unfold MaterialMap.Arith.mul at h4 ⊢
  linarith

theorem turned_near {r p q p' q' : ℝ} (hr : 0 ≤ r) (hp : |p' - p| ≤ 4 * u * |p|) (hq : |q' - q| ≤ 4 * u * |q|)
    (h1 : |p| + |q| ≤ 1) : |F.mul r (F.rnd (p' + q')) - r * (p + q)| ≤ 7 * u * r := by
  have hu := R.nonneg
  have hs := R.small
  have a1 : |p' + q' - (p + q)| ≤ 4 * u := by
    have : p' + q' - (p + q) = (p' - p) + (q' - q) := by ring
    rw [this]
    refine (abs_add_le _ _).trans ?_
    have := mul_le_mul_of_nonneg_left h1 (show 0 ≤ 4 * u by linarith)
    linarith
  have a2 : |p + q| ≤ 1 := (abs_add_le _ _).trans h1
  have a3 : |p' + q'| ≤ 1 + 4 * u := by
    have := abs_sub_abs_le_abs_sub (p' + q') (p + q); linarith
  have a4 := R.rounding.err (p' + q')
  have a5 := mul_le_mul_of_nonneg_left a3 hu
  have a6 : |F.rnd (p' + q') - (p + q)| ≤ 4 * u + u * (1 + 4 * u) := by
    have := abs_sub_le (F.rnd (p' + q')) (p' + q') (p + q); linarith
  have uu := mul_nonneg hu hu
  have su : u * u ≤ u / 1000 := by have := mul_le_mul_of_nonneg_left hs hu; linarith
  set t := F.rnd (p' + q')
  have a7 : |t| ≤ 1 + 6 * u := by
    have := abs_sub_abs_le_abs_sub t (p + q); linarith
  have a8 := R.rounding.err (r * t)
  rw [abs_mul, abs_of_nonneg hr] at a8
  have a9 : |r * t - r * (p + q)| ≤ r * (4 * u + u * (1 + 4 * u)) := by
    rw [← mul_sub, abs_mul, abs_of_nonneg hr]
    exact mul_le_mul_of_nonneg_left a6 hr
  have a10 := abs_sub_le (F.rnd (r * t)) (r * t) (r * (p + q))
  have a11 := mul_le_mul_of_nonneg_left (mul_le_mul_of_nonneg_left a7 hr) hu
  have ur := mul_nonneg hu hr
  have k : u * (1 + 6 * u) + (4 * u + u * (1 + 4 * u)) ≤ 7 * u := by linarith
  have := mul_le_mul_of_nonneg_right k hr
  unfold MaterialMap.Arith.mul
  linarith

/-- The coordinates along an edge and across it. -/
theorem along_near {r : ℝ} (hr : 0 ≤ r) (phi phiE : ℝ) : |rIntersect F r phi phiE - r * Real.cos (phi - phiE)| ≤ 7 * u * r := by
  unfold rIntersect
  rw [R.cos, R.sin, Real.cos_sub]
  exact turned_near R hr (product_near R _ _) (product_near R _ _) (sides phi phiE).1

theorem across_near {r : ℝ} (hr : 0 ≤ r) (phi phiE : ℝ) :
    |(|F.mul r (F.sub (F.mul (F.rnd (F.cos phi)) (F.rnd (F.sin phiE))) (F.mul (F.rnd (F.sin phi)) (F.rnd (F.cos phiE))))|) -
      (|r * Real.sin (phi - phiE)|)| ≤ 7 * u * r := by
  rw [R.cos, R.sin, Real.sin_sub]
  have hp := product_near R (Real.cos phi) (Real.sin phiE)
  have hq := product_near R (Real.sin phi) (Real.cos phiE)
  have hq' : |-F.mul (F.rnd (Real.sin phi)) (F.rnd (Real.cos phiE)) - -(Real.sin phi * Real.cos phiE)| ≤
      4 * u * |-(Real.sin phi * Real.cos phiE)| := by
    rw [neg_sub_neg, abs_sub_comm, abs_neg]; exact hq
  have := turned_near R hr hp hq' (by rw [abs_neg]; exact (sides phi phiE).2)
  refine (abs_abs_sub_abs_le_abs_sub _ (r * (Real.cos phi * Real.sin phiE + -(Real.sin phi * Real.cos phiE)))).trans' ?_ |>.trans
    this
  refine le_of_eq ?_
  unfold MaterialMap.Arith.sub
  rw [← sub_eq_add_neg]
  congr 2
  rw [← abs_neg]; congr 1; ring

/-- The square of the distance from the end of an edge. -/
theorem corner_near {r rE rho rho' : ℝ} (hr : 0 ≤ r) (hE : 0 ≤ rE) (h : |rho' - rho| ≤ 7 * u * r) (h1 : |rho| ≤ r) :
    |F.sub (F.add (F.mul r r) (F.mul rE rE)) (F.mul (F.mul 2 rE) rho') - (r ^ 2 + rE ^ 2 - 2 * rE * rho)| ≤
      12 * u * (r + rE) ^ 2 := by
  have hu := R.nonneg
  have hs := R.small
  have su : u * u ≤ u / 1000 := by have := mul_le_mul_of_nonneg_left hs hu; linarith
  have uu := mul_nonneg hu hu
  unfold MaterialMap.Arith.sub MaterialMap.Arith.add MaterialMap.Arith.mul
  have rr := mul_self_nonneg r
  have ee := mul_self_nonneg rE
  have re := mul_nonneg hr hE
  have b1 := R.rounding.err (r * r)
  rw [abs_of_nonneg rr] at b1
  have b2 := R.rounding.err (rE * rE)
  rw [abs_of_nonneg ee] at b2
  set a := F.rnd (r * r)
  set b := F.rnd (rE * rE)
  have b3 := R.rounding.err (a + b)
  have b4 : |a + b - (r * r + rE * rE)| ≤ u * (r * r + rE * rE) := by
    have : a + b - (r * r + rE * rE) = (a - r * r) + (b - rE * rE) := by ring
    rw [this]; refine (abs_add_le _ _).trans ?_; linarith
  have b5 : |a + b| ≤ (1 + u) * (r * r + rE * rE) := by
    have := abs_sub_abs_le_abs_sub (a + b) (r * r + rE * rE)
    rw [abs_of_nonneg (add_nonneg rr ee)] at this; linarith
  have b6 := mul_le_mul_of_nonneg_left b5 hu
  set S := F.rnd (a + b)
  have usq : u * u * (r * r + rE * rE) ≤ u / 1000 * (r * r + rE * rE) := mul_le_mul_of_nonneg_right su (add_nonneg rr ee)
  have usq0 := mul_nonneg hu (add_nonneg rr ee)
  have b7 : |S - (r * r + rE * rE)| ≤ 2.01 * u * (r * r + rE * rE) := by
    have := abs_sub_le S (a + b) (r * r + rE * rE)
    nlinarith
  -- the mixed term
  have c1 := R.rounding.err (2 * rE)
  rw [abs_of_nonneg (by linarith : 0 ≤ 2 * rE)] at c1
  set t := F.rnd (2 * rE)
  have hur : 0 ≤ u * r := mul_nonneg hu hr
  have hur2 : u * r ≤ r / 1000 := by have := mul_le_mul_of_nonneg_right hs hr; linarith
  have c2 : |rho'| ≤ 1.01 * r := by
    have := abs_sub_abs_le_abs_sub rho' rho; linarith
  have c3 : |t * rho' - 2 * rE * rho| ≤ 16.1 * (u * (rE * r)) := by
    have e : t * rho' - 2 * rE * rho = (t - 2 * rE) * rho' + 2 * rE * (rho' - rho) := by ring
    rw [e]; refine (abs_add_le _ _).trans ?_
    rw [abs_mul, abs_mul, abs_of_nonneg (by linarith : 0 ≤ 2 * rE)]
    have p1 := mul_le_mul c1 c2 (abs_nonneg _) (mul_nonneg hu (by linarith))
    have p2 := mul_le_mul_of_nonneg_left h (by linarith : 0 ≤ 2 * rE)
    nlinarith
  have ure : 0 ≤ u * (rE * r) := mul_nonneg hu (by linarith [mul_comm r rE])
  have ure2 : u * (rE * r) ≤ rE * r / 1000 := by
    have := mul_le_mul_of_nonneg_right hs (by linarith [mul_comm r rE] : 0 ≤ rE * r); linarith
  have c4 : |2 * rE * rho| ≤ 2 * (rE * r) := by
    rw [abs_mul, abs_of_nonneg (by linarith : 0 ≤ 2 * rE)]
    have := mul_le_mul_of_nonneg_left h1 (by linarith : 0 ≤ 2 * rE); linarith
  have c5 : |t * rho'| ≤ 2.1 * (rE * r) := by
    have := abs_sub_abs_le_abs_sub (t * rho') (2 * rE * rho); linarith
  have c6 := R.rounding.err (t * rho')
  have c7 := mul_le_mul_of_nonneg_left c5 hu
  set T := F.rnd (t * rho')
  have c8 : |T - 2 * rE * rho| ≤ 18.2 * (u * (rE * r)) := by
    have := abs_sub_le T (t * rho') (2 * rE * rho); linarith
  -- together
  have d1 := R.rounding.err (S - T)
  have d2 : |S - T - (r ^ 2 + rE ^ 2 - 2 * rE * rho)| ≤ 2.01 * u * (r * r + rE * rE) + 18.2 * (u * (rE * r)) := by
    have e : S - T - (r ^ 2 + rE ^ 2 - 2 * rE * rho) = (S - (r * r + rE * rE)) - (T - 2 * rE * rho) := by ring
    rw [e]; refine (abs_sub _ _).trans ?_; linarith
  have usq2 : u * (r * r + rE * rE) ≤ (r * r + rE * rE) / 1000 := by
    have := mul_le_mul_of_nonneg_right hs (add_nonneg rr ee); linarith
  have d3 : |S - T| ≤ 1.1 * (r * r + rE * rE) + 2.1 * (rE * r) := by
    have h1 : |S| ≤ 1.1 * (r * r + rE * rE) := by
      have := abs_sub_abs_le_abs_sub S (r * r + rE * rE)
      rw [abs_of_nonneg (add_nonneg rr ee)] at this; linarith
    have h2 : |T| ≤ 2.1 * (rE * r) := by
      have := abs_sub_abs_le_abs_sub T (2 * rE * rho); linarith
    exact (abs_sub _ _).trans (by linarith)
  have d4 := mul_le_mul_of_nonneg_left d3 hu
  have d5 := abs_sub_le (F.rnd (S - T)) (S - T) (r ^ 2 + rE ^ 2 - 2 * rE * rho)
  have e : 12 * u * (r + rE) ^ 2 = 12 * (u * (r * r + rE * rE)) + 24 * (u * (rE * r)) := by ring
  rw [e]
  linarith

/-- One of the roots. -/
theorem root_near {A A' e W : ℝ} (hW : 0 ≤ W) (he : e ≤ W) (h0 : 0 < e) (hb : 100 * u * W ^ 2 ≤ e ^ 2) (hA0 : 0 ≤ A)
    (hA : |A' - A| ≤ 12 * u * W ^ 2) (hr : |√A - e| ≤ 7 * u * W) :
    ∃ D, squareRoot F A' = some D ∧ |D - e| ≤ 25 * u * W ^ 2 / e := by
  have hu := R.nonneg
  have hs := R.small
  have uW0 : 0 ≤ u * W := mul_nonneg hu hW
  have uWW0 : 0 ≤ u * W ^ 2 := mul_nonneg hu (sq_nonneg W)
  have uW : u * W ≤ e / 300 := by
    refine abs_le_of_sq_le_sq' ?_ (by linarith) |>.2
    have : u * (u * W ^ 2) ≤ 1 / 1000 * (u * W ^ 2) := mul_le_mul_of_nonneg_right hs uWW0
    nlinarith
  obtain ⟨r1, r2⟩ := _root_.abs_le.1 hr
  have q1 : 0.97 * e ≤ √A := by linarith
  have q2 : √A ≤ 1.03 * e := by linarith
  have q3 : (0.97 * e) ^ 2 ≤ A := by
    rw [← Real.sq_sqrt hA0]; exact pow_le_pow_left₀ (by linarith) q1 2
  obtain ⟨a1, a2⟩ := _root_.abs_le.1 hA
  have q4 : 0 ≤ A' := by nlinarith
  refine ⟨F.rnd √A', by rw [squareRoot, if_neg (not_lt.2 q4), R.sqrt], ?_⟩
  have hp : 0 < √A := by linarith
  have hd : |√A' - √A| ≤ 12.5 * (u * W ^ 2 / e) := by
    have h1 : |√A' - √A| * (√A' + √A) = |A' - A| := by
      rw [← abs_of_nonneg (add_nonneg (Real.sqrt_nonneg A') (Real.sqrt_nonneg A)), ← abs_mul]
      congr 1
      have k1 := Real.sq_sqrt q4
      have k2 := Real.sq_sqrt hA0
      linear_combination k1 - k2
    have h2 : |√A' - √A| * (0.97 * e) ≤ 12 * u * W ^ 2 := by
      refine (mul_le_mul_of_nonneg_left ?_ (abs_nonneg _)).trans (h1.le.trans hA)
      have := Real.sqrt_nonneg A'; linarith
    rw [mul_div_assoc', le_div_iff₀ h0]
    linarith
  have hq : u * W ≤ u * W ^ 2 / e := by
    rw [le_div_iff₀ h0]
    have := mul_le_mul_of_nonneg_left he uW0
    linarith
  have hR := R.rounding.err √A'
  rw [abs_of_nonneg (Real.sqrt_nonneg A')] at hR
  have hA' : √A' ≤ 2 * W := by
    refine Real.sqrt_le_iff.2 ⟨by linarith, ?_⟩
    have : A ≤ (1.03 * e) ^ 2 := by
      rw [← Real.sq_sqrt hA0]; exact pow_le_pow_left₀ (Real.sqrt_nonneg A) q2 2
    have e2 : e ^ 2 ≤ W ^ 2 := pow_le_pow_left₀ h0.le he 2
    nlinarith
  have := mul_le_mul_of_nonneg_left hA' hu
  have t1 := abs_sub_le (F.rnd √A') √A' e
  have t2 := abs_sub_le √A' √A e
  have e1 : 25 * u * W ^ 2 / e = 25 * (u * W ^ 2 / e) := by ring
  rw [e1]
  linarith

/-- One edge. -/
theorem edge_near {r phi rMin rMax phiE : ℝ} (hr : 0 ≤ r) (h0 : 0 ≤ rMin) (h1 : rMin ≤ rMax) {e : ℝ}
    (he : Disk.edgeDistance realFns r phi rMin rMax phiE = e) (hp : 0 < e) (hb : 100 * u * (r + rMax) ^ 2 ≤ e ^ 2) :
    ∃ D, edgeDistance F r phi rMin rMax phiE = some D ∧ |D - e| ≤ 25 * u * (r + rMax) ^ 2 / e := by
  have hu := R.nonneg
  have al := along_near R hr phi phiE
  have ac := across_near R hr phi phiE
  rw [edge_reach] at he
  have hc := Real.abs_cos_le_one (phi - phiE)
  have hrho : |r * Real.cos (phi - phiE)| ≤ r := by
    rw [abs_mul, abs_of_nonneg hr]; exact mul_le_of_le_one_right hr hc
  have hsq : (r * Real.cos (phi - phiE)) ^ 2 + (r * Real.sin (phi - phiE)) ^ 2 = r ^ 2 := by
    have := Real.sin_sq_add_cos_sq (phi - phiE)
    linear_combination r ^ 2 * this
  have hER := edgeRadius_mem (r := r) (phi := phi) (phiE := phiE) h1
  have hdef : edgeRadius r phi rMin rMax phiE = if r * Real.cos (phi - phiE) < rMin then rMin
      else if r * Real.cos (phi - phiE) > rMax then rMax else r * Real.cos (phi - phiE) := rfl
  unfold edgeDistance
  dsimp only
  generalize F.mul r (F.sub (F.mul (F.rnd (F.cos phi)) (F.rnd (F.sin phiE))) (F.mul (F.rnd (F.sin phi)) (F.rnd (F.cos phiE)))) = m'
    at ac ⊢
  generalize rIntersect F r phi phiE = rho' at al ⊢
  generalize r * Real.cos (phi - phiE) = rho at *
  generalize r * Real.sin (phi - phiE) = m at *
  generalize edgeRadius r phi rMin rMax phiE = t at *
  have hW : 0 ≤ r + rMax := by linarith
  have heW : e ≤ r + rMax := by
    rw [← he]
    refine Real.sqrt_le_iff.2 ⟨hW, ?_⟩
    have h1 := (_root_.abs_le.1 hrho).1
    have : 0 ≤ t * (rho + r) := mul_nonneg (by linarith) (by linarith)
    have : t ^ 2 ≤ rMax ^ 2 := pow_le_pow_left₀ (by linarith) hER.2 2
    have : t * r ≤ rMax * r := mul_le_mul_of_nonneg_right hER.2 hr
    nlinarith
  have end_near : ∀ rE, 0 ≤ rE → rE ≤ rMax → |rE - t| ≤ 7 * u * r →
      ∃ D, squareRoot F (F.sub (F.add (F.mul r r) (F.mul rE rE)) (F.mul (F.mul 2 rE) rho')) = some D ∧
        |D - e| ≤ 25 * u * (r + rMax) ^ 2 / e := by
    intro rE hE0 hE1 hE
    have hA : r ^ 2 + rE ^ 2 - 2 * rE * rho = m ^ 2 + (rho - rE) ^ 2 := by linear_combination -hsq
    refine root_near R (A := r ^ 2 + rE ^ 2 - 2 * rE * rho) hW heW hp hb ?_ ?_ ?_
    · rw [hA]; positivity
    · refine (corner_near R hr hE0 al hrho).trans ?_
      have := pow_le_pow_left₀ (by linarith) (show r + rE ≤ r + rMax by linarith) 2
      have := mul_le_mul_of_nonneg_left this (show 0 ≤ 12 * u by linarith)
      linarith
    · rw [hA, ← he]
      refine (reach_near rho m rE t).trans (hE.trans ?_)
      have := mul_le_mul_of_nonneg_left (show r ≤ r + rMax by linarith) (show 0 ≤ 7 * u by linarith)
      linarith
  have ur : 0 ≤ 7 * u * r := by positivity
  obtain ⟨l1, l2⟩ := _root_.abs_le.1 al
  split_ifs with c1 c2
  · refine end_near rMin h0 h1 (_root_.abs_le.2 ?_)
    split_ifs at hdef <;> constructor <;> linarith
  · refine end_near rMax (by linarith) le_rfl (_root_.abs_le.2 ?_)
    split_ifs at hdef <;> constructor <;> linarith
  · refine ⟨_, rfl, ?_⟩
    have hm : reach rho m rho = |m| := by
      unfold reach; rw [sub_self, zero_pow two_ne_zero, add_zero, Real.sqrt_sq_eq_abs]
    have h2 := reach_near rho m rho t
    rw [hm, he] at h2
    have h3 : |rho - t| ≤ 7 * u * r := by
      refine _root_.abs_le.2 ?_
      split_ifs at hdef <;> constructor <;> linarith
    have h4 := abs_sub_le |m'| |m| e
    refine (h4.trans (add_le_add ac (h2.trans h3))).trans ?_
    rw [le_div_iff₀ hp]
    have k1 : r * e ≤ (r + rMax) * (r + rMax) := mul_le_mul (by linarith) heW hp.le hW
    have := mul_le_mul_of_nonneg_left k1 hu
    have := mul_nonneg hu (mul_nonneg hW hW)
    nlinarith

end

theorem smaller_near {a b a' b' ε : ℝ} (h1 : |a' - a| ≤ ε) (h2 : |b' - b| ≤ ε) :
    ∃ D, smaller (some a') (some b') = some D ∧ |D - if a < b then a else b| ≤ ε := by
  unfold smaller
  obtain ⟨a1, a2⟩ := _root_.abs_le.1 h1
  obtain ⟨b1, b2⟩ := _root_.abs_le.1 h2
  dsimp only
  split_ifs <;> refine ⟨_, rfl, _root_.abs_le.2 ⟨?_, ?_⟩⟩ <;> linarith

/-! ### Keystones -/

theorem keystone_double (R : Rounded F u) {r phi rMin rMax phiMin phiMax d : ℝ} (hr : 0 ≤ r) (h0 : 0 ≤ rMin)
    (h1 : rMin ≤ rMax) (h2 : phiMin ≤ phiMax) (h3 : phiMax - 2 * Real.pi ≤ phi) (h4 : phi ≤ phiMin + 2 * Real.pi)
    (hd : IsLeast (distancesTo (keystone rMin rMax phiMin phiMax) r phi) d)
    (hp : 0 < d) (hb : 100 * u * (r + rMax) ^ 2 ≤ d ^ 2) :
    ∃ D, keystoneDistance F r phi rMin rMax phiMin phiMax = some D ∧ |D - d| ≤ 25 * u * (r + rMax) ^ 2 / d := by
  have hu := R.nonneg
  have hl := keystoneDistance_isLeast hr h0 h1 h2 h3 h4
  have hd' := hd.unique hl
  have dW : d ≤ r + rMax := by
    refine (hd.2 ⟨_, ⟨rMax, phiMin, h1, le_rfl, by linarith, by linarith, rfl⟩, rfl⟩).trans ?_
    rw [dist2_point]
    refine Real.sqrt_le_iff.2 ⟨by linarith, ?_⟩
    have := Real.neg_one_le_cos (phi - phiMin)
    have := mul_le_mul_of_nonneg_left this (mul_nonneg (h0.trans h1) hr)
    nlinarith
  have err : ∀ {v}, v ≤ r + rMax → u * v ≤ 25 * u * (r + rMax) ^ 2 / d := by
    intro v hv
    rw [le_div_iff₀ hp]
    have k : v * d ≤ (r + rMax) * (r + rMax) :=
      (mul_le_mul_of_nonneg_right hv hp.le).trans (mul_le_mul_of_nonneg_left dW (by linarith))
    have := mul_le_mul_of_nonneg_left k hu
    have := mul_nonneg hu (mul_self_nonneg (r + rMax))
    nlinarith
  unfold keystoneDistance
  unfold Disk.keystoneDistance at hd'
  dsimp only at hd'
  by_cases c : phi ≥ phiMin ∧ phi ≤ phiMax
  · rw [if_pos c] at hd' ⊢
    by_cases c1 : r ≥ rMin ∧ r ≤ rMax
    · rw [if_pos c1] at hd'; linarith
    · rw [if_neg c1] at hd' ⊢
      by_cases c2 : r < rMin
      · rw [if_pos c2] at hd' ⊢
        refine ⟨_, rfl, ?_⟩
        have := R.rounding.err (rMin - r)
        rw [hd']
        rw [abs_of_nonneg (by linarith : 0 ≤ rMin - r)] at this
        rw [hd'] at err
        exact this.trans (err (by linarith))
      · rw [if_neg c2] at hd' ⊢
        refine ⟨_, rfl, ?_⟩
        have := R.rounding.err (r - rMax)
        rw [hd']
        rw [abs_of_nonneg (by linarith : 0 ≤ r - rMax)] at this
        rw [hd'] at err
        exact this.trans (err (by linarith))
  · rw [if_neg c] at hd' ⊢
    have less : d ≤ Disk.edgeDistance realFns r phi rMin rMax phiMin ∧ d ≤ Disk.edgeDistance realFns r phi rMin rMax phiMax := by
      rw [hd']; split_ifs with q
      · exact ⟨le_rfl, q.le⟩
      · exact ⟨not_lt.1 q, le_rfl⟩
    have one : ∀ phiE, d ≤ Disk.edgeDistance realFns r phi rMin rMax phiE →
        ∃ D, edgeDistance F r phi rMin rMax phiE = some D ∧
          |D - Disk.edgeDistance realFns r phi rMin rMax phiE| ≤ 25 * u * (r + rMax) ^ 2 / d := by
      intro phiE hE
      obtain ⟨D, e1, e2⟩ := edge_near R hr h0 h1 rfl (hp.trans_le hE) (hb.trans (pow_le_pow_left₀ hp.le hE 2))
      exact ⟨D, e1, e2.trans (div_le_div_of_nonneg_left (by positivity) hp hE)⟩
    obtain ⟨D1, a1, b1⟩ := one phiMin less.1
    obtain ⟨D2, a2, b2⟩ := one phiMax less.2
    rw [a1, a2]
    have := smaller_near b1 b2
    rwa [← hd'] at this

theorem keystone_double_within (R : Rounded F u) {r phi rMin rMax phiMin phiMax : ℝ} (hr : 0 ≤ r) (h0 : 0 ≤ rMin)
    (h1 : rMin ≤ rMax) (h3 : phiMin ≤ phi) (h4 : phi ≤ phiMax) (h5 : phiMax ≤ phiMin + 2 * Real.pi) :
    ∃ D d, keystoneDistance F r phi rMin rMax phiMin phiMax = some D ∧
      IsLeast (distancesTo (keystone rMin rMax phiMin phiMax) r phi) d ∧ |D - d| ≤ u * d := by
  have hl := keystoneDistance_isLeast hr h0 h1 (h3.trans h4) (by linarith : phiMax - 2 * Real.pi ≤ phi)
    (by linarith : phi ≤ phiMin + 2 * Real.pi)
  have c : phi ≥ phiMin ∧ phi ≤ phiMax := ⟨h3, h4⟩
  unfold keystoneDistance
  unfold Disk.keystoneDistance at hl
  rw [if_pos c] at hl ⊢
  by_cases c1 : r ≥ rMin ∧ r ≤ rMax
  · rw [if_pos c1] at hl ⊢
    exact ⟨_, _, rfl, hl, by simp⟩
  · rw [if_neg c1] at hl ⊢
    by_cases c2 : r < rMin
    · rw [if_pos c2] at hl ⊢
      refine ⟨_, _, rfl, hl, ?_⟩
      have := R.rounding.err (rMin - r)
      rwa [abs_of_nonneg (by linarith : 0 ≤ rMin - r)] at this
    · rw [if_neg c2] at hl ⊢
      refine ⟨_, _, rfl, hl, ?_⟩
      have := R.rounding.err (r - rMax)
      have k : rMax < r := by
        by_contra k; exact c1 ⟨not_lt.1 c2, not_lt.1 k⟩
      rwa [abs_of_nonneg (by linarith : 0 ≤ r - rMax)] at this

/-! ### C154 -/

/-- For a point that is away from a pad by more than ten times the square root of `u` of the radii: `getDistanceToPad` is the
distance from the nearest point of the pad, up to rounding. -/
theorem distance_double_partial (R : Rounded F u) {c : ℝ × ℝ} {h w r phi d : ℝ} (hr : 0 ≤ r)
    (h0 : 0 ≤ F.sub c.1 (F.div h 2)) (hh : 0 ≤ h) (hw : 0 ≤ w) (h3 : F.add c.2 (F.div w 2) - 2 * Real.pi ≤ phi)
    (h4 : phi ≤ F.sub c.2 (F.div w 2) + 2 * Real.pi) (hd : IsLeast (distancesTo (pad F c h w) r phi) d)
    (hp : 0 < d) (hb : 100 * u * (r + F.add c.1 (F.div h 2)) ^ 2 ≤ d ^ 2) :
    ∃ D, getDistanceToPad F c h w r phi = some D ∧ |D - d| ≤ 25 * u * (r + F.add c.1 (F.div h 2)) ^ 2 / d := by
  have mono : ∀ c v : ℝ, 0 ≤ v → F.sub c (F.div v 2) ≤ F.add c (F.div v 2) := by
    intro c v hv
    have := R.rounding.nonneg (x := v / 2) (by linarith)
    unfold MaterialMap.Arith.sub MaterialMap.Arith.add MaterialMap.Arith.div
    exact R.rounding.mono _ _ (by linarith)
  exact keystone_double R hr h0 (mono _ _ hh) (mono _ _ hw) h3 h4 hd hp hb

/-- Within the angles of a pad, the relative error of the distance is at most `u`. -/
theorem distance_double_within (R : Rounded F u) {c : ℝ × ℝ} {h w r phi : ℝ} (hr : 0 ≤ r)
    (h0 : 0 ≤ F.sub c.1 (F.div h 2)) (hh : 0 ≤ h) (h3 : F.sub c.2 (F.div w 2) ≤ phi) (h4 : phi ≤ F.add c.2 (F.div w 2))
    (h5 : F.add c.2 (F.div w 2) ≤ F.sub c.2 (F.div w 2) + 2 * Real.pi) :
    ∃ D d, getDistanceToPad F c h w r phi = some D ∧ IsLeast (distancesTo (pad F c h w) r phi) d ∧ |D - d| ≤ u * d := by
  have mono : ∀ c v : ℝ, 0 ≤ v → F.sub c (F.div v 2) ≤ F.add c (F.div v 2) := by
    intro c v hv
    have := R.rounding.nonneg (x := v / 2) (by linarith)
    unfold MaterialMap.Arith.sub MaterialMap.Arith.add MaterialMap.Arith.div
    exact R.rounding.mono _ _ (by linarith)
  exact keystone_double_within R hr h0 (mono _ _ hh) h3 h4 h5

/-! #### The corner of a pad -/

open PadAngle.Double (realDoubles)

theorem realDoubles_rounded : Rounded realDoubles (1 / 2 ^ 53) where
  rounding := Doubles.binary64_rounding
  small := by norm_num
  cos := rfl
  sin := rfl
  sqrt := rfl

/-- A half is rounded to the even number. -/
theorem binary64_tie {x : ℝ} {n k : ℤ} (h1 : (2 : ℝ) ^ (k + 52) ≤ x) (h2 : x < 2 ^ (k + 53)) (h3 : x * 2 ^ (-k) = n + 1 / 2)
    (h4 : n % 2 = 0) : binary64 x = n * 2 ^ k := by
  have hx : 0 < x := (Doubles.two_zpow_pos _).trans_le h1
  have hl : Int.log 2 x = k + 52 := by
    obtain ⟨l1, l2⟩ := Doubles.log_bounds hx
    have a1 : (2 : ℝ) ^ (Int.log 2 x) < 2 ^ (k + 53) := l1.trans_lt h2
    have a2 : (2 : ℝ) ^ (k + 52) < 2 ^ (Int.log 2 x + 1) := h1.trans_lt l2
    rw [zpow_lt_zpow_iff_right₀ (by norm_num)] at a1 a2
    omega
  have hr : MaterialMap.roundEven (x * 2 ^ (-k)) = n := by
    have hf : ⌊x * 2 ^ (-k)⌋ = n := by rw [h3, Int.floor_eq_iff]; constructor <;> linarith
    unfold MaterialMap.roundEven
    rw [hf, h3]
    simp [h4]
  rw [Doubles.binary64_pos hx, hl, show 52 - (k + 52) = -k by ring, hr]
  congr 2
  ring

theorem exact64 (x : ℝ) (n k : ℤ) (hn : |n| ≤ 2 ^ 53) (h : x = n * 2 ^ k) : binary64 x = x := by
  rw [h]; exact Doubles.binary64_scaled n k hn

theorem cos_tiny {x : ℝ} (hx : x = 1 / 2 ^ 30 ∨ x = -(1 / 2 ^ 30)) : binary64 (Real.cos x) = 1 := by
  have h1 : |x| = 1 / 2 ^ 30 := by rcases hx with h | h <;> rw [h] <;> norm_num
  have h2 : x ^ 2 = 1 / 2 ^ 60 := by rcases hx with h | h <;> rw [h] <;> norm_num
  have h4 : x ^ 4 = 1 / 2 ^ 120 := by rcases hx with h | h <;> rw [h] <;> norm_num
  have h3 := PadAngle.Double.real_cos_bound6 (x := x) (by rw [h1]; norm_num)
  rw [h1, h2, h4, _root_.abs_le] at h3
  have := Doubles.binary64_eval (x := Real.cos x) (n := 2 ^ 53) (k := -53) (by norm_num at *; linarith [h3.1, h3.2])
    (by norm_num at *; linarith [h3.1, h3.2]) (by rw [abs_lt]; constructor <;> norm_num at * <;> linarith [h3.1, h3.2])
  rw [this]; norm_num

theorem corner_nan {phi : ℝ} (hx : phi = 1 / 2 ^ 30 ∨ phi = -(1 / 2 ^ 30)) :
    edgeDistance realDoubles (7 / 4 + 3 / 2 ^ 52) phi 1 (7 / 4) 0 = none := by
  have h1 : binary64 (1 : ℝ) = 1 := exact64 1 1 0 (by norm_num) (by norm_num)
  have h0 : binary64 (0 : ℝ) = 0 := exact64 0 0 0 (by norm_num) (by norm_num)
  have hr : binary64 (7 / 4 + 3 / 2 ^ 52 : ℝ) = 7 / 4 + 3 / 2 ^ 52 := exact64 _ (7 * 2 ^ 50 + 3) (-52) (by norm_num) (by norm_num)
  have hI : rIntersect realDoubles (7 / 4 + 3 / 2 ^ 52) phi 0 = 7 / 4 + 3 / 2 ^ 52 := by
    unfold rIntersect MaterialMap.Arith.mul MaterialMap.Arith.add
    change binary64 (_ * binary64 (binary64 (binary64 (Real.cos phi) * binary64 (Real.cos 0)) +
      binary64 (binary64 (Real.sin phi) * binary64 (Real.sin 0)))) = _
    rw [cos_tiny hx, Real.cos_zero, Real.sin_zero, h0, mul_zero, h0, h1, mul_one, h1, add_zero, h1, mul_one, hr]
  have e1 : binary64 ((7 / 4 + 3 / 2 ^ 52 : ℝ) * (7 / 4 + 3 / 2 ^ 52)) = 49 / 16 + 5 / 2 ^ 51 := by
    rw [Doubles.binary64_eval (n := 49 * 2 ^ 47 + 5) (k := -51) (by norm_num) (by norm_num) (by rw [abs_lt]; norm_num)]
    norm_num
  have e2 : binary64 (7 / 4 * (7 / 4) : ℝ) = 49 / 16 := by
    rw [exact64 _ 49 (-4) (by norm_num) (by norm_num)]; norm_num
  have e3 : binary64 (49 / 16 + 5 / 2 ^ 51 + 49 / 16 : ℝ) = 49 / 8 + 2 / 2 ^ 50 := by
    rw [binary64_tie (n := 49 * 2 ^ 47 + 2) (k := -50) (by norm_num) (by norm_num) (by norm_num) (by norm_num)]
    norm_num
  have e4 : binary64 (2 * (7 / 4) : ℝ) = 7 / 2 := by
    rw [exact64 _ 7 (-1) (by norm_num) (by norm_num)]; norm_num
  have e5 : binary64 (7 / 2 * (7 / 4 + 3 / 2 ^ 52) : ℝ) = 49 / 8 + 3 / 2 ^ 50 := by
    rw [Doubles.binary64_eval (n := 49 * 2 ^ 47 + 3) (k := -50) (by norm_num) (by norm_num) (by rw [abs_lt]; norm_num)]
    norm_num
  have e6 : binary64 (49 / 8 + 2 / 2 ^ 50 - (49 / 8 + 3 / 2 ^ 50) : ℝ) = -(1 / 2 ^ 50) := by
    rw [exact64 _ (-1) (-50) (by norm_num) (by norm_num)]; norm_num
  have hA : realDoubles.sub (realDoubles.add (realDoubles.mul (7 / 4 + 3 / 2 ^ 52) (7 / 4 + 3 / 2 ^ 52)) (realDoubles.mul (7 / 4) (7 / 4)))
      (realDoubles.mul (realDoubles.mul 2 (7 / 4)) (7 / 4 + 3 / 2 ^ 52)) = -(1 / 2 ^ 50) := by
    unfold MaterialMap.Arith.sub MaterialMap.Arith.add MaterialMap.Arith.mul
    change binary64 (binary64 (binary64 _ + binary64 _) - binary64 (binary64 _ * _)) = _
    rw [e1, e2, e3, e4, e5, e6]
  unfold edgeDistance
  dsimp only
  rw [hI, if_neg (by norm_num), if_pos (by norm_num), hA, squareRoot, if_pos (by norm_num)]

/-- The only pad of a layout of one row. -/
theorem only_pad (a b : ℝ) (na nb : ℤ) (hna : |na| ≤ 100) (hnb : |nb| ≤ 100) (ha : a = na / 4) (hb : b = nb / 4) :
    ∃ L : PadAngle.Layout ℝ, PadAngle.Double.new realDoubles 1 (7 / 4) 1 a b 1 = .ok L ∧
      ∀ r phi, angleDistance realDoubles L r phi 0 = keystoneDistance realDoubles r phi 1 (7 / 4) a b := by
  have hL : PadAngle.Double.new realDoubles 1 (7 / 4) 1 a b 1 = .ok _ := if_neg (by norm_num)
  refine ⟨_, hL, fun r phi => ?_⟩
  have sc : ∀ (x : ℝ) (n k : ℤ), |n| ≤ 2 ^ 53 → x = n * 2 ^ k → realDoubles.rnd x = x := exact64
  rw [_root_.abs_le] at hna hnb
  have row : realDoubles.div (realDoubles.sub (7 / 4) 1) ((1 : ℤ) : ℝ) = 3 / 4 := by
    unfold MaterialMap.Arith.div MaterialMap.Arith.sub
    rw [sc (7 / 4 - 1) 3 (-2) (by norm_num) (by norm_num), sc _ 3 (-2) (by norm_num) (by norm_num)]; norm_num
  have ang : realDoubles.div (realDoubles.sub b a) ((1 : ℤ) : ℝ) = b - a := by
    unfold MaterialMap.Arith.div MaterialMap.Arith.sub
    rw [sc (b - a) (nb - na) (-2) (by rw [_root_.abs_le]; omega) (by rw [ha, hb]; push_cast; norm_num; ring), Int.cast_one, div_one,
      sc (b - a) (nb - na) (-2) (by rw [_root_.abs_le]; omega) (by rw [ha, hb]; push_cast; norm_num; ring)]
  have half : realDoubles.add ((0 : ℤ) : ℝ) (1 / 2) = 1 / 2 := by
    unfold MaterialMap.Arith.add
    rw [sc _ 1 (-1) (by norm_num) (by norm_num)]; norm_num
  have c1 : realDoubles.add (realDoubles.mul (1 / 2) (3 / 4)) 1 = 11 / 8 := by
    unfold MaterialMap.Arith.add MaterialMap.Arith.mul
    rw [sc (1 / 2 * (3 / 4)) 3 (-3) (by norm_num) (by norm_num), sc _ 11 (-3) (by norm_num) (by norm_num)]; norm_num
  have c2 : realDoubles.add (realDoubles.mul (1 / 2) (b - a)) a = (a + b) / 2 := by
    unfold MaterialMap.Arith.add MaterialMap.Arith.mul
    rw [sc (1 / 2 * (b - a)) (nb - na) (-3) (by rw [_root_.abs_le]; omega) (by rw [ha, hb]; push_cast; norm_num; ring),
      sc _ (nb + na) (-3) (by rw [_root_.abs_le]; omega) (by rw [ha, hb]; push_cast; norm_num; ring)]
    ring
  have d1 : realDoubles.div (3 / 4) 2 = 3 / 8 := by
    unfold MaterialMap.Arith.div
    rw [sc _ 3 (-3) (by norm_num) (by norm_num)]; norm_num
  have d2 : realDoubles.div (b - a) 2 = (b - a) / 2 := by
    unfold MaterialMap.Arith.div
    exact sc _ (nb - na) (-3) (by rw [_root_.abs_le]; omega) (by rw [ha, hb]; push_cast; norm_num; ring)
  have l1 : realDoubles.sub (11 / 8) (3 / 8) = 1 := by
    unfold MaterialMap.Arith.sub
    rw [sc _ 1 0 (by norm_num) (by norm_num)]; norm_num
  have l2 : realDoubles.add (11 / 8) (3 / 8) = 7 / 4 := by
    unfold MaterialMap.Arith.add
    rw [sc _ 7 (-2) (by norm_num) (by norm_num)]; norm_num
  have l3 : realDoubles.sub ((a + b) / 2) ((b - a) / 2) = a := by
    unfold MaterialMap.Arith.sub
    rw [sc _ na (-2) (by rw [_root_.abs_le]; omega) (by rw [ha, hb]; push_cast; norm_num; ring)]; ring
  have l4 : realDoubles.add ((a + b) / 2) ((b - a) / 2) = b := by
    unfold MaterialMap.Arith.add
    rw [sc _ nb (-2) (by rw [_root_.abs_le]; omega) (by rw [ha, hb]; push_cast; norm_num; ring)]; ring
  have row0 : Disk.getRowNumber 0 = 0 := by decide
  have pad0 : Disk.getPadNumber 0 = 0 := by decide
  unfold angleDistance getDistanceToPad PadAngle.Double.getPadCenter
  dsimp only
  rw [row0, pad0, row, ang, half, c1, c2, d1, d2, l1, l2, l3, l4]

/-- A point that touches the corner of a pad: the square of the distance is negative through rounding, and the result is NaN. -/
theorem distance_false_nan : ∃ L : PadAngle.Layout ℝ, PadAngle.Double.new realDoubles 1 (7 / 4) 1 (-(1 / 2)) 0 1 = .ok L ∧
    angleDistance realDoubles L (7 / 4 + 3 / 2 ^ 52) (1 / 2 ^ 30) 0 = none := by
  obtain ⟨L, hL, h⟩ := only_pad (-(1 / 2)) 0 (-2) 0 (by norm_num) (by norm_num) (by norm_num) (by norm_num)
  refine ⟨L, hL, ?_⟩
  rw [h, keystoneDistance, if_neg (by norm_num), corner_nan (Or.inl rfl)]
  cases edgeDistance realDoubles (7 / 4 + 3 / 2 ^ 52) (1 / 2 ^ 30) 1 (7 / 4) (-(1 / 2)) <;> rfl

/-- At the other edge, the NaN is lost and the result is the distance from the far edge of the pad, which is more than
ten million times the distance from the pad. -/
theorem distance_false_far : ∃ (L : PadAngle.Layout ℝ) (D d : ℝ), PadAngle.Double.new realDoubles 1 (7 / 4) 1 0 (1 / 2) 1 = .ok L ∧
    angleDistance realDoubles L (7 / 4 + 3 / 2 ^ 52) (-(1 / 2 ^ 30)) 0 = some D ∧
    IsLeast (distancesTo (keystone 1 (7 / 4) 0 (1 / 2)) (7 / 4 + 3 / 2 ^ 52) (-(1 / 2 ^ 30))) d ∧ 1 / 4 < D ∧ d < 1 / 10 ^ 8 := by
  obtain ⟨L, hL, h⟩ := only_pad 0 (1 / 2) 0 2 (by norm_num) (by norm_num) (by norm_num) (by norm_num)
  have hpi := Real.two_le_pi
  have hl := keystoneDistance_isLeast (r := 7 / 4 + 3 / 2 ^ 52) (phi := -(1 / 2 ^ 30)) (rMin := 1) (rMax := 7 / 4) (phiMin := 0)
    (phiMax := 1 / 2) (by norm_num) (by norm_num) (by norm_num) (by norm_num) (by norm_num; linarith) (by norm_num; linarith)
  set r : ℝ := 7 / 4 + 3 / 2 ^ 52 with hr
  have hsin := Real.sin_gt_sub_cube (x := 1 / 2 + 1 / 2 ^ 30) (by norm_num)
  have hm : (1 / 3 : ℝ) ≤ Disk.edgeDistance realFns r (-(1 / 2 ^ 30)) 1 (7 / 4) (1 / 2) := by
    rw [edge_reach]
    have e : r * Real.sin (-(1 / 2 ^ 30) - 1 / 2) = -(r * Real.sin (1 / 2 + 1 / 2 ^ 30)) := by
      rw [← mul_neg, ← Real.sin_neg]; congr 2; ring
    have k1 : (1 / 3 : ℝ) ≤ r * Real.sin (1 / 2 + 1 / 2 ^ 30) := by
      have := mul_le_mul_of_nonneg_right (show (1 : ℝ) ≤ r by norm_num [hr]) (show 0 ≤ Real.sin (1 / 2 + 1 / 2 ^ 30) by
        refine le_trans ?_ hsin.le; norm_num)
      refine le_trans ?_ this
      rw [one_mul]
      refine le_trans ?_ hsin.le
      norm_num
    rw [e, reach, neg_sq]
    refine Real.le_sqrt_of_sq_le ?_
    have := pow_le_pow_left₀ (by norm_num) k1 2
    have := sq_nonneg (r * Real.cos (-(1 / 2 ^ 30) - 1 / 2) - edgeRadius r (-(1 / 2 ^ 30)) 1 (7 / 4) (1 / 2))
    linarith
  have hm9 : (1 / 3 : ℝ) ^ 2 ≤ Disk.edgeDistance realFns r (-(1 / 2 ^ 30)) 1 (7 / 4) (1 / 2) ^ 2 := pow_le_pow_left₀ (by norm_num) hm 2
  obtain ⟨D, hD, hn⟩ := edge_near realDoubles_rounded (show 0 ≤ r by norm_num [hr]) (by norm_num) (by norm_num) rfl
    (lt_of_lt_of_le (by norm_num) hm) (le_trans (by norm_num [hr]) hm9)
  refine ⟨L, D, _, hL, ?_, hl, ?_, ?_⟩
  · rw [h, keystoneDistance, if_neg (by norm_num), hr, corner_nan (Or.inr rfl), ← hr, hD]
    rfl
  · have h1 := (_root_.abs_le.1 hn).1
    have h2 : 25 * (1 / 2 ^ 53) * (r + 7 / 4) ^ 2 / Disk.edgeDistance realFns r (-(1 / 2 ^ 30)) 1 (7 / 4) (1 / 2) ≤ 1 / 100 := by
      rw [div_le_iff₀ (lt_of_lt_of_le (by norm_num) hm)]
      refine le_trans ?_ (mul_le_mul_of_nonneg_left hm (by norm_num))
      norm_num [hr]
    linarith
  · refine lt_of_le_of_lt (hl.2 ⟨_, ⟨7 / 4, 0, by norm_num, le_rfl, le_rfl, by norm_num, rfl⟩, rfl⟩) ?_
    rw [dist2_point, Real.sqrt_lt' (by norm_num), sub_zero]
    have h1 : |(-(1 / 2 ^ 30) : ℝ)| = 1 / 2 ^ 30 := by norm_num
    have h3 := PadAngle.Double.real_cos_bound6 (x := -(1 / 2 ^ 30)) (by rw [h1]; norm_num)
    rw [h1, _root_.abs_le] at h3
    have := h3.1
    generalize Real.cos (-(1 / 2 ^ 30)) = cs at *
    norm_num [hr] at *
    linarith

/-- A pad and a point beside it that meet the hypotheses of `distance_double_partial`. -/
example : ∃ d, IsLeast (distancesTo (pad realDoubles (11 / 8, 1 / 4) (3 / 4) (1 / 2)) 1 (-(1 / 2))) d ∧ 0 < d ∧
    100 * (1 / 2 ^ 53) * (1 + realDoubles.add (11 / 8) (realDoubles.div (3 / 4) 2)) ^ 2 ≤ d ^ 2 ∧
    0 ≤ realDoubles.sub (11 / 8) (realDoubles.div (3 / 4) 2) ∧
    realDoubles.add (1 / 4) (realDoubles.div (1 / 2) 2) - 2 * Real.pi ≤ -(1 / 2) ∧
    -(1 / 2) ≤ realDoubles.sub (1 / 4) (realDoubles.div (1 / 2) 2) + 2 * Real.pi := by
  have sc : ∀ (x : ℝ) (n k : ℤ), |n| ≤ 2 ^ 53 → x = n * 2 ^ k → realDoubles.rnd x = x := exact64
  have d1 : realDoubles.div (3 / 4) 2 = 3 / 8 := by
    unfold MaterialMap.Arith.div
    rw [sc _ 3 (-3) (by norm_num) (by norm_num)]; norm_num
  have d2 : realDoubles.div (1 / 2) 2 = 1 / 4 := by
    unfold MaterialMap.Arith.div
    rw [sc _ 1 (-2) (by norm_num) (by norm_num)]; norm_num
  have l1 : realDoubles.sub (11 / 8) (3 / 8) = 1 := by
    unfold MaterialMap.Arith.sub
    rw [sc _ 1 0 (by norm_num) (by norm_num)]; norm_num
  have l2 : realDoubles.add (11 / 8) (3 / 8) = 7 / 4 := by
    unfold MaterialMap.Arith.add
    rw [sc _ 7 (-2) (by norm_num) (by norm_num)]; norm_num
  have l3 : realDoubles.sub (1 / 4) (1 / 4) = 0 := by
    unfold MaterialMap.Arith.sub
    rw [sc _ 0 0 (by norm_num) (by norm_num)]; norm_num
  have l4 : realDoubles.add (1 / 4) (1 / 4) = 1 / 2 := by
    unfold MaterialMap.Arith.add
    rw [sc _ 1 (-1) (by norm_num) (by norm_num)]; norm_num
  have hpi := Real.two_le_pi
  unfold pad
  dsimp only
  rw [d1, d2, l1, l2, l3, l4]
  have hl := keystoneDistance_isLeast (r := 1) (phi := -(1 / 2)) (rMin := 1) (rMax := 7 / 4) (phiMin := 0)
    (phiMax := 1 / 2) (by norm_num) (by norm_num) (by norm_num) (by norm_num) (by linarith) (by linarith)
  have key : ∀ x : ℝ, 0 < x → 1 / 3 ≤ x - x ^ 3 / 6 → ∀ phiE, -(1 / 2) - phiE = -x →
      1 / 3 ≤ Disk.edgeDistance realFns 1 (-(1 / 2)) 1 (7 / 4) phiE := by
    intro x h0 h2 phiE hE
    have hs := Real.sin_gt_sub_cube h0
    rw [edge_reach, reach, hE, one_mul, one_mul, Real.sin_neg, neg_sq]
    refine Real.le_sqrt_of_sq_le ?_
    have := pow_le_pow_left₀ (by norm_num) (h2.trans hs.le) 2
    have := sq_nonneg (Real.cos (-x) - edgeRadius 1 (-(1 / 2)) 1 (7 / 4) phiE)
    linarith
  have hk : 1 / 3 ≤ Disk.keystoneDistance realFns 1 (-(1 / 2)) 1 (7 / 4) 0 (1 / 2) := by
    have k1 := key (1 / 2) (by norm_num) (by norm_num) 0 (by norm_num)
    have k2 := key 1 (by norm_num) (by norm_num) (1 / 2) (by norm_num)
    unfold Disk.keystoneDistance
    rw [if_neg (by norm_num)]
    dsimp only
    split_ifs
    · exact k1
    · exact k2
  have hk2 := pow_le_pow_left₀ (by norm_num) hk 2
  exact ⟨_, hl, by linarith, le_trans (by norm_num) hk2, by norm_num, by linarith, by linarith⟩

end Gear.Disk.Double
