/-
Property C153: `getDistanceToPad` of a rectangular layout with the arithmetic of `double`.
-/
import Verif.RectNearest
import Verif.RectDoubleProps
import Verif.DiskDistance
import Mathlib.Analysis.Complex.Norm

set_option autoImplicit false
set_option linter.unusedSectionVars false

namespace Gear.Rect.Double

open PadIndex
open MaterialMap (Arith)
open Doubles (Rounding)
open Rect.Spec (euclid box)

section model

variable {K : Type} [Field K] [LinearOrder K] [IsStrictOrderedRing K] [FloorRing K]

/-- `distanceToBox`, `RectangularPadRowLayout.cc` lines 513-578, with the arithmetic of `double`: -1 for a point in the box. -/
def distanceToBox (F : Arith K) (x y xMin yMin xMax yMax : K) : K :=
  let corner (a b : K) : K := F.sqrt (F.add (F.mul (F.sub a x) (F.sub a x)) (F.mul (F.sub b y) (F.sub b y)))
  if x < xMin then
    if y < yMin then corner xMin yMin
    else if y > yMax then corner xMin yMax
    else F.sub xMin x
  else if x > xMax then
    if y < yMin then corner xMax yMin
    else if y > yMax then corner xMax yMax
    else F.sub x xMax
  else
    if y < yMin then F.sub yMin y
    else if y > yMax then F.sub y yMax
    else -1

/-- `getDistanceToPad`, lines 580-598, with the arithmetic of `double`. -/
def getDistanceToPad (F : Arith K) (L : Layout K) (c0 c1 : K) (padIndex : ℤ) : Res K := do
  let padCentre ← getPadCenter F L padIndex
  let padHeight ← getPadHeight L padIndex
  let padWidth ← getPadWidth L padIndex
  let distance := distanceToBox F c0 c1 (F.sub padCentre.1 (F.mul padWidth 0.5)) (F.sub padCentre.2 (F.mul padHeight 0.5))
    (F.add padCentre.1 (F.mul padWidth 0.5)) (F.add padCentre.2 (F.mul padHeight 0.5))
  return if distance < 0 then 0 else distance

end model

namespace Spec

/-- The arithmetic of `double`: operations and `sqrt` have a relative error of at most `u`. -/
structure Rounded (F : Arith ℝ) (u : ℝ) : Prop where
  rounding : Rounding F.rnd u
  small : u ≤ 1 / 1000
  sqrt : ∀ v, 0 ≤ v → |F.sqrt v - √v| ≤ u * √v

/-- The place and size of pad `p`, as the getters tell them. -/
def HasBox (F : Arith ℝ) (L : Layout ℝ) (p : ℤ) (c : ℝ × ℝ) (w h : ℝ) : Prop :=
  getPadCenter F L p = .ok c ∧ getPadWidth L p = .ok w ∧ getPadHeight L p = .ok h

/-- A number that a `double` can have. -/
def IsDouble (v : ℝ) : Prop := ∃ n k : ℤ, |n| ≤ 2 ^ 53 ∧ v = n * 2 ^ k

end Spec

open Spec (HasBox IsDouble Rounded)

variable {F : Arith ℝ} {u : ℝ}

/-! ### The rows of any layout have sizes that are not negative -/

/-- Sizes are not negative. -/
def Sized (L : Layout ℝ) : Prop := ∀ r ∈ L.rows, 0 ≤ r.padWidth ∧ 0 ≤ r.padHeight

theorem sized_push {row : Row ℝ} (hr : 0 ≤ row.padWidth ∧ 0 ≤ row.padHeight) (n : ℕ) :
    ∀ {L : Layout ℝ}, Sized L → Sized (pushRows F row n L) := by
  induction n with
  | zero => intro L h; exact h
  | succ n ih =>
    intro L h
    unfold pushRows
    refine ih (fun r hm => ?_)
    rcases List.mem_append.1 hm with h1 | h1
    · exact h r h1
    · rw [List.mem_singleton.1 h1]; exact hr

theorem sized_add {L : Layout ℝ} (h : Sized L) (nRow nPad : ℤ) (w ph rh l r : ℝ) : Sized (addRow F L nRow nPad w ph rh l r).1 := by
  unfold addRow
  by_cases a : 0 < nRow ∧ 0 < nPad ∧ ¬ w < 0 ∧ ¬ ph < 0 ∧ ¬ rh < 0 ∧ ¬ l < 0 ∧ ¬ r < 0
  · rw [if_neg (not_not.2 a)]
    dsimp only
    have key : ∀ (row : Row ℝ) (n : ℕ), row.padWidth = w → row.padHeight = ph →
        Sized (pushRows F row n { L with nPad := L.nPad + |nRow| * |nPad| }) := by
      intro row n e1 e2
      exact sized_push (by rw [e1, e2]; exact ⟨not_lt.1 a.2.2.1, not_lt.1 a.2.2.2.1⟩) n h
    generalize (if rh = 0 then ph else rh) = rh'
    split_ifs
    · exact h
    · exact h
    · exact key _ _ rfl rfl
  · rw [if_pos a]; exact h

theorem sized_repeatOnce (nRow : ℕ) (k : ℕ) : ∀ {L : Layout ℝ}, Sized L → Sized (repeatOnce F nRow k L).1 := by
  induction k with
  | zero => intro L h; exact h
  | succ k ih =>
    intro L h
    unfold repeatOnce
    cases hr : L.rows[nRow - (k + 1)]? with
    | none => exact h
    | some r =>
      have h2 := sized_add (F := F) h 1 r.nPad r.padWidth r.padHeight r.height r.leftOffset r.rightOffset
      dsimp only
      rcases hs : addRow F L 1 r.nPad r.padWidth r.padHeight r.height r.leftOffset r.rightOffset with ⟨L', e⟩
      rw [hs] at h2
      cases e with
      | ok _ => exact ih h2
      | throw _ => exact h2
      | ub => exact h2

theorem sized_repeatLoop (nRow : ℕ) (n : ℕ) : ∀ {L : Layout ℝ}, Sized L → Sized (repeatLoop F nRow n L).1 := by
  induction n with
  | zero => intro L h; exact h
  | succ k ih =>
    intro L h
    unfold repeatLoop
    have h2 := sized_repeatOnce (F := F) nRow nRow h
    rcases hs : repeatOnce F nRow nRow L with ⟨L', e⟩
    rw [hs] at h2
    cases e with
    | ok _ => exact ih h2
    | throw _ => exact h2
    | ub => exact h2

theorem sized_step {L : Layout ℝ} (h : Sized L) (op : Op ℝ) : Sized (step F L op) := by
  cases op with
  | addRow nRow nPad w ph rh l r => exact sized_add h nRow nPad w ph rh l r
  | repeatRows c =>
    unfold step repeatRows
    dsimp only
    split_ifs
    · exact h
    · exact sized_repeatLoop _ _ (L := { L with repeatRows := _ }) h
  | getPadsInRow r =>
    have : (getPadsInRow L r).1.rows = L.rows := by unfold getPadsInRow; split <;> (try split) <;> (try split) <;> rfl
    unfold step Sized
    dsimp only
    rw [this]; exact h

theorem sized_run (xMin xMax yMin : ℝ) (h : List (Op ℝ)) : Sized (run F xMin xMax yMin h) := by
  unfold run
  generalize hL : Rect.new xMin xMax yMin = L
  have h0 : Sized L := by rw [← hL]; intro r hr; cases hr
  clear hL
  induction h generalizing L with
  | nil => exact h0
  | cons op ops ih => exact ih _ (sized_step h0 op)

/-! ### Rounding errors -/

/-- The distance of a point from the range `[a, b]`. -/
def gap (v a b : ℝ) : ℝ := max 0 (max (a - v) (v - b))

theorem gap_near {v a b a' b' e : ℝ} (ha : |a' - a| ≤ e) (hb : |b' - b| ≤ e) : |gap v a' b' - gap v a b| ≤ e := by
  have he : 0 ≤ e := (abs_nonneg _).trans ha
  unfold gap
  have h1 : |max (a' - v) (v - b') - max (a - v) (v - b)| ≤ e := by
    refine (abs_max_sub_max_le_max _ _ _ _).trans (max_le ?_ ?_)
    · rw [sub_sub_sub_cancel_right]; exact ha
    · rw [sub_sub_sub_cancel_left, abs_sub_comm]; exact hb
  refine (abs_max_sub_max_le_max _ _ _ _).trans (max_le ?_ h1)
  rw [sub_self, abs_zero]; exact he

theorem gap_center (v c : ℝ) (w : ℝ) : gap v (c - w / 2) (c + w / 2) = max 0 (|v - c| - w / 2) := by
  unfold gap
  congr 1
  rw [abs_eq_max_neg, ← max_sub_sub_right, max_comm]
  congr 1 <;> ring

theorem gap_nonneg (v a b : ℝ) : 0 ≤ gap v a b := le_max_left _ _

theorem gap_le {v a b m : ℝ} (hm : 0 ≤ m) (h1 : |a| + |v| ≤ m) (h2 : |b| + |v| ≤ m) : gap v a b ≤ m := by
  unfold gap
  refine max_le hm (max_le ?_ ?_)
  · linarith [le_abs_self a, neg_abs_le v]
  · linarith [neg_abs_le b, le_abs_self v]

section
variable (R : Rounded F u)
include R

theorem Spec.Rounded.nonneg : 0 ≤ u := by
  have := R.rounding.err 1
  rw [abs_one, mul_one] at this
  exact (abs_nonneg _).trans this

theorem rnd_zero : F.rnd 0 = 0 := by
  have := R.rounding.err 0
  rw [abs_zero, mul_zero, sub_zero] at this
  exact abs_eq_zero.1 (le_antisymm this (abs_nonneg _))

theorem rnd_nonneg {v : ℝ} (h : 0 ≤ v) : 0 ≤ F.rnd v := by
  have := R.rounding.mono 0 v h
  rwa [rnd_zero R] at this

/-- Bounds of a rounded number that is not negative. -/
theorem rnd_between {v : ℝ} (h : 0 ≤ v) : (1 - u) * v ≤ F.rnd v ∧ F.rnd v ≤ (1 + u) * v := by
  have := R.rounding.err v
  rw [abs_of_nonneg h] at this
  obtain ⟨h1, h2⟩ := abs_le.1 this
  constructor <;> linarith

/-- Bounds of a rounded square of a rounded number. -/
theorem square_between (v : ℝ) : (1 - u) ^ 3 * v ^ 2 ≤ F.mul (F.rnd v) (F.rnd v) ∧
    F.mul (F.rnd v) (F.rnd v) ≤ (1 + u) ^ 3 * v ^ 2 := by
  have hu := R.nonneg
  have hs := R.small
  have he := R.rounding.err v
  have h1 : (1 - u) * |v| ≤ |F.rnd v| := by
    have := abs_sub_abs_le_abs_sub v (F.rnd v)
    rw [abs_sub_comm] at this
    linarith
  have h2 : |F.rnd v| ≤ (1 + u) * |v| := by
    have := abs_sub_abs_le_abs_sub (F.rnd v) v
    linarith
  have h3 : (1 - u) ^ 2 * v ^ 2 ≤ F.rnd v * F.rnd v := by
    have := mul_self_le_mul_self (mul_nonneg (by linarith) (abs_nonneg v)) h1
    rw [abs_mul_abs_self] at this
    calc (1 - u) ^ 2 * v ^ 2 = (1 - u) * |v| * ((1 - u) * |v|) := by rw [← sq_abs v]; ring
      _ ≤ _ := this
  have h4 : F.rnd v * F.rnd v ≤ (1 + u) ^ 2 * v ^ 2 := by
    have := mul_self_le_mul_self (abs_nonneg _) h2
    rw [abs_mul_abs_self] at this
    calc _ ≤ _ := this
      _ = _ := by rw [← sq_abs v]; ring
  obtain ⟨h5, h6⟩ := rnd_between R (mul_self_nonneg (F.rnd v))
  unfold MaterialMap.Arith.mul
  constructor
  · calc (1 - u) ^ 3 * v ^ 2 = (1 - u) * ((1 - u) ^ 2 * v ^ 2) := by ring
      _ ≤ (1 - u) * (F.rnd v * F.rnd v) := mul_le_mul_of_nonneg_left h3 (by linarith)
      _ ≤ _ := h5
  · calc _ ≤ _ := h6
      _ ≤ (1 + u) * ((1 + u) ^ 2 * v ^ 2) := mul_le_mul_of_nonneg_left h4 (by linarith)
      _ = _ := by ring

/-- The distance of two points is right up to four roundings. -/
theorem corner_near (a b x y : ℝ) :
    |F.sqrt (F.add (F.mul (F.sub a x) (F.sub a x)) (F.mul (F.sub b y) (F.sub b y))) - √((a - x) ^ 2 + (b - y) ^ 2)| ≤
      4 * u * √((a - x) ^ 2 + (b - y) ^ 2) ∧
    0 ≤ F.sqrt (F.add (F.mul (F.sub a x) (F.sub a x)) (F.mul (F.sub b y) (F.sub b y))) := by
  have hu := R.nonneg
  have hs := R.small
  obtain ⟨p1, p2⟩ := square_between R (a - x)
  obtain ⟨q1, q2⟩ := square_between R (b - y)
  set S := (a - x) ^ 2 + (b - y) ^ 2 with hS
  have hS0 : 0 ≤ S := by positivity
  unfold MaterialMap.Arith.sub MaterialMap.Arith.add
  set z0 := F.mul (F.rnd (a - x)) (F.rnd (a - x)) + F.mul (F.rnd (b - y)) (F.rnd (b - y)) with hz0
  have hw : 0 ≤ 1 - u := by linarith
  have l0 : (1 - u) ^ 3 * S ≤ z0 := by rw [hS, hz0, mul_add]; linarith
  have u0 : z0 ≤ (1 + u) ^ 3 * S := by rw [hS, hz0, mul_add]; linarith
  have z0n : 0 ≤ z0 := le_trans (by positivity) l0
  obtain ⟨r1, r2⟩ := rnd_between R z0n
  have l1 : ((1 - u) ^ 2) ^ 2 * S ≤ F.rnd z0 := by
    calc ((1 - u) ^ 2) ^ 2 * S = (1 - u) * ((1 - u) ^ 3 * S) := by ring
      _ ≤ (1 - u) * z0 := mul_le_mul_of_nonneg_left l0 hw
      _ ≤ _ := r1
  have u1 : F.rnd z0 ≤ ((1 + u) ^ 2) ^ 2 * S := by
    calc _ ≤ (1 + u) * z0 := r2
      _ ≤ (1 + u) * ((1 + u) ^ 3 * S) := mul_le_mul_of_nonneg_left u0 (by linarith)
      _ = _ := by ring
  have zn : 0 ≤ F.rnd z0 := rnd_nonneg R z0n
  have l2 : (1 - u) ^ 2 * √S ≤ √(F.rnd z0) := by
    have := Real.sqrt_le_sqrt l1
    rwa [Real.sqrt_mul (by positivity), Real.sqrt_sq (by positivity)] at this
  have u2 : √(F.rnd z0) ≤ (1 + u) ^ 2 * √S := by
    have := Real.sqrt_le_sqrt u1
    rwa [Real.sqrt_mul (by positivity), Real.sqrt_sq (by positivity)] at this
  have hq := R.sqrt (F.rnd z0) zn
  obtain ⟨e1, e2⟩ := abs_le.1 hq
  have s0 := Real.sqrt_nonneg S
  have l3 : (1 - u) ^ 3 * √S ≤ F.sqrt (F.rnd z0) := by
    calc (1 - u) ^ 3 * √S = (1 - u) * ((1 - u) ^ 2 * √S) := by ring
      _ ≤ (1 - u) * √(F.rnd z0) := mul_le_mul_of_nonneg_left l2 hw
      _ ≤ _ := by linarith
  have u3 : F.sqrt (F.rnd z0) ≤ (1 + u) ^ 3 * √S := by
    calc _ ≤ (1 + u) * √(F.rnd z0) := by linarith
      _ ≤ (1 + u) * ((1 + u) ^ 2 * √S) := mul_le_mul_of_nonneg_left u2 (by linarith)
      _ = _ := by ring
  have c1 : 1 - 4 * u ≤ (1 - u) ^ 3 := by nlinarith [mul_nonneg hu hu]
  have c2 : (1 + u) ^ 3 ≤ 1 + 4 * u := by nlinarith [mul_nonneg hu hu]
  have m1 := mul_le_mul_of_nonneg_right c1 s0
  have m2 := mul_le_mul_of_nonneg_right c2 s0
  refine ⟨abs_le.2 ⟨by linarith, by linarith⟩, le_trans (by positivity) l3⟩

/-- The distance from a box in `double` arithmetic. -/
theorem toBox_near {x y a b c d : ℝ} (hx : a ≤ c) (hy : b ≤ d) :
    |(if distanceToBox F x y a b c d < 0 then 0 else distanceToBox F x y a b c d) - √(gap x a c ^ 2 + gap y b d ^ 2)| ≤
      4 * u * √(gap x a c ^ 2 + gap y b d ^ 2) := by
  have hu := R.nonneg
  have low : ∀ {v p q : ℝ}, p ≤ q → v < p → gap v p q = p - v := by
    intro v p q h1 h2
    unfold gap; rw [max_eq_left (by linarith : v - q ≤ p - v), max_eq_right (by linarith)]
  have high : ∀ {v p q : ℝ}, p ≤ q → v > q → gap v p q = v - q := by
    intro v p q h1 h2
    unfold gap; rw [max_eq_right (by linarith : p - v ≤ v - q), max_eq_right (by linarith)]
  have mid : ∀ {v p q : ℝ}, ¬ v < p → ¬ v > q → gap v p q = 0 := by
    intro v p q h1 h2
    unfold gap; rw [max_eq_left]; exact max_le (by linarith [not_lt.1 h1]) (by linarith [not_lt.1 h2])
  have side : ∀ {v : ℝ}, 0 ≤ v → |(if F.rnd v < 0 then 0 else F.rnd v) - v| ≤ 4 * u * v := by
    intro v hv
    have h1 := rnd_nonneg R hv
    rw [if_neg (not_lt.2 h1)]
    have := R.rounding.err v
    rw [abs_of_nonneg hv] at this
    have := mul_nonneg hu hv
    linarith
  have sq : ∀ p q : ℝ, (p - q) ^ 2 = (q - p) ^ 2 := fun p q => by ring
  have corner : ∀ a b : ℝ,
      |(if F.sqrt (F.add (F.mul (F.sub a x) (F.sub a x)) (F.mul (F.sub b y) (F.sub b y))) < 0 then 0 else
        F.sqrt (F.add (F.mul (F.sub a x) (F.sub a x)) (F.mul (F.sub b y) (F.sub b y)))) -
        √((a - x) ^ 2 + (b - y) ^ 2)| ≤ 4 * u * √((a - x) ^ 2 + (b - y) ^ 2) := by
    intro a b
    obtain ⟨h1, h2⟩ := corner_near R a b x y
    rw [if_neg (not_lt.2 h2)]; exact h1
  unfold distanceToBox
  dsimp only
  by_cases x1 : x < a
  · simp only [if_pos x1]
    rw [low hx x1]
    by_cases y1 : y < b
    · simp only [if_pos y1]
      rw [low hy y1]; exact corner a b
    · by_cases y2 : y > d
      · simp only [if_neg y1, if_pos y2]
        rw [high hy y2, sq y d]; exact corner a d
      · simp only [if_neg y1, if_neg y2]
        rw [mid y1 y2, zero_pow two_ne_zero, add_zero, Real.sqrt_sq (by linarith)]
        exact side (by linarith)
  · by_cases x2 : x > c
    · simp only [if_neg x1, if_pos x2]
      rw [high hx x2]
      by_cases y1 : y < b
      · simp only [if_pos y1]
        rw [low hy y1, sq x c]; exact corner c b
      · by_cases y2 : y > d
        · simp only [if_neg y1, if_pos y2]
          rw [high hy y2, sq y d, sq x c]; exact corner c d
        · simp only [if_neg y1, if_neg y2]
          rw [mid y1 y2, zero_pow two_ne_zero, add_zero, Real.sqrt_sq (by linarith)]
          exact side (by linarith)
    · simp only [if_neg x1, if_neg x2]
      rw [mid x1 x2]
      by_cases y1 : y < b
      · simp only [if_pos y1]
        rw [low hy y1, zero_pow two_ne_zero, zero_add, Real.sqrt_sq (by linarith)]
        exact side (by linarith)
      · by_cases y2 : y > d
        · simp only [if_neg y1, if_pos y2]
          rw [high hy y2, zero_pow two_ne_zero, zero_add, Real.sqrt_sq (by linarith)]
          exact side (by linarith)
        · simp only [if_neg y1, if_neg y2]
          rw [mid y1 y2]
          norm_num

/-- The edges of a pad. -/
theorem padEdge_near (c : ℝ) {w : ℝ} (hw : 0 ≤ w) :
    |F.sub c (F.mul w 0.5) - (c - w / 2)| ≤ 2 * u * (|c| + w) ∧ |F.add c (F.mul w 0.5) - (c + w / 2)| ≤ 2 * u * (|c| + w) ∧
    F.sub c (F.mul w 0.5) ≤ F.add c (F.mul w 0.5) := by
  have hu := R.nonneg
  have hs := R.small
  have e : w * 0.5 = w / 2 := by norm_num; ring
  unfold MaterialMap.Arith.sub MaterialMap.Arith.add MaterialMap.Arith.mul
  rw [e]
  have h0 : 0 ≤ w / 2 := by linarith
  obtain ⟨h1, h2⟩ := rnd_between R h0
  have h3 := rnd_nonneg R h0
  set t := F.rnd (w / 2)
  have ht : |t - w / 2| ≤ u * (w / 2) := by rw [abs_le]; constructor <;> linarith
  have huw : u * w ≤ w / 1000 := by have := mul_le_mul_of_nonneg_right hs hw; linarith
  have ht2 : t ≤ w := by linarith
  have key : ∀ v : ℝ, |v| ≤ |c| + t → u * |v| ≤ u * (|c| + w) := fun v hv => mul_le_mul_of_nonneg_left (by linarith) hu
  have hc := abs_nonneg c
  have p1 := mul_nonneg hu hc
  have p2 := mul_nonneg hu hw
  refine ⟨?_, ?_, R.rounding.mono _ _ (by linarith)⟩
  · have a1 := R.rounding.err (c - t)
    have a2 := key (c - t) ((abs_sub _ _).trans (by rw [abs_of_nonneg h3]))
    have a3 := abs_sub_le (F.rnd (c - t)) (c - t) (c - w / 2)
    have a4 : |c - t - (c - w / 2)| = |t - w / 2| := by rw [abs_sub_comm]; congr 1; ring
    rw [a4] at a3
    linarith
  · have a1 := R.rounding.err (c + t)
    have a2 := key (c + t) ((abs_add_le _ _).trans (by rw [abs_of_nonneg h3]))
    have a3 := abs_sub_le (F.rnd (c + t)) (c + t) (c + w / 2)
    have a4 : |c + t - (c + w / 2)| = |t - w / 2| := by congr 1; ring
    rw [a4] at a3
    linarith

end

theorem plane_near (a b a' b' : ℝ) : |√(a' ^ 2 + b' ^ 2) - √(a ^ 2 + b ^ 2)| ≤ |a' - a| + |b' - b| := by
  have e : ∀ p q : ℝ, √(p ^ 2 + q ^ 2) = ‖(⟨p, q⟩ : Complex)‖ := fun p q => by rw [Complex.norm_eq_sqrt_sq_add_sq]
  rw [e, e]
  refine (abs_norm_sub_norm_le _ _).trans ((Complex.norm_le_abs_re_add_abs_im _).trans (le_of_eq ?_))
  simp

theorem plane_le {a b : ℝ} (ha : 0 ≤ a) (hb : 0 ≤ b) : √(a ^ 2 + b ^ 2) ≤ a + b := by
  rw [Real.sqrt_le_left (by linarith)]
  nlinarith [mul_nonneg ha hb]

/-- The smallest distance of a point from a rectangle. -/
theorem isLeast_box (x y : ℝ) (c : ℝ × ℝ) {w h : ℝ} (hw : 0 ≤ w) (hh : 0 ≤ h) :
    IsLeast ((fun q : ℝ × ℝ => euclid x y q.1 q.2) '' box c w h)
      (√(gap x (c.1 - w / 2) (c.1 + w / 2) ^ 2 + gap y (c.2 - h / 2) (c.2 + h / 2) ^ 2)) := by
  rw [gap_center, gap_center]
  constructor
  · obtain ⟨t1, h1, e1⟩ := toEdge x c.1 hw
    obtain ⟨t2, h2, e2⟩ := toEdge y c.2 hh
    refine ⟨(t1, t2), ⟨h1, h2⟩, ?_⟩
    simp only [euclid]
    rw [← e1, ← e2, sq_abs, sq_abs]
  · rintro _ ⟨q, ⟨h1, h2⟩, rfl⟩
    simp only [euclid]
    apply Real.sqrt_le_sqrt
    have a1 : max 0 (|x - c.1| - w / 2) ≤ |x - q.1| :=
      max_le (abs_nonneg _) (by have := abs_sub_le x q.1 c.1; linarith)
    have a2 : max 0 (|y - c.2| - h / 2) ≤ |y - q.2| :=
      max_le (abs_nonneg _) (by have := abs_sub_le y q.2 c.2; linarith)
    have b1 := pow_le_pow_left₀ (le_max_left _ _) a1 2
    have b2 := pow_le_pow_left₀ (le_max_left _ _) a2 2
    rw [sq_abs] at b1 b2
    exact add_le_add b1 b2

theorem sizes_nonneg {xMin xMax yMin : ℝ} {ops : List (Op ℝ)} {p : ℤ} {w h : ℝ}
    (h2 : getPadWidth (run F xMin xMax yMin ops) p = .ok w) (h3 : getPadHeight (run F xMin xMax yMin ops) p = .ok h) :
    0 ≤ w ∧ 0 ≤ h := by
  have hs := sized_run (F := F) xMin xMax yMin ops
  unfold getPadWidth at h2
  unfold getPadHeight at h3
  cases hn : getRowNumber (run F xMin xMax yMin ops) p with
  | throw e => rw [hn] at h2; cases h2
  | ub => rw [hn] at h2; cases h2
  | ok rn =>
    rw [hn, Res.bind_ok] at h2 h3
    cases he : elem (run F xMin xMax yMin ops).rows rn with
    | none => simp [elemUb, he] at h2
    | some r =>
      rw [elemUb_of he, Res.bind_ok, Res.pure_eq] at h2 h3
      have e2 := Res.ok.inj h2
      have e3 := Res.ok.inj h3
      rw [← e2, ← e3]
      exact hs r (elem_mem he)

/-! ### C153 the distance to a pad in double arithmetic -/

/-- In every layout `getDistanceToPad` returns the smallest Euclidean distance of the point from the rectangle that the getters
tell, up to eight roundings of the numbers involved. -/
theorem distance_double (R : Rounded F u) (xMin xMax yMin : ℝ) (ops : List (Op ℝ)) (x y : ℝ) {p : ℤ} {c : ℝ × ℝ} {w h : ℝ}
    (hb : HasBox F (run F xMin xMax yMin ops) p c w h) :
    ∃ D d, getDistanceToPad F (run F xMin xMax yMin ops) x y p = .ok D ∧
      IsLeast ((fun q : ℝ × ℝ => euclid x y q.1 q.2) '' box c w h) d ∧
      |D - d| ≤ 8 * u * (|x| + |y| + |c.1| + |c.2| + w + h) ∧ 0 ≤ D := by
  obtain ⟨h1, h2, h3⟩ := hb
  have hu := R.nonneg
  have hs := R.small
  obtain ⟨hw, hh⟩ := sizes_nonneg h2 h3
  have hD : getDistanceToPad F (run F xMin xMax yMin ops) x y p =
      .ok (if distanceToBox F x y (F.sub c.1 (F.mul w 0.5)) (F.sub c.2 (F.mul h 0.5))
        (F.add c.1 (F.mul w 0.5)) (F.add c.2 (F.mul h 0.5)) < 0 then 0 else
        distanceToBox F x y (F.sub c.1 (F.mul w 0.5)) (F.sub c.2 (F.mul h 0.5)) (F.add c.1 (F.mul w 0.5))
          (F.add c.2 (F.mul h 0.5))) := by
    simp only [getDistanceToPad, h1, h2, h3, Res.bind_ok, Res.pure_eq]
  refine ⟨_, _, hD, isLeast_box x y c hw hh, ?_, ?_⟩
  · obtain ⟨a1, a2, a3⟩ := padEdge_near R c.1 hw
    obtain ⟨b1, b2, b3⟩ := padEdge_near R c.2 hh
    have n := toBox_near R (x := x) (y := y) a3 b3
    have g1 := gap_near (v := x) a1 a2
    have g2 := gap_near (v := y) b1 b2
    have pn := plane_near (gap x (c.1 - w / 2) (c.1 + w / 2)) (gap y (c.2 - h / 2) (c.2 + h / 2))
      (gap x (F.sub c.1 (F.mul w 0.5)) (F.add c.1 (F.mul w 0.5))) (gap y (F.sub c.2 (F.mul h 0.5)) (F.add c.2 (F.mul h 0.5)))
    have pl := plane_le (gap_nonneg x (F.sub c.1 (F.mul w 0.5)) (F.add c.1 (F.mul w 0.5)))
      (gap_nonneg y (F.sub c.2 (F.mul h 0.5)) (F.add c.2 (F.mul h 0.5)))
    have size : ∀ (v k z : ℝ), 0 ≤ z → gap v (k - z / 2) (k + z / 2) ≤ |v| + |k| := by
      intro v k z hz
      rw [gap_center]
      exact max_le (by positivity) (by have := abs_sub v k; linarith)
    have s1 := size x c.1 w hw
    have s2 := size y c.2 h hh
    have g1' := (abs_le.1 g1).2
    have g2' := (abs_le.1 g2).2
    have ax := abs_nonneg x
    have ay := abs_nonneg y
    have ac := abs_nonneg c.1
    have ad := abs_nonneg c.2
    have small : ∀ t : ℝ, 0 ≤ t → 2 * u * t ≤ t / 2 := fun t ht => by
      have := mul_le_mul_of_nonneg_right hs ht; linarith
    have t1 := small (|c.1| + w) (by positivity)
    have t2 := small (|c.2| + h) (by positivity)
    have pl' := mul_le_mul_of_nonneg_left (pl.trans (show _ ≤ |x| + |y| + 3 / 2 * |c.1| + 3 / 2 * |c.2| + w / 2 + h / 2 by
      linarith)) (show 0 ≤ 4 * u by linarith)
    have tri := abs_sub_le (if distanceToBox F x y (F.sub c.1 (F.mul w 0.5)) (F.sub c.2 (F.mul h 0.5))
      (F.add c.1 (F.mul w 0.5)) (F.add c.2 (F.mul h 0.5)) < 0 then 0 else
      distanceToBox F x y (F.sub c.1 (F.mul w 0.5)) (F.sub c.2 (F.mul h 0.5)) (F.add c.1 (F.mul w 0.5)) (F.add c.2 (F.mul h 0.5)))
      (√(gap x (F.sub c.1 (F.mul w 0.5)) (F.add c.1 (F.mul w 0.5)) ^ 2 +
        gap y (F.sub c.2 (F.mul h 0.5)) (F.add c.2 (F.mul h 0.5)) ^ 2))
      (√(gap x (c.1 - w / 2) (c.1 + w / 2) ^ 2 + gap y (c.2 - h / 2) (c.2 + h / 2) ^ 2))
    have q1 := mul_nonneg hu ax
    have q2 := mul_nonneg hu ay
    have q3 := mul_nonneg hu ac
    have q4 := mul_nonneg hu ad
    have q5 := mul_nonneg hu hw
    have q6 := mul_nonneg hu hh
    refine tri.trans ?_
    linarith
  · split_ifs with hneg
    · exact le_rfl
    · exact not_lt.1 hneg

/-- For a point in the pad, the edges included, the distance is exactly 0. -/
theorem distance_double_inside (R : Rounded F u) (xMin xMax yMin : ℝ) (ops : List (Op ℝ)) {x y : ℝ} {p : ℤ} {c : ℝ × ℝ}
    {w h : ℝ} (hb : HasBox F (run F xMin xMax yMin ops) p c w h) (hx : IsDouble x) (hy : IsDouble y) (hw : IsDouble w)
    (hh : IsDouble h) (hin : (x, y) ∈ box c w h) : getDistanceToPad F (run F xMin xMax yMin ops) x y p = .ok 0 := by
  obtain ⟨h1, h2, h3⟩ := hb
  obtain ⟨b1, b2⟩ := hin
  dsimp only at b1 b2
  rw [abs_le] at b1 b2
  have half : ∀ {v : ℝ}, IsDouble v → F.mul v 0.5 = v / 2 := by
    rintro v ⟨n, k, hn, rfl⟩
    have e : (n : ℝ) * 2 ^ k * 0.5 = n * 2 ^ (k - 1) := by rw [zpow_sub_one₀ two_ne_zero]; norm_num; ring
    have e2 : (n : ℝ) * 2 ^ k / 2 = n * 2 ^ (k - 1) := by rw [zpow_sub_one₀ two_ne_zero]; ring
    unfold MaterialMap.Arith.mul
    rw [e, e2, R.rounding.scaled n (k - 1) hn]
  have self : ∀ {v : ℝ}, IsDouble v → F.rnd v = v := by
    rintro v ⟨n, k, hn, rfl⟩; exact R.rounding.scaled n k hn
  have lo : ∀ {v k z : ℝ}, IsDouble v → k - z ≤ v → ¬ v < F.sub k z := by
    intro v k z hv h
    have := R.rounding.mono _ _ h
    rw [self hv] at this
    exact not_lt.2 this
  have hi : ∀ {v k z : ℝ}, IsDouble v → v ≤ k + z → ¬ v > F.add k z := by
    intro v k z hv h
    have := R.rounding.mono _ _ h
    rw [self hv] at this
    exact not_lt.2 this
  simp only [getDistanceToPad, h1, h2, h3, Res.bind_ok, Res.pure_eq, half hw, half hh, distanceToBox]
  simp only [if_neg (lo (k := c.1) (z := w / 2) hx (by linarith)), if_neg (hi (k := c.1) (z := w / 2) hx (by linarith)),
    if_neg (lo (k := c.2) (z := h / 2) hy (by linarith)), if_neg (hi (k := c.2) (z := h / 2) hy (by linarith))]
  norm_num

/-- In exact arithmetic the distance is that of `RectDistance.lean`. -/
theorem exact_distance (pi : ℝ) (cos sin : ℝ → ℝ) (L : Layout ℝ) (x y : ℝ) (p : ℤ) :
    getDistanceToPad ⟨⟨pi, cos, sin, Real.sqrt⟩, id⟩ L x y p = Rect.getDistanceToPad L x y p := rfl

/-- Doubles with a library that returns the double nearest to the exact value. -/
noncomputable def rootDoubles : Arith ℝ :=
  ⟨⟨MaterialMap.binary64 Real.pi, fun x => MaterialMap.binary64 (Real.cos x), fun x => MaterialMap.binary64 (Real.sin x),
    fun x => MaterialMap.binary64 √x⟩, MaterialMap.binary64⟩

theorem rootDoubles_rounded : Rounded rootDoubles (1 / 2 ^ 53) where
  rounding := Doubles.binary64_rounding
  small := by norm_num
  sqrt := fun x _ => by have := Doubles.binary64_err √x; rwa [abs_of_nonneg (Real.sqrt_nonneg x)] at this

/-- A layout with pads of 1 by 1 at a pitch of 2. -/
example : HasBox rootDoubles (run rootDoubles 0 4 0 [.addRow 1 2 1 1 1 0 0]) 1 (3, 1 / 2) 1 1 ∧ IsDouble 3 ∧ IsDouble 1 ∧
    ((3, 1) : ℝ × ℝ) ∈ box (3, 1 / 2) 1 1 := by
  have whole : ∀ n : ℤ, |n| ≤ 2 ^ 53 → (MaterialMap.binary64 (n : ℝ)) = n := by
    intro n hn
    have := Doubles.binary64_scaled (K := ℝ) n 0 hn
    simpa using this
  have half : (MaterialMap.binary64 (1 / 2 : ℝ)) = 1 / 2 := by
    have := Doubles.binary64_scaled (K := ℝ) 1 (-1) (by norm_num)
    have e : (((1 : ℤ) : ℝ) * 2 ^ (-1 : ℤ)) = 1 / 2 := by norm_num
    rwa [e] at this
  have n0 := whole 0 (by norm_num)
  have n1 := whole 1 (by norm_num)
  have n2 := whole 2 (by norm_num)
  have n3 := whole 3 (by norm_num)
  have n4 := whole 4 (by norm_num)
  push_cast at n0 n1 n2 n3 n4
  refine ⟨?_, ⟨3, 0, by norm_num, by norm_num⟩, ⟨1, 0, by norm_num, by norm_num⟩, by
    norm_num [box, abs_of_nonneg]⟩
  have hr : run rootDoubles 0 4 0 [.addRow 1 2 1 1 1 0 0] =
      { nRow := 0, nPad := 2, repeatRows := 0, rows := [⟨2, 1, 1, 1, 0, 0, 1/2, 2⟩], xMin := 0, xMax := 4,
        yMin := 0, yMax := 1, padIndices := [none], nRows := [1] } := by
    have e42 : (4 : ℝ) / 2 = 2 := by norm_num
    simp only [run, List.foldl, step, addRow, Rect.new, MaterialMap.Arith.add, MaterialMap.Arith.sub, MaterialMap.Arith.mul,
      MaterialMap.Arith.div, rootDoubles]
    norm_num [pushRows, MaterialMap.Arith.add, MaterialMap.Arith.div, n0, n1, n2, n4, half, one_div]
  rw [hr]
  have hb : rowBits 1 = 0 := by decide
  have hp : padBits 1 = 1 := by decide
  refine ⟨?_, ?_, ?_⟩
  · simp [getPadCenter, getRowNumber, getPadNumber, hb, hp, elemUb, elem, MaterialMap.Arith.add, MaterialMap.Arith.mul,
      MaterialMap.Arith.div, rootDoubles, n0, n1, n2, n3, half]
    norm_num [n3]
  · simp [getPadWidth, getRowNumber, hb, elemUb, elem]
  · simp [getPadHeight, getRowNumber, hb, elemUb, elem]

end Gear.Rect.Double
