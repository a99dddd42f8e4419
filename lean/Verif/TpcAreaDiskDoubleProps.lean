/-
Areas of the disk modules of a TPC in `double` arithmetic (C166).
-/
import Verif.TpcAreaDiskDouble
import Verif.TpcAreaDoubleProps
import Verif.TpcDiskDoubleProps

set_option autoImplicit false
set_option linter.unusedSectionVars false

namespace Gear.TpcModule.Double

open Real
open TpcModule.Spec (Known plane place Op Values values Settled)
open PadAngle.Spec (Args IsIndex)
open PadAngle.Double.Spec (rError phiError DeepInPad)
open Spec

/-! ### Specification -/

namespace Spec

namespace MountedDisk

/-- The angle of the border at the inner radius. -/
noncomputable def borderAngle (M : MountedDisk) : ℝ := M.values.border / M.pads.rMin

/-- The point at radius `r` and angle `phi` of the module's own plane is in the ring segment of the layout and the border around it,
enlarged on all sides by `a` and `b`; made smaller if they are negative. -/
def InArea (M : MountedDisk) (a b r phi : ℝ) : Prop :=
  (M.pads.rMin - M.values.border - a ≤ r ∧ r ≤ M.pads.rMax + M.values.border + a) ∧
  M.pads.phiMin - M.borderAngle - b ≤ phi ∧ phi ≤ M.pads.phiMax + M.borderAngle + b

/-- The border is not negative, does not reach over the middle of the ring, and leaves a gap that is not too small between the ends. -/
structure Framed (u : ℝ) (M : MountedDisk) : Prop where
  border : 0 ≤ M.values.border
  inner : M.values.border = 0 ∨ 0 < M.pads.rMin
  gap : M.values.border = 0 ∨
    M.pads.phiMax - M.pads.phiMin + 2 * M.borderAngle + 50 * u * (1 + |M.pads.phiMin| + |M.pads.phiMax|) ≤ 2 * π

/-- The module of the TPC is this one: what it is asked for areas. -/
structure Covers (F : Arith ℝ) (fuel : ℕ) (t : ℤ) (M : MountedDisk) (L : PadAngle.Layout ℝ) (x : TpcParams.Mod ℝ) : Prop where
  inside : ∀ a b, x.isInsideModule a b = ringInsideModule F (M.module F fuel t L) fuel a b
  pad : ∀ a b, x.isInsidePad a b = ringInsideAnyPad F (M.module F fuel t L) fuel a b

/-- The error of radii. -/
noncomputable def areaRadius (u : ℝ) (t : ℤ) (M : MountedDisk) (c : ℝ × ℝ) : ℝ :=
  u * (|M.pads.rMin| + |M.pads.rMax| + M.values.border) + M.shift u t c

/-- The error of angles. -/
noncomputable def areaAngle (u : ℝ) (t : ℤ) (M : MountedDisk) (c : ℝ × ℝ) (r : ℝ) : ℝ :=
  3 * M.shift u t c / r + 5 * u * M.angles t c ^ 2

end MountedDisk

end Spec

variable {F : Arith ℝ} {u : ℝ} {t : ℤ} {fuel : ℕ} {M : MountedDisk} {L : PadAngle.Layout ℝ}

/-! ### Lemmas -/

theorem loopBelow_turns {F : MaterialMap.Arith ℝ} (R : Doubles.Rounding F.rnd u) (hu0 : 0 ≤ u) (hu : u ≤ 1 / 1000) (hp1 : 3 ≤ F.pi)
    (hp2 : F.pi ≤ 4) (hpi : |F.pi - π| ≤ u * π) {hi M : ℝ} (hM : u * (M + 9) ≤ 1 / 2) (hhi : |hi| ≤ M) :
    ∀ (n : ℕ) (phi : ℝ), phi ≤ M → phi - hi < 5 * n → ∀ m, n + 1 ≤ m →
      ∃ phi' : ℝ, loopBelow F hi m phi = some phi' ∧ phi' < hi ∧ min phi (hi - 2 * π - u * (M + 24)) ≤ phi' ∧
        ∃ k : ℤ, |phi' - (phi + k * (2 * π))| ≤ n * (u * (M + 24)) := by
  have t := R.bounds (x := 2 * F.pi) (by linarith)
  have t1 : 59 / 10 ≤ F.mul 2 F.pi := by unfold MaterialMap.Arith.mul; nlinarith
  have t2 : F.mul 2 F.pi ≤ 81 / 10 := by unfold MaterialMap.Arith.mul; nlinarith
  have t3 := PadAngle.Double.turn_err R hu0 hp1 hp2 hpi
  have hM0 : 0 ≤ M := le_trans (abs_nonneg _) hhi
  rw [_root_.abs_le] at hhi
  intro n
  induction n with
  | zero =>
    intro phi _ h m hm
    obtain ⟨k, rfl⟩ : ∃ k, m = k + 1 := ⟨m - 1, by omega⟩
    push_cast at h
    unfold loopBelow
    rw [if_neg (by linarith)]
    exact ⟨phi, rfl, by linarith, min_le_left _ _, 0, by simp⟩
  | succ n ih =>
    intro phi hphi h m hm
    obtain ⟨k, rfl⟩ : ∃ k, m = k + 1 := ⟨m - 1, by omega⟩
    unfold loopBelow
    by_cases hc : phi ≥ hi
    · rw [if_pos hc]
      have e := R.err (phi - F.mul 2 F.pi)
      have ha : |phi - F.mul 2 F.pi| ≤ M + 9 := by rw [_root_.abs_le]; constructor <;> linarith
      have hb' : u * |phi - F.mul 2 F.pi| ≤ u * (M + 9) := mul_le_mul_of_nonneg_left ha hu0
      have hb := hb'.trans hM
      rw [_root_.abs_le] at e
      obtain ⟨phi', e1, e2, e4, j, e5⟩ := ih (F.sub phi (F.mul 2 F.pi)) (by unfold MaterialMap.Arith.sub; linarith [e.2])
        (by unfold MaterialMap.Arith.sub; push_cast at h; linarith [e.2]) k (by omega)
      have ea : F.rnd (phi - F.mul 2 F.pi) = F.sub phi (F.mul 2 F.pi) := rfl
      rw [ea] at e
      rw [_root_.abs_le] at t3
      refine ⟨phi', e1, e2, ?_, j - 1, ?_⟩
      · refine le_trans (min_le_right _ _) (le_trans (le_min ?_ le_rfl) e4)
        linarith [e.1, t3.2]
      · rw [_root_.abs_le] at e5 ⊢
        push_cast
        constructor <;> linarith [e.1, e.2, e5.1, e5.2, t3.1, t3.2]
    · rw [if_neg hc]
      refine ⟨phi, rfl, not_le.1 hc, min_le_left _ _, 0, ?_⟩
      simp only [Int.cast_zero, zero_mul, add_zero, sub_self, abs_zero]
      positivity

/-- The two loops bring an angle between `lo` and one turn more, and change it by full turns, up to rounding. -/
theorem wrap_near (R : Rounded F u) (hu : 0 < u) {lo x T : ℝ} (hx : |x| ≤ T) (hlo : |lo| + 20 ≤ T) (hT : 30 ≤ T) (hs : u * T ≤ 1 / 10)
    (hf : T + 1 ≤ fuel) :
    ∃ y, ringWrap F.toArith fuel lo x = some y ∧ lo - u * T ^ 2 ≤ y ∧ y ≤ lo + 2 * π + u * T ^ 2 ∧
      ∃ k : ℤ, |y - (x + k * (2 * π))| ≤ 2 * (u * T ^ 2) := by
  have A := angle_rounded R hu
  have hT2 : 30 * (u * T) ≤ u * T ^ 2 := by
    have : u * T ^ 2 = T * (u * T) := by ring
    rw [this]
    exact mul_le_mul_of_nonneg_right hT (by positivity)
  have hu30 : 30 * u ≤ u * T := by nlinarith
  have hs9 : u * (T + 9) ≤ 1 / 2 := by nlinarith
  have t3 := abs_le.1 (PadAngle.Double.turn_err R.rounding hu.le A.pi.1 A.pi.2 R.pi)
  have hp0 := Real.pi_gt_three
  have hp1 := Real.pi_lt_d2
  obtain ⟨hi, hhi⟩ : ∃ hi, hi = F.toArith.add lo (F.toArith.mul 2 F.pi) := ⟨_, rfl⟩
  have hlo0 := abs_nonneg lo
  have e := R.rounding.err (lo + F.toArith.mul 2 F.pi)
  have ea : |lo + F.toArith.mul 2 F.pi| ≤ T := by
    have := abs_add_le lo (F.toArith.mul 2 F.pi)
    have h8 : |F.toArith.mul 2 F.pi| ≤ 9 := by rw [_root_.abs_le]; constructor <;> linarith [t3.1, t3.2]
    linarith
  have eb := mul_le_mul_of_nonneg_left ea hu.le
  have e : |hi - (lo + F.toArith.mul 2 F.pi)| ≤ u * |lo + F.toArith.mul 2 F.pi| := by rw [hhi]; exact e
  have hlo1 := abs_le.1 (le_refl |lo|)
  have e := abs_le.1 (e.trans eb)
  have hhi' : |hi| ≤ T := by rw [_root_.abs_le]; constructor <;> linarith [e.1, e.2, t3.1, t3.2]
  obtain ⟨N, hN⟩ : ∃ N : ℕ, N = ⌈(2 * T + 9) / 5⌉₊ := ⟨_, rfl⟩
  have hN1 : 2 * T + 9 ≤ 5 * N := by
    have := Nat.le_ceil ((2 * T + 9) / 5)
    rw [← hN] at this
    linarith
  have hN2 : (N : ℝ) ≤ T / 2 := by
    have := (Nat.ceil_lt_add_one (show 0 ≤ (2 * T + 9) / 5 by positivity)).le
    rw [← hN] at this
    linarith
  have hNf : N + 1 ≤ fuel := by
    have : ((N + 1 : ℕ) : ℝ) ≤ fuel := by push_cast; linarith
    exact_mod_cast this
  have hNu : N * (u * (T + 24)) ≤ u * T ^ 2 := by
    have h1 : u * (T + 24) ≤ u * (2 * T) := mul_le_mul_of_nonneg_left (by linarith) hu.le
    have h2 := mul_le_mul hN2 h1 (by positivity) (by linarith)
    refine h2.trans (le_of_eq ?_)
    ring
  have hx' := abs_le.1 hx
  obtain ⟨y, y1, y2, y3, k, y4⟩ := PadAngle.Double.loopUp_turns R.rounding hu.le R.small A.pi.1 A.pi.2 R.pi hs9
    (by linarith : |lo| ≤ T) N x hx'.1 (by linarith) fuel hNf
  have hyT : y ≤ T := y3.trans (max_le hx'.2 (by linarith))
  obtain ⟨z, z1, z2, z3, j, z4⟩ := loopBelow_turns R.rounding hu.le R.small A.pi.1 A.pi.2 R.pi hs9 hhi' N y hyT
    (by have := abs_le.1 hhi'; linarith) fuel hNf
  refine ⟨z, ?_, ?_, ?_, k + j, ?_⟩
  · unfold ringWrap
    rw [y1]
    dsimp only
    rw [← hhi]
    exact z1
  · refine le_trans (le_min ?_ ?_) z3
    · have : 0 ≤ u * T ^ 2 := by positivity
      linarith
    · have : u * (T + 24) ≤ u * (2 * T) := mul_le_mul_of_nonneg_left (by linarith) hu.le
      linarith [e.1, t3.1]
  · linarith [e.2, t3.2]
  · push_cast
    have h1 := abs_le.1 y4
    have h2 := abs_le.1 z4
    rw [_root_.abs_le]
    constructor <;> linarith

theorem disk_border : (M.module F fuel t L).border = M.values.border :=
  run_border F (m := new M.id (fixedAngle F fuel L) t M.frequency) rfl M.ops

theorem has_extent (hL : M.Has F L) :
    (fixedAngle F fuel L).planeExtent = ⟨M.pads.rMin, M.pads.rMax, M.pads.phiMin, M.pads.phiMax⟩ := by
  unfold MountedDisk.Has PadAngle.Double.new at hL
  split at hL
  · cases hL
  · cases hL; rfl

theorem borderAngle_nonneg (hM : M.Proper F) (hW : M.Framed u) : 0 ≤ M.borderAngle := div_nonneg hW.border hM.inner

/-- The extent is right, up to rounding. -/
theorem ring_extent_near (R : Rounded F u) (hu : 0 < u) (hM : M.Proper F) (hW : M.Framed u) (hL : M.Has F L) :
    (0 ≤ (ringExtent F (M.module F fuel t L)).e0 ∧ (ringExtent F (M.module F fuel t L)).e0 ≤ (ringExtent F (M.module F fuel t L)).e1 ∧
      (ringExtent F (M.module F fuel t L)).e2 ≤ (ringExtent F (M.module F fuel t L)).e3) ∧
    ((∀ r, 0 ≤ r → M.pads.rMin - M.values.border + u * (|M.pads.rMin| + |M.pads.rMax| + M.values.border) ≤ r →
        (ringExtent F (M.module F fuel t L)).e0 ≤ r) ∧
      M.pads.rMin - M.values.border - u * (|M.pads.rMin| + |M.pads.rMax| + M.values.border) ≤ (ringExtent F (M.module F fuel t L)).e0) ∧
    |(ringExtent F (M.module F fuel t L)).e1 - (M.pads.rMax + M.values.border)| ≤
      u * (|M.pads.rMin| + |M.pads.rMax| + M.values.border) ∧
    |(ringExtent F (M.module F fuel t L)).e2 - (M.pads.phiMin - M.borderAngle)| ≤ 3 * u * (|M.pads.phiMin| + 4) ∧
    |(ringExtent F (M.module F fuel t L)).e3 - (M.pads.phiMax + M.borderAngle)| ≤ 3 * u * (|M.pads.phiMax| + 4) ∧
    M.borderAngle ≤ 4 ∧ M.pads.phiMax - M.pads.phiMin + 2 * M.borderAngle ≤ 2 * π + 10 * u := by
  have hp1 := Real.pi_lt_d2
  have hp0 := Real.pi_gt_three
  have hpi := abs_le.1 R.pi
  have hupi : u * π ≤ 4 * u := by nlinarith
  have hphi := hM.pads.phi
  have hr := hM.pads.r
  have hb := hW.border
  have hB := borderAngle_nonneg hM hW
  obtain ⟨S, hS⟩ : ∃ S, S = |M.pads.rMin| + |M.pads.rMax| + M.values.border := ⟨_, rfl⟩
  have hS0 : 0 ≤ u * S := by rw [hS]; positivity
  rw [← hS]
  have q0 : 0 ≤ 3 * u * (|M.pads.phiMin| + 4) := by positivity
  have q1 : 0 ≤ 3 * u * (|M.pads.phiMax| + 4) := by positivity
  by_cases h0 : M.values.border = 0
  · have e : ringExtent F (M.module F fuel t L) = ⟨M.pads.rMin, M.pads.rMax, M.pads.phiMin, M.pads.phiMax⟩ := by
      unfold ringExtent
      dsimp only
      rw [if_pos (by rw [disk_border]; exact h0), disk_layout, has_extent hL]
    have hb0 : M.borderAngle = 0 := by unfold MountedDisk.borderAngle; rw [h0, zero_div]
    rw [e, h0, hb0]
    dsimp only
    have := hM.span
    refine ⟨⟨hM.inner, hr.le, hphi.le⟩, ⟨fun r h1 h2 => by linarith, by linarith⟩, ?_, ?_, ?_, by norm_num, by linarith [hpi.2]⟩
    · rw [add_zero, sub_self, abs_zero]; exact hS0
    · rw [sub_zero, sub_self, abs_zero]; exact q0
    · rw [add_zero, sub_self, abs_zero]; exact q1
  · have hin := hW.inner.resolve_left h0
    have hgap := hW.gap.resolve_left h0
    have hB4 : M.borderAngle ≤ 4 := by
      have : 0 ≤ 50 * u * (1 + |M.pads.phiMin| + |M.pads.phiMax|) := by positivity
      linarith
    obtain ⟨β, hβ⟩ : ∃ β, β = F.div M.values.border M.pads.rMin := ⟨_, rfl⟩
    have b1 : |β - M.borderAngle| ≤ u * M.borderAngle := by
      have := R.rounding.err (M.values.border / M.pads.rMin)
      rw [hβ]
      refine this.trans (le_of_eq ?_)
      show u * |M.borderAngle| = _
      rw [abs_of_nonneg hB]
    have b2 : u * M.borderAngle ≤ 4 * u := by nlinarith
    have b1 := abs_le.1 b1
    have b3 : |β| ≤ 5 := by rw [_root_.abs_le]; have := R.small; constructor <;> linarith
    have c2 : |F.sub M.pads.phiMin β - (M.pads.phiMin - M.borderAngle)| ≤ 3 * u * (|M.pads.phiMin| + 4) := by
      have e := R.rounding.err (M.pads.phiMin - β)
      have e2 := mul_le_mul_of_nonneg_left (abs_sub M.pads.phiMin β) hu.le
      have e3 := mul_le_mul_of_nonneg_left b3 hu.le
      have e : |F.sub M.pads.phiMin β - (M.pads.phiMin - β)| ≤ u * |M.pads.phiMin - β| := e
      have e := abs_le.1 e
      have := mul_nonneg hu.le (abs_nonneg M.pads.phiMin)
      rw [_root_.abs_le]
      constructor <;> linarith [e.1, e.2]
    have c3 : |F.add M.pads.phiMax β - (M.pads.phiMax + M.borderAngle)| ≤ 3 * u * (|M.pads.phiMax| + 4) := by
      have e := R.rounding.err (M.pads.phiMax + β)
      have e2 := mul_le_mul_of_nonneg_left (abs_add_le M.pads.phiMax β) hu.le
      have e3 := mul_le_mul_of_nonneg_left b3 hu.le
      have e : |F.add M.pads.phiMax β - (M.pads.phiMax + β)| ≤ u * |M.pads.phiMax + β| := e
      have e := abs_le.1 e
      have := mul_nonneg hu.le (abs_nonneg M.pads.phiMax)
      rw [_root_.abs_le]
      constructor <;> linarith [e.1, e.2]
    have hno : ¬ F.sub (F.add M.pads.phiMax β) (F.sub M.pads.phiMin β) > F.mul 2 F.pi := by
      have A := angle_rounded R hu
      have t3 := abs_le.1 (PadAngle.Double.turn_err R.rounding hu.le A.pi.1 A.pi.2 R.pi)
      have t4 : 2 * π - 15 * u ≤ F.mul 2 F.pi := by have := t3.1; linarith
      rw [not_lt]
      refine le_trans ?_ t4
      obtain ⟨d, hd⟩ : ∃ d, d = F.add M.pads.phiMax β - F.sub M.pads.phiMin β := ⟨_, rfl⟩
      have e := R.rounding.err d
      have e : |F.sub (F.add M.pads.phiMax β) (F.sub M.pads.phiMin β) - d| ≤ u * |d| := by rw [hd] at e ⊢; exact e
      have c2 := abs_le.1 c2
      have c3 := abs_le.1 c3
      have u1 := R.small
      have v1 := mul_nonneg hu.le (abs_nonneg M.pads.phiMin)
      have v2 := mul_nonneg hu.le (abs_nonneg M.pads.phiMax)
      have d1 : d ≤ 2 * π - 26 * u - 47 * (u * |M.pads.phiMin|) - 47 * (u * |M.pads.phiMax|) := by
        rw [hd]; linarith
      have d2 : - (3 * (u * |M.pads.phiMin|) + 3 * (u * |M.pads.phiMax|) + 24 * u) ≤ d := by
        rw [hd]; linarith
      have d3 : u * |d| ≤ 7 * u + 3 * (u * |M.pads.phiMin|) + 3 * (u * |M.pads.phiMax|) := by
        have d4 : |d| ≤ 7 + 3 * (u * |M.pads.phiMin|) + 3 * (u * |M.pads.phiMax|) := by
          rw [_root_.abs_le]
          constructor <;> linarith
        have d5 := mul_le_mul_of_nonneg_left d4 hu.le
        have w1 : u * (u * |M.pads.phiMin|) ≤ 1 * (u * |M.pads.phiMin|) := mul_le_mul_of_nonneg_right (by linarith) v1
        have w2 : u * (u * |M.pads.phiMax|) ≤ 1 * (u * |M.pads.phiMax|) := mul_le_mul_of_nonneg_right (by linarith) v2
        linarith
      have e := abs_le.1 e
      linarith [e.2]
    have hmax : M.pads.rMax > 0 := by linarith
    have e : ringExtent F (M.module F fuel t L) = ⟨if F.sub M.pads.rMin M.values.border ≥ 0 then F.sub M.pads.rMin M.values.border else 0,
        F.add M.pads.rMax M.values.border, F.sub M.pads.phiMin β, F.add M.pads.phiMax β⟩ := by
      unfold ringExtent
      dsimp only
      rw [if_neg (by rw [disk_border]; exact h0), disk_layout, has_extent hL, disk_border]
      dsimp only
      rw [if_pos hmax, ← hβ, if_neg hno]
    rw [e]
    dsimp only
    have f0 : |F.sub M.pads.rMin M.values.border - (M.pads.rMin - M.values.border)| ≤ u * S := by
      refine (R.rounding.err (M.pads.rMin - M.values.border)).trans (mul_le_mul_of_nonneg_left ?_ hu.le)
      have := abs_sub M.pads.rMin M.values.border
      rw [abs_of_nonneg hb] at this
      rw [hS]
      have := abs_nonneg M.pads.rMax
      linarith
    have f0 := abs_le.1 f0
    have hβ0 : 0 ≤ β := by rw [hβ]; exact R.rounding.nonneg (div_nonneg hb hM.inner)
    refine ⟨⟨?_, ?_, R.rounding.mono _ _ (by linarith)⟩, ⟨fun r r1 r2 => ?_, ?_⟩, ?_, c2, c3, hB4, by
      have : 0 ≤ 50 * u * (1 + |M.pads.phiMin| + |M.pads.phiMax|) := by positivity
      linarith⟩
    · split_ifs with hc
      · exact hc
      · exact le_rfl
    · split_ifs
      · exact R.rounding.mono _ _ (by linarith)
      · exact R.rounding.nonneg (by linarith)
    · split_ifs
      · linarith [f0.2]
      · exact r1
    · split_ifs with hc
      · linarith [f0.1]
      · rw [not_le] at hc; linarith [f0.1]
    · refine (R.rounding.err (M.pads.rMax + M.values.border)).trans (mul_le_mul_of_nonneg_left ?_ hu.le)
      have := abs_add_le M.pads.rMax M.values.border
      rw [abs_of_nonneg hb] at this
      rw [hS]
      have := abs_nonneg M.pads.rMin
      linarith

theorem angles_large (c : ℝ × ℝ) : 2 * (|M.pads.phiMin| + |M.pads.phiMax|) + 70 ≤ M.angles t c := by
  unfold MountedDisk.angles
  have h2 := abs_nonneg M.values.angle
  have : (0 : ℝ) ≤ if t = POLAR then 2 * |c.2| else 0 := by split_ifs <;> positivity
  linarith

/-- The local coordinates with the angle in the range of the module. -/
theorem ring_local (R : Rounded F u) (hu : 0 < u) (ht : Known t) (hM : M.Proper F) (hW : M.Framed u) (hL : M.Has F L) {c : ℝ × ℝ}
    (h0 : t = POLAR → 0 ≤ c.1) {r phi : ℝ} (hr : 0 < r) (he : 2 * M.shift u t c ≤ r) (hq : M.At t r phi c)
    (hs : u * M.angles t c ≤ 1 / 20) (hf : M.angles t c + 1 ≤ fuel) :
    ∃ l, ringLocal F (M.module F fuel t L) fuel c.1 c.2 = .ok l ∧ 0 ≤ l.1 ∧ |l.1 - r| ≤ M.shift u t c ∧
      (ringExtent F (M.module F fuel t L)).e2 - u * M.angles t c ^ 2 ≤ l.2 ∧
      l.2 ≤ (ringExtent F (M.module F fuel t L)).e2 + 2 * π + u * M.angles t c ^ 2 ∧
      ∃ k : ℤ, |l.2 - (phi + k * (2 * π))| ≤ 3 * M.shift u t c / r + 2 * (u * M.angles t c ^ 2) := by
  obtain ⟨l, l1, l2, ⟨k, l3⟩, l4, -⟩ := disk_local (fuel := fuel) (L := L) R ht hM h0 hr he hq
  obtain ⟨-, -, -, x2, -, x4, -⟩ := ring_extent_near (fuel := fuel) (t := t) R hu hM hW hL
  have hB := borderAngle_nonneg hM hW
  have hT := angles_large (M := M) (t := t) c
  have a1 := abs_nonneg M.pads.phiMin
  have a2 := abs_nonneg M.pads.phiMax
  have hlo : |(ringExtent F (M.module F fuel t L)).e2| + 20 ≤ M.angles t c := by
    have h1 := abs_le.1 x2
    have h2 : u * |M.pads.phiMin| ≤ 1 / 1000 * |M.pads.phiMin| := mul_le_mul_of_nonneg_right R.small a1
    have h3 := R.small
    have h4 := abs_le.1 (le_refl |M.pads.phiMin|)
    have : |(ringExtent F (M.module F fuel t L)).e2| ≤ 2 * |M.pads.phiMin| + 5 := by
      rw [_root_.abs_le]; constructor <;> linarith
    linarith
  obtain ⟨y, y1, y2, y3, j, y4⟩ := wrap_near (fuel := fuel) R hu (x := l.2) (lo := (ringExtent F (M.module F fuel t L)).e2) (T := M.angles t c)
    (by linarith) hlo (by linarith) (by linarith) hf
  refine ⟨(l.1, y), ?_, ?_, l2, y2, y3, k + j, ?_⟩
  · unfold ringLocal
    rw [l1, Res.bind_ok, y1]
  · have := abs_le.1 l2
    have := shift_nonneg (M := M) (t := t) R c
    show 0 ≤ l.1
    linarith
  · have h1 := abs_le.1 l3
    have h2 := abs_le.1 y4
    push_cast
    show |y - _| ≤ _
    rw [_root_.abs_le]
    constructor <;> linarith

/-- An angle in a range of one turn, near to an angle that is not at the ends of it, differs from it by no turn. -/
theorem same_turn {x phi lo e d : ℝ} {k : ℤ} (h : |x - (phi + k * (2 * π))| ≤ e) (h1 : lo - d ≤ x) (h2 : x ≤ lo + 2 * π + d)
    (h3 : lo + d + e < phi) (h4 : phi < lo + 2 * π - d - e) : k = 0 := by
  have hpos := Real.pi_pos
  have h := abs_le.1 h
  by_contra hne
  rcases lt_or_gt_of_ne hne with hneg | hgt
  · have : (k : ℝ) ≤ -1 := by exact_mod_cast (by omega : k ≤ -1)
    have := mul_le_mul_of_nonneg_right this (show 0 ≤ 2 * π by linarith)
    linarith [h.2]
  · have : (1 : ℝ) ≤ k := by exact_mod_cast (by omega : 1 ≤ k)
    have := mul_le_mul_of_nonneg_right this (show 0 ≤ 2 * π by linarith)
    linarith [h.1]

/-! ### C166 -/

/-- `isInsideModule` of a module with a disk layout is true in the ring segment of the layout and its border, and only there, up to
rounding. -/
theorem disk_area_inside_double_partial (R : Rounded F u) (hu : 0 < u) (ht : Known t) (hM : M.Proper F) (hW : M.Framed u) (hL : M.Has F L)
    {c : ℝ × ℝ} (h0 : t = POLAR → 0 ≤ c.1) {r phi : ℝ} (hr : 0 < r) (he : 2 * M.shift u t c ≤ r) (hq : M.At t r phi c)
    (hs : u * M.angles t c ≤ 1 / 20) (hf : M.angles t c + 1 ≤ fuel) :
    ∃ b, ringInsideModule F (M.module F fuel t L) fuel c.1 c.2 = .ok b ∧
      ((∃ k : ℤ, M.InArea (-M.areaRadius u t c) (-M.areaAngle u t c r) r (phi + k * (2 * π))) → b = true) ∧
      (b = true → ∃ k : ℤ, M.InArea (M.areaRadius u t c) (M.areaAngle u t c r) r (phi + k * (2 * π))) := by
  obtain ⟨l, l1, l2, l3, l4, l5, k, l6⟩ := ring_local (fuel := fuel) R hu ht hM hW hL h0 hr he hq hs hf
  obtain ⟨-, ⟨x0, x0'⟩, x1, x2, x3, x4, x5⟩ := ring_extent_near (fuel := fuel) (t := t) R hu hM hW hL
  have hT := angles_large (M := M) (t := t) c
  have a1 := abs_nonneg M.pads.phiMin
  have a2 := abs_nonneg M.pads.phiMax
  obtain ⟨T, hTT⟩ : ∃ T, T = M.angles t c := ⟨_, rfl⟩
  rw [← hTT] at hT l4 l5 l6
  have w1 : 70 * (u * (|M.pads.phiMin| + 4)) ≤ u * T ^ 2 := by
    have h1 : u * (|M.pads.phiMin| + 4) ≤ u * T := mul_le_mul_of_nonneg_left (by linarith) hu.le
    have : u * T ^ 2 = T * (u * T) := by ring
    rw [this]
    exact mul_le_mul (by linarith) h1 (by positivity) (by linarith)
  have w2 : 70 * (u * (|M.pads.phiMax| + 4)) ≤ u * T ^ 2 := by
    have h1 : u * (|M.pads.phiMax| + 4) ≤ u * T := mul_le_mul_of_nonneg_left (by linarith) hu.le
    have : u * T ^ 2 = T * (u * T) := by ring
    rw [this]
    exact mul_le_mul (by linarith) h1 (by positivity) (by linarith)
  have w3 : 0 ≤ u * |M.pads.phiMin| := by positivity
  have w4 : 0 ≤ u * |M.pads.phiMax| := by positivity
  obtain ⟨E, hE⟩ : ∃ E, E = 3 * M.shift u t c / r := ⟨_, rfl⟩
  rw [← hE] at l6
  have sh := shift_nonneg (M := M) (t := t) R c
  have hE0 : 0 ≤ E := by rw [hE]; positivity
  obtain ⟨e, hee⟩ : ∃ e, e = ringExtent F (M.module F fuel t L) := ⟨_, rfl⟩
  rw [← hee] at x0 x0' x1 x2 x3 l4 l5
  have x1 := abs_le.1 x1
  have x2 := abs_le.1 x2
  have x3 := abs_le.1 x3
  have l3 := abs_le.1 l3
  unfold MountedDisk.InArea MountedDisk.areaRadius MountedDisk.areaAngle
  rw [← hE, ← hTT]
  refine ⟨decide (l.1 ≥ e.e0 ∧ l.1 ≤ e.e1 ∧ l.2 ≥ e.e2 ∧ l.2 ≤ e.e3), ?_, ?_, ?_⟩
  · unfold ringInsideModule
    rw [l1, Res.bind_ok, hee]
    rfl
  · rintro ⟨j, ⟨p1, p2⟩, p3, p4⟩
    have l6 : |l.2 - (phi + j * (2 * π) + ((k - j : ℤ) : ℝ) * (2 * π))| ≤ E + 2 * (u * T ^ 2) := by
      refine le_trans (le_of_eq ?_) l6
      push_cast
      congr 1
      ring
    have hk : k - j = 0 := same_turn (lo := e.e2) (d := u * T ^ 2) l6 l4 l5 (by linarith [x2.2]) (by linarith [x2.1])
    rw [hk] at l6
    simp only [Int.cast_zero, zero_mul, add_zero] at l6
    have l6 := abs_le.1 l6
    rw [decide_eq_true_iff]
    exact ⟨x0 _ l2 (by linarith [l3.1]), by linarith [l3.2, x1.1], by linarith [l6.1, x2.2], by linarith [l6.2, x3.1]⟩
  · intro h
    rw [decide_eq_true_iff] at h
    obtain ⟨p1, p2, p3, p4⟩ := h
    have l6 := abs_le.1 l6
    exact ⟨k, ⟨by linarith [l3.2], by linarith [l3.1, x1.2]⟩, by linarith [l6.2, x2.1], by linarith [l6.1, x3.2]⟩

/-- `isInsidePad` without a pad is true for points on a pad, not near to its border, at any angle. -/
theorem disk_any_pad_double_partial (R : Rounded F u) (hu : 0 < u) (ht : Known t) (hM : M.Proper F) (hW : M.Framed u) (hL : M.Has F L)
    {row pad p : ℤ} (hp : IsIndex M.pads L row pad p) {c : ℝ × ℝ} (h0 : t = POLAR → 0 ≤ c.1) {r phi : ℝ} (hq : M.At t r phi c)
    (hd : DeepInPad M.pads (rError M.pads u + 2 * M.shift u t c)
      (phiError M.pads u F.pi + 3 * M.shift u t c / r + 25 * u * M.angles t c ^ 2) row pad r phi)
    (hs : u * M.angles t c ≤ 1 / 20) (hf : 2 * M.angles t c + 1 ≤ fuel) :
    ringInsideAnyPad F (M.module F fuel t L) fuel c.1 c.2 = .ok true := by
  obtain ⟨⟨d1, d2⟩, d3, d4⟩ := hd
  have sh := shift_nonneg (M := M) (t := t) R c
  have hrow : (0 : ℝ) ≤ row := by exact_mod_cast hp.1.1.1
  have hdr : 0 < M.pads.dr := by
    have := hM.pads.r
    have : (0 : ℝ) < M.pads.nRow := by exact_mod_cast hM.pads.rows.1
    unfold Args.dr
    exact div_pos (by linarith) this
  have hm := hM.inner
  have h1 : 0 ≤ row * M.pads.dr := mul_nonneg hrow hdr.le
  have re1 : 0 < rError M.pads u := by
    have : 0 < |M.pads.rMax| := abs_pos.2 (by linarith [hM.pads.r])
    unfold rError
    positivity
  have hr : 0 < r := by linarith
  have hT := angles_large (M := M) (t := t) c
  have a1 := abs_nonneg M.pads.phiMin
  have a2 := abs_nonneg M.pads.phiMax
  obtain ⟨l, l1, l2, l3, l4, l5, k, l6⟩ := ring_local (fuel := fuel) R hu ht hM hW hL h0 hr (by linarith) hq hs (by linarith)
  obtain ⟨-, -, -, x2, -, x4, x5⟩ := ring_extent_near (fuel := fuel) (t := t) R hu hM hW hL
  obtain ⟨T, hTT⟩ : ∃ T, T = M.angles t c := ⟨_, rfl⟩
  rw [← hTT] at hT l4 l5 l6 hs hf d3 d4
  have w1 : 70 * (u * (|M.pads.phiMin| + 4)) ≤ u * T ^ 2 := by
    have h1 : u * (|M.pads.phiMin| + 4) ≤ u * T := mul_le_mul_of_nonneg_left (by linarith) hu.le
    have : u * T ^ 2 = T * (u * T) := by ring
    rw [this]
    exact mul_le_mul (by linarith) h1 (by positivity) (by linarith)
  have w3 : 0 ≤ u * |M.pads.phiMin| := by positivity
  obtain ⟨E, hE⟩ : ∃ E, E = 3 * M.shift u t c / r := ⟨_, rfl⟩
  rw [← hE] at l6 d3 d4
  have hE0 : 0 ≤ E := by rw [hE]; positivity
  have hB := borderAngle_nonneg hM hW
  obtain ⟨lo, hlo⟩ : ∃ lo, lo = (ringExtent F (M.module F fuel t L)).e2 := ⟨_, rfl⟩
  rw [← hlo] at x2 l4 l5
  have x2 := abs_le.1 x2
  have pe : 0 ≤ phiError M.pads u F.pi := by
    have := (angle_rounded R hu).pi.1
    have : 0 ≤ F.pi := by linarith
    unfold phiError
    positivity
  -- the pad is in the layout
  have hn : (0 : ℝ) < M.pads.nPads := by exact_mod_cast hM.pads.pads.1
  have hdp : M.pads.nPads * M.pads.dphi = M.pads.phiMax - M.pads.phiMin := by
    unfold Args.dphi; field_simp
  have hdp0 : 0 ≤ M.pads.dphi := by
    have := hM.pads.phi
    unfold Args.dphi
    exact div_nonneg (by linarith) hn.le
  have hpad0 : (0 : ℝ) ≤ pad := by exact_mod_cast hp.1.2.1
  have hpad1 : (pad : ℝ) + 1 ≤ M.pads.nPads := by
    have := hp.1.2.2
    exact_mod_cast (by omega : pad + 1 ≤ M.pads.nPads)
  have g1 : 0 ≤ pad * M.pads.dphi := mul_nonneg hpad0 hdp0
  have g2 : (pad + 1) * M.pads.dphi ≤ M.pads.phiMax - M.pads.phiMin := by
    rw [← hdp]; exact mul_le_mul_of_nonneg_right hpad1 hdp0
  have hk : k = 0 := same_turn (lo := lo) (d := u * T ^ 2) l6 l4 l5 (by linarith [x2.2]) (by linarith [x2.1])
  rw [hk] at l6
  have l3 := abs_le.1 l3
  -- the nearest pad
  obtain ⟨S, hS⟩ : ∃ S, S = PadAngle.Double.Spec.turnSize M.pads l.2 := ⟨_, rfl⟩
  have hS0 : 0 ≤ S := by rw [hS]; unfold PadAngle.Double.Spec.turnSize; positivity
  have hp1 := Real.pi_lt_d2
  have hp0 := Real.pi_gt_three
  have huT : u * T ^ 2 = T * (u * T) := by ring
  have huT1 : u * T ^ 2 ≤ T * (1 / 20) := by rw [huT]; exact mul_le_mul_of_nonneg_left hs (by linarith)
  have hS2 : S ≤ 2 * T := by
    rw [hS]
    unfold PadAngle.Double.Spec.turnSize
    have h3 := abs_le.1 (le_refl |M.pads.phiMin|)
    have : |l.2| ≤ |M.pads.phiMin| + 12 + 2 * (u * T ^ 2) := by
      rw [_root_.abs_le]
      constructor <;> linarith [x2.1, x2.2]
    linarith
  have hSS : u * S ^ 2 ≤ 4 * (u * T ^ 2) := by
    have := mul_le_mul_of_nonneg_left (pow_le_pow_left₀ hS0 hS2 2) hu.le
    linarith
  have hSu : u * S ≤ 2 * (u * T) := by have := mul_le_mul_of_nonneg_left hS2 hu.le; linarith
  obtain ⟨p', i1, i2⟩ := PadAngle.Double.nearest_turns_double (angle_rounded R hu) R.pi hM.pads hM.span hM.inner hL hp.1 (r := l.1)
    (phi := l.2) (phi0 := phi) l6 (by
      rw [← hS]
      refine ⟨⟨by linarith [l3.1], by linarith [l3.2]⟩, ?_, ?_⟩ <;> linarith) (by rw [← hS]; linarith) fuel (by rw [← hS]; linarith)
  obtain rfl := Res.ok.inj (hp.2.symm.trans i1)
  simp only [Int.cast_zero, zero_mul, add_zero] at l6
  have l6 := abs_le.1 l6
  unfold ringInsideAnyPad
  rw [l1, Res.bind_ok, disk_layout]
  unfold fixedAngle
  dsimp only
  rw [i2]
  dsimp only
  rw [Res.bind_ok]
  congr 1
  refine (PadAngle.Double.inside_deep (angle_rounded R hu) hM.pads hL hp l.1 l.2).1
    ⟨⟨by linarith [l3.1], by linarith [l3.2]⟩, by linarith [l6.1], by linarith [l6.2]⟩

/-- `isInsidePad` without a pad is true only for points on a pad, or very near to its border. -/
theorem disk_any_pad_only_double (R : Rounded F u) (hu : 0 < u) (ht : Known t) (hM : M.Proper F) (hW : M.Framed u) (hL : M.Has F L)
    {c : ℝ × ℝ} (h0 : t = POLAR → 0 ≤ c.1) {r phi : ℝ} (hr : 0 < r) (he : 2 * M.shift u t c ≤ r) (hq : M.At t r phi c)
    (hs : u * M.angles t c ≤ 1 / 20) (hf : M.angles t c + 1 ≤ fuel)
    (hb : ringInsideAnyPad F (M.module F fuel t L) fuel c.1 c.2 = .ok true) :
    ∃ (row pad k : ℤ), M.pads.IsPad row pad ∧ DeepInPad M.pads (-(rError M.pads u + M.shift u t c))
      (-(phiError M.pads u F.pi + 3 * M.shift u t c / r + 2 * (u * M.angles t c ^ 2))) row pad r (phi + k * (2 * π)) := by
  obtain ⟨l, l1, -, l3, -, -, k, l6⟩ := ring_local (fuel := fuel) R hu ht hM hW hL h0 hr he hq hs hf
  unfold ringInsideAnyPad at hb
  rw [l1, Res.bind_ok, disk_layout] at hb
  unfold fixedAngle at hb
  dsimp only at hb
  obtain ⟨p, h1, h2⟩ := PadAngle.Double.bind_parts hb
  have h1 : PadAngle.Double.getNearestPad F.toArith L fuel l.1 l.2 = some (.ok p) := by
    split at h1
    · rename_i x hx; rw [hx, h1]
    · cases h1
  obtain ⟨row, pad, hp⟩ := PadAngle.Double.nearest_is_pad (angle_rounded R hu) hM.pads hL h1
  obtain ⟨⟨d1, d2⟩, d3, d4⟩ := (PadAngle.Double.inside_deep (angle_rounded R hu) hM.pads hL hp l.1 l.2).2 (Res.ok.inj h2)
  have l3 := abs_le.1 l3
  have l6 := abs_le.1 l6
  exact ⟨row, pad, k, hp.1, ⟨by linarith [l3.2], by linarith [l3.1]⟩, by linarith [l6.2], by linarith [l6.1]⟩

/-- C166 is false for the two queries for pads together: in a Cartesian TPC, on a pad at negative angles, `isInsidePad` is true and
`getNearestPad` gives this pad, but `isInsidePad` with this pad is false. -/
theorem disk_pad_queries_false (R : Rounded F u) (hu : 0 < u) (hM : M.Proper F) (hW : M.Framed u) (hL : M.Has F L)
    {row pad p : ℤ} (hp : IsIndex M.pads L row pad p) (hn : M.pads.phiMin + (pad + 1) * M.pads.dphi + phiError M.pads u F.pi < 0)
    {c : ℝ × ℝ} {r phi : ℝ} (hq : M.At CARTESIAN r phi c)
    (hd : DeepInPad M.pads (rError M.pads u + 2 * M.shift u CARTESIAN c)
      (phiError M.pads u F.pi + 3 * M.shift u CARTESIAN c / r + 25 * u * M.angles CARTESIAN c ^ 2) row pad r phi)
    (hs : u * M.angles CARTESIAN c ≤ 1 / 20) (hf : 2 * M.angles CARTESIAN c + 1 ≤ fuel) :
    ringInsideAnyPad F (M.module F fuel CARTESIAN L) fuel c.1 c.2 = .ok true ∧
      getNearestPad F (M.module F fuel CARTESIAN L) c.1 c.2 = .ok p ∧
      isInsidePad F (M.module F fuel CARTESIAN L) c.1 c.2 p = .ok false := by
  have hT := angles_large (M := M) (t := CARTESIAN) c
  have a1 := abs_nonneg M.pads.phiMin
  have a2 := abs_nonneg M.pads.phiMax
  refine ⟨disk_any_pad_double_partial R hu (Or.inl rfl) hM hW hL hp (fun h => absurd h polar_ne) hq hd hs hf,
    disk_nearest_double_partial R hu (Or.inl rfl) hM hL hp (fun h => absurd h polar_ne) ⟨r, phi, hq, ?_⟩ (by linarith) (by linarith),
    disk_inside_false R hu hM hL hp hn c⟩
  obtain ⟨d1, d3, d4⟩ := hd
  have : 0 ≤ u * M.angles CARTESIAN c ^ 2 := by positivity
  exact ⟨d1, by linarith, by linarith⟩

/-- A TPC with any number of disk modules: `isInsideModule` is true for every point in the ring segment of a module, and only for points
in such a ring segment, except near to the borders. -/
theorem tpc_disk_inside_double_partial (R : Rounded F u) (hu : 0 < u) (ht : Known t) (N : TpcParams.Mod ℝ → MountedDisk)
    (P : TpcParams.Mod ℝ → PadAngle.Layout ℝ) (T : TpcParams.Tpc ℝ) {c : ℝ × ℝ} (h0 : t = POLAR → 0 ≤ c.1)
    (ρ φ : TpcParams.Mod ℝ → ℝ)
    (hN : ∀ y ∈ TpcParams.getModules T, (N y).Covers F fuel t (P y) y ∧ (N y).Proper F ∧ (N y).Framed u ∧ (N y).Has F (P y))
    (hc : ∀ y ∈ TpcParams.getModules T, (N y).At t (ρ y) (φ y) c ∧ 0 < ρ y ∧ 2 * (N y).shift u t c ≤ ρ y ∧
      u * (N y).angles t c ≤ 1 / 20 ∧ (N y).angles t c + 1 ≤ fuel) :
    ∃ b, TpcParams.isInsideModule T c.1 c.2 = .ok b ∧
      ((∃ y ∈ TpcParams.getModules T, ∃ k : ℤ,
        (N y).InArea (-(N y).areaRadius u t c) (-(N y).areaAngle u t c (ρ y)) (ρ y) (φ y + k * (2 * π))) → b = true) ∧
      (b = true → ∃ y ∈ TpcParams.getModules T, ∃ k : ℤ,
        (N y).InArea ((N y).areaRadius u t c) ((N y).areaAngle u t c (ρ y)) (ρ y) (φ y + k * (2 * π))) := by
  refine any_answer (fun m : TpcParams.Mod ℝ => m.isInsideModule c.1 c.2) _ _ _ fun y hy => ?_
  obtain ⟨hC, hM, hW, hL⟩ := hN y hy
  obtain ⟨q1, q2, q3, q4, q5⟩ := hc y hy
  obtain ⟨b, b1, b2, b3⟩ := disk_area_inside_double_partial (fuel := fuel) R hu ht hM hW hL h0 q2 q3 q1 q4 q5
  exact ⟨b, by rw [hC.inside]; exact b1, b2, b3⟩

/-! ### Non-vacuity -/

/-- The ring segment of `TpcDiskDoubleProps.lean` with a border. -/
noncomputable def ringFramed : MountedDisk := ⟨7, 1, [.border (1 / 4), .offset 0 0], ringPads⟩

theorem ringFramed_values : ringFramed.values = ⟨1 / 4, (0, 0), 0, none, 1⟩ := rfl

theorem ringFramed_proper : ringFramed.Proper realDoubles := by
  refine ⟨⟨[.border (1 / 4)], .offset 0 0, [], rfl, trivial, by simp⟩, ?_, ringAt_proper.pads, ringAt_proper.inner, ringAt_proper.span⟩
  intro o ho
  have : o = .border (1 / 4) ∨ o = .offset 0 0 := by simpa [ringFramed] using ho
  rcases this with rfl | rfl
  · trivial
  · exact Doubles.binary64_zero

theorem ringFramed_framed : ringFramed.Framed (1 / 2 ^ 53) := by
  have := Real.pi_gt_three
  refine ⟨?_, Or.inr ?_, Or.inr ?_⟩
  · rw [ringFramed_values]; norm_num
  · norm_num [ringFramed, ringPads]
  · unfold MountedDisk.borderAngle
    rw [ringFramed_values]
    norm_num [ringFramed, ringPads]
    linarith

theorem ringFramed_at (r phi : ℝ) : ringFramed.At CARTESIAN r phi (r * cos phi, r * sin phi) := by
  unfold MountedDisk.At
  rw [plane_cartesian, ringFramed_values]
  unfold onPlate place
  norm_num

theorem ringFramed_shift {r phi : ℝ} (h0 : 0 ≤ r) (h1 : r ≤ 3) : ringFramed.shift (1 / 2 ^ 53) CARTESIAN (r * cos phi, r * sin phi) ≤ 1 / 2 ^ 43 := by
  unfold MountedDisk.shift size
  rw [ringFramed_values, weight_cartesian, weight_cartesian]
  dsimp only
  have a1 : |r * cos phi| ≤ 3 := by
    rw [abs_mul, abs_of_nonneg h0]
    have := mul_le_mul h1 (abs_cos_le_one phi) (abs_nonneg _) (by norm_num)
    linarith
  have a2 : |r * sin phi| ≤ 3 := by
    rw [abs_mul, abs_of_nonneg h0]
    have := mul_le_mul h1 (abs_sin_le_one phi) (abs_nonneg _) (by norm_num)
    linarith
  generalize |r * cos phi| = x at a1 ⊢
  generalize |r * sin phi| = y at a2 ⊢
  norm_num
  linarith

theorem ringFramed_angles (c : ℝ × ℝ) : ringFramed.angles CARTESIAN c = 74 := by
  unfold MountedDisk.angles
  rw [ringFramed_values]
  norm_num [ringFramed, ringPads, CARTESIAN, POLAR]

theorem ringFramed_angle {r phi : ℝ} (h0 : 1 ≤ r) (h1 : r ≤ 3) :
    3 * ringFramed.shift (1 / 2 ^ 53) CARTESIAN (r * cos phi, r * sin phi) / r ≤ 1 / 2 ^ 40 := by
  have := ringFramed_shift (phi := phi) (by linarith : 0 ≤ r) h1
  rw [div_le_iff₀ (by linarith)]
  generalize ringFramed.shift (1 / 2 ^ 53) CARTESIAN (r * cos phi, r * sin phi) = s at *
  norm_num at this ⊢
  linarith

/-- Non-vacuity of `disk_area_inside_double_partial`: a point in the border, beyond the last pads. -/
theorem ringFramed_border {L : PadAngle.Layout ℝ} (hL : ringFramed.Has realDoubles L) :
    ringInsideModule realDoubles (ringFramed.module realDoubles 75 CARTESIAN L) 75 (5 / 2 * cos (9 / 8)) (5 / 2 * sin (9 / 8)) = .ok true := by
  have s1 := ringFramed_shift (r := 5 / 2) (phi := 9 / 8) (by norm_num) (by norm_num)
  have s2 := ringFramed_angle (r := 5 / 2) (phi := 9 / 8) (by norm_num) (by norm_num)
  obtain ⟨b, b1, b2, -⟩ := disk_area_inside_double_partial (fuel := 75) (M := ringFramed) realDoubles_rounded (by norm_num) (Or.inl rfl)
    ringFramed_proper ringFramed_framed hL (fun h => absurd h polar_ne) (r := 5 / 2) (phi := 9 / 8) (by norm_num)
    (by norm_num at s1 ⊢; linarith) (ringFramed_at _ _) (by rw [ringFramed_angles]; norm_num) (by rw [ringFramed_angles]; norm_num)
  rw [b1, b2 ⟨0, ?_⟩]
  unfold MountedDisk.InArea MountedDisk.areaRadius MountedDisk.areaAngle MountedDisk.borderAngle
  rw [ringFramed_angles, ringFramed_values]
  generalize ringFramed.shift (1 / 2 ^ 53) CARTESIAN (5 / 2 * cos (9 / 8), 5 / 2 * sin (9 / 8)) = x at s1 s2 ⊢
  generalize 3 * x / (5 / 2) = y at s2 ⊢
  norm_num [ringFramed, ringPads] at s1 s2 ⊢
  refine ⟨⟨?_, ?_⟩, ?_, ?_⟩ <;> linarith

/-- A point outside of the border. -/
example {L : PadAngle.Layout ℝ} (hL : ringFramed.Has realDoubles L) :
    ringInsideModule realDoubles (ringFramed.module realDoubles 75 CARTESIAN L) 75 (5 / 2 * cos (3 / 2)) (5 / 2 * sin (3 / 2)) = .ok false := by
  have s1 := ringFramed_shift (r := 5 / 2) (phi := 3 / 2) (by norm_num) (by norm_num)
  have s2 := ringFramed_angle (r := 5 / 2) (phi := 3 / 2) (by norm_num) (by norm_num)
  obtain ⟨b, b1, -, b3⟩ := disk_area_inside_double_partial (fuel := 75) (M := ringFramed) realDoubles_rounded (by norm_num) (Or.inl rfl)
    ringFramed_proper ringFramed_framed hL (fun h => absurd h polar_ne) (r := 5 / 2) (phi := 3 / 2) (by norm_num)
    (by norm_num at s1 ⊢; linarith) (ringFramed_at _ _) (by rw [ringFramed_angles]; norm_num) (by rw [ringFramed_angles]; norm_num)
  rw [b1]
  congr 1
  by_contra hb
  obtain ⟨k, -, k1, k2⟩ := b3 (by simpa using hb)
  unfold MountedDisk.areaAngle MountedDisk.borderAngle at k1 k2
  rw [ringFramed_angles, ringFramed_values] at k1 k2
  generalize ringFramed.shift (1 / 2 ^ 53) CARTESIAN (5 / 2 * cos (3 / 2), 5 / 2 * sin (3 / 2)) = x at s1 s2 k1 k2
  generalize 3 * x / (5 / 2) = y at s2 k1 k2
  norm_num [ringFramed, ringPads] at s2 k1 k2
  have hp := Real.pi_gt_three
  rcases le_or_gt 0 k with h | h
  · have h : (0 : ℝ) ≤ k := by exact_mod_cast h
    have := mul_nonneg h (show 0 ≤ 2 * π by linarith)
    linarith
  · have h : (k : ℝ) ≤ -1 := by exact_mod_cast (by omega : k ≤ -1)
    have := mul_le_mul_of_nonneg_right h (show 0 ≤ 2 * π by linarith)
    linarith

/-- Non-vacuity of `disk_any_pad_only_double`: there is no pad in the border. -/
example {L : PadAngle.Layout ℝ} (hL : ringFramed.Has realDoubles L) :
    ringInsideAnyPad realDoubles (ringFramed.module realDoubles 75 CARTESIAN L) 75 (5 / 2 * cos (9 / 8)) (5 / 2 * sin (9 / 8)) ≠ .ok true := by
  intro hb
  have s1 := ringFramed_shift (r := 5 / 2) (phi := 9 / 8) (by norm_num) (by norm_num)
  have s2 := ringFramed_angle (r := 5 / 2) (phi := 9 / 8) (by norm_num) (by norm_num)
  obtain ⟨row, pad, k, ⟨-, g1, g2⟩, -, k1, k2⟩ := disk_any_pad_only_double (fuel := 75) (M := ringFramed) realDoubles_rounded (by norm_num)
    (Or.inl rfl) ringFramed_proper ringFramed_framed hL (c := (5 / 2 * cos (9 / 8), 5 / 2 * sin (9 / 8))) (fun h => absurd h polar_ne)
    (r := 5 / 2) (phi := 9 / 8) (by norm_num) (by norm_num at s1 ⊢; linarith) (ringFramed_at _ _) (by rw [ringFramed_angles]; norm_num)
    (by rw [ringFramed_angles]; norm_num) hb
  rw [ringFramed_angles] at k1 k2
  have hpi := abs_le.1 realDoubles_rounded.pi
  have hp1 := Real.pi_lt_d2
  have hp := Real.pi_gt_three
  have pi4 : realDoubles.pi ≤ 4 := by norm_num at hpi; linarith [hpi.2]
  have pe : phiError ringFramed.pads (1 / 2 ^ 53) realDoubles.pi ≤ 1 / 2 ^ 46 := by
    norm_num [phiError, ringFramed, ringPads]
    linarith
  generalize phiError ringFramed.pads (1 / 2 ^ 53) realDoubles.pi = z at pe k1 k2
  generalize ringFramed.shift (1 / 2 ^ 53) CARTESIAN (5 / 2 * cos (9 / 8), 5 / 2 * sin (9 / 8)) = x at s1 s2 k1 k2
  generalize 3 * x / (5 / 2) = y at s2 k1 k2
  have e2 : ringFramed.pads.dphi = 1 / 2 := by norm_num [ringFramed, ringPads, Args.dphi]
  have e4 : ringFramed.pads.phiMin = -1 := rfl
  have e5 : ringFramed.pads.nPads = 4 := rfl
  rw [e5] at g2
  rw [e2, e4] at k1 k2
  have g1 : (0 : ℝ) ≤ pad := by exact_mod_cast g1
  have g2 : (pad : ℝ) ≤ 3 := by exact_mod_cast (by omega : pad ≤ 3)
  norm_num at s2 pe k1 k2
  rcases le_or_gt 0 k with h | h
  · have h : (0 : ℝ) ≤ k := by exact_mod_cast h
    have := mul_nonneg h (show 0 ≤ 2 * π by linarith)
    linarith
  · have h : (k : ℝ) ≤ -1 := by exact_mod_cast (by omega : k ≤ -1)
    have := mul_le_mul_of_nonneg_right h (show 0 ≤ 2 * π by linarith)
    linarith

/-- Non-vacuity of `disk_pad_queries_false`: the middle of the first pad of the second row, at the angle -3/4. -/
example {L : PadAngle.Layout ℝ} (hL : ringFramed.Has realDoubles L) :
    ringInsideAnyPad realDoubles (ringFramed.module realDoubles 149 CARTESIAN L) 149 (5 / 2 * cos (-3 / 4)) (5 / 2 * sin (-3 / 4)) = .ok true ∧
      getNearestPad realDoubles (ringFramed.module realDoubles 149 CARTESIAN L) (5 / 2 * cos (-3 / 4)) (5 / 2 * sin (-3 / 4)) = .ok 65536 ∧
      isInsidePad realDoubles (ringFramed.module realDoubles 149 CARTESIAN L) (5 / 2 * cos (-3 / 4)) (5 / 2 * sin (-3 / 4)) 65536 = .ok false := by
  have hp : IsIndex ringPads L 1 0 65536 := by
    obtain rfl := Res.ok.inj hL
    exact ⟨by norm_num [ringPads, Args.IsPad], rfl⟩
  have hpi := abs_le.1 realDoubles_rounded.pi
  have hp1 := Real.pi_lt_d2
  have pi4 : realDoubles.pi ≤ 4 := by norm_num at hpi; linarith [hpi.2]
  have s1 := ringFramed_shift (r := 5 / 2) (phi := -3 / 4) (by norm_num) (by norm_num)
  have s2 := ringFramed_angle (r := 5 / 2) (phi := -3 / 4) (by norm_num) (by norm_num)
  refine disk_pad_queries_false (M := ringFramed) realDoubles_rounded (by norm_num) ringFramed_proper ringFramed_framed hL hp ?_
    (ringFramed_at (5 / 2) (-3 / 4)) ?_ (by rw [ringFramed_angles]; norm_num) (by rw [ringFramed_angles]; norm_num)
  · norm_num [ringFramed, ringPads, phiError, Args.dphi]
    linarith
  · rw [ringFramed_angles]
    generalize ringFramed.shift (1 / 2 ^ 53) CARTESIAN (5 / 2 * cos (-3 / 4), 5 / 2 * sin (-3 / 4)) = x at s1 s2 ⊢
    generalize 3 * x / (5 / 2) = y at s2 ⊢
    have pe : phiError ringFramed.pads (1 / 2 ^ 53) realDoubles.pi ≤ 1 / 2 ^ 46 := by
      norm_num [phiError, ringFramed, ringPads]
      linarith
    have re : rError ringFramed.pads (1 / 2 ^ 53) ≤ 1 / 2 ^ 46 := by norm_num [rError, ringFramed, ringPads]
    generalize phiError ringFramed.pads (1 / 2 ^ 53) realDoubles.pi = z at pe ⊢
    generalize rError ringFramed.pads (1 / 2 ^ 53) = w at re ⊢
    have e1 : ringFramed.pads.dr = 1 := by norm_num [ringFramed, ringPads, Args.dr]
    have e2 : ringFramed.pads.dphi = 1 / 2 := by norm_num [ringFramed, ringPads, Args.dphi]
    have e3 : ringFramed.pads.rMin = 1 := rfl
    have e4 : ringFramed.pads.phiMin = -1 := rfl
    unfold DeepInPad
    rw [e1, e2, e3, e4]
    norm_num at s1 s2 re pe ⊢
    refine ⟨⟨?_, ?_⟩, ?_⟩ <;> linarith

/-- A module of a TPC with this ring segment. -/
noncomputable def ringMod (L : PadAngle.Layout ℝ) : TpcParams.Mod ℝ where
  id := 7
  tpcCoordinateType := CARTESIAN
  z := none
  moduleExtent := ⟨0, 0, 0, 0⟩
  angle := 0
  offset := (0, 0)
  readoutFrequency := 1
  getDistanceToModule := fun _ _ => .ok 0
  isInsideModule := ringInsideModule realDoubles (ringFramed.module realDoubles 75 CARTESIAN L) 75
  isInsidePad := ringInsideAnyPad realDoubles (ringFramed.module realDoubles 75 CARTESIAN L) 75
  getNearestPad := getNearestPad realDoubles (ringFramed.module realDoubles 75 CARTESIAN L)
  getDistanceToPad := getDistanceToPad realDoubles (ringFramed.module realDoubles 75 CARTESIAN L)

/-- Non-vacuity of `tpc_disk_inside_double_partial`: a TPC with this module. -/
example {L : PadAngle.Layout ℝ} (hL : ringFramed.Has realDoubles L) :
    TpcParams.isInsideModule { TpcParams.new 10 CARTESIAN with modules := [ringMod L] } (5 / 2 * cos (9 / 8)) (5 / 2 * sin (9 / 8)) =
      .ok true := by
  have s1 := ringFramed_shift (r := 5 / 2) (phi := 9 / 8) (by norm_num) (by norm_num)
  have s2 := ringFramed_angle (r := 5 / 2) (phi := 9 / 8) (by norm_num) (by norm_num)
  have hm : TpcParams.getModules { TpcParams.new 10 CARTESIAN with modules := [ringMod L] } = [ringMod L] := rfl
  obtain ⟨b, b1, b2, -⟩ := tpc_disk_inside_double_partial (fuel := 75) realDoubles_rounded (by norm_num) (Or.inl rfl) (fun _ => ringFramed)
    (fun _ => L) { TpcParams.new 10 CARTESIAN with modules := [ringMod L] } (c := (5 / 2 * cos (9 / 8), 5 / 2 * sin (9 / 8)))
    (fun h => absurd h polar_ne) (fun _ => 5 / 2) (fun _ => 9 / 8)
    (by
      intro y hy
      obtain rfl : y = ringMod L := by rw [hm] at hy; simpa using hy
      exact ⟨⟨fun _ _ => rfl, fun _ _ => rfl⟩, ringFramed_proper, ringFramed_framed, hL⟩)
    (by
      intro y _
      refine ⟨ringFramed_at _ _, by norm_num, by norm_num at s1 ⊢; linarith, ?_, ?_⟩ <;> rw [ringFramed_angles] <;> norm_num)
  rw [b1, b2 ⟨ringMod L, by rw [hm]; simp, 0, ?_⟩]
  unfold MountedDisk.InArea MountedDisk.areaRadius MountedDisk.areaAngle MountedDisk.borderAngle
  rw [ringFramed_angles, ringFramed_values]
  generalize ringFramed.shift (1 / 2 ^ 53) CARTESIAN (5 / 2 * cos (9 / 8), 5 / 2 * sin (9 / 8)) = x at s1 s2 ⊢
  generalize 3 * x / (5 / 2) = y at s2 ⊢
  norm_num [ringFramed, ringPads] at s1 s2 ⊢
  refine ⟨⟨?_, ?_⟩, ?_, ?_⟩ <;> linarith

end Gear.TpcModule.Double
