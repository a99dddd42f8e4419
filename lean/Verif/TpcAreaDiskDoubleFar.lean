/-
Distances from the disk modules of a TPC in `double` arithmetic (C167).
-/
import Verif.TpcAreaDiskDoubleProps
import Verif.TpcDiskDoubleFar

set_option autoImplicit false
set_option linter.unusedSectionVars false

namespace Gear.TpcModule.Double

open Real
open TpcModule.Spec (Known plane place Op Values values Settled)
open PadAngle.Spec (Args IsIndex)
open Disk.Spec (keystone point dist2 distancesTo)
open Spec

/-! ### Specification -/

namespace Spec

namespace MountedDisk

/-- The distances of the point `c` from the points of the placed ring segment of the layout and the border around it. -/
noncomputable def areaDistances (t : ℤ) (M : MountedDisk) (c : ℝ × ℝ) : Set ℝ :=
  (fun q => far (plane t c) (onPlate t M.values q)) ''
    keystone (max 0 (M.pads.rMin - M.values.border)) (M.pads.rMax + M.values.border)
      (M.pads.phiMin - M.borderAngle) (M.pads.phiMax + M.borderAngle)

/-- The errors of a position at radius `r` and of the borders of the area. -/
noncomputable def areaMargin (u : ℝ) (t : ℤ) (M : MountedDisk) (c : ℝ × ℝ) (r : ℝ) : ℝ :=
  4 * M.shift u t c + u * (|M.pads.rMin| + |M.pads.rMax| + M.values.border) +
    2 * u * M.angles t c ^ 2 * (r + M.pads.rMax + M.values.border)

/-- How large the radii are. -/
noncomputable def areaRadii (M : MountedDisk) (r : ℝ) : ℝ := 2 * (r + M.pads.rMax + M.values.border)

/-- The angle is not near to the angle where the area begins, and in the turn after that. -/
def Clear (u : ℝ) (t : ℤ) (M : MountedDisk) (c : ℝ × ℝ) (r phi : ℝ) : Prop :=
  M.pads.phiMin - M.borderAngle + M.areaAngle u t c r ≤ phi ∧ phi ≤ M.pads.phiMin - M.borderAngle + 2 * π - M.areaAngle u t c r

/-- The distance `d` is large compared with the rounding of squares. -/
def AreaLarge (u : ℝ) (t : ℤ) (M : MountedDisk) (c : ℝ × ℝ) (r d : ℝ) : Prop :=
  2 * M.areaMargin u t c r ≤ d ∧ 400 * u * M.areaRadii r ^ 2 ≤ d ^ 2

end MountedDisk

end Spec

variable {F : Arith ℝ} {u : ℝ} {t : ℤ} {fuel : ℕ} {M : MountedDisk} {L : PadAngle.Layout ℝ}

/-! ### Lemmas -/

/-- The distance is that of `FixedDiskLayoutBase`, with the extent of the module. -/
theorem ringDistance_eq (m : Module ℝ) {c l : ℝ × ℝ} (h : ringLocal F m fuel c.1 c.2 = .ok l) (h1 : (ringExtent F m).e0 ≤ (ringExtent F m).e1) :
    ringDistance F m fuel c.1 c.2 = match Disk.Double.keystoneDistance F.toArith l.1 l.2 (ringExtent F m).e0 (ringExtent F m).e1
      (ringExtent F m).e2 (ringExtent F m).e3 with | some d => .ok d | none => .ub := by
  unfold ringDistance Disk.Double.keystoneDistance
  rw [h, Res.bind_ok]
  dsimp only
  generalize ringExtent F m = e at *
  by_cases hp : l.2 ≥ e.e2 ∧ l.2 ≤ e.e3
  · rw [if_pos hp, if_pos hp]
    by_cases a : l.1 < e.e0
    · rw [if_pos a, if_neg (fun h => absurd h.1 (not_le.2 a)), if_pos a]; rfl
    · rw [if_neg a]
      by_cases b : l.1 ≤ e.e1
      · rw [if_pos b, if_pos ⟨not_lt.1 a, b⟩]; rfl
      · rw [if_neg b, if_neg (fun h => b h.2), if_neg a]; rfl
  · rw [if_neg hp, if_neg hp]
    cases Disk.Double.smaller (Disk.Double.edgeDistance F.toArith l.1 l.2 e.e0 e.e1 e.e2)
      (Disk.Double.edgeDistance F.toArith l.1 l.2 e.e0 e.e1 e.e3) <;> rfl

/-- The local coordinates of a point that is not near to the angle where the area begins. -/
theorem ring_clear (R : Rounded F u) (hu : 0 < u) (ht : Known t) (hM : M.Proper F) (hW : M.Framed u) (hL : M.Has F L) {c : ℝ × ℝ}
    (h0 : t = POLAR → 0 ≤ c.1) {r phi : ℝ} (hr : 0 < r) (he : 2 * M.shift u t c ≤ r) (hq : M.At t r phi c)
    (hs : u * M.angles t c ≤ 1 / 20) (hf : M.angles t c + 1 ≤ fuel) (hc : M.Clear u t c r phi) :
    ∃ l, ringLocal F (M.module F fuel t L) fuel c.1 c.2 = .ok l ∧ 0 ≤ l.1 ∧ |l.1 - r| ≤ M.shift u t c ∧
      (ringExtent F (M.module F fuel t L)).e3 - 2 * π ≤ l.2 ∧ l.2 ≤ (ringExtent F (M.module F fuel t L)).e2 + 2 * π ∧
      |l.2 - phi| ≤ 3 * M.shift u t c / r + 2 * (u * M.angles t c ^ 2) ∧
      3 * u * (|M.pads.phiMin| + 4) ≤ u * M.angles t c ^ 2 / 20 ∧ 3 * u * (|M.pads.phiMax| + 4) ≤ u * M.angles t c ^ 2 / 20 := by
  obtain ⟨l, l1, l2, l3, l4, l5, k, l6⟩ := ring_local (fuel := fuel) R hu ht hM hW hL h0 hr he hq hs hf
  obtain ⟨-, -, -, x2, x3, x4, x5⟩ := ring_extent_near (fuel := fuel) (t := t) R hu hM hW hL
  have hT := angles_large (M := M) (t := t) c
  have a1 := abs_nonneg M.pads.phiMin
  have a2 := abs_nonneg M.pads.phiMax
  obtain ⟨c1, c2⟩ := hc
  unfold MountedDisk.areaAngle at c1 c2
  obtain ⟨T, hTT⟩ : ∃ T, T = M.angles t c := ⟨_, rfl⟩
  rw [← hTT] at hT l4 l5 l6 c1 c2 ⊢
  have w1 : 70 * (u * (|M.pads.phiMin| + 4)) ≤ u * T ^ 2 := by
    have h1 : u * (|M.pads.phiMin| + 4) ≤ u * T := mul_le_mul_of_nonneg_left (by linarith) hu.le
    have : u * T ^ 2 = T * (u * T) := by ring
    rw [this]
    exact mul_le_mul (by linarith) h1 (by positivity) (by linarith)
  have w2 : 70 * (u * (|M.pads.phiMax| + 4)) ≤ u * T ^ 2 := by
    have h1 : u * (|M.pads.phiMax| + 4) ≤ u * T := mul_le_mul_of_nonneg_left (by linarith) hu.le
    have : u * T ^ 2 = T * (u * T) := by ring
    rw [this]
    exact mul_le_mul (by linarith) h1 (by positivity) (by linarith)
  have w3 : 0 ≤ u * |M.pads.phiMin| := by positivity
  have w4 : 0 ≤ u * |M.pads.phiMax| := by positivity
  obtain ⟨E, hE⟩ : ∃ E, E = 3 * M.shift u t c / r := ⟨_, rfl⟩
  rw [← hE] at l6 c1 c2 ⊢
  have hB := borderAngle_nonneg hM hW
  have x2 := abs_le.1 x2
  have x3 := abs_le.1 x3
  have hk : k = 0 := same_turn (lo := (ringExtent F (M.module F fuel t L)).e2) (d := u * T ^ 2) l6 l4 l5 (by linarith [x2.2])
    (by linarith [x2.1])
  rw [hk] at l6
  simp only [Int.cast_zero, zero_mul, add_zero] at l6
  have l6' := abs_le.1 l6
  exact ⟨l, l1, l2, l3, by linarith [x3.2, l6'.1], by linarith [x2.1, l6'.2], l6, by linarith, by linarith⟩

/-! ### C167 -/

/-- `getDistanceToModule` is the smallest distance from the placed ring segment of the layout and its border, up to rounding, for points
that are away from it. -/
theorem disk_area_far_double_partial (R : Rounded F u) (hu : 0 < u) (N : Nearest F) (ht : Known t) (hM : M.Proper F) (hW : M.Framed u)
    (hL : M.Has F L) {c : ℝ × ℝ} (h0 : t = POLAR → 0 ≤ c.1) {r phi : ℝ} (hr : 0 < r) (he : 2 * M.shift u t c ≤ r) (hq : M.At t r phi c)
    (hs : u * M.angles t c ≤ 1 / 20) (hf : M.angles t c + 1 ≤ fuel) (hc : M.Clear u t c r phi) {d : ℝ}
    (hd : IsLeast (M.areaDistances t c) d) (h : M.AreaLarge u t c r d) (hd0 : 0 < d) :
    ∃ D, ringDistance F (M.module F fuel t L) fuel c.1 c.2 = .ok D ∧
      |D - d| ≤ M.areaMargin u t c r + 50 * u * M.areaRadii r ^ 2 / d := by
  obtain ⟨l, l1, l2, l3, l4, l5, l6, w1, w2⟩ := ring_clear (fuel := fuel) R hu ht hM hW hL h0 hr he hq hs hf hc
  obtain ⟨⟨m0, m1, m2⟩, ⟨x0, x0'⟩, x1, x2, x3, -, -⟩ := ring_extent_near (fuel := fuel) (t := t) R hu hM hW hL
  rw [ringDistance_eq _ l1 m1, same_distance N]
  obtain ⟨T, hTT⟩ : ∃ T, T = u * M.angles t c ^ 2 := ⟨_, rfl⟩
  have hT0 : 0 ≤ T := by rw [hTT]; positivity
  have hB := borderAngle_nonneg hM hW
  have hb := hW.border
  have hin := hM.inner
  have hrr := hM.pads.r
  have hpp := hM.pads.phi
  have sh := shift_nonneg (M := M) (t := t) R c
  obtain ⟨Q, hQ⟩ : ∃ Q, Q = u * (|M.pads.rMin| + |M.pads.rMax| + M.values.border) := ⟨_, rfl⟩
  have hQ1 : Q ≤ (M.pads.rMax + M.values.border) / 10 := by
    rw [hQ, abs_of_nonneg hin, abs_of_pos (by linarith)]
    have := mul_le_mul R.small (show M.pads.rMin + M.pads.rMax + M.values.border ≤ 2 * (M.pads.rMax + M.values.border) by linarith)
      (by linarith) (by norm_num)
    linarith
  have mar : M.areaMargin u t c r = 4 * M.shift u t c + Q + 2 * T * (r + M.pads.rMax + M.values.border) := by
    unfold MountedDisk.areaMargin
    rw [hQ, hTT]
    ring
  rw [← hQ] at x0 x0' x1
  rw [← hTT] at l6 w1 w2
  have y2 := x2.trans w1
  have y3 := x3.trans w2
  generalize ringExtent F (M.module F fuel t L) = e at *
  have hleast := Disk.keystoneDistance_isLeast (phi := l.2) l2 m0 m1 m2 l4 l5
  generalize Disk.keystoneDistance Disk.realFns l.1 l.2 e.e0 e.e1 e.e2 e.e3 = d' at hleast
  have hQ0 : 0 ≤ Q := by rw [hQ]; positivity
  have y0 : |e.e0 - max 0 (M.pads.rMin - M.values.border)| ≤ Q := by
    rw [abs_le]
    constructor
    · rcases le_total 0 (M.pads.rMin - M.values.border) with g | g
      · rw [max_eq_right g]; linarith
      · rw [max_eq_left g]; linarith
    · have g1 := le_max_left 0 (M.pads.rMin - M.values.border)
      have g2 := le_max_right 0 (M.pads.rMin - M.values.border)
      have := x0 (max 0 (M.pads.rMin - M.values.border) + Q) (by linarith) (by linarith)
      linarith
  have x1' := abs_le.1 x1
  have r1b : e.e1 ≤ 2 * (M.pads.rMax + M.values.border) := by linarith [x1'.2]
  -- positions
  have hl : far (point l.1 l.2) (point r phi) ≤ 4 * M.shift u t c + 2 * T * r := by
    refine (point_near hr.le).trans ?_
    have h1 := mul_le_mul_of_nonneg_left l6 hr.le
    have h2 : r * (3 * M.shift u t c / r + 2 * T) = 3 * M.shift u t c + 2 * T * r := by field_simp
    linarith
  have hfar : ∀ g, far (plane t c) (onPlate t M.values g) = far (point r phi) g := by
    intro g
    unfold MountedDisk.At at hq
    rw [hq, far_eq, far_eq]
    exact place_far _ _ _ _ _
  have near : |d' - d| ≤ M.areaMargin u t c r := by
    rw [mar, abs_le]
    obtain ⟨⟨g', hg', e1⟩, least'⟩ := hleast
    obtain ⟨⟨g, hg, e2⟩, least⟩ := hd
    have e2 : d = far (point r phi) g := by rw [← e2]; exact hfar g
    have hmax : max 0 (M.pads.rMin - M.values.border) ≤ M.pads.rMax + M.values.border := max_le (by linarith) (by linarith)
    constructor
    · obtain ⟨k, k1, k2⟩ := keystone_near ((abs_sub_comm _ _).trans_le y0) ((abs_sub_comm _ _).trans_le x1)
        hmax ((abs_sub_comm _ _).trans_le y2) ((abs_sub_comm _ _).trans_le y3) (by linarith) m0 hg'
      have h1 := least (Set.mem_image_of_mem _ k1)
      have h1 : d ≤ far (point r phi) k := by rw [← hfar]; exact h1
      have t1 := far_tri (point r phi) (point l.1 l.2) k
      have t2 := far_tri (point l.1 l.2) g' k
      rw [far_comm (point r phi) (point l.1 l.2)] at t1
      rw [far_comm g' k] at t2
      rw [dist2_far] at e1
      have := mul_le_mul_of_nonneg_right r1b (show 0 ≤ T / 20 by linarith)
      have := mul_nonneg hT0 (show 0 ≤ M.pads.rMax + M.values.border by linarith)
      linarith
    · obtain ⟨k, k1, k2⟩ := keystone_near y0 x1 m1 y2 y3 m2 (le_max_left _ _) hg
      have h1 := least' ⟨k, k1, rfl⟩
      rw [dist2_far] at h1
      have t1 := far_tri (point l.1 l.2) (point r phi) k
      have t2 := far_tri (point r phi) g k
      rw [far_comm g k] at t2
      have := mul_nonneg hT0 (show 0 ≤ M.pads.rMax + M.values.border by linarith)
      linarith
  obtain ⟨L1, L2⟩ := h
  have near' := abs_le.1 near
  have hd' : d / 2 ≤ d' := by linarith [near'.1]
  have l3' := abs_le.1 l3
  have hWW : l.1 + e.e1 ≤ M.areaRadii r := by
    unfold MountedDisk.areaRadii
    linarith [l3'.2]
  have hW0 : 0 ≤ l.1 + e.e1 := by linarith
  have hW2 : u * (l.1 + e.e1) ^ 2 ≤ u * M.areaRadii r ^ 2 := mul_le_mul_of_nonneg_left (pow_le_pow_left₀ hW0 hWW 2) hu.le
  have hdd : (d / 2) ^ 2 ≤ d' ^ 2 := pow_le_pow_left₀ (by linarith) hd' 2
  obtain ⟨D, D1, D2⟩ := Disk.Double.keystone_double (exactFns_rounded R) l2 m0 m1 m2 l4 l5 hleast (by linarith) (by
      have : (d / 2) ^ 2 = d ^ 2 / 4 := by ring
      linarith)
  refine ⟨D, by rw [D1], ?_⟩
  have fin : 25 * u * (l.1 + e.e1) ^ 2 / d' ≤ 50 * u * M.areaRadii r ^ 2 / d := by
    rw [div_le_div_iff₀ (by linarith) hd0]
    have h1 : 25 * u * (l.1 + e.e1) ^ 2 * d ≤ 25 * (u * M.areaRadii r ^ 2) * d :=
      mul_le_mul_of_nonneg_right (by linarith) hd0.le
    have h2 : 25 * (u * M.areaRadii r ^ 2) * d ≤ 25 * (u * M.areaRadii r ^ 2) * (2 * d') :=
      mul_le_mul_of_nonneg_left (by linarith) (by positivity)
    linarith
  have := abs_sub_le D d' d
  linarith

/-- `getDistanceToModule` is 0 for points in the area, not near to its border. -/
theorem disk_area_within_double (R : Rounded F u) (hu : 0 < u) (ht : Known t) (hM : M.Proper F) (hW : M.Framed u) (hL : M.Has F L)
    {c : ℝ × ℝ} (h0 : t = POLAR → 0 ≤ c.1) {r phi : ℝ} (hr : 0 < r) (he : 2 * M.shift u t c ≤ r) (hq : M.At t r phi c)
    (hs : u * M.angles t c ≤ 1 / 20) (hf : M.angles t c + 1 ≤ fuel)
    (hd : M.InArea (-M.areaRadius u t c) (-M.areaAngle u t c r) r phi) :
    ringDistance F (M.module F fuel t L) fuel c.1 c.2 = .ok 0 := by
  obtain ⟨b, b1, b2, -⟩ := disk_area_inside_double_partial (fuel := fuel) R hu ht hM hW hL h0 hr he hq hs hf
  have b2 := b2 ⟨0, by simpa using hd⟩
  obtain ⟨l, l1, -⟩ := ring_local (fuel := fuel) R hu ht hM hW hL h0 hr he hq hs hf
  obtain ⟨⟨-, m1, -⟩, -⟩ := ring_extent_near (fuel := fuel) (t := t) R hu hM hW hL
  unfold ringInsideModule at b1
  rw [l1, Res.bind_ok] at b1
  have b1 := Res.ok.inj b1
  rw [b2, decide_eq_true_iff] at b1
  rw [ringDistance_eq _ l1 m1]
  unfold Disk.Double.keystoneDistance
  rw [if_pos b1.2.2, if_pos ⟨b1.1, b1.2.1⟩]

/-- Both cases together: the distance is right up to rounding for points in the area, not near to its edge, and for points away from it. -/
theorem ring_near (R : Rounded F u) (hu : 0 < u) (H : Nearest F) (ht : Known t) (hM : M.Proper F) (hW : M.Framed u) (hL : M.Has F L)
    {c : ℝ × ℝ} (h0 : t = POLAR → 0 ≤ c.1) {r phi d : ℝ} (hr : 0 < r) (he : 2 * M.shift u t c ≤ r) (hq : M.At t r phi c)
    (hs : u * M.angles t c ≤ 1 / 20) (hf : M.angles t c + 1 ≤ fuel) (hd : IsLeast (M.areaDistances t c) d)
    (hw : M.InArea (-M.areaRadius u t c) (-M.areaAngle u t c r) r phi ∨ M.Clear u t c r phi ∧ M.AreaLarge u t c r d ∧ 0 < d) :
    ∃ D, ringDistance F (M.module F fuel t L) fuel c.1 c.2 = .ok D ∧ |D - d| ≤ M.areaMargin u t c r + 50 * u * M.areaRadii r ^ 2 / d := by
  rcases hw with hi | ⟨w1, w2, w3⟩
  · refine ⟨0, disk_area_within_double R hu ht hM hW hL h0 hr he hq hs hf hi, ?_⟩
    have sh := shift_nonneg (M := M) (t := t) R c
    have hb := hW.border
    have hin := hM.inner
    have hrr := hM.pads.r
    have hr' : 0 ≤ M.areaRadius u t c := by unfold MountedDisk.areaRadius; positivity
    have ha : 0 ≤ M.areaAngle u t c r := by unfold MountedDisk.areaAngle; positivity
    have hz : d = 0 := by
      refine le_antisymm ?_ ?_
      · obtain ⟨⟨i1, i2⟩, i3, i4⟩ := hi
        refine hd.2 ⟨point r phi, ⟨r, phi, max_le hr.le (by linarith), by linarith, by linarith, by linarith, rfl⟩, ?_⟩
        show far (plane t c) (onPlate t M.values (r * cos phi, r * sin phi)) = 0
        have : plane t c = _ := hq
        rw [← this]
        unfold far
        simp
      · obtain ⟨g, -, e⟩ := hd.1
        rw [← e]
        exact Real.sqrt_nonneg _
    rw [hz, sub_zero, abs_zero, div_zero, add_zero]
    unfold MountedDisk.areaMargin
    have h1 : 0 ≤ r + M.pads.rMax + M.values.border := by linarith
    positivity
  · exact disk_area_far_double_partial (fuel := fuel) R hu H ht hM hW hL h0 hr he hq hs hf w1 hd w2 w3

/-- Where distances of all modules are right up to `ε`, `getNearestModule` gives a module that is the nearest one up to `ε`. -/
theorem nearest_of_near (T : TpcParams.Tpc ℝ) (h0 : TpcParams.getModules T ≠ []) (c : ℝ × ℝ) (δ ε : TpcParams.Mod ℝ → ℝ)
    (key : ∀ y ∈ TpcParams.getModules T, ∃ D, y.getDistanceToModule c.1 c.2 = .ok D ∧ |D - δ y| ≤ ε y) :
    ∃ x ∈ TpcParams.getModules T, TpcParams.getNearestModule T c.1 c.2 = .ok x ∧
      ∀ y ∈ TpcParams.getModules T, δ x ≤ δ y + ε x + ε y := by
  obtain ⟨x, hx⟩ := (TpcParams.getNearestModule_ok_iff T c.1 c.2).1.2 ⟨h0, fun y hy => (key y hy).imp fun D h => h.1⟩
  obtain ⟨pre, post, v, e1, e2, e3, e4⟩ := TpcParams.getNearestModule_first_least T c.1 c.2 x hx
  have hmem : x ∈ TpcParams.getModules T := by rw [e1]; simp
  refine ⟨x, hmem, hx, fun y hy => ?_⟩
  obtain ⟨D, k1, k3⟩ := key x hmem
  obtain ⟨D', l1, l3⟩ := key y hy
  have hD : D = v := Res.ok.inj (k1.symm.trans e2)
  have hle : v ≤ D' := by
    rw [e1] at hy
    rcases List.mem_append.1 hy with h | h
    · obtain ⟨v', a, b⟩ := e3 y h
      have := Res.ok.inj (l1.symm.trans a)
      linarith
    · rcases List.mem_cons.1 h with rfl | h
      · have := Res.ok.inj (l1.symm.trans e2)
        linarith
      · obtain ⟨v', a, b⟩ := e4 y h
        have := Res.ok.inj (l1.symm.trans a)
        linarith
  rw [_root_.abs_le] at k3 l3
  linarith [k3.1, k3.2, l3.1, l3.2]

/-- A TPC with any number of disk modules: `getNearestModule` gives a module of the TPC, and no other module is nearer, up to rounding, for
points that are in the area of a module or away from it. -/
theorem tpc_disk_nearest_module_double_partial (R : Rounded F u) (hu : 0 < u) (H : Nearest F) (ht : Known t)
    (N : TpcParams.Mod ℝ → MountedDisk) (P : TpcParams.Mod ℝ → PadAngle.Layout ℝ) (T : TpcParams.Tpc ℝ)
    (hT : TpcParams.getModules T ≠ []) {c : ℝ × ℝ} (h0 : t = POLAR → 0 ≤ c.1) (ρ φ δ : TpcParams.Mod ℝ → ℝ)
    (hN : ∀ y ∈ TpcParams.getModules T, (∀ a b, y.getDistanceToModule a b = ringDistance F ((N y).module F fuel t (P y)) fuel a b) ∧
      (N y).Proper F ∧ (N y).Framed u ∧ (N y).Has F (P y))
    (hc : ∀ y ∈ TpcParams.getModules T, (N y).At t (ρ y) (φ y) c ∧ 0 < ρ y ∧ 2 * (N y).shift u t c ≤ ρ y ∧
      u * (N y).angles t c ≤ 1 / 20 ∧ (N y).angles t c + 1 ≤ fuel)
    (hδ : ∀ y ∈ TpcParams.getModules T, IsLeast ((N y).areaDistances t c) (δ y))
    (hw : ∀ y ∈ TpcParams.getModules T, (N y).InArea (-(N y).areaRadius u t c) (-(N y).areaAngle u t c (ρ y)) (ρ y) (φ y) ∨
      (N y).Clear u t c (ρ y) (φ y) ∧ (N y).AreaLarge u t c (ρ y) (δ y) ∧ 0 < δ y) :
    ∃ x ∈ TpcParams.getModules T, TpcParams.getNearestModule T c.1 c.2 = .ok x ∧
      ∀ y ∈ TpcParams.getModules T, δ x ≤ δ y +
        ((N x).areaMargin u t c (ρ x) + 50 * u * (N x).areaRadii (ρ x) ^ 2 / δ x) +
        ((N y).areaMargin u t c (ρ y) + 50 * u * (N y).areaRadii (ρ y) ^ 2 / δ y) := by
  refine nearest_of_near T hT c δ (fun y => (N y).areaMargin u t c (ρ y) + 50 * u * (N y).areaRadii (ρ y) ^ 2 / δ y) fun y hy => ?_
  obtain ⟨hC, hM, hW, hL⟩ := hN y hy
  obtain ⟨q1, q2, q3, q4, q5⟩ := hc y hy
  rw [hC]
  exact ring_near R hu H ht hM hW hL h0 q2 q3 q1 q4 q5 (hδ y hy) (hw y hy)

/-! ### Non-vacuity -/

/-- The point at radius 10 and angle 0 is 27/4 away from the ring segment with its border. -/
theorem ringFramed_least : IsLeast (ringFramed.areaDistances CARTESIAN (10 * cos 0, 10 * sin 0)) (27 / 4) := by
  have hp := Real.pi_gt_three
  have h := Disk.keystoneDistance_isLeast (r := 10) (phi := 0) (rMin := 3 / 4) (rMax := 13 / 4) (phiMin := -5 / 4) (phiMax := 5 / 4)
    (by norm_num) (by norm_num) (by norm_num) (by norm_num) (by linarith) (by linarith)
  have e : Disk.keystoneDistance Disk.realFns 10 0 (3 / 4) (13 / 4) (-5 / 4) (5 / 4) = 27 / 4 := by
    unfold Disk.keystoneDistance
    norm_num
  rw [e] at h
  have hk : keystone (max 0 (ringFramed.pads.rMin - ringFramed.values.border)) (ringFramed.pads.rMax + ringFramed.values.border)
      (ringFramed.pads.phiMin - ringFramed.borderAngle) (ringFramed.pads.phiMax + ringFramed.borderAngle) =
      keystone (3 / 4) (13 / 4) (-5 / 4) (5 / 4) := by
    unfold MountedDisk.borderAngle
    rw [ringFramed_values]
    norm_num [ringFramed, ringPads]
  have hf : ∀ g, far (plane CARTESIAN (10 * cos 0, 10 * sin 0)) (onPlate CARTESIAN ringFramed.values g) = dist2 (point 10 0) g := by
    intro g
    have := ringFramed_at 10 0
    unfold MountedDisk.At at this
    rw [this, dist2_far, far_eq, far_eq]
    exact place_far _ _ _ _ _
  unfold MountedDisk.areaDistances
  rw [hk]
  obtain ⟨⟨g, g1, g2⟩, h2⟩ := h
  refine ⟨⟨g, g1, ?_⟩, ?_⟩
  · rw [g2]; exact hf g
  · rintro x ⟨q, q1, rfl⟩
    exact h2 ⟨q, q1, hf q⟩

/-- Non-vacuity of `disk_area_far_double_partial`: the distance of this point. -/
example {L : PadAngle.Layout ℝ} (hL : ringFramed.Has realDoubles L) :
    ∃ D, ringDistance realDoubles (ringFramed.module realDoubles 75 CARTESIAN L) 75 (10 * cos 0) (10 * sin 0) = .ok D ∧
      |D - 27 / 4| ≤ 1 / 2 ^ 30 := by
  have hp := Real.pi_gt_three
  have s1 : ringFramed.shift (1 / 2 ^ 53) CARTESIAN (10 * cos 0, 10 * sin 0) ≤ 1 / 2 ^ 43 := by
    unfold MountedDisk.shift size
    rw [ringFramed_values, weight_cartesian, weight_cartesian]
    norm_num
  have s0 : 0 ≤ ringFramed.shift (1 / 2 ^ 53) CARTESIAN (10 * cos 0, 10 * sin 0) := shift_nonneg realDoubles_rounded _
  have m : ringFramed.areaMargin (1 / 2 ^ 53) CARTESIAN (10 * cos 0, 10 * sin 0) 10 ≤ 1 / 2 ^ 33 := by
    unfold MountedDisk.areaMargin
    rw [ringFramed_angles, ringFramed_values]
    generalize ringFramed.shift (1 / 2 ^ 53) CARTESIAN (10 * cos 0, 10 * sin 0) = s at *
    norm_num [ringFramed, ringPads] at s1 ⊢
    linarith
  have w : ringFramed.areaRadii 10 = 53 / 2 := by
    unfold MountedDisk.areaRadii
    rw [ringFramed_values]
    norm_num [ringFramed, ringPads]
  obtain ⟨D, D1, D2⟩ := disk_area_far_double_partial (fuel := 75) (M := ringFramed) realDoubles_rounded (by norm_num) realDoubles_nearest
    (Or.inl rfl) ringFramed_proper ringFramed_framed hL (fun h => absurd h polar_ne) (r := 10) (phi := 0) (by norm_num)
    (by norm_num at s1 ⊢; linarith) (ringFramed_at _ _) (by rw [ringFramed_angles]; norm_num) (by rw [ringFramed_angles]; norm_num)
    (by
      unfold MountedDisk.Clear MountedDisk.areaAngle MountedDisk.borderAngle
      rw [ringFramed_angles, ringFramed_values]
      generalize ringFramed.shift (1 / 2 ^ 53) CARTESIAN (10 * cos 0, 10 * sin 0) = s at *
      norm_num [ringFramed, ringPads] at s1 ⊢
      constructor <;> linarith) ringFramed_least
    (by
      unfold MountedDisk.AreaLarge
      rw [w]
      generalize ringFramed.areaMargin (1 / 2 ^ 53) CARTESIAN (10 * cos 0, 10 * sin 0) 10 = x at *
      norm_num at m ⊢
      linarith) (by norm_num)
  refine ⟨D, D1, D2.trans ?_⟩
  rw [w]
  generalize ringFramed.areaMargin (1 / 2 ^ 53) CARTESIAN (10 * cos 0, 10 * sin 0) 10 = x at *
  norm_num at m ⊢
  linarith

/-- Non-vacuity of `disk_area_within_double`: a point in the border. -/
example {L : PadAngle.Layout ℝ} (hL : ringFramed.Has realDoubles L) :
    ringDistance realDoubles (ringFramed.module realDoubles 75 CARTESIAN L) 75 (5 / 2 * cos (9 / 8)) (5 / 2 * sin (9 / 8)) = .ok 0 := by
  have s1 := ringFramed_shift (r := 5 / 2) (phi := 9 / 8) (by norm_num) (by norm_num)
  have s2 := ringFramed_angle (r := 5 / 2) (phi := 9 / 8) (by norm_num) (by norm_num)
  refine disk_area_within_double (fuel := 75) (M := ringFramed) realDoubles_rounded (by norm_num) (Or.inl rfl)
    ringFramed_proper ringFramed_framed hL (fun h => absurd h polar_ne) (r := 5 / 2) (phi := 9 / 8) (by norm_num)
    (by norm_num at s1 ⊢; linarith) (ringFramed_at _ _) (by rw [ringFramed_angles]; norm_num) (by rw [ringFramed_angles]; norm_num) ?_
  unfold MountedDisk.InArea MountedDisk.areaRadius MountedDisk.areaAngle MountedDisk.borderAngle
  rw [ringFramed_angles, ringFramed_values]
  generalize ringFramed.shift (1 / 2 ^ 53) CARTESIAN (5 / 2 * cos (9 / 8), 5 / 2 * sin (9 / 8)) = x at s1 s2 ⊢
  generalize 3 * x / (5 / 2) = y at s2 ⊢
  norm_num [ringFramed, ringPads] at s1 s2 ⊢
  refine ⟨⟨?_, ?_⟩, ?_, ?_⟩ <;> linarith

/-- The same ring segment around the point (8, 0). -/
noncomputable def ringMoved : MountedDisk := ⟨8, 1, [.border (1 / 4), .offset 8 0], ringPads⟩

theorem ringMoved_values : ringMoved.values = ⟨1 / 4, (8, 0), 0, none, 1⟩ := rfl

theorem ringMoved_proper : ringMoved.Proper realDoubles := by
  refine ⟨⟨[.border (1 / 4)], .offset 8 0, [], rfl, trivial, by simp⟩, ?_, ringAt_proper.pads, ringAt_proper.inner, ringAt_proper.span⟩
  intro o ho
  have : o = .border (1 / 4) ∨ o = .offset 8 0 := by simpa [ringMoved] using ho
  rcases this with rfl | rfl
  · trivial
  · exact Doubles.binary64_zero

theorem ringMoved_framed : ringMoved.Framed (1 / 2 ^ 53) := by
  have := Real.pi_gt_three
  refine ⟨?_, Or.inr ?_, Or.inr ?_⟩
  · rw [ringMoved_values]; norm_num
  · norm_num [ringMoved, ringPads]
  · unfold MountedDisk.borderAngle
    rw [ringMoved_values]
    norm_num [ringMoved, ringPads]
    linarith

theorem ringMoved_at : ringMoved.At CARTESIAN 2 0 (10 * cos 0, 10 * sin 0) := by
  unfold MountedDisk.At
  rw [plane_cartesian, ringMoved_values]
  unfold onPlate place
  norm_num

theorem ringMoved_angles (c : ℝ × ℝ) : ringMoved.angles CARTESIAN c = 74 := by
  unfold MountedDisk.angles
  rw [ringMoved_values]
  norm_num [ringMoved, ringPads, CARTESIAN, POLAR]

theorem ringMoved_least : IsLeast (ringMoved.areaDistances CARTESIAN (10 * cos 0, 10 * sin 0)) 0 := by
  constructor
  · refine ⟨point 2 0, ⟨2, 0, ?_⟩, ?_⟩
    · unfold MountedDisk.borderAngle
      rw [ringMoved_values]
      norm_num [ringMoved, ringPads]
    · show far (plane CARTESIAN _) (onPlate CARTESIAN ringMoved.values (2 * cos 0, 2 * sin 0)) = 0
      have : plane CARTESIAN (10 * cos 0, 10 * sin 0) = _ := ringMoved_at
      rw [← this]
      unfold far
      simp
  · rintro _ ⟨q, -, rfl⟩
    exact Real.sqrt_nonneg _

/-- A module of a TPC with one of these ring segments. -/
noncomputable def ringModOf (M : MountedDisk) (L : PadAngle.Layout ℝ) : TpcParams.Mod ℝ :=
  { ringMod L with
    id := M.id
    offset := M.values.offset
    getDistanceToModule := ringDistance realDoubles (M.module realDoubles 75 CARTESIAN L) 75 }

/-- Non-vacuity of `tpc_disk_nearest_module_double_partial`: the point (10, 0) is in the second module and 27/4 away from the first. -/
example {L : PadAngle.Layout ℝ} (hL : ringFramed.Has realDoubles L) :
    TpcParams.getNearestModule { TpcParams.new 10 CARTESIAN with modules := [ringModOf ringFramed L, ringModOf ringMoved L] }
      (10 * cos 0) (10 * sin 0) = .ok (ringModOf ringMoved L) := by
  have hp := Real.pi_gt_three
  have s1 : ringFramed.shift (1 / 2 ^ 53) CARTESIAN (10 * cos 0, 10 * sin 0) ≤ 1 / 2 ^ 43 := by
    unfold MountedDisk.shift size
    rw [ringFramed_values, weight_cartesian, weight_cartesian]
    norm_num
  have s2 : ringMoved.shift (1 / 2 ^ 53) CARTESIAN (10 * cos 0, 10 * sin 0) ≤ 1 / 2 ^ 42 := by
    unfold MountedDisk.shift size
    rw [ringMoved_values, weight_cartesian, weight_cartesian]
    norm_num
  have m1 : ringFramed.areaMargin (1 / 2 ^ 53) CARTESIAN (10 * cos 0, 10 * sin 0) 10 ≤ 1 / 2 ^ 33 := by
    unfold MountedDisk.areaMargin
    rw [ringFramed_angles, ringFramed_values]
    generalize ringFramed.shift (1 / 2 ^ 53) CARTESIAN (10 * cos 0, 10 * sin 0) = s at *
    norm_num [ringFramed, ringPads] at s1 ⊢
    linarith
  have m2 : ringMoved.areaMargin (1 / 2 ^ 53) CARTESIAN (10 * cos 0, 10 * sin 0) 2 ≤ 1 / 2 ^ 33 := by
    unfold MountedDisk.areaMargin
    rw [ringMoved_angles, ringMoved_values]
    generalize ringMoved.shift (1 / 2 ^ 53) CARTESIAN (10 * cos 0, 10 * sin 0) = s at *
    norm_num [ringMoved, ringPads] at s2 ⊢
    linarith
  have w : ringFramed.areaRadii 10 = 53 / 2 := by
    unfold MountedDisk.areaRadii
    rw [ringFramed_values]
    norm_num [ringFramed, ringPads]
  have i1 : (ringModOf ringFramed L).id = 7 := rfl
  have i2 : (ringModOf ringMoved L).id = 8 := rfl
  have hm : TpcParams.getModules { TpcParams.new 10 CARTESIAN with modules := [ringModOf ringFramed L, ringModOf ringMoved L] } =
      [ringModOf ringFramed L, ringModOf ringMoved L] := rfl
  obtain ⟨x, x1, x2, x3⟩ := tpc_disk_nearest_module_double_partial (fuel := 75) realDoubles_rounded (by norm_num) realDoubles_nearest
    (Or.inl rfl) (fun y => if y.id = 7 then ringFramed else ringMoved) (fun _ => L)
    { TpcParams.new 10 CARTESIAN with modules := [ringModOf ringFramed L, ringModOf ringMoved L] } (by rw [hm]; simp)
    (c := (10 * cos 0, 10 * sin 0)) (fun h => absurd h polar_ne) (fun y => if y.id = 7 then 10 else 2) (fun _ => 0)
    (fun y => if y.id = 7 then 27 / 4 else 0)
    (by
      intro y hy
      rw [hm] at hy
      simp only [List.mem_cons, List.not_mem_nil, or_false] at hy
      rcases hy with rfl | rfl
      · exact ⟨fun _ _ => rfl, ringFramed_proper, ringFramed_framed, hL⟩
      · exact ⟨fun _ _ => rfl, ringMoved_proper, ringMoved_framed, hL⟩)
    (by
      intro y hy
      rw [hm] at hy
      simp only [List.mem_cons, List.not_mem_nil, or_false] at hy
      rcases hy with rfl | rfl
      · exact ⟨ringFramed_at _ _, by norm_num [i1], show 2 * ringFramed.shift _ _ _ ≤ 10 by norm_num at s1 ⊢; linarith,
          show _ * ringFramed.angles _ _ ≤ _ by rw [ringFramed_angles]; norm_num,
          show ringFramed.angles _ _ + 1 ≤ _ by rw [ringFramed_angles]; norm_num⟩
      · exact ⟨ringMoved_at, by norm_num [i2], show 2 * ringMoved.shift _ _ _ ≤ 2 by norm_num at s2 ⊢; linarith,
          show _ * ringMoved.angles _ _ ≤ _ by rw [ringMoved_angles]; norm_num,
          show ringMoved.angles _ _ + 1 ≤ _ by rw [ringMoved_angles]; norm_num⟩)
    (by
      intro y hy
      rw [hm] at hy
      simp only [List.mem_cons, List.not_mem_nil, or_false] at hy
      rcases hy with rfl | rfl
      · exact ringFramed_least
      · exact ringMoved_least)
    (by
      intro y hy
      rw [hm] at hy
      simp only [List.mem_cons, List.not_mem_nil, or_false] at hy
      rcases hy with rfl | rfl
      · refine Or.inr ⟨show ringFramed.Clear _ _ _ 10 0 from ?_, show ringFramed.AreaLarge _ _ _ 10 (27 / 4) from ?_, by norm_num [i1]⟩
        · unfold MountedDisk.Clear MountedDisk.areaAngle MountedDisk.borderAngle
          rw [ringFramed_angles, ringFramed_values]
          generalize ringFramed.shift (1 / 2 ^ 53) CARTESIAN (10 * cos 0, 10 * sin 0) = s at *
          norm_num [ringFramed, ringPads] at s1 ⊢
          constructor <;> linarith
        · unfold MountedDisk.AreaLarge
          rw [w]
          generalize ringFramed.areaMargin (1 / 2 ^ 53) CARTESIAN (10 * cos 0, 10 * sin 0) 10 = x at *
          norm_num at m1 ⊢
          linarith
      · refine Or.inl (show ringMoved.InArea (-ringMoved.areaRadius _ _ _) (-ringMoved.areaAngle _ _ _ 2) 2 0 from ?_)
        unfold MountedDisk.InArea MountedDisk.areaRadius MountedDisk.areaAngle MountedDisk.borderAngle
        rw [ringMoved_angles, ringMoved_values]
        generalize ringMoved.shift (1 / 2 ^ 53) CARTESIAN (10 * cos 0, 10 * sin 0) = s at *
        norm_num [ringMoved, ringPads] at s2 ⊢
        refine ⟨⟨?_, ?_⟩, ?_, ?_⟩ <;> linarith)
  rw [x2]
  rw [hm] at x1
  simp only [List.mem_cons, List.not_mem_nil, or_false] at x1
  rcases x1 with rfl | rfl
  · exfalso
    have h : (27 / 4 : ℝ) ≤ 0 + (ringFramed.areaMargin (1 / 2 ^ 53) CARTESIAN (10 * cos 0, 10 * sin 0) 10 +
        50 * (1 / 2 ^ 53) * ringFramed.areaRadii 10 ^ 2 / (27 / 4)) + (ringMoved.areaMargin (1 / 2 ^ 53) CARTESIAN (10 * cos 0, 10 * sin 0) 2 +
        50 * (1 / 2 ^ 53) * ringMoved.areaRadii 2 ^ 2 / 0) := x3 (ringModOf ringMoved L) (by rw [hm]; simp)
    rw [w, div_zero] at h
    generalize ringFramed.areaMargin (1 / 2 ^ 53) CARTESIAN (10 * cos 0, 10 * sin 0) 10 = a at *
    generalize ringMoved.areaMargin (1 / 2 ^ 53) CARTESIAN (10 * cos 0, 10 * sin 0) 2 = b at *
    norm_num at m1 m2 h
    linarith
  · rfl

end Gear.TpcModule.Double
