/-
The nearest pad in a TPC with modules of several kinds in `double` arithmetic, for points on pads of the other two kinds of layouts (C170).
-/
import Verif.TpcPolarDoubleFar

set_option autoImplicit false
set_option linter.unusedSectionVars false

namespace Gear.TpcModule.Double

open Real
open TpcModule.Spec (Known plane place Op Values values Settled)
open PadAngle.Spec (IsIndex)
open PadAngle.Double.Spec (rError phiError DeepInPad)
open Rect.Double.Spec (Args MadeOf)
open Spec

variable {F : Arith ℝ} {u : ℝ} {fuel : ℕ}

/-! ### C170 -/

/-- In a Cartesian TPC with modules of any kinds, `getNearestPad` of the TPC gives the pad and the module that the point is on, when the pads
that the other modules answer with are further away than the error bounds: here the point is on a pad of a layout with fixed pad angles. -/
theorem tpc_mixed_angle_nearest_double_partial {M : MountedDisk} {L : PadAngle.Layout ℝ} (R : Rounded F u) (hu : 0 < u) (N : Nearest F)
    (T : TpcParams.Tpc ℝ) {x : TpcParams.Mod ℝ} (hx : x ∈ TpcParams.getModules T) (hI : M.Is F fuel CARTESIAN L x) (hM : M.Proper F)
    (hL : M.Has F L) {row pad p : ℤ} (hp : IsIndex M.pads L row pad p) {c : ℝ × ℝ} {r phi : ℝ} (hq : M.At CARTESIAN r phi c)
    (hd : DeepInPad M.pads (rError M.pads u + 2 * M.shift u CARTESIAN c)
      (phiError M.pads u F.pi + 3 * M.shift u CARTESIAN c / r + 5 * u * M.angles CARTESIAN c ^ 2) row pad r phi)
    (h1 : 20 * u + 3 * M.shift u CARTESIAN c / r ≤ phi) (h2 : phi ≤ 2 * π - 20 * u - 3 * M.shift u CARTESIAN c / r)
    (hs : u * M.angles CARTESIAN c ≤ 1 / 10) (hf : M.angles CARTESIAN c + 1 ≤ fuel)
    (ho : ∀ y ∈ TpcParams.getModules T, y ≠ x → ∃ p' d' e', y.getNearestPad c.1 c.2 = .ok p' ∧ PadAt F u y c p' d' e' ∧ e' < d') :
    TpcParams.getNearestPad T c.1 c.2 = .ok ⟨p, M.id⟩ := by
  refine tpc_disk_nearest_double_partial R hu T hx hI hM hL hp hq hd h1 h2 hs hf fun y hy hne => ?_
  obtain ⟨p', d', e', k1, k2, k3⟩ := ho y hy hne
  obtain ⟨D, k4, k5⟩ := pad_distance_double_partial R hu N k2
  exact ⟨p', D, k1, k4, by linarith [(abs_le.1 k5).1]⟩

/-- The same, for a point on a rectangular pad.  Its own distance may be rounded, too. -/
theorem tpc_mixed_rectangular_nearest_double_partial {M : Mounted} (R : Rounded F u) (hu : 0 < u) (N : Nearest F) (hf : 2 ≤ fuel)
    (T : TpcParams.Tpc ℝ) {x : TpcParams.Mod ℝ} (hx : x ∈ TpcParams.getModules T) (hI : M.Is F fuel CARTESIAN x) (hM : M.Proper F)
    {A : Args ℝ} (hA : A.Proper u) (hL : MadeOf F.toArith A (M.layout F)) {row pad p : ℤ} (hp : A.IsPad row pad)
    (h : Rect.getPadIndex (M.layout F) row pad = .ok p) {c b : ℝ × ℝ} (hc : M.On u CARTESIAN A row pad c)
    (hb : Rect.Double.getPadCenter F.toArith (M.layout F) p = .ok b)
    (ho : ∀ y ∈ TpcParams.getModules T, y ≠ x → ∃ p' d' e', y.getNearestPad c.1 c.2 = .ok p' ∧ PadAt F u y c p' d' e' ∧
      M.error u CARTESIAN c b A.padWidth A.padHeight + e' < d') :
    TpcParams.getNearestPad T c.1 c.2 = .ok ⟨p, M.id⟩ := by
  have e1 : x.getNearestPad c.1 c.2 = .ok p := by
    rw [hI.nearest]; exact nearest_double_partial R hu (Or.inl rfl) hM hA hL hp h hc hf
  obtain ⟨D, e2, e3⟩ := distance_on (fuel := fuel) R hu (Or.inl rfl) hM hA hL hp h hc hb
  rw [← hI.id]
  refine winner c.1 c.2 e1 (by rw [hI.distance]; exact e2) _ hx fun y hy hne => ?_
  obtain ⟨p', d', e', k1, k2, k3⟩ := ho y hy hne
  obtain ⟨D', k4, k5⟩ := pad_distance_double_partial R hu N k2
  exact ⟨p', D', k1, k4, by linarith [(abs_le.1 k5).1]⟩

/-! ### Non-vacuity -/

/-- The error bound of this distance is small. -/
theorem segment_padAt_small {L : PadAngle.Layout ℝ} (hL : (segment 2 (-12) (-16)).Has realDoubles L) {y : TpcParams.Mod ℝ}
    (hy : (segment 2 (-12) (-16)).Is realDoubles 100 CARTESIAN L y) :
    ∃ e, y.getNearestPad 3 4 = .ok 0 ∧ PadAt realDoubles (1 / 2 ^ 53) y (3, 4) 0 19 e ∧ e ≤ 15 := by
  have A := segment_away hL hy
  refine ⟨_, A.nearest, .angle hy A.proper A.has A.index A.usual A.least A.large A.positive, ?_⟩
  obtain ⟨g1, g2⟩ := A.large
  linarith

/-- The only other module of a TPC with two modules. -/
theorem other_module {T : TpcParams.Tpc ℝ} {x y z : TpcParams.Mod ℝ} (hT : TpcParams.getModules T = [y, x])
    (hz : z ∈ TpcParams.getModules T) (hne : z ≠ x) : z = y := by
  rw [hT] at hz
  rcases List.mem_cons.1 hz with h | h
  · exact h
  · exact absurd (List.mem_singleton.1 h) hne

/-- Non-vacuity of `tpc_mixed_angle_nearest_double_partial`. -/
example {T : TpcParams.Tpc ℝ} {x y : TpcParams.Mod ℝ} (hT : TpcParams.getModules T = [y, x]) {L L' : PadAngle.Layout ℝ}
    (hL : (segment 1 0 0).Has realDoubles L) (hx : (segment 1 0 0).Is realDoubles 100 CARTESIAN L x)
    (hL' : (segment 2 (-12) (-16)).Has realDoubles L') (hy : (segment 2 (-12) (-16)).Is realDoubles 100 CARTESIAN L' y) :
    TpcParams.getNearestPad T 3 4 = .ok ⟨0, 1⟩ := by
  obtain ⟨phi, f1, f2, f3, f4⟩ := direction
  have sh := segment_shift 1 (x := 0) (y := 0) (by norm_num) (by norm_num)
  obtain ⟨re, pe, pe0⟩ := segment_errors 1 0 0
  have hp2 := Real.pi_gt_three
  have s3 : 3 * (segment 1 0 0).shift (1 / 2 ^ 53) CARTESIAN (3, 4) / 5 ≤ 1 / 2 ^ 40 := by norm_num at sh ⊢; linarith
  have d1 : (segment 1 0 0).pads.dr = 2 := by norm_num [segment, PadAngle.Spec.Args.dr]
  have d2 : (segment 1 0 0).pads.dphi = 1 := by norm_num [segment, PadAngle.Spec.Args.dphi]
  have d3 : (segment 1 0 0).pads.rMin = 4 := rfl
  have d4 : (segment 1 0 0).pads.phiMin = 1 / 2 := rfl
  refine tpc_mixed_angle_nearest_double_partial (fuel := 100) (M := segment 1 0 0) realDoubles_rounded (by norm_num) realDoubles_nearest T
    (x := x) (by rw [hT]; simp) hx (segment_proper 1 0 Doubles.binary64_zero) hL (segment_index _ _ _ hL) (c := (3, 4)) (r := 5) (phi := phi)
    ?_ ?_ ?_ ?_ ?_ ?_ ?_
  · unfold MountedDisk.At
    rw [plane_cartesian, segment_plate, f1, f2]
    norm_num
  · rw [segment_angles]
    generalize (segment 1 0 0).shift (1 / 2 ^ 53) CARTESIAN (3, 4) = w at sh s3 ⊢
    unfold DeepInPad
    rw [d1, d2, d3, d4]
    norm_num at sh re pe s3 ⊢
    refine ⟨⟨?_, ?_⟩, ?_, ?_⟩ <;> linarith
  · norm_num at s3 ⊢; linarith
  · norm_num at s3 ⊢; linarith
  · rw [segment_angles]; norm_num
  · rw [segment_angles]; norm_num
  · intro z hz hne
    obtain rfl := other_module hT hz hne
    obtain ⟨e, h1, h2, h3⟩ := segment_padAt hL' hy
    exact ⟨0, 19, e, h1, h2, h3⟩

/-- A module with two rows of two pads of size 1 each, at (2.5, 2.5). -/
noncomputable def squaresMoved : Mounted := ⟨1, 1, [.offset (5 / 2) (5 / 2)], 0, 2, 0, [.addRow 2 2 1 1 0 0 0]⟩

theorem squaresMoved_size : size CARTESIAN squaresMoved.values (3, 4) = 12 := by
  have hv : squaresMoved.values = ⟨0, (5 / 2, 5 / 2), 0, none, 1⟩ := rfl
  rw [hv]
  unfold size
  rw [weight_cartesian, weight_cartesian]
  norm_num [abs_of_pos]

/-- Non-vacuity of `tpc_mixed_rectangular_nearest_double_partial`: a module with rectangular pads and one with fixed pad angles, and the
point (3, 4) on a pad of the first one. -/
example {T : TpcParams.Tpc ℝ} {x y : TpcParams.Mod ℝ} (hT : TpcParams.getModules T = [y, x])
    (hx : squaresMoved.Is realDoubles 2 CARTESIAN x) {L : PadAngle.Layout ℝ} (hL : (segment 2 (-12) (-16)).Has realDoubles L)
    (hy : (segment 2 (-12) (-16)).Is realDoubles 100 CARTESIAN L y) : ∃ p, TpcParams.getNearestPad T 3 4 = .ok ⟨p, 1⟩ := by
  have hR := realDoubles_rounded
  have hA := squares_proper
  have hm : MadeOf realDoubles.toArith squares (squaresMoved.layout realDoubles) := squares_made 5 (-4)
  have hp : squares.IsPad 1 0 := by refine ⟨⟨?_, ?_⟩, ?_, ?_⟩ <;> decide
  obtain ⟨p, i1, -, -⟩ := Rect.Double.index_double hA hm hp
  obtain ⟨b, b1, b2, b3⟩ := Rect.Double.center_double (angle_rounded hR (by norm_num : (0 : ℝ) < 1 / 2 ^ 53)) hA hm hp i1
  have e1 : squares.xCenter 0 = 1 / 2 := by norm_num [squares, Args.xCenter, Args.pitch, Args.left, Args.right]
  have e2 : squares.yCenter 1 = 3 / 2 := by norm_num [squares, Args.yCenter, Args.height]
  have e3 : squares.xError (1 / 2 ^ 53) = 1 / 2 ^ 52 := by norm_num [squares, Args.xError, Args.left, Args.right]
  have e4 : squares.yError (1 / 2 ^ 53) = 1 / 2 ^ 50 := by norm_num [squares, Args.yError, Args.height]
  refine ⟨p, tpc_mixed_rectangular_nearest_double_partial hR (by norm_num) realDoubles_nearest (le_refl 2) T (x := x) (by rw [hT]; simp) hx
    ⟨⟨[], .offset (5 / 2) (5 / 2), [], rfl, trivial, by simp⟩, ?_⟩ hA hm hp i1 (c := (3, 4)) ⟨(1 / 2, 3 / 2), ?_, ?_, ?_⟩ b1 ?_⟩
  · intro o ho
    obtain rfl : o = .offset (5 / 2) (5 / 2) := by simpa [squaresMoved] using ho
    exact exact (n := 5) (k := -1) (5 / 2) (by norm_num) (by norm_num)
  · have hv : squaresMoved.values = ⟨0, (5 / 2, 5 / 2), 0, none, 1⟩ := rfl
    rw [hv]
    unfold onPlate place
    rw [plane_cartesian, plane_cartesian]
    norm_num
  · rw [squaresMoved_size, e1, e3]
    norm_num [squares, Args.pitch, Args.left, Args.right]
  · rw [squaresMoved_size, e2, e4]
    norm_num [squares]
  · intro z hz hne
    obtain rfl := other_module hT hz hne
    obtain ⟨e, h1, h2, h3⟩ := segment_padAt_small hL hy
    refine ⟨0, 19, e, h1, h2, ?_⟩
    unfold Mounted.error
    rw [squaresMoved_size]
    rw [e1, e3] at b2
    rw [e2, e4] at b3
    have q1 : |b.1| ≤ 2 := by
      rw [_root_.abs_le] at b2 ⊢
      norm_num at b2
      constructor <;> linarith [b2.1, b2.2]
    have q2 : |b.2| ≤ 2 := by
      rw [_root_.abs_le] at b3 ⊢
      norm_num at b3
      constructor <;> linarith [b3.1, b3.2]
    have q3 : squares.padWidth = 1 := rfl
    have q4 : squares.padHeight = 1 := rfl
    rw [q3, q4]
    norm_num
    linarith

end Gear.TpcModule.Double
