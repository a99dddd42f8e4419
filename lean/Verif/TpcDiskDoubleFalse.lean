/-
C163 is false for TPCs with pads at negative angles: the nearest pad of a point on such a pad can be a pad of another module.
-/
import Verif.TpcDiskDoubleProps

set_option autoImplicit false
set_option linter.unusedSectionVars false

namespace Gear.TpcModule.Double

open Real
open MaterialMap (binary64)
open TpcModule.Spec (Known plane place Op Values values Settled)
open PadAngle.Spec (IsIndex)
open PadAngle.Double.Spec (rError phiError DeepInPad)
open Rect.Double.Spec (Args MadeOf HasBox)
open Spec

/-! ### Distances to edges -/

/-- The same arithmetic, with exact mathematical functions whose results are rounded where they are used. -/
noncomputable def exactDoubles : MaterialMap.Arith ℝ :=
  { realDoubles.toArith with cos := Real.cos, sin := Real.sin, sqrt := Real.sqrt }

theorem exactDoubles_rounded : Disk.Double.Spec.Rounded exactDoubles (1 / 2 ^ 53) :=
  ⟨realDoubles_rounded.rounding, by norm_num, rfl, rfl, rfl⟩

theorem same_edges (r phi rMin rMax phiE : ℝ) :
    Disk.Double.edgeDistance realDoubles.toArith r phi rMin rMax phiE = Disk.Double.edgeDistance exactDoubles r phi rMin rMax phiE := by
  have h : ∀ x : ℝ, binary64 (binary64 x) = binary64 x := realDoubles_rounded.rounding.idem
  have hs : ∀ v, Disk.Double.squareRoot realDoubles.toArith v = Disk.Double.squareRoot exactDoubles v := by
    intro v
    unfold Disk.Double.squareRoot
    have : realDoubles.rnd (realDoubles.sqrt v) = exactDoubles.rnd (exactDoubles.sqrt v) := h _
    rw [this]
  have hc : ∀ v, realDoubles.rnd (realDoubles.cos v) = exactDoubles.rnd (exactDoubles.cos v) := fun v => h _
  have hn : ∀ v, realDoubles.rnd (realDoubles.sin v) = exactDoubles.rnd (exactDoubles.sin v) := fun v => h _
  unfold Disk.Double.edgeDistance PadAngle.Double.rIntersect
  simp only [hs, hc, hn]
  rfl

/-- An edge that is far away is far away in doubles. -/
theorem edge_least {r phi rMin rMax phiE : ℝ} (hr : 0 ≤ r) (h0 : 0 ≤ rMin) (h1 : rMin ≤ rMax) (hs : r + rMax ≤ 10)
    (hd : 7 / 8 ≤ r * |sin (phi - phiE)|) :
    ∃ D, Disk.Double.edgeDistance realDoubles.toArith r phi rMin rMax phiE = some D ∧ 3 / 4 ≤ D := by
  obtain ⟨e, he⟩ : ∃ e, e = Disk.edgeDistance Disk.realFns r phi rMin rMax phiE := ⟨_, rfl⟩
  have hle : 7 / 8 ≤ e := by
    rw [he, Disk.Double.edge_reach]
    unfold Disk.Double.reach
    refine le_trans hd ?_
    refine Real.le_sqrt_of_sq_le ?_
    rw [mul_pow, sq_abs, ← mul_pow]
    nlinarith [sq_nonneg (r * cos (phi - phiE) - Disk.edgeRadius r phi rMin rMax phiE)]
  have hq : (r + rMax) ^ 2 ≤ 100 := by nlinarith
  obtain ⟨D, h2, h3⟩ := Disk.Double.edge_near exactDoubles_rounded hr h0 h1 he.symm (by linarith) (by norm_num; nlinarith)
  refine ⟨D, by rw [same_edges]; exact h2, ?_⟩
  have h4 : 25 * (1 / 2 ^ 53) * (r + rMax) ^ 2 / e ≤ 1 / 8 := by
    rw [div_le_iff₀ (by linarith)]
    norm_num
    linarith
  rw [abs_le] at h3
  linarith [h3.1]

/-! ### Two modules -/

/-- A module at the middle of the TPC with one pad, between the angles -1 and 0 and the radii 1 and 9/4. -/
noncomputable def lowRing : MountedDisk := ⟨1, 1, [.offset 0 0], ⟨1, 9 / 4, 1, -1, 0, 1⟩⟩

/-- A module beside it, with two rows of two square pads between the points (9/4, -3/2) and (17/4, 1/2). -/
noncomputable def beside : Mounted := ⟨2, 1, [.offset (9 / 4) (-3 / 2)], 0, 2, 0, [.addRow 2 2 1 1 0 0 0]⟩

/-- The middle of the first module's pad, in the coordinates of the angle. -/
noncomputable def lowPoint : ℝ × ℝ := (2 * cos (-1 / 2), 2 * sin (-1 / 2))

theorem lowPoint_near : (7 / 4 ≤ lowPoint.1 ∧ lowPoint.1 ≤ 2) ∧ -1 ≤ lowPoint.2 ∧ lowPoint.2 ≤ -15 / 16 := by
  have h1 := one_sub_sq_div_two_le_cos (x := -1 / 2)
  have h2 := cos_le_one (-1 / 2)
  have h3 := sin_gt_sub_cube (x := 1 / 2) (by norm_num)
  have h4 := sin_le (x := 1 / 2) (by norm_num)
  have h5 : sin (-1 / 2) = -sin (1 / 2) := by rw [← sin_neg]; norm_num
  unfold lowPoint
  rw [h5]
  norm_num at h1 h3 ⊢
  refine ⟨⟨?_, ?_⟩, ?_, ?_⟩ <;> linarith [cos_le_one (1 / 2)]

theorem lowRing_proper : lowRing.Proper realDoubles := by
  have hpi := abs_le.1 realDoubles_rounded.pi
  refine ⟨⟨[], .offset 0 0, [], rfl, trivial, by simp⟩, ?_, ?_, ?_, ?_⟩
  · intro o ho
    obtain rfl : o = .offset 0 0 := by simpa [lowRing] using ho
    exact Doubles.binary64_zero
  · constructor <;> norm_num [lowRing]
  · norm_num [lowRing]
  · have := Real.pi_gt_three
    norm_num [lowRing]
    norm_num at hpi
    linarith [hpi.1]

theorem beside_proper : beside.Proper realDoubles := by
  refine ⟨⟨[], .offset (9 / 4) (-3 / 2), [], rfl, trivial, by simp⟩, ?_⟩
  intro o ho
  obtain rfl : o = .offset (9 / 4) (-3 / 2) := by simpa [beside] using ho
  have := Doubles.binary64_scaled (K := ℝ) (-3) (-1) (by norm_num)
  have e : (((-3 : ℤ) : ℝ) * 2 ^ (-1 : ℤ)) = -3 / 2 := by norm_num
  rw [e] at this
  exact this

theorem beside_made : MadeOf realDoubles.toArith squares (beside.layout realDoubles) := squares_made 0 0

theorem lowRing_plate (q : ℝ × ℝ) : onPlate CARTESIAN lowRing.values q = q := by
  have hv : lowRing.values = ⟨0, (0, 0), 0, none, 1⟩ := rfl
  rw [hv]
  unfold onPlate place
  norm_num

theorem beside_plate (q : ℝ × ℝ) : onPlate CARTESIAN beside.values q = (q.1 + 9 / 4, q.2 - 3 / 2) := by
  have hv : beside.values = ⟨0, (9 / 4, -3 / 2), 0, none, 1⟩ := rfl
  rw [hv]
  unfold onPlate place
  norm_num
  ring

theorem lowRing_size (c : ℝ × ℝ) : size CARTESIAN lowRing.values c = |c.1| + |c.2| := by
  have hv : lowRing.values = ⟨0, (0, 0), 0, none, 1⟩ := rfl
  rw [hv]
  unfold size
  rw [weight_cartesian, weight_cartesian]
  simp

theorem beside_size (c : ℝ × ℝ) : size CARTESIAN beside.values c = |c.1| + |c.2| + (9 / 4 + 3 / 2) := by
  have hv : beside.values = ⟨0, (9 / 4, -3 / 2), 0, none, 1⟩ := rfl
  rw [hv]
  unfold size
  rw [weight_cartesian, weight_cartesian]
  norm_num [abs_of_pos, abs_of_neg]

theorem lowRing_angles (c : ℝ × ℝ) : lowRing.angles CARTESIAN c = 72 := by
  have hv : lowRing.values = ⟨0, (0, 0), 0, none, 1⟩ := rfl
  unfold MountedDisk.angles
  rw [hv]
  norm_num [lowRing, CARTESIAN, POLAR]

theorem lowRing_shift : lowRing.shift (1 / 2 ^ 53) CARTESIAN lowPoint ≤ 1 / 2 ^ 43 := by
  obtain ⟨⟨h1, h2⟩, h3, h4⟩ := lowPoint_near
  unfold MountedDisk.shift
  rw [lowRing_size, abs_of_pos (by linarith), abs_of_neg (by linarith)]
  norm_num
  linarith

/-- The point is on the pad of the first module. -/
theorem lowPoint_on : lowRing.On realDoubles (1 / 2 ^ 53) CARTESIAN 0 0 lowPoint := by
  have sh := lowRing_shift
  refine ⟨2, -1 / 2, ?_, ?_⟩
  · unfold MountedDisk.At
    rw [plane_cartesian, lowRing_plate]
    rfl
  · have hpi := abs_le.1 realDoubles_rounded.pi
    have hp1 := Real.pi_lt_d2
    have pi4 : realDoubles.pi ≤ 4 := by norm_num at hpi; linarith [hpi.2]
    rw [lowRing_angles]
    generalize lowRing.shift (1 / 2 ^ 53) CARTESIAN lowPoint = x at sh ⊢
    norm_num [DeepInPad, lowRing, phiError, rError, PadAngle.Spec.Args.dphi, PadAngle.Spec.Args.dr] at sh ⊢
    refine ⟨⟨?_, ?_⟩, ?_, ?_⟩ <;> linarith [cos_le_one (1 / 2)]

/-- The first module's distance from its pad. -/
theorem lowRing_distance {L : PadAngle.Layout ℝ} (hL : lowRing.Has realDoubles L) :
    ∃ D, getDistanceToPad realDoubles (lowRing.module realDoubles 100 CARTESIAN L) lowPoint.1 lowPoint.2 0 = .ok D ∧ 3 / 4 ≤ D := by
  have sh := lowRing_shift
  have hR := realDoubles_rounded
  have hu : (0 : ℝ) < 1 / 2 ^ 53 := by norm_num
  have h3 := Real.pi_gt_three
  have h4 := Real.pi_lt_d2
  have hpi := abs_le.1 realDoubles_rounded.pi
  have pi4 : realDoubles.pi ≤ 4 := by norm_num at hpi; linarith [hpi.2]
  obtain ⟨l, l1, l2, ⟨k, l3⟩, -, l5⟩ := disk_local (fuel := 100) (L := L) hR (Or.inl rfl) lowRing_proper (c := lowPoint)
    (fun h => absurd h polar_ne) (r := 2) (phi := -1 / 2) (by norm_num) (by norm_num at sh ⊢; linarith) (by
      unfold MountedDisk.At
      rw [plane_cartesian, lowRing_plate]
      rfl)
  obtain ⟨l5, -⟩ := l5 rfl
  have hi : IsIndex lowRing.pads L 0 0 0 := by
    obtain rfl := Res.ok.inj hL
    exact ⟨by norm_num [lowRing, PadAngle.Spec.Args.IsPad], rfl⟩
  obtain ⟨⟨b1, b2⟩, ⟨b3, b4⟩, -, -⟩ := PadAngle.Double.borders (angle_rounded hR hu) lowRing_proper.pads hL hi
  generalize lowRing.shift (1 / 2 ^ 53) CARTESIAN lowPoint = x at sh l2 l3
  unfold getDistanceToPad
  rw [l1, Res.bind_ok, disk_layout]
  unfold fixedAngle
  dsimp only
  unfold Disk.Double.angleDistance Disk.Double.getDistanceToPad
  generalize realDoubles.sub (PadAngle.Double.getPadCenter realDoubles.toArith L 0).1 (realDoubles.div L.rowHeight 2) = r0 at b1 ⊢
  generalize realDoubles.add (PadAngle.Double.getPadCenter realDoubles.toArith L 0).1 (realDoubles.div L.rowHeight 2) = r1 at b2 ⊢
  generalize realDoubles.sub (PadAngle.Double.getPadCenter realDoubles.toArith L 0).2 (realDoubles.div L.padAngle 2) = p0 at b3 ⊢
  generalize realDoubles.add (PadAngle.Double.getPadCenter realDoubles.toArith L 0).2 (realDoubles.div L.padAngle 2) = p1 at b4 ⊢
  norm_num [lowRing, phiError, rError, PadAngle.Spec.Args.dphi, PadAngle.Spec.Args.dr] at b1 b2 b3 b4 sh
  rw [abs_le] at b1 b2 b3 b4 l2 l3
  have hs : ∀ d : ℝ, |d| ≤ 1 / 2 ^ 20 → ∀ j : ℤ, ∀ s : ℝ, s = 1 / 2 ∨ s = -1 / 2 → 7 / 8 ≤ l.1 * |sin (s + d + j * (2 * π))| := by
    intro d hd j s hss
    rw [sin_add_int_mul_two_pi]
    have q : 15 / 32 ≤ |sin s| := by
      have h3 := sin_gt_sub_cube (x := 1 / 2) (by norm_num)
      norm_num at h3
      rcases hss with rfl | rfl
      · rw [abs_of_pos (by linarith)]; linarith
      · have h5 : sin (-1 / 2) = -sin (1 / 2) := by rw [← sin_neg]; norm_num
        rw [h5, abs_neg, abs_of_pos (by linarith)]; linarith
    have q1 : |sin (s + d) - sin s| ≤ |d| := by
      have := abs_sin_sub_sin_le (s + d) s
      rwa [add_sub_cancel_left] at this
    have q2 := abs_sub_abs_le_abs_sub (sin s) (sin (s + d))
    rw [abs_sub_comm] at q2
    have q3 : 7 / 15 ≤ |sin (s + d)| := by norm_num at hd; linarith
    have q4 : 15 / 8 ≤ l.1 := by linarith [l2.1]
    have := mul_le_mul q4 q3 (by norm_num) (by linarith)
    linarith
  obtain ⟨D0, e1, e2⟩ := edge_least (r := l.1) (phi := l.2) (rMin := r0) (rMax := r1) (phiE := p0) (by linarith) (by linarith)
    (by linarith) (by linarith) (by
      have := hs ((l.2 - (-1 / 2 + k * (2 * π))) - (p0 + 1)) (by rw [abs_le]; norm_num; constructor <;> linarith) k (1 / 2) (Or.inl rfl)
      convert this using 4
      ring)
  obtain ⟨D1, e3, e4⟩ := edge_least (r := l.1) (phi := l.2) (rMin := r0) (rMax := r1) (phiE := p1) (by linarith) (by linarith)
    (by linarith) (by linarith) (by
      have := hs ((l.2 - (-1 / 2 + k * (2 * π))) - p1) (by rw [abs_le]; norm_num; constructor <;> linarith) k (-1 / 2) (Or.inr rfl)
      convert this using 4
      ring)
  have hno : ¬ (l.2 ≥ p0 ∧ l.2 ≤ p1) := by
    rintro ⟨-, hle⟩
    have hk : (k : ℝ) * (2 * π) ≤ 1 := by linarith
    have hk2 : 0 < (k : ℝ) * (2 * π) := by linarith
    have k0 : 0 < k := by
      by_contra hc
      have : (k : ℝ) ≤ 0 := by exact_mod_cast not_lt.1 hc
      nlinarith
    have : (1 : ℝ) ≤ k := by exact_mod_cast k0
    nlinarith
  unfold Disk.Double.keystoneDistance
  rw [if_neg hno, e1, e3]
  unfold Disk.Double.smaller
  dsimp only
  split_ifs
  · exact ⟨D0, rfl, e2⟩
  · exact ⟨D1, rfl, e4⟩

/-- The second module's nearest pad is not half a unit away. -/
theorem beside_nearest : ∃ p D, getNearestPad realDoubles (beside.module realDoubles 2 CARTESIAN) lowPoint.1 lowPoint.2 = .ok p ∧
    getDistanceToPad realDoubles (beside.module realDoubles 2 CARTESIAN) lowPoint.1 lowPoint.2 p = .ok D ∧ D ≤ 5 / 8 := by
  have hR := realDoubles_rounded
  have hA := squares_proper
  have R' := angle_rounded hR (by norm_num : (0 : ℝ) < 1 / 2 ^ 53)
  obtain ⟨⟨c1, c2⟩, c3, c4⟩ := lowPoint_near
  have hp : squares.IsPad 0 0 := by refine ⟨⟨?_, ?_⟩, ?_, ?_⟩ <;> decide
  obtain ⟨p, i1, -, -⟩ := Rect.Double.index_double hA beside_made hp
  obtain ⟨b, b1, b2, b3⟩ := Rect.Double.center_double R' hA beside_made hp i1
  obtain ⟨s1, s2⟩ := sizes_double hA beside_made hp i1
  have e1 : squares.xCenter 0 = 1 / 2 := by norm_num [squares, Args.xCenter, Args.pitch, Args.left, Args.right]
  have e2 : squares.yCenter 0 = 1 / 2 := by norm_num [squares, Args.yCenter, Args.height]
  have e3 : squares.xError (1 / 2 ^ 53) = 1 / 2 ^ 52 := by norm_num [squares, Args.xError, Args.left, Args.right]
  have e4 : squares.yError (1 / 2 ^ 53) = 1 / 2 ^ 50 := by norm_num [squares, Args.yError, Args.height]
  rw [e1, e3] at b2
  rw [e2, e4] at b3
  have d1 := abs_le.1 b2
  have d2 := abs_le.1 b3
  norm_num at d1 d2
  have hq : plane CARTESIAN lowPoint = onPlate CARTESIAN beside.values (lowPoint.1 - 9 / 4, lowPoint.2 + 3 / 2) := by
    rw [plane_cartesian, beside_plate]; ext <;> simp
  obtain ⟨l, h1, h2⟩ := local_near (fuel := 2) hR (Or.inl rfl) beside_proper hq
  have hsz : size CARTESIAN beside.values lowPoint ≤ 10 := by
    rw [beside_size, abs_of_pos (by linarith), abs_of_neg (by linarith)]
    linarith
  have hs : 100 * (1 / 2 ^ 53) * size CARTESIAN beside.values lowPoint ≤ 1 / 2 ^ 40 := by
    norm_num; linarith
  obtain ⟨h3, h4⟩ := far_components (h2.trans hs)
  rw [abs_le] at h3 h4
  norm_num at h3 h4
  obtain ⟨D, d, g1, ⟨g2, g3⟩, g4, -⟩ := distance_double (fuel := 2) hR (Or.inl rfl) beside_proper (p := p) (b := b) (w := 1) (h := 1)
    ⟨b1, s1, s2⟩ lowPoint
  refine ⟨p, D, ?_, g1, ?_⟩
  · unfold getNearestPad
    rw [h1, Res.bind_ok, module_layout]
    show (match Rect.Double.getNearestPad realDoubles.toArith (beside.layout realDoubles) 2 l.1 l.2 with
      | some r => r | none => Res.ub) = _
    rw [nearest_left R' hA beside_made hp i1 Doubles.binary64_zero ?_ ?_ 2 (le_refl 2)]
    · have : squares.xMin = 0 := rfl
      rw [this]
      linarith [h3.2]
    · rw [e2, e4, abs_le]
      norm_num [squares]
      constructor <;> linarith
  · have hd : d ≤ 1 / 2 + 1 / 2 ^ 20 := by
      have := g3 (Set.mem_image_of_mem _ (show (b.1 - 1 / 2, lowPoint.2 + 3 / 2) ∈ Rect.Spec.box b 1 1 by
        refine ⟨?_, ?_⟩ <;> norm_num [abs_le]
        constructor <;> linarith))
      refine this.trans ?_
      rw [plane_cartesian, beside_plate]
      show √((lowPoint.1 - (b.1 - 1 / 2 + 9 / 4)) ^ 2 + (lowPoint.2 - (lowPoint.2 + 3 / 2 - 3 / 2)) ^ 2) ≤ _
      rw [add_sub_cancel_right, sub_self, zero_pow two_ne_zero, add_zero, Real.sqrt_sq_eq_abs, abs_le]
      norm_num
      constructor <;> linarith
    have he : beside.error (1 / 2 ^ 53) CARTESIAN lowPoint b 1 1 ≤ 1 / 2 ^ 20 := by
      unfold Mounted.error
      rw [abs_of_pos (show 0 < b.1 by linarith), abs_of_pos (show 0 < b.2 by linarith)]
      norm_num
      linarith
    have := (abs_le.1 g4).2
    norm_num at hd he
    linarith

/-- C163 is false for `getNearestPad` of a TPC and pads at negative angles: a point is on the only pad of the first module, and outside
of the second one, but the nearest pad is a pad of the second one. -/
theorem tpc_disk_nearest_false {T : TpcParams.Tpc ℝ} {x y : TpcParams.Mod ℝ} {L : PadAngle.Layout ℝ} (hL : lowRing.Has realDoubles L)
    (hT : TpcParams.getModules T = [x, y]) (hx : lowRing.Is realDoubles 100 CARTESIAN L x) (hy : beside.Is realDoubles 2 CARTESIAN y) :
    lowRing.On realDoubles (1 / 2 ^ 53) CARTESIAN 0 0 lowPoint ∧
      (∀ q ∈ Rect.Spec.box (1, 1) 2 2, 1 / 4 ≤ far lowPoint (onPlate CARTESIAN beside.values q)) ∧
      ∃ p, TpcParams.getNearestPad T lowPoint.1 lowPoint.2 = .ok ⟨p, 2⟩ := by
  obtain ⟨⟨c1, c2⟩, c3, c4⟩ := lowPoint_near
  refine ⟨lowPoint_on, ?_, ?_⟩
  · rintro q ⟨hq, -⟩
    rw [beside_plate]
    have h := (far_components (le_refl (far lowPoint (q.1 + 9 / 4, q.2 - 3 / 2)))).1
    rw [abs_le] at hq
    norm_num at hq
    refine le_trans ?_ h
    refine le_trans ?_ (neg_le_abs _)
    dsimp only
    linarith [hq.1]
  · obtain ⟨p, D, h1, h2, h3⟩ := beside_nearest
    obtain ⟨D', h4, h5⟩ := lowRing_distance hL
    have hi : IsIndex lowRing.pads L 0 0 0 := by
      obtain rfl := Res.ok.inj hL
      exact ⟨by norm_num [lowRing, PadAngle.Spec.Args.IsPad], rfl⟩
    have hn : getNearestPad realDoubles (lowRing.module realDoubles 100 CARTESIAN L) lowPoint.1 lowPoint.2 = .ok 0 :=
      disk_nearest_double_partial (M := lowRing) realDoubles_rounded (by norm_num) (Or.inl rfl) lowRing_proper hL hi
        (fun h => absurd h polar_ne) lowPoint_on (by rw [lowRing_angles]; norm_num) (by rw [lowRing_angles]; norm_num)
    refine ⟨p, ?_⟩
    have hid : y.id = 2 := hy.id
    have : TpcParams.getNearestPad T lowPoint.1 lowPoint.2 = TpcParams.nearestPad lowPoint.1 lowPoint.2 (TpcParams.getModules T) := rfl
    rw [this, hT, ← hid]
    refine winner lowPoint.1 lowPoint.2 (by rw [hy.nearest]; exact h1) (by rw [hy.distance]; exact h2) [x, y] (by simp) ?_
    intro z hz hne
    simp only [List.mem_cons, List.not_mem_nil, or_false] at hz
    obtain rfl := hz.resolve_right hne
    exact ⟨0, D', by rw [hx.nearest]; exact hn, by rw [hx.distance]; exact h4, by linarith⟩

end Gear.TpcModule.Double
