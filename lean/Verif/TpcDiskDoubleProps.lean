/-
Pads of the disk modules of a TPC in `double` arithmetic (C163).
-/
import Verif.TpcDiskDouble
import Verif.TpcDoubleProps
import Verif.PadAngleDoubleTurns

set_option autoImplicit false
set_option linter.unusedSectionVars false

namespace Gear.TpcModule.Double

open Real
open TpcModule.Spec (Known plane place Op Values values Settled)
open PadAngle.Spec (Args IsIndex)
open PadAngle.Double.Spec (rError phiError DeepInPad)
open Spec

/-! ### Specification -/

namespace Spec

/-- A module with a layout with a fixed pad angle: what was passed to the constructors, and all calls on the module. -/
structure MountedDisk where
  id : ℤ
  frequency : ℝ
  ops : List Op
  pads : Args ℝ

namespace MountedDisk

/-- The values last given to the setters. -/
def values (M : MountedDisk) : Values := TpcModule.Spec.values M.frequency M.ops

/-- The layout that the constructor makes. -/
def Has (F : Arith ℝ) (M : MountedDisk) (L : PadAngle.Layout ℝ) : Prop :=
  PadAngle.Double.new F.toArith M.pads.rMin M.pads.rMax M.pads.nRow M.pads.phiMin M.pads.phiMax M.pads.nPads = .ok L

/-- The module with this layout. -/
noncomputable def module (F : Arith ℝ) (fuel : ℕ) (t : ℤ) (M : MountedDisk) (L : PadAngle.Layout ℝ) : Module ℝ :=
  made F M.id (fixedAngle F fuel L) t M.frequency M.ops

/-- The offset or the angle was set after the position along z, angles of offsets are doubles, and the layout is a ring segment of at most
one turn. -/
structure Proper (F : Arith ℝ) (M : MountedDisk) : Prop where
  settled : Settled M.ops
  given : ∀ o ∈ M.ops, Given F o
  pads : M.pads.Proper
  inner : 0 ≤ M.pads.rMin
  span : M.pads.phiMax - M.pads.phiMin ≤ 2 * F.pi

/-- The error of a position through the transformation into the module's own plane. -/
noncomputable def shift (u : ℝ) (t : ℤ) (M : MountedDisk) (c : ℝ × ℝ) : ℝ := 100 * u * size t M.values c

/-- How large angles in the module's own plane can be. -/
noncomputable def angles (t : ℤ) (M : MountedDisk) (c : ℝ × ℝ) : ℝ :=
  (if t = POLAR then 2 * |c.2| else 0) + 2 * |M.values.angle| + 2 * (|M.pads.phiMin| + |M.pads.phiMax|) + 70

/-- The point `c` is placed at the radius `r` and the angle `phi` of the module's own plane. -/
def At (t : ℤ) (M : MountedDisk) (r phi : ℝ) (c : ℝ × ℝ) : Prop := plane t c = onPlate t M.values (r * cos phi, r * sin phi)

/-- The point `c` lies on the pad in row `row` and column `pad` of the module, and not near to its border. -/
def On (F : Arith ℝ) (u : ℝ) (t : ℤ) (M : MountedDisk) (row pad : ℤ) (c : ℝ × ℝ) : Prop :=
  ∃ r phi, M.At t r phi c ∧ DeepInPad M.pads (rError M.pads u + 2 * M.shift u t c)
    (phiError M.pads u F.pi + 3 * M.shift u t c / r + 5 * u * M.angles t c ^ 2) row pad r phi

/-- The module of the TPC is this one. -/
structure Is (F : Arith ℝ) (fuel : ℕ) (t : ℤ) (M : MountedDisk) (L : PadAngle.Layout ℝ) (x : TpcParams.Mod ℝ) : Prop where
  id : x.id = M.id
  nearest : ∀ a b, x.getNearestPad a b = getNearestPad F (M.module F fuel t L) a b
  distance : ∀ a b p, x.getDistanceToPad a b p = getDistanceToPad F (M.module F fuel t L) a b p

end MountedDisk

end Spec

variable {F : Arith ℝ} {u : ℝ} {t : ℤ} {fuel : ℕ} {M : MountedDisk} {L : PadAngle.Layout ℝ}

/-! ### Polar coordinates -/

/-- Points that are near to each other have similar polar coordinates. -/
theorem polar_close {r r' phi phi' e : ℝ} (hr : 0 < r) (hr' : 0 ≤ r') (he : e ≤ r / 2)
    (h : far (r' * cos phi', r' * sin phi') (r * cos phi, r * sin phi) ≤ e) :
    |r' - r| ≤ e ∧ ∃ k : ℤ, |phi' - (phi + k * (2 * π))| ≤ 3 * e / r := by
  have h0 : 0 ≤ e := le_trans (Real.sqrt_nonneg _) h
  have hp := Real.pi_pos
  obtain ⟨k, hk⟩ : ∃ k : ℤ, k = round ((phi' - phi) / (2 * π)) := ⟨_, rfl⟩
  obtain ⟨d, hd⟩ : ∃ d, d = phi' - (phi + k * (2 * π)) := ⟨_, rfl⟩
  have hd1 : |d| ≤ π := by
    have h1 := abs_sub_round ((phi' - phi) / (2 * π))
    rw [← hk] at h1
    have h2 : d = ((phi' - phi) / (2 * π) - k) * (2 * π) := by rw [hd]; field_simp; ring
    rw [h2, abs_mul, abs_of_pos (show 0 < 2 * π by positivity)]
    nlinarith
  have hc : cos (phi' - phi) = cos d := by
    have : phi' - phi = d + k * (2 * π) := by rw [hd]; ring
    rw [this, cos_add_int_mul_two_pi]
  have sq : (r' - r) ^ 2 + 2 * (r * r') * (1 - cos d) ≤ e ^ 2 := by
    have h1 : √((r' * cos phi' - r * cos phi) ^ 2 + (r' * sin phi' - r * sin phi) ^ 2) ≤ e := h
    rw [Real.sqrt_le_left h0] at h1
    rw [← hc, cos_sub]
    have s1 := sin_sq_add_cos_sq phi
    have s2 := sin_sq_add_cos_sq phi'
    have : (r' - r) ^ 2 + 2 * (r * r') * (1 - (cos phi' * cos phi + sin phi' * sin phi)) =
        (r' * cos phi' - r * cos phi) ^ 2 + (r' * sin phi' - r * sin phi) ^ 2 := by
      linear_combination (-r ^ 2) * s1 + (-r' ^ 2) * s2
    rw [this]
    exact h1
  have q := cos_le_one_sub_mul_cos_sq hd1
  have rr : 0 ≤ r * r' := mul_nonneg hr.le hr'
  have c1 : 0 ≤ 2 * (r * r') * (1 - cos d) := mul_nonneg (by linarith) (by linarith [cos_le_one d])
  have a1 : |r' - r| ≤ e := abs_le_of_sq_le_sq (by linarith) h0
  refine ⟨a1, k, ?_⟩
  rw [← hd]
  rw [abs_le] at a1
  have r2 : r / 2 ≤ r' := by linarith [a1.1]
  have p10 : π ^ 2 ≤ 10 := by nlinarith [Real.pi_lt_d2, Real.pi_gt_three]
  have x1 : 2 / π ^ 2 * d ^ 2 ≤ 1 - cos d := by linarith
  have x2 : 1 / 5 * d ^ 2 ≤ 2 / π ^ 2 * d ^ 2 := by
    refine mul_le_mul_of_nonneg_right ?_ (sq_nonneg d)
    rw [div_le_div_iff₀ (by norm_num) (by positivity)]
    linarith
  have x3 : r * (r / 2) ≤ r * r' := mul_le_mul_of_nonneg_left r2 hr.le
  have x4 : 2 * (r * (r / 2)) * (1 / 5 * d ^ 2) ≤ 2 * (r * r') * (1 - cos d) :=
    mul_le_mul (by linarith) (by linarith) (by positivity) (by linarith)
  have x5 : (r * d) ^ 2 ≤ (3 * e) ^ 2 := by
    have : 2 * (r * (r / 2)) * (1 / 5 * d ^ 2) = (r * d) ^ 2 / 5 := by ring
    nlinarith [sq_nonneg (r' - r), sq_nonneg e]
  have x6 := abs_le_of_sq_le_sq x5 (by linarith)
  rw [abs_mul, abs_of_pos hr] at x6
  rw [le_div_iff₀ hr]
  linarith

/-- The range of polar coordinates. -/
theorem polar_range (R : Rounded F u) (x y : ℝ) : 0 ≤ (polar F x y).1 ∧ 0 ≤ (polar F x y).2 ∧ (polar F x y).2 ≤ F.turn := by
  obtain ⟨-, h1, -, -⟩ := polar_err R x y
  have hu := R.nonneg
  have hs := R.small
  have hp := Real.pi_pos
  have hp3 := Real.pi_gt_three
  have ha := Complex.abs_arg_le_pi ⟨x, y⟩
  have h2 := R.atan2 x y
  have h3 : u * |Complex.arg ⟨x, y⟩| ≤ 1 / 1000 * π := mul_le_mul hs ha (abs_nonneg _) (by norm_num)
  have h4 : |F.atan2 y x| ≤ 1.001 * π := by
    have := abs_sub_abs_le_abs_sub (F.atan2 y x) (Complex.arg ⟨x, y⟩)
    linarith
  have hpi := R.pi
  have h5 : u * π ≤ 1 / 1000 * π := mul_le_mul_of_nonneg_right hs hp.le
  rw [abs_le] at h4 hpi
  have h6 := R.rounding.bounds (x := 2 * F.pi) (by linarith [hpi.1])
  have h7 : 1.99 * π ≤ F.turn := by
    refine le_trans ?_ h6.1
    nlinarith [hpi.1]
  have hturn : F.rnd F.turn = F.turn := R.rounding.idem _
  refine ⟨h1, ?_⟩
  have e : (polar F x y).2 = if F.atan2 y x < 0 then F.add (F.atan2 y x) F.turn else F.atan2 y x := rfl
  rw [e]
  split_ifs with hn
  · constructor
    · refine R.rounding.nonneg ?_
      linarith [h4.1]
    · rw [← hturn]
      refine (R.rounding.mono _ _ ?_).trans (le_of_eq rfl)
      rw [hturn]; linarith
  · exact ⟨not_lt.1 hn, by linarith [h4.2]⟩

/-- The range of local coordinates. -/
theorem local_range (R : Rounded F u) {m : Module ℝ} (h : Inv F u m) (ht : Known m.momsCoordinateType)
    (hl : m.layout.coordinateType = POLAR) {c p : ℝ × ℝ} (h0 : m.momsCoordinateType = POLAR → 0 ≤ c.1)
    (hp : globalToLocal F m c.1 c.2 = .ok p) :
    0 ≤ p.1 ∧ |p.2| ≤ (if m.momsCoordinateType = POLAR then 2 * |c.2| else 0) + 2 * |m.angle| + 40 ∧
      (m.momsCoordinateType = CARTESIAN → 0 ≤ p.2 ∧ p.2 ≤ F.turn) := by
  have hu := R.nonneg
  have hs := R.small
  have hc2 := abs_nonneg c.2
  have hma := abs_nonneg m.angle
  have hpi := abs_le.1 R.pi
  have hp1 := Real.pi_lt_d2
  have h5 : u * π ≤ 1 / 1000 * π := mul_le_mul_of_nonneg_right hs Real.pi_pos.le
  have hturn0 : F.turn ≤ 8 := by
    have h6 := R.rounding.bounds (x := 2 * F.pi) (by linarith [hpi.1, Real.pi_gt_three])
    refine h6.2.trans ?_
    nlinarith [hpi.2]
  -- points calculated with `polar`
  have fin : ∀ x y : ℝ, toLocal F m x y = .ok p →
      0 ≤ p.1 ∧ |p.2| ≤ (if m.momsCoordinateType = POLAR then 2 * |c.2| else 0) + 2 * |m.angle| + 40 ∧
      (m.momsCoordinateType = CARTESIAN → 0 ≤ p.2 ∧ p.2 ≤ F.turn) := by
    intro x y hx
    unfold toLocal at hx
    dsimp only at hx
    rw [if_pos hl] at hx
    have hx := Res.ok.inj hx
    rw [← hx]
    obtain ⟨a1, a2, a3⟩ := polar_range R (F.add (F.mul (F.sub x m.offsetCartesian.1) m.cosAngle)
      (F.mul (F.sub y m.offsetCartesian.2) m.sinAngle)) (F.sub (F.mul (F.sub y m.offsetCartesian.2) m.cosAngle)
      (F.mul (F.sub x m.offsetCartesian.1) m.sinAngle))
    refine ⟨a1, ?_, fun _ => ⟨a2, a3⟩⟩
    rw [abs_of_nonneg a2]
    have : (0 : ℝ) ≤ if m.momsCoordinateType = POLAR then 2 * |c.2| else 0 := by split_ifs <;> positivity
    linarith
  unfold globalToLocal at hp
  by_cases hg : m.localIsGlobal = true
  · rw [if_pos hg] at hp
    have hp := Res.ok.inj hp
    obtain ⟨e1, -, -⟩ := h.flag ht hg
    rw [hl] at e1
    rw [← hp]
    refine ⟨h0 e1, ?_, fun hc => absurd (hc.symm.trans e1) polar_ne⟩
    rw [if_pos e1]
    show |c.2| ≤ _
    linarith
  · rw [if_neg hg] at hp
    obtain ⟨d, d1, -, d3⟩ := mirror_near R ht c
    rw [d1, Res.bind_ok] at hp
    dsimp only at hp
    by_cases hc : m.momsCoordinateType = POLAR ∧ m.layout.coordinateType = POLAR ∧
        m.offsetCartesian.1 = 0 ∧ m.offsetCartesian.1 = 0
    · rw [if_pos hc] at hp
      obtain ⟨d3, d4⟩ := d3 hc.1
      have f1 : |F.sub d.2 m.angle| ≤ 1.001 * (|d.2| + |m.angle|) := by
        have e := R.rounding.abs_le (d.2 - m.angle)
        have e2 := abs_sub d.2 m.angle
        have e3 : (1 + u) * |d.2 - m.angle| ≤ 1.001 * (|d.2| + |m.angle|) :=
          mul_le_mul (by linarith) e2 (abs_nonneg _) (by norm_num)
        exact e.trans e3
      have wr : ∀ (x : ℝ) (P : Prop) [Decidable P], |if P then F.add x F.turn else x| ≤ 1.001 * |x| + 9 := by
        intro x P _
        have hx := abs_nonneg x
        split_ifs
        · have e := R.rounding.abs_le (x + F.turn)
          have e2 := abs_add_le x F.turn
          have e4 : |F.turn| ≤ 8 := by
            rw [abs_of_nonneg]
            · exact hturn0
            · exact R.rounding.nonneg (by linarith [hpi.1, Real.pi_gt_three])
          have e3 : (1 + u) * |x + F.turn| ≤ 1.001 * (|x| + 8) :=
            mul_le_mul (by linarith) (by linarith) (abs_nonneg _) (by norm_num)
          have e : |F.add x F.turn| ≤ (1 + u) * |x + F.turn| := e
          linarith
        · linarith
      have hp := Res.ok.inj hp
      rw [← hp]
      refine ⟨?_, ?_, fun he => absurd (he.symm.trans hc.1) polar_ne⟩
      · rw [d3]; exact h0 hc.1
      · rw [if_pos hc.1]
        have w1 := wr (F.sub d.2 m.angle) (F.sub d.2 m.angle < 0)
        have w2 := wr (if F.sub d.2 m.angle < 0 then F.add (F.sub d.2 m.angle) F.turn else F.sub d.2 m.angle)
          ((if F.sub d.2 m.angle < 0 then F.add (F.sub d.2 m.angle) F.turn else F.sub d.2 m.angle) > F.turn)
        refine w2.trans ?_
        linarith
    · rw [if_neg hc] at hp
      cases hcart : cartesian F m d.1 d.2 with
      | ok g => rw [hcart, Res.bind_ok] at hp; exact fin _ _ hp
      | throw e => rw [hcart] at hp; exact absurd hp (by intro hh; cases hh)
      | ub => rw [hcart] at hp; exact absurd hp (by intro hh; cases hh)

theorem shift_nonneg (R : Rounded F u) (c : ℝ × ℝ) : 0 ≤ M.shift u t c := by
  have h1 := R.nonneg
  have h2 := size_nonneg t M.values c
  unfold MountedDisk.shift
  positivity

/-- The polar coordinates of a point in the module's own plane, up to rounding. -/
theorem disk_local (R : Rounded F u) (ht : Known t) (hM : M.Proper F) {c : ℝ × ℝ} (h0 : t = POLAR → 0 ≤ c.1) {r phi : ℝ}
    (hr : 0 < r) (he : 2 * M.shift u t c ≤ r) (hq : M.At t r phi c) :
    ∃ l, globalToLocal F (M.module F fuel t L) c.1 c.2 = .ok l ∧ |l.1 - r| ≤ M.shift u t c ∧
      (∃ k : ℤ, |l.2 - (phi + k * (2 * π))| ≤ 3 * M.shift u t c / r) ∧
      |l.2| + 2 * (|M.pads.phiMin| + |M.pads.phiMax|) + 30 ≤ M.angles t c ∧
      (t = CARTESIAN → 0 ≤ l.2 ∧ l.2 ≤ F.turn) := by
  obtain ⟨p, h1, h2⟩ := globalToLocal_double (id := M.id) (L := fixedAngle F fuel L) (f := M.frequency) R ht (Or.inr rfl)
    hM.settled hM.given c
  have hh := made_has F M.id (fixedAngle F fuel L) t M.frequency M.ops
  obtain ⟨a1, a2, a3⟩ := local_range R ((Inv.new R M.id (fixedAngle F fuel L) t M.frequency).run R M.ops hM.given)
    (by rw [hh.type]; exact ht) (by rw [hh.layout]; rfl) (by rw [hh.type]; exact h0) h1
  rw [hh.type] at a2 a3
  rw [hh.angle] at a2
  have e : plane (fixedAngle F fuel L).coordinateType p = (p.1 * cos p.2, p.1 * sin p.2) := plane_polar p
  unfold MountedDisk.At onPlate at hq
  rw [e, hq, far_eq] at h2
  unfold MountedDisk.values at h2
  rw [place_far, ← far_eq] at h2
  obtain ⟨b1, b2⟩ := polar_close hr a1 (by
    show 100 * u * (weight t c * (1 + |M.values.angle|) + weight t M.values.offset) ≤ r / 2
    have := he
    unfold MountedDisk.shift size at this
    linarith) h2
  refine ⟨p, h1, b1, b2, ?_, a3⟩
  unfold MountedDisk.angles MountedDisk.values
  linarith

theorem disk_layout : (M.module F fuel t L).layout = fixedAngle F fuel L :=
  (made_has F M.id (fixedAngle F fuel L) t M.frequency M.ops).layout

/-- An angle in the range of local angles, near to an angle that is not at the ends of it, differs from it by no turn. -/
theorem no_turn (R : Rounded F u) (hu : 0 < u) {x phi e : ℝ} {k : ℤ} (l3 : |x - (phi + k * (2 * π))| ≤ e) (l5 : 0 ≤ x)
    (l6 : x ≤ F.turn) (h1 : 20 * u + e ≤ phi) (h2 : phi ≤ 2 * π - 20 * u - e) : k = 0 := by
  have hturn : F.turn ≤ 2 * π + 15 * u := by
    have A := angle_rounded R hu
    have := abs_le.1 (PadAngle.Double.turn_err R.rounding hu.le A.pi.1 A.pi.2 R.pi)
    have e : F.turn = F.mul 2 F.pi := rfl
    rw [e]; linarith [this.2]
  have hpos := Real.pi_pos
  rw [abs_le] at l3
  by_contra hne
  rcases lt_or_gt_of_ne hne with hneg | hgt
  · have : (k : ℝ) ≤ -1 := by exact_mod_cast (by omega : k ≤ -1)
    have := mul_le_mul_of_nonneg_right this (show 0 ≤ 2 * π by linarith)
    linarith [l3.2]
  · have : (1 : ℝ) ≤ k := by exact_mod_cast (by omega : 1 ≤ k)
    have := mul_le_mul_of_nonneg_right this (show 0 ≤ 2 * π by linarith)
    linarith [l3.1]

/-! ### C163 -/

/-- For a point on a pad, not near to its border, `getNearestPad` of the module gives this pad. -/
theorem disk_nearest_double_partial (R : Rounded F u) (hu : 0 < u) (ht : Known t) (hM : M.Proper F) (hL : M.Has F L)
    {row pad p : ℤ} (hp : IsIndex M.pads L row pad p) {c : ℝ × ℝ} (h0 : t = POLAR → 0 ≤ c.1) (hc : M.On F u t row pad c)
    (hs : u * M.angles t c ≤ 1 / 10) (hf : M.angles t c + 1 ≤ fuel) :
    getNearestPad F (M.module F fuel t L) c.1 c.2 = .ok p := by
  obtain ⟨r, phi, hq, ⟨d1, d2⟩, d3, d4⟩ := hc
  have hu0 := R.nonneg
  have sh := shift_nonneg (M := M) (t := t) R c
  have re : 0 ≤ rError M.pads u := by unfold rError; positivity
  have hrow : (0 : ℝ) ≤ row := by exact_mod_cast hp.1.1.1
  have hdr : 0 < M.pads.dr := by
    have := hM.pads.r
    have : (0 : ℝ) < M.pads.nRow := by exact_mod_cast hM.pads.rows.1
    unfold Args.dr
    exact div_pos (by linarith) this
  have hm := hM.inner
  have h1 : 0 ≤ row * M.pads.dr := mul_nonneg hrow hdr.le
  have re1 : 0 < rError M.pads u := by
    have : 0 < |M.pads.rMax| := abs_pos.2 (by linarith [hM.pads.r])
    unfold rError
    positivity
  have hr : 0 < r := by linarith
  obtain ⟨l, l1, l2, ⟨k, l3⟩, l4, -⟩ := disk_local (fuel := fuel) (L := L) R ht hM h0 hr (by linarith) hq
  obtain ⟨T, hT⟩ : ∃ T, T = PadAngle.Double.Spec.turnSize M.pads l.2 := ⟨_, rfl⟩
  have hT1 : T ≤ M.angles t c := by rw [hT]; exact l4
  have hT0 : 0 ≤ T := by rw [hT]; unfold PadAngle.Double.Spec.turnSize; positivity
  have hTT : u * T ^ 2 ≤ u * M.angles t c ^ 2 := mul_le_mul_of_nonneg_left (pow_le_pow_left₀ hT0 hT1 2) hu0
  have hsT : u * T ≤ u * M.angles t c := mul_le_mul_of_nonneg_left hT1 hu0
  rw [abs_le] at l2
  obtain ⟨p', i1, i2⟩ := PadAngle.Double.nearest_turns_double (angle_rounded R hu) R.pi hM.pads hM.span hM.inner hL hp.1 (r := l.1)
    (phi := l.2) (phi0 := phi) l3 (by
      rw [← hT]
      refine ⟨⟨by linarith [l2.1], by linarith [l2.2]⟩, ?_, ?_⟩ <;> linarith) (by rw [← hT]; linarith) fuel (by rw [← hT]; linarith)
  obtain rfl := Res.ok.inj (hp.2.symm.trans i1)
  unfold getNearestPad
  rw [l1, Res.bind_ok, disk_layout]
  show (match PadAngle.Double.getNearestPad F.toArith L fuel l.1 l.2 with | some x => x | none => Res.ub) = _
  rw [i2]

/-- In a Cartesian TPC, `isInsidePad` of the module is true on the pad, and false for points that are not on it, up to rounding.  This
is for pads whose angles are between 0 and a full turn. -/
theorem disk_inside_double_partial (R : Rounded F u) (hu : 0 < u) (hM : M.Proper F) (hL : M.Has F L)
    {row pad p : ℤ} (hp : IsIndex M.pads L row pad p) {c : ℝ × ℝ} {r phi : ℝ} (hr : 0 < r) (he : 2 * M.shift u CARTESIAN c ≤ r)
    (hq : M.At CARTESIAN r phi c) :
    ∃ b, isInsidePad F (M.module F fuel CARTESIAN L) c.1 c.2 p = .ok b ∧
      (DeepInPad M.pads (rError M.pads u + M.shift u CARTESIAN c) (phiError M.pads u F.pi + 3 * M.shift u CARTESIAN c / r) row pad r phi →
        20 * u + 3 * M.shift u CARTESIAN c / r ≤ phi → phi ≤ 2 * π - 20 * u - 3 * M.shift u CARTESIAN c / r → b = true) ∧
      (b = true → ∃ k : ℤ, DeepInPad M.pads (-(rError M.pads u + M.shift u CARTESIAN c))
        (-(phiError M.pads u F.pi + 3 * M.shift u CARTESIAN c / r)) row pad r (phi + k * (2 * π))) := by
  have hu0 := R.nonneg
  obtain ⟨l, l1, l2, ⟨k, l3⟩, -, l5⟩ := disk_local (fuel := fuel) (L := L) R (Or.inl rfl) hM (fun h => absurd h polar_ne) hr he hq
  obtain ⟨l5, l6⟩ := l5 rfl
  obtain ⟨i1, i2⟩ := PadAngle.Double.inside_deep (angle_rounded R hu) hM.pads hL hp l.1 l.2
  refine ⟨PadAngle.Double.isInsidePad F.toArith L l.1 l.2 p, ?_, fun hd h1 h2 => i1 ?_, fun hb => ⟨k, ?_⟩⟩
  · unfold isInsidePad
    rw [l1, Res.bind_ok, disk_layout]
    rfl
  · obtain rfl := no_turn R hu l3 l5 l6 h1 h2
    simp only [Int.cast_zero, zero_mul, add_zero] at l3
    rw [abs_le] at l2 l3
    obtain ⟨⟨d1, d2⟩, d3, d4⟩ := hd
    exact ⟨⟨by linarith [l2.1], by linarith [l2.2]⟩, by linarith [l3.1], by linarith [l3.2]⟩
  · obtain ⟨⟨d1, d2⟩, d3, d4⟩ := i2 hb
    rw [abs_le] at l2 l3
    exact ⟨⟨by linarith [l2.2], by linarith [l2.1]⟩, by linarith [l3.2], by linarith [l3.1]⟩

/-- In a Cartesian TPC, the distance to the pad is 0 on the pad.  This is for pads whose angles are between 0 and a full turn. -/
theorem disk_distance_double_partial (R : Rounded F u) (hu : 0 < u) (hM : M.Proper F) (hL : M.Has F L)
    {row pad p : ℤ} (hp : IsIndex M.pads L row pad p) {c : ℝ × ℝ} {r phi : ℝ} (hr : 0 < r) (he : 2 * M.shift u CARTESIAN c ≤ r)
    (hq : M.At CARTESIAN r phi c)
    (hd : DeepInPad M.pads (rError M.pads u + M.shift u CARTESIAN c) (phiError M.pads u F.pi + 3 * M.shift u CARTESIAN c / r) row pad r phi)
    (h1 : 20 * u + 3 * M.shift u CARTESIAN c / r ≤ phi) (h2 : phi ≤ 2 * π - 20 * u - 3 * M.shift u CARTESIAN c / r) :
    getDistanceToPad F (M.module F fuel CARTESIAN L) c.1 c.2 p = .ok 0 := by
  obtain ⟨l, l1, l2, ⟨k, l3⟩, -, l5⟩ := disk_local (fuel := fuel) (L := L) R (Or.inl rfl) hM (fun h => absurd h polar_ne) hr he hq
  obtain ⟨l5, l6⟩ := l5 rfl
  obtain ⟨⟨b1, b2⟩, ⟨b3, b4⟩, -, -⟩ := PadAngle.Double.borders (angle_rounded R hu) hM.pads hL hp
  obtain rfl := no_turn R hu l3 l5 l6 h1 h2
  simp only [Int.cast_zero, zero_mul, add_zero] at l3
  rw [abs_le] at l2 l3 b1 b2 b3 b4
  obtain ⟨⟨d1, d2⟩, d3, d4⟩ := hd
  unfold getDistanceToPad
  rw [l1, Res.bind_ok, disk_layout]
  unfold fixedAngle
  dsimp only
  unfold Disk.Double.angleDistance Disk.Double.getDistanceToPad Disk.Double.keystoneDistance
  rw [if_pos ⟨by linarith [b3.2, l3.1], by linarith [b4.1, l3.2]⟩, if_pos ⟨by linarith [b1.2, l2.1], by linarith [b2.1, l2.2]⟩]

/-- In a Cartesian TPC, `getNearestPad` of the TPC gives the pad and the module that the point is on, when the pads that the other modules
answer with are not at the distance 0.  This is for pads whose angles are between 0 and a full turn. -/
theorem tpc_disk_nearest_double_partial (R : Rounded F u) (hu : 0 < u) (T : TpcParams.Tpc ℝ) {x : TpcParams.Mod ℝ}
    (hx : x ∈ TpcParams.getModules T) (hI : M.Is F fuel CARTESIAN L x) (hM : M.Proper F) (hL : M.Has F L)
    {row pad p : ℤ} (hp : IsIndex M.pads L row pad p) {c : ℝ × ℝ} {r phi : ℝ} (hq : M.At CARTESIAN r phi c)
    (hd : DeepInPad M.pads (rError M.pads u + 2 * M.shift u CARTESIAN c)
      (phiError M.pads u F.pi + 3 * M.shift u CARTESIAN c / r + 5 * u * M.angles CARTESIAN c ^ 2) row pad r phi)
    (h1 : 20 * u + 3 * M.shift u CARTESIAN c / r ≤ phi) (h2 : phi ≤ 2 * π - 20 * u - 3 * M.shift u CARTESIAN c / r)
    (hs : u * M.angles CARTESIAN c ≤ 1 / 10) (hf : M.angles CARTESIAN c + 1 ≤ fuel)
    (ho : ∀ y ∈ TpcParams.getModules T, y ≠ x → ∃ p' d, y.getNearestPad c.1 c.2 = .ok p' ∧ y.getDistanceToPad c.1 c.2 p' = .ok d ∧ 0 < d) :
    TpcParams.getNearestPad T c.1 c.2 = .ok ⟨p, M.id⟩ := by
  have hn := disk_nearest_double_partial (fuel := fuel) R hu (Or.inl rfl) hM hL hp (fun h => absurd h polar_ne) ⟨r, phi, hq, hd⟩ hs hf
  have sh := shift_nonneg (M := M) (t := CARTESIAN) R c
  obtain ⟨⟨d1, d2⟩, d3, d4⟩ := hd
  have hrow : (0 : ℝ) ≤ row := by exact_mod_cast hp.1.1.1
  have hdr : 0 < M.pads.dr := by
    have := hM.pads.r
    have : (0 : ℝ) < M.pads.nRow := by exact_mod_cast hM.pads.rows.1
    unfold Args.dr
    exact div_pos (by linarith) this
  have hm := hM.inner
  have h0 : 0 ≤ row * M.pads.dr := mul_nonneg hrow hdr.le
  have re1 : 0 < rError M.pads u := by
    have : 0 < |M.pads.rMax| := abs_pos.2 (by linarith [hM.pads.r])
    unfold rError
    positivity
  have ha : 0 ≤ 5 * u * M.angles CARTESIAN c ^ 2 := by positivity
  have hdist := disk_distance_double_partial (fuel := fuel) R hu hM hL hp (by linarith : 0 < r) (by linarith) hq
    ⟨⟨by linarith, by linarith⟩, by linarith, by linarith⟩ h1 h2
  rw [← hI.id]
  exact winner c.1 c.2 (by rw [hI.nearest]; exact hn) (by rw [hI.distance]; exact hdist) _ hx ho

/-- `getPadCenter` of a module is the place of the middle of the pad, up to rounding. -/
theorem disk_center_double (R : Rounded F u) (hu : 0 < u) (ht : Known t) (hM : M.Proper F) (hL : M.Has F L)
    {row pad p : ℤ} (hp : IsIndex M.pads L row pad p) :
    ∃ g c : ℝ × ℝ, getPadCenter F (M.module F fuel t L) p = .ok g ∧
      |c.1 - (M.pads.rMin + (row + 1 / 2) * M.pads.dr)| ≤ 6 * u * (|M.pads.rMin| + |M.pads.rMax|) ∧
      |c.2 - (M.pads.phiMin + (pad + 1 / 2) * M.pads.dphi)| ≤ 6 * u * (|M.pads.phiMin| + |M.pads.phiMax|) ∧
      far (plane t g) (onPlate t M.values (c.1 * cos c.2, c.1 * sin c.2)) ≤
        100 * u * (|c.1| * (1 + |c.2|) * (1 + |M.values.angle|) + weight t M.values.offset) := by
  obtain ⟨-, -, k1, k2⟩ := PadAngle.Double.borders (angle_rounded R hu) hM.pads hL hp
  obtain ⟨g, h1, h2⟩ := localToGlobal_double (id := M.id) (L := fixedAngle F fuel L) (f := M.frequency) R ht (Or.inr rfl)
    hM.settled hM.given (PadAngle.Double.getPadCenter F.toArith L p)
  refine ⟨g, PadAngle.Double.getPadCenter F.toArith L p, ?_, k1, k2, ?_⟩
  · unfold getPadCenter
    rw [disk_layout]
    exact h1
  · have e : plane (fixedAngle F fuel L).coordinateType (PadAngle.Double.getPadCenter F.toArith L p) = _ := plane_polar _
    have ew : weight (fixedAngle F fuel L).coordinateType (PadAngle.Double.getPadCenter F.toArith L p) = _ := weight_polar _
    rw [e, ew] at h2
    exact h2

/-- C163 is false for `isInsidePad` and pads at negative angles: in a Cartesian TPC no point is inside of such a pad, not even the centre
that the module gives for it. -/
theorem disk_inside_false (R : Rounded F u) (hu : 0 < u) (hM : M.Proper F) (hL : M.Has F L)
    {row pad p : ℤ} (hp : IsIndex M.pads L row pad p) (hn : M.pads.phiMin + (pad + 1) * M.pads.dphi + phiError M.pads u F.pi < 0)
    (c : ℝ × ℝ) : isInsidePad F (M.module F fuel CARTESIAN L) c.1 c.2 p = .ok false := by
  obtain ⟨l, h1, -⟩ := globalToLocal_double (id := M.id) (L := fixedAngle F fuel L) (f := M.frequency) R (Or.inl rfl) (Or.inr rfl)
    hM.settled hM.given c
  have hh := made_has F M.id (fixedAngle F fuel L) CARTESIAN M.frequency M.ops
  obtain ⟨-, -, a3⟩ := local_range R ((Inv.new R M.id (fixedAngle F fuel L) CARTESIAN M.frequency).run R M.ops hM.given)
    (by rw [hh.type]; exact Or.inl rfl) (by rw [hh.layout]; rfl) (by rw [hh.type]; exact fun h => absurd h polar_ne) h1
  obtain ⟨a3, -⟩ := a3 hh.type
  unfold isInsidePad
  have h1 : globalToLocal F (M.module F fuel CARTESIAN L) c.1 c.2 = .ok l := h1
  rw [h1, Res.bind_ok, disk_layout]
  show Res.ok (PadAngle.Double.isInsidePad F.toArith L l.1 l.2 p) = _
  congr 1
  by_contra hb
  obtain ⟨-, -, d4⟩ := (PadAngle.Double.inside_deep (angle_rounded R hu) hM.pads hL hp l.1 l.2).2 (by simpa using hb)
  linarith


/-! ### Non-vacuity -/

/-- A ring segment with two rows of four pads, between -1 and 1. -/
def ringPads : Args ℝ := ⟨1, 3, 2, -1, 1, 4⟩

/-- It is placed at the middle of the TPC. -/
def ringAt : MountedDisk := ⟨7, 1, [.offset 0 0], ringPads⟩

theorem ringAt_proper : ringAt.Proper realDoubles := by
  have hpi := abs_le.1 realDoubles_rounded.pi
  refine ⟨⟨[], .offset 0 0, [], rfl, trivial, by simp⟩, ?_, ?_, ?_, ?_⟩
  · intro o ho
    obtain rfl : o = .offset 0 0 := by simpa [ringAt] using ho
    exact Doubles.binary64_zero
  · constructor <;> norm_num [ringAt, ringPads]
  · norm_num [ringAt, ringPads]
  · have := Real.pi_gt_three
    norm_num [ringAt, ringPads]
    norm_num at hpi
    linarith [hpi.1]

theorem ringAt_has : ∃ L, ringAt.Has realDoubles L := ⟨_, rfl⟩

theorem ringAt_plate (q : ℝ × ℝ) : onPlate CARTESIAN ringAt.values q = q := by
  have hv : ringAt.values = ⟨0, (0, 0), 0, none, 1⟩ := rfl
  rw [hv]
  unfold onPlate place
  norm_num

theorem ringAt_size (c : ℝ × ℝ) : size CARTESIAN ringAt.values c = |c.1| + |c.2| := by
  have hv : ringAt.values = ⟨0, (0, 0), 0, none, 1⟩ := rfl
  rw [hv]
  unfold size
  rw [weight_cartesian, weight_cartesian]
  simp

theorem ringAt_angles (c : ℝ × ℝ) : ringAt.angles CARTESIAN c = 74 := by
  have hv : ringAt.values = ⟨0, (0, 0), 0, none, 1⟩ := rfl
  unfold MountedDisk.angles
  rw [hv]
  norm_num [ringAt, ringPads, CARTESIAN, POLAR]

/-- The middle of a pad of the ring segment is on this pad. -/
theorem ringAt_on {row pad : ℤ} (hp : ringPads.IsPad row pad) :
    ringAt.On realDoubles (1 / 2 ^ 53) CARTESIAN row pad
      ((3 / 2 + row) * cos (-3 / 4 + pad / 2), (3 / 2 + row) * sin (-3 / 4 + pad / 2)) ∧
    ringAt.shift (1 / 2 ^ 53) CARTESIAN ((3 / 2 + row) * cos (-3 / 4 + pad / 2), (3 / 2 + row) * sin (-3 / 4 + pad / 2)) ≤ 1 / 2 ^ 43 := by
  have hr0 : (0 : ℝ) ≤ row := by exact_mod_cast hp.1.1
  have hr1 : (row : ℝ) ≤ 1 := by
    have : row < 2 := hp.1.2
    exact_mod_cast (by omega : row ≤ 1)
  obtain ⟨r, hr⟩ : ∃ r : ℝ, r = 3 / 2 + row := ⟨_, rfl⟩
  obtain ⟨phi, hphi⟩ : ∃ phi : ℝ, phi = -3 / 4 + pad / 2 := ⟨_, rfl⟩
  rw [← hr, ← hphi]
  have sh : ringAt.shift (1 / 2 ^ 53) CARTESIAN (r * cos phi, r * sin phi) ≤ 1 / 2 ^ 43 := by
    unfold MountedDisk.shift
    rw [ringAt_size]
    dsimp only
    have a1 : |r * cos phi| ≤ 5 / 2 := by
      rw [abs_mul, abs_of_nonneg (by linarith : 0 ≤ r)]
      have := mul_le_mul (show r ≤ 5 / 2 by linarith) (abs_cos_le_one phi) (abs_nonneg _) (by norm_num)
      linarith
    have a2 : |r * sin phi| ≤ 5 / 2 := by
      rw [abs_mul, abs_of_nonneg (by linarith : 0 ≤ r)]
      have := mul_le_mul (show r ≤ 5 / 2 by linarith) (abs_sin_le_one phi) (abs_nonneg _) (by norm_num)
      linarith
    generalize |r * cos phi| = x at a1 ⊢
    generalize |r * sin phi| = y at a2 ⊢
    norm_num
    linarith
  refine ⟨⟨r, phi, ?_, ?_⟩, sh⟩
  · unfold MountedDisk.At
    rw [plane_cartesian, ringAt_plate]
  · have hpi := abs_le.1 realDoubles_rounded.pi
    have hp1 := Real.pi_lt_d2
    have pi4 : realDoubles.pi ≤ 4 := by norm_num at hpi; linarith [hpi.2]
    have pe : phiError ringAt.pads (1 / 2 ^ 53) realDoubles.pi ≤ 1 / 2 ^ 46 := by
      norm_num [phiError, ringAt, ringPads]
      linarith
    have re : rError ringAt.pads (1 / 2 ^ 53) ≤ 1 / 2 ^ 46 := by norm_num [rError, ringAt, ringPads]
    have s3 : 3 * ringAt.shift (1 / 2 ^ 53) CARTESIAN (r * cos phi, r * sin phi) / r ≤ 1 / 2 ^ 40 := by
      rw [div_le_iff₀ (by linarith)]
      norm_num at sh ⊢
      linarith
    rw [ringAt_angles]
    have e1 : ringAt.pads.dr = 1 := by norm_num [ringAt, ringPads, Args.dr]
    have e2 : ringAt.pads.dphi = 1 / 2 := by norm_num [ringAt, ringPads, Args.dphi]
    have e3 : ringAt.pads.rMin = 1 := rfl
    have e4 : ringAt.pads.phiMin = -1 := rfl
    generalize ringAt.shift (1 / 2 ^ 53) CARTESIAN (r * cos phi, r * sin phi) = x at sh s3 ⊢
    generalize 3 * x / r = y at s3 ⊢
    generalize phiError ringAt.pads (1 / 2 ^ 53) realDoubles.pi = z at pe ⊢
    generalize rError ringAt.pads (1 / 2 ^ 53) = w at re ⊢
    unfold DeepInPad
    rw [e1, e2, e3, e4]
    norm_num at sh re pe s3 ⊢
    refine ⟨⟨?_, ?_⟩, ?_, ?_⟩ <;> linarith
/-- Non-vacuity of `disk_nearest_double_partial`: the middle of every pad of the ring segment. -/
example {L : PadAngle.Layout ℝ} (hL : ringAt.Has realDoubles L) {row pad p : ℤ} (hp : IsIndex ringPads L row pad p) :
    getNearestPad realDoubles (ringAt.module realDoubles 75 CARTESIAN L) ((3 / 2 + row) * cos (-3 / 4 + pad / 2))
      ((3 / 2 + row) * sin (-3 / 4 + pad / 2)) = .ok p :=
  disk_nearest_double_partial (M := ringAt) realDoubles_rounded (by norm_num) (Or.inl rfl) ringAt_proper hL hp
    (fun h => absurd h polar_ne) (ringAt_on hp.1).1 (by rw [ringAt_angles]; norm_num) (by rw [ringAt_angles]; norm_num)

/-- Non-vacuity of `disk_inside_false`: this is not inside of the pad. -/
example {L : PadAngle.Layout ℝ} (hL : ringAt.Has realDoubles L) {p : ℤ} (hp : IsIndex ringPads L 1 0 p) :
    isInsidePad realDoubles (ringAt.module realDoubles 75 CARTESIAN L) (5 / 2 * cos (-3 / 4)) (5 / 2 * sin (-3 / 4)) p = .ok false := by
  refine disk_inside_false (M := ringAt) realDoubles_rounded (by norm_num) ringAt_proper hL hp ?_ (_, _)
  have hpi := abs_le.1 realDoubles_rounded.pi
  have hp1 := Real.pi_lt_d2
  have pi4 : realDoubles.pi ≤ 4 := by norm_num at hpi; linarith [hpi.2]
  norm_num [ringAt, ringPads, phiError, Args.dphi]
  linarith

/-- There are pads of these indices. -/
example {L : PadAngle.Layout ℝ} (hL : ringAt.Has realDoubles L) : IsIndex ringPads L 1 0 65536 ∧ IsIndex ringPads L 1 3 65539 := by
  obtain rfl := Res.ok.inj hL
  exact ⟨⟨by norm_num [ringPads, Args.IsPad], rfl⟩, by norm_num [ringPads, Args.IsPad], rfl⟩

/-- Non-vacuity of `disk_inside_double_partial`: another pad is at positive angles. -/
example {L : PadAngle.Layout ℝ} (hL : ringAt.Has realDoubles L) {p : ℤ} (hp : IsIndex ringPads L 1 3 p) :
    isInsidePad realDoubles (ringAt.module realDoubles 75 CARTESIAN L) (5 / 2 * cos (3 / 4)) (5 / 2 * sin (3 / 4)) p = .ok true := by
  obtain ⟨⟨r, phi, -, -⟩, hs⟩ := ringAt_on (row := 1) (pad := 3) (by norm_num [ringPads, Args.IsPad])
  norm_num at hs
  obtain ⟨b, h1, h2, -⟩ := disk_inside_double_partial (fuel := 75) (M := ringAt) realDoubles_rounded (by norm_num) ringAt_proper hL hp
    (c := (5 / 2 * cos (3 / 4), 5 / 2 * sin (3 / 4))) (r := 5 / 2) (phi := 3 / 4) (by norm_num) (by norm_num; linarith)
    (by unfold MountedDisk.At; rw [plane_cartesian, ringAt_plate])
  rw [h1, h2 ?_ ?_ ?_]
  · have hpi := abs_le.1 realDoubles_rounded.pi
    have hp1 := Real.pi_lt_d2
    have pi4 : realDoubles.pi ≤ 4 := by norm_num at hpi; linarith [hpi.2]
    norm_num [DeepInPad, ringAt, ringPads, phiError, rError, Args.dphi, Args.dr] at hs ⊢
    refine ⟨⟨?_, ?_⟩, ?_, ?_⟩ <;> linarith
  · norm_num; linarith
  · have := Real.pi_gt_three
    norm_num; linarith

/-- Non-vacuity of `PadAngle.Double.nearest_turns_double`: an angle with two more turns. -/
theorem ring_two_turns {L : PadAngle.Layout ℝ} (hL : ringAt.Has realDoubles L) :
    PadAngle.Double.getNearestPad realDoubles.toArith L 60 (5 / 2) (3 / 4 + (2 : ℤ) * (2 * π)) = some (.ok 65539) := by
  have hi : PadAngle.getPadIndex L 1 3 = .ok 65539 := by
    obtain rfl := Res.ok.inj hL
    rfl
  have h3 := Real.pi_gt_three
  have h4 := Real.pi_lt_d2
  have hpi := abs_le.1 realDoubles_rounded.pi
  have pi4 : realDoubles.pi ≤ 4 := by norm_num at hpi; linarith [hpi.2]
  obtain ⟨T, hT⟩ : ∃ T, T = PadAngle.Double.Spec.turnSize ringPads (3 / 4 + (2 : ℤ) * (2 * π)) := ⟨_, rfl⟩
  have hT1 : T ≤ 48 := by
    rw [hT]
    unfold PadAngle.Double.Spec.turnSize
    rw [abs_of_pos (by norm_num; linarith)]
    norm_num [ringPads]
    linarith
  have hT0 : 0 ≤ T := by rw [hT]; unfold PadAngle.Double.Spec.turnSize; positivity
  have hT2 : T ^ 2 ≤ 48 ^ 2 := pow_le_pow_left₀ hT0 hT1 2
  obtain ⟨p, h1, h2⟩ := PadAngle.Double.nearest_turns_double (angle_rounded realDoubles_rounded (by norm_num)) realDoubles_rounded.pi
    ringAt_proper.pads ringAt_proper.span ringAt_proper.inner hL (row := 1) (pad := 3) (by norm_num [ringAt, ringPads, Args.IsPad])
    (r := 5 / 2) (phi := 3 / 4 + (2 : ℤ) * (2 * π)) (phi0 := 3 / 4) (d := 0) (k := 2) (by simp) (by
      change DeepInPad ringPads (rError ringPads _) (phiError ringPads _ _ + 0 + 5 * _ * PadAngle.Double.Spec.turnSize ringPads _ ^ 2) _ _ _ _
      rw [← hT]
      norm_num at hT2
      norm_num [DeepInPad, ringPads, phiError, rError, Args.dphi, Args.dr]
      constructor <;> linarith) (by
      change 1 / 2 ^ 53 * PadAngle.Double.Spec.turnSize ringPads _ ≤ _
      rw [← hT]; norm_num; linarith) 60 (by
      change PadAngle.Double.Spec.turnSize ringPads _ + 1 ≤ _
      rw [← hT]; norm_num; linarith)
  rw [hi] at h1
  obtain rfl := Res.ok.inj h1
  exact h2

/-- Non-vacuity of `PadAngle.Double.nearest_is_pad`: the pad for this angle. -/
example {L : PadAngle.Layout ℝ} (hL : ringAt.Has realDoubles L) : ∃ row pad, IsIndex ringPads L row pad 65539 :=
  PadAngle.Double.nearest_is_pad (angle_rounded realDoubles_rounded (by norm_num)) ringAt_proper.pads hL (ring_two_turns hL)

end Gear.TpcModule.Double
