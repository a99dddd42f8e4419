/-
Distances from pads of the modules of a TPC that start at the angle 0 or at negative angles, in `double` arithmetic (C170).
-/
import Verif.TpcPolarDoubleFar

set_option autoImplicit false
set_option linter.unusedSectionVars false

namespace Gear.TpcModule.Double

open Real
open TpcModule.Spec (plane Values)
open Disk.Spec (point)
open Versatile (RowArgs)
open Versatile.Spec (middle)
open Versatile.Double.Spec (IsRow pitch edge rError phiError)
open PadSize.Spec (IsIndex PadsInRow)
open Spec

/-! ### Specification -/

namespace Spec

/-- The angle `phi` of a point, which is known up to `e`, lies in the turn that starts at 0 and is less than a full turn away from both
borders `v` and `z` of a pad, which are known up to `f`. -/
structure NearTurn (u v z e f phi : ℝ) : Prop where
  first : 20 * u + e ≤ phi
  last : phi ≤ 2 * π - 20 * u - e
  lower : phi + e ≤ v - f + 2 * π
  upper : z + f - 2 * π ≤ phi - e

/-- The point is `d` away from the pad `pad` of row `i` of a module with a versatile layout, at the radius `r` and the angle `phi` of the
module's own plane; the pad may start at the angle 0 or before it. -/
structure MountedVersatile.Beside (u : ℝ) (M : MountedVersatile) (i : ℕ) (a : RowArgs ℝ) (pad : ℤ) (d r phi : ℝ) (c : ℝ × ℝ) : Prop where
  at_ : M.At u CARTESIAN r phi c
  turn : NearTurn u (edge M.rMin M.rows i a pad) (edge M.rMin M.rows i a (pad + 1)) (M.turnError u CARTESIAN c r) (phiError u i) phi
  away : SegmentAway u M.values (middle M.rMin M.rows i a - a.rowHeight / 2) (middle M.rMin M.rows i a + a.rowHeight / 2)
    (edge M.rMin M.rows i a pad) (edge M.rMin M.rows i a (pad + 1)) (2 * rError u M.rMin M.rows i a) (phiError u i)
    (4 * middle M.rMin M.rows i a) d c

/-- The point is `d` away from the pad `pad` of row `row`, which has `n` pads, of a module with a fixed pad size, at the radius `r` and the
angle `phi` of the module's own plane; the pad may be the first one of the row. -/
structure MountedSize.Beside (u : ℝ) (M : MountedSize) (L : PadSize.Layout ℝ) (n row pad : ℤ) (d r phi : ℝ) (c : ℝ × ℝ) : Prop where
  at_ : M.At u CARTESIAN r phi c
  turn : NearTurn u (pad * (M.pads.phiMax / n)) ((pad + 1) * (M.pads.phiMax / n)) (3 * M.shift u CARTESIAN c / r) (60 * u) phi
  away : SegmentAway u M.values (M.pads.rMin + row * ((M.pads.rMax - M.pads.rMin) / PadSize.getNRows L))
    (M.pads.rMin + (row + 1) * ((M.pads.rMax - M.pads.rMin) / PadSize.getNRows L))
    (pad * (M.pads.phiMax / n)) ((pad + 1) * (M.pads.phiMax / n)) (12 * u * M.pads.rMax) (60 * u) (2 * M.pads.rMax) d c

end Spec

variable {F : Arith ℝ} {u : ℝ} {fuel : ℕ}

/-! ### C170 -/

/-- In a Cartesian TPC, the distance that a module with a versatile layout gives for a pad that the point is away from, also when this pad
starts at the angle 0 or before it. -/
theorem versatile_beside_double_partial {M : MountedVersatile} {L : Versatile.Layout ℝ} {i : ℕ} {a : RowArgs ℝ} {pad p : ℤ} (R : Rounded F u)
    (hu : 0 < u) (N : Nearest F) (hM : M.Proper F u L) (hp : M.IsPad L i a pad p) {c : ℝ × ℝ} {d r phi : ℝ}
    (hd : M.Beside u i a pad d r phi c) :
    ∃ D, getDistanceToPad F (M.module F fuel CARTESIAN L) c.1 c.2 p = .ok D ∧ |D - d| ≤ M.farError u i a d c := by
  have A := angle_rounded R hu
  obtain ⟨ctr, h, w, k, h0, w0, b1, b2, b3, b4⟩ := versatile_limits (fuel := fuel) R hu hM hp
  obtain ⟨row, g1, Nr, g3⟩ := Versatile.Double.row_placed A hM.proper hM.started hM.built hp.row
  have m1 := Nr.pos
  have hh := Nr.h
  have hhm := Nr.hm
  have hdd := Nr.small
  have d4 := Nr.d4
  obtain ⟨s0, -⟩ := Nr.sizes A
  have eR := Versatile.Double.rError_eq u M.rMin M.rows i a
  have e5 : 2 * Versatile.Double.Spec.rError u M.rMin M.rows i a ≤ middle M.rMin M.rows i a := by
    rw [eR]
    have dm := mul_le_mul_of_nonneg_right hdd m1.le
    have dm4 := mul_le_mul_of_nonneg_right d4 m1.le
    linarith
  refine polar_far_turn R hu N (A := versatile F (fuel + 1) L) rfl hM.settled hM.given k h0 w0 b1 b2 b3 b4 (by linarith) ?_ (by linarith)
    hd.away fun l hl => ?_
  · unfold edge pitch
    push_cast
    linarith
  · obtain ⟨l', l1, l2, ⟨k, l3⟩, l4, l5, l6⟩ := versatile_local (fuel := fuel) R hM hd.at_
    obtain rfl := Res.ok.inj (l1.symm.trans hl)
    obtain ⟨t1, t2, t3, t4⟩ := hd.turn
    obtain rfl := no_turn R hu l3 l5 l6 t1 t2
    simp only [Int.cast_zero, zero_mul, add_zero] at l3
    have l3 := abs_le.1 l3
    constructor <;> linarith [l3.1, l3.2]

/-- In a Cartesian TPC, the distance that a module with a fixed pad size gives for a pad that the point is away from, also when this pad is
the first one of its row. -/
theorem size_beside_double_partial {M : MountedSize} {L : PadSize.Layout ℝ} (R : Rounded F u) (hu : 0 < u) (N : Nearest F)
    (hM : M.Proper F L) {n row pad p : ℤ} (hn : PadsInRow L row n) (hp : IsIndex L row pad p) {c : ℝ × ℝ} {d r phi : ℝ}
    (hd : M.Beside u L n row pad d r phi c) :
    ∃ D, getDistanceToPad F (M.module F fuel CARTESIAN L) c.1 c.2 p = .ok D ∧ |D - d| ≤ M.farError u d c := by
  have hs := R.small
  have hA := hM.made.proper
  have hr0 := hA.r0
  have hrm := hA.r
  have hphi := hA.phi
  have hphi0 := hA.phi0
  have hpi := abs_le.1 R.pi
  have hp4 := Real.pi_lt_d2
  have hup : u * π ≤ 1 / 1000 * π := mul_le_mul_of_nonneg_right hs Real.pi_pos.le
  obtain ⟨hn1, -⟩ := hM.filled.pads _ _ hn
  have hnn : (0 : ℝ) < n := by exact_mod_cast hn1
  have W0 : 0 < M.pads.phiMax / n := div_pos hphi0 hnn
  obtain ⟨ctr, h, w, k, h0, w0, b1, b2, b3, b4, H0, H1⟩ := size_limits (fuel := fuel) R hu hM hn hp (by
    have h2 : F.pi ≤ 3.2 := by linarith [hpi.2]
    have h3 : M.pads.phiMax ≤ 2 * F.pi := hphi
    linarith)
  have uM : u * M.pads.rMax ≤ 1 / 1000 * M.pads.rMax := mul_le_mul_of_nonneg_right hs (by linarith)
  refine polar_far_turn R hu N (A := fixedSize F (fuel + 1) L) rfl hM.settled hM.given k h0 w0 b1 b2 b3 b4 (by linarith) (by linarith)
    (by linarith) hd.away fun l hl => ?_
  obtain ⟨l', l1, l2, ⟨k, l3⟩, l5, l6⟩ := size_local (fuel := fuel) R hM hd.at_
  obtain rfl := Res.ok.inj (l1.symm.trans hl)
  obtain ⟨t1, t2, t3, t4⟩ := hd.turn
  obtain rfl := no_turn R hu l3 l5 l6 t1 t2
  simp only [Int.cast_zero, zero_mul, add_zero] at l3
  have l3 := abs_le.1 l3
  constructor <;> linarith [l3.1, l3.2]

/-! ### Non-vacuity -/

/-- A point 5 units outside of the first pad of the second row, which starts at the angle 0. -/
theorem plates_beside : platesAt.Beside (1 / 2 ^ 53) 1 (twoPads 4) 0 5 10 (1 / 2) (onPlate CARTESIAN platesAt.values (point 10 (1 / 2))) := by
  have e : middle platesAt.rMin platesAt.rows 1 (twoPads 4) = 4 := by
    rcases plates_rows (i := 1) (a := twoPads 4) rfl with ⟨h, -⟩ | ⟨-, -, e⟩
    · cases h
    · exact e
  obtain ⟨s0, s1⟩ := moved_size (phi := 1 / 2) (V := platesAt.values) rfl
  have h3 := Real.pi_gt_three
  have hl := radial_least (V := platesAt.values) (x := 3) (y := 5) (v := 0) (z := 1) (r := 10) (phi := 1 / 2) (by norm_num) (by norm_num)
    (by norm_num) (by norm_num) (by norm_num)
  have ew : (4 : ℝ) - (twoPads 4).rowHeight / 2 = 3 := by norm_num [twoPads]
  have ex : (4 : ℝ) + (twoPads 4).rowHeight / 2 = 5 := by norm_num [twoPads]
  have ey : edge platesAt.rMin platesAt.rows 1 (twoPads 4) 0 = 0 := by unfold edge pitch; rw [e]; norm_num [twoPads]
  have ez : edge platesAt.rMin platesAt.rows 1 (twoPads 4) (0 + 1) = 1 := by unfold edge pitch; rw [e]; norm_num [twoPads]
  have er : 0 ≤ rError (1 / 2 ^ 53) platesAt.rMin platesAt.rows 1 (twoPads 4) ∧
      rError (1 / 2 ^ 53) platesAt.rMin platesAt.rows 1 (twoPads 4) ≤ 1 / 2 ^ 40 := by
    unfold rError
    rw [e]
    norm_num
  have ep : 0 ≤ phiError (1 / 2 ^ 53 : ℝ) 1 ∧ phiError (1 / 2 ^ 53 : ℝ) 1 ≤ 1 / 2 ^ 40 := by
    unfold phiError
    norm_num
  refine ⟨⟨by rw [plane_cartesian]; rfl, by norm_num, ?_⟩, ?_, ?_⟩
  · unfold MountedVersatile.shift
    norm_num
    linarith
  · rw [ey, ez]
    unfold MountedVersatile.turnError MountedVersatile.shift
    generalize size CARTESIAN platesAt.values (onPlate CARTESIAN platesAt.values (point 10 (1 / 2))) = w at s0 s1
    generalize phiError (1 / 2 ^ 53 : ℝ) 1 = pe at ep ⊢
    norm_num at ep
    constructor <;> norm_num <;> linarith [ep.1, ep.2]
  · rw [ey, ez, e, ew, ex]
    generalize rError (1 / 2 ^ 53) platesAt.rMin platesAt.rows 1 (twoPads 4) = re at er ⊢
    generalize phiError (1 / 2 ^ 53 : ℝ) 1 = pe at ep ⊢
    refine ⟨?_, by norm_num at hl ⊢; exact hl, by norm_num, ?_, ?_⟩
    · norm_num at er; linarith [er.2]
    · unfold segmentMargin
      norm_num at er ep ⊢
      linarith [er.2, ep.2]
    · generalize size CARTESIAN platesAt.values (onPlate CARTESIAN platesAt.values (point 10 (1 / 2))) = w at s0 s1
      have := pow_le_pow_left₀ (by linarith : 0 ≤ 2 * (w + 4 * 4)) (by linarith : 2 * (w + 4 * 4) ≤ 112) 2
      norm_num at this ⊢
      linarith

example : ∃ L p D, platesAt.IsPad L 1 (twoPads 4) 0 p ∧ ∃ c : ℝ × ℝ,
    getDistanceToPad realDoubles (platesAt.module realDoubles 0 CARTESIAN L) c.1 c.2 p = .ok D ∧
      |D - 5| ≤ platesAt.farError (1 / 2 ^ 53) 1 (twoPads 4) 5 c := by
  obtain ⟨L, hM, -⟩ := plates_proper
  obtain ⟨p, hp⟩ := plates_pad hM (pad := 0) (by norm_num)
  obtain ⟨D, h1, h2⟩ := versatile_beside_double_partial (fuel := 0) realDoubles_rounded (by norm_num) realDoubles_nearest hM hp plates_beside
  exact ⟨L, p, D, hp, _, h1, h2⟩

/-- A point 8 units outside of the first pad. -/
theorem rowAt_beside : rowAt.Beside (1 / 2 ^ 53) fourPads 4 0 0 8 10 (1 / 2) (onPlate CARTESIAN rowAt.values (point 10 (1 / 2))) := by
  obtain ⟨s0, s1⟩ := moved_size (phi := 1 / 2) (V := rowAt.values) rfl
  have h3 := Real.pi_gt_three
  have hl := radial_least (V := rowAt.values) (x := 1) (y := 2) (v := 0) (z := 3 / 4) (r := 10) (phi := 1 / 2) (by norm_num) (by norm_num)
    (by norm_num) (by norm_num) (by norm_num)
  have e : PadSize.getNRows fourPads = 1 := rfl
  have ew : rowAt.pads.rMin + ((0 : ℤ) : ℝ) * ((rowAt.pads.rMax - rowAt.pads.rMin) / ((1 : ℤ) : ℝ)) = 1 := by norm_num [rowAt, rowPads]
  have ex : rowAt.pads.rMin + (((0 : ℤ) : ℝ) + 1) * ((rowAt.pads.rMax - rowAt.pads.rMin) / ((1 : ℤ) : ℝ)) = 2 := by norm_num [rowAt, rowPads]
  have ey : ((0 : ℤ) : ℝ) * (rowAt.pads.phiMax / ((4 : ℤ) : ℝ)) = 0 := by norm_num
  have ez : (((0 : ℤ) : ℝ) + 1) * (rowAt.pads.phiMax / ((4 : ℤ) : ℝ)) = 3 / 4 := by norm_num [rowAt, rowPads]
  have er : rowAt.pads.rMax = 2 := rfl
  refine ⟨⟨by rw [plane_cartesian]; rfl, by norm_num, ?_⟩, ?_, ?_⟩
  · unfold MountedSize.shift
    norm_num
    linarith
  · rw [ey, ez]
    unfold MountedSize.shift
    generalize size CARTESIAN rowAt.values (onPlate CARTESIAN rowAt.values (point 10 (1 / 2))) = w at s0 s1
    constructor <;> norm_num <;> linarith
  · rw [e, ew, ex, ey, ez, er]
    refine ⟨by norm_num, by norm_num at hl ⊢; exact hl, by norm_num, ?_, ?_⟩
    · unfold segmentMargin
      norm_num
      linarith
    · generalize size CARTESIAN rowAt.values (onPlate CARTESIAN rowAt.values (point 10 (1 / 2))) = w at s0 s1
      have := pow_le_pow_left₀ (by linarith : 0 ≤ 2 * (w + 2 * 2)) (by linarith : 2 * (w + 2 * 2) ≤ 88) 2
      norm_num at this ⊢
      linarith

example : ∃ p D, IsIndex fourPads 0 0 p ∧ ∃ c : ℝ × ℝ,
    getDistanceToPad realDoubles (rowAt.module realDoubles 0 CARTESIAN fourPads) c.1 c.2 p = .ok D ∧
      |D - 8| ≤ rowAt.farError (1 / 2 ^ 53) 8 c := by
  obtain ⟨hn, p, hp⟩ := fourPads_index (pad := 0) (by norm_num)
  obtain ⟨D, h1, h2⟩ := size_beside_double_partial (fuel := 0) realDoubles_rounded (by norm_num) realDoubles_nearest rowAt_proper hn hp
    rowAt_beside
  exact ⟨p, D, hp, _, h1, h2⟩

end Gear.TpcModule.Double
