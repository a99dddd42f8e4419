/-
Lemmas about one row of a versatile disk layout in the arithmetic of `double`: the rounding errors of its radii and angles.
-/
import Verif.VersatileDoubleLemmas

set_option autoImplicit false
set_option linter.unusedSectionVars false

namespace Gear.Versatile.Double

open PadIndex Disk Doubles Versatile.Spec Spec
open Rect (elem elemUb elemAt)
open MaterialMap (Arith)
open PadAngle.Double (floorInt floorInt_nonneg)
open PadAngle.Double.Spec (Rounded)

variable {K : Type} [Field K] [LinearOrder K] [IsStrictOrderedRing K] [FloorRing K]
variable {F : Arith K} {u d m : K} {a : RowArgs K} {row : Row K}

/-- A row whose middle radius is `m` up to a relative error `d`. -/
structure Near (F : Arith K) (u d m : K) (a : RowArgs K) (row : Row K) : Prop where
  pos : 0 < m
  d4 : 4 * u ≤ d
  small : d ≤ 1 / 500
  rc : |row.rCentre - m| ≤ d * m
  h : 0 < a.rowHeight
  hm : a.rowHeight / 2 ≤ m
  rowHeight : row.rowHeight = a.rowHeight
  nPads : row.nPads = a.nPads
  n0 : 0 < a.nPads
  n1 : a.nPads ≤ 65536
  pp : 0 ≤ a.padPitch
  pitch : row.padPitch = F.rnd (a.padPitch / row.rCentre)
  fits : F.rnd (row.padPitch * a.nPads) ≤ F.rnd (2 * F.pi)

/-- In addition its first pad starts where it was asked to. -/
structure Placed (F : Arith K) (u d m : K) (a : RowArgs K) (row : Row K) : Prop extends Near F u d m a row where
  off : 100 * |a.offset| ≤ 199 * F.pi * m
  offset : row.offset = F.rnd (a.offset / row.rCentre)

theorem near_rnd (R : Rounded F u) {v V e M : K} (h : |v - V| ≤ e) (hV : |V| ≤ M) : |F.rnd v - V| ≤ e + u * (M + e) := by
  have h1 := R.rounding.err v
  have h2 : |v| ≤ M + e := by
    have := abs_add_le (v - V) V
    rw [sub_add_cancel] at this
    linarith
  have h3 := mul_le_mul_of_nonneg_left h2 R.nonneg
  have := abs_add_le (F.rnd v - v) (v - V)
  rw [sub_add_sub_cancel] at this
  linarith

theorem Near.rc_bounds (N : Near F u d m a row) : 499 / 500 * m ≤ row.rCentre ∧ row.rCentre ≤ 501 / 500 * m := by
  have := _root_.abs_le.1 N.rc
  have h := mul_le_mul_of_nonneg_right N.small N.pos.le
  exact ⟨by linarith, by linarith⟩

/-- Dividing by the middle radius. -/
theorem Near.quot (N : Near F u d m a row) (R : Rounded F u) (x : K) :
    |F.rnd (x / row.rCentre) - x / m| ≤ 103 / 100 * (d + u) * (|x| / m) ∧ |x / row.rCentre| ≤ 101 / 100 * (|x| / m) := by
  have hm := N.pos
  obtain ⟨c1, c2⟩ := N.rc_bounds
  have hc : 0 < row.rCentre := by linarith
  have hd : 0 ≤ d := by linarith [N.d4, R.nonneg]
  have hX : 0 ≤ |x| / m := div_nonneg (abs_nonneg x) hm.le
  have e1 : |x / row.rCentre| ≤ 101 / 100 * (|x| / m) := by
    rw [abs_div, abs_of_pos hc, div_le_iff₀ hc]
    have : 101 / 100 * (|x| / m) * row.rCentre = (101 / 100 * row.rCentre / m) * |x| := by ring
    rw [this]
    have h1 : 1 ≤ 101 / 100 * row.rCentre / m := by rw [le_div_iff₀ hm]; linarith
    have := mul_le_mul_of_nonneg_right h1 (abs_nonneg x)
    linarith
  have e2 : |x / row.rCentre - x / m| ≤ 101 / 100 * d * (|x| / m) := by
    have : x / row.rCentre - x / m = (x / row.rCentre) * ((m - row.rCentre) / m) := by
      field_simp
    rw [this, abs_mul, abs_div (m - row.rCentre) m, abs_of_pos hm, abs_sub_comm m]
    have h1 : |row.rCentre - m| / m ≤ d := by rw [div_le_iff₀ hm]; exact N.rc
    have := mul_le_mul e1 h1 (div_nonneg (abs_nonneg _) hm.le) (by positivity)
    linarith
  refine ⟨?_, e1⟩
  have e3 := R.rounding.err (x / row.rCentre)
  have e4 := mul_le_mul_of_nonneg_left e1 R.nonneg
  have := abs_add_le (F.rnd (x / row.rCentre) - x / row.rCentre) (x / row.rCentre - x / m)
  rw [sub_add_sub_cancel] at this
  have p1 := mul_nonneg hd hX
  have p2 := mul_nonneg R.nonneg hX
  have e5 : 103 / 100 * (d + u) * (|x| / m) = 103 / 100 * (d * (|x| / m)) + 103 / 100 * (u * (|x| / m)) := by ring
  have e6 : 101 / 100 * d * (|x| / m) = 101 / 100 * (d * (|x| / m)) := by ring
  have e7 : u * (101 / 100 * (|x| / m)) = 101 / 100 * (u * (|x| / m)) := by ring
  rw [e5]; rw [e6] at e2; rw [e7] at e4
  linarith

/-! ### radii -/

theorem Near.radii (N : Near F u d m a row) (R : Rounded F u) :
    |rowMin F row - (m - a.rowHeight / 2)| ≤ (d + 4 * u) * m ∧ |rowMax F row - (m + a.rowHeight / 2)| ≤ (d + 4 * u) * m ∧
    rowMin F row ≤ rowMax F row := by
  have hm := N.pos
  have hh := N.h
  have hu := R.nonneg
  have hd : 0 ≤ d := by linarith [N.d4]
  unfold rowMin rowMax Arith.sub Arith.add Arith.mul
  rw [N.rowHeight, show a.rowHeight * (1 / 2) = a.rowHeight / 2 by ring]
  have hb := R.rounding.err (a.rowHeight / 2)
  rw [abs_of_pos (by linarith : 0 < a.rowHeight / 2)] at hb
  have hb' := hb.trans (mul_le_mul_of_nonneg_left N.hm hu)
  have q := R.rounding.nonneg (by linarith : 0 ≤ a.rowHeight / 2)
  generalize F.rnd (a.rowHeight / 2) = g at *
  obtain ⟨a1, a2⟩ := _root_.abs_le.1 N.rc
  obtain ⟨b1, b2⟩ := _root_.abs_le.1 hb'
  have s1 : |row.rCentre - g - (m - a.rowHeight / 2)| ≤ d * m + u * m := _root_.abs_le.2 ⟨by linarith, by linarith⟩
  have s2 : |row.rCentre + g - (m + a.rowHeight / 2)| ≤ d * m + u * m := _root_.abs_le.2 ⟨by linarith, by linarith⟩
  have t1 := near_rnd R s1 (M := m) (_root_.abs_le.2 ⟨by linarith [N.hm], by linarith⟩)
  have t2 := near_rnd R s2 (M := 2 * m) (_root_.abs_le.2 ⟨by linarith [N.hm], by linarith [N.hm]⟩)
  have um := mul_nonneg hu hm.le
  have k1 := mul_le_mul_of_nonneg_right N.small um
  have k2 := mul_le_mul_of_nonneg_right R.small um
  refine ⟨?_, ?_, R.rounding.mono _ _ (by linarith)⟩
  · have : (d + 4 * u) * m - (d * m + u * m + u * (m + (d * m + u * m))) = 2 * (u * m) - (d * (u * m) + u * (u * m)) := by ring
    linarith
  · have : (d + 4 * u) * m - (d * m + u * m + u * (2 * m + (d * m + u * m))) = (u * m) - (d * (u * m) + u * (u * m)) := by ring
    linarith

/-! ### angles -/

/-- The sizes of the angles. -/
theorem Near.sizes (N : Near F u d m a row) (R : Rounded F u) :
    0 ≤ a.padPitch / m ∧ (a.nPads : K) * (a.padPitch / m) ≤ 2 * F.pi + 9 * d + 25 * u ∧
    (a.nPads : K) * (a.padPitch / m) ≤ 81 / 10 ∧
    |row.padPitch - a.padPitch / m| ≤ 103 / 100 * (d + u) * (a.padPitch / m) ∧ 0 ≤ row.padPitch := by
  have hm := N.pos
  have hu := R.nonneg
  have hd : 0 ≤ d := by linarith [N.d4]
  have hn : (0 : K) < a.nPads := by exact_mod_cast N.n0
  have q := (N.quot R a.padPitch).1
  rw [abs_of_nonneg N.pp, ← N.pitch] at q
  have hP : 0 ≤ a.padPitch / m := div_nonneg N.pp hm.le
  obtain ⟨c1, -⟩ := N.rc_bounds
  have hp0 : 0 ≤ row.padPitch := by rw [N.pitch]; exact R.rounding.nonneg (div_nonneg N.pp (by linarith))
  generalize a.padPitch / m = P at *
  have hnP : 0 ≤ (a.nPads : K) * P := mul_nonneg hn.le hP
  have f := N.fits
  have f1 := (R.rounding.bounds (mul_nonneg hp0 hn.le)).1
  have f2 := (R.rounding.bounds (by linarith [R.pi.1] : 0 ≤ 2 * F.pi)).2
  have q1 := mul_le_mul_of_nonneg_right (_root_.abs_le.1 q).1 hn.le
  set Y := (a.nPads : K) * P with hY
  set W := row.padPitch * (a.nPads : K) with hW
  have e1 : (row.padPitch - P) * (a.nPads : K) = W - Y := by rw [hW, hY]; ring
  have e2 : -(103 / 100 * (d + u) * P) * (a.nPads : K) = -(103 / 100 * (d * Y + u * Y)) := by rw [hY]; ring
  rw [e1, e2] at q1
  have g1 := mul_le_mul_of_nonneg_right N.small hnP
  have g2 := mul_le_mul_of_nonneg_right R.small hnP
  have hW0 : 0 ≤ W := mul_nonneg hp0 hn.le
  have g3 := mul_le_mul_of_nonneg_right R.small hW0
  have pi4 := R.pi.2
  have g4 := mul_le_mul_of_nonneg_right R.small (by linarith [R.pi.1] : 0 ≤ F.pi)
  have hW1 : W ≤ 803 / 100 := by linarith
  have hY1 : Y ≤ 81 / 10 := by linarith
  refine ⟨hP, ?_, hY1, q, hp0⟩
  have g5 := mul_le_mul_of_nonneg_left hY1 hd
  have g6 := mul_le_mul_of_nonneg_left hY1 hu
  have g7 := mul_le_mul_of_nonneg_left hW1 hu
  have g8 := mul_le_mul_of_nonneg_left pi4 hu
  linarith

theorem Placed.start (N : Placed F u d m a row) (R : Rounded F u) :
    |a.offset| / m ≤ 8 ∧ |a.offset / m| = |a.offset| / m ∧ |row.offset - a.offset / m| ≤ 103 / 100 * (d + u) * (|a.offset| / m) := by
  have hm := N.pos
  refine ⟨?_, by rw [abs_div, abs_of_pos hm], by rw [N.offset]; exact (N.quot R _).1⟩
  rw [div_le_iff₀ hm]
  have := mul_le_mul_of_nonneg_right R.pi.2 hm.le
  linarith [N.off]

/-- The edge of a row after `k` pads, as computed. -/
theorem Placed.edge (N : Placed F u d m a row) (R : Rounded F u) {k : ℤ} (k0 : 0 ≤ k) (kn : k ≤ a.nPads) :
    |F.rnd (row.offset + F.rnd (row.padPitch * k)) - (a.offset / m + k * (a.padPitch / m))| ≤ 17 * d + 42 * u := by
  have hu := R.nonneg
  have hd : 0 ≤ d := by linarith [N.d4]
  obtain ⟨X8, aX, hX⟩ := N.start R
  obtain ⟨P0, -, n8, hP, p0⟩ := N.sizes R
  have X0 : 0 ≤ |a.offset| / m := div_nonneg (abs_nonneg _) N.pos.le
  rw [← aX] at X8 X0 hX
  generalize a.offset / m = x at *
  generalize a.padPitch / m = P at *
  have kk0 : (0 : K) ≤ k := by exact_mod_cast k0
  have kkn : (k : K) ≤ a.nPads := by exact_mod_cast kn
  have k8 := (mul_le_mul_of_nonneg_right kkn P0).trans n8
  have kP0 := mul_nonneg kk0 P0
  have s1 : |row.padPitch * k - k * P| ≤ 103 / 100 * (d + u) * (k * P) := by
    have := mul_le_mul_of_nonneg_right hP kk0
    rw [← abs_of_nonneg kk0, ← abs_mul] at this
    rw [abs_of_nonneg kk0] at this
    calc |row.padPitch * k - k * P| = |(row.padPitch - P) * k| := by rw [show row.padPitch * k - k * P = (row.padPitch - P) * k by ring]
      _ ≤ _ := by linarith
  have du : 0 ≤ d + u := by linarith
  have s1' : |row.padPitch * k - k * P| ≤ 835 / 100 * (d + u) := by
    have := mul_le_mul_of_nonneg_left k8 du
    linarith
  have s2 := near_rnd R s1' (M := 81 / 10) (by rw [abs_of_nonneg kP0]; exact k8)
  have hX' : |row.offset - x| ≤ 825 / 100 * (d + u) := by
    have := mul_le_mul_of_nonneg_left X8 du
    linarith
  generalize F.rnd (row.padPitch * k) = g at *
  have ud := mul_le_mul_of_nonneg_left N.small hu
  have uu := mul_le_mul_of_nonneg_left R.small hu
  have s3 : |row.offset + g - (x + k * P)| ≤ 166 / 10 * d + 25 * u := by
    rw [show row.offset + g - (x + k * P) = (row.offset - x) + (g - k * P) by ring]
    refine (abs_add_le _ _).trans ?_
    linarith
  have s4 := near_rnd R s3 (M := 161 / 10) ((abs_add_le _ _).trans (by rw [abs_of_nonneg kP0]; linarith))
  linarith

/-- The last edge of a row, as computed. -/
theorem Placed.last (N : Placed F u d m a row) (R : Rounded F u) :
    |rowEnd F row - (a.offset / m + a.nPads * (a.padPitch / m))| ≤ 17 * d + 42 * u := by
  have := N.edge R N.n0.le le_rfl
  unfold rowEnd Arith.add Arith.mul
  rw [N.nPads, mul_comm (a.nPads : K) row.padPitch]
  exact this

/-- The second edge of a pad, as computed. -/
theorem Placed.second (N : Placed F u d m a row) (R : Rounded F u) {k : ℤ} (k0 : 0 ≤ k) (kn : k < a.nPads) :
    |F.rnd (F.rnd (row.offset + F.rnd (row.padPitch * k)) + row.padPitch) - (a.offset / m + (k + 1) * (a.padPitch / m))| ≤
      26 * d + 70 * u := by
  have hu := R.nonneg
  have hd : 0 ≤ d := by linarith [N.d4]
  have s1 := N.edge R k0 kn.le
  obtain ⟨X8, aX, -⟩ := N.start R
  obtain ⟨P0, -, n8, hP, p0⟩ := N.sizes R
  rw [← aX] at X8
  generalize F.rnd (row.offset + F.rnd (row.padPitch * k)) = g at *
  generalize a.offset / m = x at *
  generalize a.padPitch / m = P at *
  have kk0 : (0 : K) ≤ k := by exact_mod_cast k0
  have kkn : (k : K) + 1 ≤ a.nPads := by exact_mod_cast kn
  have k8 := (mul_le_mul_of_nonneg_right kkn P0).trans n8
  have kP0 := mul_nonneg kk0 P0
  have P8 : P ≤ 81 / 10 := by linarith
  have du : 0 ≤ d + u := by linarith
  have s2 : |g + row.padPitch - (x + (k + 1) * P)| ≤ 254 / 10 * d + 51 * u := by
    rw [show g + row.padPitch - (x + (k + 1) * P) = (g - (x + k * P)) + (row.padPitch - P) by ring]
    refine (abs_add_le _ _).trans ?_
    have := mul_le_mul_of_nonneg_left P8 du
    linarith
  have s3 := near_rnd R s2 (M := 161 / 10) ((abs_add_le _ _).trans (by
    rw [abs_of_nonneg (mul_nonneg (by linarith) P0)]; linarith))
  have ud := mul_le_mul_of_nonneg_left N.small hu
  have uu := mul_le_mul_of_nonneg_left R.small hu
  linarith

/-- The middle of a pad, as computed. -/
theorem Placed.centre (N : Placed F u d m a row) (R : Rounded F u) {k : ℤ} (k0 : 0 ≤ k) (kn : k < a.nPads) :
    |F.rnd (row.offset + F.rnd (F.rnd ((k : K) + 1 / 2) * row.padPitch)) - (a.offset / m + (k + 1 / 2) * (a.padPitch / m))| ≤
      (103 / 100 * d + 4 * u) * (|a.offset| / m + (k + 1 / 2) * (a.padPitch / m)) := by
  have hu := R.nonneg
  have hd : 0 ≤ d := by linarith [N.d4]
  obtain ⟨X8, aX, hX⟩ := N.start R
  obtain ⟨P0, -, n8, hP, p0⟩ := N.sizes R
  have X0 : 0 ≤ |a.offset| / m := div_nonneg (abs_nonneg _) N.pos.le
  rw [R.rounding.half k0 (by have := N.n1; omega)]
  rw [← aX] at X8 X0 hX ⊢
  generalize a.offset / m = x at *
  generalize a.padPitch / m = P at *
  have kk0 : (0 : K) ≤ k := by exact_mod_cast k0
  have kh : (0 : K) ≤ k + 1 / 2 := by linarith
  set Q := ((k : K) + 1 / 2) * P with hQ
  have Q0 : 0 ≤ Q := mul_nonneg kh P0
  have s1 : |((k : K) + 1 / 2) * row.padPitch - Q| ≤ 103 / 100 * (d + u) * Q := by
    rw [hQ, ← mul_sub, abs_mul, abs_of_nonneg kh]
    have := mul_le_mul_of_nonneg_left hP kh
    linarith
  have s2 := near_rnd R s1 (M := Q) (by rw [abs_of_nonneg Q0])
  generalize F.rnd (((k : K) + 1 / 2) * row.padPitch) = g at *
  have s3 : |row.offset + g - (x + Q)| ≤ 103 / 100 * (d + u) * |x| + (103 / 100 * (d + u) * Q + u * (Q + 103 / 100 * (d + u) * Q)) := by
    rw [show row.offset + g - (x + Q) = (row.offset - x) + (g - Q) by ring]
    exact (abs_add_le _ _).trans (by linarith)
  have s4 := near_rnd R s3 (M := |x| + Q) ((abs_add_le _ _).trans (by rw [abs_of_nonneg Q0]))
  refine s4.trans ?_
  set Z := |x| + Q with hZ
  have Z0 : 0 ≤ Z := by linarith
  have t0 : 103 / 100 * (d + u) ≤ 4 / 1000 := by linarith [N.small, R.small]
  have t0' : 0 ≤ 103 / 100 * (d + u) := by linarith
  set e := 103 / 100 * (d + u) with he
  have uQ := mul_nonneg hu Q0
  have uZ := mul_nonneg hu Z0
  have ux := mul_nonneg hu X0
  have t1 := mul_le_mul_of_nonneg_right t0 uQ
  have t3 := mul_le_mul_of_nonneg_right t0 uZ
  have t4 := mul_le_mul_of_nonneg_right R.small uQ
  have t5 := mul_nonneg t0' uQ
  have t6 := mul_le_mul_of_nonneg_left t1 hu
  have t7 := mul_le_mul_of_nonneg_right R.small uQ
  have f1 : e * |x| + (e * Q + u * (Q + e * Q)) + u * (Z + (e * |x| + (e * Q + u * (Q + e * Q)))) =
      e * Z + u * Q + e * (u * Q) + u * Z + e * (u * Z) + u * (u * Q) + u * (e * (u * Q)) := by rw [hZ]; ring
  have f2 : (103 / 100 * d + 4 * u) * Z = e * Z + 297 / 100 * (u * Z) := by rw [he]; ring
  have f3 : u * Z = u * |x| + u * Q := by rw [hZ]; ring
  rw [f1, f2]
  have t8 : u * (4 / 1000 * (u * Q)) = 4 / 1000 * (u * (u * Q)) := by ring
  linarith

end Gear.Versatile.Double
