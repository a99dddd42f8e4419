/-
Pads of the modules of a TPC with versatile disk layouts, in `double` arithmetic (C169).
-/
import Verif.TpcVersatileDouble
import Verif.TpcSizeDoubleProps
import Verif.VersatileDoubleProps

set_option autoImplicit false
set_option linter.unusedSectionVars false

namespace Gear.TpcModule.Double

open Real
open TpcModule.Spec (Known plane place Op Values values Settled)
open Versatile (RowArgs getPadIndex)
open Versatile.Spec (middle)
open Versatile.Double.Spec (IsRow Started Wide Functions pitch angle edge phiError rError)
open Spec

/-! ### Specification -/

namespace Spec

/-- A module with a versatile layout: what was passed to the constructors, the calls of `addRow`, and all calls on the module. -/
structure MountedVersatile where
  id : ℤ
  frequency : ℝ
  ops : List Op
  rMin : ℝ
  rows : List (RowArgs ℝ)

namespace MountedVersatile

/-- The values last given to the setters. -/
def values (M : MountedVersatile) : Values := TpcModule.Spec.values M.frequency M.ops

/-- The module with the layout `L`; its loops over angles can take one pass or more. -/
noncomputable def module (F : Arith ℝ) (fuel : ℕ) (t : ℤ) (M : MountedVersatile) (L : Versatile.Layout ℝ) : Module ℝ :=
  made F M.id (versatile F (fuel + 1) L) t M.frequency M.ops

/-- The offset or the angle was set after the position along z, angles of offsets are doubles, and all rows of the layout could be added,
have sensible numbers of pads and start less than a turn away from the angle 0. -/
structure Proper (F : Arith ℝ) (u : ℝ) (M : MountedVersatile) (L : Versatile.Layout ℝ) : Prop where
  settled : Settled M.ops
  given : ∀ o ∈ M.ops, Given F o
  built : Versatile.Double.Spec.Built F.toArith M.rMin M.rows L
  proper : Versatile.Double.Spec.Proper M.rMin M.rows u
  started : Started F.pi M.rMin M.rows

/-- The index `p` is that of the pad `pad` of the row `i`, which was asked for with the arguments `a`. -/
structure IsPad (M : MountedVersatile) (L : Versatile.Layout ℝ) (i : ℕ) (a : RowArgs ℝ) (pad p : ℤ) : Prop where
  row : IsRow M.rows i a
  inRow : 0 ≤ pad ∧ pad < a.nPads
  index : getPadIndex L i pad = .ok p

/-- The error of a position through the transformation into the module's own plane. -/
noncomputable def shift (u : ℝ) (t : ℤ) (M : MountedVersatile) (c : ℝ × ℝ) : ℝ := 100 * u * size t M.values c

/-- The point `c` is placed at the radius `r` and the angle `phi` of the module's own plane, and not near to its origin. -/
structure At (u : ℝ) (t : ℤ) (M : MountedVersatile) (r phi : ℝ) (c : ℝ × ℝ) : Prop where
  place : plane t c = onPlate t M.values (r * cos phi, r * sin phi)
  radius : 0 < r
  off : 2 * M.shift u t c ≤ r

/-- The error of an angle through this transformation, at the radius `r`. -/
noncomputable def turnError (u : ℝ) (t : ℤ) (M : MountedVersatile) (c : ℝ × ℝ) (r : ℝ) : ℝ := 3 * M.shift u t c / r

/-- The angle lies between 0 and a full turn. -/
def InTurn (u : ℝ) (t : ℤ) (M : MountedVersatile) (c : ℝ × ℝ) (r phi : ℝ) : Prop :=
  20 * u + M.turnError u t c r ≤ phi ∧ phi ≤ 2 * π - 20 * u - M.turnError u t c r

/-- The point lies on the pad `pad` of row `i`, and not near to its border; rows nearer to the origin have pads at the same angle, or the
distance from the border in radius is more than four times the square root of a rounding error. -/
def On (u : ℝ) (t : ℤ) (M : MountedVersatile) (i : ℕ) (a : RowArgs ℝ) (pad : ℤ) (c : ℝ × ℝ) : Prop :=
  ∃ r phi mu, M.At u t r phi c ∧ M.InTurn u t c r phi ∧ 0 ≤ mu ∧
    |phi - angle M.rMin M.rows i a pad| ≤ pitch M.rMin M.rows i a / 2 - (phiError u i + M.turnError u t c r) ∧
    |r - middle M.rMin M.rows i a| ≤ a.rowHeight / 2 - (2 * rError u M.rMin M.rows i a + mu + M.shift u t c) ∧
    ∀ j b, IsRow M.rows j b → j < i → 16 * u * (r + M.shift u t c) ^ 2 ≤ mu ^ 2 ∨
      edge M.rMin M.rows j b 0 + (phiError u j + M.turnError u t c r) ≤ phi ∧
        phi ≤ edge M.rMin M.rows j b b.nPads - (phiError u j + M.turnError u t c r)

/-- The module of the TPC is this one. -/
structure Is (F : Arith ℝ) (fuel : ℕ) (t : ℤ) (M : MountedVersatile) (L : Versatile.Layout ℝ) (x : TpcParams.Mod ℝ) : Prop where
  id : x.id = M.id
  nearest : ∀ a b, x.getNearestPad a b = getNearestPad F (M.module F fuel t L) a b
  distance : ∀ a b p, x.getDistanceToPad a b p = getDistanceToPad F (M.module F fuel t L) a b p

end MountedVersatile

end Spec

variable {F : Arith ℝ} {u : ℝ} {t : ℤ} {fuel : ℕ} {M : MountedVersatile} {L : Versatile.Layout ℝ} {i : ℕ} {a : RowArgs ℝ} {pad p : ℤ}

theorem versatile_shift_nonneg (R : Rounded F u) (c : ℝ × ℝ) : 0 ≤ M.shift u t c := by
  have h1 := R.nonneg
  have h2 := size_nonneg t M.values c
  unfold MountedVersatile.shift
  positivity

theorem turnError_nonneg (R : Rounded F u) {c : ℝ × ℝ} {r : ℝ} (hr : 0 < r) : 0 ≤ M.turnError u t c r := by
  have := versatile_shift_nonneg (M := M) (t := t) R c
  unfold MountedVersatile.turnError
  positivity

/-- The polar coordinates of a point in the module's own plane, up to rounding. -/
theorem versatile_local (R : Rounded F u) (hM : M.Proper F u L) {c : ℝ × ℝ} {r phi : ℝ} (hq : M.At u CARTESIAN r phi c) :
    ∃ l, globalToLocal F (M.module F fuel CARTESIAN L) c.1 c.2 = .ok l ∧ |l.1 - r| ≤ M.shift u CARTESIAN c ∧
      (∃ k : ℤ, |l.2 - (phi + k * (2 * π))| ≤ M.turnError u CARTESIAN c r) ∧ 0 ≤ l.1 ∧ 0 ≤ l.2 ∧ l.2 ≤ F.turn := by
  obtain ⟨p, h1, h2⟩ := globalToLocal_double (id := M.id) (L := versatile F (fuel + 1) L) (f := M.frequency) R (Or.inl rfl) (Or.inr rfl)
    hM.settled hM.given c
  have hh := made_has F M.id (versatile F (fuel + 1) L) CARTESIAN M.frequency M.ops
  obtain ⟨a1, -, a3⟩ := local_range R ((Inv.new R M.id (versatile F (fuel + 1) L) CARTESIAN M.frequency).run R M.ops hM.given)
    (by rw [hh.type]; exact Or.inl rfl) (by rw [hh.layout]; rfl) (by rw [hh.type]; exact fun h => absurd h polar_ne) h1
  rw [hh.type] at a3
  have e : plane (versatile F (fuel + 1) L).coordinateType p = (p.1 * cos p.2, p.1 * sin p.2) := plane_polar p
  have hpl := hq.place
  have hoff := hq.off
  have hrad := hq.radius
  unfold onPlate at hpl
  rw [e, hpl, far_eq] at h2
  unfold MountedVersatile.values at h2
  rw [place_far, ← far_eq] at h2
  obtain ⟨b1, b2⟩ := polar_close hrad a1 (by
    show 100 * u * (weight CARTESIAN c * (1 + |M.values.angle|) + weight CARTESIAN M.values.offset) ≤ r / 2
    have := hoff
    unfold MountedVersatile.shift size at this
    linarith) h2
  exact ⟨p, h1, b1, b2, a1, a3 rfl⟩

theorem versatile_layout : (M.module F fuel t L).layout = versatile F (fuel + 1) L :=
  (made_has F M.id (versatile F (fuel + 1) L) t M.frequency M.ops).layout

/-! ### C169 -/

/-- In a Cartesian TPC, for a point on a pad, not near to its border, `getNearestPad` of the module gives this pad. -/
theorem versatile_nearest_double_partial (R : Rounded F u) (hu : 0 < u) (hF : Functions F.toArith) (hM : M.Proper F u L)
    (hW : Wide M.rMin M.rows) (hp : M.IsPad L i a pad p) {c : ℝ × ℝ} (hc : M.On u CARTESIAN i a pad c) :
    getNearestPad F (M.module F fuel CARTESIAN L) c.1 c.2 = .ok p := by
  obtain ⟨r, phi, mu, hq, ⟨f1, f2⟩, m0, d1, d2, d3⟩ := hc
  have sh := versatile_shift_nonneg (M := M) (t := CARTESIAN) R c
  obtain ⟨l, l1, l2, ⟨k, l3⟩, l4, l5, l6⟩ := versatile_local (fuel := fuel) R hM hq
  obtain rfl := no_turn R hu l3 l5 l6 f1 f2
  simp only [Int.cast_zero, zero_mul, add_zero] at l3
  rw [abs_le] at l2 l3 d1 d2
  have hi := Versatile.Double.nearest_double_partial (angle_rounded R hu) hF hM.proper hM.started hW hM.built hp.row hp.inRow.1 hp.inRow.2 hp.index
    (r := l.1) (phi := l.2) (mu := mu) l5 l6 (abs_le.2 ⟨by linarith [l3.1, d1.1], by linarith [l3.2, d1.2]⟩) m0
    (abs_le.2 ⟨by linarith [l2.1, d2.1], by linarith [l2.2, d2.2]⟩)
    (fun j b hb hj => by
      rcases d3 j b hb hj with h | ⟨g1, g2⟩
      · left
        have : l.1 ^ 2 ≤ (r + M.shift u CARTESIAN c) ^ 2 := pow_le_pow_left₀ l4 (by linarith [l2.2]) 2
        have := mul_le_mul_of_nonneg_left this (by linarith : 0 ≤ 16 * u)
        linarith
      · right
        exact ⟨by linarith [l3.1], by linarith [l3.2]⟩) (fuel + 1) (by omega)
  unfold getNearestPad
  rw [l1, Res.bind_ok, versatile_layout]
  unfold versatile
  dsimp only
  rw [hi]

/-- A few full turns with the rounded value of π. -/
theorem turns_near (R : Rounded F u) {k : ℤ} (hk : |k| ≤ 1) : |k * (2 * F.pi) - k * (2 * π)| ≤ 7 * u := by
  have h := R.pi
  have h3 := mul_le_mul_of_nonneg_left Real.pi_lt_d2.le R.nonneg
  have e : (k : ℝ) * (2 * F.pi) - k * (2 * π) = k * (2 * (F.pi - π)) := by ring
  have hk' : |(k : ℝ)| ≤ 1 := by exact_mod_cast hk
  rw [e, abs_mul]
  have : |2 * (F.pi - π)| ≤ 7 * u := by
    rw [abs_mul, abs_of_pos (by norm_num : (0 : ℝ) < 2)]
    linarith [R.nonneg]
  calc _ ≤ 1 * |2 * (F.pi - π)| := mul_le_mul_of_nonneg_right hk' (abs_nonneg _)
    _ ≤ _ := by linarith

/-- In a Cartesian TPC, `isInsidePad` of the module holds on the pad and nowhere else, up to rounding; the second part is for pads at
angles of up to 6. -/
theorem versatile_inside_double_partial (R : Rounded F u) (hu : 0 < u) (hM : M.Proper F u L) (hp : M.IsPad L i a pad p) {c : ℝ × ℝ}
    {r phi : ℝ} (hq : M.At u CARTESIAN r phi c) :
    ∃ b, isInsidePad F (M.module F fuel CARTESIAN L) c.1 c.2 p = .ok b ∧
      (M.InTurn u CARTESIAN c r phi →
        |r - middle M.rMin M.rows i a| ≤ a.rowHeight / 2 - (rError u M.rMin M.rows i a + M.shift u CARTESIAN c) →
        (∃ k : ℤ, |k| ≤ 1 ∧ |phi + k * (2 * π) - angle M.rMin M.rows i a pad| ≤
          pitch M.rMin M.rows i a / 2 - (phiError u i + 7 * u + M.turnError u CARTESIAN c r)) → b = true) ∧
      (angle M.rMin M.rows i a pad ≤ 6 → b = true →
        |r - middle M.rMin M.rows i a| ≤ a.rowHeight / 2 + (rError u M.rMin M.rows i a + M.shift u CARTESIAN c) ∧
        ∃ k : ℤ, |phi + k * (2 * π) - angle M.rMin M.rows i a pad| ≤
          pitch M.rMin M.rows i a / 2 + (phiError u i + 7 * u + M.turnError u CARTESIAN c r)) := by
  have A := angle_rounded R hu
  obtain ⟨l, l1, l2, ⟨j, l3⟩, l4, l5, l6⟩ := versatile_local (fuel := fuel) R hM hq
  have hres : isInsidePad F (M.module F fuel CARTESIAN L) c.1 c.2 p = Versatile.Double.isInsidePad F.toArith L l.1 l.2 p := by
    unfold isInsidePad
    rw [l1, Res.bind_ok, versatile_layout]
    rfl
  obtain ⟨b, hb⟩ : ∃ b, Versatile.Double.isInsidePad F.toArith L l.1 l.2 p = .ok b := by
    obtain ⟨row, g1, -, -⟩ := Versatile.Double.row_near A hM.proper hM.built hp.row
    obtain ⟨e1, e2⟩ := Versatile.Double.index_parts A hM.proper hM.built hp.row hp.inRow.1 hp.inRow.2 hp.index
    unfold Versatile.Double.isInsidePad
    rw [e1, Res.bind_ok, Rect.elemUb_of (Versatile.Double.elem_nat g1), Res.bind_ok]
    exact ⟨_, rfl⟩
  rw [abs_le] at l2
  refine ⟨b, hres.trans hb, fun f g1 ⟨k, hk, g2⟩ => ?_, fun h6 hbt => ?_⟩
  · obtain rfl := no_turn R hu l3 l5 l6 f.1 f.2
    simp only [Int.cast_zero, zero_mul, add_zero] at l3
    have ht := turns_near R hk
    rw [abs_le] at l3 g1 g2 ht
    have := Versatile.Double.inside_double_partial A hM.proper hM.started hM.built hp.row hp.inRow.1 hp.inRow.2 hp.index (r := l.1) (phi := l.2)
      hk (abs_le.2 (by
        have e : F.toArith.pi = F.pi := rfl
        rw [e]
        exact ⟨by linarith [l3.1, g2.1, ht.1], by linarith [l3.2, g2.2, ht.2]⟩))
      (abs_le.2 ⟨by linarith [l2.1, g1.1], by linarith [l2.2, g1.2]⟩)
    exact Res.ok.inj (hb.symm.trans this)
  · subst hbt
    obtain ⟨g1, k, hk, g2⟩ := Versatile.Double.inside_only_double_partial A hM.proper hM.started hM.built hp.row hp.inRow.1 hp.inRow.2 hp.index
      (by linarith) hb
    have ht := turns_near R hk
    have e : F.toArith.pi = F.pi := rfl
    rw [e] at g2
    rw [abs_le] at l3 g1 g2 ht
    refine ⟨abs_le.2 ⟨by linarith [l2.2, g1.1], by linarith [l2.1, g1.2]⟩, j + k, ?_⟩
    push_cast
    rw [abs_le]
    constructor <;> linarith [l3.1, l3.2, g2.1, g2.2, ht.1, ht.2]

/-- In a Cartesian TPC, the distance to the pad is 0 on the pad. -/
theorem versatile_distance_double (R : Rounded F u) (hu : 0 < u) (hM : M.Proper F u L) (hp : M.IsPad L i a pad p) {c : ℝ × ℝ}
    (hc : M.On u CARTESIAN i a pad c) : getDistanceToPad F (M.module F fuel CARTESIAN L) c.1 c.2 p = .ok 0 := by
  obtain ⟨r, phi, mu, hq, ⟨f1, f2⟩, m0, d1, d2, -⟩ := hc
  have A := angle_rounded R hu
  obtain ⟨l, l1, l2, ⟨k, l3⟩, l4, l5, l6⟩ := versatile_local (fuel := fuel) R hM hq
  obtain rfl := no_turn R hu l3 l5 l6 f1 f2
  simp only [Int.cast_zero, zero_mul, add_zero] at l3
  have hs := R.small
  obtain ⟨row, g1, N, g3⟩ := Versatile.Double.row_placed A hM.proper hM.started hM.built hp.row
  obtain ⟨e1, e2⟩ := Versatile.Double.index_parts A hM.proper hM.built hp.row hp.inRow.1 hp.inRow.2 hp.index
  have he := Versatile.Double.elem_nat g1
  have m1 := N.pos
  have hh := N.h
  have hhm := N.hm
  obtain ⟨s0, -, s2, s3, s4⟩ := N.sizes A
  obtain ⟨o1, o2, -⟩ := N.start A
  have hcen := N.centre A hp.inRow.1 hp.inRow.2
  have hrc := N.rc
  have hdd := N.small
  have eR := Versatile.Double.rError_eq u M.rMin M.rows i a
  have eP := Versatile.Double.phiError_eq u i
  have d4 := N.d4
  rw [eR] at d2
  rw [eP] at d1
  unfold angle pitch at d1
  generalize middle M.rMin M.rows i a = m at *
  generalize 2 * ((i : ℝ) + 2) * u = d at *
  generalize a.padPitch / m = q at *
  generalize a.offset / m = X at *
  have hn1 : (1 : ℝ) ≤ a.nPads := by exact_mod_cast N.n0
  have hp0 : (0 : ℝ) ≤ pad := by exact_mod_cast hp.inRow.1
  have hp1 : (pad : ℝ) + 1 ≤ a.nPads := by exact_mod_cast (by have := hp.inRow.2; omega : pad + 1 ≤ a.nPads)
  have q8 : q ≤ 81 / 10 := by
    have := mul_le_mul_of_nonneg_right hn1 s0
    linarith
  have k0 : 0 ≤ (pad : ℝ) * q := mul_nonneg hp0 s0
  have k1 : ((pad : ℝ) + 1) * q ≤ 81 / 10 := (mul_le_mul_of_nonneg_right hp1 s0).trans s2
  have k2 : ((pad : ℝ) + 1 / 2) * q = pad * q + q / 2 := by ring
  have k3 : ((pad : ℝ) + 1) * q = pad * q + q := by ring
  have d0 : 0 ≤ d := by linarith
  have c2 : |F.rnd (row.offset + F.rnd (F.rnd ((pad : ℝ) + 1 / 2) * row.padPitch)) - (X + (pad + 1 / 2) * q)| ≤ 17 * d + 65 * u := by
    refine hcen.trans ?_
    have : |a.offset| / m + (pad + 1 / 2) * q ≤ 161 / 10 := by linarith
    refine (mul_le_mul_of_nonneg_left this (by linarith)).trans ?_
    linarith
  have c3 : |row.padPitch - q| ≤ 9 * d + 9 * u := by
    refine s3.trans ?_
    refine (mul_le_mul_of_nonneg_left q8 (by linarith)).trans ?_
    linarith
  obtain ⟨cc, hcc⟩ : ∃ cc, cc = F.rnd (row.offset + F.rnd (F.rnd ((pad : ℝ) + 1 / 2) * row.padPitch)) := ⟨_, rfl⟩
  rw [← hcc] at c2
  have dm : 0 ≤ d * m := mul_nonneg d0 m1.le
  have dm1 : d * m ≤ 1 / 500 * m := mul_le_mul_of_nonneg_right hdd m1.le
  obtain ⟨x1, x2⟩ := half_near R hrc (show |a.rowHeight - a.rowHeight| ≤ 0 by simp) (W := 3.1 * m) (by
    rw [abs_of_pos m1, abs_of_pos hh]
    linarith)
  have aX : |X + (pad + 1 / 2) * q| ≤ 161 / 10 := by
    have : |X| ≤ 8 := by rw [o2]; exact o1
    rw [abs_le] at this ⊢
    constructor <;> linarith [this.1, this.2]
  obtain ⟨x3, x4⟩ := half_near R c2 c3 (W := 30) (by
    rw [abs_of_nonneg s0]
    linarith)
  have e6 : 2 * u * (3.1 * m) = 6.2 * (u * m) := by ring
  have um : 0 ≤ u * m := mul_nonneg hu.le m1.le
  have e7 : (d + 4 * u) * m = d * m + 4 * (u * m) := by ring
  have dum : 4 * (u * m) ≤ d * m := by
    have := mul_le_mul_of_nonneg_right d4 m1.le
    linarith
  rw [abs_le] at l2 l3 d1 d2 x1 x2 x3 x4
  unfold getDistanceToPad
  rw [l1, Res.bind_ok, versatile_layout]
  show versatileDistance F L l.1 l.2 p = _
  unfold versatileDistance
  have y1 : Versatile.Double.getPadCenter F.toArith L p = .ok (row.rCentre, cc) := by
    unfold Versatile.Double.getPadCenter
    rw [e1, Res.bind_ok, Rect.elemUb_of he, Res.bind_ok, e2, hcc]
    rfl
  have y2 : Versatile.getRowHeight L i = .ok a.rowHeight := by
    unfold Versatile.getRowHeight
    rw [Rect.elemAt_of he, Res.bind_ok, N.rowHeight]
    rfl
  have y3 : Versatile.getPadPitch L p = .ok row.padPitch := by
    unfold Versatile.getPadPitch
    rw [e1, Res.bind_ok, Rect.elemUb_of he, Res.bind_ok]
    rfl
  rw [y1, Res.bind_ok, e1, Res.bind_ok, y2, Res.bind_ok, y3, Res.bind_ok]
  unfold Disk.Double.getDistanceToPad Disk.Double.keystoneDistance
  rw [if_pos ⟨by linarith [x3.2, l3.1, d1.1], by linarith [x4.1, l3.2, d1.2]⟩, if_pos ⟨by linarith [x1.2, l2.1, d2.1], by linarith [x2.1, l2.2, d2.2]⟩]

/-- In a Cartesian TPC, `getNearestPad` of the TPC gives the pad and the module that the point is on, when the pads that the other modules
answer with are not at the distance 0. -/
theorem tpc_versatile_nearest_double_partial (R : Rounded F u) (hu : 0 < u) (hF : Functions F.toArith) (T : TpcParams.Tpc ℝ)
    {x : TpcParams.Mod ℝ} (hx : x ∈ TpcParams.getModules T) (hI : M.Is F fuel CARTESIAN L x) (hM : M.Proper F u L)
    (hW : Wide M.rMin M.rows) (hp : M.IsPad L i a pad p) {c : ℝ × ℝ} (hc : M.On u CARTESIAN i a pad c)
    (ho : ∀ y ∈ TpcParams.getModules T, y ≠ x → ∃ p' d, y.getNearestPad c.1 c.2 = .ok p' ∧ y.getDistanceToPad c.1 c.2 p' = .ok d ∧ 0 < d) :
    TpcParams.getNearestPad T c.1 c.2 = .ok ⟨p, M.id⟩ := by
  rw [← hI.id]
  exact winner c.1 c.2 (by rw [hI.nearest]; exact versatile_nearest_double_partial R hu hF hM hW hp hc)
    (by rw [hI.distance]; exact versatile_distance_double R hu hM hp hc) _ hx ho

/-- `getPadCenter` of a module is the place of the middle of the pad, up to rounding. -/
theorem versatile_center_double (R : Rounded F u) (hu : 0 < u) (ht : Known t) (hM : M.Proper F u L) (hp : M.IsPad L i a pad p) :
    ∃ g c : ℝ × ℝ, getPadCenter F (M.module F fuel t L) p = .ok g ∧
      |c.1 - middle M.rMin M.rows i a| ≤ rError u M.rMin M.rows i a ∧
      |c.2 - angle M.rMin M.rows i a pad| ≤ phiError u i ∧
      far (plane t g) (onPlate t M.values (c.1 * cos c.2, c.1 * sin c.2)) ≤
        100 * u * (|c.1| * (1 + |c.2|) * (1 + |M.values.angle|) + weight t M.values.offset) := by
  have A := angle_rounded R hu
  obtain ⟨⟨c, hc, k1⟩, -⟩ := Versatile.Double.sizes_double A hM.proper hM.built hp.row hp.inRow.1 hp.inRow.2 hp.index
  obtain ⟨c', hc', k2⟩ := Versatile.Double.angle_double A hM.proper hM.started hM.built hp.row hp.inRow.1 hp.inRow.2 hp.index
  obtain rfl := Res.ok.inj (hc.symm.trans hc')
  obtain ⟨row, -, N, -⟩ := Versatile.Double.row_placed A hM.proper hM.started hM.built hp.row
  obtain ⟨s0, -, s2, -, -⟩ := N.sizes A
  obtain ⟨o1, -, -⟩ := N.start A
  have m1 := N.pos
  obtain ⟨g, h1, h2⟩ := localToGlobal_double (id := M.id) (L := versatile F (fuel + 1) L) (f := M.frequency) R ht (Or.inr rfl)
    hM.settled hM.given c
  refine ⟨g, c, ?_, k1.trans ?_, k2.trans ?_, ?_⟩
  · unfold getPadCenter
    rw [versatile_layout]
    have : (versatile F (fuel + 1) L).getPadCenter p = .ok c := hc
    rw [this]
    exact h1
  · rw [Versatile.Double.rError_eq]
    exact mul_le_mul_of_nonneg_right (by linarith) m1.le
  · unfold pitch phiError
    have hp0 : (0 : ℝ) ≤ pad := by exact_mod_cast hp.inRow.1
    have hp1 : (pad : ℝ) + 1 ≤ a.nPads := by exact_mod_cast (by have := hp.inRow.2; omega : pad + 1 ≤ a.nPads)
    have := mul_le_mul_of_nonneg_right hp1 s0
    have e : ((pad : ℝ) + 1) * (a.padPitch / middle M.rMin M.rows i a) =
      (pad + 1 / 2) * (a.padPitch / middle M.rMin M.rows i a) + (a.padPitch / middle M.rMin M.rows i a) / 2 := by ring
    have i0 : (0 : ℝ) ≤ i := by positivity
    have iu := mul_nonneg i0 hu.le
    refine (mul_le_mul_of_nonneg_left (by linarith : _ ≤ (17 : ℝ)) (by positivity)).trans ?_
    linarith
  · have e : plane (versatile F (fuel + 1) L).coordinateType c = _ := plane_polar _
    have ew : weight (versatile F (fuel + 1) L).coordinateType c = _ := weight_polar _
    rw [e, ew] at h2
    exact h2

/-! ### Non-vacuity -/

theorem realDoubles_functions : Functions realDoubles.toArith where
  cos := fun x => by
    have h1 := exact (n := 1) (k := 0) 1 (by norm_num) (by norm_num)
    have h2 := exact (n := -1) (k := 0) (-1) (by norm_num) (by norm_num)
    have c := abs_le.1 (abs_cos_le_one x)
    show |realDoubles.rnd (cos x)| ≤ 1
    have m := realDoubles_rounded.rounding.mono
    exact abs_le.2 ⟨by have := m _ _ c.1; rw [h2] at this; exact this, by have := m _ _ c.2; rw [h1] at this; exact this⟩
  sqrt := fun x hx => by
    have := (realDoubles_rounded.rounding.bounds (x := √x) (Real.sqrt_nonneg x)).1
    show 0 ≤ realDoubles.rnd √x
    have h0 := Real.sqrt_nonneg x
    norm_num at this
    linarith
  sqrt_pos := fun x hx => by
    have := (realDoubles_rounded.rounding.bounds (x := √x) (Real.sqrt_nonneg x)).1
    show 0 < realDoubles.rnd √x
    have h0 := Real.sqrt_pos.2 hx
    norm_num at this
    linarith

/-- A row of two pads with the height 2, at the radius `p`: each covers an angle of 1. -/
def twoPads (p : ℝ) : RowArgs ℝ := ⟨2, p, 2, 0, 0, 0, 1⟩

/-- Such a row can be added. -/
theorem twoPads_add {L : Versatile.Layout ℝ} {p : ℝ} (h0 : 0 < p) (h1 : L.ext1 = p - 1) (h2 : realDoubles.rnd p = p)
    (h3 : realDoubles.rnd (p + 1) = p + 1) :
    ∃ L', Versatile.Double.addRow realDoubles.toArith L (twoPads p) = (L', .ok ()) ∧ L'.ext1 = p + 1 := by
  have r0 := exact (n := 0) (k := 0) 0 (by norm_num) (by norm_num)
  have r1 := exact (n := 1) (k := 0) 1 (by norm_num) (by norm_num)
  have r2 := exact (n := 1) (k := 1) 2 (by norm_num) (by norm_num)
  have hpi := abs_le.1 realDoubles_rounded.pi
  have h4 := Real.pi_gt_d2
  have e1 := abs_le.1 (realDoubles_rounded.rounding.err (-2 * realDoubles.pi))
  have e2 := abs_le.1 (realDoubles_rounded.rounding.err (2 * realDoubles.pi))
  norm_num at hpi
  have p0 : 3 < realDoubles.pi := by linarith [hpi.1]
  rw [abs_of_neg (by linarith)] at e1
  rw [abs_of_pos (by linarith)] at e2
  have t1 : realDoubles.toArith.mul (-2) realDoubles.toArith.pi < 0 := by
    show realDoubles.rnd (-2 * realDoubles.pi) < 0
    norm_num at e1 ⊢
    linarith [e1.2]
  have t2 : 2 < realDoubles.toArith.mul 2 realDoubles.toArith.pi := by
    show 2 < realDoubles.rnd (2 * realDoubles.pi)
    norm_num at e2
    linarith [e2.1]
  have hc : realDoubles.toArith.add L.ext1 (realDoubles.toArith.mul 2 (1 / 2)) = p := by
    show realDoubles.rnd (L.ext1 + realDoubles.rnd (2 * (1 / 2))) = p
    rw [show (2 : ℝ) * (1 / 2) = 1 by norm_num, r1, h1, sub_add_cancel, h2]
  have hz : realDoubles.toArith.div 0 p = 0 := by
    show realDoubles.rnd (0 / p) = 0
    rw [zero_div, r0]
  have ho : realDoubles.toArith.div p p = 1 := by
    show realDoubles.rnd (p / p) = 1
    rw [div_self h0.ne', r1]
  have hn : realDoubles.toArith.mul 1 ((2 : ℤ) : ℝ) = 2 := by
    show realDoubles.rnd (1 * ((2 : ℤ) : ℝ)) = 2
    norm_num
    exact r2
  obtain ⟨row, hrow⟩ : ∃ row, Versatile.Double.mkRow realDoubles.toArith L.rows.length 2 p p 2 p 2 0 = .ok row := by
    unfold Versatile.Double.mkRow
    dsimp only
    have n1 : ¬(0 : ℝ) < realDoubles.toArith.mul (-2) realDoubles.toArith.pi := by linarith
    have n2 : ¬(0 : ℝ) ≥ realDoubles.toArith.mul 2 realDoubles.toArith.pi := by simp only [ge_iff_le, not_le]; linarith
    have n3 : ¬(2 : ℝ) > realDoubles.toArith.mul 2 realDoubles.toArith.pi := by simp only [gt_iff_lt, not_lt]; linarith
    simp only [hz, n1, n2, if_false, ho, hn, n3]
    exact ⟨_, rfl⟩
  have hadd : Versatile.Double.addRow realDoubles.toArith L (twoPads p) =
      (Versatile.Double.updateExtent realDoubles.toArith (twoPads p)
        { L with nPad := L.nPad + 1 * 2, rows := L.rows ++ [row], padIndices := L.padIndices ++ [none] }, .ok ()) := by
    unfold Versatile.Double.addRow twoPads
    dsimp only
    rw [if_neg (by norm_num), if_neg (by linarith), if_neg (by norm_num), if_neg (by linarith), if_neg (by norm_num), if_neg (by norm_num),
      if_pos rfl, if_pos rfl, hc]
    rw [show (1 : ℤ).toNat = 1 from rfl]
    simp only [Versatile.Double.pushRows, hrow]
  refine ⟨_, hadd, ?_⟩
  have hx : realDoubles.toArith.add L.ext1 (realDoubles.toArith.mul ((1 : ℤ) : ℝ) 2) = p + 1 := by
    show realDoubles.rnd (L.ext1 + realDoubles.rnd (((1 : ℤ) : ℝ) * 2)) = p + 1
    rw [show ((1 : ℤ) : ℝ) * 2 = 2 by norm_num, r2, h1, show p - 1 + 2 = p + 1 by ring, h3]
  unfold Versatile.Double.updateExtent
  simp only [List.getLast?_append, List.getLast?_singleton, Option.some_or]
  split_ifs <;> exact hx

/-- A module with two rows of two pads, moved and turned by half a radian. -/
noncomputable def platesAt : MountedVersatile := ⟨5, 1, [.offset 1 2, .angle (1 / 2)], 1, [twoPads 2, twoPads 4]⟩

theorem plates_rows {i : ℕ} {a : RowArgs ℝ} (h : IsRow platesAt.rows i a) :
    i = 0 ∧ a = twoPads 2 ∧ middle platesAt.rMin platesAt.rows i a = 2 ∨ i = 1 ∧ a = twoPads 4 ∧ middle platesAt.rMin platesAt.rows i a = 4 := by
  have h' : [twoPads 2, twoPads 4][i]? = some a := h
  rcases i with _ | _ | i
  · obtain rfl := Option.some.inj h'
    refine .inl ⟨rfl, rfl, ?_⟩
    show (1 : ℝ) + (List.map RowArgs.rowHeight []).sum + 2 / 2 = 2
    norm_num
  · obtain rfl := Option.some.inj h'
    refine .inr ⟨rfl, rfl, ?_⟩
    show (1 : ℝ) + (List.map RowArgs.rowHeight [twoPads 2]).sum + 2 / 2 = 4
    norm_num [twoPads]
  · simp at h'

theorem plates_proper : ∃ L, platesAt.Proper realDoubles (1 / 2 ^ 53) L ∧ Wide platesAt.rMin platesAt.rows := by
  obtain ⟨L1, a1, b1⟩ := twoPads_add (L := Versatile.new 1) (p := 2) (by norm_num) (by norm_num [Versatile.new])
    (exact (n := 1) (k := 1) 2 (by norm_num) (by norm_num)) (exact (n := 3) (k := 0) _ (by norm_num) (by norm_num))
  obtain ⟨L2, a2, -⟩ := twoPads_add (L := L1) (p := 4) (by norm_num) (by rw [b1]; norm_num)
    (exact (n := 1) (k := 2) 4 (by norm_num) (by norm_num)) (exact (n := 5) (k := 0) _ (by norm_num) (by norm_num))
  refine ⟨L2, ⟨⟨[.offset 1 2], .angle (1 / 2), [], rfl, trivial, by simp⟩, ?_, .addRow (as := [twoPads 2]) _ (.addRow (as := []) _ .new a1) a2,
    ⟨?_, ?_, ?_, ?_⟩, ?_⟩, ?_⟩
  · intro o ho
    have : o = .offset 1 2 ∨ o = .angle (1 / 2) := by simpa [platesAt] using ho
    rcases this with rfl | rfl
    · exact exact (n := 2) (k := 0) 2 (by norm_num) (by norm_num)
    · trivial
  · norm_num [platesAt]
  · show 2 ≤ 65535
    norm_num
  · intro a ha
    have : a = twoPads 2 ∨ a = twoPads 4 := by simpa [platesAt] using ha
    rcases this with rfl | rfl <;> norm_num [twoPads]
  · show 1000 * (((2 : ℕ) : ℝ) + 2) * (1 / 2 ^ 53) ≤ 1
    norm_num
  · intro i a h
    have p0 : (0 : ℝ) ≤ realDoubles.pi := by
      have hpi := abs_le.1 realDoubles_rounded.pi
      have h3 := Real.pi_gt_three
      norm_num at hpi
      linarith [hpi.1]
    rcases plates_rows h with ⟨-, rfl, e⟩ | ⟨-, rfl, e⟩ <;> rw [e] <;> norm_num [twoPads] <;> linarith
  · intro i a h
    rcases plates_rows h with ⟨-, rfl, e⟩ | ⟨-, rfl, e⟩ <;> rw [e] <;> norm_num [twoPads]

theorem plates_shift (phi : ℝ) :
    platesAt.shift (1 / 2 ^ 53) CARTESIAN (onPlate CARTESIAN platesAt.values (4 * cos phi, 4 * sin phi)) ≤ 1 / 2 ^ 40 := by
  have hv : platesAt.values = ⟨0, (1, 2), 1 / 2, none, 1⟩ := rfl
  have e : onPlate CARTESIAN platesAt.values (4 * cos phi, 4 * sin phi) = (4 * cos (phi + 1 / 2) + 1, 4 * sin (phi + 1 / 2) + 2) := by
    rw [hv]
    unfold onPlate place
    rw [cos_add, sin_add, plane_cartesian]
    norm_num
    constructor <;> ring
  rw [e]
  unfold MountedVersatile.shift size
  rw [weight_cartesian, weight_cartesian, hv]
  have c1 := abs_le.1 (abs_cos_le_one (phi + 1 / 2))
  have c2 := abs_le.1 (abs_sin_le_one (phi + 1 / 2))
  have a1 : |4 * cos (phi + 1 / 2) + 1| ≤ 5 := abs_le.2 ⟨by linarith [c1.1], by linarith [c1.2]⟩
  have a2 : |4 * sin (phi + 1 / 2) + 2| ≤ 6 := abs_le.2 ⟨by linarith [c2.1], by linarith [c2.2]⟩
  norm_num at a1 a2 ⊢
  linarith

theorem plates_at (phi : ℝ) :
    platesAt.At (1 / 2 ^ 53) CARTESIAN 4 phi (onPlate CARTESIAN platesAt.values (4 * cos phi, 4 * sin phi)) :=
  ⟨by rw [plane_cartesian], by norm_num, by have := plates_shift phi; norm_num at this ⊢; linarith⟩

/-- The middle of every pad of the second row is on this pad. -/
theorem plates_on {pad : ℤ} (h : 0 ≤ pad ∧ pad < 2) : platesAt.On (1 / 2 ^ 53) CARTESIAN 1 (twoPads 4) pad
    (onPlate CARTESIAN platesAt.values (4 * cos (pad + 1 / 2), 4 * sin (pad + 1 / 2))) := by
  have sh := plates_shift (pad + 1 / 2)
  have s0 := versatile_shift_nonneg (M := platesAt) (t := CARTESIAN) realDoubles_rounded
    (onPlate CARTESIAN platesAt.values (4 * cos (pad + 1 / 2), 4 * sin (pad + 1 / 2)))
  have e : middle platesAt.rMin platesAt.rows 1 (twoPads 4) = 4 := by
    rcases plates_rows (i := 1) (a := twoPads 4) rfl with ⟨h, -⟩ | ⟨-, -, e⟩
    · cases h
    · exact e
  have p0 : (0 : ℝ) ≤ pad := by exact_mod_cast h.1
  have p1 : (pad : ℝ) ≤ 1 := by exact_mod_cast (by omega : pad ≤ 1)
  have h3 := Real.pi_gt_three
  refine ⟨4, pad + 1 / 2, 1 / 2, plates_at _, ?_, by norm_num, ?_, ?_, fun j b _ _ => .inl ?_⟩
  all_goals
    try simp only [MountedVersatile.InTurn, MountedVersatile.turnError, rError, angle, pitch, phiError, e]
    generalize platesAt.shift (1 / 2 ^ 53) CARTESIAN (onPlate CARTESIAN platesAt.values (4 * cos (pad + 1 / 2), 4 * sin (pad + 1 / 2))) = w at sh s0 ⊢
    norm_num [twoPads] at sh ⊢
    first
      | (constructor <;> linarith)
      | linarith
      | nlinarith

theorem plates_pad {L : Versatile.Layout ℝ} (hM : platesAt.Proper realDoubles (1 / 2 ^ 53) L) {pad : ℤ} (h : 0 ≤ pad ∧ pad < 2) :
    ∃ p, platesAt.IsPad L 1 (twoPads 4) pad p := by
  have A := angle_rounded realDoubles_rounded (by norm_num)
  have hr : IsRow platesAt.rows 1 (twoPads 4) := rfl
  obtain ⟨row, g1, N, -⟩ := Versatile.Double.row_near A hM.proper hM.built hr
  obtain ⟨p, hp⟩ := Versatile.index_isSome (Versatile.Double.layout_sized A hM.proper hM.built)
    ⟨_, ⟨row, Versatile.Double.elem_nat g1, N.nPads⟩, h.1, h.2⟩
  exact ⟨p, hr, h, hp⟩

/-- Non-vacuity: the middle of every pad of the second row. -/
example {pad : ℤ} (h : 0 ≤ pad ∧ pad < 2) : ∃ L p, platesAt.IsPad L 1 (twoPads 4) pad p ∧ ∃ c : ℝ × ℝ,
    getNearestPad realDoubles (platesAt.module realDoubles 0 CARTESIAN L) c.1 c.2 = .ok p ∧
    getDistanceToPad realDoubles (platesAt.module realDoubles 0 CARTESIAN L) c.1 c.2 p = .ok 0 := by
  obtain ⟨L, hM, hW⟩ := plates_proper
  obtain ⟨p, hp⟩ := plates_pad hM h
  exact ⟨L, p, hp, _, versatile_nearest_double_partial realDoubles_rounded (by norm_num) realDoubles_functions hM hW hp (plates_on h),
    versatile_distance_double realDoubles_rounded (by norm_num) hM hp (plates_on h)⟩

/-- Non-vacuity of `versatile_inside_double_partial`: the middle of the second pad of the second row is inside of it, that of the first
is not. -/
example : ∃ L p, platesAt.IsPad L 1 (twoPads 4) 1 p ∧ (∃ c : ℝ × ℝ,
    isInsidePad realDoubles (platesAt.module realDoubles 0 CARTESIAN L) c.1 c.2 p = .ok true) := by
  obtain ⟨L, hM, hW⟩ := plates_proper
  obtain ⟨p, hp⟩ := plates_pad hM (pad := 1) (by norm_num)
  obtain ⟨r, phi, mu, hq, ht, m0, d1, d2, -⟩ := plates_on (pad := 1) (by norm_num)
  obtain ⟨b, h1, h2, -⟩ := versatile_inside_double_partial (fuel := 0) realDoubles_rounded (by norm_num) hM hp (plates_at (3 / 2))
  refine ⟨L, p, hp, _, h1.trans ?_⟩
  have sh := plates_shift (3 / 2)
  have s0 := versatile_shift_nonneg (M := platesAt) (t := CARTESIAN) realDoubles_rounded
    (onPlate CARTESIAN platesAt.values (4 * cos (3 / 2), 4 * sin (3 / 2)))
  have e : middle platesAt.rMin platesAt.rows 1 (twoPads 4) = 4 := by
    rcases plates_rows (i := 1) (a := twoPads 4) rfl with ⟨h, -⟩ | ⟨-, -, e⟩
    · cases h
    · exact e
  have h3 := Real.pi_gt_three
  rw [h2 ?_ ?_ ⟨0, by norm_num, ?_⟩]
  all_goals
    simp only [MountedVersatile.InTurn, MountedVersatile.turnError, rError, angle, pitch, phiError, e]
    generalize platesAt.shift (1 / 2 ^ 53) CARTESIAN (onPlate CARTESIAN platesAt.values (4 * cos (3 / 2), 4 * sin (3 / 2))) = w at sh s0 ⊢
    norm_num [twoPads] at sh ⊢
    first
      | (constructor <;> linarith)
      | linarith

end Gear.TpcModule.Double
