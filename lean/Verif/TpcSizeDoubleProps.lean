/-
Pads of the modules of a TPC with pads of a fixed size, in `double` arithmetic (C164).
-/
import Verif.TpcSizeDouble
import Verif.TpcDiskDoubleProps
import Verif.PadSizeDoubleProps

set_option autoImplicit false
set_option linter.unusedSectionVars false

namespace Gear.TpcModule.Double

open Real
open TpcModule.Spec (Known plane place Op Values values Settled)
open PadSize.Spec (Args IsIndex Filled PadsInRow)
open PadSize.Double.Spec (MadeOf DeepInPad rowCentre)
open Spec

/-! ### Specification -/

namespace Spec

/-- A module with a layout with a fixed pad size: what was passed to the constructors, and all calls on the module. -/
structure MountedSize where
  id : ℤ
  frequency : ℝ
  ops : List Op
  pads : Args ℝ

namespace MountedSize

/-- The values last given to the setters. -/
def values (M : MountedSize) : Values := TpcModule.Spec.values M.frequency M.ops

/-- The module with the layout `L`; its loops over angles can take one pass or more. -/
noncomputable def module (F : Arith ℝ) (fuel : ℕ) (t : ℤ) (M : MountedSize) (L : PadSize.Layout ℝ) : Module ℝ :=
  made F M.id (fixedSize F (fuel + 1) L) t M.frequency M.ops

/-- The offset or the angle was set after the position along z, angles of offsets are doubles, and the layout is what the constructor
makes of sensible arguments; all of its rows have pads. -/
structure Proper (F : Arith ℝ) (M : MountedSize) (L : PadSize.Layout ℝ) : Prop where
  settled : Settled M.ops
  given : ∀ o ∈ M.ops, Given F o
  made : MadeOf F.toArith M.pads L
  filled : Filled L

/-- The error of a position through the transformation into the module's own plane. -/
noncomputable def shift (u : ℝ) (t : ℤ) (M : MountedSize) (c : ℝ × ℝ) : ℝ := 100 * u * size t M.values c

/-- The point `c` is placed at the radius `r` and the angle `phi` of the module's own plane, and not near to its origin. -/
structure At (u : ℝ) (t : ℤ) (M : MountedSize) (r phi : ℝ) (c : ℝ × ℝ) : Prop where
  place : plane t c = onPlate t M.values (r * cos phi, r * sin phi)
  radius : 1 / 400000 ≤ r
  off : 2 * M.shift u t c ≤ r

/-- The point lies on the pad in row `row` and column `pad` of the module, and not near to its border; the row has `n` pads. -/
def On (u : ℝ) (t : ℤ) (M : MountedSize) (L : PadSize.Layout ℝ) (n row pad : ℤ) (c : ℝ × ℝ) : Prop :=
  ∃ r phi, M.At u t r phi c ∧ DeepInPad M.pads (PadSize.getNRows L) n (12 * u * M.pads.rMax + M.shift u t c)
    (60 * u + 3 * M.shift u t c / r) row pad r phi

/-- The module of the TPC is this one. -/
structure Is (F : Arith ℝ) (fuel : ℕ) (t : ℤ) (M : MountedSize) (L : PadSize.Layout ℝ) (x : TpcParams.Mod ℝ) : Prop where
  id : x.id = M.id
  nearest : ∀ a b, x.getNearestPad a b = getNearestPad F (M.module F fuel t L) a b
  distance : ∀ a b p, x.getDistanceToPad a b p = getDistanceToPad F (M.module F fuel t L) a b p

end MountedSize

end Spec

variable {F : Arith ℝ} {u : ℝ} {t : ℤ} {fuel : ℕ} {M : MountedSize} {L : PadSize.Layout ℝ}

/-- The polar coordinates of a point in the module's own plane, up to rounding. -/
theorem size_local (R : Rounded F u) (hM : M.Proper F L) {c : ℝ × ℝ} {r phi : ℝ} (hq : M.At u CARTESIAN r phi c) :
    ∃ l, globalToLocal F (M.module F fuel CARTESIAN L) c.1 c.2 = .ok l ∧ |l.1 - r| ≤ M.shift u CARTESIAN c ∧
      (∃ k : ℤ, |l.2 - (phi + k * (2 * π))| ≤ 3 * M.shift u CARTESIAN c / r) ∧ 0 ≤ l.2 ∧ l.2 ≤ F.turn := by
  obtain ⟨p, h1, h2⟩ := globalToLocal_double (id := M.id) (L := fixedSize F (fuel + 1) L) (f := M.frequency) R (Or.inl rfl) (Or.inr rfl)
    hM.settled hM.given c
  have hh := made_has F M.id (fixedSize F (fuel + 1) L) CARTESIAN M.frequency M.ops
  obtain ⟨a1, -, a3⟩ := local_range R ((Inv.new R M.id (fixedSize F (fuel + 1) L) CARTESIAN M.frequency).run R M.ops hM.given)
    (by rw [hh.type]; exact Or.inl rfl) (by rw [hh.layout]; rfl) (by rw [hh.type]; exact fun h => absurd h polar_ne) h1
  rw [hh.type] at a3
  have e : plane (fixedSize F (fuel + 1) L).coordinateType p = (p.1 * cos p.2, p.1 * sin p.2) := plane_polar p
  have hpl := hq.place
  have hoff := hq.off
  have hrad := hq.radius
  unfold onPlate at hpl
  rw [e, hpl, far_eq] at h2
  unfold MountedSize.values at h2
  rw [place_far, ← far_eq] at h2
  obtain ⟨b1, b2⟩ := polar_close (by linarith) a1 (by
    show 100 * u * (weight CARTESIAN c * (1 + |M.values.angle|) + weight CARTESIAN M.values.offset) ≤ r / 2
    have := hoff
    unfold MountedSize.shift size at this
    linarith) h2
  exact ⟨p, h1, b1, b2, a3 rfl⟩

theorem size_layout : (M.module F fuel t L).layout = fixedSize F (fuel + 1) L :=
  (made_has F M.id (fixedSize F (fuel + 1) L) t M.frequency M.ops).layout

theorem size_shift_nonneg (R : Rounded F u) (c : ℝ × ℝ) : 0 ≤ M.shift u t c := by
  have h1 := R.nonneg
  have h2 := size_nonneg t M.values c
  unfold MountedSize.shift
  positivity

/-- A rounded sum or difference of a rounded number and half of a rounded size. -/
theorem half_near (R : Rounded F u) {c x h y a b W : ℝ} (hc : |c - x| ≤ a) (hh : |h - y| ≤ b) (hx : |x| + |y| + a + b ≤ W) :
    |F.sub c (F.div h 2) - (x - y / 2)| ≤ a + b + 2 * u * W ∧ |F.add c (F.div h 2) - (x + y / 2)| ≤ a + b + 2 * u * W := by
  have hu := R.nonneg
  have hs := R.small
  have a0 : 0 ≤ a := (abs_nonneg _).trans hc
  have b0 : 0 ≤ b := (abs_nonneg _).trans hh
  have d := R.rounding.err (h / 2)
  have hc' : |c| ≤ |x| + a := by
    have := abs_add_le (c - x) x
    simp only [sub_add_cancel] at this
    linarith
  have hh' : |h| ≤ |y| + b := by
    have := abs_add_le (h - y) y
    simp only [sub_add_cancel] at this
    linarith
  have e2 : |h / 2| = |h| / 2 := by rw [abs_div]; norm_num
  have x0 := abs_nonneg x
  have y0 := abs_nonneg y
  have d' : |F.div h 2 - h / 2| ≤ u * (W / 2) := by
    refine d.trans (mul_le_mul_of_nonneg_left ?_ hu)
    rw [e2]
    linarith
  obtain ⟨g, hg⟩ : ∃ g, g = F.div h 2 := ⟨_, rfl⟩
  rw [← hg] at d' ⊢
  have W0 : 0 ≤ W := by linarith
  have uW : u * W ≤ 1 / 1000 * W := mul_le_mul_of_nonneg_right hs W0
  have hgb : |g| ≤ |h| / 2 + u * (W / 2) := by
    have := abs_add_le (g - h / 2) (h / 2)
    rw [sub_add_cancel, e2] at this
    linarith
  have cg : |c| + |g| ≤ 1.01 * W := by linarith
  have s1 := R.rounding.err (c - g)
  have s2 := R.rounding.err (c + g)
  have t1 : |F.sub c g - (c - g)| ≤ u * (1.01 * W) := s1.trans (mul_le_mul_of_nonneg_left ((abs_sub _ _).trans cg) hu)
  have t2 : |F.add c g - (c + g)| ≤ u * (1.01 * W) := s2.trans (mul_le_mul_of_nonneg_left ((abs_add_le _ _).trans cg) hu)
  have uW0 : 0 ≤ u * W := mul_nonneg hu W0
  rw [abs_le] at hc hh d' t1 t2
  rw [abs_le, abs_le]
  constructor <;> constructor <;> linarith [hc.1, hc.2, hh.1, hh.2, d'.1, d'.2, t1.1, t1.2, t2.1, t2.2]

/-! ### C164 -/

/-- The margin at the border of a pad keeps the angle away from the ends of a turn. -/
theorem in_turn (R : Rounded F u) (hu : 0 < u) (hM : M.Proper F L) {n row pad p : ℤ} (hn : PadsInRow L row n) (hp : IsIndex L row pad p)
    {phi e : ℝ} (h1 : pad * (M.pads.phiMax / n) + (60 * u + e) ≤ phi) (h2 : phi ≤ (pad + 1) * (M.pads.phiMax / n) - (60 * u + e)) :
    20 * u + e ≤ phi ∧ phi ≤ 2 * π - 20 * u - e ∧ M.pads.phiMax ≤ 8 := by
  obtain ⟨n', hn', p0, p1⟩ := hp.1
  obtain ⟨rr, hrr, rfl⟩ := hn
  obtain ⟨rr', hrr', rfl⟩ := hn'
  obtain rfl := Option.some.inj (hrr.symm.trans hrr')
  have hpi := abs_le.1 R.pi
  have hA := hM.made.proper
  have hphi := hA.phi
  have hphi0 := hA.phi0
  have hnn : (0 : ℝ) < rr.nPad := by exact_mod_cast (by omega : 0 < rr.nPad)
  have hp0 : (0 : ℝ) ≤ pad := by exact_mod_cast p0
  have hp1 : (pad : ℝ) + 1 ≤ rr.nPad := by exact_mod_cast (by omega : pad + 1 ≤ rr.nPad)
  have w0 : 0 ≤ M.pads.phiMax / rr.nPad := by positivity
  have k1 : 0 ≤ pad * (M.pads.phiMax / rr.nPad) := mul_nonneg hp0 w0
  have k2 : (pad + 1) * (M.pads.phiMax / rr.nPad) ≤ M.pads.phiMax := by
    have := mul_le_mul_of_nonneg_right hp1 w0
    rwa [mul_div_cancel₀ _ hnn.ne'] at this
  have hup : u * π ≤ u * 3.15 := mul_le_mul_of_nonneg_left Real.pi_lt_d2.le hu.le
  have hs := R.small
  have h3 := Real.pi_lt_d2
  refine ⟨by linarith, ?_, ?_⟩
  · have : M.pads.phiMax ≤ 2 * F.pi := hphi
    linarith [hpi.2]
  · have : M.pads.phiMax ≤ 2 * F.pi := hphi
    linarith [hpi.2]

/-- In a Cartesian TPC, for a point on a pad, not near to its border, `getNearestPad` of the module gives this pad. -/
theorem size_nearest_double (R : Rounded F u) (hu : 0 < u) (hM : M.Proper F L) {n row pad p : ℤ} (hn : PadsInRow L row n)
    (hp : IsIndex L row pad p) {c : ℝ × ℝ} (hc : M.On u CARTESIAN L n row pad c) :
    getNearestPad F (M.module F fuel CARTESIAN L) c.1 c.2 = .ok p := by
  obtain ⟨r, phi, hq, ⟨d1, d2⟩, d3, d4⟩ := hc
  have sh := size_shift_nonneg (M := M) (t := CARTESIAN) R c
  obtain ⟨l, l1, l2, ⟨k, l3⟩, l5, l6⟩ := size_local (fuel := fuel) R hM hq
  obtain ⟨f1, f2, f3⟩ := in_turn R hu hM hn hp d3 d4
  obtain rfl := no_turn R hu l3 l5 l6 f1 f2
  simp only [Int.cast_zero, zero_mul, add_zero] at l3
  rw [abs_le] at l2 l3
  have hA := hM.made.proper
  have hr0 := hA.r0
  have hrm := hA.r
  have hs := R.small
  have hoff := hq.off
  have hrad := hq.radius
  have um : 0 ≤ u * M.pads.rMin := mul_nonneg hu.le hr0
  have uM : 0 ≤ u * M.pads.rMax := mul_nonneg hu.le (by linarith)
  have u8 : u * M.pads.phiMax ≤ u * 8 := mul_le_mul_of_nonneg_left f3 hu.le
  have tiny := abs_le.1 (R.rounding.err (1 / 1000000))
  have hi := PadSize.Double.nearest_deep_double (angle_rounded R hu) hM.made hM.filled hn hp (r := l.1) (phi := l.2)
    (by
      rw [abs_of_pos (by norm_num)] at tiny
      have : F.toArith.rnd (1 / 1000000) = F.rnd (1 / 1000000) := rfl
      rw [this]
      linarith [tiny.2, l2.1])
    ⟨⟨by linarith [l2.1], by linarith [l2.2]⟩, by linarith [l3.1], by linarith [l3.2]⟩ fuel
  unfold getNearestPad
  rw [l1, Res.bind_ok, size_layout]
  unfold fixedSize
  dsimp only
  rw [hi]

/-- In a Cartesian TPC, `isInsidePad` of the module compares the distance from the middle of the pad with half of its height and width,
up to rounding. -/
theorem size_inside_double (R : Rounded F u) (hu : 0 < u) (hM : M.Proper F L) {n row pad p : ℤ} (hn : PadsInRow L row n)
    (hp : IsIndex L row pad p) {c : ℝ × ℝ} {r phi : ℝ} (hq : M.At u CARTESIAN r phi c) :
    ∃ b, isInsidePad F (M.module F fuel CARTESIAN L) c.1 c.2 p = .ok b ∧
      (M.pads.rMin + M.shift u CARTESIAN c ≤ r → r ≤ M.pads.rMax - M.shift u CARTESIAN c →
        20 * u + 3 * M.shift u CARTESIAN c / r ≤ phi → phi ≤ 2 * π - 20 * u - 3 * M.shift u CARTESIAN c / r →
        |r - rowCentre M.pads (PadSize.getNRows L) row| ≤
          M.pads.padHeight / 2 - 8 * u * (M.pads.rMax + M.pads.padHeight) - M.shift u CARTESIAN c →
        |phi - (pad + 1 / 2) * (M.pads.phiMax / n)| ≤
          M.pads.padWidth / rowCentre M.pads (PadSize.getNRows L) row / 2 - 90 * u - 3 * M.shift u CARTESIAN c / r → b = true) ∧
      (b = true → |r - rowCentre M.pads (PadSize.getNRows L) row| ≤
          M.pads.padHeight / 2 + 8 * u * (M.pads.rMax + M.pads.padHeight) + M.shift u CARTESIAN c ∧
        ∃ k : ℤ, |phi + k * (2 * π) - (pad + 1 / 2) * (M.pads.phiMax / n)| ≤
          M.pads.padWidth / rowCentre M.pads (PadSize.getNRows L) row / 2 + 90 * u + 3 * M.shift u CARTESIAN c / r) := by
  obtain ⟨l, l1, l2, ⟨k, l3⟩, l5, l6⟩ := size_local (fuel := fuel) R hM hq
  have B := PadSize.Double.built_of (angle_rounded R hu) hM.made
  have hres : isInsidePad F (M.module F fuel CARTESIAN L) c.1 c.2 p =
      match PadSize.Double.isInsidePad F.toArith L (fuel + 1) l.1 l.2 p with | some x => x | none => .ub := by
    unfold isInsidePad
    rw [l1, Res.bind_ok, size_layout]
    rfl
  by_cases hout : l.1 < M.pads.rMin ∨ l.1 > M.pads.rMax
  · refine ⟨false, ?_, ?_, fun h => absurd h (by simp)⟩
    · rw [hres]
      unfold PadSize.Double.isInsidePad
      rw [B.rMin, B.rMax, if_pos hout]
    · intro g1 g2
      rw [abs_le] at l2
      rcases hout with h | h <;> linarith [l2.1, l2.2]
  · have hout := not_or.1 hout
    obtain ⟨b, i1, i2, i3⟩ := PadSize.Double.inside_double (angle_rounded R hu) hM.made hM.filled hn hp (r := l.1) (phi := l.2)
      (not_lt.1 hout.1) (not_lt.1 hout.2) l5 l6 fuel
    refine ⟨b, by rw [hres, i1], fun _ _ f1 f2 g1 g2 => i2 ?_, fun hb => ?_⟩
    · obtain rfl := no_turn R hu l3 l5 l6 f1 f2
      simp only [Int.cast_zero, zero_mul, add_zero] at l3
      rw [abs_le] at l2 l3 g1 g2 ⊢
      rw [abs_le]
      exact ⟨⟨by linarith [l2.1, g1.1], by linarith [l2.2, g1.2]⟩, by linarith [l3.1, g2.1], by linarith [l3.2, g2.2]⟩
    · obtain ⟨j1, j2⟩ := i3 hb
      rw [abs_le] at l2 l3 j1 j2
      refine ⟨?_, k, ?_⟩
      · rw [abs_le]; constructor <;> linarith [l2.1, l2.2, j1.1, j1.2]
      · rw [abs_le]; constructor <;> linarith [l3.1, l3.2, j2.1, j2.2]

/-- In a Cartesian TPC, the distance to the pad is 0 on the pad. -/
theorem size_distance_double (R : Rounded F u) (hu : 0 < u) (hM : M.Proper F L) {n row pad p : ℤ} (hn : PadsInRow L row n)
    (hp : IsIndex L row pad p) {c : ℝ × ℝ} (hc : M.On u CARTESIAN L n row pad c) :
    getDistanceToPad F (M.module F fuel CARTESIAN L) c.1 c.2 p = .ok 0 := by
  obtain ⟨r, phi, hq, ⟨d1, d2⟩, d3, d4⟩ := hc
  obtain ⟨l, l1, l2, ⟨k, l3⟩, l5, l6⟩ := size_local (fuel := fuel) R hM hq
  obtain ⟨f1, f2, f3⟩ := in_turn R hu hM hn hp d3 d4
  obtain rfl := no_turn R hu l3 l5 l6 f1 f2
  simp only [Int.cast_zero, zero_mul, add_zero] at l3
  have A := angle_rounded R hu
  have hA := hM.made.proper
  have hr0 := hA.r0
  have hrm := hA.r
  have hphi0 := hA.phi0
  have hs := R.small
  have B := PadSize.Double.built_of A hM.made
  obtain ⟨hN, hlen⟩ := PadSize.Double.nRow_of B hM.filled
  obtain ⟨b, hb, b1, b2⟩ := PadSize.Double.centre_near A hM.made hM.filled hn hp
  obtain ⟨e1, e2⟩ := PadSize.numbers hM.filled hp
  obtain ⟨hn1, -⟩ := hM.filled.pads _ _ hn
  obtain ⟨n', hn', p0, p1⟩ := id hp.1
  obtain ⟨rr, hrr, rfl⟩ := hn
  obtain ⟨rr', hrr', rfl⟩ := hn'
  obtain rfl := Option.some.inj (hrr.symm.trans hrr')
  obtain ⟨⟨r0, r1⟩, -, q3, -, -⟩ := PadSize.Double.row_props A hA B hrr
  rw [hlen] at d1 d2 b1
  have hNr : (0 : ℝ) < L.nRow := by exact_mod_cast hN.1
  have hnn : (0 : ℝ) < rr.nPad := by exact_mod_cast hn1
  have hrow0 : (0 : ℝ) ≤ row := by exact_mod_cast r0
  have hrow1 : (row : ℝ) + 1 ≤ L.nRow := by exact_mod_cast (by omega : row + 1 ≤ L.nRow)
  have hp0 : (0 : ℝ) ≤ pad := by exact_mod_cast p0
  have hp1 : (pad : ℝ) + 1 ≤ rr.nPad := by exact_mod_cast (by omega : pad + 1 ≤ rr.nPad)
  -- heights and angles of the pad
  obtain ⟨s1, s2, -⟩ := R.rounding.size hu.le hs hA.r hN.1
  have hrh : L.rowHeight = F.rnd (F.rnd (M.pads.rMax - M.pads.rMin) / L.nRow) := B.rowHeight
  rw [← hrh] at s1 s2
  obtain ⟨H, hH⟩ : ∃ H, H = (M.pads.rMax - M.pads.rMin) / (L.nRow : ℝ) := ⟨_, rfl⟩
  have H0 : 0 < H := by rw [hH]; exact div_pos (by linarith) hNr
  have HN : L.nRow * H = M.pads.rMax - M.pads.rMin := by rw [hH]; field_simp
  have k1 : (row + 1) * H ≤ L.nRow * H := mul_le_mul_of_nonneg_right hrow1 H0.le
  have k2 : 0 ≤ row * H := mul_nonneg hrow0 H0.le
  have k3 : (row + 1) * H = row * H + H := by ring
  have uH : 0 ≤ u * H := mul_nonneg hu.le H0.le
  have uuH : u * (u * H) ≤ 1 / 1000 * (u * H) := mul_le_mul_of_nonneg_right hs uH
  have uHM : u * H ≤ u * M.pads.rMax := mul_le_mul_of_nonneg_left (by linarith) hu.le
  rw [← hH] at s1 s2 d1 d2
  have hh : |L.rowHeight - H| ≤ 2.1 * (u * H) := by
    have z1 : (1 - u) * (1 - u) * H = H - 2 * (u * H) + u * (u * H) := by ring
    have z2 : (1 + u) * (1 + u) * H = H + 2 * (u * H) + u * (u * H) := by ring
    have := mul_nonneg hu.le uH
    rw [abs_le]; constructor <;> linarith
  have hcen : rowCentre M.pads L.nRow row = M.pads.rMin + (row * H + H / 2) := by
    unfold rowCentre; rw [← hH]; ring
  rw [hcen] at b1
  obtain ⟨W, hW⟩ : ∃ W, W = M.pads.phiMax / (rr.nPad : ℝ) := ⟨_, rfl⟩
  have W0 : 0 < W := by rw [hW]; exact div_pos hphi0 hnn
  have WN : rr.nPad * W = M.pads.phiMax := by rw [hW]; field_simp
  have w1 : (pad + 1) * W ≤ rr.nPad * W := mul_le_mul_of_nonneg_right hp1 W0.le
  have w2 : 0 ≤ pad * W := mul_nonneg hp0 W0.le
  have w3 : (pad + 1) * W = pad * W + W := by ring
  have w4 : (pad + 1 / 2) * W = pad * W + W / 2 := by ring
  rw [← hW] at b2 d3 d4 q3
  rw [w4] at b2
  have q3 : rr.phiPad = F.rnd W := q3
  have hw : |rr.phiPad - W| ≤ u * W := by
    have := R.rounding.err W
    rw [q3]
    rwa [abs_of_pos W0] at this
  have u8 : u * M.pads.phiMax ≤ u * 8 := mul_le_mul_of_nonneg_left f3 hu.le
  have uW8 : u * W ≤ u * M.pads.phiMax := mul_le_mul_of_nonneg_left (by linarith) hu.le
  have uM1 : u * M.pads.rMax ≤ 1 / 1000 * M.pads.rMax := mul_le_mul_of_nonneg_right hs (by linarith)
  have uP1 : u * M.pads.phiMax ≤ 1 / 1000 * M.pads.phiMax := mul_le_mul_of_nonneg_right hs hphi0.le
  obtain ⟨m1, m2⟩ := half_near R b1 hh (W := 1.6 * M.pads.rMax) (by
    rw [abs_of_nonneg (by linarith : 0 ≤ M.pads.rMin + (row * H + H / 2)), abs_of_pos H0]
    linarith)
  obtain ⟨m3, m4⟩ := half_near R b2 hw (W := 1.6 * M.pads.phiMax) (by
    rw [abs_of_nonneg (by linarith : 0 ≤ pad * W + W / 2), abs_of_pos W0]
    linarith)
  have uM2 : 2 * u * (1.6 * M.pads.rMax) = 3.2 * (u * M.pads.rMax) := by ring
  have uP2 : 2 * u * (1.6 * M.pads.phiMax) = 3.2 * (u * M.pads.phiMax) := by ring
  rw [abs_le] at l2 l3 m1 m2 m3 m4
  unfold getDistanceToPad
  rw [l1, Res.bind_ok, size_layout]
  show sizeDistance F L l.1 l.2 p = _
  unfold sizeDistance
  rw [hb, Res.bind_ok]
  have g1 : PadSize.getPadPitch L p = rr.phiPad := by
    unfold PadSize.getPadPitch
    rw [e1, hrr]
  rw [g1]
  unfold PadSize.getRowHeight Disk.Double.getDistanceToPad Disk.Double.keystoneDistance
  rw [if_pos ⟨by linarith [m3.2, l3.1], by linarith [m4.1, l3.2]⟩, if_pos ⟨by linarith [m1.2, l2.1], by linarith [m2.1, l2.2]⟩]

/-- In a Cartesian TPC, `getNearestPad` of the TPC gives the pad and the module that the point is on, when the pads that the other modules
answer with are not at the distance 0. -/
theorem tpc_size_nearest_double (R : Rounded F u) (hu : 0 < u) (T : TpcParams.Tpc ℝ) {x : TpcParams.Mod ℝ}
    (hx : x ∈ TpcParams.getModules T) (hI : M.Is F fuel CARTESIAN L x) (hM : M.Proper F L) {n row pad p : ℤ} (hn : PadsInRow L row n)
    (hp : IsIndex L row pad p) {c : ℝ × ℝ} (hc : M.On u CARTESIAN L n row pad c)
    (ho : ∀ y ∈ TpcParams.getModules T, y ≠ x → ∃ p' d, y.getNearestPad c.1 c.2 = .ok p' ∧ y.getDistanceToPad c.1 c.2 p' = .ok d ∧ 0 < d) :
    TpcParams.getNearestPad T c.1 c.2 = .ok ⟨p, M.id⟩ := by
  rw [← hI.id]
  exact winner c.1 c.2 (by rw [hI.nearest]; exact size_nearest_double R hu hM hn hp hc)
    (by rw [hI.distance]; exact size_distance_double R hu hM hn hp hc) _ hx ho

/-- `getPadCenter` of a module is the place of the middle of the pad, up to rounding. -/
theorem size_center_double (R : Rounded F u) (hu : 0 < u) (ht : Known t) (hM : M.Proper F L) {n row pad p : ℤ} (hn : PadsInRow L row n)
    (hp : IsIndex L row pad p) :
    ∃ g c : ℝ × ℝ, getPadCenter F (M.module F fuel t L) p = .ok g ∧
      |c.1 - rowCentre M.pads (PadSize.getNRows L) row| ≤ 6 * u * M.pads.rMax ∧
      |c.2 - (pad + 1 / 2) * (M.pads.phiMax / n)| ≤ 3 * u * M.pads.phiMax ∧
      far (plane t g) (onPlate t M.values (c.1 * cos c.2, c.1 * sin c.2)) ≤
        100 * u * (|c.1| * (1 + |c.2|) * (1 + |M.values.angle|) + weight t M.values.offset) := by
  obtain ⟨c, hc, k1, k2⟩ := PadSize.Double.centre_near (angle_rounded R hu) hM.made hM.filled hn hp
  obtain ⟨g, h1, h2⟩ := localToGlobal_double (id := M.id) (L := fixedSize F (fuel + 1) L) (f := M.frequency) R ht (Or.inr rfl)
    hM.settled hM.given c
  refine ⟨g, c, ?_, k1, k2, ?_⟩
  · unfold getPadCenter
    rw [size_layout]
    have : (fixedSize F (fuel + 1) L).getPadCenter p = .ok c := hc
    rw [this]
    exact h1
  · have e : plane (fixedSize F (fuel + 1) L).coordinateType c = _ := plane_polar _
    have ew : weight (fixedSize F (fuel + 1) L).coordinateType c = _ := weight_polar _
    rw [e, ew] at h2
    exact h2

/-! ### Non-vacuity -/

theorem exact {n k : ℤ} (x : ℝ) (h : |n| ≤ 2 ^ 53) (hx : x = (n : ℝ) * 2 ^ k) : realDoubles.rnd x = x := by
  rw [hx]
  exact Doubles.binary64_scaled n k h

/-- One row between the radii 1 and 2, pads of width 1 between the angles 0 and 3. -/
def rowPads : Args ℝ := ⟨1, 2, 1, 1, 1, 0, 3⟩

/-- The layout has four pads. -/
noncomputable def fourPads : PadSize.Layout ℝ :=
  { rMin := 1, rMax := 2, phiMax := 3, padWidth := 1, padHeight := 1, padGap := 0, nRow := 1, rowHeight := 1
    rows := [⟨4, 3 / 2, 3 / 4⟩], nPad := 4, extent := [1, 2, 0, 3], padIndices := [none] }

theorem fourPads_new : PadSize.Double.new realDoubles.toArith 1 1 2 1 1 1 0 3 = some (.ok fourPads) := by
  have r0 := exact (n := 0) (k := 0) 0 (by norm_num) (by norm_num)
  have r1 := exact (n := 1) (k := 0) 1 (by norm_num) (by norm_num)
  have r2 := exact (n := 1) (k := -1) (1 / 2) (by norm_num) (by norm_num)
  have r3 := exact (n := 3) (k := -1) (3 / 2) (by norm_num) (by norm_num)
  have r4 := exact (n := 9) (k := -1) (9 / 2) (by norm_num) (by norm_num)
  have r5 := exact (n := 3) (k := -2) (3 / 4) (by norm_num) (by norm_num)
  have R := PadAngle.Double.Spec.Rounded.rounding (angle_rounded realDoubles_rounded (by norm_num))
  have hw : PadSize.Double.wrap realDoubles.toArith 1 (realDoubles.mul (-2) realDoubles.pi) (realDoubles.mul 2 realDoubles.pi) 3 = some 3 := by
    have hpi := abs_le.1 realDoubles_rounded.pi
    have h3 := Real.pi_gt_d2
    have h4 := Real.pi_lt_d2
    have e1 := abs_le.1 (realDoubles_rounded.rounding.err (-2 * realDoubles.pi))
    have e2 := abs_le.1 (realDoubles_rounded.rounding.err (2 * realDoubles.pi))
    norm_num at hpi
    have p0 : 3 < realDoubles.pi := by linarith [hpi.1]
    rw [abs_of_neg (by linarith)] at e1
    rw [abs_of_pos (by linarith)] at e2
    norm_num at e1 e2
    refine PadSize.Double.wrap_id (fuel := 0) ?_ ?_
    · show realDoubles.rnd (-2 * realDoubles.pi) ≤ 3
      norm_num
      linarith [e1.2]
    · show 3 ≤ realDoubles.rnd (2 * realDoubles.pi)
      linarith [e2.1]
  have hn : PadSize.Double.numRows realDoubles.toArith 1 2 1 1 = .ok 1 := by
    have a1 := realDoubles_rounded.rounding.bounds (x := 1 / 100) (by norm_num)
    obtain ⟨a, ha⟩ : ∃ a, a = realDoubles.rnd (1 / 100) := ⟨_, rfl⟩
    rw [← ha] at a1
    norm_num at a1
    have b1 := realDoubles_rounded.rounding.bounds (x := 2 + a) (by linarith [a1.1])
    obtain ⟨b, hb⟩ : ∃ b, b = realDoubles.rnd (2 + a) := ⟨_, rfl⟩
    rw [← hb] at b1
    norm_num at b1
    have c1 := realDoubles_rounded.rounding.bounds (x := b - 1) (by linarith [a1.1, b1.1])
    obtain ⟨c, hc⟩ : ∃ c, c = realDoubles.rnd (b - 1) := ⟨_, rfl⟩
    rw [← hc] at c1
    norm_num at c1
    have d1 := realDoubles_rounded.rounding.bounds (x := c / 1) (by linarith [a1.1, b1.1, c1.1])
    obtain ⟨d, hd⟩ : ∃ d, d = realDoubles.rnd (c / 1) := ⟨_, rfl⟩
    rw [← hd] at d1
    norm_num at d1
    have e : realDoubles.toArith.div (realDoubles.toArith.sub (realDoubles.toArith.add 2 (realDoubles.toArith.rnd (1 / 100))) 1) 1 = d := by
      rw [hd, hc, hb, ha]; rfl
    have l1 : 1 ≤ d := by linarith [a1.1, b1.1, c1.1, d1.1]
    have l2 : d < 2 := by linarith [a1.2, b1.2, c1.2, d1.2]
    have hf : ⌊d⌋ = 1 := Int.floor_eq_iff.2 ⟨by norm_num; linarith, by norm_num; linarith⟩
    unfold PadSize.Double.numRows
    rw [e, PadAngle.Double.toInt_nonneg (by linarith) (by linarith), hf]
    rfl
  have hr : PadSize.Double.mkRow realDoubles.toArith 1 3 1 0 1 0 = .ok ⟨4, 3 / 2, 3 / 4⟩ := by
    have s1 : realDoubles.toArith.add (realDoubles.toArith.add 1 (realDoubles.toArith.mul ((0 : ℕ) : ℝ) 1))
        (realDoubles.toArith.mul (1 / 2) 1) = 3 / 2 := by
      show realDoubles.rnd (realDoubles.rnd (1 + realDoubles.rnd (((0 : ℕ) : ℝ) * 1)) + realDoubles.rnd (1 / 2 * 1)) = 3 / 2
      rw [Nat.cast_zero, zero_mul, r0, add_zero, r1, mul_one, r2]
      norm_num
      exact r3
    have s2 : realDoubles.toArith.mul (3 / 2) 3 = 9 / 2 := by
      show realDoubles.rnd (3 / 2 * 3) = 9 / 2
      norm_num
      exact r4
    have s3 : realDoubles.toArith.div (9 / 2) (realDoubles.toArith.add 1 0) = 9 / 2 := by
      show realDoubles.rnd (9 / 2 / realDoubles.rnd (1 + 0)) = 9 / 2
      rw [add_zero, r1, div_one]
      exact r4
    have s4 : PadAngle.Double.floorInt (9 / 2 : ℝ) = .ok 4 := by
      have hf : ⌊(9 / 2 : ℝ)⌋ = 4 := Int.floor_eq_iff.2 ⟨by norm_num, by norm_num⟩
      unfold PadAngle.Double.floorInt
      rw [hf, PadAngle.Double.toInt_nonneg (by norm_num) (by norm_num), Int.floor_intCast]
    have s5 : realDoubles.toArith.div 3 ((4 : ℤ) : ℝ) = 3 / 4 := by
      show realDoubles.rnd (3 / ((4 : ℤ) : ℝ)) = 3 / 4
      norm_num
      exact r5
    unfold PadSize.Double.mkRow
    dsimp only
    rw [s1, s2, s3, s4, Res.bind_ok, s5]
    rfl
  unfold PadSize.Double.new
  rw [if_neg (by norm_num)]
  have hw' : PadSize.Double.wrap realDoubles.toArith 1 (realDoubles.toArith.mul (-2) realDoubles.toArith.pi)
    (realDoubles.toArith.mul 2 realDoubles.toArith.pi) 3 = some 3 := hw
  rw [hw']
  dsimp only
  rw [hn, Res.bind_ok, if_neg (by norm_num)]
  have hh : realDoubles.toArith.div (realDoubles.toArith.sub 2 1) ((1 : ℤ) : ℝ) = 1 := by
    show realDoubles.rnd (realDoubles.rnd (2 - 1) / ((1 : ℤ) : ℝ)) = 1
    norm_num [r1]
  rw [hh]
  have : PadSize.Double.mkRows (PadSize.Double.mkRow realDoubles.toArith 1 3 1 0 1) (1 : ℤ).toNat = .ok [⟨4, 3 / 2, 3 / 4⟩] := by
    show PadSize.Double.mkRows (PadSize.Double.mkRow realDoubles.toArith 1 3 1 0 1) 1 = _
    unfold PadSize.Double.mkRows
    unfold PadSize.Double.mkRows
    rw [Res.bind_ok, hr]
    rfl
  rw [this]
  rfl

/-- A module with these pads, moved and turned by half a radian. -/
noncomputable def rowAt : MountedSize := ⟨5, 1, [.offset 1 2, .angle (1 / 2)], rowPads⟩

theorem fourPads_rows {row n : ℤ} (h : PadsInRow fourPads row n) : row = 0 ∧ n = 4 := by
  obtain ⟨r, hr, rfl⟩ := h
  have h0 := Rect.elem_range hr
  have : row = 0 := by
    have e : fourPads.rows.length = 1 := rfl
    rw [e] at h0
    omega
  subst this
  have : r = ⟨4, 3 / 2, 3 / 4⟩ := (Option.some.inj hr).symm
  rw [this]
  exact ⟨rfl, rfl⟩

theorem rowAt_proper : rowAt.Proper realDoubles fourPads := by
  refine ⟨⟨[.offset 1 2], .angle (1 / 2), [], rfl, trivial, by simp⟩, ?_, ⟨?_, ?_, ?_, ⟨1, fourPads_new⟩⟩, ?_, ?_⟩
  · intro o ho
    have : o = .offset 1 2 ∨ o = .angle (1 / 2) := by simpa [rowAt] using ho
    rcases this with rfl | rfl
    · exact exact (n := 2) (k := 0) 2 (by norm_num) (by norm_num)
    · trivial
  · have hpi := abs_le.1 realDoubles_rounded.pi
    have h3 := Real.pi_gt_three
    norm_num at hpi
    constructor <;> norm_num [rowAt, rowPads]
    show 3 ≤ 2 * realDoubles.pi
    linarith [hpi.1]
  · exact exact (n := 1) (k := 0) 1 (by norm_num) (by norm_num)
  · exact exact (n := 3) (k := 0) 3 (by norm_num) (by norm_num)
  · show (0 : ℤ) < 1 ∧ (1 : ℤ) ≤ 65536
    norm_num
  · intro row n h
    obtain ⟨-, rfl⟩ := fourPads_rows h
    norm_num

theorem fourPads_index {pad : ℤ} (h : 0 ≤ pad ∧ pad < 4) : PadsInRow fourPads 0 4 ∧ ∃ p, IsIndex fourPads 0 pad p := by
  have h4 : PadsInRow fourPads 0 4 := ⟨⟨4, 3 / 2, 3 / 4⟩, rfl, rfl⟩
  have : pad = 0 ∨ pad = 1 ∨ pad = 2 ∨ pad = 3 := by omega
  rcases this with rfl | rfl | rfl | rfl <;> exact ⟨h4, _, ⟨4, h4, by norm_num, by norm_num⟩, rfl⟩

theorem rowAt_shift (phi : ℝ) :
    rowAt.shift (1 / 2 ^ 53) CARTESIAN (onPlate CARTESIAN rowAt.values (3 / 2 * cos phi, 3 / 2 * sin phi)) ≤ 1 / 2 ^ 40 := by
  have hv : rowAt.values = ⟨0, (1, 2), 1 / 2, none, 1⟩ := rfl
  have e : onPlate CARTESIAN rowAt.values (3 / 2 * cos phi, 3 / 2 * sin phi) =
      (3 / 2 * cos (phi + 1 / 2) + 1, 3 / 2 * sin (phi + 1 / 2) + 2) := by
    rw [hv]
    unfold onPlate place
    rw [cos_add, sin_add, plane_cartesian]
    norm_num
    constructor <;> ring
  rw [e]
  unfold MountedSize.shift size
  rw [weight_cartesian, weight_cartesian, hv]
  have c1 := abs_le.1 (abs_cos_le_one (phi + 1 / 2))
  have c2 := abs_le.1 (abs_sin_le_one (phi + 1 / 2))
  have a1 : |3 / 2 * cos (phi + 1 / 2) + 1| ≤ 3 := abs_le.2 ⟨by linarith [c1.1], by linarith [c1.2]⟩
  have a2 : |3 / 2 * sin (phi + 1 / 2) + 2| ≤ 4 := abs_le.2 ⟨by linarith [c2.1], by linarith [c2.2]⟩
  norm_num at a1 a2 ⊢
  linarith

/-- The middle of every pad is on this pad. -/
theorem rowAt_on {pad : ℤ} (h : 0 ≤ pad ∧ pad < 4) :
    rowAt.On (1 / 2 ^ 53) CARTESIAN fourPads 4 0 pad
      (onPlate CARTESIAN rowAt.values (3 / 2 * cos (3 / 8 + pad * (3 / 4)), 3 / 2 * sin (3 / 8 + pad * (3 / 4)))) := by
  obtain ⟨phi, hphi⟩ : ∃ phi : ℝ, phi = 3 / 8 + pad * (3 / 4) := ⟨_, rfl⟩
  rw [← hphi]
  have sh := rowAt_shift phi
  refine ⟨3 / 2, phi, ⟨by rw [plane_cartesian], by norm_num, by norm_num at sh ⊢; linarith⟩, ?_⟩
  generalize rowAt.shift (1 / 2 ^ 53) CARTESIAN (onPlate CARTESIAN rowAt.values (3 / 2 * cos phi, 3 / 2 * sin phi)) = w at sh ⊢
  have e : PadSize.getNRows fourPads = 1 := rfl
  rw [e, hphi]
  unfold DeepInPad
  norm_num [rowAt, rowPads] at sh ⊢
  refine ⟨⟨?_, ?_⟩, ?_, ?_⟩ <;> linarith

/-- Non-vacuity of `size_inside_double`: the middle of the second pad is inside of it. -/
example : ∃ c : ℝ × ℝ, isInsidePad realDoubles (rowAt.module realDoubles 0 CARTESIAN fourPads) c.1 c.2 1 = .ok true := by
  obtain ⟨hn, -⟩ := fourPads_index (pad := 1) (by norm_num)
  have sh := rowAt_shift (9 / 8)
  have h3 := Real.pi_gt_three
  obtain ⟨b, h1, h2, -⟩ := size_inside_double (fuel := 0) realDoubles_rounded (by norm_num) rowAt_proper hn
    (⟨⟨4, hn, by norm_num, by norm_num⟩, rfl⟩ : IsIndex fourPads 0 1 1) (c := onPlate CARTESIAN rowAt.values (3 / 2 * cos (9 / 8), 3 / 2 * sin (9 / 8)))
    (r := 3 / 2) (phi := 9 / 8) ⟨by rw [plane_cartesian], by norm_num, by norm_num at sh ⊢; linarith⟩
  refine ⟨_, h1.trans ?_⟩
  rw [h2]
  all_goals
    have e : PadSize.getNRows fourPads = 1 := rfl
    generalize rowAt.shift (1 / 2 ^ 53) CARTESIAN (onPlate CARTESIAN rowAt.values (3 / 2 * cos (9 / 8), 3 / 2 * sin (9 / 8))) = w at sh ⊢
    norm_num [rowAt, rowPads, e, rowCentre] at sh ⊢
    linarith

/-- Non-vacuity: the middle of every pad. -/
example {pad : ℤ} (h : 0 ≤ pad ∧ pad < 4) : ∃ p, IsIndex fourPads 0 pad p ∧ ∃ c : ℝ × ℝ,
    getNearestPad realDoubles (rowAt.module realDoubles 0 CARTESIAN fourPads) c.1 c.2 = .ok p ∧
    getDistanceToPad realDoubles (rowAt.module realDoubles 0 CARTESIAN fourPads) c.1 c.2 p = .ok 0 := by
  obtain ⟨hn, p, hp⟩ := fourPads_index h
  exact ⟨p, hp, _, size_nearest_double realDoubles_rounded (by norm_num) rowAt_proper hn hp (rowAt_on h),
    size_distance_double realDoubles_rounded (by norm_num) rowAt_proper hn hp (rowAt_on h)⟩

end Gear.TpcModule.Double
