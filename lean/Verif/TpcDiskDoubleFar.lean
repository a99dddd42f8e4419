/-
C163: distances of points from pads of disk modules in a Cartesian TPC, and TPCs with several disk modules.
-/
import Verif.TpcDiskDoubleProps
import Verif.PadAngleDoubleBeyond

set_option autoImplicit false
set_option linter.unusedSectionVars false

namespace Gear.TpcModule.Double

open Real
open TpcModule.Spec (Known plane place Op Values values Settled)
open PadAngle.Spec (Args IsIndex)
open PadAngle.Double.Spec (rError phiError DeepInPad)
open Disk.Spec (keystone point dist2 distancesTo)
open MaterialMap (binary64)
open Spec

namespace Spec

/-- The results of the mathematical functions are the nearest doubles, and two times `M_PI` is not larger than two times pi. -/
structure Nearest (F : Arith ℝ) : Prop where
  cos : ∀ x, F.rnd (F.cos x) = F.rnd (Real.cos x)
  sin : ∀ x, F.rnd (F.sin x) = F.rnd (Real.sin x)
  sqrt : ∀ x, F.rnd (F.sqrt x) = F.rnd (Real.sqrt x)
  turn : F.turn ≤ 2 * π

namespace MountedDisk

/-- The distances of the point `c` from the points of a pad, as it is placed. -/
noncomputable def distances (t : ℤ) (M : MountedDisk) (row pad : ℤ) (c : ℝ × ℝ) : Set ℝ :=
  (fun q => far (plane t c) (onPlate t M.values q)) ''
    keystone (M.pads.rMin + row * M.pads.dr) (M.pads.rMin + (row + 1) * M.pads.dr)
      (M.pads.phiMin + pad * M.pads.dphi) (M.pads.phiMin + (pad + 1) * M.pads.dphi)

/-- The errors of a position and of the borders of a pad. -/
noncomputable def margin (F : Arith ℝ) (u : ℝ) (t : ℤ) (M : MountedDisk) (c : ℝ × ℝ) : ℝ :=
  M.shift u t c + rError M.pads u + 2 * M.pads.rMax * phiError M.pads u F.pi

/-- How large the radii are. -/
noncomputable def radii (t : ℤ) (M : MountedDisk) (c : ℝ × ℝ) : ℝ := 2 * (size t M.values c + M.pads.rMax)

/-- The angles of the pad are between 0 and a full turn, and it does not reach the middle of the ring. -/
structure Usual (F : Arith ℝ) (u : ℝ) (M : MountedDisk) (row pad : ℤ) : Prop where
  inner : rError M.pads u ≤ M.pads.rMin + row * M.pads.dr
  lower : phiError M.pads u F.pi ≤ M.pads.phiMin + pad * M.pads.dphi
  upper : M.pads.phiMin + (pad + 1) * M.pads.dphi + phiError M.pads u F.pi ≤ 2 * π

/-- The distance `d` is large compared with the rounding of squares. -/
def Large (F : Arith ℝ) (u : ℝ) (t : ℤ) (M : MountedDisk) (c : ℝ × ℝ) (d : ℝ) : Prop :=
  2 * M.margin F u t c ≤ d ∧ 400 * u * M.radii t c ^ 2 ≤ d ^ 2

end MountedDisk

end Spec

variable {F : Arith ℝ} {u : ℝ} {t : ℤ} {fuel : ℕ} {M : MountedDisk} {L : PadAngle.Layout ℝ}

/-! ### Exact functions -/

/-- The same arithmetic, with exact mathematical functions whose results are rounded where they are used. -/
noncomputable def exactFns (F : Arith ℝ) : MaterialMap.Arith ℝ :=
  { F.toArith with cos := Real.cos, sin := Real.sin, sqrt := Real.sqrt }

theorem exactFns_rounded (R : Rounded F u) : Disk.Double.Spec.Rounded (exactFns F) u := ⟨R.rounding, R.small, rfl, rfl, rfl⟩

theorem same_distance (N : Nearest F) (r phi rMin rMax phiMin phiMax : ℝ) :
    Disk.Double.keystoneDistance F.toArith r phi rMin rMax phiMin phiMax =
      Disk.Double.keystoneDistance (exactFns F) r phi rMin rMax phiMin phiMax := by
  have hs : ∀ v, Disk.Double.squareRoot F.toArith v = Disk.Double.squareRoot (exactFns F) v := by
    intro v
    unfold Disk.Double.squareRoot
    have : F.rnd (F.sqrt v) = (exactFns F).rnd ((exactFns F).sqrt v) := N.sqrt v
    rw [this]
  have hc : ∀ v, F.rnd (F.cos v) = (exactFns F).rnd ((exactFns F).cos v) := N.cos
  have hn : ∀ v, F.rnd (F.sin v) = (exactFns F).rnd ((exactFns F).sin v) := N.sin
  unfold Disk.Double.keystoneDistance Disk.Double.edgeDistance PadAngle.Double.rIntersect
  simp only [hs, hc, hn]
  rfl

/-! ### Keystones -/

theorem dist2_far (p q : ℝ × ℝ) : dist2 p q = far p q := rfl

theorem clamp_near {a b x y z e : ℝ} (ha : |a - x| ≤ e) (hb : |b - y| ≤ e) (h : a ≤ b) (h1 : x ≤ z) (h2 : z ≤ y) :
    ∃ w, a ≤ w ∧ w ≤ b ∧ |w - z| ≤ e := by
  rw [abs_le] at ha hb
  have he : 0 ≤ e := by linarith [ha.1, ha.2]
  refine ⟨max a (min z b), le_max_left _ _, max_le h (min_le_right _ _), ?_⟩
  rw [abs_le]
  rcases le_total z b with hz | hz
  · rw [min_eq_left hz]
    rcases le_total a z with hw | hw
    · rw [max_eq_right hw]; constructor <;> linarith
    · rw [max_eq_left hw]; constructor <;> linarith [ha.2]
  · rw [min_eq_right hz, max_eq_right h]; constructor <;> linarith [hb.1]

theorem point_near {r r' a b : ℝ} (hr : 0 ≤ r) : far (point r' b) (point r a) ≤ |r' - r| + r * |b - a| := by
  have h1 : far (point r' b) (point r b) ≤ |r' - r| := by
    show √((r' * cos b - r * cos b) ^ 2 + (r' * sin b - r * sin b) ^ 2) ≤ _
    rw [← Real.sqrt_sq_eq_abs]
    refine Real.sqrt_le_sqrt (le_of_eq ?_)
    linear_combination (r' - r) ^ 2 * sin_sq_add_cos_sq b
  have h2 : far (point r b) (point r a) ≤ r * |b - a| := by
    show √((r * cos b - r * cos a) ^ 2 + (r * sin b - r * sin a) ^ 2) ≤ _
    have e : r * |b - a| = √((r * (b - a)) ^ 2) := by rw [Real.sqrt_sq_eq_abs, abs_mul, abs_of_nonneg hr]
    rw [e]
    refine Real.sqrt_le_sqrt ?_
    have h := one_sub_sq_div_two_le_cos (x := b - a)
    rw [cos_sub] at h
    have s1 := sin_sq_add_cos_sq a
    have s2 := sin_sq_add_cos_sq b
    have : (r * cos b - r * cos a) ^ 2 + (r * sin b - r * sin a) ^ 2 = r ^ 2 * (2 - 2 * (cos b * cos a + sin b * sin a)) := by
      linear_combination r ^ 2 * s1 + r ^ 2 * s2
    rw [this, mul_pow]
    exact mul_le_mul_of_nonneg_left (by linarith) (sq_nonneg r)
  exact (far_tri _ _ _).trans (add_le_add h1 h2)

theorem keystone_near {a b x y p q v w e f : ℝ} (ha : |a - x| ≤ e) (hb : |b - y| ≤ e) (h : a ≤ b) (hp : |p - v| ≤ f) (hq : |q - w| ≤ f)
    (h' : p ≤ q) (h0 : 0 ≤ x) {g : ℝ × ℝ} (hg : g ∈ keystone x y v w) : ∃ g' ∈ keystone a b p q, far g' g ≤ e + y * f := by
  obtain ⟨r, c, h1, h2, h3, h4, rfl⟩ := hg
  obtain ⟨r', k1, k2, k3⟩ := clamp_near ha hb h h1 h2
  obtain ⟨c', k4, k5, k6⟩ := clamp_near hp hq h' h3 h4
  refine ⟨_, ⟨r', c', k1, k2, k4, k5, rfl⟩, (point_near (by linarith)).trans ?_⟩
  exact add_le_add k3 (mul_le_mul h2 k6 (abs_nonneg _) (by linarith))

/-! ### C163 -/

theorem size_ge (v : Values) (c : ℝ × ℝ) : weight CARTESIAN c + weight CARTESIAN v.offset ≤ size CARTESIAN v c := by
  have h1 : 0 ≤ weight CARTESIAN c := by rw [weight_cartesian]; positivity
  unfold size
  have := mul_nonneg h1 (abs_nonneg v.angle)
  linarith

/-- The point of the module's own plane that is placed at `c`. -/
theorem own_norm {v : Values} {c q : ℝ × ℝ} (hq : onPlate CARTESIAN v q = plane CARTESIAN c) : far q (0, 0) ≤ size CARTESIAN v c := by
  have h1 : far (onPlate CARTESIAN v q) (onPlate CARTESIAN v (0, 0)) = far q (0, 0) := by
    rw [far_eq, far_eq]; exact place_far _ _ _ _ _
  rw [← h1, hq, plane_cartesian, far_eq]
  refine (norm_sub_le _ _).trans (le_trans (add_le_add (norm_le c) ?_) (size_ge v c))
  · rw [weight_cartesian]
    refine (norm_le _).trans ?_
    unfold onPlate place
    dsimp only
    simp only [plane_cartesian, zero_mul, sub_zero, zero_add]
    split_ifs <;> simp
  
/-- In a Cartesian TPC, for a point that is away from a pad by more than twenty times the square root of `u` of the radii, the distance of
the module is the distance of the pad at its place, up to rounding.  This is for pads whose angles are between 0 and a full turn. -/
theorem disk_far_double_partial (R : Rounded F u) (hu : 0 < u) (N : Nearest F) (hM : M.Proper F) (hL : M.Has F L)
    {row pad p : ℤ} (hp : IsIndex M.pads L row pad p) (hU : M.Usual F u row pad) {c : ℝ × ℝ} {d : ℝ}
    (hd : IsLeast (M.distances CARTESIAN row pad c) d) (h : M.Large F u CARTESIAN c d) (hd0 : 0 < d) :
    ∃ D, getDistanceToPad F (M.module F fuel CARTESIAN L) c.1 c.2 p = .ok D ∧
      |D - d| ≤ M.margin F u CARTESIAN c + 50 * u * M.radii CARTESIAN c ^ 2 / d := by
  have hu0 := R.nonneg
  have hsm := R.small
  obtain ⟨q, hq⟩ := onPlate_onto CARTESIAN M.values (plane CARTESIAN c)
  obtain ⟨l, l1, l2⟩ := globalToLocal_double (id := M.id) (L := fixedAngle F fuel L) (f := M.frequency) R (Or.inl rfl) (Or.inr rfl)
    hM.settled hM.given c
  have hh := made_has F M.id (fixedAngle F fuel L) CARTESIAN M.frequency M.ops
  obtain ⟨a1, -, a3⟩ := local_range R ((Inv.new R M.id (fixedAngle F fuel L) CARTESIAN M.frequency).run R M.ops hM.given)
    (by rw [hh.type]; exact Or.inl rfl) (by rw [hh.layout]; rfl) (by rw [hh.type]; exact fun h => absurd h polar_ne) l1
  obtain ⟨a3, a4⟩ := a3 hh.type
  -- the local point is near to the point of the module's plane
  have hl : far (point l.1 l.2) q ≤ M.shift u CARTESIAN c := by
    have e : plane (fixedAngle F fuel L).coordinateType l = (l.1 * cos l.2, l.1 * sin l.2) := plane_polar l
    rw [e, ← hq, far_eq] at l2
    unfold onPlate MountedDisk.values at l2
    rw [place_far, ← far_eq] at l2
    unfold MountedDisk.shift size MountedDisk.values
    exact l2
  have hn := own_norm hq
  have sz := size_nonneg CARTESIAN M.values c
  have sh : M.shift u CARTESIAN c ≤ size CARTESIAN M.values c / 10 := by
    have : u * size CARTESIAN M.values c ≤ 1 / 1000 * size CARTESIAN M.values c := mul_le_mul_of_nonneg_right hsm sz
    unfold MountedDisk.shift
    linarith
  have hl0 : l.1 ≤ size CARTESIAN M.values c * 11 / 10 := by
    have h1 := far_tri (point l.1 l.2) q (0, 0)
    have h2 : l.1 ≤ far (point l.1 l.2) (0, 0) := by
      show l.1 ≤ √((l.1 * cos l.2 - 0) ^ 2 + (l.1 * sin l.2 - 0) ^ 2)
      refine Real.le_sqrt_of_sq_le (le_of_eq ?_)
      linear_combination -(l.1 ^ 2) * sin_sq_add_cos_sq l.2
    linarith
  -- the limits
  obtain ⟨⟨b1, b2⟩, ⟨b3, b4⟩, -, -⟩ := PadAngle.Double.borders (angle_rounded R hu) hM.pads hL hp
  have hrows : (0 : ℝ) < M.pads.nRow := by exact_mod_cast hM.pads.rows.1
  have hpads : (0 : ℝ) < M.pads.nPads := by exact_mod_cast hM.pads.pads.1
  have hrr := hM.pads.r
  have hpp := hM.pads.phi
  have mono : ∀ c v : ℝ, 0 ≤ v → F.sub c (F.div v 2) ≤ F.add c (F.div v 2) := by
    intro c v hv
    have := R.rounding.nonneg (x := v / 2) (by linarith)
    unfold MaterialMap.Arith.sub MaterialMap.Arith.add MaterialMap.Arith.div
    exact R.rounding.mono _ _ (by linarith)
  have m1 := mono (PadAngle.Double.getPadCenter F.toArith L p).1 L.rowHeight (by
    have hL' := hL
    obtain rfl := Res.ok.inj ((if_neg (not_lt.2 hM.pads.rows.1.le)).symm.trans hL')
    exact R.rounding.nonneg (div_nonneg (R.rounding.nonneg (by linarith)) hrows.le))
  have m2 := mono (PadAngle.Double.getPadCenter F.toArith L p).2 L.padAngle (by
    have hL' := hL
    obtain rfl := Res.ok.inj ((if_neg (not_lt.2 hM.pads.rows.1.le)).symm.trans hL')
    exact R.rounding.nonneg (div_nonneg (R.rounding.nonneg (by linarith)) hpads.le))
  have hdr : 0 < M.pads.dr := div_pos (by linarith) hrows
  have hdphi : 0 < M.pads.dphi := div_pos (by linarith) hpads
  have top : M.pads.rMin + (row + 1) * M.pads.dr ≤ M.pads.rMax := by
    have e : M.pads.nRow * M.pads.dr = M.pads.rMax - M.pads.rMin := by unfold Args.dr; field_simp
    have : (row : ℝ) + 1 ≤ M.pads.nRow := by exact_mod_cast hp.1.1.2
    have := mul_le_mul_of_nonneg_right this hdr.le
    linarith
  have hin := hM.inner
  have re : rError M.pads u ≤ M.pads.rMax / 50 := by
    unfold rError
    rw [abs_of_nonneg hin, abs_of_pos (by linarith)]
    have : u * (M.pads.rMin + M.pads.rMax) ≤ 1 / 1000 * (2 * M.pads.rMax) := mul_le_mul hsm (by linarith) (by linarith) (by norm_num)
    linarith
  have re0 : 0 ≤ rError M.pads u := by unfold rError; positivity
  have pe0 : 0 ≤ phiError M.pads u F.pi := (abs_nonneg _).trans b3
  obtain ⟨U1, U2, U3⟩ := hU
  unfold getDistanceToPad
  have l1' : globalToLocal F (M.module F fuel CARTESIAN L) c.1 c.2 = .ok l := l1
  rw [l1', Res.bind_ok, disk_layout]
  unfold fixedAngle
  dsimp only
  unfold Disk.Double.angleDistance Disk.Double.getDistanceToPad
  rw [same_distance N]
  generalize F.sub (PadAngle.Double.getPadCenter F.toArith L p).1 (F.div L.rowHeight 2) = r0 at b1 m1 ⊢
  generalize F.add (PadAngle.Double.getPadCenter F.toArith L p).1 (F.div L.rowHeight 2) = r1 at b2 m1 ⊢
  generalize F.sub (PadAngle.Double.getPadCenter F.toArith L p).2 (F.div L.padAngle 2) = p0 at b3 m2 ⊢
  generalize F.add (PadAngle.Double.getPadCenter F.toArith L p).2 (F.div L.padAngle 2) = p1 at b4 m2 ⊢
  have b1' := abs_le.1 b1
  have b2' := abs_le.1 b2
  have b3' := abs_le.1 b3
  have b4' := abs_le.1 b4
  have r0n : 0 ≤ r0 := by linarith [b1'.1]
  have hleast := Disk.keystoneDistance_isLeast (phi := l.2) a1 r0n m1 m2 (by linarith [b4'.2]) (by linarith [b3'.1, N.turn])
  generalize Disk.keystoneDistance Disk.realFns l.1 l.2 r0 r1 p0 p1 = d' at hleast
  have r1b : r1 ≤ 2 * M.pads.rMax := by linarith [b2'.2]
  -- the exact distances are near to each other
  have near : |d' - d| ≤ M.margin F u CARTESIAN c := by
    unfold MountedDisk.margin
    rw [abs_le]
    obtain ⟨⟨g', hg', e1⟩, least'⟩ := hleast
    obtain ⟨⟨g, hg, e2⟩, least⟩ := hd
    have e2 : d = far q g := by
      rw [← e2]
      show far (plane CARTESIAN c) (onPlate CARTESIAN M.values g) = _
      rw [← hq, far_eq, far_eq]
      exact place_far _ _ _ _ _
    constructor
    · obtain ⟨k, k1, k2⟩ := keystone_near ((abs_sub_comm _ _).trans_le b1) ((abs_sub_comm _ _).trans_le b2)
        (show M.pads.rMin + row * M.pads.dr ≤ M.pads.rMin + (row + 1) * M.pads.dr by linarith) ((abs_sub_comm _ _).trans_le b3)
        ((abs_sub_comm _ _).trans_le b4)
        (show M.pads.phiMin + pad * M.pads.dphi ≤ M.pads.phiMin + (pad + 1) * M.pads.dphi by linarith) r0n hg'
      have h1 := least (Set.mem_image_of_mem _ k1)
      have e3 : far (plane CARTESIAN c) (onPlate CARTESIAN M.values k) = far q k := by
        rw [← hq, far_eq, far_eq]
        exact place_far _ _ _ _ _
      rw [e3] at h1
      have t1 := far_tri q (point l.1 l.2) k
      have t2 := far_tri (point l.1 l.2) g' k
      rw [far_comm q (point l.1 l.2)] at t1
      rw [far_comm g' k] at t2
      rw [dist2_far] at e1
      have := mul_le_mul_of_nonneg_right r1b pe0
      linarith
    · obtain ⟨k, k1, k2⟩ := keystone_near b1 b2 m1 b3 b4 m2 (by linarith) hg
      have h1 := least' ⟨k, k1, rfl⟩
      rw [dist2_far] at h1
      have t1 := far_tri (point l.1 l.2) q k
      have t2 := far_tri q g k
      rw [far_comm g k] at t2
      have := mul_le_mul_of_nonneg_right (show M.pads.rMin + (row + 1) * M.pads.dr ≤ 2 * M.pads.rMax by linarith) pe0
      linarith
  obtain ⟨L1, L2⟩ := h
  have near' := abs_le.1 near
  have hd' : d / 2 ≤ d' := by linarith [near'.1]
  have hW : l.1 + r1 ≤ M.radii CARTESIAN c := by
    unfold MountedDisk.radii
    linarith
  have hW0 : 0 ≤ l.1 + r1 := by linarith
  have hW2 : u * (l.1 + r1) ^ 2 ≤ u * M.radii CARTESIAN c ^ 2 := mul_le_mul_of_nonneg_left (pow_le_pow_left₀ hW0 hW 2) hu0
  have hdd : (d / 2) ^ 2 ≤ d' ^ 2 := pow_le_pow_left₀ (by linarith) hd' 2
  obtain ⟨D, D1, D2⟩ := Disk.Double.keystone_double (exactFns_rounded R) a1 r0n m1 m2 (by linarith [b4'.2]) (by linarith [b3'.1, N.turn])
    hleast (by linarith) (by
      have : (d / 2) ^ 2 = d ^ 2 / 4 := by ring
      linarith)
  refine ⟨D, by rw [D1], ?_⟩
  have fin : 25 * u * (l.1 + r1) ^ 2 / d' ≤ 50 * u * M.radii CARTESIAN c ^ 2 / d := by
    rw [div_le_div_iff₀ (by linarith) hd0]
    have h1 : 25 * u * (l.1 + r1) ^ 2 * d ≤ 25 * (u * M.radii CARTESIAN c ^ 2) * d :=
      mul_le_mul_of_nonneg_right (by linarith) hd0.le
    have h2 : 25 * (u * M.radii CARTESIAN c ^ 2) * d ≤ 25 * (u * M.radii CARTESIAN c ^ 2) * (2 * d') :=
      mul_le_mul_of_nonneg_left (by linarith) (by positivity)
    linarith
  have := abs_sub_le D d' d
  linarith

/-- One module of a TPC answers for the point `c` with a pad that `c` is away from. -/
structure Spec.Away (F : Arith ℝ) (u : ℝ) (y : TpcParams.Mod ℝ) (c : ℝ × ℝ) (M : MountedDisk) (L : PadAngle.Layout ℝ) (fuel : ℕ)
    (row pad p : ℤ) (d : ℝ) : Prop where
  is : M.Is F fuel CARTESIAN L y
  proper : M.Proper F
  has : M.Has F L
  index : IsIndex M.pads L row pad p
  usual : M.Usual F u row pad
  nearest : y.getNearestPad c.1 c.2 = .ok p
  least : IsLeast (M.distances CARTESIAN row pad c) d
  large : M.Large F u CARTESIAN c d
  positive : 0 < d

/-- In a Cartesian TPC with disk modules, `getNearestPad` of the TPC gives the pad and the module that the point is on, when the point is
away from the pads that the other modules answer with.  This is for pads whose angles are between 0 and a full turn. -/
theorem tpc_disks_nearest_double_partial (R : Rounded F u) (hu : 0 < u) (N : Nearest F) (T : TpcParams.Tpc ℝ) {x : TpcParams.Mod ℝ}
    (hx : x ∈ TpcParams.getModules T) (hI : M.Is F fuel CARTESIAN L x) (hM : M.Proper F) (hL : M.Has F L)
    {row pad p : ℤ} (hp : IsIndex M.pads L row pad p) {c : ℝ × ℝ} {r phi : ℝ} (hq : M.At CARTESIAN r phi c)
    (hd : DeepInPad M.pads (rError M.pads u + 2 * M.shift u CARTESIAN c)
      (phiError M.pads u F.pi + 3 * M.shift u CARTESIAN c / r + 5 * u * M.angles CARTESIAN c ^ 2) row pad r phi)
    (h1 : 20 * u + 3 * M.shift u CARTESIAN c / r ≤ phi) (h2 : phi ≤ 2 * π - 20 * u - 3 * M.shift u CARTESIAN c / r)
    (hs : u * M.angles CARTESIAN c ≤ 1 / 10) (hf : M.angles CARTESIAN c + 1 ≤ fuel)
    (ho : ∀ y ∈ TpcParams.getModules T, y ≠ x → ∃ M' L' fuel' row' pad' p' d', Away F u y c M' L' fuel' row' pad' p' d') :
    TpcParams.getNearestPad T c.1 c.2 = .ok ⟨p, M.id⟩ := by
  refine tpc_disk_nearest_double_partial R hu T hx hI hM hL hp hq hd h1 h2 hs hf fun y hy hne => ?_
  obtain ⟨M', L', fuel', row', pad', p', d', A⟩ := ho y hy hne
  obtain ⟨D, e1, e2⟩ := disk_far_double_partial (fuel := fuel') R hu N A.proper A.has A.index A.usual A.least A.large A.positive
  refine ⟨p', D, A.nearest, by rw [A.is.distance]; exact e1, ?_⟩
  have h3 := (abs_le.1 e2).1
  obtain ⟨g1, g2⟩ := A.large
  have hpos := A.positive
  have : 50 * u * M'.radii CARTESIAN c ^ 2 / d' ≤ d' / 8 := by
    rw [div_le_iff₀ hpos]
    linarith [sq d']
  linarith

/-! ### Non-vacuity -/

theorem rounded_pi : (binary64 π : ℝ) = 884279719003555 / 2 ^ 48 := by
  have h1 := Real.pi_gt_d20
  have h2 := Real.pi_lt_d20
  have := Doubles.binary64_eval (K := ℝ) (x := π) (n := 7074237752028440) (k := -51) (by norm_num; linarith) (by norm_num; linarith)
    (by rw [abs_lt]; norm_num; constructor <;> linarith)
  rw [this]
  norm_num

theorem realDoubles_nearest : Nearest realDoubles where
  cos := fun x => realDoubles_rounded.rounding.idem _
  sin := fun x => realDoubles_rounded.rounding.idem _
  sqrt := fun x => realDoubles_rounded.rounding.idem _
  turn := by
    have h1 := Real.pi_gt_d20
    show binary64 (2 * binary64 π) ≤ 2 * π
    rw [rounded_pi]
    have e : (2 * (884279719003555 / 2 ^ 48) : ℝ) = ((884279719003555 : ℤ) : ℝ) * 2 ^ (-47 : ℤ) := by norm_num
    have := Doubles.binary64_scaled (K := ℝ) 884279719003555 (-47) (by norm_num)
    rw [e, this]
    norm_num
    linarith

/-- A module with one pad between the angles 1/2 and 3/2 and the radii 4 and 6. -/
noncomputable def segment (id : ℤ) (x y : ℝ) : MountedDisk := ⟨id, 1, [.offset x y], ⟨4, 6, 1, 1 / 2, 3 / 2, 1⟩⟩

theorem segment_proper (id : ℤ) (x : ℝ) {y : ℝ} (hy : binary64 y = y) : (segment id x y).Proper realDoubles := by
  have hpi := abs_le.1 realDoubles_rounded.pi
  refine ⟨⟨[], .offset x y, [], rfl, trivial, by simp⟩, ?_, ?_, ?_, ?_⟩
  · intro o ho
    obtain rfl : o = .offset x y := by simpa [segment] using ho
    exact hy
  · constructor <;> norm_num [segment]
  · norm_num [segment]
  · have := Real.pi_gt_three
    norm_num [segment]
    norm_num at hpi
    linarith [hpi.1]

theorem segment_plate (id : ℤ) (x y : ℝ) (q : ℝ × ℝ) : onPlate CARTESIAN (segment id x y).values q = (q.1 + x, q.2 + y) := by
  have hv : (segment id x y).values = ⟨0, (x, y), 0, none, 1⟩ := rfl
  rw [hv]
  unfold onPlate place
  norm_num

theorem segment_size (id : ℤ) (x y : ℝ) (c : ℝ × ℝ) : size CARTESIAN (segment id x y).values c = |c.1| + |c.2| + (|x| + |y|) := by
  have hv : (segment id x y).values = ⟨0, (x, y), 0, none, 1⟩ := rfl
  rw [hv]
  unfold size
  rw [weight_cartesian, weight_cartesian]
  simp

theorem segment_angles (id : ℤ) (x y : ℝ) (c : ℝ × ℝ) : (segment id x y).angles CARTESIAN c = 74 := by
  have hv : (segment id x y).values = ⟨0, (x, y), 0, none, 1⟩ := rfl
  unfold MountedDisk.angles
  rw [hv]
  norm_num [segment, CARTESIAN, POLAR, abs_of_pos]

theorem segment_index (id : ℤ) (x y : ℝ) {L : PadAngle.Layout ℝ} (hL : (segment id x y).Has realDoubles L) :
    IsIndex (segment id x y).pads L 0 0 0 := by
  obtain rfl := Res.ok.inj hL
  exact ⟨by norm_num [segment, Args.IsPad], rfl⟩

/-- The direction of the point (3, 4). -/
theorem direction : ∃ phi : ℝ, cos phi = 3 / 5 ∧ sin phi = 4 / 5 ∧ 3 / 5 ≤ phi ∧ phi ≤ 7 / 5 := by
  refine ⟨arccos (3 / 5), cos_arccos (by norm_num) (by norm_num), ?_, ?_, ?_⟩
  · rw [sin_arccos]
    have : (1 - (3 / 5) ^ 2 : ℝ) = (4 / 5) ^ 2 := by norm_num
    rw [this, Real.sqrt_sq (by norm_num)]
  · by_contra h
    have h := not_le.1 h
    have h1 := one_sub_sq_div_two_le_cos (x := arccos (3 / 5))
    rw [cos_arccos (by norm_num) (by norm_num)] at h1
    have := arccos_nonneg (3 / 5)
    nlinarith
  · by_contra h
    have h := not_le.1 h
    have h1 : cos (arccos (3 / 5)) ≤ cos (7 / 5) := cos_le_cos_of_nonneg_of_le_pi (by norm_num) (arccos_le_pi _) h.le
    rw [cos_arccos (by norm_num) (by norm_num)] at h1
    have h2 : cos (7 / 5) = sin (π / 2 - 7 / 5) := (sin_pi_div_two_sub _).symm
    have h3 := sin_le (x := π / 2 - 7 / 5) (by linarith [Real.pi_gt_three])
    have := Real.pi_lt_d2
    linarith

theorem segment_shift (id : ℤ) {x y : ℝ} (hx : |x| ≤ 16) (hy : |y| ≤ 16) : (segment id x y).shift (1 / 2 ^ 53) CARTESIAN (3, 4) ≤ 1 / 2 ^ 40 := by
  unfold MountedDisk.shift
  rw [segment_size]
  norm_num
  linarith

theorem segment_errors (id : ℤ) (x y : ℝ) : rError (segment id x y).pads (1 / 2 ^ 53) ≤ 1 / 2 ^ 40 ∧
    phiError (segment id x y).pads (1 / 2 ^ 53) realDoubles.pi ≤ 1 / 2 ^ 40 ∧
    0 ≤ phiError (segment id x y).pads (1 / 2 ^ 53) realDoubles.pi := by
  have hpi := abs_le.1 realDoubles_rounded.pi
  have hp1 := Real.pi_lt_d2
  have hp2 := Real.pi_gt_three
  norm_num [rError, phiError, segment] at hpi ⊢
  constructor <;> linarith [hpi.1, hpi.2]

theorem double_neg_16 : (binary64 (-16) : ℝ) = -16 := by
  have := Doubles.binary64_scaled (K := ℝ) (-16) 0 (by norm_num)
  norm_num at this
  exact this

/-- The second module answers with its pad, which is 19 units away. -/
theorem segment_away {L : PadAngle.Layout ℝ} (hL : (segment 2 (-12) (-16)).Has realDoubles L) {y : TpcParams.Mod ℝ}
    (hy : (segment 2 (-12) (-16)).Is realDoubles 100 CARTESIAN L y) :
    Away realDoubles (1 / 2 ^ 53) y (3, 4) (segment 2 (-12) (-16)) L 100 0 0 0 19 := by
  obtain ⟨phi, f1, f2, f3, f4⟩ := direction
  have hP := segment_proper 2 (-12) double_neg_16
  have sh := segment_shift 2 (x := -12) (y := -16) (by norm_num) (by norm_num)
  obtain ⟨re, pe, pe0⟩ := segment_errors 2 (-12) (-16)
  have hp2 := Real.pi_gt_three
  have d1 : (segment 2 (-12) (-16)).pads.dr = 2 := by norm_num [segment, Args.dr]
  have d2 : (segment 2 (-12) (-16)).pads.dphi = 1 := by norm_num [segment, Args.dphi]
  have d3 : (segment 2 (-12) (-16)).pads.rMin = 4 := rfl
  have d4 : (segment 2 (-12) (-16)).pads.phiMin = 1 / 2 := rfl
  have d5 : (segment 2 (-12) (-16)).pads.rMax = 6 := rfl
  have d6 : (segment 2 (-12) (-16)).pads.nRow = 1 := rfl
  have hat : (segment 2 (-12) (-16)).At CARTESIAN 25 phi (3, 4) := by
    unfold MountedDisk.At
    rw [plane_cartesian, segment_plate, f1, f2]
    norm_num
  refine ⟨hy, hP, hL, segment_index _ _ _ hL, ⟨?_, ?_, ?_⟩, ?_, ⟨?_, ?_⟩, ⟨?_, ?_⟩, by norm_num⟩
  · rw [d1, d3]; norm_num at re ⊢; linarith
  · rw [d2, d4]; norm_num at pe ⊢; linarith
  · rw [d2, d4]; norm_num at pe ⊢; linarith
  · rw [hy.nearest]
    obtain ⟨l, l1, l2, ⟨k, l3⟩, -, l5⟩ := disk_local (fuel := 100) (L := L) realDoubles_rounded (Or.inl rfl) hP (c := (3, 4))
      (fun h => absurd h polar_ne) (r := 25) (phi := phi) (by norm_num) (by norm_num at sh ⊢; linarith) hat
    obtain ⟨l5, l6⟩ := l5 rfl
    have s3 : 3 * (segment 2 (-12) (-16)).shift (1 / 2 ^ 53) CARTESIAN (3, 4) / 25 ≤ 1 / 2 ^ 40 := by norm_num at sh ⊢; linarith
    obtain rfl := no_turn realDoubles_rounded (by norm_num) l3 l5 l6 (by norm_num at s3 ⊢; linarith) (by norm_num at s3 ⊢; linarith)
    simp only [Int.cast_zero, zero_mul, add_zero] at l3
    rw [abs_le] at l2 l3
    obtain ⟨p, i1, i2⟩ := PadAngle.Double.nearest_beyond_double (angle_rounded realDoubles_rounded (by norm_num)) hP.pads hP.span hP.inner hL
      (by rw [d1]; norm_num at re ⊢; linarith) (pad := 0) (by norm_num [segment]) (r := l.1) (phi := l.2)
      (by rw [d5]; norm_num at sh; linarith [l2.1]) (by rw [d1, d3]; norm_num at sh ⊢; linarith [l2.2])
      (by rw [d2, d4]; norm_num at pe s3 ⊢; linarith [l3.1]) (by rw [d2, d4]; norm_num at pe s3 ⊢; linarith [l3.2])
    have i1 : PadAngle.getPadIndex L 0 0 = .ok p := i1
    obtain rfl := Res.ok.inj ((segment_index _ _ _ hL).2.symm.trans i1)
    unfold getNearestPad
    rw [l1, Res.bind_ok, disk_layout]
    unfold fixedAngle
    dsimp only
    rw [i2 99]
  · refine ⟨point 6 phi, ⟨6, phi, ?_, ?_, ?_, ?_, rfl⟩, ?_⟩
    · rw [d1, d3]; norm_num
    · rw [d1, d3]; norm_num
    · rw [d2, d4]; norm_num; linarith
    · rw [d2, d4]; norm_num; linarith
    · show far (plane CARTESIAN (3, 4)) (onPlate CARTESIAN (segment 2 (-12) (-16)).values (point 6 phi)) = 19
      rw [plane_cartesian, segment_plate]
      show √((3 - (6 * cos phi + -12)) ^ 2 + (4 - (6 * sin phi + -16)) ^ 2) = 19
      rw [f1, f2]
      have : ((3 - (6 * (3 / 5) + -12)) ^ 2 + (4 - (6 * (4 / 5) + -16)) ^ 2 : ℝ) = 19 ^ 2 := by norm_num
      rw [this, Real.sqrt_sq (by norm_num)]
  · rintro _ ⟨_, ⟨r, b, h1, h2, -, -, rfl⟩, rfl⟩
    rw [d1, d3] at h1 h2
    norm_num at h1 h2
    show 19 ≤ far (plane CARTESIAN (3, 4)) (onPlate CARTESIAN (segment 2 (-12) (-16)).values (point r b))
    rw [plane_cartesian, segment_plate]
    show 19 ≤ √((3 - (r * cos b + -12)) ^ 2 + (4 - (r * sin b + -16)) ^ 2)
    refine Real.le_sqrt_of_sq_le ?_
    have hc : 3 / 5 * cos b + 4 / 5 * sin b ≤ 1 := by
      rw [← f1, ← f2, ← cos_sub]; exact cos_le_one _
    have e : (3 - (r * cos b + -12)) ^ 2 + (4 - (r * sin b + -16)) ^ 2 = 625 - 50 * (r * (3 / 5 * cos b + 4 / 5 * sin b)) + r ^ 2 := by
      linear_combination r ^ 2 * sin_sq_add_cos_sq b
    rw [e]
    have := mul_le_mul_of_nonneg_left hc (show 0 ≤ r by linarith)
    nlinarith
  · unfold MountedDisk.margin
    rw [d5]
    norm_num at sh re pe ⊢
    linarith
  · unfold MountedDisk.radii
    rw [d5, segment_size]
    norm_num [abs_of_pos, abs_of_neg]

/-- Non-vacuity of `tpc_disks_nearest_double_partial`: two modules, and the point (3, 4) on the pad of the first one. -/
example {T : TpcParams.Tpc ℝ} {x y : TpcParams.Mod ℝ} (hT : TpcParams.getModules T = [y, x]) {L L' : PadAngle.Layout ℝ}
    (hL : (segment 1 0 0).Has realDoubles L) (hx : (segment 1 0 0).Is realDoubles 100 CARTESIAN L x)
    (hL' : (segment 2 (-12) (-16)).Has realDoubles L') (hy : (segment 2 (-12) (-16)).Is realDoubles 100 CARTESIAN L' y) :
    TpcParams.getNearestPad T 3 4 = .ok ⟨0, 1⟩ := by
  obtain ⟨phi, f1, f2, f3, f4⟩ := direction
  have sh := segment_shift 1 (x := 0) (y := 0) (by norm_num) (by norm_num)
  obtain ⟨re, pe, pe0⟩ := segment_errors 1 0 0
  have hp2 := Real.pi_gt_three
  have s3 : 3 * (segment 1 0 0).shift (1 / 2 ^ 53) CARTESIAN (3, 4) / 5 ≤ 1 / 2 ^ 40 := by norm_num at sh ⊢; linarith
  have d1 : (segment 1 0 0).pads.dr = 2 := by norm_num [segment, Args.dr]
  have d2 : (segment 1 0 0).pads.dphi = 1 := by norm_num [segment, Args.dphi]
  have d3 : (segment 1 0 0).pads.rMin = 4 := rfl
  have d4 : (segment 1 0 0).pads.phiMin = 1 / 2 := rfl
  refine tpc_disks_nearest_double_partial (fuel := 100) (M := segment 1 0 0) realDoubles_rounded (by norm_num) realDoubles_nearest T
    (x := x) (by rw [hT]; simp) hx (segment_proper 1 0 Doubles.binary64_zero) hL (segment_index _ _ _ hL) (c := (3, 4)) (r := 5) (phi := phi)
    ?_ ?_ ?_ ?_ ?_ ?_ ?_
  · unfold MountedDisk.At
    rw [plane_cartesian, segment_plate, f1, f2]
    norm_num
  · rw [segment_angles]
    generalize (segment 1 0 0).shift (1 / 2 ^ 53) CARTESIAN (3, 4) = w at sh s3 ⊢
    unfold DeepInPad
    rw [d1, d2, d3, d4]
    norm_num at sh re pe s3 ⊢
    refine ⟨⟨?_, ?_⟩, ?_, ?_⟩ <;> linarith
  · norm_num at s3 ⊢; linarith
  · norm_num at s3 ⊢; linarith
  · rw [segment_angles]; norm_num
  · rw [segment_angles]; norm_num
  · intro z hz hne
    rw [hT] at hz
    simp only [List.mem_cons, List.not_mem_nil, or_false] at hz
    obtain rfl := hz.resolve_right hne
    exact ⟨_, _, _, _, _, _, _, segment_away hL' hy⟩

end Gear.TpcModule.Double
