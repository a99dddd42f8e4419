/-
Distances from the pads of the modules of a TPC with any kind of disk layout, and the nearest pad in a TPC with modules of several kinds,
in `double` arithmetic (C170).
-/
import Verif.TpcDiskDoubleFar
import Verif.TpcVersatileDoubleProps

set_option autoImplicit false
set_option linter.unusedSectionVars false

namespace Gear.TpcModule.Double

open Real
open TpcModule.Spec (Known plane place Op Values values Settled)
open Disk.Spec (point keystone dist2)
open Versatile (RowArgs)
open Versatile.Spec (middle)
open Versatile.Double.Spec (IsRow Started Wide Functions pitch angle edge rError phiError)
open PadSize.Spec (IsIndex PadsInRow)
open PadSize.Double.Spec (rowCentre)
open Spec

/-! ### Specification -/

namespace Spec

/-- The distances of the point `c` from the points of the ring segment between the radii `x` and `y` and the angles `v` and `z` of the own
plane of a module that was placed with the values `V`. -/
noncomputable def segmentDistances (V : Values) (x y v z : ℝ) (c : ℝ × ℝ) : Set ℝ :=
  (fun q => far (plane CARTESIAN c) (onPlate CARTESIAN V q)) '' keystone x y v z

/-- The errors of a position and of the borders of a pad, where `e` and `f` are the errors of the radii and the angles of these borders
and `B` is larger than all radii. -/
noncomputable def segmentMargin (u : ℝ) (V : Values) (e f B : ℝ) (c : ℝ × ℝ) : ℝ := 100 * u * size CARTESIAN V c + e + B * f

/-- The error of a distance `d`. -/
noncomputable def segmentError (u : ℝ) (V : Values) (e f B d : ℝ) (c : ℝ × ℝ) : ℝ :=
  segmentMargin u V e f B c + 50 * u * (2 * (size CARTESIAN V c + B)) ^ 2 / d

/-- The segment does not reach the origin, its angles are between 0 and a full turn, and the distance `d` of the point from it is large
compared with the rounding of squares. -/
structure SegmentFar (u : ℝ) (V : Values) (x y v z e f B d : ℝ) (c : ℝ × ℝ) : Prop where
  inner : e ≤ x
  lower : f ≤ v
  upper : z + f ≤ 2 * π
  least : IsLeast (segmentDistances V x y v z c) d
  positive : 0 < d
  margin : 2 * segmentMargin u V e f B c ≤ d
  squares : 400 * u * (2 * (size CARTESIAN V c + B)) ^ 2 ≤ d ^ 2

/-- The segment does not reach the origin, and the distance `d` of the point from it is large compared with the rounding of squares. -/
structure SegmentAway (u : ℝ) (V : Values) (x y v z e f B d : ℝ) (c : ℝ × ℝ) : Prop where
  inner : e ≤ x
  least : IsLeast (segmentDistances V x y v z c) d
  positive : 0 < d
  margin : 2 * segmentMargin u V e f B c ≤ d
  squares : 400 * u * (2 * (size CARTESIAN V c + B)) ^ 2 ≤ d ^ 2

/-- The point is `d` away from the pad `pad` of row `i` of a module with a versatile layout, where `d` is large compared with the
rounding. -/
def MountedVersatile.Far (u : ℝ) (M : MountedVersatile) (i : ℕ) (a : RowArgs ℝ) (pad : ℤ) (d : ℝ) (c : ℝ × ℝ) : Prop :=
  SegmentFar u M.values (middle M.rMin M.rows i a - a.rowHeight / 2) (middle M.rMin M.rows i a + a.rowHeight / 2)
    (edge M.rMin M.rows i a pad) (edge M.rMin M.rows i a (pad + 1)) (2 * Versatile.Double.Spec.rError u M.rMin M.rows i a)
    (Versatile.Double.Spec.phiError u i) (4 * middle M.rMin M.rows i a) d c

/-- The error of this distance. -/
noncomputable def MountedVersatile.farError (u : ℝ) (M : MountedVersatile) (i : ℕ) (a : RowArgs ℝ) (d : ℝ) (c : ℝ × ℝ) : ℝ :=
  segmentError u M.values (2 * Versatile.Double.Spec.rError u M.rMin M.rows i a) (Versatile.Double.Spec.phiError u i)
    (4 * middle M.rMin M.rows i a) d c

/-- The point is `d` away from the pad `pad` of row `row`, which has `n` pads, of a module with a fixed pad size, where `d` is large
compared with the rounding. -/
def MountedSize.Far (u : ℝ) (M : MountedSize) (L : PadSize.Layout ℝ) (n row pad : ℤ) (d : ℝ) (c : ℝ × ℝ) : Prop :=
  SegmentFar u M.values (M.pads.rMin + row * ((M.pads.rMax - M.pads.rMin) / PadSize.getNRows L))
    (M.pads.rMin + (row + 1) * ((M.pads.rMax - M.pads.rMin) / PadSize.getNRows L))
    (pad * (M.pads.phiMax / n)) ((pad + 1) * (M.pads.phiMax / n)) (12 * u * M.pads.rMax) (60 * u) (2 * M.pads.rMax) d c

/-- The error of this distance. -/
noncomputable def MountedSize.farError (u : ℝ) (M : MountedSize) (d : ℝ) (c : ℝ × ℝ) : ℝ :=
  segmentError u M.values (12 * u * M.pads.rMax) (60 * u) (2 * M.pads.rMax) d c

/-- The module `y` of the TPC has the pad `p`; `d` is the smallest distance between the point `c` and the points of this pad at its place,
and `e` the error bound.  The module has rectangular pads or one of the three disk layouts. -/
inductive PadAt (F : Arith ℝ) (u : ℝ) (y : TpcParams.Mod ℝ) (c : ℝ × ℝ) : ℤ → ℝ → ℝ → Prop
  | rectangular {N : Mounted} {n : ℕ} {p : ℤ} {b : ℝ × ℝ} {w h d : ℝ} :
      N.Is F n CARTESIAN y → N.Proper F → N.Box F p b w h → IsLeast (N.distances CARTESIAN c b w h) d →
      PadAt F u y c p d (N.error u CARTESIAN c b w h)
  | angle {M : MountedDisk} {L : PadAngle.Layout ℝ} {n : ℕ} {row pad p : ℤ} {d : ℝ} : M.Is F n CARTESIAN L y → M.Proper F → M.Has F L →
      PadAngle.Spec.IsIndex M.pads L row pad p → M.Usual F u row pad → IsLeast (M.distances CARTESIAN row pad c) d →
      M.Large F u CARTESIAN c d → 0 < d → PadAt F u y c p d (M.margin F u CARTESIAN c + 50 * u * M.radii CARTESIAN c ^ 2 / d)
  | size {M : MountedSize} {L : PadSize.Layout ℝ} {k : ℕ} {n row pad p : ℤ} {d : ℝ} : M.Is F k CARTESIAN L y → M.Proper F L →
      PadsInRow L row n → IsIndex L row pad p → M.Far u L n row pad d c → PadAt F u y c p d (M.farError u d c)
  | versatile {M : MountedVersatile} {L : Versatile.Layout ℝ} {k i : ℕ} {a : RowArgs ℝ} {pad p : ℤ} {d : ℝ} : M.Is F k CARTESIAN L y →
      M.Proper F u L → M.IsPad L i a pad p → M.Far u i a pad d c → PadAt F u y c p d (M.farError u i a d c)

end Spec

variable {F : Arith ℝ} {u : ℝ} {fuel : ℕ}

/-- For any layout in polar coordinates: the distance to a pad whose borders are known up to small errors, when the local angle is less than
a full turn away from both of them. -/
theorem polar_far_turn (R : Rounded F u) (hu : 0 < u) (N : Nearest F) {id : ℤ} {A : LayoutI ℝ} {fr : ℝ} {ops : List Op}
    (hA : A.coordinateType = POLAR) (hset : Settled ops) (hgiv : ∀ o ∈ ops, Given F o) {p : ℤ} {ctr : ℝ × ℝ} {h w : ℝ}
    (hdist : ∀ r phi, A.getDistanceToPad r phi p = match Disk.Double.getDistanceToPad F.toArith ctr h w r phi with
      | some d => .ok d | none => .ub) (hh : 0 ≤ h) (hw : 0 ≤ w) {x y v z e f B d : ℝ}
    (b1 : |F.sub ctr.1 (F.div h 2) - x| ≤ e) (b2 : |F.add ctr.1 (F.div h 2) - y| ≤ e)
    (b3 : |F.sub ctr.2 (F.div w 2) - v| ≤ f) (b4 : |F.add ctr.2 (F.div w 2) - z| ≤ f) (hxy : x ≤ y) (hvz : v ≤ z) (hB : y + e ≤ B)
    {c : ℝ × ℝ} (hS : SegmentAway u (TpcModule.Spec.values fr ops) x y v z e f B d c)
    (hT : ∀ l, globalToLocal F (made F id A CARTESIAN fr ops) c.1 c.2 = .ok l → l.2 ≤ v - f + 2 * π ∧ z + f - 2 * π ≤ l.2) :
    ∃ D, getDistanceToPad F (made F id A CARTESIAN fr ops) c.1 c.2 p = .ok D ∧
      |D - d| ≤ segmentError u (TpcModule.Spec.values fr ops) e f B d c := by
  obtain ⟨U1, hd, hd0, L1, L2⟩ := hS
  have hu0 := R.nonneg
  have hsm := R.small
  obtain ⟨l, l1, l2⟩ := globalToLocal_double (id := id) (L := A) (f := fr) R (Or.inl rfl) (Or.inr hA) hset hgiv c
  obtain ⟨U2, U3⟩ := hT l l1
  change IsLeast ((fun q => far (plane CARTESIAN c) (onPlate CARTESIAN (TpcModule.Spec.values fr ops) q)) '' keystone x y v z) d at hd
  generalize TpcModule.Spec.values fr ops = V at l2 hd L1 L2 ⊢
  obtain ⟨q, hq⟩ := onPlate_onto CARTESIAN V (plane CARTESIAN c)
  have hh' := made_has F id A CARTESIAN fr ops
  obtain ⟨a1, -, a3⟩ := local_range R ((Inv.new R id A CARTESIAN fr).run R ops hgiv)
    (by rw [hh'.type]; exact Or.inl rfl) (by rw [hh'.layout]; exact hA) (by rw [hh'.type]; exact fun h => absurd h polar_ne) l1
  obtain ⟨a3, a4⟩ := a3 hh'.type
  have hl : far (point l.1 l.2) q ≤ 100 * u * size CARTESIAN V c := by
    have e : plane A.coordinateType l = (l.1 * cos l.2, l.1 * sin l.2) := by rw [hA]; exact plane_polar l
    rw [e, ← hq, far_eq] at l2
    unfold onPlate at l2
    rw [place_far, ← far_eq] at l2
    unfold size
    exact l2
  have hn := own_norm hq
  have sz := size_nonneg CARTESIAN V c
  have sh : 100 * u * size CARTESIAN V c ≤ size CARTESIAN V c / 10 := by
    have : u * size CARTESIAN V c ≤ 1 / 1000 * size CARTESIAN V c := mul_le_mul_of_nonneg_right hsm sz
    linarith
  have hl0 : l.1 ≤ size CARTESIAN V c * 11 / 10 := by
    have h1 := far_tri (point l.1 l.2) q (0, 0)
    have h2 : l.1 ≤ far (point l.1 l.2) (0, 0) := by
      show l.1 ≤ √((l.1 * cos l.2 - 0) ^ 2 + (l.1 * sin l.2 - 0) ^ 2)
      refine Real.le_sqrt_of_sq_le (le_of_eq ?_)
      linear_combination -(l.1 ^ 2) * sin_sq_add_cos_sq l.2
    linarith
  have mono : ∀ c v : ℝ, 0 ≤ v → F.sub c (F.div v 2) ≤ F.add c (F.div v 2) := by
    intro c v hv
    have := R.rounding.nonneg (x := v / 2) (by linarith)
    unfold MaterialMap.Arith.sub MaterialMap.Arith.add MaterialMap.Arith.div
    exact R.rounding.mono _ _ (by linarith)
  have m1 := mono ctr.1 h hh
  have m2 := mono ctr.2 w hw
  have e0 : 0 ≤ e := (abs_nonneg _).trans b1
  have f0 : 0 ≤ f := (abs_nonneg _).trans b3
  unfold getDistanceToPad
  rw [l1, Res.bind_ok, hh'.layout, hdist]
  unfold Disk.Double.getDistanceToPad
  rw [same_distance N]
  generalize F.sub ctr.1 (F.div h 2) = r0 at b1 m1 ⊢
  generalize F.add ctr.1 (F.div h 2) = r1 at b2 m1 ⊢
  generalize F.sub ctr.2 (F.div w 2) = p0 at b3 m2 ⊢
  generalize F.add ctr.2 (F.div w 2) = p1 at b4 m2 ⊢
  have b1' := abs_le.1 b1
  have b2' := abs_le.1 b2
  have b3' := abs_le.1 b3
  have b4' := abs_le.1 b4
  have r0n : 0 ≤ r0 := by linarith [b1'.1]
  have hleast := Disk.keystoneDistance_isLeast (phi := l.2) a1 r0n m1 m2 (by linarith [b4'.2]) (by linarith [b3'.1])
  generalize Disk.keystoneDistance Disk.realFns l.1 l.2 r0 r1 p0 p1 = d' at hleast
  have r1b : r1 ≤ B := by linarith [b2'.2]
  have near : |d' - d| ≤ segmentMargin u V e f B c := by
    unfold segmentMargin
    rw [abs_le]
    obtain ⟨⟨g', hg', e1⟩, least'⟩ := hleast
    obtain ⟨⟨g, hg, e2⟩, least⟩ := hd
    have e2 : d = far q g := by
      rw [← e2]
      show far (plane CARTESIAN c) (onPlate CARTESIAN V g) = _
      rw [← hq, far_eq, far_eq]
      exact place_far _ _ _ _ _
    constructor
    · obtain ⟨k, k1, k2⟩ := keystone_near ((abs_sub_comm _ _).trans_le b1) ((abs_sub_comm _ _).trans_le b2) hxy
        ((abs_sub_comm _ _).trans_le b3) ((abs_sub_comm _ _).trans_le b4) hvz r0n hg'
      have h1 := least (Set.mem_image_of_mem _ k1)
      have e3 : far (plane CARTESIAN c) (onPlate CARTESIAN V k) = far q k := by
        rw [← hq, far_eq, far_eq]
        exact place_far _ _ _ _ _
      rw [e3] at h1
      have t1 := far_tri q (point l.1 l.2) k
      have t2 := far_tri (point l.1 l.2) g' k
      rw [far_comm q (point l.1 l.2)] at t1
      rw [far_comm g' k] at t2
      rw [dist2_far] at e1
      have := mul_le_mul_of_nonneg_right r1b f0
      linarith
    · obtain ⟨k, k1, k2⟩ := keystone_near b1 b2 m1 b3 b4 m2 (by linarith) hg
      have h1 := least' ⟨k, k1, rfl⟩
      rw [dist2_far] at h1
      have t1 := far_tri (point l.1 l.2) q k
      have t2 := far_tri q g k
      rw [far_comm g k] at t2
      have := mul_le_mul_of_nonneg_right (show y ≤ B by linarith) f0
      linarith
  have near' := abs_le.1 near
  have hd' : d / 2 ≤ d' := by linarith [near'.1]
  have hW : l.1 + r1 ≤ 2 * (size CARTESIAN V c + B) := by linarith
  have hW0 : 0 ≤ l.1 + r1 := by linarith
  have hW2 : u * (l.1 + r1) ^ 2 ≤ u * (2 * (size CARTESIAN V c + B)) ^ 2 := mul_le_mul_of_nonneg_left (pow_le_pow_left₀ hW0 hW 2) hu0
  have hdd : (d / 2) ^ 2 ≤ d' ^ 2 := pow_le_pow_left₀ (by linarith) hd' 2
  obtain ⟨D, D1, D2⟩ := Disk.Double.keystone_double (exactFns_rounded R) a1 r0n m1 m2 (by linarith [b4'.2]) (by linarith [b3'.1])
    hleast (by linarith) (by
      have : (d / 2) ^ 2 = d ^ 2 / 4 := by ring
      linarith)
  refine ⟨D, by rw [D1], ?_⟩
  unfold segmentError
  generalize 2 * (size CARTESIAN V c + B) = W at *
  have fin : 25 * u * (l.1 + r1) ^ 2 / d' ≤ 50 * u * W ^ 2 / d := by
    rw [div_le_div_iff₀ (by linarith) hd0]
    have h1 : 25 * u * (l.1 + r1) ^ 2 * d ≤ 25 * (u * W ^ 2) * d := mul_le_mul_of_nonneg_right (by linarith) hd0.le
    have h2 : 25 * (u * W ^ 2) * d ≤ 25 * (u * W ^ 2) * (2 * d') := mul_le_mul_of_nonneg_left (by linarith) (by positivity)
    linarith
  have := abs_sub_le D d' d
  linarith

/-- This is so for all pads whose angles are between 0 and a full turn. -/
theorem polar_far (R : Rounded F u) (hu : 0 < u) (N : Nearest F) {id : ℤ} {A : LayoutI ℝ} {fr : ℝ} {ops : List Op}
    (hA : A.coordinateType = POLAR) (hset : Settled ops) (hgiv : ∀ o ∈ ops, Given F o) {p : ℤ} {ctr : ℝ × ℝ} {h w : ℝ}
    (hdist : ∀ r phi, A.getDistanceToPad r phi p = match Disk.Double.getDistanceToPad F.toArith ctr h w r phi with
      | some d => .ok d | none => .ub) (hh : 0 ≤ h) (hw : 0 ≤ w) {x y v z e f B d : ℝ}
    (b1 : |F.sub ctr.1 (F.div h 2) - x| ≤ e) (b2 : |F.add ctr.1 (F.div h 2) - y| ≤ e)
    (b3 : |F.sub ctr.2 (F.div w 2) - v| ≤ f) (b4 : |F.add ctr.2 (F.div w 2) - z| ≤ f) (hxy : x ≤ y) (hvz : v ≤ z) (hB : y + e ≤ B)
    {c : ℝ × ℝ} (hS : SegmentFar u (TpcModule.Spec.values fr ops) x y v z e f B d c) :
    ∃ D, getDistanceToPad F (made F id A CARTESIAN fr ops) c.1 c.2 p = .ok D ∧
      |D - d| ≤ segmentError u (TpcModule.Spec.values fr ops) e f B d c := by
  refine polar_far_turn R hu N hA hset hgiv hdist hh hw b1 b2 b3 b4 hxy hvz hB ⟨hS.inner, hS.least, hS.positive, hS.margin, hS.squares⟩
    fun l hl => ?_
  have hh' := made_has F id A CARTESIAN fr ops
  obtain ⟨-, -, a3⟩ := local_range R ((Inv.new R id A CARTESIAN fr).run R ops hgiv)
    (by rw [hh'.type]; exact Or.inl rfl) (by rw [hh'.layout]; exact hA) (by rw [hh'.type]; exact fun h => absurd h polar_ne) hl
  obtain ⟨a3, a4⟩ := a3 hh'.type
  have h1 := hS.lower
  have h2 := hS.upper
  have h3 := N.turn
  constructor <;> linarith

section

variable {M : MountedVersatile} {L : Versatile.Layout ℝ} {i : ℕ} {a : RowArgs ℝ} {pad p : ℤ}

/-- The borders of a pad of a versatile layout, up to rounding. -/
theorem versatile_limits (R : Rounded F u) (hu : 0 < u) (hM : M.Proper F u L) (hp : M.IsPad L i a pad p) :
    ∃ (ctr : ℝ × ℝ) (h w : ℝ), (∀ r phi, (versatile F (fuel + 1) L).getDistanceToPad r phi p =
        match Disk.Double.getDistanceToPad F.toArith ctr h w r phi with | some d => .ok d | none => .ub) ∧ 0 ≤ h ∧ 0 ≤ w ∧
      |F.sub ctr.1 (F.div h 2) - (middle M.rMin M.rows i a - a.rowHeight / 2)| ≤ 2 * Versatile.Double.Spec.rError u M.rMin M.rows i a ∧
      |F.add ctr.1 (F.div h 2) - (middle M.rMin M.rows i a + a.rowHeight / 2)| ≤ 2 * Versatile.Double.Spec.rError u M.rMin M.rows i a ∧
      |F.sub ctr.2 (F.div w 2) - edge M.rMin M.rows i a pad| ≤ Versatile.Double.Spec.phiError u i ∧
      |F.add ctr.2 (F.div w 2) - edge M.rMin M.rows i a (pad + 1)| ≤ Versatile.Double.Spec.phiError u i := by
  have A := angle_rounded R hu
  have hs := R.small
  obtain ⟨row, g1, N, g3⟩ := Versatile.Double.row_placed A hM.proper hM.started hM.built hp.row
  obtain ⟨e1, e2⟩ := Versatile.Double.index_parts A hM.proper hM.built hp.row hp.inRow.1 hp.inRow.2 hp.index
  have he := Versatile.Double.elem_nat g1
  have m1 := N.pos
  have hh := N.h
  have hhm := N.hm
  obtain ⟨s0, -, s2, s3, s4⟩ := N.sizes A
  obtain ⟨o1, o2, -⟩ := N.start A
  have hcen := N.centre A hp.inRow.1 hp.inRow.2
  have hrc := N.rc
  have hdd := N.small
  have eR := Versatile.Double.rError_eq u M.rMin M.rows i a
  have eP := Versatile.Double.phiError_eq u i
  have d4 := N.d4
  show ∃ ctr h w, _ ∧ _ ∧ _ ∧ |_ - (middle M.rMin M.rows i a - a.rowHeight / 2)| ≤ _ ∧ |_ - (middle M.rMin M.rows i a + a.rowHeight / 2)| ≤ _ ∧
    _ ∧ _
  rw [eR, eP]
  unfold edge pitch
  generalize middle M.rMin M.rows i a = m at *
  generalize 2 * ((i : ℝ) + 2) * u = d at *
  generalize a.padPitch / m = q at *
  generalize a.offset / m = X at *
  have hn1 : (1 : ℝ) ≤ a.nPads := by exact_mod_cast N.n0
  have hp0 : (0 : ℝ) ≤ pad := by exact_mod_cast hp.inRow.1
  have hp1 : (pad : ℝ) + 1 ≤ a.nPads := by exact_mod_cast (by have := hp.inRow.2; omega : pad + 1 ≤ a.nPads)
  have q8 : q ≤ 81 / 10 := by
    have := mul_le_mul_of_nonneg_right hn1 s0
    linarith
  have k0 : 0 ≤ (pad : ℝ) * q := mul_nonneg hp0 s0
  have k1 : ((pad : ℝ) + 1) * q ≤ 81 / 10 := (mul_le_mul_of_nonneg_right hp1 s0).trans s2
  have k2 : ((pad : ℝ) + 1 / 2) * q = pad * q + q / 2 := by ring
  have k3 : ((pad : ℝ) + 1) * q = pad * q + q := by ring
  have d0 : 0 ≤ d := by linarith
  have c2 : |F.rnd (row.offset + F.rnd (F.rnd ((pad : ℝ) + 1 / 2) * row.padPitch)) - (X + (pad + 1 / 2) * q)| ≤ 17 * d + 65 * u := by
    refine hcen.trans ?_
    have : |a.offset| / m + (pad + 1 / 2) * q ≤ 161 / 10 := by linarith
    refine (mul_le_mul_of_nonneg_left this (by linarith)).trans ?_
    linarith
  have c3 : |row.padPitch - q| ≤ 9 * d + 9 * u := by
    refine s3.trans ?_
    refine (mul_le_mul_of_nonneg_left q8 (by linarith)).trans ?_
    linarith
  obtain ⟨cc, hcc⟩ : ∃ cc, cc = F.rnd (row.offset + F.rnd (F.rnd ((pad : ℝ) + 1 / 2) * row.padPitch)) := ⟨_, rfl⟩
  rw [← hcc] at c2
  have dm : 0 ≤ d * m := mul_nonneg d0 m1.le
  have dm1 : d * m ≤ 1 / 500 * m := mul_le_mul_of_nonneg_right hdd m1.le
  obtain ⟨x1, x2⟩ := half_near R hrc (show |a.rowHeight - a.rowHeight| ≤ 0 by simp) (W := 3.1 * m) (by
    rw [abs_of_pos m1, abs_of_pos hh]
    linarith)
  have aX : |X + (pad + 1 / 2) * q| ≤ 161 / 10 := by
    have : |X| ≤ 8 := by rw [o2]; exact o1
    rw [abs_le] at this ⊢
    constructor <;> linarith [this.1, this.2]
  obtain ⟨x3, x4⟩ := half_near R c2 c3 (W := 30) (by
    rw [abs_of_nonneg s0]
    linarith)
  have e6 : 2 * u * (3.1 * m) = 6.2 * (u * m) := by ring
  have um : 0 ≤ u * m := mul_nonneg hu.le m1.le
  have e7 : (d + 4 * u) * m = d * m + 4 * (u * m) := by ring
  have dum : 4 * (u * m) ≤ d * m := by
    have := mul_le_mul_of_nonneg_right d4 m1.le
    linarith
  have y1 : Versatile.Double.getPadCenter F.toArith L p = .ok (row.rCentre, cc) := by
    unfold Versatile.Double.getPadCenter
    rw [e1, Res.bind_ok, Rect.elemUb_of he, Res.bind_ok, e2, hcc]
    rfl
  have y2 : Versatile.getRowHeight L i = .ok a.rowHeight := by
    unfold Versatile.getRowHeight
    rw [Rect.elemAt_of he, Res.bind_ok, N.rowHeight]
    rfl
  have y3 : Versatile.getPadPitch L p = .ok row.padPitch := by
    unfold Versatile.getPadPitch
    rw [e1, Res.bind_ok, Rect.elemUb_of he, Res.bind_ok]
    rfl
  have x3' := abs_le.1 x3
  have x4' := abs_le.1 x4
  have x1' := abs_le.1 x1
  have x2' := abs_le.1 x2
  refine ⟨(row.rCentre, cc), a.rowHeight, row.padPitch, fun r phi => ?_, hh.le, ?_, abs_le.2 ⟨?_, ?_⟩, abs_le.2 ⟨?_, ?_⟩, abs_le.2 ⟨?_, ?_⟩,
    abs_le.2 ⟨?_, ?_⟩⟩
  · show versatileDistance F L r phi p = _
    unfold versatileDistance
    rw [y1, Res.bind_ok, e1, Res.bind_ok, y2, Res.bind_ok, y3, Res.bind_ok]
    cases Disk.Double.getDistanceToPad F.toArith (row.rCentre, cc) a.rowHeight row.padPitch r phi <;> rfl
  · exact s4
  · linarith [x1'.1]
  · linarith [x1'.2]
  · linarith [x2'.1]
  · linarith [x2'.2]
  · linarith [x3'.1]
  · linarith [x3'.2]
  · push_cast; linarith [x4'.1]
  · push_cast; linarith [x4'.2]

end

section

variable {M : MountedSize} {L : PadSize.Layout ℝ}

/-- The borders of a pad of a layout with a fixed pad size, up to rounding. -/
theorem size_limits (R : Rounded F u) (hu : 0 < u) (hM : M.Proper F L) {n row pad p : ℤ} (hn : PadsInRow L row n) (hp : IsIndex L row pad p)
    (f3 : M.pads.phiMax ≤ 8) :
    ∃ (ctr : ℝ × ℝ) (h w : ℝ), (∀ r phi, (fixedSize F (fuel + 1) L).getDistanceToPad r phi p =
        match Disk.Double.getDistanceToPad F.toArith ctr h w r phi with | some d => .ok d | none => .ub) ∧ 0 ≤ h ∧ 0 ≤ w ∧
      |F.sub ctr.1 (F.div h 2) - (M.pads.rMin + row * ((M.pads.rMax - M.pads.rMin) / PadSize.getNRows L))| ≤ 12 * u * M.pads.rMax ∧
      |F.add ctr.1 (F.div h 2) - (M.pads.rMin + (row + 1) * ((M.pads.rMax - M.pads.rMin) / PadSize.getNRows L))| ≤ 12 * u * M.pads.rMax ∧
      |F.sub ctr.2 (F.div w 2) - pad * (M.pads.phiMax / n)| ≤ 60 * u ∧
      |F.add ctr.2 (F.div w 2) - (pad + 1) * (M.pads.phiMax / n)| ≤ 60 * u ∧
      0 ≤ (M.pads.rMax - M.pads.rMin) / PadSize.getNRows L ∧ M.pads.rMin + (row + 1) * ((M.pads.rMax - M.pads.rMin) / PadSize.getNRows L) ≤
        M.pads.rMax := by
  have A := angle_rounded R hu
  have hA := hM.made.proper
  have hr0 := hA.r0
  have hrm := hA.r
  have hphi0 := hA.phi0
  have hs := R.small
  have B := PadSize.Double.built_of A hM.made
  obtain ⟨hN, hlen⟩ := PadSize.Double.nRow_of B hM.filled
  obtain ⟨b, hb, b1, b2⟩ := PadSize.Double.centre_near A hM.made hM.filled hn hp
  obtain ⟨e1, e2⟩ := PadSize.numbers hM.filled hp
  obtain ⟨hn1, -⟩ := hM.filled.pads _ _ hn
  obtain ⟨n', hn', p0, p1⟩ := id hp.1
  obtain ⟨rr, hrr, rfl⟩ := hn
  obtain ⟨rr', hrr', rfl⟩ := hn'
  obtain rfl := Option.some.inj (hrr.symm.trans hrr')
  obtain ⟨⟨r0, r1⟩, -, q3, -, -⟩ := PadSize.Double.row_props A hA B hrr
  rw [hlen]
  rw [hlen] at b1
  have hNr : (0 : ℝ) < L.nRow := by exact_mod_cast hN.1
  have hnn : (0 : ℝ) < rr.nPad := by exact_mod_cast hn1
  have hrow0 : (0 : ℝ) ≤ row := by exact_mod_cast r0
  have hrow1 : (row : ℝ) + 1 ≤ L.nRow := by exact_mod_cast (by omega : row + 1 ≤ L.nRow)
  have hp0 : (0 : ℝ) ≤ pad := by exact_mod_cast p0
  have hp1 : (pad : ℝ) + 1 ≤ rr.nPad := by exact_mod_cast (by omega : pad + 1 ≤ rr.nPad)
  -- heights and angles of the pad
  obtain ⟨s1, s2, -⟩ := R.rounding.size hu.le hs hA.r hN.1
  have hrh : L.rowHeight = F.rnd (F.rnd (M.pads.rMax - M.pads.rMin) / L.nRow) := B.rowHeight
  rw [← hrh] at s1 s2
  obtain ⟨H, hH⟩ : ∃ H, H = (M.pads.rMax - M.pads.rMin) / (L.nRow : ℝ) := ⟨_, rfl⟩
  have H0 : 0 < H := by rw [hH]; exact div_pos (by linarith) hNr
  have HN : L.nRow * H = M.pads.rMax - M.pads.rMin := by rw [hH]; field_simp
  have k1 : (row + 1) * H ≤ L.nRow * H := mul_le_mul_of_nonneg_right hrow1 H0.le
  have k2 : 0 ≤ row * H := mul_nonneg hrow0 H0.le
  have k3 : (row + 1) * H = row * H + H := by ring
  have uH : 0 ≤ u * H := mul_nonneg hu.le H0.le
  have uuH : u * (u * H) ≤ 1 / 1000 * (u * H) := mul_le_mul_of_nonneg_right hs uH
  have uHM : u * H ≤ u * M.pads.rMax := mul_le_mul_of_nonneg_left (by linarith) hu.le
  rw [← hH] at s1 s2 ⊢
  have hh : |L.rowHeight - H| ≤ 2.1 * (u * H) := by
    have z1 : (1 - u) * (1 - u) * H = H - 2 * (u * H) + u * (u * H) := by ring
    have z2 : (1 + u) * (1 + u) * H = H + 2 * (u * H) + u * (u * H) := by ring
    have := mul_nonneg hu.le uH
    rw [abs_le]; constructor <;> linarith
  have hcen : rowCentre M.pads L.nRow row = M.pads.rMin + (row * H + H / 2) := by
    unfold rowCentre; rw [← hH]; ring
  rw [hcen] at b1
  obtain ⟨W, hW⟩ : ∃ W, W = M.pads.phiMax / (rr.nPad : ℝ) := ⟨_, rfl⟩
  have W0 : 0 < W := by rw [hW]; exact div_pos hphi0 hnn
  have WN : rr.nPad * W = M.pads.phiMax := by rw [hW]; field_simp
  have w1 : (pad + 1) * W ≤ rr.nPad * W := mul_le_mul_of_nonneg_right hp1 W0.le
  have w2 : 0 ≤ pad * W := mul_nonneg hp0 W0.le
  have w3 : (pad + 1) * W = pad * W + W := by ring
  have w4 : (pad + 1 / 2) * W = pad * W + W / 2 := by ring
  rw [← hW] at b2 q3 ⊢
  rw [w4] at b2
  have q3 : rr.phiPad = F.rnd W := q3
  have hw : |rr.phiPad - W| ≤ u * W := by
    have := R.rounding.err W
    rw [q3]
    rwa [abs_of_pos W0] at this
  have u8 : u * M.pads.phiMax ≤ u * 8 := mul_le_mul_of_nonneg_left f3 hu.le
  have uW8 : u * W ≤ u * M.pads.phiMax := mul_le_mul_of_nonneg_left (by linarith) hu.le
  have uM1 : u * M.pads.rMax ≤ 1 / 1000 * M.pads.rMax := mul_le_mul_of_nonneg_right hs (by linarith)
  have uP1 : u * M.pads.phiMax ≤ 1 / 1000 * M.pads.phiMax := mul_le_mul_of_nonneg_right hs hphi0.le
  obtain ⟨m1, m2⟩ := half_near R b1 hh (W := 1.6 * M.pads.rMax) (by
    rw [abs_of_nonneg (by linarith : 0 ≤ M.pads.rMin + (row * H + H / 2)), abs_of_pos H0]
    linarith)
  obtain ⟨m3, m4⟩ := half_near R b2 hw (W := 1.6 * M.pads.phiMax) (by
    rw [abs_of_nonneg (by linarith : 0 ≤ pad * W + W / 2), abs_of_pos W0]
    linarith)
  have uM2 : 2 * u * (1.6 * M.pads.rMax) = 3.2 * (u * M.pads.rMax) := by ring
  have uP2 : 2 * u * (1.6 * M.pads.phiMax) = 3.2 * (u * M.pads.phiMax) := by ring
  have m1' := abs_le.1 m1
  have m2' := abs_le.1 m2
  have m3' := abs_le.1 m3
  have m4' := abs_le.1 m4
  have g1 : PadSize.getPadPitch L p = rr.phiPad := by
    unfold PadSize.getPadPitch
    rw [e1, hrr]
  refine ⟨b, L.rowHeight, rr.phiPad, fun r phi => ?_, ?_, ?_, abs_le.2 ⟨?_, ?_⟩, abs_le.2 ⟨?_, ?_⟩, abs_le.2 ⟨?_, ?_⟩, abs_le.2 ⟨?_, ?_⟩,
    ?_, ?_⟩
  · show sizeDistance F L r phi p = _
    unfold sizeDistance
    rw [hb, Res.bind_ok, g1]
    unfold PadSize.getRowHeight
    cases Disk.Double.getDistanceToPad F.toArith b L.rowHeight rr.phiPad r phi <;> rfl
  · have h1 := (abs_le.1 hh).1
    have h2 : u * H ≤ 1 / 1000 * H := mul_le_mul_of_nonneg_right hs H0.le
    linarith
  · rw [q3]; exact R.rounding.nonneg W0.le
  · linarith [m1'.1]
  · linarith [m1'.2]
  · linarith [m2'.1]
  · linarith [m2'.2]
  · linarith [m3'.1]
  · linarith [m3'.2]
  · linarith [m4'.1]
  · linarith [m4'.2]
  · linarith
  · linarith

/-! ### C170 -/

/-- In a Cartesian TPC, the distance that a module with a fixed pad size gives for a pad that the point is away from is the distance of the
pad at its place, up to rounding.  This is for pads whose angles are between 0 and a full turn. -/
theorem size_far_double_partial (R : Rounded F u) (hu : 0 < u) (N : Nearest F) (hM : M.Proper F L) {n row pad p : ℤ} (hn : PadsInRow L row n)
    (hp : IsIndex L row pad p) {c : ℝ × ℝ} {d : ℝ} (hd : M.Far u L n row pad d c) :
    ∃ D, getDistanceToPad F (M.module F fuel CARTESIAN L) c.1 c.2 p = .ok D ∧ |D - d| ≤ M.farError u d c := by
  have hs := R.small
  have hA := hM.made.proper
  have hr0 := hA.r0
  have hrm := hA.r
  have hphi := hA.phi
  have hphi0 := hA.phi0
  have hpi := abs_le.1 R.pi
  have hp4 := Real.pi_lt_d2
  have hup : u * π ≤ 1 / 1000 * π := mul_le_mul_of_nonneg_right hs Real.pi_pos.le
  obtain ⟨hn1, -⟩ := hM.filled.pads _ _ hn
  have hnn : (0 : ℝ) < n := by exact_mod_cast hn1
  have W0 : 0 < M.pads.phiMax / n := div_pos hphi0 hnn
  obtain ⟨ctr, h, w, k, h0, w0, b1, b2, b3, b4, H0, H1⟩ := size_limits (fuel := fuel) R hu hM hn hp (by
    have h2 : F.pi ≤ 3.2 := by linarith [hpi.2]
    have h3 : M.pads.phiMax ≤ 2 * F.pi := hphi
    linarith)
  have uM : u * M.pads.rMax ≤ 1 / 1000 * M.pads.rMax := mul_le_mul_of_nonneg_right hs (by linarith)
  exact polar_far R hu N (A := fixedSize F (fuel + 1) L) rfl hM.settled hM.given k h0 w0 b1 b2 b3 b4 (by linarith) (by linarith) (by linarith) hd

end

/-- In a Cartesian TPC, the distance that a module with a versatile layout gives for a pad that the point is away from is the distance of the
pad at its place, up to rounding.  This is for pads whose angles are between 0 and a full turn. -/
theorem versatile_far_double_partial {M : MountedVersatile} {L : Versatile.Layout ℝ} {i : ℕ} {a : RowArgs ℝ} {pad p : ℤ} (R : Rounded F u)
    (hu : 0 < u) (N : Nearest F) (hM : M.Proper F u L) (hp : M.IsPad L i a pad p) {c : ℝ × ℝ} {d : ℝ} (hd : M.Far u i a pad d c) :
    ∃ D, getDistanceToPad F (M.module F fuel CARTESIAN L) c.1 c.2 p = .ok D ∧ |D - d| ≤ M.farError u i a d c := by
  have A := angle_rounded R hu
  obtain ⟨ctr, h, w, k, h0, w0, b1, b2, b3, b4⟩ := versatile_limits (fuel := fuel) R hu hM hp
  obtain ⟨row, g1, Nr, g3⟩ := Versatile.Double.row_placed A hM.proper hM.started hM.built hp.row
  have m1 := Nr.pos
  have hh := Nr.h
  have hhm := Nr.hm
  have hdd := Nr.small
  have d4 := Nr.d4
  obtain ⟨s0, -⟩ := Nr.sizes A
  have eR := Versatile.Double.rError_eq u M.rMin M.rows i a
  have e5 : 2 * Versatile.Double.Spec.rError u M.rMin M.rows i a ≤ middle M.rMin M.rows i a := by
    rw [eR]
    have dm := mul_le_mul_of_nonneg_right hdd m1.le
    have dm4 := mul_le_mul_of_nonneg_right d4 m1.le
    linarith
  refine polar_far R hu N (A := versatile F (fuel + 1) L) rfl hM.settled hM.given k h0 w0 b1 b2 b3 b4 (by linarith) ?_ (by linarith) hd
  unfold edge pitch
  push_cast
  linarith

/-- The distance that a module of the TPC gives for a pad is the distance of the pad at its place, up to the error bound. -/
theorem pad_distance_double_partial (R : Rounded F u) (hu : 0 < u) (N : Nearest F) {y : TpcParams.Mod ℝ} {c : ℝ × ℝ} {p : ℤ} {d e : ℝ}
    (h : PadAt F u y c p d e) : ∃ D, y.getDistanceToPad c.1 c.2 p = .ok D ∧ |D - d| ≤ e := by
  cases h with
  | rectangular hI hM hb hd =>
    obtain ⟨D, d', h1, h2, h3, -⟩ := distance_double R (Or.inl rfl) hM hb c
    obtain rfl := h2.unique hd
    exact ⟨D, by rw [hI.distance]; exact h1, h3⟩
  | angle hI hM hL hp hU hd hl h0 =>
    obtain ⟨D, h1, h2⟩ := disk_far_double_partial R hu N hM hL hp hU hd hl h0
    exact ⟨D, by rw [hI.distance]; exact h1, h2⟩
  | size hI hM hn hp hd =>
    obtain ⟨D, h1, h2⟩ := size_far_double_partial R hu N hM hn hp hd
    exact ⟨D, by rw [hI.distance]; exact h1, h2⟩
  | versatile hI hM hp hd =>
    obtain ⟨D, h1, h2⟩ := versatile_far_double_partial R hu N hM hp hd
    exact ⟨D, by rw [hI.distance]; exact h1, h2⟩

/-- In a Cartesian TPC with modules of any kinds, `getNearestPad` of the TPC gives the pad and the module that the point is on, when the pads
that the other modules answer with are further away than the error bounds: here the point is on a pad of a versatile layout. -/
theorem tpc_mixed_versatile_nearest_double_partial {M : MountedVersatile} {L : Versatile.Layout ℝ} {i : ℕ} {a : RowArgs ℝ} {pad p : ℤ}
    (R : Rounded F u) (hu : 0 < u) (N : Nearest F) (hF : Functions F.toArith) (T : TpcParams.Tpc ℝ) {x : TpcParams.Mod ℝ}
    (hx : x ∈ TpcParams.getModules T) (hI : M.Is F fuel CARTESIAN L x) (hM : M.Proper F u L) (hW : Wide M.rMin M.rows)
    (hp : M.IsPad L i a pad p) {c : ℝ × ℝ} (hc : M.On u CARTESIAN i a pad c)
    (ho : ∀ y ∈ TpcParams.getModules T, y ≠ x → ∃ p' d' e', y.getNearestPad c.1 c.2 = .ok p' ∧ PadAt F u y c p' d' e' ∧ e' < d') :
    TpcParams.getNearestPad T c.1 c.2 = .ok ⟨p, M.id⟩ := by
  refine tpc_versatile_nearest_double_partial R hu hF T hx hI hM hW hp hc fun y hy hne => ?_
  obtain ⟨p', d', e', h1, h2, h3⟩ := ho y hy hne
  obtain ⟨D, k1, k2⟩ := pad_distance_double_partial R hu N h2
  exact ⟨p', D, h1, k1, by linarith [(abs_le.1 k2).1]⟩

/-- The same, for a point on a pad of a layout with a fixed pad size. -/
theorem tpc_mixed_size_nearest_double_partial {M : MountedSize} {L : PadSize.Layout ℝ} (R : Rounded F u) (hu : 0 < u) (N : Nearest F)
    (T : TpcParams.Tpc ℝ) {x : TpcParams.Mod ℝ} (hx : x ∈ TpcParams.getModules T) (hI : M.Is F fuel CARTESIAN L x) (hM : M.Proper F L)
    {n row pad p : ℤ} (hn : PadsInRow L row n) (hp : IsIndex L row pad p) {c : ℝ × ℝ} (hc : M.On u CARTESIAN L n row pad c)
    (ho : ∀ y ∈ TpcParams.getModules T, y ≠ x → ∃ p' d' e', y.getNearestPad c.1 c.2 = .ok p' ∧ PadAt F u y c p' d' e' ∧ e' < d') :
    TpcParams.getNearestPad T c.1 c.2 = .ok ⟨p, M.id⟩ := by
  refine tpc_size_nearest_double R hu T hx hI hM hn hp hc fun y hy hne => ?_
  obtain ⟨p', d', e', h1, h2, h3⟩ := ho y hy hne
  obtain ⟨D, k1, k2⟩ := pad_distance_double_partial R hu N h2
  exact ⟨p', D, h1, k1, by linarith [(abs_le.1 k2).1]⟩

/-! ### Non-vacuity -/

/-- The distance of a point from a ring segment that it is radially outside of. -/
theorem radial_least {V : Values} {x y v z r phi : ℝ} (h0 : 0 ≤ x) (h1 : x ≤ y) (h2 : y ≤ r) (h3 : v ≤ phi) (h4 : phi ≤ z) :
    IsLeast (segmentDistances V x y v z (onPlate CARTESIAN V (point r phi))) (r - y) := by
  have e : ∀ q, far (plane CARTESIAN (onPlate CARTESIAN V (point r phi))) (onPlate CARTESIAN V q) = far (point r phi) q := by
    intro q
    rw [plane_cartesian, far_eq, far_eq]
    exact place_far _ _ _ _ _
  constructor
  · refine ⟨point y phi, ⟨y, phi, h1, le_rfl, h3, h4, rfl⟩, ?_⟩
    show far _ _ = _
    rw [e]
    show √((r * cos phi - y * cos phi) ^ 2 + (r * sin phi - y * sin phi) ^ 2) = _
    have : (r * cos phi - y * cos phi) ^ 2 + (r * sin phi - y * sin phi) ^ 2 = (r - y) ^ 2 := by
      linear_combination (r - y) ^ 2 * sin_sq_add_cos_sq phi
    rw [this, Real.sqrt_sq (by linarith)]
  · rintro _ ⟨_, ⟨s, b, k1, k2, -, -, rfl⟩, rfl⟩
    show _ ≤ far _ _
    rw [e]
    show _ ≤ √((r * cos phi - s * cos b) ^ 2 + (r * sin phi - s * sin b) ^ 2)
    refine Real.le_sqrt_of_sq_le ?_
    have hc : cos phi * cos b + sin phi * sin b ≤ 1 := by rw [← cos_sub]; exact cos_le_one _
    have i : (r * cos phi - s * cos b) ^ 2 + (r * sin phi - s * sin b) ^ 2 =
        r ^ 2 + s ^ 2 - 2 * (r * s * (cos phi * cos b + sin phi * sin b)) := by
      linear_combination r ^ 2 * sin_sq_add_cos_sq phi + s ^ 2 * sin_sq_add_cos_sq b
    rw [i]
    have := mul_le_mul_of_nonneg_left hc (mul_nonneg (by linarith : 0 ≤ r) (by linarith : 0 ≤ s))
    have := pow_le_pow_left₀ (by linarith : 0 ≤ r - y) (by linarith : r - y ≤ r - s) 2
    linarith [show (r - s) ^ 2 = r ^ 2 + s ^ 2 - 2 * (r * s * 1) by ring]

/-- The weight of a point at the radius 10 of a module that was moved by (1, 2) and turned by half a radian. -/
theorem moved_size {phi : ℝ} {V : Values} (hV : V = ⟨0, (1, 2), 1 / 2, none, 1⟩) :
    0 ≤ size CARTESIAN V (onPlate CARTESIAN V (point 10 phi)) ∧ size CARTESIAN V (onPlate CARTESIAN V (point 10 phi)) ≤ 40 := by
  refine ⟨size_nonneg _ _ _, ?_⟩
  have e : onPlate CARTESIAN V (point 10 phi) = (10 * cos (phi + 1 / 2) + 1, 10 * sin (phi + 1 / 2) + 2) := by
    rw [hV]
    unfold onPlate place point
    rw [cos_add, sin_add, plane_cartesian]
    norm_num
    constructor <;> ring
  rw [e]
  unfold size
  rw [weight_cartesian, weight_cartesian, hV]
  have c1 := abs_le.1 (abs_cos_le_one (phi + 1 / 2))
  have c2 := abs_le.1 (abs_sin_le_one (phi + 1 / 2))
  have a1 : |10 * cos (phi + 1 / 2) + 1| ≤ 11 := abs_le.2 ⟨by linarith [c1.1], by linarith [c1.2]⟩
  have a2 : |10 * sin (phi + 1 / 2) + 2| ≤ 12 := abs_le.2 ⟨by linarith [c2.1], by linarith [c2.2]⟩
  norm_num at a1 a2 ⊢
  linarith

/-- Non-vacuity of `versatile_far_double_partial`: a point 5 units outside of the second pad of the second row. -/
theorem plates_far : platesAt.Far (1 / 2 ^ 53) 1 (twoPads 4) 1 5 (onPlate CARTESIAN platesAt.values (point 10 (3 / 2))) := by
  have e : middle platesAt.rMin platesAt.rows 1 (twoPads 4) = 4 := by
    rcases plates_rows (i := 1) (a := twoPads 4) rfl with ⟨h, -⟩ | ⟨-, -, e⟩
    · cases h
    · exact e
  obtain ⟨s0, s1⟩ := moved_size (phi := 3 / 2) (V := platesAt.values) rfl
  have h3 := Real.pi_gt_three
  have hl := radial_least (V := platesAt.values) (x := 3) (y := 5) (v := 1) (z := 2) (r := 10) (phi := 3 / 2) (by norm_num) (by norm_num)
    (by norm_num) (by norm_num) (by norm_num)
  unfold MountedVersatile.Far edge pitch
  rw [e]
  have ew : (4 : ℝ) - (twoPads 4).rowHeight / 2 = 3 := by norm_num [twoPads]
  have ex : (4 : ℝ) + (twoPads 4).rowHeight / 2 = 5 := by norm_num [twoPads]
  have ey : (twoPads 4).offset / 4 + ((1 : ℤ) : ℝ) * ((twoPads 4).padPitch / 4) = 1 := by norm_num [twoPads]
  have ez : (twoPads 4).offset / 4 + ((1 + 1 : ℤ) : ℝ) * ((twoPads 4).padPitch / 4) = 2 := by norm_num [twoPads]
  rw [ew, ex, ey, ez]
  have er : 0 ≤ rError (1 / 2 ^ 53) platesAt.rMin platesAt.rows 1 (twoPads 4) ∧
      rError (1 / 2 ^ 53) platesAt.rMin platesAt.rows 1 (twoPads 4) ≤ 1 / 2 ^ 40 := by
    unfold rError
    rw [e]
    norm_num
  have ep : 0 ≤ phiError (1 / 2 ^ 53 : ℝ) 1 ∧ phiError (1 / 2 ^ 53 : ℝ) 1 ≤ 1 / 2 ^ 40 := by
    unfold phiError
    norm_num
  generalize rError (1 / 2 ^ 53) platesAt.rMin platesAt.rows 1 (twoPads 4) = re at er ⊢
  generalize phiError (1 / 2 ^ 53 : ℝ) 1 = pe at ep ⊢
  refine ⟨?_, ?_, ?_, by norm_num at hl; exact hl, by norm_num, ?_, ?_⟩
  · norm_num at er; linarith [er.2]
  · norm_num at ep; linarith [ep.2]
  · norm_num at ep; linarith [ep.2]
  · unfold segmentMargin
    norm_num at er ep ⊢
    linarith [er.2, ep.2]
  · generalize size CARTESIAN platesAt.values (onPlate CARTESIAN platesAt.values (point 10 (3 / 2))) = w at s0 s1
    have := pow_le_pow_left₀ (by linarith : 0 ≤ 2 * (w + 4 * 4)) (by linarith : 2 * (w + 4 * 4) ≤ 112) 2
    norm_num at this ⊢
    linarith

example : ∃ L p D, platesAt.IsPad L 1 (twoPads 4) 1 p ∧ ∃ c : ℝ × ℝ,
    getDistanceToPad realDoubles (platesAt.module realDoubles 0 CARTESIAN L) c.1 c.2 p = .ok D ∧
      |D - 5| ≤ platesAt.farError (1 / 2 ^ 53) 1 (twoPads 4) 5 c := by
  obtain ⟨L, hM, -⟩ := plates_proper
  obtain ⟨p, hp⟩ := plates_pad hM (pad := 1) (by norm_num)
  obtain ⟨D, h1, h2⟩ := versatile_far_double_partial (fuel := 0) realDoubles_rounded (by norm_num) realDoubles_nearest hM hp plates_far
  exact ⟨L, p, D, hp, _, h1, h2⟩

/-- Non-vacuity of `size_far_double_partial`: a point 8 units outside of the second pad. -/
theorem rowAt_far : rowAt.Far (1 / 2 ^ 53) fourPads 4 0 1 8 (onPlate CARTESIAN rowAt.values (point 10 1)) := by
  obtain ⟨s0, s1⟩ := moved_size (phi := 1) (V := rowAt.values) rfl
  have h3 := Real.pi_gt_three
  have hl := radial_least (V := rowAt.values) (x := 1) (y := 2) (v := 3 / 4) (z := 3 / 2) (r := 10) (phi := 1) (by norm_num) (by norm_num)
    (by norm_num) (by norm_num) (by norm_num)
  have e : PadSize.getNRows fourPads = 1 := rfl
  unfold MountedSize.Far
  rw [e]
  have ew : rowAt.pads.rMin + ((0 : ℤ) : ℝ) * ((rowAt.pads.rMax - rowAt.pads.rMin) / ((1 : ℤ) : ℝ)) = 1 := by norm_num [rowAt, rowPads]
  have ex : rowAt.pads.rMin + (((0 : ℤ) : ℝ) + 1) * ((rowAt.pads.rMax - rowAt.pads.rMin) / ((1 : ℤ) : ℝ)) = 2 := by norm_num [rowAt, rowPads]
  have ey : ((1 : ℤ) : ℝ) * (rowAt.pads.phiMax / ((4 : ℤ) : ℝ)) = 3 / 4 := by norm_num [rowAt, rowPads]
  have ez : (((1 : ℤ) : ℝ) + 1) * (rowAt.pads.phiMax / ((4 : ℤ) : ℝ)) = 3 / 2 := by norm_num [rowAt, rowPads]
  have er : rowAt.pads.rMax = 2 := rfl
  rw [ew, ex, ey, ez, er]
  refine ⟨by norm_num, by norm_num, by norm_num; linarith, by norm_num at hl; exact hl, by norm_num, ?_, ?_⟩
  · unfold segmentMargin
    norm_num
    linarith
  · generalize size CARTESIAN rowAt.values (onPlate CARTESIAN rowAt.values (point 10 1)) = w at s0 s1
    have := pow_le_pow_left₀ (by linarith : 0 ≤ 2 * (w + 2 * 2)) (by linarith : 2 * (w + 2 * 2) ≤ 88) 2
    norm_num at this ⊢
    linarith

example : ∃ p D, IsIndex fourPads 0 1 p ∧ ∃ c : ℝ × ℝ,
    getDistanceToPad realDoubles (rowAt.module realDoubles 0 CARTESIAN fourPads) c.1 c.2 p = .ok D ∧
      |D - 8| ≤ rowAt.farError (1 / 2 ^ 53) 8 c := by
  obtain ⟨hn, p, hp⟩ := fourPads_index (pad := 1) (by norm_num)
  obtain ⟨D, h1, h2⟩ := size_far_double_partial (fuel := 0) realDoubles_rounded (by norm_num) realDoubles_nearest rowAt_proper hn hp rowAt_far
  exact ⟨p, D, hp, _, h1, h2⟩

/-- A module of a disk layout with fixed pad angles that answers with a pad 19 units away. -/
theorem segment_padAt {L : PadAngle.Layout ℝ} (hL : (segment 2 (-12) (-16)).Has realDoubles L) {y : TpcParams.Mod ℝ}
    (hy : (segment 2 (-12) (-16)).Is realDoubles 100 CARTESIAN L y) :
    ∃ e, y.getNearestPad 3 4 = .ok 0 ∧ PadAt realDoubles (1 / 2 ^ 53) y (3, 4) 0 19 e ∧ e < 19 := by
  have A := segment_away hL hy
  refine ⟨_, A.nearest, .angle hy A.proper A.has A.index A.usual A.least A.large A.positive, ?_⟩
  obtain ⟨g1, g2⟩ := A.large
  linarith

/-- A module with one row of two pads between the radii 4 and 6, turned by half a radian. -/
noncomputable def turnedPads : MountedVersatile := ⟨1, 1, [.angle (1 / 2)], 4, [twoPads 5]⟩

theorem turned_rows {i : ℕ} {a : RowArgs ℝ} (h : IsRow turnedPads.rows i a) :
    i = 0 ∧ a = twoPads 5 ∧ middle turnedPads.rMin turnedPads.rows i a = 5 := by
  have h' : [twoPads 5][i]? = some a := h
  rcases i with _ | i
  · obtain rfl := Option.some.inj h'
    refine ⟨rfl, rfl, ?_⟩
    show (4 : ℝ) + (List.map RowArgs.rowHeight []).sum + 2 / 2 = 5
    norm_num
  · simp at h'

theorem turned_proper : ∃ L, turnedPads.Proper realDoubles (1 / 2 ^ 53) L ∧ Wide turnedPads.rMin turnedPads.rows := by
  obtain ⟨L1, a1, -⟩ := twoPads_add (L := Versatile.new 4) (p := 5) (by norm_num) (by norm_num [Versatile.new])
    (exact (n := 5) (k := 0) 5 (by norm_num) (by norm_num)) (exact (n := 6) (k := 0) _ (by norm_num) (by norm_num))
  refine ⟨L1, ⟨⟨[], .angle (1 / 2), [], rfl, trivial, by simp⟩, ?_, .addRow (as := []) _ .new a1, ⟨?_, ?_, ?_, ?_⟩, ?_⟩, ?_⟩
  · intro o ho
    obtain rfl : o = .angle (1 / 2) := by simpa [turnedPads] using ho
    trivial
  · norm_num [turnedPads]
  · show 1 ≤ 65535
    norm_num
  · intro a ha
    obtain rfl : a = twoPads 5 := by simpa [turnedPads] using ha
    norm_num [twoPads]
  · show 1000 * (((1 : ℕ) : ℝ) + 2) * (1 / 2 ^ 53) ≤ 1
    norm_num
  · intro i a h
    have p0 : (0 : ℝ) ≤ realDoubles.pi := by
      have hpi := abs_le.1 realDoubles_rounded.pi
      have h3 := Real.pi_gt_three
      norm_num at hpi
      linarith [hpi.1]
    obtain ⟨-, rfl, e⟩ := turned_rows h
    rw [e]
    norm_num [twoPads]
    linarith
  · intro i a h
    obtain ⟨-, rfl, e⟩ := turned_rows h
    rw [e]
    norm_num [twoPads]

/-- The point (3, 4) is on the first pad. -/
theorem turned_on : turnedPads.On (1 / 2 ^ 53) CARTESIAN 0 (twoPads 5) 0 (3, 4) := by
  obtain ⟨phi, f1, f2, f3, f4⟩ := direction
  obtain ⟨-, -, e⟩ := turned_rows (i := 0) (a := twoPads 5) rfl
  have h3 := Real.pi_gt_three
  have hv : turnedPads.values = ⟨0, (0, 0), 1 / 2, none, 1⟩ := rfl
  have sh : turnedPads.shift (1 / 2 ^ 53) CARTESIAN (3, 4) ≤ 1 / 2 ^ 40 := by
    unfold MountedVersatile.shift size
    rw [weight_cartesian, weight_cartesian, hv]
    norm_num
  have s0 := versatile_shift_nonneg (M := turnedPads) (t := CARTESIAN) realDoubles_rounded (3, 4)
  have hat : turnedPads.At (1 / 2 ^ 53) CARTESIAN 5 (phi - 1 / 2) (3, 4) := by
    refine ⟨?_, by norm_num, by norm_num at sh ⊢; linarith⟩
    have c1 : cos (phi - 1 / 2) * cos (1 / 2) - sin (phi - 1 / 2) * sin (1 / 2) = 3 / 5 := by rw [← cos_add, sub_add_cancel, f1]
    have c2 : sin (phi - 1 / 2) * cos (1 / 2) + cos (phi - 1 / 2) * sin (1 / 2) = 4 / 5 := by rw [← sin_add, sub_add_cancel, f2]
    rw [hv]
    unfold onPlate place
    rw [plane_cartesian, plane_cartesian]
    norm_num at c1 c2 ⊢
    constructor <;> linarith
  refine ⟨5, phi - 1 / 2, 1 / 2, hat, ?_, by norm_num, ?_, ?_, fun j b _ hj => absurd hj (Nat.not_lt_zero _)⟩
  · unfold MountedVersatile.InTurn MountedVersatile.turnError
    norm_num at sh ⊢
    constructor <;> linarith
  · unfold MountedVersatile.turnError angle pitch phiError
    rw [e, abs_le]
    norm_num [twoPads] at sh ⊢
    constructor <;> linarith
  · unfold rError
    rw [e]
    norm_num [twoPads] at sh ⊢
    linarith

theorem turned_pad {L : Versatile.Layout ℝ} (hM : turnedPads.Proper realDoubles (1 / 2 ^ 53) L) : ∃ p, turnedPads.IsPad L 0 (twoPads 5) 0 p := by
  have A := angle_rounded realDoubles_rounded (by norm_num)
  have hr : IsRow turnedPads.rows 0 (twoPads 5) := rfl
  obtain ⟨row, g1, N, -⟩ := Versatile.Double.row_near A hM.proper hM.built hr
  obtain ⟨p, hp⟩ := Versatile.index_isSome (Versatile.Double.layout_sized A hM.proper hM.built)
    ⟨_, ⟨row, Versatile.Double.elem_nat g1, N.nPads⟩, le_rfl, by show (0 : ℤ) < 2; norm_num⟩
  exact ⟨p, hr, ⟨le_rfl, by show (0 : ℤ) < 2; norm_num⟩, hp⟩

/-- Non-vacuity of `tpc_mixed_versatile_nearest_double_partial`: a module with a versatile layout and one with fixed pad angles, and the point
(3, 4) on a pad of the first one. -/
example : ∃ L p, turnedPads.IsPad L 0 (twoPads 5) 0 p ∧ ∀ (T : TpcParams.Tpc ℝ) (x y : TpcParams.Mod ℝ) (L' : PadAngle.Layout ℝ),
    TpcParams.getModules T = [y, x] → turnedPads.Is realDoubles 0 CARTESIAN L x → (segment 2 (-12) (-16)).Has realDoubles L' →
    (segment 2 (-12) (-16)).Is realDoubles 100 CARTESIAN L' y → TpcParams.getNearestPad T 3 4 = .ok ⟨p, 1⟩ := by
  obtain ⟨L, hM, hW⟩ := turned_proper
  obtain ⟨p, hp⟩ := turned_pad hM
  refine ⟨L, p, hp, fun T x y L' hT hx hL' hy => ?_⟩
  refine tpc_mixed_versatile_nearest_double_partial realDoubles_rounded (by norm_num) realDoubles_nearest realDoubles_functions T
    (by rw [hT]; simp) hx hM hW hp turned_on fun z hz hne => ?_
  rw [hT] at hz
  obtain rfl : z = y := by
    rcases List.mem_cons.1 hz with h | h
    · exact h
    · exact absurd (List.mem_singleton.1 h) hne
  obtain ⟨e, h1, h2, h3⟩ := segment_padAt hL' hy
  exact ⟨0, 19, e, h1, h2, h3⟩

/-- A module with pads of a fixed size, moved. -/
noncomputable def movedRow : MountedSize := ⟨1, 1, [.offset (9 / 4) 3], rowPads⟩

theorem movedRow_proper : movedRow.Proper realDoubles fourPads := by
  refine ⟨⟨[], .offset (9 / 4) 3, [], rfl, trivial, by simp⟩, ?_, rowAt_proper.made, rowAt_proper.filled⟩
  intro o ho
  obtain rfl : o = .offset (9 / 4) 3 := by simpa [movedRow] using ho
  exact exact (n := 3) (k := 0) 3 (by norm_num) (by norm_num)

/-- The point (3, 4) is on the second pad. -/
theorem movedRow_on : movedRow.On (1 / 2 ^ 53) CARTESIAN fourPads 4 0 1 (3, 4) := by
  obtain ⟨phi, f1, f2, f3, f4⟩ := direction
  have hv : movedRow.values = ⟨0, (9 / 4, 3), 0, none, 1⟩ := rfl
  have f5 : 4 / 5 ≤ phi := by
    have := one_sub_sq_div_two_le_cos (x := phi)
    rw [f1] at this
    nlinarith
  have sh : movedRow.shift (1 / 2 ^ 53) CARTESIAN (3, 4) ≤ 1 / 2 ^ 40 := by
    unfold MountedSize.shift size
    rw [weight_cartesian, weight_cartesian, hv]
    norm_num [abs_of_pos]
  refine ⟨5 / 4, phi, ⟨?_, by norm_num, by norm_num at sh ⊢; linarith⟩, ?_⟩
  · rw [hv, f1, f2]
    unfold onPlate place
    rw [plane_cartesian, plane_cartesian]
    norm_num
  · generalize movedRow.shift (1 / 2 ^ 53) CARTESIAN (3, 4) = w at sh ⊢
    have e : PadSize.getNRows fourPads = 1 := rfl
    rw [e]
    unfold PadSize.Double.Spec.DeepInPad
    norm_num [movedRow, rowPads] at sh ⊢
    refine ⟨⟨?_, ?_⟩, ?_, ?_⟩ <;> linarith

/-- Non-vacuity of `tpc_mixed_size_nearest_double_partial`: a module with pads of a fixed size and one with fixed pad angles. -/
example {T : TpcParams.Tpc ℝ} {x y : TpcParams.Mod ℝ} (hT : TpcParams.getModules T = [y, x])
    (hx : movedRow.Is realDoubles 0 CARTESIAN fourPads x) {L : PadAngle.Layout ℝ} (hL : (segment 2 (-12) (-16)).Has realDoubles L)
    (hy : (segment 2 (-12) (-16)).Is realDoubles 100 CARTESIAN L y) : ∃ p, IsIndex fourPads 0 1 p ∧ TpcParams.getNearestPad T 3 4 = .ok ⟨p, 1⟩ := by
  obtain ⟨hn, p, hp⟩ := fourPads_index (pad := 1) (by norm_num)
  refine ⟨p, hp, tpc_mixed_size_nearest_double_partial realDoubles_rounded (by norm_num) realDoubles_nearest T (by rw [hT]; simp) hx
    movedRow_proper hn hp movedRow_on fun z hz hne => ?_⟩
  rw [hT] at hz
  obtain rfl : z = y := by
    rcases List.mem_cons.1 hz with h | h
    · exact h
    · exact absurd (List.mem_singleton.1 h) hne
  obtain ⟨e, h1, h2, h3⟩ := segment_padAt hL hy
  exact ⟨0, 19, e, h1, h2, h3⟩

end Gear.TpcModule.Double
