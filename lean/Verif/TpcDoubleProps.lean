/-
Pads of the rectangular modules of a TPC in `double` arithmetic (C162).
-/
import Verif.TpcDouble
import Verif.TpcModuleDoubleProps
import Verif.RectDoubleProps
import Verif.TpcParamsProps

set_option autoImplicit false
set_option linter.unusedSectionVars false

namespace Gear.TpcModule.Double

open Real
open TpcModule.Spec (Known plane place Op Values values Settled)
open Rect.Spec (euclid box)
open Rect.Double.Spec (Args MadeOf HasBox)
open MaterialMap (binary64)
open Spec

/-! ### Specification -/

namespace Spec

/-- Where a module with these values lies on the end plate of a TPC with coordinates of type `t`. -/
noncomputable def onPlate (t : ℤ) (v : Values) (q : ℝ × ℝ) : ℝ × ℝ := place v.angle (plane t v.offset) (v.z.getD 1) q

/-- The size of the numbers in a transformation of the point `c`: roundings are parts of it. -/
noncomputable def size (t : ℤ) (v : Values) (c : ℝ × ℝ) : ℝ := weight t c * (1 + |v.angle|) + weight t v.offset

/-- A module with a rectangular layout: what was passed to the constructors, and all calls on the layout and on the module. -/
structure Mounted where
  id : ℤ
  frequency : ℝ
  ops : List Op
  xMin : ℝ
  xMax : ℝ
  yMin : ℝ
  rows : List (Rect.Op ℝ)

namespace Mounted

/-- The layout. -/
noncomputable def layout (F : Arith ℝ) (M : Mounted) : Rect.Layout ℝ := Rect.Double.run F.toArith M.xMin M.xMax M.yMin M.rows

/-- The values last given to the setters. -/
def values (M : Mounted) : Values := TpcModule.Spec.values M.frequency M.ops

/-- The module. -/
noncomputable def module (F : Arith ℝ) (fuel : ℕ) (t : ℤ) (M : Mounted) : Module ℝ :=
  made F M.id (rectangular F fuel (M.layout F)) t M.frequency M.ops

/-- The offset or the angle was set after the position along z, and angles of offsets are doubles. -/
structure Proper (F : Arith ℝ) (M : Mounted) : Prop where
  settled : Settled M.ops
  given : ∀ o ∈ M.ops, Given F o

/-- The pad with index `p` is the rectangle around `b` with these sizes, before it is placed. -/
def Box (F : Arith ℝ) (M : Mounted) (p : ℤ) (b : ℝ × ℝ) (w h : ℝ) : Prop := HasBox F.toArith (M.layout F) p b w h

/-- The distances of the point `c` from the points of a pad, as it is placed. -/
noncomputable def distances (t : ℤ) (M : Mounted) (c b : ℝ × ℝ) (w h : ℝ) : Set ℝ :=
  (fun q => far (plane t c) (onPlate t M.values q)) '' box b w h

/-- The rounding errors of a distance. -/
noncomputable def error (u : ℝ) (t : ℤ) (M : Mounted) (c b : ℝ × ℝ) (w h : ℝ) : ℝ :=
  120 * u * size t M.values c + 8 * u * (|b.1| + |b.2| + w + h)

/-- The point `c` lies on the pad in row `row` and column `pad` of the module, whose layout has the equal rows `A`, and not near to its
border. -/
def On (u : ℝ) (t : ℤ) (M : Mounted) (A : Args ℝ) (row pad : ℤ) (c : ℝ × ℝ) : Prop :=
  ∃ q, plane t c = onPlate t M.values q ∧
    |q.1 - A.xCenter pad| ≤ min A.padWidth A.pitch / 2 - 12 * A.xError u - 100 * u * size t M.values c ∧
    |q.2 - A.yCenter row| ≤ A.padHeight / 2 - 10 * A.yError u - 100 * u * size t M.values c

/-- The module of the TPC is this one. -/
structure Is (F : Arith ℝ) (fuel : ℕ) (t : ℤ) (M : Mounted) (x : TpcParams.Mod ℝ) : Prop where
  id : x.id = M.id
  nearest : ∀ a b, x.getNearestPad a b = getNearestPad F (M.module F fuel t) a b
  distance : ∀ a b p, x.getDistanceToPad a b p = getDistanceToPad F (M.module F fuel t) a b p

end Mounted

end Spec

variable {F : Arith ℝ} {u : ℝ} {t : ℤ} {fuel : ℕ} {M : Mounted}

/-! ### Local coordinates -/

theorem rect_rounded (R : Rounded F u) : Rect.Double.Spec.Rounded F.toArith u := ⟨R.rounding, R.small, R.sqrt⟩

theorem angle_rounded (R : Rounded F u) (hu : 0 < u) : PadAngle.Double.Spec.Rounded F.toArith u := by
  refine ⟨R.rounding, hu, R.small, ?_⟩
  have h := abs_le.1 R.pi
  have h1 := Real.pi_gt_d2
  have h2 := Real.pi_lt_d2
  have h3 : u * π ≤ 1 / 1000 * π := mul_le_mul_of_nonneg_right R.small Real.pi_pos.le
  constructor <;> linarith [h.1, h.2]

/-- Every point of the end plate is the place of a point of the module's own plane. -/
theorem onPlate_onto (t : ℤ) (v : Values) (g : ℝ × ℝ) : ∃ q, onPlate t v q = g := by
  unfold onPlate
  set o := plane t v.offset
  set a := v.angle
  have s := sin_sq_add_cos_sq a
  refine ⟨(((flip (v.z.getD 1) g).1 - o.1) * cos a + ((flip (v.z.getD 1) g).2 - o.2) * sin a,
    ((flip (v.z.getD 1) g).2 - o.2) * cos a - ((flip (v.z.getD 1) g).1 - o.1) * sin a), ?_⟩
  rw [place_eq]
  have e : turned a o (((flip (v.z.getD 1) g).1 - o.1) * cos a + ((flip (v.z.getD 1) g).2 - o.2) * sin a,
    ((flip (v.z.getD 1) g).2 - o.2) * cos a - ((flip (v.z.getD 1) g).1 - o.1) * sin a) = flip (v.z.getD 1) g := by
    unfold turned
    apply Prod.ext
    · dsimp only
      linear_combination ((flip (v.z.getD 1) g).1 - o.1) * s
    · dsimp only
      linear_combination ((flip (v.z.getD 1) g).2 - o.2) * s
  rw [e, flip_flip]

theorem size_nonneg (t : ℤ) (v : Values) (c : ℝ × ℝ) : 0 ≤ size t v c := by
  have h1 := weight_nonneg t c
  have h2 := weight_nonneg t v.offset
  have h3 := abs_nonneg v.angle
  unfold size
  positivity

/-- The local coordinates are near to those in exact arithmetic. -/
theorem local_near (R : Rounded F u) (ht : Known t) (hM : M.Proper F) {c q : ℝ × ℝ} (hq : plane t c = onPlate t M.values q) :
    ∃ p, globalToLocal F (M.module F fuel t) c.1 c.2 = .ok p ∧ far p q ≤ 100 * u * size t M.values c := by
  obtain ⟨p, h1, h2⟩ := globalToLocal_double (id := M.id) (L := rectangular F fuel (M.layout F)) (f := M.frequency) R ht (Or.inl rfl)
    hM.settled hM.given c
  refine ⟨p, h1, ?_⟩
  have e : plane (rectangular F fuel (M.layout F)).coordinateType p = p := plane_cartesian p
  rw [e, hq, far_eq] at h2
  unfold onPlate Mounted.values at h2
  rw [place_far, ← far_eq] at h2
  exact h2

theorem far_components {p q : ℝ × ℝ} {e : ℝ} (h : far p q ≤ e) : |p.1 - q.1| ≤ e ∧ |p.2 - q.2| ≤ e := by
  rw [far_eq] at h
  exact ⟨(abs_fst_le (p.1 - q.1, p.2 - q.2)).trans h, (abs_snd_le (p.1 - q.1, p.2 - q.2)).trans h⟩

theorem far_comm (p q : ℝ × ℝ) : far p q = far q p := by rw [far_eq, far_eq, norm_sub_rev]

theorem far_tri (p q r : ℝ × ℝ) : far p r ≤ far p q + far q r := by
  rw [far_eq, far_eq, far_eq]
  exact norm_sub_le_norm_sub_add_norm_sub _ _ _

/-- The local coordinates of a point are not large. -/
theorem local_size (ht : Known t) {v : Values} {c q : ℝ × ℝ} (hq : plane t c = onPlate t v q) : |q.1| + |q.2| ≤ 2 * size t v c := by
  have h1 : ‖toC q‖ ≤ ‖toC (plane t c)‖ + ‖toC (plane t v.offset)‖ := by
    have e := place_far v.angle (plane t v.offset) (v.z.getD 1) q (0, 0)
    have e0 : toC (0, 0) = 0 := by apply Complex.ext <;> simp
    rw [e0, sub_zero] at e
    have e1 : place v.angle (plane t v.offset) (v.z.getD 1) (0, 0) = flip (v.z.getD 1) (plane t v.offset) := by
      rw [place_eq]; congr 1; unfold turned; simp
    rw [e1] at e
    unfold onPlate at hq
    rw [← hq] at e
    rw [← e, ← flip_norm (v.z.getD 1) (plane t v.offset)]
    exact norm_sub_le _ _
  have h2 := norm_plane_le ht c
  have h3 := norm_plane_le ht v.offset
  have h4 : weight t c ≤ weight t c * (1 + |v.angle|) := by
    have := mul_nonneg (weight_nonneg t c) (abs_nonneg v.angle)
    linarith
  have h5 := abs_fst_le q
  have h6 := abs_snd_le q
  unfold size
  linarith

theorem euclid_far (x y : ℝ) (q : ℝ × ℝ) : euclid x y q.1 q.2 = far (x, y) q := rfl

/-- The distances of a global point from a pad are those of its local point. -/
theorem distances_eq {c q : ℝ × ℝ} (hq : plane t c = onPlate t M.values q) (b : ℝ × ℝ) (w h : ℝ) :
    M.distances t c b w h = (fun p : ℝ × ℝ => euclid q.1 q.2 p.1 p.2) '' box b w h := by
  unfold Mounted.distances
  refine Set.image_congr fun p _ => ?_
  rw [hq, far_eq]
  unfold onPlate
  rw [place_far, ← far_eq]
  rfl

/-! ### C162 -/

/-- `getDistanceToPad` of a module is the smallest distance between the point and the pad where the module has put it, up to rounding. -/
theorem distance_double (R : Rounded F u) (ht : Known t) (hM : M.Proper F) {p : ℤ} {b : ℝ × ℝ} {w h : ℝ} (hb : M.Box F p b w h)
    (c : ℝ × ℝ) :
    ∃ D d, getDistanceToPad F (M.module F fuel t) c.1 c.2 p = .ok D ∧ IsLeast (M.distances t c b w h) d ∧
      |D - d| ≤ M.error u t c b w h ∧ 0 ≤ D := by
  obtain ⟨q, hq⟩ := onPlate_onto t M.values (plane t c)
  obtain ⟨l, h1, h2⟩ := local_near (fuel := fuel) R ht hM hq.symm
  have hR := rect_rounded R
  obtain ⟨D, d1, a1, a2, a3, a4⟩ := Rect.Double.distance_double hR M.xMin M.xMax M.yMin M.rows l.1 l.2 hb
  obtain ⟨-, d, -, b2, -, -⟩ := Rect.Double.distance_double hR M.xMin M.xMax M.yMin M.rows q.1 q.2 hb
  refine ⟨D, d, ?_, by rw [distances_eq hq.symm]; exact b2, ?_, a4⟩
  · unfold getDistanceToPad
    rw [h1, Res.bind_ok]
    have hL : (M.module F fuel t).layout = rectangular F fuel (M.layout F) :=
      (made_has F M.id (rectangular F fuel (M.layout F)) t M.frequency M.ops).layout
    rw [hL]
    exact a1
  · have hd : |d1 - d| ≤ 100 * u * size t M.values c := by
      rw [abs_le]
      constructor
      · obtain ⟨⟨s, hs, e⟩, -⟩ := a2
        have h3 : d ≤ euclid q.1 q.2 s.1 s.2 := b2.2 ⟨s, hs, rfl⟩
        have h4 := far_tri q l s
        have e : euclid l.1 l.2 s.1 s.2 = d1 := e
        rw [euclid_far] at e h3
        rw [far_comm q l] at h4
        linarith
      · obtain ⟨⟨s, hs, e⟩, -⟩ := b2
        have h3 : d1 ≤ euclid l.1 l.2 s.1 s.2 := a2.2 ⟨s, hs, rfl⟩
        have h4 := far_tri l q s
        have e : euclid q.1 q.2 s.1 s.2 = d := e
        rw [euclid_far] at e h3
        linarith
    have h5 := local_size ht hq.symm
    obtain ⟨h6, h7⟩ := far_components h2
    have hu := R.nonneg
    have hs := R.small
    have hz := size_nonneg t M.values c
    have h8 : |l.1| + |l.2| ≤ 2 * size t M.values c + 200 * u * size t M.values c := by
      have := abs_sub_abs_le_abs_sub l.1 q.1
      have := abs_sub_abs_le_abs_sub l.2 q.2
      linarith
    have h9 : 200 * u * size t M.values c ≤ 200 * (1 / 1000) * size t M.values c := by gcongr
    have h10 : u * (|l.1| + |l.2|) ≤ u * (5 / 2 * size t M.values c) := mul_le_mul_of_nonneg_left (by linarith) hu
    have h11 := abs_sub_le D d1 d
    unfold Mounted.error
    have e : 8 * u * (|l.1| + |l.2| + |b.1| + |b.2| + w + h) = 8 * (u * (|l.1| + |l.2|)) + 8 * u * (|b.1| + |b.2| + w + h) := by ring
    rw [e] at a3
    have : 0 ≤ u * size t M.values c := mul_nonneg hu hz
    linarith

theorem module_layout : (M.module F fuel t).layout = rectangular F fuel (M.layout F) :=
  (made_has F M.id (rectangular F fuel (M.layout F)) t M.frequency M.ops).layout

/-- `getPadCenter` of a module is the centre of the pad where the module has put it, up to rounding. -/
theorem center_double (R : Rounded F u) (hu : 0 < u) (ht : Known t) (hM : M.Proper F) {A : Args ℝ} (hA : A.Proper u)
    (hL : MadeOf F.toArith A (M.layout F)) {row pad p : ℤ} (hp : A.IsPad row pad) (h : Rect.getPadIndex (M.layout F) row pad = .ok p) :
    ∃ g, getPadCenter F (M.module F fuel t) p = .ok g ∧
      far (plane t g) (onPlate t M.values (A.xCenter pad, A.yCenter row)) ≤ 10 * A.xError u + A.yError u +
        100 * u * ((|A.xCenter pad| + |A.yCenter row| + 10 * A.xError u + A.yError u) * (1 + |M.values.angle|) +
          weight t M.values.offset) := by
  obtain ⟨c, h1, h2, h3⟩ := Rect.Double.center_double (angle_rounded R hu) hA hL hp h
  obtain ⟨g, h4, h5⟩ := localToGlobal_double (id := M.id) (L := rectangular F fuel (M.layout F)) (f := M.frequency) R ht (Or.inl rfl)
    hM.settled hM.given c
  refine ⟨g, ?_, ?_⟩
  · unfold getPadCenter
    rw [module_layout]
    show (Rect.Double.getPadCenter F.toArith (M.layout F) p >>= _) = _
    rw [h1, Res.bind_ok]
    exact h4
  · have e : plane (rectangular F fuel (M.layout F)).coordinateType c = c := plane_cartesian c
    have ew : weight (rectangular F fuel (M.layout F)).coordinateType c = |c.1| + |c.2| := weight_cartesian c
    rw [e, ew] at h5
    have h6 := far_tri (plane t g) (onPlate t M.values c) (onPlate t M.values (A.xCenter pad, A.yCenter row))
    have h7 : far (onPlate t M.values c) (onPlate t M.values (A.xCenter pad, A.yCenter row)) ≤ 10 * A.xError u + A.yError u := by
      rw [far_eq]
      unfold onPlate
      rw [place_far]
      refine (norm_le (c.1 - A.xCenter pad, c.2 - A.yCenter row)).trans ?_
      exact add_le_add h2 h3
    have h8 : |c.1| + |c.2| ≤ |A.xCenter pad| + |A.yCenter row| + 10 * A.xError u + A.yError u := by
      have := abs_sub_abs_le_abs_sub c.1 (A.xCenter pad)
      have := abs_sub_abs_le_abs_sub c.2 (A.yCenter row)
      linarith
    have h9 : (|c.1| + |c.2|) * (1 + |M.values.angle|) ≤
        (|A.xCenter pad| + |A.yCenter row| + 10 * A.xError u + A.yError u) * (1 + |M.values.angle|) :=
      mul_le_mul_of_nonneg_right h8 (by have := abs_nonneg M.values.angle; linarith)
    have h10 := mul_le_mul_of_nonneg_left h9 (show 0 ≤ 100 * u by linarith)
    have h11 : far (plane t g) (onPlate t M.values c) ≤ 100 * u * ((|c.1| + |c.2|) * (1 + |M.values.angle|) + weight t M.values.offset) :=
      h5
    linarith

/-- `isInsidePad` of a module is right, except near to the border of the pad. -/
theorem inside_double (R : Rounded F u) (hu : 0 < u) (ht : Known t) (hM : M.Proper F) {A : Args ℝ} (hA : A.Proper u)
    (hL : MadeOf F.toArith A (M.layout F)) {row pad p : ℤ} (hp : A.IsPad row pad) (h : Rect.getPadIndex (M.layout F) row pad = .ok p)
    {c q : ℝ × ℝ} (hq : plane t c = onPlate t M.values q) :
    ∃ b, isInsidePad F (M.module F fuel t) c.1 c.2 p = .ok b ∧
      (|q.1 - A.xCenter pad| ≤ A.padWidth / 2 - 12 * A.xError u - 100 * u * size t M.values c →
        |q.2 - A.yCenter row| ≤ A.padHeight / 2 - 2 * A.yError u - 100 * u * size t M.values c → b = true) ∧
      (b = true → |q.1 - A.xCenter pad| ≤ A.padWidth / 2 + 12 * A.xError u + 100 * u * size t M.values c ∧
        |q.2 - A.yCenter row| ≤ A.padHeight / 2 + 2 * A.yError u + 100 * u * size t M.values c) := by
  obtain ⟨l, h1, h2⟩ := local_near (fuel := fuel) R ht hM hq
  obtain ⟨h3, h4⟩ := far_components h2
  obtain ⟨b, b1, b2, b3⟩ := Rect.Double.inside_double (angle_rounded R hu) hA hL hp h l.1 l.2
  refine ⟨b, ?_, fun hx hy => b2 ?_ ?_, fun hb => ⟨?_, ?_⟩⟩
  · unfold isInsidePad
    rw [h1, Res.bind_ok, module_layout]
    exact b1
  · have := abs_sub_le l.1 q.1 (A.xCenter pad); linarith
  · have := abs_sub_le l.2 q.2 (A.yCenter row); linarith
  · have := abs_sub_le q.1 l.1 (A.xCenter pad); rw [abs_sub_comm q.1 l.1] at this; linarith [(b3 hb).1]
  · have := abs_sub_le q.2 l.2 (A.yCenter row); rw [abs_sub_comm q.2 l.2] at this; linarith [(b3 hb).2]

/-- For a point on a pad, not near to its border, `getNearestPad` of the module gives this pad. -/
theorem nearest_double_partial (R : Rounded F u) (hu : 0 < u) (ht : Known t) (hM : M.Proper F) {A : Args ℝ} (hA : A.Proper u)
    (hL : MadeOf F.toArith A (M.layout F)) {row pad p : ℤ} (hp : A.IsPad row pad) (h : Rect.getPadIndex (M.layout F) row pad = .ok p)
    {c : ℝ × ℝ} (hc : M.On u t A row pad c) (hf : 2 ≤ fuel) :
    getNearestPad F (M.module F fuel t) c.1 c.2 = .ok p := by
  obtain ⟨q, hq, hx, hy⟩ := hc
  obtain ⟨l, h1, h2⟩ := local_near (fuel := fuel) R ht hM hq
  obtain ⟨h3, h4⟩ := far_components h2
  have e := Rect.Double.nearest_double_partial (angle_rounded R hu) hA hL hp h (x := l.1) (y := l.2)
    (by have := abs_sub_le l.1 q.1 (A.xCenter pad); linarith [min_le_right A.padWidth A.pitch])
    (by have := abs_sub_le l.2 q.2 (A.yCenter row); linarith) fuel hf
  unfold getNearestPad
  rw [h1, Res.bind_ok, module_layout]
  show (match Rect.Double.getNearestPad F.toArith (M.layout F) fuel l.1 l.2 with | some r => r | none => Res.ub) = _
  rw [e]

theorem sizes_double {A : Args ℝ} (hA : A.Proper u) (hL : MadeOf F.toArith A (M.layout F)) {row pad p : ℤ} (hp : A.IsPad row pad)
    (h : Rect.getPadIndex (M.layout F) row pad = .ok p) :
    Rect.getPadWidth (M.layout F) p = .ok A.padWidth ∧ Rect.getPadHeight (M.layout F) p = .ok A.padHeight := by
  have B := Rect.Double.built hL
  obtain ⟨e1, -⟩ := Rect.Double.index_parts hA B hp h
  have e2 := B.row row hp.1.1 hp.1.2
  constructor
  · unfold Rect.getPadWidth
    rw [e1, Res.bind_ok, Rect.elemUb_of e2, Res.bind_ok]; rfl
  · unfold Rect.getPadHeight
    rw [e1, Res.bind_ok, Rect.elemUb_of e2, Res.bind_ok]; rfl

/-- For a point on a pad, not near to its border, the distance from this pad is zero up to rounding. -/
theorem distance_on (R : Rounded F u) (hu : 0 < u) (ht : Known t) (hM : M.Proper F) {A : Args ℝ} (hA : A.Proper u)
    (hL : MadeOf F.toArith A (M.layout F)) {row pad p : ℤ} (hp : A.IsPad row pad) (h : Rect.getPadIndex (M.layout F) row pad = .ok p)
    {c b : ℝ × ℝ} (hc : M.On u t A row pad c) (hb : Rect.Double.getPadCenter F.toArith (M.layout F) p = .ok b) :
    ∃ D, getDistanceToPad F (M.module F fuel t) c.1 c.2 p = .ok D ∧ D ≤ M.error u t c b A.padWidth A.padHeight := by
  obtain ⟨s1, s2⟩ := sizes_double hA hL hp h
  obtain ⟨D, d, h1, h2, h3, -⟩ := distance_double (fuel := fuel) R ht hM ⟨hb, s1, s2⟩ c
  refine ⟨D, h1, ?_⟩
  obtain ⟨q, hq, hx, hy⟩ := hc
  obtain ⟨b', e1, e2, e3⟩ := Rect.Double.center_double (angle_rounded R hu) hA hL hp h
  obtain rfl := Res.ok.inj (hb.symm.trans e1)
  have hz := mul_nonneg hu.le (size_nonneg t M.values c)
  have x0 : 0 ≤ A.xError u := (abs_nonneg _).trans (e2.trans' (le_refl _)) |> fun k => by linarith
  have y0 : 0 ≤ A.yError u := (abs_nonneg _).trans e3
  have hin : q ∈ box b A.padWidth A.padHeight := by
    constructor
    · have := abs_sub_le q.1 (A.xCenter pad) b.1
      rw [abs_sub_comm (A.xCenter pad)] at this
      linarith [min_le_left A.padWidth A.pitch]
    · have := abs_sub_le q.2 (A.yCenter row) b.2
      rw [abs_sub_comm (A.yCenter row)] at this
      linarith
  have hd : d ≤ 0 := h2.2 ⟨q, hin, by dsimp only; rw [hq, far_eq, sub_self, norm_zero]⟩
  linarith [(abs_le.1 h3).2]

/-- The loop over the modules finds the one whose pad is nearer than all others. -/
theorem loop_winner (c0 c1 : ℝ) {x : TpcParams.Mod ℝ} {p : ℤ} {v : ℝ} (hp : x.getNearestPad c0 c1 = .ok p)
    (hv : x.getDistanceToPad c0 c1 p = .ok v) (l : List (TpcParams.Mod ℝ))
    (ho : ∀ y ∈ l, y ≠ x → ∃ q w, y.getNearestPad c0 c1 = .ok q ∧ y.getDistanceToPad c0 c1 q = .ok w ∧ v < w) :
    (TpcParams.nearestPadLoop c0 c1 l ⟨p, x.id⟩ v = .ok ⟨p, x.id⟩) ∧
    ∀ best w, v < w → x ∈ l → TpcParams.nearestPadLoop c0 c1 l best w = .ok ⟨p, x.id⟩ := by
  induction l with
  | nil => exact ⟨rfl, fun _ _ _ h => absurd h (by simp)⟩
  | cons y l ih =>
    obtain ⟨i1, i2⟩ := ih fun z hz => ho z (List.mem_cons_of_mem _ hz)
    by_cases e : y = x
    · subst e
      constructor
      · unfold TpcParams.nearestPadLoop
        rw [hp, Res.bind_ok, hv, Res.bind_ok, if_neg (lt_irrefl v)]
        exact i1
      · intro best w hw _
        unfold TpcParams.nearestPadLoop
        rw [hp, Res.bind_ok, hv, Res.bind_ok, if_pos hw]
        exact i1
    · obtain ⟨q, w', h1, h2, h3⟩ := ho y List.mem_cons_self e
      constructor
      · unfold TpcParams.nearestPadLoop
        rw [h1, Res.bind_ok, h2, Res.bind_ok, if_neg (not_lt.2 h3.le)]
        exact i1
      · intro best w hw hx
        have hx : x ∈ l := (List.mem_cons.1 hx).resolve_left fun h => e h.symm
        unfold TpcParams.nearestPadLoop
        rw [h1, Res.bind_ok, h2, Res.bind_ok]
        split_ifs
        · exact i2 _ _ h3 hx
        · exact i2 _ _ hw hx

theorem winner (c0 c1 : ℝ) {x : TpcParams.Mod ℝ} {p : ℤ} {v : ℝ} (hp : x.getNearestPad c0 c1 = .ok p)
    (hv : x.getDistanceToPad c0 c1 p = .ok v) (l : List (TpcParams.Mod ℝ)) (hx : x ∈ l)
    (ho : ∀ y ∈ l, y ≠ x → ∃ q w, y.getNearestPad c0 c1 = .ok q ∧ y.getDistanceToPad c0 c1 q = .ok w ∧ v < w) :
    TpcParams.nearestPad c0 c1 l = .ok ⟨p, x.id⟩ := by
  rcases l with _ | ⟨a, _ | ⟨b, l⟩⟩
  · cases hx
  · obtain rfl := List.mem_singleton.1 hx
    unfold TpcParams.nearestPad
    dsimp only
    rw [hp, Res.bind_ok]; rfl
  · unfold TpcParams.nearestPad
    dsimp only
    by_cases e : a = x
    · subst e
      rw [hp, Res.bind_ok, hv, Res.bind_ok]
      exact (loop_winner c0 c1 hp hv (b :: l) fun y hy => ho y (List.mem_cons_of_mem _ hy)).1
    · obtain ⟨q, w, h1, h2, h3⟩ := ho a List.mem_cons_self e
      rw [h1, Res.bind_ok, h2, Res.bind_ok]
      exact (loop_winner c0 c1 hp hv (b :: l) fun y hy => ho y (List.mem_cons_of_mem _ hy)).2 _ _ h3
        ((List.mem_cons.1 hx).resolve_left fun h => e h.symm)

theorem winner_on (R : Rounded F u) (hu : 0 < u) (ht : Known t) (hf : 2 ≤ fuel) (N : TpcParams.Mod ℝ → Mounted)
    (l : List (TpcParams.Mod ℝ)) (hN : ∀ y ∈ l, (N y).Is F fuel t y ∧ (N y).Proper F) {x : TpcParams.Mod ℝ} (hx : x ∈ l)
    {A : Args ℝ} (hA : A.Proper u) (hL : MadeOf F.toArith A ((N x).layout F)) {row pad p : ℤ} (hp : A.IsPad row pad)
    (h : Rect.getPadIndex ((N x).layout F) row pad = .ok p) {c b : ℝ × ℝ} (hc : (N x).On u t A row pad c)
    (hb : Rect.Double.getPadCenter F.toArith ((N x).layout F) p = .ok b)
    (ho : ∀ y ∈ l, y ≠ x → ∃ p' b' w' h', y.getNearestPad c.1 c.2 = .ok p' ∧ (N y).Box F p' b' w' h' ∧
      ∀ d ∈ (N y).distances t c b' w' h', (N x).error u t c b A.padWidth A.padHeight + (N y).error u t c b' w' h' < d) :
    TpcParams.nearestPad c.1 c.2 l = .ok ⟨p, x.id⟩ := by
  obtain ⟨hI, hM⟩ := hN x hx
  have e1 : x.getNearestPad c.1 c.2 = .ok p := by
    rw [hI.nearest]; exact nearest_double_partial R hu ht hM hA hL hp h hc hf
  obtain ⟨D, e2, e3⟩ := distance_on (fuel := fuel) R hu ht hM hA hL hp h hc hb
  refine winner c.1 c.2 e1 (by rw [hI.distance]; exact e2) l hx fun y hy hne => ?_
  obtain ⟨p', b', w', h', f1, f2, f3⟩ := ho y hy hne
  obtain ⟨hJ, hM'⟩ := hN y hy
  obtain ⟨D', d', g1, g2, g3, -⟩ := distance_double (fuel := fuel) R ht hM' f2 c
  refine ⟨p', D', f1, by rw [hJ.distance]; exact g1, ?_⟩
  have := f3 d' g2.1
  linarith [(abs_le.1 g3).1]

/-- A TPC with any number of modules with rectangular pads, at any offsets and angles: for a point on a pad, not near to its border,
`getNearestPad` gives this pad and its module, if every other module answers with a pad that is further away than the
roundings. -/
theorem tpc_nearest_double_partial (R : Rounded F u) (hu : 0 < u) (ht : Known t) (hf : 2 ≤ fuel) (N : TpcParams.Mod ℝ → Mounted)
    (T : TpcParams.Tpc ℝ) (hN : ∀ y ∈ TpcParams.getModules T, (N y).Is F fuel t y ∧ (N y).Proper F) {x : TpcParams.Mod ℝ}
    (hx : x ∈ TpcParams.getModules T) {A : Args ℝ} (hA : A.Proper u) (hL : MadeOf F.toArith A ((N x).layout F)) {row pad p : ℤ}
    (hp : A.IsPad row pad) (h : Rect.getPadIndex ((N x).layout F) row pad = .ok p) {c b : ℝ × ℝ} (hc : (N x).On u t A row pad c)
    (hb : Rect.Double.getPadCenter F.toArith ((N x).layout F) p = .ok b)
    (ho : ∀ y ∈ TpcParams.getModules T, y ≠ x → ∃ p' b' w' h', y.getNearestPad c.1 c.2 = .ok p' ∧ (N y).Box F p' b' w' h' ∧
      ∀ d ∈ (N y).distances t c b' w' h', (N x).error u t c b A.padWidth A.padHeight + (N y).error u t c b' w' h' < d) :
    TpcParams.getNearestPad T c.1 c.2 = .ok ⟨p, x.id⟩ :=
  winner_on R hu ht hf N _ hN hx hA hL hp h hc hb ho

/-- With a position along z, the modules on the other side do not matter. -/
theorem tpc_side_double_partial (R : Rounded F u) (hu : 0 < u) (ht : Known t) (hf : 2 ≤ fuel) (N : TpcParams.Mod ℝ → Mounted)
    (T : TpcParams.Tpc ℝ) (z : ℝ) (hN : ∀ y ∈ TpcParams.halfOf T z, (N y).Is F fuel t y ∧ (N y).Proper F) {x : TpcParams.Mod ℝ}
    (hx : x ∈ TpcParams.halfOf T z) {A : Args ℝ} (hA : A.Proper u) (hL : MadeOf F.toArith A ((N x).layout F)) {row pad p : ℤ}
    (hp : A.IsPad row pad) (h : Rect.getPadIndex ((N x).layout F) row pad = .ok p) {c b : ℝ × ℝ} (hc : (N x).On u t A row pad c)
    (hb : Rect.Double.getPadCenter F.toArith ((N x).layout F) p = .ok b)
    (ho : ∀ y ∈ TpcParams.halfOf T z, y ≠ x → ∃ p' b' w' h', y.getNearestPad c.1 c.2 = .ok p' ∧ (N y).Box F p' b' w' h' ∧
      ∀ d ∈ (N y).distances t c b' w' h', (N x).error u t c b A.padWidth A.padHeight + (N y).error u t c b' w' h' < d) :
    TpcParams.getNearestPad3 T c.1 c.2 z = .ok ⟨p, x.id⟩ :=
  winner_on R hu ht hf N _ hN hx hA hL hp h hc hb ho

/-! ### A concrete TPC -/

/-- Two rows with two pads of size 1 each. -/
def squares : Args ℝ := ⟨0, 2, 0, 2, 2, 1, 1, 0, 0, 0⟩

/-- A module on the negative side with these rows, at (`x`, 0). -/
def squaresAt (id : ℤ) (x : ℝ) : Mounted := ⟨id, 1, [.z (-1), .offset x 0], 0, 2, 0, [.addRow 2 2 1 1 0 0 0]⟩

/-- The module behind the interface of modules; what `getNearestPad` of the TPC does not ask for is left empty. -/
noncomputable def squaresMod (id : ℤ) (x : ℝ) : TpcParams.Mod ℝ where
  id := id
  tpcCoordinateType := CARTESIAN
  z := some (-1)
  moduleExtent := ⟨0, 0, 0, 0⟩
  angle := 0
  offset := (x, 0)
  readoutFrequency := 1
  getDistanceToModule := fun _ _ => .ok 0
  isInsideModule := fun _ _ => .ok false
  isInsidePad := fun _ _ => .ok false
  getNearestPad := getNearestPad realDoubles ((squaresAt id x).module realDoubles 2 CARTESIAN)
  getDistanceToPad := getDistanceToPad realDoubles ((squaresAt id x).module realDoubles 2 CARTESIAN)

theorem rnd_two : binary64 (2 : ℝ) = 2 := by
  have := Doubles.binary64_scaled (K := ℝ) 2 0 (by norm_num)
  simpa using this

theorem squares_made (id : ℤ) (x : ℝ) : MadeOf realDoubles.toArith squares ((squaresAt id x).layout realDoubles) := by
  have z : binary64 (0 : ℝ) = 0 := Doubles.binary64_zero
  have h : (Rect.Double.addRow realDoubles.toArith (Rect.new 0 2 0) 2 2 1 1 0 0 0).2 = .ok () := by
    unfold Rect.Double.addRow
    rw [if_neg (by norm_num)]
    dsimp only
    rw [if_neg, if_pos rfl, if_neg (lt_irrefl _)]
    simp only [MaterialMap.Arith.mul, MaterialMap.Arith.sub, MaterialMap.Arith.add, Rect.new, realDoubles]
    norm_num [z, rnd_two]
  exact Prod.ext rfl h

/-- Left of the layout, the first pad of the row is the nearest one. -/
theorem nearest_left {F : MaterialMap.Arith ℝ} {L : Rect.Layout ℝ} (R : PadAngle.Double.Spec.Rounded F u) {A : Args ℝ}
    (hA : A.Proper u) (hL : MadeOf F A L) {row p : ℤ} (hp : A.IsPad row 0) (h : Rect.getPadIndex L row 0 = .ok p) {x y : ℝ}
    (hd : F.rnd A.xMin = A.xMin) (hx : x < A.xMin) (hy : |y - A.yCenter row| ≤ A.padHeight / 2 - 10 * A.yError u) (fuel : ℕ)
    (hf : 2 ≤ fuel) : Rect.Double.getNearestPad F L fuel x y = some (.ok p) := by
  have B := Rect.Double.built hL
  have S := Rect.Double.scale R hA B
  obtain ⟨⟨r0, r1⟩, p0, p1⟩ := hp
  have h2 : 0 ≤ A.yError u := by linarith [S.q0, S.q_le]
  obtain ⟨r, g1, g2⟩ := Rect.Double.search_near R S B hA.rows r0 r1 hy
  obtain ⟨-, hr1, hr2⟩ := Rect.Double.y_range S r0 r1 B.higher hy
  have hT := abs_le.1 (Rect.Double.top_near R S B.rows)
  have y2 : y ≤ Rect.Double.edge F A.yMin A.height A.nRow.toNat := by
    have : A.yCenter row = A.yMin + (row + 1 / 2) * A.height := rfl
    have r1' : (row : ℝ) + 1 ≤ A.nRow := by exact_mod_cast r1
    have := mul_le_mul_of_nonneg_right r1' hA.height.le
    linarith [hT.1, (abs_le.1 hy).2, B.higher]
  unfold Rect.Double.getNearestPad
  have cx : Rect.clamp L.xMin L.xMax x = A.xMin := by
    unfold Rect.clamp
    rw [B.xMin, B.xMax, if_pos hx]
    refine if_neg (not_lt.2 ?_)
    have := hA.width
    unfold Args.left Args.right at this
    linarith [B.leftOffset, B.rightOffset]
  have cy : Rect.clamp L.yMin L.yMax y = y := by
    unfold Rect.clamp
    rw [B.yMin, B.yMax, if_neg (not_lt.2 hr1)]
    exact if_neg (not_lt.2 y2)
  rw [cx, cy]
  dsimp only
  rw [g1]
  dsimp only
  rw [g2 fuel hf]
  dsimp only
  have hle : A.xMin ≤ F.add A.xMin A.leftOffset := by
    have := R.rounding.mono _ _ (show A.xMin ≤ A.xMin + A.leftOffset by linarith [B.leftOffset])
    rwa [hd] at this
  have e : Rect.Double.padInRow F L A.xMin row = Rect.getPadIndex L row 0 := by
    unfold Rect.Double.padInRow
    rw [Rect.elemUb_of (B.row row r0 r1), Res.bind_ok]
    dsimp only
    rw [B.xMin, if_pos hle, Res.bind_ok]
  rw [e, h]

theorem squares_proper : squares.Proper (1 / 2 ^ 53) := by
  constructor <;> norm_num [squares, Args.height, Args.left, Args.right]

theorem squares_mounted (id : ℤ) (x : ℝ) : (squaresAt id x).Proper realDoubles := by
  refine ⟨⟨[.z (-1)], .offset x 0, [], rfl, trivial, by simp⟩, ?_⟩
  intro o ho
  have ho : o = .z (-1) ∨ o = .offset x 0 := by simpa [squaresAt] using ho
  rcases ho with rfl | rfl
  · trivial
  · exact realDoubles_rounded.rounding.zero

theorem squares_plate (id : ℤ) (x : ℝ) (q : ℝ × ℝ) : onPlate CARTESIAN (squaresAt id x).values q = (-(q.1 + x), q.2) := by
  have hv : (squaresAt id x).values = ⟨0, (x, 0), 0, some (-1), 1⟩ := rfl
  rw [hv]
  unfold onPlate place
  simp

theorem squares_size (id : ℤ) (x : ℝ) (c : ℝ × ℝ) : size CARTESIAN (squaresAt id x).values c = |c.1| + |c.2| + |x| := by
  have hv : (squaresAt id x).values = ⟨0, (x, 0), 0, some (-1), 1⟩ := rfl
  rw [hv]
  unfold size
  rw [weight_cartesian, weight_cartesian]
  simp

theorem squares_is (id : ℤ) (x : ℝ) : (squaresAt id x).Is realDoubles 2 CARTESIAN (squaresMod id x) := ⟨rfl, fun _ _ => rfl, fun _ _ _ => rfl⟩

/-- Non-vacuity: two modules on the negative side, at (-4, 0) and (4, 0), and the point (3.75, 1.5) on a pad of the first one. -/
example : ∃ p, TpcParams.nearestPad (15 / 4 : ℝ) (3 / 2) [squaresMod 7 4, squaresMod 5 (-4)] = .ok ⟨p, 5⟩ := by
  have hR := realDoubles_rounded
  have hA := squares_proper
  have R' := angle_rounded hR (by norm_num : (0 : ℝ) < 1 / 2 ^ 53)
  have hp : squares.IsPad 1 0 := by refine ⟨⟨?_, ?_⟩, ?_, ?_⟩ <;> decide
  obtain ⟨p, i1, -, -⟩ := Rect.Double.index_double hA (squares_made 5 (-4)) hp
  obtain ⟨b, b1, b2, b3⟩ := Rect.Double.center_double R' hA (squares_made 5 (-4)) hp i1
  have e1 : squares.xCenter 0 = 1 / 2 := by norm_num [squares, Args.xCenter, Args.pitch, Args.left, Args.right]
  have e2 : squares.yCenter 1 = 3 / 2 := by norm_num [squares, Args.yCenter, Args.height]
  have e3 : squares.xError (1 / 2 ^ 53) = 1 / 2 ^ 52 := by norm_num [squares, Args.xError, Args.left, Args.right]
  have e4 : squares.yError (1 / 2 ^ 53) = 1 / 2 ^ 50 := by norm_num [squares, Args.yError, Args.height]
  refine ⟨p, winner_on hR (by norm_num) (Or.inl rfl) (le_refl 2) (fun y => squaresAt y.id y.offset.1) _ ?_
    (x := squaresMod 5 (-4)) (by simp) hA (squares_made 5 (-4)) hp i1 (c := (15 / 4, 3 / 2)) ?_ b1 ?_⟩
  · intro y hy
    simp only [List.mem_cons, List.not_mem_nil, or_false] at hy
    rcases hy with rfl | rfl
    · exact ⟨squares_is 7 4, squares_mounted 7 4⟩
    · exact ⟨squares_is 5 (-4), squares_mounted 5 (-4)⟩
  · refine ⟨(1 / 4, 3 / 2), ?_, ?_, ?_⟩
    · rw [plane_cartesian]
      refine Eq.trans ?_ (squares_plate 5 (-4) (1 / 4, 3 / 2)).symm
      norm_num
    · refine le_of_le_of_eq ?_ (congrArg (fun v : ℝ => min squares.padWidth squares.pitch / 2 - 12 * squares.xError (1 / 2 ^ 53)
        - 100 * (1 / 2 ^ 53) * v) (squares_size 5 (-4) (15 / 4, 3 / 2)).symm)
      rw [e1, e3]
      norm_num [squares, Args.pitch, Args.left, Args.right, _root_.abs_le]
    · refine le_of_le_of_eq ?_ (congrArg (fun v : ℝ => squares.padHeight / 2 - 10 * squares.yError (1 / 2 ^ 53)
        - 100 * (1 / 2 ^ 53) * v) (squares_size 5 (-4) (15 / 4, 3 / 2)).symm)
      rw [e2, e4]
      norm_num [squares, _root_.abs_le]
  · intro y hy hne
    simp only [List.mem_cons, List.not_mem_nil, or_false] at hy
    obtain rfl : y = squaresMod 7 4 := hy.resolve_right hne
    obtain ⟨s1, s2⟩ := sizes_double hA (squares_made 7 4) hp i1
    refine ⟨p, b, 1, 1, ?_, ⟨b1, s1, s2⟩, ?_⟩
    · have hq : plane CARTESIAN (15 / 4, 3 / 2) = onPlate CARTESIAN (squaresAt 7 4).values (-31 / 4, 3 / 2) := by
        rw [plane_cartesian, squares_plate]; norm_num
      obtain ⟨l, h1, h2⟩ := local_near (fuel := 2) hR (Or.inl rfl) (squares_mounted 7 4) hq
      rw [squares_size] at h2
      have hs : 100 * (1 / 2 ^ 53) * (|(15 / 4 : ℝ)| + |3 / 2| + |4|) ≤ 1 / 2 ^ 40 := by norm_num
      obtain ⟨h3, h4⟩ := far_components (h2.trans hs)
      show getNearestPad realDoubles ((squaresAt 7 4).module realDoubles 2 CARTESIAN) (15 / 4) (3 / 2) = _
      unfold getNearestPad
      rw [h1, Res.bind_ok, module_layout]
      show (match Rect.Double.getNearestPad realDoubles.toArith ((squaresAt 7 4).layout realDoubles) 2 l.1 l.2 with
        | some r => r | none => Res.ub) = _
      rw [nearest_left R' hA (squares_made 7 4) hp i1 Doubles.binary64_zero ?_ ?_ 2 (le_refl 2)]
      · have : squares.xMin = 0 := rfl
        rw [this]
        norm_num at h3
        linarith [(_root_.abs_le.1 h3).2]
      · rw [e2, e4]
        refine h4.trans ?_
        norm_num [squares]
    · rintro d ⟨q, ⟨q1, q2⟩, rfl⟩
      rw [e1, e3] at b2
      rw [e2, e4] at b3
      have c1 := _root_.abs_le.1 b2
      have c2 := _root_.abs_le.1 b3
      norm_num at c1 c2 q1
      have q3 := _root_.abs_le.1 q1
      have n1 : |b.1| ≤ 1 := by rw [_root_.abs_le]; constructor <;> linarith
      have n2 : |b.2| ≤ 2 := by rw [_root_.abs_le]; constructor <;> linarith
      have f : 6 ≤ far (plane CARTESIAN (15 / 4, 3 / 2)) (onPlate CARTESIAN (squaresAt 7 4).values q) := by
        rw [plane_cartesian, squares_plate]
        have := (far_components (le_refl (far (15 / 4, 3 / 2) (-(q.1 + 4), q.2)))).1
        refine le_trans ?_ this
        refine le_trans ?_ (le_abs_self _)
        dsimp only
        linarith
      have g : ∀ id x, |x| = 4 → (squaresAt id x).error (1 / 2 ^ 53) CARTESIAN (15 / 4, 3 / 2) b 1 1 ≤ 1 := by
        intro id x hx
        unfold Mounted.error
        rw [squares_size, hx]
        norm_num
        linarith
      refine lt_of_lt_of_le (lt_of_le_of_lt (add_le_add (g 5 (-4) (by norm_num)) (g 7 4 (by norm_num))) (by norm_num)) f

end Gear.TpcModule.Double
