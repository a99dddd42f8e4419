/-
Properties C155 and C156: the coordinates and boundaries of measurement surfaces with the arithmetic of `double`
(`src/gearsurf/CartesianCoordinateSystem.cc`, `BoundaryRectangle.cc`, `BoundaryTrapezoid.cc`, `MeasurementSurface.cc`).

Part of the environment, as in `Surf.lean`: CLHEP, whose sums and products are taken from left to right.
-/
import Verif.SurfProps
import Verif.PadAngleDoubleEdge

set_option autoImplicit false
set_option linter.unusedSectionVars false

namespace Gear.Surf.Double

open Vector3D (V3)
open MaterialMap (Arith)
open Doubles (Rounding)
open Surf (Rot)

section model

variable {K : Type} [Field K] [LinearOrder K] [IsStrictOrderedRing K] [FloorRing K]

/-- The product of a row of a `HepRotation` with a `Hep3Vector`. -/
def row (F : Arith K) (a b c : K) (v : V3 K) : K := F.add (F.add (F.mul a v.x) (F.mul b v.y)) (F.mul c v.z)

/-- `HepRotation * Hep3Vector`. -/
def apply (F : Arith K) (R : Rot K) (v : V3 K) : V3 K :=
  ⟨row F R.xx R.xy R.xz v, row F R.yx R.yy R.yz v, row F R.zx R.zy R.zz v⟩

/-- `Hep3Vector + Hep3Vector`. -/
def plus (F : Arith K) (a b : V3 K) : V3 K := ⟨F.add a.x b.x, F.add a.y b.y, F.add a.z b.z⟩
/-- `Hep3Vector - Hep3Vector`. -/
def minus (F : Arith K) (a b : V3 K) : V3 K := ⟨F.sub a.x b.x, F.sub a.y b.y, F.sub a.z b.z⟩

/-- `getLocalPoint`, CartesianCoordinateSystem.cc lines 5-13. -/
def getLocalPoint (F : Arith K) (c : Cartesian K) (globalPoint : V3 K) : V3 K :=
  let x := minus F globalPoint c.T
  apply F c.Rinv x

/-- `getGlobalPoint`, CartesianCoordinateSystem.cc lines 15-22. -/
def getGlobalPoint (F : Arith K) (c : Cartesian K) (localPoint : V3 K) : V3 K := plus F c.T (apply F c.R localPoint)

/-- `HepRotation::rotateZ`.  Simplification: the results of `cos` and `sin` are the nearest doubles. -/
def rotateZ (F : Arith K) (R : Rot K) (a : K) : Rot K :=
  let c := F.rnd (F.cos a)
  let s := F.rnd (F.sin a)
  ⟨F.sub (F.mul c R.xx) (F.mul s R.yx), F.sub (F.mul c R.xy) (F.mul s R.yy), F.sub (F.mul c R.xz) (F.mul s R.yz),
    F.add (F.mul s R.xx) (F.mul c R.yx), F.add (F.mul s R.xy) (F.mul c R.yy), F.add (F.mul s R.xz) (F.mul c R.yz),
    R.zx, R.zy, R.zz⟩

/-- `isInBoundary`, BoundaryRectangle.cc lines 8-29 and BoundaryTrapezoid.cc lines 7-27.  For a trapezoid of height 0 the
width in line 21 is the quotient 0/0, which is not a number, so that the comparison in line 22 is false. -/
def isInBoundary (F : Arith K) : Boundary K → V3 K → Bool
  | .rectangle width length deltaW alpha, p =>
    if |p.z| > deltaW then false
    else
      let p := apply F (rotateZ F Rot.one (-alpha)) p
      if |p.x| > F.div width 2 then false
      else if |p.y| > F.div length 2 then false
      else true
  | .trapezoid baseBottom baseTop height deltaW alpha, p =>
    if |p.z| > deltaW then false
    else
      let p := apply F (rotateZ F Rot.one (-alpha)) p
      if |p.y| > F.div height 2 then false
      else if height = 0 then true
      else
        let width := F.add (F.div (F.add baseBottom baseTop) 2) (F.div (F.mul p.y (F.sub baseTop baseBottom)) height)
        if |p.x| > F.div width 2 then false
        else true

/-- `isLocalInBoundary`, MeasurementSurface.cc lines 16-26. -/
def isLocalInBoundary (F : Arith K) (s : Surface K) (p : V3 K) : Bool :=
  match s.boundary with
  | some b => isInBoundary F b p
  | none => true

/-- `isGlobalInBoundary`, MeasurementSurface.cc lines 30-45. -/
def isGlobalInBoundary (F : Arith K) (s : Surface K) (p : V3 K) : Bool :=
  match s.boundary with
  | some _ => isLocalInBoundary F s (getLocalPoint F s.csys p)
  | none => true

end model

/-! ### Specification -/

namespace Spec

variable {K : Type} [Field K] [LinearOrder K] [IsStrictOrderedRing K] [FloorRing K]

/-- The arithmetic of `double` with relative errors of at most `u`. -/
structure Rounded (F : Arith K) (u : K) : Prop where
  rounding : Rounding F.rnd u
  small : u ≤ 1 / 1000

/-- The entries of a matrix are those of another one, rounded. -/
structure Stored (R Q : Rot K) (u : K) : Prop where
  xx : |R.xx - Q.xx| ≤ u
  xy : |R.xy - Q.xy| ≤ u
  xz : |R.xz - Q.xz| ≤ u
  yx : |R.yx - Q.yx| ≤ u
  yy : |R.yy - Q.yy| ≤ u
  yz : |R.yz - Q.yz| ≤ u
  zx : |R.zx - Q.zx| ≤ u
  zy : |R.zy - Q.zy| ≤ u
  zz : |R.zz - Q.zz| ≤ u

/-- The sum of the sizes of the coordinates. -/
def size (v : V3 K) : K := |v.x| + |v.y| + |v.z|

/-- Each coordinate of `a` is within `e` of that of `b`. -/
def Within (e : K) (a b : V3 K) : Prop := |a.x - b.x| ≤ e ∧ |a.y - b.y| ≤ e ∧ |a.z - b.z| ≤ e

end Spec

open Surf.Spec Spec

/-! ### Rounding errors -/

section
variable {K : Type} [Field K] [LinearOrder K] [IsStrictOrderedRing K] [FloorRing K] {F : Arith K} {u : K}

theorem Spec.Rounded.nonneg (R : Rounded F u) : 0 ≤ u := by
  have := R.rounding.err 1
  rw [abs_one, mul_one] at this
  exact (abs_nonneg _).trans this

theorem size_nonneg (v : V3 K) : 0 ≤ size v := by unfold size; positivity

/-- One product, with a factor that is rounded itself. -/
theorem product_near (R : Rounding F.rnd u) (hu : 0 ≤ u) {a q : K} (ha : |a - q| ≤ u) (hq : |q| ≤ 1) (v : K) :
    |F.mul a v - q * v| ≤ (2 * u + u * u) * |v| := by
  have e := R.err (a * v)
  have h1 : |a| ≤ 1 + u := by have := abs_sub_abs_le_abs_sub a q; linarith
  have h2 : |a * v - q * v| ≤ u * |v| := by
    rw [← sub_mul, abs_mul]; exact mul_le_mul_of_nonneg_right ha (abs_nonneg v)
  have h3 : u * |a * v| ≤ u * ((1 + u) * |v|) := by
    rw [abs_mul]; exact mul_le_mul_of_nonneg_left (mul_le_mul_of_nonneg_right h1 (abs_nonneg v)) hu
  have h4 := abs_sub_le (F.mul a v) (a * v) (q * v)
  unfold MaterialMap.Arith.mul at h4 ⊢
  linarith

theorem row_near (R : Rounding F.rnd u) (hu : 0 ≤ u) (hs : u ≤ 1 / 1000) {a b c p q r : K} (ha : |a - p| ≤ u) (hb : |b - q| ≤ u) (hc : |c - r| ≤ u) (hp : |p| ≤ 1)
    (hq : |q| ≤ 1) (hr : |r| ≤ 1) (v : V3 K) : |row F a b c v - (p * v.x + q * v.y + r * v.z)| ≤ 5 * u * size v := by
  have uu := mul_nonneg hu hu
  have su : u * u ≤ u / 1000 := by have := mul_le_mul_of_nonneg_left hs hu; linarith
  have n1 := abs_nonneg v.x
  have n2 := abs_nonneg v.y
  have n3 := abs_nonneg v.z
  have e1 := product_near R hu ha hp v.x
  have e2 := product_near R hu hb hq v.y
  have e3 := product_near R hu hc hr v.z
  have le : ∀ {p t : K}, |p| ≤ 1 → |p * t| ≤ |t| := by
    intro p t hp; rw [abs_mul]; exact mul_le_of_le_one_left (abs_nonneg t) hp
  have k : ∀ {t : K}, 0 ≤ t → (2 * u + u * u) * t ≤ 2.001 * (u * t) := by
    intro t ht
    have := mul_le_mul_of_nonneg_right su ht
    have := mul_nonneg hu ht
    norm_num at *
    linarith
  have ub : ∀ {t : K}, 0 ≤ t → 0 ≤ u * t ∧ u * t ≤ t / 1000 := by
    intro t ht
    refine ⟨mul_nonneg hu ht, ?_⟩
    have := mul_le_mul_of_nonneg_right hs ht; linarith
  replace e1 := e1.trans (k n1)
  replace e2 := e2.trans (k n2)
  replace e3 := e3.trans (k n3)
  have l1 := le (t := v.x) hp
  have l2 := le (t := v.y) hq
  have l3 := le (t := v.z) hr
  obtain ⟨b1, c1⟩ := ub n1
  obtain ⟨b2, c2⟩ := ub n2
  obtain ⟨b3, c3⟩ := ub n3
  unfold row size
  generalize F.mul a v.x = A at *
  generalize F.mul b v.y = B at *
  generalize F.mul c v.z = C at *
  generalize p * v.x = A0 at *
  generalize q * v.y = B0 at *
  generalize r * v.z = C0 at *
  have sAB : |A + B| ≤ 1.003 * (|v.x| + |v.y|) := by
    have h1 := abs_sub_abs_le_abs_sub A A0
    have h2 := abs_sub_abs_le_abs_sub B B0
    have h3 := abs_add_le A B
    norm_num at *
    linarith
  have eAB := R.err (A + B)
  have h1 := mul_le_mul_of_nonneg_left sAB hu
  have dAB : |F.add A B - (A0 + B0)| ≤ 3.01 * (u * (|v.x| + |v.y|)) := by
    have h2 := abs_sub_le (F.add A B) (A + B) (A0 + B0)
    have h3 : |A + B - (A0 + B0)| ≤ |A - A0| + |B - B0| := by
      have := abs_add_le (A - A0) (B - B0)
      rwa [show A - A0 + (B - B0) = A + B - (A0 + B0) by ring] at this
    unfold MaterialMap.Arith.add at *
    norm_num at *
    linarith
  generalize F.add A B = S at *
  have sS : |S + C| ≤ 1.01 * (|v.x| + |v.y| + |v.z|) := by
    have h1 := abs_sub_abs_le_abs_sub S (A0 + B0)
    have h2 := abs_sub_abs_le_abs_sub C C0
    have h3 := abs_add_le S C
    have h4 := abs_add_le A0 B0
    norm_num at *
    linarith
  have eS := R.err (S + C)
  have h2 := mul_le_mul_of_nonneg_left sS hu
  have h3 := abs_sub_le (F.add S C) (S + C) (A0 + B0 + C0)
  have h4 : |S + C - (A0 + B0 + C0)| ≤ |S - (A0 + B0)| + |C - C0| := by
    have := abs_add_le (S - (A0 + B0)) (C - C0)
    rwa [show S - (A0 + B0) + (C - C0) = S + C - (A0 + B0 + C0) by ring] at this
  unfold MaterialMap.Arith.add at *
  norm_num at *
  linarith

/-- The entries of a rotation are at most one. -/
theorem entries {Q : Rot K} (h : Orthogonal Q) : (|Q.xx| ≤ 1 ∧ |Q.xy| ≤ 1 ∧ |Q.xz| ≤ 1) ∧ (|Q.yx| ≤ 1 ∧ |Q.yy| ≤ 1 ∧ |Q.yz| ≤ 1) ∧
    |Q.zx| ≤ 1 ∧ |Q.zy| ≤ 1 ∧ |Q.zz| ≤ 1 := by
  have key : ∀ {t s r : K}, t * t + s * s + r * r = 1 → |t| ≤ 1 ∧ |s| ≤ 1 ∧ |r| ≤ 1 := by
    intro t s r h
    have := mul_self_nonneg t
    have := mul_self_nonneg s
    have := mul_self_nonneg r
    refine ⟨abs_le_one_iff_mul_self_le_one.2 ?_, abs_le_one_iff_mul_self_le_one.2 ?_, abs_le_one_iff_mul_self_le_one.2 ?_⟩ <;> linarith
  obtain ⟨a1, a2, a3⟩ := key h.xx
  obtain ⟨b1, b2, b3⟩ := key h.yy
  obtain ⟨c1, c2, c3⟩ := key h.zz
  exact ⟨⟨a1, b1, c1⟩, ⟨a2, b2, c2⟩, a3, b3, c3⟩

theorem apply_near (R : Rounded F u) {M Q : Rot K} (hM : Stored M Q u) (hQ : Orthogonal Q) (v : V3 K) :
    Within (5 * u * size v) (apply F M v) (Q.apply v) := by
  obtain ⟨⟨a1, b1, c1⟩, ⟨a2, b2, c2⟩, a3, b3, c3⟩ := entries hQ
  exact ⟨row_near R.rounding R.nonneg R.small hM.xx hM.xy hM.xz a1 b1 c1 v, row_near R.rounding R.nonneg R.small hM.yx hM.yy hM.yz a2 b2 c2 v,
    row_near R.rounding R.nonneg R.small hM.zx hM.zy hM.zz a3 b3 c3 v⟩

theorem stored_inverse {M Q : Rot K} (h : Stored M Q u) : Stored M.inverse Q.inverse u :=
  ⟨h.xx, h.yx, h.zx, h.xy, h.yy, h.zy, h.xz, h.yz, h.zz⟩

/-- A rotation of a difference. -/
theorem apply_diff {Q : Rot K} (hQ : Orthogonal Q) {v w : V3 K} {d : K} (h : size (Surf.minus v w) ≤ d) :
    Within d (Q.apply v) (Q.apply w) := by
  obtain ⟨⟨a1, b1, c1⟩, ⟨a2, b2, c2⟩, a3, b3, c3⟩ := entries hQ
  have le : ∀ {p t : K}, |p| ≤ 1 → |p * t| ≤ |t| := by
    intro p t hp; rw [abs_mul]; exact mul_le_of_le_one_left (abs_nonneg t) hp
  have key : ∀ {p q r : K}, |p| ≤ 1 → |q| ≤ 1 → |r| ≤ 1 →
      |p * v.x + q * v.y + r * v.z - (p * w.x + q * w.y + r * w.z)| ≤ d := by
    intro p q r hp hq hr
    have e : p * v.x + q * v.y + r * v.z - (p * w.x + q * w.y + r * w.z) = p * (v.x - w.x) + q * (v.y - w.y) + r * (v.z - w.z) := by
      ring
    rw [e]
    refine le_trans ?_ h
    refine (abs_add_le _ _).trans (add_le_add ((abs_add_le _ _).trans (add_le_add (le hp) (le hq))) (le hr))
  exact ⟨key a1 b1 c1, key a2 b2 c2, key a3 b3 c3⟩

theorem size_apply {Q : Rot K} (hQ : Orthogonal Q) (v : V3 K) : size (Q.apply v) ≤ 3 * size v := by
  have h := apply_diff hQ (v := v) (w := ⟨0, 0, 0⟩) (d := size v) (by simp [Surf.minus])
  obtain ⟨h1, h2, h3⟩ := h
  simp only [Rot.apply, mul_zero, add_zero, sub_zero] at h1 h2 h3
  simp only [size, Rot.apply] at *
  linarith

/-! ### C155: coordinates -/

/-- The local coordinates of a point: those by the exact rotation, up to seven roundings of the distance from the origin of the
surface. -/
theorem local_double (R : Rounded F u) (T : V3 K) {M Q : Rot K} (hM : Stored M Q u) (hQ : Orthogonal Q) (p : V3 K) :
    Within (7 * u * size (Surf.minus p T)) (getLocalPoint F (Cartesian.mk' T M) p) ((Cartesian.mk' T Q).getLocalPoint p) := by
  have hu := R.nonneg
  have hs := R.small
  have hd : size (Surf.minus (minus F p T) (Surf.minus p T)) ≤ u * size (Surf.minus p T) := by
    have h1 := R.rounding.err (p.x - T.x)
    have h2 := R.rounding.err (p.y - T.y)
    have h3 := R.rounding.err (p.z - T.z)
    simp only [size, Surf.minus, minus, MaterialMap.Arith.sub]
    linarith
  have hs' : size (minus F p T) ≤ (1 + u) * size (Surf.minus p T) := by
    have k := fun a b : K => abs_sub_abs_le_abs_sub a b
    have h1 := k (minus F p T).x (Surf.minus p T).x
    have h2 := k (minus F p T).y (Surf.minus p T).y
    have h3 := k (minus F p T).z (Surf.minus p T).z
    simp only [size, Surf.minus] at *
    linarith
  have n := size_nonneg (Surf.minus p T)
  have h1 := apply_near R (stored_inverse hM) (rows hQ) (minus F p T)
  have h2 := apply_diff (rows hQ) hd
  have bound : 5 * u * size (minus F p T) + u * size (Surf.minus p T) ≤ 7 * u * size (Surf.minus p T) := by
    have := mul_le_mul_of_nonneg_left hs' (show 0 ≤ 5 * u by linarith)
    have := mul_le_mul_of_nonneg_right hs (mul_nonneg hu n)
    have := mul_nonneg hu n
    linarith
  change Within _ (apply F M.inverse (minus F p T)) (Q.inverse.apply (Surf.minus p T))
  exact ⟨((abs_sub_le _ _ _).trans (add_le_add h1.1 h2.1)).trans bound, ((abs_sub_le _ _ _).trans (add_le_add h1.2.1 h2.2.1)).trans bound,
    ((abs_sub_le _ _ _).trans (add_le_add h1.2.2 h2.2.2)).trans bound⟩

/-- The point with given local coordinates. -/
theorem global_double (R : Rounded F u) (T : V3 K) {M Q : Rot K} (hM : Stored M Q u) (hQ : Orthogonal Q) (q : V3 K) :
    Within (7 * u * (size T + size q)) (getGlobalPoint F (Cartesian.mk' T M) q) ((Cartesian.mk' T Q).getGlobalPoint q) := by
  have hu := R.nonneg
  have hs := R.small
  have n := size_nonneg q
  obtain ⟨h1, h2, h3⟩ := apply_near R hM hQ q
  have hq : Within (size q) (Q.apply q) ⟨0, 0, 0⟩ := by
    have := apply_diff hQ (v := q) (w := ⟨0, 0, 0⟩) (d := size q) (by simp [Surf.minus])
    simpa [Rot.apply] using this
  have key : ∀ {t r' r : K}, |t| ≤ size T → |r' - r| ≤ 5 * u * size q → |r - 0| ≤ size q →
      |F.add t r' - (t + r)| ≤ 7 * u * (size T + size q) := by
    intro t r' r ht h1 h2
    rw [sub_zero] at h2
    have e := R.rounding.err (t + r')
    have k1 := abs_sub_abs_le_abs_sub r' r
    have k2 := abs_add_le t r'
    have k3 : |t + r'| ≤ size T + (1 + 5 * u) * size q := by linarith
    have k4 := mul_le_mul_of_nonneg_left k3 hu
    have k5 := abs_sub_le (F.rnd (t + r')) (t + r') (t + r)
    rw [add_sub_add_left_eq_sub] at k5
    have k6 := mul_le_mul_of_nonneg_right hs (mul_nonneg hu n)
    have k7 := mul_nonneg hu n
    have k8 := mul_nonneg hu (size_nonneg T)
    unfold MaterialMap.Arith.add
    linarith
  have n1 := abs_nonneg T.x
  have n2 := abs_nonneg T.y
  have n3 := abs_nonneg T.z
  exact ⟨key (t := T.x) (by unfold size; linarith) h1 hq.1, key (t := T.y) (by unfold size; linarith) h2 hq.2.1,
    key (t := T.z) (by unfold size; linarith) h3 hq.2.2⟩

/-- The way to local coordinates and back. -/
theorem round_trip_double (R : Rounded F u) (T : V3 K) {M Q : Rot K} (hM : Stored M Q u) (hQ : Orthogonal Q) (p : V3 K) :
    Within (50 * u * (size T + size (Surf.minus p T)))
      (getGlobalPoint F (Cartesian.mk' T M) (getLocalPoint F (Cartesian.mk' T M) p)) p := by
  have hu := R.nonneg
  have hs := R.small
  have hl := local_double R T hM hQ p
  have hg := global_double R T hM hQ (getLocalPoint F (Cartesian.mk' T M) p)
  have exact' := global_local T hQ p
  have hq := size_apply (rows hQ) (Surf.minus p T)
  generalize getLocalPoint F (Cartesian.mk' T M) p = l at *
  have hq' : size ((Cartesian.mk' T Q).getLocalPoint p) ≤ 3 * size (Surf.minus p T) := hq
  generalize (Cartesian.mk' T Q).getLocalPoint p = l0 at *
  have n := size_nonneg (Surf.minus p T)
  have nT := size_nonneg T
  generalize size (Surf.minus p T) = S at *
  have hd : size (Surf.minus l l0) ≤ 21 * u * S := by
    obtain ⟨h1, h2, h3⟩ := hl
    simp only [size, Surf.minus]
    linarith
  have hsl : size l ≤ 3 * S + 21 * u * S := by
    have h1 := abs_sub_abs_le_abs_sub l.x l0.x
    have h2 := abs_sub_abs_le_abs_sub l.y l0.y
    have h3 := abs_sub_abs_le_abs_sub l.z l0.z
    simp only [size, Surf.minus] at *
    linarith
  have h2 : Within (21 * u * S) ((Cartesian.mk' T Q).getGlobalPoint l) p := by
    have := apply_diff hQ hd
    rw [← exact']
    simp only [Cartesian.getGlobalPoint, Cartesian.mk', Surf.plus, Within, add_sub_add_left_eq_sub] at this ⊢
    exact this
  have bound : 7 * u * (size T + size l) + 21 * u * S ≤ 50 * u * (size T + S) := by
    have k1 := mul_le_mul_of_nonneg_left hsl (show 0 ≤ 7 * u by linarith)
    have k2 := mul_le_mul_of_nonneg_right hs (mul_nonneg hu n)
    have k3 := mul_nonneg hu n
    have k4 := mul_nonneg hu nT
    nlinarith
  exact ⟨((abs_sub_le _ _ _).trans (add_le_add hg.1 h2.1)).trans bound, ((abs_sub_le _ _ _).trans (add_le_add hg.2.1 h2.2.1)).trans bound,
    ((abs_sub_le _ _ _).trans (add_le_add hg.2.2 h2.2.2)).trans bound⟩

/-- And the other way round. -/
theorem round_trip_local_double (R : Rounded F u) (T : V3 K) {M Q : Rot K} (hM : Stored M Q u) (hQ : Orthogonal Q) (q : V3 K) :
    Within (50 * u * (size T + size q))
      (getLocalPoint F (Cartesian.mk' T M) (getGlobalPoint F (Cartesian.mk' T M) q)) q := by
  have hu := R.nonneg
  have hs := R.small
  have hg := global_double R T hM hQ q
  have hl := local_double R T hM hQ (getGlobalPoint F (Cartesian.mk' T M) q)
  have exact' := local_global T hQ q
  have hq := size_apply hQ q
  generalize getGlobalPoint F (Cartesian.mk' T M) q = g at *
  have n := size_nonneg q
  have nT := size_nonneg T
  have hd : size (Surf.minus (Surf.minus g T) (Surf.minus ((Cartesian.mk' T Q).getGlobalPoint q) T)) ≤ 21 * u * (size T + size q) := by
    obtain ⟨h1, h2, h3⟩ := hg
    simp only [Surf.minus, sub_sub_sub_cancel_right]
    simp only [size] at *
    linarith
  have hsl : size (Surf.minus g T) ≤ 3 * size q + 21 * u * (size T + size q) := by
    have e : Surf.minus ((Cartesian.mk' T Q).getGlobalPoint q) T = Q.apply q := by
      simp [Surf.minus, Cartesian.getGlobalPoint, Cartesian.mk', Surf.plus]
    rw [e] at hd
    have h1 := abs_sub_abs_le_abs_sub (Surf.minus g T).x (Q.apply q).x
    have h2 := abs_sub_abs_le_abs_sub (Surf.minus g T).y (Q.apply q).y
    have h3 := abs_sub_abs_le_abs_sub (Surf.minus g T).z (Q.apply q).z
    generalize Surf.minus g T = w at *
    generalize Q.apply q = w0 at *
    have hd' : |w.x - w0.x| + |w.y - w0.y| + |w.z - w0.z| ≤ 21 * u * (size T + size q) := hd
    have hq' : |w0.x| + |w0.y| + |w0.z| ≤ 3 * size q := hq
    change |w.x| + |w.y| + |w.z| ≤ _
    linarith
  have h2 : Within (21 * u * (size T + size q)) ((Cartesian.mk' T Q).getLocalPoint g) q := by
    have := apply_diff (rows hQ) hd
    change Within _ ((Cartesian.mk' T Q).getLocalPoint g) ((Cartesian.mk' T Q).getLocalPoint ((Cartesian.mk' T Q).getGlobalPoint q))
      at this
    rwa [exact'] at this
  have bound : 7 * u * size (Surf.minus g T) + 21 * u * (size T + size q) ≤ 50 * u * (size T + size q) := by
    have k1 := mul_le_mul_of_nonneg_left hsl (show 0 ≤ 7 * u by linarith)
    have k2 := mul_le_mul_of_nonneg_right hs (mul_nonneg hu (add_nonneg nT n))
    have k3 := mul_nonneg hu n
    have k4 := mul_nonneg hu nT
    nlinarith
  exact ⟨((abs_sub_le _ _ _).trans (add_le_add hl.1 h2.1)).trans bound, ((abs_sub_le _ _ _).trans (add_le_add hl.2.1 h2.2.1)).trans bound,
    ((abs_sub_le _ _ _).trans (add_le_add hl.2.2 h2.2.2)).trans bound⟩

end

/-! ### C156: boundaries -/

namespace Spec

/-- The arithmetic of `double` and the mathematical functions. -/
structure RoundedTrig (F : Arith ℝ) (u : ℝ) : Prop where
  rounding : Rounding F.rnd u
  small : u ≤ 1 / 3000
  cos : F.cos = Real.cos
  sin : F.sin = Real.sin

/-- The trapezoid with its height along v, enlarged by `m` at its bases and by `m'` at its sides. -/
def wider (bottom top height m m' : ℝ) : Set (ℝ × ℝ) :=
  {q | |q.2| ≤ height / 2 + m ∧ |q.1| ≤ ((bottom + top) / 2 + q.2 * (top - bottom) / height) / 2 + m'}

end Spec

/-- Without enlargement it is the trapezoid. -/
theorem wider_zero {bottom top height : ℝ} (hb : 0 ≤ bottom) (ht : 0 ≤ top) (hh : 0 < height) :
    wider bottom top height 0 0 = trap bottom top height := by
  ext ⟨a, b⟩
  rw [mem_trap hb ht hh]
  simp only [wider, Set.mem_setOf_eq, add_zero]

section
variable {F : Arith ℝ} {u : ℝ}

/-- The coordinates along the sides of a shape that is turned by `alpha`. -/
noncomputable def along (alpha : ℝ) (p : V3 ℝ) : ℝ × ℝ :=
  (p.x * Real.cos alpha + p.y * Real.sin alpha, -(p.x * Real.sin alpha) + p.y * Real.cos alpha)

theorem mem_turned {alpha w : ℝ} {shape : Set (ℝ × ℝ)} {p : V3 ℝ} :
    p ∈ turned alpha w shape ↔ along alpha p ∈ shape ∧ |p.z| ≤ w := by
  have hs := Real.sin_sq_add_cos_sq alpha
  constructor
  · rintro ⟨a, b, h, hx, hy, hz⟩
    refine ⟨?_, hz⟩
    have e : along alpha p = (a, b) := by
      unfold along
      rw [hx, hy]
      refine Prod.ext ?_ ?_ <;> dsimp only
      · linear_combination a * hs
      · linear_combination b * hs
    rwa [e]
  · rintro ⟨h, hz⟩
    refine ⟨_, _, h, ?_, ?_, hz⟩
    · linear_combination -p.x * hs
    · linear_combination -p.y * hs

theorem frame_near (R : RoundedTrig F u) (alpha : ℝ) (p : V3 ℝ) :
    |(apply F (rotateZ F Rot.one (-alpha)) p).x - (along alpha p).1| ≤ 15 * u * size p ∧
    |(apply F (rotateZ F Rot.one (-alpha)) p).y - (along alpha p).2| ≤ 15 * u * size p := by
  have hu : 0 ≤ u := by
    have := R.rounding.err 1
    rw [abs_one, mul_one] at this
    exact (abs_nonneg _).trans this
  have hs := R.small
  have three : Rounding F.rnd (3 * u) :=
    ⟨R.rounding.mono, R.rounding.idem, fun x => (R.rounding.err x).trans (by have := mul_nonneg hu (abs_nonneg x); linarith),
      R.rounding.scaled⟩
  have z := R.rounding.zero
  have cs : |F.rnd (Real.cos alpha) - Real.cos alpha| ≤ u := (R.rounding.err _).trans (by
    have := mul_le_mul_of_nonneg_left (Real.abs_cos_le_one alpha) hu; linarith)
  have sn : |F.rnd (Real.sin (-alpha)) - Real.sin (-alpha)| ≤ u := (R.rounding.err _).trans (by
    have := mul_le_mul_of_nonneg_left (Real.abs_sin_le_one (-alpha)) hu; linarith)
  rw [Real.sin_neg] at sn
  have sn1 : |F.rnd (-F.rnd (-Real.sin alpha)) - Real.sin alpha| ≤ 3 * u := by
    have h1 := R.rounding.err (-F.rnd (-Real.sin alpha))
    have h2 : |-F.rnd (-Real.sin alpha)| ≤ 2 := by
      rw [abs_neg]
      have := abs_sub_abs_le_abs_sub (F.rnd (-Real.sin alpha)) (-Real.sin alpha)
      have h3 := Real.abs_sin_le_one alpha
      rw [abs_neg] at this
      linarith
    have h3 := mul_le_mul_of_nonneg_left h2 hu
    have h4 := abs_sub_le (F.rnd (-F.rnd (-Real.sin alpha))) (-F.rnd (-Real.sin alpha)) (Real.sin alpha)
    have h5 : |-F.rnd (-Real.sin alpha) - Real.sin alpha| ≤ u := by
      rw [← abs_neg]; refine le_trans (le_of_eq ?_) sn; congr 1; ring
    linarith
  have id := R.rounding.idem
  have e : rotateZ F Rot.one (-alpha) = ⟨F.rnd (Real.cos alpha), F.rnd (-F.rnd (-Real.sin alpha)), 0, F.rnd (-Real.sin alpha),
      F.rnd (Real.cos alpha), 0, 0, 0, 1⟩ := by
    simp only [rotateZ, Rot.one, MaterialMap.Arith.sub, MaterialMap.Arith.add, MaterialMap.Arith.mul, mul_one, mul_zero, z, sub_zero,
      zero_sub, add_zero, zero_add, R.cos, R.sin, Real.cos_neg, Real.sin_neg, id]
  rw [e]
  have c1 := Real.abs_cos_le_one alpha
  have s1 := Real.abs_sin_le_one alpha
  constructor
  · have := row_near three (by linarith) (by linarith) (a := F.rnd (Real.cos alpha)) (b := F.rnd (-F.rnd (-Real.sin alpha))) (c := 0)
      (p := Real.cos alpha) (q := Real.sin alpha) (r := 0) (cs.trans (by linarith)) sn1 (by simp; linarith) c1 s1 (by simp) p
    refine le_trans (le_of_eq ?_) (this.trans (by linarith))
    unfold apply along
    dsimp only
    congr 1; ring
  · have := row_near three (by linarith) (by linarith) (a := F.rnd (-Real.sin alpha)) (b := F.rnd (Real.cos alpha)) (c := 0)
      (p := -Real.sin alpha) (q := Real.cos alpha) (r := 0) (sn.trans (by linarith)) (cs.trans (by linarith)) (by simp; linarith)
      (by rwa [abs_neg]) c1 (by simp) p
    refine le_trans (le_of_eq ?_) (this.trans (by linarith))
    unfold apply along
    dsimp only
    congr 1; ring

/-- A point in the rectangle, off its border by sixteen roundings, is inside; one that is off it outside is not. -/
theorem rectangle_double (R : RoundedTrig F u) {width length deltaW alpha : ℝ} (hw : 0 ≤ width) (hl : 0 ≤ length) (p : V3 ℝ) {e : ℝ}
    (he : e = 16 * u * (size p + width + length)) :
    (p ∈ turned alpha deltaW (rect (width - 2 * e) (length - 2 * e)) →
      isInBoundary F (.rectangle width length deltaW alpha) p = true) ∧
    (isInBoundary F (.rectangle width length deltaW alpha) p = true →
      p ∈ turned alpha deltaW (rect (width + 2 * e) (length + 2 * e))) := by
  have hu : 0 ≤ u := by
    have := R.rounding.err 1
    rw [abs_one, mul_one] at this
    exact (abs_nonneg _).trans this
  obtain ⟨h1, h2⟩ := frame_near R alpha p
  have n := size_nonneg p
  have b1 := R.rounding.bounds (x := width / 2) (by linarith)
  have b2 := R.rounding.bounds (x := length / 2) (by linarith)
  have un := mul_nonneg hu n
  have uw := mul_nonneg hu hw
  have ul := mul_nonneg hu hl
  have k1 := abs_sub_abs_le_abs_sub (apply F (rotateZ F Rot.one (-alpha)) p).x (along alpha p).1
  have k2 := abs_sub_abs_le_abs_sub (along alpha p).1 (apply F (rotateZ F Rot.one (-alpha)) p).x
  have k3 := abs_sub_abs_le_abs_sub (apply F (rotateZ F Rot.one (-alpha)) p).y (along alpha p).2
  have k4 := abs_sub_abs_le_abs_sub (along alpha p).2 (apply F (rotateZ F Rot.one (-alpha)) p).y
  rw [abs_sub_comm] at k2 k4
  rw [mem_turned, mem_turned]
  unfold rect isInBoundary
  dsimp only [Set.mem_setOf_eq]
  unfold MaterialMap.Arith.div
  generalize apply F (rotateZ F Rot.one (-alpha)) p = v at *
  constructor
  · rintro ⟨⟨hx, hy⟩, hz⟩
    rw [if_neg (by linarith), if_neg (by linarith), if_neg (by linarith)]
  · intro h
    split_ifs at h with q1 q2 q3
    exact ⟨⟨by linarith, by linarith⟩, by linarith⟩

/-- The computed half of the width of a trapezoid at a height. -/
theorem side_near (R : Rounding F.rnd u) (hu : 0 ≤ u) (hs : u ≤ 1 / 1000) {bottom top height y y' d : ℝ} (hb : 0 ≤ bottom)
    (ht : 0 ≤ top) (hh : 0 < height) (hy : |y'| ≤ F.rnd (height / 2)) (hd : |y' - y| ≤ d) :
    |F.div (F.add (F.div (F.add bottom top) 2) (F.div (F.mul y' (F.sub top bottom)) height)) 2 -
      ((bottom + top) / 2 + y * (top - bottom) / height) / 2| ≤ 3 * u * (bottom + top) + d * (|top - bottom| / height) := by
  have hB : 0 ≤ bottom + top := by linarith
  have hD : |top - bottom| ≤ bottom + top := by rw [_root_.abs_le]; constructor <;> linarith
  have a1 := R.err (bottom + top)
  rw [abs_of_nonneg hB] at a1
  have a2 := R.err (top - bottom)
  unfold MaterialMap.Arith.div MaterialMap.Arith.add MaterialMap.Arith.mul MaterialMap.Arith.sub
  generalize bottom + top = B at *
  generalize top - bottom = D at *
  have uB := mul_nonneg hu hB
  have uB3 : u * (u * B) ≤ u * B / 1000 := by have := mul_le_mul_of_nonneg_right hs uB; linarith
  have uB1 : u * B ≤ B / 1000 := by have := mul_le_mul_of_nonneg_right hs hB; linarith
  generalize F.rnd B = B' at *
  generalize F.rnd D = D' at *
  have a3 := R.err (B' / 2)
  have a4 : |B' / 2| ≤ 0.501 * B := by
    rw [abs_div, abs_two]
    have := abs_sub_abs_le_abs_sub B' B
    rw [abs_of_nonneg hB] at this
    norm_num at *
    linarith
  have a5 := mul_le_mul_of_nonneg_left a4 hu
  have a6 : |F.rnd (B' / 2) - B / 2| ≤ 1.01 * (u * B) := by
    have h1 := abs_sub_le (F.rnd (B' / 2)) (B' / 2) (B / 2)
    have h2 : |B' / 2 - B / 2| ≤ u * B / 2 := by rw [← sub_div, abs_div, abs_two]; linarith
    norm_num at *
    linarith
  generalize F.rnd (B' / 2) = t1 at *
  -- the sloping part
  have z1 : |y'| / height ≤ 0.501 := by
    rw [div_le_iff₀ hh]
    have := (R.bounds (x := height / 2) (by linarith)).2
    have := mul_le_mul_of_nonneg_right hs hh.le
    norm_num at *
    linarith
  have z0 : 0 ≤ |y'| / height := by positivity
  have D1 : |D'| ≤ 1.001 * |D| := by
    have := abs_sub_abs_le_abs_sub D' D
    have := mul_le_mul_of_nonneg_right hs (abs_nonneg D)
    norm_num at *
    linarith
  have nD := abs_nonneg D
  have uD := mul_nonneg hu nD
  have uDB : u * |D| ≤ u * B := mul_le_mul_of_nonneg_left hD hu
  have p1 := R.err (y' * D')
  have zD : |y'| / height * |D'| ≤ 0.502 * |D| := by
    have := mul_le_mul z1 D1 (abs_nonneg _) (by norm_num)
    norm_num at this ⊢
    linarith
  have p2 : |F.rnd (y' * D') / height - y' * D' / height| ≤ 0.502 * (u * |D|) := by
    rw [← sub_div, abs_div, abs_of_pos hh, div_le_iff₀ hh]
    have := mul_le_mul_of_nonneg_left zD hu
    rw [abs_mul] at p1
    have e : u * (|y'| / height * |D'|) * height = u * (|y'| * |D'|) := by field_simp
    have := mul_le_mul_of_nonneg_right this hh.le
    rw [e] at this
    norm_num at *
    linarith
  have p3 : |y' * D' / height - y' * D / height| ≤ 0.501 * (u * |D|) := by
    rw [← sub_div, ← mul_sub, abs_div, abs_mul, abs_of_pos hh, mul_div_right_comm]
    exact mul_le_mul z1 a2 (abs_nonneg _) (by norm_num)
  have p4 : |y' * D / height| ≤ 0.501 * |D| := by
    rw [abs_div, abs_mul, abs_of_pos hh, mul_div_right_comm]
    exact mul_le_mul_of_nonneg_right z1 nD
  have p5 : |y' * D / height - y * D / height| ≤ d * (|D| / height) := by
    rw [← sub_div, ← sub_mul, abs_div, abs_mul, abs_of_pos hh, mul_div_assoc]
    exact mul_le_mul_of_nonneg_right hd (by positivity)
  generalize y' * D' / height = r1 at *
  generalize y' * D / height = r0 at *
  generalize F.rnd (y' * D') / height = r2 at *
  generalize y * D / height = r at *
  generalize d * (|D| / height) = s at *
  have uD1 : u * |D| ≤ |D| / 1000 := by have := mul_le_mul_of_nonneg_right hs nD; linarith
  have r2a : |r2| ≤ 0.51 * |D| := by
    have h1 := abs_sub_abs_le_abs_sub r2 r0
    have h2 := abs_sub_le r2 r1 r0
    norm_num at *
    linarith
  have p6 := R.err r2
  have p7 := mul_le_mul_of_nonneg_left r2a hu
  have p8 : |F.rnd r2 - r0| ≤ 1.52 * (u * |D|) := by
    have h2 := abs_sub_le r2 r1 r0
    have h3 := abs_sub_le (F.rnd r2) r2 r0
    norm_num at *
    linarith
  generalize F.rnd r2 = q at *
  have w1 : |t1 + q| ≤ 1.02 * B := by
    have h1 := abs_sub_abs_le_abs_sub t1 (B / 2)
    have h2 := abs_sub_abs_le_abs_sub q r0
    have h3 := abs_add_le t1 q
    rw [abs_of_nonneg (by linarith : 0 ≤ B / 2)] at h1
    norm_num at *
    linarith
  have w2 := R.err (t1 + q)
  have w3 := mul_le_mul_of_nonneg_left w1 hu
  generalize F.rnd (t1 + q) = w at *
  have w4 : |w / 2| ≤ 0.52 * B := by
    have h1 := abs_sub_abs_le_abs_sub w (t1 + q)
    rw [abs_div, abs_two]
    norm_num at *
    linarith
  have w5 := R.err (w / 2)
  have w6 := mul_le_mul_of_nonneg_left w4 hu
  generalize F.rnd (w / 2) = f at *
  rw [_root_.abs_le] at *
  norm_num at *
  constructor <;> linarith

/-- The same for a trapezoid. -/
theorem trapezoid_double (R : RoundedTrig F u) {bottom top height deltaW alpha : ℝ} (hb : 0 ≤ bottom) (ht : 0 ≤ top)
    (hh : 0 < height) (p : V3 ℝ) {e e' : ℝ} (he : e = 15 * u * size p + u * height)
    (he' : e' = 3 * u * (bottom + top) + 15 * u * size p * (1 + |top - bottom| / height)) :
    (p ∈ turned alpha deltaW (wider bottom top height (-e) (-e')) →
      isInBoundary F (.trapezoid bottom top height deltaW alpha) p = true) ∧
    (isInBoundary F (.trapezoid bottom top height deltaW alpha) p = true →
      p ∈ turned alpha deltaW (wider bottom top height e e')) := by
  have hu : 0 ≤ u := by
    have := R.rounding.err 1
    rw [abs_one, mul_one] at this
    exact (abs_nonneg _).trans this
  have hs := R.small
  obtain ⟨h1, h2⟩ := frame_near R alpha p
  have n := size_nonneg p
  have b1 := R.rounding.bounds (x := height / 2) (by linarith)
  have un := mul_nonneg hu n
  have uh := mul_nonneg hu hh.le
  have uh3 : u * height ≤ height / 3000 := by have := mul_le_mul_of_nonneg_right hs hh.le; linarith
  have k1 := abs_sub_abs_le_abs_sub (apply F (rotateZ F Rot.one (-alpha)) p).x (along alpha p).1
  have k2 := abs_sub_abs_le_abs_sub (along alpha p).1 (apply F (rotateZ F Rot.one (-alpha)) p).x
  have k3 := abs_sub_abs_le_abs_sub (apply F (rotateZ F Rot.one (-alpha)) p).y (along alpha p).2
  have k4 := abs_sub_abs_le_abs_sub (along alpha p).2 (apply F (rotateZ F Rot.one (-alpha)) p).y
  rw [abs_sub_comm] at k2 k4
  rw [mem_turned, mem_turned]
  unfold wider isInBoundary
  dsimp only [Set.mem_setOf_eq]
  rw [if_neg hh.ne']
  have side : ∀ y' : ℝ, |y'| ≤ F.rnd (height / 2) → |y' - (along alpha p).2| ≤ 15 * u * size p →
      |F.div (F.add (F.div (F.add bottom top) 2) (F.div (F.mul y' (F.sub top bottom)) height)) 2 -
        ((bottom + top) / 2 + (along alpha p).2 * (top - bottom) / height) / 2| ≤
      3 * u * (bottom + top) + 15 * u * size p * (|top - bottom| / height) :=
    fun y' hy hY => side_near R.rounding hu (by linarith) hb ht hh hy hY
  generalize apply F (rotateZ F Rot.one (-alpha)) p = v at *
  have e1 : F.div height 2 = F.rnd (height / 2) := rfl
  rw [e1]
  have dd : 0 ≤ 15 * u * size p * (|top - bottom| / height) := by positivity
  constructor
  · rintro ⟨⟨hy, hx⟩, hz⟩
    have hy' : |v.y| ≤ F.rnd (height / 2) := by linarith
    obtain ⟨s1, s2⟩ := _root_.abs_le.1 (side v.y hy' h2)
    rw [if_neg (by linarith), if_neg (by linarith), if_neg (by linarith)]
  · intro h
    split_ifs at h with q1 q2 q3
    obtain ⟨s1, s2⟩ := _root_.abs_le.1 (side v.y (by linarith) h2)
    exact ⟨⟨by linarith, by linarith⟩, by linarith⟩

/-- A surface with a rectangle, from global coordinates. -/
theorem rectangle_global_double (R : RoundedTrig F u) (id : ℤ) (T : V3 ℝ) {M Q : Rot ℝ} (hM : Stored M Q u) (hQ : Orthogonal Q)
    {width length deltaW alpha : ℝ} (hw : 0 ≤ width) (hl : 0 ≤ length) (p : V3 ℝ) {e : ℝ}
    (he : e = 70 * u * (size (Surf.minus p T) + width + length)) :
    ((Cartesian.mk' T Q).getLocalPoint p ∈ turned alpha (deltaW - e) (rect (width - 2 * e) (length - 2 * e)) →
      isGlobalInBoundary F ⟨id, Cartesian.mk' T M, some (.rectangle width length deltaW alpha)⟩ p = true) ∧
    (isGlobalInBoundary F ⟨id, Cartesian.mk' T M, some (.rectangle width length deltaW alpha)⟩ p = true →
      (Cartesian.mk' T Q).getLocalPoint p ∈ turned alpha (deltaW + e) (rect (width + 2 * e) (length + 2 * e))) := by
  have hu : 0 ≤ u := by
    have := R.rounding.err 1
    rw [abs_one, mul_one] at this
    exact (abs_nonneg _).trans this
  have hs := R.small
  have R' : Rounded F u := ⟨R.rounding, by linarith⟩
  have h := local_double R' T hM hQ p
  have hq : size ((Cartesian.mk' T Q).getLocalPoint p) ≤ 3 * size (Surf.minus p T) := size_apply (rows hQ) (Surf.minus p T)
  have hr := rectangle_double R hw hl (deltaW := deltaW) (alpha := alpha) (getLocalPoint F (Cartesian.mk' T M) p) rfl
  change (_ → isInBoundary F (.rectangle width length deltaW alpha) (getLocalPoint F (Cartesian.mk' T M) p) = true) ∧
    (isInBoundary F (.rectangle width length deltaW alpha) (getLocalPoint F (Cartesian.mk' T M) p) = true → _)
  generalize (Cartesian.mk' T Q).getLocalPoint p = l0 at *
  generalize getLocalPoint F (Cartesian.mk' T M) p = l at *
  have n := size_nonneg (Surf.minus p T)
  generalize size (Surf.minus p T) = S at *
  obtain ⟨h1, h2, h3⟩ := h
  have hsl : size l ≤ 3 * S + 21 * u * S := by
    have h1 := abs_sub_abs_le_abs_sub l.x l0.x
    have h2 := abs_sub_abs_le_abs_sub l.y l0.y
    have h3 := abs_sub_abs_le_abs_sub l.z l0.z
    simp only [size] at *
    linarith
  have c1 := Real.abs_cos_le_one alpha
  have s1 := Real.abs_sin_le_one alpha
  have le : ∀ {p t d : ℝ}, |p| ≤ 1 → |t| ≤ d → |t * p| ≤ d := by
    intro p t d hp ht; rw [abs_mul]; exact (mul_le_of_le_one_right (abs_nonneg t) hp).trans ht
  have d1 : |(along alpha l).1 - (along alpha l0).1| ≤ 14 * u * S := by
    have e : (along alpha l).1 - (along alpha l0).1 = (l.x - l0.x) * Real.cos alpha + (l.y - l0.y) * Real.sin alpha := by
      unfold along; ring
    rw [e]
    refine (abs_add_le _ _).trans ((add_le_add (le c1 h1) (le s1 h2)).trans (by linarith))
  have d2 : |(along alpha l).2 - (along alpha l0).2| ≤ 14 * u * S := by
    have e : (along alpha l).2 - (along alpha l0).2 = (l0.x - l.x) * Real.sin alpha + (l.y - l0.y) * Real.cos alpha := by
      unfold along; ring
    rw [e]
    rw [abs_sub_comm] at h1
    refine (abs_add_le _ _).trans ((add_le_add (le s1 h1) (le c1 h2)).trans (by linarith))
  simp only [mem_turned, rect, Set.mem_setOf_eq] at hr ⊢
  have uS := mul_nonneg hu n
  have uS2 : u * (u * S) ≤ u * S / 3000 := by have := mul_le_mul_of_nonneg_right hs uS; linarith
  have uw := mul_nonneg hu hw
  have ul := mul_nonneg hu hl
  have usl : u * size l ≤ 3 * (u * S) + 21 * (u * (u * S)) := by
    have := mul_le_mul_of_nonneg_left hsl hu; linarith
  have a1 := abs_sub_abs_le_abs_sub (along alpha l).1 (along alpha l0).1
  have a2 := abs_sub_abs_le_abs_sub (along alpha l0).1 (along alpha l).1
  have a3 := abs_sub_abs_le_abs_sub (along alpha l).2 (along alpha l0).2
  have a4 := abs_sub_abs_le_abs_sub (along alpha l0).2 (along alpha l).2
  have a5 := abs_sub_abs_le_abs_sub l.z l0.z
  have a6 := abs_sub_abs_le_abs_sub l0.z l.z
  rw [abs_sub_comm] at a2 a4 a6
  have ee : e = 70 * (u * S) + 70 * (u * width) + 70 * (u * length) := by rw [he]; ring
  constructor
  · rintro ⟨⟨q1, q2⟩, q3⟩
    exact hr.1 ⟨⟨by linarith, by linarith⟩, by linarith⟩
  · intro hb
    obtain ⟨⟨q1, q2⟩, q3⟩ := hr.2 hb
    exact ⟨⟨by linarith, by linarith⟩, by linarith⟩

/-! ### Ties and examples -/

/-- Without rounding the functions are those of C49 and C50. -/
theorem exact_surface (pi : ℝ) (sqrt : ℝ → ℝ) (G : TpcModule.TrigFns ℝ) (c : Cartesian ℝ) (b : Boundary ℝ) (p : V3 ℝ) :
    getLocalPoint ⟨⟨pi, G.cos, G.sin, sqrt⟩, id⟩ c p = c.getLocalPoint p ∧
    getGlobalPoint ⟨⟨pi, G.cos, G.sin, sqrt⟩, id⟩ c p = c.getGlobalPoint p ∧
    isInBoundary ⟨⟨pi, G.cos, G.sin, sqrt⟩, id⟩ b p = b.isInBoundary G p := by
  refine ⟨rfl, rfl, ?_⟩
  cases b <;> rfl

/-- Doubles with the mathematical functions, and a rotation by the angle of which cosine and sine are 3/5 and 4/5, rounded. -/
example : RoundedTrig PadAngle.Double.realDoubles (1 / 2 ^ 53) ∧
    Orthogonal (⟨3 / 5, -(4 / 5), 0, 4 / 5, 3 / 5, 0, 0, 0, 1⟩ : Rot ℝ) ∧
    Stored ⟨MaterialMap.binary64 (3 / 5), MaterialMap.binary64 (-(4 / 5)), 0, MaterialMap.binary64 (4 / 5), MaterialMap.binary64 (3 / 5), 0,
      0, 0, 1⟩ (⟨3 / 5, -(4 / 5), 0, 4 / 5, 3 / 5, 0, 0, 0, 1⟩ : Rot ℝ) (1 / 2 ^ 53) := by
  have h : ∀ x : ℝ, |x| ≤ 1 → |MaterialMap.binary64 x - x| ≤ 1 / 2 ^ 53 := fun x hx =>
    (Doubles.binary64_err x).trans (by linarith)
  refine ⟨⟨Doubles.binary64_rounding, by norm_num, rfl, rfl⟩, ⟨by norm_num, by norm_num, by norm_num, by norm_num, by norm_num, by norm_num⟩,
    ⟨h _ ?_, h _ ?_, ?_, h _ ?_, h _ ?_, ?_, ?_, ?_, ?_⟩⟩ <;> norm_num [_root_.abs_le]

end

end Gear.Surf.Double
