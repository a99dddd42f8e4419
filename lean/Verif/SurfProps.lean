/-
Properties of the measurement surfaces (C49-C51, C97).
-/
import Verif.Surf
import Verif.ZPlanarSpec
import Mathlib.LinearAlgebra.Matrix.NonsingularInverse
import Mathlib.LinearAlgebra.Matrix.Notation

set_option autoImplicit false
set_option linter.unusedSectionVars false

namespace Gear.Surf

open Vector3D (V3)
open TpcModule (TrigFns)

/-! ### Specification -/

namespace Spec

variable {K : Type} [Field K] [LinearOrder K] [IsStrictOrderedRing K]

/-- The matrix is that of a rotation or reflection: its columns have length one and are perpendicular. -/
structure Orthogonal (R : Rot K) : Prop where
  xx : R.xx * R.xx + R.yx * R.yx + R.zx * R.zx = 1
  yy : R.xy * R.xy + R.yy * R.yy + R.zy * R.zy = 1
  zz : R.xz * R.xz + R.yz * R.yz + R.zz * R.zz = 1
  xy : R.xx * R.xy + R.yx * R.yy + R.zx * R.zy = 0
  xz : R.xx * R.xz + R.yx * R.yz + R.zx * R.zz = 0
  yz : R.xy * R.xz + R.yy * R.yz + R.zy * R.zz = 0

/-- The square of the distance of two points. -/
def distSq (a b : V3 K) : K := (a.x - b.x) ^ 2 + (a.y - b.y) ^ 2 + (a.z - b.z) ^ 2

/-- The set of points of the plane within `w` of it, turned by `alpha` counterclockwise. -/
def turned (alpha w : ℝ) (shape : Set (ℝ × ℝ)) : Set (V3 ℝ) :=
  {p | ∃ u v, (u, v) ∈ shape ∧ p.x = u * Real.cos alpha - v * Real.sin alpha ∧ p.y = u * Real.sin alpha + v * Real.cos alpha
    ∧ |p.z| ≤ w}

/-- The rectangle with its width along u and its length along v. -/
def rect (width length : ℝ) : Set (ℝ × ℝ) := {q | |q.1| ≤ width / 2 ∧ |q.2| ≤ length / 2}

/-- The symmetric trapezoid with its height along v: the hull of its bases, so between the two points of its sides at each
height. -/
def trap (bottom top height : ℝ) : Set (ℝ × ℝ) :=
  {q | ∃ t s, 0 ≤ t ∧ t ≤ 1 ∧ -1 ≤ s ∧ s ≤ 1 ∧ q = (s * ((1 - t) * (bottom / 2) + t * (top / 2)), (2 * t - 1) * (height / 2))}

/-- The trapezoid of the documentation, with its bases along v and its height along u. -/
def trapDoc (bottom top height : ℝ) : Set (ℝ × ℝ) := {q | (q.2, q.1) ∈ trap bottom top height}

end Spec

open Spec

/-! ### C49: coordinates -/

section
variable {K : Type} [Field K] [LinearOrder K] [IsStrictOrderedRing K]

/-- As a matrix of the library. -/
def Rot.mat (R : Rot K) : Matrix (Fin 3) (Fin 3) K := !![R.xx, R.xy, R.xz; R.yx, R.yy, R.yz; R.zx, R.zy, R.zz]

theorem rows {R : Rot K} (h : Orthogonal R) : Orthogonal R.inverse := by
  have h1 : R.inverse.mat * R.mat = 1 := by
    ext i j
    fin_cases i <;> fin_cases j <;> simp [Rot.mat, Rot.inverse, Matrix.mul_apply, Fin.sum_univ_three]
    all_goals first
      | linear_combination h.xx | linear_combination h.yy | linear_combination h.zz
      | linear_combination h.xy | linear_combination h.xz | linear_combination h.yz
  have h2 : R.mat * R.inverse.mat = 1 := mul_eq_one_comm.1 h1
  have e : ∀ i j, (R.mat * R.inverse.mat) i j = (1 : Matrix (Fin 3) (Fin 3) K) i j := fun i j => by rw [h2]
  have e00 := e 0 0
  have e11 := e 1 1
  have e22 := e 2 2
  have e01 := e 0 1
  have e02 := e 0 2
  have e12 := e 1 2
  simp [Rot.mat, Rot.inverse, Matrix.mul_apply, Fin.sum_univ_three] at e00 e11 e22 e01 e02 e12
  exact ⟨e00, e11, e22, e01, e02, e12⟩

/-- A point's local coordinates denote that point, for every origin and rotation. -/
theorem global_local (T : V3 K) {R : Rot K} (hR : Orthogonal R) (p : V3 K) :
    (Cartesian.mk' T R).getGlobalPoint ((Cartesian.mk' T R).getLocalPoint p) = p := by
  have h := rows hR
  obtain ⟨h1, h2, h3, h4, h5, h6⟩ := h
  simp only [Rot.inverse] at h1 h2 h3 h4 h5 h6
  ext <;> simp only [Cartesian.getGlobalPoint, Cartesian.getLocalPoint, Cartesian.mk', Rot.apply, Rot.inverse, plus, minus]
  · linear_combination (p.x - T.x) * h1 + (p.y - T.y) * h4 + (p.z - T.z) * h5
  · linear_combination (p.x - T.x) * h4 + (p.y - T.y) * h2 + (p.z - T.z) * h6
  · linear_combination (p.x - T.x) * h5 + (p.y - T.y) * h6 + (p.z - T.z) * h3

/-- And the point with given local coordinates has these. -/
theorem local_global (T : V3 K) {R : Rot K} (hR : Orthogonal R) (q : V3 K) :
    (Cartesian.mk' T R).getLocalPoint ((Cartesian.mk' T R).getGlobalPoint q) = q := by
  obtain ⟨h1, h2, h3, h4, h5, h6⟩ := hR
  ext <;> simp only [Cartesian.getGlobalPoint, Cartesian.getLocalPoint, Cartesian.mk', Rot.apply, Rot.inverse, plus, minus]
  · linear_combination q.x * h1 + q.y * h4 + q.z * h5
  · linear_combination q.x * h4 + q.y * h2 + q.z * h6
  · linear_combination q.x * h5 + q.y * h6 + q.z * h3

/-- Distances are the same in both. -/
theorem distances_kept (T : V3 K) {R : Rot K} (hR : Orthogonal R) (p q : V3 K) :
    distSq ((Cartesian.mk' T R).getLocalPoint p) ((Cartesian.mk' T R).getLocalPoint q) = distSq p q
    ∧ distSq ((Cartesian.mk' T R).getGlobalPoint p) ((Cartesian.mk' T R).getGlobalPoint q) = distSq p q := by
  have key : ∀ {R : Rot K}, Orthogonal R → ∀ a b : V3 K, distSq (R.apply a) (R.apply b) = distSq a b := by
    rintro R ⟨h1, h2, h3, h4, h5, h6⟩ a b
    simp only [distSq, Rot.apply]
    linear_combination (a.x - b.x) ^ 2 * h1 + (a.y - b.y) ^ 2 * h2 + (a.z - b.z) ^ 2 * h3
      + 2 * (a.x - b.x) * (a.y - b.y) * h4 + 2 * (a.x - b.x) * (a.z - b.z) * h5 + 2 * (a.y - b.y) * (a.z - b.z) * h6
  constructor
  · have := key (rows hR) (minus p T) (minus q T)
    rw [show distSq (minus p T) (minus q T) = distSq p q by simp [distSq, minus]] at this
    exact this
  · have := key hR p q
    rw [← this]
    simp [distSq, Cartesian.getGlobalPoint, plus, Cartesian.mk']

/-- The axes are where the unit steps from the origin lead. -/
theorem origin_axes (T : V3 K) (R : Rot K) :
    let c := Cartesian.mk' T R
    c.getGlobalPoint ⟨0, 0, 0⟩ = c.getOrigin ∧ c.getOrigin = T
    ∧ c.getGlobalPoint ⟨1, 0, 0⟩ = plus c.getOrigin c.getLocalXAxis
    ∧ c.getGlobalPoint ⟨0, 1, 0⟩ = plus c.getOrigin c.getLocalYAxis
    ∧ c.getGlobalPoint ⟨0, 0, 1⟩ = plus c.getOrigin c.getLocalZAxis
    ∧ ∀ a b d : K, c.getGlobalPoint ⟨a, b, d⟩ = ⟨T.x + a * c.getLocalXAxis.x + b * c.getLocalYAxis.x + d * c.getLocalZAxis.x,
        T.y + a * c.getLocalXAxis.y + b * c.getLocalYAxis.y + d * c.getLocalZAxis.y,
        T.z + a * c.getLocalXAxis.z + b * c.getLocalYAxis.z + d * c.getLocalZAxis.z⟩ := by
  refine ⟨?_, rfl, rfl, rfl, rfl, fun a b d => ?_⟩
  · ext <;> simp [Cartesian.getGlobalPoint, Cartesian.getOrigin, Cartesian.mk', Rot.apply, plus]
  · ext <;> simp [Cartesian.getGlobalPoint, Cartesian.mk', Rot.apply, plus, Cartesian.getLocalXAxis, Cartesian.getLocalYAxis,
      Cartesian.getLocalZAxis] <;> ring

/-- A rotation with no zero entry and determinant one. -/
example : Orthogonal (⟨2 / 3, -1 / 3, 2 / 3, 2 / 3, 2 / 3, -1 / 3, -1 / 3, 2 / 3, 2 / 3⟩ : Rot ℚ) := by
  constructor <;> norm_num

end

/-! ### C50: boundaries -/

open ZPlanar.Spec ZPlanar

/-- The real functions. -/
noncomputable abbrev F : TrigFns ℝ := TpcModule.realTrig

theorem unturn (alpha w : ℝ) (shape : Set (ℝ × ℝ)) (p : V3 ℝ) :
    p ∈ turned alpha w shape ↔
      (((Rot.one : Rot ℝ).rotateZ F (-alpha)).apply p).x = p.x * Real.cos alpha + p.y * Real.sin alpha
      ∧ (((Rot.one : Rot ℝ).rotateZ F (-alpha)).apply p).y = p.y * Real.cos alpha - p.x * Real.sin alpha
      ∧ (p.x * Real.cos alpha + p.y * Real.sin alpha, p.y * Real.cos alpha - p.x * Real.sin alpha) ∈ shape ∧ |p.z| ≤ w := by
  have hc : F.cos = Real.cos := rfl
  have hs : F.sin = Real.sin := rfl
  have hcs := Real.sin_sq_add_cos_sq alpha
  constructor
  · rintro ⟨u, v, h, hx, hy, hz⟩
    refine ⟨?_, ?_, ?_, hz⟩
    · simp [Rot.rotateZ, Rot.one, Rot.apply, hc, hs, Real.cos_neg, Real.sin_neg]; ring
    · simp [Rot.rotateZ, Rot.one, Rot.apply, hc, hs, Real.cos_neg, Real.sin_neg]; ring
    · have e1 : p.x * Real.cos alpha + p.y * Real.sin alpha = u := by
        rw [hx, hy]; linear_combination u * hcs
      have e2 : p.y * Real.cos alpha - p.x * Real.sin alpha = v := by
        rw [hx, hy]; linear_combination v * hcs
      rw [e1, e2]; exact h
  · rintro ⟨-, -, h, hz⟩
    refine ⟨_, _, h, ?_, ?_, hz⟩
    · linear_combination -p.x * hcs
    · linear_combination -p.y * hcs

theorem turn_x (alpha : ℝ) (p : V3 ℝ) :
    (((Rot.one : Rot ℝ).rotateZ F (-alpha)).apply p).x = p.x * Real.cos alpha + p.y * Real.sin alpha := by
  have hc : F.cos = Real.cos := rfl
  have hs : F.sin = Real.sin := rfl
  simp [Rot.rotateZ, Rot.one, Rot.apply, hc, hs, Real.cos_neg, Real.sin_neg]; ring

theorem turn_y (alpha : ℝ) (p : V3 ℝ) :
    (((Rot.one : Rot ℝ).rotateZ F (-alpha)).apply p).y = p.y * Real.cos alpha - p.x * Real.sin alpha := by
  have hc : F.cos = Real.cos := rfl
  have hs : F.sin = Real.sin := rfl
  simp [Rot.rotateZ, Rot.one, Rot.apply, hc, hs, Real.cos_neg, Real.sin_neg]; ring

/-- The rectangle's boundary is exactly the documented one, for all dimensions and angles. -/
theorem rectangle (width length deltaW alpha : ℝ) (p : V3 ℝ) :
    (Boundary.rectangle width length deltaW alpha).isInBoundary F p = true
      ↔ p ∈ turned alpha deltaW (Spec.rect width length) := by
  rw [unturn]
  simp only [Boundary.isInBoundary, turn_x, turn_y, Spec.rect, Set.mem_setOf_eq, true_and]
  split_ifs with h1 h2 h3
  · simp; intros; linarith
  · simp; intro h; linarith
  · simp; intros; linarith
  · simp only [true_iff]; exact ⟨⟨by linarith, by linarith⟩, by linarith⟩

theorem mem_trap {bottom top height : ℝ} (hb : 0 ≤ bottom) (ht : 0 ≤ top) (hh : 0 < height) (u v : ℝ) :
    (u, v) ∈ trap bottom top height ↔
      |v| ≤ height / 2 ∧ |u| ≤ ((bottom + top) / 2 + v * (top - bottom) / height) / 2 := by
  constructor
  · rintro ⟨t, s, ht0, ht1, hs0, hs1, h⟩
    simp only [Prod.mk.injEq] at h
    obtain ⟨rfl, rfl⟩ := h
    have hw : 0 ≤ (1 - t) * (bottom / 2) + t * (top / 2) := by
      have := mul_nonneg (sub_nonneg.2 ht1) hb
      have := mul_nonneg ht0 ht
      nlinarith
    constructor
    · rw [abs_le]; constructor <;> nlinarith
    · have e : ((bottom + top) / 2 + (2 * t - 1) * (height / 2) * (top - bottom) / height) / 2
          = (1 - t) * (bottom / 2) + t * (top / 2) := by
        field_simp; ring
      rw [e, abs_le]; constructor <;> nlinarith
  · rintro ⟨hv, hu⟩
    obtain ⟨hv1, hv2⟩ := abs_le.1 hv
    obtain ⟨hu1, hu2⟩ := abs_le.1 hu
    have e : ((bottom + top) / 2 + v * (top - bottom) / height) / 2
        = (1 - (v / height + 1 / 2)) * (bottom / 2) + (v / height + 1 / 2) * (top / 2) := by
      field_simp; ring
    rw [e] at hu1 hu2
    have q0 : 0 ≤ v / height + 1 / 2 := by
      have : -(1 / 2) ≤ v / height := by rw [le_div_iff₀ hh]; linarith
      linarith
    have q1 : v / height + 1 / 2 ≤ 1 := by
      have : v / height ≤ 1 / 2 := by rw [div_le_iff₀ hh]; linarith
      linarith
    set W := (1 - (v / height + 1 / 2)) * (bottom / 2) + (v / height + 1 / 2) * (top / 2) with hW
    have hvv : v = (2 * (v / height + 1 / 2) - 1) * (height / 2) := by field_simp; ring
    rcases eq_or_lt_of_le (show 0 ≤ W by linarith) with h0 | h0
    · refine ⟨v / height + 1 / 2, 0, q0, q1, by norm_num, by norm_num, ?_⟩
      rw [Prod.mk.injEq]; exact ⟨by linarith, hvv⟩
    · refine ⟨v / height + 1 / 2, u / W, q0, q1, ?_, ?_, ?_⟩
      · rw [le_div_iff₀ h0]; linarith
      · rw [div_le_iff₀ h0]; linarith
      · rw [Prod.mk.injEq, ← hW]; exact ⟨by field_simp, hvv⟩

/-- The trapezoid's boundary is exactly the trapezoid whose height is along v. -/
theorem trapezoid_partial {bottom top height : ℝ} (hb : 0 ≤ bottom) (ht : 0 ≤ top) (hh : 0 < height) (deltaW alpha : ℝ)
    (p : V3 ℝ) : (Boundary.trapezoid bottom top height deltaW alpha).isInBoundary F p = true
      ↔ p ∈ turned alpha deltaW (trap bottom top height) := by
  rw [unturn, mem_trap hb ht hh]
  simp only [Boundary.isInBoundary, turn_x, turn_y, true_and, if_neg hh.ne']
  split_ifs with h1 h2 h3
  · simp; intros; linarith
  · simp; intros; linarith
  · simp only [Bool.false_eq_true, false_iff]
    rintro ⟨⟨-, h⟩, -⟩
    linarith
  · simp only [true_iff]; exact ⟨⟨by linarith, by linarith⟩, by linarith⟩

/-- The documentation has it lying on its side, with the height along u: a point of that one which is not in the boundary,
and one the other way round. -/
theorem trapezoid_false_documented :
    ∃ p q : V3 ℝ, p ∈ turned 0 1 (trapDoc 2 4 10) ∧ (Boundary.trapezoid 2 4 10 1 0).isInBoundary F p = false
      ∧ q ∉ turned 0 1 (trapDoc 2 4 10) ∧ (Boundary.trapezoid 2 4 10 1 0).isInBoundary F q = true := by
  refine ⟨⟨4, 0, 0⟩, ⟨0, 4, 0⟩, ⟨4, 0, ⟨9 / 10, 0, by norm_num, by norm_num, by norm_num, by norm_num, by norm_num⟩, by simp,
    by simp, by simp⟩, ?_, ?_, ?_⟩
  · rw [← Bool.not_eq_true, trapezoid_partial (by norm_num) (by norm_num) (by norm_num), unturn,
      mem_trap (by norm_num) (by norm_num) (by norm_num)]
    simp; norm_num
  · rintro ⟨u, v, ⟨t, s, ht0, ht1, hs0, hs1, h⟩, hx, hy, -⟩
    simp at hx hy
    simp only [Prod.mk.injEq] at h
    obtain ⟨h1, h2⟩ := h
    rw [← hy] at h1
    nlinarith
  · rw [trapezoid_partial (by norm_num) (by norm_num) (by norm_num), unturn,
      mem_trap (by norm_num) (by norm_num) (by norm_num)]
    have h1 := turn_x 0 ⟨0, 4, 0⟩
    have h2 := turn_y 0 ⟨0, 4, 0⟩
    refine ⟨h1, h2, ?_, ?_⟩ <;> simp
    constructor
    · norm_num
    · norm_num

/-- A trapezoid without height: every point of its line is inside, however far out. -/
theorem trapezoid_false_flat (bottom top u : ℝ) :
    (Boundary.trapezoid bottom top 0 1 0).isInBoundary F ⟨u, 0, 0⟩ = true := by
  have h := turn_y 0 ⟨u, 0, 0⟩
  simp only [neg_zero] at h
  simp [Boundary.isInBoundary, h]

/-- A point is inside a surface if its local coordinates are; without a boundary every point is. -/
theorem surface_global (s : Surface ℝ) (p : V3 ℝ) :
    s.isGlobalInBoundary F p = s.isLocalInBoundary F (s.csys.getLocalPoint p)
    ∧ (s.boundary = none → s.isLocalInBoundary F p = true ∧ s.isGlobalInBoundary F p = true)
    ∧ (∀ b, s.boundary = some b → s.isLocalInBoundary F p = b.isInBoundary F p) := by
  refine ⟨?_, ?_, ?_⟩
  · unfold Surface.isGlobalInBoundary Surface.isLocalInBoundary; cases s.boundary <;> rfl
  · intro h; simp [Surface.isLocalInBoundary, Surface.isGlobalInBoundary, h]
  · intro b h; simp [Surface.isLocalInBoundary, h]

/-! ### C51: the store -/

namespace Spec

/-- The store after fillers were used on it, the last one first. -/
def history : List Filler → Store
  | [] => .new
  | f :: past => ((history past).fillStore f).2

/-- The IDs of a list of surfaces. -/
def ids (l : List Obj) : List ℤ := l.map Obj.id

end Spec

theorem add_none {s : Store} {o : Obj} (h : SMap.find? o.id s.map = none) :
    s.add (some o) = (.ok (), { s with map := SMap.set o.id o s.map }) := by
  simp [Store.add, h]

theorem add_some {s : Store} {o o' : Obj} (h : SMap.find? o.id s.map = some o') :
    s.add (some o) = (.throw .gear, s) := by
  simp [Store.add, h]

/-- What `addAll` does: it stops at the first surface whose ID is taken. -/
theorem addAll_cases (l : List Obj) (s : Store) :
    (∃ s', s.addAll (l.map some) = (.ok (), s') ∧ (ids l).Nodup ∧ (∀ o ∈ l, SMap.find? o.id s.map = none)
      ∧ s'.filled = s.filled ∧ s'.fillerName = s.fillerName
      ∧ ∀ id, SMap.find? id s'.map = ((l.find? fun o => o.id = id).or (SMap.find? id s.map)))
    ∨ (∃ s' l₁ o l₂, s.addAll (l.map some) = (.throw .gear, s') ∧ l = l₁ ++ o :: l₂
      ∧ (o.id ∈ ids l₁ ∨ (SMap.find? o.id s.map).isSome) ∧ (ids l₁).Nodup ∧ (∀ o ∈ l₁, SMap.find? o.id s.map = none)
      ∧ s'.filled = s.filled ∧ s'.fillerName = s.fillerName
      ∧ ∀ id, SMap.find? id s'.map = ((l₁.find? fun o => o.id = id).or (SMap.find? id s.map))) := by
  induction l generalizing s with
  | nil => exact Or.inl ⟨s, rfl, by simp [ids], by simp, rfl, rfl, by simp⟩
  | cons o l ih =>
    have e : s.addAll ((o :: l).map some) = match s.add (some o) with
        | (.ok (), s') => s'.addAll (l.map some)
        | (e, s') => (e, s') := rfl
    cases h : SMap.find? o.id s.map with
    | some o' =>
      rw [add_some h] at e
      exact Or.inr ⟨s, [], o, l, e, rfl, Or.inr (by simp [h]), by simp [ids], by simp, rfl, rfl, by simp⟩
    | none =>
      rw [add_none h] at e
      simp only at e
      rw [e]
      have hset : ∀ id, SMap.find? id (SMap.set o.id o s.map) = if id = o.id then some o else SMap.find? id s.map :=
        fun id => SMap.find?_set o.id id o s.map
      rcases ih { s with map := SMap.set o.id o s.map } with
        ⟨s', h1, h2, h3, h4, h5, h6⟩ | ⟨s', l₁, o', l₂, h1, rfl, h2, h3, h4, h5, h6, h7⟩
      · refine Or.inl ⟨s', h1, ?_, ?_, h4, h5, ?_⟩
        · simp only [ids, List.map_cons, List.nodup_cons]
          refine ⟨?_, h2⟩
          intro hm
          obtain ⟨o', ho', hid⟩ := List.mem_map.1 hm
          have := h3 o' ho'
          rw [hset, hid, if_pos rfl] at this
          cases this
        · intro o' ho'
          rcases List.mem_cons.1 ho' with rfl | ho'
          · exact h
          · have := h3 o' ho'
            rw [hset] at this
            split_ifs at this with hh
            exact this
        · intro id
          rw [h6, hset]
          by_cases hid : id = o.id
          · subst hid
            have : l.find? (fun x => decide (x.id = o.id)) = none := by
              rw [List.find?_eq_none]
              intro x hx
              have := h3 x hx
              rw [hset] at this
              split_ifs at this with hh
              simpa using hh
            simp [this]
          · simp [List.find?_cons, hid, Ne.symm hid]
      · refine Or.inr ⟨s', o :: l₁, o', l₂, h1, rfl, ?_, ?_, ?_, h5, h6, ?_⟩
        · rcases h2 with h2 | h2
          · exact Or.inl (by simp only [ids, List.map_cons, List.mem_cons]; exact Or.inr h2)
          · rw [hset] at h2
            split_ifs at h2 with hh
            · exact Or.inl (by simp [ids, hh])
            · exact Or.inr h2
        · simp only [ids, List.map_cons, List.nodup_cons]
          refine ⟨?_, h3⟩
          intro hm
          obtain ⟨o', ho', hid⟩ := List.mem_map.1 hm
          have := h4 o' ho'
          rw [hset, hid, if_pos rfl] at this
          cases this
        · intro o' ho'
          rcases List.mem_cons.1 ho' with rfl | ho'
          · exact h
          · have := h4 o' ho'
            rw [hset] at this
            split_ifs at this with hh
            exact this
        · intro id
          rw [h7, hset]
          by_cases hid : id = o.id
          · subst hid
            have : l₁.find? (fun x => decide (x.id = o.id)) = none := by
              rw [List.find?_eq_none]
              intro x hx
              have := h4 x hx
              rw [hset] at this
              split_ifs at this with hh
              simpa using hh
            simp [this]
          · simp [List.find?_cons, hid, Ne.symm hid]

/-- A new store is filled by a filler exactly if the IDs of its surfaces are all different; then each ID gives its surface
and no other ID one, and the store is marked as filled with the filler's name. -/
theorem fill_new (name : String) (l : List Obj) :
    ((Store.new.fillStore ⟨name, .ok (l.map some)⟩).1 = .ok () ↔ (ids l).Nodup)
    ∧ ((ids l).Nodup → let s := (Store.new.fillStore ⟨name, .ok (l.map some)⟩).2
        s.isFilled = true ∧ s.getFillerName = .ok name
        ∧ (∀ o ∈ l, s.get o.id = .ok o) ∧ ∀ id, id ∉ ids l → s.get id = .throw .gear)
    ∧ (¬ (ids l).Nodup → (Store.new.fillStore ⟨name, .ok (l.map some)⟩).1 = .throw .gear
        ∧ (Store.new.fillStore ⟨name, .ok (l.map some)⟩).2.isFilled = false
        ∧ (Store.new.fillStore ⟨name, .ok (l.map some)⟩).2.getFillerName = .throw .gear) := by
  have e : Store.new.fillStore ⟨name, .ok (l.map some)⟩ = match ({ Store.new with fillerName := name } : Store).addAll (l.map some) with
      | (.ok (), s') => (.ok (), { s' with filled := true })
      | (e, s') => (e, s') := rfl
  rcases addAll_cases l { Store.new with fillerName := name } with
    ⟨s', h1, h2, h3, h4, h5, h6⟩ | ⟨s', l₁, o, l₂, h1, rfl, h2, h3, h4, h5, h6, h7⟩
  · rw [h1] at e
    simp only at e
    rw [e]
    refine ⟨by simp [h2], fun _ => ?_, fun h => absurd h2 h⟩
    refine ⟨rfl, ?_, ?_, ?_⟩
    · simp [Store.getFillerName, h5]
    · intro o ho
      have : l.find? (fun x => decide (x.id = o.id)) = some o := by
        clear h1 e h3 h4 h5 h6
        induction l with
        | nil => cases ho
        | cons a l ih =>
          simp only [ids, List.map_cons, List.nodup_cons] at h2
          rcases List.mem_cons.1 ho with rfl | ho
          · simp
          · have : a.id ≠ o.id := fun h => h2.1 (h ▸ List.mem_map_of_mem ho)
            simp [List.find?_cons, this]
            simpa using ih h2.2 h2.2 ho
      simp [Store.get, h6, this]
    · intro id hid
      have : l.find? (fun x => decide (x.id = id)) = none := by
        rw [List.find?_eq_none]
        intro x hx
        simp only [decide_eq_true_eq]
        exact fun h => hid (h ▸ List.mem_map_of_mem hx)
      simp [Store.get, h6, this, Store.new]
  · rw [h1] at e
    simp only at e
    rw [e]
    have hnd : ¬ (ids (l₁ ++ o :: l₂)).Nodup := by
      intro h
      rcases h2 with h2 | h2
      · simp only [ids, List.map_append, List.map_cons, List.nodup_append] at h
        exact h.2.2 o.id h2 o.id (by simp) rfl
      · simp [Store.new] at h2
    refine ⟨by simp [hnd], fun h => absurd h hnd, fun _ => ⟨rfl, ?_, ?_⟩⟩
    · simp [Store.isFilled, h5, Store.new]
    · simp [Store.getFillerName, h5, Store.new]

/-- Once a store is filled, no filler changes it: every further call throws. -/
theorem filled_once (s : Store) (hs : s.isFilled = true) (f : Filler) : s.fillStore f = (.throw .gear, s) := by
  simp only [Store.isFilled] at hs
  simp [Store.fillStore, hs]

theorem addAll_keeps (l : List (Option Obj)) (s : Store) {id : ℤ} {o : Obj} (h : SMap.find? id s.map = some o) :
    SMap.find? id (s.addAll l).2.map = some o := by
  induction l generalizing s with
  | nil => exact h
  | cons a l ih =>
    unfold Store.addAll
    cases a with
    | none => exact h
    | some a =>
      cases ha : SMap.find? a.id s.map with
      | some o' => rw [add_some ha]; exact h
      | none =>
        rw [add_none ha]
        refine ih _ ?_
        simp only [SMap.find?_set]
        rw [if_neg]
        · exact h
        · rintro rfl; rw [h] at ha; cases ha

/-- The surface of an ID never changes, whatever fillers are used later, and whether they fail or not. -/
theorem surface_stable (s : Store) (f : Filler) {id : ℤ} {o : Obj} (h : s.get id = .ok o) :
    (s.fillStore f).2.get id = .ok o := by
  have h0 : SMap.find? id s.map = some o := by
    unfold Store.get at h
    split at h
    · cases h
    · cases h; assumption
  have key : ∀ x, SMap.find? id (s.fillStore f).2.map = some x → (s.fillStore f).2.get id = .ok x := by
    intro x hx; simp [Store.get, hx]
  apply key
  unfold Store.fillStore
  split_ifs with hf
  · exact h0
  · dsimp only
    cases f.surfaces with
    | throw e => exact h0
    | ub => exact h0
    | ok l =>
      have := addAll_keeps l { s with fillerName := f.name } h0
      dsimp only
      split
      · rename_i s' hs'; rw [hs'] at this; exact this
      · rename_i e s' _ hs'; rw [hs'] at this; exact this

/-- So over every history of calls. -/
theorem surface_stable_history (past later : List Filler) {id : ℤ} {o : Obj} (h : (history past).get id = .ok o) :
    (history (later ++ past)).get id = .ok o := by
  induction later with
  | nil => exact h
  | cons f later ih => exact surface_stable _ f ih

/-- The surface of an ID has that ID and came from a filler. -/
theorem surface_from_filler (past : List Filler) {id : ℤ} {o : Obj} (h : (history past).get id = .ok o) :
    o.id = id ∧ ∃ f ∈ past, ∃ l, f.surfaces = .ok l ∧ some o ∈ l := by
  have hget : ∀ (s : Store), s.get id = .ok o → SMap.find? id s.map = some o := by
    intro s hs
    unfold Store.get at hs
    split at hs
    · cases hs
    · cases hs; assumption
  replace h := hget _ h
  clear hget
  have hadd : ∀ (l : List (Option Obj)) (s : Store), SMap.find? id (s.addAll l).2.map = some o →
      SMap.find? id s.map = some o ∨ (o.id = id ∧ some o ∈ l) := by
    intro l
    induction l with
    | nil => intro s hs; exact Or.inl hs
    | cons a l ih =>
      intro s hs
      unfold Store.addAll at hs
      cases a with
      | none => exact Or.inl hs
      | some a =>
        cases ha : SMap.find? a.id s.map with
        | some o' => rw [add_some ha] at hs; exact Or.inl hs
        | none =>
          rw [add_none ha] at hs
          rcases ih _ hs with h1 | ⟨h1, h2⟩
          · simp only [SMap.find?_set] at h1
            split_ifs at h1 with hid
            · cases h1; exact Or.inr ⟨hid.symm, by simp⟩
            · exact Or.inl h1
          · exact Or.inr ⟨h1, List.mem_cons_of_mem _ h2⟩
  induction past with
  | nil => simp [history, Store.new] at h
  | cons f past ih =>
    have : SMap.find? id (history past).map = some o ∨ ∃ l, f.surfaces = .ok l ∧ o.id = id ∧ some o ∈ l := by
      simp only [history] at h
      unfold Store.fillStore at h
      split_ifs at h with hf
      · exact Or.inl h
      · dsimp only at h
        cases hl : f.surfaces with
        | throw e => rw [hl] at h; exact Or.inl h
        | ub => rw [hl] at h; exact Or.inl h
        | ok l =>
          rw [hl] at h
          dsimp only at h
          have := hadd l { history past with fillerName := f.name }
          have h' : SMap.find? id (({ history past with fillerName := f.name } : Store).addAll l).2.map = some o := by
            split at h
            · rename_i s' hs'; rw [hs']; exact h
            · rename_i e s' _ hs'; rw [hs']; exact h
          rcases this h' with h1 | ⟨h1, h2⟩
          · exact Or.inl h1
          · exact Or.inr ⟨l, rfl, h1, h2⟩
    rcases this with h1 | ⟨l, h1, h2, h3⟩
    · obtain ⟨h2, f', hf', r⟩ := ih h1
      exact ⟨h2, f', List.mem_cons_of_mem _ hf', r⟩
    · exact ⟨h2, f, by simp, l, h1, h3⟩

/-- A filler that throws leaves everything one can see of the store as it was. -/
theorem filler_throws (s : Store) (name : String) (e : Exn) :
    let s' := (s.fillStore ⟨name, .throw e⟩).2
    (∀ id, s'.get id = s.get id) ∧ s'.isFilled = s.isFilled ∧ s'.getFillerName = s.getFillerName := by
  intro s'
  by_cases hf : s.filled = true
  · have : s' = s := by simp [s', Store.fillStore, hf]
    rw [this]; exact ⟨fun _ => rfl, rfl, rfl⟩
  · have : s' = { s with fillerName := name } := by simp [s', Store.fillStore, hf]
    rw [this]
    refine ⟨fun _ => rfl, rfl, ?_⟩
    have hf : s.filled = false := by simpa using hf
    simp [Store.getFillerName, hf]

/-- But a filler with two surfaces of one ID leaves the ones before the second in the store, which is not marked as filled;
and then one with the same surfaces and a corrected ID is refused. -/
theorem failed_fill_false : ∃ (a b b' : Obj),
    (Store.new.get a.id = .throw .gear)
    ∧ (Store.new.fillStore ⟨"first", .ok [some a, some b]⟩).1 = .throw .gear
    ∧ (history [⟨"first", .ok [some a, some b]⟩]).get a.id = .ok a
    ∧ (history [⟨"first", .ok [some a, some b]⟩]).isFilled = false
    ∧ (ids [a, b']).Nodup
    ∧ ((history [⟨"first", .ok [some a, some b]⟩]).fillStore ⟨"second", .ok [some a, some b']⟩).1 = .throw .gear := by
  refine ⟨⟨1, 7⟩, ⟨2, 7⟩, ⟨3, 8⟩, ?_⟩
  decide +kernel

/-- Exactly which surfaces stay after a fill that fails: those listed before the first one whose ID is taken. -/
theorem failed_fill (name : String) (l : List Obj) (s : Store) (hs : s.isFilled = false)
    (h : (s.fillStore ⟨name, .ok (l.map some)⟩).1 ≠ .ok ()) :
    ∃ l₁ o l₂, l = l₁ ++ o :: l₂ ∧ (o.id ∈ ids l₁ ∨ s.get o.id ≠ .throw .gear) ∧ (ids l₁).Nodup
      ∧ (∀ o ∈ l₁, s.get o.id = .throw .gear)
      ∧ (s.fillStore ⟨name, .ok (l.map some)⟩).2.isFilled = false
      ∧ (∀ o ∈ l₁, (s.fillStore ⟨name, .ok (l.map some)⟩).2.get o.id = .ok o)
      ∧ ∀ id, id ∉ ids l₁ → (s.fillStore ⟨name, .ok (l.map some)⟩).2.get id = s.get id := by
  simp only [Store.isFilled] at hs
  have e : s.fillStore ⟨name, .ok (l.map some)⟩ = match ({ s with fillerName := name } : Store).addAll (l.map some) with
      | (.ok (), s') => (.ok (), { s' with filled := true })
      | (e, s') => (e, s') := by
    unfold Store.fillStore
    rw [hs]
    rfl
  rcases addAll_cases l { s with fillerName := name } with
    ⟨s', h1, h2, h3, h4, h5, h6⟩ | ⟨s', l₁, o, l₂, h1, rfl, h2, h3, h4, h5, h6, h7⟩
  · rw [h1] at e
    rw [e] at h
    exact absurd rfl h
  · rw [h1] at e
    simp only at e
    rw [e]
    refine ⟨l₁, o, l₂, rfl, ?_, h3, ?_, ?_, ?_, ?_⟩
    · rcases h2 with h2 | h2
      · exact Or.inl h2
      · right
        unfold Store.get
        cases hh : SMap.find? o.id s.map with
        | none => simp [hh] at h2
        | some x => simp
    · intro o' ho'
      simp [Store.get, h4 o' ho']
    · simp [Store.isFilled, h5, hs]
    · intro o' ho'
      have : l₁.find? (fun x => decide (x.id = o'.id)) = some o' := by
        clear h1 e h2 h4 h7 h
        induction l₁ with
        | nil => cases ho'
        | cons a l ih =>
          simp only [ids, List.map_cons, List.nodup_cons] at h3
          rcases List.mem_cons.1 ho' with rfl | ho'
          · simp
          · have : a.id ≠ o'.id := fun h => h3.1 (h ▸ List.mem_map_of_mem ho')
            simp [List.find?_cons, this]
            simpa using ih h3.2 ho'
      simp [Store.get, h7, this]
    · intro id hid
      have : l₁.find? (fun x => decide (x.id = id)) = none := by
        rw [List.find?_eq_none]
        intro x hx
        simp only [decide_eq_true_eq]
        exact fun h => hid (h ▸ List.mem_map_of_mem hx)
      simp [Store.get, h7, this]

/-- Two surfaces, found by their IDs. -/
example : let s := (Store.new.fillStore ⟨"VXD", .ok [some ⟨1, 40⟩, some ⟨2, 30⟩]⟩).2
    s.get 40 = .ok ⟨1, 40⟩ ∧ s.get 30 = .ok ⟨2, 30⟩ ∧ s.get 50 = .throw .gear ∧ s.getFillerName = .ok "VXD" := by
  decide +kernel

/-! ### C97: deletion -/

/-- Destroying the store deletes no surface at all, so that none is deleted twice, and all of them leak. -/
theorem nothing_deleted (s : Store) : s.destroy = [] := by
  unfold Store.destroy
  generalize s.map.map Prod.snd = l
  induction l with
  | nil => rfl
  | cons o l ih => simpa [deleteLoop] using ih

/-- A copy can be destroyed and the original used: no surface is deleted twice or used afterwards. -/
theorem no_double_delete_partial (s : Store) : (s.destroy ++ s.copy.destroy).Nodup ∧ ∀ id, s.copy.get id = s.get id := by
  rw [nothing_deleted, nothing_deleted]; exact ⟨by simp, fun _ => rfl⟩

/-- The surfaces of a filled store are not deleted with it. -/
theorem deleted_false : ∃ (f : Filler) (o : Obj), (Store.new.fillStore f).2.get o.id = .ok o
    ∧ o.addr ∉ (Store.new.fillStore f).2.destroy :=
  ⟨⟨"f", .ok [some ⟨1, 7⟩]⟩, ⟨1, 7⟩, by decide +kernel, by rw [nothing_deleted]; simp⟩

end Gear.Surf
