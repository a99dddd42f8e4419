/-
Helper lemmas about the model of `TPCModuleImpl`.
-/
import Verif.TpcModuleSpec
import Verif.DiskLemmas

set_option autoImplicit false
set_option linter.unusedSectionVars false

namespace Gear.TpcModule

open Disk Real
open Spec

/-! ### Polar coordinates -/

@[simp] theorem realTrig_pi : realTrig.pi = π := rfl
@[simp] theorem realTrig_cos (x : ℝ) : realTrig.cos x = cos x := rfl
@[simp] theorem realTrig_sin (x : ℝ) : realTrig.sin x = sin x := rfl
@[simp] theorem realTrig_sqrt (x : ℝ) : realTrig.sqrt x = √x := rfl

theorem polar_ne : ¬ CARTESIAN = POLAR := by decide

@[simp] theorem plane_polar (c : ℝ × ℝ) : plane POLAR c = (c.1 * cos c.2, c.1 * sin c.2) := if_pos rfl
@[simp] theorem plane_cartesian (c : ℝ × ℝ) : plane CARTESIAN c = c := if_neg polar_ne

/-- The polar coordinates computed from Cartesian ones. -/
noncomputable def toPolar (x y : ℝ) : ℝ × ℝ :=
  (realTrig.sqrt (x * x + y * y),
    if realTrig.atan2 y x < 0 then realTrig.atan2 y x + 2 * realTrig.pi else realTrig.atan2 y x)

theorem cos_wrap (a : ℝ) : cos (if a < 0 then a + 2 * π else a) = cos a := by
  split_ifs
  · exact cos_add_two_pi a
  · rfl

theorem sin_wrap (a : ℝ) : sin (if a < 0 then a + 2 * π else a) = sin a := by
  split_ifs
  · exact sin_add_two_pi a
  · rfl

theorem plane_toPolar (x y : ℝ) : plane POLAR (toPolar x y) = (x, y) := by
  have h : √(x * x + y * y) = ‖(⟨x, y⟩ : ℂ)‖ := by
    rw [Complex.norm_eq_sqrt_sq_add_sq]; congr 1; ring
  rw [plane_polar]
  unfold toPolar
  dsimp only
  rw [realTrig_pi, cos_wrap, sin_wrap, realTrig_sqrt, h]
  exact Prod.ext (Complex.norm_mul_cos_arg _) (Complex.norm_mul_sin_arg _)

theorem toPolar_nonneg (x y : ℝ) : 0 ≤ (toPolar x y).1 := Real.sqrt_nonneg _

theorem toPolar_range (x y : ℝ) : 0 ≤ (toPolar x y).2 ∧ (toPolar x y).2 < 2 * π := by
  have h1 := Complex.neg_pi_lt_arg (⟨x, y⟩ : ℂ)
  have h2 := Complex.arg_le_pi (⟨x, y⟩ : ℂ)
  have h3 := Real.pi_pos
  have h4 : (toPolar x y).2 = if Complex.arg ⟨x, y⟩ < 0 then Complex.arg ⟨x, y⟩ + 2 * π
    else Complex.arg ⟨x, y⟩ := rfl
  rw [h4]
  split_ifs with h
  · constructor <;> linarith
  · constructor <;> linarith

/-- Equal points with radii that are not negative have the same polar coordinates. -/
theorem same_of_plane {c d : ℝ × ℝ} (hc : 0 ≤ c.1) (hd : 0 ≤ d.1) (h : plane POLAR c = plane POLAR d) :
    Same POLAR c d := by
  rw [plane_polar, plane_polar, Prod.mk.injEq] at h
  obtain ⟨h1, h2⟩ := h
  have h3 : c.1 ^ 2 = d.1 ^ 2 := by
    have a := sin_sq_add_cos_sq c.2
    have b := sin_sq_add_cos_sq d.2
    calc c.1 ^ 2 = (c.1 * cos c.2) ^ 2 + (c.1 * sin c.2) ^ 2 := by
          rw [mul_pow, mul_pow, ← mul_add, add_comm, a, mul_one]
      _ = (d.1 * cos d.2) ^ 2 + (d.1 * sin d.2) ^ 2 := by rw [h1, h2]
      _ = d.1 ^ 2 := by rw [mul_pow, mul_pow, ← mul_add, add_comm, b, mul_one]
  have h4 : c.1 = d.1 := by
    rcases (sq_eq_sq_iff_eq_or_eq_neg.1 h3) with h | h
    · exact h
    · linarith
  unfold Same
  rw [if_pos rfl]
  refine ⟨h4, ?_⟩
  by_cases h0 : c.1 = 0
  · exact Or.inl h0
  · right
    rw [← h4] at h1 h2
    have h5 := mul_left_cancel₀ h0 h1
    have h6 := mul_left_cancel₀ h0 h2
    have h7 : cos (c.2 - d.2) = 1 := by
      rw [cos_sub, h5, h6, ← sq, ← sq]; exact cos_sq_add_sin_sq _
    obtain ⟨k, hk⟩ := (Real.cos_eq_one_iff _).1 h7
    exact ⟨k, by linarith⟩

theorem plane_of_same {t : ℤ} {c d : ℝ × ℝ} (h : Same t c d) : plane t c = plane t d := by
  unfold Same at h
  unfold plane
  split_ifs at h ⊢ with ht
  · obtain ⟨h1, h2 | ⟨k, h2⟩⟩ := h
    · rw [← h1, h2]; simp
    · rw [← h1, h2]
      have e1 : cos (d.2 + k * (2 * π)) = cos d.2 := cos_add_int_mul_two_pi d.2 k
      have e2 : sin (d.2 + k * (2 * π)) = sin d.2 := sin_add_int_mul_two_pi d.2 k
      rw [e1, e2]
  · exact h

/-! ### Invariants -/

/-- The cached values belong to the values. -/
structure Inv (m : Module ℝ) : Prop where
  cosA : m.cosAngle = cos m.angle
  sinA : m.sinAngle = sin m.angle
  off : Known m.momsCoordinateType → m.offsetCartesian = plane m.momsCoordinateType m.offset
  flag : Known m.momsCoordinateType → m.localIsGlobal = true → m.momsCoordinateType = m.layout.coordinateType ∧ m.angle = 0 ∧
    m.offset = (0, 0)

theorem Inv.check {m : Module ℝ} (h1 : m.cosAngle = cos m.angle) (h2 : m.sinAngle = sin m.angle)
    (h3 : Known m.momsCoordinateType → m.offsetCartesian = plane m.momsCoordinateType m.offset) :
    Inv (checkLocalIsGlobal m) := by
  refine ⟨h1, h2, h3, fun _ h => ?_⟩
  have := of_decide_eq_true h
  exact ⟨this.1, this.2.1, Prod.ext this.2.2.1 this.2.2.2.1⟩

/-- The extents do not matter. -/
theorem Inv.extents {m m' : Module ℝ} (h : Inv m) (a : m'.cosAngle = m.cosAngle) (b : m'.sinAngle = m.sinAngle)
    (c : m'.angle = m.angle) (d : m'.offset = m.offset) (e : m'.offsetCartesian = m.offsetCartesian)
    (f : m'.momsCoordinateType = m.momsCoordinateType) (g : m'.layout = m.layout)
    (i : m'.localIsGlobal = m.localIsGlobal) : Inv m' := by
  refine ⟨?_, ?_, ?_, ?_⟩
  · rw [a, c]; exact h.cosA
  · rw [b, c]; exact h.sinA
  · rw [f, e, d]; exact h.off
  · rw [i, f, g, c, d]; exact h.flag

theorem convertExtents_eq {K : Type} [Field K] [LinearOrder K] [IsStrictOrderedRing K] [FloorRing K]
    (F : TrigFns K) (m : Module K) : ∃ a b c, (convertExtents F m).1 =
      { m with localModuleExtent := a, moduleExtent := b, planeExtent := c } := by
  unfold convertExtents
  cases localExtent F m with
  | throw x => exact ⟨m.localModuleExtent, m.moduleExtent, m.planeExtent, rfl⟩
  | ub => exact ⟨m.localModuleExtent, m.moduleExtent, m.planeExtent, rfl⟩
  | ok e =>
    dsimp only
    cases globalExtent F { m with localModuleExtent := e } e with
    | throw x => exact ⟨e, m.moduleExtent, m.planeExtent, rfl⟩
    | ub => exact ⟨e, m.moduleExtent, m.planeExtent, rfl⟩
    | ok me =>
      dsimp only
      cases globalExtent F { m with localModuleExtent := e, moduleExtent := me } m.layout.planeExtent with
      | throw x => exact ⟨e, me, m.planeExtent, rfl⟩
      | ub => exact ⟨e, me, m.planeExtent, rfl⟩
      | ok pe => exact ⟨e, me, pe, rfl⟩

theorem Inv.convert {m : Module ℝ} (h : Inv m) : Inv (convertExtents realTrig m).1 := by
  obtain ⟨a, b, c, e⟩ := convertExtents_eq realTrig m
  rw [e]
  exact h.extents rfl rfl rfl rfl rfl rfl rfl rfl

theorem Inv.new (id : ℤ) (L : LayoutI ℝ) (t : ℤ) (f : ℝ) : Inv (new id L t f) := by
  unfold TpcModule.new
  refine Inv.check ?_ ?_ ?_
  · simp
  · simp
  · intro h
    dsimp only
    unfold plane
    split_ifs <;> simp

theorem Inv.step {m : Module ℝ} (h : Inv m) (o : Op) : Inv (step m o) := by
  cases o with
  | border w => exact (h.extents rfl rfl rfl rfl rfl rfl rfl rfl : Inv { m with border := w }).convert
  | z z => exact h.extents rfl rfl rfl rfl rfl rfl rfl rfl
  | frequency f => exact h.extents rfl rfl rfl rfl rfl rfl rfl rfl
  | angle a =>
    exact (Inv.check (m := { m with angle := a, cosAngle := realTrig.cos a, sinAngle := realTrig.sin a })
      rfl rfl h.off).convert
  | offset x y =>
    show Inv (setOffset realTrig m x y).1
    unfold setOffset
    dsimp only
    split_ifs with h1 h2
    · refine (Inv.check (m := { m with offset := (x, y), offsetCartesian := (x * realTrig.cos y, x * realTrig.sin y) })
        h.cosA h.sinA fun _ => ?_).convert
      dsimp only; rw [h1]; rfl
    · refine (Inv.check (m := { m with offset := (x, y), offsetCartesian := (x, y) })
        h.cosA h.sinA fun _ => ?_).convert
      dsimp only; rw [h2]; rfl
    · have hk : ¬ Known m.momsCoordinateType := fun hk => hk.elim h2 h1
      exact ⟨h.cosA, h.sinA, fun h' => absurd h' hk, fun h' => absurd h' hk⟩

theorem Inv.run {m : Module ℝ} (h : Inv m) (ops : List Op) : Inv (run m ops) := by
  induction ops generalizing m with
  | nil => exact h
  | cons o ops ih => exact ih (h.step o)

/-! ### The transformations -/

theorem place_angle (angle : ℝ) (off : ℝ × ℝ) (z r phi : ℝ) :
    place angle off z (r * cos phi, r * sin phi) =
      (if z ≤ 0 then -(r * cos (phi + angle) + off.1) else r * cos (phi + angle) + off.1,
        r * sin (phi + angle) + off.2) := by
  unfold place
  dsimp only
  rw [cos_add, sin_add]
  have e1 : r * cos phi * cos angle - r * sin phi * sin angle =
    r * (cos phi * cos angle - sin phi * sin angle) := by ring
  have e2 : r * cos phi * sin angle + r * sin phi * cos angle =
    r * (sin phi * cos angle + cos phi * sin angle) := by ring
  rw [e1, e2]

theorem toGlobal_place {m : Module ℝ} (ht : Known m.momsCoordinateType) (x y : ℝ) :
    ∃ p, toGlobal realTrig m x y = .ok p ∧
      plane m.momsCoordinateType p = (if m.zPosition ≤ 0 then -(x + m.offsetCartesian.1)
        else x + m.offsetCartesian.1, y + m.offsetCartesian.2) ∧
      (m.momsCoordinateType = POLAR → 0 ≤ p.1 ∧ 0 ≤ p.2 ∧ p.2 < 2 * π) := by
  unfold toGlobal
  dsimp only
  generalize (if m.zPosition ≤ 0 then -(x + m.offsetCartesian.1) else x + m.offsetCartesian.1) = X
  generalize y + m.offsetCartesian.2 = Y
  rcases ht with ht | ht
  · rw [if_neg (by rw [ht]; exact polar_ne), if_pos ht, ht]
    exact ⟨_, rfl, plane_cartesian _, fun h => absurd h polar_ne⟩
  · rw [if_pos ht, ht]
    exact ⟨toPolar X Y, rfl, plane_toPolar X Y, fun _ => ⟨toPolar_nonneg X Y, toPolar_range X Y⟩⟩

theorem cos_wrap2 (a : ℝ) : cos (if a > 2 * π then a - 2 * π else a) = cos a := by
  split_ifs
  · exact cos_sub_two_pi a
  · rfl

theorem sin_wrap2 (a : ℝ) : sin (if a > 2 * π then a - 2 * π else a) = sin a := by
  split_ifs
  · exact sin_sub_two_pi a
  · rfl

/-- `localToGlobal` places the point as it should, unless the flag of the short cut is out of date. -/
theorem localToGlobal_place {m : Module ℝ} (h : Inv m) (ht : Known m.momsCoordinateType)
    (hl : Known m.layout.coordinateType) (hf : m.localIsGlobal = true → 0 < m.zPosition) (c : ℝ × ℝ) :
    ∃ p, localToGlobal realTrig m c.1 c.2 = .ok p ∧
      plane m.momsCoordinateType p =
        place m.angle (plane m.momsCoordinateType m.offset) m.zPosition (plane m.layout.coordinateType c) ∧
      (m.momsCoordinateType = POLAR → (m.layout.coordinateType = POLAR → 0 ≤ c.1) → 0 ≤ p.1) := by
  unfold localToGlobal
  by_cases hg : m.localIsGlobal = true
  · rw [if_pos hg]
    obtain ⟨e1, e2, e3⟩ := h.flag ht hg
    refine ⟨c, rfl, ?_, fun a b => b (e1 ▸ a)⟩
    rw [e2, e3, e1]
    have : plane m.layout.coordinateType (0, 0) = (0, 0) := by
      unfold plane; split_ifs <;> simp
    rw [this]
    unfold place
    simp [not_le.2 (hf hg)]
  · rw [if_neg hg]
    have hoff := h.off ht
    rcases hl with hl | hl
    · rw [if_neg (by rw [hl]; exact polar_ne), if_pos hl, hl, plane_cartesian]
      obtain ⟨p, e1, e2, e3⟩ := toGlobal_place (m := m) ht (c.1 * m.cosAngle - c.2 * m.sinAngle)
        (c.2 * m.cosAngle + c.1 * m.sinAngle)
      refine ⟨p, e1, ?_, fun a _ => (e3 a).1⟩
      rw [e2, hoff, h.cosA, h.sinA]
      unfold place
      dsimp only
      rw [add_comm (c.2 * cos m.angle)]
    · rw [if_pos hl, hl, plane_polar]
      dsimp only
      rw [place_angle]
      by_cases hc : m.momsCoordinateType = POLAR ∧ m.offsetCartesian.1 = 0 ∧ m.offsetCartesian.2 = 0
      · rw [if_pos hc]
        refine ⟨_, rfl, ?_, fun _ b => b rfl⟩
        rw [hc.1] at hoff ⊢
        rw [plane_polar]
        dsimp only
        rw [realTrig_pi, cos_wrap2, sin_wrap2, cos_wrap, sin_wrap, ← hoff, hc.2.1, hc.2.2]
        split_ifs with hz
        · rw [cos_pi_sub, sin_pi_sub]; simp
        · simp
      · rw [if_neg hc]
        obtain ⟨p, e1, e2, e3⟩ := toGlobal_place (m := m) ht (c.1 * realTrig.cos (c.2 + m.angle))
          (c.1 * realTrig.sin (c.2 + m.angle))
        refine ⟨p, e1, ?_, fun a _ => (e3 a).1⟩
        rw [e2, hoff]
        rfl

/-- The case in which line 48 looks at the wrong component of the offset. -/
def WrongComponent (m : Module ℝ) : Prop :=
  m.momsCoordinateType = POLAR ∧ m.layout.coordinateType = POLAR ∧
    m.offsetCartesian.1 = 0 ∧ m.offsetCartesian.2 ≠ 0

/-- The global point in the system of the positive side. -/
theorem mirrored {m : Module ℝ} (ht : Known m.momsCoordinateType) (c : ℝ × ℝ) :
    ∃ d : ℝ × ℝ, mirror realTrig m c.1 c.2 = .ok d ∧
      plane m.momsCoordinateType d = (if m.zPosition ≤ 0 then -(plane m.momsCoordinateType c).1
        else (plane m.momsCoordinateType c).1, (plane m.momsCoordinateType c).2) ∧
      (m.momsCoordinateType = POLAR → d.1 = c.1) := by
  unfold mirror
  by_cases hz : m.zPosition ≤ 0
  · simp only [if_pos hz]
    rcases ht with ht | ht
    · rw [if_neg (by rw [ht]; exact polar_ne), if_pos ht, ht]
      exact ⟨_, rfl, by simp, fun h => absurd h polar_ne⟩
    · rw [if_pos ht, ht]
      refine ⟨_, rfl, ?_, fun _ => rfl⟩
      simp [cos_pi_sub, sin_pi_sub]
  · simp only [if_neg hz]
    exact ⟨_, rfl, rfl, fun _ => rfl⟩

theorem cos_wrap3 (a : ℝ) : cos (if a > 2 * π then a + 2 * π else a) = cos a := by
  split_ifs
  · exact cos_add_two_pi a
  · rfl

theorem sin_wrap3 (a : ℝ) : sin (if a > 2 * π then a + 2 * π else a) = sin a := by
  split_ifs
  · exact sin_add_two_pi a
  · rfl

/-- `globalToLocal` finds the point that is placed there. -/
theorem globalToLocal_place {m : Module ℝ} (h : Inv m) (ht : Known m.momsCoordinateType)
    (hl : Known m.layout.coordinateType) (hf : m.localIsGlobal = true → 0 < m.zPosition)
    (hw : ¬ WrongComponent m) (c : ℝ × ℝ) :
    ∃ p, globalToLocal realTrig m c.1 c.2 = .ok p ∧
      place m.angle (plane m.momsCoordinateType m.offset) m.zPosition (plane m.layout.coordinateType p) =
        plane m.momsCoordinateType c ∧
      (m.layout.coordinateType = POLAR → (m.momsCoordinateType = POLAR → 0 ≤ c.1) → 0 ≤ p.1) := by
  unfold globalToLocal
  by_cases hg : m.localIsGlobal = true
  · rw [if_pos hg]
    obtain ⟨e1, e2, e3⟩ := h.flag ht hg
    refine ⟨c, rfl, ?_, fun a b => b (e1 ▸ a)⟩
    rw [e2, e3, e1]
    have : plane m.layout.coordinateType (0, 0) = (0, 0) := by
      unfold plane; split_ifs <;> simp
    rw [this]
    unfold place
    simp [not_le.2 (hf hg)]
  · rw [if_neg hg]
    have hoff := h.off ht
    obtain ⟨d, d1, d2, d3⟩ := mirrored ht c
    rw [d1, Res.bind_ok]
    dsimp only
    by_cases hc : m.momsCoordinateType = POLAR ∧ m.layout.coordinateType = POLAR ∧
        m.offsetCartesian.1 = 0 ∧ m.offsetCartesian.1 = 0
    · rw [if_pos hc]
      refine ⟨_, rfl, ?_, fun _ b => by rw [d3 hc.1]; exact b hc.1⟩
      have h2 : m.offsetCartesian.2 = 0 := by
        by_contra hh; exact hw ⟨hc.1, hc.2.1, hc.2.2.1, hh⟩
      rw [hc.2.1, plane_polar, place_angle]
      dsimp only
      rw [hc.1] at hoff d2 ⊢
      rw [← hoff, hc.2.2.1, h2, realTrig_pi, add_zero, add_zero, cos_add, sin_add, cos_wrap3, sin_wrap3, cos_wrap,
        sin_wrap, ← cos_add, ← sin_add, sub_add_cancel]
      rw [plane_polar, Prod.mk.injEq] at d2
      rw [d2.1, d2.2]
      split_ifs
      · rw [neg_neg]
      · rfl
    · rw [if_neg hc]
      have hxy : cartesian realTrig m d.1 d.2 = .ok (plane m.momsCoordinateType d) := by
        unfold cartesian
        rcases ht with ht | ht
        · rw [if_neg (by rw [ht]; exact polar_ne), if_pos ht, ht, plane_cartesian]
        · rw [if_pos ht, ht, plane_polar]; rfl
      rw [hxy, Res.bind_ok, d2]
      unfold toLocal
      rw [hoff, h.cosA, h.sinA]
      dsimp only
      generalize plane m.momsCoordinateType c = g
      generalize plane m.momsCoordinateType m.offset = o
      have key : ∀ q : ℝ × ℝ, q = (((if m.zPosition ≤ 0 then -g.1 else g.1) - o.1) * cos m.angle +
            (g.2 - o.2) * sin m.angle,
          (g.2 - o.2) * cos m.angle - ((if m.zPosition ≤ 0 then -g.1 else g.1) - o.1) * sin m.angle) →
          place m.angle o m.zPosition q = g := by
        intro q hq
        subst hq
        unfold place
        dsimp only
        have s := sin_sq_add_cos_sq m.angle
        apply Prod.ext
        · dsimp only
          split_ifs with hz
          · linear_combination (g.1 + o.1) * s
          · linear_combination (g.1 - o.1) * s
        · dsimp only
          linear_combination (g.2 - o.2) * s
      rcases hl with hl | hl
      · rw [if_neg (by rw [hl]; exact polar_ne), if_pos hl, hl]
        exact ⟨_, rfl, key _ (plane_cartesian _), fun a => absurd a polar_ne⟩
      · rw [if_pos hl, hl]
        exact ⟨toPolar _ _, rfl, key _ (plane_toPolar _ _), fun _ _ => toPolar_nonneg _ _⟩

/-- Placing is one to one. -/
theorem place_inj {angle : ℝ} {off : ℝ × ℝ} {z : ℝ} {p q : ℝ × ℝ}
    (h : place angle off z p = place angle off z q) : p = q := by
  unfold place at h
  dsimp only at h
  rw [Prod.mk.injEq] at h
  obtain ⟨h1, h2⟩ := h
  have s := sin_sq_add_cos_sq angle
  have h1' : p.1 * cos angle - p.2 * sin angle = q.1 * cos angle - q.2 * sin angle := by
    split_ifs at h1 <;> linarith
  have h2' : p.1 * sin angle + p.2 * cos angle = q.1 * sin angle + q.2 * cos angle := by linarith
  apply Prod.ext
  · linear_combination cos angle * h1' + sin angle * h2' + (q.1 - p.1) * s
  · linear_combination cos angle * h2' - sin angle * h1' + (q.2 - p.2) * s

/-- Placing keeps distances. -/
theorem place_dist (angle : ℝ) (off : ℝ × ℝ) (z : ℝ) (p q : ℝ × ℝ) :
    Disk.Spec.dist2 (place angle off z p) (place angle off z q) = Disk.Spec.dist2 p q := by
  unfold Disk.Spec.dist2
  congr 1
  unfold place
  dsimp only
  have s := sin_sq_add_cos_sq angle
  split_ifs
  · linear_combination ((p.1 - q.1) ^ 2 + (p.2 - q.2) ^ 2) * s
  · linear_combination ((p.1 - q.1) ^ 2 + (p.2 - q.2) ^ 2) * s

/-! ### The conversions do not fail for the coordinate types there are -/

theorem toGlobal_ok {m : Module ℝ} (ht : Known m.momsCoordinateType) (x y : ℝ) :
    ∃ p, toGlobal realTrig m x y = .ok p := by
  obtain ⟨p, h, -⟩ := toGlobal_place ht x y
  exact ⟨p, h⟩

theorem localToGlobal_ok {m : Module ℝ} (ht : Known m.momsCoordinateType)
    (hl : Known m.layout.coordinateType) (x y : ℝ) : ∃ p, localToGlobal realTrig m x y = .ok p := by
  unfold localToGlobal
  by_cases h1 : m.localIsGlobal = true
  · rw [if_pos h1]; exact ⟨_, rfl⟩
  · rw [if_neg h1]
    rcases hl with hl | hl
    · rw [if_neg (by rw [hl]; exact polar_ne), if_pos hl]; exact toGlobal_ok ht _ _
    · rw [if_pos hl]
      dsimp only
      by_cases h2 : m.momsCoordinateType = POLAR ∧ m.offsetCartesian.1 = 0 ∧ m.offsetCartesian.2 = 0
      · rw [if_pos h2]; exact ⟨_, rfl⟩
      · rw [if_neg h2]; exact toGlobal_ok ht _ _

theorem toLocal_ok {m : Module ℝ} (hl : Known m.layout.coordinateType) (x y : ℝ) :
    ∃ p, toLocal realTrig m x y = .ok p := by
  unfold toLocal
  rcases hl with hl | hl
  · dsimp only
    rw [if_neg (by rw [hl]; exact polar_ne), if_pos hl]; exact ⟨_, rfl⟩
  · dsimp only
    rw [if_pos hl]; exact ⟨_, rfl⟩

theorem cartesian_ok {m : Module ℝ} (ht : Known m.momsCoordinateType) (x y : ℝ) :
    ∃ p, cartesian realTrig m x y = .ok p := by
  unfold cartesian
  rcases ht with ht | ht
  · rw [if_neg (by rw [ht]; exact polar_ne), if_pos ht]; exact ⟨_, rfl⟩
  · rw [if_pos ht]; exact ⟨_, rfl⟩

theorem globalToLocal_ok {m : Module ℝ} (ht : Known m.momsCoordinateType)
    (hl : Known m.layout.coordinateType) (x y : ℝ) : ∃ p, globalToLocal realTrig m x y = .ok p := by
  unfold globalToLocal
  by_cases h1 : m.localIsGlobal = true
  · rw [if_pos h1]; exact ⟨_, rfl⟩
  · rw [if_neg h1]
    obtain ⟨d, d1, -⟩ := mirrored ht (x, y)
    dsimp only at d1
    rw [d1, Res.bind_ok]
    by_cases h2 : m.momsCoordinateType = POLAR ∧ m.layout.coordinateType = POLAR ∧
        m.offsetCartesian.1 = 0 ∧ m.offsetCartesian.1 = 0
    · rw [if_pos h2]; exact ⟨_, rfl⟩
    · rw [if_neg h2]
      obtain ⟨c, c1⟩ := cartesian_ok ht d.1 d.2
      rw [c1, Res.bind_ok]
      exact toLocal_ok hl _ _

theorem cornerBox_ok {m : Module ℝ} (ht : Known m.momsCoordinateType)
    (hl : Known m.layout.coordinateType) (e : Ext ℝ) : ∃ b, cornerBox realTrig m e = .ok b := by
  unfold cornerBox
  obtain ⟨p0, h0⟩ := localToGlobal_ok ht hl e.e0 e.e2
  obtain ⟨p1, h1⟩ := localToGlobal_ok ht hl e.e0 e.e3
  obtain ⟨p2, h2⟩ := localToGlobal_ok ht hl e.e1 e.e2
  obtain ⟨p3, h3⟩ := localToGlobal_ok ht hl e.e1 e.e3
  simp only [h0, h1, h2, h3, Res.bind_ok, Res.pure_eq]
  exact ⟨_, rfl⟩

theorem inSector_ok {m : Module ℝ} (ht : Known m.momsCoordinateType)
    (hl : Known m.layout.coordinateType) (e : Ext ℝ) (x y : ℝ) : ∃ b, inSector realTrig m e x y = .ok b := by
  unfold inSector
  obtain ⟨p, h⟩ := globalToLocal_ok ht hl x y
  rw [h, Res.bind_ok]
  exact ⟨_, rfl⟩

theorem globalExtentCartesianPolar_ok {m : Module ℝ} (ht : Known m.momsCoordinateType)
    (hl : Known m.layout.coordinateType) (e : Ext ℝ) :
    ∃ b, globalExtentCartesianPolar realTrig m e = .ok b := by
  unfold globalExtentCartesianPolar
  obtain ⟨b, h⟩ := cornerBox_ok ht hl e
  obtain ⟨o, h0⟩ := localToGlobal_ok ht hl 0 0
  obtain ⟨b1, h1⟩ := inSector_ok ht hl e o.1 (o.2 + e.e1)
  obtain ⟨b2, h2⟩ := inSector_ok ht hl e o.1 (o.2 - e.e1)
  obtain ⟨b3, h3⟩ := inSector_ok ht hl e (o.1 + e.e1) o.2
  obtain ⟨b4, h4⟩ := inSector_ok ht hl e (o.1 - e.e1) o.2
  simp only [h, h0, h1, h2, h3, h4, Res.bind_ok, Res.pure_eq]
  exact ⟨_, rfl⟩

theorem polarPhi_ok {m : Module ℝ} (ht : Known m.momsCoordinateType)
    (hl : Known m.layout.coordinateType) (e : Ext ℝ) (o g0 g1 g2 g3 : ℝ × ℝ) :
    ∃ b, polarPhi realTrig m e o g0 g1 g2 g3 = .ok b := by
  unfold polarPhi
  split_ifs
  · obtain ⟨og, h0⟩ := localToGlobal_ok ht hl 0 0
    rw [h0, Res.bind_ok]
    unfold polarPhiOutside
    dsimp only
    generalize (if m.zPosition > 0 then og.2 - realTrig.asin (e.e1 / o.1)
      else og.2 + realTrig.asin (e.e1 / o.1)) = a
    generalize (if m.zPosition > 0 then og.2 + realTrig.asin (e.e1 / o.1)
      else og.2 - realTrig.asin (e.e1 / o.1)) = b
    obtain ⟨p, hp⟩ := globalToLocal_ok ht hl (realTrig.sqrt (og.1 * og.1 - e.e1 * e.e1)) a
    obtain ⟨q, hq⟩ := globalToLocal_ok ht hl (realTrig.sqrt (og.1 * og.1 - e.e1 * e.e1)) b
    rw [hp, Res.bind_ok, hq, Res.bind_ok]
    exact ⟨_, rfl⟩
  · exact ⟨_, rfl⟩
  · exact ⟨_, rfl⟩

theorem globalExtentPolarPolar_ok {m : Module ℝ} (ht : Known m.momsCoordinateType)
    (hl : Known m.layout.coordinateType) (e : Ext ℝ) :
    ∃ b, globalExtentPolarPolar realTrig m e = .ok b := by
  unfold globalExtentPolarPolar
  split_ifs
  · exact ⟨_, rfl⟩
  · obtain ⟨o, h⟩ := globalToLocal_ok ht hl 0 0
    obtain ⟨p0, h0⟩ := localToGlobal_ok ht hl e.e0 e.e2
    obtain ⟨p1, h1⟩ := localToGlobal_ok ht hl e.e0 e.e3
    obtain ⟨p2, h2⟩ := localToGlobal_ok ht hl e.e1 e.e2
    obtain ⟨p3, h3⟩ := localToGlobal_ok ht hl e.e1 e.e3
    obtain ⟨phi, h4⟩ := polarPhi_ok ht hl e o p0 p1 p2 p3
    simp only [h, h0, h1, h2, h3, h4, Res.bind_ok, Res.pure_eq]
    exact ⟨_, rfl⟩

/-- The combination that is not implemented. -/
def Unsupported (t l : ℤ) : Prop := t = POLAR ∧ l = CARTESIAN

theorem globalExtent_ok {m : Module ℝ} (ht : Known m.momsCoordinateType)
    (hl : Known m.layout.coordinateType) (hu : ¬ Unsupported m.momsCoordinateType m.layout.coordinateType)
    (e : Ext ℝ) : ∃ b, globalExtent realTrig m e = .ok b := by
  unfold globalExtent
  split_ifs with h1 h2 h3 h4 h5 h6
  · exact globalExtentPolarPolar_ok ht hl e
  · exact absurd ⟨h1, h3⟩ hu
  · exact absurd hl (fun h => h.elim h3 h2)
  · exact globalExtentCartesianPolar_ok ht hl e
  · exact cornerBox_ok ht hl e
  · exact absurd hl (fun h => h.elim h6 h5)
  · exact absurd ht (fun h => h.elim h4 h1)

theorem localExtent_ok {m : Module ℝ} (hl : Known m.layout.coordinateType) :
    ∃ b, localExtent realTrig m = .ok b := by
  unfold localExtent
  dsimp only
  by_cases h1 : m.border = 0
  · rw [if_pos h1]; exact ⟨_, rfl⟩
  · rw [if_neg h1]
    rcases hl with hl | hl
    · rw [if_neg (by rw [hl]; exact polar_ne), if_pos hl]; exact ⟨_, rfl⟩
    · rw [if_pos hl]; exact ⟨_, rfl⟩

/-! ### The state depends on the last values only -/

/-- Other extents. -/
def withExt (m : Module ℝ) (a b c : Ext ℝ) : Module ℝ :=
  { m with localModuleExtent := a, moduleExtent := b, planeExtent := c }

theorem localExtent_withExt (m : Module ℝ) (a b c : Ext ℝ) :
    localExtent realTrig (withExt m a b c) = localExtent realTrig m := rfl

theorem globalExtent_withExt (m : Module ℝ) (a b c e : Ext ℝ) :
    globalExtent realTrig (withExt m a b c) e = globalExtent realTrig m e := rfl

theorem convertExtents_of {m : Module ℝ} (ht : Known m.momsCoordinateType)
    (hl : Known m.layout.coordinateType) (hu : ¬ Unsupported m.momsCoordinateType m.layout.coordinateType) :
    ∃ a b c, localExtent realTrig m = .ok a ∧ globalExtent realTrig m a = .ok b ∧
      globalExtent realTrig m m.layout.planeExtent = .ok c ∧
      convertExtents realTrig m = (withExt m a b c, .ok ()) := by
  obtain ⟨a, ha⟩ := localExtent_ok (m := m) hl
  obtain ⟨b, hb⟩ := globalExtent_ok ht hl hu a
  obtain ⟨c, hc⟩ := globalExtent_ok ht hl hu m.layout.planeExtent
  refine ⟨a, b, c, ha, hb, hc, ?_⟩
  have e1 : globalExtent realTrig { m with localModuleExtent := a } a = .ok b := hb
  have e2 : globalExtent realTrig { m with localModuleExtent := a, moduleExtent := b } m.layout.planeExtent =
    .ok c := hc
  unfold convertExtents
  simp only [ha, e1, e2]
  rfl

theorem convertExtents_unsupported {m : Module ℝ} (hu : Unsupported m.momsCoordinateType m.layout.coordinateType) :
    ∃ a, localExtent realTrig m = .ok a ∧
      convertExtents realTrig m = (withExt m a m.moduleExtent m.planeExtent, .throw .notImplemented) := by
  obtain ⟨a, ha⟩ := localExtent_ok (m := m) (Or.inl hu.2)
  refine ⟨a, ha, ?_⟩
  have e1 : globalExtent realTrig { m with localModuleExtent := a } a = .throw .notImplemented := by
    unfold globalExtent
    dsimp only
    rw [if_pos hu.1, if_neg (by rw [hu.2]; exact polar_ne), if_pos hu.2]
  unfold convertExtents
  simp only [ha, e1]
  rfl

/-- Extents left from before do not matter, except those that an unsupported module keeps. -/
theorem convertExtents_congr {m : Module ℝ} (ht : Known m.momsCoordinateType)
    (hl : Known m.layout.coordinateType) (a b c : Ext ℝ)
    (hu : Unsupported m.momsCoordinateType m.layout.coordinateType → b = m.moduleExtent ∧ c = m.planeExtent) :
    (convertExtents realTrig (withExt m a b c)).1 = (convertExtents realTrig m).1 := by
  by_cases hc : Unsupported m.momsCoordinateType m.layout.coordinateType
  · obtain ⟨a1, h1, h2⟩ := convertExtents_unsupported hc
    obtain ⟨a2, h3, h4⟩ := convertExtents_unsupported (m := withExt m a b c) hc
    rw [h2, h4]
    rw [localExtent_withExt, h1] at h3
    obtain rfl := Res.ok.inj h3
    obtain ⟨rfl, rfl⟩ := hu hc
    rfl
  · obtain ⟨a1, b1, c1, h1, h2, h3, h4⟩ := convertExtents_of ht hl hc
    obtain ⟨a2, b2, c2, g1, g2, g3, g4⟩ := convertExtents_of (m := withExt m a b c) ht hl hc
    rw [localExtent_withExt, h1] at g1
    obtain rfl := Res.ok.inj g1
    rw [globalExtent_withExt, h2] at g2
    obtain rfl := Res.ok.inj g2
    have g3' : globalExtent realTrig m m.layout.planeExtent = .ok c2 := g3
    rw [h3] at g3'
    obtain rfl := Res.ok.inj g3'
    rw [h4, g4]
    rfl

/-- A module with the given values, before the extents are computed. -/
noncomputable def base (id : ℤ) (L : LayoutI ℝ) (t : ℤ) (v : Values) : Module ℝ where
  planeExtent := L.planeExtent
  moduleExtent := L.planeExtent
  localModuleExtent := L.planeExtent
  layout := L
  readoutFrequency := v.frequency
  offset := v.offset
  offsetCartesian := plane t v.offset
  zPosition := v.z.getD 1
  angle := v.angle
  cosAngle := cos v.angle
  sinAngle := sin v.angle
  momsCoordinateType := t
  moduleID := id
  border := v.border
  localIsGlobal := false
  zPositionIsSet := v.z.isSome

/-- The module that belongs to the values. -/
noncomputable def canon (id : ℤ) (L : LayoutI ℝ) (t : ℤ) (v : Values) : Module ℝ :=
  (convertExtents realTrig (checkLocalIsGlobal (base id L t v))).1

/-- The module has the values, with some extents and some flag. -/
def Has (id : ℤ) (L : LayoutI ℝ) (t : ℤ) (v : Values) (m : Module ℝ) : Prop :=
  ∃ a b c f, m = { withExt (base id L t v) a b c with localIsGlobal := f } ∧
    (Unsupported t L.coordinateType → b = L.planeExtent ∧ c = L.planeExtent)

theorem Has.convert {id : ℤ} {L : LayoutI ℝ} {t : ℤ} {v : Values} {m : Module ℝ}
    (h : Has id L t v m) : Has id L t v (convertExtents realTrig m).1 := by
  obtain ⟨a, b, c, f, rfl, hu⟩ := h
  by_cases hc : Unsupported t L.coordinateType
  · obtain ⟨a1, -, h2⟩ := convertExtents_unsupported
      (m := { withExt (base id L t v) a b c with localIsGlobal := f }) hc
    rw [h2]
    exact ⟨a1, b, c, f, rfl, hu⟩
  · obtain ⟨a1, b1, c1, e⟩ := convertExtents_eq realTrig
      { withExt (base id L t v) a b c with localIsGlobal := f }
    rw [e]
    exact ⟨a1, b1, c1, f, rfl, fun h => absurd h hc⟩

theorem Has.check {id : ℤ} {L : LayoutI ℝ} {t : ℤ} {v : Values} {m : Module ℝ}
    (h : Has id L t v m) : Has id L t v (checkLocalIsGlobal m) := by
  obtain ⟨a, b, c, f, rfl, hu⟩ := h
  exact ⟨a, b, c, _, rfl, hu⟩

theorem Has.offset {id : ℤ} {L : LayoutI ℝ} {t : ℤ} {v : Values} {m : Module ℝ} (h : Has id L t v m)
    (ht : Known t) (x y : ℝ) : ∃ m', Has id L t (v.set (.offset x y)) m' ∧
      (setOffset realTrig m x y).1 = (convertExtents realTrig (checkLocalIsGlobal m')).1 := by
  obtain ⟨a, b, c, f, rfl, hu⟩ := h
  refine ⟨{ withExt (base id L t (v.set (.offset x y))) a b c with localIsGlobal := f },
    ⟨a, b, c, f, rfl, hu⟩, ?_⟩
  rcases ht with rfl | rfl
  · have : (withExt (base id L CARTESIAN v) a b c).momsCoordinateType = CARTESIAN := rfl
    unfold setOffset
    dsimp only
    rw [if_neg (by rw [this]; exact polar_ne), if_pos this]
    simp only [base, withExt, Values.set, plane_cartesian]
  · have : (withExt (base id L POLAR v) a b c).momsCoordinateType = POLAR := rfl
    unfold setOffset
    dsimp only
    rw [if_pos this]
    simp only [base, withExt, Values.set, plane_polar, realTrig_cos, realTrig_sin]

theorem Has.step {id : ℤ} {L : LayoutI ℝ} {t : ℤ} {v : Values} {m : Module ℝ} (h : Has id L t v m)
    (ht : Known t) (o : Op) : Has id L t (v.set o) (step m o) := by
  cases o with
  | border w =>
    refine Has.convert (m := { m with border := w }) ?_
    obtain ⟨a, b, c, f, rfl, hu⟩ := h
    exact ⟨a, b, c, f, rfl, hu⟩
  | z z =>
    obtain ⟨a, b, c, f, rfl, hu⟩ := h
    exact ⟨a, b, c, f, rfl, hu⟩
  | frequency w =>
    obtain ⟨a, b, c, f, rfl, hu⟩ := h
    exact ⟨a, b, c, f, rfl, hu⟩
  | angle w =>
    refine Has.convert (Has.check
      (m := { m with angle := w, cosAngle := realTrig.cos w, sinAngle := realTrig.sin w }) ?_)
    obtain ⟨a, b, c, f, rfl, hu⟩ := h
    exact ⟨a, b, c, f, rfl, hu⟩
  | offset x y =>
    obtain ⟨m', h1, h2⟩ := h.offset ht x y
    show Has id L t _ (setOffset realTrig m x y).1
    rw [h2]
    exact h1.check.convert

theorem Has.canon {id : ℤ} {L : LayoutI ℝ} {t : ℤ} {v : Values} {m : Module ℝ} (h : Has id L t v m)
    (ht : Known t) (hl : Known L.coordinateType) :
    (convertExtents realTrig (checkLocalIsGlobal m)).1 = TpcModule.canon id L t v := by
  obtain ⟨a, b, c, f, rfl, hu⟩ := h
  exact convertExtents_congr (m := checkLocalIsGlobal (base id L t v)) ht hl a b c hu

theorem step_moves {id : ℤ} {L : LayoutI ℝ} {t : ℤ} {v : Values} {m : Module ℝ} (h : Has id L t v m)
    (ht : Known t) (hl : Known L.coordinateType) {o : Op} (ho : Op.moves o) :
    step m o = canon id L t (v.set o) := by
  cases o with
  | border w => exact ho.elim
  | z z => exact ho.elim
  | frequency w => exact ho.elim
  | angle w =>
    refine Has.canon (m := { m with angle := w, cosAngle := realTrig.cos w, sinAngle := realTrig.sin w })
      (v := v.set (.angle w)) ?_ ht hl
    obtain ⟨a, b, c, f, rfl, hu⟩ := h
    exact ⟨a, b, c, f, rfl, hu⟩
  | offset x y =>
    obtain ⟨m', h1, h2⟩ := h.offset ht x y
    exact h2.trans (h1.canon ht hl)

theorem base_has {id : ℤ} {L : LayoutI ℝ} {t : ℤ} {v : Values} : Has id L t v (base id L t v) :=
  ⟨_, _, _, _, rfl, fun _ => ⟨rfl, rfl⟩⟩

theorem convertExtents_frequency (m : Module ℝ) (f : ℝ) :
    (convertExtents realTrig { m with readoutFrequency := f }).1 =
      { (convertExtents realTrig m).1 with readoutFrequency := f } := by
  unfold convertExtents
  have h0 : localExtent realTrig { m with readoutFrequency := f } = localExtent realTrig m := rfl
  rw [h0]
  cases localExtent realTrig m with
  | throw x => rfl
  | ub => rfl
  | ok a =>
    dsimp only
    have h1 : globalExtent realTrig { m with readoutFrequency := f, localModuleExtent := a } a =
      globalExtent realTrig { m with localModuleExtent := a } a := rfl
    rw [h1]
    cases globalExtent realTrig { m with localModuleExtent := a } a with
    | throw x => rfl
    | ub => rfl
    | ok b =>
      dsimp only
      have h2 : globalExtent realTrig { m with readoutFrequency := f, localModuleExtent := a, moduleExtent := b }
          m.layout.planeExtent =
        globalExtent realTrig { m with localModuleExtent := a, moduleExtent := b } m.layout.planeExtent := rfl
      rw [h2]
      cases globalExtent realTrig { m with localModuleExtent := a, moduleExtent := b } m.layout.planeExtent with
      | throw x => rfl
      | ub => rfl
      | ok c => rfl

theorem canon_step {id : ℤ} {L : LayoutI ℝ} {t : ℤ} {v : Values}
    (ht : Known t) (hl : Known L.coordinateType) {o : Op} (ho : ¬ Op.setsZ o) :
    step (canon id L t v) o = canon id L t (v.set o) := by
  have hb : Has id L t v (canon id L t v) := base_has.check.convert
  cases o with
  | z z => exact absurd trivial ho
  | angle w => exact step_moves hb ht hl trivial
  | offset x y => exact step_moves hb ht hl trivial
  | frequency w => exact (convertExtents_frequency (checkLocalIsGlobal (base id L t v)) w).symm
  | border w =>
    have hk := convertExtents_eq realTrig (checkLocalIsGlobal (base id L t v))
    have hu : Unsupported t L.coordinateType → (canon id L t v).moduleExtent = L.planeExtent ∧
        (canon id L t v).planeExtent = L.planeExtent := by
      intro hc
      obtain ⟨a1, -, h2⟩ := convertExtents_unsupported (m := checkLocalIsGlobal (base id L t v)) hc
      unfold canon
      rw [h2]
      exact ⟨rfl, rfl⟩
    obtain ⟨a, b, c, e⟩ := hk
    have e' : canon id L t v = withExt (checkLocalIsGlobal (base id L t v)) a b c := e
    rw [e'] at hu ⊢
    exact convertExtents_congr (m := checkLocalIsGlobal (base id L t (v.set (.border w)))) ht hl a b c hu

theorem new_has (id : ℤ) (L : LayoutI ℝ) (t : ℤ) (f : ℝ) : Has id L t (values f []) (new id L t f) := by
  refine ⟨L.planeExtent, L.planeExtent, L.planeExtent, (new id L t f).localIsGlobal, ?_, fun _ => ⟨rfl, rfl⟩⟩
  have h : plane t (0, 0) = (0, 0) := by unfold plane; split_ifs <;> simp
  simp only [TpcModule.new, checkLocalIsGlobal, withExt, base, values, List.foldl_nil, h, cos_zero, sin_zero]
  rfl

theorem run_has {id : ℤ} {L : LayoutI ℝ} {t : ℤ} {f : ℝ} (ht : Known t) (ops : List Op) :
    Has id L t (values f ops) (run (new id L t f) ops) := by
  have key : ∀ (ops : List Op) (v : Values) (m : Module ℝ), Has id L t v m →
      Has id L t (ops.foldl Values.set v) (run m ops) := by
    intro ops
    induction ops with
    | nil => intro v m h; exact h
    | cons o ops ih => intro v m h; exact ih _ _ (h.step ht o)
  exact key ops _ _ (new_has id L t f)

theorem run_settled {id : ℤ} {L : LayoutI ℝ} {t : ℤ} {f : ℝ} (ht : Known t) (hl : Known L.coordinateType)
    {ops : List Op} (h : Settled ops) : run (new id L t f) ops = canon id L t (values f ops) := by
  obtain ⟨pre, o, post, rfl, ho, hp⟩ := h
  have key : ∀ (post : List Op) (v : Values), (∀ p ∈ post, ¬ Op.setsZ p) →
      run (canon id L t v) post = canon id L t (post.foldl Values.set v) := by
    intro post
    induction post with
    | nil => intro v _; rfl
    | cons p post ih =>
      intro v hp
      show run (step (canon id L t v) p) post = _
      rw [canon_step ht hl (hp p List.mem_cons_self)]
      exact ih _ fun q hq => hp q (List.mem_cons_of_mem _ hq)
  have e1 : run (new id L t f) (pre ++ o :: post) = run (step (run (new id L t f) pre) o) post := by
    unfold run; rw [List.foldl_append, List.foldl_cons]
  have e2 : values f (pre ++ o :: post) = post.foldl Values.set ((values f pre).set o) := by
    unfold values; rw [List.foldl_append, List.foldl_cons]
  rw [e1, e2, step_moves (run_has ht pre) ht hl ho]
  exact key post _ hp

end Gear.TpcModule
