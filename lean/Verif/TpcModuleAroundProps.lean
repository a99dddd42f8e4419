/-
Property C87 of `TPCModuleImpl`: the angles in the extents of modules that are moved off the centre.
-/
import Verif.TpcModuleAround
import Verif.TpcModuleExtentProps

set_option autoImplicit false
set_option linter.unusedSectionVars false

namespace Gear.TpcModule

open Disk Real
open Spec

variable {id : ℤ} {L : LayoutI ℝ} {f : ℝ} {ops : List Op}

/-! ### C87 -/

namespace Spec

/-- The extents for which the angles are considered: not degenerate to a point and at most a full ring. -/
structure Sector (e : Ext ℝ) : Prop where
  inner : 0 ≤ e.e0
  radii : e.e0 ≤ e.e1
  outer : 0 < e.e1
  angles : e.e2 ≤ e.e3
  turn : e.e3 ≤ e.e2 + 2 * π

/-- The global origin is not on the border of the placed region, and the line from it to an outer corner does not
just touch the outer circle. -/
structure Clear (P : ℝ × ℝ → ℝ × ℝ) (e : Ext ℝ) : Prop where
  border : (0, 0) ∉ frontier (P '' region POLAR e)
  first : ¬ Grazes (P (0, 0)) (P (plane POLAR (e.e1, e.e2)))
  second : ¬ Grazes (P (0, 0)) (P (plane POLAR (e.e1, e.e3)))

end Spec

/-- In a polar TPC the angles in the extents of a module with a polar layout that is moved off the centre, and not
along the y axis, are the range of the directions in which the points of the pad plane and of the module are seen
from the origin, where the module has been placed: if the origin is not just on the border, and the line from it to
an outer corner does not just touch the outer circle. -/
theorem polar_extents_angles_partial (hl : L.coordinateType = POLAR) (hs : Settled ops)
    (hx : (plane POLAR (values f ops).offset).1 ≠ 0) :
    (Sector L.planeExtent → Clear (placement POLAR f ops) L.planeExtent →
      AngularRange (placement POLAR f ops '' region POLAR L.planeExtent)
        (getPlaneExtent (made id L POLAR f ops)).e2 (getPlaneExtent (made id L POLAR f ops)).e3) ∧
    ∀ e, getLocalModuleExtent (made id L POLAR f ops) = e → Sector e → Clear (placement POLAR f ops) e →
      AngularRange (placement POLAR f ops '' region POLAR e)
        (getModuleExtent (made id L POLAR f ops)).e2 (getModuleExtent (made id L POLAR f ops)).e3 := by
  have ht : Known POLAR := Or.inr rfl
  obtain ⟨h1, h2⟩ := settled_extents (id := id) (f := f) ht (Or.inr hl)
    (fun h => polar_ne (by rw [← h.2, hl])) hs
  have e1 : (made id L POLAR f ops).momsCoordinateType = POLAR := made_type ht
  have e2 : (made id L POLAR f ops).layout.coordinateType = POLAR := by rw [made_layout ht, hl]
  have e3 : (made id L POLAR f ops).offsetCartesian.1 ≠ 0 := by rw [(made_values ht).2.2.2.1]; exact hx
  have hP : place (made id L POLAR f ops).angle
      (plane (made id L POLAR f ops).momsCoordinateType (made id L POLAR f ops).offset)
      (made id L POLAR f ops).zPosition = placement POLAR f ops := by
    obtain ⟨v1, v2, v3, v4, -⟩ := made_values (id := id) (L := L) (f := f) (ops := ops) ht
    funext q
    rw [made_type ht, v1, v2, v3]
  constructor
  · rintro ⟨a0, a1, a2, a3, a4⟩ ⟨b0, b1, b2⟩
    have := polar_angles made_inv e1 e2 e3 a0 a1 a2 a3 a4 (by rw [hP]; exact b0)
      (by rw [hP]; rintro th (rfl | rfl); exacts [b1, b2]) h2
    rw [hP] at this
    exact this
  · rintro e rfl ⟨a0, a1, a2, a3, a4⟩ ⟨b0, b1, b2⟩
    have := polar_angles made_inv e1 e2 e3 a0 a1 a2 a3 a4 (by rw [hP]; exact b0)
      (by rw [hP]; rintro th (rfl | rfl); exacts [b1, b2]) h1
    rw [hP] at this
    exact this

/-- A quarter ring that is moved by 5 to the right: the hypotheses hold. -/
example : Settled [.z 1, .offset 5 0] ∧ (plane POLAR (values 0 [.z 1, .offset 5 0]).offset).1 ≠ 0 ∧
    Sector quarterLayout.planeExtent ∧ Clear (placement POLAR 0 [.z 1, .offset 5 0]) quarterLayout.planeExtent := by
  have hp := pi_pos
  have hP : ∀ q, placement POLAR 0 [.z 1, .offset 5 0] q = (q.1 + 5, q.2) := by
    intro q
    unfold placement place
    simp [values, Values.set]
  refine ⟨⟨[.z 1], _, [], rfl, trivial, by simp⟩, by rw [plane_polar]; simp [values, Values.set], ?_, ?_, ?_, ?_⟩
  · constructor <;> simp only [quarterLayout] <;> linarith
  · intro hf
    have hc : IsClosed {q : ℝ × ℝ | 5 ≤ q.1} := isClosed_le continuous_const continuous_fst
    have hsub : placement POLAR 0 [.z 1, .offset 5 0] '' region POLAR quarterLayout.planeExtent ⊆
        {q : ℝ × ℝ | 5 ≤ q.1} := by
      rintro _ ⟨_, ⟨⟨r, th⟩, q0, q1, q2, q3, rfl⟩, rfl⟩
      rw [hP, plane_polar]
      simp only [quarterLayout] at q0 q1 q2 q3
      have : 0 ≤ cos th := cos_nonneg_of_mem_Icc ⟨by linarith, by linarith⟩
      show 5 ≤ r * cos th + 5
      nlinarith
    have := closure_minimal hsub hc hf.1
    norm_num at this
  · unfold Grazes
    rw [hP, hP, plane_polar]
    simp only [quarterLayout]
    norm_num
  · unfold Grazes
    rw [hP, hP, plane_polar]
    simp only [quarterLayout]
    norm_num

/-- If the origin is on a straight edge of the module, the extent is a full turn, although no point of the module is
seen in any direction below the x axis: here a quarter ring that is moved to the left by 3/2. -/
theorem polar_extents_angles_false_edge :
    (getPlaneExtent (made 0 quarterLayout POLAR 0 [.offset (3 / 2) π])).e2 = 0 ∧
      (getPlaneExtent (made 0 quarterLayout POLAR 0 [.offset (3 / 2) π])).e3 = 2 * π ∧
      ∀ φ ∈ directions (placement POLAR 0 [.offset (3 / 2) π] '' region POLAR quarterLayout.planeExtent),
        0 ≤ sin φ := by
  have hp := pi_pos
  have ht : Known POLAR := Or.inr rfl
  have hl : quarterLayout.coordinateType = POLAR := rfl
  have hs : Settled [.offset (3 / 2) π] := ⟨[], _, [], rfl, trivial, by simp⟩
  have hP : ∀ q, placement POLAR 0 [.offset (3 / 2) π] q = (q.1 - 3 / 2, q.2) := by
    intro q
    unfold placement place
    simp [values, Values.set]
    rw [if_neg (by norm_num)]
    ring
  obtain ⟨-, h2⟩ := settled_extents (id := 0) (f := 0) (L := quarterLayout) ht (Or.inr hl)
    (fun h => polar_ne (by rw [← h.2, hl])) hs
  set m := made 0 quarterLayout POLAR 0 [.offset (3 / 2) π] with hm
  obtain ⟨v1, v2, v3, v4, -⟩ := made_values (id := 0) (L := quarterLayout) (f := 0) (ops := [.offset (3 / 2) π]) ht
  have e1 : m.momsCoordinateType = POLAR := made_type ht
  have e2 : m.layout.coordinateType = POLAR := by rw [hm, made_layout ht, hl]
  have hne : m.offset.1 ≠ 0 := by rw [hm, v2]; simp [values, Values.set]
  have hx : m.offsetCartesian.1 ≠ 0 := by rw [hm, v4, plane_polar]; simp [values, Values.set]
  have hInv : Inv m := made_inv
  have hfl : m.localIsGlobal ≠ true := by
    intro hh
    have := (hInv.flag (by rw [e1]; exact ht) hh).2.2
    rw [this] at hne
    exact hne rfl
  have hPm : place m.angle (plane m.momsCoordinateType m.offset) m.zPosition =
      placement POLAR 0 [.offset (3 / 2) π] := by
    funext q
    rw [hm, made_type ht, v1, v2, v3]
  have hw : ¬ WrongComponent m := fun hh => hx hh.2.2.1
  obtain ⟨o, o1, o2, o3⟩ := globalToLocal_place hInv (Or.inr e1) (Or.inr e2) (fun hh => absurd hh hfl) hw (0, 0)
  have o4 : 0 ≤ o.1 := o3 e2 (fun _ => le_rfl)
  obtain ⟨o5, o6⟩ : 0 ≤ o.2 ∧ o.2 < 2 * π := by
    dsimp only at o1
    unfold globalToLocal at o1
    rw [if_neg hfl] at o1
    obtain ⟨d, d1, -⟩ := mirrored (m := m) (Or.inr e1) (0, 0)
    dsimp only at d1
    rw [d1, Res.bind_ok, if_neg (fun hh => hx hh.2.2.1)] at o1
    obtain ⟨c, c1⟩ := cartesian_ok (m := m) (Or.inr e1) d.1 d.2
    rw [c1, Res.bind_ok] at o1
    unfold toLocal at o1
    dsimp only at o1
    rw [if_pos e2] at o1
    obtain rfl := Res.ok.inj o1
    exact toPolar_range _ _
  rw [hPm, hP, e1, e2, plane_polar, plane_polar, Prod.mk.injEq] at o2
  dsimp only at o2
  rw [zero_mul, zero_mul] at o2
  obtain ⟨k1, k2⟩ := o2
  have k1' : o.1 * cos o.2 = 3 / 2 := by linarith
  have hd : o.1 = 3 / 2 := by
    have := sin_sq_add_cos_sq o.2
    have h3 : o.1 ^ 2 = (3 / 2) ^ 2 := by
      rw [← k1']
      linear_combination -o.1 ^ 2 * this + o.1 * sin o.2 * k2
    exact (sq_eq_sq₀ o4 (by norm_num)).1 h3
  have hψ : o.2 = 0 := by
    rw [hd] at k1'
    have hc : cos o.2 = 1 := by linarith
    obtain ⟨k, hk⟩ := (cos_eq_one_iff _).1 hc
    have := turn_unique (lo := 0) (x := o.2) (y := 0) (k := k) (by linarith) o5 (by linarith) le_rfl (by linarith)
    rw [this] at hk
    push_cast at hk
    linarith
  have hext : quarterLayout.planeExtent = ⟨1, 2, 0, π / 2⟩ := rfl
  have hlt : ∀ r θ, ∃ p, localToGlobal realTrig m r θ = .ok p := by
    intro r θ
    obtain ⟨p, p1, -⟩ := localToGlobal_place hInv (Or.inr e1) (Or.inr e2) (fun hh => absurd hh hfl) (r, θ)
    exact ⟨p, p1⟩
  obtain ⟨g0, a0⟩ := hlt 1 0
  obtain ⟨g1, a1⟩ := hlt 1 (π / 2)
  obtain ⟨g2, a2⟩ := hlt 2 0
  obtain ⟨g3, a3⟩ := hlt 2 (π / 2)
  have hphi : polarPhi realTrig m ⟨1, 2, 0, π / 2⟩ o g0 g1 g2 g3 = .ok (0, 2 * π) := by
    unfold polarPhi
    rw [realTrig_pi]
    dsimp only
    rw [if_neg (by rw [hd]; norm_num), if_pos (by linarith)]
    unfold polarPhiA phiGlobalOrigin
    dsimp only
    have : wrapInto π 0 o.2 = 0 := by
      unfold wrapInto
      rw [hψ, wrapUp_id le_rfl, wrapDown_id (by linarith)]
    rw [realTrig_pi, this, if_pos (by linarith), if_neg (by rw [hd]; norm_num)]
  have hg : m.planeExtent.e2 = 0 ∧ m.planeExtent.e3 = 2 * π := by
    rw [hext] at h2
    unfold globalExtent at h2
    rw [if_pos e1, if_pos e2] at h2
    unfold globalExtentPolarPolar at h2
    rw [if_neg hne] at h2
    simp only [o1, a0, a1, a2, a3, hphi, Res.bind_ok, Res.pure_eq] at h2
    rw [← Res.ok.inj h2]
    exact ⟨rfl, rfl⟩
  refine ⟨hg.1, hg.2, ?_⟩
  rintro φ ⟨ρ, hρ, _, ⟨⟨r, th⟩, q0, q1, q2, q3, rfl⟩, hq⟩
  rw [hP, plane_polar, plane_polar, Prod.mk.injEq] at hq
  rw [hext] at q0 q1 q2 q3
  dsimp only at q0 q1 q2 q3 hq
  have h1 : 0 ≤ sin th := sin_nonneg_of_nonneg_of_le_pi q2 (by linarith)
  have h2 : 0 ≤ ρ * sin φ := by rw [← hq.2]; exact mul_nonneg (by linarith) h1
  exact nonneg_of_mul_nonneg_right h2 hρ

/-- A layout that covers a sixth of a ring, on the side of the negative x axis. -/
noncomputable def sixthLayout : LayoutI ℝ := { ringLayout with planeExtent := ⟨1 / 2, 1, -π, -(2 * π / 3)⟩ }

set_option maxHeartbeats 1000000 in
/-- If the line from the origin to an outer corner of the module touches the outer circle there, the extent can be
almost a full turn, although every point of the module is seen to the right of the y axis: here a sixth of a ring that
is moved to the right by 2. -/
theorem polar_extents_angles_false_graze :
    (getPlaneExtent (made 0 sixthLayout POLAR 0 [.offset 2 0])).e2 ≤ 0 ∧
      11 * π / 6 ≤ (getPlaneExtent (made 0 sixthLayout POLAR 0 [.offset 2 0])).e3 ∧
      ∀ φ ∈ directions (placement POLAR 0 [.offset 2 0] '' region POLAR sixthLayout.planeExtent), 0 < cos φ := by
  have hp := pi_pos
  have h3 : √3 * √3 = 3 := Real.mul_self_sqrt (by norm_num)
  have h3p : 0 < √3 := Real.sqrt_pos.2 (by norm_num)
  have ht : Known POLAR := Or.inr rfl
  have hl : sixthLayout.coordinateType = POLAR := rfl
  have hs : Settled [.offset 2 0] := ⟨[], _, [], rfl, trivial, by simp⟩
  have hP : ∀ q, placement POLAR 0 [.offset 2 0] q = (q.1 + 2, q.2) := by
    intro q
    unfold placement place
    simp [values, Values.set]
  obtain ⟨-, h2⟩ := settled_extents (id := 0) (f := 0) (L := sixthLayout) ht (Or.inr hl)
    (fun h => polar_ne (by rw [← h.2, hl])) hs
  set m := made 0 sixthLayout POLAR 0 [.offset 2 0] with hm
  obtain ⟨v1, v2, v3, v4, -⟩ := made_values (id := 0) (L := sixthLayout) (f := 0) (ops := [.offset 2 0]) ht
  have e1 : m.momsCoordinateType = POLAR := made_type ht
  have e2 : m.layout.coordinateType = POLAR := by rw [hm, made_layout ht, hl]
  have hne : m.offset.1 ≠ 0 := by rw [hm, v2]; simp [values, Values.set]
  have hx : m.offsetCartesian.1 ≠ 0 := by rw [hm, v4, plane_polar]; simp [values, Values.set]
  have hInv : Inv m := made_inv
  have hfl : m.localIsGlobal ≠ true := by
    intro hh
    have := (hInv.flag (by rw [e1]; exact ht) hh).2.2
    rw [this] at hne
    exact hne rfl
  have hPm : place m.angle (plane m.momsCoordinateType m.offset) m.zPosition =
      placement POLAR 0 [.offset 2 0] := by
    funext q
    rw [hm, made_type ht, v1, v2, v3]
  have hw : ¬ WrongComponent m := fun hh => hx hh.2.2.1
  -- local and global coordinates, and the ranges of the angles
  have toL : ∀ c : ℝ × ℝ, 0 ≤ c.1 → ∃ o, globalToLocal realTrig m c.1 c.2 = .ok o ∧ 0 ≤ o.1 ∧ 0 ≤ o.2 ∧ o.2 < 2 * π ∧
      o.1 * cos o.2 + 2 = c.1 * cos c.2 ∧ o.1 * sin o.2 = c.1 * sin c.2 := by
    intro c hc
    obtain ⟨o, o1, o2, o3⟩ := globalToLocal_place hInv (Or.inr e1) (Or.inr e2) (fun hh => absurd hh hfl) hw c
    obtain ⟨o5, o6⟩ : 0 ≤ o.2 ∧ o.2 < 2 * π := by
      have o1 := o1
      unfold globalToLocal at o1
      rw [if_neg hfl] at o1
      obtain ⟨d, d1, -⟩ := mirrored (m := m) (Or.inr e1) c
      rw [d1, Res.bind_ok, if_neg (fun hh => hx hh.2.2.1)] at o1
      obtain ⟨c', c1⟩ := cartesian_ok (m := m) (Or.inr e1) d.1 d.2
      rw [c1, Res.bind_ok] at o1
      unfold toLocal at o1
      dsimp only at o1
      rw [if_pos e2] at o1
      obtain rfl := Res.ok.inj o1
      exact toPolar_range _ _
    rw [hPm, hP, e1, e2, plane_polar, plane_polar, Prod.mk.injEq] at o2
    exact ⟨o, o1, o3 e2 (fun _ => hc), o5, o6, o2.1, o2.2⟩
  have toG : ∀ c : ℝ × ℝ, ∃ p, localToGlobal realTrig m c.1 c.2 = .ok p ∧ 0 ≤ p.1 ∧ 0 ≤ p.2 ∧ p.2 < 2 * π ∧
      p.1 * cos p.2 = c.1 * cos c.2 + 2 ∧ p.1 * sin p.2 = c.1 * sin c.2 := by
    intro c
    obtain ⟨p, p1, p2, -⟩ := localToGlobal_place hInv (Or.inr e1) (Or.inr e2) (fun hh => absurd hh hfl) c
    rw [hPm, hP, e1, e2, plane_polar, plane_polar, Prod.mk.injEq] at p2
    have p1' := p1
    unfold localToGlobal at p1'
    dsimp only at p1'
    rw [if_neg hfl, if_pos e2, if_neg (fun hh => hx hh.2.1)] at p1'
    obtain ⟨q, q1, -, q3⟩ := toGlobal_place (m := m) (Or.inr e1) (c.1 * realTrig.cos (c.2 + m.angle))
          (c.1 * realTrig.sin (c.2 + m.angle))
    rw [q1] at p1'
    obtain rfl := Res.ok.inj p1'
    obtain ⟨q4, q5, q6⟩ := q3 e1
    exact ⟨q, p1, q4, q5, q6, p2.1, p2.2⟩
  -- the polar coordinates of a point are determined by the point
  have uniq : ∀ {r t r' t' : ℝ}, 0 ≤ r → 0 < r' → 0 ≤ t → t < 2 * π → 0 ≤ t' → t' < 2 * π →
      r * cos t = r' * cos t' → r * sin t = r' * sin t' → r = r' ∧ t = t' := by
    intro r t r' t' hr hr' ht ht2 ht' ht2' hc hsn
    have s1 := sin_sq_add_cos_sq t
    have s2 := sin_sq_add_cos_sq t'
    have hrr : r = r' := by
      have : r ^ 2 = r' ^ 2 := by
        linear_combination -r ^ 2 * s1 + r' ^ 2 * s2 + (r * cos t + r' * cos t') * hc + (r * sin t + r' * sin t') * hsn
      exact (sq_eq_sq₀ hr hr'.le).1 this
    subst hrr
    have c1 := mul_left_cancel₀ hr'.ne' hc
    have c2 := mul_left_cancel₀ hr'.ne' hsn
    have : cos (t - t') = 1 := by rw [cos_sub, c1, c2]; linarith
    obtain ⟨k, hk⟩ := (cos_eq_one_iff _).1 this
    have hk0 := turn_unique (lo := 0) (x := t) (y := t') (k := k) (by linarith) ht (by linarith) ht' (by linarith)
    rw [hk0] at hk
    push_cast at hk
    exact ⟨rfl, by linarith⟩
  have c43 : cos (4 * π / 3) = -(1 / 2) := by
    rw [show 4 * π / 3 = π / 3 + π by ring, cos_add_pi, cos_pi_div_three]
  have s43 : sin (4 * π / 3) = -(√3 / 2) := by
    rw [show 4 * π / 3 = π / 3 + π by ring, sin_add_pi, sin_pi_div_three]
  have c23 : cos (2 * π / 3) = -(1 / 2) := by
    rw [show 2 * π / 3 = π - π / 3 by ring, cos_pi_sub, cos_pi_div_three]
  have s23 : sin (2 * π / 3) = √3 / 2 := by
    rw [show 2 * π / 3 = π - π / 3 by ring, sin_pi_sub, sin_pi_div_three]
  have c116 : cos (11 * π / 6) = √3 / 2 := by
    rw [show 11 * π / 6 = 2 * π - π / 6 by ring, cos_two_pi_sub, cos_pi_div_six]
  have s116 : sin (11 * π / 6) = -(1 / 2) := by
    rw [show 11 * π / 6 = 2 * π - π / 6 by ring, sin_two_pi_sub, sin_pi_div_six]
  -- the global origin in local coordinates
  obtain ⟨o, o1, o2, o3, o4, o5, o6⟩ := toL (0, 0) le_rfl
  dsimp only at o1 o5 o6
  obtain ⟨hd, -⟩ : o.1 = 2 ∧ o.2 = π := uniq o2 (by norm_num) o3 o4 hp.le (by linarith)
    (by rw [cos_pi]; linarith) (by rw [sin_pi]; linarith)
  -- the local origin and the corners in global coordinates
  obtain ⟨og, b1, b2, b3, b4, b5, b6⟩ := toG (0, 0)
  dsimp only at b1 b5 b6
  obtain ⟨og1, og2⟩ : og.1 = 2 ∧ og.2 = 0 := uniq b2 (by norm_num) b3 b4 le_rfl (by linarith)
    (by rw [cos_zero]; linarith) (by rw [sin_zero]; linarith)
  obtain ⟨g0, a0, x1, x2, x3, x4, x5⟩ := toG (1 / 2, -π)
  obtain ⟨g1, a1, -⟩ := toG (1 / 2, -(2 * π / 3))
  obtain ⟨g2, a2, -⟩ := toG (1, -π)
  obtain ⟨g3, a3, y1, y2, y3, y4, y5⟩ := toG (1, -(2 * π / 3))
  dsimp only at a0 a1 a2 a3 x4 x5 y4 y5
  rw [cos_neg, cos_pi] at x4
  rw [sin_neg, sin_pi] at x5
  rw [cos_neg, c23] at y4
  rw [sin_neg, s23] at y5
  obtain ⟨-, hg0⟩ : g0.1 = 3 / 2 ∧ g0.2 = 0 := uniq x1 (by norm_num) x2 x3 le_rfl (by linarith)
    (by rw [cos_zero]; linarith) (by rw [sin_zero]; linarith)
  obtain ⟨-, hg3⟩ : g3.1 = √3 ∧ g3.2 = 11 * π / 6 := uniq y1 h3p y2 y3 (by linarith) (by linarith)
    (by rw [c116]; linarith) (by rw [s116]; linarith)
  -- the points at which the tangents touch the outer circle
  have hasin : realTrig.asin (1 / o.1) = π / 6 := by
    rw [hd]
    change Real.arcsin (1 / 2) = π / 6
    rw [← sin_pi_div_six]
    exact Real.arcsin_sin (by linarith) (by linarith)
  have hrt : realTrig.sqrt (og.1 * og.1 - 1 * 1) = √3 := by
    rw [realTrig_sqrt, og1]; norm_num
  have touch : ∀ t, t = π / 6 ∨ t = -(π / 6) → ∃ o, globalToLocal realTrig m √3 t = .ok o ∧
      ¬ wrapInto π (-π) o.2 < -(2 * π / 3) := by
    intro t htt
    obtain ⟨o, o1, o2, o3, o4, o5, o6⟩ := toL (√3, t) h3p.le
    dsimp only at o1 o5 o6
    refine ⟨o, o1, ?_⟩
    rcases htt with rfl | rfl
    · obtain ⟨-, h⟩ : o.1 = 1 ∧ o.2 = 2 * π / 3 := uniq o2 (by norm_num) o3 o4 (by linarith) (by linarith)
        (by rw [c23]; rw [cos_pi_div_six] at o5; linarith) (by rw [s23]; rw [sin_pi_div_six] at o6; linarith)
      unfold wrapInto
      rw [h, wrapUp_id (by linarith), wrapDown_id (by linarith)]
      linarith
    · obtain ⟨-, h⟩ : o.1 = 1 ∧ o.2 = 4 * π / 3 := uniq o2 (by norm_num) o3 o4 (by linarith) (by linarith)
        (by rw [c43]; rw [cos_neg, cos_pi_div_six] at o5; linarith)
        (by rw [s43]; rw [sin_neg, sin_pi_div_six] at o6; linarith)
      unfold wrapInto
      rw [h, wrapUp_id (by linarith)]
      obtain ⟨k, hk⟩ := wrapDown_shift π (-π + 2 * π) (4 * π / 3)
      have l1 := wrapDown_le (hi := -π + 2 * π) hp (4 * π / 3)
      have l2 := wrapDown_gt (hi := -π + 2 * π) hp (show -π + 2 * π < 4 * π / 3 by linarith)
      have k1 : (k : ℝ) < 0 := by by_contra hh; push Not at hh; nlinarith
      have k2 : (-2 : ℝ) < k := by by_contra hh; push Not at hh; nlinarith
      have k1' : k < 0 := by exact_mod_cast k1
      have k2' : -2 < k := by exact_mod_cast k2
      obtain rfl : k = -1 := by omega
      rw [hk]
      push_cast
      linarith
  obtain ⟨t1, t11, t12⟩ := touch _ (Or.inl rfl)
  obtain ⟨t2, t21, t22⟩ := touch _ (Or.inr rfl)
  have hphi : ∃ lo hi, polarPhi realTrig m ⟨1 / 2, 1, -π, -(2 * π / 3)⟩ o g0 g1 g2 g3 = .ok (lo, hi) ∧ lo ≤ 0 ∧
      11 * π / 6 ≤ hi := by
    have w0 : wrapInto π (-(π / 6)) g0.2 = 0 := by
      unfold wrapInto
      rw [hg0, wrapUp_id (by linarith), wrapDown_id (by linarith)]
    have w3 : wrapInto π (-(π / 6)) g3.2 = 11 * π / 6 := by
      unfold wrapInto
      rw [hg3, wrapUp_id (by linarith), wrapDown_id (by linarith)]
    have hm4 : ∀ a b c : ℝ, min4 0 a b c ≤ 0 := by
      intro a b c
      unfold min4
      dsimp only
      split_ifs <;> linarith
    have hM4 : ∀ a b c : ℝ, 11 * π / 6 ≤ max4 a b c (11 * π / 6) := by
      intro a b c
      unfold max4
      dsimp only
      split_ifs <;> linarith
    refine ⟨min4 0 (wrapInto π (-(π / 6)) g1.2) (wrapInto π (-(π / 6)) g2.2) (11 * π / 6),
      max4 0 (wrapInto π (-(π / 6)) g1.2) (wrapInto π (-(π / 6)) g2.2) (11 * π / 6), ?_, hm4 _ _ _, hM4 _ _ _⟩
    unfold polarPhi
    dsimp only
    rw [if_pos (by rw [hd]; norm_num), b1, Res.bind_ok]
    unfold polarPhiOutside
    simp only [hasin, hrt, og2, zero_sub, zero_add, realTrig_pi, w0, w3]
    by_cases hz : m.zPosition > 0
    · simp only [if_pos hz, t11, t21, Res.bind_ok]
      exact congrArg Res.ok (Prod.ext (if_neg (fun h => t22 (of_decide_eq_true h)))
        (if_neg (fun h => t12 (of_decide_eq_true h))))
    · simp only [if_neg hz, t11, t21, Res.bind_ok]
      exact congrArg Res.ok (Prod.ext (if_neg (fun h => t22 (of_decide_eq_true h)))
        (if_neg (fun h => t12 (of_decide_eq_true h))))
  obtain ⟨lo, hi, hphi, hlo, hhi⟩ := hphi
  have hext : sixthLayout.planeExtent = ⟨1 / 2, 1, -π, -(2 * π / 3)⟩ := rfl
  have hg : m.planeExtent.e2 = lo ∧ m.planeExtent.e3 = hi := by
    rw [hext] at h2
    unfold globalExtent at h2
    rw [if_pos e1, if_pos e2] at h2
    unfold globalExtentPolarPolar at h2
    rw [if_neg hne] at h2
    simp only [o1, a0, a1, a2, a3, hphi, Res.bind_ok, Res.pure_eq] at h2
    rw [← Res.ok.inj h2]
    exact ⟨rfl, rfl⟩
  refine ⟨hg.1.trans_le hlo, hhi.trans_eq hg.2.symm, ?_⟩
  rintro φ ⟨ρ, hρ, _, ⟨⟨r, th⟩, q0, q1, q2, q3, rfl⟩, hq⟩
  rw [hP, plane_polar, plane_polar, Prod.mk.injEq] at hq
  rw [hext] at q0 q1 q2 q3
  dsimp only at q0 q1 q2 q3 hq
  have hb := neg_one_le_cos th
  have h2 : 0 < ρ * cos φ := by rw [← hq.1]; nlinarith
  exact pos_of_mul_pos_right h2 hρ.le

end Gear.TpcModule
