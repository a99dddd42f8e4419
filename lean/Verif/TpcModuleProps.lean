/-
Properties C27, C28, C82 and C86 of `TPCModuleImpl`.
-/
import Verif.TpcModuleLemmas
import Mathlib.Analysis.Real.Pi.Bounds

set_option autoImplicit false
set_option linter.unusedSectionVars false

namespace Gear.TpcModule

open Disk Real
open Spec

/-- A module of a TPC with coordinates of type `t`, after any sequence of setter calls. -/
noncomputable abbrev made (id : ℤ) (L : LayoutI ℝ) (t : ℤ) (f : ℝ) (ops : List Op) : Module ℝ :=
  run (new id L t f) ops

variable {id : ℤ} {L : LayoutI ℝ} {t : ℤ} {f : ℝ} {ops : List Op}

theorem made_inv : Inv (made id L t f ops) := (Inv.new id L t f).run ops

theorem made_type (ht : Known t) : (made id L t f ops).momsCoordinateType = t := by
  obtain ⟨a, b, c, g, e, -⟩ := run_has (id := id) (L := L) (f := f) ht ops
  rw [made, e]; rfl

theorem made_layout (ht : Known t) : (made id L t f ops).layout = L := by
  obtain ⟨a, b, c, g, e, -⟩ := run_has (id := id) (L := L) (f := f) ht ops
  rw [made, e]; rfl

theorem made_values (ht : Known t) :
    (made id L t f ops).angle = (values f ops).angle ∧ (made id L t f ops).offset = (values f ops).offset ∧
      (made id L t f ops).zPosition = (values f ops).z.getD 1 ∧
      (made id L t f ops).offsetCartesian = plane t (values f ops).offset ∧
      (made id L t f ops).border = (values f ops).border := by
  obtain ⟨a, b, c, g, e, -⟩ := run_has (id := id) (L := L) (f := f) ht ops
  rw [made, e]; exact ⟨rfl, rfl, rfl, rfl, rfl⟩

theorem settled_flag (ht : Known t) (hl : Known L.coordinateType) (h : Settled ops) :
    (made id L t f ops).localIsGlobal = true → 0 < (made id L t f ops).zPosition := by
  rw [made, run_settled ht hl h]
  obtain ⟨a, b, c, e⟩ := convertExtents_eq realTrig (checkLocalIsGlobal (base id L t (values f ops)))
  unfold canon
  rw [e]
  intro hd
  exact (of_decide_eq_true hd).2.2.2.2

/-- The case that line 48 of `TPCModuleImpl.cc` gets wrong: polar coordinates inside and outside, and an offset
along the y axis. -/
def Spec.OffsetAlongY (t l : ℤ) (offset : ℝ × ℝ) : Prop :=
  t = POLAR ∧ l = POLAR ∧ (plane POLAR offset).1 = 0 ∧ (plane POLAR offset).2 ≠ 0

theorem made_wrong (ht : Known t) (hw : ¬ OffsetAlongY t L.coordinateType (values f ops).offset) :
    ¬ WrongComponent (made id L t f ops) := by
  rintro ⟨h1, h2, h3, h4⟩
  rw [made_type ht] at h1
  rw [made_layout ht] at h2
  rw [(made_values ht).2.2.2.1, h1] at h3 h4
  exact hw ⟨h1, h2, h3, h4⟩

/-! ### Examples -/

/-- A Cartesian layout of one unit square pad, number 0. -/
noncomputable def squareLayout : LayoutI ℝ where
  coordinateType := CARTESIAN
  planeExtent := ⟨0, 1, 0, 1⟩
  getPadCenter := fun _ => .ok (1 / 2, 1 / 2)
  getNearestPad := fun _ _ => .ok 0
  isInsidePad := fun x y _ => .ok (decide (0 ≤ x ∧ x < 1 ∧ 0 ≤ y ∧ y < 1))
  getDistanceToPad := fun _ _ _ => .ok 0

/-- A polar layout of one pad, number 0, that covers a ring. -/
noncomputable def ringLayout : LayoutI ℝ where
  coordinateType := POLAR
  planeExtent := ⟨1, 2, 0, 2 * π⟩
  getPadCenter := fun _ => .ok (3 / 2, 0)
  getNearestPad := fun _ _ => .ok 0
  isInsidePad := fun r _ _ => .ok (decide (1 ≤ r ∧ r < 2))
  getDistanceToPad := fun _ _ _ => .ok 0

theorem settled_example : Settled [.z (-1), .offset 3 4, .angle 1, .border 2] :=
  ⟨[.z (-1)], .offset 3 4, [.angle 1, .border 2], rfl, trivial, by
    intro p hp
    simp only [List.mem_cons, List.not_mem_nil, or_false] at hp
    rcases hp with rfl | rfl <;> exact fun h => h⟩

/-! ### C27 -/

/-- A point of the module's own plane is found where the module has been placed: rotated by the angle, moved by
the offset and mirrored on the negative side. -/
theorem localToGlobal_is_placement_partial (ht : Known t) (hl : Known L.coordinateType) (hs : Settled ops)
    (c : ℝ × ℝ) :
    ∃ p, localToGlobal realTrig (made id L t f ops) c.1 c.2 = .ok p ∧
      plane t p = place (values f ops).angle (plane t (values f ops).offset) ((values f ops).z.getD 1)
        (plane L.coordinateType c) := by
  obtain ⟨v1, v2, v3, v4, -⟩ := made_values (id := id) (L := L) (f := f) (ops := ops) ht
  obtain ⟨p, h1, h2, -⟩ := localToGlobal_place (made_inv (id := id) (L := L) (t := t) (f := f) (ops := ops))
    (by rw [made_type ht]; exact ht) (by rw [made_layout ht]; exact hl) (settled_flag ht hl hs) c
  rw [made_type ht, made_layout ht, v1, v2, v3] at h2
  exact ⟨p, h1, h2⟩

/-- The local coordinates of a global point are those of the point of the module's own plane that is placed
there. -/
theorem globalToLocal_is_placement_partial (ht : Known t) (hl : Known L.coordinateType) (hs : Settled ops)
    (hw : ¬ OffsetAlongY t L.coordinateType (values f ops).offset) (c : ℝ × ℝ) :
    ∃ p, globalToLocal realTrig (made id L t f ops) c.1 c.2 = .ok p ∧
      place (values f ops).angle (plane t (values f ops).offset) ((values f ops).z.getD 1)
        (plane L.coordinateType p) = plane t c := by
  obtain ⟨v1, v2, v3, v4, -⟩ := made_values (id := id) (L := L) (f := f) (ops := ops) ht
  obtain ⟨p, h1, h2, -⟩ := globalToLocal_place (made_inv (id := id) (L := L) (t := t) (f := f) (ops := ops))
    (by rw [made_type ht]; exact ht) (by rw [made_layout ht]; exact hl) (settled_flag ht hl hs)
    (made_wrong ht hw) c
  rw [made_type ht, made_layout ht, v1, v2, v3] at h2
  exact ⟨p, h1, h2⟩

theorem same_refl (t : ℤ) (c : ℝ × ℝ) : Same t c c := by
  unfold Same
  split_ifs
  · exact ⟨rfl, Or.inr ⟨0, by simp⟩⟩
  · rfl

theorem same_of {t : ℤ} {c d : ℝ × ℝ} (ht : Known t) (h : plane t c = plane t d) (hc : t = POLAR → 0 ≤ c.1)
    (hd : t = POLAR → 0 ≤ d.1) : Same t c d := by
  rcases ht with rfl | rfl
  · unfold Same
    rw [if_neg polar_ne]
    simpa using h
  · exact same_of_plane (hc rfl) (hd rfl) h

/-- From global to local coordinates and back, after any sequence of setter calls. -/
theorem global_roundtrip_partial (ht : Known t) (hl : Known L.coordinateType)
    (hw : ¬ OffsetAlongY t L.coordinateType (values f ops).offset) (c : ℝ × ℝ) (hc : t = POLAR → 0 ≤ c.1) :
    ∃ p q, globalToLocal realTrig (made id L t f ops) c.1 c.2 = .ok p ∧
      localToGlobal realTrig (made id L t f ops) p.1 p.2 = .ok q ∧ Same t q c := by
  by_cases hg : (made id L t f ops).localIsGlobal = true
  · refine ⟨c, c, ?_, ?_, same_refl t c⟩
    · unfold globalToLocal; rw [if_pos hg]
    · unfold localToGlobal; rw [if_pos hg]
  · have h0 : Known (made id L t f ops).momsCoordinateType := by rw [made_type ht]; exact ht
    have h1 : Known (made id L t f ops).layout.coordinateType := by rw [made_layout ht]; exact hl
    obtain ⟨p, a1, a2, a3⟩ := globalToLocal_place made_inv h0 h1 (fun h => absurd h hg) (made_wrong ht hw) c
    obtain ⟨q, b1, b2, b3⟩ := localToGlobal_place made_inv h0 h1 (fun h => absurd h hg) p
    refine ⟨p, q, a1, b1, ?_⟩
    rw [a2] at b2
    rw [made_type ht] at a3 b2 b3
    exact same_of ht b2 (fun h => b3 h fun h' => a3 h' fun _ => hc h) hc

/-- From local to global coordinates and back, after any sequence of setter calls. -/
theorem local_roundtrip_partial (ht : Known t) (hl : Known L.coordinateType)
    (hw : ¬ OffsetAlongY t L.coordinateType (values f ops).offset) (c : ℝ × ℝ)
    (hc : L.coordinateType = POLAR → 0 ≤ c.1) :
    ∃ p q, localToGlobal realTrig (made id L t f ops) c.1 c.2 = .ok p ∧
      globalToLocal realTrig (made id L t f ops) p.1 p.2 = .ok q ∧ Same L.coordinateType q c := by
  by_cases hg : (made id L t f ops).localIsGlobal = true
  · refine ⟨c, c, ?_, ?_, same_refl _ c⟩
    · unfold localToGlobal; rw [if_pos hg]
    · unfold globalToLocal; rw [if_pos hg]
  · have h0 : Known (made id L t f ops).momsCoordinateType := by rw [made_type ht]; exact ht
    have h1 : Known (made id L t f ops).layout.coordinateType := by rw [made_layout ht]; exact hl
    obtain ⟨p, b1, b2, b3⟩ := localToGlobal_place made_inv h0 h1 (fun h => absurd h hg) c
    obtain ⟨q, a1, a2, a3⟩ := globalToLocal_place made_inv h0 h1 (fun h => absurd h hg) (made_wrong ht hw) p
    refine ⟨p, q, b1, a1, ?_⟩
    rw [b2] at a2
    have a4 := place_inj a2
    rw [made_layout ht] at a3 a4 b3
    exact same_of hl a4 (fun h => a3 h fun h' => b3 h' fun _ => hc h) hc

/-- A module in the state the theorems speak about: mirrored, moved and rotated. -/
example : Known POLAR ∧ Known ringLayout.coordinateType ∧ Settled [.z (-1), .offset 3 4, .angle 1, .border 2] ∧
    ¬ OffsetAlongY CARTESIAN squareLayout.coordinateType
      (values 0 [.z (-1), .offset 3 4, .angle 1, .border 2]).offset ∧
    ¬ OffsetAlongY POLAR ringLayout.coordinateType (values 0 [.offset 3 0]).offset := by
  refine ⟨Or.inr rfl, Or.inr rfl, settled_example, fun h => absurd h.1 polar_ne, ?_⟩
  rintro ⟨-, -, h, -⟩
  simp [values, Values.set] at h

/-- With an offset along the y axis a polar module in a polar TPC converts the point at radius 2 on the y axis
to one at radius 3. -/
theorem global_roundtrip_false_offset_along_y :
    ∃ p q, globalToLocal realTrig (made 0 ringLayout POLAR 0 [.offset 1 (π / 2)]) 2 (π / 2) = .ok p ∧
      localToGlobal realTrig (made 0 ringLayout POLAR 0 [.offset 1 (π / 2)]) p.1 p.2 = .ok q ∧
      p = (2, π / 2) ∧ q.1 = 3 ∧ ¬ Same POLAR q (2, π / 2) := by
  have ht : Known POLAR := Or.inr rfl
  have hs : Settled [.offset 1 (π / 2)] := ⟨[], _, [], rfl, trivial, by simp⟩
  set m := made 0 ringLayout POLAR 0 [.offset 1 (π / 2)] with hm
  obtain ⟨v1, v2, v3, v4, -⟩ := made_values (id := 0) (L := ringLayout) (f := 0) (ops := [.offset 1 (π / 2)]) ht
  rw [← hm] at v1 v2 v3 v4
  have w1 : m.angle = 0 := v1
  have w3 : m.zPosition = 1 := v3
  have w4 : m.offsetCartesian = (0, 1) := by
    rw [v4, plane_polar]; simp [values, Values.set]
  have w2 : m.offset = (1, π / 2) := v2
  have ft : m.momsCoordinateType = POLAR := made_type ht
  have fl : m.layout = ringLayout := made_layout ht
  have hflag : ¬ m.localIsGlobal = true := by
    intro h
    have := (made_inv.flag (by rw [← hm, ft]; exact ht) h).2.2
    rw [← hm, w2] at this
    simp at this
  have e1 : globalToLocal realTrig m 2 (π / 2) = .ok (2, π / 2) := by
    unfold globalToLocal
    rw [if_neg hflag]
    have : mirror realTrig m 2 (π / 2) = .ok (2, π / 2) := by
      unfold mirror; rw [w3, if_neg (by norm_num)]
    rw [this, Res.bind_ok, if_pos ⟨ft, by rw [fl]; rfl, by rw [w4], by rw [w4]⟩]
    dsimp only
    have hp := pi_pos
    rw [w1, sub_zero, if_neg (show ¬ π / 2 < 0 by linarith), realTrig_pi, if_neg (by linarith)]
  obtain ⟨q, h1, h2, h3⟩ := localToGlobal_place (m := m) made_inv (by rw [ft]; exact ht)
    (by rw [fl]; exact Or.inr rfl) (fun h => absurd h hflag) (2, π / 2)
  have h4 := h3 ft (fun _ => by norm_num)
  rw [ft, fl, w1, w2, w3] at h2
  have h5 : plane ringLayout.coordinateType (2, π / 2) = (0, 2) := by
    show plane POLAR _ = _
    rw [plane_polar]; simp
  have h6 : plane POLAR q = (0, 3) := by
    rw [h2, h5, plane_polar]
    unfold place
    simp only [cos_zero, sin_zero, cos_pi_div_two, sin_pi_div_two, if_neg (by norm_num : ¬ (1 : ℝ) ≤ 0)]
    norm_num
  have h7 : q.1 = 3 := by
    rw [plane_polar, Prod.mk.injEq] at h6
    have := sin_sq_add_cos_sq q.2
    have h8 : q.1 ^ 2 = 9 := by
      calc q.1 ^ 2 = (q.1 * cos q.2) ^ 2 + (q.1 * sin q.2) ^ 2 := by linear_combination -(q.1 ^ 2) * this
        _ = 9 := by rw [h6.1, h6.2]; norm_num
    nlinarith
  refine ⟨(2, π / 2), q, e1, h1, rfl, h7, ?_⟩
  intro hh
  unfold Same at hh
  rw [if_pos rfl, h7] at hh
  norm_num at hh

/-! ### C28 -/

/-- If `setOffset` or `setAngle` is called after the last call of `setZPosition`, the module depends only on
the last values given to the setters, not on the order of the calls nor on earlier values. -/
theorem setter_order_partial {ops' : List Op} (ht : Known t) (hl : Known L.coordinateType) (h : Settled ops)
    (h' : Settled ops') (hv : values f ops = values f ops') :
    made id L t f ops = made id L t f ops' := by
  rw [made, made, run_settled ht hl h, run_settled ht hl h', hv]

example : Settled [.z (-1), .offset 3 4, .angle 1, .border 2] ∧
    Settled [.border 7, .z 5, .border 2, .angle 1, .z (-1), .offset 3 4] ∧
    values 0 [.z (-1), .offset 3 4, .angle 1, .border 2] =
      values 0 [.border 7, .z 5, .border 2, .angle 1, .z (-1), .offset 3 4] :=
  ⟨settled_example, ⟨[.border 7, .z 5, .border 2, .angle 1, .z (-1)], _, [], rfl, trivial, by simp⟩, rfl⟩

/-- `setZPosition` as the last call leaves the module unmirrored; the same two calls in the other order mirror
it. -/
theorem setter_order_false_z_last :
    values 0 [.angle 0, .z (-1)] = values 0 [.z (-1), .angle 0] ∧
      localToGlobal realTrig (made 0 squareLayout CARTESIAN 0 [.angle 0, .z (-1)]) 1 0 = .ok (1, 0) ∧
      localToGlobal realTrig (made 0 squareLayout CARTESIAN 0 [.z (-1), .angle 0]) 1 0 = .ok (-1, 0) := by
  have ht : Known CARTESIAN := Or.inl rfl
  have hl : Known squareLayout.coordinateType := Or.inl rfl
  refine ⟨rfl, ?_, ?_⟩
  · have : (made 0 squareLayout CARTESIAN 0 [.angle 0, .z (-1)]).localIsGlobal = true := by
      show (convertExtents realTrig _).1.localIsGlobal = true
      obtain ⟨a, b, c, e⟩ := convertExtents_eq realTrig
        (checkLocalIsGlobal { new 0 squareLayout CARTESIAN 0 with
          angle := 0, cosAngle := realTrig.cos 0, sinAngle := realTrig.sin 0 })
      rw [e]
      exact decide_eq_true ⟨rfl, rfl, rfl, rfl, (by norm_num : (1 : ℝ) > 0)⟩
    unfold localToGlobal
    rw [if_pos this]
  · obtain ⟨p, h1, h2⟩ := localToGlobal_is_placement_partial (id := 0) (f := 0) ht hl
      (⟨[.z (-1)], .angle 0, [], rfl, trivial, by simp⟩ : Settled [.z (-1), .angle 0]) (1, 0)
    rw [h1]
    have : plane squareLayout.coordinateType (1, 0) = (1, 0) := plane_cartesian _
    rw [plane_cartesian, plane_cartesian, this] at h2
    rw [h2]
    unfold place
    simp [values, Values.set]

/-! ### C82 -/

/-- A global angle computed from a local point of a module is between 0 and a full turn, if the local angle is
and the angle together with the rotation does not leave that range by more than a turn (on the negative side:
lies between plus and minus three half turns). -/
theorem localToGlobal_angle_range_partial (hl : Known L.coordinateType) (c : ℝ × ℝ)
    (hc : L.coordinateType = POLAR → 0 ≤ c.2 ∧ c.2 ≤ 2 * π ∧
      (if 0 < (values f ops).z.getD 1 then
        -(2 * π) ≤ c.2 + (values f ops).angle ∧ c.2 + (values f ops).angle ≤ 4 * π
      else -(3 * π) ≤ c.2 + (values f ops).angle ∧ c.2 + (values f ops).angle ≤ 3 * π)) :
    ∃ p, localToGlobal realTrig (made id L POLAR f ops) c.1 c.2 = .ok p ∧ 0 ≤ p.2 ∧ p.2 ≤ 2 * π := by
  have ht : Known POLAR := Or.inr rfl
  obtain ⟨v1, v2, v3, v4, -⟩ := made_values (id := id) (L := L) (f := f) (ops := ops) ht
  have ft : (made id L POLAR f ops).momsCoordinateType = POLAR := made_type ht
  have fl : (made id L POLAR f ops).layout = L := made_layout ht
  unfold localToGlobal
  by_cases h1 : (made id L POLAR f ops).localIsGlobal = true
  · rw [if_pos h1]
    have h2 := (made_inv.flag (by rw [ft]; exact ht) h1).1
    rw [ft, fl] at h2
    exact ⟨_, rfl, (hc h2.symm).1, (hc h2.symm).2.1⟩
  · rw [if_neg h1, fl]
    have key : ∀ x y, ∃ p, toGlobal realTrig (made id L POLAR f ops) x y = .ok p ∧ 0 ≤ p.2 ∧ p.2 ≤ 2 * π := by
      intro x y
      obtain ⟨p, a, -, b⟩ := toGlobal_place (m := made id L POLAR f ops) (by rw [ft]; exact ht) x y
      exact ⟨p, a, (b ft).2.1, (b ft).2.2.le⟩
    rcases hl with hl | hl
    · rw [if_neg (by rw [hl]; exact polar_ne), if_pos hl]; exact key _ _
    · rw [if_pos hl]
      dsimp only
      by_cases h2 : (made id L POLAR f ops).momsCoordinateType = POLAR ∧
          (made id L POLAR f ops).offsetCartesian.1 = 0 ∧ (made id L POLAR f ops).offsetCartesian.2 = 0
      · rw [if_pos h2, v1, v3, realTrig_pi]
        obtain ⟨c1, c2, c3⟩ := hc hl
        have hp := pi_pos
        have hr : ∀ s : ℝ, -(2 * π) ≤ s → s ≤ 4 * π →
            0 ≤ (if (if s < 0 then s + 2 * π else s) > 2 * π then (if s < 0 then s + 2 * π else s) - 2 * π
              else (if s < 0 then s + 2 * π else s)) ∧
            (if (if s < 0 then s + 2 * π else s) > 2 * π then (if s < 0 then s + 2 * π else s) - 2 * π
              else (if s < 0 then s + 2 * π else s)) ≤ 2 * π := by
          intro s a b
          by_cases hs : s < 0
          · simp only [if_pos hs]
            rw [if_neg (by linarith)]
            constructor <;> linarith
          · simp only [if_neg hs]
            split_ifs <;> constructor <;> linarith
        refine ⟨_, rfl, hr _ ?_ ?_⟩
        · by_cases hz : (values f ops).z.getD 1 ≤ 0
          · rw [if_neg (not_lt.2 hz)] at c3; rw [if_pos hz]; linarith
          · rw [if_pos (not_le.1 hz)] at c3; rw [if_neg hz]; linarith
        · by_cases hz : (values f ops).z.getD 1 ≤ 0
          · rw [if_neg (not_lt.2 hz)] at c3; rw [if_pos hz]; linarith
          · rw [if_pos (not_le.1 hz)] at c3; rw [if_neg hz]; linarith
      · rw [if_neg h2]; exact key _ _

example : ringLayout.coordinateType = POLAR → (0 : ℝ) ≤ 1 ∧ 1 ≤ 2 * π ∧
      (if 0 < (values 0 [.angle 2, .z (-1)]).z.getD 1 then
        -(2 * π) ≤ 1 + (values 0 [.angle 2, .z (-1)]).angle ∧ 1 + (values 0 [.angle 2, .z (-1)]).angle ≤ 4 * π
      else -(3 * π) ≤ 1 + (values 0 [.angle 2, .z (-1)]).angle ∧
        1 + (values 0 [.angle 2, .z (-1)]).angle ≤ 3 * π) := by
  intro _
  have h := pi_gt_three
  have h1 : (values 0 [.angle 2, .z (-1)]).z.getD 1 = -1 := rfl
  have h2 : (values 0 [.angle 2, .z (-1)]).angle = 2 := rfl
  rw [h1, h2, if_neg (by norm_num)]
  refine ⟨by norm_num, ?_, ?_, ?_⟩ <;> linarith

/-- A local angle computed from a global point is between 0 and a full turn when the module is moved away from
the origin in x, or the TPC is Cartesian and the module is not where its plane is anyway. -/
theorem globalToLocal_angle_range_partial (ht : Known t) (hl : L.coordinateType = POLAR)
    (hg : (made id L t f ops).localIsGlobal = false)
    (h : t = CARTESIAN ∨ (plane t (values f ops).offset).1 ≠ 0) (c : ℝ × ℝ) :
    ∃ p, globalToLocal realTrig (made id L t f ops) c.1 c.2 = .ok p ∧ 0 ≤ p.1 ∧ 0 ≤ p.2 ∧ p.2 < 2 * π := by
  obtain ⟨v1, v2, v3, v4, -⟩ := made_values (id := id) (L := L) (f := f) (ops := ops) ht
  have ft : (made id L t f ops).momsCoordinateType = t := made_type ht
  have fl : (made id L t f ops).layout = L := made_layout ht
  unfold globalToLocal
  rw [if_neg (by rw [hg]; decide)]
  obtain ⟨d, d1, -⟩ := mirrored (m := made id L t f ops) (by rw [ft]; exact ht) c
  rw [d1, Res.bind_ok, if_neg]
  · obtain ⟨p, hp⟩ := cartesian_ok (m := made id L t f ops) (by rw [ft]; exact ht) d.1 d.2
    rw [hp, Res.bind_ok]
    unfold toLocal
    dsimp only
    rw [fl, if_pos hl]
    exact ⟨toPolar _ _, rfl, toPolar_nonneg _ _, toPolar_range _ _⟩
  · rintro ⟨a1, a2, a3, -⟩
    rw [v4] at a3
    rw [ft] at a1
    rcases h with h | h
    · rw [h] at a1; exact polar_ne a1
    · exact h a3

example : L.coordinateType = POLAR → (made id L CARTESIAN f ops).localIsGlobal = false := by
  intro h
  by_contra hh
  have := ((made_inv (id := id) (L := L) (t := CARTESIAN) (f := f) (ops := ops)).flag
    (by rw [made_type (Or.inl rfl)]; exact Or.inl rfl) (by simpa using hh)).1
  rw [made_type (Or.inl rfl), made_layout (Or.inl rfl), h] at this
  exact polar_ne this

/-- A polar module in a polar TPC, turned by a quarter turn backwards: the point at angle 7/4 pi gets the local
angle 17/4 pi, although a local angle between 0 and 2 pi exists. -/
theorem globalToLocal_angle_range_false :
    globalToLocal realTrig (made 0 ringLayout POLAR 0 [.angle (-(π / 2))]) 1 (7 / 4 * π) =
      .ok (1, 17 / 4 * π) := by
  have ht : Known POLAR := Or.inr rfl
  set m := made 0 ringLayout POLAR 0 [.angle (-(π / 2))] with hm
  obtain ⟨v1, v2, v3, v4, -⟩ := made_values (id := 0) (L := ringLayout) (f := 0) (ops := [.angle (-(π / 2))]) ht
  rw [← hm] at v1 v3 v4
  have w1 : m.angle = -(π / 2) := v1
  have w3 : m.zPosition = 1 := v3
  have w4 : m.offsetCartesian = (0, 0) := by rw [v4, plane_polar]; simp [values, Values.set]
  have ft : m.momsCoordinateType = POLAR := made_type ht
  have fl : m.layout = ringLayout := made_layout ht
  have hp := pi_pos
  have hflag : ¬ m.localIsGlobal = true := by
    intro h
    have := (made_inv.flag (by rw [← hm, ft]; exact ht) h).2.1
    rw [← hm, w1] at this
    linarith
  unfold globalToLocal
  rw [if_neg hflag]
  have : mirror realTrig m 1 (7 / 4 * π) = .ok (1, 7 / 4 * π) := by
    unfold mirror; rw [w3, if_neg (by norm_num)]
  rw [this, Res.bind_ok, if_pos ⟨ft, by rw [fl]; rfl, by rw [w4], by rw [w4]⟩]
  dsimp only
  rw [w1, if_neg (show ¬ 7 / 4 * π - -(π / 2) < 0 by linarith), realTrig_pi, if_pos (by linarith)]
  congr 2
  ring

/-! ### C86 -/

/-- The pad queries of a module are those of its layout at a point of the module's plane that is placed at the
given point. -/
theorem queries_are_local_partial (ht : Known t) (hl : Known L.coordinateType) (hs : Settled ops)
    (hw : ¬ OffsetAlongY t L.coordinateType (values f ops).offset) (c : ℝ × ℝ) :
    ∃ p : ℝ × ℝ, place (values f ops).angle (plane t (values f ops).offset) ((values f ops).z.getD 1)
        (plane L.coordinateType p) = plane t c ∧
      getNearestPad realTrig (made id L t f ops) c.1 c.2 = L.getNearestPad p.1 p.2 ∧
      (∀ i, isInsidePad realTrig (made id L t f ops) c.1 c.2 i = L.isInsidePad p.1 p.2 i) ∧
      ∀ i, getDistanceToPad realTrig (made id L t f ops) c.1 c.2 i = L.getDistanceToPad p.1 p.2 i := by
  obtain ⟨p, h1, h2⟩ := globalToLocal_is_placement_partial (id := id) ht hl hs hw c
  have fl : (made id L t f ops).layout = L := made_layout ht
  refine ⟨p, h2, ?_, fun i => ?_, fun i => ?_⟩
  · unfold getNearestPad; rw [h1, Res.bind_ok, fl]
  · unfold isInsidePad; rw [h1, Res.bind_ok, fl]
  · unfold getDistanceToPad; rw [h1, Res.bind_ok, fl]

/-- The centre of a pad is where the module places the centre of the layout's pad. -/
theorem padCenter_is_placed_partial (ht : Known t) (hl : Known L.coordinateType) (hs : Settled ops) {i : ℤ}
    {c : ℝ × ℝ} (hc : L.getPadCenter i = .ok c) :
    ∃ p, getPadCenter realTrig (made id L t f ops) i = .ok p ∧
      plane t p = place (values f ops).angle (plane t (values f ops).offset) ((values f ops).z.getD 1)
        (plane L.coordinateType c) := by
  obtain ⟨p, h1, h2⟩ := localToGlobal_is_placement_partial (id := id) ht hl hs c
  have fl : (made id L t f ops).layout = L := made_layout ht
  exact ⟨p, by unfold getPadCenter; rw [fl, hc, Res.bind_ok, h1], h2⟩

/-- On a Cartesian layout the queries at the centre of a pad are those of the layout at its own centre, after
any sequence of setter calls: where the module lies does not matter. -/
theorem queries_at_padCenter (ht : Known t) (hl : L.coordinateType = CARTESIAN) {i : ℤ} {c : ℝ × ℝ}
    (hc : L.getPadCenter i = .ok c) :
    ∃ p, getPadCenter realTrig (made id L t f ops) i = .ok p ∧
      getNearestPad realTrig (made id L t f ops) p.1 p.2 = L.getNearestPad c.1 c.2 ∧
      (∀ j, isInsidePad realTrig (made id L t f ops) p.1 p.2 j = L.isInsidePad c.1 c.2 j) ∧
      isInsideAnyPad realTrig (made id L t f ops) p.1 p.2 =
        (L.getNearestPad c.1 c.2).bind (fun j => L.isInsidePad c.1 c.2 j) ∧
      ∀ j, getDistanceToPad realTrig (made id L t f ops) p.1 p.2 j = L.getDistanceToPad c.1 c.2 j := by
  have fl : (made id L t f ops).layout = L := made_layout ht
  obtain ⟨p, q, h1, h2, h3⟩ := local_roundtrip_partial (id := id) (f := f) (ops := ops) ht (Or.inl hl)
    (fun h => polar_ne (hl.symm.trans h.2.1)) c (fun h => absurd (hl.symm.trans h) polar_ne)
  unfold Same at h3
  rw [if_neg (by rw [hl]; exact polar_ne)] at h3
  subst h3
  refine ⟨p, ?_, ?_, fun j => ?_, ?_, fun j => ?_⟩
  · unfold getPadCenter; rw [fl, hc, Res.bind_ok, h1]
  · unfold getNearestPad; rw [h2, Res.bind_ok, fl]
  · unfold isInsidePad; rw [h2, Res.bind_ok, fl]
  · unfold isInsideAnyPad wrappedLocal
    rw [h2, Res.bind_ok, fl, if_neg (by rw [hl]; exact polar_ne), Res.pure_eq, Res.bind_ok]
    rfl
  · unfold getDistanceToPad; rw [h2, Res.bind_ok, fl]

example : squareLayout.coordinateType = CARTESIAN ∧ squareLayout.getPadCenter 0 = .ok (1 / 2, 1 / 2) :=
  ⟨rfl, rfl⟩

end Gear.TpcModule
