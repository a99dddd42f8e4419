/-
Properties C29, C85 and C87 of `TPCModuleImpl`: the extents.
-/
import Verif.TpcModuleExtent

set_option autoImplicit false
set_option linter.unusedSectionVars false

namespace Gear.TpcModule

open Disk Real
open Spec

variable {id : ℤ} {L : LayoutI ℝ} {t : ℤ} {f : ℝ} {ops : List Op}

/-- Where a module has been placed by its setters. -/
noncomputable abbrev Spec.placement (t : ℤ) (f : ℝ) (ops : List Op) (q : ℝ × ℝ) : ℝ × ℝ :=
  place (values f ops).angle (plane t (values f ops).offset) ((values f ops).z.getD 1) q

theorem made_placement (ht : Known t) (e : Ext ℝ) :
    place (made id L t f ops).angle (plane (made id L t f ops).momsCoordinateType (made id L t f ops).offset)
      (made id L t f ops).zPosition '' region (made id L t f ops).layout.coordinateType e =
    placement t f ops '' region L.coordinateType e := by
  obtain ⟨v1, v2, v3, v4, -⟩ := made_values (id := id) (L := L) (f := f) (ops := ops) ht
  rw [made_type ht, made_layout ht, v1, v2, v3]

/-! ### C29 -/

/-- In a Cartesian TPC the extents of a module with a Cartesian layout are the smallest boxes around the pad
plane and around the module, where the module has been placed. -/
theorem cartesian_extents_partial (hl : L.coordinateType = CARTESIAN) (hs : Settled ops) :
    (L.planeExtent.e0 ≤ L.planeExtent.e1 → L.planeExtent.e2 ≤ L.planeExtent.e3 →
      SmallestBox (placement CARTESIAN f ops '' region CARTESIAN L.planeExtent)
        (getPlaneExtent (made id L CARTESIAN f ops))) ∧
    ((getLocalModuleExtent (made id L CARTESIAN f ops)).e0 ≤ (getLocalModuleExtent (made id L CARTESIAN f ops)).e1 →
      (getLocalModuleExtent (made id L CARTESIAN f ops)).e2 ≤ (getLocalModuleExtent (made id L CARTESIAN f ops)).e3 →
      SmallestBox (placement CARTESIAN f ops '' region CARTESIAN (getLocalModuleExtent (made id L CARTESIAN f ops)))
        (getModuleExtent (made id L CARTESIAN f ops))) := by
  have ht : Known CARTESIAN := Or.inl rfl
  obtain ⟨h1, h2⟩ := settled_extents (id := id) (f := f) ht (Or.inl hl) (fun h => polar_ne h.1) hs
  have e1 : (made id L CARTESIAN f ops).momsCoordinateType = CARTESIAN := made_type ht
  have e2 : (made id L CARTESIAN f ops).layout.coordinateType = CARTESIAN := by rw [made_layout ht, hl]
  constructor
  · intro a b
    have := cartesian_box made_inv e1 e2 (settled_flag ht (Or.inl hl) hs) a b h2
    rw [made_placement ht, hl] at this
    exact this
  · intro a b
    have := cartesian_box made_inv e1 e2 (settled_flag ht (Or.inl hl) hs) a b h1
    rw [made_placement ht, hl] at this
    exact this

example : squareLayout.coordinateType = CARTESIAN ∧ squareLayout.planeExtent.e0 ≤ squareLayout.planeExtent.e1 ∧
    squareLayout.planeExtent.e2 ≤ squareLayout.planeExtent.e3 ∧
    Settled [.z (-1), .offset 3 4, .angle 1, .border 2] :=
  ⟨rfl, zero_le_one, zero_le_one, settled_example⟩

/-- In a Cartesian TPC the extents of a module with a polar layout, an annular sector, are the smallest boxes
around the pad plane and around the module, where the module has been placed. -/
theorem sector_extents_partial (hl : L.coordinateType = POLAR) (hs : Settled ops) :
    (0 ≤ L.planeExtent.e0 → L.planeExtent.e0 ≤ L.planeExtent.e1 → L.planeExtent.e2 ≤ L.planeExtent.e3 →
      -(2 * π) ≤ L.planeExtent.e2 → L.planeExtent.e3 ≤ 2 * π →
      SmallestBox (placement CARTESIAN f ops '' region POLAR L.planeExtent)
        (getPlaneExtent (made id L CARTESIAN f ops))) ∧
    ∀ e, getLocalModuleExtent (made id L CARTESIAN f ops) = e → 0 ≤ e.e0 → e.e0 ≤ e.e1 → e.e2 ≤ e.e3 →
      -(2 * π) ≤ e.e2 → e.e3 ≤ 2 * π →
      SmallestBox (placement CARTESIAN f ops '' region POLAR e) (getModuleExtent (made id L CARTESIAN f ops)) := by
  have ht : Known CARTESIAN := Or.inl rfl
  obtain ⟨h1, h2⟩ := settled_extents (id := id) (f := f) ht (Or.inr hl) (fun h => polar_ne h.1) hs
  have e1 : (made id L CARTESIAN f ops).momsCoordinateType = CARTESIAN := made_type ht
  have e2 : (made id L CARTESIAN f ops).layout.coordinateType = POLAR := by rw [made_layout ht, hl]
  constructor
  · intro a b c d g
    have := polar_box made_inv e1 e2 a b c d g h2
    rw [made_placement ht, hl] at this
    exact this
  · rintro e rfl a b c d g
    have := polar_box made_inv e1 e2 a b c d g h1
    rw [made_placement ht, hl] at this
    exact this

example : ringLayout.coordinateType = POLAR ∧ (0 : ℝ) ≤ ringLayout.planeExtent.e0 ∧
    ringLayout.planeExtent.e0 ≤ ringLayout.planeExtent.e1 ∧ ringLayout.planeExtent.e2 ≤ ringLayout.planeExtent.e3 ∧
    -(2 * π) ≤ ringLayout.planeExtent.e2 ∧ ringLayout.planeExtent.e3 ≤ 2 * π := by
  have := pi_pos
  refine ⟨rfl, ?_, ?_, ?_, ?_, le_rfl⟩ <;> simp [ringLayout] <;> linarith

/-- `setZPosition` as the last call: the module is mirrored, its extent is not. -/
theorem cartesian_extents_false_z_last :
    ∃ p, localToGlobal realTrig (made 0 squareLayout CARTESIAN 0 [.offset 3 0, .z (-1)]) 1 0 = .ok p ∧
      p = (-4, 0) ∧ (getPlaneExtent (made 0 squareLayout CARTESIAN 0 [.offset 3 0, .z (-1)])).e0 = 3 := by
  have ht : Known CARTESIAN := Or.inl rfl
  have hl : Known squareLayout.coordinateType := Or.inl rfl
  obtain ⟨v1, v2, v3, v4, -⟩ :=
    made_values (id := 0) (L := squareLayout) (f := 0) (ops := [.offset 3 0, .z (-1)]) ht
  have hfl : ¬ (made 0 squareLayout CARTESIAN 0 [.offset 3 0, .z (-1)]).localIsGlobal = true := by
    intro h
    have := (made_inv.flag (by rw [made_type ht]; exact ht) h).2.2
    rw [v2] at this
    simp [values, Values.set] at this
  obtain ⟨p, h1, h2, -⟩ := localToGlobal_place (made_inv (id := 0) (L := squareLayout) (t := CARTESIAN) (f := 0)
    (ops := [.offset 3 0, .z (-1)])) (by rw [made_type ht]; exact ht) (by rw [made_layout ht]; exact hl)
    (fun h => absurd h hfl) (1, 0)
  refine ⟨p, h1, ?_, ?_⟩
  · rw [v1, v2, v3, made_type ht, made_layout ht, plane_cartesian, plane_cartesian] at h2
    rw [h2]
    have : plane squareLayout.coordinateType (1, 0) = (1, 0) := plane_cartesian _
    rw [this]
    unfold place
    simp only [values, Values.set, List.foldl_cons, List.foldl_nil, cos_zero, sin_zero, Option.getD_some]
    norm_num
  · show (getPlaneExtent (made 0 squareLayout CARTESIAN 0 [.offset 3 0])).e0 = 3
    have hs : Settled [.offset 3 0] := ⟨[], _, [], rfl, trivial, by simp⟩
    obtain ⟨⟨b1, b2⟩, -⟩ := (cartesian_extents_partial (id := 0) (f := 0) (L := squareLayout) rfl hs).1
      zero_le_one zero_le_one
    obtain ⟨q, ⟨q', ⟨c, c0, c1, c2, c3, hq'⟩, rfl⟩, hq⟩ := b1
    rw [hq'] at hq
    have hc : ∀ c : ℝ × ℝ, (placement CARTESIAN 0 [.offset 3 0] (plane CARTESIAN c)).1 = c.1 + 3 := by
      intro c
      rw [plane_cartesian]
      unfold placement place
      rw [plane_cartesian]
      simp [values, Values.set]
    rw [hc] at hq
    apply le_antisymm
    · refine b2 ⟨placement CARTESIAN 0 [.offset 3 0] (plane CARTESIAN (0, 0)), ⟨_, ⟨(0, 0), ?_, ?_, ?_, ?_, rfl⟩, rfl⟩, ?_⟩
      · exact le_rfl
      · exact zero_le_one
      · exact le_rfl
      · exact zero_le_one
      · rw [hc]; norm_num
    · rw [← hq]
      have : (0 : ℝ) ≤ c.1 := c0
      linarith

/-- A new module with a polar layout in a Cartesian TPC reports the polar extent of the layout as its
Cartesian one. -/
theorem sector_extents_false_new :
    getPlaneExtent (made 0 ringLayout CARTESIAN 0 []) = ⟨1, 2, 0, 2 * π⟩ ∧
      ∃ p, localToGlobal realTrig (made 0 ringLayout CARTESIAN 0 []) 2 π = .ok p ∧ p = (-2, 0) := by
  have ht : Known CARTESIAN := Or.inl rfl
  have hl : Known ringLayout.coordinateType := Or.inr rfl
  refine ⟨rfl, ?_⟩
  have hfl : ¬ (made 0 ringLayout CARTESIAN 0 []).localIsGlobal = true := by
    intro h
    have := (made_inv.flag (by rw [made_type ht]; exact ht) h).1
    rw [made_type ht, made_layout ht] at this
    exact polar_ne this
  obtain ⟨p, h1, h2, -⟩ := localToGlobal_place (made_inv (id := 0) (L := ringLayout) (t := CARTESIAN) (f := 0)
    (ops := [])) (by rw [made_type ht]; exact ht) (by rw [made_layout ht]; exact hl)
    (fun h => absurd h hfl) (2, π)
  obtain ⟨v1, v2, v3, v4, -⟩ := made_values (id := 0) (L := ringLayout) (f := 0) (ops := []) ht
  refine ⟨p, h1, ?_⟩
  rw [v1, v2, v3, made_type ht, made_layout ht, plane_cartesian, plane_cartesian] at h2
  rw [h2]
  have : plane ringLayout.coordinateType (2, π) = (-2, 0) := by
    show plane POLAR (2, π) = (-2, 0)
    rw [plane_polar]; simp
  rw [this]
  unfold place
  simp only [values, List.foldl_nil, cos_zero, sin_zero, Option.getD_none]
  norm_num

/-! ### C85 -/

/-- For a Cartesian layout the local extent of the module is the pad plane with the border last set added on
all four sides, after any sequence of setter calls. -/
theorem border_cartesian (ht : Known t) (hl : L.coordinateType = CARTESIAN) :
    getLocalModuleExtent (made id L t f ops) =
      ⟨L.planeExtent.e0 - (values f ops).border, L.planeExtent.e1 + (values f ops).border,
       L.planeExtent.e2 - (values f ops).border, L.planeExtent.e3 + (values f ops).border⟩ := by
  have h := made_localExtent (id := id) (L := L) (t := t) (f := f) (ops := ops) ht (Or.inl hl)
  unfold localExtent at h
  dsimp only at h
  rw [made_layout ht, (made_values ht).2.2.2.2] at h
  by_cases hb : (values f ops).border = 0
  · rw [if_pos hb] at h
    have := Res.ok.inj h
    show (made id L t f ops).localModuleExtent = _
    rw [← this, hb]; simp
  · rw [if_neg hb, if_neg (by rw [hl]; exact polar_ne), if_pos hl] at h
    exact (Res.ok.inj h).symm

example : Known POLAR ∧ squareLayout.coordinateType = CARTESIAN := ⟨Or.inr rfl, rfl⟩

/-- For a polar layout the border is added to the radii, and along the inner arc to the angles, as long as the
sector does not exceed the full turn; the inner radius does not become negative. -/
theorem border_polar_partial (ht : Known t) (hl : L.coordinateType = POLAR) (h0 : 0 < L.planeExtent.e0)
    (h1 : L.planeExtent.e0 ≤ L.planeExtent.e1)
    (hw : L.planeExtent.e3 - L.planeExtent.e2 + 2 * ((values f ops).border / L.planeExtent.e0) ≤ 2 * π) :
    getLocalModuleExtent (made id L t f ops) =
      ⟨max 0 (L.planeExtent.e0 - (values f ops).border), L.planeExtent.e1 + (values f ops).border,
       L.planeExtent.e2 - (values f ops).border / L.planeExtent.e0,
       L.planeExtent.e3 + (values f ops).border / L.planeExtent.e0⟩ := by
  have h := made_localExtent (id := id) (L := L) (t := t) (f := f) (ops := ops) ht (Or.inr hl)
  unfold localExtent at h
  dsimp only at h
  rw [made_layout ht, (made_values ht).2.2.2.2] at h
  by_cases hb : (values f ops).border = 0
  · rw [if_pos hb] at h
    have := Res.ok.inj h
    show (made id L t f ops).localModuleExtent = _
    rw [← this, hb]
    simp [max_eq_right h0.le]
  · rw [if_neg hb, if_pos hl] at h
    simp only [if_pos (show L.planeExtent.e1 > 0 by linarith)] at h
    rw [if_neg (show ¬ (L.planeExtent.e3 + (values f ops).border / L.planeExtent.e0 -
      (L.planeExtent.e2 - (values f ops).border / L.planeExtent.e0) > 2 * realTrig.pi) by
        rw [realTrig_pi]; linarith)] at h
    have h' := (Res.ok.inj h).symm
    show (made id L t f ops).localModuleExtent = _
    rw [h']
    congr 1
    split_ifs with c
    · exact (max_eq_right c).symm
    · exact (max_eq_left (not_le.1 c).le).symm

/-- A layout that covers a quarter of a ring. -/
noncomputable def quarterLayout : LayoutI ℝ := { ringLayout with planeExtent := ⟨1, 2, 0, π / 2⟩ }

example : quarterLayout.coordinateType = POLAR ∧ 0 < quarterLayout.planeExtent.e0 ∧
    quarterLayout.planeExtent.e0 ≤ quarterLayout.planeExtent.e1 ∧
    quarterLayout.planeExtent.e3 - quarterLayout.planeExtent.e2 +
      2 * ((values 0 [.z (-1), .border (1 / 2)]).border / quarterLayout.planeExtent.e0) ≤ 2 * π := by
  have := pi_gt_three
  refine ⟨rfl, ?_, ?_, ?_⟩ <;> simp only [quarterLayout, values, Values.set, List.foldl_cons, List.foldl_nil] <;>
    first | (norm_num; done) | (norm_num; linarith)

/-- A border of 1 around a full ring makes the module smaller: the angles from 0 to 1 are no longer in it. -/
theorem border_polar_false_full_circle :
    ringLayout.planeExtent = ⟨1, 2, 0, 2 * π⟩ ∧
      getLocalModuleExtent (made 0 ringLayout POLAR 0 [.border 1]) = ⟨0, 3, 1, 2 * π - 1⟩ ∧
      isInsideModule realTrig (made 0 ringLayout POLAR 0 [.border 1]) (3 / 2) (1 / 2) = .ok false ∧
      isInsideAnyPad realTrig (made 0 ringLayout POLAR 0 []) (3 / 2) (1 / 2) = .ok true := by
  have hp := pi_gt_three
  have ht : Known POLAR := Or.inr rfl
  have hl : Known ringLayout.coordinateType := Or.inr rfl
  have he : getLocalModuleExtent (made 0 ringLayout POLAR 0 [.border 1]) = ⟨0, 3, 1, 2 * π - 1⟩ := by
    have h := made_localExtent (id := 0) (L := ringLayout) (t := POLAR) (f := 0) (ops := [.border 1]) ht hl
    unfold localExtent at h
    dsimp only at h
    rw [made_layout ht, (made_values ht).2.2.2.2] at h
    have e1 : (values 0 [.border 1]).border = 1 := rfl
    have e2 : ringLayout.planeExtent = ⟨1, 2, 0, 2 * π⟩ := rfl
    rw [e1, e2, if_neg one_ne_zero, if_pos (show ringLayout.coordinateType = POLAR from rfl)] at h
    simp only [if_pos (show (2 : ℝ) > 0 by norm_num), realTrig_pi] at h
    rw [if_pos (show 2 * π + 1 / 1 - (0 - 1 / 1) > 2 * π by norm_num; linarith),
      if_pos (show (1 : ℝ) - 1 ≥ 0 by norm_num)] at h
    have h' := (Res.ok.inj h).symm
    show (made 0 ringLayout POLAR 0 [.border 1]).localModuleExtent = _
    rw [h']
    congr 1 <;> ring
  have hflag : ∀ ops, (∀ m : Module ℝ, m = made 0 ringLayout POLAR 0 ops → m.localIsGlobal = true) →
      globalToLocal realTrig (made 0 ringLayout POLAR 0 ops) (3 / 2) (1 / 2) = .ok (3 / 2, 1 / 2) := by
    intro ops h
    unfold globalToLocal
    rw [if_pos (h _ rfl)]
  refine ⟨rfl, he, ?_, ?_⟩
  · have hg := hflag [.border 1] (by
      rintro m rfl
      show (convertExtents realTrig _).1.localIsGlobal = true
      obtain ⟨a, b, c, e⟩ := convertExtents_eq realTrig { new 0 ringLayout POLAR 0 with border := 1 }
      rw [e]
      exact decide_eq_true ⟨rfl, rfl, rfl, rfl, (by norm_num : (1 : ℝ) > 0)⟩)
    unfold isInsideModule wrappedLocal
    have he' : (made 0 ringLayout POLAR 0 [.border 1]).localModuleExtent = ⟨0, 3, 1, 2 * π - 1⟩ := he
    rw [hg, Res.bind_ok, he', made_layout ht, if_pos (show ringLayout.coordinateType = POLAR from rfl)]
    simp only [Res.pure_eq, Res.bind_ok, realTrig_pi]
    congr 1
    apply decide_eq_false
    rintro ⟨-, -, -, h4⟩
    -- the angle 1/2 becomes 1/2 + 2π
    have g1 := wrapUp_lt pi_pos (lo := 1) (phi := (1 / 2 : ℝ)) (by norm_num)
    have g2 := wrapUp_ge pi_pos (lo := 1) (1 / 2 : ℝ)
    obtain ⟨k, g3⟩ := wrapUp_shift π 1 (1 / 2 : ℝ)
    have hk : k = 1 := by
      rw [g3] at g1 g2
      have a : (0 : ℝ) < k := by by_contra hh; push Not at hh; nlinarith
      have b : (k : ℝ) < 2 := by by_contra hh; push Not at hh; nlinarith
      have a' : 0 < k := by exact_mod_cast a
      have b' : k < 2 := by exact_mod_cast b
      omega
    rw [hk] at g3
    unfold wrapBelow at h4
    rw [g3] at h4
    rw [if_neg (by push_cast; linarith)] at h4
    push_cast at h4
    linarith
  · have hg := hflag [] (by
      rintro m rfl
      exact decide_eq_true ⟨rfl, rfl, rfl, rfl, (by norm_num : (1 : ℝ) > 0)⟩)
    unfold isInsideAnyPad wrappedLocal
    rw [hg, Res.bind_ok, made_layout ht, if_pos (show ringLayout.coordinateType = POLAR from rfl)]
    simp only [Res.pure_eq, Res.bind_ok]
    show Res.ok (decide ((1 : ℝ) ≤ 3 / 2 ∧ (3 / 2 : ℝ) < 2)) = _
    congr 1
    exact decide_eq_true ⟨by norm_num, by norm_num⟩

/-! ### C87 -/

/-- The wrapping of the angles of a sector keeps the sector. -/
theorem wrap_sector {a b : ℝ} (h1 : a < b) (h2 : b - a < 2 * π) :
    ∃ k : ℤ, wrapUp π 0 (wrapDown π (2 * π) b) = b + k * (2 * π) ∧
      wrapUp π (wrapUp π 0 (wrapDown π (2 * π) b) - 2 * π)
        (wrapDown π (wrapUp π 0 (wrapDown π (2 * π) b)) a) = a + k * (2 * π) := by
  have hp := pi_pos
  obtain ⟨k1, e1⟩ := wrapDown_shift π (2 * π) b
  obtain ⟨k2, e2⟩ := wrapUp_shift π 0 (wrapDown π (2 * π) b)
  refine ⟨k1 + k2, by rw [e2, e1]; push_cast; ring, ?_⟩
  set B := wrapUp π 0 (wrapDown π (2 * π) b) with hB
  have hBe : B = b + (k1 + k2) * (2 * π) := by rw [e2, e1]; ring
  obtain ⟨k3, e3⟩ := wrapDown_shift π B a
  obtain ⟨k4, e4⟩ := wrapUp_shift π (B - 2 * π) (wrapDown π B a)
  have g1 := wrapUp_ge pi_pos (lo := B - 2 * π) (wrapDown π B a)
  have g2 : wrapUp π (B - 2 * π) (wrapDown π B a) ≤ B := by
    by_cases hh : wrapDown π B a < B - 2 * π
    · have := wrapUp_lt pi_pos hh; linarith
    · rw [wrapUp_id (not_lt.1 hh)]; exact wrapDown_le pi_pos a
  rw [e4, e3] at g1 g2 ⊢
  have hk : k3 + k4 = k1 + k2 := by
    have q1 : (((k3 + k4 - (k1 + k2) : ℤ) : ℝ)) < 1 := by
      by_contra hh; push Not at hh; push_cast at hh; nlinarith
    have q2 : (-1 : ℝ) < ((k3 + k4 - (k1 + k2) : ℤ) : ℝ) := by
      by_contra hh; push Not at hh; push_cast at hh; nlinarith
    have q1' : (k3 + k4 - (k1 + k2)) < 1 := by exact_mod_cast q1
    have q2' : -1 < (k3 + k4 - (k1 + k2)) := by exact_mod_cast q2
    omega
  have : ((k3 + k4 : ℤ) : ℝ) = ((k1 + k2 : ℤ) : ℝ) := by rw [hk]
  push_cast at this ⊢
  linear_combination (2 * π) * this

theorem plane_turn (r phi : ℝ) (k : ℤ) : plane POLAR (r, phi + k * (2 * π)) = plane POLAR (r, phi) := by
  rw [plane_polar, plane_polar]
  dsimp only
  rw [cos_add_int_mul_two_pi, sin_add_int_mul_two_pi]

/-- The rotated and mirrored sector. -/
theorem centred_region {m : Module ℝ} (ht : m.momsCoordinateType = POLAR) (hl : m.layout.coordinateType = POLAR)
    (hx : m.offset.1 = 0) {e g : Ext ℝ} (h2 : e.e2 < e.e3) (h3 : e.e3 - e.e2 < 2 * π)
    (hg : globalExtent realTrig m e = .ok g) :
    place m.angle (plane m.momsCoordinateType m.offset) m.zPosition '' region m.layout.coordinateType e =
      region POLAR g := by
  unfold globalExtent globalExtentPolarPolar at hg
  rw [if_pos ht, if_pos hl, if_pos hx] at hg
  have hg := Res.ok.inj hg
  unfold globalExtentPolarCentred at hg
  dsimp only at hg
  rw [realTrig_pi] at hg
  have hoff : plane m.momsCoordinateType m.offset = (0, 0) := by
    rw [ht, plane_polar, hx]; simp
  rw [hoff, hl]
  by_cases hz : m.zPosition > 0
  · rw [if_pos hz] at hg
    obtain ⟨k, k1, k2⟩ := wrap_sector (a := e.e2 + m.angle) (b := e.e3 + m.angle) (by linarith) (by linarith)
    dsimp only at hg
    rw [k1] at k2 hg
    rw [k2] at hg
    subst hg
    have key : ∀ r th, place m.angle (0, 0) m.zPosition (plane POLAR (r, th)) =
        plane POLAR (r, th + m.angle) := by
      intro r th
      rw [plane_polar, plane_polar]
      dsimp only
      rw [place_angle, if_neg (not_le.2 hz)]
      simp
    ext q
    constructor
    · rintro ⟨q', ⟨⟨r, th⟩, a, b, c, d, rfl⟩, rfl⟩
      dsimp only at a b c d
      refine ⟨(r, th + m.angle + k * (2 * π)), a, b, ?_, ?_, ?_⟩
      · dsimp only; linarith
      · dsimp only; linarith
      · rw [key, plane_turn]
    · rintro ⟨⟨r, th⟩, a, b, c, d, rfl⟩
      dsimp only at a b c d
      refine ⟨_, ⟨(r, th - k * (2 * π) - m.angle), a, b, ?_, ?_, rfl⟩, ?_⟩
      · dsimp only; linarith
      · dsimp only; linarith
      · rw [key, ← plane_turn r _ k]
        congr 2; ring
  · rw [if_neg hz] at hg
    obtain ⟨k, k1, k2⟩ := wrap_sector (a := π - e.e3 - m.angle) (b := π - e.e2 - m.angle) (by linarith)
      (by linarith)
    dsimp only at hg
    rw [k1] at k2 hg
    rw [k2] at hg
    subst hg
    have key : ∀ r th, place m.angle (0, 0) m.zPosition (plane POLAR (r, th)) =
        plane POLAR (r, π - th - m.angle) := by
      intro r th
      rw [plane_polar, plane_polar]
      dsimp only
      rw [place_angle, if_pos (not_lt.1 hz)]
      have : π - th - m.angle = π - (th + m.angle) := by ring
      rw [this, cos_pi_sub, sin_pi_sub]
      simp
    ext q
    constructor
    · rintro ⟨q', ⟨⟨r, th⟩, a, b, c, d, rfl⟩, rfl⟩
      dsimp only at a b c d
      refine ⟨(r, π - th - m.angle + k * (2 * π)), a, b, ?_, ?_, ?_⟩
      · dsimp only; linarith
      · dsimp only; linarith
      · rw [key, plane_turn]
    · rintro ⟨⟨r, th⟩, a, b, c, d, rfl⟩
      dsimp only at a b c d
      refine ⟨_, ⟨(r, π + k * (2 * π) - m.angle - th), a, b, ?_, ?_, rfl⟩, ?_⟩
      · dsimp only; linarith
      · dsimp only; linarith
      · rw [key, ← plane_turn r _ k]
        congr 2; ring

/-- In a polar TPC the extents of a module with a polar layout that is not moved from the centre describe the
pad plane and the module where they have been placed, point for point, as long as they are less than a full
ring. -/
theorem polar_extents_centred_partial (hl : L.coordinateType = POLAR) (hs : Settled ops)
    (hx : (values f ops).offset.1 = 0) :
    (L.planeExtent.e2 < L.planeExtent.e3 → L.planeExtent.e3 - L.planeExtent.e2 < 2 * π →
      placement POLAR f ops '' region POLAR L.planeExtent =
        region POLAR (getPlaneExtent (made id L POLAR f ops))) ∧
    ∀ e, getLocalModuleExtent (made id L POLAR f ops) = e → e.e2 < e.e3 → e.e3 - e.e2 < 2 * π →
      placement POLAR f ops '' region POLAR e = region POLAR (getModuleExtent (made id L POLAR f ops)) := by
  have ht : Known POLAR := Or.inr rfl
  obtain ⟨h1, h2⟩ := settled_extents (id := id) (f := f) ht (Or.inr hl)
    (fun h => polar_ne (by rw [← h.2, hl])) hs
  have e1 : (made id L POLAR f ops).momsCoordinateType = POLAR := made_type ht
  have e2 : (made id L POLAR f ops).layout.coordinateType = POLAR := by rw [made_layout ht, hl]
  have e3 : (made id L POLAR f ops).offset.1 = 0 := by rw [(made_values ht).2.1, hx]
  constructor
  · intro a b
    have := centred_region e1 e2 e3 a b h2
    rw [made_placement ht, hl] at this
    exact this
  · rintro e rfl a b
    have := centred_region e1 e2 e3 a b h1
    rw [made_placement ht, hl] at this
    exact this

example : quarterLayout.coordinateType = POLAR ∧ Settled [.z (-1), .angle 5, .border (1 / 2)] ∧
    (values 0 [.z (-1), .angle 5, .border (1 / 2)]).offset.1 = 0 ∧
    quarterLayout.planeExtent.e2 < quarterLayout.planeExtent.e3 ∧
    quarterLayout.planeExtent.e3 - quarterLayout.planeExtent.e2 < 2 * π := by
  have := pi_pos
  refine ⟨rfl, ⟨[.z (-1)], .angle 5, [.border (1 / 2)], rfl, trivial, ?_⟩, rfl, ?_, ?_⟩
  · intro p hp
    simp only [List.mem_singleton] at hp
    subst hp
    exact fun h => h
  · simp only [quarterLayout]; linarith
  · simp only [quarterLayout]; linarith

/-- A full ring rotated by 1 has an angular extent from 1 to 1. -/
theorem polar_extents_false_full_circle :
    getPlaneExtent (made 0 ringLayout POLAR 0 [.angle 1]) = ⟨1, 2, 1, 1⟩ := by
  have hp := pi_gt_three
  have ht : Known POLAR := Or.inr rfl
  have hl : ringLayout.coordinateType = POLAR := rfl
  have hs : Settled [.angle 1] := ⟨[], _, [], rfl, trivial, by simp⟩
  obtain ⟨-, h2⟩ := settled_extents (id := 0) (f := 0) (L := ringLayout) ht (Or.inr hl)
    (fun h => polar_ne (by rw [← h.2, hl])) hs
  obtain ⟨v1, v2, v3, v4, -⟩ := made_values (id := 0) (L := ringLayout) (f := 0) (ops := [.angle 1]) ht
  unfold globalExtent globalExtentPolarPolar at h2
  rw [if_pos (made_type ht), made_layout ht, if_pos hl, if_pos (by rw [v2]; rfl)] at h2
  have h2 := (Res.ok.inj h2).symm
  show (made 0 ringLayout POLAR 0 [.angle 1]).planeExtent = _
  rw [h2]
  unfold globalExtentPolarCentred
  dsimp only
  have w1 : (made 0 ringLayout POLAR 0 [.angle 1]).angle = 1 := v1
  have w3 : (made 0 ringLayout POLAR 0 [.angle 1]).zPosition = 1 := v3
  have w5 : ringLayout.planeExtent = ⟨1, 2, 0, 2 * π⟩ := rfl
  rw [w1, w3, w5, realTrig_pi, if_pos (by norm_num)]
  dsimp only
  have k1 : wrapDown π (2 * π) (2 * π + 1) = 1 := by
    have g1 := wrapDown_gt pi_pos (hi := 2 * π) (phi := 2 * π + 1) (by linarith)
    have g2 := wrapDown_le pi_pos (hi := 2 * π) (2 * π + 1)
    obtain ⟨k, g3⟩ := wrapDown_shift π (2 * π) (2 * π + 1)
    have hk : k = -1 := by
      rw [g3] at g1 g2
      have a : (-2 : ℝ) < k := by by_contra hh; push Not at hh; nlinarith
      have b : (k : ℝ) < 0 := by by_contra hh; push Not at hh; nlinarith
      have a' : -2 < k := by exact_mod_cast a
      have b' : k < 0 := by exact_mod_cast b
      omega
    rw [g3, hk]; push_cast; ring
  rw [k1, wrapUp_id (show (0 : ℝ) ≤ 1 by norm_num), wrapDown_id (show (0 : ℝ) + 1 ≤ 1 by norm_num),
    wrapUp_id (by linarith)]
  norm_num

/-- In a polar TPC the radii in the extents of a module with a polar layout that is moved off the centre, and
not along the y axis, are the smallest and the largest radius of the points where it has been placed. -/
theorem polar_extents_radii_partial (hl : L.coordinateType = POLAR) (hs : Settled ops)
    (hx : (plane POLAR (values f ops).offset).1 ≠ 0) :
    (0 ≤ L.planeExtent.e0 → L.planeExtent.e0 ≤ L.planeExtent.e1 → L.planeExtent.e2 ≤ L.planeExtent.e3 →
      -(2 * π) ≤ L.planeExtent.e2 → L.planeExtent.e3 ≤ 2 * π →
      IsLeast (radii (placement POLAR f ops '' region POLAR L.planeExtent))
          (getPlaneExtent (made id L POLAR f ops)).e0 ∧
        IsGreatest (radii (placement POLAR f ops '' region POLAR L.planeExtent))
          (getPlaneExtent (made id L POLAR f ops)).e1) ∧
    ∀ e, getLocalModuleExtent (made id L POLAR f ops) = e → 0 ≤ e.e0 → e.e0 ≤ e.e1 → e.e2 ≤ e.e3 →
      -(2 * π) ≤ e.e2 → e.e3 ≤ 2 * π →
      IsLeast (radii (placement POLAR f ops '' region POLAR e)) (getModuleExtent (made id L POLAR f ops)).e0 ∧
        IsGreatest (radii (placement POLAR f ops '' region POLAR e))
          (getModuleExtent (made id L POLAR f ops)).e1 := by
  have ht : Known POLAR := Or.inr rfl
  obtain ⟨h1, h2⟩ := settled_extents (id := id) (f := f) ht (Or.inr hl)
    (fun h => polar_ne (by rw [← h.2, hl])) hs
  have e1 : (made id L POLAR f ops).momsCoordinateType = POLAR := made_type ht
  have e2 : (made id L POLAR f ops).layout.coordinateType = POLAR := by rw [made_layout ht, hl]
  have e3 : (made id L POLAR f ops).offsetCartesian.1 ≠ 0 := by rw [(made_values ht).2.2.2.1]; exact hx
  constructor
  · intro a b c d g
    have := polar_radii made_inv e1 e2 e3 a b c d g h2
    rw [made_placement ht, hl] at this
    exact this
  · rintro e rfl a b c d g
    have := polar_radii made_inv e1 e2 e3 a b c d g h1
    rw [made_placement ht, hl] at this
    exact this

example : Settled [.z (-1), .offset 3 0, .angle 1] ∧
    (plane POLAR (values 0 [.z (-1), .offset 3 0, .angle 1]).offset).1 ≠ 0 := by
  refine ⟨⟨[.z (-1), .offset 3 0], _, [], rfl, trivial, by simp⟩, ?_⟩
  rw [plane_polar]
  simp [values, Values.set]

end Gear.TpcModule
