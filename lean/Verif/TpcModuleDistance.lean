/-
Properties C83 and C84 of `TPCModuleImpl`: whether a point is in a module, and the distance to a module.
-/
import Verif.TpcModuleExtentProps

set_option autoImplicit false
set_option linter.unusedSectionVars false

namespace Gear.TpcModule

open Disk Real
open Spec

/-! ### The loop -/

section
variable {K : Type} [Field K] [LinearOrder K] [IsStrictOrderedRing K] [FloorRing K]

theorem wrapBelow_id {pi hi x : K} (h : x < hi) : wrapBelow pi hi x = x := by
  unfold wrapBelow; rw [if_neg (not_le.2 h)]

/-- The loop that subtracts 2*pi while the value is not below the limit ends with `wrapBelow`. -/
theorem loopBelow_wrapBelow {pi hi : K} (hp : 0 < pi) (x : K) :
    ∃ n, loopBelow pi hi n x = some (wrapBelow pi hi x) := by
  have h2 : (0 : K) < 2 * pi := by linarith
  have key : ∀ (n : ℕ) (x : K), ⌊(x - hi) / (2 * pi)⌋ < n →
      loopBelow pi hi (n + 1) x = some (wrapBelow pi hi x) := by
    intro n
    induction n with
    | zero =>
      intro x h
      have h1 : (x - hi) / (2 * pi) < 0 := by
        have := Int.floor_lt.1 h; simpa using this
      have h3 : x < hi := by
        by_contra hh
        exact absurd h1 (not_lt.2 (div_nonneg (by linarith [not_lt.1 hh]) h2.le))
      unfold loopBelow
      rw [if_neg (not_le.2 h3), wrapBelow_id h3]
    | succ n ih =>
      intro x h
      unfold loopBelow
      by_cases h1 : x ≥ hi
      · rw [if_pos h1]
        have e : (x - 2 * pi - hi) / (2 * pi) = (x - hi) / (2 * pi) - 1 := by field_simp; ring
        have hc : ⌊(x - 2 * pi - hi) / (2 * pi)⌋ = ⌊(x - hi) / (2 * pi)⌋ - 1 := by rw [e, Int.floor_sub_one]
        rw [ih (x - 2 * pi) (by rw [hc]; push_cast at h; omega)]
        congr 1
        unfold wrapBelow
        rw [if_pos h1, hc]
        by_cases h4 : x - 2 * pi ≥ hi
        · rw [if_pos h4]; push_cast; ring
        · rw [if_neg h4]
          have a : (x - hi) / (2 * pi) < 1 := by rw [div_lt_one h2]; linarith [not_le.1 h4]
          have b : 0 ≤ (x - hi) / (2 * pi) := div_nonneg (by linarith) h2.le
          have : ⌊(x - hi) / (2 * pi)⌋ = 0 := Int.floor_eq_zero_iff.2 ⟨b, a⟩
          rw [this]; push_cast; ring
      · rw [if_neg h1, wrapBelow_id (not_le.1 h1)]
  refine ⟨_, key (⌊(x - hi) / (2 * pi)⌋ + 1).toNat x ?_⟩
  have := Int.self_le_toNat (⌊(x - hi) / (2 * pi)⌋ + 1)
  omega

theorem wrapBelow_lt {pi hi : K} (hp : 0 < pi) (x : K) : wrapBelow pi hi x < hi := by
  have h2 : (0 : K) < 2 * pi := by linarith
  unfold wrapBelow
  by_cases h : x ≥ hi
  · rw [if_pos h]
    have := Int.lt_floor_add_one ((x - hi) / (2 * pi))
    rw [div_lt_iff₀ h2] at this
    linarith
  · rw [if_neg h]; exact not_le.1 h

theorem wrapBelow_ge {pi hi : K} (hp : 0 < pi) {x : K} (hx : hi - 2 * pi ≤ x) : hi - 2 * pi ≤ wrapBelow pi hi x := by
  have h2 : (0 : K) < 2 * pi := by linarith
  unfold wrapBelow
  by_cases h : x ≥ hi
  · rw [if_pos h]
    have := Int.floor_le ((x - hi) / (2 * pi))
    rw [le_div_iff₀ h2] at this
    linarith
  · rw [if_neg h]; exact hx

theorem wrapBelow_shift (pi hi x : K) : ∃ k : ℤ, wrapBelow pi hi x = x + k * (2 * pi) := by
  unfold wrapBelow
  split_ifs
  · exact ⟨-(⌊(x - hi) / (2 * pi)⌋ + 1), by push_cast; ring⟩
  · exact ⟨0, by simp⟩

end

/-! ### The local coordinates used by the queries -/

/-- The angle used by the queries: within a turn from the start of the module, and the same direction. -/
theorem wrapped_angle (lo phi : ℝ) :
    lo ≤ wrapBelow π (lo + 2 * π) (wrapUp π lo phi) ∧ wrapBelow π (lo + 2 * π) (wrapUp π lo phi) < lo + 2 * π ∧
      ∃ k : ℤ, wrapBelow π (lo + 2 * π) (wrapUp π lo phi) = phi + k * (2 * π) := by
  have h1 := wrapUp_ge pi_pos (lo := lo) phi
  refine ⟨?_, wrapBelow_lt pi_pos _, ?_⟩
  · have := wrapBelow_ge pi_pos (hi := lo + 2 * π) (x := wrapUp π lo phi) (by linarith)
    linarith
  · obtain ⟨j, hj⟩ := wrapUp_shift π lo phi
    obtain ⟨k, hk⟩ := wrapBelow_shift π (lo + 2 * π) (wrapUp π lo phi)
    exact ⟨j + k, by rw [hk, hj]; push_cast; ring⟩

variable {id : ℤ} {L : LayoutI ℝ} {t : ℤ} {f : ℝ} {ops : List Op}

/-- The point the queries look at. -/
theorem wrappedLocal_spec (ht : Known t) (hl : Known L.coordinateType) (hs : Settled ops)
    (hw : ¬ OffsetAlongY t L.coordinateType (values f ops).offset) (c : ℝ × ℝ) :
    ∃ p, wrappedLocal realTrig (made id L t f ops) c.1 c.2 = .ok p ∧
      placement t f ops (plane L.coordinateType p) = plane t c ∧
      (L.coordinateType = POLAR → (made id L t f ops).localModuleExtent.e2 ≤ p.2 ∧
        p.2 < (made id L t f ops).localModuleExtent.e2 + 2 * π ∧ ((t = POLAR → 0 ≤ c.1) → 0 ≤ p.1)) := by
  obtain ⟨v1, v2, v3, v4, -⟩ := made_values (id := id) (L := L) (f := f) (ops := ops) ht
  obtain ⟨p, h1, h2, h3⟩ := globalToLocal_place (made_inv (id := id) (L := L) (t := t) (f := f) (ops := ops))
    (by rw [made_type ht]; exact ht) (by rw [made_layout ht]; exact hl) (settled_flag ht hl hs)
    (made_wrong ht hw) c
  rw [made_type ht, made_layout ht] at h3
  rw [made_type ht, made_layout ht, v1, v2, v3] at h2
  unfold wrappedLocal
  rw [h1, Res.bind_ok, made_layout ht]
  by_cases hp : L.coordinateType = POLAR
  · simp only [if_pos hp, Res.pure_eq, realTrig_pi]
    obtain ⟨a, b, k, e⟩ := wrapped_angle (made id L t f ops).localModuleExtent.e2 p.2
    refine ⟨_, rfl, ?_, fun _ => ⟨a, b, fun h => h3 hp h⟩⟩
    rw [e, hp, plane_turn, ← hp]
    exact h2
  · simp only [if_neg hp, Res.pure_eq]
    exact ⟨p, rfl, h2, fun h => absurd h hp⟩

theorem placement_inj {p q : ℝ × ℝ} (h : placement t f ops p = placement t f ops q) : p = q := place_inj h

/-! ### C83 -/

/-- A point is reported to be in a module exactly if it belongs to the module where that has been placed. -/
theorem isInsideModule_iff_partial (ht : Known t) (hl : Known L.coordinateType) (hs : Settled ops)
    (hw : ¬ OffsetAlongY t L.coordinateType (values f ops).offset) (c : ℝ × ℝ) (hc : t = POLAR → 0 ≤ c.1)
    (hp : L.coordinateType = POLAR → 0 ≤ (getLocalModuleExtent (made id L t f ops)).e0 ∧
      (plane t c = placement t f ops (0, 0) → 0 < (getLocalModuleExtent (made id L t f ops)).e0)) :
    ∃ b, isInsideModule realTrig (made id L t f ops) c.1 c.2 = .ok b ∧
      (b = true ↔ plane t c ∈
        placement t f ops '' region L.coordinateType (getLocalModuleExtent (made id L t f ops))) := by
  obtain ⟨p, h1, h2, h3⟩ := wrappedLocal_spec (id := id) (L := L) (f := f) ht hl hs hw c
  unfold isInsideModule
  rw [h1, Res.bind_ok]
  refine ⟨_, rfl, ?_⟩
  rw [decide_eq_true_iff]
  change _ ↔ plane t c ∈ placement t f ops '' region L.coordinateType (made id L t f ops).localModuleExtent
  change L.coordinateType = POLAR → 0 ≤ (made id L t f ops).localModuleExtent.e0 ∧
      (plane t c = placement t f ops (0, 0) → 0 < (made id L t f ops).localModuleExtent.e0) at hp
  generalize (made id L t f ops).localModuleExtent = e at *
  constructor
  · rintro ⟨a, b, d, g⟩
    exact ⟨_, ⟨p, a, b, d, g, rfl⟩, h2⟩
  · rintro ⟨q', ⟨q, a, b, d, g, rfl⟩, hq⟩
    have heq : plane L.coordinateType p = plane L.coordinateType q :=
      placement_inj (t := t) (f := f) (ops := ops) (h2.trans hq.symm)
    rcases hl with hl | hl
    · rw [hl, plane_cartesian, plane_cartesian] at heq
      subst heq
      exact ⟨a, b, d, g⟩
    · obtain ⟨p2, p3, p1⟩ := h3 hl
      obtain ⟨e0, e0'⟩ := hp hl
      rw [hl] at heq
      have hsame := same_of_plane (p1 hc) (e0.trans a) heq
      unfold Same at hsame
      rw [if_pos rfl] at hsame
      obtain ⟨s1, s2⟩ := hsame
      rcases s2 with s2 | ⟨k, s2⟩
      · exfalso
        have : plane t c = placement t f ops (0, 0) := by
          rw [← h2, hl, plane_polar, s2]; simp
        have := e0' this
        rw [s1] at s2
        linarith
      · refine ⟨by rw [s1]; exact a, by rw [s1]; exact b, p2, ?_⟩
        by_contra hh
        have hp0 := pi_pos
        push Not at hh
        have k1 : (0 : ℝ) < k := by by_contra hn; push Not at hn; nlinarith
        have k2 : (k : ℝ) < 1 := by by_contra hn; push Not at hn; nlinarith
        have k1' : 0 < k := by exact_mod_cast k1
        have k2' : k < 1 := by exact_mod_cast k2
        omega

/-- A quarter ring, rotated, mirrored, moved and with a border: the theorem applies to every point. -/
example (c : ℝ × ℝ) :
    Known CARTESIAN ∧ Known quarterLayout.coordinateType ∧
      Settled [.z (-1), .offset 3 4, .angle 1, .border (1 / 2)] ∧
      ¬ OffsetAlongY CARTESIAN quarterLayout.coordinateType
        (values 0 [.z (-1), .offset 3 4, .angle 1, .border (1 / 2)]).offset ∧
      (0 ≤ (getLocalModuleExtent (made 0 quarterLayout CARTESIAN 0
          [.z (-1), .offset 3 4, .angle 1, .border (1 / 2)])).e0 ∧
        (plane CARTESIAN c = placement CARTESIAN 0 [.z (-1), .offset 3 4, .angle 1, .border (1 / 2)] (0, 0) →
          0 < (getLocalModuleExtent (made 0 quarterLayout CARTESIAN 0
          [.z (-1), .offset 3 4, .angle 1, .border (1 / 2)])).e0)) := by
  have hp := pi_gt_three
  have hb : (values 0 [.z (-1), .offset 3 4, .angle 1, .border (1 / 2)]).border = 1 / 2 := rfl
  have h0 : quarterLayout.planeExtent = ⟨1, 2, 0, π / 2⟩ := rfl
  have := border_polar_partial (id := 0) (L := quarterLayout) (t := CARTESIAN) (f := 0)
    (ops := [.z (-1), .offset 3 4, .angle 1, .border (1 / 2)]) (Or.inl rfl) rfl
    (by rw [h0]; norm_num) (by rw [h0]; norm_num) (by rw [hb, h0]; norm_num; linarith)
  rw [this, hb, h0]
  refine ⟨Or.inl rfl, Or.inr rfl, ⟨[.z (-1)], .offset 3 4, [.angle 1, .border (1 / 2)], rfl, trivial, ?_⟩,
    fun h => polar_ne h.1, ?_, fun _ => ?_⟩
  · intro p hp
    simp only [List.mem_cons, List.not_mem_nil, or_false] at hp
    rcases hp with rfl | rfl <;> exact fun h => h
  · norm_num
  · norm_num

/-- A layout that covers a sector with its tip. -/
noncomputable def tipLayout : LayoutI ℝ := { ringLayout with planeExtent := ⟨0, 2, 1, 2⟩ }

/-- The tip of a sector belongs to it, but is reported to be outside. -/
theorem isInsideModule_false_tip :
    isInsideModule realTrig (made 0 tipLayout POLAR 0 []) 0 0 = .ok false ∧
      plane POLAR (0, 0) ∈ placement POLAR 0 [] '' region tipLayout.coordinateType
        (getLocalModuleExtent (made 0 tipLayout POLAR 0 [])) := by
  have hp := pi_gt_three
  constructor
  · have hfl : (made 0 tipLayout POLAR 0 []).localIsGlobal = true :=
      decide_eq_true ⟨rfl, rfl, rfl, rfl, (by norm_num : (1 : ℝ) > 0)⟩
    have he : (made 0 tipLayout POLAR 0 []).localModuleExtent = ⟨0, 2, 1, 2⟩ := rfl
    unfold isInsideModule wrappedLocal globalToLocal
    rw [if_pos hfl, Res.bind_ok, he,
      if_pos (show (made 0 tipLayout POLAR 0 []).layout.coordinateType = POLAR from rfl)]
    simp only [Res.pure_eq, Res.bind_ok, realTrig_pi]
    congr 1
    apply decide_eq_false
    rintro ⟨-, -, h3, h4⟩
    obtain ⟨-, -, k, e⟩ := wrapped_angle 1 0
    rw [e] at h3 h4
    have k1 : (0 : ℝ) < k := by by_contra hn; push Not at hn; nlinarith
    have k2 : (k : ℝ) < 1 := by by_contra hn; push Not at hn; nlinarith
    have k1' : 0 < k := by exact_mod_cast k1
    have k2' : k < 1 := by exact_mod_cast k2
    omega
  · refine ⟨plane POLAR (0, 1), ⟨(0, 1), le_rfl, ?_, le_rfl, ?_, rfl⟩, ?_⟩
    · show (0 : ℝ) ≤ 2; norm_num
    · show (1 : ℝ) ≤ 2; norm_num
    · unfold placement place
      simp [plane_polar, values]

/-! ### C84 -/

namespace Spec

/-- The distances from a point to the points of a set. -/
def distances (s : Set (ℝ × ℝ)) (p : ℝ × ℝ) : Set ℝ := {d | ∃ q ∈ s, d = Disk.Spec.dist2 p q}

end Spec

/-- The distance to a rectangle. -/
theorem rect_isLeast {e : Ext ℝ} (h1 : e.e0 ≤ e.e1) (h2 : e.e2 ≤ e.e3) (x y : ℝ) {D dx dy : ℝ}
    (hdx : (x < e.e0 → dx = e.e0 - x) ∧ (e.e0 ≤ x → x ≤ e.e1 → dx = 0) ∧ (e.e1 < x → dx = x - e.e1))
    (hdy : (y < e.e2 → dy = e.e2 - y) ∧ (e.e2 ≤ y → y ≤ e.e3 → dy = 0) ∧ (e.e3 < y → dy = y - e.e3))
    (hD : D = √(dx ^ 2 + dy ^ 2)) : IsLeast (distances (region CARTESIAN e) (x, y)) D := by
  have hx : ∃ u, e.e0 ≤ u ∧ u ≤ e.e1 ∧ dx ^ 2 = (x - u) ^ 2 := by
    rcases lt_or_ge x e.e0 with a | a
    · exact ⟨e.e0, le_rfl, h1, by rw [hdx.1 a]; ring⟩
    · rcases le_or_gt x e.e1 with b | b
      · exact ⟨x, a, b, by rw [hdx.2.1 a b]; ring⟩
      · exact ⟨e.e1, h1, le_rfl, by rw [hdx.2.2 b]⟩
  have hy : ∃ u, e.e2 ≤ u ∧ u ≤ e.e3 ∧ dy ^ 2 = (y - u) ^ 2 := by
    rcases lt_or_ge y e.e2 with a | a
    · exact ⟨e.e2, le_rfl, h2, by rw [hdy.1 a]; ring⟩
    · rcases le_or_gt y e.e3 with b | b
      · exact ⟨y, a, b, by rw [hdy.2.1 a b]; ring⟩
      · exact ⟨e.e3, h2, le_rfl, by rw [hdy.2.2 b]⟩
  have hx' : ∀ u, e.e0 ≤ u → u ≤ e.e1 → dx ^ 2 ≤ (x - u) ^ 2 := by
    intro u u1 u2
    rcases lt_or_ge x e.e0 with a | a
    · rw [hdx.1 a]; nlinarith
    · rcases le_or_gt x e.e1 with b | b
      · rw [hdx.2.1 a b]; nlinarith [sq_nonneg (x - u)]
      · rw [hdx.2.2 b]; nlinarith
  have hy' : ∀ u, e.e2 ≤ u → u ≤ e.e3 → dy ^ 2 ≤ (y - u) ^ 2 := by
    intro u u1 u2
    rcases lt_or_ge y e.e2 with a | a
    · rw [hdy.1 a]; nlinarith
    · rcases le_or_gt y e.e3 with b | b
      · rw [hdy.2.1 a b]; nlinarith [sq_nonneg (y - u)]
      · rw [hdy.2.2 b]; nlinarith
  subst hD
  constructor
  · obtain ⟨u, u1, u2, u3⟩ := hx
    obtain ⟨w, w1, w2, w3⟩ := hy
    refine ⟨(u, w), ⟨(u, w), u1, u2, w1, w2, (plane_cartesian _).symm⟩, ?_⟩
    unfold Disk.Spec.dist2
    rw [u3, w3]
  · rintro d ⟨q, ⟨c, c0, c1, c2, c3, hq⟩, rfl⟩
    rw [hq, plane_cartesian]
    unfold Disk.Spec.dist2
    apply Real.sqrt_le_sqrt
    exact add_le_add (hx' _ c0 c1) (hy' _ c2 c3)

/-- The distance reported for a point is the Euclidean distance to the module where that has been placed:
attained, and not larger than the distance to any point of the module. -/
theorem getDistanceToModule_isLeast_partial (ht : Known t) (hl : Known L.coordinateType) (hs : Settled ops)
    (hw : ¬ OffsetAlongY t L.coordinateType (values f ops).offset) (c : ℝ × ℝ) (hc : t = POLAR → 0 ≤ c.1)
    {e : Ext ℝ} (he : getLocalModuleExtent (made id L t f ops) = e) (h1 : e.e0 ≤ e.e1) (h2 : e.e2 ≤ e.e3)
    (hp : L.coordinateType = POLAR → 0 ≤ e.e0) :
    ∃ d, getDistanceToModule realTrig (made id L t f ops) c.1 c.2 = .ok d ∧
      IsLeast (distances (placement t f ops '' region L.coordinateType e) (plane t c)) d := by
  obtain ⟨p, g1, g2, g3⟩ := wrappedLocal_spec (id := id) (L := L) (f := f) ht hl hs hw c
  -- in the module's own plane
  have hmove : ∀ D, IsLeast (distances (region L.coordinateType e) (plane L.coordinateType p)) D →
      IsLeast (distances (placement t f ops '' region L.coordinateType e) (plane t c)) D := by
    rintro D ⟨⟨q, q1, q2⟩, hD⟩
    constructor
    · exact ⟨_, ⟨q, q1, rfl⟩, by rw [← g2, place_dist]; exact q2⟩
    · rintro d ⟨-, ⟨q', q1', rfl⟩, rfl⟩
      rw [← g2, place_dist]
      exact hD ⟨q', q1', rfl⟩
  have he' : (made id L t f ops).localModuleExtent = e := he
  unfold getDistanceToModule
  rw [g1, Res.bind_ok, he', made_layout ht]
  rw [he'] at g3
  dsimp only
  rcases hl with hl | hl
  · -- Cartesian
    rw [hl] at hmove ⊢
    rw [plane_cartesian] at hmove
    by_cases hin : p.2 ≥ e.e2 ∧ p.2 ≤ e.e3
    · rw [if_pos hin]
      refine ⟨_, rfl, hmove _ ?_⟩
      refine rect_isLeast h1 h2 p.1 p.2 (dx := if p.1 < e.e0 then e.e0 - p.1 else if p.1 ≤ e.e1 then 0 else p.1 - e.e1)
        (dy := 0) ⟨fun h => if_pos h, fun h h' => ?_, fun h => ?_⟩
        ⟨fun h => absurd h (not_lt.2 hin.1), fun _ _ => rfl, fun h => absurd h (not_lt.2 hin.2)⟩ ?_
      · rw [if_neg (not_lt.2 h), if_pos h']
      · rw [if_neg (not_lt.2 (h1.trans h.le)), if_neg (not_le.2 h)]
      · have : (0 : ℝ) ≤ if p.1 < e.e0 then e.e0 - p.1 else if p.1 ≤ e.e1 then 0 else p.1 - e.e1 := by
          split_ifs with a b <;> linarith
        rw [zero_pow two_ne_zero, add_zero, Real.sqrt_sq this]
    · rw [if_neg hin, if_pos (show CARTESIAN = CARTESIAN from rfl)]
      refine ⟨_, rfl, hmove _ ?_⟩
      by_cases a : p.2 < e.e2
      · rw [if_pos a]
        have ky : ∀ {dx}, _ → ∀ {D}, D = √(dx ^ 2 + (e.e2 - p.2) ^ 2) → _ := fun {dx} hdx {D} hD =>
          rect_isLeast (D := D) (dx := dx) h1 h2 p.1 p.2 hdx (dy := e.e2 - p.2)
          ⟨fun _ => rfl, fun h => absurd h (not_le.2 a), fun h => absurd (h2.trans h.le) (not_le.2 a)⟩ hD
        by_cases b : p.1 < e.e0
        · rw [if_pos b]
          refine ky (dx := e.e0 - p.1) ⟨fun _ => rfl, fun h => absurd h (not_le.2 b),
            fun h => absurd (h1.trans h.le) (not_le.2 b)⟩ ?_
          show √_ = _
          congr 1; ring
        · rw [if_neg b]
          by_cases b' : p.1 ≤ e.e1
          · rw [if_pos b']
            refine ky (dx := 0) ⟨fun h => absurd h b, fun _ _ => rfl, fun h => absurd h (not_lt.2 b')⟩ ?_
            rw [zero_pow two_ne_zero, zero_add, Real.sqrt_sq (by linarith)]
          · rw [if_neg b']
            refine ky (dx := p.1 - e.e1) ⟨fun h => absurd h b, fun _ h => absurd h b', fun _ => rfl⟩ ?_
            show √_ = _
            congr 1; ring
      · rw [if_neg a]
        have a' : e.e3 < p.2 := by
          by_contra hh; exact hin ⟨not_lt.1 a, not_lt.1 hh⟩
        have ky : ∀ {dx}, _ → ∀ {D}, D = √(dx ^ 2 + (p.2 - e.e3) ^ 2) → _ := fun {dx} hdx {D} hD =>
          rect_isLeast (D := D) (dx := dx) h1 h2 p.1 p.2 hdx (dy := p.2 - e.e3)
          ⟨fun h => absurd h a, fun _ h => absurd h (not_le.2 a'), fun _ => rfl⟩ hD
        by_cases b : p.1 < e.e0
        · rw [if_pos b]
          refine ky (dx := e.e0 - p.1) ⟨fun _ => rfl, fun h => absurd h (not_le.2 b),
            fun h => absurd (h1.trans h.le) (not_le.2 b)⟩ ?_
          show √_ = _
          congr 1; ring
        · rw [if_neg b]
          by_cases b' : p.1 ≤ e.e1
          · rw [if_pos b']
            refine ky (dx := 0) ⟨fun h => absurd h b, fun _ _ => rfl, fun h => absurd h (not_lt.2 b')⟩ ?_
            rw [zero_pow two_ne_zero, zero_add, Real.sqrt_sq (by linarith)]
          · rw [if_neg b']
            refine ky (dx := p.1 - e.e1) ⟨fun h => absurd h b, fun _ h => absurd h b', fun _ => rfl⟩ ?_
            show √_ = _
            congr 1; ring
  · -- polar
    obtain ⟨p2, p3, p1⟩ := g3 hl
    have e0 := hp hl
    have hr := p1 hc
    rw [hl] at hmove ⊢
    -- a sector over more than a full turn is the full ring
    have hset : distances (region POLAR e) (plane POLAR p) =
        Disk.Spec.distancesTo (Disk.Spec.keystone e.e0 e.e1 e.e2 (min e.e3 (e.e2 + 2 * π))) p.1 p.2 := by
      have hp0 := pi_pos
      ext d
      constructor
      · rintro ⟨q, ⟨c, c0, c1, c2, c3, rfl⟩, rfl⟩
        rcases le_or_gt c.2 (e.e2 + 2 * π) with c4 | c4
        · exact ⟨_, ⟨c.1, c.2, c0, c1, c2, le_min c3 c4, rfl⟩, by rw [plane_polar, plane_polar]; rfl⟩
        · obtain ⟨a, b, k, hk⟩ := wrapped_angle e.e2 c.2
          refine ⟨_, ⟨c.1, _, c0, c1, a, le_min (by linarith) b.le, rfl⟩, ?_⟩
          have hq : Disk.Spec.point c.1 (c.2 + k * (2 * π)) = (c.1 * cos c.2, c.1 * sin c.2) := by
            unfold Disk.Spec.point
            rw [cos_add_int_mul_two_pi, sin_add_int_mul_two_pi]
          rw [plane_polar, plane_polar, hk, hq]
          rfl
      · rintro ⟨q, ⟨a, b, c0, c1, c2, c3, rfl⟩, rfl⟩
        exact ⟨_, ⟨(a, b), c0, c1, c2, c3.trans (min_le_left _ _), rfl⟩, by rw [plane_polar, plane_polar]; rfl⟩
    have hm1 : min e.e3 (e.e2 + 2 * π) ≤ e.e2 + 2 * π := min_le_right _ _
    have hm2 : e.e2 ≤ min e.e3 (e.e2 + 2 * π) := le_min h2 (by have := pi_pos; linarith)
    have hk := keystoneDistance_isLeast hr e0 h1 hm2 (phi := p.2) (by linarith) (by linarith)
    rw [← hset] at hk
    have hsame : keystoneDistance realFns p.1 p.2 e.e0 e.e1 e.e2 (min e.e3 (e.e2 + 2 * π)) =
        keystoneDistance realFns p.1 p.2 e.e0 e.e1 e.e2 e.e3 := by
      rcases le_or_gt e.e3 (e.e2 + 2 * π) with h | h
      · rw [min_eq_left h]
      · rw [min_eq_right h.le]
        unfold keystoneDistance
        rw [if_pos (show p.2 ≥ e.e2 ∧ p.2 ≤ e.e2 + 2 * π from ⟨p2, p3.le⟩),
          if_pos (show p.2 ≥ e.e2 ∧ p.2 ≤ e.e3 from ⟨p2, (p3.trans h).le⟩)]
    rw [hsame] at hk
    have hk := hmove _ hk
    by_cases hin : p.2 ≥ e.e2 ∧ p.2 ≤ e.e3
    · rw [if_pos hin]
      refine ⟨_, rfl, ?_⟩
      unfold keystoneDistance at hk
      rw [if_pos hin] at hk
      by_cases b : p.1 < e.e0
      · rw [if_pos b]
        rw [if_neg (fun h => absurd h.1 (not_le.2 b)), if_pos b] at hk
        exact hk
      · rw [if_neg b]
        by_cases b' : p.1 ≤ e.e1
        · rw [if_pos b']
          rw [if_pos ⟨not_lt.1 b, b'⟩] at hk
          exact hk
        · rw [if_neg b']
          rw [if_neg (fun h => b' h.2), if_neg b] at hk
          exact hk
    · rw [if_neg hin, if_neg (show ¬ POLAR = CARTESIAN from fun h => polar_ne h.symm),
        if_pos (show POLAR = POLAR from rfl)]
      refine ⟨_, rfl, ?_⟩
      unfold keystoneDistance at hk
      rw [if_neg hin] at hk
      exact hk

/-- The mirrored, moved and rotated unit square with a border of 2. -/
example : getLocalModuleExtent (made 0 squareLayout CARTESIAN 0 [.z (-1), .offset 3 4, .angle 1, .border 2]) =
      ⟨-2, 3, -2, 3⟩ ∧ (-2 : ℝ) ≤ 3 ∧ Settled [.z (-1), .offset 3 4, .angle 1, .border 2] := by
  refine ⟨?_, by norm_num, settled_example⟩
  rw [border_cartesian (Or.inl rfl) rfl]
  simp only [squareLayout, values, Values.set, List.foldl_cons, List.foldl_nil]
  norm_num

/-- The distance to a module is 0 exactly if the point is in the module. -/
theorem distance_zero_iff_partial (ht : Known t) (hl : Known L.coordinateType) (hs : Settled ops)
    (hw : ¬ OffsetAlongY t L.coordinateType (values f ops).offset) (c : ℝ × ℝ) (hc : t = POLAR → 0 ≤ c.1)
    {e : Ext ℝ} (he : getLocalModuleExtent (made id L t f ops) = e) (h1 : e.e0 ≤ e.e1) (h2 : e.e2 ≤ e.e3)
    (hp : L.coordinateType = POLAR → 0 < e.e0) :
    getDistanceToModule realTrig (made id L t f ops) c.1 c.2 = .ok 0 ↔
      isInsideModule realTrig (made id L t f ops) c.1 c.2 = .ok true := by
  obtain ⟨d, d1, d2, d3⟩ := getDistanceToModule_isLeast_partial (id := id) ht hl hs hw c hc he h1 h2
    (fun h => (hp h).le)
  obtain ⟨b, b1, b2⟩ := isInsideModule_iff_partial (id := id) (L := L) (f := f) ht hl hs hw c hc
    (fun h => by rw [he]; exact ⟨(hp h).le, fun _ => hp h⟩)
  rw [he] at b2
  rw [d1, b1]
  have hz : ∀ p q : ℝ × ℝ, Disk.Spec.dist2 p q = 0 ↔ p = q := by
    intro p q
    unfold Disk.Spec.dist2
    rw [Real.sqrt_eq_zero (by positivity)]
    constructor
    · intro h
      have a : (p.1 - q.1) ^ 2 = 0 := by nlinarith [sq_nonneg (p.1 - q.1), sq_nonneg (p.2 - q.2)]
      have b : (p.2 - q.2) ^ 2 = 0 := by nlinarith [sq_nonneg (p.1 - q.1), sq_nonneg (p.2 - q.2)]
      rw [sq_eq_zero_iff, sub_eq_zero] at a b
      exact Prod.ext a b
    · rintro rfl; ring
  constructor
  · intro h
    have h0 : d = 0 := Res.ok.inj h
    obtain ⟨q, q1, q2⟩ := d2
    have hb : b = true := b2.2 (by rw [(hz _ _).1 (q2.symm.trans h0)]; exact q1)
    rw [hb]
  · intro h
    have hb : b = true := Res.ok.inj h
    have hm := b2.1 hb
    have : d ≤ 0 := d3 ⟨_, hm, ((hz _ _).2 rfl).symm⟩
    obtain ⟨q, q1, q2⟩ := d2
    have h0 : 0 ≤ d := by rw [q2]; exact Real.sqrt_nonneg _
    rw [le_antisymm this h0]

end Gear.TpcModule
