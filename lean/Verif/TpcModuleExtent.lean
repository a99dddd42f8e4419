/-
Properties C29, C85 and C87 of `TPCModuleImpl`: the extents.
-/
import Verif.TpcModuleProps

set_option autoImplicit false
set_option linter.unusedSectionVars false

namespace Gear.TpcModule

open Disk Real
open Spec

namespace Spec

/-- The smallest box around a set of points: all points are in it, and each side is attained. -/
def SmallestBox (s : Set (ℝ × ℝ)) (b : Ext ℝ) : Prop :=
  IsLeast (Prod.fst '' s) b.e0 ∧ IsGreatest (Prod.fst '' s) b.e1 ∧
    IsLeast (Prod.snd '' s) b.e2 ∧ IsGreatest (Prod.snd '' s) b.e3

/-- The distances of the points of a set from the origin. -/
def radii (s : Set (ℝ × ℝ)) : Set ℝ := {r | ∃ q ∈ s, r = Disk.Spec.dist2 q (0, 0)}

end Spec

/-! ### The extents after the setters -/

variable {id : ℤ} {L : LayoutI ℝ} {t : ℤ} {f : ℝ} {ops : List Op}

theorem settled_extents (ht : Known t) (hl : Known L.coordinateType) (hu : ¬ Unsupported t L.coordinateType)
    (hs : Settled ops) :
    globalExtent realTrig (made id L t f ops) (made id L t f ops).localModuleExtent =
        .ok (made id L t f ops).moduleExtent ∧
      globalExtent realTrig (made id L t f ops) L.planeExtent = .ok (made id L t f ops).planeExtent := by
  rw [made, run_settled ht hl hs]
  obtain ⟨a, b, c, h1, h2, h3, h4⟩ := convertExtents_of (m := checkLocalIsGlobal (base id L t (values f ops)))
    ht hl hu
  unfold canon
  rw [h4]
  exact ⟨h2, h3⟩

/-- The local module extent is up to date after any sequence of setter calls. -/
theorem made_localExtent (ht : Known t) (hl : Known L.coordinateType) :
    localExtent realTrig (made id L t f ops) = .ok (made id L t f ops).localModuleExtent := by
  have h0 : localExtent realTrig (new id L t f) = .ok (new id L t f).localModuleExtent := by
    unfold localExtent; dsimp only; rw [if_pos (by rfl)]; rfl
  have hc : ∀ m : Module ℝ, Known m.layout.coordinateType →
      localExtent realTrig (convertExtents realTrig m).1 = .ok (convertExtents realTrig m).1.localModuleExtent := by
    intro m hm
    obtain ⟨a, ha⟩ := localExtent_ok hm
    have : (convertExtents realTrig m).1.localModuleExtent = a := by
      unfold convertExtents
      rw [ha]
      dsimp only
      cases globalExtent realTrig { m with localModuleExtent := a } a with
      | throw x => rfl
      | ub => rfl
      | ok me =>
        dsimp only
        cases globalExtent realTrig { m with localModuleExtent := a, moduleExtent := me } m.layout.planeExtent with
        | throw x => rfl
        | ub => rfl
        | ok pe => rfl
    rw [this]
    obtain ⟨a', b', c', e⟩ := convertExtents_eq realTrig m
    rw [e]
    exact ha
  have key : ∀ (ops : List Op) (v : Values) (m : Module ℝ), Has id L t v m →
      localExtent realTrig m = .ok m.localModuleExtent →
      localExtent realTrig (run m ops) = .ok (run m ops).localModuleExtent := by
    intro ops
    induction ops with
    | nil => intro v m _ h; exact h
    | cons o ops ih =>
      intro v m hh h
      refine ih _ _ (hh.step ht o) ?_
      have hml : Known m.layout.coordinateType := by
        obtain ⟨a, b, c, g, e, -⟩ := hh
        rw [e]; exact hl
      cases o with
      | border w => exact hc _ hml
      | angle w => exact hc _ hml
      | z z => exact h
      | frequency w => exact h
      | offset x y =>
        obtain ⟨m', h1, h2⟩ := hh.offset ht x y
        show localExtent realTrig (setOffset realTrig m x y).1 = .ok (setOffset realTrig m x y).1.localModuleExtent
        rw [h2]
        refine hc _ ?_
        obtain ⟨a, b, c, g, e, -⟩ := h1
        rw [e]; exact hl
  exact key ops _ _ (new_has id L t f) h0

/-! ### Boxes -/

theorem enlarge_eq (b : Ext ℝ) (p : ℝ × ℝ) :
    enlarge b p = ⟨min b.e0 p.1, max b.e1 p.1, min b.e2 p.2, max b.e3 p.2⟩ := by
  have h1 : ∀ x y : ℝ, (if x > y then y else x) = min x y := by
    intro x y
    split_ifs with h
    · exact (min_eq_right (le_of_lt h)).symm
    · exact (min_eq_left (not_lt.1 h)).symm
  have h2 : ∀ x y : ℝ, (if x < y then y else x) = max x y := by
    intro x y
    split_ifs with h
    · exact (max_eq_right (le_of_lt h)).symm
    · exact (max_eq_left (not_lt.1 h)).symm
  unfold enlarge
  rw [h1, h2, h1, h2]

/-- The point where the module places local coordinates. -/
noncomputable def placed (m : Module ℝ) (a b : ℝ) : ℝ × ℝ :=
  place m.angle (plane m.momsCoordinateType m.offset) m.zPosition (plane m.layout.coordinateType (a, b))

theorem cornerBox_eq {m : Module ℝ} (h : Inv m) (ht : m.momsCoordinateType = CARTESIAN)
    (hl : Known m.layout.coordinateType) (hf : m.localIsGlobal = true → 0 < m.zPosition) (e : Ext ℝ) :
    cornerBox realTrig m e = .ok
      ⟨min (min (min (placed m e.e0 e.e2).1 (placed m e.e0 e.e3).1) (placed m e.e1 e.e2).1) (placed m e.e1 e.e3).1,
       max (max (max (placed m e.e0 e.e2).1 (placed m e.e0 e.e3).1) (placed m e.e1 e.e2).1) (placed m e.e1 e.e3).1,
       min (min (min (placed m e.e0 e.e2).2 (placed m e.e0 e.e3).2) (placed m e.e1 e.e2).2) (placed m e.e1 e.e3).2,
       max (max (max (placed m e.e0 e.e2).2 (placed m e.e0 e.e3).2) (placed m e.e1 e.e2).2)
        (placed m e.e1 e.e3).2⟩ := by
  have key : ∀ a b, localToGlobal realTrig m a b = .ok (placed m a b) := by
    intro a b
    obtain ⟨p, h1, h2, -⟩ := localToGlobal_place h (Or.inl ht) hl hf (a, b)
    rw [h1]
    have h3 : plane m.momsCoordinateType p = p := by rw [ht]; exact plane_cartesian p
    rw [← h3, h2]; rfl
  unfold cornerBox
  simp only [key, Res.bind_ok, Res.pure_eq, enlarge_eq]

theorem affine_le (B C : ℝ) {x0 x1 y0 y1 x y : ℝ} (h1 : x0 ≤ x) (h2 : x ≤ x1) (h3 : y0 ≤ y) (h4 : y ≤ y1) :
    B * x + C * y ≤ B * x0 + C * y0 ∨ B * x + C * y ≤ B * x0 + C * y1 ∨ B * x + C * y ≤ B * x1 + C * y0 ∨
      B * x + C * y ≤ B * x1 + C * y1 := by
  rcases le_total 0 B with hB | hB <;> rcases le_total 0 C with hC | hC
  · exact Or.inr (Or.inr (Or.inr (add_le_add (mul_le_mul_of_nonneg_left h2 hB) (mul_le_mul_of_nonneg_left h4 hC))))
  · exact Or.inr (Or.inr (Or.inl (add_le_add (mul_le_mul_of_nonneg_left h2 hB) (mul_le_mul_of_nonpos_left h3 hC))))
  · exact Or.inr (Or.inl (add_le_add (mul_le_mul_of_nonpos_left h1 hB) (mul_le_mul_of_nonneg_left h4 hC)))
  · exact Or.inl (add_le_add (mul_le_mul_of_nonpos_left h1 hB) (mul_le_mul_of_nonpos_left h3 hC))

theorem le_max4 {v a b c d : ℝ} (h : v ≤ a ∨ v ≤ b ∨ v ≤ c ∨ v ≤ d) : v ≤ max (max (max a b) c) d := by
  rcases h with h | h | h | h
  · exact le_max_of_le_left (le_max_of_le_left (le_max_of_le_left h))
  · exact le_max_of_le_left (le_max_of_le_left (le_max_of_le_right h))
  · exact le_max_of_le_left (le_max_of_le_right h)
  · exact le_max_of_le_right h

theorem min4_le {v a b c d : ℝ} (h : a ≤ v ∨ b ≤ v ∨ c ≤ v ∨ d ≤ v) : min (min (min a b) c) d ≤ v := by
  rcases h with h | h | h | h
  · exact min_le_of_left_le (min_le_of_left_le (min_le_of_left_le h))
  · exact min_le_of_left_le (min_le_of_left_le (min_le_of_right_le h))
  · exact min_le_of_left_le (min_le_of_right_le h)
  · exact min_le_of_right_le h

theorem max4_mem {s : Set ℝ} {a b c d : ℝ} (ha : a ∈ s) (hb : b ∈ s) (hc : c ∈ s) (hd : d ∈ s) :
    max (max (max a b) c) d ∈ s := by
  rcases max_choice (max (max a b) c) d with h | h <;> rw [h]
  · rcases max_choice (max a b) c with h | h <;> rw [h]
    · rcases max_choice a b with h | h <;> rw [h] <;> assumption
    · assumption
  · assumption

theorem min4_mem {s : Set ℝ} {a b c d : ℝ} (ha : a ∈ s) (hb : b ∈ s) (hc : c ∈ s) (hd : d ∈ s) :
    min (min (min a b) c) d ∈ s := by
  rcases min_choice (min (min a b) c) d with h | h <;> rw [h]
  · rcases min_choice (min a b) c with h | h <;> rw [h]
    · rcases min_choice a b with h | h <;> rw [h] <;> assumption
    · assumption
  · assumption

/-- The coordinates of a placed point as functions of the point. -/
theorem place_linear (angle : ℝ) (off : ℝ × ℝ) (z : ℝ) : ∃ u1 u2 : ℝ, ∀ q : ℝ × ℝ,
    (place angle off z q).1 = u1 * q.1 + u2 * q.2 + (place angle off z (0, 0)).1 ∧
      (place angle off z q).2 = sin angle * q.1 + cos angle * q.2 + (place angle off z (0, 0)).2 := by
  refine ⟨if z ≤ 0 then -cos angle else cos angle, if z ≤ 0 then sin angle else -sin angle, fun q => ⟨?_, ?_⟩⟩
  · unfold place
    dsimp only
    split_ifs <;> ring
  · unfold place
    dsimp only
    ring

/-- For Cartesian coordinates inside and outside, the corners decide. -/
theorem cartesian_box {m : Module ℝ} (h : Inv m) (ht : m.momsCoordinateType = CARTESIAN)
    (hl : m.layout.coordinateType = CARTESIAN) (hf : m.localIsGlobal = true → 0 < m.zPosition) {e g : Ext ℝ}
    (h1 : e.e0 ≤ e.e1) (h2 : e.e2 ≤ e.e3) (hg : globalExtent realTrig m e = .ok g) :
    SmallestBox (place m.angle (plane m.momsCoordinateType m.offset) m.zPosition ''
      region m.layout.coordinateType e) g := by
  unfold globalExtent globalExtentCartesianCartesian at hg
  rw [if_neg (by rw [ht]; exact polar_ne), if_pos ht, if_neg (by rw [hl]; exact polar_ne), if_pos hl,
    cornerBox_eq h ht (Or.inl hl) hf] at hg
  obtain rfl := Res.ok.inj hg
  clear hg
  have hmem : ∀ a b, e.e0 ≤ a → a ≤ e.e1 → e.e2 ≤ b → b ≤ e.e3 → placed m a b ∈
      place m.angle (plane m.momsCoordinateType m.offset) m.zPosition '' region m.layout.coordinateType e :=
    fun a b ha hb hc hd => ⟨_, ⟨(a, b), ha, hb, hc, hd, rfl⟩, rfl⟩
  have m00 := hmem _ _ le_rfl h1 le_rfl h2
  have m01 := hmem _ _ le_rfl h1 h2 le_rfl
  have m10 := hmem _ _ h1 le_rfl le_rfl h2
  have m11 := hmem _ _ h1 le_rfl h2 le_rfl
  obtain ⟨u1, u2, hu⟩ := place_linear m.angle (plane m.momsCoordinateType m.offset) m.zPosition
  have px : ∀ a b, (placed m a b).1 = u1 * a + u2 * b +
      (place m.angle (plane m.momsCoordinateType m.offset) m.zPosition (0, 0)).1 := by
    intro a b
    unfold placed
    rw [(hu _).1, hl, plane_cartesian]
  have py : ∀ a b, (placed m a b).2 = sin m.angle * a + cos m.angle * b +
      (place m.angle (plane m.momsCoordinateType m.offset) m.zPosition (0, 0)).2 := by
    intro a b
    unfold placed
    rw [(hu _).2, hl, plane_cartesian]
  refine ⟨⟨?_, ?_⟩, ⟨?_, ?_⟩, ⟨?_, ?_⟩, ⟨?_, ?_⟩⟩
  · exact min4_mem ⟨_, m00, rfl⟩ ⟨_, m01, rfl⟩ ⟨_, m10, rfl⟩ ⟨_, m11, rfl⟩
  · rintro x ⟨-, ⟨q, ⟨⟨a, b⟩, ha, hb, hc, hd, rfl⟩, rfl⟩, rfl⟩
    apply min4_le
    change _ ≤ (placed m a b).1 ∨ _ ≤ (placed m a b).1 ∨ _ ≤ (placed m a b).1 ∨ _ ≤ (placed m a b).1
    rw [px, px, px, px, px]
    rcases affine_le (-u1) (-u2) ha hb hc hd with k | k | k | k
    · left; linarith
    · right; left; linarith
    · right; right; left; linarith
    · right; right; right; linarith
  · exact max4_mem ⟨_, m00, rfl⟩ ⟨_, m01, rfl⟩ ⟨_, m10, rfl⟩ ⟨_, m11, rfl⟩
  · rintro x ⟨-, ⟨q, ⟨⟨a, b⟩, ha, hb, hc, hd, rfl⟩, rfl⟩, rfl⟩
    apply le_max4
    change (placed m a b).1 ≤ _ ∨ (placed m a b).1 ≤ _ ∨ (placed m a b).1 ≤ _ ∨ (placed m a b).1 ≤ _
    rw [px, px, px, px, px]
    rcases affine_le u1 u2 ha hb hc hd with k | k | k | k
    · left; linarith
    · right; left; linarith
    · right; right; left; linarith
    · right; right; right; linarith
  · exact min4_mem ⟨_, m00, rfl⟩ ⟨_, m01, rfl⟩ ⟨_, m10, rfl⟩ ⟨_, m11, rfl⟩
  · rintro x ⟨-, ⟨q, ⟨⟨a, b⟩, ha, hb, hc, hd, rfl⟩, rfl⟩, rfl⟩
    apply min4_le
    change _ ≤ (placed m a b).2 ∨ _ ≤ (placed m a b).2 ∨ _ ≤ (placed m a b).2 ∨ _ ≤ (placed m a b).2
    rw [py, py, py, py, py]
    rcases affine_le (-sin m.angle) (-cos m.angle) ha hb hc hd with k | k | k | k
    · left; linarith
    · right; left; linarith
    · right; right; left; linarith
    · right; right; right; linarith
  · exact max4_mem ⟨_, m00, rfl⟩ ⟨_, m01, rfl⟩ ⟨_, m10, rfl⟩ ⟨_, m11, rfl⟩
  · rintro x ⟨-, ⟨q, ⟨⟨a, b⟩, ha, hb, hc, hd, rfl⟩, rfl⟩, rfl⟩
    apply le_max4
    change (placed m a b).2 ≤ _ ∨ (placed m a b).2 ≤ _ ∨ (placed m a b).2 ≤ _ ∨ (placed m a b).2 ≤ _
    rw [py, py, py, py, py]
    rcases affine_le (sin m.angle) (cos m.angle) ha hb hc hd with k | k | k | k
    · left; linarith
    · right; left; linarith
    · right; right; left; linarith
    · right; right; right; linarith

/-! ### Sectors -/

/-- No angle equal to `phi` up to full turns is strictly inside the sector. -/
theorem no_rep {phi lo hi : ℝ} (h0 : 0 ≤ phi) (h1 : phi < 2 * π) (hlo : -(2 * π) ≤ lo) (hhi : hi ≤ 2 * π)
    (h : ¬ ((phi > lo ∧ phi < hi) ∨ (phi - 2 * π > lo ∧ phi - 2 * π < hi))) (k : ℤ) :
    ¬ (lo < phi + k * (2 * π) ∧ phi + k * (2 * π) < hi) := by
  rintro ⟨a, b⟩
  have hp := pi_pos
  have k1 : (k : ℝ) < 1 := by
    by_contra hk
    have : 1 * (2 * π) ≤ k * (2 * π) := mul_le_mul_of_nonneg_right (not_lt.1 hk) (by linarith)
    linarith
  have k2 : (-2 : ℝ) < k := by
    by_contra hk
    have : (k : ℝ) * (2 * π) ≤ -2 * (2 * π) := mul_le_mul_of_nonneg_right (not_lt.1 hk) (by linarith)
    linarith
  have k3 : k < 1 := by exact_mod_cast k1
  have k4 : -2 < k := by exact_mod_cast k2
  have k5 : k = 0 ∨ k = -1 := by omega
  apply h
  rcases k5 with rfl | rfl
  · left; push_cast at a b; constructor <;> linarith
  · right; push_cast at a b; constructor <;> linarith

/-- If the direction of the maximum is not inside, the cosine is largest at one of the two ends. -/
theorem cos_le_ends {phi lo hi th : ℝ} (h : ∀ k : ℤ, ¬ (lo < phi + k * (2 * π) ∧ phi + k * (2 * π) < hi))
    (h1 : lo ≤ th) (h2 : th ≤ hi) : cos (th - phi) ≤ cos (lo - phi) ∨ cos (th - phi) ≤ cos (hi - phi) := by
  have hp : (0 : ℝ) < 2 * π := by have := pi_pos; linarith
  set k := ⌊(lo - phi) / (2 * π)⌋ with hk
  have k1 : (k : ℝ) * (2 * π) ≤ lo - phi := by
    rw [← le_div_iff₀ hp]; exact Int.floor_le _
  have k2 : lo - phi < ((k : ℝ) + 1) * (2 * π) := by
    rw [← div_lt_iff₀ hp]; exact Int.lt_floor_add_one _
  have k3 : hi ≤ phi + ((k + 1 : ℤ) : ℝ) * (2 * π) := by
    by_contra hh
    exact h (k + 1) ⟨by push_cast; linarith, not_le.1 hh⟩
  push_cast at k3
  have hs : ∀ x, cos (x - phi) = cos (x - phi - k * (2 * π)) := by
    intro x; rw [cos_sub_int_mul_two_pi]
  rw [hs th, hs lo, hs hi]
  exact cos_le_max (by linarith) (by linarith) (by linarith) (by linarith)

/-- The largest component of the points of a sector in a direction `(cos phi, sin phi)`. -/
theorem sector_le {phi : ℝ} {e : Ext ℝ} (h0 : 0 ≤ e.e0)
    (h : ∀ k : ℤ, ¬ (e.e2 < phi + k * (2 * π) ∧ phi + k * (2 * π) < e.e3)) {r th : ℝ}
    (h1 : e.e0 ≤ r) (h2 : r ≤ e.e1) (h3 : e.e2 ≤ th) (h4 : th ≤ e.e3) :
    r * cos (th - phi) ≤ e.e0 * cos (e.e2 - phi) ∨ r * cos (th - phi) ≤ e.e0 * cos (e.e3 - phi) ∨
      r * cos (th - phi) ≤ e.e1 * cos (e.e2 - phi) ∨ r * cos (th - phi) ≤ e.e1 * cos (e.e3 - phi) := by
  have key : ∀ c, cos (th - phi) ≤ c → r * cos (th - phi) ≤ e.e0 * c ∨ r * cos (th - phi) ≤ e.e1 * c := by
    intro c hc
    have hr : r * cos (th - phi) ≤ r * c := mul_le_mul_of_nonneg_left hc (by linarith)
    rcases le_total 0 c with k | k
    · exact Or.inr (hr.trans (mul_le_mul_of_nonneg_right h2 k))
    · exact Or.inl (hr.trans (mul_le_mul_of_nonpos_right h1 k))
  rcases cos_le_ends h h3 h4 with k | k
  · rcases key _ k with k | k
    · exact Or.inl k
    · exact Or.inr (Or.inr (Or.inl k))
  · rcases key _ k with k | k
    · exact Or.inr (Or.inl k)
    · exact Or.inr (Or.inr (Or.inr k))

/-! ### Polar layouts in a Cartesian TPC -/

/-- The component of a placed point in a direction `(dx, dy)`, relative to where the origin is placed. -/
noncomputable def along (m : Module ℝ) (dx dy : ℝ) (q : ℝ × ℝ) : ℝ :=
  let P := place m.angle (plane m.momsCoordinateType m.offset) m.zPosition
  ((P q).1 - (P (0, 0)).1) * dx + ((P q).2 - (P (0, 0)).2) * dy

theorem place_linear' (angle : ℝ) (off : ℝ × ℝ) (z : ℝ) : ∃ u1 u2 : ℝ, u1 ^ 2 + u2 ^ 2 = 1 ∧
    u1 * sin angle + u2 * cos angle = 0 ∧ u1 ^ 2 + sin angle ^ 2 = 1 ∧ u2 ^ 2 + cos angle ^ 2 = 1 ∧
    u1 * u2 + sin angle * cos angle = 0 ∧ ∀ q : ℝ × ℝ,
    (place angle off z q).1 = u1 * q.1 + u2 * q.2 + (place angle off z (0, 0)).1 ∧
      (place angle off z q).2 = sin angle * q.1 + cos angle * q.2 + (place angle off z (0, 0)).2 := by
  have s := sin_sq_add_cos_sq angle
  refine ⟨if z ≤ 0 then -cos angle else cos angle, if z ≤ 0 then sin angle else -sin angle, ?_, ?_, ?_, ?_, ?_,
    fun q => ⟨?_, ?_⟩⟩
  · split_ifs <;> linear_combination s
  · split_ifs <;> ring
  · split_ifs <;> linear_combination s
  · split_ifs <;> linear_combination s
  · split_ifs <;> ring
  · unfold place
    dsimp only
    split_ifs <;> ring
  · unfold place
    dsimp only
    ring

/-- The test whether the outermost point of the circle in a direction is in the sector. -/
theorem along_sector {m : Module ℝ} (h : Inv m) (ht : m.momsCoordinateType = CARTESIAN)
    (hl : m.layout.coordinateType = POLAR) {e : Ext ℝ} (h0 : 0 ≤ e.e0) (h1 : e.e0 ≤ e.e1) (h2 : e.e2 ≤ e.e3)
    (hlo : -(2 * π) ≤ e.e2) (hhi : e.e3 ≤ 2 * π) {dx dy : ℝ} (hd : dx ^ 2 + dy ^ 2 = 1) :
    ∃ b, inSector realTrig m e ((placed m 0 0).1 + e.e1 * dx) ((placed m 0 0).2 + e.e1 * dy) = .ok b ∧
      (b = true → (∀ q ∈ region POLAR e, along m dx dy q ≤ e.e1) ∧ ∃ q ∈ region POLAR e, along m dx dy q = e.e1) ∧
      (b = false → ∀ q ∈ region POLAR e,
        along m dx dy q ≤ along m dx dy (plane POLAR (e.e0, e.e2)) ∨
        along m dx dy q ≤ along m dx dy (plane POLAR (e.e0, e.e3)) ∨
        along m dx dy q ≤ along m dx dy (plane POLAR (e.e1, e.e2)) ∨
        along m dx dy q ≤ along m dx dy (plane POLAR (e.e1, e.e3))) := by
  have hfl : m.localIsGlobal ≠ true := by
    intro hh
    have := (h.flag (Or.inl ht) hh).1
    rw [ht, hl] at this
    exact polar_ne this
  have hw : ¬ WrongComponent m := fun hh => polar_ne (ht.symm.trans hh.1)
  obtain ⟨p, p1, p2, p3⟩ := globalToLocal_place h (Or.inl ht) (Or.inr hl) (fun hh => absurd hh hfl) hw
    ((placed m 0 0).1 + e.e1 * dx, (placed m 0 0).2 + e.e1 * dy)
  have p4 : 0 ≤ p.1 := p3 hl (fun hh => absurd (ht.symm.trans hh) polar_ne)
  have p5 : 0 ≤ p.2 ∧ p.2 < 2 * π := by
    dsimp only at p1
    unfold globalToLocal at p1
    rw [if_neg hfl] at p1
    obtain ⟨d, d1, -⟩ := mirrored (m := m) (Or.inl ht)
      ((placed m 0 0).1 + e.e1 * dx, (placed m 0 0).2 + e.e1 * dy)
    dsimp only at d1
    rw [d1, Res.bind_ok, if_neg (fun hh => polar_ne (ht.symm.trans hh.1))] at p1
    obtain ⟨c, c1⟩ := cartesian_ok (m := m) (Or.inl ht) d.1 d.2
    rw [c1, Res.bind_ok] at p1
    unfold toLocal at p1
    dsimp only at p1
    rw [if_pos hl] at p1
    obtain rfl := Res.ok.inj p1
    exact toPolar_range _ _
  dsimp only at p1
  rw [hl, plane_polar] at p2
  rw [ht, plane_cartesian, plane_cartesian] at p2
  obtain ⟨u1, u2, a1, a2, a3, a4, a5, hu⟩ := place_linear' m.angle m.offset m.zPosition
  have hP : ∀ q, place m.angle (plane m.momsCoordinateType m.offset) m.zPosition q =
      place m.angle m.offset m.zPosition q := by intro q; rw [ht, plane_cartesian]
  have hO : placed m 0 0 = place m.angle m.offset m.zPosition (0, 0) := by
    unfold placed; rw [hP, hl, plane_polar]; simp
  set n1 := u1 * dx + sin m.angle * dy with hn1
  set n2 := u2 * dx + cos m.angle * dy with hn2
  have hn : n1 ^ 2 + n2 ^ 2 = 1 := by
    rw [hn1, hn2]
    have s := sin_sq_add_cos_sq m.angle
    linear_combination dx ^ 2 * a1 + dy ^ 2 * s + 2 * dx * dy * a2 + hd
  have hal : ∀ q, along m dx dy q = n1 * q.1 + n2 * q.2 := by
    intro q
    unfold along
    dsimp only
    rw [hP, hP, (hu q).1, (hu q).2, hn1, hn2]
    ring
  have e1 : u1 * (p.1 * cos p.2) + u2 * (p.1 * sin p.2) = e.e1 * dx := by
    have := congrArg Prod.fst p2
    rw [(hu _).1, hO] at this
    dsimp only at this
    linarith
  have e2 : sin m.angle * (p.1 * cos p.2) + cos m.angle * (p.1 * sin p.2) = e.e1 * dy := by
    have := congrArg Prod.snd p2
    rw [(hu _).2, hO] at this
    dsimp only at this
    linarith
  have q1 : p.1 * cos p.2 = e.e1 * n1 := by
    rw [hn1]
    linear_combination u1 * e1 + sin m.angle * e2 - p.1 * cos p.2 * a3 - p.1 * sin p.2 * a5
  have q2 : p.1 * sin p.2 = e.e1 * n2 := by
    rw [hn2]
    linear_combination u2 * e1 + cos m.angle * e2 - p.1 * sin p.2 * a4 - p.1 * cos p.2 * a5
  have hR : 0 ≤ e.e1 := h0.trans h1
  refine ⟨_, by unfold inSector; rw [p1, Res.bind_ok]; rfl, ?_⟩
  rw [if_neg (not_lt.2 p5.1), realTrig_pi]
  rcases hR.lt_or_eq with hR' | hR'
  · have r1 : p.1 = e.e1 := by
      have s := sin_sq_add_cos_sq p.2
      have : p.1 ^ 2 = e.e1 ^ 2 := by
        linear_combination (p.1 * cos p.2 + e.e1 * n1) * q1 + (p.1 * sin p.2 + e.e1 * n2) * q2 - p.1 ^ 2 * s +
          e.e1 ^ 2 * hn
      rcases sq_eq_sq_iff_eq_or_eq_neg.1 this with k | k <;> linarith
    rw [r1] at q1 q2
    have c1 := mul_left_cancel₀ hR'.ne' q1
    have c2 := mul_left_cancel₀ hR'.ne' q2
    have hpol : ∀ r th, along m dx dy (plane POLAR (r, th)) = r * cos (th - p.2) := by
      intro r th
      rw [hal, ← c1, ← c2, plane_polar, cos_sub]
      dsimp only
      ring
    constructor
    · intro hb
      have hb' := of_decide_eq_true hb
      refine ⟨?_, ?_⟩
      · rintro q ⟨⟨r, th⟩, k1, k2, k3, k4, rfl⟩
        rw [hpol]
        dsimp only at k1 k2
        calc r * cos (th - p.2) ≤ r * 1 := mul_le_mul_of_nonneg_left (cos_le_one _) (h0.trans k1)
          _ ≤ e.e1 := by linarith
      · rcases hb' with k | k
        · exact ⟨_, ⟨(e.e1, p.2), h1, le_rfl, k.1.le, k.2.le, rfl⟩, by rw [hpol]; simp⟩
        · exact ⟨_, ⟨(e.e1, p.2 - 2 * π), h1, le_rfl, k.1.le, k.2.le, rfl⟩, by
            rw [hpol]
            have : p.2 - 2 * π - p.2 = -(2 * π) := by ring
            rw [this, cos_neg, cos_two_pi, mul_one]⟩
    · intro hb
      have hb' := of_decide_eq_false hb
      rintro q ⟨⟨r, th⟩, k1, k2, k3, k4, rfl⟩
      rw [hpol, hpol, hpol, hpol, hpol]
      exact sector_le h0 (no_rep p5.1 p5.2 hlo hhi hb') k1 k2 k3 k4
  · have hz : ∀ q ∈ region POLAR e, along m dx dy q = 0 := by
      rintro q ⟨⟨r, th⟩, k1, k2, k3, k4, rfl⟩
      dsimp only at k1 k2
      have : r = 0 := by linarith
      rw [hal, plane_polar, this]
      simp
    have hmem : plane POLAR (e.e0, e.e2) ∈ region POLAR e := ⟨_, le_rfl, h1, le_rfl, h2, rfl⟩
    constructor
    · intro _
      exact ⟨fun q hq => by rw [hz q hq, ← hR'], _, hmem, by rw [hz _ hmem, ← hR']⟩
    · intro _ q hq
      left
      rw [hz q hq, hz _ hmem]

/-- For a polar layout in a Cartesian TPC, the corners and the outermost points of the circle decide. -/
theorem polar_box {m : Module ℝ} (h : Inv m) (ht : m.momsCoordinateType = CARTESIAN)
    (hl : m.layout.coordinateType = POLAR) {e g : Ext ℝ} (h0 : 0 ≤ e.e0) (h1 : e.e0 ≤ e.e1) (h2 : e.e2 ≤ e.e3)
    (hlo : -(2 * π) ≤ e.e2) (hhi : e.e3 ≤ 2 * π) (hg : globalExtent realTrig m e = .ok g) :
    SmallestBox (place m.angle (plane m.momsCoordinateType m.offset) m.zPosition ''
      region m.layout.coordinateType e) g := by
  have hfl : m.localIsGlobal ≠ true := by
    intro hh
    have := (h.flag (Or.inl ht) hh).1
    rw [ht, hl] at this
    exact polar_ne this
  have hO : localToGlobal realTrig m 0 0 = .ok (placed m 0 0) := by
    obtain ⟨p, a, b, -⟩ := localToGlobal_place h (Or.inl ht) (Or.inr hl) (fun hh => absurd hh hfl) (0, 0)
    dsimp only at a
    rw [a]
    have h3 : plane m.momsCoordinateType p = p := by rw [ht]; exact plane_cartesian p
    rw [← h3, b]; rfl
  obtain ⟨b1, i1, t1, f1⟩ := along_sector h ht hl h0 h1 h2 hlo hhi (dx := 0) (dy := 1) (by norm_num)
  obtain ⟨b2, i2, t2, f2⟩ := along_sector h ht hl h0 h1 h2 hlo hhi (dx := 0) (dy := -1) (by norm_num)
  obtain ⟨b3, i3, t3, f3⟩ := along_sector h ht hl h0 h1 h2 hlo hhi (dx := 1) (dy := 0) (by norm_num)
  obtain ⟨b4, i4, t4, f4⟩ := along_sector h ht hl h0 h1 h2 hlo hhi (dx := -1) (dy := 0) (by norm_num)
  rw [mul_zero, add_zero, mul_one] at i1 i3
  rw [mul_zero, add_zero, mul_neg_one, ← sub_eq_add_neg] at i2 i4
  unfold globalExtent at hg
  rw [if_neg (by rw [ht]; exact polar_ne), if_pos ht, if_pos hl] at hg
  unfold globalExtentCartesianPolar at hg
  rw [cornerBox_eq h ht (Or.inr hl) (fun hh => absurd hh hfl)] at hg
  simp only [Res.bind_ok, hO, i1, i2, i3, i4, Res.pure_eq] at hg
  obtain rfl := Res.ok.inj hg
  clear hg
  rw [hl]
  set P := place m.angle (plane m.momsCoordinateType m.offset) m.zPosition with hP
  have hpl : ∀ a b, placed m a b = P (plane POLAR (a, b)) := by
    intro a b; unfold placed; rw [hl]
  have hPO : placed m 0 0 = P (0, 0) := by rw [hpl, plane_polar]; simp
  have ax : ∀ q, along m 1 0 q = (P q).1 - (placed m 0 0).1 := by intro q; unfold along; rw [hPO]; simp [hP]
  have ax' : ∀ q, along m (-1) 0 q = (placed m 0 0).1 - (P q).1 := by intro q; unfold along; rw [hPO]; simp [hP]
  have ay : ∀ q, along m 0 1 q = (P q).2 - (placed m 0 0).2 := by intro q; unfold along; rw [hPO]; simp [hP]
  have ay' : ∀ q, along m 0 (-1) q = (placed m 0 0).2 - (P q).2 := by intro q; unfold along; rw [hPO]; simp [hP]
  simp only [ax, ax', ay, ay', ← hpl] at t1 t2 t3 t4 f1 f2 f3 f4
  have hmem : ∀ a b, e.e0 ≤ a → a ≤ e.e1 → e.e2 ≤ b → b ≤ e.e3 → placed m a b ∈ P '' region POLAR e :=
    fun a b ha hb hc hd => ⟨_, ⟨(a, b), ha, hb, hc, hd, rfl⟩, (hpl a b).symm⟩
  have m00 := hmem _ _ le_rfl h1 le_rfl h2
  have m01 := hmem _ _ le_rfl h1 h2 le_rfl
  have m10 := hmem _ _ h1 le_rfl le_rfl h2
  have m11 := hmem _ _ h1 le_rfl h2 le_rfl
  refine ⟨?_, ?_, ?_, ?_⟩
  · cases b4 with
    | true =>
      obtain ⟨k1, q, k2, k3⟩ := t4 rfl
      refine ⟨⟨P q, ⟨q, k2, rfl⟩, ?_⟩, ?_⟩
      · dsimp only; rw [if_pos rfl]; linarith
      · rintro x ⟨-, ⟨q, hq, rfl⟩, rfl⟩
        have := k1 q hq
        dsimp only; rw [if_pos rfl]; linarith
    | false =>
      dsimp only; rw [if_neg (by decide)]
      refine ⟨min4_mem ⟨_, m00, rfl⟩ ⟨_, m01, rfl⟩ ⟨_, m10, rfl⟩ ⟨_, m11, rfl⟩, ?_⟩
      rintro x ⟨-, ⟨q, hq, rfl⟩, rfl⟩
      apply min4_le
      rcases f4 rfl q hq with k | k | k | k
      · left; linarith
      · right; left; linarith
      · right; right; left; linarith
      · right; right; right; linarith
  · cases b3 with
    | true =>
      obtain ⟨k1, q, k2, k3⟩ := t3 rfl
      refine ⟨⟨P q, ⟨q, k2, rfl⟩, ?_⟩, ?_⟩
      · dsimp only; rw [if_pos rfl]; linarith
      · rintro x ⟨-, ⟨q, hq, rfl⟩, rfl⟩
        have := k1 q hq
        dsimp only; rw [if_pos rfl]; linarith
    | false =>
      dsimp only; rw [if_neg (by decide)]
      refine ⟨max4_mem ⟨_, m00, rfl⟩ ⟨_, m01, rfl⟩ ⟨_, m10, rfl⟩ ⟨_, m11, rfl⟩, ?_⟩
      rintro x ⟨-, ⟨q, hq, rfl⟩, rfl⟩
      apply le_max4
      rcases f3 rfl q hq with k | k | k | k
      · left; linarith
      · right; left; linarith
      · right; right; left; linarith
      · right; right; right; linarith
  · cases b2 with
    | true =>
      obtain ⟨k1, q, k2, k3⟩ := t2 rfl
      refine ⟨⟨P q, ⟨q, k2, rfl⟩, ?_⟩, ?_⟩
      · dsimp only; rw [if_pos rfl]; linarith
      · rintro x ⟨-, ⟨q, hq, rfl⟩, rfl⟩
        have := k1 q hq
        dsimp only; rw [if_pos rfl]; linarith
    | false =>
      dsimp only; rw [if_neg (by decide)]
      refine ⟨min4_mem ⟨_, m00, rfl⟩ ⟨_, m01, rfl⟩ ⟨_, m10, rfl⟩ ⟨_, m11, rfl⟩, ?_⟩
      rintro x ⟨-, ⟨q, hq, rfl⟩, rfl⟩
      apply min4_le
      rcases f2 rfl q hq with k | k | k | k
      · left; linarith
      · right; left; linarith
      · right; right; left; linarith
      · right; right; right; linarith
  · cases b1 with
    | true =>
      obtain ⟨k1, q, k2, k3⟩ := t1 rfl
      refine ⟨⟨P q, ⟨q, k2, rfl⟩, ?_⟩, ?_⟩
      · dsimp only; rw [if_pos rfl]; linarith
      · rintro x ⟨-, ⟨q, hq, rfl⟩, rfl⟩
        have := k1 q hq
        dsimp only; rw [if_pos rfl]; linarith
    | false =>
      dsimp only; rw [if_neg (by decide)]
      refine ⟨max4_mem ⟨_, m00, rfl⟩ ⟨_, m01, rfl⟩ ⟨_, m10, rfl⟩ ⟨_, m11, rfl⟩, ?_⟩
      rintro x ⟨-, ⟨q, hq, rfl⟩, rfl⟩
      apply le_max4
      rcases f1 rfl q hq with k | k | k | k
      · left; linarith
      · right; left; linarith
      · right; right; left; linarith
      · right; right; right; linarith

/-! ### Polar layouts in a polar TPC: the radii -/

theorem fmod_range {x : ℝ} (h : 0 ≤ x) : 0 ≤ fmod x (2 * π) ∧ fmod x (2 * π) < 2 * π ∧
    ∃ k : ℤ, fmod x (2 * π) = x - k * (2 * π) := by
  have hp : (0 : ℝ) < 2 * π := by have := pi_pos; linarith
  have h1 : truncInt (x / (2 * π)) = ⌊x / (2 * π)⌋ := truncInt_nonneg (div_nonneg h hp.le)
  unfold fmod
  rw [h1]
  have h2 : (⌊x / (2 * π)⌋ : ℝ) * (2 * π) ≤ x := by rw [← le_div_iff₀ hp]; exact Int.floor_le _
  have h3 : x < ((⌊x / (2 * π)⌋ : ℝ) + 1) * (2 * π) := by rw [← div_lt_iff₀ hp]; exact Int.lt_floor_add_one _
  exact ⟨by linarith, by linarith, _, rfl⟩

/-- The test whether a direction is in the sector. -/
theorem eitherIn_spec {e : Ext ℝ} {x : ℝ} (h : 0 ≤ x) (hlo : -(2 * π) ≤ e.e2) (hhi : e.e3 ≤ 2 * π) :
    (eitherIn e (twoAngles realTrig x) → ∃ k : ℤ, e.e2 ≤ x + k * (2 * π) ∧ x + k * (2 * π) ≤ e.e3) ∧
      (¬ eitherIn e (twoAngles realTrig x) →
        ∀ k : ℤ, ¬ (e.e2 < x + k * (2 * π) ∧ x + k * (2 * π) < e.e3)) := by
  obtain ⟨h1, h2, k, h3⟩ := fmod_range h
  have ht : twoAngles realTrig x = (fmod x (2 * π), fmod x (2 * π) - 2 * π) := by
    unfold twoAngles
    rw [realTrig_pi]
    dsimp only
    rw [if_neg (not_lt.2 h1)]
  rw [ht]
  unfold eitherIn
  dsimp only
  constructor
  · rintro (⟨a, b⟩ | ⟨a, b⟩)
    · exact ⟨-k, by push_cast; linarith, by push_cast; linarith⟩
    · exact ⟨-k - 1, by push_cast; linarith, by push_cast; linarith⟩
  · intro hn j
    have := no_rep h1 h2 hlo hhi hn (j + k)
    rw [h3] at this
    push_cast at this
    intro hj
    apply this
    constructor <;> linarith [hj.1, hj.2]

/-- The distance of two points given in polar coordinates, squared. -/
noncomputable def d2 (r phi d al : ℝ) : ℝ := d ^ 2 + r ^ 2 - 2 * d * (r * cos (phi - al))

theorem d2_nonneg (r phi d al : ℝ) : 0 ≤ d2 r phi d al := by
  unfold d2
  have s := sin_sq_add_cos_sq (phi - al)
  have : d ^ 2 + r ^ 2 - 2 * d * (r * cos (phi - al)) =
    (d - r * cos (phi - al)) ^ 2 + (r * sin (phi - al)) ^ 2 := by linear_combination -(r ^ 2) * s
  rw [this]; positivity

theorem dist2_d2 (r phi d al : ℝ) :
    Disk.Spec.dist2 (Disk.Spec.point r phi) (Disk.Spec.point d al) = √(d2 r phi d al) := by
  rw [dist2_point]; unfold d2; congr 1; ring

/-- The largest radius. -/
theorem polarRMax_isGreatest {e : Ext ℝ} (h0 : 0 ≤ e.e0) (h1 : e.e0 ≤ e.e1) (h2 : e.e2 ≤ e.e3)
    (hlo : -(2 * π) ≤ e.e2) (hhi : e.e3 ≤ 2 * π) {o g0 g1 g2 g3 : ℝ × ℝ} (ho : 0 ≤ o.1) (ho2 : 0 ≤ o.2)
    (e0 : g0.1 = √(d2 e.e0 e.e2 o.1 o.2)) (e1 : g1.1 = √(d2 e.e0 e.e3 o.1 o.2))
    (e2 : g2.1 = √(d2 e.e1 e.e2 o.1 o.2)) (e3 : g3.1 = √(d2 e.e1 e.e3 o.1 o.2)) :
    IsGreatest {x | ∃ r th, e.e0 ≤ r ∧ r ≤ e.e1 ∧ e.e2 ≤ th ∧ th ≤ e.e3 ∧ x = √(d2 r th o.1 o.2)}
      (polarRMax realTrig e o g0 g1 g2 g3) := by
  have hp := pi_pos
  obtain ⟨s1, s2⟩ := eitherIn_spec (e := e) (x := o.2 + π) (by linarith) hlo hhi
  have hcos : ∀ x, cos (x - (o.2 + π)) = -cos (x - o.2) := by
    intro x
    have : x - (o.2 + π) = x - o.2 - π := by ring
    rw [this, cos_sub_pi]
  unfold polarRMax
  rw [realTrig_pi]
  by_cases hin : eitherIn e (twoAngles realTrig (o.2 + π))
  · rw [if_pos hin]
    obtain ⟨k, k1, k2⟩ := s1 hin
    constructor
    · refine ⟨e.e1, _, h1, le_rfl, k1, k2, ?_⟩
      have hc : cos (o.2 + π + k * (2 * π) - o.2) = -1 := by
        have : o.2 + π + k * (2 * π) - o.2 = π + k * (2 * π) := by ring
        rw [this, cos_add_int_mul_two_pi, cos_pi]
      unfold d2
      rw [hc]
      have : o.1 ^ 2 + e.e1 ^ 2 - 2 * o.1 * (e.e1 * -1) = (o.1 + e.e1) ^ 2 := by ring
      rw [this, Real.sqrt_sq (by linarith)]
    · rintro x ⟨r, th, a, b, c, d, rfl⟩
      rw [Real.sqrt_le_left (by linarith)]
      unfold d2
      have hc := neg_one_le_cos (th - o.2)
      have : o.1 * r * (-1) ≤ o.1 * r * cos (th - o.2) :=
        mul_le_mul_of_nonneg_left hc (mul_nonneg ho (h0.trans a))
      nlinarith
  · rw [if_neg hin]
    have hn := s2 hin
    have hm : (if g3.1 > (if g2.1 > (if g1.1 > g0.1 then g1.1 else g0.1) then g2.1
          else if g1.1 > g0.1 then g1.1 else g0.1) then g3.1
        else if g2.1 > (if g1.1 > g0.1 then g1.1 else g0.1) then g2.1
          else if g1.1 > g0.1 then g1.1 else g0.1) = max (max (max g0.1 g1.1) g2.1) g3.1 := by
      have hh : ∀ x y : ℝ, (if x > y then x else y) = max y x := by
        intro x y
        split_ifs with h
        · exact (max_eq_right (le_of_lt h)).symm
        · exact (max_eq_left (not_lt.1 h)).symm
      rw [hh, hh, hh]
    dsimp only
    rw [hm, e0, e1, e2, e3]
    constructor
    · apply max4_mem
      · exact ⟨_, _, le_rfl, h1, le_rfl, h2, rfl⟩
      · exact ⟨_, _, le_rfl, h1, h2, le_rfl, rfl⟩
      · exact ⟨_, _, h1, le_rfl, le_rfl, h2, rfl⟩
      · exact ⟨_, _, h1, le_rfl, h2, le_rfl, rfl⟩
    · rintro x ⟨r, th, a, b, c, d, rfl⟩
      apply le_max4
      have conv : ∀ cE, -cos (th - o.2) ≤ -cE → √(d2 r th o.1 o.2) ≤ √(o.1 ^ 2 + e.e0 ^ 2 - 2 * o.1 * (e.e0 * cE)) ∨
          √(d2 r th o.1 o.2) ≤ √(o.1 ^ 2 + e.e1 ^ 2 - 2 * o.1 * (e.e1 * cE)) := by
        intro cE hE
        have hr : 0 ≤ o.1 * r := mul_nonneg ho (h0.trans a)
        have h5 : d2 r th o.1 o.2 ≤ o.1 ^ 2 + r ^ 2 - 2 * o.1 * (r * cE) := by
          unfold d2
          have := mul_le_mul_of_nonneg_left hE hr
          nlinarith
        rcases le_total (e.e0 + r) (2 * (o.1 * cE)) with k | k
        · left
          apply Real.sqrt_le_sqrt
          refine h5.trans ?_
          nlinarith [mul_nonneg (sub_nonneg.2 a) (sub_nonneg.2 k)]
        · right
          apply Real.sqrt_le_sqrt
          refine h5.trans ?_
          have k' : 0 ≤ e.e1 + r - 2 * (o.1 * cE) := by linarith
          nlinarith [mul_nonneg (sub_nonneg.2 b) k']
      rcases cos_le_ends hn c d with k | k
      · rw [hcos, hcos] at k
        rcases conv _ k with k | k
        · exact Or.inl k
        · exact Or.inr (Or.inr (Or.inl k))
      · rw [hcos, hcos] at k
        rcases conv _ k with k | k
        · exact Or.inr (Or.inl k)
        · exact Or.inr (Or.inr (Or.inr k))

/-- The foot of the perpendicular on an edge. -/
theorem edgeFoot_spec {e : Ext ℝ} {o : ℝ × ℝ} (h1 : e.e0 ≤ e.e1) (phiE rMin : ℝ) :
    (edgeFoot realTrig e o phiE rMin ≤ rMin) ∧
      (edgeFoot realTrig e o phiE rMin = rMin ∨
        ∃ r, e.e0 ≤ r ∧ r ≤ e.e1 ∧ edgeFoot realTrig e o phiE rMin = √(d2 r phiE o.1 o.2)) ∧
      (rMin ≤ √(d2 e.e0 phiE o.1 o.2) → rMin ≤ √(d2 e.e1 phiE o.1 o.2) → ∀ r, e.e0 ≤ r → r ≤ e.e1 →
        edgeFoot realTrig e o phiE rMin ≤ √(d2 r phiE o.1 o.2)) := by
  have hI : o.1 * (cos o.2 * cos phiE + sin o.2 * sin phiE) = o.1 * cos (phiE - o.2) := by
    rw [cos_sub]; ring
  have hM : |o.1 * (cos o.2 * sin phiE - sin o.2 * cos phiE)| = √(d2 (o.1 * cos (phiE - o.2)) phiE o.1 o.2) := by
    rw [← Real.sqrt_sq_eq_abs]
    congr 1
    have s := sin_sq_add_cos_sq (phiE - o.2)
    have : cos o.2 * sin phiE - sin o.2 * cos phiE = sin (phiE - o.2) := by rw [sin_sub]; ring
    rw [this]
    unfold d2
    linear_combination o.1 ^ 2 * s
  have hd : ∀ r, d2 r phiE o.1 o.2 = (r - o.1 * cos (phiE - o.2)) ^ 2 + (o.1 * sin (phiE - o.2)) ^ 2 := by
    intro r
    unfold d2
    have s := sin_sq_add_cos_sq (phiE - o.2)
    linear_combination -(o.1 ^ 2) * s
  have heq : edgeFoot realTrig e o phiE rMin =
      if o.1 * cos (phiE - o.2) > e.e0 ∧ o.1 * cos (phiE - o.2) < e.e1 ∧
        √(d2 (o.1 * cos (phiE - o.2)) phiE o.1 o.2) < rMin then
        √(d2 (o.1 * cos (phiE - o.2)) phiE o.1 o.2) else rMin := by
    unfold edgeFoot
    dsimp only
    simp only [realTrig_cos, realTrig_sin, hI, hM]
  rw [heq]
  by_cases hc : o.1 * cos (phiE - o.2) > e.e0 ∧ o.1 * cos (phiE - o.2) < e.e1 ∧
        √(d2 (o.1 * cos (phiE - o.2)) phiE o.1 o.2) < rMin
  · rw [if_pos hc]
    refine ⟨hc.2.2.le, Or.inr ⟨_, hc.1.le, hc.2.1.le, rfl⟩, fun _ _ r _ _ => ?_⟩
    apply Real.sqrt_le_sqrt
    rw [hd, hd r, sub_self]
    nlinarith [sq_nonneg (r - o.1 * cos (phiE - o.2))]
  · rw [if_neg hc]
    refine ⟨le_rfl, Or.inl rfl, fun k0 k1 r a b => ?_⟩
    by_cases c1 : o.1 * cos (phiE - o.2) ≤ e.e0
    · refine k0.trans (Real.sqrt_le_sqrt ?_)
      rw [hd, hd r]
      nlinarith
    · by_cases c2 : e.e1 ≤ o.1 * cos (phiE - o.2)
      · refine k1.trans (Real.sqrt_le_sqrt ?_)
        rw [hd, hd r]
        nlinarith
      · have c3 : rMin ≤ √(d2 (o.1 * cos (phiE - o.2)) phiE o.1 o.2) := by
          by_contra hh
          exact hc ⟨not_le.1 c1, not_le.1 c2, not_le.1 hh⟩
        refine c3.trans (Real.sqrt_le_sqrt ?_)
        rw [hd, hd r, sub_self]
        nlinarith [sq_nonneg (r - o.1 * cos (phiE - o.2))]

/-- The smallest radius. -/
theorem polarRMin_isLeast {e : Ext ℝ} (h0 : 0 ≤ e.e0) (h1 : e.e0 ≤ e.e1) (h2 : e.e2 ≤ e.e3)
    (hlo : -(2 * π) ≤ e.e2) (hhi : e.e3 ≤ 2 * π) {o g0 g1 g2 g3 : ℝ × ℝ} (ho : 0 ≤ o.1) (ho2 : 0 ≤ o.2)
    (e0 : g0.1 = √(d2 e.e0 e.e2 o.1 o.2)) (e1 : g1.1 = √(d2 e.e0 e.e3 o.1 o.2))
    (e2 : g2.1 = √(d2 e.e1 e.e2 o.1 o.2)) (e3 : g3.1 = √(d2 e.e1 e.e3 o.1 o.2)) :
    IsLeast {x | ∃ r th, e.e0 ≤ r ∧ r ≤ e.e1 ∧ e.e2 ≤ th ∧ th ≤ e.e3 ∧ x = √(d2 r th o.1 o.2)}
      (polarRMin realTrig e o g0 g1 g2 g3) := by
  obtain ⟨s1, s2⟩ := eitherIn_spec (e := e) (x := o.2) ho2 hlo hhi
  unfold polarRMin
  by_cases hin : eitherIn e (twoAngles realTrig o.2)
  · rw [if_pos hin]
    obtain ⟨k, k1, k2⟩ := s1 hin
    have hat : ∀ r, √(d2 r (o.2 + k * (2 * π)) o.1 o.2) = |o.1 - r| := by
      intro r
      rw [← Real.sqrt_sq_eq_abs]
      congr 1
      have : o.2 + k * (2 * π) - o.2 = 0 + k * (2 * π) := by ring
      unfold d2
      rw [this, cos_add_int_mul_two_pi, cos_zero]
      ring
    have hle : ∀ r th, e.e0 ≤ r → |o.1 - r| ≤ √(d2 r th o.1 o.2) := by
      intro r th a
      rw [← Real.sqrt_sq_eq_abs]
      apply Real.sqrt_le_sqrt
      unfold d2
      have := mul_le_mul_of_nonneg_left (cos_le_one (th - o.2)) (mul_nonneg ho (h0.trans a))
      nlinarith
    split_ifs with c1 c2
    · refine ⟨⟨e.e0, _, le_rfl, h1, k1, k2, ?_⟩, ?_⟩
      · rw [hat, abs_of_neg (by linarith)]; ring
      · rintro x ⟨r, th, a, b, c, d, rfl⟩
        refine le_trans ?_ (hle r th a)
        rw [abs_of_neg (by linarith)]; linarith
    · refine ⟨⟨e.e1, _, h1, le_rfl, k1, k2, ?_⟩, ?_⟩
      · rw [hat, abs_of_pos (by linarith)]
      · rintro x ⟨r, th, a, b, c, d, rfl⟩
        refine le_trans ?_ (hle r th a)
        rw [abs_of_pos (by linarith)]; linarith
    · refine ⟨⟨o.1, _, not_lt.1 c1, not_lt.1 c2, k1, k2, ?_⟩, ?_⟩
      · rw [hat, sub_self, abs_zero]
      · rintro x ⟨r, th, a, b, c, d, rfl⟩
        exact Real.sqrt_nonneg _
  · rw [if_neg hin]
    have hn := s2 hin
    dsimp only
    have hm : (if g3.1 < (if g2.1 < (if g1.1 < g0.1 then g1.1 else g0.1) then g2.1
          else if g1.1 < g0.1 then g1.1 else g0.1) then g3.1
        else if g2.1 < (if g1.1 < g0.1 then g1.1 else g0.1) then g2.1
          else if g1.1 < g0.1 then g1.1 else g0.1) = min (min (min g0.1 g1.1) g2.1) g3.1 := by
      have hh : ∀ x y : ℝ, (if x < y then x else y) = min y x := by
        intro x y
        split_ifs with h
        · exact (min_eq_right (le_of_lt h)).symm
        · exact (min_eq_left (not_lt.1 h)).symm
      rw [hh, hh, hh]
    rw [hm]
    set M := min (min (min g0.1 g1.1) g2.1) g3.1 with hM
    have M0 : M ≤ √(d2 e.e0 e.e2 o.1 o.2) := by rw [← e0]; exact min4_le (Or.inl le_rfl)
    have M1 : M ≤ √(d2 e.e0 e.e3 o.1 o.2) := by rw [← e1]; exact min4_le (Or.inr (Or.inl le_rfl))
    have M2 : M ≤ √(d2 e.e1 e.e2 o.1 o.2) := by rw [← e2]; exact min4_le (Or.inr (Or.inr (Or.inl le_rfl)))
    have M3 : M ≤ √(d2 e.e1 e.e3 o.1 o.2) := by rw [← e3]; exact min4_le (Or.inr (Or.inr (Or.inr le_rfl)))
    have Mmem : M ∈ {x | ∃ r th, e.e0 ≤ r ∧ r ≤ e.e1 ∧ e.e2 ≤ th ∧ th ≤ e.e3 ∧ x = √(d2 r th o.1 o.2)} := by
      rw [hM]
      apply min4_mem
      · exact ⟨_, _, le_rfl, h1, le_rfl, h2, e0⟩
      · exact ⟨_, _, le_rfl, h1, h2, le_rfl, e1⟩
      · exact ⟨_, _, h1, le_rfl, le_rfl, h2, e2⟩
      · exact ⟨_, _, h1, le_rfl, h2, le_rfl, e3⟩
    -- the two edges decide
    have hedge : ∀ x, (∀ r, e.e0 ≤ r → r ≤ e.e1 → x ≤ √(d2 r e.e2 o.1 o.2)) →
        (∀ r, e.e0 ≤ r → r ≤ e.e1 → x ≤ √(d2 r e.e3 o.1 o.2)) →
        x ∈ lowerBounds {x | ∃ r th, e.e0 ≤ r ∧ r ≤ e.e1 ∧ e.e2 ≤ th ∧ th ≤ e.e3 ∧ x = √(d2 r th o.1 o.2)} := by
      rintro x a2 a3 y ⟨r, th, a, b, c, d, rfl⟩
      have hr : 0 ≤ o.1 * r := mul_nonneg ho (h0.trans a)
      rcases cos_le_ends hn c d with k | k
      · refine (a2 r a b).trans (Real.sqrt_le_sqrt ?_)
        unfold d2
        have := mul_le_mul_of_nonneg_left k hr
        nlinarith
      · refine (a3 r a b).trans (Real.sqrt_le_sqrt ?_)
        unfold d2
        have := mul_le_mul_of_nonneg_left k hr
        nlinarith
    by_cases hd : o.1 > e.e0
    · rw [if_pos hd]
      obtain ⟨u1, u2, u3⟩ := edgeFoot_spec (e := e) (o := o) h1 e.e2 M
      obtain ⟨w1, w2, w3⟩ := edgeFoot_spec (e := e) (o := o) h1 e.e3 (edgeFoot realTrig e o e.e2 M)
      constructor
      · rcases w2 with w2 | ⟨r, a, b, w2⟩
        · rw [w2]
          rcases u2 with u2 | ⟨r, a, b, u2⟩
          · rw [u2]; exact Mmem
          · exact ⟨r, e.e2, a, b, le_rfl, h2, u2⟩
        · exact ⟨r, e.e3, a, b, h2, le_rfl, w2⟩
      · apply hedge
        · intro r a b
          exact w1.trans (u3 M0 M2 r a b)
        · exact w3 (u1.trans M1) (u1.trans M3)
    · rw [if_neg hd]
      refine ⟨Mmem, ?_⟩
      have hE : ∀ phiE r, e.e0 ≤ r → √(d2 e.e0 phiE o.1 o.2) ≤ √(d2 r phiE o.1 o.2) := by
        intro phiE r a
        apply Real.sqrt_le_sqrt
        unfold d2
        have c := cos_le_one (phiE - o.2)
        have c' := mul_le_mul_of_nonneg_left c ho
        nlinarith [not_lt.1 hd]
      exact hedge M (fun r a _ => M0.trans (hE _ r a)) (fun r a _ => M1.trans (hE _ r a))

/-- For polar coordinates inside and outside and a module moved from the origin, the radii are right. -/
theorem polar_radii {m : Module ℝ} (h : Inv m) (ht : m.momsCoordinateType = POLAR)
    (hl : m.layout.coordinateType = POLAR) (hx : m.offsetCartesian.1 ≠ 0) {e g : Ext ℝ} (h0 : 0 ≤ e.e0)
    (h1 : e.e0 ≤ e.e1) (h2 : e.e2 ≤ e.e3) (hlo : -(2 * π) ≤ e.e2) (hhi : e.e3 ≤ 2 * π)
    (hg : globalExtent realTrig m e = .ok g) :
    IsLeast (radii (place m.angle (plane m.momsCoordinateType m.offset) m.zPosition ''
        region m.layout.coordinateType e)) g.e0 ∧
      IsGreatest (radii (place m.angle (plane m.momsCoordinateType m.offset) m.zPosition ''
        region m.layout.coordinateType e)) g.e1 := by
  have hoff := h.off (Or.inr ht)
  have hne : m.offset.1 ≠ 0 := by
    intro hh
    rw [hoff, ht, plane_polar, hh, zero_mul] at hx
    exact hx rfl
  have hfl : m.localIsGlobal ≠ true := by
    intro hh
    have := (h.flag (Or.inr ht) hh).2.2
    rw [this] at hne
    exact hne rfl
  have hw : ¬ WrongComponent m := fun hh => hx hh.2.2.1
  obtain ⟨o, o1, o2, o3⟩ := globalToLocal_place h (Or.inr ht) (Or.inr hl) (fun hh => absurd hh hfl) hw (0, 0)
  have o4 : 0 ≤ o.1 := o3 hl (fun _ => le_rfl)
  have o5 : 0 ≤ o.2 := by
    dsimp only at o1
    unfold globalToLocal at o1
    rw [if_neg hfl] at o1
    obtain ⟨d, d1, -⟩ := mirrored (m := m) (Or.inr ht) (0, 0)
    dsimp only at d1
    rw [d1, Res.bind_ok, if_neg (fun hh => hx hh.2.2.1)] at o1
    obtain ⟨c, c1⟩ := cartesian_ok (m := m) (Or.inr ht) d.1 d.2
    rw [c1, Res.bind_ok] at o1
    unfold toLocal at o1
    dsimp only at o1
    rw [if_pos hl] at o1
    obtain rfl := Res.ok.inj o1
    exact (toPolar_range _ _).1
  have hzero : plane m.momsCoordinateType (0, 0) = (0, 0) := by rw [ht, plane_polar]; simp
  rw [hzero, hl] at o2
  have hdist : ∀ r th, Disk.Spec.dist2 (place m.angle (plane m.momsCoordinateType m.offset) m.zPosition
      (plane POLAR (r, th))) (0, 0) = √(d2 r th o.1 o.2) := by
    intro r th
    rw [← dist2_d2, ← o2, place_dist, plane_polar, plane_polar]
    rfl
  have hcorner : ∀ r th, 0 ≤ r → ∃ p, localToGlobal realTrig m r th = .ok p ∧ p.1 = √(d2 r th o.1 o.2) := by
    intro r th hr
    obtain ⟨p, p1, p2, p3⟩ := localToGlobal_place h (Or.inr ht) (Or.inr hl) (fun hh => absurd hh hfl) (r, th)
    refine ⟨p, p1, ?_⟩
    have p4 : 0 ≤ p.1 := p3 ht (fun _ => hr)
    rw [hl] at p2
    rw [← hdist, ← p2, ht, plane_polar]
    unfold Disk.Spec.dist2
    have s := sin_sq_add_cos_sq p.2
    have : (p.1 * cos p.2 - 0) ^ 2 + (p.1 * sin p.2 - 0) ^ 2 = p.1 ^ 2 := by linear_combination p.1 ^ 2 * s
    dsimp only
    rw [this, Real.sqrt_sq p4]
  obtain ⟨g0, a0, b0⟩ := hcorner e.e0 e.e2 h0
  obtain ⟨g1, a1, b1⟩ := hcorner e.e0 e.e3 h0
  obtain ⟨g2, a2, b2⟩ := hcorner e.e1 e.e2 (h0.trans h1)
  obtain ⟨g3, a3, b3⟩ := hcorner e.e1 e.e3 (h0.trans h1)
  obtain ⟨phi, hphi⟩ := polarPhi_ok (m := m) (Or.inr ht) (Or.inr hl) e o g0 g1 g2 g3
  dsimp only at o1
  unfold globalExtent at hg
  rw [if_pos ht, if_pos hl] at hg
  unfold globalExtentPolarPolar at hg
  rw [if_neg hne] at hg
  simp only [o1, a0, a1, a2, a3, hphi, Res.bind_ok, Res.pure_eq] at hg
  obtain rfl := Res.ok.inj hg
  have hset : radii (place m.angle (plane m.momsCoordinateType m.offset) m.zPosition ''
      region m.layout.coordinateType e) =
      {x | ∃ r th, e.e0 ≤ r ∧ r ≤ e.e1 ∧ e.e2 ≤ th ∧ th ≤ e.e3 ∧ x = √(d2 r th o.1 o.2)} := by
    ext x
    constructor
    · rintro ⟨q, ⟨q', ⟨⟨r, th⟩, a, b, c, d, rfl⟩, rfl⟩, rfl⟩
      refine ⟨r, th, a, b, c, d, ?_⟩
      rw [hl]; exact hdist r th
    · rintro ⟨r, th, a, b, c, d, rfl⟩
      refine ⟨_, ⟨_, ⟨(r, th), a, b, c, d, rfl⟩, rfl⟩, ?_⟩
      rw [hl]; exact (hdist r th).symm
  rw [hset]
  exact ⟨polarRMin_isLeast h0 h1 h2 hlo hhi o4 o5 b0 b1 b2 b3,
    polarRMax_isGreatest h0 h1 h2 hlo hhi o4 o5 b0 b1 b2 b3⟩

end Gear.TpcModule
