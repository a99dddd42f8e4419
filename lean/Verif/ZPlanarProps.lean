/-
Properties of the planar vertex detector (C39-C43, C91).
-/
import Verif.ZPlanarCross

set_option autoImplicit false
set_option linter.unusedSectionVars false

namespace Gear.ZPlanar

open Vector3D (V3)
open Real (pi)
open Spec

/-! ### C39: getters return what `addLayer` stored -/

section Getters

variable {K : Type} [Field K] [LinearOrder K] [IsStrictOrderedRing K]

theorem detector_layer_eq (F : PlanarFns K) (P : Params K) (calls : List (Call K)) :
    (detector F P calls).layer = P.layer ++ calls.map fun c =>
      (mkLayer F c.nLadders c.phi0 c.ladder, mkLayer F c.nLadders c.phi0 c.sensitive) := by
  induction calls generalizing P with
  | nil => simp [detector]
  | cons c cs ih =>
    show (detector F (P.addLayer F c.nLadders c.phi0 c.ladder c.sensitive) cs).layer = _
    rw [ih]
    simp [Params.addLayer, addLayer]

theorem layerAt_ok (F : PlanarFns K) (P : Params K) (hP : P.layer = []) (calls : List (Call K)) {j : ℕ} {c : Call K}
    (hc : calls[j]? = some c) (sens : Bool) :
    layerAt (detector F P calls).layer j sens = .ok (mkLayer F c.nLadders c.phi0 (c.size sens)) := by
  unfold layerAt
  rw [if_neg (by omega), detector_layer_eq, hP]
  simp only [List.nil_append, Int.toNat_natCast, List.getElem?_map, hc, Option.map_some]
  cases sens <;> rfl

theorem layerAt_throws (F : PlanarFns K) (P : Params K) (hP : P.layer = []) (calls : List (Call K)) {i : ℤ}
    (hi : i < 0 ∨ (calls.length : ℤ) ≤ i) (sens : Bool) :
    layerAt (detector F P calls).layer i sens = .throw .outOfRange := by
  unfold layerAt
  by_cases h : i < 0
  · rw [if_pos h]
  · rw [if_neg h, detector_layer_eq, hP]
    rw [List.getElem?_eq_none (by simp; omega)]

/-- After any calls of `addLayer` the getters of layer `j` return the arguments of call number `j`. -/
theorem getters_return (F : PlanarFns K) (P : Params K) (hP : P.layer = []) (calls : List (Call K)) :
    getNLayers (detector F P calls).layer = calls.length ∧
    ∀ (j : ℕ) (c : Call K), calls[j]? = some c →
      getNLadders (detector F P calls).layer j = .ok c.nLadders
      ∧ getPhi0 F (detector F P calls).layer j = .ok c.phi0
      ∧ getLadderDistance (detector F P calls).layer j = .ok c.ladder.distance
      ∧ getLadderOffset (detector F P calls).layer j = .ok c.ladder.offset
      ∧ getLadderThickness (detector F P calls).layer j = .ok c.ladder.thickness
      ∧ getLadderLength (detector F P calls).layer j = .ok c.ladder.length
      ∧ getLadderWidth (detector F P calls).layer j = .ok c.ladder.width
      ∧ getLadderRadLength (detector F P calls).layer j = .ok c.ladder.radLength
      ∧ getSensitiveDistance (detector F P calls).layer j = .ok c.sensitive.distance
      ∧ getSensitiveOffset (detector F P calls).layer j = .ok c.sensitive.offset
      ∧ getSensitiveThickness (detector F P calls).layer j = .ok c.sensitive.thickness
      ∧ getSensitiveLength (detector F P calls).layer j = .ok c.sensitive.length
      ∧ getSensitiveWidth (detector F P calls).layer j = .ok c.sensitive.width
      ∧ getSensitiveRadLength (detector F P calls).layer j = .ok c.sensitive.radLength := by
  refine ⟨?_, ?_⟩
  · unfold getNLayers; rw [detector_layer_eq, hP]; simp
  · intro j c hc
    have h1 := layerAt_ok F P hP calls hc false
    have h2 := layerAt_ok F P hP calls hc true
    simp only [getNLadders, getPhi0, getLadderDistance, getLadderOffset, getLadderThickness, getLadderLength,
      getLadderWidth, getLadderRadLength, getSensitiveDistance, getSensitiveOffset, getSensitiveThickness,
      getSensitiveLength, getSensitiveWidth, getSensitiveRadLength, h1, h2, Res.bind_ok, Res.pure_eq]
    simp [mkLayer, Call.size]

/-- For any other index all of them throw `std::out_of_range`. -/
theorem getters_throw (F : PlanarFns K) (P : Params K) (hP : P.layer = []) (calls : List (Call K)) (i : ℤ)
    (hi : i < 0 ∨ (calls.length : ℤ) ≤ i) (sens : Bool) (phi : K) :
    getNLadders (detector F P calls).layer i = .throw .outOfRange
      ∧ getPhi0 F (detector F P calls).layer i = .throw .outOfRange
      ∧ getLadderDistance (detector F P calls).layer i = .throw .outOfRange
      ∧ getLadderOffset (detector F P calls).layer i = .throw .outOfRange
      ∧ getLadderThickness (detector F P calls).layer i = .throw .outOfRange
      ∧ getLadderLength (detector F P calls).layer i = .throw .outOfRange
      ∧ getLadderWidth (detector F P calls).layer i = .throw .outOfRange
      ∧ getLadderRadLength (detector F P calls).layer i = .throw .outOfRange
      ∧ getSensitiveDistance (detector F P calls).layer i = .throw .outOfRange
      ∧ getSensitiveOffset (detector F P calls).layer i = .throw .outOfRange
      ∧ getSensitiveThickness (detector F P calls).layer i = .throw .outOfRange
      ∧ getSensitiveLength (detector F P calls).layer i = .throw .outOfRange
      ∧ getSensitiveWidth (detector F P calls).layer i = .throw .outOfRange
      ∧ getSensitiveRadLength (detector F P calls).layer i = .throw .outOfRange
      ∧ getMaxRadius F (detector F P calls).layer i sens = .throw .outOfRange
      ∧ getStartInnerPhi F (detector F P calls).layer i sens = .throw .outOfRange
      ∧ getEndInnerPhi F (detector F P calls).layer i sens = .throw .outOfRange
      ∧ getStartOuterPhi F (detector F P calls).layer i sens = .throw .outOfRange
      ∧ getEndOuterPhi F (detector F P calls).layer i sens = .throw .outOfRange
      ∧ getThicknessForPhi F (detector F P calls).layer i phi sens = .throw .outOfRange := by
  have h := fun s => layerAt_throws F P hP calls hi s
  simp [getNLadders, getPhi0, getLadderDistance, getLadderOffset, getLadderThickness, getLadderLength,
      getLadderWidth, getLadderRadLength, getSensitiveDistance, getSensitiveOffset, getSensitiveThickness,
      getSensitiveLength, getSensitiveWidth, getSensitiveRadLength, getMaxRadius, getStartInnerPhi, getEndInnerPhi,
      getStartOuterPhi, getEndOuterPhi, getThicknessForPhi, h, Res.bind_throw]

/-- The shell parameters are those given to the constructor. -/
theorem shell_kept (F : PlanarFns K) (type : ℤ) (ri ro hl gap rl : K) (calls : List (Call K)) :
    (detector F (new type ri ro hl gap rl) calls).type = type
      ∧ (detector F (new type ri ro hl gap rl) calls).shellInnerRadius = ri
      ∧ (detector F (new type ri ro hl gap rl) calls).shellOuterRadius = ro
      ∧ (detector F (new type ri ro hl gap rl) calls).shellHalfLength = hl
      ∧ (detector F (new type ri ro hl gap rl) calls).shellGap = gap
      ∧ (detector F (new type ri ro hl gap rl) calls).shellRadLength = rl := by
  have : ∀ P : Params K, (detector F P calls).type = P.type
      ∧ (detector F P calls).shellInnerRadius = P.shellInnerRadius
      ∧ (detector F P calls).shellOuterRadius = P.shellOuterRadius
      ∧ (detector F P calls).shellHalfLength = P.shellHalfLength
      ∧ (detector F P calls).shellGap = P.shellGap
      ∧ (detector F P calls).shellRadLength = P.shellRadLength := by
    induction calls with
    | nil => intro P; exact ⟨rfl, rfl, rfl, rfl, rfl, rfl⟩
    | cons c cs ih => intro P; exact ih (P.addLayer F c.nLadders c.phi0 c.ladder c.sensitive)
  exact this _

end Getters

/-- A layer of four ladders of distance 1, thickness 1, length 10 and width 2 that face the axes. -/
noncomputable def exampleLayer : Call ℝ where
  nLadders := 4
  phi0 := 0
  ladder := ⟨1, 0, 1, 10, 2, 1⟩
  sensitive := ⟨1, 0, 1, 10, 2, 1⟩

/-- Two layers: the getters of the second one. -/
example : getLadderDistance (detector realPlanar (new 1 0 0 0 2 0) [exampleLayer,
    { exampleLayer with ladder := ⟨7, 0, 1, 10, 2, 1⟩ }]).layer ((1 : ℕ) : ℤ) = .ok 7 :=
  ((getters_return realPlanar (new 1 0 0 0 2 0) rfl [exampleLayer,
    { exampleLayer with ladder := ⟨7, 0, 1, 10, 2, 1⟩ }]).2 1 _ rfl).2.2.1

/-! ### C40: points in ladders and sensitive volumes -/

/-- Sizes and angles for which the completeness of the point queries is proved. -/
def Regular (c : Call ℝ) (sens : Bool) : Prop :=
  0 < c.nLadders ∧ c.nLadders ≤ 60000 ∧ 0 ≤ c.phi0 ∧ c.phi0 ≤ 2 * pi ∧ 0 < (c.size sens).distance
    ∧ |(c.size sens).offset| ≤ (c.size sens).width / 2

/-- Every point of a ladder (sensitive volume) is reported to be in one.  Missing: points on the negative y axis,
offsets of more than half the width, and start angles outside of a full turn; see the refutations. -/
theorem point_reported_partial (P : Params ℝ) (hP : P.layer = []) (calls : List (Call ℝ)) (sens : Bool) {c : Call ℝ}
    (hc : c ∈ calls) (hr : Regular c sens) {m : ℤ} (hm0 : 0 ≤ m) (hm1 : m < c.nLadders) {p : V3 ℝ}
    (hp : p ∈ volume c sens P.shellGap m) (hax : ¬ (p.x = 0 ∧ p.y ≤ 0))
    (hshell : |P.shellHalfLength| ≤ 1 / 1000 ∨ |p.z| ≤ P.shellHalfLength + P.shellGap / 2) :
    (isPointIn realPlanar (detector realPlanar P calls) p sens).isSome = true := by
  obtain ⟨h1, h2, h3, h4, h5, h6⟩ := hr
  obtain ⟨i, hi, rfl⟩ := moduleOf_surj hm0 hm1
  obtain ⟨g1, g2⟩ := ladderHit_complete c h1 h2 h3 h4 sens h5 h6 hax hi hp
  obtain ⟨s1, s2⟩ := detector_shell realPlanar P calls
  unfold isPointIn
  rw [s1, s2, detector_layer, hP, List.nil_append]
  rw [if_neg]
  · exact pointLoop_complete 0 hc hi g1 g2
  · obtain ⟨_, _, z, rfl, _, _, _, _, hz1, _⟩ := hp
    rintro ⟨a, b | b⟩
    · rcases hshell with h | h <;> linarith
    · exact absurd hz1 (not_le.mpr b)

/-- A reported sensor contains the point, up to a tolerance of `0.0001 (5 + 3 thickness)` per coordinate: layer,
side and module number are those of a volume with a point this near. -/
theorem reported_in_volume (P : Params ℝ) (hP : P.layer = []) (calls : List (Call ℝ)) (sens : Bool)
    (hg : 0 ≤ P.shellGap)
    (hc : ∀ c ∈ calls, 0 ≤ (c.size sens).thickness ∧ 0 ≤ (c.size sens).width ∧ 0 ≤ (c.size sens).length)
    {p : V3 ℝ} {id : SensorID} (h : isPointIn realPlanar (detector realPlanar P calls) p sens = some id) :
    ∃ (j : ℕ) (c : Call ℝ) (q : V3 ℝ), id.layer = j ∧ calls[j]? = some c ∧ 0 ≤ id.module ∧ id.module < c.nLadders
      ∧ id.sensor = 0 ∧ (id.side = 1 ∧ 0 ≤ p.z ∧ 0 ≤ q.z ∨ id.side = -1 ∧ p.z < 0 ∧ q.z ≤ 0)
      ∧ q ∈ volume c sens P.shellGap id.module
      ∧ |p.x - q.x| ≤ 1 / 10000 * (5 + 3 * (c.size sens).thickness)
      ∧ |p.y - q.y| ≤ 1 / 10000 * (5 + 3 * (c.size sens).thickness)
      ∧ |p.z - q.z| ≤ 1 / 10000 * (5 + 3 * (c.size sens).thickness) := by
  obtain ⟨s1, s2⟩ := detector_shell realPlanar P calls
  unfold isPointIn at h
  rw [s1, s2, detector_layer, hP, List.nil_append] at h
  split_ifs at h with hsh
  obtain ⟨j, i, c, a1, a2, a3, a4, a5, a6, a7⟩ := pointLoop_sound h
  have hcm : c ∈ calls := List.mem_of_getElem? a1
  obtain ⟨t1, t2, t3⟩ := hc c hcm
  obtain ⟨q, b1, b2, b3, b4, b5, b6⟩ := ladderHit_sound c (by omega) sens hg t2 t3 t1 a7
  have hmr := moduleOf_range a2
  refine ⟨j, c, q, by rw [a3]; simp, a1, by rw [a5]; exact hmr.1, by rw [a5]; exact hmr.2, a6, ?_, by rw [a5]; exact b1,
    b4, b5, b6⟩
  by_cases hz : 0 ≤ p.z
  · exact Or.inl ⟨by rw [a4, if_pos hz], hz, b2 hz⟩
  · exact Or.inr ⟨by rw [a4, if_neg hz], not_le.mp hz, b3 (not_le.mp hz)⟩

theorem exampleLayer_volume {h z : ℝ} (h1 : 1 ≤ h) (h2 : h ≤ 2) (hz : 1 ≤ |z|) (hz' : |z| ≤ 11) (sens : Bool) :
    (⟨h, 0, z⟩ : V3 ℝ) ∈ volume exampleLayer sens 2 0 := by
  refine ⟨h, 0, z, ?_, ?_⟩
  · ext <;> simp [point, azimuth, exampleLayer]
  · cases sens <;> simp [Call.size, exampleLayer] <;> norm_num <;> exact ⟨h1, by linarith, hz, by linarith⟩

theorem exampleLayer_regular (sens : Bool) : Regular exampleLayer sens := by
  have := Real.pi_pos
  cases sens <;> simp [Regular, Call.size, exampleLayer] <;> linarith

/-- The point (1.5, 0, 5) is reported, in the ladders as in the sensitive volumes. -/
example : isPointInLadder realPlanar (detector realPlanar (new 1 0 0 0 2 0) [exampleLayer]) ⟨3 / 2, 0, 5⟩ = true ∧
    (isPointInSensitive realPlanar (detector realPlanar (new 1 0 0 0 2 0) [exampleLayer]) ⟨3 / 2, 0, 5⟩).isSome = true := by
  constructor <;>
  · refine point_reported_partial (new 1 0 0 0 2 0) rfl [exampleLayer] _ (c := exampleLayer) (by simp)
      (exampleLayer_regular _) (m := 0) (le_refl _) (by simp [exampleLayer]) (exampleLayer_volume (by norm_num) (by norm_num)
        (by norm_num) (by norm_num) _) (by norm_num) (Or.inl (by simp [new]))

theorem pointLoop_single_none {gap : ℝ} {sens : Bool} {p : V3 ℝ} {c : Call ℝ} (hN : c.nLadders = 1)
    (h : ladderHit realPlanar gap sens p (stored c) 0 = false) :
    pointLoop realPlanar gap sens p 0 ([c].map stored) = none := by
  simp only [List.map_cons, List.map_nil, pointLoop]
  have hn : (stored c).1.NLadders = 1 := hN
  rw [hn]
  have hr : List.find? (ladderHit realPlanar gap sens p (stored c)) (List.range (Int.toNat 1)) = none := by
    rw [List.find?_eq_none]
    intro i hi
    have : i = 0 := by simpa using hi
    rw [this, h]; simp
  rw [hr]
  split_ifs <;> rfl

theorem ladderHit_false_of_range {gap : ℝ} {sens : Bool} {p : V3 ℝ} {c : Call ℝ} {a b f : ℝ}
    (hD : (c.size sens).distance ≠ 0)
    (ha : a = correctPhiRange realPlanar (pi / 2 - c.phi0
      + Real.arctan ((-(c.size sens).width / 2 - (c.size sens).offset) / (c.size sens).distance) - EPSILON))
    (hb : b = correctPhiRange realPlanar (pi / 2 - c.phi0
      + Real.arctan (((c.size sens).width / 2 - (c.size sens).offset) / (c.size sens).distance) + EPSILON))
    (hf : getPhiPoint realPlanar p = some f) (h1 : ¬ (a ≤ f ∧ f ≤ b)) (h2 : ¬ (b < a ∧ f ≤ b)) (h3 : ¬ (b < a ∧ a ≤ f)) :
    ladderHit realPlanar gap sens p (stored c) 0 = false := by
  unfold ladderHit
  simp only [stored_sel]
  rw [if_pos]
  have hs : startInnerPhi realPlanar (mkLayer realPlanar c.nLadders c.phi0 (c.size sens))
      = some (pi / 2 - c.phi0 + Real.arctan ((-(c.size sens).width / 2 - (c.size sens).offset) / (c.size sens).distance)) := by
    unfold startInnerPhi; simp only [mkLayer]; rw [atanQuot_ne _ hD]; rfl
  have he : endInnerPhi realPlanar (mkLayer realPlanar c.nLadders c.phi0 (c.size sens))
      = some (pi / 2 - c.phi0 + Real.arctan (((c.size sens).width / 2 - (c.size sens).offset) / (c.size sens).distance)) := by
    unfold endInnerPhi; simp only [mkLayer]; rw [atanQuot_ne _ hD]; rfl
  rw [hs, he, hf]
  simp only [Option.map_some, Nat.cast_zero, zero_mul, add_zero]
  rw [← ha, ← hb]
  unfold isInRange leO ltO
  by_contra hh
  rw [Bool.not_eq_false, Bool.or_eq_true, Bool.or_eq_true] at hh
  simp only [Bool.and_eq_true, decide_eq_true_eq] at hh
  rcases hh with (h | h) | h
  · exact h1 h
  · exact h2 h
  · exact h3 h

/-- A point in the middle of a ladder on the negative y axis is not reported. -/
theorem point_reported_false_negative_y_axis : ∃ (c : Call ℝ) (p : V3 ℝ), Regular c true ∧
    p ∈ volume c true 2 0 ∧ isPointIn realPlanar (detector realPlanar (new 1 0 0 0 2 0) [c]) p true = none := by
  have hpi := Real.pi_pos
  have hpi3 := Real.pi_gt_three
  have hpi4 := Real.pi_lt_four
  refine ⟨{ exampleLayer with nLadders := 1, phi0 := 3 * pi / 2 }, ⟨0, -3 / 2, 5⟩, ?_, ?_, ?_⟩
  · simp [Regular, Call.size, exampleLayer]; constructor <;> linarith
  · have e : 3 * pi / 2 = pi + pi / 2 := by ring
    refine ⟨3 / 2, 0, 5, ?_, ?_⟩
    · ext <;> simp [point, azimuth, e, Real.cos_add, Real.sin_add] <;> norm_num
    · simp [Call.size, exampleLayer]; norm_num
  · unfold isPointIn
    rw [if_neg (by simp [detector_shell, new]), detector_layer]
    have hf : getPhiPoint realPlanar (⟨0, -3 / 2, 5⟩ : V3 ℝ) = some 0 := by
      unfold getPhiPoint
      dsimp only
      rw [if_neg (by simp), atanQuot_ne _ (by norm_num), zero_div, Real.arctan_zero]
      unfold correctPhiRange
      rw [Option.map_some, if_neg (by simp; linarith), if_neg (by simp; linarith)]
    have hE : (EPSILON : ℝ) = 1 / 10000 := rfl
    have a1 := Real.arctan_lt_pi_div_two (1 : ℝ)
    have a0 : 0 < Real.arctan 1 := by rw [Real.arctan_one]; linarith
    refine pointLoop_single_none rfl (ladderHit_false_of_range (a := pi - Real.arctan 1 - EPSILON)
      (b := -pi + Real.arctan 1 + EPSILON) (f := 0) ?_ ?_ ?_ hf ?_ ?_ ?_)
    · simp [Call.size, exampleLayer]
    · have : pi / 2 - 3 * pi / 2 + Real.arctan ((-2 / 2 - 0) / 1) - EPSILON = -pi - Real.arctan 1 - EPSILON := by
        norm_num; ring
      simp only [Call.size, exampleLayer, if_true]
      rw [this]
      rcases corr_cases (-pi - Real.arctan 1 - EPSILON) with ⟨h, _⟩ | ⟨_, _, h⟩ | ⟨_, h, _⟩
      · rw [hE] at h; linarith
      · rw [h]; ring
      · rw [hE] at h; linarith
    · have : pi / 2 - 3 * pi / 2 + Real.arctan ((2 / 2 - 0) / 1) + EPSILON = -pi + Real.arctan 1 + EPSILON := by
        norm_num; ring
      simp only [Call.size, exampleLayer, if_true]
      rw [this]
      rcases corr_cases (-pi + Real.arctan 1 + EPSILON) with ⟨h, _⟩ | ⟨_, h, _⟩ | ⟨_, _, h⟩
      · rw [hE] at h; linarith
      · rw [hE] at h; linarith
      · rw [h]
    · rw [Real.arctan_one, hE]; intro h; linarith [h.1]
    · rw [Real.arctan_one, hE]; intro h; linarith [h.2]
    · rw [Real.arctan_one, hE]; intro h; linarith [h.2]

/-- With an offset of more than half the width, points far from the inner face are not reported. -/
theorem point_reported_false_offset : ∃ (c : Call ℝ) (p : V3 ℝ), c.nLadders = 1 ∧ c.phi0 = pi / 2 ∧
    p ∈ volume c true 2 0 ∧ ¬ (p.x = 0 ∧ p.y ≤ 0) ∧
    isPointIn realPlanar (detector realPlanar (new 1 0 0 0 2 0) [c]) p true = none := by
  have hpi := Real.pi_pos
  have hpi3 := Real.pi_gt_three
  have hpi4 := Real.pi_lt_four
  refine ⟨{ exampleLayer with nLadders := 1, phi0 := pi / 2, sensitive := ⟨1, -3, 100, 10, 2, 1⟩ }, ⟨2, 100, 5⟩,
    rfl, rfl, ?_, by norm_num, ?_⟩
  · refine ⟨100, -2, 5, ?_, ?_⟩
    · ext <;> simp [point, azimuth]
    · simp [Call.size]; norm_num
  · unfold isPointIn
    rw [if_neg (by simp [detector_shell, new]), detector_layer]
    have hE : (EPSILON : ℝ) = 1 / 10000 := rfl
    have b1 : Real.arctan (2 / 100) ≤ 2 / 100 := by
      have h0 : 0 < Real.arctan (2 / 100) := by rw [← Real.arctan_zero]; exact Real.arctan_strictMono (by norm_num)
      have := Real.lt_tan h0 (Real.arctan_lt_pi_div_two _)
      rw [Real.tan_arctan] at this
      exact this.le
    have b0 : 0 ≤ Real.arctan (2 / 100) := by rw [← Real.arctan_zero]; exact Real.arctan_mono (by norm_num)
    have hf : getPhiPoint realPlanar (⟨2, 100, 5⟩ : V3 ℝ) = some (Real.arctan (2 / 100)) := by
      unfold getPhiPoint
      dsimp only
      rw [if_neg (by norm_num), atanQuot_ne _ (by norm_num), Option.map_some]
      rcases corr_cases (Real.arctan (2 / 100)) with ⟨h, _⟩ | ⟨_, h, _⟩ | ⟨_, _, h⟩
      · linarith
      · linarith
      · rw [h]
    have l1 : pi / 4 ≤ Real.arctan 2 := by rw [← Real.arctan_one]; exact Real.arctan_mono (by norm_num)
    have l2 := Real.arctan_lt_pi_div_two (2 : ℝ)
    have l3 : Real.arctan 2 ≤ Real.arctan 4 := Real.arctan_mono (by norm_num)
    have l4 := Real.arctan_lt_pi_div_two (4 : ℝ)
    refine pointLoop_single_none rfl (ladderHit_false_of_range (a := Real.arctan 2 - EPSILON)
      (b := Real.arctan 4 + EPSILON) (f := Real.arctan (2 / 100)) ?_ ?_ ?_ hf ?_ ?_ ?_)
    · simp [Call.size]
    · have : pi / 2 - pi / 2 + Real.arctan ((-2 / 2 - -3) / 1) - EPSILON = Real.arctan 2 - EPSILON := by
        norm_num
      simp only [Call.size, if_true]
      rw [this]
      rcases corr_cases (Real.arctan 2 - EPSILON) with ⟨h, _⟩ | ⟨_, h, _⟩ | ⟨_, _, h⟩
      · rw [hE] at h; linarith
      · rw [hE] at h; linarith
      · rw [h]
    · have : pi / 2 - pi / 2 + Real.arctan ((2 / 2 - -3) / 1) + EPSILON = Real.arctan 4 + EPSILON := by
        norm_num
      simp only [Call.size, if_true]
      rw [this]
      rcases corr_cases (Real.arctan 4 + EPSILON) with ⟨h, _⟩ | ⟨_, h, _⟩ | ⟨_, _, h⟩
      · rw [hE] at h; linarith
      · rw [hE] at h; linarith
      · rw [h]
    · rw [hE]; intro h; linarith [h.1]
    · rw [hE]; intro h; linarith [h.1]
    · rw [hE]; intro h; linarith [h.1]

/-- With a start angle outside of a full turn no point of the ladder is reported. -/
theorem point_reported_false_start_angle : ∃ (c : Call ℝ) (p : V3 ℝ), c.nLadders = 1 ∧ c.phi0 = -3 * pi ∧
    p ∈ volume c true 2 0 ∧ ¬ (p.x = 0 ∧ p.y ≤ 0) ∧
    isPointIn realPlanar (detector realPlanar (new 1 0 0 0 2 0) [c]) p true = none := by
  have hpi := Real.pi_pos
  have hpi3 := Real.pi_gt_three
  have hpi4 := Real.pi_lt_four
  refine ⟨{ exampleLayer with nLadders := 1, phi0 := -3 * pi }, ⟨-3 / 2, 0, 5⟩, rfl, rfl, ?_, by norm_num, ?_⟩
  · have e : -3 * pi = -(pi + 2 * pi) := by ring
    refine ⟨3 / 2, 0, 5, ?_, ?_⟩
    · have ec : Real.cos (-3 * pi) = -1 := by rw [e, Real.cos_neg, Real.cos_add_two_pi, Real.cos_pi]
      have es : Real.sin (-3 * pi) = 0 := by rw [e, Real.sin_neg, Real.sin_add_two_pi, Real.sin_pi, neg_zero]
      have ea : azimuth ({ exampleLayer with nLadders := 1, phi0 := -3 * pi } : Call ℝ) 0 = -3 * pi := by
        simp [azimuth]
      ext <;> simp only [point, ea, ec, es] <;> norm_num
    · simp [Call.size, exampleLayer]; norm_num
  · unfold isPointIn
    rw [if_neg (by simp [detector_shell, new]), detector_layer]
    have hE : (EPSILON : ℝ) = 1 / 10000 := rfl
    obtain ⟨f, hf, f1, f2, -⟩ := getPhiPoint_spec (p := ⟨-3 / 2, 0, 5⟩) (by norm_num)
    have a1 := Real.arctan_lt_pi_div_two (1 : ℝ)
    refine pointLoop_single_none rfl (ladderHit_false_of_range (a := 3 * pi / 2 - Real.arctan 1 - EPSILON)
      (b := 3 * pi / 2 + Real.arctan 1 + EPSILON) (f := f) ?_ ?_ ?_ hf ?_ ?_ ?_)
    · simp [Call.size, exampleLayer]
    · have : pi / 2 - -3 * pi + Real.arctan ((-2 / 2 - 0) / 1) - EPSILON = 7 * pi / 2 - Real.arctan 1 - EPSILON := by
        norm_num; ring
      simp only [Call.size, exampleLayer, if_true]
      rw [this]
      rcases corr_cases (7 * pi / 2 - Real.arctan 1 - EPSILON) with ⟨_, h⟩ | ⟨_, h, _⟩ | ⟨h, _, _⟩
      · rw [h]; ring
      · rw [hE] at h; linarith
      · rw [hE] at h; linarith
    · have : pi / 2 - -3 * pi + Real.arctan ((2 / 2 - 0) / 1) + EPSILON = 7 * pi / 2 + Real.arctan 1 + EPSILON := by
        norm_num; ring
      simp only [Call.size, exampleLayer, if_true]
      rw [this]
      have a0 : 0 < Real.arctan 1 := by rw [Real.arctan_one]; linarith
      rcases corr_cases (7 * pi / 2 + Real.arctan 1 + EPSILON) with ⟨_, h⟩ | ⟨_, h, _⟩ | ⟨h, _, _⟩
      · rw [h]; ring
      · rw [hE] at h; linarith
      · rw [hE] at h; linarith
    · rw [Real.arctan_one, hE]; intro h; linarith [h.1]
    · rw [Real.arctan_one, hE]; intro h; linarith [h.1]
    · rw [Real.arctan_one, hE]; intro h; linarith [h.1]

/-! ### C41: the nearest ladder or sensitive volume -/

/-- The azimuth of `p` differs from that of the module's normal by at most the angle between two ladders. -/
def NearAngle (c : Call ℝ) (m : ℤ) (p : V3 ℝ) : Prop :=
  ∃ R th, 0 < R ∧ p.x = R * Real.cos th ∧ p.y = R * Real.sin th ∧ |th - azimuth c m| ≤ 2 * pi / c.nLadders

/-- For a point outside of all volumes, other than the origin, the returned vector leads to a volume (a point that
counts as inside already, by the tolerance of the point query, gets the zero vector), and it is not longer than the
way to any point of any volume that is near in angle.  Missing: the volumes that are not near in angle, layers of one
or two ladders, the negative y axis, the origin, and volumes more than 99999.99 away; see the refutations. -/
theorem nearest_partial (P : Params ℝ) (hP : P.layer = []) (calls : List (Call ℝ)) (sens : Bool)
    (hg : 0 ≤ P.shellGap) (hc : ∀ c ∈ calls, Sensible c sens) {p : V3 ℝ} (hp : p ≠ ⟨0, 0, 0⟩)
    (hout : ∀ c ∈ calls, ∀ m, 0 ≤ m → m < c.nLadders → p ∉ volume c sens P.shellGap m)
    {c : Call ℝ} (hcm : c ∈ calls) (hN : 3 ≤ c.nLadders) (hphi0 : 0 ≤ c.phi0) (hphi1 : c.phi0 ≤ 2 * pi)
    (hax : ¬ (p.x = 0 ∧ p.y ≤ 0)) {m : ℤ} (hm0 : 0 ≤ m) (hm1 : m < c.nLadders) (hnear : NearAngle c m p)
    {q : V3 ℝ} (hq : q ∈ volume c sens P.shellGap m) (hfar : Real.sqrt (dist2 p q) < 9999999 / 100)
    {w : V3 ℝ} (hw : w = distanceToNearest realPlanar (detector realPlanar P calls) p sens) :
    w.x ^ 2 + w.y ^ 2 + w.z ^ 2 ≤ dist2 p q ∧
    (w = ⟨0, 0, 0⟩ ∧ (isPointIn realPlanar (detector realPlanar P calls) p sens).isSome = true
      ∨ ∃ c' ∈ calls, ∃ m', 0 ≤ m' ∧ m' < c'.nLadders ∧ Vector3D.add p w ∈ volume c' sens P.shellGap m') := by
  obtain ⟨s1, s2⟩ := detector_shell realPlanar P calls
  have hnn : 0 ≤ dist2 p q := by unfold dist2; positivity
  unfold distanceToNearest at hw
  by_cases hin : (isPointIn realPlanar (detector realPlanar P calls) p sens).isSome = true
  · rw [if_pos hin] at hw
    subst hw
    exact ⟨by simpa using hnn, Or.inl ⟨rfl, hin⟩⟩
  · rw [if_neg hin, if_neg (by rintro ⟨a, b, d⟩; exact hp (by ext <;> simp [← a, ← b, ← d])), s1, detector_layer, hP,
      List.nil_append] at hw
    obtain ⟨i, hi, rfl⟩ := moduleOf_surj hm0 hm1
    obtain ⟨R, th, hR, hx, hy, hth⟩ := hnear
    obtain ⟨h1, -, h3⟩ := nearest_loop sens P.shellGap hg hc p
    have hb := h3 c hcm i hi (nearInRange_of c hN hphi0 hphi1 hax hi hR hx hy hth) (hout c hcm _ hm0 hm1) q hq
    generalize (calls.map stored).foldl (nearestLayer realPlanar P.shellGap sens p) (Vector3D.zero, 9999999 / 100)
      = best at h1 hb hw
    rcases h1 with h | ⟨q', ⟨c', hc', i', hi', -, hq'⟩, h⟩
    · rw [h] at hb; exact absurd hfar (not_lt.mpr hb)
    · rw [h] at hw hb
      have hmr := moduleOf_range hi'
      refine ⟨?_, Or.inr ⟨c', hc', _, hmr.1, hmr.2, ?_⟩⟩
      · have := (Real.sqrt_le_sqrt_iff hnn).mp hb
        rw [hw]
        refine le_trans (le_of_eq ?_) this
        simp only [Vector3D.sub, dist2]; ring
      · rw [hw]
        have : Vector3D.add p (Vector3D.sub q' p) = q' := by
          ext <;> simp [Vector3D.add, Vector3D.sub]
        rw [this]; exact hq'

/-- A point that counts as inside gets the zero vector. -/
theorem nearest_inside (P : Params ℝ) (p : V3 ℝ) (sens : Bool) (h : (isPointIn realPlanar P p sens).isSome = true) :
    distanceToNearest realPlanar P p sens = ⟨0, 0, 0⟩ := by
  unfold distanceToNearest; rw [if_pos h]

/-- From (5, 0, 5) the vector to the nearest ladder of the example is at most 3 long. -/
example : let w := distanceToNearestLadder realPlanar (detector realPlanar (new 1 0 0 0 2 0) [exampleLayer]) ⟨5, 0, 5⟩
    w.x ^ 2 + w.y ^ 2 + w.z ^ 2 ≤ 9 := by
  have hpi := Real.pi_pos
  have hx : ∀ m : ℤ, 0 ≤ m → m < 4 → (⟨5, 0, 5⟩ : V3 ℝ) ∉ volume exampleLayer false 2 m := by
    rintro m - - ⟨h, u, z, e, h1, h2, h3, h4, -⟩
    simp [exampleLayer, Call.size] at h1 h2 h3 h4
    have ex : (5 : ℝ) = h * Real.cos (azimuth exampleLayer m) - u * Real.sin (azimuth exampleLayer m) := congrArg V3.x e
    have ey : (0 : ℝ) = h * Real.sin (azimuth exampleLayer m) + u * Real.cos (azimuth exampleLayer m) := congrArg V3.y e
    have : h ^ 2 + u ^ 2 = 25 := by
      have := Real.sin_sq_add_cos_sq (azimuth exampleLayer m)
      have e2 : (h ^ 2 + u ^ 2) * (Real.sin (azimuth exampleLayer m) ^ 2 + Real.cos (azimuth exampleLayer m) ^ 2)
        = 5 ^ 2 + 0 ^ 2 := by
        rw [ex, ey]; ring
      rw [this] at e2; linarith
    nlinarith
  have hd : dist2 ⟨5, 0, 5⟩ ⟨2, 0, 5⟩ = 9 := by norm_num [dist2]
  have := (nearest_partial (new 1 0 0 0 2 0) rfl [exampleLayer] false (by simp [new]) (by
    simp [Sensible, Sized, exampleLayer, Call.size]) (p := ⟨5, 0, 5⟩) (by simp)
    (by simpa [exampleLayer, new] using hx) (c := exampleLayer) (by simp) (by simp [exampleLayer])
    (by simp [exampleLayer]) (by simp [exampleLayer]; linarith) (by simp) (m := 0) (le_refl _) (by simp [exampleLayer])
    ⟨5, 0, by norm_num, by simp, by simp, by simp [azimuth, exampleLayer]; positivity⟩ (q := ⟨2, 0, 5⟩)
    (exampleLayer_volume (by norm_num) (by norm_num) (by norm_num) (by norm_num) _)
    (by rw [hd, show (9 : ℝ) = 3 ^ 2 by norm_num, Real.sqrt_sq (by norm_num)]; norm_num) rfl).1
  rw [hd] at this
  exact this

/-- A point further from all volumes than the tolerance is not reported. -/
theorem not_reported (P : Params ℝ) (hP : P.layer = []) (c : Call ℝ) (sens : Bool) (hg : 0 ≤ P.shellGap)
    (hs : Sized (c.size sens)) {p : V3 ℝ}
    (h : ∀ m, 0 ≤ m → m < c.nLadders → ∀ q ∈ volume c sens P.shellGap m,
      1 / 10000 * (5 + 3 * (c.size sens).thickness) < |p.x - q.x| ∨
      1 / 10000 * (5 + 3 * (c.size sens).thickness) < |p.y - q.y|) :
    isPointIn realPlanar (detector realPlanar P [c]) p sens = none := by
  cases hid : isPointIn realPlanar (detector realPlanar P [c]) p sens with
  | none => rfl
  | some id =>
    obtain ⟨j, c', q, -, h2, h3, h4, -, -, h7, h8, h9, -⟩ := reported_in_volume P hP [c] sens hg (by
      intro c'' h''; rw [List.mem_singleton.mp h'']; exact hs) hid
    have hc' : c' = c := by
      have := List.mem_of_getElem? h2
      simpa using this
    subst hc'
    rcases h _ h3 h4 q h7 with h | h
    · exact absurd h8 (not_le.mpr h)
    · exact absurd h9 (not_le.mpr h)

/-- From the origin, the returned vector need not lead to a ladder: its angle is mixed up. -/
theorem nearest_false_origin : ∃ c : Call ℝ, c.nLadders = 1 ∧ Sensible c false ∧
    Vector3D.add ⟨0, 0, 0⟩ (distanceToNearestLadder realPlanar (detector realPlanar (new 1 0 0 0 2 0) [c]) ⟨0, 0, 0⟩)
      ∉ volume c false 2 0 := by
  refine ⟨{ exampleLayer with nLadders := 1 }, rfl, by simp [Sensible, Sized, exampleLayer, Call.size], ?_⟩
  have hx : ∀ m : ℤ, 0 ≤ m → m < 1 → ∀ q ∈ volume { exampleLayer with nLadders := 1 } false 2 m, 1 ≤ q.x := by
    rintro m m0 m1 q ⟨h, u, z, rfl, h1, -⟩
    have : m = 0 := by omega
    subst this
    simpa [point, azimuth, exampleLayer, Call.size] using h1
  have hn : isPointIn realPlanar (detector realPlanar (new 1 0 0 0 2 0) [{ exampleLayer with nLadders := 1 }])
      ⟨0, 0, 0⟩ false = none := by
    refine not_reported _ rfl _ _ (by simp [new]) (by simp [Sized, exampleLayer, Call.size]) ?_
    intro m m0 m1 q hq
    have := hx m m0 m1 q hq
    left
    simp only [Call.size, exampleLayer, zero_sub, abs_neg, Bool.false_eq_true, if_false]
    rw [abs_of_nonneg (by linarith)]; linarith
  intro hmem
  have := hx 0 (le_refl _) (by norm_num) _ hmem
  unfold distanceToNearestLadder distanceToNearest at this
  rw [hn] at this
  simp [detector, Params.addLayer, addLayer, new, mkLayer, exampleLayer, Vector3D.cylindrical, Vector3D.add] at this
  linarith

/-- In a layer with one ladder, nothing is found: the zero vector is returned far from the ladder. -/
theorem nearest_false_one_ladder : ∃ (c : Call ℝ) (p : V3 ℝ), c.nLadders = 1 ∧ Sensible c false ∧
    p ∉ volume c false 2 0 ∧ ¬ (p.x = 0 ∧ p.y ≤ 0) ∧ p ≠ ⟨0, 0, 0⟩ ∧
    distanceToNearestLadder realPlanar (detector realPlanar (new 1 0 0 0 2 0) [c]) p = ⟨0, 0, 0⟩ := by
  have hpi := Real.pi_pos
  refine ⟨{ exampleLayer with nLadders := 1, phi0 := pi / 2 }, ⟨10, 0, 5⟩, rfl,
    by simp [Sensible, Sized, exampleLayer, Call.size], ?_, by norm_num, by simp, ?_⟩
  · rintro ⟨h, u, z, e, h1, h2, h3, h4, -⟩
    have := congrArg V3.y e
    simp [point, azimuth] at this
    simp [exampleLayer, Call.size] at h1
    linarith
  · unfold distanceToNearestLadder distanceToNearest
    split_ifs with h1 h2
    · rfl
    · norm_num at h2
    · rw [detector_layer]
      have hr : nearInRange realPlanar ⟨10, 0, 5⟩ (stored { exampleLayer with nLadders := 1, phi0 := pi / 2 }) 0
          = false := by
        obtain ⟨f, hf, f1, f2, f3, f4⟩ := getPhiPoint_spec (p := ⟨10, 0, 5⟩) (by norm_num)
        have hf0 : f ≠ 0 := by
          rintro rfl
          simp at f3
        have e : ladderPhi realPlanar (stored { exampleLayer with nLadders := 1, phi0 := pi / 2 }) 0 = 0 := by
          simp [ladderPhi, stored, mkLayer, exampleLayer, correctPhiRange, hpi.le, not_lt.mpr hpi.le, hpi]
        unfold nearInRange
        dsimp only
        rw [e, hf]
        have en : (2 * realPlanar.pi / ((stored { exampleLayer with nLadders := 1, phi0 := pi / 2 }).1.NLadders : ℝ))
            = 2 * pi := by simp [stored, mkLayer]
        rw [en]
        have c1 : correctPhiRange realPlanar (0 - 2 * pi) = 0 := by
          rcases corr_cases (0 - 2 * pi) with ⟨h, _⟩ | ⟨_, _, h⟩ | ⟨_, h, _⟩
          · linarith
          · rw [h]; ring
          · linarith
        have c2 : correctPhiRange realPlanar (0 + 2 * pi) = 0 := by
          rcases corr_cases (0 + 2 * pi) with ⟨_, h⟩ | ⟨_, h, _⟩ | ⟨h, _, _⟩
          · rw [h]; ring
          · linarith
          · linarith
        rw [c1, c2]
        by_contra hh
        simp only [isInRange, leO, ltO, Bool.not_eq_false, Bool.or_eq_true, Bool.and_eq_true, decide_eq_true_eq] at hh
        rcases hh with (h | h) | h
        · exact hf0 (le_antisymm h.2 h.1)
        · linarith [h.1]
        · linarith [h.1]
      have hfold : nearestLayer realPlanar 2 false ⟨10, 0, 5⟩ (Vector3D.zero, 9999999 / 100)
          (stored { exampleLayer with nLadders := 1, phi0 := pi / 2 }) = (Vector3D.zero, 9999999 / 100) := by
        unfold nearestLayer
        have : (stored { exampleLayer with nLadders := 1, phi0 := pi / 2 }).1.NLadders.toNat = 1 := rfl
        rw [this]
        simp [List.range_succ, nearestLadder, hr]
      have hshell : (detector realPlanar (new 1 0 0 0 2 0)
          [{ exampleLayer with nLadders := 1, phi0 := pi / 2 }]).shellGap = 2 := rfl
      rw [hshell]
      simp only [new, List.nil_append, List.map_cons, List.map_nil, List.foldl_cons, List.foldl_nil, hfold]
      rfl

/-- In a layer whose ladders reach far around, the nearest ladder may be left out of the search. -/
theorem nearest_false_wide_ladder : ∃ (c : Call ℝ) (p q : V3 ℝ), c.nLadders = 4 ∧ Sensible c false ∧
    q ∈ volume c false 2 0 ∧ dist2 p q ≤ 4 ∧
    ¬ (∃ m, 0 ≤ m ∧ m < c.nLadders ∧ ∃ q' ∈ volume c false 2 m, dist2 p q' ≤ 4 ∧
      distanceToNearestLadder realPlanar (detector realPlanar (new 1 0 0 0 2 0) [c]) p = Vector3D.sub q' p) := by
  have hpi := Real.pi_pos
  set c : Call ℝ := { exampleLayer with ladder := ⟨1, 49, 1, 10, 100, 1⟩ } with hcdef
  have hsens : Sensible c false := by simp [Sensible, Sized, hcdef, exampleLayer, Call.size]
  have h0 : ∀ q ∈ volume c false 2 0, 1 ≤ q.x := by
    rintro q ⟨h, u, z, rfl, h1, -⟩
    simpa [point, azimuth, hcdef, exampleLayer, Call.size] using h1
  have hcs : ∀ m : ℤ, (m = 1 → Real.cos (azimuth c m) = 0 ∧ Real.sin (azimuth c m) = 1)
      ∧ (m = 2 → Real.cos (azimuth c m) = -1 ∧ Real.sin (azimuth c m) = 0)
      ∧ (m = 3 → Real.cos (azimuth c m) = 0 ∧ Real.sin (azimuth c m) = -1) := by
    intro m
    refine ⟨?_, ?_, ?_⟩ <;> rintro rfl
    · have : azimuth c 1 = pi / 2 := by simp [azimuth, hcdef, exampleLayer]; ring
      rw [this]; simp
    · have : azimuth c 2 = pi := by simp [azimuth, hcdef, exampleLayer]; ring
      rw [this]; simp
    · have : azimuth c 3 = pi + pi / 2 := by simp [azimuth, hcdef, exampleLayer]; ring
      rw [this, Real.cos_add_pi_div_two, Real.sin_add_pi_div_two]; simp
  have h123 : ∀ m : ℤ, 1 ≤ m → m < 4 → ∀ q ∈ volume c false 2 m, q.y ≤ 2 := by
    rintro m m1 m4 q ⟨h, u, z, rfl, h1, h2, h3, h4, -⟩
    simp [hcdef, exampleLayer, Call.size] at h1 h2 h3 h4
    obtain ⟨k1, k2, k3⟩ := hcs m
    have : m = 1 ∨ m = 2 ∨ m = 3 := by omega
    rcases this with e | e | e
    · simp only [point, (k1 e).1, (k1 e).2]; linarith
    · simp only [point, (k2 e).1, (k2 e).2]; linarith
    · simp only [point, (k3 e).1, (k3 e).2]; linarith
  have hn : isPointIn realPlanar (detector realPlanar (new 1 0 0 0 2 0) [c]) ⟨-1 / 10, 49, 5⟩ false = none := by
    refine not_reported _ rfl _ _ (by simp [new]) hsens.2 ?_
    intro m m0 m1 q hq
    simp only [Call.size, hcdef, exampleLayer, Bool.false_eq_true, if_false]
    by_cases hm : m = 0
    · subst hm
      have := h0 q hq
      left
      rw [abs_of_nonpos (by linarith)]; linarith
    · have := h123 m (by omega) m1 q hq
      right
      rw [abs_of_nonneg (by linarith)]; linarith
  have hr : nearInRange realPlanar ⟨-1 / 10, 49, 5⟩ (stored c) 0 = false := by
    have hneg : Real.arctan (-1 / 10 / 49) < 0 := by
      rw [← Real.arctan_zero]; exact Real.arctan_strictMono (by norm_num)
    have hgt := Real.neg_pi_div_two_lt_arctan (-1 / 10 / 49)
    have hf : getPhiPoint realPlanar (⟨-1 / 10, 49, 5⟩ : V3 ℝ) = some (Real.arctan (-1 / 10 / 49)) := by
      unfold getPhiPoint
      dsimp only
      rw [if_neg (by norm_num), atanQuot_ne _ (by norm_num), Option.map_some]
      rcases corr_cases (Real.arctan (-1 / 10 / 49)) with ⟨h, _⟩ | ⟨_, h, _⟩ | ⟨_, _, h⟩
      · linarith
      · linarith
      · rw [h]
    have e : ladderPhi realPlanar (stored c) 0 = pi / 2 := by
      have : ladderPhi realPlanar (stored c) 0 = correctPhiRange realPlanar (pi / 2) := by
        simp [ladderPhi, stored, mkLayer, hcdef, exampleLayer]
      rw [this]
      rcases corr_cases (pi / 2) with ⟨h, _⟩ | ⟨_, h, _⟩ | ⟨_, _, h⟩
      · linarith
      · linarith
      · exact h
    unfold nearInRange
    dsimp only
    rw [e, hf]
    have en : (2 * realPlanar.pi / ((stored c).1.NLadders : ℝ)) = pi / 2 := by
      simp [stored, mkLayer, hcdef, exampleLayer]; ring
    rw [en]
    have c1 : correctPhiRange realPlanar (pi / 2 - pi / 2) = 0 := by
      rcases corr_cases (pi / 2 - pi / 2) with ⟨h, _⟩ | ⟨_, h, _⟩ | ⟨_, _, h⟩
      · linarith
      · linarith
      · rw [h]; ring
    have c2 : correctPhiRange realPlanar (pi / 2 + pi / 2) = pi := by
      rcases corr_cases (pi / 2 + pi / 2) with ⟨h, _⟩ | ⟨_, h, _⟩ | ⟨_, _, h⟩
      · linarith
      · linarith
      · rw [h]; ring
    rw [c1, c2]
    by_contra hh
    simp only [isInRange, leO, ltO, Bool.not_eq_false, Bool.or_eq_true, Bool.and_eq_true, decide_eq_true_eq] at hh
    rcases hh with (h | h) | h
    · linarith [h.1]
    · linarith [h.1]
    · linarith [h.1]
  refine ⟨c, ⟨-1 / 10, 49, 5⟩, ⟨1, 49, 5⟩, rfl, hsens, ?_, by norm_num [dist2], ?_⟩
  · refine ⟨1, 49, 5, ?_, ?_⟩
    · ext <;> simp [point, azimuth, hcdef, exampleLayer]
    · simp [hcdef, exampleLayer, Call.size]; norm_num
  rintro ⟨m, m0, m1, q', hq', hd, hw⟩
  have hm : m = 0 := by
    by_contra hm
    have := h123 m (by omega) m1 q' hq'
    simp only [dist2] at hd
    nlinarith [sq_nonneg (-1 / 10 - q'.x), sq_nonneg (5 - q'.z)]
  subst hm
  have hx := h0 q' hq'
  unfold distanceToNearestLadder distanceToNearest at hw
  rw [hn] at hw
  rw [if_neg (by simp), if_neg (by norm_num), detector_layer] at hw
  have hshell : (detector realPlanar (new 1 0 0 0 2 0) [c]).shellGap = 2 := rfl
  rw [hshell] at hw
  obtain ⟨h1, -, -⟩ := nearest_loop false 2 (by norm_num) (calls := [c]) (by simpa using hsens) ⟨-1 / 10, 49, 5⟩
  simp only [new, List.nil_append] at hw
  rcases h1 with h | ⟨q'', ⟨c', hc', i, hi, hri, hq''⟩, h⟩
  · rw [h] at hw
    have := congrArg V3.x hw
    simp [Vector3D.zero, Vector3D.sub] at this
    linarith
  · rw [h] at hw
    rw [List.mem_singleton.mp hc'] at hi hri hq''
    have hy := congrArg V3.y hw
    simp only [Vector3D.sub] at hy
    have hmr := moduleOf_range hi
    by_cases hi0 : i = 0
    · rw [hi0, hr] at hri; exact absurd hri (by simp)
    · have hmo : 1 ≤ moduleOf c.nLadders i := by
        unfold moduleOf; rw [if_neg hi0]; omega
      have := h123 _ hmo hmr.2 q'' hq''
      simp only [dist2] at hd
      nlinarith [sq_nonneg (-1 / 10 - q'.x), sq_nonneg (5 - q'.z)]

/-! ### C42: the first crossing of a straight line -/

/-- The result is the origin, which stands for "no intersection", or a point of the ray and of a volume. -/
theorem intersection_sound (P : Params ℝ) (hP : P.layer = []) (calls : List (Call ℝ)) (sens : Bool)
    (hg : 0 < P.shellGap) (hc : ∀ c ∈ calls, SensiblePos c sens ∧ 0 < (c.size sens).distance) (p v : V3 ℝ)
    {x : V3 ℝ} (hx : x = intersection realPlanar (detector realPlanar P calls) p v sens) :
    x = ⟨0, 0, 0⟩ ∨ x ∈ ray p v ∧ ∃ c ∈ calls, ∃ m, 0 ≤ m ∧ m < c.nLadders ∧ x ∈ volume c sens P.shellGap m := by
  obtain ⟨s1, s2⟩ := detector_shell realPlanar P calls
  unfold intersection at hx
  rw [s1, detector_layer, hP, List.nil_append] at hx
  obtain ⟨-, h2, -⟩ := cross_loop sens P.shellGap hg.le (fun c hcm => (hc c hcm).1) p v (⟨0, 0, 0⟩, 99999)
  rcases h2 with h | ⟨_, h⟩ | ⟨t, ⟨c, hcm, t0, ⟨i, hi, hv⟩, -⟩, h⟩
  · rw [h] at hx; exact Or.inl hx
  · rw [h] at hx; exact Or.inl hx
  · rw [h] at hx
    have hmr := moduleOf_range hi
    exact Or.inr ⟨⟨t, t0, hx⟩, c, hcm, _, hmr.1, hmr.2, by rw [hx]; exact hv⟩

/-- If the ray reaches, with z >= 0 and less than 99999 away, a volume that it does not start in, then the result is a
point of the ray and of a volume that is at most as far away.  Missing: the side of negative z, see the refutation, and
the case without a gap between the two sides. -/
theorem intersection_first_partial (P : Params ℝ) (hP : P.layer = []) (calls : List (Call ℝ)) (sens : Bool)
    (hg : 0 < P.shellGap) (hc : ∀ c ∈ calls, SensiblePos c sens ∧ 0 < (c.size sens).distance) (p v : V3 ℝ)
    {x : V3 ℝ} (hx : x = intersection realPlanar (detector realPlanar P calls) p v sens)
    {c : Call ℝ} (hcm : c ∈ calls) {m : ℤ} (hm0 : 0 ≤ m) (hm1 : m < c.nLadders) {q : V3 ℝ} (hq : q ∈ ray p v)
    (hqv : q ∈ volume c sens P.shellGap m) (hp : p ∉ volume c sens P.shellGap m) (hz : 0 ≤ q.z)
    (hfar : Real.sqrt (dist2 p q) < 99999) :
    x ∈ ray p v ∧ dist2 p x ≤ dist2 p q ∧
      ∃ c' ∈ calls, ∃ m', 0 ≤ m' ∧ m' < c'.nLadders ∧ x ∈ volume c' sens P.shellGap m' := by
  obtain ⟨s1, s2⟩ := detector_shell realPlanar P calls
  unfold intersection at hx
  rw [s1, detector_layer, hP, List.nil_append] at hx
  obtain ⟨-, h2, h3⟩ := cross_loop sens P.shellGap hg.le (fun c hcm => (hc c hcm).1) p v (⟨0, 0, 0⟩, 99999)
  obtain ⟨i, hi, rfl⟩ := moduleOf_surj hm0 hm1
  obtain ⟨t, t0, rfl⟩ := hq
  have hb := h3 t ⟨c, hcm, t0, i, hi, hqv, hz, hp⟩
  rcases h2 with h | ⟨ho, h⟩ | ⟨t', ⟨c', hcm', t0', ⟨i', hi', hv⟩, -⟩, h⟩
  · rw [h] at hb; exact absurd hfar (not_lt.mpr hb)
  · exfalso
    rcases ho with ho | ⟨c', hc', ho⟩
    · exact hg.ne' ho
    · exact absurd ho (not_le.mpr (hc c' hc').2)
  · rw [h] at hx hb
    have hmr := moduleOf_range hi'
    refine ⟨⟨t', t0', hx⟩, ?_, c', hcm', _, hmr.1, hmr.2, by rw [hx]; exact hv⟩
    rw [hx]
    exact (Real.sqrt_le_sqrt_iff (by unfold dist2; positivity)).mp hb

/-- From (0, 0, 5) in the direction of the x axis, the example's ladder is met at distance 1 at most. -/
example : let x := intersectionLadder realPlanar (detector realPlanar (new 1 0 0 0 2 0) [exampleLayer]) ⟨0, 0, 5⟩ ⟨1, 0, 0⟩
    dist2 ⟨0, 0, 5⟩ x ≤ 1 := by
  have hd : dist2 ⟨0, 0, 5⟩ ⟨1, 0, 5⟩ = 1 := by norm_num [dist2]
  have := (intersection_first_partial (new 1 0 0 0 2 0) rfl [exampleLayer] false (by simp [new])
    (by simp [SensiblePos, Sized, exampleLayer, Call.size]) ⟨0, 0, 5⟩ ⟨1, 0, 0⟩ rfl (c := exampleLayer) (by simp) (m := 0)
    (le_refl _) (by simp [exampleLayer]) (q := ⟨1, 0, 5⟩) ⟨1, by norm_num, by ext <;> norm_num⟩
    (exampleLayer_volume (by norm_num) (by norm_num) (by norm_num) (by norm_num) _) (by
      rintro ⟨h, u, z, e, h1, -⟩
      have := congrArg V3.x e
      simp [point, azimuth, exampleLayer, Call.size] at this h1
      linarith) (by norm_num) (by rw [hd]; simp)).2.1
  rw [hd] at this
  exact this

/-- On the side of negative z, a track in the transverse plane meets nothing. -/
theorem no_intersection_negative_z (P : Params ℝ) (hP : P.layer = []) (calls : List (Call ℝ)) (sens : Bool)
    (hg : 0 ≤ P.shellGap) (hc : ∀ c ∈ calls, SensiblePos c sens) (p v : V3 ℝ) (hz : p.z < 0) (hv : v.z = 0) :
    intersection realPlanar (detector realPlanar P calls) p v sens = ⟨0, 0, 0⟩ := by
  obtain ⟨s1, s2⟩ := detector_shell realPlanar P calls
  unfold intersection
  rw [s1, detector_layer, hP, List.nil_append]
  obtain ⟨-, h2, -⟩ := cross_loop sens P.shellGap hg hc p v (⟨0, 0, 0⟩, 99999)
  rcases h2 with h | ⟨_, h⟩ | ⟨t, ⟨c, hcm, t0, -, h' | h'⟩, h⟩
  · rw [h]
  · rw [h]
  · simp only [ray', hv] at h'
    linarith
  · exact absurd hv h'

/-- The first crossing is not found on the side of negative z: the ray of the example, mirrored. -/
theorem intersection_first_false : ∃ (c : Call ℝ) (p v q : V3 ℝ), SensiblePos c false ∧ 0 < c.ladder.distance ∧
    q ∈ ray p v ∧ q ∈ volume c false 2 0 ∧ p ∉ volume c false 2 0 ∧ dist2 p q = 1 ∧
    intersectionLadder realPlanar (detector realPlanar (new 1 0 0 0 2 0) [c]) p v = ⟨0, 0, 0⟩ ∧
    (⟨0, 0, 0⟩ : V3 ℝ) ∉ ray p v := by
  have hs : SensiblePos exampleLayer false := by simp [SensiblePos, Sized, exampleLayer, Call.size]
  refine ⟨exampleLayer, ⟨0, 0, -5⟩, ⟨1, 0, 0⟩, ⟨1, 0, -5⟩, hs, by simp [exampleLayer], ⟨1, by norm_num, by ext <;> norm_num⟩,
    exampleLayer_volume (by norm_num) (by norm_num) (by norm_num) (by norm_num) _, ?_, by norm_num [dist2], ?_, ?_⟩
  · rintro ⟨h, u, z, e, h1, -⟩
    have := congrArg V3.x e
    simp [point, azimuth, exampleLayer, Call.size] at this h1
    linarith
  · exact no_intersection_negative_z (new 1 0 0 0 2 0) rfl [exampleLayer] false (by simp [new]) (by simpa using hs)
      _ _ (by norm_num) rfl
  · rintro ⟨t, -, e⟩
    have := congrArg V3.z e
    norm_num at this

theorem crossFaces_le (p v : V3 ℝ) (b : Body ℝ) (zStart zEnd phi : ℝ) (best : Best ℝ) :
    (crossFaces realPlanar p v b zStart zEnd phi best).2 ≤
      (crossFace realPlanar p v ⟨b.d * (nBase realPlanar phi).x, b.d * (nBase realPlanar phi).y,
        b.d * (nBase realPlanar phi).z⟩ best ⟨b.d * (nBase realPlanar phi).x, b.d * (nBase realPlanar phi).y,
        b.d * (nBase realPlanar phi).z⟩ (nBase realPlanar phi) (nSide realPlanar phi) ⟨0, 0, 1⟩ b.left b.right zStart zEnd).2 := by
  have mono : ∀ (sp : V3 ℝ) (best : Best ℝ) (r n u w : V3 ℝ) (a1 a2 a3 a4 : ℝ),
      (crossFace realPlanar p v sp best r n u w a1 a2 a3 a4).2 ≤ best.2 := by
    intro sp best r n u w a1 a2 a3 a4
    unfold crossFace
    dsimp only
    split_ifs with h1 h2
    · exact h2.le
    · exact le_refl _
    · exact le_refl _
  unfold crossFaces
  dsimp only
  refine (mono _ _ _ _ _ _ _ _ _ _).trans ?_
  refine (mono _ _ _ _ _ _ _ _ _ _).trans ?_
  refine (mono _ _ _ _ _ _ _ _ _ _).trans ?_
  refine (mono _ _ _ _ _ _ _ _ _ _).trans ?_
  exact mono _ _ _ _ _ _ _ _ _ _

/-- Without a gap between the two sides, the origin may be returned although the ray meets a ladder. -/
theorem intersection_first_false_no_gap : ∃ (c : Call ℝ) (p v q : V3 ℝ), c.nLadders = 2 ∧ SensiblePos c false ∧
    0 < c.ladder.distance ∧ q ∈ ray p v ∧ q ∈ volume c false 0 1 ∧ (∀ m, 0 ≤ m → m < 2 → p ∉ volume c false 0 m) ∧
    0 ≤ q.z ∧ dist2 p q ≤ 9 ∧
    intersectionLadder realPlanar (detector realPlanar (new 1 0 0 0 0 0) [c]) p v = ⟨0, 0, 0⟩ := by
  have hpi := Real.pi_pos
  set c : Call ℝ := { exampleLayer with nLadders := 2 } with hcdef
  have hs : SensiblePos c false := by simp [SensiblePos, Sized, hcdef, exampleLayer, Call.size]
  have a1 : azimuth c 1 = pi := by simp [azimuth, hcdef, exampleLayer]
  have a0 : azimuth c 0 = 0 := by simp [azimuth, hcdef, exampleLayer]
  have hout : ∀ m : ℤ, 0 ≤ m → m < 2 → ∀ q ∈ volume c false 0 m, 1 ≤ |q.x| := by
    rintro m m0 m1 q ⟨h, u, z, rfl, h1, -⟩
    have h1' : 1 ≤ h := by simpa [hcdef, exampleLayer, Call.size] using h1
    have : m = 0 ∨ m = 1 := by omega
    rcases this with rfl | rfl
    · simp only [point, a0, Real.cos_zero, Real.sin_zero]
      rw [abs_of_nonneg (by linarith)]; linarith
    · simp only [point, a1, Real.cos_pi, Real.sin_pi]
      rw [abs_of_nonpos (by linarith)]; linarith
  refine ⟨c, ⟨1 / 2, 0, 1⟩, ⟨-1, 0, 0⟩, ⟨-1, 0, 1⟩, rfl, hs, by simp [hcdef, exampleLayer], ⟨3 / 2, by norm_num, ?_⟩, ?_, ?_,
    by norm_num, by norm_num [dist2], ?_⟩
  · ext <;> norm_num
  · refine ⟨1, 0, 1, ?_, ?_⟩
    · ext <;> simp [point, a1]
    · simp [hcdef, exampleLayer, Call.size]
  · intro m m0 m1 hm
    have := hout m m0 m1 _ hm
    rw [abs_of_nonneg (by norm_num)] at this
    norm_num at this
  · unfold intersectionLadder intersection
    rw [(detector_shell realPlanar _ _).1, detector_layer]
    have hgap : (new 1 0 0 0 0 0 : Params ℝ).shellGap = 0 := rfl
    have hlay : (new 1 0 0 0 0 0 : Params ℝ).layer = [] := rfl
    rw [hgap, hlay, List.nil_append]
    obtain ⟨-, h2, -⟩ := cross_loop false 0 (le_refl _) (calls := [c]) (by simpa using hs) ⟨1 / 2, 0, 1⟩ ⟨-1, 0, 0⟩
      (⟨0, 0, 0⟩, 99999)
    have hsmall : (([c].map stored).foldl (crossLayer realPlanar 0 false ⟨1 / 2, 0, 1⟩ ⟨-1, 0, 0⟩) (⟨0, 0, 0⟩, 99999)).2
        ≤ Real.sqrt (5 / 4) := by
      have mono : ∀ (b : Body ℝ) (zS zE phi : ℝ) (best : Best ℝ),
          (crossFaces realPlanar ⟨1 / 2, 0, 1⟩ ⟨-1, 0, 0⟩ b zS zE phi best).2 ≤ best.2 := by
        intro b zS zE phi best
        refine (crossFaces_le _ _ _ _ _ _ _).trans ?_
        unfold crossFace
        dsimp only
        split_ifs with h1 h2
        · exact h2.le
        · exact le_refl _
        · exact le_refl _
      simp only [List.map_cons, List.map_nil, List.foldl_cons, List.foldl_nil, crossLayer]
      refine (foldl_le _ (fun b i => mono _ _ _ _ b) _ _).trans ?_
      refine foldl_le_mem _ (fun b i _ => mono _ _ _ _ b) (x := 0) (by
        simp [stored, mkLayer, hcdef]) (fun b => ?_) _
      refine (crossFaces_le _ _ _ _ _ _ _).trans ?_
      have e : ladderPhi realPlanar (stored c) 0 = pi / 2 := by
        have : ladderPhi realPlanar (stored c) 0 = correctPhiRange realPlanar (pi / 2) := by
          simp [ladderPhi, stored, mkLayer, hcdef, exampleLayer]
        rw [this]
        rcases corr_cases (pi / 2) with ⟨h, _⟩ | ⟨_, h, _⟩ | ⟨_, _, h⟩
        · linarith
        · linarith
        · exact h
      have hd : (body 0 false (stored c)).d = 1 := by simp [body, stored, mkLayer, hcdef, exampleLayer]
      have hl : (body 0 false (stored c)).left = -1 := by simp [body, stored, mkLayer, hcdef, exampleLayer]
      have hr : (body 0 false (stored c)).right = 1 := by simp [body, stored, mkLayer, hcdef, exampleLayer]
      have hz : (body 0 false (stored c)).zEnd = 10 := by simp [body, stored, mkLayer, hcdef, exampleLayer]
      rw [e, hd, hl, hr, hz]
      have hnb : nBase realPlanar (pi / 2) = ⟨1, 0, 0⟩ := by simp [nBase]
      have hns : nSide realPlanar (pi / 2) = ⟨0, -1, 0⟩ := by simp [nSide]
      rw [hnb, hns]
      unfold crossFace
      have hpl : planeLineIntersection realPlanar (⟨1 * 1, 1 * 0, 1 * 0⟩ : V3 ℝ) ⟨1, 0, 0⟩ ⟨1 / 2, 0, 1⟩ ⟨-1, 0, 0⟩
          = ⟨0, 0, 0⟩ := by
        unfold planeLineIntersection
        norm_num
      dsimp only
      rw [hpl]
      have hbd : isEqualV (correctToBorderPoint (Vector3D.sub ⟨0, 0, 0⟩ (⟨1 * 1, 1 * 0, 1 * 0⟩ : V3 ℝ)) ⟨0, -1, 0⟩ ⟨0, 0, 1⟩
          (-1) 1 (0 / 2) 10) (Vector3D.sub ⟨0, 0, 0⟩ (⟨1 * 1, 1 * 0, 1 * 0⟩ : V3 ℝ)) = true := by
        unfold correctToBorderPoint
        norm_num [Vector3D.sub, isEqualV]
      rw [if_pos hbd, norm_sub]
      have hdist : dist2 ⟨1 / 2, 0, 1⟩ ⟨0, 0, 0⟩ = 5 / 4 := by norm_num [dist2]
      rw [hdist]
      split_ifs with h
      · exact le_refl _
      · exact not_lt.mp h
    have h54 : Real.sqrt (5 / 4) < 3 / 2 := by
      rw [show (3 / 2 : ℝ) = Real.sqrt ((3 / 2) ^ 2) by rw [Real.sqrt_sq (by norm_num)]]
      exact Real.sqrt_lt_sqrt (by norm_num) (by norm_num)
    rcases h2 with h | ⟨-, h⟩ | ⟨t, ⟨c', hc', t0, ⟨i, hi, hv⟩, -⟩, h⟩
    · rw [h]
    · rw [h]
    · exfalso
      rw [h] at hsmall
      rw [List.mem_singleton.mp hc'] at hi hv
      have hmr := moduleOf_range hi
      have hx := hout _ hmr.1 hmr.2 _ hv
      simp only [ray'] at hx
      have ht : 3 / 2 ≤ t := by
        rcases abs_cases (1 / 2 + t * (-1) : ℝ) with ⟨e, _⟩ | ⟨e, _⟩ <;> rw [e] at hx <;> linarith
      have hdd : dist2 ⟨1 / 2, 0, 1⟩ (ray' ⟨1 / 2, 0, 1⟩ ⟨-1, 0, 0⟩ t) = t ^ 2 := by simp only [dist2, ray']; ring
      simp only [hdd] at hsmall
      rw [Real.sqrt_sq t0] at hsmall
      linarith

/-! ### C43: the angles of the edges of the first ladder -/

/-- `a` is the angle of `p`, counted from the y axis towards the x axis, and on the side of the ladder's normal. -/
def AngleOf (c : Call ℝ) (a : ℝ) (p : V3 ℝ) : Prop :=
  ∃ r, 0 < r ∧ p.x = r * Real.sin a ∧ p.y = r * Real.cos a ∧ |a - (pi / 2 - c.phi0)| < pi / 2

theorem angleOf_atan (c : Call ℝ) {h : ℝ} (hh : 0 < h) (u z : ℝ) :
    AngleOf c (pi / 2 - c.phi0 - Real.arctan (u / h)) (point c.phi0 h u z) := by
  have hcos := Real.cos_arctan_pos (u / h)
  have hsin : Real.sin (Real.arctan (u / h)) = u / h * Real.cos (Real.arctan (u / h)) := by
    rw [← Real.tan_mul_cos hcos.ne', Real.tan_arctan]
  have hone := Real.sin_sq_add_cos_sq (Real.arctan (u / h))
  set b := Real.arctan (u / h) with hb
  have hu : h * Real.sin b = u * Real.cos b := by rw [hsin]; field_simp
  refine ⟨h / Real.cos b, by positivity, ?_, ?_, ?_⟩
  · have e : pi / 2 - c.phi0 - b = pi / 2 - (c.phi0 + b) := by ring
    rw [e, Real.sin_pi_div_two_sub, Real.cos_add]
    simp only [point]
    field_simp
    linear_combination Real.sin c.phi0 * hu
  · have e : pi / 2 - c.phi0 - b = pi / 2 - (c.phi0 + b) := by ring
    rw [e, Real.cos_pi_div_two_sub, Real.sin_add]
    simp only [point]
    field_simp
    linear_combination -Real.cos c.phi0 * hu
  · have e : pi / 2 - c.phi0 - b - (pi / 2 - c.phi0) = -b := by ring
    rw [e, abs_neg, abs_lt]
    exact ⟨by linarith [Real.neg_pi_div_two_lt_arctan (u / h)], Real.arctan_lt_pi_div_two _⟩

/-- The inner start and end angles are those of the edges of the inner face of the ladder or sensitive volume. -/
theorem inner_phi (P : Params ℝ) (hP : P.layer = []) (calls : List (Call ℝ)) {j : ℕ} {c : Call ℝ}
    (hc : calls[j]? = some c) (sens : Bool) (hd : 0 < (c.size sens).distance) (z : ℝ) :
    (∃ a, getStartInnerPhi realPlanar (detector realPlanar P calls).layer j sens = .ok (some a) ∧
      AngleOf c a (point c.phi0 (c.size sens).distance ((c.size sens).offset + (c.size sens).width / 2) z)) ∧
    ∃ a, getEndInnerPhi realPlanar (detector realPlanar P calls).layer j sens = .ok (some a) ∧
      AngleOf c a (point c.phi0 (c.size sens).distance ((c.size sens).offset - (c.size sens).width / 2) z) := by
  have hl := layerAt_ok realPlanar P hP calls hc sens
  constructor
  · refine ⟨_, ?_, angleOf_atan c hd ((c.size sens).offset + (c.size sens).width / 2) z⟩
    simp only [getStartInnerPhi, hl, Res.bind_ok, Res.pure_eq, startInnerPhi, mkLayer]
    rw [atanQuot_ne _ hd.ne']
    simp only [Option.map_some, rp_pi]
    rw [sub_eq_add_neg (pi / 2 - c.phi0), ← Real.arctan_neg]
    congr 4
    ring
  · refine ⟨_, ?_, angleOf_atan c hd ((c.size sens).offset - (c.size sens).width / 2) z⟩
    simp only [getEndInnerPhi, hl, Res.bind_ok, Res.pure_eq, endInnerPhi, mkLayer]
    rw [atanQuot_ne _ hd.ne']
    simp only [Option.map_some, rp_pi]
    rw [sub_eq_add_neg (pi / 2 - c.phi0), ← Real.arctan_neg]
    congr 4
    ring

/-- The outer start and end angles are those of the edges of the outer face, but of the other volume: with
`sensitive` set those of the ladder, without it those of the sensitive volume. -/
theorem outer_phi_swapped (P : Params ℝ) (hP : P.layer = []) (calls : List (Call ℝ)) {j : ℕ} {c : Call ℝ}
    (hc : calls[j]? = some c) (sens : Bool) (hd : 0 < (c.size !sens).distance + (c.size !sens).thickness) (z : ℝ) :
    (∃ a, getStartOuterPhi realPlanar (detector realPlanar P calls).layer j sens = .ok (some a) ∧
      AngleOf c a (point c.phi0 ((c.size !sens).distance + (c.size !sens).thickness)
        ((c.size !sens).offset + (c.size !sens).width / 2) z)) ∧
    ∃ a, getEndOuterPhi realPlanar (detector realPlanar P calls).layer j sens = .ok (some a) ∧
      AngleOf c a (point c.phi0 ((c.size !sens).distance + (c.size !sens).thickness)
        ((c.size !sens).offset - (c.size !sens).width / 2) z) := by
  have hl := layerAt_ok realPlanar P hP calls hc (!sens)
  constructor
  · refine ⟨_, ?_, angleOf_atan c hd ((c.size !sens).offset + (c.size !sens).width / 2) z⟩
    simp only [getStartOuterPhi, hl, Res.bind_ok, Res.pure_eq, startOuterPhi, mkLayer]
    rw [atanQuot_ne _ hd.ne']
    simp only [Option.map_some, rp_pi]
    congr 4
    rw [add_comm]
  · refine ⟨_, ?_, angleOf_atan c hd ((c.size !sens).offset - (c.size !sens).width / 2) z⟩
    simp only [getEndOuterPhi, hl, Res.bind_ok, Res.pure_eq, endOuterPhi, mkLayer]
    rw [atanQuot_ne _ hd.ne']
    simp only [Option.map_some, rp_pi]
    rw [sub_eq_add_neg (pi / 2 - c.phi0), ← Real.arctan_neg]
    congr 4
    ring

/-- So the outer angles are right if ladder and sensitive volume are described by the same numbers. -/
theorem outer_phi_partial (P : Params ℝ) (hP : P.layer = []) (calls : List (Call ℝ)) {j : ℕ} {c : Call ℝ}
    (hc : calls[j]? = some c) (sens : Bool) (hsame : c.ladder = c.sensitive)
    (hd : 0 < (c.size sens).distance + (c.size sens).thickness) (z : ℝ) :
    (∃ a, getStartOuterPhi realPlanar (detector realPlanar P calls).layer j sens = .ok (some a) ∧
      AngleOf c a (point c.phi0 ((c.size sens).distance + (c.size sens).thickness)
        ((c.size sens).offset + (c.size sens).width / 2) z)) ∧
    ∃ a, getEndOuterPhi realPlanar (detector realPlanar P calls).layer j sens = .ok (some a) ∧
      AngleOf c a (point c.phi0 ((c.size sens).distance + (c.size sens).thickness)
        ((c.size sens).offset - (c.size sens).width / 2) z) := by
  have e : c.size (!sens) = c.size sens := by cases sens <;> simp [Call.size, hsame]
  have := outer_phi_swapped P hP calls hc sens (by rw [e]; exact hd) z
  rwa [e] at this

example : ∃ a, getStartInnerPhi realPlanar (detector realPlanar (new 1 0 0 0 2 0) [exampleLayer]).layer ((0 : ℕ) : ℤ) true
    = .ok (some a) ∧ AngleOf exampleLayer a (point 0 1 1 0) := by
  have := (inner_phi (new 1 0 0 0 2 0) rfl [exampleLayer] (j := 0) rfl true (by simp [exampleLayer, Call.size]) 0).1
  simpa [exampleLayer, Call.size] using this

/-- The angle of a point is unique. -/
theorem AngleOf.cross {c : Call ℝ} {a : ℝ} {p q : V3 ℝ} (h1 : AngleOf c a p) (h2 : AngleOf c a q) :
    p.x * q.y = p.y * q.x := by
  obtain ⟨r, -, hx, hy, -⟩ := h1
  obtain ⟨r', -, hx', hy', -⟩ := h2
  rw [hx, hy, hx', hy']; ring

/-- The outer angle of the sensitive volumes is wrong for a ladder of width 2 with a sensitive width of 1. -/
theorem outer_phi_false : ∃ c : Call ℝ, 0 < c.sensitive.distance ∧ 0 < c.sensitive.thickness ∧
    ∀ a, getStartOuterPhi realPlanar (detector realPlanar (new 1 0 0 0 2 0) [c]).layer ((0 : ℕ) : ℤ) true = .ok (some a) →
      ¬ AngleOf c a (point c.phi0 (c.sensitive.distance + c.sensitive.thickness)
        (c.sensitive.offset + c.sensitive.width / 2) 0) := by
  refine ⟨{ exampleLayer with sensitive := ⟨1, 0, 1, 10, 1, 1⟩ }, by simp, by simp, ?_⟩
  intro a ha hA
  obtain ⟨a', ha', hA'⟩ := (outer_phi_swapped (new 1 0 0 0 2 0) rfl [{ exampleLayer with sensitive := ⟨1, 0, 1, 10, 1, 1⟩ }]
    (j := 0) rfl true (by simp [exampleLayer, Call.size]) 0).1
  rw [ha] at ha'
  have : a = a' := by simpa using ha'
  subst this
  have := hA.cross hA'
  simp [point, exampleLayer, Call.size] at this

/-! ### C92: the largest distance from the beam line -/

/-- `getMaxRadius` is the largest distance from the z axis of the points of a ladder or sensitive volume. -/
theorem max_radius (P : Params ℝ) (hP : P.layer = []) (calls : List (Call ℝ)) {j : ℕ} {c : Call ℝ}
    (hc : calls[j]? = some c) (sens : Bool) (hd : 0 ≤ (c.size sens).distance) (hs : Sized (c.size sens)) {gap : ℝ}
    (hg : 0 ≤ gap) (m : ℤ) :
    ∃ r, getMaxRadius realPlanar (detector realPlanar P calls).layer j sens = .ok r ∧ 0 ≤ r
      ∧ (∀ p ∈ volume c sens gap m, p.x ^ 2 + p.y ^ 2 ≤ r ^ 2)
      ∧ ∃ p ∈ volume c sens gap m, p.x ^ 2 + p.y ^ 2 = r ^ 2 := by
  have hl := layerAt_ok realPlanar P hP calls hc sens
  obtain ⟨hT, hW, hL⟩ := hs
  set s := c.size sens with hsdef
  have hsq : ∀ h u z, (point (azimuth c m) h u z).x ^ 2 + (point (azimuth c m) h u z).y ^ 2 = h ^ 2 + u ^ 2 := by
    intro h u z
    have := Real.sin_sq_add_cos_sq (azimuth c m)
    simp only [point]
    linear_combination (h ^ 2 + u ^ 2) * this
  refine ⟨Real.sqrt ((s.distance + s.thickness) * (s.distance + s.thickness)
    + (s.width / 2 + |s.offset|) * (s.width / 2 + |s.offset|)), ?_, Real.sqrt_nonneg _, ?_, ?_⟩
  · simp only [getMaxRadius, hl, Res.bind_ok, Res.pure_eq, maxRadius, mkLayer, rp_sqrt]
  · rintro p ⟨h, u, z, rfl, h1, h2, h3, h4, -⟩
    rw [hsq, Real.sq_sqrt (by positivity)]
    have hu : |u| ≤ s.width / 2 + |s.offset| := by
      rw [abs_le]
      exact ⟨by linarith [neg_abs_le s.offset], by linarith [le_abs_self s.offset]⟩
    have hu2 : u ^ 2 ≤ (s.width / 2 + |s.offset|) ^ 2 := by
      rw [← sq_abs u]
      exact pow_le_pow_left₀ (abs_nonneg _) hu 2
    have hh2 : h ^ 2 ≤ (s.distance + s.thickness) ^ 2 := pow_le_pow_left₀ (by linarith) h2 2
    linarith
  · refine ⟨point (azimuth c m) (s.distance + s.thickness)
      (if 0 ≤ s.offset then s.offset + s.width / 2 else s.offset - s.width / 2) (gap / 2),
      ⟨_, _, _, rfl, by linarith, le_refl _, ?_, ?_, ?_, ?_⟩, ?_⟩
    · split_ifs <;> linarith
    · split_ifs <;> linarith
    · rw [abs_of_nonneg (by linarith)]
    · rw [abs_of_nonneg (by linarith)]; linarith
    · rw [hsq, Real.sq_sqrt (by positivity)]
      split_ifs with h
      · rw [abs_of_nonneg h]; ring
      · rw [abs_of_neg (not_le.mp h)]; ring

example : ∃ r, getMaxRadius realPlanar (detector realPlanar (new 1 0 0 0 2 0) [exampleLayer]).layer ((0 : ℕ) : ℤ) false = .ok r
    ∧ 0 ≤ r ∧ ∃ p ∈ volume exampleLayer false 2 3, p.x ^ 2 + p.y ^ 2 = r ^ 2 := by
  obtain ⟨r, h1, h2, -, h4⟩ := max_radius (new 1 0 0 0 2 0) rfl [exampleLayer] (j := 0) rfl false
    (by simp [exampleLayer, Call.size]) (by simp [Sized, exampleLayer, Call.size]) (gap := 2) (by norm_num) 3
  exact ⟨r, h1, h2, h4⟩

/-! ### C91: the thickness seen under an angle -/

/-- The points of the first ladder's cross section that the ray from the beam line under the angle `phi`, counted from
the y axis towards the x axis, passes. -/
def Passes (c : Call ℝ) (s : Size ℝ) (phi t : ℝ) : Prop :=
  ∃ h u, t * Real.sin phi = (point c.phi0 h u 0).x ∧ t * Real.cos phi = (point c.phi0 h u 0).y ∧ s.distance ≤ h
    ∧ h ≤ s.distance + s.thickness ∧ s.offset - s.width / 2 ≤ u ∧ u ≤ s.offset + s.width / 2

theorem passes_up {c : Call ℝ} (hc : c.phi0 = pi / 2) (s : Size ℝ) (phi t : ℝ) :
    Passes c s phi t ↔ s.distance ≤ t * Real.cos phi ∧ t * Real.cos phi ≤ s.distance + s.thickness
      ∧ -s.width / 2 - s.offset ≤ t * Real.sin phi ∧ t * Real.sin phi ≤ s.width / 2 - s.offset := by
  unfold Passes
  simp only [hc, point, Real.cos_pi_div_two, Real.sin_pi_div_two]
  constructor
  · rintro ⟨h, u, e1, e2, h1, h2, h3, h4⟩
    have e1' : t * Real.sin phi = -u := by rw [e1]; ring
    have e2' : t * Real.cos phi = h := by rw [e2]; ring
    rw [e1', e2']
    exact ⟨h1, h2, by linarith, by linarith⟩
  · rintro ⟨h1, h2, h3, h4⟩
    exact ⟨t * Real.cos phi, -(t * Real.sin phi), by ring, by ring, h1, h2, by linarith, by linarith⟩

/-- The value of `getThicknessForPhi` for equal sizes of ladder and sensitive volume. -/
theorem thickness_value (P : Params ℝ) (hP : P.layer = []) (calls : List (Call ℝ)) {j : ℕ} {c : Call ℝ}
    (hc : calls[j]? = some c) (sens : Bool) (hsame : c.ladder = c.sensitive) {s : Size ℝ} (hs : s = c.size sens)
    (hd : s.distance ≠ 0) (hD' : s.distance + s.thickness ≠ 0) (phi : ℝ) :
    getThicknessForPhi realPlanar (detector realPlanar P calls).layer j phi sens
      = (if phi < (pi / 2 - c.phi0) + Real.arctan ((-s.width / 2 - s.offset) / s.distance)
          ∨ (pi / 2 - c.phi0) + Real.arctan ((s.width / 2 - s.offset) / s.distance) < phi then .ok (-1)
        else if (pi / 2 - c.phi0) - Real.arctan ((s.width / 2 + s.offset) / (s.distance + s.thickness)) ≤ phi
          ∧ phi ≤ (pi / 2 - c.phi0) + Real.arctan ((s.width / 2 - s.offset) / (s.distance + s.thickness))
        then .ok (s.thickness / Real.cos phi)
        else .ok ((s.width / 2 - s.offset - s.distance * Real.tan phi) / Real.sin phi)) := by
  have hl := layerAt_ok realPlanar P hP calls hc sens
  have hl' := layerAt_ok realPlanar P hP calls hc (!sens)
  have e : c.size (!sens) = c.size sens := by cases sens <;> simp [Call.size, hsame]
  rw [e, ← hs] at hl'
  rw [← hs] at hl
  have q1 : startInnerPhi realPlanar (mkLayer realPlanar c.nLadders c.phi0 s)
      = some ((pi / 2 - c.phi0) + Real.arctan ((-s.width / 2 - s.offset) / s.distance)) := by
    unfold startInnerPhi; simp only [mkLayer]; rw [atanQuot_ne _ hd]; rfl
  have q2 : endInnerPhi realPlanar (mkLayer realPlanar c.nLadders c.phi0 s)
      = some ((pi / 2 - c.phi0) + Real.arctan ((s.width / 2 - s.offset) / s.distance)) := by
    unfold endInnerPhi; simp only [mkLayer]; rw [atanQuot_ne _ hd]; rfl
  have q3 : startOuterPhi realPlanar (mkLayer realPlanar c.nLadders c.phi0 s)
      = some ((pi / 2 - c.phi0) - Real.arctan ((s.width / 2 + s.offset) / (s.distance + s.thickness))) := by
    unfold startOuterPhi; simp only [mkLayer]; rw [atanQuot_ne _ hD']; rfl
  have q4 : endOuterPhi realPlanar (mkLayer realPlanar c.nLadders c.phi0 s)
      = some ((pi / 2 - c.phi0) + Real.arctan ((s.width / 2 - s.offset) / (s.distance + s.thickness))) := by
    unfold endOuterPhi; simp only [mkLayer]; rw [atanQuot_ne _ hD']; rfl
  simp only [getThicknessForPhi, getStartInnerPhi, getEndInnerPhi, getStartOuterPhi, getEndOuterPhi, hl, hl',
    Res.bind_ok, Res.pure_eq, q1, q2, q3, q4, ltO, leO, Bool.or_eq_true, Bool.and_eq_true, decide_eq_true_eq]
  rfl

/-- For a first ladder at the top, with the same sizes of ladder and sensitive volume and an angle that is not
in the corner of the start edge: the result is the length of the part of the ray that lies in the ladder, and -1 if the
ray misses it.  Missing: other positions of the first ladder, different sizes, and the corner of the start edge; see
the refutations. -/
theorem thickness_partial (P : Params ℝ) (hP : P.layer = []) (calls : List (Call ℝ)) {j : ℕ} {c : Call ℝ}
    (hc : calls[j]? = some c) (sens : Bool) (hsame : c.ladder = c.sensitive) (hphi0 : c.phi0 = pi / 2)
    (hd : 0 < (c.size sens).distance) (hs : Sized (c.size sens)) (ho : |(c.size sens).offset| ≤ (c.size sens).width / 2)
    {phi : ℝ} (h1 : -(pi / 2) < phi) (h2 : phi < pi / 2)
    (hcorner : -Real.arctan (((c.size sens).width / 2 + (c.size sens).offset)
      / ((c.size sens).distance + (c.size sens).thickness)) ≤ phi) :
    (∃ a b, a ≤ b ∧ (∀ t, 0 ≤ t → (Passes c (c.size sens) phi t ↔ a ≤ t ∧ t ≤ b))
      ∧ getThicknessForPhi realPlanar (detector realPlanar P calls).layer j phi sens = .ok (b - a))
    ∨ (∀ t, 0 ≤ t → ¬ Passes c (c.size sens) phi t)
      ∧ getThicknessForPhi realPlanar (detector realPlanar P calls).layer j phi sens = .ok (-1) := by
  obtain ⟨hT, hW, hL⟩ := hs
  simp only [passes_up hphi0]
  set s := c.size sens with hsdef
  have hD' : 0 < s.distance + s.thickness := by linarith
  obtain ⟨ho1, ho2⟩ := abs_le.mp ho
  have hleft : -s.width / 2 - s.offset ≤ 0 := by linarith
  have hright : 0 ≤ s.width / 2 - s.offset := by linarith
  have hcos : 0 < Real.cos phi := Real.cos_pos_of_mem_Ioo ⟨h1, h2⟩
  have htan : Real.sin phi = Real.tan phi * Real.cos phi := (Real.tan_mul_cos hcos.ne').symm
  have harc : Real.arctan (Real.tan phi) = phi := Real.arctan_tan h1 h2
  have hlt : ∀ x, Real.arctan x < phi ↔ x < Real.tan phi := by
    intro x; rw [← harc, Real.arctan_strictMono.lt_iff_lt, harc]
  have hgt : ∀ x, phi < Real.arctan x ↔ Real.tan phi < x := by
    intro x; rw [← harc, Real.arctan_strictMono.lt_iff_lt, harc]
  have hval := thickness_value P hP calls hc sens hsame hsdef hd.ne' hD'.ne' phi
  rw [hphi0, sub_self] at hval
  simp only [zero_add, zero_sub] at hval
  simp only [hlt, hgt] at hval
  have hc1 : -(s.width / 2 + s.offset) / (s.distance + s.thickness) ≤ Real.tan phi := by
    by_contra hh
    rw [not_le, ← hgt, neg_div, Real.arctan_neg] at hh
    linarith
  rw [div_le_iff₀ hD'] at hc1
  rw [hval]
  by_cases hin : Real.tan phi < (-s.width / 2 - s.offset) / s.distance ∨ (s.width / 2 - s.offset) / s.distance < Real.tan phi
  · right
    rw [if_pos hin]
    refine ⟨?_, rfl⟩
    rintro t t0 ⟨a1, a2, a3, a4⟩
    rw [htan] at a3 a4
    set h := t * Real.cos phi with hh
    have e1 : t * (Real.tan phi * Real.cos phi) = h * Real.tan phi := by rw [hh]; ring
    rw [e1] at a3 a4
    rcases hin with hin | hin
    · rw [lt_div_iff₀ hd] at hin
      have : Real.tan phi < 0 := by by_contra hn; nlinarith [not_lt.mp hn]
      nlinarith
    · rw [div_lt_iff₀ hd] at hin
      have : 0 < Real.tan phi := by by_contra hn; nlinarith [not_lt.mp hn]
      nlinarith
  · left
    rw [if_neg hin]
    rw [not_or, not_lt, not_lt, div_le_iff₀ hd, le_div_iff₀ hd] at hin
    obtain ⟨i1, i2⟩ := hin
    by_cases hmid : -Real.arctan ((s.width / 2 + s.offset) / (s.distance + s.thickness)) ≤ phi
        ∧ phi ≤ Real.arctan ((s.width / 2 - s.offset) / (s.distance + s.thickness))
    · rw [if_pos hmid]
      have hm2 : Real.tan phi * (s.distance + s.thickness) ≤ s.width / 2 - s.offset := by
        have := hmid.2
        rw [← not_lt, hlt, not_lt, le_div_iff₀ hD'] at this
        exact this
      refine ⟨s.distance / Real.cos phi, (s.distance + s.thickness) / Real.cos phi, ?_, ?_, ?_⟩
      · gcongr; linarith
      · intro t t0
        rw [div_le_iff₀ hcos, le_div_iff₀ hcos]
        constructor
        · rintro ⟨a1, a2, -, -⟩; exact ⟨a1, a2⟩
        · rintro ⟨a1, a2⟩
          refine ⟨a1, a2, ?_, ?_⟩
          · rw [htan]
            have e1 : t * (Real.tan phi * Real.cos phi) = (t * Real.cos phi) * Real.tan phi := by ring
            rw [e1]
            by_cases hn : 0 ≤ Real.tan phi
            · nlinarith
            · nlinarith [not_le.mp hn]
          · rw [htan]
            have e1 : t * (Real.tan phi * Real.cos phi) = (t * Real.cos phi) * Real.tan phi := by ring
            rw [e1]
            by_cases hn : 0 ≤ Real.tan phi
            · nlinarith
            · nlinarith [not_le.mp hn]
      · congr 1; ring
    · rw [if_neg hmid]
      have hm2 : s.width / 2 - s.offset < Real.tan phi * (s.distance + s.thickness) := by
        by_contra hn
        apply hmid
        refine ⟨hcorner, ?_⟩
        rw [← not_lt, hlt, not_lt, le_div_iff₀ hD']
        exact not_lt.mp hn
      have ht0 : 0 < Real.tan phi := by by_contra hn; nlinarith [not_lt.mp hn]
      have hsin : 0 < Real.sin phi := by rw [htan]; positivity
      refine ⟨s.distance / Real.cos phi, (s.width / 2 - s.offset) / Real.sin phi, ?_, ?_, ?_⟩
      · rw [div_le_div_iff₀ hcos hsin, htan]; nlinarith
      · intro t t0
        rw [div_le_iff₀ hcos, le_div_iff₀ hsin]
        constructor
        · rintro ⟨a1, -, -, a4⟩; exact ⟨a1, a4⟩
        · rintro ⟨a1, a4⟩
          refine ⟨a1, ?_, ?_, a4⟩
          · rw [htan] at a4
            have e1 : t * (Real.tan phi * Real.cos phi) = (t * Real.cos phi) * Real.tan phi := by ring
            rw [e1] at a4
            by_contra hn
            nlinarith [not_le.mp hn]
          · have : 0 ≤ t * Real.sin phi := by positivity
            linarith
      · congr 1
        rw [sub_div, htan]
        field_simp

/-- The example turned so that its first ladder is at the top. -/
noncomputable def topLayer : Call ℝ := { exampleLayer with phi0 := pi / 2 }

/-- Straight up, the example's ladder is hit. -/
example : (∃ a b, a ≤ b ∧ (∀ t, 0 ≤ t → (Passes topLayer (topLayer.size false) 0 t ↔ a ≤ t ∧ t ≤ b))
      ∧ getThicknessForPhi realPlanar (detector realPlanar (new 1 0 0 0 2 0) [topLayer]).layer ((0 : ℕ) : ℤ) 0 false = .ok (b - a))
    ∨ (∀ t, 0 ≤ t → ¬ Passes topLayer (topLayer.size false) 0 t)
      ∧ getThicknessForPhi realPlanar (detector realPlanar (new 1 0 0 0 2 0) [topLayer]).layer ((0 : ℕ) : ℤ) 0 false = .ok (-1) := by
  have hpi := Real.pi_pos
  refine thickness_partial (new 1 0 0 0 2 0) rfl [topLayer] (j := 0) rfl false rfl rfl ?_ ?_ ?_ (by linarith) (by linarith) ?_
  · simp [topLayer, exampleLayer, Call.size]
  · simp [Sized, topLayer, exampleLayer, Call.size]
  · simp [topLayer, exampleLayer, Call.size]
  · simp only [topLayer, exampleLayer, Call.size]
    rw [neg_nonpos, ← Real.arctan_zero]
    exact Real.arctan_mono (by norm_num)

/-- In the corner of the start edge the result is negative, and not -1, although the ray passes the ladder. -/
theorem thickness_false_corner : ∃ phi t r, -(pi / 2) < phi ∧ phi < pi / 2 ∧ 0 ≤ t ∧
    Passes topLayer (topLayer.size false) phi t ∧ r < -1 ∧
    getThicknessForPhi realPlanar (detector realPlanar (new 1 0 0 0 2 0) [topLayer]).layer ((0 : ℕ) : ℤ) phi false = .ok r := by
  have hcos := Real.cos_arctan_pos (-3 / 4)
  have htan := Real.tan_arctan (-3 / 4)
  have hsin : Real.sin (Real.arctan (-3 / 4)) = -3 / 4 * Real.cos (Real.arctan (-3 / 4)) := by
    rw [← Real.tan_mul_cos hcos.ne', htan]
  have hone := Real.sin_sq_add_cos_sq (Real.arctan (-3 / 4))
  have hc : Real.cos (Real.arctan (-3 / 4)) = 4 / 5 := by
    rw [hsin] at hone
    nlinarith
  have hs : Real.sin (Real.arctan (-3 / 4)) = -3 / 5 := by rw [hsin, hc]; norm_num
  refine ⟨Real.arctan (-3 / 4), 5 / 4, -35 / 12, Real.neg_pi_div_two_lt_arctan _, Real.arctan_lt_pi_div_two _, by norm_num,
    ?_, by norm_num, ?_⟩
  · rw [passes_up rfl, hc, hs]
    simp [topLayer, exampleLayer, Call.size]
    norm_num
  · rw [thickness_value (new 1 0 0 0 2 0) rfl [topLayer] (j := 0) (c := topLayer) rfl false rfl (s := ⟨1, 0, 1, 10, 2, 1⟩) rfl
      (by norm_num) (by norm_num)]
    have h0 : pi / 2 - topLayer.phi0 = 0 := by simp [topLayer]
    rw [h0, if_neg, if_neg]
    · rw [htan, hs]; norm_num
    · rintro ⟨h, -⟩
      rw [zero_sub, ← Real.arctan_neg, Real.arctan_strictMono.le_iff_le] at h
      norm_num at h
    · rintro (h | h) <;> rw [zero_add, Real.arctan_strictMono.lt_iff_lt] at h <;> norm_num at h

/-- For a first ladder at 30 degrees the result is twice the thickness that a ray along its normal passes. -/
theorem thickness_false_turned : ∃ c : Call ℝ, c.ladder = c.sensitive ∧ c.phi0 = pi / 6 ∧
    (∀ t, 0 ≤ t → (Passes c (c.size false) (pi / 3) t ↔ 1 ≤ t ∧ t ≤ 2)) ∧
    getThicknessForPhi realPlanar (detector realPlanar (new 1 0 0 0 2 0) [c]).layer ((0 : ℕ) : ℤ) (pi / 3) false = .ok 2 := by
  have hpi := Real.pi_pos
  refine ⟨{ exampleLayer with phi0 := pi / 6 }, rfl, rfl, ?_, ?_⟩
  · intro t t0
    have hone := Real.sin_sq_add_cos_sq (pi / 6)
    have e : pi / 3 = pi / 2 - pi / 6 := by ring
    have es : Real.sin (pi / 3) = Real.cos (pi / 6) := by rw [e, Real.sin_pi_div_two_sub]
    have ec : Real.cos (pi / 3) = Real.sin (pi / 6) := by rw [e, Real.cos_pi_div_two_sub]
    unfold Passes
    simp only [exampleLayer, Call.size, point, es, ec, Bool.false_eq_true, if_false]
    constructor
    · rintro ⟨h, u, e1, e2, h1, h2, -⟩
      have : t = h := by linear_combination Real.cos (pi / 6) * e1 + Real.sin (pi / 6) * e2 - (t - h) * hone
      rw [this]; exact ⟨h1, by linarith⟩
    · rintro ⟨h1, h2⟩
      exact ⟨t, 0, by ring, by ring, h1, by linarith, by norm_num, by norm_num⟩
  · rw [thickness_value (new 1 0 0 0 2 0) rfl [{ exampleLayer with phi0 := pi / 6 }] (j := 0)
      (c := { exampleLayer with phi0 := pi / 6 }) rfl false rfl (s := ⟨1, 0, 1, 10, 2, 1⟩) rfl (by norm_num) (by norm_num)]
    have e : pi / 2 - pi / 6 = pi / 3 := by ring
    have k1 : Real.arctan ((-2 / 2 - 0) / 1) < 0 := by
      rw [← Real.arctan_zero]; exact Real.arctan_strictMono (by norm_num)
    have k2 : 0 < Real.arctan ((2 / 2 - 0) / 1) := by
      rw [← Real.arctan_zero]; exact Real.arctan_strictMono (by norm_num)
    have k3 : 0 < Real.arctan ((2 / 2 + 0) / (1 + 1)) := by
      rw [← Real.arctan_zero]; exact Real.arctan_strictMono (by norm_num)
    have k4 : 0 < Real.arctan ((2 / 2 - 0) / (1 + 1)) := by
      rw [← Real.arctan_zero]; exact Real.arctan_strictMono (by norm_num)
    simp only [e]
    rw [if_neg, if_pos]
    · rw [Real.cos_pi_div_three]; norm_num
    · exact ⟨by linarith, by linarith⟩
    · rintro (h | h) <;> linarith

end Gear.ZPlanar
