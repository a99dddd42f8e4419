/-
Lemmas about `isPointInLadder` of the planar vertex detector.
-/
import Verif.ZPlanarLemmas

set_option autoImplicit false
set_option linter.unusedSectionVars false

namespace Gear.ZPlanar

open Vector3D (V3)
open Real (pi)
open Spec

theorem atanQuot_ne (a : ℝ) {b : ℝ} (h : b ≠ 0) : atanQuot realPlanar a b = some (Real.arctan (a / b)) := by
  unfold atanQuot; rw [if_neg h]; rfl

theorem body_stored (gap : ℝ) (sens : Bool) (c : Call ℝ) : body gap sens (stored c) =
    { zEnd := (c.size sens).length + gap / 2
      left := -(c.size sens).width / 2 - (c.size sens).offset
      right := (c.size sens).width / 2 - (c.size sens).offset
      thick := (c.size sens).thickness
      d := (c.size sens).distance } := by
  unfold body; rw [stored_sel]; rfl

/-- If the code reports a ladder, the point is in the volume up to the tolerance. -/
theorem ladderHit_sound (c : Call ℝ) (hN : 0 < c.nLadders) (sens : Bool) {gap : ℝ} (hg : 0 ≤ gap)
    (hW : 0 ≤ (c.size sens).width) (hL : 0 ≤ (c.size sens).length) (hT : 0 ≤ (c.size sens).thickness)
    {p : V3 ℝ} {i : ℕ} (h : ladderHit realPlanar gap sens p (stored c) i = true) :
    ∃ q ∈ volume c sens gap (moduleOf c.nLadders i), (0 ≤ p.z → 0 ≤ q.z) ∧ (p.z < 0 → q.z ≤ 0)
      ∧ |p.x - q.x| ≤ EPSILON * (5 + 3 * (c.size sens).thickness)
      ∧ |p.y - q.y| ≤ EPSILON * (5 + 3 * (c.size sens).thickness)
      ∧ |p.z - q.z| ≤ EPSILON * (5 + 3 * (c.size sens).thickness) := by
  unfold ladderHit at h
  simp only [stored_sel] at h
  by_cases hr : isInRange (Option.map (fun a => correctPhiRange realPlanar
      (a + i * (2 * realPlanar.pi / (stored c).1.NLadders) - EPSILON))
      (startInnerPhi realPlanar (mkLayer realPlanar c.nLadders c.phi0 (c.size sens))))
    (Option.map (fun a => correctPhiRange realPlanar (a + i * (2 * realPlanar.pi / (stored c).1.NLadders) + EPSILON))
      (endInnerPhi realPlanar (mkLayer realPlanar c.nLadders c.phi0 (c.size sens))))
    (getPhiPoint realPlanar p) = false
  · rw [if_pos hr] at h; cases h
  · rw [if_neg hr] at h
    set phi := ladderPhi realPlanar (stored c) i with hphi
    set b := body gap sens (stored c) with hb
    have hpl := loc_coords phi p
    set hh := p.x * Real.sin phi + p.y * Real.cos phi with hhh
    set ss := p.x * Real.cos phi - p.y * Real.sin phi with hss
    rw [hit_vector b gap phi hh ss p hpl] at h
    set e : ℝ := if p.z < 0 then -1 else 1 with he
    set gU := clamp ss b.left b.right with hgU
    set gV := clamp |p.z| (gap / 2) b.zEnd with hgV
    set w := Vector3D.sub (loc phi b.d gU (e * gV)) p with hw
    simp only [Bool.and_eq_true] at h
    obtain ⟨⟨⟨h1, h2⟩, h3⟩, h4⟩ := h
    obtain ⟨hc0, b1, b2, b3⟩ := norm_bounds w
    set cc := norm realPlanar w with hcc
    have hbl : b.left = -(c.size sens).width / 2 - (c.size sens).offset := by
      rw [hb, body_stored]
    have hbr : b.right = (c.size sens).width / 2 - (c.size sens).offset := by
      rw [hb, body_stored]
    have hbz : b.zEnd = (c.size sens).length + gap / 2 := by
      rw [hb, body_stored]
    have hbt : b.thick = (c.size sens).thickness := by
      rw [hb, body_stored]
    have hbd : b.d = (c.size sens).distance := by
      rw [hb, body_stored]
    have gU1 := clamp_mem (x := ss) (show b.left ≤ b.right by rw [hbl, hbr]; linarith)
    have gV1 := clamp_mem (x := |p.z|) (show gap / 2 ≤ b.zEnd by rw [hbz]; linarith)
    rw [← hgU] at gU1
    rw [← hgV] at gV1
    have hgV0 : 0 ≤ gV := by linarith [gV1.1]
    have heg : |e * gV| = gV := by
      rw [abs_mul, abs_of_nonneg hgV0, he]; split_ifs <;> simp
    have heps := eps_pos
    have e1 := comp_bound hc0 (show |(nBase realPlanar phi).x| ≤ 1 from Real.abs_sin_le_one phi) b1 h1
    have e2 := comp_bound hc0 (show |(nBase realPlanar phi).y| ≤ 1 from Real.abs_cos_le_one phi) b2 h2
    have e3 := comp_bound hc0 (show |(nBase realPlanar phi).z| ≤ 1 by simp [nBase]) b3 h3
    set T := (c.size sens).thickness with hTT
    -- the height of the corrected point above the inner face
    obtain ⟨m, hm0, hmT, hmc, hcm⟩ : ∃ m, 0 ≤ m ∧ m ≤ T ∧ m ≤ cc ∧
        EPSILON * (2 + cc) + (cc - m) ≤ EPSILON * (5 + 3 * T) := by
      have hE : (EPSILON : ℝ) = 1 / 10000 := rfl
      rw [hbt] at h4
      by_cases hct : cc ≤ T
      · exact ⟨cc, hc0, hct, le_refl _, by rw [hE]; linarith⟩
      · have hct' := not_le.mp hct
        refine ⟨T, hT, le_refl _, hct'.le, ?_⟩
        have := isEqual_bound ((Bool.or_eq_true _ _ ▸ h4).resolve_left (by simpa using hct))
        rw [abs_of_pos (by linarith), abs_of_nonneg hc0, abs_of_nonneg hT] at this
        rw [hE] at this ⊢
        linarith
    refine ⟨loc phi (b.d + m) gU (e * gV), ?_, ?_, ?_, ?_, ?_, ?_⟩
    · refine ⟨b.d + m, -gU, e * gV, ?_, ?_, ?_, ?_, ?_, ?_, ?_⟩
      · rw [hphi]; exact loc_point c hN i _ _ _
      · rw [hbd]; linarith
      · rw [hbd]; linarith
      · rw [hbr] at gU1; linarith [gU1.2]
      · rw [hbl] at gU1; linarith [gU1.1]
      · rw [heg]; exact gV1.1
      · rw [heg]; linarith [gV1.2]
    · intro hz; simp only [loc, he, if_neg (not_lt.mpr hz)]; linarith
    · intro hz; simp only [loc, he, if_pos hz]; linarith
    · have : p.x - (loc phi (b.d + m) gU (e * gV)).x
          = -(w.x + cc * (nBase realPlanar phi).x) + (cc - m) * Real.sin phi := by
        rw [hw]; simp only [Vector3D.sub, loc, nBase, rp_sin]; ring
      rw [this]
      refine (abs_add_le _ _).trans ?_
      rw [abs_neg, abs_mul, abs_of_nonneg (by linarith : (0 : ℝ) ≤ cc - m)]
      have := Real.abs_sin_le_one phi
      nlinarith
    · have : p.y - (loc phi (b.d + m) gU (e * gV)).y
          = -(w.y + cc * (nBase realPlanar phi).y) + (cc - m) * Real.cos phi := by
        rw [hw]; simp only [Vector3D.sub, loc, nBase, rp_cos]; ring
      rw [this]
      refine (abs_add_le _ _).trans ?_
      rw [abs_neg, abs_mul, abs_of_nonneg (by linarith : (0 : ℝ) ≤ cc - m)]
      have := Real.abs_cos_le_one phi
      nlinarith
    · have : p.z - (loc phi (b.d + m) gU (e * gV)).z = -(w.z + cc * (nBase realPlanar phi).z) := by
        rw [hw]; simp only [Vector3D.sub, loc, nBase]; ring
      rw [this, abs_neg]
      linarith

/-- The angle of a point of a volume is in the range of its ladder. -/
theorem angle_complete (c : Call ℝ) (hN : 0 < c.nLadders) (hN' : c.nLadders ≤ 60000) (hphi0 : 0 ≤ c.phi0)
    (hphi1 : c.phi0 ≤ 2 * pi) (S : Size ℝ) (hD : 0 < S.distance) {p : V3 ℝ} (hax : ¬ (p.x = 0 ∧ p.y ≤ 0)) {i : ℕ}
    (hi : i < c.nLadders.toNat) {phi h u : ℝ} (hphi : phi = ladderPhi realPlanar (stored c) i)
    (hloc : p = loc phi h (-u) p.z) (h1 : S.distance ≤ h) (ho1 : -(S.width / 2) ≤ S.offset)
    (ho2 : S.offset ≤ S.width / 2) (h3 : S.offset - S.width / 2 ≤ u) (h4 : u ≤ S.offset + S.width / 2) :
     isInRange (Option.map (fun a => correctPhiRange realPlanar
          (a + i * (2 * realPlanar.pi / (stored c).1.NLadders) - EPSILON))
          (startInnerPhi realPlanar (mkLayer realPlanar c.nLadders c.phi0 S)))
        (Option.map (fun a => correctPhiRange realPlanar
          (a + i * (2 * realPlanar.pi / (stored c).1.NLadders) + EPSILON))
          (endInnerPhi realPlanar (mkLayer realPlanar c.nLadders c.phi0 S)))
        (getPhiPoint realPlanar p) = true := by
  have hpi := Real.pi_pos
  have hpi3 := Real.pi_gt_three
  have hpi4 := Real.pi_lt_four
  have hhpos : 0 < h := by linarith
  have hrad : p.x * p.x + p.y * p.y = -u * -u + h * h := by
    have := loc_radius phi h (-u) p.z; rwa [← hloc] at this
  set R := Real.sqrt (p.x * p.x + p.y * p.y) with hR
  have hRpos : 0 < R := by rw [hR, hrad]; exact Real.sqrt_pos.mpr (by nlinarith)
  have heps := eps_pos
  have hE : (EPSILON : ℝ) = 1 / 10000 := rfl
  obtain ⟨f, hf, f1, f2, f3, f4⟩ := getPhiPoint_spec hax
  rw [hf]
  have hs : startInnerPhi realPlanar (mkLayer realPlanar c.nLadders c.phi0 S)
      = some (pi / 2 - c.phi0 + Real.arctan ((-S.width / 2 - S.offset) / S.distance)) := by
    unfold startInnerPhi; simp only [mkLayer]; rw [atanQuot_ne _ hD.ne']; rfl
  have he : endInnerPhi realPlanar (mkLayer realPlanar c.nLadders c.phi0 S)
      = some (pi / 2 - c.phi0 + Real.arctan ((S.width / 2 - S.offset) / S.distance)) := by
    unfold endInnerPhi; simp only [mkLayer]; rw [atanQuot_ne _ hD.ne']; rfl
  rw [hs, he]
  simp only [Option.map_some]
  have hNN : (stored c).1.NLadders = c.nLadders := rfl
  rw [hNN, rp_pi]
  set D := 2 * pi / (c.nLadders : ℝ) with hDD
  have hNr : (0 : ℝ) < c.nLadders := by exact_mod_cast hN
  have hNr' : (c.nLadders : ℝ) ≤ 60000 := by exact_mod_cast hN'
  have hND : (c.nLadders : ℝ) * D = 2 * pi := by rw [hDD]; field_simp
  have hDpos : 0 < D := by positivity
  have hDe : EPSILON ≤ D := by
    rw [hDD, le_div_iff₀ hNr, hE]; linarith
  have hiD : (i : ℝ) * D ≤ 2 * pi - D := by
    have : ((i : ℤ) : ℝ) ≤ ((c.nLadders - 1 : ℤ) : ℝ) := by
      apply Int.cast_le.mpr; omega
    push_cast at this; nlinarith
  have hiD0 : 0 ≤ (i : ℝ) * D := by positivity
  have a1 := Real.neg_pi_div_two_lt_arctan ((-S.width / 2 - S.offset) / S.distance)
  have a2 := Real.arctan_lt_pi_div_two ((S.width / 2 - S.offset) / S.distance)
  have a3 := Real.neg_pi_div_two_lt_arctan ((S.width / 2 - S.offset) / S.distance)
  have a4 := Real.arctan_lt_pi_div_two ((-S.width / 2 - S.offset) / S.distance)
  have m1 : Real.arctan ((-S.width / 2 - S.offset) / S.distance) ≤ Real.arctan (-u / h) := by
    apply Real.arctan_mono
    rw [div_le_div_iff₀ hD hhpos]
    nlinarith
  have m2 : Real.arctan (-u / h) ≤ Real.arctan ((S.width / 2 - S.offset) / S.distance) := by
    apply Real.arctan_mono
    rw [div_le_div_iff₀ hhpos hD]
    nlinarith
  set a := pi / 2 - c.phi0 + i * D + Real.arctan (-u / h) with ha
  obtain ⟨k, hk⟩ : ∃ k : ℤ, f = a - 2 * pi * k := by
    obtain ⟨l1, l2⟩ := loc_polar phi (-u) p.z hhpos
    rw [← hloc, ← hrad, ← hR] at l1 l2
    have hsc : Real.sin (phi + Real.arctan (-u / h)) = Real.sin a
        ∧ Real.cos (phi + Real.arctan (-u / h)) = Real.cos a := by
      rw [ha, Real.sin_add, Real.cos_add, Real.sin_add (pi / 2 - c.phi0 + i * D),
        Real.cos_add (pi / 2 - c.phi0 + i * D), hphi]
      unfold ladderPhi
      rw [corr_sin, corr_cos]
      exact ⟨rfl, rfl⟩
    rw [hsc.1] at l1
    rw [hsc.2] at l2
    exact angle_turns hRpos.ne' (by rw [← f3, ← l1]) (by rw [← f4, ← l2])
  refine isInRange_of (a := a) (k := k) ?_ ?_ ?_ ?_ ?_ f1 f2 hk
  · rw [hE]; linarith
  · linarith
  · rw [ha]; linarith
  · rw [ha]; linarith
  · rw [hE]; linarith

/-- A point of a volume is reported, if the angles stay in the range that the code can correct. -/
theorem ladderHit_complete (c : Call ℝ) (hN : 0 < c.nLadders) (hN' : c.nLadders ≤ 60000) (hphi0 : 0 ≤ c.phi0)
    (hphi1 : c.phi0 ≤ 2 * pi) (sens : Bool) {gap : ℝ} (hD : 0 < (c.size sens).distance)
    (hO : |(c.size sens).offset| ≤ (c.size sens).width / 2) {p : V3 ℝ} (hax : ¬ (p.x = 0 ∧ p.y ≤ 0)) {i : ℕ}
    (hi : i < c.nLadders.toNat) (h : p ∈ volume c sens gap (moduleOf c.nLadders i)) :
    ladderHit realPlanar gap sens p (stored c) i = true ∧ skipLayer realPlanar gap sens p (stored c) = false := by
  obtain ⟨h, u, z, hp, h1, h2, h3, h4, h5, h6⟩ := h
  set S := c.size sens with hS
  set phi := ladderPhi realPlanar (stored c) i with hphi
  have hpi := Real.pi_pos
  have hpi3 := Real.pi_gt_three
  have hpi4 := Real.pi_lt_four
  have hhpos : 0 < h := by linarith
  obtain ⟨ho1, ho2⟩ := abs_le.mp hO
  have hz : p.z = z := by rw [hp]; rfl
  have hloc : p = loc phi h (-u) p.z := by
    rw [hphi, loc_point c hN, neg_neg, hz]; exact hp
  have hrad : p.x * p.x + p.y * p.y = -u * -u + h * h := by
    have := loc_radius phi h (-u) p.z; rwa [← hloc] at this
  set R := Real.sqrt (p.x * p.x + p.y * p.y) with hR
  have hRpos : 0 < R := by rw [hR, hrad]; exact Real.sqrt_pos.mpr (by nlinarith)
  have hRh : h ≤ R := by
    rw [hR, hrad]; exact Real.le_sqrt_of_sq_le (by nlinarith)
  have heps := eps_pos
  have hE : (EPSILON : ℝ) = 1 / 10000 := rfl
  constructor
  · unfold ladderHit
    simp only [stored_sel]
    -- the angle
    have hrange := angle_complete c hN hN' hphi0 hphi1 S hD hax hi hphi hloc h1 ho1 ho2 h3 h4
    rw [if_neg (by rw [hrange]; simp)]
    rw [hit_vector (body gap sens (stored c)) gap phi h (-u) p hloc]
    have hbl : (body gap sens (stored c)).left = -S.width / 2 - S.offset := by
      rw [body_stored]
    have hbr : (body gap sens (stored c)).right = S.width / 2 - S.offset := by
      rw [body_stored]
    have hbz : (body gap sens (stored c)).zEnd = S.length + gap / 2 := by
      rw [body_stored]
    have hbt : (body gap sens (stored c)).thick = S.thickness := by
      rw [body_stored]
    have hbd : (body gap sens (stored c)).d = S.distance := by
      rw [body_stored]
    rw [hbl, hbr, hbz, hbt, hbd, clamp_of_mem (by linarith) (by linarith), hz,
      clamp_of_mem h5 (by linarith)]
    have hw : Vector3D.sub (loc phi S.distance (-u) ((if z < 0 then -1 else 1) * |z|)) p
        = ⟨-(h - S.distance) * Real.sin phi, -(h - S.distance) * Real.cos phi, 0⟩ := by
      have : (if z < 0 then (-1 : ℝ) else 1) * |z| = z := by
        split_ifs with hz0
        · rw [abs_of_neg hz0]; ring
        · rw [abs_of_nonneg (not_lt.mp hz0)]; ring
      rw [this]
      conv_lhs => rw [hloc]
      simp only [Vector3D.sub, loc, hz]
      ext <;> simp only <;> ring
    rw [hw]
    have hn : norm realPlanar ⟨-(h - S.distance) * Real.sin phi, -(h - S.distance) * Real.cos phi, 0⟩
        = h - S.distance := by
      unfold norm; simp only [rp_sqrt]
      rw [show -(h - S.distance) * Real.sin phi * (-(h - S.distance) * Real.sin phi)
          + -(h - S.distance) * Real.cos phi * (-(h - S.distance) * Real.cos phi) + 0 * 0
          = (h - S.distance) ^ 2 by linear_combination (h - S.distance) ^ 2 * Real.sin_sq_add_cos_sq phi]
      exact Real.sqrt_sq (by linarith)
    rw [hn]
    have : h - S.distance ≤ S.thickness := by linarith
    simp [nBase, ← hphi, isEqual_self, this]
  · unfold skipLayer
    simp only [stored_sel, Bool.or_eq_false_iff, decide_eq_false_iff_not, not_lt, rp_sqrt]
    rw [← hR, hz]
    refine ⟨⟨?_, ?_⟩, ?_⟩
    · show S.distance - EPSILON ≤ R; linarith
    · unfold maxRadius
      simp only [rp_sqrt]
      have : R ≤ Real.sqrt ((S.distance + S.thickness) * (S.distance + S.thickness)
          + (S.width / 2 + |S.offset|) * (S.width / 2 + |S.offset|)) := by
        rw [hR]; apply Real.sqrt_le_sqrt; rw [hrad]
        have h7 : |u| ≤ S.width / 2 + |S.offset| := by
          rw [abs_le]; constructor <;> linarith [le_abs_self S.offset, neg_abs_le S.offset]
        have h8 := abs_mul_abs_self u
        have h9 := abs_nonneg u
        nlinarith
      show R ≤ Real.sqrt _ + EPSILON
      simp only [mkLayer]
      linarith
    · show |z| ≤ S.length + gap / 2 + EPSILON; linarith

/-- The loop reports a layer and a ladder for which the test succeeds. -/
theorem pointLoop_sound {gap : ℝ} {sens : Bool} {p : V3 ℝ} {calls : List (Call ℝ)} {k : ℕ} {id : SensorID}
    (h : pointLoop realPlanar gap sens p k (calls.map stored) = some id) :
    ∃ (j i : ℕ) (c : Call ℝ), calls[j]? = some c ∧ i < c.nLadders.toNat ∧ id.layer = k + j
      ∧ id.side = (if p.z ≥ 0 then 1 else -1) ∧ id.module = moduleOf c.nLadders i ∧ id.sensor = 0
      ∧ ladderHit realPlanar gap sens p (stored c) i = true := by
  induction calls generalizing k with
  | nil => simp [pointLoop] at h
  | cons c cs ih =>
    simp only [List.map_cons, pointLoop] at h
    have next : pointLoop realPlanar gap sens p (k + 1) (cs.map stored) = some id →
        ∃ (j i : ℕ) (c' : Call ℝ), (c :: cs)[j]? = some c' ∧ i < c'.nLadders.toNat ∧ id.layer = k + j
          ∧ id.side = (if p.z ≥ 0 then 1 else -1) ∧ id.module = moduleOf c'.nLadders i ∧ id.sensor = 0
          ∧ ladderHit realPlanar gap sens p (stored c') i = true := fun h' => by
      obtain ⟨j, i, c', h1, h2, h3, h4⟩ := ih h'
      exact ⟨j + 1, i, c', by simpa using h1, h2, by rw [h3]; push_cast; ring, h4⟩
    by_cases hs : skipLayer realPlanar gap sens p (stored c) = true
    · rw [if_pos hs] at h; exact next h
    · rw [if_neg hs] at h
      cases hf : (List.range (stored c).1.NLadders.toNat).find? (ladderHit realPlanar gap sens p (stored c)) with
      | none => rw [hf] at h; exact next h
      | some i =>
        rw [hf] at h
        have h1 := List.find?_some hf
        have h2 := List.mem_range.mp (List.mem_of_find?_eq_some hf)
        simp only [Option.some.injEq] at h
        subst h
        exact ⟨0, i, c, rfl, h2, by simp, rfl, rfl, rfl, h1⟩

/-- The loop finds a ladder if there is one for which the tests succeed. -/
theorem pointLoop_complete {gap : ℝ} {sens : Bool} {p : V3 ℝ} {calls : List (Call ℝ)} (k : ℕ) {c : Call ℝ}
    (hc : c ∈ calls) {i : ℕ} (hi : i < c.nLadders.toNat)
    (h1 : ladderHit realPlanar gap sens p (stored c) i = true)
    (h2 : skipLayer realPlanar gap sens p (stored c) = false) :
    (pointLoop realPlanar gap sens p k (calls.map stored)).isSome = true := by
  induction calls generalizing k with
  | nil => simp at hc
  | cons d cs ih =>
    simp only [List.map_cons, pointLoop]
    by_cases hs : skipLayer realPlanar gap sens p (stored d) = true
    · rw [if_pos hs]
      rcases List.mem_cons.mp hc with rfl | hc'
      · rw [h2] at hs; cases hs
      · exact ih _ hc'
    · rw [if_neg hs]
      cases hf : (List.range (stored d).1.NLadders.toNat).find? (ladderHit realPlanar gap sens p (stored d)) with
      | some i => rfl
      | none =>
        rcases List.mem_cons.mp hc with rfl | hc'
        · have := List.find?_eq_none.mp hf i (List.mem_range.mpr hi)
          exact absurd h1 this
        · exact ih _ hc'

end Gear.ZPlanar
