/-
Lemmas about `intersectionLadder` of the planar vertex detector.
-/
import Verif.ZPlanarNear

set_option autoImplicit false
set_option linter.unusedSectionVars false

namespace Gear.ZPlanar

open Vector3D (V3)
open Real (pi)
open Spec

/-- The scalar product. -/
def dt (a b : V3 ℝ) : ℝ := a.x * b.x + a.y * b.y + a.z * b.z

/-- The point of a ray. -/
def ray' (p v : V3 ℝ) (t : ℝ) : V3 ℝ := ⟨p.x + t * v.x, p.y + t * v.y, p.z + t * v.z⟩

/-- The plane of the face is crossed at `t`, not touched along the ray. -/
def Crosses (p v sp n u w : V3 ℝ) (dl minU maxU minV maxV t : ℝ) : Prop :=
  0 ≤ t ∧ dt n v ≠ 0 ∧ dt (Vector3D.sub (ray' p v t) sp) n = dl
    ∧ minU ≤ dt (Vector3D.sub (ray' p v t) sp) u ∧ dt (Vector3D.sub (ray' p v t) sp) u ≤ maxU
    ∧ minV ≤ dt (Vector3D.sub (ray' p v t) sp) w ∧ dt (Vector3D.sub (ray' p v t) sp) w ≤ maxV

theorem isEqualV_border {n u w : V3 ℝ} (f : Frame n u w) (x : V3 ℝ) (minU maxU minV maxV : ℝ) :
    isEqualV (correctToBorderPoint x u w minU maxU minV maxV) x = true ↔
      minU ≤ dt x u ∧ dt x u ≤ maxU ∧ minV ≤ dt x w ∧ dt x w ≤ maxV := by
  unfold correctToBorderPoint
  dsimp only
  have eu : x.x * u.x + x.y * u.y + x.z * u.z = dt x u := rfl
  have ew : x.x * w.x + x.y * w.y + x.z * w.z = dt x w := rfl
  rw [eu, ew]
  by_cases h : dt x u < minU ∨ dt x u > maxU ∨ dt x w < minV ∨ dt x w > maxV
  · rw [if_pos h]
    constructor
    · intro he
      exfalso
      obtain ⟨h1, h2, h3⟩ := of_decide_eq_true he
      dsimp only at h1 h2 h3
      generalize hg1 : (if dt x u > maxU then maxU else if dt x u < minU then minU else dt x u) = g1 at *
      generalize hg2 : (if dt x w > maxV then maxV else if dt x w < minV then minV else dt x w) = g2 at *
      have e1 : g1 = dt x u := by
        rw [← eu, ← h1, ← h2, ← h3]; linear_combination -g1 * f.uu - g2 * f.uv
      have e2 : g2 = dt x w := by
        rw [← ew, ← h1, ← h2, ← h3]; linear_combination -g1 * f.uv - g2 * f.vv
      rw [e1] at hg1
      rw [e2] at hg2
      have c1 : minU ≤ dt x u ∧ dt x u ≤ maxU := by
        by_cases k1 : dt x u > maxU
        · rw [if_pos k1] at hg1; linarith
        · rw [if_neg k1] at hg1
          by_cases k2 : dt x u < minU
          · rw [if_pos k2] at hg1; linarith
          · exact ⟨not_lt.mp k2, not_lt.mp k1⟩
      have c2 : minV ≤ dt x w ∧ dt x w ≤ maxV := by
        by_cases k1 : dt x w > maxV
        · rw [if_pos k1] at hg2; linarith
        · rw [if_neg k1] at hg2
          by_cases k2 : dt x w < minV
          · rw [if_pos k2] at hg2; linarith
          · exact ⟨not_lt.mp k2, not_lt.mp k1⟩
      rcases h with h | h | h | h
      · linarith [c1.1]
      · linarith [c1.2]
      · linarith [c2.1]
      · linarith [c2.2]
    · rintro ⟨k1, k2, k3, k4⟩
      rcases h with h | h | h | h <;> linarith
  · rw [if_neg h]
    push Not at h
    exact ⟨fun _ => ⟨h.1, h.2.1, h.2.2.1, h.2.2.2⟩, fun _ => by simp [isEqualV]⟩

theorem planeLine_eq {n u w : V3 ℝ} (f : Frame n u w) (sp p v r : V3 ℝ) (dl : ℝ) (hr : dt r n = dt sp n + dl) :
    (planeLineIntersection realPlanar r n p v = ⟨0, 0, 0⟩ ∧
        ∀ t, 0 ≤ t → dt n v ≠ 0 → dt (Vector3D.sub (ray' p v t) sp) n ≠ dl)
    ∨ ∃ t, 0 ≤ t ∧ dt n v ≠ 0 ∧ planeLineIntersection realPlanar r n p v = ray' p v t
        ∧ dt (Vector3D.sub (ray' p v t) sp) n = dl
        ∧ ∀ t', dt (Vector3D.sub (ray' p v t') sp) n = dl → t' = t := by
  unfold planeLineIntersection
  dsimp only
  rw [f.nn]
  simp only [rp_sqrt, Real.sqrt_one, div_one]
  have e0 : r.x * n.x + r.y * n.y + r.z * n.z = dt sp n + dl := hr
  have e1 : n.x * v.x + n.y * v.y + n.z * v.z = dt n v := rfl
  rw [e0, e1]
  have lin : ∀ t, dt (Vector3D.sub (ray' p v t) sp) n
      = t * dt n v + (n.x * p.x + n.y * p.y + n.z * p.z) - dt sp n := by
    intro t; simp only [dt, Vector3D.sub, ray']; ring
  set a := n.x * p.x + n.y * p.y + n.z * p.z with ha
  have e2 : dt sp n + dl - n.x * p.x - n.y * p.y - n.z * p.z = dt sp n + dl - a := by rw [ha]; ring
  rw [e2]
  by_cases h0 : dt n v = 0
  · rw [if_pos h0]
    exact Or.inl ⟨rfl, fun t _ h => absurd h0 h⟩
  · rw [if_neg h0]
    have uniq : ∀ t', dt (Vector3D.sub (ray' p v t') sp) n = dl → t' = (dt sp n + dl - a) / dt n v := by
      intro t' h
      rw [lin] at h
      rw [eq_div_iff h0]; linarith
    by_cases h1 : (dt sp n + dl - a) / dt n v < 0
    · rw [if_pos h1]
      refine Or.inl ⟨rfl, fun t ht _ h => ?_⟩
      rw [uniq t h] at ht; linarith
    · rw [if_neg h1]
      refine Or.inr ⟨(dt sp n + dl - a) / dt n v, not_lt.mp h1, h0, rfl, ?_, uniq⟩
      rw [lin, div_mul_cancel₀ _ h0]; ring

/-- What trying a face does. -/
theorem crossFace_spec {n u w : V3 ℝ} (f : Frame n u w) (sp p v r : V3 ℝ) (dl : ℝ) (hr : dt r n = dt sp n + dl)
    (best : Best ℝ) (minU maxU minV maxV : ℝ) :
    (crossFace realPlanar p v sp best r n u w minU maxU minV maxV).2 ≤ best.2 ∧
    (crossFace realPlanar p v sp best r n u w minU maxU minV maxV = best
      ∨ (minU ≤ -dt sp u ∧ -dt sp u ≤ maxU ∧ minV ≤ -dt sp w ∧ -dt sp w ≤ maxV
          ∧ crossFace realPlanar p v sp best r n u w minU maxU minV maxV = (⟨0, 0, 0⟩, Real.sqrt (dist2 p ⟨0, 0, 0⟩)))
      ∨ ∃ t, Crosses p v sp n u w dl minU maxU minV maxV t ∧
          crossFace realPlanar p v sp best r n u w minU maxU minV maxV
            = (ray' p v t, Real.sqrt (dist2 p (ray' p v t)))) ∧
    (∀ t, Crosses p v sp n u w dl minU maxU minV maxV t →
      (crossFace realPlanar p v sp best r n u w minU maxU minV maxV).2 ≤ Real.sqrt (dist2 p (ray' p v t))) := by
  unfold crossFace
  dsimp only
  rcases planeLine_eq f sp p v r dl hr with ⟨h1, h2⟩ | ⟨t, h1, h2, h3, h4, h5⟩
  · rw [h1, norm_sub]
    refine ⟨?_, ?_, ?_⟩
    · split_ifs with a b
      · exact b.le
      · exact le_refl _
      · exact le_refl _
    · by_cases a : isEqualV (correctToBorderPoint (Vector3D.sub ⟨0, 0, 0⟩ sp) u w minU maxU minV maxV)
          (Vector3D.sub ⟨0, 0, 0⟩ sp) = true
      · rw [if_pos a]
        by_cases b : Real.sqrt (dist2 p ⟨0, 0, 0⟩) < best.2
        · rw [if_pos b]
          obtain ⟨k1, k2, k3, k4⟩ := (isEqualV_border f _ _ _ _ _).mp a
          have eu : dt (Vector3D.sub ⟨0, 0, 0⟩ sp) u = -dt sp u := by simp only [dt, Vector3D.sub]; ring
          have ew : dt (Vector3D.sub ⟨0, 0, 0⟩ sp) w = -dt sp w := by simp only [dt, Vector3D.sub]; ring
          rw [eu] at k1 k2
          rw [ew] at k3 k4
          exact Or.inr (Or.inl ⟨k1, k2, k3, k4, rfl⟩)
        · rw [if_neg b]; exact Or.inl rfl
      · rw [if_neg a]; exact Or.inl rfl
    · rintro t ⟨c1, c2, c3, -⟩
      exact absurd c3 (h2 t c1 c2)
  · rw [h3, norm_sub]
    refine ⟨?_, ?_, ?_⟩
    · split_ifs with a b
      · exact b.le
      · exact le_refl _
      · exact le_refl _
    · by_cases a : isEqualV (correctToBorderPoint (Vector3D.sub (ray' p v t) sp) u w minU maxU minV maxV)
          (Vector3D.sub (ray' p v t) sp) = true
      · rw [if_pos a]
        by_cases b : Real.sqrt (dist2 p (ray' p v t)) < best.2
        · rw [if_pos b]
          obtain ⟨k1, k2, k3, k4⟩ := (isEqualV_border f _ _ _ _ _).mp a
          exact Or.inr (Or.inr ⟨t, ⟨h1, h2, h4, k1, k2, k3, k4⟩, rfl⟩)
        · rw [if_neg b]; exact Or.inl rfl
      · rw [if_neg a]; exact Or.inl rfl
    · rintro t' ⟨c1, c2, c3, c4⟩
      obtain rfl := h5 t' c3
      rw [if_pos ((isEqualV_border f _ _ _ _ _).mpr c4)]
      split_ifs with b
      · exact le_refl _
      · exact not_lt.mp b

/-! A ladder -/

/-- The point reached from the ladder's coordinates. -/
theorem ray_loc (phi h s vh vs : ℝ) {p v : V3 ℝ} (hp : p = loc phi h s p.z) (hv : v = loc phi vh vs v.z) (t : ℝ) :
    ray' p v t = loc phi (h + t * vh) (s + t * vs) (p.z + t * v.z) := by
  have e1 : p.x = (loc phi h s p.z).x := by rw [← hp]
  have e2 : p.y = (loc phi h s p.z).y := by rw [← hp]
  have e3 : v.x = (loc phi vh vs v.z).x := by rw [← hv]
  have e4 : v.y = (loc phi vh vs v.z).y := by rw [← hv]
  ext
  · show p.x + t * v.x = _
    rw [e1, e3]; simp only [loc]; ring
  · show p.y + t * v.y = _
    rw [e2, e4]; simp only [loc]; ring
  · rfl

/-- The space point of a ladder. -/
noncomputable def spacePt (phi d : ℝ) : V3 ℝ :=
  ⟨d * (nBase realPlanar phi).x, d * (nBase realPlanar phi).y, d * (nBase realPlanar phi).z⟩

theorem dt_base (phi d h s z : ℝ) : dt (Vector3D.sub (loc phi h s z) (spacePt phi d)) (nBase realPlanar phi) = h - d := by
  have := Real.sin_sq_add_cos_sq phi
  simp only [dt, Vector3D.sub, loc, spacePt, nBase, rp_sin, rp_cos]
  linear_combination (h - d) * this

theorem dt_side (phi d h s z : ℝ) : dt (Vector3D.sub (loc phi h s z) (spacePt phi d)) (nSide realPlanar phi) = s := by
  have := Real.sin_sq_add_cos_sq phi
  simp only [dt, Vector3D.sub, loc, spacePt, nBase, nSide, rp_sin, rp_cos]
  linear_combination s * this

theorem dt_z (phi d h s z : ℝ) : dt (Vector3D.sub (loc phi h s z) (spacePt phi d)) ⟨0, 0, 1⟩ = z := by
  simp only [dt, Vector3D.sub, loc, spacePt, nBase]; ring

theorem dt_sp (phi d : ℝ) : dt (spacePt phi d) (nBase realPlanar phi) = d
    ∧ dt (spacePt phi d) (nSide realPlanar phi) = 0 ∧ dt (spacePt phi d) ⟨0, 0, 1⟩ = 0 := by
  have := Real.sin_sq_add_cos_sq phi
  simp only [dt, spacePt, nBase, nSide, rp_sin, rp_cos]
  refine ⟨by linear_combination d * this, by ring, by ring⟩

/-- The ray meets a face of a box with the given bounds at `t` without being parallel to it; coordinates along the
normal, the side and the beam. -/
def Meets (h s z vh vs vz d thick left right zStart zEnd t : ℝ) : Prop :=
  0 ≤ t ∧ (d ≤ h + t * vh ∧ h + t * vh ≤ d + thick) ∧ (left ≤ s + t * vs ∧ s + t * vs ≤ right)
    ∧ (zStart ≤ z + t * vz ∧ z + t * vz ≤ zEnd)
    ∧ ((vh ≠ 0 ∧ (h + t * vh = d ∨ h + t * vh = d + thick)) ∨ (vs ≠ 0 ∧ (s + t * vs = left ∨ s + t * vs = right))
      ∨ (vz ≠ 0 ∧ (z + t * vz = zStart ∨ z + t * vz = zEnd)))

/-- The ray meets the front or back face. -/
def MeetsZ (h s z vh vs vz d thick left right zStart zEnd t : ℝ) : Prop :=
  0 ≤ t ∧ (d ≤ h + t * vh ∧ h + t * vh ≤ d + thick) ∧ (left ≤ s + t * vs ∧ s + t * vs ≤ right)
    ∧ vz ≠ 0 ∧ (z + t * vz = zStart ∨ z + t * vz = zEnd)

/-- One step of the search, with what it may take, whether the origin may be taken, and what it has to take. -/
def Step (p v : V3 ℝ) (can : ℝ → Prop) (origin : Prop) (must : ℝ → Prop) (best best' : Best ℝ) : Prop :=
  best'.2 ≤ best.2 ∧
  (best' = best ∨ (origin ∧ best' = (⟨0, 0, 0⟩, Real.sqrt (dist2 p ⟨0, 0, 0⟩)))
    ∨ ∃ t, can t ∧ best' = (ray' p v t, Real.sqrt (dist2 p (ray' p v t)))) ∧
  ∀ t, must t → best'.2 ≤ Real.sqrt (dist2 p (ray' p v t))

theorem Step.trans {p v : V3 ℝ} {c1 c2 c : ℝ → Prop} {o1 o2 o : Prop} {m1 m2 m : ℝ → Prop} {b0 b1 b2 : Best ℝ}
    (h1 : Step p v c1 o1 m1 b0 b1) (h2 : Step p v c2 o2 m2 b1 b2) (k1 : ∀ t, c1 t → c t) (k2 : ∀ t, c2 t → c t)
    (k3 : o1 → o) (k4 : o2 → o) (k5 : ∀ t, m t → m1 t ∨ m2 t) : Step p v c o m b0 b2 := by
  obtain ⟨a1, a2, a3⟩ := h1
  obtain ⟨d1, d2, d3⟩ := h2
  refine ⟨d1.trans a1, ?_, ?_⟩
  · rcases d2 with e | ⟨e1, e2⟩ | ⟨t, e1, e2⟩
    · rw [e]
      rcases a2 with e' | ⟨e1, e2⟩ | ⟨t, e1, e2⟩
      · exact Or.inl e'
      · exact Or.inr (Or.inl ⟨k3 e1, e2⟩)
      · exact Or.inr (Or.inr ⟨t, k1 t e1, e2⟩)
    · exact Or.inr (Or.inl ⟨k4 e1, e2⟩)
    · exact Or.inr (Or.inr ⟨t, k2 t e1, e2⟩)
  · intro t ht
    rcases k5 t ht with h | h
    · exact d1.trans (a3 t h)
    · exact d3 t h

theorem Step.weaken {p v : V3 ℝ} {c1 c : ℝ → Prop} {o1 o : Prop} {m1 m : ℝ → Prop} {b0 b1 : Best ℝ}
    (h1 : Step p v c1 o1 m1 b0 b1) (k1 : ∀ t, c1 t → c t) (k3 : o1 → o) (k5 : ∀ t, m t → m1 t) :
    Step p v c o m b0 b1 := by
  obtain ⟨a1, a2, a3⟩ := h1
  refine ⟨a1, ?_, fun t ht => a3 t (k5 t ht)⟩
  rcases a2 with e' | ⟨e1, e2⟩ | ⟨t, e1, e2⟩
  · exact Or.inl e'
  · exact Or.inr (Or.inl ⟨k3 e1, e2⟩)
  · exact Or.inr (Or.inr ⟨t, k1 t e1, e2⟩)

theorem dist2_ray (p v : V3 ℝ) (t : ℝ) : dist2 p (ray' p v t) = t ^ 2 * (v.x ^ 2 + v.y ^ 2 + v.z ^ 2) := by
  simp only [dist2, ray']; ring

theorem dist_ray_mono (p v : V3 ℝ) {t t1 : ℝ} (h0 : 0 ≤ t) (h : t ≤ t1) :
    Real.sqrt (dist2 p (ray' p v t)) ≤ Real.sqrt (dist2 p (ray' p v t1)) := by
  apply Real.sqrt_le_sqrt
  rw [dist2_ray, dist2_ray]
  have : 0 ≤ v.x ^ 2 + v.y ^ 2 + v.z ^ 2 := by positivity
  have : t ^ 2 ≤ t1 ^ 2 := by nlinarith
  nlinarith

/-- The same, where what has to be taken is met not later. -/
theorem Step.weaken' {p v : V3 ℝ} {c1 c : ℝ → Prop} {o1 o : Prop} {m1 m : ℝ → Prop} {b0 b1 : Best ℝ}
    (h1 : Step p v c1 o1 m1 b0 b1) (k1 : ∀ t, c1 t → c t) (k3 : o1 → o)
    (k5 : ∀ t, m t → ∃ t', 0 ≤ t' ∧ t' ≤ t ∧ m1 t') : Step p v c o m b0 b1 := by
  have h2 := h1.weaken k1 k3 (fun _ h => h)
  refine ⟨h2.1, h2.2.1, fun t ht => ?_⟩
  obtain ⟨t', l1, l2, l3⟩ := k5 t ht
  exact (h2.2.2 t' l3).trans (dist_ray_mono p v l1 l2)

theorem crossFaces_step (b : Body ℝ) (zStart zEnd phi h s vh vs : ℝ) {p v : V3 ℝ} (hp : p = loc phi h s p.z)
    (hv : v = loc phi vh vs v.z) (hT : 0 ≤ b.thick) (hlr : b.left ≤ b.right) (best : Best ℝ) :
    Step p v
      (fun t => Meets h s p.z vh vs v.z b.d b.thick b.left b.right zStart zEnd t
        ∨ MeetsZ h s p.z vh vs v.z b.d b.thick b.left b.right zStart zEnd t)
      ((b.left ≤ 0 ∧ 0 ≤ b.right ∧ zStart ≤ 0 ∧ 0 ≤ zEnd) ∨ (0 ≤ -b.d ∧ -b.d ≤ b.thick))
      (fun t => Meets h s p.z vh vs v.z b.d b.thick b.left b.right zStart zEnd t)
      best (crossFaces realPlanar p v b zStart zEnd phi best) := by
  have hz1 : (1 : ℝ) * 1 = 1 := one_mul 1
  obtain ⟨s1, s2, s3⟩ := dt_sp phi b.d
  have hr := ray_loc phi h s vh vs hp hv
  have vB : dt (nBase realPlanar phi) v = vh := by
    have := dt_base phi 0 vh vs v.z
    rw [← hv] at this
    rw [sub_zero] at this
    rw [← this]; simp only [dt, Vector3D.sub, spacePt, nBase]; ring
  have vS : dt (nSide realPlanar phi) v = vs := by
    have := dt_side phi 0 vh vs v.z
    rw [← hv] at this
    rw [← this]; simp only [dt, Vector3D.sub, spacePt, nBase, nSide]; ring
  have vZ : dt ⟨0, 0, 1⟩ v = v.z := by simp only [dt]; ring
  unfold crossFaces
  dsimp only
  rw [show (⟨b.d * (nBase realPlanar phi).x, b.d * (nBase realPlanar phi).y, b.d * (nBase realPlanar phi).z⟩ : V3 ℝ)
    = spacePt phi b.d from rfl]
  have F1 := fun best => crossFace_spec (frameB phi hz1) (spacePt phi b.d) p v (spacePt phi b.d) 0 (by ring) best
    b.left b.right zStart zEnd
  have F2 := fun best => crossFace_spec (frameB phi hz1) (spacePt phi b.d) p v
    ⟨(b.d + b.thick) * (nBase realPlanar phi).x, (b.d + b.thick) * (nBase realPlanar phi).y,
      (b.d + b.thick) * (nBase realPlanar phi).z⟩ b.thick
    (by rw [s1]; exact (dt_sp phi (b.d + b.thick)).1) best b.left b.right zStart zEnd
  have F3 := fun best => crossFace_spec (frameS phi hz1) (spacePt phi b.d) p v
    (Vector3D.add (spacePt phi b.d) (Vector3D.smul b.left (nSide realPlanar phi))) b.left
    (by have := (frameS phi hz1).nn
        simp only [dt, Vector3D.add, Vector3D.smul]; linear_combination b.left * this) best 0 b.thick zStart zEnd
  have F4 := fun best => crossFace_spec (frameS phi hz1) (spacePt phi b.d) p v
    (Vector3D.add (spacePt phi b.d) (Vector3D.smul b.right (nSide realPlanar phi))) b.right
    (by have := (frameS phi hz1).nn
        simp only [dt, Vector3D.add, Vector3D.smul]; linear_combination b.right * this) best 0 b.thick zStart zEnd
  have F5 := fun best => crossFace_spec (frameZ phi hz1) (spacePt phi b.d) p v
    (Vector3D.add (spacePt phi b.d) (Vector3D.smul zEnd ⟨0, 0, 1⟩)) zEnd
    (by simp only [dt, Vector3D.add, Vector3D.smul]; ring) best 0 b.thick b.left b.right
  have F6 := fun best => crossFace_spec (frameZ phi hz1) (spacePt phi b.d) p v
    (Vector3D.add (spacePt phi b.d) (Vector3D.smul zStart ⟨0, 0, 1⟩)) zStart
    (by simp only [dt, Vector3D.add, Vector3D.smul]; ring) best 0 b.thick b.left b.right
  simp only [Crosses, hr, dt_base, dt_side, dt_z, vB, vS, vZ, s1, s2, s3, neg_zero] at F1 F2 F3 F4 F5 F6
  generalize spacePt phi b.d = sp at *
  simp only [← hr] at F1 F2 F3 F4 F5 F6
  set O : Prop := (b.left ≤ 0 ∧ 0 ≤ b.right ∧ zStart ≤ 0 ∧ 0 ≤ zEnd) ∨ (0 ≤ -b.d ∧ -b.d ≤ b.thick) with hO
  set C : ℝ → Prop := fun t => Meets h s p.z vh vs v.z b.d b.thick b.left b.right zStart zEnd t
        ∨ MeetsZ h s p.z vh vs v.z b.d b.thick b.left b.right zStart zEnd t with hC
  -- each face is a step
  have G1 : ∀ best, Step p v C O (fun t => Meets h s p.z vh vs v.z b.d b.thick b.left b.right zStart zEnd t
      ∧ vh ≠ 0 ∧ h + t * vh = b.d) best (crossFace realPlanar p v sp best sp
        (nBase realPlanar phi) (nSide realPlanar phi) ⟨0, 0, 1⟩ b.left b.right zStart zEnd) := by
    intro best
    obtain ⟨a1, a2, a3⟩ := F1 best
    refine ⟨a1, ?_, ?_⟩
    · rcases a2 with a2 | ⟨o1, o2, o3, o4, a2⟩ | ⟨t, ⟨t1, t2, t3, t4, t5, t6, t7⟩, a2⟩
      · exact Or.inl a2
      · exact Or.inr (Or.inl ⟨Or.inl ⟨o1, o2, o3, o4⟩, a2⟩)
      · exact Or.inr (Or.inr ⟨t, Or.inl ⟨t1, ⟨by linarith, by linarith⟩, ⟨t4, t5⟩, ⟨t6, t7⟩,
          Or.inl ⟨t2, Or.inl (by linarith)⟩⟩, a2⟩)
    · rintro t ⟨⟨t1, t2, t3, t4, -⟩, t5, t6⟩
      exact a3 t ⟨t1, t5, by linarith, t3.1, t3.2, t4.1, t4.2⟩
  have G2 : ∀ best, Step p v C O (fun t => Meets h s p.z vh vs v.z b.d b.thick b.left b.right zStart zEnd t
      ∧ vh ≠ 0 ∧ h + t * vh = b.d + b.thick) best (crossFace realPlanar p v sp best
        ⟨(b.d + b.thick) * (nBase realPlanar phi).x, (b.d + b.thick) * (nBase realPlanar phi).y,
          (b.d + b.thick) * (nBase realPlanar phi).z⟩
        (nBase realPlanar phi) (nSide realPlanar phi) ⟨0, 0, 1⟩ b.left b.right zStart zEnd) := by
    intro best
    obtain ⟨a1, a2, a3⟩ := F2 best
    refine ⟨a1, ?_, ?_⟩
    · rcases a2 with a2 | ⟨o1, o2, o3, o4, a2⟩ | ⟨t, ⟨t1, t2, t3, t4, t5, t6, t7⟩, a2⟩
      · exact Or.inl a2
      · exact Or.inr (Or.inl ⟨Or.inl ⟨o1, o2, o3, o4⟩, a2⟩)
      · exact Or.inr (Or.inr ⟨t, Or.inl ⟨t1, ⟨by linarith, by linarith⟩, ⟨t4, t5⟩, ⟨t6, t7⟩,
          Or.inl ⟨t2, Or.inr (by linarith)⟩⟩, a2⟩)
    · rintro t ⟨⟨t1, t2, t3, t4, -⟩, t5, t6⟩
      exact a3 t ⟨t1, t5, by linarith, t3.1, t3.2, t4.1, t4.2⟩
  have G3 : ∀ best, Step p v C O (fun t => Meets h s p.z vh vs v.z b.d b.thick b.left b.right zStart zEnd t
      ∧ vs ≠ 0 ∧ s + t * vs = b.left) best (crossFace realPlanar p v sp best
        (Vector3D.add sp (Vector3D.smul b.left (nSide realPlanar phi)))
        (nSide realPlanar phi) (nBase realPlanar phi) ⟨0, 0, 1⟩ 0 b.thick zStart zEnd) := by
    intro best
    obtain ⟨a1, a2, a3⟩ := F3 best
    refine ⟨a1, ?_, ?_⟩
    · rcases a2 with a2 | ⟨o1, o2, o3, o4, a2⟩ | ⟨t, ⟨t1, t2, t3, t4, t5, t6, t7⟩, a2⟩
      · exact Or.inl a2
      · exact Or.inr (Or.inl ⟨Or.inr ⟨o1, o2⟩, a2⟩)
      · exact Or.inr (Or.inr ⟨t, Or.inl ⟨t1, ⟨by linarith, by linarith⟩, ⟨by linarith, by linarith⟩, ⟨t6, t7⟩,
          Or.inr (Or.inl ⟨t2, Or.inl t3⟩)⟩, a2⟩)
    · rintro t ⟨⟨t1, t2, t3, t4, -⟩, t5, t6⟩
      exact a3 t ⟨t1, t5, t6, by linarith [t2.1], by linarith [t2.2], t4.1, t4.2⟩
  have G4 : ∀ best, Step p v C O (fun t => Meets h s p.z vh vs v.z b.d b.thick b.left b.right zStart zEnd t
      ∧ vs ≠ 0 ∧ s + t * vs = b.right) best (crossFace realPlanar p v sp best
        (Vector3D.add sp (Vector3D.smul b.right (nSide realPlanar phi)))
        (nSide realPlanar phi) (nBase realPlanar phi) ⟨0, 0, 1⟩ 0 b.thick zStart zEnd) := by
    intro best
    obtain ⟨a1, a2, a3⟩ := F4 best
    refine ⟨a1, ?_, ?_⟩
    · rcases a2 with a2 | ⟨o1, o2, o3, o4, a2⟩ | ⟨t, ⟨t1, t2, t3, t4, t5, t6, t7⟩, a2⟩
      · exact Or.inl a2
      · exact Or.inr (Or.inl ⟨Or.inr ⟨o1, o2⟩, a2⟩)
      · exact Or.inr (Or.inr ⟨t, Or.inl ⟨t1, ⟨by linarith, by linarith⟩, ⟨by linarith, by linarith⟩, ⟨t6, t7⟩,
          Or.inr (Or.inl ⟨t2, Or.inr t3⟩)⟩, a2⟩)
    · rintro t ⟨⟨t1, t2, t3, t4, -⟩, t5, t6⟩
      exact a3 t ⟨t1, t5, t6, by linarith [t2.1], by linarith [t2.2], t4.1, t4.2⟩
  have G5 : ∀ best, Step p v C O (fun t => Meets h s p.z vh vs v.z b.d b.thick b.left b.right zStart zEnd t
      ∧ v.z ≠ 0 ∧ p.z + t * v.z = zEnd) best (crossFace realPlanar p v sp best
        (Vector3D.add sp (Vector3D.smul zEnd ⟨0, 0, 1⟩))
        ⟨0, 0, 1⟩ (nBase realPlanar phi) (nSide realPlanar phi) 0 b.thick b.left b.right) := by
    intro best
    obtain ⟨a1, a2, a3⟩ := F5 best
    refine ⟨a1, ?_, ?_⟩
    · rcases a2 with a2 | ⟨o1, o2, o3, o4, a2⟩ | ⟨t, ⟨t1, t2, t3, t4, t5, t6, t7⟩, a2⟩
      · exact Or.inl a2
      · exact Or.inr (Or.inl ⟨Or.inr ⟨o1, o2⟩, a2⟩)
      · exact Or.inr (Or.inr ⟨t, Or.inr ⟨t1, ⟨by linarith, by linarith⟩, ⟨t6, t7⟩, t2, Or.inr t3⟩, a2⟩)
    · rintro t ⟨⟨t1, t2, t3, t4, -⟩, t5, t6⟩
      exact a3 t ⟨t1, t5, t6, by linarith [t2.1], by linarith [t2.2], t3.1, t3.2⟩
  have G6 : ∀ best, Step p v C O (fun t => Meets h s p.z vh vs v.z b.d b.thick b.left b.right zStart zEnd t
      ∧ v.z ≠ 0 ∧ p.z + t * v.z = zStart) best (crossFace realPlanar p v sp best
        (Vector3D.add sp (Vector3D.smul zStart ⟨0, 0, 1⟩))
        ⟨0, 0, 1⟩ (nBase realPlanar phi) (nSide realPlanar phi) 0 b.thick b.left b.right) := by
    intro best
    obtain ⟨a1, a2, a3⟩ := F6 best
    refine ⟨a1, ?_, ?_⟩
    · rcases a2 with a2 | ⟨o1, o2, o3, o4, a2⟩ | ⟨t, ⟨t1, t2, t3, t4, t5, t6, t7⟩, a2⟩
      · exact Or.inl a2
      · exact Or.inr (Or.inl ⟨Or.inr ⟨o1, o2⟩, a2⟩)
      · exact Or.inr (Or.inr ⟨t, Or.inr ⟨t1, ⟨by linarith, by linarith⟩, ⟨t6, t7⟩, t2, Or.inl t3⟩, a2⟩)
    · rintro t ⟨⟨t1, t2, t3, t4, -⟩, t5, t6⟩
      exact a3 t ⟨t1, t5, t6, by linarith [t2.1], by linarith [t2.2], t3.1, t3.2⟩
  have id1 : ∀ t, C t → C t := fun _ h => h
  have id2 : O → O := fun h => h
  have H12 := (G1 best).trans (G2 _) id1 id1 id2 id2 (fun t h => h)
  have H13 := H12.trans (G3 _) id1 id1 id2 id2 (fun t h => h)
  have H14 := H13.trans (G4 _) id1 id1 id2 id2 (fun t h => h)
  have H15 := H14.trans (G5 _) id1 id1 id2 id2 (fun t h => h)
  have H16 := H15.trans (G6 _) id1 id1 id2 id2 (fun t h => h)
  refine H16.weaken id1 id2 ?_
  intro t ht
  have ht' := ht
  obtain ⟨-, -, -, -, h5⟩ := ht'
  rcases h5 with ⟨a, b | b⟩ | ⟨a, b | b⟩ | ⟨a, b | b⟩
  · exact Or.inl (Or.inl (Or.inl (Or.inl (Or.inl ⟨ht, a, b⟩))))
  · exact Or.inl (Or.inl (Or.inl (Or.inl (Or.inr ⟨ht, a, b⟩))))
  · exact Or.inl (Or.inl (Or.inl (Or.inr ⟨ht, a, b⟩)))
  · exact Or.inl (Or.inl (Or.inr ⟨ht, a, b⟩))
  · exact Or.inr ⟨ht, a, b⟩
  · exact Or.inl (Or.inr ⟨ht, a, b⟩)

/-! Entering a box -/

/-- A ray that meets all constraints at `t1` meets all of them at an earlier point at which it starts or one of them
is just met. -/
theorem enter (l : List (ℝ × ℝ)) {t1 : ℝ} (h0 : 0 ≤ t1) (h : ∀ k ∈ l, 0 ≤ k.1 + t1 * k.2) :
    ∃ t, 0 ≤ t ∧ t ≤ t1 ∧ (∀ k ∈ l, 0 ≤ k.1 + t * k.2) ∧ (t = 0 ∨ ∃ k ∈ l, k.2 ≠ 0 ∧ k.1 + t * k.2 = 0) := by
  induction l with
  | nil => exact ⟨0, le_refl _, h0, by simp, Or.inl rfl⟩
  | cons k l ih =>
    obtain ⟨t, a1, a2, a3, a4⟩ := ih (fun k hk => h k (List.mem_cons_of_mem _ hk))
    have hk := h k List.mem_cons_self
    by_cases hn : 0 ≤ k.1 + t * k.2
    · refine ⟨t, a1, a2, ?_, ?_⟩
      · intro k' hk'
        rcases List.mem_cons.mp hk' with rfl | h'
        · exact hn
        · exact a3 k' h'
      · rcases a4 with a4 | ⟨k', a5, a6⟩
        · exact Or.inl a4
        · exact Or.inr ⟨k', List.mem_cons_of_mem _ a5, a6⟩
    · have hn' := not_le.mp hn
      have htt : t < t1 := by
        rcases lt_or_eq_of_le a2 with h' | h'
        · exact h'
        · rw [h'] at hn'; linarith
      have hb : 0 < k.2 := by
        by_contra hb
        have := not_lt.mp hb
        nlinarith
      set t' := -k.1 / k.2 with ht'
      have e : k.1 + t' * k.2 = 0 := by rw [ht', div_mul_cancel₀ _ hb.ne']; ring
      have l1 : t < t' := by nlinarith
      have l2 : t' ≤ t1 := by nlinarith
      refine ⟨t', by linarith, l2, ?_, Or.inr ⟨k, List.mem_cons_self, hb.ne', e⟩⟩
      intro k' hk'
      rcases List.mem_cons.mp hk' with rfl | h'
      · rw [e]
      · have b1 := a3 k' h'
        have b2 := h k' hk'
        rcases le_or_gt 0 k'.2 with c | c <;> nlinarith

/-- A ray that starts outside a box and reaches a point of it meets a face before. -/
theorem enter_box {h s z vh vs vz d thick left right zStart zEnd t1 : ℝ} (h0 : 0 ≤ t1)
    (hin : (d ≤ h + t1 * vh ∧ h + t1 * vh ≤ d + thick) ∧ (left ≤ s + t1 * vs ∧ s + t1 * vs ≤ right)
      ∧ (zStart ≤ z + t1 * vz ∧ z + t1 * vz ≤ zEnd))
    (hout : ¬ ((d ≤ h ∧ h ≤ d + thick) ∧ (left ≤ s ∧ s ≤ right) ∧ (zStart ≤ z ∧ z ≤ zEnd))) :
    ∃ t, t ≤ t1 ∧ Meets h s z vh vs vz d thick left right zStart zEnd t := by
  obtain ⟨⟨i1, i2⟩, ⟨i3, i4⟩, i5, i6⟩ := hin
  obtain ⟨t, a1, a2, a3, a4⟩ := enter
    [(h - d, vh), (d + thick - h, -vh), (s - left, vs), (right - s, -vs), (z - zStart, vz), (zEnd - z, -vz)] h0 (by
      simp only [List.mem_cons, List.not_mem_nil, or_false, forall_eq_or_imp, forall_eq]
      refine ⟨?_, ?_, ?_, ?_, ?_, ?_⟩ <;> linarith)
  simp only [List.mem_cons, List.not_mem_nil, or_false, forall_eq_or_imp, forall_eq, exists_eq_or_imp,
    exists_eq_left] at a3 a4
  obtain ⟨b1, b2, b3, b4, b5, b6⟩ := a3
  refine ⟨t, a2, a1, ⟨by linarith, by linarith⟩, ⟨by linarith, by linarith⟩, ⟨by linarith, by linarith⟩, ?_⟩
  rcases a4 with a4 | ⟨c1, c2⟩ | ⟨c1, c2⟩ | ⟨c1, c2⟩ | ⟨c1, c2⟩ | ⟨c1, c2⟩ | ⟨c1, c2⟩
  · exfalso; apply hout
    rw [a4] at b1 b2 b3 b4 b5 b6
    refine ⟨⟨?_, ?_⟩, ⟨?_, ?_⟩, ?_, ?_⟩ <;> linarith
  · exact Or.inl ⟨c1, Or.inl (by linarith)⟩
  · exact Or.inl ⟨neg_ne_zero.mp c1, Or.inr (by linarith)⟩
  · exact Or.inr (Or.inl ⟨c1, Or.inl (by linarith)⟩)
  · exact Or.inr (Or.inl ⟨neg_ne_zero.mp c1, Or.inr (by linarith)⟩)
  · exact Or.inr (Or.inr ⟨c1, Or.inl (by linarith)⟩)
  · exact Or.inr (Or.inr ⟨neg_ne_zero.mp c1, Or.inr (by linarith)⟩)

/-! The loops -/

/-- What the ray may be found to meet in a layer: a point of a volume, which on the side of negative z is on a front
or back face. -/
def CanMeet (c : Call ℝ) (sens : Bool) (gap : ℝ) (p v : V3 ℝ) (t : ℝ) : Prop :=
  0 ≤ t ∧ (∃ i < c.nLadders.toNat, ray' p v t ∈ volume c sens gap (moduleOf c.nLadders i))
    ∧ (gap / 2 ≤ (ray' p v t).z ∨ v.z ≠ 0)

/-- What the ray has to be found to meet in a layer. -/
def MustMeet (c : Call ℝ) (sens : Bool) (gap : ℝ) (p v : V3 ℝ) (t : ℝ) : Prop :=
  0 ≤ t ∧ ∃ i < c.nLadders.toNat, ray' p v t ∈ volume c sens gap (moduleOf c.nLadders i) ∧ 0 ≤ (ray' p v t).z
    ∧ p ∉ volume c sens gap (moduleOf c.nLadders i)

variable (c : Call ℝ) (sens : Bool) (gap : ℝ)

theorem crossPos_step (hN : 0 < c.nLadders) (hg : 0 ≤ gap) (hs : Sized (c.size sens)) (p v : V3 ℝ) {i : ℕ}
    (hi : i < c.nLadders.toNat) (best : Best ℝ) :
    Step p v (CanMeet c sens gap p v) ((gap = 0) ∨ (c.size sens).distance ≤ 0)
      (fun t => 0 ≤ t ∧ ray' p v t ∈ volume c sens gap (moduleOf c.nLadders i) ∧ 0 ≤ (ray' p v t).z
        ∧ p ∉ volume c sens gap (moduleOf c.nLadders i)) best
      (crossFaces realPlanar p v (body gap sens (stored c)) (gap / 2) (body gap sens (stored c)).zEnd
        (ladderPhi realPlanar (stored c) i) best) := by
  obtain ⟨hT, hW, hL⟩ := hs
  set phi := ladderPhi realPlanar (stored c) i with hphi
  have hp := loc_coords phi p
  have hv := loc_coords phi v
  generalize hh : p.x * Real.sin phi + p.y * Real.cos phi = h at hp
  generalize hss : p.x * Real.cos phi - p.y * Real.sin phi = s at hp
  generalize hvh : v.x * Real.sin phi + v.y * Real.cos phi = vh at hv
  generalize hvs : v.x * Real.cos phi - v.y * Real.sin phi = vs at hv
  have st := crossFaces_step (body gap sens (stored c)) (gap / 2) (body gap sens (stored c)).zEnd phi h s vh vs hp hv
    (by rw [body_stored]; exact hT) (by rw [body_stored]; dsimp only; linarith) best
  have hr := ray_loc phi h s vh vs hp hv
  rw [body_stored] at st ⊢
  generalize hS : c.size sens = S at *
  refine st.weaken' ?_ ?_ ?_
  · intro t ht
    have hmem : (S.distance ≤ h + t * vh ∧ h + t * vh ≤ S.distance + S.thickness) →
        (-S.width / 2 - S.offset ≤ s + t * vs ∧ s + t * vs ≤ S.width / 2 - S.offset) →
        (gap / 2 ≤ p.z + t * v.z ∧ p.z + t * v.z ≤ S.length + gap / 2) →
        ray' p v t ∈ volume c sens gap (moduleOf c.nLadders i) := by
      intro m1 m2 m3
      refine ⟨h + t * vh, -(s + t * vs), p.z + t * v.z, ?_, ?_, ?_, ?_, ?_, ?_, ?_⟩
      · rw [hr, hphi, loc_point c hN]
      all_goals (try rw [hS]); (try rw [abs_of_nonneg (by linarith [m3.1] : (0 : ℝ) ≤ p.z + t * v.z)])
      all_goals linarith [m1.1, m1.2, m2.1, m2.2, m3.1, m3.2]
    rcases ht with ⟨t1, t2, t3, t4, -⟩ | ⟨t1, t2, t3, t4, t5⟩
    · exact ⟨t1, ⟨i, hi, hmem t2 t3 t4⟩, Or.inl (by show gap / 2 ≤ p.z + t * v.z; exact t4.1)⟩
    · refine ⟨t1, ⟨i, hi, hmem t2 t3 ?_⟩, Or.inr t4⟩
      dsimp only at t5
      rcases t5 with t5 | t5 <;> rw [t5] <;> constructor <;> linarith
  · rintro (⟨-, -, o, -⟩ | ⟨o, -⟩)
    · exact Or.inl (by linarith)
    · dsimp only at o; exact Or.inr (by linarith)
  · rintro t ⟨t0, ⟨h', u, z, e, q1, q2, q3, q4, q5, q6⟩, tz, hout⟩
    rw [hS] at q1 q2 q3 q4 q6
    have e' : loc phi (h + t * vh) (s + t * vs) (p.z + t * v.z) = loc phi h' (-u) z := by
      rw [← hr, e, hphi, loc_point c hN, neg_neg]
    have f := frameB phi (one_mul (1 : ℝ))
    obtain ⟨k1, k2, k3⟩ : h + t * vh = h' ∧ s + t * vs = -u ∧ p.z + t * v.z = z := by
      rw [loc_eq_at3 phi 0 _ _ (one_mul (1 : ℝ)), loc_eq_at3 phi 0 _ _ (one_mul (1 : ℝ))] at e'
      obtain ⟨a1, a2, a3⟩ := f.inj e'
      exact ⟨by linarith, a2, by linarith⟩
    have hz0 : 0 ≤ z := by rw [← k3]; exact tz
    rw [abs_of_nonneg hz0] at q5 q6
    obtain ⟨t', l1, l2⟩ := enter_box (h := h) (s := s) (z := p.z) (vh := vh) (vs := vs) (vz := v.z)
      (d := S.distance) (thick := S.thickness) (left := -S.width / 2 - S.offset) (right := S.width / 2 - S.offset)
      (zStart := gap / 2) (zEnd := S.length + gap / 2) t0
      (by rw [k1, k2, k3]; refine ⟨⟨q1, q2⟩, ⟨?_, ?_⟩, q5, ?_⟩ <;> linarith)
      (by
        rintro ⟨⟨m1, m2⟩, ⟨m3, m4⟩, m5, m6⟩
        apply hout
        refine ⟨h, -s, p.z, ?_, ?_, ?_, ?_, ?_, ?_, ?_⟩
        · rw [← loc_point c hN, ← hphi]; exact hp
        all_goals (try rw [hS]); (try rw [abs_of_nonneg (by linarith : (0 : ℝ) ≤ p.z)])
        all_goals linarith)
    exact ⟨t', l2.1, l1, l2⟩

theorem crossNeg_step (hN : 0 < c.nLadders) (hg : 0 ≤ gap) (hs : Sized (c.size sens))
    (hL : 0 < (c.size sens).length) (p v : V3 ℝ) {i : ℕ} (hi : i < c.nLadders.toNat) (best : Best ℝ) :
    Step p v (CanMeet c sens gap p v) ((c.size sens).distance ≤ 0) (fun _ => False) best
      (crossFaces realPlanar p v (body gap sens (stored c)) (-gap / 2) (-(body gap sens (stored c)).zEnd)
        (ladderPhi realPlanar (stored c) i) best) := by
  obtain ⟨hT, hW, -⟩ := hs
  set phi := ladderPhi realPlanar (stored c) i with hphi
  have hp := loc_coords phi p
  have hv := loc_coords phi v
  generalize hh : p.x * Real.sin phi + p.y * Real.cos phi = h at hp
  generalize hss : p.x * Real.cos phi - p.y * Real.sin phi = s at hp
  generalize hvh : v.x * Real.sin phi + v.y * Real.cos phi = vh at hv
  generalize hvs : v.x * Real.cos phi - v.y * Real.sin phi = vs at hv
  have st := crossFaces_step (body gap sens (stored c)) (-gap / 2) (-(body gap sens (stored c)).zEnd) phi h s vh vs
    hp hv (by rw [body_stored]; exact hT) (by rw [body_stored]; dsimp only; linarith) best
  have hr := ray_loc phi h s vh vs hp hv
  rw [body_stored] at st ⊢
  generalize hS : c.size sens = S at *
  refine st.weaken ?_ ?_ ?_
  · rintro t (⟨-, -, -, t4, -⟩ | ⟨t1, t2, t3, t4, t5⟩)
    · exfalso; dsimp only at t4; linarith [t4.1, t4.2]
    · refine ⟨t1, ⟨i, hi, ?_⟩, Or.inr t4⟩
      dsimp only at t2 t3 t5
      have habs : gap / 2 ≤ |p.z + t * v.z| ∧ |p.z + t * v.z| ≤ gap / 2 + S.length := by
        rcases t5 with t5 | t5 <;> rw [t5]
        · rw [show -gap / 2 = -(gap / 2) by ring, abs_neg, abs_of_nonneg (by linarith)]
          constructor <;> linarith
        · rw [abs_neg, abs_of_nonneg (by linarith)]
          constructor <;> linarith
      refine ⟨h + t * vh, -(s + t * vs), p.z + t * v.z, ?_, ?_, ?_, ?_, ?_, habs.1, ?_⟩
      · rw [hr, hphi, loc_point c hN]
      all_goals (try rw [hS])
      all_goals linarith [t2.1, t2.2, t3.1, t3.2, habs.2]
  · rintro (⟨-, -, -, o⟩ | ⟨o, -⟩)
    · exfalso; dsimp only at o; linarith
    · dsimp only at o; linarith
  · intro t ht; exact ht.elim

theorem foldl_step {α : Type} {p v : V3 ℝ} {can : ℝ → Prop} {o : Prop} (f : Best ℝ → α → Best ℝ) (l : List α)
    (must : α → ℝ → Prop) (h : ∀ b, ∀ x ∈ l, Step p v can o (must x) b (f b x)) (b : Best ℝ) :
    Step p v can o (fun t => ∃ x ∈ l, must x t) b (l.foldl f b) := by
  induction l generalizing b with
  | nil => exact ⟨le_refl _, Or.inl rfl, by rintro t ⟨x, hx, -⟩; cases hx⟩
  | cons x xs ih =>
    refine (h b x List.mem_cons_self).trans (ih (fun b y hy => h b y (List.mem_cons_of_mem _ hy)) _)
      (fun _ h => h) (fun _ h => h) (fun h => h) (fun h => h) ?_
    rintro t ⟨y, hy, hm⟩
    rcases List.mem_cons.mp hy with rfl | hy
    · exact Or.inl hm
    · exact Or.inr ⟨y, hy, hm⟩

/-- The sizes of a layer, for the intersections. -/
def SensiblePos (c : Call ℝ) (sens : Bool) : Prop :=
  0 < c.nLadders ∧ Sized (c.size sens) ∧ 0 < (c.size sens).length

theorem crossLayer_step (hg : 0 ≤ gap) (hs : SensiblePos c sens) (p v : V3 ℝ) (best : Best ℝ) :
    Step p v (CanMeet c sens gap p v) (gap = 0 ∨ (c.size sens).distance ≤ 0) (MustMeet c sens gap p v) best
      (crossLayer realPlanar gap sens p v best (stored c)) := by
  unfold crossLayer
  dsimp only
  have h1 := foldl_step (p := p) (v := v) (can := CanMeet c sens gap p v)
    (o := gap = 0 ∨ (c.size sens).distance ≤ 0)
    (fun s i => crossFaces realPlanar p v (body gap sens (stored c)) (gap / 2) (body gap sens (stored c)).zEnd
      (ladderPhi realPlanar (stored c) i) s) (List.range (stored c).1.NLadders.toNat)
    (fun i t => 0 ≤ t ∧ ray' p v t ∈ volume c sens gap (moduleOf c.nLadders i) ∧ 0 ≤ (ray' p v t).z
        ∧ p ∉ volume c sens gap (moduleOf c.nLadders i))
    (fun b i hi => crossPos_step c sens gap hs.1 hg hs.2.1 p v (List.mem_range.mp hi) b) best
  have h2 := foldl_step (p := p) (v := v) (can := CanMeet c sens gap p v) (o := (c.size sens).distance ≤ 0)
    (fun s i => crossFaces realPlanar p v (body gap sens (stored c)) (-gap / 2) (-(body gap sens (stored c)).zEnd)
      (ladderPhi realPlanar (stored c) i) s) (List.range (stored c).1.NLadders.toNat) (fun _ _ => False)
    (fun b i hi => crossNeg_step c sens gap hs.1 hg hs.2.1 hs.2.2 p v (List.mem_range.mp hi) b)
  refine h1.trans (h2 _) (fun _ h => h) (fun _ h => h) (fun h => h) Or.inr ?_
  rintro t ⟨t0, i, hi, hm⟩
  exact Or.inl ⟨i, List.mem_range.mpr hi, t0, hm⟩

theorem cross_loop (hg : 0 ≤ gap) {calls : List (Call ℝ)} (hc : ∀ c ∈ calls, SensiblePos c sens) (p v : V3 ℝ)
    (best : Best ℝ) :
    Step p v (fun t => ∃ c ∈ calls, CanMeet c sens gap p v t)
      (gap = 0 ∨ ∃ c ∈ calls, (c.size sens).distance ≤ 0)
      (fun t => ∃ c ∈ calls, MustMeet c sens gap p v t) best
      ((calls.map stored).foldl (crossLayer realPlanar gap sens p v) best) := by
  rw [List.foldl_map]
  exact foldl_step (fun s c => crossLayer realPlanar gap sens p v s (stored c)) calls
    (fun c t => MustMeet c sens gap p v t)
    (fun b c hcm => (crossLayer_step c sens gap hg (hc c hcm) p v b).weaken (fun t ht => ⟨c, hcm, ht⟩)
      (fun h => h.imp id fun h => ⟨c, hcm, h⟩) (fun _ h => h)) best

end Gear.ZPlanar
