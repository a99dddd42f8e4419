/-
Lemmas about `distanceToNearestLadder` of the planar vertex detector.
-/
import Verif.ZPlanarPoint

set_option autoImplicit false
set_option linter.unusedSectionVars false

namespace Gear.ZPlanar

open Vector3D (V3)
open Real (pi)
open Spec

theorem dist2_loc (phi h s z h' s' z' : ℝ) :
    dist2 (loc phi h s z) (loc phi h' s' z') = (h - h') ^ 2 + (s - s') ^ 2 + (z - z') ^ 2 := by
  have := Real.sin_sq_add_cos_sq phi
  simp only [dist2, loc]; linear_combination ((h - h') ^ 2 + (s - s') ^ 2) * this

theorem norm_sub (q p : V3 ℝ) : norm realPlanar (Vector3D.sub q p) = Real.sqrt (dist2 p q) := by
  unfold norm dist2; simp only [rp_sqrt, Vector3D.sub]; congr 1; ring

/-- The sign of the side of a point. -/
noncomputable def sgn (p : V3 ℝ) : ℝ := if p.z < 0 then -1 else 1

theorem sgn_sq (p : V3 ℝ) : sgn p * sgn p = 1 := sign_sq p
theorem sgn_abs (p : V3 ℝ) : sgn p * p.z = |p.z| := abs_sign p
theorem nZ_eq (p : V3 ℝ) : nZ p = ⟨0, 0, sgn p⟩ := rfl

theorem abs_sgn_mul (p : V3 ℝ) {x : ℝ} (h : 0 ≤ x) : |sgn p * x| = x := by
  rw [abs_mul, abs_of_nonneg h]; unfold sgn; split_ifs <;> simp

/-- The vector to an inner or outer face. -/
theorem face_base (phi d h s : ℝ) (e : ℝ) (p : V3 ℝ) (hp : p = loc phi h s p.z) (l r z0 z1 : ℝ) :
    distanceToPlane p (Vector3D.add (Vector3D.smul d (nBase realPlanar phi)) (Vector3D.smul e (nBase realPlanar phi)))
      (nBase realPlanar phi) (nSide realPlanar phi) (nZ p) l r z0 z1
    = Vector3D.sub (loc phi (d + e) (clamp s l r) (sgn p * clamp |p.z| z0 z1)) p := by
  have he := sgn_sq p
  have hf := frameB phi he
  rw [nZ_eq]
  have e1 : p = at3 (Vector3D.add (Vector3D.smul d (nBase realPlanar phi)) (Vector3D.smul e (nBase realPlanar phi)))
      (nBase realPlanar phi) (nSide realPlanar phi) ⟨0, 0, sgn p⟩ (h - d - e) s |p.z| := by
    rw [← sgn_abs p]
    conv_lhs => rw [hp]
    ext <;> simp only [loc, at3, nBase, nSide, rp_cos, rp_sin, Vector3D.add, Vector3D.smul] <;> try ring
    linear_combination -p.z * he
  have e2 : loc phi (d + e) (clamp s l r) (sgn p * clamp |p.z| z0 z1)
      = at3 (Vector3D.add (Vector3D.smul d (nBase realPlanar phi)) (Vector3D.smul e (nBase realPlanar phi)))
      (nBase realPlanar phi) (nSide realPlanar phi) ⟨0, 0, sgn p⟩ 0 (clamp s l r) (clamp |p.z| z0 z1) := by
    ext <;> simp only [loc, at3, nBase, nSide, rp_cos, rp_sin, Vector3D.add, Vector3D.smul] <;> ring
  rw [e2]
  generalize |p.z| = az at *
  generalize sgn p = s' at *
  rw [e1]
  exact distanceToPlane_eq hf _ _ _ _ _ _ _ _

/-- The vector to a side face. -/
theorem face_side (phi d h s : ℝ) (e : ℝ) (p : V3 ℝ) (hp : p = loc phi h s p.z) (t z0 z1 : ℝ) :
    distanceToPlane p (Vector3D.add (Vector3D.smul d (nBase realPlanar phi)) (Vector3D.smul e (nSide realPlanar phi)))
      (nSide realPlanar phi) (nBase realPlanar phi) (nZ p) 0 t z0 z1
    = Vector3D.sub (loc phi (d + clamp (h - d) 0 t) e (sgn p * clamp |p.z| z0 z1)) p := by
  have he := sgn_sq p
  have hf := frameS phi he
  rw [nZ_eq]
  have e1 : p = at3 (Vector3D.add (Vector3D.smul d (nBase realPlanar phi)) (Vector3D.smul e (nSide realPlanar phi)))
      (nSide realPlanar phi) (nBase realPlanar phi) ⟨0, 0, sgn p⟩ (s - e) (h - d) |p.z| := by
    rw [← sgn_abs p]
    conv_lhs => rw [hp]
    ext <;> simp only [loc, at3, nBase, nSide, rp_cos, rp_sin, Vector3D.add, Vector3D.smul] <;> try ring
    linear_combination -p.z * he
  have e2 : loc phi (d + clamp (h - d) 0 t) e (sgn p * clamp |p.z| z0 z1)
      = at3 (Vector3D.add (Vector3D.smul d (nBase realPlanar phi)) (Vector3D.smul e (nSide realPlanar phi)))
      (nSide realPlanar phi) (nBase realPlanar phi) ⟨0, 0, sgn p⟩ 0 (clamp (h - d) 0 t) (clamp |p.z| z0 z1) := by
    ext <;> simp only [loc, at3, nBase, nSide, rp_cos, rp_sin, Vector3D.add, Vector3D.smul] <;> ring
  rw [e2]
  generalize |p.z| = az at *
  generalize sgn p = s' at *
  rw [e1]
  exact distanceToPlane_eq hf _ _ _ _ _ _ _ _

/-- The vector to a front or back face. -/
theorem face_z (phi d h s : ℝ) (e : ℝ) (p : V3 ℝ) (hp : p = loc phi h s p.z) (t l r : ℝ) :
    distanceToPlane p (Vector3D.add (Vector3D.smul d (nBase realPlanar phi)) (Vector3D.smul e (nZ p)))
      (nZ p) (nBase realPlanar phi) (nSide realPlanar phi) 0 t l r
    = Vector3D.sub (loc phi (d + clamp (h - d) 0 t) (clamp s l r) (sgn p * e)) p := by
  have he := sgn_sq p
  have hf := frameZ phi he
  rw [nZ_eq]
  have e1 : p = at3 (Vector3D.add (Vector3D.smul d (nBase realPlanar phi)) (Vector3D.smul e ⟨0, 0, sgn p⟩))
      ⟨0, 0, sgn p⟩ (nBase realPlanar phi) (nSide realPlanar phi) (|p.z| - e) (h - d) s := by
    rw [← sgn_abs p]
    conv_lhs => rw [hp]
    ext <;> simp only [loc, at3, nBase, nSide, rp_cos, rp_sin, Vector3D.add, Vector3D.smul] <;> try ring
    linear_combination -p.z * he
  have e2 : loc phi (d + clamp (h - d) 0 t) (clamp s l r) (sgn p * e)
      = at3 (Vector3D.add (Vector3D.smul d (nBase realPlanar phi)) (Vector3D.smul e ⟨0, 0, sgn p⟩))
      ⟨0, 0, sgn p⟩ (nBase realPlanar phi) (nSide realPlanar phi) 0 (clamp (h - d) 0 t) (clamp s l r) := by
    ext <;> simp only [loc, at3, nBase, nSide, rp_cos, rp_sin, Vector3D.add, Vector3D.smul] <;> ring
  rw [e2]
  generalize |p.z| = az at *
  generalize sgn p = s' at *
  rw [e1]
  exact distanceToPlane_eq hf _ _ _ _ _ _ _ _

/-- The six points of a ladder that the code compares. -/
noncomputable def facePoints (gap : ℝ) (b : Body ℝ) (p : V3 ℝ) (phi h s : ℝ) : List (V3 ℝ) :=
  [loc phi (b.d + 0) (clamp s b.left b.right) (sgn p * clamp |p.z| (gap / 2) b.zEnd),
   loc phi (b.d + b.thick) (clamp s b.left b.right) (sgn p * clamp |p.z| (gap / 2) b.zEnd),
   loc phi (b.d + clamp (h - b.d) 0 b.thick) b.left (sgn p * clamp |p.z| (gap / 2) b.zEnd),
   loc phi (b.d + clamp (h - b.d) 0 b.thick) b.right (sgn p * clamp |p.z| (gap / 2) b.zEnd),
   loc phi (b.d + clamp (h - b.d) 0 b.thick) (clamp s b.left b.right) (sgn p * b.zEnd),
   loc phi (b.d + clamp (h - b.d) 0 b.thick) (clamp s b.left b.right) (sgn p * (gap / 2))]

/-- What a step of the search does: it keeps the best or takes one of the points, and ends below all of them. -/
def Picks (p : V3 ℝ) (qs : List (V3 ℝ)) (best best' : Best ℝ) : Prop :=
  (best' = best ∨ ∃ q ∈ qs, best' = (Vector3D.sub q p, Real.sqrt (dist2 p q)))
    ∧ best'.2 ≤ best.2 ∧ ∀ q ∈ qs, best'.2 ≤ Real.sqrt (dist2 p q)

theorem Picks.nil (p : V3 ℝ) (best : Best ℝ) : Picks p [] best best := ⟨Or.inl rfl, le_refl _, by simp⟩

theorem Picks.le {p q : V3 ℝ} {qs : List (V3 ℝ)} {best b1 : Best ℝ} (h : Picks p qs best b1) :
    Picks p (qs ++ [q]) best (considerLe realPlanar b1 (Vector3D.sub q p)) := by
  obtain ⟨h1, h2, h3⟩ := h
  unfold considerLe; rw [norm_sub]
  split_ifs with hc
  · refine ⟨Or.inr ⟨q, by simp, rfl⟩, hc.trans h2, ?_⟩
    intro q' hq'
    rcases List.mem_append.mp hq' with h' | h'
    · exact hc.trans (h3 q' h')
    · rw [List.mem_singleton.mp h']
  · refine ⟨?_, h2, ?_⟩
    · rcases h1 with h1 | ⟨q', h', h1⟩
      · exact Or.inl h1
      · exact Or.inr ⟨q', List.mem_append_left _ h', h1⟩
    · intro q' hq'
      rcases List.mem_append.mp hq' with h' | h'
      · exact h3 q' h'
      · rw [List.mem_singleton.mp h']; exact (not_le.mp hc).le

theorem Picks.lt {p q : V3 ℝ} {qs : List (V3 ℝ)} {best b1 : Best ℝ} (h : Picks p qs best b1) :
    Picks p (qs ++ [q]) best (considerLt realPlanar b1 (Vector3D.sub q p)) := by
  obtain ⟨h1, h2, h3⟩ := h
  unfold considerLt; rw [norm_sub]
  split_ifs with hc
  · refine ⟨Or.inr ⟨q, by simp, rfl⟩, hc.le.trans h2, ?_⟩
    intro q' hq'
    rcases List.mem_append.mp hq' with h' | h'
    · exact hc.le.trans (h3 q' h')
    · rw [List.mem_singleton.mp h']
  · refine ⟨?_, h2, ?_⟩
    · rcases h1 with h1 | ⟨q', h', h1⟩
      · exact Or.inl h1
      · exact Or.inr ⟨q', List.mem_append_left _ h', h1⟩
    · intro q' hq'
      rcases List.mem_append.mp hq' with h' | h'
      · exact h3 q' h'
      · rw [List.mem_singleton.mp h']; exact not_lt.mp hc

theorem nearestFaces_picks (gap : ℝ) (b : Body ℝ) (p : V3 ℝ) (phi h s : ℝ) (hp : p = loc phi h s p.z)
    (best : Best ℝ) :
    Picks p (facePoints gap b p phi h s) best (nearestFaces realPlanar gap b p phi best) := by
  unfold nearestFaces
  dsimp only
  rw [face_base phi b.d h s 0 p hp, face_base phi b.d h s b.thick p hp, face_side phi b.d h s b.left p hp,
    face_side phi b.d h s b.right p hp, face_z phi b.d h s b.zEnd p hp, face_z phi b.d h s (gap / 2) p hp]
  exact (((((Picks.nil p best).le.le).lt).lt).lt).lt

variable (c : Call ℝ) (sens : Bool) (gap : ℝ)

/-- The sizes of a layer are not negative. -/
def Sized (s : Size ℝ) : Prop := 0 ≤ s.thickness ∧ 0 ≤ s.width ∧ 0 ≤ s.length

theorem facePoints_mem (hN : 0 < c.nLadders) (hg : 0 ≤ gap) (hs : Sized (c.size sens)) (p : V3 ℝ) (i : ℕ)
    (h s : ℝ) : ∀ q ∈ facePoints gap (body gap sens (stored c)) p (ladderPhi realPlanar (stored c) i) h s,
      q ∈ volume c sens gap (moduleOf c.nLadders i) := by
  obtain ⟨hT, hW, hL⟩ := hs
  rw [body_stored]
  generalize hS : c.size sens = S at *
  have hbox : ∀ h' s' z', 0 ≤ h' → h' ≤ S.thickness → -S.width / 2 - S.offset ≤ s' → s' ≤ S.width / 2 - S.offset →
      gap / 2 ≤ z' → z' ≤ S.length + gap / 2 →
      loc (ladderPhi realPlanar (stored c) i) (S.distance + h') s' (sgn p * z')
        ∈ volume c sens gap (moduleOf c.nLadders i) := by
    intro h' s' z' a1 a2 a3 a4 a5 a6
    refine ⟨S.distance + h', -s', sgn p * z', loc_point c hN i _ _ _, ?_, ?_, ?_, ?_, ?_, ?_⟩ <;>
      (try rw [hS]) <;> (try rw [abs_sgn_mul p (by linarith : (0 : ℝ) ≤ z')]) <;> linarith
  have hcs := clamp_mem (x := s) (show -S.width / 2 - S.offset ≤ S.width / 2 - S.offset by linarith)
  have hcz := clamp_mem (x := |p.z|) (show gap / 2 ≤ S.length + gap / 2 by linarith)
  have hch := clamp_mem (x := h - S.distance) hT
  intro q hq
  simp only [facePoints, List.mem_cons, List.not_mem_nil, or_false] at hq
  rcases hq with rfl | rfl | rfl | rfl | rfl | rfl
  · exact hbox _ _ _ (le_refl _) hT hcs.1 hcs.2 hcz.1 hcz.2
  · exact hbox _ _ _ hT (le_refl _) hcs.1 hcs.2 hcz.1 hcz.2
  · exact hbox _ _ _ hch.1 hch.2 (le_refl _) (by linarith) hcz.1 hcz.2
  · exact hbox _ _ _ hch.1 hch.2 (by linarith) (le_refl _) hcz.1 hcz.2
  · exact hbox _ _ _ hch.1 hch.2 hcs.1 hcs.2 (by linarith) (le_refl _)
  · exact hbox _ _ _ hch.1 hch.2 hcs.1 hcs.2 (le_refl _) (by linarith)

theorem clamp_far {x lo hi : ℝ} (h : lo ≤ hi) (hx : ¬ (lo ≤ x ∧ x ≤ hi)) :
    clamp x lo hi = lo ∨ clamp x lo hi = hi := by
  unfold clamp; split_ifs with h1 h2
  · exact Or.inr rfl
  · exact Or.inl rfl
  · exact absurd ⟨not_lt.mp h2, not_lt.mp h1⟩ hx

/-- One of the six points is at least as near as any point of the volume, if the point is outside. -/
theorem facePoints_near (hN : 0 < c.nLadders) (hg : 0 ≤ gap) (hs : Sized (c.size sens)) {p : V3 ℝ} {i : ℕ}
    {h s : ℝ} (hp : p = loc (ladderPhi realPlanar (stored c) i) h s p.z)
    (hout : p ∉ volume c sens gap (moduleOf c.nLadders i)) {q : V3 ℝ}
    (hq : q ∈ volume c sens gap (moduleOf c.nLadders i)) :
    ∃ f ∈ facePoints gap (body gap sens (stored c)) p (ladderPhi realPlanar (stored c) i) h s,
      dist2 p f ≤ dist2 p q := by
  obtain ⟨hT, hW, hL⟩ := hs
  obtain ⟨h', u, z, rfl, q1, q2, q3, q4, q5, q6⟩ := hq
  rw [body_stored]
  generalize hS : c.size sens = S at *
  set phi := ladderPhi realPlanar (stored c) i with hphi
  have hq' : point (azimuth c (moduleOf c.nLadders i)) h' u z = loc phi h' (-u) z := by
    rw [hphi, loc_point c hN, neg_neg]
  rw [hq']
  have hcs := clamp_nearest (x := s) (lo := -S.width / 2 - S.offset) (hi := S.width / 2 - S.offset) (y := -u)
    (by linarith) (by linarith)
  have hcz := clamp_nearest (x := |p.z|) (lo := gap / 2) (hi := S.length + gap / 2) (y := |z|)
    q5 (by linarith)
  have hch := clamp_nearest (x := h - S.distance) (lo := 0) (hi := S.thickness) (y := h' - S.distance)
    (by linarith) (by linarith)
  have hzz : ∀ y, (p.z - sgn p * y) ^ 2 = (y - |p.z|) ^ 2 := by
    intro y
    rw [← sgn_abs p]; linear_combination (y ^ 2 - p.z ^ 2) * sgn_sq p
  have hz3 : (|z| - |p.z|) ^ 2 ≤ (p.z - z) ^ 2 := by
    have := sq_le_sq.mpr (abs_abs_sub_abs_le z p.z)
    linarith [show (z - p.z) ^ 2 = (p.z - z) ^ 2 by ring]
  have key : ∀ a b y, (a - h) ^ 2 ≤ (h' - h) ^ 2 → (b - s) ^ 2 ≤ (-u - s) ^ 2 →
      (y - |p.z|) ^ 2 ≤ (|z| - |p.z|) ^ 2 → dist2 p (loc phi a b (sgn p * y)) ≤ dist2 p (loc phi h' (-u) z) := by
    intro a b y k1 k2 k3
    rw [show dist2 p (loc phi a b (sgn p * y)) = (h - a) ^ 2 + (s - b) ^ 2 + (p.z - sgn p * y) ^ 2 by
        conv_lhs => rw [hp]
        exact dist2_loc _ _ _ _ _ _ _,
      show dist2 p (loc phi h' (-u) z) = (h - h') ^ 2 + (s - -u) ^ 2 + (p.z - z) ^ 2 by
        conv_lhs => rw [hp]
        exact dist2_loc _ _ _ _ _ _ _, hzz]
    nlinarith
  have kh : (S.distance + clamp (h - S.distance) 0 S.thickness - h) ^ 2 ≤ (h' - h) ^ 2 := by
    nlinarith
  by_cases c1 : 0 ≤ h - S.distance ∧ h - S.distance ≤ S.thickness
  · by_cases c2 : -S.width / 2 - S.offset ≤ s ∧ s ≤ S.width / 2 - S.offset
    · have c3 : ¬ (gap / 2 ≤ |p.z| ∧ |p.z| ≤ S.length + gap / 2) := by
        rintro ⟨c4, c5⟩
        apply hout
        refine ⟨h, -s, p.z, ?_, ?_, ?_, ?_, ?_, c4, ?_⟩
        · rw [← loc_point c hN, ← hphi]; exact hp
        all_goals (try rw [hS]); linarith [c1.1, c1.2, c2.1, c2.2]
      rcases clamp_far (by linarith) c3 with e | e
      · exact ⟨loc phi (S.distance + clamp (h - S.distance) 0 S.thickness)
          (clamp s (-S.width / 2 - S.offset) (S.width / 2 - S.offset)) (sgn p * (gap / 2)),
          by simp [facePoints], key _ _ _ kh hcs (by rw [e] at hcz; exact hcz)⟩
      · refine ⟨loc phi (S.distance + clamp (h - S.distance) 0 S.thickness)
          (clamp s (-S.width / 2 - S.offset) (S.width / 2 - S.offset)) (sgn p * (S.length + gap / 2)),
          by simp [facePoints], key _ _ _ kh hcs (by rw [e] at hcz; exact hcz)⟩
    · rcases clamp_far (by linarith) c2 with e | e
      · refine ⟨loc phi (S.distance + clamp (h - S.distance) 0 S.thickness) (-S.width / 2 - S.offset)
          (sgn p * clamp |p.z| (gap / 2) (S.length + gap / 2)),
          by simp [facePoints], key _ _ _ kh (by rw [e] at hcs; exact hcs) hcz⟩
      · refine ⟨loc phi (S.distance + clamp (h - S.distance) 0 S.thickness) (S.width / 2 - S.offset)
          (sgn p * clamp |p.z| (gap / 2) (S.length + gap / 2)),
          by simp [facePoints], key _ _ _ kh (by rw [e] at hcs; exact hcs) hcz⟩
  · rcases clamp_far hT c1 with e | e
    · refine ⟨loc phi (S.distance + 0) (clamp s (-S.width / 2 - S.offset) (S.width / 2 - S.offset))
          (sgn p * clamp |p.z| (gap / 2) (S.length + gap / 2)),
          by simp [facePoints], key _ _ _ (by rw [e] at kh; exact kh) hcs hcz⟩
    · refine ⟨loc phi (S.distance + S.thickness) (clamp s (-S.width / 2 - S.offset) (S.width / 2 - S.offset))
          (sgn p * clamp |p.z| (gap / 2) (S.length + gap / 2)),
          by simp [facePoints], key _ _ _ (by rw [e] at kh; exact kh) hcs hcz⟩

/-! The loops -/

/-- The state of the search: nothing found yet, or a vector to a volume, with its length. -/
def Found (p : V3 ℝ) (vols : V3 ℝ → Prop) (best : Best ℝ) : Prop :=
  best = (Vector3D.zero, 9999999 / 100) ∨ ∃ q, vols q ∧ best = (Vector3D.sub q p, Real.sqrt (dist2 p q))

theorem nearestLadder_step (hN : 0 < c.nLadders) (hg : 0 ≤ gap) (hs : Sized (c.size sens)) (p : V3 ℝ)
    (best : Best ℝ) (i : ℕ) :
    (nearestLadder realPlanar gap sens p (stored c) best i).2 ≤ best.2 ∧
    (nearestLadder realPlanar gap sens p (stored c) best i = best ∨ nearInRange realPlanar p (stored c) i = true ∧
      ∃ q ∈ volume c sens gap (moduleOf c.nLadders i),
        nearestLadder realPlanar gap sens p (stored c) best i = (Vector3D.sub q p, Real.sqrt (dist2 p q))) ∧
    (nearInRange realPlanar p (stored c) i = true → p ∉ volume c sens gap (moduleOf c.nLadders i) →
      ∀ q ∈ volume c sens gap (moduleOf c.nLadders i),
        (nearestLadder realPlanar gap sens p (stored c) best i).2 ≤ Real.sqrt (dist2 p q)) := by
  unfold nearestLadder
  by_cases hr : nearInRange realPlanar p (stored c) i = false
  · rw [if_pos hr]
    exact ⟨le_refl _, Or.inl rfl, fun h => by rw [hr] at h; cases h⟩
  · rw [if_neg hr]
    set phi := ladderPhi realPlanar (stored c) i with hphi
    have hp := loc_coords phi p
    obtain ⟨h1, h2, h3⟩ := nearestFaces_picks gap (body gap sens (stored c)) p phi _ _ hp best
    refine ⟨h2, ?_, ?_⟩
    · rcases h1 with h1 | ⟨q, hq, h1⟩
      · exact Or.inl h1
      · exact Or.inr ⟨by simpa using hr, q, facePoints_mem c sens gap hN hg hs p i _ _ q hq, h1⟩
    · intro _ hout q hq
      obtain ⟨f, hf, hle⟩ := facePoints_near c sens gap hN hg hs hp hout hq
      exact (h3 f hf).trans (Real.sqrt_le_sqrt hle)

/-- A fold that never increases the length. -/
theorem foldl_le {α : Type} (f : Best ℝ → α → Best ℝ) (hf : ∀ b x, (f b x).2 ≤ b.2) (l : List α) (b : Best ℝ) :
    (l.foldl f b).2 ≤ b.2 := by
  induction l generalizing b with
  | nil => exact le_refl _
  | cons x xs ih => exact (ih _).trans (hf b x)

theorem foldl_le_mem {α : Type} (f : Best ℝ → α → Best ℝ) {l : List α} (hf : ∀ b, ∀ x ∈ l, (f b x).2 ≤ b.2)
    {x : α} (hx : x ∈ l) {d : ℝ} (hd : ∀ b, (f b x).2 ≤ d) (b : Best ℝ) : (l.foldl f b).2 ≤ d := by
  induction l generalizing b with
  | nil => simp at hx
  | cons y ys ih =>
    simp only [List.foldl_cons]
    rcases List.mem_cons.mp hx with rfl | h
    · have : ∀ (l : List α) (b : Best ℝ), (∀ b, ∀ x ∈ l, (f b x).2 ≤ b.2) → (l.foldl f b).2 ≤ b.2 := by
        intro l
        induction l with
        | nil => intro b _; exact le_refl _
        | cons z zs ihz =>
          intro b h
          exact (ihz _ fun b x hx => h b x (List.mem_cons_of_mem _ hx)).trans (h b z List.mem_cons_self)
      exact (this ys _ fun b x hx => hf b x (List.mem_cons_of_mem _ hx)).trans (hd b)
    · exact ih (fun b x hx => hf b x (List.mem_cons_of_mem _ hx)) h _

theorem foldl_inv {α : Type} (f : Best ℝ → α → Best ℝ) (I : Best ℝ → Prop) {l : List α}
    (hf : ∀ b, I b → ∀ x ∈ l, I (f b x)) {b : Best ℝ} (hb : I b) : I (l.foldl f b) := by
  induction l generalizing b with
  | nil => exact hb
  | cons y ys ih =>
    exact ih (fun b hb x hx => hf b hb x (List.mem_cons_of_mem _ hx)) (hf b hb y List.mem_cons_self)

/-- The arguments of all calls are sensible. -/
def Sensible (c : Call ℝ) (sens : Bool) : Prop := 0 < c.nLadders ∧ Sized (c.size sens)

theorem nearest_loop (hg : 0 ≤ gap) {calls : List (Call ℝ)} (hc : ∀ c ∈ calls, Sensible c sens) (p : V3 ℝ) :
    Found p (fun q => ∃ c ∈ calls, ∃ i < c.nLadders.toNat, nearInRange realPlanar p (stored c) i = true
        ∧ q ∈ volume c sens gap (moduleOf c.nLadders i))
      ((calls.map stored).foldl (nearestLayer realPlanar gap sens p) (Vector3D.zero, 9999999 / 100))
    ∧ ((calls.map stored).foldl (nearestLayer realPlanar gap sens p) (Vector3D.zero, 9999999 / 100)).2 ≤ 9999999 / 100
    ∧ ∀ c ∈ calls, ∀ i < c.nLadders.toNat, nearInRange realPlanar p (stored c) i = true →
      p ∉ volume c sens gap (moduleOf c.nLadders i) → ∀ q ∈ volume c sens gap (moduleOf c.nLadders i),
      ((calls.map stored).foldl (nearestLayer realPlanar gap sens p) (Vector3D.zero, 9999999 / 100)).2
        ≤ Real.sqrt (dist2 p q) := by
  have hmono : ∀ b : Best ℝ, ∀ l ∈ calls.map stored, (nearestLayer realPlanar gap sens p b l).2 ≤ b.2 := by
    intro b l hl
    obtain ⟨c, hcm, rfl⟩ := List.mem_map.mp hl
    unfold nearestLayer
    exact foldl_le _ (fun b i => (nearestLadder_step c sens gap (hc c hcm).1 hg (hc c hcm).2 p b i).1) _ _
  refine ⟨?_, ?_, ?_⟩
  · apply foldl_inv
    · intro b hb l hl
      obtain ⟨c, hcm, rfl⟩ := List.mem_map.mp hl
      unfold nearestLayer
      apply foldl_inv _ _ _ hb
      intro b' hb' i hi
      rcases (nearestLadder_step c sens gap (hc c hcm).1 hg (hc c hcm).2 p b' i).2.1 with h | ⟨hr, q, hq, h⟩
      · rw [h]; exact hb'
      · rw [h]; exact Or.inr ⟨q, ⟨c, hcm, i, List.mem_range.mp hi, hr, hq⟩, rfl⟩
    · exact Or.inl rfl
  · exact foldl_inv _ (fun b => b.2 ≤ 9999999 / 100) (fun b hb x hx => (hmono b x hx).trans hb) (le_refl _)
  · intro c hcm i hi hr hout q hq
    refine foldl_le_mem _ hmono (List.mem_map_of_mem hcm) (fun b => ?_) _
    unfold nearestLayer
    refine foldl_le_mem _ (fun b i _ => (nearestLadder_step c sens gap (hc c hcm).1 hg (hc c hcm).2 p b i).1)
      (List.mem_range.mpr hi) (fun b => ?_) _
    exact (nearestLadder_step c sens gap (hc c hcm).1 hg (hc c hcm).2 p b i).2.2 hr hout q hq

/-- A ladder is tried if its normal is within the angle between two ladders. -/
theorem nearInRange_of (hN : 3 ≤ c.nLadders) (hphi0 : 0 ≤ c.phi0) (hphi1 : c.phi0 ≤ 2 * pi) {p : V3 ℝ}
    (hax : ¬ (p.x = 0 ∧ p.y ≤ 0)) {i : ℕ} (hi : i < c.nLadders.toNat) {R th : ℝ} (hR : 0 < R)
    (hx : p.x = R * Real.cos th) (hy : p.y = R * Real.sin th)
    (hth : |th - azimuth c (moduleOf c.nLadders i)| ≤ 2 * pi / c.nLadders) :
    nearInRange realPlanar p (stored c) i = true := by
  obtain ⟨f, hf, f1, f2, f3, f4⟩ := getPhiPoint_spec hax
  have hpi := Real.pi_pos
  have hN0 : 0 < c.nLadders := by omega
  have hNr : (0 : ℝ) < c.nLadders := by exact_mod_cast hN0
  have hN3 : (3 : ℝ) ≤ c.nLadders := by exact_mod_cast hN
  obtain ⟨g1, g2⟩ := ladderPhi_azimuth c hN0 i
  unfold nearInRange
  rw [hf]
  simp only [rp_pi]
  rw [show (stored c).1.NLadders = c.nLadders from rfl]
  set D := 2 * pi / (c.nLadders : ℝ) with hD
  have hND : (c.nLadders : ℝ) * D = 2 * pi := by rw [hD]; field_simp
  have hDpos : 0 < D := by positivity
  have hD3 : 3 * D ≤ 2 * pi := by nlinarith
  have hphir : -pi < ladderPhi realPlanar (stored c) i ∧ ladderPhi realPlanar (stored c) i ≤ pi := by
    have hiD : (i : ℝ) * D ≤ 2 * pi - D := by
      have : ((i : ℤ) : ℝ) ≤ ((c.nLadders - 1 : ℤ) : ℝ) := by
        apply Int.cast_le.mpr; omega
      push_cast at this; nlinarith
    have hiD0 : 0 ≤ (i : ℝ) * D := by positivity
    have := corr_range (a := pi / 2 - c.phi0 + i * D) (by linarith) (by linarith)
    exact ⟨this.1, this.2.1⟩
  have hdir : (nearInRange realPlanar p (stored c) i = true ∨ True) := Or.inr trivial
  set phi := ladderPhi realPlanar (stored c) i with hphi
  set az := azimuth c (moduleOf c.nLadders i) with haz
  have hrad : Real.sqrt (p.x * p.x + p.y * p.y) = R := by
    rw [hx, hy, show R * Real.cos th * (R * Real.cos th) + R * Real.sin th * (R * Real.sin th) = R ^ 2 by
      linear_combination R ^ 2 * Real.sin_sq_add_cos_sq th, Real.sqrt_sq hR.le]
  rw [hrad] at f3 f4
  obtain ⟨k, hk⟩ : ∃ k : ℤ, f = (phi + (az - th)) - 2 * pi * k := by
    apply angle_turns hR.ne'
    · rw [← f3, hx, Real.sin_add, g1, g2, Real.cos_sub, Real.sin_sub]
      linear_combination (-(R * Real.cos th)) * Real.sin_sq_add_cos_sq az
    · rw [← f4, hy, Real.cos_add, g1, g2, Real.cos_sub, Real.sin_sub]
      linear_combination (-(R * Real.sin th)) * Real.sin_sq_add_cos_sq az
  obtain ⟨t1, t2⟩ := abs_le.mp hth
  exact isInRange_of (a := phi + (az - th)) (k := k) (by linarith) (by linarith) (by linarith) (by linarith)
    (by linarith) f1 f2 hk

end Gear.ZPlanar
