/-
Properties of the rounding to `float`, and of the planar vertex detector with numbers stored in floats.
-/
import Verif.ZPlanarFloat
import Verif.ZPlanarProps
import Verif.Doubles

set_option autoImplicit false
set_option linter.unusedSectionVars false

namespace Gear.ZPlanar.Float

open Vector3D (V3)
open Real (pi)
open Spec
open MaterialMap (roundEven)
open Doubles (roundEven_cases roundEven_err roundEven_int roundEven_near roundEven_mono roundEven_neg log_bounds
  two_zpow_pos two_zpow_add)

section Rounding

variable {K : Type} [Field K] [LinearOrder K] [IsStrictOrderedRing K] [FloorRing K]

theorem binary32_zero : binary32 (0 : K) = 0 := if_pos rfl

theorem binary32_neg (q : K) : binary32 (-q) = -binary32 q := by
  unfold binary32
  by_cases h : q = 0
  · subst h; simp
  · rw [if_neg (neg_ne_zero.2 h), if_neg h, abs_neg]
    dsimp only
    rw [neg_mul, roundEven_neg]
    push_cast
    ring
theorem binary32_pos {q : K} (h : 0 < q) :
    binary32 q = roundEven (q * (2 : K) ^ (23 - Int.log 2 q)) * (2 : K) ^ (Int.log 2 q - 23) := by
  unfold binary32
  rw [if_neg h.ne', abs_of_pos h]

/-- The rounded number is between the same powers of two. -/
theorem binary32_between {q : K} (h : 0 < q) :
    (2 : K) ^ Int.log 2 q ≤ binary32 q ∧ binary32 q ≤ 2 ^ (Int.log 2 q + 1) := by
  obtain ⟨h1, h2⟩ := log_bounds h
  set e := Int.log 2 q with he
  have hp := two_zpow_pos (K := K) (23 - e)
  have hp2 := two_zpow_pos (K := K) (e - 23)
  have e1 : (2 : K) ^ e * 2 ^ (23 - e) = ((2 ^ 23 : ℤ) : K) := by
    rw [← two_zpow_add, show e + (23 - e) = (23 : ℤ) by ring]; norm_num
  have e2 : (2 : K) ^ (e + 1) * 2 ^ (23 - e) = ((2 ^ 24 : ℤ) : K) := by
    rw [← two_zpow_add, show e + 1 + (23 - e) = (24 : ℤ) by ring]; norm_num
  have m1 : (2 ^ 23 : ℤ) ≤ roundEven (q * 2 ^ (23 - e)) := by
    rw [← roundEven_int (K := K) (2 ^ 23)]
    exact roundEven_mono (by rw [← e1]; exact mul_le_mul_of_nonneg_right h1 hp.le)
  have m2 : roundEven (q * 2 ^ (23 - e)) ≤ (2 ^ 24 : ℤ) := by
    rw [← roundEven_int (K := K) (2 ^ 24)]
    exact roundEven_mono (by rw [← e2]; exact mul_le_mul_of_nonneg_right h2.le hp.le)
  rw [binary32_pos h, ← he]
  have i1 : (2 : K) ^ e = ((2 ^ 23 : ℤ) : K) * 2 ^ (e - 23) := by
    rw [← e1, mul_assoc, ← two_zpow_add, show 23 - e + (e - 23) = (0 : ℤ) by ring]; simp
  have i2 : (2 : K) ^ (e + 1) = ((2 ^ 24 : ℤ) : K) * 2 ^ (e - 23) := by
    rw [← e2, mul_assoc, ← two_zpow_add, show 23 - e + (e - 23) = (0 : ℤ) by ring]; simp
  rw [i1, i2]
  exact ⟨mul_le_mul_of_nonneg_right (by exact_mod_cast m1) hp2.le,
    mul_le_mul_of_nonneg_right (by exact_mod_cast m2) hp2.le⟩

theorem binary32_mono_pos {x y : K} (hx : 0 < x) (h : x ≤ y) : binary32 x ≤ binary32 y := by
  have hy : 0 < y := hx.trans_le h
  have hl : Int.log 2 x ≤ Int.log 2 y := Int.log_mono_right hx h
  rcases lt_or_eq_of_le hl with hl | hl
  · calc binary32 x ≤ 2 ^ (Int.log 2 x + 1) := (binary32_between hx).2
      _ ≤ 2 ^ Int.log 2 y := zpow_le_zpow_right₀ (by norm_num) hl
      _ ≤ binary32 y := (binary32_between hy).1
  · rw [binary32_pos hx, binary32_pos hy, hl]
    refine mul_le_mul_of_nonneg_right ?_ (two_zpow_pos _).le
    exact_mod_cast roundEven_mono (mul_le_mul_of_nonneg_right h (two_zpow_pos _).le)

theorem binary32_nonneg {x : K} (h : 0 ≤ x) : 0 ≤ binary32 x := by
  rcases lt_or_eq_of_le h with h | h
  · exact (two_zpow_pos _).le.trans (binary32_between h).1
  · rw [← h, binary32_zero]

theorem binary32_mono {x y : K} (h : x ≤ y) : binary32 x ≤ binary32 y := by
  rcases lt_or_ge 0 x with hx | hx
  · exact binary32_mono_pos hx h
  · rcases lt_or_ge y 0 with hy | hy
    · have := binary32_mono_pos (x := -y) (y := -x) (by linarith) (by linarith)
      rw [binary32_neg, binary32_neg] at this
      linarith
    · have h1 := binary32_nonneg hy
      have h2 := binary32_nonneg (x := -x) (by linarith)
      rw [binary32_neg] at h2
      linarith

theorem binary32_err_pos {x : K} (h : 0 < x) : |binary32 x - x| ≤ 1 / 2 ^ 24 * x := by
  obtain ⟨h1, -⟩ := log_bounds h
  rw [binary32_pos h]
  set e := Int.log 2 x with he
  have hr := roundEven_err (x * 2 ^ (23 - e))
  have hx : x = x * 2 ^ (23 - e) * 2 ^ (e - 23) := by
    rw [mul_assoc, ← two_zpow_add, show 23 - e + (e - 23) = (0 : ℤ) by ring]; simp
  have hp := two_zpow_pos (K := K) (e - 23)
  have : |(roundEven (x * 2 ^ (23 - e)) : K) * 2 ^ (e - 23) - x| =
      |(roundEven (x * 2 ^ (23 - e)) : K) - x * 2 ^ (23 - e)| * 2 ^ (e - 23) := by
    conv_lhs => rw [hx]
    rw [← sub_mul, abs_mul, abs_of_pos hp]
    rw [← hx]
  rw [this]
  calc _ ≤ 1 / 2 * (2 : K) ^ (e - 23) := mul_le_mul_of_nonneg_right hr hp.le
    _ = 1 / 2 ^ 24 * 2 ^ e := by
        rw [show e - 23 = -23 + e by ring, two_zpow_add]; norm_num; ring
    _ ≤ 1 / 2 ^ 24 * x := mul_le_mul_of_nonneg_left h1 (by norm_num)

theorem binary32_err (x : K) : |binary32 x - x| ≤ 1 / 2 ^ 24 * |x| := by
  rcases lt_trichotomy x 0 with h | h | h
  · have := binary32_err_pos (x := -x) (by linarith)
    rw [binary32_neg] at this
    rw [abs_of_neg h]
    rw [show binary32 x - x = -(-binary32 x - -x) by ring, abs_neg]
    exact this
  · subst h; simp [binary32_zero]
  · rw [abs_of_pos h]; exact binary32_err_pos h

/-- If the bits of a positive number from some position on, as a number with 24 bits, are near an integer, then it is
rounded to that. -/
theorem binary32_eval {x : K} {n k : ℤ} (h1 : (2 : K) ^ (k + 23) ≤ x) (h2 : x < 2 ^ (k + 24))
    (h3 : |x * 2 ^ (-k) - n| < 1 / 2) : binary32 x = n * 2 ^ k := by
  have hx : 0 < x := (two_zpow_pos _).trans_le h1
  have hl : Int.log 2 x = k + 23 := by
    obtain ⟨l1, l2⟩ := log_bounds hx
    have a1 : (2 : K) ^ (Int.log 2 x) < 2 ^ (k + 24) := l1.trans_lt h2
    have a2 : (2 : K) ^ (k + 23) < 2 ^ (Int.log 2 x + 1) := h1.trans_lt l2
    rw [zpow_lt_zpow_iff_right₀ (by norm_num)] at a1 a2
    omega
  rw [binary32_pos hx, hl, show 23 - (k + 23) = -k by ring, roundEven_near h3]
  congr 2
  ring


end Rounding

/-! ### Specification -/

/-- What the theorems assume of the conversion to `float`: it respects the order and has relative error at most `u`. -/
structure Converts (flt : ℝ → ℝ) (u : ℝ) : Prop where
  mono : ∀ x y, x ≤ y → flt x ≤ flt y
  err : ∀ x, |flt x - x| ≤ u * |x|

/-- The conversion to IEEE floats is such a conversion. -/
theorem binary32_converts : Converts (binary32 : ℝ → ℝ) (1 / 2 ^ 24) :=
  ⟨fun _ _ h => binary32_mono h, binary32_err⟩

/-- The points of a volume that are away from the ends and the side faces by the errors of the borders. -/
def inner (u : ℝ) (c : Call ℝ) (sens : Bool) (gap : ℝ) (m : ℤ) : Set (V3 ℝ) :=
  {p | ∃ h s z, p = point (azimuth c m) h s z ∧ (c.size sens).distance ≤ h
    ∧ h ≤ (c.size sens).distance + (c.size sens).thickness
    ∧ |s - (c.size sens).offset| ≤ (c.size sens).width / 2 - u * ((c.size sens).width / 2 + |(c.size sens).offset|)
    ∧ gap / 2 + u * (gap / 2) ≤ |z| ∧ |z| ≤ gap / 2 + (c.size sens).length - u * (gap / 2 + (c.size sens).length)}

/-- The largest radius of a volume's points. -/
noncomputable def radius (s : Size ℝ) : ℝ :=
  Real.sqrt ((s.distance + s.thickness) ^ 2 + (s.width / 2 + |s.offset|) ^ 2)

/-! ### Lemmas -/

theorem Converts.u_nonneg {flt : ℝ → ℝ} {u : ℝ} (hf : Converts flt u) : 0 ≤ u := by
  have := (abs_nonneg _).trans (hf.err 1)
  simpa using this

theorem Converts.zero {flt : ℝ → ℝ} {u : ℝ} (hf : Converts flt u) : flt 0 = 0 := by
  have := hf.err 0
  simp only [sub_zero, abs_zero, mul_zero] at this
  exact abs_nonpos_iff.mp this

theorem Converts.nonneg {flt : ℝ → ℝ} {u : ℝ} (hf : Converts flt u) {x : ℝ} (h : 0 ≤ x) : 0 ≤ flt x := by
  rw [← hf.zero]; exact hf.mono _ _ h

theorem Converts.lower {flt : ℝ → ℝ} {u : ℝ} (hf : Converts flt u) {x : ℝ} (h : 0 ≤ x) : (1 - u) * x ≤ flt x := by
  have := (abs_le.mp (hf.err x)).1
  rw [abs_of_nonneg h] at this
  linarith

theorem Converts.within {flt : ℝ → ℝ} {u : ℝ} (hf : Converts flt u) {x b : ℝ} (h : |x| ≤ b) : |flt x - x| ≤ u * b :=
  (hf.err x).trans (mul_le_mul_of_nonneg_left h hf.u_nonneg)

theorem clamp_shift {x lo hi lo' hi' e : ℝ} (h : lo ≤ hi) (h' : lo' ≤ hi') (h1 : |lo' - lo| ≤ e) (h2 : |hi' - hi| ≤ e) :
    |clamp x lo' hi' - clamp x lo hi| ≤ e := by
  obtain ⟨a1, a2⟩ := abs_le.mp h1
  obtain ⟨b1, b2⟩ := abs_le.mp h2
  unfold clamp
  rw [abs_le]
  split_ifs <;> constructor <;> linarith

theorem hit_vector (flt : ℝ → ℝ) (b : Body ℝ) (gap phi h s : ℝ) (p : V3 ℝ) (hp : p = loc phi h s p.z) :
    distanceToPlane flt p ⟨b.d * (nBase realPlanar phi).x, b.d * (nBase realPlanar phi).y, b.d * (nBase realPlanar phi).z⟩
      (nBase realPlanar phi) (nSide realPlanar phi) (nZ p) b.left b.right (gap / 2) b.zEnd
    = Vector3D.sub (loc phi b.d (clamp s (flt b.left) (flt b.right))
        ((if p.z < 0 then -1 else 1) * clamp |p.z| (flt (gap / 2)) (flt b.zEnd))) p := by
  have := ZPlanar.hit_vector ⟨flt b.zEnd, flt b.left, flt b.right, b.thick, b.d⟩ (2 * flt (gap / 2)) phi h s p hp
  rw [show 2 * flt (gap / 2) / 2 = flt (gap / 2) by ring] at this
  exact this

/-- The borders of a ladder as floats. -/
theorem borders {flt : ℝ → ℝ} {u : ℝ} (hf : Converts flt u) {gap : ℝ} (hg : 0 ≤ gap) {S : Size ℝ} (hW : 0 ≤ S.width)
    (hL : 0 ≤ S.length) :
    |flt (-S.width / 2 - S.offset) - (-S.width / 2 - S.offset)| ≤ u * (S.width / 2 + |S.offset|)
    ∧ |flt (S.width / 2 - S.offset) - (S.width / 2 - S.offset)| ≤ u * (S.width / 2 + |S.offset|)
    ∧ |flt (gap / 2) - gap / 2| ≤ u * (gap / 2 + S.length)
    ∧ |flt (S.length + gap / 2) - (S.length + gap / 2)| ≤ u * (gap / 2 + S.length) := by
  have o1 := le_abs_self S.offset
  have o2 := neg_abs_le S.offset
  refine ⟨hf.within ?_, hf.within ?_, hf.within ?_, hf.within ?_⟩ <;> rw [abs_le] <;> constructor <;> linarith

/-- If the code reports a ladder, the point is in the volume up to the tolerance and the errors of the borders. -/
theorem ladderHit_sound {flt : ℝ → ℝ} {u : ℝ} (hf : Converts flt u) (c : Call ℝ) (hN : 0 < c.nLadders) (sens : Bool)
    {gap : ℝ} (hg : 0 ≤ gap) (hW : 0 ≤ (c.size sens).width) (hL : 0 ≤ (c.size sens).length)
    (hT : 0 ≤ (c.size sens).thickness) {p : V3 ℝ} {i : ℕ}
    (h : ladderHit realPlanar flt gap sens p (stored c) i = true) :
    ∃ q ∈ volume c sens gap (moduleOf c.nLadders i), (0 ≤ p.z → 0 ≤ q.z) ∧ (p.z < 0 → q.z ≤ 0)
      ∧ |p.x - q.x| ≤ EPSILON * (5 + 3 * (c.size sens).thickness) + u * ((c.size sens).width / 2 + |(c.size sens).offset|)
      ∧ |p.y - q.y| ≤ EPSILON * (5 + 3 * (c.size sens).thickness) + u * ((c.size sens).width / 2 + |(c.size sens).offset|)
      ∧ |p.z - q.z| ≤ EPSILON * (5 + 3 * (c.size sens).thickness) + u * (gap / 2 + (c.size sens).length) := by
  unfold ladderHit at h
  simp only [stored_sel] at h
  by_cases hr : isInRange (Option.map (fun a => correctPhiRange realPlanar
      (a + i * (2 * realPlanar.pi / (stored c).1.NLadders) - EPSILON))
      (startInnerPhi realPlanar (mkLayer realPlanar c.nLadders c.phi0 (c.size sens))))
    (Option.map (fun a => correctPhiRange realPlanar (a + i * (2 * realPlanar.pi / (stored c).1.NLadders) + EPSILON))
      (endInnerPhi realPlanar (mkLayer realPlanar c.nLadders c.phi0 (c.size sens))))
    (getPhiPoint realPlanar p) = false
  · rw [if_pos hr] at h; cases h
  · rw [if_neg hr] at h
    set phi := ladderPhi realPlanar (stored c) i with hphi
    set b := body gap sens (stored c) with hb
    have hpl := loc_coords phi p
    set hh := p.x * Real.sin phi + p.y * Real.cos phi with hhh
    set ss := p.x * Real.cos phi - p.y * Real.sin phi with hss
    rw [hit_vector flt b gap phi hh ss p hpl] at h
    set e : ℝ := if p.z < 0 then -1 else 1 with he
    have he1 : |e| = 1 := by rw [he]; split_ifs <;> simp
    set gU' := clamp ss (flt b.left) (flt b.right) with hgU'
    set gV' := clamp |p.z| (flt (gap / 2)) (flt b.zEnd) with hgV'
    set gU := clamp ss b.left b.right with hgU
    set gV := clamp |p.z| (gap / 2) b.zEnd with hgV
    set w := Vector3D.sub (loc phi b.d gU' (e * gV')) p with hw
    simp only [Bool.and_eq_true] at h
    obtain ⟨⟨⟨h1, h2⟩, h3⟩, h4⟩ := h
    obtain ⟨hc0, b1, b2, b3⟩ := norm_bounds w
    set cc := norm realPlanar w with hcc
    have hbl : b.left = -(c.size sens).width / 2 - (c.size sens).offset := by
      rw [hb, body_stored]
    have hbr : b.right = (c.size sens).width / 2 - (c.size sens).offset := by
      rw [hb, body_stored]
    have hbz : b.zEnd = (c.size sens).length + gap / 2 := by
      rw [hb, body_stored]
    have hbt : b.thick = (c.size sens).thickness := by
      rw [hb, body_stored]
    have hbd : b.d = (c.size sens).distance := by
      rw [hb, body_stored]
    have hlr : b.left ≤ b.right := by rw [hbl, hbr]; linarith
    have hzz : gap / 2 ≤ b.zEnd := by rw [hbz]; linarith
    have gU1 := clamp_mem (x := ss) hlr
    have gV1 := clamp_mem (x := |p.z|) hzz
    rw [← hgU] at gU1
    rw [← hgV] at gV1
    obtain ⟨k1, k2, k3, k4⟩ := borders hf hg hW hL
    have sU : |gU' - gU| ≤ u * ((c.size sens).width / 2 + |(c.size sens).offset|) :=
      clamp_shift hlr (hf.mono _ _ hlr) (by rw [hbl]; exact k1) (by rw [hbr]; exact k2)
    have sV : |gV' - gV| ≤ u * (gap / 2 + (c.size sens).length) :=
      clamp_shift hzz (hf.mono _ _ hzz) k3 (by rw [hbz]; exact k4)
    have hgV0 : 0 ≤ gV := by linarith [gV1.1]
    have heg : |e * gV| = gV := by
      rw [abs_mul, abs_of_nonneg hgV0, he1, one_mul]
    have heps := eps_pos
    have e1 := comp_bound hc0 (show |(nBase realPlanar phi).x| ≤ 1 from Real.abs_sin_le_one phi) b1 h1
    have e2 := comp_bound hc0 (show |(nBase realPlanar phi).y| ≤ 1 from Real.abs_cos_le_one phi) b2 h2
    have e3 := comp_bound hc0 (show |(nBase realPlanar phi).z| ≤ 1 by simp [nBase]) b3 h3
    set T := (c.size sens).thickness with hTT
    -- the height of the corrected point above the inner face
    obtain ⟨m, hm0, hmT, hmc, hcm⟩ : ∃ m, 0 ≤ m ∧ m ≤ T ∧ m ≤ cc ∧
        EPSILON * (2 + cc) + (cc - m) ≤ EPSILON * (5 + 3 * T) := by
      have hE : (EPSILON : ℝ) = 1 / 10000 := rfl
      rw [hbt] at h4
      by_cases hct : cc ≤ T
      · exact ⟨cc, hc0, hct, le_refl _, by rw [hE]; linarith⟩
      · have hct' := not_le.mp hct
        refine ⟨T, hT, le_refl _, hct'.le, ?_⟩
        have := isEqual_bound ((Bool.or_eq_true _ _ ▸ h4).resolve_left (by simpa using hct))
        rw [abs_of_pos (by linarith), abs_of_nonneg hc0, abs_of_nonneg hT] at this
        rw [hE] at this ⊢
        linarith
    have small : ∀ {a x y : ℝ}, |a| ≤ 1 → |x| ≤ y → |x * a| ≤ y := by
      intro a x y ha hx
      rw [abs_mul]
      exact (mul_le_of_le_one_right (abs_nonneg x) ha).trans hx
    refine ⟨loc phi (b.d + m) gU (e * gV), ?_, ?_, ?_, ?_, ?_, ?_⟩
    · refine ⟨b.d + m, -gU, e * gV, ?_, ?_, ?_, ?_, ?_, ?_, ?_⟩
      · rw [hphi]; exact loc_point c hN i _ _ _
      · rw [hbd]; linarith
      · rw [hbd]; linarith
      · rw [hbr] at gU1; linarith [gU1.2]
      · rw [hbl] at gU1; linarith [gU1.1]
      · rw [heg]; exact gV1.1
      · rw [heg]; linarith [gV1.2]
    · intro hz; simp only [loc, he, if_neg (not_lt.mpr hz)]; linarith
    · intro hz; simp only [loc, he, if_pos hz]; linarith
    · have : p.x - (loc phi (b.d + m) gU (e * gV)).x
          = -(w.x + cc * (nBase realPlanar phi).x) + (cc - m) * Real.sin phi + (gU' - gU) * Real.cos phi := by
        rw [hw]; simp only [Vector3D.sub, loc, nBase, rp_sin]; ring
      rw [this]
      have t1 := abs_add_le (-(w.x + cc * (nBase realPlanar phi).x) + (cc - m) * Real.sin phi)
        ((gU' - gU) * Real.cos phi)
      have t2 := abs_add_le (-(w.x + cc * (nBase realPlanar phi).x)) ((cc - m) * Real.sin phi)
      rw [abs_neg] at t2
      have t3 := small (Real.abs_sin_le_one phi) (le_of_eq (abs_of_nonneg (by linarith : (0 : ℝ) ≤ cc - m)))
      have t4 := small (Real.abs_cos_le_one phi) sU
      linarith
    · have : p.y - (loc phi (b.d + m) gU (e * gV)).y
          = -(w.y + cc * (nBase realPlanar phi).y) + (cc - m) * Real.cos phi + (gU' - gU) * (-Real.sin phi) := by
        rw [hw]; simp only [Vector3D.sub, loc, nBase, rp_cos]; ring
      rw [this]
      have t1 := abs_add_le (-(w.y + cc * (nBase realPlanar phi).y) + (cc - m) * Real.cos phi)
        ((gU' - gU) * (-Real.sin phi))
      have t2 := abs_add_le (-(w.y + cc * (nBase realPlanar phi).y)) ((cc - m) * Real.cos phi)
      rw [abs_neg] at t2
      have t3 := small (Real.abs_cos_le_one phi) (le_of_eq (abs_of_nonneg (by linarith : (0 : ℝ) ≤ cc - m)))
      have t4 := small (a := -Real.sin phi) (by rw [abs_neg]; exact Real.abs_sin_le_one phi) sU
      linarith
    · have : p.z - (loc phi (b.d + m) gU (e * gV)).z
          = -(w.z + cc * (nBase realPlanar phi).z) + (gV' - gV) * e := by
        rw [hw]; simp only [Vector3D.sub, loc, nBase]; ring
      rw [this]
      have t1 := abs_add_le (-(w.z + cc * (nBase realPlanar phi).z)) ((gV' - gV) * e)
      rw [abs_neg] at t1
      have t4 := small he1.le sV
      linarith

/-- The largest radius as a float. -/
theorem maxRadius_lower {flt : ℝ → ℝ} {u : ℝ} (hf : Converts flt u) (hu : u ≤ 1) {l : Layer ℝ}
    (hd : 0 ≤ l.Distance + l.Thickness) (hw : 0 ≤ l.Width / 2 + |l.Offset|) :
    (1 - 3 * u) * ZPlanar.maxRadius realPlanar l ≤ maxRadius realPlanar flt l := by
  unfold maxRadius ZPlanar.maxRadius
  simp only [rp_sqrt]
  generalize l.Distance + l.Thickness = d at *
  generalize l.Width / 2 + |l.Offset| = w at *
  have u0 := hf.u_nonneg
  set a := 1 - u with ha
  have a0 : 0 ≤ a := by linarith
  have sq : ∀ {x : ℝ}, 0 ≤ x → a ^ 3 * (x * x) ≤ flt (flt x * flt x) := by
    intro x hx
    have h1 := hf.lower hx
    have h2 := hf.lower (mul_nonneg (hf.nonneg hx) (hf.nonneg hx))
    have h3 : (a * x) * (a * x) ≤ flt x * flt x := mul_self_le_mul_self (mul_nonneg a0 hx) h1
    calc a ^ 3 * (x * x) = a * ((a * x) * (a * x)) := by ring
      _ ≤ a * (flt x * flt x) := mul_le_mul_of_nonneg_left h3 a0
      _ ≤ _ := h2
  have h1 := sq hd
  have h2 := sq hw
  have n1 := hf.nonneg (mul_nonneg (hf.nonneg hd) (hf.nonneg hd))
  have n2 := hf.nonneg (mul_nonneg (hf.nonneg hw) (hf.nonneg hw))
  have h3 := hf.lower (add_nonneg n1 n2)
  have h4 : (a ^ 2) ^ 2 * (d * d + w * w) ≤ flt (flt (flt d * flt d) + flt (flt w * flt w)) := by
    calc (a ^ 2) ^ 2 * (d * d + w * w) = a * (a ^ 3 * (d * d) + a ^ 3 * (w * w)) := by ring
      _ ≤ a * (flt (flt d * flt d) + flt (flt w * flt w)) := mul_le_mul_of_nonneg_left (by linarith) a0
      _ ≤ _ := h3
  have h5 := Real.sqrt_le_sqrt h4
  rw [Real.sqrt_mul (by positivity), Real.sqrt_sq (by positivity)] at h5
  have h6 := hf.lower (Real.sqrt_nonneg (flt (flt (flt d * flt d) + flt (flt w * flt w))))
  set R := Real.sqrt (d * d + w * w) with hR
  have R0 : 0 ≤ R := Real.sqrt_nonneg _
  have h7 : a * (a ^ 2 * R) ≤ a * Real.sqrt (flt (flt (flt d * flt d) + flt (flt w * flt w))) :=
    mul_le_mul_of_nonneg_left h5 a0
  have h8 : (1 - 3 * u) * R ≤ a * (a ^ 2 * R) := by
    have : 1 - 3 * u ≤ a * a ^ 2 := by rw [ha]; nlinarith [mul_nonneg u0 (mul_nonneg u0 (by linarith : 0 ≤ 3 - u))]
    calc (1 - 3 * u) * R ≤ (a * a ^ 2) * R := mul_le_mul_of_nonneg_right this R0
      _ = _ := by ring
  linarith

/-- A point of the inner part of a volume is reported, if the angles stay in the range that the code can correct. -/
theorem ladderHit_complete {flt : ℝ → ℝ} {u : ℝ} (hf : Converts flt u) (hu : u ≤ 1) (c : Call ℝ) (hN : 0 < c.nLadders)
    (hN' : c.nLadders ≤ 60000) (hphi0 : 0 ≤ c.phi0) (hphi1 : c.phi0 ≤ 2 * pi) (sens : Bool) {gap : ℝ} (hg : 0 ≤ gap)
    (hD : 0 < (c.size sens).distance) (hL : 0 ≤ (c.size sens).length) (hT : 0 ≤ (c.size sens).thickness)
    (hO : |(c.size sens).offset| ≤ (c.size sens).width / 2) (hR : 3 * u * radius (c.size sens) ≤ 1 / 10000) {p : V3 ℝ}
    (hax : ¬ (p.x = 0 ∧ p.y ≤ 0)) {i : ℕ} (hi : i < c.nLadders.toNat)
    (h : p ∈ inner u c sens gap (moduleOf c.nLadders i)) :
    ladderHit realPlanar flt gap sens p (stored c) i = true ∧ skipLayer realPlanar flt gap sens p (stored c) = false := by
  have hu0 := hf.u_nonneg
  have hoff := abs_nonneg (c.size sens).offset
  have hW : 0 ≤ (c.size sens).width := by linarith
  have hz0 : 0 ≤ u * (gap / 2) := by positivity
  have hz1 : 0 ≤ u * (gap / 2 + (c.size sens).length) := by positivity
  have hw0 : 0 ≤ u * ((c.size sens).width / 2 + |(c.size sens).offset|) := by positivity
  obtain ⟨hh, s, z, hp, h1, h2, h3, h4, h5⟩ := h
  obtain ⟨h3a, h3b⟩ := abs_le.mp h3
  have hvol : p ∈ volume c sens gap (moduleOf c.nLadders i) :=
    ⟨hh, s, z, hp, h1, h2, by linarith, by linarith, by linarith, by linarith⟩
  obtain ⟨g1, g2⟩ := ZPlanar.ladderHit_complete c hN hN' hphi0 hphi1 sens hD hO hax hi hvol
  constructor
  · rw [← g1]
    have hz : p.z = z := by rw [hp]; rfl
    have hloc : p = loc (ladderPhi realPlanar (stored c) i) hh (-s) p.z := by
      rw [loc_point c hN, neg_neg, hz]; exact hp
    have key : distanceToPlane flt p ⟨(body gap sens (stored c)).d * (nBase realPlanar (ladderPhi realPlanar (stored c) i)).x,
          (body gap sens (stored c)).d * (nBase realPlanar (ladderPhi realPlanar (stored c) i)).y,
          (body gap sens (stored c)).d * (nBase realPlanar (ladderPhi realPlanar (stored c) i)).z⟩
        (nBase realPlanar (ladderPhi realPlanar (stored c) i)) (nSide realPlanar (ladderPhi realPlanar (stored c) i)) (nZ p)
        (body gap sens (stored c)).left (body gap sens (stored c)).right (gap / 2) (body gap sens (stored c)).zEnd
      = ZPlanar.distanceToPlane p ⟨(body gap sens (stored c)).d * (nBase realPlanar (ladderPhi realPlanar (stored c) i)).x,
          (body gap sens (stored c)).d * (nBase realPlanar (ladderPhi realPlanar (stored c) i)).y,
          (body gap sens (stored c)).d * (nBase realPlanar (ladderPhi realPlanar (stored c) i)).z⟩
        (nBase realPlanar (ladderPhi realPlanar (stored c) i)) (nSide realPlanar (ladderPhi realPlanar (stored c) i)) (nZ p)
        (body gap sens (stored c)).left (body gap sens (stored c)).right (gap / 2) (body gap sens (stored c)).zEnd := by
      rw [hit_vector flt _ gap _ _ _ p hloc, ZPlanar.hit_vector _ gap _ _ _ p hloc]
      obtain ⟨k1, k2, -, k4⟩ := borders hf hg hW hL
      have k3 := hf.within (x := gap / 2) (b := gap / 2) (le_of_eq (abs_of_nonneg (by linarith)))
      rw [abs_le] at k1 k2 k3 k4
      rw [body_stored, hz]
      dsimp only
      have c1 : clamp (-s) (flt (-(c.size sens).width / 2 - (c.size sens).offset))
          (flt ((c.size sens).width / 2 - (c.size sens).offset)) = -s :=
        clamp_of_mem (by linarith [k1.2]) (by linarith [k2.1])
      have c2 : clamp (-s) (-(c.size sens).width / 2 - (c.size sens).offset)
          ((c.size sens).width / 2 - (c.size sens).offset) = -s :=
        clamp_of_mem (by linarith) (by linarith)
      have c3 : clamp |z| (flt (gap / 2)) (flt ((c.size sens).length + gap / 2)) = |z| :=
        clamp_of_mem (by linarith [k3.2]) (by linarith [k4.1])
      have c4 : clamp |z| (gap / 2) ((c.size sens).length + gap / 2) = |z| :=
        clamp_of_mem (by linarith) (by linarith)
      rw [c1, c2, c3, c4]
    unfold ladderHit ZPlanar.ladderHit
    dsimp only
    rw [key]
  · unfold ZPlanar.skipLayer at g2
    unfold skipLayer
    simp only [stored_sel, Bool.or_eq_false_iff, decide_eq_false_iff_not, not_lt, rp_sqrt] at g2 ⊢
    obtain ⟨⟨s1, -⟩, s3⟩ := g2
    refine ⟨⟨s1, ?_⟩, s3⟩
    have hm := maxRadius_lower hf hu (l := mkLayer realPlanar c.nLadders c.phi0 (c.size sens))
      (show 0 ≤ (c.size sens).distance + (c.size sens).thickness by linarith)
      (show 0 ≤ (c.size sens).width / 2 + |(c.size sens).offset| by linarith)
    have hrad : ZPlanar.maxRadius realPlanar (mkLayer realPlanar c.nLadders c.phi0 (c.size sens)) = radius (c.size sens) := by
      unfold ZPlanar.maxRadius radius; simp only [mkLayer, rp_sqrt]; congr 1; ring
    rw [hrad] at hm
    have hpr : Real.sqrt (p.x * p.x + p.y * p.y) ≤ radius (c.size sens) := by
      unfold radius
      apply Real.sqrt_le_sqrt
      have : p.x * p.x + p.y * p.y = hh ^ 2 + s ^ 2 := by
        rw [hp]; simp only [point]; linear_combination (hh ^ 2 + s ^ 2) * Real.sin_sq_add_cos_sq _
      rw [this]
      have q1 : hh ^ 2 ≤ ((c.size sens).distance + (c.size sens).thickness) ^ 2 := by
        apply pow_le_pow_left₀ (by linarith) h2
      have q2 : s ^ 2 ≤ ((c.size sens).width / 2 + |(c.size sens).offset|) ^ 2 := by
        rw [sq_le_sq, abs_of_nonneg (a := (c.size sens).width / 2 + |(c.size sens).offset|) (by linarith), abs_le]
        have o1 := le_abs_self (c.size sens).offset
        have o2 := neg_abs_le (c.size sens).offset
        constructor <;> linarith
      linarith
    have hE : (EPSILON : ℝ) = 1 / 10000 := rfl
    rw [hE]
    linarith

/-- The loop reports a layer and a ladder for which the test succeeds. -/
theorem pointLoop_sound {flt : ℝ → ℝ} {gap : ℝ} {sens : Bool} {p : V3 ℝ} {calls : List (Call ℝ)} {k : ℕ} {id : SensorID}
    (h : pointLoop realPlanar flt gap sens p k (calls.map stored) = some id) :
    ∃ (j i : ℕ) (c : Call ℝ), calls[j]? = some c ∧ i < c.nLadders.toNat ∧ id.layer = k + j
      ∧ id.side = (if p.z ≥ 0 then 1 else -1) ∧ id.module = moduleOf c.nLadders i ∧ id.sensor = 0
      ∧ ladderHit realPlanar flt gap sens p (stored c) i = true := by
  induction calls generalizing k with
  | nil => simp [pointLoop] at h
  | cons c cs ih =>
    simp only [List.map_cons, pointLoop] at h
    have next : pointLoop realPlanar flt gap sens p (k + 1) (cs.map stored) = some id →
        ∃ (j i : ℕ) (c' : Call ℝ), (c :: cs)[j]? = some c' ∧ i < c'.nLadders.toNat ∧ id.layer = k + j
          ∧ id.side = (if p.z ≥ 0 then 1 else -1) ∧ id.module = moduleOf c'.nLadders i ∧ id.sensor = 0
          ∧ ladderHit realPlanar flt gap sens p (stored c') i = true := fun h' => by
      obtain ⟨j, i, c', h1, h2, h3, h4⟩ := ih h'
      exact ⟨j + 1, i, c', by simpa using h1, h2, by rw [h3]; push_cast; ring, h4⟩
    by_cases hs : skipLayer realPlanar flt gap sens p (stored c) = true
    · rw [if_pos hs] at h; exact next h
    · rw [if_neg hs] at h
      cases hf : (List.range (stored c).1.NLadders.toNat).find? (ladderHit realPlanar flt gap sens p (stored c)) with
      | none => rw [hf] at h; exact next h
      | some i =>
        rw [hf] at h
        have h1 := List.find?_some hf
        have h2 := List.mem_range.mp (List.mem_of_find?_eq_some hf)
        simp only [Option.some.injEq] at h
        subst h
        exact ⟨0, i, c, rfl, h2, by simp, rfl, rfl, rfl, h1⟩

/-- The loop finds a ladder if there is one for which the tests succeed. -/
theorem pointLoop_complete {flt : ℝ → ℝ} {gap : ℝ} {sens : Bool} {p : V3 ℝ} {calls : List (Call ℝ)} (k : ℕ) {c : Call ℝ}
    (hc : c ∈ calls) {i : ℕ} (hi : i < c.nLadders.toNat)
    (h1 : ladderHit realPlanar flt gap sens p (stored c) i = true)
    (h2 : skipLayer realPlanar flt gap sens p (stored c) = false) :
    (pointLoop realPlanar flt gap sens p k (calls.map stored)).isSome = true := by
  induction calls generalizing k with
  | nil => simp at hc
  | cons d cs ih =>
    simp only [List.map_cons, pointLoop]
    by_cases hs : skipLayer realPlanar flt gap sens p (stored d) = true
    · rw [if_pos hs]
      rcases List.mem_cons.mp hc with rfl | hc'
      · rw [h2] at hs; cases hs
      · exact ih _ hc'
    · rw [if_neg hs]
      cases hf : (List.range (stored d).1.NLadders.toNat).find? (ladderHit realPlanar flt gap sens p (stored d)) with
      | some i => rfl
      | none =>
        rcases List.mem_cons.mp hc with rfl | hc'
        · have := List.find?_eq_none.mp hf i (List.mem_range.mpr hi)
          exact absurd h1 this
        · exact ih _ hc'

/-! ### C157: points in ladders and sensitive volumes, with borders stored in floats -/

/-- A reported sensor contains the point, up to the tolerance of the query and the rounding of the borders. -/
theorem reported_float {flt : ℝ → ℝ} {u : ℝ} (hf : Converts flt u) (P : Params ℝ) (hP : P.layer = [])
    (calls : List (Call ℝ)) (sens : Bool) (hg : 0 ≤ P.shellGap)
    (hc : ∀ c ∈ calls, 0 ≤ (c.size sens).thickness ∧ 0 ≤ (c.size sens).width ∧ 0 ≤ (c.size sens).length)
    {p : V3 ℝ} {id : SensorID} (h : isPointIn realPlanar flt (detector realPlanar P calls) p sens = some id) :
    ∃ (j : ℕ) (c : Call ℝ) (q : V3 ℝ), id.layer = j ∧ calls[j]? = some c ∧ 0 ≤ id.module ∧ id.module < c.nLadders
      ∧ id.sensor = 0 ∧ (id.side = 1 ∧ 0 ≤ p.z ∧ 0 ≤ q.z ∨ id.side = -1 ∧ p.z < 0 ∧ q.z ≤ 0)
      ∧ q ∈ volume c sens P.shellGap id.module
      ∧ |p.x - q.x| ≤ 1 / 10000 * (5 + 3 * (c.size sens).thickness)
          + u * ((c.size sens).width / 2 + |(c.size sens).offset|)
      ∧ |p.y - q.y| ≤ 1 / 10000 * (5 + 3 * (c.size sens).thickness)
          + u * ((c.size sens).width / 2 + |(c.size sens).offset|)
      ∧ |p.z - q.z| ≤ 1 / 10000 * (5 + 3 * (c.size sens).thickness) + u * (P.shellGap / 2 + (c.size sens).length) := by
  obtain ⟨s1, s2⟩ := detector_shell realPlanar P calls
  unfold isPointIn at h
  rw [s1, s2, detector_layer, hP, List.nil_append] at h
  split_ifs at h with hsh
  obtain ⟨j, i, c, a1, a2, a3, a4, a5, a6, a7⟩ := pointLoop_sound h
  have hcm : c ∈ calls := List.mem_of_getElem? a1
  obtain ⟨t1, t2, t3⟩ := hc c hcm
  obtain ⟨q, b1, b2, b3, b4, b5, b6⟩ := ladderHit_sound hf c (by omega) sens hg t2 t3 t1 a7
  have hmr := moduleOf_range a2
  refine ⟨j, c, q, by rw [a3]; simp, a1, by rw [a5]; exact hmr.1, by rw [a5]; exact hmr.2, a6, ?_, by rw [a5]; exact b1,
    b4, b5, b6⟩
  by_cases hz : 0 ≤ p.z
  · exact Or.inl ⟨by rw [a4, if_pos hz], hz, b2 hz⟩
  · exact Or.inr ⟨by rw [a4, if_neg hz], not_le.mp hz, b3 (not_le.mp hz)⟩

/-- Every point of a ladder (sensitive volume) is reported to be in one, unless it is as near to the side faces or the
ends as the rounding of the borders; for layers with a radius of at most `1 / (30000 u)`, which is 559 for floats.
Missing: those points, see the refutation, and what is missing with exact borders. -/
theorem point_reported_float_partial {flt : ℝ → ℝ} {u : ℝ} (hf : Converts flt u) (hu : u ≤ 1) (P : Params ℝ)
    (hP : P.layer = []) (calls : List (Call ℝ)) (sens : Bool) (hg : 0 ≤ P.shellGap) {c : Call ℝ} (hc : c ∈ calls)
    (hr : Regular c sens) (hs : Sized (c.size sens)) (hR : 3 * u * radius (c.size sens) ≤ 1 / 10000) {m : ℤ}
    (hm0 : 0 ≤ m) (hm1 : m < c.nLadders) {p : V3 ℝ} (hp : p ∈ inner u c sens P.shellGap m)
    (hax : ¬ (p.x = 0 ∧ p.y ≤ 0))
    (hshell : |P.shellHalfLength| ≤ 1 / 1000 ∨ |p.z| ≤ P.shellHalfLength + P.shellGap / 2) :
    (isPointIn realPlanar flt (detector realPlanar P calls) p sens).isSome = true := by
  obtain ⟨h1, h2, h3, h4, h5, h6⟩ := hr
  obtain ⟨i, hi, rfl⟩ := moduleOf_surj hm0 hm1
  obtain ⟨g1, g2⟩ := ladderHit_complete hf hu c h1 h2 h3 h4 sens hg h5 hs.2.2 hs.1 h6 hR hax hi hp
  obtain ⟨s1, s2⟩ := detector_shell realPlanar P calls
  unfold isPointIn
  rw [s1, s2, detector_layer, hP, List.nil_append]
  rw [if_neg]
  · exact pointLoop_complete 0 hc hi g1 g2
  · obtain ⟨_, _, z, rfl, _, _, _, hz1, _⟩ := hp
    have := mul_nonneg hf.u_nonneg (by linarith : 0 ≤ P.shellGap / 2)
    rintro ⟨a, b | b⟩
    · rcases hshell with h | h <;> linarith
    · change |z| < _ at b; linarith

theorem pointLoop_single_none {flt : ℝ → ℝ} {gap : ℝ} {sens : Bool} {p : V3 ℝ} {c : Call ℝ} (hN : c.nLadders = 1)
    (h : ladderHit realPlanar flt gap sens p (stored c) 0 = false) :
    pointLoop realPlanar flt gap sens p 0 ([c].map stored) = none := by
  simp only [List.map_cons, List.map_nil, pointLoop]
  have hn : (stored c).1.NLadders = 1 := hN
  rw [hn]
  have hr : List.find? (ladderHit realPlanar flt gap sens p (stored c)) (List.range (Int.toNat 1)) = none := by
    rw [List.find?_eq_none]
    intro i hi
    have : i = 0 := by simpa using hi
    rw [this, h]; simp
  rw [hr]
  split_ifs <;> rfl

theorem ladderHit_false_of_x {flt : ℝ → ℝ} {gap : ℝ} {sens : Bool} {p : V3 ℝ} {c : Call ℝ} {i : ℕ}
    (h1 : differsLess (nBase realPlanar (ladderPhi realPlanar (stored c) i)).x
      (distanceToPlane flt p ⟨(body gap sens (stored c)).d * (nBase realPlanar (ladderPhi realPlanar (stored c) i)).x,
          (body gap sens (stored c)).d * (nBase realPlanar (ladderPhi realPlanar (stored c) i)).y,
          (body gap sens (stored c)).d * (nBase realPlanar (ladderPhi realPlanar (stored c) i)).z⟩
        (nBase realPlanar (ladderPhi realPlanar (stored c) i)) (nSide realPlanar (ladderPhi realPlanar (stored c) i)) (nZ p)
        (body gap sens (stored c)).left (body gap sens (stored c)).right (gap / 2) (body gap sens (stored c)).zEnd).x = false)
    (h2 : isEqual
      (distanceToPlane flt p ⟨(body gap sens (stored c)).d * (nBase realPlanar (ladderPhi realPlanar (stored c) i)).x,
          (body gap sens (stored c)).d * (nBase realPlanar (ladderPhi realPlanar (stored c) i)).y,
          (body gap sens (stored c)).d * (nBase realPlanar (ladderPhi realPlanar (stored c) i)).z⟩
        (nBase realPlanar (ladderPhi realPlanar (stored c) i)) (nSide realPlanar (ladderPhi realPlanar (stored c) i)) (nZ p)
        (body gap sens (stored c)).left (body gap sens (stored c)).right (gap / 2) (body gap sens (stored c)).zEnd).x
      (-norm realPlanar
      (distanceToPlane flt p ⟨(body gap sens (stored c)).d * (nBase realPlanar (ladderPhi realPlanar (stored c) i)).x,
          (body gap sens (stored c)).d * (nBase realPlanar (ladderPhi realPlanar (stored c) i)).y,
          (body gap sens (stored c)).d * (nBase realPlanar (ladderPhi realPlanar (stored c) i)).z⟩
        (nBase realPlanar (ladderPhi realPlanar (stored c) i)) (nSide realPlanar (ladderPhi realPlanar (stored c) i)) (nZ p)
        (body gap sens (stored c)).left (body gap sens (stored c)).right (gap / 2) (body gap sens (stored c)).zEnd)
        * (nBase realPlanar (ladderPhi realPlanar (stored c) i)).x) = false) :
    ladderHit realPlanar flt gap sens p (stored c) i = false := by
  unfold ladderHit
  dsimp only
  rw [h1, h2]
  simp

/-- Half the width of the ladder of the refutation, as a float. -/
theorem binary32_half : binary32 (51 / 5 : ℝ) = 10695475 / 2 ^ 20 := by
  rw [binary32_eval (n := 10695475) (k := -20) (by norm_num) (by norm_num) (by rw [_root_.abs_lt]; norm_num)]
  norm_num

theorem binary32_one : binary32 (1 : ℝ) = 1 := by
  rw [binary32_eval (n := 2 ^ 23) (k := -23) (by norm_num) (by norm_num) (by norm_num)]
  norm_num

theorem binary32_eleven : binary32 (11 : ℝ) = 11 := by
  rw [binary32_eval (n := 11 * 2 ^ 20) (k := -20) (by norm_num) (by norm_num) (by norm_num)]
  norm_num

/-- A ladder that is not quite horizontal: the normal has the x component 400 / 40001, which is 0.01. -/
noncomputable def tilted : Call ℝ where
  nLadders := 1
  phi0 := Real.arccos (400 / 40001)
  ladder := ⟨100, 0, 1 / 10, 10, 102 / 5, 1⟩
  sensitive := ⟨100, 0, 1 / 10, 10, 102 / 5, 1⟩

/-- The completeness does not extend to the side faces: with IEEE floats the side face of a ladder that is not quite
horizontal is not reported, although with exact borders it is. -/
theorem point_reported_float_false : ∃ (c : Call ℝ) (p : V3 ℝ), Regular c true ∧ Sized (c.size true)
    ∧ radius (c.size true) ≤ 110 ∧ p ∈ volume c true 2 0 ∧ ¬ (p.x = 0 ∧ p.y ≤ 0)
    ∧ (ZPlanar.isPointIn realPlanar (detector realPlanar (new 1 0 0 0 2 0) [c]) p true).isSome = true
    ∧ isPointIn realPlanar binary32 (detector realPlanar (new 1 0 0 0 2 0) [c]) p true = none := by
  have hpi := Real.pi_pos
  have hcos : Real.cos (Real.arccos (400 / 40001)) = 400 / 40001 := Real.cos_arccos (by norm_num) (by norm_num)
  have hsin : Real.sin (Real.arccos (400 / 40001)) = 39999 / 40001 := by
    rw [Real.sin_arccos, show (1 : ℝ) - (400 / 40001) ^ 2 = (39999 / 40001) ^ 2 by norm_num, Real.sqrt_sq (by norm_num)]
  have haz : azimuth tilted 0 = Real.arccos (400 / 40001) := by simp [azimuth, tilted]
  have hreg : Regular tilted true := by
    refine ⟨by simp [tilted], by simp [tilted], Real.arccos_nonneg _, ?_, by simp [tilted, Call.size],
      by norm_num [tilted, Call.size]⟩
    have := Real.arccos_le_pi (400 / 40001)
    change Real.arccos (400 / 40001) ≤ 2 * pi
    linarith
  have hvol : point (azimuth tilted 0) (1001 / 10) (51 / 5) 5 ∈ volume tilted true 2 0 := by
    refine ⟨1001 / 10, 51 / 5, 5, rfl, ?_⟩
    simp only [tilted, Call.size]
    norm_num
  have hay : ¬ ((point (azimuth tilted 0) (1001 / 10) (51 / 5) 5).x = 0
      ∧ (point (azimuth tilted 0) (1001 / 10) (51 / 5) 5).y ≤ 0) := by
    rw [haz]
    simp only [point, hcos, hsin]
    norm_num
  refine ⟨tilted, point (azimuth tilted 0) (1001 / 10) (51 / 5) 5, hreg, ?_, ?_, hvol, hay, ?_, ?_⟩
  · simp only [Sized, tilted, Call.size]; norm_num
  · unfold radius
    rw [Real.sqrt_le_left (by norm_num)]
    simp only [tilted, Call.size]; norm_num
  · exact point_reported_partial _ rfl [tilted] true (by simp) hreg (m := 0) (le_refl _) (by simp [tilted]) hvol hay
      (Or.inl (by simp [new]))
  · unfold isPointIn
    rw [if_neg (by simp [detector_shell, new]), detector_layer]
    refine pointLoop_single_none rfl ?_
    have hg : (detector realPlanar (new 1 0 0 0 2 0) [tilted]).shellGap = 2 := by rw [(detector_shell _ _ _).1]; rfl
    rw [hg]
    obtain ⟨g1, g2⟩ := ladderPhi_azimuth tilted (by simp [tilted]) 0
    rw [show moduleOf tilted.nLadders 0 = 0 from rfl, haz] at g1 g2
    rw [hcos] at g1
    rw [hsin] at g2
    have hloc := loc_point tilted (by simp [tilted]) 0 (1001 / 10) (-(51 / 5)) 5
    rw [neg_neg, show moduleOf tilted.nLadders 0 = 0 from rfl] at hloc
    have hw := hit_vector binary32 (body 2 true (stored tilted)) 2 (ladderPhi realPlanar (stored tilted) 0) (1001 / 10)
      (-(51 / 5)) _ hloc.symm
    have hl : (body 2 true (stored tilted)).left = -(51 / 5) := by rw [body_stored]; norm_num [tilted, Call.size]
    have hrr : (body 2 true (stored tilted)).right = 51 / 5 := by rw [body_stored]; norm_num [tilted, Call.size]
    have hze : (body 2 true (stored tilted)).zEnd = 11 := by rw [body_stored]; norm_num [tilted, Call.size]
    have hd : (body 2 true (stored tilted)).d = 100 := by rw [body_stored]; norm_num [tilted, Call.size]
    have hs1 : clamp (-(51 / 5)) (binary32 (body 2 true (stored tilted)).left)
        (binary32 (body 2 true (stored tilted)).right) = -(10695475 / 2 ^ 20 : ℝ) := by
      rw [hl, hrr, binary32_neg, binary32_half]
      unfold clamp
      rw [if_neg (by norm_num), if_pos (by norm_num)]
    have hs2 : clamp |(point (azimuth tilted 0) (1001 / 10) (51 / 5) 5).z| (binary32 (2 / 2))
        (binary32 (body 2 true (stored tilted)).zEnd) = 5 := by
      rw [hze, binary32_eleven, show (2 : ℝ) / 2 = 1 by norm_num, binary32_one]
      change clamp |(5 : ℝ)| 1 11 = 5
      unfold clamp
      norm_num
    rw [hs1, hs2, hd, if_neg (by change ¬ (5 : ℝ) < 0; norm_num), ← hloc] at hw
    refine ladderHit_false_of_x ?_ ?_
    all_goals
      rw [hd, ← hloc, hw]
    · simp only [differsLess, nBase, Vector3D.sub, loc, g1, g2, rp_sin, decide_eq_false_iff_not, not_lt]
      rw [abs_of_pos (by norm_num), abs_of_neg (by norm_num)]
      norm_num [EPSILON]
    · obtain ⟨n1, -, -, -⟩ := norm_bounds (Vector3D.sub (loc (ladderPhi realPlanar (stored tilted) 0) 100
        (-(10695475 / 2 ^ 20)) (1 * 5)) (loc (ladderPhi realPlanar (stored tilted) 0) (1001 / 10) (-(51 / 5)) 5))
      have n2 : norm realPlanar (Vector3D.sub (loc (ladderPhi realPlanar (stored tilted) 0) 100
          (-(10695475 / 2 ^ 20)) (1 * 5)) (loc (ladderPhi realPlanar (stored tilted) 0) (1001 / 10) (-(51 / 5)) 5))
          = Real.sqrt (1 / 100 + (1 / 5242880) ^ 2) := by
        rw [norm_sub, dist2_loc]
        congr 1
        norm_num
      have n3 : 1 / 10 ≤ Real.sqrt (1 / 100 + (1 / 5242880) ^ 2) := by
        apply Real.le_sqrt_of_sq_le; norm_num
      have n4 : Real.sqrt (1 / 100 + (1 / 5242880) ^ 2) ≤ 1 / 10 + 1 / 5242880 := by
        rw [Real.sqrt_le_left (by norm_num)]; norm_num
      rw [n2]
      generalize Real.sqrt (1 / 100 + (1 / 5242880) ^ 2) = k at n3 n4
      have hx : (Vector3D.sub (loc (ladderPhi realPlanar (stored tilted) 0) 100 (-(10695475 / 2 ^ 20)) (1 * 5))
          (loc (ladderPhi realPlanar (stored tilted) 0) (1001 / 10) (-(51 / 5)) 5)).x
          = -(40 / 40001) + 1 / 5242880 * (39999 / 40001) := by
        simp only [Vector3D.sub, loc, g1, g2]; norm_num
      rw [hx]
      simp only [nBase, rp_sin, g1]
      unfold isEqual
      have hb : -k * (400 / 40001) < -(40 / 40001) + 1 / 5242880 * (39999 / 40001) := by linarith
      rw [if_neg hb.ne', if_neg, if_neg]
      · simp only [decide_eq_false_iff_not, not_lt]
        rw [abs_of_neg (a := -(40 / 40001) + 1 / 5242880 * (39999 / 40001)) (by norm_num),
          abs_of_neg (a := -k * (400 / 40001)) (by linarith), abs_of_pos (by linarith), le_div_iff₀ (by norm_num; linarith)]
        norm_num [EPSILON]
        linarith
      · rintro ⟨h, -⟩
        rw [abs_of_neg (by norm_num)] at h
        norm_num [EPSILON] at h
      · apply mul_ne_zero <;> [norm_num; linarith]

/-- The point (1.5, 0, 5) of the example of exact borders is reported with IEEE floats. -/
example : (isPointIn realPlanar binary32 (detector realPlanar (new 1 0 0 0 2 0) [exampleLayer]) ⟨3 / 2, 0, 5⟩ true).isSome
    = true := by
  refine point_reported_float_partial binary32_converts (by norm_num) (new 1 0 0 0 2 0) rfl [exampleLayer] true
    (by simp [new]) (c := exampleLayer) (by simp) (exampleLayer_regular _) (by simp [Sized, exampleLayer, Call.size]) ?_
    (m := 0) (le_refl _) (by simp [exampleLayer]) ?_ (by norm_num) (Or.inl (by simp [new]))
  · have : radius (exampleLayer.size true) ≤ 3 := by
      unfold radius
      rw [Real.sqrt_le_left (by norm_num)]
      simp only [exampleLayer, Call.size]; norm_num
    norm_num at this ⊢
    linarith
  · refine ⟨3 / 2, 0, 5, ?_, ?_⟩
    · ext <;> simp [point, azimuth, exampleLayer]
    · simp [Call.size, exampleLayer, new]; norm_num

/-! ### C158: the nearest ladder or sensitive volume, with borders stored in floats -/

/-- How far the rounding of the borders can move a point of a volume. -/
noncomputable def slack (u gap : ℝ) (s : Size ℝ) : ℝ :=
  u * (s.thickness + (s.width / 2 + |s.offset|) + (gap / 2 + s.length))

theorem near_loc {phi h s z h' s' z' a b c : ℝ} (h1 : |h - h'| ≤ a) (h2 : |s - s'| ≤ b) (h3 : |z - z'| ≤ c) :
    Real.sqrt (dist2 (loc phi h s z) (loc phi h' s' z')) ≤ a + b + c := by
  have a0 := (abs_nonneg _).trans h1
  have b0 := (abs_nonneg _).trans h2
  have c0 := (abs_nonneg _).trans h3
  rw [dist2_loc, Real.sqrt_le_left (by linarith)]
  have k1 := sq_le_sq' (abs_le.mp h1).1 (abs_le.mp h1).2
  have k2 := sq_le_sq' (abs_le.mp h2).1 (abs_le.mp h2).2
  have k3 := sq_le_sq' (abs_le.mp h3).1 (abs_le.mp h3).2
  nlinarith [mul_nonneg a0 b0, mul_nonneg a0 c0, mul_nonneg b0 c0]

theorem dist_triangle3 (p q r : V3 ℝ) : Real.sqrt (dist2 p r) ≤ Real.sqrt (dist2 p q) + Real.sqrt (dist2 q r) := by
  have h1 : 0 ≤ dist2 p q := by unfold dist2; positivity
  have h2 : 0 ≤ dist2 q r := by unfold dist2; positivity
  rw [Real.sqrt_le_left (by positivity), add_sq, Real.sq_sqrt h1, Real.sq_sqrt h2, mul_assoc, ← Real.sqrt_mul h1]
  have h3 : (p.x - q.x) * (q.x - r.x) + (p.y - q.y) * (q.y - r.y) + (p.z - q.z) * (q.z - r.z)
      ≤ Real.sqrt (dist2 p q * dist2 q r) := by
    apply Real.le_sqrt_of_sq_le
    unfold dist2
    nlinarith [sq_nonneg ((p.x - q.x) * (q.y - r.y) - (p.y - q.y) * (q.x - r.x)),
      sq_nonneg ((p.x - q.x) * (q.z - r.z) - (p.z - q.z) * (q.x - r.x)),
      sq_nonneg ((p.y - q.y) * (q.z - r.z) - (p.z - q.z) * (q.y - r.y))]
  have h4 : dist2 p r = dist2 p q + dist2 q r + 2 * ((p.x - q.x) * (q.x - r.x) + (p.y - q.y) * (q.y - r.y)
      + (p.z - q.z) * (q.z - r.z)) := by unfold dist2; ring
  rw [h4]
  linarith

theorem dist2_comm (p q : V3 ℝ) : dist2 p q = dist2 q p := by unfold dist2; ring

/-- The six points of a ladder that the code compares. -/
noncomputable def facePoints (flt : ℝ → ℝ) (gap : ℝ) (b : Body ℝ) (p : V3 ℝ) (phi h s : ℝ) : List (V3 ℝ) :=
  [loc phi (b.d + 0) (clamp s (flt b.left) (flt b.right)) (sgn p * clamp |p.z| (flt (gap / 2)) (flt b.zEnd)),
   loc phi (b.d + b.thick) (clamp s (flt b.left) (flt b.right)) (sgn p * clamp |p.z| (flt (gap / 2)) (flt b.zEnd)),
   loc phi (b.d + clamp (h - b.d) 0 (flt b.thick)) b.left (sgn p * clamp |p.z| (flt (gap / 2)) (flt b.zEnd)),
   loc phi (b.d + clamp (h - b.d) 0 (flt b.thick)) b.right (sgn p * clamp |p.z| (flt (gap / 2)) (flt b.zEnd)),
   loc phi (b.d + clamp (h - b.d) 0 (flt b.thick)) (clamp s (flt b.left) (flt b.right)) (sgn p * b.zEnd),
   loc phi (b.d + clamp (h - b.d) 0 (flt b.thick)) (clamp s (flt b.left) (flt b.right)) (sgn p * (gap / 2))]

theorem dist_eq (flt : ℝ → ℝ) (p r n u v : V3 ℝ) (a b c d : ℝ) :
    distanceToPlane flt p r n u v a b c d = ZPlanar.distanceToPlane p r n u v (flt a) (flt b) (flt c) (flt d) := rfl

theorem nearestFaces_picks {flt : ℝ → ℝ} (h0 : flt 0 = 0) (gap : ℝ) (b : Body ℝ) (p : V3 ℝ) (phi h s : ℝ)
    (hp : p = loc phi h s p.z) (best : Best ℝ) :
    Picks p (facePoints flt gap b p phi h s) best (nearestFaces realPlanar flt gap b p phi best) := by
  unfold nearestFaces
  simp only [dist_eq, h0]
  rw [face_base phi b.d h s 0 p hp, face_base phi b.d h s b.thick p hp, face_side phi b.d h s b.left p hp,
    face_side phi b.d h s b.right p hp, face_z phi b.d h s b.zEnd p hp, face_z phi b.d h s (gap / 2) p hp]
  exact (((((Picks.nil p best).le.le).lt).lt).lt).lt

theorem forall2_left {α β : Type} {R : α → β → Prop} {l : List α} {m : List β} (h : List.Forall₂ R l m) :
    (∀ a ∈ l, ∃ b ∈ m, R a b) ∧ ∀ b ∈ m, ∃ a ∈ l, R a b := by
  induction h with
  | nil => simp
  | cons h1 _ ih =>
    constructor
    · intro a ha
      rcases List.mem_cons.mp ha with rfl | ha
      · exact ⟨_, List.mem_cons_self, h1⟩
      · obtain ⟨b, hb, h⟩ := ih.1 a ha
        exact ⟨b, List.mem_cons_of_mem _ hb, h⟩
    · intro b hb
      rcases List.mem_cons.mp hb with rfl | hb
      · exact ⟨_, List.mem_cons_self, h1⟩
      · obtain ⟨a, ha, h⟩ := ih.2 b hb
        exact ⟨a, List.mem_cons_of_mem _ ha, h⟩

variable {flt : ℝ → ℝ} {u : ℝ}

/-- The points of the faces, with and without the rounding of the borders. -/
theorem facePoints_shift (hf : Converts flt u) (c : Call ℝ) (sens : Bool) {gap : ℝ} (hg : 0 ≤ gap)
    (hs : Sized (c.size sens)) (p : V3 ℝ) (phi h s : ℝ) :
    List.Forall₂ (fun q q' => Real.sqrt (dist2 q q') ≤ slack u gap (c.size sens))
      (ZPlanar.facePoints gap (body gap sens (stored c)) p phi h s)
      (facePoints flt gap (body gap sens (stored c)) p phi h s) := by
  obtain ⟨hT, hW, hL⟩ := hs
  have hu := hf.u_nonneg
  rw [body_stored]
  generalize c.size sens = S at *
  obtain ⟨k1, k2, k3, k4⟩ := borders hf hg hW hL
  have o0 := abs_nonneg S.offset
  have sgn1 : |sgn p| = 1 := by unfold sgn; split_ifs <;> simp
  have e1 : 0 ≤ u * S.thickness := by positivity
  have e2 : 0 ≤ u * (S.width / 2 + |S.offset|) := by positivity
  have e3 : 0 ≤ u * (gap / 2 + S.length) := by positivity
  have hsum : slack u gap S = u * S.thickness + u * (S.width / 2 + |S.offset|) + u * (gap / 2 + S.length) := by
    unfold slack; ring
  have hlr : -S.width / 2 - S.offset ≤ S.width / 2 - S.offset := by linarith
  have hzz : gap / 2 ≤ S.length + gap / 2 := by linarith
  have sU : ∀ x, |clamp x (-S.width / 2 - S.offset) (S.width / 2 - S.offset)
      - clamp x (flt (-S.width / 2 - S.offset)) (flt (S.width / 2 - S.offset))| ≤ u * (S.width / 2 + |S.offset|) := by
    intro x; rw [abs_sub_comm]; exact clamp_shift hlr (hf.mono _ _ hlr) k1 k2
  have sV : ∀ x, |sgn p * clamp x (gap / 2) (S.length + gap / 2)
      - sgn p * clamp x (flt (gap / 2)) (flt (S.length + gap / 2))| ≤ u * (gap / 2 + S.length) := by
    intro x
    rw [← mul_sub, abs_mul, sgn1, one_mul, abs_sub_comm]
    exact clamp_shift hzz (hf.mono _ _ hzz) k3 k4
  have sH : ∀ x, |(S.distance + clamp x 0 S.thickness) - (S.distance + clamp x 0 (flt S.thickness))|
      ≤ u * S.thickness := by
    intro x
    rw [add_sub_add_left_eq_sub, abs_sub_comm]
    exact clamp_shift hT (hf.nonneg hT) (by simpa using e1) (hf.within (le_of_eq (abs_of_nonneg hT)))
  have z0 : ∀ x e : ℝ, 0 ≤ e → |x - x| ≤ e := by intro x e he; simpa using he
  rw [hsum]
  refine .cons (near_loc (z0 _ _ e1) (sU _) (sV _)) (.cons (near_loc (z0 _ _ e1) (sU _) (sV _))
    (.cons (near_loc (sH _) (z0 _ _ e2) (sV _)) (.cons (near_loc (sH _) (z0 _ _ e2) (sV _))
    (.cons (near_loc (sH _) (sU _) (z0 _ _ e3)) (.cons (near_loc (sH _) (sU _) (z0 _ _ e3)) .nil)))))

theorem nearestLadder_step (hf : Converts flt u) (c : Call ℝ) (sens : Bool) {gap : ℝ} (hN : 0 < c.nLadders) (hg : 0 ≤ gap)
    (hs : Sized (c.size sens)) (p : V3 ℝ) (best : Best ℝ) (i : ℕ) :
    (nearestLadder realPlanar flt gap sens p (stored c) best i).2 ≤ best.2 ∧
    (nearestLadder realPlanar flt gap sens p (stored c) best i = best ∨
      ∃ q' q, q ∈ volume c sens gap (moduleOf c.nLadders i) ∧ Real.sqrt (dist2 q' q) ≤ slack u gap (c.size sens) ∧
        nearestLadder realPlanar flt gap sens p (stored c) best i = (Vector3D.sub q' p, Real.sqrt (dist2 p q'))) ∧
    (nearInRange realPlanar p (stored c) i = true → p ∉ volume c sens gap (moduleOf c.nLadders i) →
      ∀ q ∈ volume c sens gap (moduleOf c.nLadders i),
        (nearestLadder realPlanar flt gap sens p (stored c) best i).2
          ≤ Real.sqrt (dist2 p q) + slack u gap (c.size sens)) := by
  unfold nearestLadder
  by_cases hr : nearInRange realPlanar p (stored c) i = false
  · rw [if_pos hr]
    exact ⟨le_refl _, Or.inl rfl, fun h => by rw [hr] at h; cases h⟩
  · rw [if_neg hr]
    set phi := ladderPhi realPlanar (stored c) i with hphi
    have hp := loc_coords phi p
    obtain ⟨h1, h2, h3⟩ := nearestFaces_picks hf.zero gap (body gap sens (stored c)) p phi _ _ hp best
    obtain ⟨m1, m2⟩ := forall2_left (facePoints_shift hf c sens hg hs p phi
      (p.x * Real.sin phi + p.y * Real.cos phi) (p.x * Real.cos phi - p.y * Real.sin phi))
    refine ⟨h2, ?_, ?_⟩
    · rcases h1 with h1 | ⟨q', hq', h1⟩
      · exact Or.inl h1
      · obtain ⟨q, hq, hd⟩ := m2 q' hq'
        exact Or.inr ⟨q', q, facePoints_mem c sens gap hN hg hs p i _ _ q hq, by rw [dist2_comm]; exact hd, h1⟩
    · intro _ hout q hq
      obtain ⟨f, hf', hle⟩ := facePoints_near c sens gap hN hg hs hp hout hq
      obtain ⟨f', hf'', hd⟩ := m1 f hf'
      have t1 := h3 f' hf''
      have t2 := dist_triangle3 p f f'
      have t3 := Real.sqrt_le_sqrt hle
      linarith

theorem nearest_loop (hf : Converts flt u) (sens : Bool) {gap : ℝ} (hg : 0 ≤ gap) {calls : List (Call ℝ)}
    (hc : ∀ c ∈ calls, Sensible c sens) (p : V3 ℝ) :
    ((calls.map stored).foldl (nearestLayer realPlanar flt gap sens p) (Vector3D.zero, 9999999 / 100)
        = (Vector3D.zero, 9999999 / 100)
      ∨ ∃ q' q c, c ∈ calls ∧ Real.sqrt (dist2 q' q) ≤ slack u gap (c.size sens)
        ∧ (∃ i < c.nLadders.toNat, q ∈ volume c sens gap (moduleOf c.nLadders i))
        ∧ (calls.map stored).foldl (nearestLayer realPlanar flt gap sens p) (Vector3D.zero, 9999999 / 100)
          = (Vector3D.sub q' p, Real.sqrt (dist2 p q')))
    ∧ ∀ c ∈ calls, ∀ i < c.nLadders.toNat, nearInRange realPlanar p (stored c) i = true →
      p ∉ volume c sens gap (moduleOf c.nLadders i) → ∀ q ∈ volume c sens gap (moduleOf c.nLadders i),
      ((calls.map stored).foldl (nearestLayer realPlanar flt gap sens p) (Vector3D.zero, 9999999 / 100)).2
        ≤ Real.sqrt (dist2 p q) + slack u gap (c.size sens) := by
  have hmono : ∀ b : Best ℝ, ∀ l ∈ calls.map stored, (nearestLayer realPlanar flt gap sens p b l).2 ≤ b.2 := by
    intro b l hl
    obtain ⟨c, hcm, rfl⟩ := List.mem_map.mp hl
    unfold nearestLayer
    exact foldl_le _ (fun b i => (nearestLadder_step hf c sens (hc c hcm).1 hg (hc c hcm).2 p b i).1) _ _
  refine ⟨?_, ?_⟩
  · refine foldl_inv (l := calls.map stored) (nearestLayer realPlanar flt gap sens p) (fun b => b = (Vector3D.zero, 9999999 / 100)
      ∨ ∃ q' q c, c ∈ calls ∧ Real.sqrt (dist2 q' q) ≤ slack u gap (c.size sens)
        ∧ (∃ i < c.nLadders.toNat, q ∈ volume c sens gap (moduleOf c.nLadders i))
        ∧ b = (Vector3D.sub q' p, Real.sqrt (dist2 p q'))) ?_ (Or.inl rfl)
    intro b hb l hl
    obtain ⟨c, hcm, rfl⟩ := List.mem_map.mp hl
    unfold nearestLayer
    refine foldl_inv (nearestLadder realPlanar flt gap sens p (stored c)) (fun b => b = (Vector3D.zero, 9999999 / 100)
      ∨ ∃ q' q c, c ∈ calls ∧ Real.sqrt (dist2 q' q) ≤ slack u gap (c.size sens)
        ∧ (∃ i < c.nLadders.toNat, q ∈ volume c sens gap (moduleOf c.nLadders i))
        ∧ b = (Vector3D.sub q' p, Real.sqrt (dist2 p q'))) ?_ hb
    intro b' hb' i hi
    rcases (nearestLadder_step hf c sens (hc c hcm).1 hg (hc c hcm).2 p b' i).2.1 with h | ⟨q', q, hq, hd, h⟩
    · rw [h]; exact hb'
    · rw [h]; exact Or.inr ⟨q', q, c, hcm, hd, ⟨i, List.mem_range.mp hi, hq⟩, rfl⟩
  · intro c hcm i hi hr hout q hq
    refine foldl_le_mem _ hmono (List.mem_map_of_mem hcm) (fun b => ?_) _
    unfold nearestLayer
    refine foldl_le_mem _ (fun b i _ => (nearestLadder_step hf c sens (hc c hcm).1 hg (hc c hcm).2 p b i).1)
      (List.mem_range.mpr hi) (fun b => ?_) _
    exact (nearestLadder_step hf c sens (hc c hcm).1 hg (hc c hcm).2 p b i).2.2 hr hout q hq

/-- For a point outside of all volumes, other than the origin, the returned vector leads to a volume up to the rounding
of the borders (a point that counts as inside already gets the zero vector), and it is not longer than the way to any
point of any volume that is near in angle, up to that rounding.  Missing: what is missing with exact borders. -/
theorem nearest_float_partial (hf : Converts flt u) (P : Params ℝ) (hP : P.layer = []) (calls : List (Call ℝ))
    (sens : Bool) (hg : 0 ≤ P.shellGap) (hc : ∀ c ∈ calls, Sensible c sens) {p : V3 ℝ} (hp : p ≠ ⟨0, 0, 0⟩)
    (hout : ∀ c ∈ calls, ∀ m, 0 ≤ m → m < c.nLadders → p ∉ volume c sens P.shellGap m)
    {c : Call ℝ} (hcm : c ∈ calls) (hN : 3 ≤ c.nLadders) (hphi0 : 0 ≤ c.phi0) (hphi1 : c.phi0 ≤ 2 * pi)
    (hax : ¬ (p.x = 0 ∧ p.y ≤ 0)) {m : ℤ} (hm0 : 0 ≤ m) (hm1 : m < c.nLadders) (hnear : NearAngle c m p)
    {q : V3 ℝ} (hq : q ∈ volume c sens P.shellGap m)
    (hfar : Real.sqrt (dist2 p q) + slack u P.shellGap (c.size sens) < 9999999 / 100)
    {w : V3 ℝ} (hw : w = distanceToNearest realPlanar flt (detector realPlanar P calls) p sens) :
    Real.sqrt (w.x ^ 2 + w.y ^ 2 + w.z ^ 2) ≤ Real.sqrt (dist2 p q) + slack u P.shellGap (c.size sens) ∧
    (w = ⟨0, 0, 0⟩ ∧ (isPointIn realPlanar flt (detector realPlanar P calls) p sens).isSome = true
      ∨ ∃ c' ∈ calls, ∃ m', 0 ≤ m' ∧ m' < c'.nLadders ∧ ∃ q' ∈ volume c' sens P.shellGap m',
        Real.sqrt (dist2 (Vector3D.add p w) q') ≤ slack u P.shellGap (c'.size sens)) := by
  obtain ⟨s1, s2⟩ := detector_shell realPlanar P calls
  have hsl : 0 ≤ slack u P.shellGap (c.size sens) := by
    obtain ⟨-, t1, t2, t3⟩ := hc c hcm
    have := hf.u_nonneg
    have := abs_nonneg (c.size sens).offset
    unfold slack; positivity
  unfold distanceToNearest at hw
  by_cases hin : (isPointIn realPlanar flt (detector realPlanar P calls) p sens).isSome = true
  · rw [if_pos hin] at hw
    subst hw
    refine ⟨?_, Or.inl ⟨rfl, hin⟩⟩
    simp only [ne_eq, OfNat.ofNat_ne_zero, not_false_eq_true, zero_pow, add_zero, Real.sqrt_zero]
    positivity
  · rw [if_neg hin, if_neg (by rintro ⟨a, b, d⟩; exact hp (by ext <;> simp [← a, ← b, ← d])), s1, detector_layer, hP,
      List.nil_append] at hw
    obtain ⟨i, hi, rfl⟩ := moduleOf_surj hm0 hm1
    obtain ⟨R, th, hR, hx, hy, hth⟩ := hnear
    obtain ⟨h1, h3⟩ := nearest_loop hf sens hg hc p
    have hb := h3 c hcm i hi (nearInRange_of c hN hphi0 hphi1 hax hi hR hx hy hth) (hout c hcm _ hm0 hm1) q hq
    generalize (calls.map stored).foldl (nearestLayer realPlanar flt P.shellGap sens p) (Vector3D.zero, 9999999 / 100)
      = best at h1 hb hw
    rcases h1 with h | ⟨q', q'', c', hc', hd, ⟨i', hi', hq'⟩, h⟩
    · rw [h] at hb; exact absurd hfar (not_lt.mpr hb)
    · rw [h] at hw hb
      have hmr := moduleOf_range hi'
      refine ⟨?_, Or.inr ⟨c', hc', _, hmr.1, hmr.2, q'', hq', ?_⟩⟩
      · rw [hw]
        refine le_trans (le_of_eq ?_) hb
        simp only [Vector3D.sub, dist2]; congr 1; ring
      · rw [hw]
        have : Vector3D.add p (Vector3D.sub q' p) = q' := by
          ext <;> simp [Vector3D.add, Vector3D.sub]
        rw [this]; exact hd

/-- A point that counts as inside gets the zero vector. -/
theorem nearest_inside_float (P : Params ℝ) (p : V3 ℝ) (sens : Bool) (flt : ℝ → ℝ)
    (h : (isPointIn realPlanar flt P p sens).isSome = true) :
    distanceToNearest realPlanar flt P p sens = ⟨0, 0, 0⟩ := by
  unfold distanceToNearest; rw [if_pos h]

/-- From (5, 0, 5) the vector to the nearest ladder of the example is at most 3.01 long with IEEE floats. -/
example : let w := (distanceToNearest realPlanar binary32 (detector realPlanar (new 1 0 0 0 2 0) [exampleLayer])
      ⟨5, 0, 5⟩ false)
    Real.sqrt (w.x ^ 2 + w.y ^ 2 + w.z ^ 2) ≤ 301 / 100 := by
  have hpi := Real.pi_pos
  have hx : ∀ m : ℤ, 0 ≤ m → m < 4 → (⟨5, 0, 5⟩ : V3 ℝ) ∉ volume exampleLayer false 2 m := by
    rintro m - - ⟨h, u, z, e, h1, h2, h3, h4, -⟩
    simp [exampleLayer, Call.size] at h1 h2 h3 h4
    have ex : (5 : ℝ) = h * Real.cos (azimuth exampleLayer m) - u * Real.sin (azimuth exampleLayer m) := congrArg V3.x e
    have ey : (0 : ℝ) = h * Real.sin (azimuth exampleLayer m) + u * Real.cos (azimuth exampleLayer m) := congrArg V3.y e
    have : h ^ 2 + u ^ 2 = 25 := by
      have := Real.sin_sq_add_cos_sq (azimuth exampleLayer m)
      have e2 : (h ^ 2 + u ^ 2) * (Real.sin (azimuth exampleLayer m) ^ 2 + Real.cos (azimuth exampleLayer m) ^ 2)
        = 5 ^ 2 + 0 ^ 2 := by
        rw [ex, ey]; ring
      rw [this] at e2; linarith
    nlinarith
  have hd : Real.sqrt (dist2 (⟨5, 0, 5⟩ : V3 ℝ) ⟨2, 0, 5⟩) = 3 := by
    rw [show dist2 (⟨5, 0, 5⟩ : V3 ℝ) ⟨2, 0, 5⟩ = (3 : ℝ) ^ 2 by norm_num [dist2], Real.sqrt_sq (by norm_num)]
  have hsl : slack (1 / 2 ^ 24) 2 (exampleLayer.size false) ≤ 1 / 100 := by
    simp only [slack, exampleLayer, Call.size]; norm_num
  have := (nearest_float_partial binary32_converts (new 1 0 0 0 2 0) rfl [exampleLayer] false (by simp [new]) (by
    simp [Sensible, Sized, exampleLayer, Call.size]) (p := ⟨5, 0, 5⟩) (by simp)
    (by simpa [exampleLayer, new] using hx) (c := exampleLayer) (by simp) (by simp [exampleLayer])
    (by simp [exampleLayer]) (by simp [exampleLayer]; linarith) (by simp) (m := 0) (le_refl _) (by simp [exampleLayer])
    ⟨5, 0, by norm_num, by simp, by simp, by simp [azimuth, exampleLayer]; positivity⟩ (q := ⟨2, 0, 5⟩)
    (exampleLayer_volume (by norm_num) (by norm_num) (by norm_num) (by norm_num) _)
    (by rw [hd]; simp only [new]; linarith) rfl).1
  rw [hd] at this
  refine this.trans ?_
  simp only [new]
  linarith

/-! ### C159: the first crossing of a straight line, with borders stored in floats -/

theorem clamp_close {x lo hi lo' hi' e : ℝ} (h : lo ≤ hi) (h1 : |lo' - lo| ≤ e) (h2 : |hi' - hi| ≤ e) (k1 : lo' ≤ x)
    (k2 : x ≤ hi') : |x - clamp x lo hi| ≤ e := by
  have := clamp_shift (x := x) h (k1.trans k2) h1 h2
  rwa [clamp_of_mem k1 k2] at this

theorem crossFace_eq (flt : ℝ → ℝ) (p v sp : V3 ℝ) (best : Best ℝ) (r n a w : V3 ℝ) (x1 x2 x3 x4 : ℝ) :
    crossFace realPlanar flt p v sp best r n a w x1 x2 x3 x4
      = ZPlanar.crossFace realPlanar p v sp best r n a w (flt x1) (flt x2) (flt x3) (flt x4) := rfl

/-- The ray meets a face within its borders, without being parallel to it; coordinates along the normal, the side and
the beam.  The faces are at `d`, `d + thick`, `l`, `r`, `z0` and `z1`, the borders are the numbers with a prime. -/
def Meets (h s z vh vs vz d thick thick' l r l' r' z0 z1 z0' z1' t : ℝ) : Prop :=
  0 ≤ t ∧
  ((vh ≠ 0 ∧ (h + t * vh = d ∨ h + t * vh = d + thick) ∧ (l' ≤ s + t * vs ∧ s + t * vs ≤ r')
      ∧ (z0' ≤ z + t * vz ∧ z + t * vz ≤ z1'))
    ∨ (vs ≠ 0 ∧ (s + t * vs = l ∨ s + t * vs = r) ∧ (0 ≤ h + t * vh - d ∧ h + t * vh - d ≤ thick')
      ∧ (z0' ≤ z + t * vz ∧ z + t * vz ≤ z1'))
    ∨ (vz ≠ 0 ∧ (z + t * vz = z0 ∨ z + t * vz = z1) ∧ (0 ≤ h + t * vh - d ∧ h + t * vh - d ≤ thick')
      ∧ (l' ≤ s + t * vs ∧ s + t * vs ≤ r')))

theorem crossFaces_step (h00 : flt 0 = 0) (b : Body ℝ) (zStart zEnd phi h s vh vs : ℝ) {p v : V3 ℝ}
    (hp : p = loc phi h s p.z) (hv : v = loc phi vh vs v.z) (best : Best ℝ) :
    Step p v
      (fun t => Meets h s p.z vh vs v.z b.d b.thick (flt b.thick) b.left b.right (flt b.left) (flt b.right)
        zStart zEnd (flt zStart) (flt zEnd) t)
      ((flt b.left ≤ 0 ∧ 0 ≤ flt b.right ∧ flt zStart ≤ 0 ∧ 0 ≤ flt zEnd) ∨ (0 ≤ -b.d ∧ -b.d ≤ flt b.thick))
      (fun t => Meets h s p.z vh vs v.z b.d b.thick (flt b.thick) b.left b.right (flt b.left) (flt b.right)
        zStart zEnd (flt zStart) (flt zEnd) t)
      best (crossFaces realPlanar flt p v b zStart zEnd phi best) := by
  have hz1 : (1 : ℝ) * 1 = 1 := one_mul 1
  obtain ⟨s1, s2, s3⟩ := dt_sp phi b.d
  have hr := ray_loc phi h s vh vs hp hv
  have vB : dt (nBase realPlanar phi) v = vh := by
    have := dt_base phi 0 vh vs v.z
    rw [← hv] at this
    rw [sub_zero] at this
    rw [← this]; simp only [dt, Vector3D.sub, spacePt, nBase]; ring
  have vS : dt (nSide realPlanar phi) v = vs := by
    have := dt_side phi 0 vh vs v.z
    rw [← hv] at this
    rw [← this]; simp only [dt, Vector3D.sub, spacePt, nBase, nSide]; ring
  have vZ : dt ⟨0, 0, 1⟩ v = v.z := by simp only [dt]; ring
  unfold crossFaces
  simp only [crossFace_eq, h00]
  rw [show (⟨b.d * (nBase realPlanar phi).x, b.d * (nBase realPlanar phi).y, b.d * (nBase realPlanar phi).z⟩ : V3 ℝ)
    = spacePt phi b.d from rfl]
  have F1 := fun best => crossFace_spec (frameB phi hz1) (spacePt phi b.d) p v (spacePt phi b.d) 0 (by ring) best
    (flt b.left) (flt b.right) (flt zStart) (flt zEnd)
  have F2 := fun best => crossFace_spec (frameB phi hz1) (spacePt phi b.d) p v
    ⟨(b.d + b.thick) * (nBase realPlanar phi).x, (b.d + b.thick) * (nBase realPlanar phi).y,
      (b.d + b.thick) * (nBase realPlanar phi).z⟩ b.thick
    (by rw [s1]; exact (dt_sp phi (b.d + b.thick)).1) best (flt b.left) (flt b.right) (flt zStart) (flt zEnd)
  have F3 := fun best => crossFace_spec (frameS phi hz1) (spacePt phi b.d) p v
    (Vector3D.add (spacePt phi b.d) (Vector3D.smul b.left (nSide realPlanar phi))) b.left
    (by have := (frameS phi hz1).nn
        simp only [dt, Vector3D.add, Vector3D.smul]; linear_combination b.left * this) best 0 (flt b.thick)
        (flt zStart) (flt zEnd)
  have F4 := fun best => crossFace_spec (frameS phi hz1) (spacePt phi b.d) p v
    (Vector3D.add (spacePt phi b.d) (Vector3D.smul b.right (nSide realPlanar phi))) b.right
    (by have := (frameS phi hz1).nn
        simp only [dt, Vector3D.add, Vector3D.smul]; linear_combination b.right * this) best 0 (flt b.thick)
        (flt zStart) (flt zEnd)
  have F5 := fun best => crossFace_spec (frameZ phi hz1) (spacePt phi b.d) p v
    (Vector3D.add (spacePt phi b.d) (Vector3D.smul zEnd ⟨0, 0, 1⟩)) zEnd
    (by simp only [dt, Vector3D.add, Vector3D.smul]; ring) best 0 (flt b.thick) (flt b.left) (flt b.right)
  have F6 := fun best => crossFace_spec (frameZ phi hz1) (spacePt phi b.d) p v
    (Vector3D.add (spacePt phi b.d) (Vector3D.smul zStart ⟨0, 0, 1⟩)) zStart
    (by simp only [dt, Vector3D.add, Vector3D.smul]; ring) best 0 (flt b.thick) (flt b.left) (flt b.right)
  simp only [Crosses, hr, dt_base, dt_side, dt_z, vB, vS, vZ, s1, s2, s3, neg_zero] at F1 F2 F3 F4 F5 F6
  generalize spacePt phi b.d = sp at *
  simp only [← hr] at F1 F2 F3 F4 F5 F6
  set O : Prop := (flt b.left ≤ 0 ∧ 0 ≤ flt b.right ∧ flt zStart ≤ 0 ∧ 0 ≤ flt zEnd) ∨ (0 ≤ -b.d ∧ -b.d ≤ flt b.thick)
    with hO
  set C : ℝ → Prop := fun t => Meets h s p.z vh vs v.z b.d b.thick (flt b.thick) b.left b.right (flt b.left)
    (flt b.right) zStart zEnd (flt zStart) (flt zEnd) t with hC
  -- each face is a step
  have G1 : ∀ best, Step p v C O (fun t => 0 ≤ t ∧ vh ≠ 0 ∧ h + t * vh = b.d
      ∧ (flt b.left ≤ s + t * vs ∧ s + t * vs ≤ flt b.right) ∧ (flt zStart ≤ p.z + t * v.z ∧ p.z + t * v.z ≤ flt zEnd))
      best (ZPlanar.crossFace realPlanar p v sp best sp
        (nBase realPlanar phi) (nSide realPlanar phi) ⟨0, 0, 1⟩ (flt b.left) (flt b.right) (flt zStart) (flt zEnd)) := by
    intro best
    obtain ⟨a1, a2, a3⟩ := F1 best
    refine ⟨a1, ?_, ?_⟩
    · rcases a2 with a2 | ⟨o1, o2, o3, o4, a2⟩ | ⟨t, ⟨t1, t2, t3, t4, t5, t6, t7⟩, a2⟩
      · exact Or.inl a2
      · exact Or.inr (Or.inl ⟨Or.inl ⟨o1, o2, o3, o4⟩, a2⟩)
      · exact Or.inr (Or.inr ⟨t, ⟨t1, Or.inl ⟨t2, Or.inl (by linarith), ⟨t4, t5⟩, ⟨t6, t7⟩⟩⟩, a2⟩)
    · rintro t ⟨t1, t5, t6, t3, t4⟩
      exact a3 t ⟨t1, t5, by linarith, t3.1, t3.2, t4.1, t4.2⟩
  have G2 : ∀ best, Step p v C O (fun t => 0 ≤ t ∧ vh ≠ 0 ∧ h + t * vh = b.d + b.thick
      ∧ (flt b.left ≤ s + t * vs ∧ s + t * vs ≤ flt b.right) ∧ (flt zStart ≤ p.z + t * v.z ∧ p.z + t * v.z ≤ flt zEnd))
      best (ZPlanar.crossFace realPlanar p v sp best
        ⟨(b.d + b.thick) * (nBase realPlanar phi).x, (b.d + b.thick) * (nBase realPlanar phi).y,
          (b.d + b.thick) * (nBase realPlanar phi).z⟩
        (nBase realPlanar phi) (nSide realPlanar phi) ⟨0, 0, 1⟩ (flt b.left) (flt b.right) (flt zStart) (flt zEnd)) := by
    intro best
    obtain ⟨a1, a2, a3⟩ := F2 best
    refine ⟨a1, ?_, ?_⟩
    · rcases a2 with a2 | ⟨o1, o2, o3, o4, a2⟩ | ⟨t, ⟨t1, t2, t3, t4, t5, t6, t7⟩, a2⟩
      · exact Or.inl a2
      · exact Or.inr (Or.inl ⟨Or.inl ⟨o1, o2, o3, o4⟩, a2⟩)
      · exact Or.inr (Or.inr ⟨t, ⟨t1, Or.inl ⟨t2, Or.inr (by linarith), ⟨t4, t5⟩, ⟨t6, t7⟩⟩⟩, a2⟩)
    · rintro t ⟨t1, t5, t6, t3, t4⟩
      exact a3 t ⟨t1, t5, by linarith, t3.1, t3.2, t4.1, t4.2⟩
  have G3 : ∀ best, Step p v C O (fun t => 0 ≤ t ∧ vs ≠ 0 ∧ s + t * vs = b.left
      ∧ (0 ≤ h + t * vh - b.d ∧ h + t * vh - b.d ≤ flt b.thick) ∧ (flt zStart ≤ p.z + t * v.z ∧ p.z + t * v.z ≤ flt zEnd))
      best (ZPlanar.crossFace realPlanar p v sp best
        (Vector3D.add sp (Vector3D.smul b.left (nSide realPlanar phi)))
        (nSide realPlanar phi) (nBase realPlanar phi) ⟨0, 0, 1⟩ 0 (flt b.thick) (flt zStart) (flt zEnd)) := by
    intro best
    obtain ⟨a1, a2, a3⟩ := F3 best
    refine ⟨a1, ?_, ?_⟩
    · rcases a2 with a2 | ⟨o1, o2, o3, o4, a2⟩ | ⟨t, ⟨t1, t2, t3, t4, t5, t6, t7⟩, a2⟩
      · exact Or.inl a2
      · exact Or.inr (Or.inl ⟨Or.inr ⟨o1, o2⟩, a2⟩)
      · exact Or.inr (Or.inr ⟨t, ⟨t1, Or.inr (Or.inl ⟨t2, Or.inl t3, ⟨t4, t5⟩, ⟨t6, t7⟩⟩)⟩, a2⟩)
    · rintro t ⟨t1, t5, t6, t3, t4⟩
      exact a3 t ⟨t1, t5, t6, t3.1, t3.2, t4.1, t4.2⟩
  have G4 : ∀ best, Step p v C O (fun t => 0 ≤ t ∧ vs ≠ 0 ∧ s + t * vs = b.right
      ∧ (0 ≤ h + t * vh - b.d ∧ h + t * vh - b.d ≤ flt b.thick) ∧ (flt zStart ≤ p.z + t * v.z ∧ p.z + t * v.z ≤ flt zEnd))
      best (ZPlanar.crossFace realPlanar p v sp best
        (Vector3D.add sp (Vector3D.smul b.right (nSide realPlanar phi)))
        (nSide realPlanar phi) (nBase realPlanar phi) ⟨0, 0, 1⟩ 0 (flt b.thick) (flt zStart) (flt zEnd)) := by
    intro best
    obtain ⟨a1, a2, a3⟩ := F4 best
    refine ⟨a1, ?_, ?_⟩
    · rcases a2 with a2 | ⟨o1, o2, o3, o4, a2⟩ | ⟨t, ⟨t1, t2, t3, t4, t5, t6, t7⟩, a2⟩
      · exact Or.inl a2
      · exact Or.inr (Or.inl ⟨Or.inr ⟨o1, o2⟩, a2⟩)
      · exact Or.inr (Or.inr ⟨t, ⟨t1, Or.inr (Or.inl ⟨t2, Or.inr t3, ⟨t4, t5⟩, ⟨t6, t7⟩⟩)⟩, a2⟩)
    · rintro t ⟨t1, t5, t6, t3, t4⟩
      exact a3 t ⟨t1, t5, t6, t3.1, t3.2, t4.1, t4.2⟩
  have G5 : ∀ best, Step p v C O (fun t => 0 ≤ t ∧ v.z ≠ 0 ∧ p.z + t * v.z = zEnd
      ∧ (0 ≤ h + t * vh - b.d ∧ h + t * vh - b.d ≤ flt b.thick) ∧ (flt b.left ≤ s + t * vs ∧ s + t * vs ≤ flt b.right))
      best (ZPlanar.crossFace realPlanar p v sp best
        (Vector3D.add sp (Vector3D.smul zEnd ⟨0, 0, 1⟩))
        ⟨0, 0, 1⟩ (nBase realPlanar phi) (nSide realPlanar phi) 0 (flt b.thick) (flt b.left) (flt b.right)) := by
    intro best
    obtain ⟨a1, a2, a3⟩ := F5 best
    refine ⟨a1, ?_, ?_⟩
    · rcases a2 with a2 | ⟨o1, o2, o3, o4, a2⟩ | ⟨t, ⟨t1, t2, t3, t4, t5, t6, t7⟩, a2⟩
      · exact Or.inl a2
      · exact Or.inr (Or.inl ⟨Or.inr ⟨o1, o2⟩, a2⟩)
      · exact Or.inr (Or.inr ⟨t, ⟨t1, Or.inr (Or.inr ⟨t2, Or.inr t3, ⟨t4, t5⟩, ⟨t6, t7⟩⟩)⟩, a2⟩)
    · rintro t ⟨t1, t5, t6, t3, t4⟩
      exact a3 t ⟨t1, t5, t6, t3.1, t3.2, t4.1, t4.2⟩
  have G6 : ∀ best, Step p v C O (fun t => 0 ≤ t ∧ v.z ≠ 0 ∧ p.z + t * v.z = zStart
      ∧ (0 ≤ h + t * vh - b.d ∧ h + t * vh - b.d ≤ flt b.thick) ∧ (flt b.left ≤ s + t * vs ∧ s + t * vs ≤ flt b.right))
      best (ZPlanar.crossFace realPlanar p v sp best
        (Vector3D.add sp (Vector3D.smul zStart ⟨0, 0, 1⟩))
        ⟨0, 0, 1⟩ (nBase realPlanar phi) (nSide realPlanar phi) 0 (flt b.thick) (flt b.left) (flt b.right)) := by
    intro best
    obtain ⟨a1, a2, a3⟩ := F6 best
    refine ⟨a1, ?_, ?_⟩
    · rcases a2 with a2 | ⟨o1, o2, o3, o4, a2⟩ | ⟨t, ⟨t1, t2, t3, t4, t5, t6, t7⟩, a2⟩
      · exact Or.inl a2
      · exact Or.inr (Or.inl ⟨Or.inr ⟨o1, o2⟩, a2⟩)
      · exact Or.inr (Or.inr ⟨t, ⟨t1, Or.inr (Or.inr ⟨t2, Or.inl t3, ⟨t4, t5⟩, ⟨t6, t7⟩⟩)⟩, a2⟩)
    · rintro t ⟨t1, t5, t6, t3, t4⟩
      exact a3 t ⟨t1, t5, t6, t3.1, t3.2, t4.1, t4.2⟩
  have id1 : ∀ t, C t → C t := fun _ h => h
  have id2 : O → O := fun h => h
  have H12 := (G1 best).trans (G2 _) id1 id1 id2 id2 (fun t h => h)
  have H13 := H12.trans (G3 _) id1 id1 id2 id2 (fun t h => h)
  have H14 := H13.trans (G4 _) id1 id1 id2 id2 (fun t h => h)
  have H15 := H14.trans (G5 _) id1 id1 id2 id2 (fun t h => h)
  have H16 := H15.trans (G6 _) id1 id1 id2 id2 (fun t h => h)
  refine H16.weaken id1 id2 ?_
  rintro t ⟨t0, ⟨a, b | b, e, f⟩ | ⟨a, b | b, e, f⟩ | ⟨a, b | b, e, f⟩⟩
  · exact Or.inl (Or.inl (Or.inl (Or.inl (Or.inl ⟨t0, a, b, e, f⟩))))
  · exact Or.inl (Or.inl (Or.inl (Or.inl (Or.inr ⟨t0, a, b, e, f⟩))))
  · exact Or.inl (Or.inl (Or.inl (Or.inr ⟨t0, a, b, e, f⟩)))
  · exact Or.inl (Or.inl (Or.inr ⟨t0, a, b, e, f⟩))
  · exact Or.inr ⟨t0, a, b, e, f⟩
  · exact Or.inl (Or.inr ⟨t0, a, b, e, f⟩)

/-- Specification: the ray in direction `v` goes through the point `q` of a face of a volume, not parallel to the face.
On the other coordinates `q` is away from the edges by the rounding of the borders, and for the four faces along the beam
it is on the side of positive z. -/
def Through (u : ℝ) (c : Call ℝ) (sens : Bool) (gap : ℝ) (m : ℤ) (v q : V3 ℝ) : Prop :=
  ∃ h s z, q = point (azimuth c m) h s z ∧
  ((v.x * Real.cos (azimuth c m) + v.y * Real.sin (azimuth c m) ≠ 0
      ∧ (h = (c.size sens).distance ∨ h = (c.size sens).distance + (c.size sens).thickness)
      ∧ |s - (c.size sens).offset| ≤ (c.size sens).width / 2 - u * ((c.size sens).width / 2 + |(c.size sens).offset|)
      ∧ gap / 2 + u * (gap / 2) ≤ z ∧ z ≤ gap / 2 + (c.size sens).length - u * (gap / 2 + (c.size sens).length))
    ∨ (v.y * Real.cos (azimuth c m) - v.x * Real.sin (azimuth c m) ≠ 0
      ∧ |s - (c.size sens).offset| = (c.size sens).width / 2
      ∧ (c.size sens).distance ≤ h
      ∧ h ≤ (c.size sens).distance + (c.size sens).thickness - u * (c.size sens).thickness
      ∧ gap / 2 + u * (gap / 2) ≤ z ∧ z ≤ gap / 2 + (c.size sens).length - u * (gap / 2 + (c.size sens).length))
    ∨ (v.z ≠ 0 ∧ (|z| = gap / 2 ∨ |z| = gap / 2 + (c.size sens).length)
      ∧ (c.size sens).distance ≤ h
      ∧ h ≤ (c.size sens).distance + (c.size sens).thickness - u * (c.size sens).thickness
      ∧ |s - (c.size sens).offset| ≤ (c.size sens).width / 2 - u * ((c.size sens).width / 2 + |(c.size sens).offset|)))

/-- What may be found: a point of the ray near a volume. -/
def CanMeet (u : ℝ) (c : Call ℝ) (sens : Bool) (gap : ℝ) (p v : V3 ℝ) (t : ℝ) : Prop :=
  0 ≤ t ∧ ∃ i < c.nLadders.toNat, ∃ q ∈ volume c sens gap (moduleOf c.nLadders i),
    Real.sqrt (dist2 (ray' p v t) q) ≤ slack u gap (c.size sens)

/-- A met face is near the volume. -/
theorem meets_near (hf : Converts flt u) (c : Call ℝ) (hN : 0 < c.nLadders) (sens : Bool) {gap : ℝ} (hg : 0 ≤ gap)
    (hs : Sized (c.size sens)) {p v : V3 ℝ} {i : ℕ} (hi : i < c.nLadders.toNat) {h s vh vs e t : ℝ} (he : e = 1 ∨ e = -1)
    (hp : p = loc (ladderPhi realPlanar (stored c) i) h s p.z) (hv : v = loc (ladderPhi realPlanar (stored c) i) vh vs v.z)
    (ht : Meets h s p.z vh vs v.z (c.size sens).distance (c.size sens).thickness (flt (c.size sens).thickness)
      (-(c.size sens).width / 2 - (c.size sens).offset) ((c.size sens).width / 2 - (c.size sens).offset)
      (flt (-(c.size sens).width / 2 - (c.size sens).offset)) (flt ((c.size sens).width / 2 - (c.size sens).offset))
      (e * (gap / 2)) (e * ((c.size sens).length + gap / 2)) (flt (e * (gap / 2)))
      (flt (e * ((c.size sens).length + gap / 2))) t) : CanMeet u c sens gap p v t := by
  obtain ⟨hT, hW, hL⟩ := hs
  have hu := hf.u_nonneg
  obtain ⟨k1, k2, -, -⟩ := borders hf hg hW hL
  have hr := ray_loc _ h s vh vs hp hv t
  have o0 := abs_nonneg (c.size sens).offset
  have e1 : 0 ≤ u * (c.size sens).thickness := by positivity
  have e2 : 0 ≤ u * ((c.size sens).width / 2 + |(c.size sens).offset|) := by positivity
  have e3 : 0 ≤ u * (gap / 2 + (c.size sens).length) := by positivity
  have hlr : -(c.size sens).width / 2 - (c.size sens).offset ≤ (c.size sens).width / 2 - (c.size sens).offset := by linarith
  -- the three coordinates
  have cH : ∀ x, (x = (c.size sens).distance ∨ x = (c.size sens).distance + (c.size sens).thickness)
      ∨ (0 ≤ x - (c.size sens).distance ∧ x - (c.size sens).distance ≤ flt (c.size sens).thickness) →
      ∃ y, (c.size sens).distance ≤ y ∧ y ≤ (c.size sens).distance + (c.size sens).thickness
        ∧ |x - y| ≤ u * (c.size sens).thickness := by
    rintro x ((rfl | rfl) | ⟨x1, x2⟩)
    · exact ⟨_, le_refl _, by linarith, by simpa using e1⟩
    · exact ⟨_, by linarith, le_refl _, by simpa using e1⟩
    · have m := clamp_mem (x := x - (c.size sens).distance) hT
      refine ⟨(c.size sens).distance + clamp (x - (c.size sens).distance) 0 (c.size sens).thickness, by linarith [m.1],
        by linarith [m.2], ?_⟩
      have := clamp_close (x := x - (c.size sens).distance) (lo' := 0) hT (by simpa using e1)
        (hf.within (le_of_eq (abs_of_nonneg hT))) x1 x2
      rwa [sub_sub] at this
  have cS : ∀ x, (x = -(c.size sens).width / 2 - (c.size sens).offset ∨ x = (c.size sens).width / 2 - (c.size sens).offset)
      ∨ (flt (-(c.size sens).width / 2 - (c.size sens).offset) ≤ x
        ∧ x ≤ flt ((c.size sens).width / 2 - (c.size sens).offset)) →
      ∃ y, -(c.size sens).width / 2 - (c.size sens).offset ≤ y ∧ y ≤ (c.size sens).width / 2 - (c.size sens).offset
        ∧ |x - y| ≤ u * ((c.size sens).width / 2 + |(c.size sens).offset|) := by
    rintro x ((rfl | rfl) | ⟨x1, x2⟩)
    · exact ⟨_, le_refl _, hlr, by simpa using e2⟩
    · exact ⟨_, hlr, le_refl _, by simpa using e2⟩
    · have m := clamp_mem (x := x) hlr
      exact ⟨_, m.1, m.2, clamp_close hlr k1 k2 x1 x2⟩
  have cZ : ∀ x, (x = e * (gap / 2) ∨ x = e * ((c.size sens).length + gap / 2))
      ∨ (flt (e * (gap / 2)) ≤ x ∧ x ≤ flt (e * ((c.size sens).length + gap / 2))) →
      ∃ y, gap / 2 ≤ |y| ∧ |y| ≤ gap / 2 + (c.size sens).length ∧ |x - y| ≤ u * (gap / 2 + (c.size sens).length) := by
    have ea : |e| = 1 := by rcases he with rfl | rfl <;> simp
    have a1 : |e * (gap / 2)| = gap / 2 := by rw [abs_mul, ea, one_mul, abs_of_nonneg (by linarith)]
    have a2 : |e * ((c.size sens).length + gap / 2)| = (c.size sens).length + gap / 2 := by
      rw [abs_mul, ea, one_mul, abs_of_nonneg (by linarith)]
    have b1 := hf.within (x := e * (gap / 2)) (b := gap / 2 + (c.size sens).length) (by rw [a1]; linarith)
    have b2 := hf.within (x := e * ((c.size sens).length + gap / 2)) (b := gap / 2 + (c.size sens).length)
      (by rw [a2]; linarith)
    rintro x ((rfl | rfl) | ⟨x1, x2⟩)
    · exact ⟨_, a1.ge, by rw [a1]; linarith, by simpa using e3⟩
    · exact ⟨_, by rw [a2]; linarith, by rw [a2]; linarith, by simpa using e3⟩
    · rcases he with rfl | rfl
      · rw [one_mul] at *
        rw [one_mul] at *
        have m := clamp_mem (x := x) (show gap / 2 ≤ (c.size sens).length + gap / 2 by linarith)
        have m0 : 0 ≤ clamp x (gap / 2) ((c.size sens).length + gap / 2) := by linarith [m.1]
        refine ⟨_, by rw [abs_of_nonneg m0]; exact m.1, by rw [abs_of_nonneg m0]; linarith [m.2],
          clamp_close (by linarith) b1 b2 x1 x2⟩
      · refine ⟨-1 * (gap / 2), a1.ge, by rw [a1]; linarith, ?_⟩
        rw [abs_le] at b1 b2 ⊢
        constructor <;> linarith [b1.1, b1.2, b2.1, b2.2]
  obtain ⟨t0, ht⟩ := ht
  obtain ⟨y1, y2, y3⟩ : ((h + t * vh = (c.size sens).distance ∨ h + t * vh = (c.size sens).distance + (c.size sens).thickness)
      ∨ (0 ≤ h + t * vh - (c.size sens).distance ∧ h + t * vh - (c.size sens).distance ≤ flt (c.size sens).thickness))
      ∧ ((s + t * vs = -(c.size sens).width / 2 - (c.size sens).offset ∨ s + t * vs = (c.size sens).width / 2 - (c.size sens).offset)
      ∨ (flt (-(c.size sens).width / 2 - (c.size sens).offset) ≤ s + t * vs
        ∧ s + t * vs ≤ flt ((c.size sens).width / 2 - (c.size sens).offset)))
      ∧ ((p.z + t * v.z = e * (gap / 2) ∨ p.z + t * v.z = e * ((c.size sens).length + gap / 2))
      ∨ (flt (e * (gap / 2)) ≤ p.z + t * v.z ∧ p.z + t * v.z ≤ flt (e * ((c.size sens).length + gap / 2)))) := by
    rcases ht with ⟨-, a, b, d⟩ | ⟨-, a, b, d⟩ | ⟨-, a, b, d⟩
    · exact ⟨Or.inl a, Or.inr b, Or.inr d⟩
    · exact ⟨Or.inr b, Or.inl a, Or.inr d⟩
    · exact ⟨Or.inr b, Or.inr d, Or.inl a⟩
  obtain ⟨h', x1, x2, x3⟩ := cH _ y1
  obtain ⟨s', x4, x5, x6⟩ := cS _ y2
  obtain ⟨z', x7, x8, x9⟩ := cZ _ y3
  refine ⟨t0, i, hi, loc (ladderPhi realPlanar (stored c) i) h' s' z', ⟨h', -s', z', loc_point c hN i _ _ _, x1, x2,
    by linarith, by linarith, x7, x8⟩, ?_⟩
  rw [hr]
  refine (near_loc x3 x6 x9).trans (le_of_eq ?_)
  unfold slack; ring

theorem crossLadder_step (hf : Converts flt u) (hu : u < 1) (c : Call ℝ) (hN : 0 < c.nLadders) (sens : Bool) {gap : ℝ}
    (hg : 0 < gap) (hs : Sized (c.size sens)) (hD : 0 < (c.size sens).distance) (p v : V3 ℝ) {i : ℕ}
    (hi : i < c.nLadders.toNat) {e : ℝ} (he : e = 1 ∨ e = -1) (best : Best ℝ) :
    Step p v (CanMeet u c sens gap p v) False
      (fun t => 0 ≤ t ∧ Through u c sens gap (moduleOf c.nLadders i) v (ray' p v t) ∧ 0 ≤ e * (ray' p v t).z) best
      (crossFaces realPlanar flt p v (body gap sens (stored c)) (e * (gap / 2)) (e * (body gap sens (stored c)).zEnd)
        (ladderPhi realPlanar (stored c) i) best) := by
  set phi := ladderPhi realPlanar (stored c) i with hphi
  have hp := loc_coords phi p
  have hv := loc_coords phi v
  have hvh : v.x * Real.sin phi + v.y * Real.cos phi
      = v.x * Real.cos (azimuth c (moduleOf c.nLadders i)) + v.y * Real.sin (azimuth c (moduleOf c.nLadders i)) := by
    obtain ⟨g1, g2⟩ := ladderPhi_azimuth c hN i
    rw [hphi, g1, g2]
  have hvs : v.x * Real.cos phi - v.y * Real.sin phi
      = -(v.y * Real.cos (azimuth c (moduleOf c.nLadders i)) - v.x * Real.sin (azimuth c (moduleOf c.nLadders i))) := by
    obtain ⟨g1, g2⟩ := ladderPhi_azimuth c hN i
    rw [hphi, g1, g2]; ring
  generalize hh : p.x * Real.sin phi + p.y * Real.cos phi = h at hp
  generalize hss : p.x * Real.cos phi - p.y * Real.sin phi = s at hp
  generalize v.x * Real.sin phi + v.y * Real.cos phi = vh at hv hvh
  generalize v.x * Real.cos phi - v.y * Real.sin phi = vs at hv hvs
  have st := crossFaces_step hf.zero (body gap sens (stored c)) (e * (gap / 2)) (e * (body gap sens (stored c)).zEnd) phi
    h s vh vs hp hv best
  have hr := ray_loc phi h s vh vs hp hv
  rw [body_stored] at st ⊢
  dsimp only at st ⊢
  refine st.weaken (fun t ht => meets_near hf c hN sens hg.le hs hi he hp hv ht) ?_ ?_
  · obtain ⟨hT, hW, hL⟩ := hs
    rintro (⟨-, -, o1, o2⟩ | ⟨o, -⟩)
    · rcases he with rfl | rfl
      · have := hf.lower (x := gap / 2) (by linarith)
        rw [one_mul] at o1
        nlinarith
      · have h1 := (abs_le.mp (hf.err (-1 * ((c.size sens).length + gap / 2)))).2
        rw [abs_mul, abs_neg, abs_one, one_mul, abs_of_nonneg (by linarith)] at h1
        nlinarith
    · linarith
  · obtain ⟨hT, hW, hL⟩ := hs
    rintro t ⟨t0, ⟨h', s', z', hq, hq'⟩, hz⟩
    have e' : loc phi (h + t * vh) (s + t * vs) (p.z + t * v.z) = loc phi h' (-s') z' := by
      rw [← hr, hq, hphi, loc_point c hN, neg_neg]
    have f := frameB phi (one_mul (1 : ℝ))
    obtain ⟨j1, j2, j3⟩ : h + t * vh = h' ∧ s + t * vs = -s' ∧ p.z + t * v.z = z' := by
      rw [loc_eq_at3 phi 0 _ _ (one_mul (1 : ℝ)), loc_eq_at3 phi 0 _ _ (one_mul (1 : ℝ))] at e'
      obtain ⟨a1, a2, a3⟩ := f.inj e'
      exact ⟨by linarith, a2, by linarith⟩
    have hz' : 0 ≤ e * z' := by rw [← j3]; exact hz
    obtain ⟨k1, k2, -, k4⟩ := borders hf hg.le hW hL
    have k3 := hf.within (x := gap / 2) (b := gap / 2) (le_of_eq (abs_of_nonneg (by linarith)))
    have k5 := hf.within (le_of_eq (abs_of_nonneg hT))
    rw [abs_le] at k1 k2 k3 k4 k5
    have hu0 := mul_nonneg hf.u_nonneg (by linarith : 0 ≤ gap / 2)
    -- the borders along the beam, for the side of positive z
    have bz : gap / 2 + u * (gap / 2) ≤ z' → z' ≤ gap / 2 + (c.size sens).length - u * (gap / 2 + (c.size sens).length) →
        flt (e * (gap / 2)) ≤ z' ∧ z' ≤ flt (e * ((c.size sens).length + gap / 2)) := by
      intro b1 b2
      rcases he with rfl | rfl
      · rw [one_mul, one_mul]
        constructor
        · linarith [k3.2]
        · linarith [k4.1]
      · exfalso; linarith
    have bs : |s' - (c.size sens).offset| ≤ (c.size sens).width / 2 - u * ((c.size sens).width / 2 + |(c.size sens).offset|) →
        flt (-(c.size sens).width / 2 - (c.size sens).offset) ≤ -s'
          ∧ -s' ≤ flt ((c.size sens).width / 2 - (c.size sens).offset) := by
      intro b
      obtain ⟨b1, b2⟩ := abs_le.mp b
      constructor
      · linarith [k1.2]
      · linarith [k2.1]
    have bh : (c.size sens).distance ≤ h' →
        h' ≤ (c.size sens).distance + (c.size sens).thickness - u * (c.size sens).thickness →
        0 ≤ h' - (c.size sens).distance ∧ h' - (c.size sens).distance ≤ flt (c.size sens).thickness := by
      intro b1 b2
      constructor
      · linarith
      · linarith [k5.1]
    refine ⟨t0, ?_⟩
    rw [j1, j2, j3]
    rcases hq' with ⟨a1, a2, a3, a4, a5⟩ | ⟨a1, a2, a3, a4, a5, a6⟩ | ⟨a1, a2, a3, a4, a5⟩
    · exact Or.inl ⟨by rw [hvh]; exact a1, a2, bs a3, bz a4 a5⟩
    · refine Or.inr (Or.inl ⟨by rw [hvs]; exact neg_ne_zero.mpr a1, ?_, bh a3 a4, bz a5 a6⟩)
      rcases abs_choice (s' - (c.size sens).offset) with a | a <;> rw [a] at a2
      · exact Or.inl (by linarith)
      · exact Or.inr (by linarith)
    · refine Or.inr (Or.inr ⟨a1, ?_, bh a3 a4, bs a5⟩)
      have hza : z' = e * |z'| := by
        rcases he with rfl | rfl
        · rw [one_mul] at hz' ⊢; rw [abs_of_nonneg hz']
        · rw [abs_of_nonpos (by linarith)]; ring
      rcases a2 with a | a
      · exact Or.inl (by rw [hza, a])
      · exact Or.inr (by rw [hza, a]; ring)

theorem crossLayer_step (hf : Converts flt u) (hu : u < 1) (c : Call ℝ) (hN : 0 < c.nLadders) (sens : Bool) {gap : ℝ}
    (hg : 0 < gap) (hs : Sized (c.size sens)) (hD : 0 < (c.size sens).distance) (p v : V3 ℝ) (best : Best ℝ) :
    Step p v (CanMeet u c sens gap p v) False
      (fun t => 0 ≤ t ∧ ∃ i < c.nLadders.toNat, Through u c sens gap (moduleOf c.nLadders i) v (ray' p v t)) best
      (crossLayer realPlanar flt gap sens p v best (stored c)) := by
  unfold crossLayer
  dsimp only
  have h1 := foldl_step (p := p) (v := v) (can := CanMeet u c sens gap p v) (o := False)
    (fun s i => crossFaces realPlanar flt p v (body gap sens (stored c)) (gap / 2) (body gap sens (stored c)).zEnd
      (ladderPhi realPlanar (stored c) i) s) (List.range (stored c).1.NLadders.toNat) _
    (fun b i hi => by
      have := crossLadder_step hf hu c hN sens hg hs hD p v (List.mem_range.mp hi) (e := 1) (Or.inl rfl) b
      rw [one_mul, one_mul] at this
      exact this) best
  have h2 := foldl_step (p := p) (v := v) (can := CanMeet u c sens gap p v) (o := False)
    (fun s i => crossFaces realPlanar flt p v (body gap sens (stored c)) (-gap / 2) (-(body gap sens (stored c)).zEnd)
      (ladderPhi realPlanar (stored c) i) s) (List.range (stored c).1.NLadders.toNat) _
    (fun b i hi => by
      have := crossLadder_step hf hu c hN sens hg hs hD p v (List.mem_range.mp hi) (e := -1) (Or.inr rfl) b
      rw [show -1 * (gap / 2) = -gap / 2 by ring, show -1 * (body gap sens (stored c)).zEnd
        = -(body gap sens (stored c)).zEnd by ring] at this
      exact this)
  refine h1.trans (h2 _) (fun _ h => h) (fun _ h => h) (fun h => h) (fun h => h) ?_
  rintro t ⟨t0, i, hi, hm⟩
  rcases le_total 0 (ray' p v t).z with hz | hz
  · exact Or.inl ⟨i, List.mem_range.mpr hi, t0, hm, by linarith⟩
  · exact Or.inr ⟨i, List.mem_range.mpr hi, t0, hm, by linarith⟩

theorem cross_loop (hf : Converts flt u) (hu : u < 1) (sens : Bool) {gap : ℝ} (hg : 0 < gap) {calls : List (Call ℝ)}
    (hc : ∀ c ∈ calls, Sensible c sens ∧ 0 < (c.size sens).distance) (p v : V3 ℝ) (best : Best ℝ) :
    Step p v (fun t => ∃ c ∈ calls, CanMeet u c sens gap p v t) False
      (fun t => ∃ c ∈ calls, 0 ≤ t ∧ ∃ i < c.nLadders.toNat,
        Through u c sens gap (moduleOf c.nLadders i) v (ray' p v t)) best
      ((calls.map stored).foldl (crossLayer realPlanar flt gap sens p v) best) := by
  rw [List.foldl_map]
  exact foldl_step (fun s c => crossLayer realPlanar flt gap sens p v s (stored c)) calls
    (fun c t => 0 ≤ t ∧ ∃ i < c.nLadders.toNat, Through u c sens gap (moduleOf c.nLadders i) v (ray' p v t))
    (fun b c hcm => (crossLayer_step hf hu c (hc c hcm).1.1 sens hg (hc c hcm).1.2 (hc c hcm).2 p v b).weaken
      (fun t ht => ⟨c, hcm, ht⟩) (fun h => h) (fun _ h => h)) best

/-- The result is the origin, which stands for "no intersection", or a point of the ray that is in a volume up to the
rounding of the borders. -/
theorem intersection_sound_float (hf : Converts flt u) (hu : u < 1) (P : Params ℝ) (hP : P.layer = [])
    (calls : List (Call ℝ)) (sens : Bool) (hg : 0 < P.shellGap)
    (hc : ∀ c ∈ calls, Sensible c sens ∧ 0 < (c.size sens).distance) (p v : V3 ℝ)
    {x : V3 ℝ} (hx : x = intersection realPlanar flt (detector realPlanar P calls) p v sens) :
    x = ⟨0, 0, 0⟩ ∨ x ∈ ray p v ∧ ∃ c ∈ calls, ∃ m, 0 ≤ m ∧ m < c.nLadders ∧ ∃ q ∈ volume c sens P.shellGap m,
      Real.sqrt (dist2 x q) ≤ slack u P.shellGap (c.size sens) := by
  obtain ⟨s1, s2⟩ := detector_shell realPlanar P calls
  unfold intersection at hx
  rw [s1, detector_layer, hP, List.nil_append] at hx
  obtain ⟨-, h2, -⟩ := cross_loop hf hu sens hg hc p v (⟨0, 0, 0⟩, 99999)
  rcases h2 with h | ⟨ho, h⟩ | ⟨t, ⟨c, hcm, t0, i, hi, q, hq, hd⟩, h⟩
  · rw [h] at hx; exact Or.inl hx
  · exact ho.elim
  · rw [h] at hx
    have hmr := moduleOf_range hi
    exact Or.inr ⟨⟨t, t0, hx⟩, c, hcm, _, hmr.1, hmr.2, q, hq, by rw [hx]; exact hd⟩

/-- If the ray goes, less than 99999 away, through a face of a volume, away from its edges by the rounding of the
borders, then the result is a point of the ray that is at most as far away, and in a volume up to that rounding.
Missing: the crossings at the edges, and the faces along the beam on the side of negative z. -/
theorem intersection_first_float_partial (hf : Converts flt u) (hu : u < 1) (P : Params ℝ) (hP : P.layer = [])
    (calls : List (Call ℝ)) (sens : Bool) (hg : 0 < P.shellGap)
    (hc : ∀ c ∈ calls, Sensible c sens ∧ 0 < (c.size sens).distance) (p v : V3 ℝ)
    {x : V3 ℝ} (hx : x = intersection realPlanar flt (detector realPlanar P calls) p v sens)
    {c : Call ℝ} (hcm : c ∈ calls) {m : ℤ} (hm0 : 0 ≤ m) (hm1 : m < c.nLadders) {q : V3 ℝ} (hq : q ∈ ray p v)
    (hqf : Through u c sens P.shellGap m v q) (hfar : Real.sqrt (dist2 p q) < 99999) :
    x ∈ ray p v ∧ dist2 p x ≤ dist2 p q ∧
      ∃ c' ∈ calls, ∃ m', 0 ≤ m' ∧ m' < c'.nLadders ∧ ∃ q' ∈ volume c' sens P.shellGap m',
        Real.sqrt (dist2 x q') ≤ slack u P.shellGap (c'.size sens) := by
  obtain ⟨s1, s2⟩ := detector_shell realPlanar P calls
  unfold intersection at hx
  rw [s1, detector_layer, hP, List.nil_append] at hx
  obtain ⟨-, h2, h3⟩ := cross_loop hf hu sens hg hc p v (⟨0, 0, 0⟩, 99999)
  obtain ⟨i, hi, rfl⟩ := moduleOf_surj hm0 hm1
  obtain ⟨t, t0, rfl⟩ := hq
  have hb := h3 t ⟨c, hcm, t0, i, hi, hqf⟩
  rcases h2 with h | ⟨ho, h⟩ | ⟨t', ⟨c', hcm', t0', i', hi', q', hq', hd⟩, h⟩
  · rw [h] at hb; exact absurd hfar (not_lt.mpr hb)
  · exact ho.elim
  · rw [h] at hx hb
    have hmr := moduleOf_range hi'
    refine ⟨⟨t', t0', hx⟩, ?_, c', hcm', _, hmr.1, hmr.2, q', hq', by rw [hx]; exact hd⟩
    rw [hx]
    exact (Real.sqrt_le_sqrt_iff (by unfold dist2; positivity)).mp hb

/-- From (0, 0, 5) in the direction of the x axis, the example's ladder is met at distance 1 at most with IEEE floats. -/
example : dist2 ⟨0, 0, 5⟩ (intersection realPlanar binary32 (detector realPlanar (new 1 0 0 0 2 0) [exampleLayer])
    ⟨0, 0, 5⟩ ⟨1, 0, 0⟩ false) ≤ 1 := by
  have hd : dist2 (⟨0, 0, 5⟩ : V3 ℝ) ⟨1, 0, 5⟩ = 1 := by norm_num [dist2]
  have := (intersection_first_float_partial binary32_converts (by norm_num) (new 1 0 0 0 2 0) rfl [exampleLayer] false
    (by simp [new]) (by simp [Sensible, Sized, exampleLayer, Call.size]) ⟨0, 0, 5⟩ ⟨1, 0, 0⟩ rfl (c := exampleLayer)
    (by simp) (m := 0) (le_refl _) (by simp [exampleLayer]) (q := ⟨1, 0, 5⟩) ⟨1, by norm_num, by ext <;> norm_num⟩
    ⟨1, 0, 5, by ext <;> simp [point, azimuth, exampleLayer], Or.inl (by
      simp [azimuth, exampleLayer, Call.size, new]; norm_num)⟩ (by rw [hd]; simp)).2.1
  rw [hd] at this
  exact this

/-- A ladder whose half width of 10.2 is smaller as a float. -/
noncomputable def wide : Call ℝ where
  nLadders := 1
  phi0 := 0
  ladder := ⟨100, 0, 1 / 10, 10, 102 / 5, 1⟩
  sensitive := ⟨100, 0, 1 / 10, 10, 102 / 5, 1⟩

/-- The first crossing is not found at the edges: with IEEE floats a ray along the side face of a ladder meets nothing,
although with exact borders it does. -/
theorem intersection_first_float_false : ∃ (c : Call ℝ) (p v q : V3 ℝ), Sensible c false ∧ 0 < (c.size false).distance
    ∧ q ∈ ray p v ∧ q ∈ volume c false 2 0 ∧ p ∉ volume c false 2 0 ∧ 0 ≤ q.z ∧ dist2 p q = 100 ^ 2
    ∧ ZPlanar.intersection realPlanar (detector realPlanar (new 1 0 0 0 2 0) [c]) p v false ∈ ray p v
    ∧ intersection realPlanar binary32 (detector realPlanar (new 1 0 0 0 2 0) [c]) p v false = ⟨0, 0, 0⟩
    ∧ (⟨0, 0, 0⟩ : V3 ℝ) ∉ ray p v := by
  have hs : Sensible wide false := by
    simp only [Sensible, Sized, wide, Call.size]; norm_num
  have hD : 0 < (wide.size false).distance := by simp [wide, Call.size]
  have hray : (⟨100, 51 / 5, 5⟩ : V3 ℝ) ∈ ray ⟨0, 51 / 5, 5⟩ ⟨1, 0, 0⟩ := ⟨100, by norm_num, by ext <;> norm_num⟩
  have hvol : (⟨100, 51 / 5, 5⟩ : V3 ℝ) ∈ volume wide false 2 0 := by
    refine ⟨100, 51 / 5, 5, by ext <;> simp [point, azimuth, wide], ?_⟩
    simp only [wide, Call.size]; norm_num
  have hout : (⟨0, 51 / 5, 5⟩ : V3 ℝ) ∉ volume wide false 2 0 := by
    rintro ⟨h, u, z, e, h1, -⟩
    have := congrArg V3.x e
    simp [point, azimuth, wide, Call.size] at this h1
    linarith
  have hd : dist2 (⟨0, 51 / 5, 5⟩ : V3 ℝ) ⟨100, 51 / 5, 5⟩ = 100 ^ 2 := by norm_num [dist2]
  refine ⟨wide, ⟨0, 51 / 5, 5⟩, ⟨1, 0, 0⟩, ⟨100, 51 / 5, 5⟩, hs, hD, hray, hvol, hout, by norm_num, hd, ?_, ?_, ?_⟩
  · refine (intersection_first_partial (new 1 0 0 0 2 0) rfl [wide] false (by simp [new]) ?_ _ _ rfl (c := wide) (by simp)
      (m := 0) (le_refl _) (by simp [wide]) hray hvol hout (by norm_num)
      (by rw [hd, Real.sqrt_sq (by norm_num)]; norm_num)).1
    intro c hc
    rw [List.mem_singleton.mp hc]
    exact ⟨⟨hs.1, hs.2, by simp [wide, Call.size]⟩, hD⟩
  · obtain ⟨g1, g2⟩ := ladderPhi_azimuth wide (by simp [wide]) 0
    have haz : azimuth wide (moduleOf wide.nLadders 0) = 0 := by simp [azimuth, wide, moduleOf]
    rw [haz, Real.cos_zero] at g1
    rw [haz, Real.sin_zero] at g2
    have hp : (⟨0, 51 / 5, 5⟩ : V3 ℝ) = loc (ladderPhi realPlanar (stored wide) 0) 0 (-(51 / 5)) 5 := by
      ext <;> simp [loc, g1, g2]
    have hv : (⟨1, 0, 0⟩ : V3 ℝ) = loc (ladderPhi realPlanar (stored wide) 0) 1 0 0 := by
      ext <;> simp [loc, g1, g2]
    have key : ∀ best (e : ℝ), e = 1 ∨ e = -1 → crossFaces realPlanar binary32 ⟨0, 51 / 5, 5⟩ ⟨1, 0, 0⟩
        (body 2 false (stored wide)) (e * (2 / 2)) (e * (body 2 false (stored wide)).zEnd)
        (ladderPhi realPlanar (stored wide) 0) best = best := by
      intro best e he
      obtain ⟨-, h2, -⟩ := crossFaces_step (flt := binary32) binary32_zero (body 2 false (stored wide)) (e * (2 / 2))
        (e * (body 2 false (stored wide)).zEnd) (ladderPhi realPlanar (stored wide) 0) 0 (-(51 / 5)) 1 0 hp hv best
      have hb : body 2 false (stored wide) = ⟨11, -(51 / 5), 51 / 5, 1 / 10, 100⟩ := by
        rw [body_stored]; norm_num [wide, Call.size]
      rw [hb] at h2 ⊢
      dsimp only at h2 ⊢
      rcases h2 with h | ⟨(⟨-, -, o1, o2⟩ | ⟨o1, -⟩), -⟩ | ⟨t, ⟨-, ⟨-, -, k, -⟩ | ⟨k, -⟩ | ⟨k, -⟩⟩, -⟩
      · exact h
      · exfalso
        rcases he with rfl | rfl
        · rw [one_mul, show (2 : ℝ) / 2 = 1 by norm_num, binary32_one] at o1; linarith
        · rw [show (-1 : ℝ) * 11 = -11 by norm_num, binary32_neg, binary32_eleven] at o2; linarith
      · norm_num at o1
      · exfalso
        rw [binary32_neg, binary32_half] at k
        norm_num at k
      · exact absurd rfl k
      · exact absurd rfl k
    unfold intersection
    rw [detector_layer]
    have hg : (detector realPlanar (new 1 0 0 0 2 0) [wide]).shellGap = 2 := by rw [(detector_shell _ _ _).1]; rfl
    rw [hg]
    have hn : (stored wide).1.NLadders = 1 := rfl
    have k1 := key (⟨0, 0, 0⟩, 99999) 1 (Or.inl rfl)
    have k2 := key (⟨0, 0, 0⟩, 99999) (-1) (Or.inr rfl)
    rw [one_mul, one_mul] at k1
    rw [show (-1 : ℝ) * (2 / 2) = -2 / 2 by norm_num, neg_one_mul] at k2
    rw [show (new 1 0 0 0 2 0 : Params ℝ).layer = [] from rfl, List.nil_append]
    simp only [List.map_cons, List.map_nil, List.foldl_cons, List.foldl_nil, crossLayer, hn]
    rw [show List.range (Int.toNat 1) = [0] from rfl]
    simp only [List.foldl_cons, List.foldl_nil]
    rw [k1, k2]
  · rintro ⟨t, -, e⟩
    have := congrArg V3.z e
    norm_num at this

end Gear.ZPlanar.Float
