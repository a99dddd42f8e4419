/-
C140: the nearest pads of points inside of the inner and outside of the outer radius of a ring segment, in `double` arithmetic.
-/
import Verif.PadAngleDoubleProps

set_option autoImplicit false
set_option linter.unusedSectionVars false

namespace Gear.PadAngle.Double

open MaterialMap (Arith)
open PadAngle.Spec
open Spec

variable {K : Type} [Field K] [LinearOrder K] [IsStrictOrderedRing K] [FloorRing K]
variable {F : Arith K} {A : Args K} {L : Layout K} {u : K}

/-- What the loops and the number of the pad are, does not depend on the radius. -/
theorem nearest_split (R : Rounded F u) (hA : A.Proper) (hL : new F A.rMin A.rMax A.nRow A.phiMin A.phiMax A.nPads = .ok L)
    {row pad p : ℤ} (hp : A.IsPad row pad) (hi : getPadIndex L row pad = .ok p) {r phi : K} (hr0 : 0 ≤ r)
    (hfar : r - A.rMin ≤ 2 ^ 30 * A.dr) {fuel : ℕ} (h : getNearestPad F L fuel r phi = some (.ok p)) (h1 : A.phiMin ≤ phi) (h2 : phi ≤ A.phiMax)
    (hl : loopUp F (F.sub (F.div (F.add L.phiMax L.phiMin) 2) F.pi) fuel phi = some phi)
    (hl' : loopDown F (F.add (F.div (F.add L.phiMax L.phiMin) 2) F.pi) fuel phi = some phi) :
    rowOf F L (decide (r < L.rMin)) r = .ok row ∧
      ∀ r', 0 ≤ r' → ∀ row', rowOf F L (decide (r' < L.rMin)) r' = .ok row' →
        getNearestPad F L fuel r' phi = some (getPadIndex L row' pad) := by
  have B := built hL
  have hu0 := R.nonneg
  have hu := R.small
  have hpad := hA.pads
  have hm' : (0 : K) < A.nPads := by exact_mod_cast hpad.1
  have hin : phi ≤ L.phiMax ∧ phi ≥ L.phiMin := by rw [B.phiMax, B.phiMin]; exact ⟨h2, h1⟩
  unfold getNearestPad at h
  rw [if_neg (not_lt.2 hr0)] at h
  dsimp only at h
  rw [hl] at h
  dsimp only at h
  rw [hl'] at h
  dsimp only at h
  have h := Option.some.inj h
  unfold nearestFrom at h
  rw [if_pos hin] at h
  obtain ⟨row0, w1, w2, w3⟩ := rowOf_spec R.rounding hu0 hu B hA (below := decide (r < L.rMin)) (r := r)
    (fun hb => by rw [B.rMin] at hb; exact not_lt.1 (of_decide_eq_false hb)) hfar
  obtain ⟨q, hq⟩ : ∃ q, q = F.rnd (F.rnd (phi - A.phiMin) / F.rnd (F.rnd (A.phiMax - A.phiMin) / A.nPads)) := ⟨_, rfl⟩
  have hq0 : 0 ≤ q := by
    rw [hq]
    exact R.rounding.nonneg (div_nonneg (R.rounding.nonneg (by linarith)) (R.rounding.size hu0 hu hA.phi hpad.1).2.2.le)
  have hqn : q < 2147483648 := by
    rw [hq]
    refine (R.rounding.quotient hu0 hu hA.phi hpad.1 h1 (c := 2147483648) (by norm_num)).2 ?_
    change _ < 2147483648 * ((1 - u) * (1 - u) * A.dphi)
    have hd : 0 < A.dphi := div_pos (by linarith [hA.phi]) hm'
    have hw : A.nPads * A.dphi = A.phiMax - A.phiMin := by unfold Args.dphi; rw [mul_div_cancel₀ _ hm'.ne']
    have h5 : (A.nPads : K) ≤ 65536 := by exact_mod_cast hpad.2
    have h6 := mul_le_mul_of_nonneg_right h5 hd.le
    have h7 : (1 + u) * (1 + u) ≤ 11 / 10 := by nlinarith
    have h8 : 9 / 10 ≤ (1 - u) * (1 - u) := by nlinarith
    have h9 : (1 + u) * (1 + u) * (phi - A.phiMin) ≤ 11 / 10 * (65536 * A.dphi) :=
      mul_le_mul h7 (by linarith) (by linarith) (by norm_num)
    have h10 : 9 / 10 * A.dphi ≤ (1 - u) * (1 - u) * A.dphi := mul_le_mul_of_nonneg_right h8 hd.le
    rw [← mul_assoc]
    linarith
  have hpadN : toInt (F.div (F.sub phi L.phiMin) L.padAngle) = .ok ⌊q⌋ := by
    rw [B.phiMin, B.padAngle]
    change toInt (F.rnd (F.rnd (phi - A.phiMin) / _)) = _
    rw [← hq]
    exact toInt_nonneg hq0 hqn
  rw [hpadN, Res.bind_ok, w1, Res.bind_ok] at h
  have hlt : ⌊q⌋ < A.nPads := by
    by_contra hc
    unfold getPadIndex at h
    rw [B.nRow, B.nPads, if_neg (by omega), if_pos (by omega)] at h
    cases h
  obtain ⟨p', e1, e2, e3⟩ := index_ok B hA (row := row0) (pad := ⌊q⌋) ⟨⟨w2, w3⟩, Int.floor_nonneg.2 hq0, hlt⟩
  obtain ⟨p'', f1, f2, f3⟩ := index_ok B hA hp
  obtain rfl := Res.ok.inj (hi.symm.trans f1)
  obtain rfl := Res.ok.inj (h.symm.trans e1)
  refine ⟨by rw [w1, ← e2, f2], fun r' hr' row' hrow' => ?_⟩
  unfold getNearestPad
  rw [if_neg (not_lt.2 hr')]
  dsimp only
  rw [hl]
  dsimp only
  rw [hl']
  dsimp only
  unfold nearestFrom
  rw [if_pos hin, hpadN, Res.bind_ok, hrow', Res.bind_ok, ← e3, f3]

/-- Whether the loops do something does not depend on the radius. -/
theorem loops_of_one {r phi : K} {x : Res ℤ} (hr : 0 ≤ r) (h : getNearestPad F L 1 r phi = some x) :
    loopUp F (F.sub (F.div (F.add L.phiMax L.phiMin) 2) F.pi) 1 phi = some phi ∧
    loopDown F (F.add (F.div (F.add L.phiMax L.phiMin) 2) F.pi) 1 phi = some phi := by
  unfold getNearestPad at h
  rw [if_neg (not_lt.2 hr)] at h
  dsimp only at h
  have a : ∀ lo y, loopUp F lo 1 phi = some y → y = phi := by
    intro lo y hy
    unfold loopUp at hy
    split_ifs at hy
    · unfold loopUp at hy; cases hy
    · exact (Option.some.inj hy).symm
  have b : ∀ hi z y, loopDown F hi 1 z = some y → y = z := by
    intro lo z y hy
    unfold loopDown at hy
    split_ifs at hy
    · unfold loopDown at hy; cases hy
    · exact (Option.some.inj hy).symm
  split at h
  · cases h
  · rename_i y hy
    obtain rfl := a _ _ hy
    split at h
    · cases h
    · rename_i z hz
      obtain rfl := b _ _ _ hz
      exact ⟨hy, hz⟩

theorem loops_more {r phi : K} {x : Res ℤ} (hr : 0 ≤ r) (h : getNearestPad F L 1 r phi = some x) (fuel : ℕ) :
    loopUp F (F.sub (F.div (F.add L.phiMax L.phiMin) 2) F.pi) (fuel + 1) phi = some phi ∧
    loopDown F (F.add (F.div (F.add L.phiMax L.phiMin) 2) F.pi) (fuel + 1) phi = some phi := by
  obtain ⟨h1, h2⟩ := loops_of_one hr h
  constructor
  · unfold loopUp at h1 ⊢
    split_ifs at h1 ⊢
    · unfold loopUp at h1; cases h1
    · rfl
  · unfold loopDown at h2 ⊢
    split_ifs at h2 ⊢
    · unfold loopDown at h2; cases h2
    · rfl

theorem phi_range (R : Rounded F u) (hA : A.Proper) {pad : ℤ} (hp : 0 ≤ pad ∧ pad < A.nPads) {phi : K}
    (h1 : A.phiMin + pad * A.dphi + phiError A u F.pi ≤ phi) (h2 : phi ≤ A.phiMin + (pad + 1) * A.dphi - phiError A u F.pi) :
    A.phiMin ≤ phi ∧ phi ≤ A.phiMax := by
  have hu0 := R.nonneg
  have hm' : (0 : K) < A.nPads := by exact_mod_cast hA.pads.1
  have hd : 0 < A.dphi := div_pos (by linarith [hA.phi]) hm'
  have hw : A.nPads * A.dphi = A.phiMax - A.phiMin := by unfold Args.dphi; rw [mul_div_cancel₀ _ hm'.ne']
  have pe0 : 0 ≤ phiError A u F.pi := by
    have := R.pi.1
    unfold phiError
    have : 0 ≤ |A.phiMin| + |A.phiMax| + F.pi := by linarith [abs_nonneg A.phiMin, abs_nonneg A.phiMax]
    positivity
  have a : (0 : K) ≤ pad := by exact_mod_cast hp.1
  have b : (pad : K) + 1 ≤ A.nPads := by exact_mod_cast hp.2
  have a' := mul_nonneg a hd.le
  have b' := mul_le_mul_of_nonneg_right b hd.le
  constructor <;> linarith

/-- The row of a radius that is not below the inner radius. -/
theorem rowOf_value (R : Rounded F u) (B : Built F A L) (hA : A.Proper) {r : K} (hx : A.rMin ≤ r) (hr : r - A.rMin ≤ 2 ^ 30 * A.dr) :
    rowOf F L false r = .ok (if ⌊F.rnd (F.rnd (r - A.rMin) / L.rowHeight)⌋ ≥ A.nRow then A.nRow - 1
      else ⌊F.rnd (F.rnd (r - A.rMin) / L.rowHeight)⌋) := by
  have hu0 := R.nonneg
  have hu := R.small
  have hrow := hA.rows
  have hq := (R.rounding.quotient hu0 hu hA.r hrow.1 hx (c := 2147483648) (by norm_num)).2
  have hn' : (0 : K) < A.nRow := by exact_mod_cast hrow.1
  have hd : 0 < A.dr := div_pos (by linarith [hA.r]) hn'
  have hlt := hq (by
    change _ < 2147483648 * ((1 - u) * (1 - u) * A.dr)
    have h1 : (1 + u) * (1 + u) ≤ 11 / 10 := by nlinarith
    have h2 : 9 / 10 ≤ (1 - u) * (1 - u) := by nlinarith
    have h3 : 0 ≤ r - A.rMin := by linarith
    have h4 : (1 + u) * (1 + u) * (r - A.rMin) ≤ 11 / 10 * (2 ^ 30 * A.dr) :=
      mul_le_mul h1 hr h3 (by norm_num)
    have h5 : 9 / 10 * A.dr ≤ (1 - u) * (1 - u) * A.dr := mul_le_mul_of_nonneg_right h2 hd.le
    rw [← mul_assoc]
    linarith)
  have h0 : 0 ≤ F.rnd (F.rnd (r - A.rMin) / F.rnd (F.rnd (A.rMax - A.rMin) / A.nRow)) :=
    R.rounding.nonneg (div_nonneg (R.rounding.nonneg (by linarith)) (R.rounding.size hu0 hu hA.r hrow.1).2.2.le)
  have hf : floorInt (F.div (F.sub r L.rMin) L.rowHeight) =
      .ok ⌊F.rnd (F.rnd (r - A.rMin) / L.rowHeight)⌋ := by
    rw [B.rMin, B.rowHeight]
    exact floorInt_nonneg h0 hlt
  unfold rowOf
  simp only [Bool.false_eq_true, if_false, hf, Res.bind_ok, B.nRow]
  rfl

/-- C140: for a point outside of the outer radius, within the angles of a pad, the nearest pad is the one in the last row. -/
theorem nearest_beyond_double (R : Rounded F u) (hA : A.Proper) (hspan : A.phiMax - A.phiMin ≤ 2 * F.pi) (hr0 : 0 ≤ A.rMin)
    (hL : new F A.rMin A.rMax A.nRow A.phiMin A.phiMax A.nPads = .ok L) (hdr : 2 * rError A u ≤ A.dr) {pad : ℤ}
    (hp : 0 ≤ pad ∧ pad < A.nPads) {r phi : K} (hr : A.rMax ≤ r) (hfar : r - A.rMin ≤ 2 ^ 30 * A.dr)
    (h1 : A.phiMin + pad * A.dphi + phiError A u F.pi ≤ phi) (h2 : phi ≤ A.phiMin + (pad + 1) * A.dphi - phiError A u F.pi) :
    ∃ p, getPadIndex L (A.nRow - 1) pad = .ok p ∧ ∀ fuel, getNearestPad F L (fuel + 1) r phi = some (.ok p) := by
  have B := built hL
  have hu0 := R.nonneg
  have hu := R.small
  have hrow := hA.rows
  have hn' : (0 : K) < A.nRow := by exact_mod_cast hrow.1
  have hd : 0 < A.dr := div_pos (by linarith [hA.r]) hn'
  have hw : A.nRow * A.dr = A.rMax - A.rMin := by unfold Args.dr; rw [mul_div_cancel₀ _ hn'.ne']
  obtain ⟨s1, s2⟩ := phi_range R hA hp h1 h2
  have hn1 : (1 : K) ≤ A.nRow := by exact_mod_cast hrow.1
  have hge : 0 ≤ (A.nRow - 1) * A.dr := mul_nonneg (by linarith) hd.le
  have hP : A.IsPad (A.nRow - 1) pad := ⟨⟨by omega, by omega⟩, hp⟩
  obtain ⟨r', hr'⟩ : ∃ r', r' = A.rMin + (A.nRow - 1 / 2) * A.dr := ⟨_, rfl⟩
  obtain ⟨p, i1, i2⟩ := nearest_deep R hA hspan hr0 hL hP (r := r') (phi := phi) ⟨⟨by
      push_cast
      rw [hr']; linarith, by
      push_cast
      rw [hr']; linarith⟩, h1, h2⟩
  refine ⟨p, i1, fun fuel => ?_⟩
  have r0' : 0 ≤ r' := by rw [hr']; linarith
  have rr : r' ≤ r := by rw [hr']; linarith
  have rm : A.rMin ≤ r' := by rw [hr']; linarith
  obtain ⟨l1, l2⟩ := loops_more r0' (i2 0) fuel
  obtain ⟨j1, j2⟩ := nearest_split R hA hL hP i1 r0' (by linarith) (i2 fuel) s1 s2 l1 l2
  have e1 : decide (r' < L.rMin) = false := by rw [B.rMin]; exact decide_eq_false (not_lt.2 rm)
  have e2 : decide (r < L.rMin) = false := by rw [B.rMin]; exact decide_eq_false (not_lt.2 (rm.trans rr))
  have v := rowOf_value R B hA (rm.trans rr) hfar
  rw [e1, rowOf_value R B hA rm (by linarith)] at j1
  have j1 := Res.ok.inj j1
  have mono : ⌊F.rnd (F.rnd (r' - A.rMin) / L.rowHeight)⌋ ≤ ⌊F.rnd (F.rnd (r - A.rMin) / L.rowHeight)⌋ := by
    refine Int.floor_le_floor (R.rounding.mono _ _ (div_le_div_of_nonneg_right (R.rounding.mono _ _ (by linarith)) ?_))
    rw [B.rowHeight]
    exact (R.rounding.size hu0 hu hA.r hrow.1).2.2.le
  rw [j2 r (r0'.trans rr) (A.nRow - 1) (by
    rw [e2, v]
    congr 1
    split_ifs at j1 ⊢ with c1 c2 c3 <;> omega), i1]

/-- C140: for a point inside of the inner radius, within the angles of a pad, the nearest pad is the one in the first row. -/
theorem nearest_before_double (R : Rounded F u) (hA : A.Proper) (hspan : A.phiMax - A.phiMin ≤ 2 * F.pi) (hr0 : 0 ≤ A.rMin)
    (hL : new F A.rMin A.rMax A.nRow A.phiMin A.phiMax A.nPads = .ok L) (hdr : 2 * rError A u ≤ A.dr) {pad : ℤ}
    (hp : 0 ≤ pad ∧ pad < A.nPads) {r phi : K} (hr : 0 ≤ r) (hr' : r < A.rMin)
    (h1 : A.phiMin + pad * A.dphi + phiError A u F.pi ≤ phi) (h2 : phi ≤ A.phiMin + (pad + 1) * A.dphi - phiError A u F.pi) :
    ∃ p, getPadIndex L 0 pad = .ok p ∧ ∀ fuel, getNearestPad F L (fuel + 1) r phi = some (.ok p) := by
  have B := built hL
  have hrow := hA.rows
  have hn' : (0 : K) < A.nRow := by exact_mod_cast hrow.1
  have hd : 0 < A.dr := div_pos (by linarith [hA.r]) hn'
  obtain ⟨s1, s2⟩ := phi_range R hA hp h1 h2
  have hP : A.IsPad 0 pad := ⟨⟨le_rfl, hrow.1⟩, hp⟩
  obtain ⟨q, hq⟩ : ∃ q, q = A.rMin + A.dr / 2 := ⟨_, rfl⟩
  obtain ⟨p, i1, i2⟩ := nearest_deep R hA hspan hr0 hL hP (r := q) (phi := phi) ⟨⟨by
      push_cast
      rw [hq]; linarith, by
      push_cast
      rw [hq]; linarith⟩, h1, h2⟩
  refine ⟨p, i1, fun fuel => ?_⟩
  have r0' : 0 ≤ q := by rw [hq]; linarith
  obtain ⟨l1, l2⟩ := loops_more r0' (i2 0) fuel
  obtain ⟨-, j2⟩ := nearest_split R hA hL hP i1 r0' (by rw [hq]; linarith) (i2 fuel) s1 s2 l1 l2
  have e2 : decide (r < L.rMin) = true := by rw [B.rMin]; exact decide_eq_true hr'
  rw [j2 r hr 0 (by
    rw [e2]
    unfold rowOf
    simp only [if_true, Res.bind_ok, B.nRow]
    rw [if_neg (by omega)]
    rfl), i1]

/-- Non-vacuity: seven pads in each of two rows, and points at the radii 5 and 1/2. -/
example : 2 * rError (sevenths 7) (1 / 2 ^ 53) ≤ (sevenths 7).dr ∧ (sevenths 7).rMax ≤ 5 ∧
    (5 : ℚ) - (sevenths 7).rMin ≤ 2 ^ 30 * (sevenths 7).dr ∧ (1 / 2 : ℚ) < (sevenths 7).rMin ∧
    (sevenths 7).phiMin + 3 * (sevenths 7).dphi + phiError (sevenths 7) (1 / 2 ^ 53) doubles.pi ≤ 1 / 2 ∧
    1 / 2 ≤ (sevenths 7).phiMin + (3 + 1) * (sevenths 7).dphi - phiError (sevenths 7) (1 / 2 ^ 53) doubles.pi ∧
    getNearestPad doubles (seventhsLayout 7) 1 5 (1 / 2) = some (.ok 65539) ∧
    getNearestPad doubles (seventhsLayout 7) 1 (1 / 2) (1 / 2) = some (.ok 3) := by
  refine ⟨?_, ?_, ?_, ?_, ?_, ?_, by decide +kernel, by decide +kernel⟩ <;>
    norm_num [sevenths, doubles, rError, phiError, Args.dr, Args.dphi]

end Gear.PadAngle.Double
