/-
Properties C140 and C141 of `FixedPadAngleDiskLayout`: pads in the arithmetic of `double`.
-/
import Verif.PadAngleDoubleLemmas
import Mathlib.Tactic.IntervalCases

set_option autoImplicit false
set_option linter.unusedSectionVars false

namespace Gear.PadAngle.Double

open PadIndex Disk Doubles Spec
open MaterialMap (Arith binary64)

variable {K : Type} [Field K] [LinearOrder K] [IsStrictOrderedRing K] [FloorRing K]
variable {F : Arith K} {u : K} {A : Args K} {L : Layout K}

namespace Spec

/-- Ten roundings of numbers as large as the radii. -/
def rError (A : Args K) (u : K) : K := 10 * u * (|A.rMin| + |A.rMax|)

/-- Ten roundings of numbers as large as the angles. -/
def phiError (A : Args K) (u pi : K) : K := 10 * u * (|A.phiMin| + |A.phiMax| + pi)

/-- The point is in the keystone of pad `pad` of row `row`, made smaller on all sides by `a` and `b`; larger if they are
negative. -/
def DeepInPad (A : Args K) (a b : K) (row pad : ℤ) (r phi : K) : Prop :=
  (A.rMin + row * A.dr + a ≤ r ∧ r ≤ A.rMin + (row + 1) * A.dr - a) ∧
  A.phiMin + pad * A.dphi + b ≤ phi ∧ phi ≤ A.phiMin + (pad + 1) * A.dphi - b

/-- Rounding to nearest, with an error that is not larger than a thousandth, and a constant `M_PI` near pi. -/
structure Rounded (F : Arith K) (u : K) : Prop where
  rounding : Rounding F.rnd u
  pos : 0 < u
  small : u ≤ 1 / 1000
  pi : 3 ≤ F.pi ∧ F.pi ≤ 4

end Spec

open Spec

theorem Spec.Rounded.nonneg (R : Rounded F u) : 0 ≤ u := R.pos.le

theorem rError_pos (R : Rounded F u) (hA : A.Proper) : 8 * u * (A.rMax - A.rMin) < rError A u := by
  unfold rError
  have h1 : A.rMax - A.rMin ≤ |A.rMin| + |A.rMax| := by linarith [neg_abs_le A.rMin, le_abs_self A.rMax]
  have h2 : 0 < A.rMax - A.rMin := by linarith [hA.r]
  have h3 : u * (A.rMax - A.rMin) ≤ u * (|A.rMin| + |A.rMax|) := mul_le_mul_of_nonneg_left h1 R.nonneg
  have h4 := mul_pos R.pos h2
  linarith

theorem phiError_pos (R : Rounded F u) (hA : A.Proper) :
    8 * u * (A.phiMax - A.phiMin) < phiError A u F.pi ∧
      8 * u * (|A.phiMin| + |A.phiMax| + F.pi) ≤ phiError A u F.pi ∧ 10 * u * (|A.phiMin| + |A.phiMax|) ≤ phiError A u F.pi := by
  unfold phiError
  have h1 : A.phiMax - A.phiMin ≤ |A.phiMin| + |A.phiMax| := by linarith [neg_abs_le A.phiMin, le_abs_self A.phiMax]
  have h2 : 0 < A.phiMax - A.phiMin := by linarith [hA.phi]
  have h3 : u * (A.phiMax - A.phiMin) ≤ u * (|A.phiMin| + |A.phiMax|) := mul_le_mul_of_nonneg_left h1 R.nonneg
  have h4 := mul_pos R.pos h2
  have h5 : 0 ≤ u * F.pi := mul_nonneg R.nonneg (by linarith [R.pi.1])
  refine ⟨?_, ?_, ?_⟩ <;> linarith

/-! ### C140 -/

set_option maxHeartbeats 1000000 in
/-- Every point of the ring segment, up to a margin of a few roundings at its two straight ends, gets a pad that exists, and
that contains the point up to a few roundings. -/
theorem nearest_near (R : Rounded F u) (hA : A.Proper) (hspan : A.phiMax - A.phiMin ≤ 2 * F.pi) (hr0 : 0 ≤ A.rMin)
    (hL : new F A.rMin A.rMax A.nRow A.phiMin A.phiMax A.nPads = .ok L) {r phi : K} (h1 : A.rMin ≤ r) (h2 : r ≤ A.rMax)
    (h3 : A.phiMin + phiError A u F.pi ≤ phi) (h4 : phi ≤ A.phiMax - phiError A u F.pi) :
    ∃ row pad p, IsIndex A L row pad p ∧ (∀ fuel, getNearestPad F L (fuel + 1) r phi = some (.ok p)) ∧
      DeepInPad A (-rError A u) (-phiError A u F.pi) row pad r phi := by
  have B := built hL
  have hu0 := R.nonneg
  have hu := R.small
  obtain ⟨pe1, pe2, -⟩ := phiError_pos R hA
  have re := rError_pos R hA
  have hD := hA.phi
  have pe0 : 0 < phiError A u F.pi := lt_of_le_of_lt (mul_nonneg (mul_nonneg (by norm_num) hu0) (by linarith)) pe1
  have hrow := hA.rows
  have hpad := hA.pads
  have hn' : (0 : K) < A.nRow := by exact_mod_cast hrow.1
  have hm' : (0 : K) < A.nPads := by exact_mod_cast hpad.1
  have hm1 : (1 : K) ≤ A.nPads := by exact_mod_cast hpad.1
  have hw : A.nPads * A.dphi = A.phiMax - A.phiMin := by unfold Args.dphi; rw [mul_div_cancel₀ _ hm'.ne']
  have hv : A.nRow * A.dr = A.rMax - A.rMin := by unfold Args.dr; rw [mul_div_cancel₀ _ hn'.ne']
  -- no loop changes the angle
  obtain ⟨i1, i2⟩ := in_range R.rounding hu0 hu (by linarith [R.pi.1]) (a := A.phiMin) (b := A.phiMax) (phi := phi) hspan
    (by linarith) (by linarith)
  -- the number of the pad
  obtain ⟨q, hq⟩ : ∃ q, q = F.rnd (F.rnd (phi - A.phiMin) / F.rnd (F.rnd (A.phiMax - A.phiMin) / A.nPads)) := ⟨_, rfl⟩
  have hq0 : 0 ≤ q := by
    rw [hq]
    exact R.rounding.nonneg (div_nonneg (R.rounding.nonneg (by linarith)) (R.rounding.size hu0 hu hD hpad.1).2.2.le)
  have hqn : q < A.nPads := by
    rw [hq]
    refine (R.rounding.quotient hu0 hu hD hpad.1 (by linarith) hm'.le).2 ?_
    change _ < (A.nPads : K) * ((1 - u) * (1 - u) * A.dphi)
    have e1 : (A.nPads : K) * ((1 - u) * (1 - u) * A.dphi) = (1 - u) * (1 - u) * (A.phiMax - A.phiMin) := by
      rw [← hw]; ring
    rw [e1]
    have e2 : phi - A.phiMin ≤ (A.phiMax - A.phiMin) - 8 * u * (A.phiMax - A.phiMin) := by linarith
    have e3 : (1 + u) * ((1 + u) * (phi - A.phiMin)) ≤ (1 + u) * ((1 + u) * ((A.phiMax - A.phiMin) - 8 * u * (A.phiMax - A.phiMin))) :=
      mul_le_mul_of_nonneg_left (mul_le_mul_of_nonneg_left e2 (by linarith)) (by linarith)
    refine e3.trans_lt ?_
    have hD0 : 0 < A.phiMax - A.phiMin := by linarith
    generalize A.phiMax - A.phiMin = D at hD0
    have f1 : 0 < u * D := mul_pos R.pos hD0
    have f2 : 0 ≤ u * (u * D) := mul_nonneg hu0 f1.le
    have f3 : 0 ≤ u * (u * (u * D)) := mul_nonneg hu0 f2
    have e4 : (1 + u) * ((1 + u) * (D - 8 * u * D)) = D - 6 * (u * D) - 15 * (u * (u * D)) - 8 * (u * (u * (u * D))) := by ring
    have e5 : (1 - u) * (1 - u) * D = D - 2 * (u * D) + u * (u * D) := by ring
    linarith
  have hfp : ⌊q⌋ < A.nPads := by rw [Int.floor_lt]; exact hqn
  have hfp0 : 0 ≤ ⌊q⌋ := Int.floor_nonneg.2 hq0
  have hpadN : toInt (F.div (F.sub phi L.phiMin) L.padAngle) = .ok ⌊q⌋ := by
    rw [B.phiMin, B.padAngle]
    change toInt (F.rnd (F.rnd (phi - A.phiMin) / _)) = _
    rw [← hq]
    refine toInt_nonneg hq0 (hqn.trans ?_)
    have : A.nPads < 2147483648 := by omega
    exact_mod_cast this
  have fp := R.rounding.found hu0 hu hD hpad.1 (x := phi) (by linarith) (by linarith) rfl
  rw [← hq] at fp
  -- the number of the row
  obtain ⟨s, hs⟩ : ∃ s, s = F.rnd (F.rnd (r - A.rMin) / F.rnd (F.rnd (A.rMax - A.rMin) / A.nRow)) := ⟨_, rfl⟩
  have hs0 : 0 ≤ s := by
    rw [hs]
    exact R.rounding.nonneg (div_nonneg (R.rounding.nonneg (by linarith)) (R.rounding.size hu0 hu hA.r hrow.1).2.2.le)
  obtain ⟨row, w1, w2, w3⟩ := rowOf_spec R.rounding hu0 hu B hA (below := decide (r < L.rMin)) (r := r)
    (fun _ => h1) (by
      have : (1 : K) ≤ A.nRow := by exact_mod_cast hrow.1
      have h5 : (A.nRow : K) ≤ 2 ^ 30 := by
        have : A.nRow ≤ 2 ^ 30 := by omega
        exact_mod_cast this
      have hdr : 0 < A.dr := div_pos (by linarith [hA.r]) hn'
      have := mul_le_mul_of_nonneg_right h5 hdr.le
      linarith)
  have fr := R.rounding.found hu0 hu hA.r hrow.1 h1 h2 rfl
  rw [← hs] at fr
  have hrowV : row = if ⌊s⌋ ≥ A.nRow then A.nRow - 1 else ⌊s⌋ := by
    unfold rowOf at w1
    rw [B.rMin, decide_eq_false (not_lt.2 h1), B.rowHeight] at w1
    simp only [Bool.false_eq_true, if_false] at w1
    have hlt : s < 2147483648 := by
      rw [hs]
      refine (R.rounding.quotient hu0 hu hA.r hrow.1 h1 (c := 2147483648) (by norm_num)).2 ?_
      change _ < 2147483648 * ((1 - u) * (1 - u) * A.dr)
      have hdr : 0 < A.dr := div_pos (by linarith [hA.r]) hn'
      have h5 : (A.nRow : K) ≤ 65536 := by exact_mod_cast hrow.2
      have h6 := mul_le_mul_of_nonneg_right h5 hdr.le
      have h7 : (1 + u) * (1 + u) ≤ 11 / 10 := by nlinarith
      have h8 : 9 / 10 ≤ (1 - u) * (1 - u) := by nlinarith
      have h9 : (1 + u) * (1 + u) * (r - A.rMin) ≤ 11 / 10 * (65536 * A.dr) :=
        mul_le_mul h7 (by linarith) (by linarith) (by norm_num)
      have h10 : 9 / 10 * A.dr ≤ (1 - u) * (1 - u) * A.dr := mul_le_mul_of_nonneg_right h8 hdr.le
      rw [← mul_assoc]
      linarith
    change (floorInt (F.rnd (F.rnd (r - A.rMin) / _)) >>= _) = _ at w1
    rw [← hs, floorInt_nonneg hs0 hlt, Res.bind_ok, B.nRow] at w1
    exact (Res.ok.inj w1).symm
  obtain ⟨p, hp, -⟩ := index_ok B hA (row := row) (pad := ⌊q⌋) ⟨⟨w2, w3⟩, hfp0, hfp⟩
  refine ⟨row, ⌊q⌋, p, ⟨⟨⟨w2, w3⟩, hfp0, hfp⟩, hp⟩, fun fuel => ?_, ⟨?_, ?_⟩, ?_, ?_⟩
  · unfold getNearestPad
    rw [if_neg (by linarith)]
    dsimp only
    rw [B.phiMin, B.phiMax, (loops_id (F := F) (fuel := fuel) i1 i2).1]
    dsimp only
    rw [(loops_id (F := F) (fuel := fuel) i1 i2).2]
    dsimp only
    unfold nearestFrom
    rw [B.phiMax, if_pos ⟨by linarith, by rw [B.phiMin]; linarith⟩, hpadN, Res.bind_ok, w1, Res.bind_ok, hp]
  · have hle : row ≤ ⌊s⌋ := by rw [hrowV]; split_ifs <;> omega
    have hle' : (row : K) ≤ (⌊s⌋ : ℤ) := by exact_mod_cast hle
    have hdr : 0 < A.dr := div_pos (by linarith [hA.r]) hn'
    have := mul_le_mul_of_nonneg_right hle' hdr.le
    have := fr.2.1
    change A.rMin + (⌊s⌋ : ℤ) * A.dr ≤ _ at this
    linarith
  · rw [hrowV]
    split_ifs with hc
    · push_cast
      have : ((A.nRow : K) - 1 + 1) * A.dr = A.rMax - A.rMin := by rw [sub_add_cancel, hv]
      have : 0 ≤ 8 * u * (A.rMax - A.rMin) := mul_nonneg (mul_nonneg (by norm_num) hu0) (by linarith [hA.r])
      linarith
    · have := fr.2.2
      change r ≤ A.rMin + ((⌊s⌋ : ℤ) + 1) * A.dr + _ at this
      linarith
  · have := fp.2.1
    change A.phiMin + (⌊q⌋ : ℤ) * A.dphi ≤ _ at this
    linarith
  · have := fp.2.2
    change phi ≤ A.phiMin + ((⌊q⌋ : ℤ) + 1) * A.dphi + _ at this
    linarith

/-- A point that is in a pad, and further than a few roundings from its border, gets that pad. -/
theorem nearest_deep (R : Rounded F u) (hA : A.Proper) (hspan : A.phiMax - A.phiMin ≤ 2 * F.pi) (hr0 : 0 ≤ A.rMin)
    (hL : new F A.rMin A.rMax A.nRow A.phiMin A.phiMax A.nPads = .ok L) {row pad : ℤ} (hp : A.IsPad row pad) {r phi : K}
    (h : DeepInPad A (rError A u) (phiError A u F.pi) row pad r phi) :
    ∃ p, getPadIndex L row pad = .ok p ∧ ∀ fuel, getNearestPad F L (fuel + 1) r phi = some (.ok p) := by
  have B := built hL
  have hu0 := R.nonneg
  have hu := R.small
  obtain ⟨pe1, pe2, -⟩ := phiError_pos R hA
  have re := rError_pos R hA
  have hD := hA.phi
  obtain ⟨⟨a1, a2⟩, b1, b2⟩ := h
  obtain ⟨⟨c1, c2⟩, d1, d2⟩ := hp
  have hrow := hA.rows
  have hpad := hA.pads
  have hn' : (0 : K) < A.nRow := by exact_mod_cast hrow.1
  have hm' : (0 : K) < A.nPads := by exact_mod_cast hpad.1
  have hw : A.nPads * A.dphi = A.phiMax - A.phiMin := by unfold Args.dphi; rw [mul_div_cancel₀ _ hm'.ne']
  have hv : A.nRow * A.dr = A.rMax - A.rMin := by unfold Args.dr; rw [mul_div_cancel₀ _ hn'.ne']
  have hdr : 0 < A.dr := div_pos (by linarith [hA.r]) hn'
  have hdp : 0 < A.dphi := div_pos (by linarith [hA.phi]) hm'
  have c1' : (0 : K) ≤ row := by exact_mod_cast c1
  have c2' : (row : K) + 1 ≤ A.nRow := by exact_mod_cast c2
  have d1' : (0 : K) ≤ pad := by exact_mod_cast d1
  have d2' : (pad : K) + 1 ≤ A.nPads := by exact_mod_cast d2
  have pe0 : 0 ≤ 8 * u * (A.phiMax - A.phiMin) := mul_nonneg (mul_nonneg (by norm_num) hu0) (by linarith)
  have re0 : 0 ≤ 8 * u * (A.rMax - A.rMin) := mul_nonneg (mul_nonneg (by norm_num) hu0) (by linarith [hA.r])
  have p1 := mul_nonneg d1' hdp.le
  have p2 := mul_le_mul_of_nonneg_right d2' hdp.le
  have r1 := mul_nonneg c1' hdr.le
  have r2 := mul_le_mul_of_nonneg_right c2' hdr.le
  obtain ⟨i1, i2⟩ := in_range R.rounding hu0 hu (by linarith [R.pi.1]) (a := A.phiMin) (b := A.phiMax) (phi := phi) hspan
    (by linarith) (by linarith)
  obtain ⟨fp0, fp⟩ := R.rounding.cell hu0 hu hD d1 d2 (x := phi)
    (by change A.phiMin + pad * A.dphi + _ ≤ _; linarith) (by change _ < A.phiMin + (pad + 1) * A.dphi - _; linarith)
  obtain ⟨fr0, fr⟩ := R.rounding.cell hu0 hu hA.r c1 c2 (x := r)
    (by change A.rMin + row * A.dr + _ ≤ _; linarith) (by change _ < A.rMin + (row + 1) * A.dr - _; linarith)
  obtain ⟨p, hp, -⟩ := index_ok B hA (row := row) (pad := pad) ⟨⟨c1, c2⟩, d1, d2⟩
  refine ⟨p, hp, fun fuel => ?_⟩
  have small : ∀ {x : K} {i n : ℤ}, ⌊x⌋ = i → i < n → n ≤ 65536 → x < 2147483648 := by
    intro x i n e1 e2 e3
    have : x < (i : K) + 1 := by rw [← e1]; exact Int.lt_floor_add_one x
    refine this.trans_le ?_
    have : i + 1 ≤ 2147483648 := by omega
    exact_mod_cast this
  unfold getNearestPad
  rw [if_neg (by linarith)]
  dsimp only
  rw [B.phiMin, B.phiMax, (loops_id (F := F) (fuel := fuel) i1 i2).1]
  dsimp only
  rw [(loops_id (F := F) (fuel := fuel) i1 i2).2]
  dsimp only
  unfold nearestFrom rowOf
  rw [B.phiMax, if_pos ⟨by linarith, by rw [B.phiMin]; linarith⟩, B.phiMin, B.padAngle, B.rMin, B.rowHeight, B.nRow,
    decide_eq_false (not_lt.2 (show A.rMin ≤ r by linarith))]
  simp only [Bool.false_eq_true, if_false]
  unfold Arith.div Arith.sub
  rw [toInt_nonneg fp0 (small fp d2 hpad.2), floorInt_nonneg fr0 (small fr c2 hrow.2), fp, fr]
  simp only [Res.bind_ok]
  rw [if_neg (by omega)]
  exact congrArg some hp

theorem borders (R : Rounded F u) (hA : A.Proper)
    (hL : new F A.rMin A.rMax A.nRow A.phiMin A.phiMax A.nPads = .ok L) {row pad p : ℤ} (h : IsIndex A L row pad p) :
    (|F.sub (getPadCenter F L p).1 (F.div L.rowHeight 2) - (A.rMin + row * A.dr)| ≤ rError A u ∧
      |F.add (getPadCenter F L p).1 (F.div L.rowHeight 2) - (A.rMin + (row + 1) * A.dr)| ≤ rError A u) ∧
    (|F.sub (getPadCenter F L p).2 (F.div L.padAngle 2) - (A.phiMin + pad * A.dphi)| ≤ phiError A u F.pi ∧
      |F.add (getPadCenter F L p).2 (F.div L.padAngle 2) - (A.phiMin + (pad + 1) * A.dphi)| ≤ phiError A u F.pi) ∧
    |(getPadCenter F L p).1 - (A.rMin + (row + 1 / 2) * A.dr)| ≤ 6 * u * (|A.rMin| + |A.rMax|) ∧
    |(getPadCenter F L p).2 - (A.phiMin + (pad + 1 / 2) * A.dphi)| ≤ 6 * u * (|A.phiMin| + |A.phiMax|) := by
  have B := built hL
  obtain ⟨⟨⟨c1, c2⟩, d1, d2⟩, hp⟩ := h
  obtain ⟨p', hp', e1, e2⟩ := index_ok B hA (row := row) (pad := pad) ⟨⟨c1, c2⟩, d1, d2⟩
  rw [hp] at hp'
  obtain rfl := Res.ok.inj hp'
  have k1 := R.rounding.centre R.nonneg R.small hA.r c1 c2 hA.rows.2
  have k2 := R.rounding.centre R.nonneg R.small hA.phi d1 d2 hA.pads.2
  have l1 := R.rounding.ends R.nonneg R.small hA.r c1 c2 k1
  have l2 := R.rounding.ends R.nonneg R.small hA.phi d1 d2 k2
  have pe := (phiError_pos R hA).2.2
  unfold getPadCenter
  dsimp only
  rw [e1, e2, B.rowHeight, B.padAngle, B.rMin, B.phiMin]
  exact ⟨l1, ⟨l2.1.trans pe, l2.2.trans pe⟩, k1, k2⟩

/-- `isInsidePad` answers yes for all points in the pad that are further than a few roundings from its border, and only
for points that are in the pad up to a few roundings. -/
theorem inside_deep (R : Rounded F u) (hA : A.Proper)
    (hL : new F A.rMin A.rMax A.nRow A.phiMin A.phiMax A.nPads = .ok L) {row pad p : ℤ} (h : IsIndex A L row pad p) (r phi : K) :
    (DeepInPad A (rError A u) (phiError A u F.pi) row pad r phi → isInsidePad F L r phi p = true) ∧
      (isInsidePad F L r phi p = true → DeepInPad A (-rError A u) (-phiError A u F.pi) row pad r phi) := by
  obtain ⟨⟨b1, b2⟩, ⟨b3, b4⟩, -⟩ := borders R hA hL h
  rw [_root_.abs_le] at b1 b2 b3 b4
  unfold isInsidePad
  dsimp only
  rw [Bool.not_eq_true', decide_eq_false_iff_not]
  constructor
  · rintro ⟨⟨a1, a2⟩, a3, a4⟩
    push Not
    refine ⟨?_, ?_, ?_, ?_⟩ <;> linarith [b1.1, b1.2, b2.1, b2.2, b3.1, b3.2, b4.1, b4.2]
  · intro hn
    push Not at hn
    obtain ⟨a1, a2, a3, a4⟩ := hn
    refine ⟨⟨?_, ?_⟩, ?_, ?_⟩ <;> linarith [b1.1, b1.2, b2.1, b2.2, b3.1, b3.2, b4.1, b4.2]

/-- The computed centre of a pad is inside the pad, and the pad is the nearest one, if the pads are larger than some
forty roundings of the radii and angles. -/
theorem nearest_center_double (R : Rounded F u) (hA : A.Proper) (hspan : A.phiMax - A.phiMin ≤ 2 * F.pi) (hr0 : 0 ≤ A.rMin)
    (hL : new F A.rMin A.rMax A.nRow A.phiMin A.phiMax A.nPads = .ok L) {row pad p : ℤ} (h : IsIndex A L row pad p)
    (hr : 4 * rError A u ≤ A.dr) (hphi : 4 * phiError A u F.pi ≤ A.dphi) :
    isInsidePad F L (getPadCenter F L p).1 (getPadCenter F L p).2 p = true ∧
      ∀ fuel, getNearestPad F L (fuel + 1) (getPadCenter F L p).1 (getPadCenter F L p).2 = some (.ok p) := by
  obtain ⟨-, -, k1, k2⟩ := borders R hA hL h
  rw [_root_.abs_le] at k1 k2
  have re : 6 * u * (|A.rMin| + |A.rMax|) ≤ rError A u := by
    unfold rError
    have := mul_nonneg R.nonneg (show 0 ≤ |A.rMin| + |A.rMax| by linarith [abs_nonneg A.rMin, abs_nonneg A.rMax])
    linarith
  have pe := (phiError_pos R hA).2.2
  have pe2 : 6 * u * (|A.phiMin| + |A.phiMax|) ≤ phiError A u F.pi := by
    have := mul_nonneg R.nonneg (show 0 ≤ |A.phiMin| + |A.phiMax| by linarith [abs_nonneg A.phiMin, abs_nonneg A.phiMax])
    linarith
  have hd : DeepInPad A (rError A u) (phiError A u F.pi) row pad (getPadCenter F L p).1 (getPadCenter F L p).2 :=
    ⟨⟨by linarith [k1.1], by linarith [k1.2]⟩, by linarith [k2.1], by linarith [k2.2]⟩
  refine ⟨(inside_deep R hA hL h _ _).1 hd, fun fuel => ?_⟩
  obtain ⟨p', hp', hn⟩ := nearest_deep R hA hspan hr0 hL h.1 hd
  rw [h.2] at hp'
  obtain rfl := Res.ok.inj hp'
  exact hn fuel

/-! #### Examples, and points near the borders -/

/-- Doubles with the nearest double to pi. -/
def doubles : Arith ℚ :=
  { pi := 884279719003555 / 2 ^ 48, cos := fun _ => 1, sin := fun _ => 0, sqrt := fun v => |v|, rnd := binary64 }

theorem doubles_rounded : Rounded doubles (1 / 2 ^ 53) :=
  ⟨binary64_rounding, by norm_num, by norm_num, by norm_num [doubles], by norm_num [doubles]⟩

/-- Two rows between the radii 1 and 2, pads between the angles 0 and 1. -/
def sevenths (n : ℤ) : Args ℚ := ⟨1, 2, 2, 0, 1, n⟩

/-- The layout of these. -/
def seventhsLayout (n : ℤ) : Layout ℚ :=
  match new doubles 1 2 2 0 1 n with
  | .ok L => L
  | _ => ⟨0, 0, 0, 0, 0, 0, 0, 0, 0, [], []⟩

theorem sevenths_made : new doubles 1 2 2 0 1 7 = .ok (seventhsLayout 7) ∧ new doubles 1 2 2 0 1 3 = .ok (seventhsLayout 3) := by
  decide +kernel

theorem sevenths_proper : (sevenths 7).Proper ∧ (sevenths 3).Proper := by
  constructor <;> constructor <;> norm_num [sevenths]

example : (sevenths 7).phiMax - (sevenths 7).phiMin ≤ 2 * doubles.pi ∧ 0 ≤ (sevenths 7).rMin ∧
    DeepInPad (sevenths 7) (rError (sevenths 7) (1 / 2 ^ 53)) (phiError (sevenths 7) (1 / 2 ^ 53) doubles.pi) 1 3 (7 / 4) (1 / 2) ∧
    (sevenths 7).IsPad 1 3 ∧ getPadIndex (seventhsLayout 7) 1 3 = .ok 65539 ∧
    getNearestPad doubles (seventhsLayout 7) 1 (7 / 4) (1 / 2) = some (.ok 65539) ∧
    isInsidePad doubles (seventhsLayout 7) (7 / 4) (1 / 2) 65539 = true ∧
    4 * rError (sevenths 7) (1 / 2 ^ 53) ≤ (sevenths 7).dr ∧
    4 * phiError (sevenths 7) (1 / 2 ^ 53) doubles.pi ≤ (sevenths 7).dphi := by
  refine ⟨by norm_num [sevenths, doubles], by norm_num [sevenths], ⟨⟨?_, ?_⟩, ?_, ?_⟩, by norm_num [sevenths, Args.IsPad],
    by decide +kernel, by decide +kernel, by decide +kernel, ?_, ?_⟩ <;>
    norm_num [sevenths, doubles, rError, phiError, Args.dr, Args.dphi]

/-- The double below the end of the range of angles is in the ring segment, but `getNearestPad` throws: the rounded
quotient is the number of pads. -/
theorem nearest_double_false_below_end :
    binary64 (1 - 1 / 2 ^ 53 : ℚ) = 1 - 1 / 2 ^ 53 ∧
      getNearestPad doubles (seventhsLayout 3) 1 (3 / 2) (1 - 1 / 2 ^ 53) = some (.throw .outOfRange) := by decide +kernel

/-- Between the third and the fourth of seven pads is a double that is in no pad according to `isInsidePad`, though it is in
the ring segment, and `getNearestPad` finds a pad for it. -/
theorem inside_double_false_gap :
    let phi : ℚ := 7720456504063707 / 2 ^ 54
    binary64 phi = phi ∧
      (∀ row pad p, IsIndex (sevenths 7) (seventhsLayout 7) row pad p → isInsidePad doubles (seventhsLayout 7) (7 / 4) phi p = false) ∧
      getNearestPad doubles (seventhsLayout 7) 1 (7 / 4) phi = some (.ok 65539) := by
  refine ⟨by decide +kernel, ?_, by decide +kernel⟩
  rintro row pad p ⟨⟨⟨h1, h2⟩, h3, h4⟩, hp⟩
  simp only [sevenths] at h2 h4
  have h : getPadIndex (seventhsLayout 7) row pad = .ok (row * 65536 + pad) := by
    interval_cases row <;> interval_cases pad <;> decide +kernel
  rw [hp] at h
  obtain rfl := Res.ok.inj h
  clear hp h
  interval_cases row <;> interval_cases pad <;> decide +kernel

/-! ### C141 -/

theorem nat_above (x : K) : ∃ n : ℕ, x ≤ n :=
  ⟨⌈x⌉.toNat, (Int.le_ceil x).trans (by exact_mod_cast Int.self_le_toNat ⌈x⌉)⟩

/-- The loops that bring the angle into range end, unless the angle is so large that a rounding of it is of the size of a
radian. -/
theorem nearest_ends_partial (R : Rounded F u) (hL : new F A.rMin A.rMax A.nRow A.phiMin A.phiMax A.nPads = .ok L) (r phi : K)
    (h : u * (|phi| + 2 * (|A.phiMin| + |A.phiMax|) + 40) ≤ 1 / 2) :
    ∃ n, ∀ fuel, n ≤ fuel → ∃ x, getNearestPad F L fuel r phi = some x := by
  have B := built hL
  have hu0 := R.nonneg
  have hu := R.small
  have hm := mean_near R.rounding hu0 hu A.phiMax A.phiMin
  obtain ⟨m, hmm⟩ : ∃ m, m = F.div (F.add A.phiMax A.phiMin) 2 := ⟨_, rfl⟩
  rw [← hmm] at hm
  obtain ⟨S, hS⟩ : ∃ S, S = |A.phiMin| + |A.phiMax| := ⟨_, rfl⟩
  have hS0 : 0 ≤ S := by rw [hS]; positivity
  have hm2 : |m| ≤ S := by
    have e1 : |(A.phiMax + A.phiMin) / 2| ≤ S / 2 := by
      rw [abs_div, abs_of_pos (show (0 : K) < 2 by norm_num), hS]
      have := abs_add_le A.phiMax A.phiMin
      linarith
    have e2 : |m| ≤ |m - (A.phiMax + A.phiMin) / 2| + |(A.phiMax + A.phiMin) / 2| := by
      have := abs_add_le (m - (A.phiMax + A.phiMin) / 2) ((A.phiMax + A.phiMin) / 2)
      rwa [sub_add_cancel] at this
    have e3 : 11 / 10 * u * (|A.phiMax| + |A.phiMin|) ≤ S / 4 := by
      rw [add_comm, ← hS]
      have := mul_le_mul_of_nonneg_right hu hS0
      linarith
    linarith
  obtain ⟨lo, hlo⟩ : ∃ lo, lo = F.sub m F.pi := ⟨_, rfl⟩
  obtain ⟨hi, hhi⟩ : ∃ hi, hi = F.add m F.pi := ⟨_, rfl⟩
  have hp0 : |F.pi| ≤ 4 := by rw [abs_of_nonneg (by linarith [R.pi.1])]; exact R.pi.2
  have edge : ∀ x : K, |x| ≤ S + 4 → |F.rnd x| ≤ 2 * S + 20 := by
    intro x hx
    have e1 := R.rounding.abs_le x
    have e2 : (1 + u) * |x| ≤ 2 * (S + 4) := mul_le_mul (by linarith) hx (abs_nonneg _) (by norm_num)
    linarith
  have hlo' : |lo| ≤ |phi| + 2 * S + 30 := by
    have := edge (m - F.pi) (by
      have := abs_sub m F.pi
      linarith)
    rw [hlo]
    exact this.trans (by linarith [abs_nonneg phi])
  have hhi' : |hi| ≤ |phi| + 2 * S + 30 := by
    have := edge (m + F.pi) (by
      have := abs_add_le m F.pi
      linarith)
    rw [hhi]
    exact this.trans (by linarith [abs_nonneg phi])
  have hlo20 : |lo| ≤ 2 * S + 20 := by
    rw [hlo]
    exact edge (m - F.pi) (by
      have := abs_sub m F.pi
      linarith)
  have hM : u * (|phi| + 2 * S + 30 + 9) ≤ 1 / 2 := by
    rw [hS]
    refine le_trans (mul_le_mul_of_nonneg_left ?_ hu0) h
    linarith
  obtain ⟨n1, hn1⟩ := nat_above ((lo - phi) / 5)
  have up := loopUp_ends R.rounding hu0 hu R.pi.1 R.pi.2 hM hlo' n1 phi
    (by linarith [neg_abs_le phi]) (by rw [div_le_iff₀ (by norm_num)] at hn1; linarith)
  obtain ⟨n2, hn2⟩ := nat_above ((max phi (lo + 9) - hi) / 5)
  refine ⟨max (n1 + 1) (n2 + 1), fun fuel hf => ?_⟩
  obtain ⟨phi', up1, up2, up3, up4⟩ := up fuel (le_trans (le_max_left _ _) hf)
  have hphi' : phi' ≤ |phi| + 2 * S + 30 := by
    refine up4.trans (max_le (by linarith [le_abs_self phi]) ?_)
    linarith [le_abs_self lo, abs_nonneg phi]
  obtain ⟨phi'', d1, -⟩ := loopDown_ends R.rounding hu0 hu R.pi.1 R.pi.2 hM hhi' n2 phi' hphi'
    (by rw [div_le_iff₀ (by norm_num)] at hn2; linarith) fuel (le_trans (le_max_right _ _) hf)
  unfold getNearestPad
  rw [B.phiMin, B.phiMax, ← hmm]
  dsimp only
  rw [← hlo, ← hhi, up1]
  dsimp only
  rw [d1]
  split_ifs <;> exact ⟨_, rfl⟩

/-- Whatever `getNearestPad` gives, for a point that is not further out than 2 ^ 30 rows and not within a few roundings below
the inner radius, is a pad of the layout, or the exception `out_of_range`. -/
theorem nearest_valid_partial (R : Rounded F u) (hA : A.Proper) (hcs : ∀ x, F.cos x ^ 2 + F.sin x ^ 2 = 1)
    (hL : new F A.rMin A.rMax A.nRow A.phiMin A.phiMax A.nPads = .ok L) (fuel : ℕ) (r phi : K) {x : Res ℤ}
    (hfar : r - A.rMin ≤ 2 ^ 30 * A.dr) (hnear : r < (1 - 8 * u) * A.rMin ∨ A.rMin ≤ r)
    (h : getNearestPad F L fuel r phi = some x) :
    x = .throw .outOfRange ∨ ∃ row pad p, IsIndex A L row pad p ∧ x = .ok p := by
  have B := built hL
  have hu0 := R.nonneg
  have hu := R.small
  have hrow := hA.rows
  have hpad := hA.pads
  have hm' : (0 : K) < A.nPads := by exact_mod_cast hpad.1
  unfold getNearestPad at h
  split_ifs at h with hr
  · exact Or.inl (Option.some.inj h).symm
  have hr0 : 0 ≤ r := not_lt.1 hr
  dsimp only at h
  split at h
  · cases h
  split at h
  · cases h
  rename_i phi' _
  obtain rfl := Option.some.inj h
  unfold nearestFrom
  split_ifs with hin
  · obtain ⟨in1, in2⟩ := hin
    rw [B.phiMax] at in1
    rw [B.phiMin] at in2
    obtain ⟨row, w1, w2, w3⟩ := rowOf_spec R.rounding hu0 hu B hA (below := decide (r < L.rMin)) (r := r)
      (fun hb => by rw [B.rMin] at hb; exact not_lt.1 (of_decide_eq_false hb)) hfar
    obtain ⟨q, hq⟩ : ∃ q, q = F.rnd (F.rnd (phi' - A.phiMin) / F.rnd (F.rnd (A.phiMax - A.phiMin) / A.nPads)) := ⟨_, rfl⟩
    have hq0 : 0 ≤ q := by
      rw [hq]
      exact R.rounding.nonneg (div_nonneg (R.rounding.nonneg (by linarith)) (R.rounding.size hu0 hu hA.phi hpad.1).2.2.le)
    have hqn : q < 2147483648 := by
      rw [hq]
      refine (R.rounding.quotient hu0 hu hA.phi hpad.1 in2 (c := 2147483648) (by norm_num)).2 ?_
      change _ < 2147483648 * ((1 - u) * (1 - u) * A.dphi)
      have hd : 0 < A.dphi := div_pos (by linarith [hA.phi]) hm'
      have hw : A.nPads * A.dphi = A.phiMax - A.phiMin := by unfold Args.dphi; rw [mul_div_cancel₀ _ hm'.ne']
      have h5 : (A.nPads : K) ≤ 65536 := by exact_mod_cast hpad.2
      have h6 := mul_le_mul_of_nonneg_right h5 hd.le
      have h7 : (1 + u) * (1 + u) ≤ 11 / 10 := by nlinarith
      have h8 : 9 / 10 ≤ (1 - u) * (1 - u) := by nlinarith
      have h9 : (1 + u) * (1 + u) * (phi' - A.phiMin) ≤ 11 / 10 * (65536 * A.dphi) :=
        mul_le_mul h7 (by linarith) (by linarith) (by norm_num)
      have h10 : 9 / 10 * A.dphi ≤ (1 - u) * (1 - u) * A.dphi := mul_le_mul_of_nonneg_right h8 hd.le
      rw [← mul_assoc]
      linarith
    have hpadN : toInt (F.div (F.sub phi' L.phiMin) L.padAngle) = .ok ⌊q⌋ := by
      rw [B.phiMin, B.padAngle]
      change toInt (F.rnd (F.rnd (phi' - A.phiMin) / _)) = _
      rw [← hq]
      exact toInt_nonneg hq0 hqn
    rw [hpadN, Res.bind_ok, w1, Res.bind_ok]
    by_cases hlt : ⌊q⌋ < A.nPads
    · obtain ⟨p, hp, -⟩ := index_ok B hA (row := row) (pad := ⌊q⌋) ⟨⟨w2, w3⟩, Int.floor_nonneg.2 hq0, hlt⟩
      exact Or.inr ⟨row, ⌊q⌋, p, ⟨⟨⟨w2, w3⟩, Int.floor_nonneg.2 hq0, hlt⟩, hp⟩, hp⟩
    · refine Or.inl ?_
      unfold getPadIndex
      rw [B.nRow, B.nPads, if_neg (by omega), if_pos (by omega)]
  · have edge : ∀ phiE : K, ∃ row, edgeRow F L r phi' phiE = .ok row ∧ 0 ≤ row ∧ row < A.nRow := by
      intro phiE
      unfold edgeRow
      split_ifs
      · exact ⟨0, rfl, le_rfl, hrow.1⟩
      · refine rowOf_spec R.rounding hu0 hu B hA (fun hb => ?_) hfar
        have hb' := not_lt.1 (of_decide_eq_false hb)
        rw [B.rMin] at hb'
        have h1 := rIntersect_le R.rounding hu0 hu hcs hr0 phi' phiE
        rcases hnear with hn | hn
        · exfalso
          have h2 : (1 + 6 * u) * r ≤ (1 + 6 * u) * ((1 - 8 * u) * A.rMin) :=
            mul_le_mul_of_nonneg_left hn.le (by linarith)
          have h3 : 0 < A.rMin := by
            have : 0 < (1 - 8 * u) * A.rMin := lt_of_le_of_lt hr0 hn
            exact (mul_pos_iff_of_pos_left (by linarith)).1 this
          have h4 : 0 < u * A.rMin := mul_pos R.pos h3
          have h5 : 0 ≤ u * (u * A.rMin) := mul_nonneg hu0 h4.le
          have h6 : (1 + 6 * u) * ((1 - 8 * u) * A.rMin) = A.rMin - 2 * (u * A.rMin) - 48 * (u * (u * A.rMin)) := by ring
          linarith
        · exact hn
    obtain ⟨row1, e1, a1, b1⟩ := edge L.phiMin
    obtain ⟨row2, e2, a2, b2⟩ := edge L.phiMax
    obtain ⟨p1, hp1, -⟩ := index_ok B hA (row := row1) (pad := 0) ⟨⟨a1, b1⟩, le_rfl, hpad.1⟩
    obtain ⟨p2, hp2, -⟩ := index_ok B hA (row := row2) (pad := A.nPads - 1) ⟨⟨a2, b2⟩, by omega, by omega⟩
    have hp2' : getPadIndex L row2 (L.nPadsInRow - 1) = .ok p2 := by rw [B.nPads]; exact hp2
    rw [e1, Res.bind_ok, e2, Res.bind_ok, hp1, Res.bind_ok, hp2', Res.bind_ok]
    refine Or.inr ?_
    split_ifs
    · exact ⟨row1, 0, p1, ⟨⟨⟨a1, b1⟩, le_rfl, hpad.1⟩, hp1⟩, rfl⟩
    · exact ⟨row2, A.nPads - 1, p2, ⟨⟨⟨a2, b2⟩, by omega, by omega⟩, hp2⟩, rfl⟩

/-- For every double of absolute value from `2 ^ 57` on, `getNearestPad` never returns: adding or subtracting two pi does not
change the angle. -/
theorem nearest_ends_false_large (hF : F.rnd = binary64) (hpi : 3 ≤ F.pi ∧ F.pi < 39 / 10)
    (hL : new F A.rMin A.rMax A.nRow A.phiMin A.phiMax A.nPads = .ok L) (hA : |A.phiMin| ≤ 2 ^ 50 ∧ |A.phiMax| ≤ 2 ^ 50)
    {r phi : K} (hr : 0 ≤ r) (hd : binary64 phi = phi) (hphi : 2 ^ 57 ≤ |phi|) (fuel : ℕ) :
    getNearestPad F L fuel r phi = none := by
  have B := built hL
  have R : Rounding F.rnd (1 / 2 ^ 53) := by rw [hF]; exact binary64_rounding
  have hu : (1 : K) / 2 ^ 53 ≤ 1 / 1000 := by norm_num
  have hm := mean_near R (by norm_num) hu A.phiMax A.phiMin
  obtain ⟨m, hmm⟩ : ∃ m, m = F.div (F.add A.phiMax A.phiMin) 2 := ⟨_, rfl⟩
  rw [← hmm, _root_.abs_le] at hm
  have a1 := abs_le.1 hA.1
  have a2 := abs_le.1 hA.2
  have m1 : m ≤ 2 ^ 52 := by norm_num at *; linarith [hm.2, hA.1, hA.2]
  have m2 : -2 ^ 52 ≤ m := by norm_num at *; linarith [hm.1, hA.1, hA.2]
  have t := R.bounds (x := 2 * F.pi) (by linarith)
  have t0 : 0 ≤ F.mul 2 F.pi := by unfold Arith.mul; norm_num at *; linarith [t.1]
  have t1 : F.mul 2 F.pi < 8 := by unfold Arith.mul; norm_num at *; linarith [t.2]
  have lo : F.sub m F.pi < 2 ^ 54 ∧ -2 ^ 54 < F.sub m F.pi := by
    have e := R.err (m - F.pi)
    have e2 : |m - F.pi| ≤ 2 ^ 53 := by
      rw [_root_.abs_le]; constructor <;> norm_num at * <;> linarith
    rw [_root_.abs_le] at e
    unfold Arith.sub
    rw [_root_.abs_le] at e2
    have e3 : |m - F.pi| ≤ 2 ^ 53 := _root_.abs_le.2 e2
    constructor <;> norm_num at * <;> linarith [e.1, e.2, e3]
  have hi : F.add m F.pi < 2 ^ 54 := by
    have e := R.err (m + F.pi)
    have e3 : |m + F.pi| ≤ 2 ^ 53 := by
      rw [_root_.abs_le]; constructor <;> norm_num at * <;> linarith
    rw [_root_.abs_le] at e
    unfold Arith.add
    have e4 := le_abs_self (m + F.pi)
    norm_num at *; linarith [e.1, e.2, e3]
  unfold getNearestPad
  rw [if_neg (not_lt.2 hr), B.phiMin, B.phiMax, ← hmm]
  dsimp only
  rcases abs_cases phi with ⟨c1, c2⟩ | ⟨c1, c2⟩
  · rw [c1] at hphi
    have hs : F.sub phi (F.mul 2 F.pi) = phi := by
      unfold Arith.sub; rw [hF]; exact binary64_absorbs hd hphi ⟨t0, t1⟩
    cases fuel with
    | zero => rfl
    | succ n =>
      have h1 : loopUp F (F.sub m F.pi) (n + 1) phi = some phi := by
        rw [loopUp, if_neg]; norm_num at *; linarith [lo.1]
      rw [h1]
      dsimp only
      rw [loopDown_endless (by norm_num at *; linarith) hs]
  · rw [c1] at hphi
    have hs : F.add phi (F.mul 2 F.pi) = phi := by
      unfold Arith.add
      rw [hF]
      have := binary64_absorbs (x := -phi) (t := F.mul 2 F.pi) (by rw [binary64_neg, hd]) hphi ⟨t0, t1⟩
      rw [show phi + F.mul 2 F.pi = -(-phi - F.mul 2 F.pi) by ring, binary64_neg, this, neg_neg]
    rw [loopUp_endless (by norm_num at *; linarith [lo.2]) hs]

/-- A point far out: the number of the row does not fit into an `int`, and the behaviour is undefined. -/
theorem nearest_valid_false_far :
    getNearestPad doubles (seventhsLayout 7) 1 (2 ^ 40) (1 / 2) = some .ub := by decide +kernel

example : (1 / 2 ^ 53 : ℚ) * (|(10 : ℚ) ^ 15| + 2 * (|(sevenths 7).phiMin| + |(sevenths 7).phiMax|) + 40) ≤ 1 / 2 ∧
    (∀ x, doubles.cos x ^ 2 + doubles.sin x ^ 2 = 1) ∧
    ((5 : ℚ) - (sevenths 7).rMin ≤ 2 ^ 30 * (sevenths 7).dr) ∧ (sevenths 7).rMin ≤ 5 ∧
    getNearestPad doubles (seventhsLayout 7) 10 5 (-7) = some (.ok 65536) ∧
    getNearestPad doubles (seventhsLayout 7) 10 5 (13 / 2) = some (.ok 65537) := by
  refine ⟨by norm_num [sevenths], fun x => by norm_num [doubles], by norm_num [sevenths, Args.dr], by norm_num [sevenths],
    by decide +kernel, by decide +kernel⟩

example : doubles.rnd = binary64 ∧ (3 ≤ doubles.pi ∧ doubles.pi < 39 / 10) ∧
    (|(sevenths 7).phiMin| ≤ 2 ^ 50 ∧ |(sevenths 7).phiMax| ≤ 2 ^ 50) ∧ binary64 (-(2 ^ 60) : ℚ) = -(2 ^ 60) ∧
    (2 : ℚ) ^ 57 ≤ |-(2 ^ 60)| := by
  refine ⟨rfl, by norm_num [doubles], by norm_num [sevenths], by decide +kernel, by norm_num⟩

/-- The conversion at both ends of the range of `int`. -/
example : toInt (-2147483648 : ℚ) = .ok (-2147483648) ∧ toInt (-2147483649 : ℚ) = .ub ∧
    toInt (4294967295 / 2 : ℚ) = .ok 2147483647 ∧ toInt (2147483648 : ℚ) = .ub := by decide +kernel

/-! ### Without rounding -/

/-- Without rounding these are the functions of `PadAngle.lean`. -/
theorem exact_arithmetic (hF : F.rnd = id) :
    new F A.rMin A.rMax A.nRow A.phiMin A.phiMax A.nPads = PadAngle.new A.rMin A.rMax A.nRow A.phiMin A.phiMax A.nPads ∧
    getPadCenter F L = PadAngle.getPadCenter L ∧ isInsidePad F L = PadAngle.isInsidePad L ∧
    getDistanceToPad F L = PadAngle.getDistanceToPad F.toFns L := by
  refine ⟨?_, ?_, ?_, ?_⟩
  · unfold new PadAngle.new Arith.div Arith.sub
    rw [hF]
    rfl
  · funext p
    unfold getPadCenter PadAngle.getPadCenter Arith.add Arith.mul
    rw [hF]
    rfl
  · funext r phi p
    unfold isInsidePad PadAngle.isInsidePad getPadCenter PadAngle.getPadCenter Arith.add Arith.mul Arith.sub Arith.div
    rw [hF]
    rfl
  · funext r phi p
    unfold getDistanceToPad PadAngle.getDistanceToPad getPadCenter PadAngle.getPadCenter edgeDistance rIntersect Arith.add
      Arith.mul Arith.sub Arith.div
    rw [hF]
    rfl

end Gear.PadAngle.Double
