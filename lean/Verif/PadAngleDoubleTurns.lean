/-
`getNearestPad` of a layout with a fixed pad angle, in `double` arithmetic, for angles that are given with any number of full turns.
-/
import Verif.PadAngleDoubleProps
import Mathlib.Analysis.Real.Pi.Bounds

set_option autoImplicit false
set_option linter.unusedSectionVars false

namespace Gear.PadAngle.Double

open Real
open PadAngle.Spec
open Spec
open MaterialMap (Arith)
open Doubles (Rounding)

namespace Spec

/-- The numbers that occur when full turns are added to an angle or taken from it. -/
def turnSize (A : Args ℝ) (phi : ℝ) : ℝ := |phi| + 2 * (|A.phiMin| + |A.phiMax|) + 30

end Spec

variable {F : Arith ℝ} {u : ℝ} {A : Args ℝ} {L : Layout ℝ}

/-- One full turn more. -/
theorem turn_err (R : Rounding F.rnd u) (hu0 : 0 ≤ u) (hp1 : 3 ≤ F.pi) (hp2 : F.pi ≤ 4) (hpi : |F.pi - π| ≤ u * π) :
    |F.mul 2 F.pi - 2 * π| ≤ 15 * u := by
  have e := R.err (2 * F.pi)
  have a : |2 * F.pi| ≤ 8 := by rw [abs_of_nonneg (by linarith)]; linarith
  have b := mul_le_mul_of_nonneg_left a hu0
  have c : u * π ≤ u * 3.15 := mul_le_mul_of_nonneg_left Real.pi_lt_d2.le hu0
  have e : |F.mul 2 F.pi - 2 * F.pi| ≤ u * |2 * F.pi| := e
  rw [_root_.abs_le] at *
  constructor <;> linarith [e.1, e.2, hpi.1, hpi.2]

theorem loopUp_turns (R : Rounding F.rnd u) (hu0 : 0 ≤ u) (hu : u ≤ 1 / 1000) (hp1 : 3 ≤ F.pi) (hp2 : F.pi ≤ 4)
    (hpi : |F.pi - π| ≤ u * π) {lo M : ℝ} (hM : u * (M + 9) ≤ 1 / 2) (hlo : |lo| ≤ M) :
    ∀ (n : ℕ) (phi : ℝ), -M ≤ phi → lo - phi ≤ 5 * n → ∀ m, n + 1 ≤ m →
      ∃ phi' : ℝ, loopUp F lo m phi = some phi' ∧ lo ≤ phi' ∧ phi' ≤ max phi (lo + 9) ∧
        ∃ k : ℤ, |phi' - (phi + k * (2 * π))| ≤ n * (u * (M + 24)) := by
  have t := R.bounds (x := 2 * F.pi) (by linarith)
  have t1 : 59 / 10 ≤ F.mul 2 F.pi := by unfold Arith.mul; nlinarith
  have t2 : F.mul 2 F.pi ≤ 81 / 10 := by unfold Arith.mul; nlinarith
  have t3 := turn_err R hu0 hp1 hp2 hpi
  have hM0 : 0 ≤ M := le_trans (abs_nonneg _) hlo
  rw [_root_.abs_le] at hlo
  intro n
  induction n with
  | zero =>
    intro phi _ h m hm
    obtain ⟨k, rfl⟩ : ∃ k, m = k + 1 := ⟨m - 1, by omega⟩
    push_cast at h
    unfold loopUp
    rw [if_neg (by linarith)]
    exact ⟨phi, rfl, by linarith, le_max_left _ _, 0, by simp⟩
  | succ n ih =>
    intro phi hphi h m hm
    obtain ⟨k, rfl⟩ : ∃ k, m = k + 1 := ⟨m - 1, by omega⟩
    unfold loopUp
    by_cases hc : phi < lo
    · rw [if_pos hc]
      have e := R.err (phi + F.mul 2 F.pi)
      have ha : |phi + F.mul 2 F.pi| ≤ M + 9 := by rw [_root_.abs_le]; constructor <;> linarith
      have hb' : u * |phi + F.mul 2 F.pi| ≤ u * (M + 9) := mul_le_mul_of_nonneg_left ha hu0
      have hb := hb'.trans hM
      rw [_root_.abs_le] at e
      obtain ⟨phi', e1, e2, e4, j, e5⟩ := ih (F.add phi (F.mul 2 F.pi)) (by unfold Arith.add; linarith [e.1])
        (by unfold Arith.add; push_cast at h; linarith [e.1]) k (by omega)
      refine ⟨phi', e1, e2, ?_, j + 1, ?_⟩
      · refine e4.trans (max_le ?_ (le_max_right _ _))
        refine le_trans ?_ (le_max_right _ _)
        unfold Arith.add; linarith [e.2]
      · have ea : F.rnd (phi + F.mul 2 F.pi) = F.add phi (F.mul 2 F.pi) := rfl
        rw [ea] at e
        rw [_root_.abs_le] at e5 t3 ⊢
        push_cast
        constructor <;> linarith [e.1, e.2, e5.1, e5.2, t3.1, t3.2]
    · rw [if_neg hc]
      refine ⟨phi, rfl, not_lt.1 hc, le_max_left _ _, 0, ?_⟩
      simp only [Int.cast_zero, zero_mul, add_zero, sub_self, abs_zero]
      positivity

theorem loopDown_turns (R : Rounding F.rnd u) (hu0 : 0 ≤ u) (hu : u ≤ 1 / 1000) (hp1 : 3 ≤ F.pi) (hp2 : F.pi ≤ 4)
    (hpi : |F.pi - π| ≤ u * π) {hi M : ℝ} (hM : u * (M + 9) ≤ 1 / 2) (hhi : |hi| ≤ M) :
    ∀ (n : ℕ) (phi : ℝ), phi ≤ M → phi - hi ≤ 5 * n → ∀ m, n + 1 ≤ m →
      ∃ phi' : ℝ, loopDown F hi m phi = some phi' ∧ phi' ≤ hi ∧ min phi (hi - 2 * π - u * (M + 24)) ≤ phi' ∧
        ∃ k : ℤ, |phi' - (phi + k * (2 * π))| ≤ n * (u * (M + 24)) := by
  have t := R.bounds (x := 2 * F.pi) (by linarith)
  have t1 : 59 / 10 ≤ F.mul 2 F.pi := by unfold Arith.mul; nlinarith
  have t2 : F.mul 2 F.pi ≤ 81 / 10 := by unfold Arith.mul; nlinarith
  have t3 := turn_err R hu0 hp1 hp2 hpi
  have hM0 : 0 ≤ M := le_trans (abs_nonneg _) hhi
  rw [_root_.abs_le] at hhi
  intro n
  induction n with
  | zero =>
    intro phi _ h m hm
    obtain ⟨k, rfl⟩ : ∃ k, m = k + 1 := ⟨m - 1, by omega⟩
    push_cast at h
    unfold loopDown
    rw [if_neg (by linarith)]
    exact ⟨phi, rfl, by linarith, min_le_left _ _, 0, by simp⟩
  | succ n ih =>
    intro phi hphi h m hm
    obtain ⟨k, rfl⟩ : ∃ k, m = k + 1 := ⟨m - 1, by omega⟩
    unfold loopDown
    by_cases hc : phi > hi
    · rw [if_pos hc]
      have e := R.err (phi - F.mul 2 F.pi)
      have ha : |phi - F.mul 2 F.pi| ≤ M + 9 := by rw [_root_.abs_le]; constructor <;> linarith
      have hb' : u * |phi - F.mul 2 F.pi| ≤ u * (M + 9) := mul_le_mul_of_nonneg_left ha hu0
      have hb := hb'.trans hM
      rw [_root_.abs_le] at e
      obtain ⟨phi', e1, e2, e4, j, e5⟩ := ih (F.sub phi (F.mul 2 F.pi)) (by unfold Arith.sub; linarith [e.2])
        (by unfold Arith.sub; push_cast at h; linarith [e.2]) k (by omega)
      have ea : F.rnd (phi - F.mul 2 F.pi) = F.sub phi (F.mul 2 F.pi) := rfl
      rw [ea] at e
      rw [_root_.abs_le] at t3
      refine ⟨phi', e1, e2, ?_, j - 1, ?_⟩
      · refine le_trans (min_le_right _ _) (le_trans (le_min ?_ le_rfl) e4)
        linarith [e.1, t3.2]
      · rw [_root_.abs_le] at e5 ⊢
        push_cast
        constructor <;> linarith [e.1, e.2, e5.1, e5.2, t3.1, t3.2]
    · rw [if_neg hc]
      refine ⟨phi, rfl, not_lt.1 hc, min_le_left _ _, 0, ?_⟩
      simp only [Int.cast_zero, zero_mul, add_zero, sub_self, abs_zero]
      positivity

theorem bind_parts {α β : Type} {x : Res α} {f : α → Res β} {b : β} (h : (x >>= f) = .ok b) : ∃ a, x = .ok a ∧ f a = .ok b := by
  cases x with
  | ok a => exact ⟨a, rfl, h⟩
  | throw e => cases h
  | ub => cases h

/-- C140: whatever index `getNearestPad` gives, it is the index of a pad of the layout. -/
theorem nearest_is_pad (R : Rounded F u) (hA : A.Proper) (hL : new F A.rMin A.rMax A.nRow A.phiMin A.phiMax A.nPads = .ok L) {fuel : ℕ}
    {r phi : ℝ} {p : ℤ} (h : getNearestPad F L fuel r phi = some (.ok p)) : ∃ row pad, IsIndex A L row pad p := by
  have B := built hL
  have index : ∀ row pad p : ℤ, 0 ≤ pad → getPadIndex L row pad = .ok p → IsIndex A L row pad p := by
    intro row pad p h0 hp
    refine ⟨?_, hp⟩
    unfold getPadIndex PadIndex.encode at hp
    rw [B.nRow, B.nPads] at hp
    split_ifs at hp with h1 h2 h3
    exact ⟨⟨h3.1, by omega⟩, h0, by omega⟩
  unfold getNearestPad at h
  split_ifs at h with hr
  · cases Option.some.inj h
  dsimp only at h
  split at h
  · cases h
  split at h
  · cases h
  rename_i phi' _
  have h := Option.some.inj h
  unfold nearestFrom at h
  split_ifs at h with hin
  · obtain ⟨pad, h1, h⟩ := bind_parts h
    obtain ⟨row, -, h⟩ := bind_parts h
    refine ⟨row, pad, index row pad p ?_ h⟩
    have hq : 0 ≤ F.div (F.sub phi' L.phiMin) L.padAngle := by
      rw [B.padAngle]
      refine R.rounding.nonneg (div_nonneg (R.rounding.nonneg (by linarith [hin.2])) ?_)
      exact (R.rounding.size R.nonneg R.small hA.phi hA.pads.1).2.2.le
    unfold toInt at h1
    split_ifs at h1
    obtain rfl := Res.ok.inj h1
    unfold truncInt
    rw [if_pos hq]
    exact Int.floor_nonneg.2 hq
  · obtain ⟨row1, -, h⟩ := bind_parts h
    obtain ⟨row2, -, h⟩ := bind_parts h
    obtain ⟨p1, e1, h⟩ := bind_parts h
    obtain ⟨p2, e2, h⟩ := bind_parts h
    have h := Res.ok.inj h
    rw [← h]
    split_ifs
    · exact ⟨row1, 0, index _ _ _ le_rfl e1⟩
    · refine ⟨row2, _, index _ _ _ ?_ e2⟩
      rw [B.nPads]
      have := hA.pads.1
      omega

set_option maxHeartbeats 400000 in
/-- C140: the nearest pad of a point that is deep in a pad is this pad, also if its angle is given with any number of full turns. -/
theorem nearest_turns_double (R : Rounded F u) (hpi : |F.pi - π| ≤ u * π) (hA : A.Proper) (hspan : A.phiMax - A.phiMin ≤ 2 * F.pi)
    (hr0 : 0 ≤ A.rMin) (hL : new F A.rMin A.rMax A.nRow A.phiMin A.phiMax A.nPads = .ok L) {row pad : ℤ} (hp : A.IsPad row pad)
    {r phi phi0 d : ℝ} {k : ℤ} (hd : |phi - (phi0 + k * (2 * π))| ≤ d)
    (h : DeepInPad A (rError A u) (phiError A u F.pi + d + 5 * u * turnSize A phi ^ 2) row pad r phi0)
    (hs : u * turnSize A phi ≤ 1 / 10) (fuel : ℕ) (hf : turnSize A phi + 1 ≤ fuel) :
    ∃ p, getPadIndex L row pad = .ok p ∧ getNearestPad F L fuel r phi = some (.ok p) := by
  have B := built hL
  have hu0 := R.nonneg
  have hu := R.small
  have hm := mean_near R.rounding hu0 hu A.phiMax A.phiMin
  obtain ⟨m, hmm⟩ : ∃ m, m = F.div (F.add A.phiMax A.phiMin) 2 := ⟨_, rfl⟩
  rw [← hmm] at hm
  obtain ⟨S, hS⟩ : ∃ S, S = |A.phiMin| + |A.phiMax| := ⟨_, rfl⟩
  have hS0 : 0 ≤ S := by rw [hS]; positivity
  obtain ⟨M, hMM⟩ : ∃ M, M = turnSize A phi := ⟨_, rfl⟩
  rw [← hMM] at h hs hf
  have hM' : M = |phi| + 2 * S + 30 := by rw [hMM, hS]; rfl
  have hphi0 := abs_nonneg phi
  have hM30 : 30 ≤ M := by rw [hM']; linarith
  have hM9 : u * (M + 9) ≤ 1 / 2 := by nlinarith
  have e1 : |(A.phiMax + A.phiMin) / 2| ≤ S / 2 := by
    rw [abs_div, abs_of_pos (show (0 : ℝ) < 2 by norm_num), hS]
    have := abs_add_le A.phiMax A.phiMin
    linarith
  have hm1 : |m - (A.phiMax + A.phiMin) / 2| ≤ 2 * (u * S) := by
    refine hm.trans ?_
    have := mul_nonneg hu0 hS0
    rw [show |A.phiMax| + |A.phiMin| = S by rw [hS]; ring]
    linarith
  have huS : u * S ≤ S / 1000 := by have := mul_le_mul_of_nonneg_right hu hS0; linarith
  have hm2 : |m| ≤ S := by
    have e2 : |m| ≤ |m - (A.phiMax + A.phiMin) / 2| + |(A.phiMax + A.phiMin) / 2| := by
      have := abs_add_le (m - (A.phiMax + A.phiMin) / 2) ((A.phiMax + A.phiMin) / 2)
      rwa [sub_add_cancel] at this
    linarith
  obtain ⟨lo, hlo⟩ : ∃ lo, lo = F.sub m F.pi := ⟨_, rfl⟩
  obtain ⟨hi, hhi⟩ : ∃ hi, hi = F.add m F.pi := ⟨_, rfl⟩
  have hp0 : |F.pi| ≤ 4 := by rw [abs_of_nonneg (by linarith [R.pi.1])]; exact R.pi.2
  have q1 : |lo - (m - F.pi)| ≤ u * (S + 4) := by
    rw [hlo]
    refine (R.rounding.err (m - F.pi)).trans (mul_le_mul_of_nonneg_left ?_ hu0)
    have := abs_sub m F.pi
    linarith
  have q2 : |hi - (m + F.pi)| ≤ u * (S + 4) := by
    rw [hhi]
    refine (R.rounding.err (m + F.pi)).trans (mul_le_mul_of_nonneg_left ?_ hu0)
    have := abs_add_le m F.pi
    linarith
  have qs : u * (S + 4) ≤ S + 4 := by nlinarith
  have hpi' : u * π ≤ 4 * u := by nlinarith [Real.pi_lt_d2]
  rw [_root_.abs_le] at q1 q2 hm1 hm2 hpi
  have hlo' : |lo| ≤ M := by rw [_root_.abs_le]; constructor <;> linarith [q1.1, q1.2, hm2.1, hm2.2, R.pi.1, R.pi.2]
  have hhi' : |hi| ≤ M := by rw [_root_.abs_le]; constructor <;> linarith [q2.1, q2.2, hm2.1, hm2.2, R.pi.1, R.pi.2]
  have hpiabs : |F.pi - π| ≤ u * π := _root_.abs_le.2 hpi
  -- the number of passes
  obtain ⟨N, hN⟩ : ∃ N : ℕ, N = ⌈(2 * M + 9) / 5⌉₊ := ⟨_, rfl⟩
  have hN1 : 2 * M + 9 ≤ 5 * N := by
    have := Nat.le_ceil ((2 * M + 9) / 5)
    rw [← hN] at this
    linarith
  have hN2 : (N : ℝ) ≤ M := by
    have := (Nat.ceil_lt_add_one (show 0 ≤ (2 * M + 9) / 5 by positivity)).le
    rw [← hN] at this
    linarith
  have hNf : N + 1 ≤ fuel := by
    have : ((N + 1 : ℕ) : ℝ) ≤ fuel := by push_cast; linarith
    exact_mod_cast this
  have hl := _root_.abs_le.1 hlo'
  have hh := _root_.abs_le.1 hhi'
  obtain ⟨phi1, a1, a2, a3, k1, a4⟩ := loopUp_turns R.rounding hu0 hu R.pi.1 R.pi.2 hpiabs hM9 hlo' N phi
    (by linarith [neg_abs_le phi]) (by linarith [neg_abs_le phi, hl.2]) fuel hNf
  have hphi1 : phi1 ≤ M := by
    refine a3.trans (max_le (by linarith [le_abs_self phi]) ?_)
    linarith [q1.2, hm2.2, R.pi.1]
  obtain ⟨phi2, b1, b2, b3, k2, b4⟩ := loopDown_turns R.rounding hu0 hu R.pi.1 R.pi.2 hpiabs hM9 hhi' N phi1
    hphi1 (by linarith [hh.1]) fuel hNf
  -- the errors
  have uM : 0 ≤ u * M := mul_nonneg hu0 (by linarith)
  have uS : 0 ≤ u * S := mul_nonneg hu0 hS0
  have uSM : 2 * (u * S) ≤ u * M := by
    have := mul_le_mul_of_nonneg_left (show 2 * S ≤ M by linarith) hu0
    linarith
  have u30 : 30 * u ≤ u * M := by
    have := mul_le_mul_of_nonneg_left hM30 hu0
    linarith
  have uMM : 30 * (u * M) ≤ u * M ^ 2 := by
    have := mul_le_mul_of_nonneg_right hM30 uM
    rw [show u * M ^ 2 = M * (u * M) by ring]
    exact this
  have eN : (N : ℝ) * (u * (M + 24)) ≤ 2 * (u * M ^ 2) := by
    have x1 : 0 ≤ u * (M + 24) := by positivity
    have x2 : (N : ℝ) * (u * (M + 24)) ≤ M * (u * (M + 24)) := mul_le_mul_of_nonneg_right hN2 x1
    have x3 : M * (u * (M + 24)) = u * M ^ 2 + 24 * (u * M) := by ring
    linarith
  have e12 : |phi2 - (phi0 + ((k + k1 + k2 : ℤ) : ℝ) * (2 * π))| ≤ d + 4 * (u * M ^ 2) := by
    rw [_root_.abs_le] at a4 b4 hd ⊢
    push_cast
    constructor <;> linarith [a4.1, a4.2, b4.1, b4.2, hd.1, hd.2]
  have hd0 : 0 ≤ d := le_trans (abs_nonneg _) hd
  -- no turn is left
  obtain ⟨⟨c1, c2⟩, c3, c4⟩ := h
  have hdphi : A.dphi = (A.phiMax - A.phiMin) / A.nPads := rfl
  have hpads : (0 : ℝ) < A.nPads := by exact_mod_cast hA.pads.1
  have hdp : 0 < A.dphi := by rw [hdphi]; exact div_pos (by linarith [hA.phi]) hpads
  have w1 : A.phiMin ≤ A.phiMin + pad * A.dphi := by
    have : (0 : ℝ) ≤ pad := by exact_mod_cast hp.2.1
    have := mul_nonneg this hdp.le
    linarith
  have w2 : A.phiMin + (pad + 1) * A.dphi ≤ A.phiMax := by
    have x1 : ((pad : ℝ) + 1) ≤ A.nPads := by exact_mod_cast hp.2.2
    have x2 := mul_le_mul_of_nonneg_right x1 hdp.le
    have x3 : (A.nPads : ℝ) * A.dphi = A.phiMax - A.phiMin := by rw [hdphi]; field_simp
    linarith
  have pe : 0 ≤ phiError A u F.pi := by
    unfold phiError
    have := R.pi.1
    positivity
  have ee : 5 * u * M ^ 2 = 5 * (u * M ^ 2) := by ring
  rw [ee] at c3 c4
  have y1 : u * (M + 24) = u * M + 24 * u := by ring
  have y2 : u * (S + 4) = u * S + 4 * u := by ring
  rw [y2] at q1 q2
  rw [y1] at b3
  have z1 : m - π - (u * M + 32 * u + u * S) ≤ phi2 := by
    refine le_trans (le_min ?_ ?_) b3
    · refine le_trans ?_ a2
      linarith [q1.1, hpi.2]
    · linarith [q2.1, hpi.1]
  have z2 : phi2 ≤ m + π + (u * S + 8 * u) := by linarith [q2.2, hpi.2]
  have z3 : A.phiMin + (5 * (u * M ^ 2) + d) ≤ phi0 := by linarith
  have z4 : phi0 ≤ A.phiMax - (5 * (u * M ^ 2) + d) := by linarith
  have z5 : A.phiMax - A.phiMin ≤ 2 * π + 8 * u := by linarith [hpi.2]
  have hj : k + k1 + k2 = 0 := by
    clear a1 b1 a4 b4 hd eN hN hN1 hN2 hNf c1 c2 c3 c4 B hL hM9 hmm hlo hhi hdphi ee hMM hf hs hm hspan hlo' hhi' hpiabs hl hh a2 a3 b3
    by_contra hne
    have hpos := Real.pi_pos
    have hupos := R.pos
    rw [_root_.abs_le] at e12
    rcases lt_or_gt_of_ne hne with hneg | hgt
    · have : ((k + k1 + k2 : ℤ) : ℝ) ≤ -1 := by exact_mod_cast (by omega : k + k1 + k2 ≤ -1)
      have := mul_le_mul_of_nonneg_right this (show 0 ≤ 2 * π by linarith)
      linarith [e12.2, hm1.1]
    · have : (1 : ℝ) ≤ ((k + k1 + k2 : ℤ) : ℝ) := by exact_mod_cast (by omega : 1 ≤ k + k1 + k2)
      have := mul_le_mul_of_nonneg_right this (show 0 ≤ 2 * π by linarith)
      linarith [e12.1, hm1.2]
  rw [hj] at e12
  simp only [Int.cast_zero, zero_mul, add_zero] at e12
  rw [_root_.abs_le] at e12
  obtain ⟨p, i1, i2⟩ := nearest_deep R hA hspan hr0 hL hp (r := r) (phi := phi2)
    ⟨⟨c1, c2⟩, by linarith [e12.1], by linarith [e12.2]⟩
  refine ⟨p, i1, ?_⟩
  have i3 := i2 0
  unfold getNearestPad at i3 ⊢
  rw [B.phiMin, B.phiMax, ← hmm] at i3 ⊢
  dsimp only at i3 ⊢
  rw [← hlo, ← hhi] at i3 ⊢
  split_ifs at i3 ⊢ with hr
  · simp at i3
  rw [a1]
  dsimp only
  rw [b1]
  dsimp only
  have lo2 : ¬ phi2 < lo := by
    intro hc
    unfold loopUp at i3
    rw [if_pos hc] at i3
    unfold loopUp at i3
    simp at i3
  have j1 : loopUp F lo (0 + 1) phi2 = some phi2 := by unfold loopUp; rw [if_neg lo2]
  have j2 : loopDown F hi (0 + 1) phi2 = some phi2 := by unfold loopDown; rw [if_neg (not_lt.2 b2)]
  rw [j1] at i3
  dsimp only at i3
  rw [j2] at i3
  exact i3

end Gear.PadAngle.Double
