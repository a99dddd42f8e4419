/-
The search for the row, with the arithmetic of `double`, for points that are not too near to an edge of the pads of a row.
-/
import Verif.RectDoubleLemmas

set_option autoImplicit false
set_option linter.unusedSectionVars false

namespace Gear.Rect.Double

open PadIndex Doubles Spec
open MaterialMap (Arith)
open PadAngle.Double (toInt)
open PadAngle.Double.Spec (Rounded)

variable {K : Type} [Field K] [LinearOrder K] [IsStrictOrderedRing K] [FloorRing K]
variable {F : Arith K} {u : K} {A : Args K} {L : Layout K}

theorem toInt_int {n : ℤ} (h : -2147483648 ≤ n ∧ n ≤ 2147483647) : toInt ((n : ℤ) : K) = .ok n := by
  have : truncInt ((n : ℤ) : K) = n := by unfold truncInt; split_ifs <;> simp
  unfold toInt
  rw [this, if_pos h]

/-- `near` with numbers. -/
theorem near' (R : Rounded F u) {q eta M v V e : K} (hq : u * M ≤ q) (h : |v - V| ≤ e) (hV : |V| ≤ M) (he : e ≤ eta) :
    |F.rnd v - V| ≤ e + q + eta / 1000 := by
  have h1 := near R h hV
  have he0 : 0 ≤ e := (abs_nonneg _).trans h
  have h2 := mul_le_mul_of_nonneg_right R.small he0
  rw [mul_add] at h1
  linarith

section
variable {q eta : K} {y : K} {i : ℤ}

theorem rnd_one (R : Rounded F u) : F.rnd 1 = 1 := by
  have := R.rounding.scaled 1 0 (by norm_num)
  simpa using this

/-- A guess that is between zero and one row away. -/
theorem guess (R : Rounded F u) {o rd m : K} (ho : 0 < o) (hrd : 0 < rd) (hm : 0 < m) (h : (1 + u) * (m * o) ≤ rd) :
    0 < F.rnd (m * F.rnd (o / rd)) ∧ F.rnd (m * F.rnd (o / rd)) ≤ 1 := by
  have hq : 0 < o / rd := div_pos ho hrd
  have hu : u < 1 := by linarith [R.small]
  refine ⟨R.rounding.pos hu (mul_pos hm (R.rounding.pos hu hq)), ?_⟩
  rw [← rnd_one R]
  refine R.rounding.mono _ _ ?_
  have h1 := mul_le_mul_of_nonneg_left (R.rounding.bounds hq.le).2 hm.le
  refine h1.trans ?_
  rw [show m * ((1 + u) * (o / rd)) = ((1 + u) * (m * o)) / rd by ring, div_le_one hrd]
  exact h

theorem rnd_neg_one (R : Rounded F u) : F.rnd (-1) = -1 := by
  have := R.rounding.scaled (-1) 0 (by norm_num)
  simpa using this

theorem rnd_neg_of_neg (R : Rounded F u) {x : K} (h : x < 0) : F.rnd x < 0 := by
  have h1 := R.rounding.err x
  rw [abs_of_neg h, abs_le] at h1
  have : u * -x ≤ 1 / 1000 * -x := mul_le_mul_of_nonneg_right R.small (by linarith)
  linarith [h1.2]

/-- The same downwards. -/
theorem guess_neg (R : Rounded F u) {o rd m : K} (ho : o < 0) (hrd : 0 < rd) (hm : 0 < m) (h : (1 + u) * (m * -o) ≤ rd) :
    F.rnd (m * F.rnd (o / rd)) < 0 ∧ -1 ≤ F.rnd (m * F.rnd (o / rd)) := by
  have hq : o / rd < 0 := div_neg_of_neg_of_pos ho hrd
  refine ⟨rnd_neg_of_neg R (mul_neg_of_pos_of_neg hm (rnd_neg_of_neg R hq)), ?_⟩
  rw [← rnd_neg_one R]
  refine R.rounding.mono _ _ ?_
  have h1 := R.rounding.err (o / rd)
  rw [abs_of_neg hq, abs_le] at h1
  have h2 : (1 + u) * (o / rd) ≤ F.rnd (o / rd) := by linarith [h1.1]
  refine le_trans ?_ (mul_le_mul_of_nonneg_left h2 hm.le)
  rw [show m * ((1 + u) * (o / rd)) = -(((1 + u) * (m * -o)) / rd) by ring]
  have := (div_le_one hrd).2 h
  linarith

/-- The displacement from the middle of row `r`. -/
theorem disp_near (R : Rounded F u) (S : Scale A u q eta) {r : ℤ} (h0 : 0 ≤ r) (hr : r < A.nRow)
    (hy : A.yMin ≤ y ∧ y ≤ A.yMin + A.nRow * A.height) :
    |F.rnd (y - F.rnd (edge F A.yMin A.height r.toNat + F.rnd (A.height / 2))) - (y - A.yCenter r)| ≤ 8 / 5 * eta := by
  have hc := center_near R S h0 hr
  have h0' : (0 : K) ≤ r := by exact_mod_cast h0
  have hr' : (r : K) + 1 ≤ A.nRow := by exact_mod_cast hr
  have a1 : 0 ≤ (r : K) * A.height := mul_nonneg h0' S.h.le
  have a2 := mul_le_mul_of_nonneg_right hr' S.h.le
  have hV : |y - A.yCenter r| ≤ |A.yMin| + A.nRow * A.height := by
    have := abs_nonneg A.yMin
    unfold Args.yCenter
    rw [abs_le]
    constructor <;> linarith [S.h]
  generalize F.rnd (edge F A.yMin A.height r.toNat + F.rnd (A.height / 2)) = c at *
  have h1 := near' R (v := y - c) S.q.ge (e := eta)
    (by rw [show y - c - (y - A.yCenter r) = -(c - A.yCenter r) by ring, abs_neg]; exact hc) hV le_rfl
  have h2 : 0 ≤ eta := by linarith [S.q0, S.q_le]
  linarith [S.q_le]

theorem y_range (S : Scale A u q eta) (h0 : 0 ≤ i) (hi : i < A.nRow) (hp : A.padHeight ≤ A.height)
    (hy : |y - A.yCenter i| ≤ A.padHeight / 2 - 10 * eta) :
    (A.yMin + i * A.height + 10 * eta ≤ y ∧ y ≤ A.yMin + (i + 1) * A.height - 10 * eta) ∧
      A.yMin ≤ y ∧ y ≤ A.yMin + A.nRow * A.height := by
  have h2 : 0 ≤ eta := by linarith [S.q0, S.q_le]
  have h0' : (0 : K) ≤ i := by exact_mod_cast h0
  have hr' : (i : K) + 1 ≤ A.nRow := by exact_mod_cast hi
  have a1 : 0 ≤ (i : K) * A.height := mul_nonneg h0' S.h.le
  have a2 := mul_le_mul_of_nonneg_right hr' S.h.le
  unfold Args.yCenter at hy
  rw [abs_le] at hy
  refine ⟨⟨?_, ?_⟩, ?_, ?_⟩ <;> linarith [hy.1, hy.2]

/-- The search ends in the row of the point. -/
theorem pass_here (R : Rounded F u) (S : Scale A u q eta) (B : Built F A L) (h0 : 0 ≤ i) (hi : i < A.nRow)
    (hy : |y - A.yCenter i| ≤ A.padHeight / 2 - 10 * eta) : pass F L y i = .ok (.done i) := by
  obtain ⟨-, hr⟩ := y_range S h0 hi B.higher hy
  have hd := disp_near R S h0 hi hr
  have hP := half_near R S B.padHeight B.higher
  have h2 : 0 ≤ eta := by linarith [S.q0, S.q_le]
  unfold pass
  rw [elemUb_of (B.row i h0 hi), Res.bind_ok]
  dsimp only
  unfold Arith.sub Arith.div
  rw [if_pos]
  · rfl
  · generalize F.rnd (y - F.rnd (edge F A.yMin A.height i.toNat + F.rnd (A.height / 2))) = d at *
    have := abs_sub_abs_le_abs_sub d (y - A.yCenter i)
    rw [abs_le] at hP
    linarith [hP.1, S.q_le]

/-- From the row below. -/
theorem pass_below (R : Rounded F u) (S : Scale A u q eta) (B : Built F A L) (hn : A.nRow ≤ 65536) (h0 : 0 ≤ i) (hi : i + 1 < A.nRow)
    (hy : |y - A.yCenter (i + 1)| ≤ A.padHeight / 2 - 10 * eta) : pass F L y i = .ok (.next (i + 1)) := by
  obtain ⟨hs, hr⟩ := y_range S (by omega) hi B.higher hy
  have hi' : i < A.nRow := by omega
  have hd := disp_near R S h0 hi' hr
  have hc := center_near R S h0 hi'
  have hT := top_near R S B.rows
  have hP := half_near R S B.padHeight B.higher
  have hH := half_near R S S.h.le le_rfl
  have h2 : 0 ≤ eta := by linarith [S.q0, S.q_le]
  have hq := S.q_le
  have hh := S.h
  have h0' : (0 : K) ≤ i := by exact_mod_cast h0
  have hi2 : (i : K) + 1 + 1 ≤ A.nRow := by exact_mod_cast hi
  have hu0 := R.nonneg
  have hu := R.small
  have hhq := S.hq
  have hlen : ((L.rows.length : ℤ) - i - 1) = A.nRow - i - 1 := by rw [B.length]
  have hph := B.higher
  have hph0 := B.padHeight
  unfold pass
  rw [elemUb_of (B.row i h0 hi'), Res.bind_ok]
  dsimp only
  unfold Arith.sub Arith.div Arith.mul Arith.add
  rw [B.yMax, hlen]
  unfold Args.yCenter at *
  obtain ⟨s, hse⟩ : ∃ s, s = y - (A.yMin + (i + 1) * A.height) := ⟨_, rfl⟩
  push_cast at hs
  have s1 : 10 * eta ≤ s := by linarith [hs.1]
  have s2 : s ≤ A.height - 10 * eta := by linarith [hs.2]
  obtain ⟨m, hm⟩ : ∃ m : K, m = A.nRow - i - 1 := ⟨_, rfl⟩
  have hmc : ((A.nRow - i - 1 : ℤ) : K) = m := by rw [hm]; push_cast; ring
  have hm1 : 1 ≤ m := by linarith
  have hiM : 0 ≤ (i : K) * A.height := mul_nonneg h0' hh.le
  have hmM : m * A.height ≤ |A.yMin| + A.nRow * A.height := by
    have := abs_nonneg A.yMin
    have : (m + i + 1) * A.height = A.nRow * A.height := by rw [hm]; ring
    linarith
  have hhm : A.height ≤ m * A.height := by
    have := mul_le_mul_of_nonneg_right hm1 hh.le
    linarith
  generalize F.rnd (edge F A.yMin A.height i.toNat + F.rnd (A.height / 2)) = c at *
  generalize edge F A.yMin A.height A.nRow.toNat = T at *
  generalize F.rnd (A.height / 2) = H2 at *
  generalize F.rnd (A.padHeight / 2) = P2 at *
  rw [show y - (A.yMin + ((i : K) + 1 / 2) * A.height) = s + A.height / 2 by rw [hse]; ring] at hd
  -- the remaining distance
  have hrd1 := near' R (v := T - c) (V := m * A.height + A.height / 2) S.q.ge (e := 2 * eta) (by
    rw [show T - c - (m * A.height + A.height / 2) = (T - (A.yMin + A.nRow * A.height)) -
      (c - (A.yMin + ((i : K) + 1 / 2) * A.height)) by rw [hm]; ring]
    exact (abs_sub _ _).trans (by linarith)) (by
    rw [abs_of_nonneg (by linarith)]
    have := abs_nonneg A.yMin
    have : (m + i + 1) * A.height = A.nRow * A.height := by rw [hm]; ring
    linarith) (eta := 2 * eta) le_rfl
  have hrd := near' R (v := F.rnd (T - c) - H2) (V := m * A.height) S.q.ge (e := 3 * eta) (by
    rw [show F.rnd (T - c) - H2 - m * A.height = (F.rnd (T - c) - (m * A.height + A.height / 2)) -
      (H2 - A.height / 2) by ring]
    exact (abs_sub _ _).trans (by linarith)) (by
    rw [abs_of_nonneg (by linarith)]; exact hmM) (eta := 3 * eta) le_rfl
  generalize F.rnd (y - c) = d at *
  -- the offset
  have ho := near' R (v := d - H2) (V := s) S.q.ge (e := 2 * eta) (by
    rw [show d - H2 - s = (d - (s + A.height / 2)) - (H2 - A.height / 2) by ring]
    exact (abs_sub _ _).trans (by linarith)) (by
    rw [abs_of_nonneg (by linarith)]; linarith) (eta := 2 * eta) le_rfl
  generalize F.rnd (F.rnd (T - c) - H2) = rd at *
  generalize F.rnd (d - H2) = o at *
  rw [abs_le] at hd hP hH hrd ho
  have ep : 0 < eta := by linarith [S.pos]
  have d0 : 0 < d := by linarith [hd.1]
  rw [abs_of_pos d0]
  rw [if_neg (show ¬ d ≤ P2 by linarith [hd.1, hP.2]), if_neg (show ¬ d ≤ H2 by linarith [hd.1, hH.2])]
  have dn : ¬ d < 0 := by linarith
  simp only [if_neg dn]
  have ho0 : 0 < o := by linarith [ho.1]
  have hrd0 : 0 < rd := by linarith [hrd.1]
  rw [if_neg hrd0.ne', hmc]
  obtain ⟨g1, g2⟩ := guess R ho0 hrd0 (m := m) (by linarith) (by
    have e1 : o ≤ A.height - 7 * eta := by linarith [ho.2]
    have e2 : m * o ≤ m * (A.height - 7 * eta) := mul_le_mul_of_nonneg_left e1 (by linarith)
    have e3 : (1 + u) * (m * o) ≤ (1 + u) * (m * (A.height - 7 * eta)) := mul_le_mul_of_nonneg_left e2 (by linarith)
    have e4 : (1 + u) * (m * (A.height - 7 * eta)) =
      m * A.height + m * (u * A.height) - 7 * (m * eta) - u * (7 * (m * eta)) := by ring
    have e5 : m * (u * A.height) ≤ m * (eta / 2) := mul_le_mul_of_nonneg_left (by linarith) (by linarith)
    have e6 : 0 ≤ u * (7 * (m * eta)) := mul_nonneg hu0 (mul_nonneg (by norm_num) (mul_nonneg (by linarith) h2))
    have e7 : eta ≤ m * eta := by
      have := mul_le_mul_of_nonneg_right hm1 h2
      linarith
    linarith [hrd.1])
  generalize F.rnd (m * F.rnd (o / rd)) = p at *
  have pn : ¬ p < 0 := by linarith
  rw [if_neg pn, show ⌈p⌉ = 1 by rw [Int.ceil_eq_iff]; push_cast; constructor <;> linarith]
  rw [toInt_int (by norm_num), Res.bind_ok]
  rfl

/-- From the row above. -/
theorem pass_above (R : Rounded F u) (S : Scale A u q eta) (B : Built F A L) (h0 : 1 ≤ i) (hi' : i < A.nRow)
    (hy : |y - A.yCenter (i - 1)| ≤ A.padHeight / 2 - 10 * eta) : pass F L y i = .ok (.next (i - 1)) := by
  obtain ⟨hs, hr⟩ := y_range S (by omega) (by omega) B.higher hy
  have hd := disp_near R S (by omega) hi' hr
  have hc := center_near R S (by omega) hi'
  have hP := half_near R S B.padHeight B.higher
  have hH := half_near R S S.h.le le_rfl
  have h2 : 0 ≤ eta := by linarith [S.q0, S.q_le]
  have hq := S.q_le
  have hh := S.h
  have h0' : (1 : K) ≤ i := by exact_mod_cast h0
  have hi2 : (i : K) + 1 ≤ A.nRow := by exact_mod_cast hi'
  have hu0 := R.nonneg
  have hu := R.small
  have hhq := S.hq
  have hph := B.higher
  have hph0 := B.padHeight
  unfold pass
  rw [elemUb_of (B.row i (by omega) hi'), Res.bind_ok]
  dsimp only
  unfold Arith.sub Arith.div Arith.mul Arith.add
  rw [B.yMin]
  unfold Args.yCenter at *
  obtain ⟨s, hse⟩ : ∃ s, s = A.yMin + i * A.height - y := ⟨_, rfl⟩
  push_cast at hs
  have s1 : 10 * eta ≤ s := by linarith [hs.2]
  have s2 : s ≤ A.height - 10 * eta := by linarith [hs.1]
  have hiM : (i : K) * A.height + A.height ≤ |A.yMin| + A.nRow * A.height := by
    have := abs_nonneg A.yMin
    have := mul_le_mul_of_nonneg_right hi2 hh.le
    linarith
  have hhm : A.height ≤ i * A.height := by
    have := mul_le_mul_of_nonneg_right h0' hh.le
    linarith
  generalize F.rnd (edge F A.yMin A.height i.toNat + F.rnd (A.height / 2)) = c at *
  generalize F.rnd (A.height / 2) = H2 at *
  generalize F.rnd (A.padHeight / 2) = P2 at *
  rw [show y - (A.yMin + ((i : K) + 1 / 2) * A.height) = -(s + A.height / 2) by rw [hse]; ring] at hd
  -- the remaining distance
  have hrd1 := near' R (v := c - A.yMin) (V := i * A.height + A.height / 2) S.q.ge (e := 2 * eta) (by
    rw [show c - A.yMin - (i * A.height + A.height / 2) = c - (A.yMin + ((i : K) + 1 / 2) * A.height) by ring]
    linarith) (by
    rw [abs_of_nonneg (by linarith)]
    linarith) (eta := 2 * eta) le_rfl
  have hrd := near' R (v := F.rnd (c - A.yMin) - H2) (V := i * A.height) S.q.ge (e := 3 * eta) (by
    rw [show F.rnd (c - A.yMin) - H2 - i * A.height = (F.rnd (c - A.yMin) - (i * A.height + A.height / 2)) -
      (H2 - A.height / 2) by ring]
    exact (abs_sub _ _).trans (by linarith)) (by
    rw [abs_of_nonneg (by linarith)]; linarith) (eta := 3 * eta) le_rfl
  generalize F.rnd (y - c) = d at *
  -- the offset
  have ho := near' R (v := d + H2) (V := -s) S.q.ge (e := 2 * eta) (by
    rw [show d + H2 - -s = (d - -(s + A.height / 2)) + (H2 - A.height / 2) by ring]
    exact (abs_add_le _ _).trans (by linarith)) (by
    rw [abs_neg, abs_of_nonneg (by linarith)]; linarith) (eta := 2 * eta) le_rfl
  generalize F.rnd (F.rnd (c - A.yMin) - H2) = rd at *
  generalize F.rnd (d + H2) = o at *
  rw [abs_le] at hd hP hH hrd ho
  have ep : 0 < eta := by linarith [S.pos]
  have d0 : d < 0 := by linarith [hd.2]
  rw [abs_of_neg d0]
  rw [if_neg (show ¬ -d ≤ P2 by linarith [hd.2, hP.2]), if_neg (show ¬ -d ≤ H2 by linarith [hd.2, hH.2])]
  simp only [if_pos d0]
  have ho0 : o < 0 := by linarith [ho.2]
  have hrd0 : 0 < rd := by linarith [hrd.1]
  rw [if_neg hrd0.ne']
  obtain ⟨g1, g2⟩ := guess_neg R ho0 hrd0 (m := (i : K)) (by linarith) (by
    have e1 : -o ≤ A.height - 7 * eta := by linarith [ho.1]
    have e2 : i * (-o) ≤ i * (A.height - 7 * eta) := mul_le_mul_of_nonneg_left e1 (by linarith)
    have e3 : (1 + u) * (i * (-o)) ≤ (1 + u) * (i * (A.height - 7 * eta)) := mul_le_mul_of_nonneg_left e2 (by linarith)
    have e4 : (1 + u) * (i * (A.height - 7 * eta)) =
      i * A.height + i * (u * A.height) - 7 * (i * eta) - u * (7 * (i * eta)) := by ring
    have e5 : i * (u * A.height) ≤ i * (eta / 2) := mul_le_mul_of_nonneg_left (by linarith) (by linarith)
    have e6 : 0 ≤ u * (7 * (i * eta)) := mul_nonneg hu0 (mul_nonneg (by norm_num) (mul_nonneg (by linarith) h2))
    have e7 : eta ≤ i * eta := by
      have := mul_le_mul_of_nonneg_right h0' h2
      linarith
    linarith [hrd.1])
  generalize F.rnd (i * F.rnd (o / rd)) = p at *
  rw [if_pos g1, show ⌊p⌋ = -1 by rw [Int.floor_eq_iff]; push_cast; constructor <;> linarith]
  rw [toInt_int (by norm_num), Res.bind_ok]
  rfl

/-- The first guess is at most one row away. -/
theorem startRow_core (R : Rounded F u) (S : Scale A u q eta) (B : Built F A L) (hn : A.nRow ≤ 65536) (h0 : 0 ≤ i)
    (hi : i < A.nRow) (eh : 20 * eta ≤ A.height) (y1 : A.yMin + i * A.height ≤ y)
    (y2 : y ≤ A.yMin + (i + 1) * A.height + eta) :
    ∃ r, startRow F L y = .ok r ∧ (0 ≤ r ∧ r < A.nRow) ∧ (r = i ∨ r + 1 = i ∨ r = i + 1) := by
  have hT := top_near R S B.rows
  have h2 : 0 ≤ eta := by linarith [S.q0, S.q_le]
  have ep : 0 < eta := by linarith [S.pos, S.q_le]
  have hq := S.q_le
  have hh := S.h
  have h0' : (0 : K) ≤ i := by exact_mod_cast h0
  have hi2 : (i : K) + 1 ≤ A.nRow := by exact_mod_cast hi
  have hu0 := R.nonneg
  have hu := R.small
  have hku := S.ku A.nRow.toNat (by omega)
  have hn1 := S.n1
  have e : ((A.nRow.toNat : ℕ) : K) = (A.nRow : K) := by
    exact_mod_cast congrArg (Int.cast (R := K)) (Int.toNat_of_nonneg B.rows.le)
  rw [e] at hku
  have hlen : (L.rows.length : K) = (A.nRow : K) := by exact_mod_cast congrArg (Int.cast (R := K)) B.length
  unfold startRow
  unfold Arith.sub Arith.div Arith.mul
  rw [B.yMax, B.yMin, hlen]
  dsimp only
  generalize edge F A.yMin A.height A.nRow.toNat = T at *
  obtain ⟨a, ha⟩ : ∃ a, a = y - A.yMin := ⟨_, rfl⟩
  rw [← ha]
  have a1 : i * A.height ≤ a := by rw [ha]; linarith
  have a0 : 0 ≤ a := (mul_nonneg h0' hh.le).trans a1
  have a2 : a ≤ (i + 1) * A.height + eta := by rw [ha]; linarith
  have a3 : a ≤ A.nRow * A.height + eta := by
    have := mul_le_mul_of_nonneg_right hi2 hh.le
    linarith
  have hNh : A.height ≤ A.nRow * A.height := by
    have := mul_le_mul_of_nonneg_right hn1 hh.le
    linarith
  have hD := near' R (v := T - A.yMin) (V := A.nRow * A.height) S.q.ge (e := eta) (by
    rw [show T - A.yMin - A.nRow * A.height = T - (A.yMin + A.nRow * A.height) by ring]; exact hT) (by
    rw [abs_of_nonneg (by linarith)]; linarith [abs_nonneg A.yMin]) (eta := eta) le_rfl
  generalize F.rnd (T - A.yMin) = D at *
  rw [abs_le] at hD
  have hD0 : 0 < D := by linarith [hD.1]
  rw [if_neg hD0.ne']
  obtain ⟨b1, b2⟩ := R.rounding.bounds a0
  have b0 := R.rounding.nonneg a0
  have hN0 : 0 ≤ (A.nRow : K) - 1 := by linarith
  have c0 : 0 ≤ ((A.nRow : K) - 1) * F.rnd a := mul_nonneg hN0 b0
  obtain ⟨c1, c2⟩ := R.rounding.bounds c0
  have c0 := R.rounding.nonneg c0
  have d0 := div_nonneg c0 hD0.le
  obtain ⟨d1, d2⟩ := R.rounding.bounds d0
  have d0 := R.rounding.nonneg d0
  have v1 : F.rnd (F.rnd (((A.nRow : K) - 1) * F.rnd a) / D) * D ≤ (1 + 4 * u) * (((A.nRow : K) - 1) * a) := by
    have g1 := mul_le_mul_of_nonneg_right d2 hD0.le
    rw [mul_assoc, div_mul_cancel₀ _ hD0.ne'] at g1
    refine g1.trans ?_
    have g2 : F.rnd (((A.nRow : K) - 1) * F.rnd a) ≤ (1 + u) * (((A.nRow : K) - 1) * ((1 + u) * a)) :=
      c2.trans (mul_le_mul_of_nonneg_left (mul_le_mul_of_nonneg_left b2 hN0) (by linarith))
    refine (mul_le_mul_of_nonneg_left g2 (by linarith)).trans ?_
    have g3 : 0 ≤ ((A.nRow : K) - 1) * a := mul_nonneg hN0 a0
    have g4 : (1 + u) * ((1 + u) * (1 + u)) ≤ 1 + 4 * u := by
      have k1 := mul_le_mul_of_nonneg_right hu hu0
      have k2 := mul_le_mul_of_nonneg_right k1 hu0
      linarith
    have := mul_le_mul_of_nonneg_right g4 g3
    linarith
  have v2 : (1 - 3 * u) * (((A.nRow : K) - 1) * a) ≤ F.rnd (F.rnd (((A.nRow : K) - 1) * F.rnd a) / D) * D := by
    have g1 := mul_le_mul_of_nonneg_right d1 hD0.le
    rw [mul_assoc, div_mul_cancel₀ _ hD0.ne'] at g1
    refine le_trans ?_ g1
    have g2 : (1 - u) * (((A.nRow : K) - 1) * ((1 - u) * a)) ≤ F.rnd (((A.nRow : K) - 1) * F.rnd a) :=
      le_trans (mul_le_mul_of_nonneg_left (mul_le_mul_of_nonneg_left b1 hN0) (by linarith)) c1
    refine le_trans ?_ (mul_le_mul_of_nonneg_left g2 (by linarith))
    have g3 : 0 ≤ ((A.nRow : K) - 1) * a := mul_nonneg hN0 a0
    have g4 : 1 - 3 * u ≤ (1 - u) * ((1 - u) * (1 - u)) := by
      have k1 := mul_nonneg hu0 hu0
      have k2 := mul_le_mul_of_nonneg_right hu k1
      linarith
    have := mul_le_mul_of_nonneg_right g4 g3
    linarith
  generalize F.rnd (F.rnd (((A.nRow : K) - 1) * F.rnd a) / D) = v at *
  have ua : 2 * A.nRow * u * a ≤ 1 / 50 * a := mul_le_mul_of_nonneg_right hku a0
  have hua : 0 ≤ u * a := mul_nonneg hu0 a0
  have w1 : v < i + 3 / 2 := by
    by_contra hc
    have g1 := mul_le_mul_of_nonneg_right (not_lt.1 hc) hD0.le
    have g2 : (i + 3 / 2) * (A.nRow * A.height - 1 / 10 * A.height) ≤ (i + 3 / 2) * D :=
      mul_le_mul_of_nonneg_left (by linarith [hD.1]) (by linarith)
    have g3 := mul_le_mul_of_nonneg_left a2 hN0
    have g4 : 0 ≤ (i : K) * A.height := mul_nonneg h0' hh.le
    have g5 := mul_le_mul_of_nonneg_left eh hN0
    linarith
  have w2 : v < A.nRow - 1 / 2 := by
    by_contra hc
    have g1 := mul_le_mul_of_nonneg_right (not_lt.1 hc) hD0.le
    have g2 : ((A.nRow : K) - 1 / 2) * (A.nRow * A.height - 1 / 10 * A.height) ≤ ((A.nRow : K) - 1 / 2) * D :=
      mul_le_mul_of_nonneg_left (by linarith [hD.1]) (by linarith)
    have g3 := mul_le_mul_of_nonneg_left a3 hN0
    have g5 := mul_le_mul_of_nonneg_left eh hN0
    linarith
  have w3 : i - 3 / 2 ≤ v := by
    by_contra hc
    rcases lt_or_ge ((i : K) - 3 / 2) 0 with h | h
    · linarith
    · have g1 := mul_le_mul_of_nonneg_right (not_le.1 hc).le hD0.le
      have g2 : ((i : K) - 3 / 2) * D ≤ ((i : K) - 3 / 2) * (A.nRow * A.height + 1 / 10 * A.height) :=
        mul_le_mul_of_nonneg_left (by linarith [hD.2]) h
      have g3 := mul_le_mul_of_nonneg_left a1 (show (0 : K) ≤ A.nRow - 103 / 100 by linarith)
      have g4 : (i : K) * A.height + A.height ≤ A.nRow * A.height := by
        have := mul_le_mul_of_nonneg_right hi2 hh.le
        linarith
      linarith
  have hround : roundInt v = ⌊v + 1 / 2⌋ := by unfold roundInt; rw [if_pos d0]
  have r0 : 0 ≤ ⌊v + 1 / 2⌋ := Int.floor_nonneg.2 (by linarith)
  have r1 : ⌊v + 1 / 2⌋ < A.nRow := Int.floor_lt.2 (by linarith)
  have r2 : ⌊v + 1 / 2⌋ < i + 2 := Int.floor_lt.2 (by push_cast; linarith)
  have r3 : i - 1 ≤ ⌊v + 1 / 2⌋ := Int.le_floor.2 (by push_cast; linarith)
  rw [hround]
  exact ⟨_, toInt_int (by omega), ⟨r0, r1⟩, by omega⟩

/-- The first guess for a point that is not too near to the edges of the pads. -/
theorem startRow_near (R : Rounded F u) (S : Scale A u q eta) (B : Built F A L) (hn : A.nRow ≤ 65536) (h0 : 0 ≤ i)
    (hi : i < A.nRow) (hy : |y - A.yCenter i| ≤ A.padHeight / 2 - 10 * eta) :
    ∃ r, startRow F L y = .ok r ∧ (0 ≤ r ∧ r < A.nRow) ∧ (r = i ∨ r + 1 = i ∨ r = i + 1) := by
  obtain ⟨hs, -⟩ := y_range S h0 hi B.higher hy
  have h2 : 0 ≤ eta := by linarith [S.q0, S.q_le]
  exact startRow_core R S B hn h0 hi (by linarith [hs.1, hs.2]) (by linarith [hs.1]) (by linarith [hs.2])

/-- Two passes find the row of the point. -/
theorem search_near (R : Rounded F u) (S : Scale A u q eta) (B : Built F A L) (hn : A.nRow ≤ 65536) (h0 : 0 ≤ i)
    (hi : i < A.nRow) (hy : |y - A.yCenter i| ≤ A.padHeight / 2 - 10 * eta) :
    ∃ r, startRow F L y = .ok r ∧ ∀ fuel, 2 ≤ fuel → search F L y fuel r = some (.ok i) := by
  obtain ⟨r, h1, h2, h3⟩ := startRow_near R S B hn h0 hi hy
  refine ⟨r, h1, fun fuel hf => ?_⟩
  obtain ⟨f, rfl⟩ : ∃ f, fuel = f + 2 := ⟨fuel - 2, by omega⟩
  have here := pass_here R S B h0 hi hy
  rcases h3 with h3 | h3 | h3
  · rw [h3, search, here]
  · rw [search, pass_below R S B hn h2.1 (by omega) (by rw [h3]; exact hy)]
    dsimp only
    rw [h3, search, here]
  · rw [search, pass_above R S B (by omega) h2.2 (by rw [h3, add_sub_cancel_right]; exact hy)]
    dsimp only
    rw [h3, add_sub_cancel_right, search, here]

end

end Gear.Rect.Double
