/-
Lemmas about `FixedPadAngleDiskLayout` with the arithmetic of `double`.
-/
import Verif.PadAngleDouble
import Verif.PadAngleSpec
import Verif.DoublesGrid
import Verif.PadIndexLemmas
import Verif.DiskLemmas

set_option autoImplicit false
set_option linter.unusedSectionVars false

namespace Gear.PadAngle.Double

open PadIndex Disk Doubles Spec
open MaterialMap (Arith binary64)

variable {K : Type} [Field K] [LinearOrder K] [IsStrictOrderedRing K] [FloorRing K]
variable {F : Arith K} {u : K} {A : Args K} {L : Layout K}

/-- The layout that the constructor makes. -/
structure Built (F : Arith K) (A : Args K) (L : Layout K) : Prop where
  rMin : L.rMin = A.rMin
  nRow : L.nRow = A.nRow
  phiMin : L.phiMin = A.phiMin
  phiMax : L.phiMax = A.phiMax
  nPads : L.nPadsInRow = A.nPads
  rowHeight : L.rowHeight = F.rnd (F.rnd (A.rMax - A.rMin) / A.nRow)
  padAngle : L.padAngle = F.rnd (F.rnd (A.phiMax - A.phiMin) / A.nPads)

theorem built (h : new F A.rMin A.rMax A.nRow A.phiMin A.phiMax A.nPads = .ok L) : Built F A L := by
  unfold new at h
  split at h
  · cases h
  · cases h; exact ⟨rfl, rfl, rfl, rfl, rfl, rfl, rfl⟩

theorem toInt_nonneg {x : K} (h0 : 0 ≤ x) (h1 : x < 2147483648) : toInt x = .ok ⌊x⌋ := by
  unfold toInt truncInt
  rw [if_pos h0]
  have a : 0 ≤ ⌊x⌋ := Int.floor_nonneg.2 h0
  have b : ⌊x⌋ < 2147483648 := by
    rw [Int.floor_lt]; exact_mod_cast h1
  rw [if_pos ⟨by omega, by omega⟩]

theorem floorInt_nonneg {x : K} (h0 : 0 ≤ x) (h1 : x < 2147483648) : floorInt x = .ok ⌊x⌋ := by
  unfold floorInt
  have a : 0 ≤ ⌊x⌋ := Int.floor_nonneg.2 h0
  have b : ((⌊x⌋ : ℤ) : K) ≤ x := Int.floor_le x
  rw [toInt_nonneg (by exact_mod_cast a) (b.trans_lt h1), Int.floor_intCast]

theorem index_ok (B : Built F A L) (hA : A.Proper) {row pad : ℤ} (h : A.IsPad row pad) :
    ∃ p, getPadIndex L row pad = .ok p ∧ getRowNumber p = row ∧ getPadNumber p = pad := by
  obtain ⟨⟨a0, a1⟩, b0, b1⟩ := h
  obtain ⟨p, hp⟩ := encode_isOk (row := row) pad a0 (by have := hA.rows.2; omega)
  refine ⟨p, ?_, rowBits_encode hp, padBits_encode' hp b0 (by have := hA.pads.2; omega)⟩
  unfold getPadIndex
  rw [B.nRow, B.nPads, if_neg (by omega), if_neg (by omega), hp]

/-- An angle in the range that no loop changes. -/
theorem loops_id {fuel : ℕ} {lo hi phi : K} (h1 : lo ≤ phi) (h2 : phi ≤ hi) :
    loopUp F lo (fuel + 1) phi = some phi ∧ loopDown F hi (fuel + 1) phi = some phi := by
  unfold loopUp loopDown
  exact ⟨if_neg (not_lt.2 h1), if_neg (not_lt.2 h2)⟩

/-- The rounded middle of the angles. -/
theorem mean_near (R : Rounding F.rnd u) (hu0 : 0 ≤ u) (hu : u ≤ 1 / 1000) (a b : K) :
    |F.div (F.add a b) 2 - (a + b) / 2| ≤ 11 / 10 * u * (|a| + |b|) := by
  unfold Arith.div Arith.add
  have h1 := R.err (a + b)
  have h2 := R.err (F.rnd (a + b) / 2)
  have h3 := abs_add_le a b
  have h4 := R.abs_le (a + b)
  obtain ⟨x, hx⟩ : ∃ x, x = F.rnd (a + b) := ⟨_, rfl⟩
  rw [← hx] at h1 h2 h4 ⊢
  have e : |x / 2| = |x| / 2 := by rw [abs_div, abs_two]
  rw [e] at h2
  have k : |F.rnd (x / 2) - (a + b) / 2| ≤ |F.rnd (x / 2) - x / 2| + |x - (a + b)| / 2 := by
    have := abs_add_le (F.rnd (x / 2) - x / 2) ((x - (a + b)) / 2)
    rw [show |(x - (a + b)) / 2| = |x - (a + b)| / 2 by rw [abs_div, abs_two]] at this
    refine le_trans (le_of_eq ?_) this
    congr 1; ring
  obtain ⟨s, hs⟩ : ∃ s, s = |a + b| := ⟨_, rfl⟩
  rw [← hs] at h1 h3 h4
  have hs0 : 0 ≤ s := by rw [hs]; exact abs_nonneg _
  have l1 : u * |x| ≤ u * ((1 + u) * s) := mul_le_mul_of_nonneg_left h4 hu0
  have l2 : u * s ≤ u * (|a| + |b|) := mul_le_mul_of_nonneg_left h3 hu0
  have l3 : u * (u * s) ≤ 1 / 1000 * (u * s) := mul_le_mul_of_nonneg_right hu (mul_nonneg hu0 hs0)
  have l4 : 0 ≤ u * s := mul_nonneg hu0 hs0
  have l5 : u * ((1 + u) * s) = u * s + u * (u * s) := by ring
  have l6 : u * (|x| / 2) = u * |x| / 2 := by ring
  linarith

/-- An angle in the segment, a little inside, is not changed by the loops. -/
theorem in_range (R : Rounding F.rnd u) (hu0 : 0 ≤ u) (hu : u ≤ 1 / 1000) (hpi : 0 ≤ F.pi) {a b phi : K}
    (hspan : b - a ≤ 2 * F.pi) (h1 : a + 8 * u * (|a| + |b| + F.pi) ≤ phi)
    (h2 : phi ≤ b - 8 * u * (|a| + |b| + F.pi)) :
    F.sub (F.div (F.add b a) 2) F.pi ≤ phi ∧ phi ≤ F.add (F.div (F.add b a) 2) F.pi := by
  have hm := mean_near R hu0 hu b a
  rw [_root_.abs_le] at hm
  generalize F.div (F.add b a) 2 = m at hm ⊢
  unfold Arith.sub Arith.add
  have e1 := R.err (m - F.pi)
  have e2 := R.err (m + F.pi)
  rw [_root_.abs_le] at e1 e2
  have ha := abs_nonneg a
  have hb := abs_nonneg b
  obtain ⟨S, hS⟩ : ∃ S, S = |a| + |b| := ⟨_, rfl⟩
  rw [← hS] at h1 h2
  rw [show |b| + |a| = S by rw [hS, add_comm]] at hm
  have hS0 : 0 ≤ S := by rw [hS]; linarith
  have huS : 0 ≤ u * S := mul_nonneg hu0 hS0
  have hup : 0 ≤ u * F.pi := mul_nonneg hu0 hpi
  have huuS : u * (u * S) ≤ 1 / 1000 * (u * S) := mul_le_mul_of_nonneg_right hu huS
  have hmS : |m| ≤ S / 2 + 11 / 10 * (u * S) := by
    have : |b + a| ≤ S := by rw [hS, add_comm]; exact abs_add_le a b
    rw [_root_.abs_le] at this ⊢
    constructor <;> linarith [this.1, this.2, hm.1, hm.2]
  have t1 : |m - F.pi| ≤ |m| + F.pi := by
    have := abs_sub m F.pi; rwa [abs_of_nonneg hpi] at this
  have t2 : |m + F.pi| ≤ |m| + F.pi := by
    have := abs_add_le m F.pi; rwa [abs_of_nonneg hpi] at this
  have w : u * (|m| + F.pi) ≤ 6 / 10 * (u * S) + u * F.pi := by
    have : u * |m| ≤ u * (S / 2 + 11 / 10 * (u * S)) := mul_le_mul_of_nonneg_left hmS hu0
    nlinarith
  have w1 : u * |m - F.pi| ≤ 6 / 10 * (u * S) + u * F.pi := (mul_le_mul_of_nonneg_left t1 hu0).trans w
  have w2 : u * |m + F.pi| ≤ 6 / 10 * (u * S) + u * F.pi := (mul_le_mul_of_nonneg_left t2 hu0).trans w
  constructor <;> nlinarith

/-! ### Loops with rounding -/

/-- A loop that adds a full turn ends if the angle is not so large that a turn is lost in the rounding. -/
theorem loopUp_ends (R : Rounding F.rnd u) (hu0 : 0 ≤ u) (hu : u ≤ 1 / 1000) (hp1 : 3 ≤ F.pi) (hp2 : F.pi ≤ 4) {lo M : K}
    (hM : u * (M + 9) ≤ 1 / 2) (hlo : |lo| ≤ M) :
    ∀ (n : ℕ) (phi : K), -M ≤ phi → lo - phi ≤ 5 * n → ∀ m, n + 1 ≤ m →
      ∃ phi', loopUp F lo m phi = some phi' ∧ lo ≤ phi' ∧ phi ≤ phi' ∧ phi' ≤ max phi (lo + 9) := by
  have t := R.bounds (x := 2 * F.pi) (by linarith)
  have t1 : 59 / 10 ≤ F.mul 2 F.pi := by unfold Arith.mul; nlinarith
  have t2 : F.mul 2 F.pi ≤ 81 / 10 := by unfold Arith.mul; nlinarith
  rw [_root_.abs_le] at hlo
  intro n
  induction n with
  | zero =>
    intro phi _ h m hm
    obtain ⟨k, rfl⟩ : ∃ k, m = k + 1 := ⟨m - 1, by omega⟩
    push_cast at h
    unfold loopUp
    rw [if_neg (by linarith)]
    exact ⟨phi, rfl, by linarith, le_rfl, le_max_left _ _⟩
  | succ n ih =>
    intro phi hphi h m hm
    obtain ⟨k, rfl⟩ : ∃ k, m = k + 1 := ⟨m - 1, by omega⟩
    unfold loopUp
    by_cases hc : phi < lo
    · rw [if_pos hc]
      have e := R.err (phi + F.mul 2 F.pi)
      have ha : |phi + F.mul 2 F.pi| ≤ M + 9 := by rw [_root_.abs_le]; constructor <;> linarith
      have hb : u * |phi + F.mul 2 F.pi| ≤ 1 / 2 := (mul_le_mul_of_nonneg_left ha hu0).trans hM
      rw [_root_.abs_le] at e
      obtain ⟨phi', e1, e2, e3, e4⟩ := ih (F.add phi (F.mul 2 F.pi)) (by unfold Arith.add; linarith [e.1])
        (by unfold Arith.add; push_cast at h; linarith [e.1]) k (by omega)
      refine ⟨phi', e1, e2, ?_, ?_⟩
      · refine le_trans ?_ e3; unfold Arith.add; linarith [e.1]
      · refine e4.trans (max_le ?_ (le_max_right _ _))
        refine le_trans ?_ (le_max_right _ _)
        unfold Arith.add; linarith [e.2]
    · rw [if_neg hc]
      exact ⟨phi, rfl, not_lt.1 hc, le_rfl, le_max_left _ _⟩

theorem loopDown_ends (R : Rounding F.rnd u) (hu0 : 0 ≤ u) (hu : u ≤ 1 / 1000) (hp1 : 3 ≤ F.pi) (hp2 : F.pi ≤ 4) {hi M : K}
    (hM : u * (M + 9) ≤ 1 / 2) (hhi : |hi| ≤ M) :
    ∀ (n : ℕ) (phi : K), phi ≤ M → phi - hi ≤ 5 * n → ∀ m, n + 1 ≤ m →
      ∃ phi', loopDown F hi m phi = some phi' ∧ phi' ≤ hi := by
  have t := R.bounds (x := 2 * F.pi) (by linarith)
  have t1 : 59 / 10 ≤ F.mul 2 F.pi := by unfold Arith.mul; nlinarith
  have t2 : F.mul 2 F.pi ≤ 81 / 10 := by unfold Arith.mul; nlinarith
  rw [_root_.abs_le] at hhi
  intro n
  induction n with
  | zero =>
    intro phi _ h m hm
    obtain ⟨k, rfl⟩ : ∃ k, m = k + 1 := ⟨m - 1, by omega⟩
    push_cast at h
    unfold loopDown
    rw [if_neg (by linarith)]
    exact ⟨phi, rfl, by linarith⟩
  | succ n ih =>
    intro phi hphi h m hm
    obtain ⟨k, rfl⟩ : ∃ k, m = k + 1 := ⟨m - 1, by omega⟩
    unfold loopDown
    by_cases hc : phi > hi
    · rw [if_pos hc]
      have e := R.err (phi - F.mul 2 F.pi)
      have ha : |phi - F.mul 2 F.pi| ≤ M + 9 := by rw [_root_.abs_le]; constructor <;> linarith
      have hb : u * |phi - F.mul 2 F.pi| ≤ 1 / 2 := (mul_le_mul_of_nonneg_left ha hu0).trans hM
      rw [_root_.abs_le] at e
      exact ih (F.sub phi (F.mul 2 F.pi)) (by unfold Arith.sub; linarith [e.2])
        (by unfold Arith.sub; push_cast at h; linarith [e.2]) k (by omega)
    · rw [if_neg hc]
      exact ⟨phi, rfl, not_lt.1 hc⟩

/-- A loop in which a full turn is lost in the rounding does not end. -/
theorem loopUp_endless {lo phi : K} (h : phi < lo) (hs : F.add phi (F.mul 2 F.pi) = phi) (n : ℕ) :
    loopUp F lo n phi = none := by
  induction n with
  | zero => rfl
  | succ n ih => rw [loopUp, if_pos h, hs, ih]

theorem loopDown_endless {hi phi : K} (h : hi < phi) (hs : F.sub phi (F.mul 2 F.pi) = phi) (n : ℕ) :
    loopDown F hi n phi = none := by
  induction n with
  | zero => rfl
  | succ n ih => rw [loopDown, if_pos h, hs, ih]

/-! ### Rows -/

theorem rowOf_spec (R : Rounding F.rnd u) (hu0 : 0 ≤ u) (hu : u ≤ 1 / 1000) (B : Built F A L) (hA : A.Proper) {below : Bool}
    {r : K} (h : below = false → A.rMin ≤ r) (hr : r - A.rMin ≤ 2 ^ 30 * A.dr) :
    ∃ row, rowOf F L below r = .ok row ∧ 0 ≤ row ∧ row < A.nRow := by
  have hrow := hA.rows
  unfold rowOf
  cases below with
  | true =>
    simp only [if_true, Res.bind_ok, B.nRow]
    rw [if_neg (by omega)]
    exact ⟨0, rfl, le_rfl, hrow.1⟩
  | false =>
    have hx := h rfl
    have hq := (R.quotient hu0 hu hA.r hrow.1 hx (c := 2147483648) (by norm_num)).2
    have hn' : (0 : K) < A.nRow := by exact_mod_cast hrow.1
    have hd : 0 < A.dr := div_pos (by linarith [hA.r]) hn'
    have hlt := hq (by
      change _ < 2147483648 * ((1 - u) * (1 - u) * A.dr)
      have h1 : (1 + u) * (1 + u) ≤ 11 / 10 := by nlinarith
      have h2 : 9 / 10 ≤ (1 - u) * (1 - u) := by nlinarith
      have h3 : 0 ≤ r - A.rMin := by linarith
      have h4 : (1 + u) * (1 + u) * (r - A.rMin) ≤ 11 / 10 * (2 ^ 30 * A.dr) :=
        mul_le_mul h1 hr h3 (by norm_num)
      have h5 : 9 / 10 * A.dr ≤ (1 - u) * (1 - u) * A.dr := mul_le_mul_of_nonneg_right h2 hd.le
      rw [← mul_assoc]
      linarith)
    have h0 : 0 ≤ F.rnd (F.rnd (r - A.rMin) / F.rnd (F.rnd (A.rMax - A.rMin) / A.nRow)) :=
      R.nonneg (div_nonneg (R.nonneg (by linarith)) (R.size hu0 hu hA.r hrow.1).2.2.le)
    have hf : floorInt (F.div (F.sub r L.rMin) L.rowHeight) =
        .ok ⌊F.rnd (F.rnd (r - A.rMin) / F.rnd (F.rnd (A.rMax - A.rMin) / A.nRow))⌋ := by
      rw [B.rMin, B.rowHeight]
      exact floorInt_nonneg h0 hlt
    simp only [Bool.false_eq_true, if_false, hf, Res.bind_ok, B.nRow]
    have := Int.floor_nonneg.2 h0
    split_ifs with hc
    · exact ⟨_, rfl, by omega, by omega⟩
    · exact ⟨_, rfl, by omega, by omega⟩

/-- The computed radius at which the point is projected on an edge is at most a little larger than the radius. -/
theorem rIntersect_le (R : Rounding F.rnd u) (hu0 : 0 ≤ u) (hu : u ≤ 1 / 1000)
    (hcs : ∀ x, F.cos x ^ 2 + F.sin x ^ 2 = 1) {r : K} (hr : 0 ≤ r) (phi phiE : K) :
    rIntersect F r phi phiE ≤ (1 + 6 * u) * r := by
  have hu1 : (0 : K) ≤ 1 + u := by linarith
  have prod : ∀ a b : K, |F.mul (F.rnd a) (F.rnd b)| ≤ (1 + u) ^ 3 * (|a| * |b|) := by
    intro a b
    unfold Arith.mul
    have h1 := R.abs_le (F.rnd a * F.rnd b)
    have h2 : |F.rnd a * F.rnd b| ≤ ((1 + u) * |a|) * ((1 + u) * |b|) := by
      rw [abs_mul]
      exact mul_le_mul (R.abs_le a) (R.abs_le b) (abs_nonneg _) (mul_nonneg hu1 (abs_nonneg _))
    calc _ ≤ (1 + u) * |F.rnd a * F.rnd b| := h1
      _ ≤ (1 + u) * (((1 + u) * |a|) * ((1 + u) * |b|)) := mul_le_mul_of_nonneg_left h2 hu1
      _ = _ := by ring
  unfold rIntersect
  have p1 := prod (F.cos phi) (F.cos phiE)
  have p2 := prod (F.sin phi) (F.sin phiE)
  generalize F.mul (F.rnd (F.cos phi)) (F.rnd (F.cos phiE)) = x at p1 ⊢
  generalize F.mul (F.rnd (F.sin phi)) (F.rnd (F.sin phiE)) = y at p2 ⊢
  have hsum : |F.cos phi| * |F.cos phiE| + |F.sin phi| * |F.sin phiE| ≤ 1 := by
    have c1 := hcs phi
    have c2 := hcs phiE
    rw [← sq_abs (F.cos phi), ← sq_abs (F.sin phi)] at c1
    rw [← sq_abs (F.cos phiE), ← sq_abs (F.sin phiE)] at c2
    nlinarith [sq_nonneg (|F.cos phi| - |F.cos phiE|), sq_nonneg (|F.sin phi| - |F.sin phiE|)]
  have hu3 : (0 : K) ≤ (1 + u) ^ 3 := by positivity
  have hxy : |x + y| ≤ (1 + u) ^ 3 := by
    calc |x + y| ≤ |x| + |y| := abs_add_le x y
      _ ≤ (1 + u) ^ 3 * (|F.cos phi| * |F.cos phiE| + |F.sin phi| * |F.sin phiE|) := by linarith
      _ ≤ (1 + u) ^ 3 * 1 := mul_le_mul_of_nonneg_left hsum hu3
      _ = _ := mul_one _
  have hs : |F.add x y| ≤ (1 + u) ^ 4 := by
    calc _ ≤ (1 + u) * |x + y| := R.abs_le _
      _ ≤ (1 + u) * (1 + u) ^ 3 := mul_le_mul_of_nonneg_left hxy hu1
      _ = _ := by ring
  have hm : |F.mul r (F.add x y)| ≤ (1 + u) ^ 5 * r := by
    calc _ ≤ (1 + u) * |r * F.add x y| := R.abs_le _
      _ = (1 + u) * (r * |F.add x y|) := by rw [abs_mul, abs_of_nonneg hr]
      _ ≤ (1 + u) * (r * (1 + u) ^ 4) := mul_le_mul_of_nonneg_left (mul_le_mul_of_nonneg_left hs hr) hu1
      _ = _ := by ring
  have h5 : (1 + u) ^ 5 ≤ 1 + 6 * u := by
    have : u * u ≤ 1 / 1000 * u := mul_le_mul_of_nonneg_right hu hu0
    have h2 : (1 + u) ^ 2 ≤ 1 + 2001 / 1000 * u := by nlinarith
    have h4 : (1 + u) ^ 4 ≤ 1 + 401 / 100 * u := by
      have : (1 + u) ^ 4 ≤ (1 + 2001 / 1000 * u) * (1 + 2001 / 1000 * u) := by
        calc (1 + u) ^ 4 = (1 + u) ^ 2 * (1 + u) ^ 2 := by ring
          _ ≤ _ := mul_le_mul h2 h2 (by positivity) (by linarith)
      nlinarith
    calc (1 + u) ^ 5 = (1 + u) ^ 4 * (1 + u) := by ring
      _ ≤ (1 + 401 / 100 * u) * (1 + u) := mul_le_mul_of_nonneg_right h4 hu1
      _ ≤ _ := by nlinarith
  exact ((le_abs_self _).trans hm).trans (mul_le_mul_of_nonneg_right h5 hr)

end Gear.PadAngle.Double
