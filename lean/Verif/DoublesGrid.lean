/-
Lemmas about rounded arithmetic: the cell of a grid that a number is in, the centres of cells, and loops that add or
subtract a full turn.
-/
import Verif.Doubles

set_option autoImplicit false
set_option linter.unusedSectionVars false

namespace Gear.Doubles

open MaterialMap (binary64 roundEven)

variable {K : Type} [Field K] [LinearOrder K] [IsStrictOrderedRing K] [FloorRing K]
variable {rnd : K → K} {u : K}

namespace Rounding

theorem bounds (R : Rounding rnd u) {x : K} (hx : 0 ≤ x) : (1 - u) * x ≤ rnd x ∧ rnd x ≤ (1 + u) * x := by
  have := R.err x
  rw [abs_of_nonneg hx, abs_le] at this
  constructor <;> linarith [this.1, this.2]

theorem zero (R : Rounding rnd u) : rnd 0 = 0 := by
  have := R.err 0
  rw [abs_zero, mul_zero, sub_zero] at this
  exact abs_eq_zero.1 (le_antisymm this (abs_nonneg _))

theorem nonneg (R : Rounding rnd u) {x : K} (hx : 0 ≤ x) : 0 ≤ rnd x := by
  rw [← R.zero]; exact R.mono _ _ hx

theorem pos (R : Rounding rnd u) (hu : u < 1) {x : K} (hx : 0 < x) : 0 < rnd x :=
  lt_of_lt_of_le (mul_pos (by linarith) hx) (R.bounds hx.le).1

theorem abs_le (R : Rounding rnd u) (x : K) : |rnd x| ≤ (1 + u) * |x| := by
  have h := R.err x
  have := abs_sub_abs_le_abs_sub (rnd x) x
  linarith

/-- The rounded size of a cell, of `n` cells from `lo` to `hi`. -/
theorem size (R : Rounding rnd u) (hu0 : 0 ≤ u) (hu : u ≤ 1 / 1000) {lo hi : K} {n : ℤ} (hlt : lo < hi) (hn : 0 < n) :
    (1 - u) * (1 - u) * ((hi - lo) / n) ≤ rnd (rnd (hi - lo) / n) ∧
      rnd (rnd (hi - lo) / n) ≤ (1 + u) * (1 + u) * ((hi - lo) / n) ∧ 0 < rnd (rnd (hi - lo) / n) := by
  have hn' : (0 : K) < n := by exact_mod_cast hn
  have hD : 0 < hi - lo := by linarith
  obtain ⟨a1, a2⟩ := R.bounds hD.le
  have hp := R.pos (by linarith) hD
  have hq : 0 < rnd (hi - lo) / n := div_pos hp hn'
  obtain ⟨b1, b2⟩ := R.bounds hq.le
  refine ⟨le_trans ?_ b1, b2.trans ?_, R.pos (by linarith) hq⟩
  · rw [mul_assoc]
    refine mul_le_mul_of_nonneg_left ?_ (by linarith)
    rw [← mul_div_assoc]
    exact div_le_div_of_nonneg_right a1 hn'.le
  · rw [mul_assoc]
    refine mul_le_mul_of_nonneg_left ?_ (by linarith)
    rw [← mul_div_assoc]
    exact div_le_div_of_nonneg_right a2 hn'.le

/-- The rounded quotient is not far from the exact one. -/
theorem quotient (R : Rounding rnd u) (hu0 : 0 ≤ u) (hu : u ≤ 1 / 1000) {lo hi x : K} {n : ℤ} (hlt : lo < hi) (hn : 0 < n)
    (hx : lo ≤ x) {c : K} (hc : 0 ≤ c) :
    (c * ((1 + u) * (1 + u) * ((hi - lo) / n)) ≤ (1 - u) * ((1 - u) * (x - lo)) →
      c ≤ rnd (rnd (x - lo) / rnd (rnd (hi - lo) / n))) ∧
    ((1 + u) * ((1 + u) * (x - lo)) < c * ((1 - u) * (1 - u) * ((hi - lo) / n)) →
      rnd (rnd (x - lo) / rnd (rnd (hi - lo) / n)) < c) := by
  obtain ⟨s1, s2, s3⟩ := R.size hu0 hu hlt hn
  have hd : 0 ≤ x - lo := by linarith
  obtain ⟨a1, a2⟩ := R.bounds hd
  have hq : 0 ≤ rnd (x - lo) / rnd (rnd (hi - lo) / n) := div_nonneg (R.nonneg hd) s3.le
  obtain ⟨b1, b2⟩ := R.bounds hq
  constructor
  · intro h
    refine le_trans ?_ b1
    rw [← mul_div_assoc, le_div_iff₀ s3]
    calc c * rnd (rnd (hi - lo) / n) ≤ c * ((1 + u) * (1 + u) * ((hi - lo) / n)) := mul_le_mul_of_nonneg_left s2 hc
      _ ≤ _ := h
      _ ≤ _ := mul_le_mul_of_nonneg_left a1 (by linarith)
  · intro h
    refine b2.trans_lt ?_
    rw [← mul_div_assoc, div_lt_iff₀ s3]
    calc (1 + u) * rnd (x - lo) ≤ (1 + u) * ((1 + u) * (x - lo)) := mul_le_mul_of_nonneg_left a2 (by linarith)
      _ < _ := h
      _ ≤ _ := mul_le_mul_of_nonneg_left s1 hc

/-- A number in a cell, not too near to its ends, is found to be in that cell. -/
theorem cell (R : Rounding rnd u) (hu0 : 0 ≤ u) (hu : u ≤ 1 / 1000) {lo hi x : K} {n i : ℤ} (hlt : lo < hi)
    (hi0 : 0 ≤ i) (hin : i < n) (h1 : lo + i * ((hi - lo) / n) + 8 * u * (hi - lo) ≤ x)
    (h2 : x < lo + (i + 1) * ((hi - lo) / n) - 8 * u * (hi - lo)) :
    0 ≤ rnd (rnd (x - lo) / rnd (rnd (hi - lo) / n)) ∧ ⌊rnd (rnd (x - lo) / rnd (rnd (hi - lo) / n))⌋ = i := by
  have hn : 0 < n := by omega
  have hn' : (0 : K) < n := by exact_mod_cast hn
  have hi' : (0 : K) ≤ i := by exact_mod_cast hi0
  have hin' : (i : K) + 1 ≤ n := by exact_mod_cast hin
  have hD : 0 < hi - lo := by linarith
  obtain ⟨h, hh⟩ : ∃ h, h = (hi - lo) / n := ⟨_, rfl⟩
  have hDh : hi - lo = n * h := by rw [hh, mul_div_cancel₀ _ hn'.ne']
  have hp : 0 < h := by rw [hh]; exact div_pos hD hn'
  have hx : lo ≤ x := by
    have := mul_nonneg hi' hp.le
    have := mul_nonneg (mul_nonneg (by norm_num : (0 : K) ≤ 8) hu0) hD.le
    rw [← hh] at h1
    linarith
  rw [← hh, hDh] at h1 h2
  have q1 := (R.quotient hu0 hu hlt hn hx hi').1
  have q2 := (R.quotient hu0 hu hlt hn hx (c := (i : K) + 1) (by linarith)).2
  rw [← hh] at q1 q2
  have huh : 0 ≤ u * h := mul_nonneg hu0 hp.le
  have e1 : (i : K) ≤ rnd (rnd (x - lo) / rnd (rnd (hi - lo) / n)) := by
    refine q1 ?_
    have f1 : i * h + 8 * u * (n * h) ≤ x - lo := by linarith
    have f2 : (1 - u) * ((1 - u) * (i * h + 8 * u * (n * h))) ≤ (1 - u) * ((1 - u) * (x - lo)) :=
      mul_le_mul_of_nonneg_left (mul_le_mul_of_nonneg_left f1 (by linarith)) (by linarith)
    refine le_trans ?_ f2
    have f3 : i * (u * h) ≤ n * (u * h) := mul_le_mul_of_nonneg_right (by linarith) huh
    have f4 : 0 ≤ n * (u * h) := mul_nonneg hn'.le huh
    have f5 : (1 - u) * (1 - u) ≥ 1 / 2 := by nlinarith
    have f6 : 8 * (1 - u) * (1 - u) * (n * (u * h)) ≥ 4 * (n * (u * h)) := by nlinarith
    nlinarith
  have e2 : rnd (rnd (x - lo) / rnd (rnd (hi - lo) / n)) < (i : K) + 1 := by
    refine q2 ?_
    have f1 : x - lo < (i + 1) * h - 8 * u * (n * h) := by linarith
    have f2 : (1 + u) * ((1 + u) * (x - lo)) < (1 + u) * ((1 + u) * ((i + 1) * h - 8 * u * (n * h))) :=
      mul_lt_mul_of_pos_left (mul_lt_mul_of_pos_left f1 (by linarith)) (by linarith)
    refine f2.trans_le ?_
    have f3 : (i + 1) * (u * h) ≤ n * (u * h) := mul_le_mul_of_nonneg_right hin' huh
    have f4 : 0 ≤ n * (u * h) := mul_nonneg hn'.le huh
    have f5 : 1 ≤ (1 + u) * (1 + u) := by nlinarith
    have f6 : 4 * (n * (u * h)) ≤ 8 * (1 + u) * (1 + u) * (n * (u * h)) := by
      have := mul_le_mul_of_nonneg_right f5 f4
      linarith
    nlinarith
  exact ⟨hi'.trans e1, Int.floor_eq_iff.2 ⟨e1, e2⟩⟩

/-- Half integers are not rounded. -/
theorem half (R : Rounding rnd u) {i : ℤ} (h0 : 0 ≤ i) (h : i ≤ 65536) : rnd ((i : K) + 1 / 2) = i + 1 / 2 := by
  have := R.scaled (2 * i + 1) (-1) (by rw [abs_of_nonneg (by omega)]; norm_num; omega)
  have e : ((2 * i + 1 : ℤ) : K) * 2 ^ (-1 : ℤ) = i + 1 / 2 := by
    push_cast
    rw [zpow_neg_one]
    field_simp
  rwa [e] at this

/-- The rounded centre of a cell is near to the exact one. -/
theorem centre (R : Rounding rnd u) (hu0 : 0 ≤ u) (hu : u ≤ 1 / 1000) {lo hi : K} {n i : ℤ} (hlt : lo < hi)
    (hi0 : 0 ≤ i) (hin : i < n) (hn2 : n ≤ 65536) :
    |rnd (rnd (rnd ((i : K) + 1 / 2) * rnd (rnd (hi - lo) / n)) + lo) - (lo + (i + 1 / 2) * ((hi - lo) / n))| ≤
      6 * u * (|lo| + |hi|) := by
  have hn : 0 < n := by omega
  have hn' : (0 : K) < n := by exact_mod_cast hn
  have hi' : (0 : K) ≤ i := by exact_mod_cast hi0
  have hin' : (i : K) + 1 ≤ n := by exact_mod_cast hin
  rw [R.half hi0 (by omega)]
  obtain ⟨s1, s2, s3⟩ := R.size hu0 hu hlt hn
  obtain ⟨h, hh⟩ : ∃ h, h = (hi - lo) / n := ⟨_, rfl⟩
  have hDh : hi - lo = n * h := by rw [hh, mul_div_cancel₀ _ hn'.ne']
  have hp : 0 < h := by rw [hh]; exact div_pos (by linarith) hn'
  rw [← hh] at s1 s2 ⊢
  generalize rnd (rnd (hi - lo) / n) = w at s1 s2 s3 ⊢
  have hc : (0 : K) ≤ i + 1 / 2 := by linarith
  obtain ⟨b1, b2⟩ := R.bounds (mul_nonneg hc s3.le)
  generalize rnd ((i + 1 / 2) * w) = v at b1 b2 ⊢
  obtain ⟨e, he⟩ : ∃ e, e = (i + 1 / 2) * h := ⟨_, rfl⟩
  have he0 : 0 ≤ e := by rw [he]; exact mul_nonneg hc hp.le
  have he1 : e ≤ hi - lo := by rw [he, hDh]; exact mul_le_mul_of_nonneg_right (by linarith) hp.le
  have c1 : (1 - u) * (1 - u) * e ≤ (i + 1 / 2) * w := by
    rw [he]; calc _ = (i + 1 / 2) * ((1 - u) * (1 - u) * h) := by ring
      _ ≤ _ := mul_le_mul_of_nonneg_left s1 hc
  have c2 : (i + 1 / 2) * w ≤ (1 + u) * (1 + u) * e := by
    rw [he]; calc _ ≤ (i + 1 / 2) * ((1 + u) * (1 + u) * h) := mul_le_mul_of_nonneg_left s2 hc
      _ = _ := by ring
  have hue : 0 ≤ u * e := mul_nonneg hu0 he0
  have hue2 : u * (u * e) ≤ 1 / 1000 * (u * e) := mul_le_mul_of_nonneg_right hu hue
  have hue20 : 0 ≤ u * (u * e) := mul_nonneg hu0 hue
  have hue3 : u * (u * (u * e)) ≤ 1 / 1000 * (u * (u * e)) := mul_le_mul_of_nonneg_right hu hue20
  have hue30 : 0 ≤ u * (u * (u * e)) := mul_nonneg hu0 hue20
  have d1 : (1 - u) * ((1 - u) * (1 - u) * e) ≤ v := (mul_le_mul_of_nonneg_left c1 (by linarith)).trans b1
  have d2 : v ≤ (1 + u) * ((1 + u) * (1 + u) * e) := b2.trans (mul_le_mul_of_nonneg_left c2 (by linarith))
  have x1 : (1 - u) * ((1 - u) * (1 - u) * e) = e - 3 * (u * e) + 3 * (u * (u * e)) - u * (u * (u * e)) := by ring
  have x2 : (1 + u) * ((1 + u) * (1 + u) * e) = e + 3 * (u * e) + 3 * (u * (u * e)) + u * (u * (u * e)) := by ring
  have v1 : e - 31 / 10 * (u * e) ≤ v := by linarith
  have v2 : v ≤ e + 31 / 10 * (u * e) := by linarith
  have hS : hi - lo ≤ |lo| + |hi| := by linarith [neg_abs_le lo, le_abs_self hi]
  have huS : u * e ≤ u * (|lo| + |hi|) := mul_le_mul_of_nonneg_left (he1.trans hS) hu0
  -- the last sum
  have hsum : |v + lo| ≤ (1 + 31 / 10 * u) * (|lo| + |hi|) := by
    have l1 : lo ≤ e + lo := by linarith
    have l2 : e + lo ≤ hi := by linarith
    have hlo := abs_nonneg lo
    have hhi := abs_nonneg hi
    have m1 := neg_abs_le lo
    have m2 := le_abs_self hi
    rw [_root_.abs_le]
    constructor
    · have : -(31 / 10 * (u * (|lo| + |hi|))) ≤ v - e := by linarith
      linarith
    · have : v - e ≤ 31 / 10 * (u * (|lo| + |hi|)) := by linarith
      linarith
  have herr := R.err (v + lo)
  have hu' : u * |v + lo| ≤ u * ((1 + 31 / 10 * u) * (|lo| + |hi|)) := mul_le_mul_of_nonneg_left hsum hu0
  have hS0 : 0 ≤ u * (|lo| + |hi|) := mul_nonneg hu0 (by linarith [abs_nonneg lo, abs_nonneg hi])
  have hS1 : u * (u * (|lo| + |hi|)) ≤ 1 / 1000 * (u * (|lo| + |hi|)) := mul_le_mul_of_nonneg_right hu hS0
  have key : |rnd (v + lo) - (lo + e)| ≤ |rnd (v + lo) - (v + lo)| + |v - e| := by
    have := abs_add_le (rnd (v + lo) - (v + lo)) (v - e)
    refine le_trans (le_of_eq ?_) this
    congr 1; ring
  have hve : |v - e| ≤ 31 / 10 * (u * e) := by rw [_root_.abs_le]; constructor <;> linarith
  rw [← he]
  refine key.trans ?_
  have x3 : u * ((1 + 31 / 10 * u) * (|lo| + |hi|)) = u * (|lo| + |hi|) + 31 / 10 * (u * (u * (|lo| + |hi|))) := by ring
  linarith

/-- The rounded ends of a cell, computed from its centre, are near to the exact ones. -/
theorem ends (R : Rounding rnd u) (hu0 : 0 ≤ u) (hu : u ≤ 1 / 1000) {lo hi c : K} {n i : ℤ} (hlt : lo < hi)
    (hi0 : 0 ≤ i) (hin : i < n) (hc : |c - (lo + (i + 1 / 2) * ((hi - lo) / n))| ≤ 6 * u * (|lo| + |hi|)) :
    |rnd (c - rnd (rnd (rnd (hi - lo) / n) / 2)) - (lo + i * ((hi - lo) / n))| ≤ 10 * u * (|lo| + |hi|) ∧
      |rnd (c + rnd (rnd (rnd (hi - lo) / n) / 2)) - (lo + (i + 1) * ((hi - lo) / n))| ≤ 10 * u * (|lo| + |hi|) := by
  have hn : 0 < n := by omega
  have hn' : (0 : K) < n := by exact_mod_cast hn
  have hn1 : (1 : K) ≤ n := by exact_mod_cast hn
  have hi' : (0 : K) ≤ i := by exact_mod_cast hi0
  have hin' : (i : K) + 1 ≤ n := by exact_mod_cast hin
  obtain ⟨s1, s2, s3⟩ := R.size hu0 hu hlt hn
  obtain ⟨h, hh⟩ : ∃ h, h = (hi - lo) / n := ⟨_, rfl⟩
  have hDh : hi - lo = n * h := by rw [hh, mul_div_cancel₀ _ hn'.ne']
  have hp : 0 < h := by rw [hh]; exact div_pos (by linarith) hn'
  rw [← hh] at s1 s2 hc ⊢
  generalize rnd (rnd (hi - lo) / n) = w at s1 s2 s3 ⊢
  obtain ⟨b1, b2⟩ := R.bounds (x := w / 2) (by linarith)
  generalize rnd (w / 2) = v at b1 b2 ⊢
  obtain ⟨S, hS⟩ : ∃ S, S = |lo| + |hi| := ⟨_, rfl⟩
  rw [← hS] at hc ⊢
  have hD : hi - lo ≤ S := by rw [hS]; linarith [neg_abs_le lo, le_abs_self hi]
  have hhS : h ≤ S := by nlinarith
  have hS0 : 0 ≤ S := hp.le.trans hhS
  have huh : 0 ≤ u * h := mul_nonneg hu0 hp.le
  have huhS : u * h ≤ u * S := mul_le_mul_of_nonneg_left hhS hu0
  have huuh : u * (u * h) ≤ 1 / 1000 * (u * h) := mul_le_mul_of_nonneg_right hu huh
  have huuh0 : 0 ≤ u * (u * h) := mul_nonneg hu0 huh
  have huuuh : u * (u * (u * h)) ≤ 1 / 1000 * (u * (u * h)) := mul_le_mul_of_nonneg_right hu huuh0
  have huuuh0 : 0 ≤ u * (u * (u * h)) := mul_nonneg hu0 huuh0
  have w1 : (1 - u) * (w / 2) ≥ (1 - u) * ((1 - u) * (1 - u) * h / 2) :=
    mul_le_mul_of_nonneg_left (by linarith) (by linarith)
  have w2 : (1 + u) * (w / 2) ≤ (1 + u) * ((1 + u) * (1 + u) * h / 2) :=
    mul_le_mul_of_nonneg_left (by linarith) (by linarith)
  have x1 : (1 - u) * ((1 - u) * (1 - u) * h / 2) =
    h / 2 - 3 / 2 * (u * h) + 3 / 2 * (u * (u * h)) - 1 / 2 * (u * (u * (u * h))) := by ring
  have x2 : (1 + u) * ((1 + u) * (1 + u) * h / 2) =
    h / 2 + 3 / 2 * (u * h) + 3 / 2 * (u * (u * h)) + 1 / 2 * (u * (u * (u * h))) := by ring
  have v1 : h / 2 - 16 / 10 * (u * S) ≤ v := by linarith
  have v2 : v ≤ h / 2 + 16 / 10 * (u * S) := by linarith
  have huS : 0 ≤ u * S := mul_nonneg hu0 hS0
  have huuS : u * (u * S) ≤ 1 / 1000 * (u * S) := mul_le_mul_of_nonneg_right hu huS
  have l1 : -S ≤ lo := by rw [hS]; linarith [neg_abs_le lo, abs_nonneg hi]
  have l2 : hi ≤ S := by rw [hS]; linarith [le_abs_self hi, abs_nonneg lo]
  have i0 : 0 ≤ i * h := mul_nonneg hi' hp.le
  have i1 : (i + 1) * h ≤ n * h := mul_le_mul_of_nonneg_right hin' hp.le
  rw [_root_.abs_le] at hc
  have fin : ∀ x y : K, |x - y| ≤ 76 / 10 * (u * S) → -S ≤ y → y ≤ S → |rnd x - y| ≤ 10 * u * S := by
    intro x y hxy hy1 hy2
    have e := R.err x
    have hx : |x| ≤ S + 76 / 10 * (u * S) := by
      rw [_root_.abs_le] at hxy ⊢
      constructor <;> linarith [hxy.1, hxy.2]
    have hux : u * |x| ≤ u * (S + 76 / 10 * (u * S)) := mul_le_mul_of_nonneg_left hx hu0
    have x3 : u * (S + 76 / 10 * (u * S)) = u * S + 76 / 10 * (u * (u * S)) := by ring
    have := abs_add_le (rnd x - x) (x - y)
    rw [sub_add_sub_cancel] at this
    linarith
  constructor
  · refine fin _ _ ?_ (by linarith) (by linarith)
    rw [_root_.abs_le]
    constructor <;> linarith [hc.1, hc.2]
  · refine fin _ _ ?_ (by linarith) (by linarith)
    rw [_root_.abs_le]
    constructor <;> linarith [hc.1, hc.2]

/-- The cell that is found, whichever it is, contains the number up to the error. -/
theorem found (R : Rounding rnd u) (hu0 : 0 ≤ u) (hu : u ≤ 1 / 1000) {lo hi x : K} {n i : ℤ} (hlt : lo < hi) (hn : 0 < n)
    (hx : lo ≤ x) (hx2 : x ≤ hi) (h : ⌊rnd (rnd (x - lo) / rnd (rnd (hi - lo) / n))⌋ = i) :
    0 ≤ i ∧ lo + i * ((hi - lo) / n) ≤ x + 8 * u * (hi - lo) ∧
      x ≤ lo + (i + 1) * ((hi - lo) / n) + 8 * u * (hi - lo) := by
  have hn' : (0 : K) < n := by exact_mod_cast hn
  have hD : 0 < hi - lo := by linarith
  obtain ⟨w, hw⟩ : ∃ w, w = (hi - lo) / n := ⟨_, rfl⟩
  have hDw : hi - lo = n * w := by rw [hw, mul_div_cancel₀ _ hn'.ne']
  have hp : 0 < w := by rw [hw]; exact div_pos hD hn'
  obtain ⟨s1, s2, s3⟩ := R.size hu0 hu hlt hn
  have hq : 0 ≤ rnd (rnd (x - lo) / rnd (rnd (hi - lo) / n)) :=
    R.nonneg (div_nonneg (R.nonneg (by linarith)) s3.le)
  have hi0 : 0 ≤ i := by rw [← h]; exact Int.floor_nonneg.2 hq
  have hi' : (0 : K) ≤ i := by exact_mod_cast hi0
  obtain ⟨f1, f2⟩ := Int.floor_eq_iff.1 h
  have q1 := (R.quotient hu0 hu hlt hn hx (c := (i : K) + 1) (by linarith)).1
  have q2 := (R.quotient hu0 hu hlt hn hx hi').2
  rw [← hw] at q1 q2 ⊢
  have g2 : i * ((1 - u) * (1 - u) * w) ≤ (1 + u) * ((1 + u) * (x - lo)) := by
    by_contra hh
    exact absurd (q2 (not_le.1 hh)) (not_lt.2 f1)
  have g1 : (1 - u) * ((1 - u) * (x - lo)) < (i + 1) * ((1 + u) * (1 + u) * w) := by
    by_contra hh
    exact absurd (q1 (not_lt.1 hh)) (not_le.2 f2)
  have hd0 : 0 ≤ x - lo := by linarith
  have hdD : x - lo ≤ n * w := by linarith
  have hud : 0 ≤ u * (x - lo) := mul_nonneg hu0 hd0
  have hudD : u * (x - lo) ≤ u * (n * w) := mul_le_mul_of_nonneg_left hdD hu0
  have k1 : (0 : K) < (1 - u) * (1 - u) := mul_pos (by linarith) (by linarith)
  have kk : (1 + u) * (1 + u) ≤ (1 - u) * (1 - u) * (1 + 5 * u) := by
    have : u * u ≤ 1 / 1000 * u := mul_le_mul_of_nonneg_right hu hu0
    have : 0 ≤ u * u := mul_nonneg hu0 hu0
    have : 0 ≤ u * (u * u) := mul_nonneg hu0 this
    nlinarith
  have a1 : i * w ≤ (1 + 5 * u) * (x - lo) := by
    have : (1 - u) * (1 - u) * (i * w) ≤ (1 - u) * (1 - u) * ((1 + 5 * u) * (x - lo)) := by
      calc _ = i * ((1 - u) * (1 - u) * w) := by ring
        _ ≤ _ := g2
        _ = (1 + u) * (1 + u) * (x - lo) := by ring
        _ ≤ (1 - u) * (1 - u) * (1 + 5 * u) * (x - lo) := mul_le_mul_of_nonneg_right kk hd0
        _ = _ := by ring
    exact le_of_mul_le_mul_left this k1
  have a2 : x - lo < (1 + 5 * u) * ((i + 1) * w) := by
    have : (1 - u) * (1 - u) * (x - lo) < (1 - u) * (1 - u) * ((1 + 5 * u) * ((i + 1) * w)) := by
      calc _ = (1 - u) * ((1 - u) * (x - lo)) := by ring
        _ < _ := g1
        _ = (1 + u) * (1 + u) * ((i + 1) * w) := by ring
        _ ≤ (1 - u) * (1 - u) * (1 + 5 * u) * ((i + 1) * w) :=
          mul_le_mul_of_nonneg_right kk (mul_nonneg (by linarith) hp.le)
        _ = _ := by ring
    exact lt_of_mul_lt_mul_left this k1.le
  rw [hDw]
  refine ⟨hi0, ?_, ?_⟩
  · have : (1 + 5 * u) * (x - lo) = (x - lo) + 5 * (u * (x - lo)) := by ring
    linarith
  · by_cases hc : (i + 1) * w ≤ n * w
    · have : u * ((i + 1) * w) ≤ u * (n * w) := mul_le_mul_of_nonneg_left hc hu0
      have : 0 ≤ u * (n * w) := hud.trans hudD
      linarith
    · have : 0 ≤ u * (n * w) := hud.trans hudD
      linarith

/-! ### Cells that begin at zero -/

/-- The rounded quotient of `x` and the rounded size of a cell, compared with a number. -/
theorem share (R : Rounding rnd u) (hu0 : 0 ≤ u) (hu : u ≤ 1 / 1000) {W x c : K} (hW : 0 < W) (hx : 0 ≤ x) (hc : 0 ≤ c) :
    (c * ((1 + u) * W) ≤ (1 - u) * x → c ≤ rnd (x / rnd W)) ∧
      ((1 + u) * x < c * ((1 - u) * W) → rnd (x / rnd W) < c) := by
  obtain ⟨s1, s2⟩ := R.bounds hW.le
  have s3 := R.pos (by linarith) hW
  have hq : 0 ≤ x / rnd W := div_nonneg hx s3.le
  obtain ⟨b1, b2⟩ := R.bounds hq
  constructor
  · intro h
    refine le_trans ?_ b1
    rw [← mul_div_assoc, le_div_iff₀ s3]
    exact (mul_le_mul_of_nonneg_left s2 hc).trans h
  · intro h
    refine b2.trans_lt ?_
    rw [← mul_div_assoc, div_lt_iff₀ s3]
    exact h.trans_le (mul_le_mul_of_nonneg_left s1 hc)

theorem share_nonneg (R : Rounding rnd u) (hu : u ≤ 1 / 1000) {W x : K} (hW : 0 < W) (hx : 0 ≤ x) : 0 ≤ rnd (x / rnd W) :=
  R.nonneg (div_nonneg hx (R.pos (by linarith) hW).le)

/-- A number in cell `i` of `n` cells from 0 to `D`, not too near to its ends, is found in that cell. -/
theorem share_cell (R : Rounding rnd u) (hu0 : 0 ≤ u) (hu : u ≤ 1 / 1000) {D x : K} {n i : ℤ} (hD : 0 < D) (hi0 : 0 ≤ i)
    (hin : i < n) (h1 : i * (D / n) + 4 * u * D ≤ x) (h2 : x < (i + 1) * (D / n) - 4 * u * D) :
    ⌊rnd (x / rnd (D / n))⌋ = i := by
  have hn' : (0 : K) < n := by exact_mod_cast (by omega : 0 < n)
  have hi' : (0 : K) ≤ i := by exact_mod_cast hi0
  have hin' : (i : K) + 1 ≤ n := by exact_mod_cast hin
  obtain ⟨w, hw⟩ : ∃ w, w = D / n := ⟨_, rfl⟩
  have hDw : n * w = D := by rw [hw, mul_div_cancel₀ _ hn'.ne']
  have hp : 0 < w := by rw [hw]; exact div_pos hD hn'
  rw [← hw] at h1 h2 ⊢
  have a1 : (i : K) * w ≤ D := by rw [← hDw]; exact mul_le_mul_of_nonneg_right (by linarith) hp.le
  have a2 : ((i : K) + 1) * w ≤ D := by rw [← hDw]; exact mul_le_mul_of_nonneg_right hin' hp.le
  have hx : 0 ≤ x := by
    have : 0 ≤ (i : K) * w := mul_nonneg hi' hp.le
    have : 0 ≤ u * D := mul_nonneg hu0 hD.le
    linarith
  rw [Int.floor_eq_iff]
  constructor
  · refine (R.share hu0 hu hp hx hi').1 ?_
    have b1 : (1 - u) * (i * w + 4 * u * D) ≤ (1 - u) * x := mul_le_mul_of_nonneg_left h1 (by linarith)
    refine le_trans ?_ b1
    have e1 : (i : K) * ((1 + u) * w) = i * w + u * (i * w) := by ring
    have e2 : (1 - u) * ((i : K) * w + 4 * u * D) = i * w - u * (i * w) + 4 * (u * D) - 4 * (u * (u * D)) := by ring
    have e3 : u * ((i : K) * w) ≤ u * D := mul_le_mul_of_nonneg_left a1 hu0
    have e4 : u * (u * D) ≤ 1 / 1000 * (u * D) := mul_le_mul_of_nonneg_right hu (mul_nonneg hu0 hD.le)
    have e5 : 0 ≤ u * D := mul_nonneg hu0 hD.le
    linarith
  · refine (R.share hu0 hu hp hx (by linarith)).2 ?_
    have b1 : (1 + u) * x < (1 + u) * ((i + 1) * w - 4 * u * D) := mul_lt_mul_of_pos_left h2 (by linarith)
    refine b1.trans_le ?_
    have e1 : ((i : K) + 1) * ((1 - u) * w) = (i + 1) * w - u * ((i + 1) * w) := by ring
    have e2 : (1 + u) * (((i : K) + 1) * w - 4 * u * D) = (i + 1) * w + u * ((i + 1) * w) - 4 * (u * D) - 4 * (u * (u * D)) := by ring
    have e3 : u * (((i : K) + 1) * w) ≤ u * D := mul_le_mul_of_nonneg_left a2 hu0
    have e4 : 0 ≤ u * (u * D) := mul_nonneg hu0 (mul_nonneg hu0 hD.le)
    have e5 : 0 ≤ u * D := mul_nonneg hu0 hD.le
    linarith

/-- The cell that is found contains the number, up to a few roundings. -/
theorem share_found (R : Rounding rnd u) (hu0 : 0 ≤ u) (hu : u ≤ 1 / 1000) {D x : K} {n i : ℤ} (hD : 0 < D) (hn : 0 < n)
    (hx : 0 ≤ x) (hx2 : x ≤ D) (h : ⌊rnd (x / rnd (D / n))⌋ = i) :
    0 ≤ i ∧ i * (D / n) ≤ x + 4 * u * D ∧ x ≤ (i + 1) * (D / n) + 4 * u * D := by
  have hn' : (0 : K) < n := by exact_mod_cast hn
  obtain ⟨w, hw⟩ : ∃ w, w = D / n := ⟨_, rfl⟩
  have hp : 0 < w := by rw [hw]; exact div_pos hD hn'
  rw [← hw] at h ⊢
  have hq := R.share_nonneg hu hp hx
  have hi0 : 0 ≤ i := by rw [← h]; exact Int.floor_nonneg.2 hq
  have hi' : (0 : K) ≤ i := by exact_mod_cast hi0
  rw [Int.floor_eq_iff] at h
  have f1 : u * x ≤ u * D := mul_le_mul_of_nonneg_left hx2 hu0
  have f2 : 0 ≤ u * x := mul_nonneg hu0 hx
  refine ⟨hi0, ?_, ?_⟩
  · have c1 : ¬ (1 + u) * x < i * ((1 - u) * w) := fun hlt => absurd ((R.share hu0 hu hp hx hi').2 hlt) (not_lt.2 h.1)
    rw [not_lt] at c1
    by_contra hcon
    rw [not_le] at hcon
    have c2 : (1 - u) * (x + 4 * u * D) < (1 - u) * (i * w) := mul_lt_mul_of_pos_left hcon (by linarith)
    have e1 : (1 - u) * (x + 4 * u * D) = x - u * x + 4 * (u * D) - 4 * (u * (u * D)) := by ring
    have e2 : (i : K) * ((1 - u) * w) = (1 - u) * (i * w) := by ring
    have e4 : u * (u * D) ≤ 1 / 1000 * (u * D) := mul_le_mul_of_nonneg_right hu (mul_nonneg hu0 hD.le)
    linarith
  · have c1 : ¬ (i + 1) * ((1 + u) * w) ≤ (1 - u) * x :=
      fun hle => absurd ((R.share hu0 hu hp hx (by linarith)).1 hle) (not_le.2 h.2)
    rw [not_le] at c1
    by_contra hcon
    rw [not_le] at hcon
    have c2 : (1 + u) * ((i + 1) * w + 4 * u * D) < (1 + u) * x := mul_lt_mul_of_pos_left hcon (by linarith)
    have e1 : (1 + u) * (((i : K) + 1) * w + 4 * u * D) = (i + 1) * ((1 + u) * w) + 4 * (u * D) + 4 * (u * (u * D)) := by ring
    have e4 : 0 ≤ u * (u * D) := mul_nonneg hu0 (mul_nonneg hu0 hD.le)
    linarith

end Rounding

end Gear.Doubles
