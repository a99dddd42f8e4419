/-
Rectangular layouts of any rows, with the arithmetic of `double`: the search for the row stays within the rows.
-/
import Verif.RectDoubleSearch
import Verif.PadAngleDoubleLemmas

set_option autoImplicit false
set_option linter.unusedSectionVars false

namespace Gear.Rect.Double

open PadIndex Doubles Spec
open MaterialMap (Arith)
open PadAngle.Double (toInt toInt_nonneg)
open PadAngle.Double.Spec (Rounded)

variable {K : Type} [Field K] [LinearOrder K] [IsStrictOrderedRing K] [FloorRing K]
variable {F : Arith K} {u : K} {L : Layout K}

/-! ### What every layout has -/

/-- What every row has. -/
structure RowOk (F : Arith K) (xMin xMax : K) (r : Row K) : Prop where
  nPad : 0 < r.nPad
  padHeight : 0 ≤ r.padHeight
  height : r.padHeight ≤ r.height
  pitch : r.widthPerPad =
    F.div (F.sub (F.sub xMax r.rightOffset) (F.add xMin r.leftOffset)) r.nPad

/-- What every layout has. -/
structure Wf (F : Arith K) (L : Layout K) : Prop where
  rows : ∀ r ∈ L.rows, RowOk F L.xMin L.xMax r

theorem wf_pushRows {row : Row K} (n : ℕ) {L : Layout K} (hr : RowOk F L.xMin L.xMax row) (h : Wf F L) :
    Wf F (pushRows F row n L) := by
  obtain ⟨e1, -, -, e4, e5⟩ := pushRows_spec F row n L
  constructor
  rw [e1, e4, e5]
  intro r hm
  rw [List.mem_append, List.mem_map] at hm
  rcases hm with hm | ⟨k, -, rfl⟩
  · exact h.rows r hm
  · exact ⟨hr.1, hr.2, hr.3, hr.4⟩

theorem wf_addRow (h : Wf F L) (nRow nPad : ℤ) (w ph rh l r : K) : Wf F (addRow F L nRow nPad w ph rh l r).1 := by
  unfold addRow
  dsimp only
  generalize hH : (if rh = 0 then ph else rh) = H
  split_ifs with h1 h2 h3
  · exact h
  · exact ⟨h.rows⟩
  rotate_left
  · exact h
  · push Not at h1
    have hw := wf_pushRows nRow.toNat
      (row := { nPad, padWidth := w, padHeight := ph, height := H, leftOffset := l, rightOffset := r, center := 0
                widthPerPad := F.div (F.sub (F.sub L.xMax r) (F.add L.xMin l)) nPad })
      (L := { L with nPad := L.nPad + |nRow| * |nPad| })
      ⟨h1.2.1, h1.2.2.2.1, not_lt.1 h3, rfl⟩ ⟨h.rows⟩
    exact ⟨hw.rows⟩

theorem wf_repeatOnce (nRow k : ℕ) {L : Layout K} (h : Wf F L) : Wf F (repeatOnce F nRow k L).1 := by
  induction k generalizing L with
  | zero => exact h
  | succ k ih =>
    unfold repeatOnce
    split
    · exact h
    · next r _ =>
      have := wf_addRow h 1 r.nPad r.padWidth r.padHeight r.height r.leftOffset r.rightOffset
      split
      · next e => rw [e] at this; exact ih this
      · next e => rw [e] at this; exact this

theorem wf_repeatLoop (nRow n : ℕ) {L : Layout K} (h : Wf F L) : Wf F (repeatLoop F nRow n L).1 := by
  induction n generalizing L with
  | zero => exact h
  | succ n ih =>
    unfold repeatLoop
    have := wf_repeatOnce nRow nRow h
    split
    · next e => rw [e] at this; exact ih this
    · next e => rw [e] at this; exact this

theorem wf_step (h : Wf F L) (op : Op K) : Wf F (step F L op) := by
  cases op with
  | addRow => exact wf_addRow h _ _ _ _ _ _ _
  | repeatRows c =>
    unfold step repeatRows
    dsimp only
    split_ifs
    · exact h
    · exact wf_repeatLoop _ _ ⟨h.rows⟩
  | getPadsInRow r =>
    unfold step
    dsimp only
    unfold getPadsInRow
    split
    · exact h
    · exact h
    · split
      · exact h
      · split <;> exact ⟨h.rows⟩

theorem wf_run (xMin xMax yMin : K) (h : List (Op K)) : Wf F (run F xMin xMax yMin h) := by
  unfold run
  have : ∀ (h : List (Op K)) (L : Layout K), Wf F L → Wf F (h.foldl (step F) L) := by
    intro h
    induction h with
    | nil => exact fun L hL => hL
    | cons op h ih => exact fun L hL => ih _ (wf_step hL op)
  exact this h _ ⟨by simp [Rect.new]⟩

/-! ### The search -/

/-- Rounding does not depend on the sign. -/
def Odd (F : Arith K) : Prop := ∀ x, F.rnd (-x) = -F.rnd x

theorem rnd_int (R : Rounded F u) {n : ℤ} (h : |n| ≤ 65536) : F.rnd (n : K) = n := by
  have := R.rounding.scaled n 0 (h.trans (by norm_num))
  simpa using this

theorem rnd_eq_zero (R : Rounded F u) {x : K} (h : F.rnd x = 0) : x = 0 := by
  rcases lt_trichotomy x 0 with h1 | h1 | h1
  · have := rnd_neg_of_neg R h1; linarith
  · exact h1
  · have := R.rounding.pos (by linarith [R.small]) h1; linarith

/-- A quotient of at most one, times a number of rows. -/
theorem step_up (R : Rounded F u) {o rd : K} {m : ℤ} (ho : 0 < o) (h : o ≤ rd) (hm0 : 0 ≤ m) (hm : m ≤ 65536) :
    0 ≤ F.rnd (m * F.rnd (o / rd)) ∧ F.rnd (m * F.rnd (o / rd)) ≤ m ∧ (F.rnd (m * F.rnd (o / rd)) = 0 → m = 0) := by
  have hrd : 0 < rd := by linarith
  have hq : 0 < o / rd := div_pos ho hrd
  have hq0 := R.rounding.pos (by linarith [R.small]) hq
  have hq1 : F.rnd (o / rd) ≤ 1 := by
    have := R.rounding.mono _ _ ((div_le_one hrd).2 h)
    rwa [rnd_one R] at this
  have hm' : (0 : K) ≤ m := by exact_mod_cast hm0
  refine ⟨R.rounding.nonneg (mul_nonneg hm' hq0.le), ?_, fun h0 => ?_⟩
  · have := R.rounding.mono _ _ (mul_le_mul_of_nonneg_left hq1 hm')
    rwa [mul_one, rnd_int R (by rw [abs_of_nonneg hm0]; exact hm)] at this
  · rcases mul_eq_zero.1 (rnd_eq_zero R h0) with h1 | h1
    · exact_mod_cast h1
    · exact absurd h1 hq0.ne'

/-- The row is right: the point is within its height, or beyond the first or last row. -/
def GoodRow (u : K) (L : Layout K) (row : Row K) (r : ℤ) (y : K) : Prop :=
  |y - row.center| ≤ (1 + 3 * u) * (row.padHeight / 2) ∨ (r = 0 ∧ y < row.center) ∨
    (r = L.rows.length - 1 ∧ row.center < y)

theorem within (R : Rounded F u) {a h : K} (h0 : 0 ≤ h) (hd : |F.rnd a| ≤ F.rnd h) : |a| ≤ (1 + 3 * u) * h := by
  have h1 := R.rounding.err a
  have h2 : |a| - |F.rnd a| ≤ u * |a| := by
    have := abs_sub_abs_le_abs_sub a (F.rnd a)
    rw [abs_sub_comm] at this
    linarith
  have h3 := (R.rounding.bounds h0).2
  have h4 : (1 - u) * |a| ≤ (1 + u) * h := by linarith
  have hu := R.small
  have hu0 := R.nonneg
  by_contra hc
  have h5 := mul_lt_mul_of_pos_left (not_le.1 hc) (show 0 < 1 - u by linarith)
  have h6 : 3 * u * u * h ≤ u * h := by
    have := mul_le_mul_of_nonneg_right (mul_le_mul_of_nonneg_right (show 3 * u ≤ 1 by linarith) hu0) h0
    linarith
  linarith

theorem pass_full (R : Rounded F u) (hodd : Odd F) {y : K} {r : ℤ} {row : Row K} (hr : elem L.rows r = some row)
    (hn : L.rows.length ≤ 65536) (hfull : row.padHeight = row.height) (hh : 0 ≤ row.height) (hy1 : L.yMin ≤ y)
    (hy2 : y ≤ L.yMax) :
    (pass F L y r = .ok (.done r) ∧ GoodRow u L row r y) ∨
      ∃ r', pass F L y r = .ok (.next r') ∧ (0 ≤ r' ∧ r' < L.rows.length) ∧
        ¬ |F.rnd (y - row.center)| ≤ F.rnd (row.height / 2) ∧ ((y < row.center ∧ r' < r) ∨ (row.center < y ∧ r < r')) := by
  obtain ⟨r0, r1⟩ := elem_range hr
  have hH0 : 0 ≤ F.rnd (row.height / 2) := R.rounding.nonneg (by linarith)
  unfold pass
  rw [elemUb_of hr, Res.bind_ok]
  dsimp only
  unfold Arith.sub Arith.add Arith.div Arith.mul GoodRow
  rw [hfull]
  by_cases h1 : |F.rnd (y - row.center)| ≤ F.rnd (row.height / 2)
  · rw [if_pos h1]
    exact Or.inl ⟨rfl, Or.inl (within R (by linarith) h1)⟩
  rw [if_neg h1, if_neg h1]
  have h1' := h1
  by_cases hd : F.rnd (y - row.center) < 0
  · rw [if_pos hd, if_pos hd, if_pos hd]
    rw [abs_of_neg hd] at h1
    have hyc : y < row.center := by
      by_contra hc
      have := R.rounding.nonneg (show 0 ≤ y - row.center by linarith)
      linarith
    have g1 : -F.rnd (y - row.center) ≤ F.rnd (row.center - L.yMin) := by
      rw [← hodd]
      exact R.rounding.mono _ _ (by linarith)
    have g2 : F.rnd (F.rnd (y - row.center) + F.rnd (row.height / 2)) =
        -F.rnd (-F.rnd (y - row.center) - F.rnd (row.height / 2)) := by
      rw [← hodd]; congr 1; ring
    have g3 := R.rounding.pos (by linarith [R.small])
      (show 0 < -F.rnd (y - row.center) - F.rnd (row.height / 2) by linarith [not_le.1 h1])
    have g4 := R.rounding.mono _ _ (sub_le_sub_right g1 (F.rnd (row.height / 2)))
    rw [g2]
    generalize F.rnd (-F.rnd (y - row.center) - F.rnd (row.height / 2)) = o at *
    generalize F.rnd (F.rnd (row.center - L.yMin) - F.rnd (row.height / 2)) = rd at *
    rw [if_neg (show ¬ rd = 0 by linarith)]
    obtain ⟨k1, k2, k3⟩ := step_up R g3 g4 r0 (by omega)
    have g5 : F.rnd (r * F.rnd (-o / rd)) = -F.rnd (r * F.rnd (o / rd)) := by
      rw [neg_div, hodd, mul_neg, hodd]
    rw [g5]
    generalize F.rnd (r * F.rnd (o / rd)) = q at *
    have k4 : (if -q < 0 then ⌊-q⌋ else ⌈-q⌉) = -⌈q⌉ := by
      split_ifs with hq
      · exact Int.floor_neg
      · have : q = 0 := by linarith
        rw [this]; simp
    have k5 : 0 ≤ ⌈q⌉ := Int.ceil_nonneg k1
    have k6 : ⌈q⌉ ≤ r := Int.ceil_le.2 k2
    rw [k4, toInt_int (by omega), Res.bind_ok]
    split_ifs with hz
    · have hq0 : q ≤ 0 := by
        have := Int.ceil_le.1 (show ⌈q⌉ ≤ 0 by omega)
        simpa using this
      exact Or.inl ⟨rfl, Or.inr (Or.inl ⟨k3 (by linarith), hyc⟩)⟩
    · exact Or.inr ⟨_, rfl, ⟨by omega, by omega⟩, h1', Or.inl ⟨hyc, by omega⟩⟩
  · rw [if_neg hd, if_neg hd, if_neg hd]
    rw [abs_of_nonneg (not_lt.1 hd)] at h1
    have hyc : row.center < y := by
      by_contra hc
      have h2 : F.rnd (y - row.center) ≤ F.rnd 0 := R.rounding.mono _ _ (by linarith [not_lt.1 hc])
      rw [R.rounding.zero] at h2
      linarith [not_lt.1 hd, not_le.1 h1]
    have g1 : F.rnd (y - row.center) ≤ F.rnd (L.yMax - row.center) := R.rounding.mono _ _ (by linarith)
    have g3 := R.rounding.pos (by linarith [R.small])
      (show 0 < F.rnd (y - row.center) - F.rnd (row.height / 2) by linarith [not_le.1 h1])
    have g4 := R.rounding.mono _ _ (sub_le_sub_right g1 (F.rnd (row.height / 2)))
    generalize F.rnd (F.rnd (y - row.center) - F.rnd (row.height / 2)) = o at *
    generalize F.rnd (F.rnd (L.yMax - row.center) - F.rnd (row.height / 2)) = rd at *
    rw [if_neg (show ¬ rd = 0 by linarith)]
    obtain ⟨k1, k2, k3⟩ := step_up R g3 g4 (m := L.rows.length - r - 1) (by omega) (by omega)
    generalize F.rnd (((L.rows.length - r - 1 : ℤ) : K) * F.rnd (o / rd)) = q at *
    rw [if_neg (not_lt.2 k1)]
    have k5 : 0 ≤ ⌈q⌉ := Int.ceil_nonneg k1
    have k6 : ⌈q⌉ ≤ L.rows.length - r - 1 := Int.ceil_le.2 k2
    rw [toInt_int (by omega), Res.bind_ok]
    split_ifs with hz
    · have hq0 : q ≤ 0 := by
        have := Int.ceil_le.1 (show ⌈q⌉ ≤ 0 by omega)
        simpa using this
      have := k3 (by linarith)
      exact Or.inl ⟨rfl, Or.inr (Or.inr ⟨by omega, hyc⟩)⟩
    · exact Or.inr ⟨_, rfl, ⟨by omega, by omega⟩, h1', Or.inr ⟨hyc, by omega⟩⟩

theorem search_full (R : Rounded F u) (hodd : Odd F) {y : K} (hn : L.rows.length ≤ 65536)
    (hfull : ∀ r ∈ L.rows, r.padHeight = r.height ∧ 0 ≤ r.height) (hy1 : L.yMin ≤ y) (hy2 : y ≤ L.yMax) (fuel : ℕ) {r : ℤ}
    (h0 : 0 ≤ r) (h1 : r < L.rows.length) :
    search F L y fuel r = none ∨
      ∃ r' row, search F L y fuel r = some (.ok r') ∧ elem L.rows r' = some row ∧ GoodRow u L row r' y := by
  induction fuel generalizing r with
  | zero => exact Or.inl rfl
  | succ fuel ih =>
    obtain ⟨row, hrow⟩ := elem_isSome h0 h1
    have hf := hfull row (elem_mem hrow)
    rw [search]
    rcases pass_full R hodd hrow hn hf.1 hf.2 hy1 hy2 with ⟨e, g⟩ | ⟨r', e, ⟨a, b⟩, -⟩
    · rw [e]; exact Or.inr ⟨r, row, rfl, hrow, g⟩
    · rw [e]; exact ih a b

theorem startRow_range (R : Rounded F u) (hu : 400000 * u ≤ 1) {y : K} (hn : L.rows.length ≤ 65536) (hne : 0 < L.rows.length)
    (hpos : L.yMin < L.yMax) (hy1 : L.yMin ≤ y) (hy2 : y ≤ L.yMax) :
    ∃ r, startRow F L y = .ok r ∧ 0 ≤ r ∧ r < L.rows.length := by
  have hu0 := R.nonneg
  have hD := R.rounding.pos (by linarith [R.small]) (show 0 < L.yMax - L.yMin by linarith)
  have a0 := R.rounding.nonneg (show 0 ≤ y - L.yMin by linarith)
  have a1 : F.rnd (y - L.yMin) ≤ F.rnd (L.yMax - L.yMin) := R.rounding.mono _ _ (by linarith)
  have hN0 : (0 : K) ≤ (L.rows.length : K) - 1 := by
    have : (1 : K) ≤ L.rows.length := by exact_mod_cast hne
    linarith
  have hN : (L.rows.length : K) - 1 ≤ 65535 := by
    have : (L.rows.length : K) ≤ 65536 := by exact_mod_cast hn
    linarith
  unfold startRow Arith.sub Arith.div Arith.mul
  dsimp only
  rw [if_neg hD.ne']
  generalize F.rnd (L.yMax - L.yMin) = D at *
  generalize F.rnd (y - L.yMin) = a at *
  obtain ⟨N, hNe⟩ : ∃ N : K, N = (L.rows.length : K) - 1 := ⟨_, rfl⟩
  rw [← hNe] at hN0 hN ⊢
  have b0 : 0 ≤ N * a := mul_nonneg hN0 a0
  have b1 := (R.rounding.bounds b0).2
  have b2 := R.rounding.nonneg b0
  have c0 : 0 ≤ F.rnd (N * a) / D := div_nonneg b2 hD.le
  have c1 := (R.rounding.bounds c0).2
  have c2 := R.rounding.nonneg c0
  have d1 : F.rnd (N * a) / D ≤ (1 + u) * N := by
    rw [div_le_iff₀ hD]
    refine b1.trans ?_
    have := mul_le_mul_of_nonneg_left (mul_le_mul_of_nonneg_left a1 hN0) (show 0 ≤ 1 + u by linarith)
    linarith
  have d2 : F.rnd (F.rnd (N * a) / D) ≤ (1 + u) * ((1 + u) * N) :=
    c1.trans (mul_le_mul_of_nonneg_left d1 (by linarith))
  have d3 : u * N ≤ 65536 / 400000 := by
    have := mul_le_mul hu hN hN0 (by norm_num)
    linarith
  have d4 : u * (u * N) ≤ 1 / 1000 := by
    have := mul_le_mul_of_nonneg_right R.small (mul_nonneg hu0 hN0)
    linarith
  have d5 : F.rnd (F.rnd (N * a) / D) < N + 1 / 2 := by
    have : (1 + u) * ((1 + u) * N) = N + 2 * (u * N) + u * (u * N) := by ring
    linarith
  generalize F.rnd (F.rnd (N * a) / D) = v at *
  have hround : roundInt v = ⌊v + 1 / 2⌋ := by unfold roundInt; rw [if_pos c2]
  have r0 : 0 ≤ ⌊v + 1 / 2⌋ := Int.floor_nonneg.2 (by linarith)
  have r1 : ⌊v + 1 / 2⌋ < L.rows.length := Int.floor_lt.2 (by push_cast; linarith)
  rw [hround]
  exact ⟨_, toInt_int (by omega), r0, r1⟩

/-- The pad in a row that exists. -/
theorem padInRow_safe (R : Rounded F u) (hw : Wf F L) (hn : L.rows.length ≤ 65536) {x : K} {i : ℤ} {row : Row K}
    (hi : elem L.rows i = some row) (hp : row.nPad ≤ 65536) :
    padInRow F L x i = .throw .outOfRange ∨
      ∃ j p, 0 ≤ j ∧ j < row.nPad ∧ getPadIndex L i j = .ok p ∧ padInRow F L x i = .ok p := by
  have hr := hw.rows row (elem_mem hi)
  obtain ⟨i0, i1⟩ := elem_range hi
  have hidx : ∀ j : ℤ, 0 ≤ j → getPadIndex L i j = .throw .outOfRange ∨
      (j < row.nPad ∧ ∃ p, getPadIndex L i j = .ok p) := by
    intro j hj
    rcases lt_or_ge j row.nPad with h | h
    · obtain ⟨p, he⟩ := encode_isOk (row := i) j i0 (by omega)
      exact Or.inr ⟨h, p, by rw [getPadIndex_of hi (by omega) (by omega), he]⟩
    · left
      have hn2 := ofInt_toNat_of_range i0 (show i < 65536 by omega)
      unfold getPadIndex
      rw [if_neg (by rw [hn2]; omega), elemUb_of hi, Res.bind_ok, if_pos (by omega)]
  have fin : ∀ j : ℤ, 0 ≤ j → padInRow F L x i = getPadIndex L i j → padInRow F L x i = .throw .outOfRange ∨
      ∃ j p, 0 ≤ j ∧ j < row.nPad ∧ getPadIndex L i j = .ok p ∧ padInRow F L x i = .ok p := by
    intro j hj e
    rcases hidx j hj with h | ⟨h, p, hp⟩
    · exact Or.inl (e.trans h)
    · exact Or.inr ⟨j, p, hj, h, hp, e.trans hp⟩
  have hpos := hr.nPad
  have hm : (0 : K) < row.nPad := by exact_mod_cast hpos
  have hm2 : (row.nPad : K) ≤ 65536 := by exact_mod_cast hp
  by_cases h1 : x ≤ F.add L.xMin row.leftOffset
  · refine fin 0 le_rfl ?_
    unfold padInRow
    rw [elemUb_of hi, Res.bind_ok]
    dsimp only
    rw [if_pos h1, Res.bind_ok]
  by_cases h2 : x ≥ F.sub L.xMax row.rightOffset
  · refine fin (row.nPad - 1) (by omega) ?_
    unfold padInRow
    rw [elemUb_of hi, Res.bind_ok]
    dsimp only
    rw [if_neg h1, if_pos h2, Res.bind_ok]
  have hlt : F.add L.xMin row.leftOffset < F.sub L.xMax row.rightOffset := by
    linarith [not_le.1 h1, not_le.1 h2]
  have h1' := (not_le.1 h1).le
  have h2' := not_le.1 h2
  obtain ⟨-, -, s3⟩ := R.rounding.size R.nonneg R.small hlt hpos
  have q0 : 0 ≤ F.rnd (F.rnd (x - F.add L.xMin row.leftOffset) /
      F.rnd (F.rnd (F.sub L.xMax row.rightOffset - F.add L.xMin row.leftOffset) / row.nPad)) :=
    R.rounding.nonneg (div_nonneg (R.rounding.nonneg (by linarith)) s3.le)
  have q1 := (R.rounding.quotient R.nonneg R.small hlt hpos h1' (c := 2147483648) (by norm_num)).2 (by
    have hH : 0 < (F.sub L.xMax row.rightOffset - F.add L.xMin row.leftOffset) / row.nPad := div_pos (by linarith) hm
    have hxx : x - F.add L.xMin row.leftOffset ≤
        row.nPad * ((F.sub L.xMax row.rightOffset - F.add L.xMin row.leftOffset) / row.nPad) := by
      rw [mul_div_cancel₀ _ hm.ne']; linarith
    generalize (F.sub L.xMax row.rightOffset - F.add L.xMin row.leftOffset) / (row.nPad : K) = H at *
    have hx : 0 ≤ x - F.add L.xMin row.leftOffset := by linarith
    generalize x - F.add L.xMin row.leftOffset = x at *
    have hu := R.small
    have hu0 := R.nonneg
    have e0 : x ≤ 65536 * H := hxx.trans (mul_le_mul_of_nonneg_right hm2 hH.le)
    have e1 : (1 + u) * ((1 + u) * x) ≤ 11 / 10 * (11 / 10 * x) :=
      mul_le_mul (by linarith) (mul_le_mul_of_nonneg_right (by linarith) hx) (by positivity) (by norm_num)
    have e2 : 9 / 10 * (9 / 10) * H ≤ (1 - u) * (1 - u) * H :=
      mul_le_mul_of_nonneg_right (mul_le_mul (by linarith) (by linarith) (by norm_num) (by linarith)) hH.le
    linarith)
  refine fin _ (Int.floor_nonneg.2 q0) ?_
  unfold padInRow
  rw [elemUb_of hi, Res.bind_ok]
  dsimp only
  rw [if_neg h1, if_neg h2, hr.pitch]
  rw [show F.div (F.sub x (F.add L.xMin row.leftOffset))
      (F.div (F.sub (F.sub L.xMax row.rightOffset) (F.add L.xMin row.leftOffset)) row.nPad) =
    F.rnd (F.rnd (x - F.add L.xMin row.leftOffset) /
      F.rnd (F.rnd (F.sub L.xMax row.rightOffset - F.add L.xMin row.leftOffset) / row.nPad)) from rfl]
  rw [toInt_nonneg q0 q1, Res.bind_ok]

/-! ### Points that are not near to the border of two rows -/

/-- The search ends. -/
theorem search_ends (R : Rounded F u) (hodd : Odd F) {A : Args K} {q eta : K} (S : Scale A u q eta) (B : Built F A L)
    (hn : A.nRow ≤ 65536) (hfull : A.padHeight = A.height) (eh : 20 * eta ≤ A.height) {y : K} (hy1 : L.yMin ≤ y)
    (hy2 : y ≤ L.yMax) (far : ∀ k : ℤ, 1 ≤ k → k < A.nRow → 10 * eta ≤ |y - (A.yMin + k * A.height)|) :
    ∃ r, startRow F L y = .ok r ∧ ∀ fuel, 2 ≤ fuel → ∃ r', search F L y fuel r = some (.ok r') := by
  have hh := S.h
  have ep : 0 < eta := by linarith [S.pos, S.q_le]
  have hT := abs_le.1 (top_near R S B.rows)
  have hB := B.rows
  have hlen : L.rows.length ≤ 65536 := by have := B.length; omega
  have hy1' := hy1
  have hy2' := hy2
  rw [B.yMin] at hy1'
  rw [B.yMax] at hy2'
  -- the row of the point
  obtain ⟨i, i0, i1, s1, s2⟩ : ∃ i : ℤ, 0 ≤ i ∧ i < A.nRow ∧ A.yMin + i * A.height ≤ y ∧
      (y < A.yMin + (i + 1) * A.height ∨ i + 1 = A.nRow) := by
    have hf0 : 0 ≤ ⌊(y - A.yMin) / A.height⌋ := Int.floor_nonneg.2 (div_nonneg (by linarith) hh.le)
    have hf1 := Int.floor_le ((y - A.yMin) / A.height)
    have hf2 := Int.lt_floor_add_one ((y - A.yMin) / A.height)
    rw [le_div_iff₀ hh] at hf1
    rw [div_lt_iff₀ hh] at hf2
    rcases lt_or_ge ⌊(y - A.yMin) / A.height⌋ A.nRow with h | h
    · exact ⟨_, hf0, h, by linarith, Or.inl (by linarith)⟩
    · refine ⟨A.nRow - 1, by omega, by omega, ?_, Or.inr (by omega)⟩
      have h' : (A.nRow : K) ≤ (⌊(y - A.yMin) / A.height⌋ : ℤ) := by exact_mod_cast h
      have := mul_le_mul_of_nonneg_right h' hh.le
      push_cast
      linarith
  have t1 : 1 ≤ i → A.yMin + i * A.height + 10 * eta ≤ y := by
    intro hi
    have := far i hi i1
    rw [abs_of_nonneg (by linarith)] at this
    linarith
  have t2 : i + 1 < A.nRow → y ≤ A.yMin + (i + 1) * A.height - 10 * eta := by
    intro hi
    have := far (i + 1) (by omega) hi
    push_cast at this
    rcases s2 with s2 | s2
    · rw [abs_of_nonpos (by linarith)] at this
      linarith
    · omega
  have t3 : y ≤ A.yMin + (i + 1) * A.height + eta := by
    rcases s2 with s2 | s2
    · linarith
    · have : (i : K) + 1 = A.nRow := by exact_mod_cast s2
      rw [this]
      linarith [hT.2]
  -- a row between two others
  by_cases hint : 1 ≤ i ∧ i + 1 < A.nRow
  · obtain ⟨r, g1, g2⟩ := search_near R S B hn i0 i1 (y := y) (by
      rw [Args.yCenter, hfull, _root_.abs_le]
      have := t1 hint.1
      have := t2 hint.2
      constructor <;> linarith)
    exact ⟨r, g1, fun fuel hf => ⟨i, g2 fuel hf⟩⟩
  obtain ⟨r, g1, g2, g3⟩ := startRow_core R S B hn i0 i1 eh s1 t3
  refine ⟨r, g1, fun fuel hf => ?_⟩
  obtain ⟨f, rfl⟩ : ∃ f, fuel = f + 2 := ⟨fuel - 2, by omega⟩
  -- the rows below are below, and the rows above are above
  have cen : ∀ k : ℤ, 0 ≤ k → k < A.nRow →
      |F.rnd (edge F A.yMin A.height k.toNat + F.rnd (A.height / 2)) - A.yCenter k| ≤ eta := fun k h0 h1 => center_near R S h0 h1
  have hpass : ∀ k : ℤ, 0 ≤ k → k < A.nRow → pass F L y k = .ok (.done k) ∨ ∃ r', pass F L y k = .ok (.next r') ∧
      (0 ≤ r' ∧ r' < A.nRow) ∧
      ¬ |F.rnd (y - F.rnd (edge F A.yMin A.height k.toNat + F.rnd (A.height / 2)))| ≤ F.rnd (A.height / 2) ∧
      ((y < F.rnd (edge F A.yMin A.height k.toNat + F.rnd (A.height / 2)) ∧ r' < k) ∨
        (F.rnd (edge F A.yMin A.height k.toNat + F.rnd (A.height / 2)) < y ∧ k < r')) := by
    intro k k0 k1
    rcases pass_full R hodd (B.row k k0 k1) hlen hfull hh.le hy1 hy2 with ⟨e, -⟩ | ⟨r', e, a, b, c⟩
    · exact Or.inl e
    · exact Or.inr ⟨r', e, by have := B.length; omega, b, c⟩
  have hnear : ∀ k : ℤ, A.yCenter k = A.yMin + (k + 1 / 2) * A.height := fun _ => rfl
  -- in its own row the search ends
  have own : pass F L y i = .ok (.done i) := by
    rcases hpass i i0 i1 with e | ⟨r', e, a, b, c⟩
    · exact e
    exfalso
    have hc := abs_le.1 (cen i i0 i1)
    rw [hnear] at hc
    have hr : A.yMin ≤ y ∧ y ≤ A.yMin + A.nRow * A.height → ¬ |y - A.yCenter i| ≤ A.height / 2 - 5 * eta := by
      intro hr hcon
      have hd := disp_near R S i0 i1 hr
      have hH := abs_le.1 (half_near R S hh.le le_rfl)
      have := abs_sub_abs_le_abs_sub (F.rnd (y - F.rnd (edge F A.yMin A.height i.toNat + F.rnd (A.height / 2))))
        (y - A.yCenter i)
      have := S.q_le
      linarith [hH.1, not_le.1 b]
    have hi2 : (i : K) + 1 ≤ A.nRow := by exact_mod_cast i1
    have hm := mul_le_mul_of_nonneg_right hi2 hh.le
    rcases c with ⟨c, c'⟩ | ⟨c, c'⟩
    · have := t1 (by omega)
      refine hr ⟨hy1', by linarith [hc.2]⟩ ?_
      rw [hnear, _root_.abs_le]
      constructor <;> linarith [hc.2]
    · have := t2 (by omega)
      refine hr ⟨hy1', by linarith⟩ ?_
      rw [hnear, _root_.abs_le]
      constructor <;> linarith [hc.1]
  rcases g3 with rfl | g3 | g3
  · exact ⟨r, by rw [search, own]⟩
  · -- one row below
    rcases hpass r g2.1 g2.2 with e | ⟨r', e, a, b, c⟩
    · exact ⟨r, by rw [search, e]⟩
    have hc := abs_le.1 (cen r g2.1 g2.2)
    rw [hnear] at hc
    have hr : (r : K) + 1 = i := by exact_mod_cast g3
    rcases c with ⟨c, c'⟩ | ⟨c, c'⟩
    · rw [← hr] at s1
      exfalso
      linarith [hc.2]
    · obtain rfl : r' = i := by
        by_contra hne
        exact hint ⟨by omega, by omega⟩
      exact ⟨r', by rw [search, e]; simp only; rw [search, own]⟩
  · -- one row above
    rcases hpass r g2.1 g2.2 with e | ⟨r', e, a, b, c⟩
    · exact ⟨r, by rw [search, e]⟩
    have hc := abs_le.1 (cen r g2.1 g2.2)
    rw [hnear] at hc
    have hr : (r : K) = i + 1 := by exact_mod_cast g3
    rcases c with ⟨c, c'⟩ | ⟨c, c'⟩
    · obtain rfl : r' = i := by
        by_contra hne
        exact hint ⟨by omega, by omega⟩
      exact ⟨r', by rw [search, e]; simp only; rw [search, own]⟩
    · rw [hr] at hc
      exfalso
      linarith [hc.1]

end Gear.Rect.Double
