/-
Rectangular layouts with the arithmetic of `double` (C146, C147).
-/
import Verif.RectDoubleWidth
import Verif.RectDoubleSafe
import Verif.RectProps

set_option autoImplicit false
set_option linter.unusedSectionVars false

namespace Gear.Rect.Double

open PadIndex Doubles Spec
open MaterialMap (Arith)
open PadAngle.Double (toInt doubles doubles_rounded)
open PadAngle.Double.Spec (Rounded)

variable {K : Type} [Field K] [LinearOrder K] [IsStrictOrderedRing K] [FloorRing K]
variable {F : Arith K} {u : K} {A : Args K} {L : Layout K} {row pad p : ℤ}

/-- The index of a pad is made of its row and pad numbers. -/
theorem index_parts (hA : A.Proper u) (B : Built F A L) (hp : A.IsPad row pad) (h : getPadIndex L row pad = .ok p) :
    getRowNumber L p = .ok row ∧ getPadNumber L p = pad := by
  obtain ⟨⟨r0, r1⟩, p0, p1⟩ := hp
  have hf : Rect.Spec.IsPad L row pad := ⟨_, B.row row r0 r1, p0, p1⟩
  have hr : row < 65536 := by have := hA.rows; omega
  have hlen : row < L.rows.length := by rw [B.length]; exact r1
  obtain ⟨he, -⟩ := encode_of_getPadIndex h
  have hrb := rowBits_encode he
  refine ⟨?_, padBits_encode' he p0 (by have := hA.pads; omega)⟩
  rw [getRowNumber_of (by rw [hrb]; exact hlen), hrb]

/-! ### C146 and C147 -/

/-- Every row and pad number below the numbers asked for has an index. -/
theorem index_double (hA : A.Proper u) (hL : MadeOf F A L) (hp : A.IsPad row pad) :
    ∃ p, getPadIndex L row pad = .ok p ∧ getRowNumber L p = .ok row ∧ getPadNumber L p = pad := by
  have B := built hL
  obtain ⟨⟨r0, r1⟩, p0, p1⟩ := hp
  have hr : row < 65536 := by have := hA.rows; omega
  obtain ⟨p, he⟩ := encode_isOk (row := row) pad r0 hr
  have hi : getPadIndex L row pad = .ok p := by
    rw [getPadIndex_of (B.row row r0 r1) hr (by dsimp only; omega), he]
  exact ⟨p, hi, index_parts hA B ⟨⟨r0, r1⟩, p0, p1⟩ hi⟩

/-- The centre of a pad is where it is in exact arithmetic, up to ten roundings horizontally, and vertically up to two
roundings for every row. -/
theorem center_double (R : Rounded F u) (hA : A.Proper u) (hL : MadeOf F A L) (hp : A.IsPad row pad)
    (h : getPadIndex L row pad = .ok p) :
    ∃ c, getPadCenter F L p = .ok c ∧ |c.1 - A.xCenter pad| ≤ 10 * A.xError u ∧ |c.2 - A.yCenter row| ≤ A.yError u := by
  have B := built hL
  obtain ⟨e1, e2⟩ := index_parts hA B hp h
  obtain ⟨⟨r0, r1⟩, p0, p1⟩ := hp
  unfold getPadCenter
  rw [e1, Res.bind_ok, e2]
  dsimp only
  rw [elemUb_of (B.row row r0 r1), Res.bind_ok]
  refine ⟨_, rfl, ?_, center_near R (scale R hA B) r0 r1⟩
  dsimp only
  rw [B.xMin]
  exact xCenter_near R hA B p0 p1

/-- A point in the part of the row that belongs to a pad, not too near to its border, is found there in two passes of the
search. -/
theorem nearest_double_partial (R : Rounded F u) (hA : A.Proper u) (hL : MadeOf F A L) (hp : A.IsPad row pad)
    (h : getPadIndex L row pad = .ok p) {x y : K} (hx : |x - A.xCenter pad| ≤ A.pitch / 2 - 12 * A.xError u)
    (hy : |y - A.yCenter row| ≤ A.padHeight / 2 - 10 * A.yError u) (fuel : ℕ) (hf : 2 ≤ fuel) :
    getNearestPad F L fuel x y = some (.ok p) := by
  have B := built hL
  have S := scale R hA B
  obtain ⟨⟨r0, r1⟩, p0, p1⟩ := hp
  have he := xError_pos R hA
  have h2 : 0 ≤ A.yError u := by linarith [S.q0, S.q_le]
  obtain ⟨r, g1, g2⟩ := search_near R S B hA.rows r0 r1 hy
  obtain ⟨-, hr1, hr2⟩ := y_range S r0 r1 B.higher hy
  have hm : (0 : K) < A.nPad := by exact_mod_cast B.pads
  have q0 : (0 : K) ≤ pad := by exact_mod_cast p0
  have q1 : (pad : K) + 1 ≤ A.nPad := by exact_mod_cast p1
  have hpit := (pitch_le hA B).1
  have hsum : A.nPad * A.pitch = A.right - A.left := by unfold Args.pitch; rw [mul_div_cancel₀ _ hm.ne']
  have a1 := mul_nonneg q0 hpit
  have a2 := mul_le_mul_of_nonneg_right q1 hpit
  have hx' := abs_le.1 hx
  have hc : A.xCenter pad = A.left + (pad + 1 / 2) * A.pitch := rfl
  have x1 : A.xMin ≤ x := by
    have : A.left = A.xMin + A.leftOffset := rfl
    linarith [hx'.1, B.leftOffset]
  have x2 : x ≤ A.xMax := by
    have : A.right = A.xMax - A.rightOffset := rfl
    linarith [hx'.2, B.rightOffset]
  have hT := abs_le.1 (top_near R S B.rows)
  have y2 : y ≤ edge F A.yMin A.height A.nRow.toNat := by
    have : A.yCenter row = A.yMin + (row + 1 / 2) * A.height := rfl
    have r1' : (row : K) + 1 ≤ A.nRow := by exact_mod_cast r1
    have := mul_le_mul_of_nonneg_right r1' hA.height.le
    linarith [hT.1, (abs_le.1 hy).2, B.higher]
  unfold getNearestPad
  have cx : clamp L.xMin L.xMax x = x := by
    unfold clamp
    rw [B.xMin, B.xMax, if_neg (not_lt.2 x1)]
    exact if_neg (not_lt.2 x2)
  have cy : clamp L.yMin L.yMax y = y := by
    unfold clamp
    rw [B.yMin, B.yMax, if_neg (not_lt.2 hr1)]
    exact if_neg (not_lt.2 y2)
  rw [cx, cy]
  dsimp only
  rw [g1]
  dsimp only
  rw [g2 fuel hf]
  dsimp only
  rw [padInRow_near R hA B r0 r1 p0 p1 hx, h]

/-- The pad that is nearest to the centre of a pad is this pad, if the pads are not as small as the roundings. -/
theorem nearest_center_double (R : Rounded F u) (hA : A.Proper u) (hL : MadeOf F A L) (hp : A.IsPad row pad)
    (h : getPadIndex L row pad = .ok p) (hw : 44 * A.xError u ≤ A.pitch) (hh : 22 * A.yError u ≤ A.padHeight) :
    ∃ c, getPadCenter F L p = .ok c ∧ ∀ fuel, 2 ≤ fuel → getNearestPad F L fuel c.1 c.2 = some (.ok p) := by
  obtain ⟨c, h1, h2, h3⟩ := center_double R hA hL hp h
  exact ⟨c, h1, fun fuel hf => nearest_double_partial R hA hL hp h (by linarith) (by linarith) fuel hf⟩

/-- For any rows without gaps between their pads, built by any calls, and any point: if `getNearestPad` returns it returns an
existing pad in a row that has the height of the point, up to three roundings, or in the first or last row if the point is
beyond this; or it throws `std::out_of_range`. -/
theorem nearest_double_safe_partial (R : Rounded F u) (hu : 400000 * u ≤ 1) (hodd : ∀ v, F.rnd (-v) = -F.rnd v)
    (xMin xMax yMin : K) (h : List (Op K)) (hL : L = run F xMin xMax yMin h) (hf : Rect.Spec.Fits L) (hpos : L.yMin < L.yMax)
    (hfull : FullRows L) (hne : 0 < getNRows L) (x y : K) (fuel : ℕ) (res : Res ℤ)
    (hn : getNearestPad F L fuel x y = some res) :
    res = .throw .outOfRange ∨ ∃ p row c a, res = .ok p ∧ Rect.Spec.IsPadIndex L p ∧ getRowNumber L p = .ok row ∧
      getPadCenter F L p = .ok c ∧ getPadHeight L p = .ok a ∧
      (|max L.yMin (min L.yMax y) - c.2| ≤ (1 + 3 * u) * (a / 2) ∨ (row = 0 ∧ max L.yMin (min L.yMax y) < c.2) ∨
        (row = getNRows L - 1 ∧ c.2 < max L.yMin (min L.yMax y))) := by
  have hw : Wf F L := by rw [hL]; exact wf_run xMin xMax yMin h
  have hcm := clamp_mem (lo := L.yMin) (hi := L.yMax) hpos.le y
  rw [← clamp_eq hpos.le]
  have hne' : 0 < L.rows.length := by unfold getNRows at hne; omega
  have hrows : ∀ r ∈ L.rows, r.padHeight = r.height ∧ 0 ≤ r.height := by
    intro r hr
    have hok := hw.rows r hr
    obtain ⟨i, hi, e⟩ := List.mem_iff_getElem.1 hr
    have hel : elem L.rows (i : ℤ) = some r := by rw [elem_nat, List.getElem?_eq_getElem hi, e]
    have hi2 : (i : ℤ) < 65536 := by have := hf.1; omega
    obtain ⟨p, hp⟩ := encode_isOk (row := (i : ℤ)) 0 (by omega) hi2
    have hidx : getPadIndex L i 0 = .ok p := by
      rw [getPadIndex_of hel hi2 (by have := hok.nPad; omega), hp]
    have hrb := rowBits_encode hp
    have hrn : getRowNumber L p = .ok (i : ℤ) := by rw [getRowNumber_of (by rw [hrb]; omega), hrb]
    have h1 : getPadHeight L p = .ok r.padHeight := by
      unfold getPadHeight
      rw [hrn, Res.bind_ok, elemUb_of hel, Res.bind_ok]
      rfl
    have h2 : getRowHeight L i = .ok r.height := by
      unfold getRowHeight
      rw [elemAt_of hel, Res.bind_ok]
      rfl
    exact ⟨hfull i 0 p _ _ hidx h1 h2, hok.padHeight.trans hok.height⟩
  obtain ⟨r, g1, g2, g3⟩ := startRow_range (F := F) R hu hf.1 hne' hpos hcm.1 hcm.2
  unfold getNearestPad at hn
  dsimp only at hn
  rw [g1] at hn
  dsimp only at hn
  rcases search_full R hodd hf.1 hrows hcm.1 hcm.2 fuel g2 g3 with e | ⟨r', row, e, hrow, hgood⟩
  · rw [e] at hn; cases hn
  rw [e] at hn
  dsimp only at hn
  have hn := Option.some.inj hn
  have hok := hw.rows row (elem_mem hrow)
  obtain ⟨k0, k1⟩ := elem_range hrow
  have hr2 : r' < 65536 := by have := hf.1; omega
  rcases padInRow_safe R hw hf.1 (x := clamp L.xMin L.xMax x) hrow (hf.2 row (elem_mem hrow)) with e2 | ⟨j, p, j0, j1, hidx, e2⟩
  · rw [e2] at hn
    exact Or.inl hn.symm
  · rw [e2] at hn
    right
    obtain ⟨he, -⟩ := encode_of_getPadIndex hidx
    have hrb := rowBits_encode he
    have hrn : getRowNumber L p = .ok r' := by rw [getRowNumber_of (by rw [hrb]; exact k1), hrb]
    refine ⟨p, r', (F.add (F.add (F.add L.xMin row.leftOffset) (F.mul (getPadNumber L p) row.widthPerPad))
      (F.div row.widthPerPad 2), row.center), row.padHeight, hn.symm, ⟨r', j, ⟨row, hrow, j0, j1⟩, hidx⟩, hrn, ?_, ?_, ?_⟩
    · unfold getPadCenter
      rw [hrn, Res.bind_ok]
      dsimp only
      rw [elemUb_of hrow, Res.bind_ok]
      rfl
    · unfold getPadHeight
      rw [hrn, Res.bind_ok, elemUb_of hrow, Res.bind_ok]
      rfl
    · exact hgood

/-- A layout made of equal rows without gaps gives an answer after two passes for every point, inside and outside, that is
not too near to a border of two rows. -/
theorem nearest_double_ends_partial (R : Rounded F u) (hodd : ∀ v, F.rnd (-v) = -F.rnd v) (hA : A.Proper u)
    (hL : MadeOf F A L) (hfull : A.padHeight = A.height) (hh : 20 * A.yError u ≤ A.height) (x y : K)
    (far : ∀ k : ℤ, 1 ≤ k → k < A.nRow →
      10 * A.yError u ≤ |max L.yMin (min L.yMax y) - (A.yMin + k * A.height)|) (fuel : ℕ) (hf : 2 ≤ fuel) :
    ∃ res, getNearestPad F L fuel x y = some res := by
  have B := built hL
  have S := scale R hA B
  have hT := abs_le.1 (top_near R S B.rows)
  have hn : (1 : K) ≤ A.nRow := by exact_mod_cast B.rows
  have hm := mul_le_mul_of_nonneg_right hn hA.height.le
  have hle : L.yMin ≤ L.yMax := by
    rw [B.yMin, B.yMax]
    have : (0 : K) ≤ A.yError u := by linarith [S.q0, S.q_le]
    linarith [hT.1]
  have hcm := clamp_mem hle y
  rw [← clamp_eq hle] at far
  obtain ⟨r, g1, g2⟩ := search_ends R hodd S B hA.rows hfull hh hcm.1 hcm.2 far
  obtain ⟨r', g3⟩ := g2 fuel hf
  unfold getNearestPad
  dsimp only
  rw [g1]
  dsimp only
  rw [g3]
  exact ⟨_, rfl⟩

/-- `isInsidePad` is right, except near to the border of the pad. -/
theorem inside_double (R : Rounded F u) (hA : A.Proper u) (hL : MadeOf F A L) (hp : A.IsPad row pad)
    (h : getPadIndex L row pad = .ok p) (x y : K) :
    ∃ b, isInsidePad F L x y p = .ok b ∧
      (|x - A.xCenter pad| ≤ A.padWidth / 2 - 12 * A.xError u → |y - A.yCenter row| ≤ A.padHeight / 2 - 2 * A.yError u →
        b = true) ∧
      (b = true → |x - A.xCenter pad| ≤ A.padWidth / 2 + 12 * A.xError u ∧
        |y - A.yCenter row| ≤ A.padHeight / 2 + 2 * A.yError u) := by
  have B := built hL
  have S := scale R hA B
  obtain ⟨e1, e2⟩ := index_parts hA B hp h
  obtain ⟨⟨r0, r1⟩, p0, p1⟩ := hp
  obtain ⟨f1, f2⟩ := ends_near R hA B p0 p1
  have f3 := center_near R S r0 r1
  have hP := half_near R S B.padHeight B.higher
  have hq := S.q_le
  have hq0 := S.q0
  have hX1 : |A.yCenter row - A.padHeight / 2| ≤ |A.yMin| + A.nRow * A.height ∧
      |A.yCenter row + A.padHeight / 2| ≤ |A.yMin| + A.nRow * A.height := by
    have r0' : (0 : K) ≤ row := by exact_mod_cast r0
    have r1' : (row : K) + 1 ≤ A.nRow := by exact_mod_cast r1
    have a1 := mul_le_mul_of_nonneg_right r1' hA.height.le
    have a2 := mul_nonneg r0' hA.height.le
    have a3 := B.higher
    have a4 := B.padHeight
    have hc : A.yCenter row = A.yMin + (row + 1 / 2) * A.height := rfl
    constructor <;> rw [abs_le] <;> constructor <;>
      linarith [neg_abs_le A.yMin, le_abs_self A.yMin]
  unfold isInsidePad
  rw [e1, e2]
  dsimp only
  rw [Res.bind_ok, elemUb_of (B.row row r0 r1), Res.bind_ok]
  dsimp only
  unfold Arith.add Arith.sub Arith.mul Arith.div
  rw [B.xMin, show F.rnd (A.xMin + A.leftOffset) = F.rnd A.left from rfl]
  refine ⟨_, rfl, ?_⟩
  generalize F.rnd (edge F A.yMin A.height row.toNat + F.rnd (A.height / 2)) = c at *
  generalize F.rnd (A.padHeight / 2) = P2 at *
  have g1 := near' R (v := c - P2) (V := A.yCenter row - A.padHeight / 2) S.q.ge (e := 5 / 4 * A.yError u) (by
    rw [show c - P2 - (A.yCenter row - A.padHeight / 2) = (c - A.yCenter row) - (P2 - A.padHeight / 2) by ring]
    exact (abs_sub _ _).trans (by linarith)) hX1.1 (eta := 2 * A.yError u) (by linarith)
  have g2 := near' R (v := c + P2) (V := A.yCenter row + A.padHeight / 2) S.q.ge (e := 5 / 4 * A.yError u) (by
    rw [show c + P2 - (A.yCenter row + A.padHeight / 2) = (c - A.yCenter row) + (P2 - A.padHeight / 2) by ring]
    exact (abs_add_le _ _).trans (by linarith)) hX1.2 (eta := 2 * A.yError u) (by linarith)
  rw [abs_le] at f1 f2 g1 g2
  constructor
  · intro hx hy
    rw [abs_le] at hx hy
    rw [decide_eq_true_iff]
    refine ⟨?_, ?_, ?_, ?_⟩ <;> linarith [f1.2, f2.1, g1.2, g2.1, hx.1, hx.2, hy.1, hy.2]
  · intro hb
    rw [decide_eq_true_iff] at hb
    obtain ⟨k1, k2, k3, k4⟩ := hb
    rw [abs_le, abs_le]
    refine ⟨⟨?_, ?_⟩, ?_, ?_⟩ <;> linarith [f1.1, f2.2, g1.1, g2.2]

/-! #### Examples, and points near the borders -/

/-- Four rows of height 0.9, with three pads each, from 0 to 3.6. -/
def rows09 : Args ℚ := ⟨0, 1, 0, 4, 3, 1 / 4, MaterialMap.binary64 (9 / 10), 0, 0, 0⟩

/-- The layout of these. -/
def rows09Layout : Layout ℚ :=
  (addRow doubles (Rect.new rows09.xMin rows09.xMax rows09.yMin) rows09.nRow rows09.nPad rows09.padWidth rows09.padHeight
    rows09.rowHeight rows09.leftOffset rows09.rightOffset).1

theorem rows09_proper : rows09.Proper (1 / 2 ^ 53) :=
  ⟨by decide +kernel, by decide +kernel, by decide +kernel, by decide +kernel, by decide +kernel⟩

theorem rows09_made : MadeOf doubles rows09 rows09Layout := by
  unfold MadeOf
  decide +kernel

example : rows09.IsPad 2 1 ∧ getPadIndex rows09Layout 2 1 = .ok 131073 ∧
    44 * rows09.xError (1 / 2 ^ 53) ≤ rows09.pitch ∧ 22 * rows09.yError (1 / 2 ^ 53) ≤ rows09.padHeight ∧
    |1 / 2 - rows09.xCenter 1| ≤ rows09.pitch / 2 - 12 * rows09.xError (1 / 2 ^ 53) ∧
    |2 - rows09.yCenter 2| ≤ rows09.padHeight / 2 - 10 * rows09.yError (1 / 2 ^ 53) ∧
    |1 / 2 - rows09.xCenter 1| ≤ rows09.padWidth / 2 - 12 * rows09.xError (1 / 2 ^ 53) := by
  refine ⟨⟨by decide +kernel, by decide +kernel⟩, by decide +kernel, by decide +kernel, by decide +kernel, by decide +kernel,
    by decide +kernel, by decide +kernel⟩

example : getNearestPad doubles rows09Layout 2 (1 / 2) 2 = some (.ok 131073) := by decide +kernel

/-- On the border of two rows the search can go back and forth between them for ever: `getNearestPad(0.5, 2.7)` does not
return. -/
theorem nearest_double_false_endless : ∃ (A : Args ℚ) (L : Layout ℚ) (x y : ℚ), A.Proper (1 / 2 ^ 53) ∧ MadeOf doubles A L ∧
    x = 1 / 2 ∧ y = MaterialMap.binary64 (27 / 10) ∧ (L.xMin < x ∧ x < L.xMax) ∧ (L.yMin < y ∧ y < L.yMax) ∧
    ∀ fuel, getNearestPad doubles L fuel x y = none := by
  refine ⟨rows09, rows09Layout, 1 / 2, MaterialMap.binary64 (27 / 10), rows09_proper, rows09_made, rfl, rfl,
    by decide +kernel, by decide +kernel, fun fuel => ?_⟩
  have p2 : pass doubles rows09Layout (MaterialMap.binary64 (27 / 10)) 2 = .ok (.next 3) := by decide +kernel
  have p3 : pass doubles rows09Layout (MaterialMap.binary64 (27 / 10)) 3 = .ok (.next 2) := by decide +kernel
  have hs : ∀ n, search doubles rows09Layout (MaterialMap.binary64 (27 / 10)) n 2 = none ∧
      search doubles rows09Layout (MaterialMap.binary64 (27 / 10)) n 3 = none := by
    intro n
    induction n with
    | zero => exact ⟨rfl, rfl⟩
    | succ n ih =>
      constructor
      · rw [search, p2]; exact ih.2
      · rw [search, p3]; exact ih.1
  have hc : clamp rows09Layout.yMin rows09Layout.yMax (MaterialMap.binary64 (27 / 10)) = MaterialMap.binary64 (27 / 10) := by
    decide +kernel
  have h0 : startRow doubles rows09Layout (MaterialMap.binary64 (27 / 10)) = .ok 2 := by decide +kernel
  unfold getNearestPad
  rw [hc]
  dsimp only
  rw [h0]
  dsimp only
  rw [(hs fuel).1]

/-- A point just left of the right edge of the layout can be given a pad number that is too large: `getNearestPad` throws
`std::out_of_range`. -/
theorem nearest_double_false_throws : ∃ (A : Args ℚ) (L : Layout ℚ) (x y : ℚ), A.Proper (1 / 2 ^ 53) ∧ MadeOf doubles A L ∧
    (doubles.rnd x = x ∧ doubles.rnd y = y) ∧ (L.xMin < x ∧ x < L.xMax) ∧ (L.yMin < y ∧ y < L.yMax) ∧
    ∀ fuel, 1 ≤ fuel → getNearestPad doubles L fuel x y = some (.throw .outOfRange) := by
  refine ⟨rows09, rows09Layout, 1 - 1 / 2 ^ 53, 2, rows09_proper, rows09_made, by decide +kernel, by decide +kernel,
    by decide +kernel, fun fuel hf => ?_⟩
  obtain ⟨f, rfl⟩ : ∃ f, fuel = f + 1 := ⟨fuel - 1, by omega⟩
  have hx : clamp rows09Layout.xMin rows09Layout.xMax (1 - 1 / 2 ^ 53) = 1 - 1 / 2 ^ 53 := by decide +kernel
  have hc : clamp rows09Layout.yMin rows09Layout.yMax 2 = 2 := by decide +kernel
  have h0 : startRow doubles rows09Layout 2 = .ok 2 := by decide +kernel
  have h1 : pass doubles rows09Layout 2 2 = .ok (.done 2) := by decide +kernel
  have h2 : padInRow doubles rows09Layout (1 - 1 / 2 ^ 53) 2 = .throw .outOfRange := by decide +kernel
  unfold getNearestPad
  rw [hc, hx]
  dsimp only
  rw [h0]
  dsimp only
  rw [search, h1]
  dsimp only
  rw [h2]

example : Rect.Spec.Fits rows09Layout ∧ FullRows rows09Layout ∧ rows09Layout.yMin < rows09Layout.yMax ∧
    rows09Layout = run doubles 0 1 0 [.addRow 4 3 (1 / 4) (MaterialMap.binary64 (9 / 10)) 0 0 0] ∧
    (∀ v, doubles.rnd (-v) = -doubles.rnd v) ∧ (400000 * (1 / 2 ^ 53) : ℚ) ≤ 1 := by
  have hrow : ∀ r ∈ rows09Layout.rows, r.nPad = 3 ∧ r.padHeight = r.height := by decide +kernel
  refine ⟨⟨by decide +kernel, fun r hr => by rw [(hrow r hr).1]; norm_num⟩, ?_, by decide +kernel, by decide +kernel,
    fun v => binary64_neg v, by norm_num⟩
  intro row pad p a b h1 h2 h3
  obtain ⟨he, r, hr, -⟩ := encode_of_getPadIndex h1
  have hrb := rowBits_encode he
  have hrn : getRowNumber rows09Layout p = .ok row := by rw [getRowNumber_of (by rw [hrb]; exact (elem_range hr).2), hrb]
  unfold getPadHeight at h2
  rw [hrn, Res.bind_ok, elemUb_of hr, Res.bind_ok] at h2
  unfold getRowHeight at h3
  rw [elemAt_of hr, Res.bind_ok] at h3
  cases h2
  cases h3
  exact (hrow r (elem_mem hr)).2

example : rows09.padHeight = rows09.height ∧ 20 * rows09.yError (1 / 2 ^ 53) ≤ rows09.height ∧
    ∀ k : ℤ, 1 ≤ k → k < rows09.nRow → 10 * rows09.yError (1 / 2 ^ 53) ≤
      |max rows09Layout.yMin (min rows09Layout.yMax 5) - (rows09.yMin + k * rows09.height)| := by
  refine ⟨by decide +kernel, by decide +kernel, fun k h1 h2 => ?_⟩
  have h3 : rows09.nRow = 4 := rfl
  obtain rfl | rfl | rfl : k = 1 ∨ k = 2 ∨ k = 3 := by omega
  all_goals decide +kernel

theorem pushRows_exact (G : Disk.Fns K) (row : Row K) (n : ℕ) (L : Layout K) :
    pushRows ⟨G, id⟩ row n L = Rect.pushRows row n L := by
  induction n generalizing L with
  | zero => rfl
  | succ n ih => rw [pushRows, Rect.pushRows, ih]; rfl

/-- In exact arithmetic the functions are those of `RectLayout.lean`. -/
theorem exact_arithmetic (G : Disk.Fns K) (L : Layout K) (x y : K) (p nRow nPad : ℤ) (w ph rh l r : K) :
    addRow ⟨G, id⟩ L nRow nPad w ph rh l r = Rect.addRow L nRow nPad w ph rh l r ∧
      getPadCenter ⟨G, id⟩ L p = Rect.getPadCenter L p ∧ isInsidePad ⟨G, id⟩ L x y p = Rect.isInsidePad L x y p := by
  refine ⟨?_, rfl, rfl⟩
  unfold addRow Rect.addRow
  dsimp only
  simp only [pushRows_exact]
  rfl

end Gear.Rect.Double
