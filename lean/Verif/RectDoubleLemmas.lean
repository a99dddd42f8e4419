/-
Lemmas about rectangular layouts with the arithmetic of `double`.
-/
import Verif.RectDoubleSpec
import Verif.RectLemmas2
import Verif.DoublesGrid
import Verif.PadAngleDoubleProps

set_option autoImplicit false
set_option linter.unusedSectionVars false

namespace Gear.Rect.Double

open PadIndex Doubles Spec
open MaterialMap (Arith)
open PadAngle.Double (toInt)
open PadAngle.Double.Spec (Rounded)

variable {K : Type} [Field K] [LinearOrder K] [IsStrictOrderedRing K] [FloorRing K]
variable {F : Arith K} {u : K} {A : Args K} {L : Layout K}

/-- Rounding what is nearly `V`. -/
theorem near (R : Rounded F u) {v V e B : K} (h : |v - V| ≤ e) (hV : |V| ≤ B) : |F.rnd v - V| ≤ e + u * (B + e) := by
  have h1 := R.rounding.err v
  have h2 : |v| ≤ B + e := by
    have := abs_sub_abs_le_abs_sub v V
    linarith
  have h3 := mul_le_mul_of_nonneg_left h2 R.nonneg
  calc |F.rnd v - V| = |(F.rnd v - v) + (v - V)| := by ring_nf
    _ ≤ _ := (abs_add_le _ _).trans (by linarith)

/-! ### The rows -/

/-- The lower edge of row `k`, as it is calculated. -/
def edge (F : Arith K) (y h : K) : ℕ → K
  | 0 => y
  | k + 1 => F.add (edge F y h k) h

theorem edge_shift (F : Arith K) (y h : K) (k : ℕ) : edge F (F.add y h) h k = edge F y h (k + 1) := by
  induction k with
  | zero => rfl
  | succ k ih => rw [edge, ih]; rfl

theorem pushRows_spec (F : Arith K) (row : Row K) (n : ℕ) (L : Layout K) :
    (pushRows F row n L).rows = L.rows ++ (List.range n).map (fun k =>
      { row with center := F.add (edge F L.yMax row.height k) (F.div row.height 2) }) ∧
    (pushRows F row n L).yMax = edge F L.yMax row.height n ∧ (pushRows F row n L).yMin = L.yMin ∧
    (pushRows F row n L).xMin = L.xMin ∧ (pushRows F row n L).xMax = L.xMax := by
  induction n generalizing L with
  | zero => exact ⟨by simp [pushRows], rfl, rfl, rfl, rfl⟩
  | succ n ih =>
    rw [pushRows]
    obtain ⟨h1, h2, h3, h4, h5⟩ := ih { L with
      yMax := F.add L.yMax row.height
      rows := L.rows ++ [{ row with center := F.add L.yMax (F.div row.height 2) }]
      padIndices := L.padIndices ++ [none] }
    refine ⟨?_, h2.trans (edge_shift F _ _ _), h3, h4, h5⟩
    rw [h1, List.range_succ_eq_map, List.map_cons, List.map_map, List.append_assoc]
    refine congrArg _ (congrArg₂ _ rfl ?_)
    refine List.map_congr_left fun k _ => ?_
    simp only [Function.comp, edge_shift]

/-- What is in the layout. -/
structure Built (F : Arith K) (A : Args K) (L : Layout K) : Prop where
  xMin : L.xMin = A.xMin
  xMax : L.xMax = A.xMax
  yMin : L.yMin = A.yMin
  yMax : L.yMax = edge F A.yMin A.height A.nRow.toNat
  length : (L.rows.length : ℤ) = A.nRow
  rows : 0 < A.nRow
  pads : 0 < A.nPad
  leftOffset : 0 ≤ A.leftOffset
  rightOffset : 0 ≤ A.rightOffset
  padHeight : 0 ≤ A.padHeight
  padWidth : 0 ≤ A.padWidth
  fits : F.rnd (A.nPad * A.padWidth) ≤ F.rnd (F.rnd A.right - F.rnd A.left)
  higher : A.padHeight ≤ A.height
  row : ∀ i : ℤ, 0 ≤ i → i < A.nRow → elem L.rows i = some
    { nPad := A.nPad, padWidth := A.padWidth, padHeight := A.padHeight, height := A.height
      leftOffset := A.leftOffset, rightOffset := A.rightOffset
      center := F.rnd (edge F A.yMin A.height i.toNat + F.rnd (A.height / 2))
      widthPerPad := F.rnd (F.rnd (F.rnd A.right - F.rnd A.left) / A.nPad) }

theorem built (h : MadeOf F A L) : Built F A L := by
  unfold MadeOf addRow at h
  dsimp only at h
  rw [show (if A.rowHeight = 0 then A.padHeight else A.rowHeight) = A.height from rfl] at h
  split_ifs at h with h1 h2 h3
  · exact absurd (Prod.ext_iff.1 h).2 (by simp)
  · exact absurd (Prod.ext_iff.1 h).2 (by simp)
  rotate_left
  · exact absurd (Prod.ext_iff.1 h).2 (by simp)
  · obtain ⟨g1, g2, g3, g4, g5, g6, g7⟩ := h1
    have hL := (Prod.ext_iff.1 h).1
    dsimp only at hL
    obtain ⟨e1, e2, e3, e4, e5⟩ := pushRows_spec F
      { nPad := A.nPad, padWidth := A.padWidth, padHeight := A.padHeight, height := A.height
        leftOffset := A.leftOffset, rightOffset := A.rightOffset, center := 0
        widthPerPad := F.div (F.sub (F.sub (Rect.new A.xMin A.xMax A.yMin).xMax A.rightOffset)
          (F.add (Rect.new A.xMin A.xMax A.yMin).xMin A.leftOffset)) A.nPad } A.nRow.toNat
      { Rect.new A.xMin A.xMax A.yMin with nPad := (Rect.new A.xMin A.xMax A.yMin).nPad + |A.nRow| * |A.nPad| }
    subst hL
    have hn : ((A.nRow.toNat : ℕ) : ℤ) = A.nRow := Int.toNat_of_nonneg g1.le
    refine ⟨e4, e5, e3, e2, ?_, g1, g2, not_lt.1 g6, not_lt.1 g7, not_lt.1 g4, not_lt.1 g3, not_lt.1 h2, not_lt.1 h3, ?_⟩
    · dsimp only
      rw [e1]
      simp only [Rect.new, List.nil_append, List.length_map, List.length_range]
      exact hn
    · intro i h0 hi
      dsimp only
      rw [e1, show i = ((i.toNat : ℕ) : ℤ) from (Int.toNat_of_nonneg h0).symm, elem_nat]
      simp only [Rect.new, List.nil_append, List.getElem?_map]
      rw [List.getElem?_range (by omega)]
      rfl

/-! ### Rounding errors of rows -/

/-- Everything that is known about the heights. -/
structure Scale (A : Args K) (u Q E : K) : Prop where
  q : Q = u * (|A.yMin| + A.nRow * A.height)
  eta : E = 2 * A.nRow * Q
  pos : 0 < Q
  q0 : 0 ≤ Q
  q_le : Q ≤ E / 2
  n1 : (1 : K) ≤ A.nRow
  h : 0 < A.height
  ku : ∀ k : ℕ, (k : ℤ) ≤ A.nRow → 2 * (k : K) * u ≤ 1 / 50
  X : ∀ t : K, 0 ≤ t → t ≤ A.nRow → |A.yMin + t * A.height| ≤ |A.yMin| + A.nRow * A.height
  hq : u * A.height ≤ Q

theorem scale (R : Rounded F u) (hA : A.Proper u) (B : Built F A L) :
    Scale A u (u * (|A.yMin| + A.nRow * A.height)) (A.yError u) := by
  have n1 : (1 : K) ≤ A.nRow := by exact_mod_cast B.rows
  have h := hA.height
  have hu := R.nonneg
  have hM : 0 ≤ |A.yMin| + A.nRow * A.height := add_nonneg (abs_nonneg _) (mul_nonneg (by linarith) h.le)
  have q0 := mul_nonneg hu hM
  have qp : 0 < u * (|A.yMin| + A.nRow * A.height) :=
    mul_pos R.pos (add_pos_of_nonneg_of_pos (abs_nonneg _) (mul_pos (by linarith) h))
  have he : A.yError u = 2 * A.nRow * (u * (|A.yMin| + A.nRow * A.height)) := by unfold Args.yError; ring
  refine ⟨rfl, he, qp, q0, ?_, n1, h, ?_, ?_, ?_⟩
  · rw [he]
    have := mul_le_mul_of_nonneg_right n1 q0
    linarith
  · intro k hk
    have hk' : (k : K) ≤ A.nRow := by exact_mod_cast hk
    have := mul_le_mul_of_nonneg_right hk' hu
    linarith [hA.few]
  · intro t h0 ht
    have := mul_le_mul_of_nonneg_right ht h.le
    refine (abs_add_le _ _).trans ?_
    rw [abs_of_nonneg (mul_nonneg h0 h.le)]
    linarith
  · refine mul_le_mul_of_nonneg_left ?_ hu
    have := mul_le_mul_of_nonneg_right n1 h.le
    linarith [abs_nonneg A.yMin]

theorem edge_near (R : Rounded F u) {q eta : K} (S : Scale A u q eta) (k : ℕ) (hk : (k : ℤ) ≤ A.nRow) :
    |edge F A.yMin A.height k - (A.yMin + k * A.height)| ≤ 2 * k * q := by
  induction k with
  | zero => simp [edge]
  | succ k ih =>
    have hk' : (k : ℤ) + 1 ≤ A.nRow := by push_cast at hk; exact hk
    have ih := ih (by omega)
    have hk2 : (k : K) + 1 ≤ A.nRow := by exact_mod_cast hk'
    have hX := S.X (k + 1) (by positivity) hk2
    have := near R (v := edge F A.yMin A.height k + A.height) (V := A.yMin + (k + 1) * A.height) (e := 2 * k * q)
      (by rw [show edge F A.yMin A.height k + A.height - (A.yMin + ((k : K) + 1) * A.height) =
        edge F A.yMin A.height k - (A.yMin + k * A.height) by ring]; exact ih) hX
    have hku := mul_le_mul_of_nonneg_right (S.ku k (by omega)) S.q0
    have hq := S.q
    rw [edge]
    push_cast
    unfold Arith.add
    have e : u * (|A.yMin| + A.nRow * A.height + 2 * k * q) = q + 2 * k * u * q := by rw [mul_add, ← hq]; ring
    rw [e] at this
    linarith [S.q0]

theorem half_near (R : Rounded F u) {q eta : K} (S : Scale A u q eta) {h : K} (h0 : 0 ≤ h) (hh : h ≤ A.height) :
    |F.rnd (h / 2) - h / 2| ≤ q / 2 := by
  have := R.rounding.err (h / 2)
  rw [abs_of_nonneg (by linarith : 0 ≤ h / 2)] at this
  have := mul_le_mul_of_nonneg_left hh R.nonneg
  linarith [S.hq]

/-- The middle of a row. -/
theorem center_near (R : Rounded F u) {q eta : K} (S : Scale A u q eta) {i : ℤ} (h0 : 0 ≤ i) (hi : i < A.nRow) :
    |F.rnd (edge F A.yMin A.height i.toNat + F.rnd (A.height / 2)) - A.yCenter i| ≤ eta := by
  obtain ⟨k, rfl⟩ := Int.eq_ofNat_of_zero_le h0
  rw [Int.toNat_natCast]
  have hk : (k : ℤ) + 1 ≤ A.nRow := hi
  have hk' : (k : K) + 1 ≤ A.nRow := by exact_mod_cast hk
  have e1 := edge_near R S k (by omega)
  have e2 := half_near R S S.h.le le_rfl
  have hX := S.X (k + 1 / 2) (by positivity) (by linarith)
  have e3 : |edge F A.yMin A.height k + F.rnd (A.height / 2) - (A.yMin + (k + 1 / 2) * A.height)| ≤ 2 * k * q + q / 2 := by
    rw [show edge F A.yMin A.height k + F.rnd (A.height / 2) - (A.yMin + ((k : K) + 1 / 2) * A.height) =
      (edge F A.yMin A.height k - (A.yMin + k * A.height)) + (F.rnd (A.height / 2) - A.height / 2) by ring]
    exact (abs_add_le _ _).trans (by linarith)
  have e4 := near R e3 hX
  have e : u * (|A.yMin| + A.nRow * A.height + (2 * k * q + q / 2)) = q + 2 * k * u * q + u * q / 2 := by
    rw [mul_add, ← S.q]; ring
  rw [e] at e4
  have f1 := mul_le_mul_of_nonneg_right (S.ku k (by omega)) S.q0
  have f2 := mul_le_mul_of_nonneg_right R.small S.q0
  have f3 := mul_le_mul_of_nonneg_right hk' S.q0
  have he := S.eta
  have hc : A.yCenter (k : ℤ) = A.yMin + (k + 1 / 2) * A.height := by unfold Args.yCenter; push_cast; rfl
  rw [hc]
  linarith [S.q0]

theorem top_near (R : Rounded F u) {q eta : K} (S : Scale A u q eta) (h : 0 < A.nRow) :
    |edge F A.yMin A.height A.nRow.toNat - (A.yMin + A.nRow * A.height)| ≤ eta := by
  have hn : ((A.nRow.toNat : ℕ) : ℤ) = A.nRow := Int.toNat_of_nonneg h.le
  have := edge_near R S A.nRow.toNat hn.le
  have e : ((A.nRow.toNat : ℕ) : K) = (A.nRow : K) := by exact_mod_cast congrArg (Int.cast (R := K)) hn
  rw [e] at this
  rw [S.eta]
  exact this

end Gear.Rect.Double
