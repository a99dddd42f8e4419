/-
Lemmas about layouts with a fixed pad angle.
-/
import Verif.PadAngleSpec
import Verif.DiskLemmas

set_option autoImplicit false
set_option linter.unusedSectionVars false

namespace Gear.PadAngle

open PadIndex Disk Spec
open Rect (elem)

variable {K : Type} [Field K] [LinearOrder K] [IsStrictOrderedRing K] [FloorRing K]

/-- Everything but the cache is what the constructor put there; the cache holds correct lists. -/
structure Inv (A : Args K) (L : Layout K) : Prop where
  rows : 0 ≤ A.nRow
  rMin : L.rMin = A.rMin
  rMax : L.rMax = A.rMax
  nRow : L.nRow = A.nRow
  rowHeight : L.rowHeight = A.dr
  phiMin : L.phiMin = A.phiMin
  phiMax : L.phiMax = A.phiMax
  padAngle : L.padAngle = A.dphi
  nPadsInRow : L.nPadsInRow = A.nPads
  nPad : L.nPad = A.nRow * A.nPads
  extent : L.extent = [A.rMin, A.rMax, A.phiMin, A.phiMax]
  len : L.padIndices.length = A.nRow.toNat
  cache : ∀ (i : ℕ) l, L.padIndices[i]? = some (some l) →
    buildPads (getPadIndex L) i A.nPads.toNat = .ok l ∧ 0 ≤ A.nPads

theorem getPadsInRow_cases (L : Layout K) (row : ℤ) :
    (getPadsInRow L row).1 = L ∨
      ∃ (i : ℕ) (l : List ℤ), row = i ∧ L.padIndices[i]? = some none ∧ ¬ L.nPadsInRow < 0 ∧
        buildPads (getPadIndex L) row L.nPadsInRow.toNat = .ok l ∧
        getPadsInRow L row = ({ L with padIndices := L.padIndices.set i (some l) }, .ok l) := by
  unfold getPadsInRow
  split
  · left; rfl
  · left; rfl
  · rename_i he
    obtain ⟨i, rfl, hi⟩ := Rect.elem_eq_some.1 he
    split_ifs with hn
    · left; rfl
    · split
      · rename_i l hl
        exact Or.inr ⟨i, l, rfl, hi, hn, hl, rfl⟩
      all_goals left; rfl

theorem getPadIndex_congr (L : Layout K) (c : List (Option (List ℤ))) :
    getPadIndex { L with padIndices := c } = getPadIndex L := rfl

theorem inv_made {A : Args K} {L : Layout K} (h : Made A L) : Inv A L := by
  induction h with
  | new h =>
    unfold PadAngle.new at h
    split_ifs at h with hn
    cases h
    exact { rows := not_lt.1 hn, rMin := rfl, rMax := rfl, nRow := rfl, rowHeight := rfl, phiMin := rfl,
            phiMax := rfl, padAngle := rfl, nPadsInRow := rfl, nPad := rfl, extent := rfl,
            len := by simp,
            cache := by
              intro i l h
              rw [List.getElem?_replicate] at h
              split_ifs at h <;> simp at h }
  | @padsInRow L row _ ih =>
    rcases getPadsInRow_cases L row with h | ⟨i, l, rfl, hi, hn, hb, h⟩
    · rw [h]; exact ih
    · rw [h]
      refine { ih with len := by simp [ih.len], cache := ?_ }
      intro j m hj
      show buildPads (getPadIndex L) j A.nPads.toNat = .ok m ∧ _
      rw [List.getElem?_set] at hj
      split_ifs at hj with h1 h2
      · subst h1; cases hj
        rw [ih.nPadsInRow] at hb hn
        exact ⟨hb, not_lt.1 hn⟩
      · exact ih.cache j m hj
  | @copy L _ ih =>
    refine { ih with len := by simp [copy, ih.nRow], cache := ?_ }
    intro i l h
    simp only [copy] at h
    rw [List.getElem?_replicate] at h
    split_ifs at h <;> simp at h

theorem Spec.Args.Proper.dr_pos {A : Args K} (h : A.Proper) : 0 < A.dr :=
  div_pos (sub_pos.2 h.r) (by exact_mod_cast h.rows.1)

theorem Spec.Args.Proper.dphi_pos {A : Args K} (h : A.Proper) : 0 < A.dphi :=
  div_pos (sub_pos.2 h.phi) (by exact_mod_cast h.pads.1)

theorem Spec.Args.Proper.rMax_eq {A : Args K} (h : A.Proper) : A.rMax = A.rMin + A.nRow * A.dr := by
  have : (A.nRow : K) ≠ 0 := by exact_mod_cast h.rows.1.ne'
  unfold Args.dr; field_simp; ring

theorem Spec.Args.Proper.phiMax_eq {A : Args K} (h : A.Proper) :
    A.phiMax = A.phiMin + A.nPads * A.dphi := by
  have : (A.nPads : K) ≠ 0 := by exact_mod_cast h.pads.1.ne'
  unfold Args.dphi; field_simp; ring

theorem getPadIndex_of {A : Args K} {L : Layout K} (hA : A.Proper) (hL : Inv A L) {row pad : ℤ}
    (h : A.IsPad row pad) : getPadIndex L row pad = encode row pad := by
  obtain ⟨⟨h0, h1⟩, h2, h3⟩ := h
  unfold getPadIndex
  rw [hL.nRow, hL.nPadsInRow, if_neg (by omega), if_neg (by omega)]

theorem index_isSome {A : Args K} {L : Layout K} (hA : A.Proper) (hL : Inv A L) {row pad : ℤ}
    (h : A.IsPad row pad) : ∃ p, getPadIndex L row pad = .ok p := by
  rw [getPadIndex_of hA hL h]
  exact encode_isOk _ h.1.1 (by have := hA.rows; have := h.1; omega)

theorem numbers {A : Args K} {L : Layout K} (hA : A.Proper) (hL : Inv A L) {row pad p : ℤ}
    (h : IsIndex A L row pad p) : getRowNumber p = row ∧ getPadNumber p = pad := by
  obtain ⟨h1, h2⟩ := h
  rw [getPadIndex_of hA hL h1] at h2
  have := hA.pads
  exact ⟨rowBits_encode h2, padBits_encode' h2 h1.2.1 (by have := h1.2.2; omega)⟩

theorem center_of {A : Args K} {L : Layout K} (hA : A.Proper) (hL : Inv A L) {row pad p : ℤ}
    (h : IsIndex A L row pad p) : getPadCenter L p =
      (((row : K) + 1 / 2) * A.dr + A.rMin, ((pad : K) + 1 / 2) * A.dphi + A.phiMin) := by
  obtain ⟨h1, h2⟩ := numbers hA hL h
  unfold getPadCenter
  simp only [h1, h2, hL.rowHeight, hL.padAngle, hL.rMin, hL.phiMin]

/-- The row `getNearestPad` takes from a radius. -/
theorem row_of_radius {A : Args K} (hA : A.Proper) (r : K) :
    let q := if r < A.rMin then 0 else ⌊(r - A.rMin) / A.dr⌋
    let row := if q ≥ A.nRow then A.nRow - 1 else q
    (0 ≤ row ∧ row < A.nRow) ∧
    (r < A.rMin → row = 0) ∧ (A.rMin ≤ r → A.rMin + row * A.dr ≤ r) ∧
    (r ≤ A.rMax → r ≤ A.rMin + (row + 1) * A.dr) ∧
    (A.rMax < r → row = A.nRow - 1) := by
  intro q row
  have hd := hA.dr_pos
  have hn := hA.rows
  have hm := hA.rMax_eq
  have hq0 : 0 ≤ q := by
    show 0 ≤ (if r < A.rMin then 0 else ⌊(r - A.rMin) / A.dr⌋)
    split_ifs with h
    · exact le_rfl
    · exact cell_nonneg hd (not_lt.1 h)
  have hc := cell (lo := A.rMin) (x := r) hd
  refine ⟨?_, ?_, ?_, ?_, ?_⟩
  · show 0 ≤ (if q ≥ A.nRow then A.nRow - 1 else q) ∧ (if q ≥ A.nRow then A.nRow - 1 else q) < _
    split_ifs <;> omega
  · intro h
    have : q = 0 := if_pos h
    show (if q ≥ A.nRow then A.nRow - 1 else q) = 0
    rw [this, if_neg (by omega)]
  · intro h
    have hq : q = ⌊(r - A.rMin) / A.dr⌋ := if_neg (not_lt.2 h)
    have : row ≤ q := by
      show (if q ≥ A.nRow then A.nRow - 1 else q) ≤ q
      split_ifs <;> omega
    have h1 : (row : K) ≤ q := by exact_mod_cast this
    have := mul_le_mul_of_nonneg_right h1 hd.le
    rw [← hq] at hc
    linarith [hc.1]
  · intro h
    by_cases hr : r < A.rMin
    · have h0 : (0 : K) ≤ row + 1 := by
        have : (0 : ℤ) ≤ row + 1 := by
          show 0 ≤ (if q ≥ A.nRow then A.nRow - 1 else q) + 1
          split_ifs <;> omega
        exact_mod_cast this
      have := mul_nonneg h0 hd.le
      linarith
    · have hq : q = ⌊(r - A.rMin) / A.dr⌋ := if_neg hr
      rw [← hq] at hc
      by_cases h1 : q ≥ A.nRow
      · have : row = A.nRow - 1 := if_pos h1
        rw [this]; push_cast; rw [hm] at h; linarith
      · have : row = q := if_neg h1
        rw [this]; linarith [hc.2]
  · intro h
    have hr : ¬ r < A.rMin := by linarith [hA.r]
    have hq : q = ⌊(r - A.rMin) / A.dr⌋ := if_neg hr
    have : A.nRow ≤ q := by
      rw [hq, Int.le_floor, le_div_iff₀ hd]; linarith
    exact if_pos this

theorem pad_of_angle {A : Args K} (hA : A.Proper) {phi : K} (h0 : A.phiMin ≤ phi) (h1 : phi < A.phiMax) :
    let pad := truncInt ((phi - A.phiMin) / A.dphi)
    (0 ≤ pad ∧ pad < A.nPads) ∧ A.phiMin + pad * A.dphi ≤ phi ∧ phi < A.phiMin + (pad + 1) * A.dphi := by
  have hd := hA.dphi_pos
  intro pad
  have : pad = ⌊(phi - A.phiMin) / A.dphi⌋ := truncInt_nonneg (div_nonneg (by linarith) hd.le)
  rw [this]
  refine ⟨⟨cell_nonneg hd h0, cell_lt hd ?_⟩, cell hd⟩
  rw [← hA.phiMax_eq]; exact h1

theorem edgeRow_range {F : Fns K} (hF : F.Ok) {A : Args K} {L : Layout K} (hA : A.Proper) (hL : Inv A L)
    {r : K} (hr : 0 ≤ r) (phi phiE : K) :
    0 ≤ edgeRow F L r phi phiE ∧ edgeRow F L r phi phiE < A.nRow := by
  have hn := hA.rows
  unfold edgeRow
  rw [hL.nRow, hL.rMin, hL.rowHeight]
  split_ifs with h1
  · omega
  · dsimp only
    by_cases h2 : r * (F.cos phi * F.cos phiE + F.sin phi * F.sin phiE) < A.rMin
    · simp only [if_pos h2]
      split_ifs <;> omega
    · simp only [if_neg h2]
      have h3 := mul_le_mul_of_nonneg_left (hF.cos_le phi phiE) hr
      have h4 := cell_nonneg (lo := A.rMin) (x := r) hA.dr_pos (by linarith)
      split_ifs <;> omega

end Gear.PadAngle
