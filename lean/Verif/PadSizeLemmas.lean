/-
Lemmas about layouts with a fixed pad size.
-/
import Verif.PadSizeSpec
import Verif.DiskLemmas

set_option autoImplicit false
set_option linter.unusedSectionVars false

namespace Gear.PadSize

open PadIndex Disk Spec
open Rect (elem elemUb elemAt)

variable {K : Type} [Field K] [LinearOrder K] [IsStrictOrderedRing K] [FloorRing K]

/-- Everything but the cache is what the constructor put there; the cache holds correct lists. -/
structure Inv (F : Fns K) (A : Args K) (L : Layout K) : Prop where
  rMin : L.rMin = A.rMin
  rMax : L.rMax = A.rMax
  phiMax : L.phiMax = wrapPhiMax F.pi A.phiMax
  padWidth : L.padWidth = A.padWidth
  padHeight : L.padHeight = A.padHeight
  padGap : L.padGap = A.padGap
  height_pos : 0 < A.padHeight
  width_pos : 0 < A.padWidth
  nRow : L.nRow = numRows A.rMin A.rMax A.padHeight A.nRow
  nRow_nonneg : 0 ≤ L.nRow
  rowHeight : L.rowHeight = (A.rMax - A.rMin) / L.nRow
  rows : L.rows = (List.range L.nRow.toNat).map (mkRow A.rMin L.phiMax A.padWidth A.padGap L.rowHeight)
  nPad : L.nPad = (L.rows.map Row.nPad).sum
  extent : L.extent = [A.rMin, A.rMax, 0, L.phiMax]
  len : L.padIndices.length = L.nRow.toNat
  cache : ∀ (i : ℕ) l, L.padIndices[i]? = some (some l) →
    ∃ row, L.rows[i]? = some row ∧ ¬ row.nPad < 0 ∧ buildPads (getPadIndex L) i row.nPad.toNat = .ok l

theorem getPadsInRow_cases (L : Layout K) (row : ℤ) :
    (getPadsInRow L row).1 = L ∨
      ∃ (i : ℕ) (r : Row K) (l : List ℤ), row = i ∧ L.padIndices[i]? = some none ∧ L.rows[i]? = some r ∧
        ¬ r.nPad < 0 ∧ buildPads (getPadIndex L) row r.nPad.toNat = .ok l ∧
        getPadsInRow L row = ({ L with padIndices := L.padIndices.set i (some l) }, .ok l) := by
  unfold getPadsInRow
  split
  · left; rfl
  · left; rfl
  · rename_i he
    obtain ⟨i, rfl, hi⟩ := Rect.elem_eq_some.1 he
    split
    · left; rfl
    · rename_i r hr
      rw [Rect.elem_nat] at hr
      split_ifs with hn
      · left; rfl
      · split
        · rename_i l hl
          exact Or.inr ⟨i, r, l, rfl, hi, hr, hn, hl, rfl⟩
        all_goals left; rfl

theorem foldl_nPad (l : List (Row K)) : l.foldl (fun s row => s + row.nPad) 0 = (l.map Row.nPad).sum := by
  rw [List.sum_eq_foldl, List.foldl_map]

theorem inv_made {F : Fns K} {A : Args K} {L : Layout K} (h : Made F A L) : Inv F A L := by
  induction h with
  | new h =>
    unfold PadSize.new at h
    split_ifs at h with h1
    dsimp only at h
    split_ifs at h with h2
    cases h
    rw [not_or, not_le, not_le] at h1
    exact { rMin := rfl, rMax := rfl, phiMax := rfl, padWidth := rfl, padHeight := rfl, padGap := rfl,
            height_pos := h1.1, width_pos := h1.2, nRow := rfl, nRow_nonneg := not_lt.1 h2,
            rowHeight := rfl, rows := rfl, nPad := foldl_nPad _, extent := rfl, len := by simp,
            cache := by
              intro i l h
              rw [List.getElem?_replicate] at h
              split_ifs at h <;> simp at h }
  | @padsInRow L row _ ih =>
    rcases getPadsInRow_cases L row with h | ⟨i, r, l, rfl, hi, hr, hn, hb, h⟩
    · rw [h]; exact ih
    · rw [h]
      refine { ih with len := by simp [ih.len], cache := ?_ }
      intro j m hj
      show ∃ row, L.rows[j]? = some row ∧ ¬ row.nPad < 0 ∧
        buildPads (getPadIndex L) j row.nPad.toNat = .ok m
      rw [List.getElem?_set] at hj
      split_ifs at hj with h1 h2
      · subst h1; cases hj
        exact ⟨r, hr, hn, hb⟩
      · exact ih.cache j m hj
  | @copy L _ ih =>
    refine { ih with len := by simp [copy], cache := ?_ }
    intro i l h
    simp only [copy] at h
    rw [List.getElem?_replicate] at h
    split_ifs at h <;> simp at h

theorem length_rows {F : Fns K} {A : Args K} {L : Layout K} (h : Inv F A L) :
    (L.rows.length : ℤ) = L.nRow := by
  have := h.nRow_nonneg
  rw [h.rows]; simp; omega

theorem elem_rows {F : Fns K} {A : Args K} {L : Layout K} (h : Inv F A L) {i : ℤ} {r : Row K} :
    elem L.rows i = some r ↔ (0 ≤ i ∧ i < L.nRow) ∧
      r = mkRow A.rMin L.phiMax A.padWidth A.padGap L.rowHeight i.toNat := by
  have hn := h.nRow_nonneg
  constructor
  · intro he
    have hr := Rect.elem_range he
    rw [length_rows h] at hr
    obtain ⟨n, rfl, he'⟩ := Rect.elem_eq_some.1 he
    rw [h.rows, List.getElem?_map, List.getElem?_range (by omega)] at he'
    exact ⟨hr, by simpa using he'.symm⟩
  · rintro ⟨hr, rfl⟩
    obtain ⟨n, rfl⟩ := Int.eq_ofNat_of_zero_le hr.1
    rw [Rect.elem_nat, h.rows, List.getElem?_map, List.getElem?_range (by omega)]
    rfl

theorem numRows_spec {rMin rMax padHeight : K} {nRow : ℤ} (hh : 0 < padHeight) (h : rMin ≤ rMax + 1 / 100) :
    ∃ nr : ℤ, IsMostThatFit padHeight (rMax + 1 / 100 - rMin) nr ∧ 0 ≤ nr ∧
      numRows rMin rMax padHeight nRow = if nRow > 0 then min nRow nr else nr := by
  refine ⟨⌊(rMax + 1 / 100 - rMin) / padHeight⌋, ?_, ?_, ?_⟩
  · have := cell (lo := 0) (x := rMax + 1 / 100 - rMin) hh
    rw [sub_zero, zero_add, zero_add] at this
    exact this
  · rw [Int.floor_nonneg]; exact div_nonneg (by linarith) hh.le
  · unfold numRows
    have h0 : 0 ≤ (rMax + 1 / 100 - rMin) / padHeight := div_nonneg (by linarith) hh.le
    have h1 : 0 ≤ ⌊(rMax + 1 / 100 - rMin) / padHeight⌋ := Int.floor_nonneg.2 h0
    rw [truncInt_nonneg h0]
    dsimp only
    split_ifs <;> omega

theorem wrapPhiMax_id {pi phi : K} (h0 : 0 < phi) (h1 : phi ≤ 2 * pi) : wrapPhiMax pi phi = phi := by
  unfold wrapPhiMax
  rw [wrapUp_id (by linarith), wrapDown_id h1]

theorem proper_phiMax {F : Fns K} {A : Args K} {L : Layout K} (hA : A.Proper F) (hL : Inv F A L) :
    L.phiMax = A.phiMax := by
  rw [hL.phiMax, wrapPhiMax_id hA.phi0 hA.phi]

theorem isPad_nRow {F : Fns K} {A : Args K} {L : Layout K} (hL : Inv F A L) {row n : ℤ}
    (h : PadsInRow L row n) : 0 ≤ row ∧ row < L.nRow := by
  obtain ⟨r, hr, -⟩ := h
  exact ((elem_rows hL).1 hr).1

theorem getPadIndex_of {L : Layout K} {row pad : ℤ} {r : Row K} (h : elem L.rows row = some r)
    (hs : row < 65536) (hp : pad < r.nPad) : getPadIndex L row pad = encode row pad := by
  obtain ⟨hr0, hr1⟩ := Rect.elem_range h
  unfold getPadIndex
  rw [if_neg, Rect.elemUb_of h]
  · simp only [Res.bind_ok]
    rw [if_neg (by omega)]
  · rintro ⟨-, h3⟩
    rw [ofInt_toNat_of_range hr0 hs] at h3; omega

theorem index_isSome {L : Layout K} (hF : Filled L) {row pad : ℤ} (h : IsPad L row pad) :
    ∃ p, getPadIndex L row pad = .ok p := by
  obtain ⟨n, ⟨r, hr, rfl⟩, h0, h1⟩ := h
  obtain ⟨hr0, hr1⟩ := Rect.elem_range hr
  have hs := hF.rows.2
  unfold getNRows at hs
  rw [getPadIndex_of hr (by omega) h1]
  exact encode_isOk _ hr0 (by omega)

theorem numbers {L : Layout K} (hF : Filled L) {row pad p : ℤ} (h : IsIndex L row pad p) :
    getRowNumber p = row ∧ getPadNumber p = pad := by
  obtain ⟨⟨n, ⟨r, hr, rfl⟩, h0, h1⟩, h2⟩ := h
  obtain ⟨hr0, hr1⟩ := Rect.elem_range hr
  have hs := hF.rows.2
  unfold getNRows at hs
  rw [getPadIndex_of hr (by omega) h1] at h2
  have := (hF.pads row r.nPad ⟨r, hr, rfl⟩).2
  exact ⟨rowBits_encode h2, padBits_encode' h2 h0 (by omega)⟩

/-- The radius of the middle of row `i`. -/
def mid (A : Args K) (L : Layout K) (i : ℤ) : K := A.rMin + (i + 1 / 2) * L.rowHeight

theorem row_props {F : Fns K} {A : Args K} {L : Layout K} (hA : A.Proper F) (hL : Inv F A L) {i : ℤ}
    {r : Row K} (h : elem L.rows i = some r) :
    (0 ≤ i ∧ i < L.nRow) ∧ r.rCenter = mid A L i ∧ r.phiPad = A.phiMax / r.nPad ∧
    IsMostThatFit (A.padWidth + A.padGap) (mid A L i * A.phiMax) r.nPad := by
  obtain ⟨hr, rfl⟩ := (elem_rows hL).1 h
  have hp := proper_phiMax hA hL
  have hc : ((i.toNat : ℕ) : K) = (i : K) := by
    have : ((i.toNat : ℤ) : K) = (i : K) := by rw [Int.toNat_of_nonneg hr.1]
    exact_mod_cast this
  have hm : A.rMin + (i.toNat : K) * L.rowHeight + 1 / 2 * L.rowHeight = mid A L i := by
    rw [hc]; unfold mid; ring
  have hw : 0 < A.padWidth + A.padGap := by have := hL.width_pos; have := hA.gap; linarith
  refine ⟨hr, hm, by simp only [mkRow, hp], ?_⟩
  have := cell (lo := 0) (x := mid A L i * A.phiMax) hw
  rw [sub_zero, zero_add, zero_add] at this
  simp only [mkRow, hp, hm]
  exact this

theorem rowHeight_pos {F : Fns K} {A : Args K} {L : Layout K} (hA : A.Proper F) (hL : Inv F A L)
    (h : 0 < L.nRow) : 0 < L.rowHeight := by
  rw [hL.rowHeight]
  exact div_pos (sub_pos.2 hA.r) (by exact_mod_cast h)

theorem rMax_eq {F : Fns K} {A : Args K} {L : Layout K} (hL : Inv F A L)
    (h : 0 < L.nRow) : A.rMax = A.rMin + L.nRow * L.rowHeight := by
  have : (L.nRow : K) ≠ 0 := by exact_mod_cast h.ne'
  rw [hL.rowHeight]; field_simp; ring

theorem mid_pos {F : Fns K} {A : Args K} {L : Layout K} (hA : A.Proper F) (hL : Inv F A L)
    {i : ℤ} (h : 0 ≤ i ∧ i < L.nRow) : A.rMin < mid A L i ∧ mid A L i < A.rMax ∧ 0 < mid A L i := by
  have hh := rowHeight_pos hA hL (by omega)
  have e1 : (0 : K) ≤ i := by exact_mod_cast h.1
  have e2 : (i : K) + 1 ≤ L.nRow := by exact_mod_cast h.2
  have f1 := mul_nonneg e1 hh.le
  have f2 := mul_le_mul_of_nonneg_right e2 hh.le
  have hm := rMax_eq hL (by omega : 0 < L.nRow)
  have h0 := hA.r0
  unfold mid
  refine ⟨?_, ?_, ?_⟩ <;> linarith

theorem filled_nRow {F : Fns K} {A : Args K} {L : Layout K} (hL : Inv F A L) (hF : Filled L) :
    0 < L.nRow ∧ L.nRow ≤ 65536 := by
  have := hF.rows
  unfold getNRows at this
  rw [length_rows hL] at this
  exact this

/-- The row `getNearestPad` takes from a radius. -/
theorem row_of_radius {F : Fns K} {A : Args K} {L : Layout K} (hA : A.Proper F) (hL : Inv F A L)
    (hn : 0 < L.nRow) (r : K) :
    let q := if r < L.rMin then 0 else ⌊(r - L.rMin) / L.rowHeight⌋
    let row := if q ≥ L.nRow then L.nRow - 1 else q
    (0 ≤ row ∧ row < L.nRow) ∧ (A.rMin ≤ r → A.rMin + row * L.rowHeight ≤ r) ∧
    (r ≤ A.rMax → r ≤ A.rMin + (row + 1) * L.rowHeight) := by
  rw [hL.rMin]
  intro q row
  have hd := rowHeight_pos hA hL hn
  have hm := rMax_eq hL hn
  have hq0 : 0 ≤ q := by
    show 0 ≤ (if r < A.rMin then 0 else ⌊(r - A.rMin) / L.rowHeight⌋)
    split_ifs with h
    · exact le_rfl
    · exact cell_nonneg hd (not_lt.1 h)
  have hc := cell (lo := A.rMin) (x := r) hd
  refine ⟨?_, ?_, ?_⟩
  · show 0 ≤ (if q ≥ L.nRow then L.nRow - 1 else q) ∧ (if q ≥ L.nRow then L.nRow - 1 else q) < _
    split_ifs <;> omega
  · intro h
    have hq : q = ⌊(r - A.rMin) / L.rowHeight⌋ := if_neg (not_lt.2 h)
    have : row ≤ q := by
      show (if q ≥ L.nRow then L.nRow - 1 else q) ≤ q
      split_ifs <;> omega
    have h1 : (row : K) ≤ q := by exact_mod_cast this
    have := mul_le_mul_of_nonneg_right h1 hd.le
    rw [← hq] at hc
    linarith [hc.1]
  · intro h
    by_cases hr : r < A.rMin
    · have h0 : (0 : K) ≤ row + 1 := by
        have : (0 : ℤ) ≤ row + 1 := by
          show 0 ≤ (if q ≥ L.nRow then L.nRow - 1 else q) + 1
          split_ifs <;> omega
        exact_mod_cast this
      have := mul_nonneg h0 hd.le
      linarith
    · have hq : q = ⌊(r - A.rMin) / L.rowHeight⌋ := if_neg hr
      rw [← hq] at hc
      by_cases h1 : q ≥ L.nRow
      · have : row = L.nRow - 1 := if_pos h1
        rw [this]; push_cast; rw [hm] at h; linarith
      · have : row = q := if_neg h1
        rw [this]; linarith [hc.2]

theorem clampRow_range {L : Layout K} (hn : 0 < L.nRow) (r : K) :
    0 ≤ clampRow L r ∧ clampRow L r < L.nRow := by
  unfold clampRow
  dsimp only
  split_ifs <;> omega

/-- The pad `getNearestPad` takes from an angle. -/
theorem pad_of_angle {phiMax phi : K} {n : ℤ} (hp : 0 < phiMax) (hn : 1 ≤ n) (h0 : 0 ≤ phi) :
    let q := ⌊phi / (phiMax / n)⌋
    let pad := if q ≥ n then n - 1 else q
    (0 ≤ pad ∧ pad < n) ∧ pad * (phiMax / n) ≤ phi ∧ (phi ≤ phiMax → phi ≤ (pad + 1) * (phiMax / n)) := by
  intro q pad
  have hn' : (0 : K) < n := by exact_mod_cast (by omega : 0 < n)
  have hd : 0 < phiMax / n := div_pos hp hn'
  have hc := cell (lo := 0) (x := phi) hd
  rw [sub_zero, zero_add, zero_add] at hc
  have hq0 : 0 ≤ q := Int.floor_nonneg.2 (div_nonneg h0 hd.le)
  refine ⟨?_, ?_, ?_⟩
  · show 0 ≤ (if q ≥ n then n - 1 else q) ∧ (if q ≥ n then n - 1 else q) < n
    split_ifs <;> omega
  · have : pad ≤ q := by
      show (if q ≥ n then n - 1 else q) ≤ q
      split_ifs <;> omega
    have h1 : (pad : K) ≤ q := by exact_mod_cast this
    have := mul_le_mul_of_nonneg_right h1 hd.le
    exact le_trans this hc.1
  · intro h
    by_cases h1 : q ≥ n
    · have : pad = n - 1 := if_pos h1
      rw [this]; push_cast
      have : (n - 1 + 1 : K) * (phiMax / n) = phiMax := by field_simp; ring
      rw [this]; exact h
    · have : pad = q := if_neg h1
      rw [this]; exact hc.2.le

/-- An angle that is no multiple of a full turn is wrapped into the open interval. -/
theorem wrapTurn_spec {pi : K} (hp : 0 < pi) (phi : K) :
    (0 ≤ wrapTurn pi phi ∧ wrapTurn pi phi ≤ 2 * pi) ∧ ∃ k : ℤ, wrapTurn pi phi = phi + k * (2 * pi) := by
  unfold wrapTurn
  refine ⟨⟨?_, wrapDown_le hp _⟩, ?_⟩
  · rcases lt_or_ge (2 * pi) (wrapUp pi 0 phi) with h | h
    · have := wrapDown_gt hp h; linarith
    · rw [wrapDown_id h]; exact wrapUp_ge hp _
  · obtain ⟨k, hk⟩ := wrapUp_shift pi 0 phi
    obtain ⟨m, hm⟩ := wrapDown_shift pi (2 * pi) (wrapUp pi 0 phi)
    exact ⟨k + m, by rw [hm, hk]; push_cast; ring⟩

theorem wrapTurn_id {pi phi : K} (h0 : 0 ≤ phi) (h1 : phi ≤ 2 * pi) : wrapTurn pi phi = phi := by
  unfold wrapTurn; rw [wrapUp_id h0, wrapDown_id h1]

theorem wrapTurn_turn {pi : K} (hp : 0 < pi) {phi : K} (h : ∀ k : ℤ, phi ≠ k * (2 * pi)) (m : ℤ) :
    wrapTurn pi (phi + m * (2 * pi)) = wrapTurn pi phi := by
  obtain ⟨⟨a, b⟩, k, hk⟩ := wrapTurn_spec hp phi
  obtain ⟨⟨a', b'⟩, k', hk'⟩ := wrapTurn_spec hp (phi + m * (2 * pi))
  have h2 : (0 : K) < 2 * pi := by linarith
  have ne : ∀ j : ℤ, phi + j * (2 * pi) ≠ 0 ∧ phi + j * (2 * pi) ≠ 2 * pi := by
    intro j
    constructor
    · intro e; exact h (-j) (by push_cast; linarith)
    · intro e; exact h (1 - j) (by push_cast; linarith)
  have c1 := lt_of_le_of_ne a (by rw [hk]; exact (ne k).1.symm)
  have c2 := lt_of_le_of_ne b (by rw [hk]; exact (ne k).2)
  have e' : wrapTurn pi (phi + m * (2 * pi)) = phi + ((m + k' : ℤ) : K) * (2 * pi) := by
    rw [hk']; push_cast; ring
  have c3 := lt_of_le_of_ne a' (by rw [e']; exact (ne _).1.symm)
  have c4 := lt_of_le_of_ne b' (by rw [e']; exact (ne _).2)
  rw [e'] at c3 c4 ⊢
  rw [hk] at c1 c2 ⊢
  have d1 : ((m + k' : ℤ) : K) < k + 1 := by
    have : ((m + k' : ℤ) : K) * (2 * pi) < (k + 1) * (2 * pi) := by linarith
    exact lt_of_mul_lt_mul_right this h2.le
  have d2 : (k : K) < ((m + k' : ℤ) : K) + 1 := by
    have : (k : K) * (2 * pi) < (((m + k' : ℤ) : K) + 1) * (2 * pi) := by linarith
    exact lt_of_mul_lt_mul_right this h2.le
  have d1' : m + k' < k + 1 := by exact_mod_cast d1
  have d2' : k < m + k' + 1 := by exact_mod_cast d2
  rw [show m + k' = k by omega]

end Gear.PadSize
