/-
Property C151: no pad of a layout with a fixed pad size is nearer than the one `getNearestPad` returns, over the real numbers
with the mathematical functions.
-/
import Verif.PadSizeDistance


set_option autoImplicit false
set_option linter.unusedSectionVars false

namespace Gear.PadSize

open PadIndex Disk Spec Disk.Spec Real
open Rect (elem elemUb)

namespace Spec

/-- The cell of a pad in a row with `n` pads: the pad with the gaps around it. -/
def cell (A : Args ℝ) (L : Layout ℝ) (n row pad : ℤ) : Set (ℝ × ℝ) :=
  keystone (A.rMin + row * ((A.rMax - A.rMin) / getNRows L)) (A.rMin + (row + 1) * ((A.rMax - A.rMin) / getNRows L))
    (pad * (A.phiMax / n)) ((pad + 1) * (A.phiMax / n))

/-- The ring segment that the layout covers. -/
def segment (A : Args ℝ) : Set (ℝ × ℝ) := keystone A.rMin A.rMax 0 A.phiMax

/-- `p` is the index of an existing pad, and no point of the whole ring segment is nearer to the point `(r, phi)` than the
cell of this pad. -/
def IsNearest (A : Args ℝ) (L : Layout ℝ) (r phi : ℝ) (p : ℤ) : Prop :=
  ∃ row pad n, PadsInRow L row n ∧ IsIndex L row pad p ∧
    ∃ d ∈ distancesTo (cell A L n row pad) r phi, ∀ d' ∈ distancesTo (segment A) r phi, d ≤ d'

end Spec

variable {A : Args ℝ} {L : Layout ℝ}

theorem row_data (hi : Inv realFns A L) (hF : Filled L) {row : ℤ} (h : 0 ≤ row ∧ row < L.nRow) :
    ∃ r, elem L.rows row = some r ∧ PadsInRow L row r.nPad ∧ 1 ≤ r.nPad := by
  obtain ⟨r, hr⟩ := Rect.elem_isSome (l := L.rows) h.1 (by rw [length_rows hi]; exact h.2)
  exact ⟨r, hr, ⟨r, hr, rfl⟩, (hF.pads _ _ ⟨r, hr, rfl⟩).1⟩

/-- The row number from a radius on an edge. -/
theorem clampRow_spec (hA : A.Proper realFns) (hi : Inv realFns A L) (hn : 0 < L.nRow) {r : ℝ} (h1 : A.rMin ≤ r)
    (h2 : r ≤ A.rMax) : A.rMin + clampRow L r * L.rowHeight ≤ r ∧ r ≤ A.rMin + (clampRow L r + 1) * L.rowHeight := by
  have hd := rowHeight_pos hA hi hn
  have hm := rMax_eq hi hn
  have hc := Disk.cell (lo := A.rMin) (x := r) hd
  have h0 := Disk.cell_nonneg (lo := A.rMin) (x := r) hd h1
  unfold clampRow
  rw [hi.rMin]
  dsimp only
  rw [if_neg (not_lt.2 h0)]
  split_ifs with h
  · have h' : (L.nRow : ℝ) ≤ ⌊(r - A.rMin) / L.rowHeight⌋ := by exact_mod_cast h
    have := mul_le_mul_of_nonneg_right h' hd.le
    push_cast
    exact ⟨by linarith [hc.1], by linarith⟩
  · exact ⟨hc.1, hc.2.le⟩

/-- A point of an edge nearest to the given point, in the cell of a pad of the row. -/
theorem edge_nearest (hA : A.Proper realFns) (hi : Inv realFns A L) (hn : 0 < L.nRow) {r phi e : ℝ} (hr : 0 ≤ r)
    {row pad n p : ℤ} (hk : PadsInRow L row n) (hp : IsIndex L row pad p)
    (hrow : A.rMin + row * L.rowHeight ≤ edgeRadius r phi A.rMin A.rMax e ∧
      edgeRadius r phi A.rMin A.rMax e ≤ A.rMin + (row + 1) * L.rowHeight)
    (he : pad * (A.phiMax / n) ≤ e ∧ e ≤ (pad + 1) * (A.phiMax / n))
    (hcos : ∀ θ, 0 ≤ θ → θ ≤ A.phiMax → cos (phi - θ) ≤ cos (phi - e)) : IsNearest A L r phi p := by
  have hl : getNRows L = L.nRow := length_rows hi
  refine ⟨row, pad, n, hk, hp, _, ⟨_, ⟨edgeRadius r phi A.rMin A.rMax e, e, ?_, ?_, he.1, he.2, rfl⟩, rfl⟩, ?_⟩
  · rw [hl, ← hi.rowHeight]; exact hrow.1
  · rw [hl, ← hi.rowHeight]; exact hrow.2
  · rintro d' ⟨q, ⟨ρ, θ, a, b, c, f, rfl⟩, rfl⟩
    rw [← edgeDistance_eq]
    exact edge_le hr hA.r0 a b (hcos θ c f)

/-- What the part of `getNearestPad` for angles in the segment returns, as seen from an angle that differs by full turns. -/
theorem sector_nearest (hA : A.Proper realFns) (hL : Made realFns A L) (hF : Filled L) {r phi psi : ℝ} (hr : 0 < r)
    (h0 : 0 ≤ psi) (h1 : psi ≤ A.phiMax) (hc : ∀ θ, cos (phi - θ) = cos (psi - θ)) :
    let q := if r < L.rMin then 0 else ⌊(r - L.rMin) / L.rowHeight⌋
    let row := if q ≥ L.nRow then L.nRow - 1 else q
    ∃ p, (elemUb L.rows row >>= fun w =>
      getPadIndex L row (if ⌊psi / w.phiPad⌋ ≥ w.nPad then w.nPad - 1 else ⌊psi / w.phiPad⌋)) = .ok p ∧
      IsNearest A L r phi p := by
  have hi := inv_made hL
  have hn := filled_nRow hi hF
  have hd := rowHeight_pos hA hi hn.1
  have hm := rMax_eq hi hn.1
  obtain ⟨hrow, ha, hb⟩ := row_of_radius hA hi hn.1 r
  have hlow : r < A.rMin → (if (if r < L.rMin then 0 else ⌊(r - L.rMin) / L.rowHeight⌋) ≥ L.nRow then L.nRow - 1
      else (if r < L.rMin then 0 else ⌊(r - L.rMin) / L.rowHeight⌋)) = 0 := by
    intro h
    rw [hi.rMin, if_pos h, if_neg (by omega)]
  have hhigh : A.rMax < r → (if (if r < L.rMin then 0 else ⌊(r - L.rMin) / L.rowHeight⌋) ≥ L.nRow then L.nRow - 1
      else (if r < L.rMin then 0 else ⌊(r - L.rMin) / L.rowHeight⌋)) = L.nRow - 1 := by
    intro h
    have := hA.r
    have h' : ¬ r < A.rMin := by linarith
    have h'' : ⌊(r - A.rMin) / L.rowHeight⌋ ≥ L.nRow := by
      apply Int.le_floor.2
      rw [le_div_iff₀ hd]; linarith
    rw [hi.rMin, if_neg h', if_pos h'']
  intro q row
  have hrow : 0 ≤ row ∧ row < L.nRow := hrow
  have ha : A.rMin ≤ r → A.rMin + row * L.rowHeight ≤ r := ha
  have hb : r ≤ A.rMax → r ≤ A.rMin + (row + 1) * L.rowHeight := hb
  have hlow : r < A.rMin → row = 0 := hlow
  have hhigh : A.rMax < r → row = L.nRow - 1 := hhigh
  clear_value row
  obtain ⟨w, hw, hk, hw1⟩ := row_data hi hF hrow
  obtain ⟨-, -, hp, -⟩ := row_props hA hi hw
  obtain ⟨hpad, hc1, hc2⟩ := pad_of_angle hA.phi0 hw1 h0
  have hisp : IsPad L row _ := ⟨w.nPad, hk, hpad⟩
  obtain ⟨p, hp'⟩ := index_isSome hF hisp
  refine ⟨p, ?_, ?_⟩
  · rw [Rect.elemUb_of hw, Res.bind_ok, hp]; exact hp'
  · have e0 : r * cos (phi - psi) = r := by rw [hc, sub_self, cos_zero, mul_one]
    have hr0 : (0 : ℝ) ≤ row := by exact_mod_cast hrow.1
    have hr1 : (row : ℝ) + 1 ≤ L.nRow := by exact_mod_cast hrow.2
    have hr2 := mul_nonneg hr0 hd.le
    have hr3 := mul_le_mul_of_nonneg_right hr1 hd.le
    refine edge_nearest (e := psi) hA hi hn.1 hr.le hk ⟨hisp, hp'⟩ ?_ ⟨hc1, hc2 h1⟩ ?_
    · unfold edgeRadius
      rw [e0]
      split_ifs with c1 c2
      · have : row = 0 := hlow c1
        rw [this]; push_cast; constructor <;> linarith
      · have : row = L.nRow - 1 := hhigh c2
        rw [this]; push_cast; constructor <;> linarith
      · exact ⟨ha (not_lt.1 c1), hb (not_lt.1 c2)⟩
    · intro θ _ _
      rw [hc psi, sub_self, cos_zero]
      exact cos_le_one _

/-! ### C151 no pad is nearer than the one returned -/

/-- Partial: if the segment is not a full circle, for a point at an angle of the segment, or beside it by not more than half the
opening, the returned pad is the nearest.  Missing: angles nearer to the other end of the segment or given with another number
of turns; there the claim is false, see `nearest_false_opening`. -/
theorem nearest_least_partial (hA : A.Proper realFns) (hL : Made realFns A L) (hF : Filled L)
    (hopen : A.phiMax + 1 / 1000000 ≤ 2 * π) {r phi : ℝ} (hr : 1 / 1000000 ≤ r) (h1 : -((2 * π - A.phiMax) / 2) ≤ phi)
    (h2 : phi ≤ A.phiMax + (2 * π - A.phiMax) / 2) :
    ∃ p, getNearestPad realFns L r phi = .ok p ∧ IsNearest A L r phi p := by
  have hi := inv_made hL
  have hn := filled_nRow hi hF
  have hd := rowHeight_pos hA hi hn.1
  have hm := rMax_eq hi hn.1
  have hpM := proper_phiMax hA hi
  have hpi := Real.pi_pos
  have h0 := hA.phi0
  have hr0 : 0 < r := by linarith
  have hpi' : realFns.pi = π := rfl
  have hcs : realFns.cos = cos := rfl
  have hn1 : (1 : ℝ) ≤ L.nRow := by exact_mod_cast hn.1
  have hfc : ¬ fullCircle realFns L := by
    unfold fullCircle
    rw [hpM, hpi', not_lt, abs_sub_comm, abs_of_nonneg (by linarith)]
    linarith
  have hw : wrapDown π (2 * π) (wrapUp π (-2 * π) phi) = phi := by
    rw [wrapUp_id (by linarith), wrapDown_id (by linarith)]
  unfold getNearestPad
  rw [if_neg (by rw [abs_of_pos hr0]; linarith)]
  simp only [if_neg hfc]
  rw [hpi', hcs, hw, sub_zero, hpM, hi.rMax]
  have hL0 : L.rMin = A.rMin := hi.rMin
  by_cases c1 : r > 0 ∧ phi ≥ 0 ∧ phi ≤ A.phiMax
  · rw [if_pos c1]
    exact sector_nearest hA hL hF hr0 c1.2.1 c1.2.2 (fun _ => rfl)
  rw [if_neg c1, hL0]
  -- the first pad of a row, for points below the segment
  have first : ∀ row : ℤ, 0 ≤ row ∧ row < L.nRow → phi < 0 →
      (A.rMin + row * L.rowHeight ≤ edgeRadius r phi A.rMin A.rMax 0 ∧
        edgeRadius r phi A.rMin A.rMax 0 ≤ A.rMin + (row + 1) * L.rowHeight) →
      ∃ p, getPadIndex L row 0 = .ok p ∧ IsNearest A L r phi p := by
    intro row hrow hneg he
    obtain ⟨w, hw, hk, hw1⟩ := row_data hi hF hrow
    have hisp : IsPad L row 0 := ⟨w.nPad, hk, le_rfl, by omega⟩
    obtain ⟨p, hp⟩ := index_isSome hF hisp
    have hw2 : (0 : ℝ) < w.nPad := by exact_mod_cast hw1
    refine ⟨p, hp, edge_nearest hA hi hn.1 hr0.le hk ⟨hisp, hp⟩ he ?_ ?_⟩
    · have := div_pos h0 hw2
      push_cast; constructor <;> linarith
    · intro θ a b
      rw [sub_zero, ← cos_neg (phi - θ), ← cos_neg phi, neg_sub]
      rcases le_total (θ - phi) π with h | h
      · exact cos_le_cos_of_nonneg_of_le_pi (by linarith) h (by linarith)
      · rw [← cos_two_pi_sub (θ - phi)]
        exact cos_le_cos_of_nonneg_of_le_pi (by linarith) (by linarith) (by linarith)
  -- the last pad of a row, for points above the segment
  have last : ∀ row : ℤ, 0 ≤ row ∧ row < L.nRow → phi > A.phiMax →
      (A.rMin + row * L.rowHeight ≤ edgeRadius r phi A.rMin A.rMax A.phiMax ∧
        edgeRadius r phi A.rMin A.rMax A.phiMax ≤ A.rMin + (row + 1) * L.rowHeight) →
      ∃ p, (elemUb L.rows row >>= fun w => getPadIndex L row (w.nPad - 1)) = .ok p ∧ IsNearest A L r phi p := by
    intro row hrow hbig he
    obtain ⟨w, hw, hk, hw1⟩ := row_data hi hF hrow
    have hisp : IsPad L row (w.nPad - 1) := ⟨w.nPad, hk, by omega, by omega⟩
    obtain ⟨p, hp⟩ := index_isSome hF hisp
    have hw2 : (0 : ℝ) < w.nPad := by exact_mod_cast hw1
    refine ⟨p, by rw [Rect.elemUb_of hw, Res.bind_ok]; exact hp, edge_nearest hA hi hn.1 hr0.le hk ⟨hisp, hp⟩ he ?_ ?_⟩
    · have := div_pos h0 hw2
      have e : (w.nPad : ℝ) * (A.phiMax / w.nPad) = A.phiMax := by field_simp
      push_cast; constructor <;> nlinarith
    · intro θ a b
      rcases le_total (phi - θ) π with h | h
      · exact cos_le_cos_of_nonneg_of_le_pi (by linarith) h (by linarith)
      · rw [← cos_two_pi_sub (phi - θ)]
        exact cos_le_cos_of_nonneg_of_le_pi (by linarith) (by linarith) (by linarith)
  have low : ∀ e, r * cos (phi - e) < A.rMin → A.rMin + ((0 : ℤ) : ℝ) * L.rowHeight ≤ edgeRadius r phi A.rMin A.rMax e ∧
      edgeRadius r phi A.rMin A.rMax e ≤ A.rMin + (((0 : ℤ) : ℝ) + 1) * L.rowHeight := by
    intro e h
    unfold edgeRadius
    rw [if_pos h]; push_cast; constructor <;> linarith
  have high : ∀ e, r * cos (phi - e) > A.rMax →
      A.rMin + ((L.nRow - 1 : ℤ) : ℝ) * L.rowHeight ≤ edgeRadius r phi A.rMin A.rMax e ∧
      edgeRadius r phi A.rMin A.rMax e ≤ A.rMin + (((L.nRow - 1 : ℤ) : ℝ) + 1) * L.rowHeight := by
    intro e h
    have := hA.r
    unfold edgeRadius
    rw [if_neg (by linarith), if_pos h]; push_cast; constructor <;> linarith
  have mid : ∀ e, r * cos (phi - e) ≥ A.rMin → r * cos (phi - e) ≤ A.rMax →
      A.rMin + (clampRow L (r * cos (phi - e)) : ℝ) * L.rowHeight ≤ edgeRadius r phi A.rMin A.rMax e ∧
      edgeRadius r phi A.rMin A.rMax e ≤ A.rMin + ((clampRow L (r * cos (phi - e)) : ℝ) + 1) * L.rowHeight := by
    intro e h h'
    unfold edgeRadius
    rw [if_neg (not_lt.2 h), if_neg (not_lt.2 h')]
    exact clampRow_spec hA hi hn.1 h h'
  have low0 := low 0
  have high0 := high 0
  have mid0 := mid 0
  rw [sub_zero] at low0 high0 mid0
  by_cases c2 : r * cos phi < A.rMin ∧ phi < 0
  · rw [if_pos c2]; exact first 0 (by omega) c2.2 (low0 c2.1)
  rw [if_neg c2]
  by_cases c3 : r * cos phi > A.rMax ∧ phi < 0
  · rw [if_pos c3]; exact first _ (by omega) c3.2 (high0 c3.1)
  rw [if_neg c3]
  by_cases c4 : r * cos (phi - A.phiMax) < A.rMin ∧ phi > A.phiMax
  · rw [if_pos c4]; exact last 0 (by omega) c4.2 (low _ c4.1)
  rw [if_neg c4]
  by_cases c5 : r * cos (phi - A.phiMax) > A.rMax ∧ phi > A.phiMax
  · rw [if_pos c5]; exact last _ (by omega) c5.2 (high _ c5.1)
  rw [if_neg c5]
  by_cases c6 : r * cos phi ≥ A.rMin ∧ r * cos phi ≤ A.rMax ∧ phi < 0
  · rw [if_pos c6]; exact first _ (clampRow_range hn.1 _) c6.2.2 (mid0 c6.1 c6.2.1)
  rw [if_neg c6]
  by_cases c7 : r * cos (phi - A.phiMax) ≥ A.rMin ∧ r * cos (phi - A.phiMax) ≤ A.rMax ∧ phi > A.phiMax
  · rw [if_pos c7]; exact last _ (clampRow_range hn.1 _) c7.2.2 (mid _ c7.1 c7.2.1)
  exfalso
  rcases lt_or_ge phi 0 with h | h
  · rcases lt_or_ge (r * cos phi) A.rMin with h' | h'
    · exact c2 ⟨h', h⟩
    · rcases lt_or_ge A.rMax (r * cos phi) with h'' | h''
      · exact c3 ⟨h'', h⟩
      · exact c6 ⟨h', h'', h⟩
  · have hb : phi > A.phiMax := by
      by_contra hb
      exact c1 ⟨hr0, h, not_lt.1 hb⟩
    rcases lt_or_ge (r * cos (phi - A.phiMax)) A.rMin with h' | h'
    · exact c4 ⟨h', hb⟩
    · rcases lt_or_ge A.rMax (r * cos (phi - A.phiMax)) with h'' | h''
      · exact c5 ⟨h'', hb⟩
      · exact c7 ⟨h', h'', hb⟩

/-- On a full circle the returned pad is the nearest for all angles, whatever the number of turns. -/
theorem nearest_least_circle (hA : A.Proper realFns) (hL : Made realFns A L) (hF : Filled L) (hfull : A.phiMax = 2 * π) {r : ℝ}
    (hr : 1 / 1000000 ≤ r) (phi : ℝ) : ∃ p, getNearestPad realFns L r phi = .ok p ∧ IsNearest A L r phi p := by
  have hi := inv_made hL
  have hpM := proper_phiMax hA hi
  have hr0 : 0 < r := by linarith
  have hpi' : realFns.pi = π := rfl
  have hfc : fullCircle realFns L := by
    unfold fullCircle
    rw [hpM, hpi', hfull, sub_self, abs_zero]; norm_num
  obtain ⟨⟨a, b⟩, k, hk⟩ := wrapTurn_spec Real.pi_pos phi
  unfold getNearestPad
  rw [if_neg (by rw [abs_of_pos hr0]; linarith)]
  simp only [if_pos hfc]
  rw [hpi', if_pos ⟨hr0, a, by rw [hpM, hfull]; exact b⟩]
  refine sector_nearest hA hL hF hr0 a (by rw [hfull]; exact b) (fun θ => ?_)
  rw [hk, show phi + k * (2 * π) - θ = (phi - θ) + k * (2 * π) by ring, cos_add_int_mul_two_pi]

/-- The cell of a pad is in the segment. -/
theorem cell_subset (hA : A.Proper realFns) (hL : Made realFns A L) (hF : Filled L) {row pad n p : ℤ} (hk : PadsInRow L row n)
    (hp : IsIndex L row pad p) : cell A L n row pad ⊆ segment A := by
  have hi := inv_made hL
  have hn := filled_nRow hi hF
  have hd := rowHeight_pos hA hi hn.1
  have hm := rMax_eq hi hn.1
  have hl : getNRows L = L.nRow := length_rows hi
  have hrow := isPad_nRow hi hk
  obtain ⟨n', ⟨w', hw', rfl⟩, hp0, hp1⟩ := hp.1
  obtain ⟨w, hw, rfl⟩ := hk
  rw [hw] at hw'
  cases hw'
  have hw2 : (0 : ℝ) < w'.nPad := by exact_mod_cast (by omega : 0 < w'.nPad)
  have e := div_pos hA.phi0 hw2
  have e' : (w'.nPad : ℝ) * (A.phiMax / w'.nPad) = A.phiMax := by field_simp
  rintro q ⟨ρ, θ, a, b, c, f, rfl⟩
  rw [hl, ← hi.rowHeight] at a b
  have a1 : (0 : ℝ) ≤ row := by exact_mod_cast hrow.1
  have a2 : (row : ℝ) + 1 ≤ L.nRow := by exact_mod_cast hrow.2
  have a3 : (0 : ℝ) ≤ pad := by exact_mod_cast hp0
  have a4 : (pad : ℝ) + 1 ≤ w'.nPad := by exact_mod_cast hp1
  have b1 := mul_nonneg a1 hd.le
  have b2 := mul_le_mul_of_nonneg_right a2 hd.le
  have b3 := mul_nonneg a3 e.le
  have b4 := mul_le_mul_of_nonneg_right a4 e.le
  exact ⟨ρ, θ, by linarith, by linarith, by linarith, by linarith, rfl⟩

/-- Partial, in terms of the layout's own distances: at these angles no pad has a smaller `getDistanceToPad` than the returned
one. -/
theorem nearest_distance_partial (hA : A.Proper realFns) (hL : Made realFns A L) (hF : Filled L)
    (hopen : A.phiMax + 1 / 1000000 ≤ 2 * π) {r phi : ℝ} (hr : 1 / 1000000 ≤ r) (h1 : -((2 * π - A.phiMax) / 2) ≤ phi)
    (h2 : phi ≤ A.phiMax + (2 * π - A.phiMax) / 2) :
    ∃ p d, getNearestPad realFns L r phi = .ok p ∧ getDistanceToPad realFns L r phi p = .ok d ∧
      ∀ row' pad' p', IsIndex L row' pad' p' → ∃ d', getDistanceToPad realFns L r phi p' = .ok d' ∧ d ≤ d' := by
  have hi := inv_made hL
  have h0 := hA.phi0
  have least : ∀ {row pad n p : ℤ}, PadsInRow L row n → IsIndex L row pad p →
      ∃ d, getDistanceToPad realFns L r phi p = .ok d ∧ IsLeast (distancesTo (cell A L n row pad) r phi) d := by
    intro row pad n p hk hp
    obtain ⟨n', ⟨w', hw', rfl⟩, hp0, hp1⟩ := hp.1
    have hk' := hk
    obtain ⟨w, hw, rfl⟩ := hk'
    rw [hw] at hw'
    cases hw'
    have hw2 : (0 : ℝ) < w'.nPad := by exact_mod_cast (by omega : 0 < w'.nPad)
    have e := div_pos hA.phi0 hw2
    have e' : (w'.nPad : ℝ) * (A.phiMax / w'.nPad) = A.phiMax := by field_simp
    have a3 : (0 : ℝ) ≤ pad := by exact_mod_cast hp0
    have a4 : (pad : ℝ) + 1 ≤ w'.nPad := by exact_mod_cast hp1
    have b3 := mul_nonneg a3 e.le
    have b4 := mul_le_mul_of_nonneg_right a4 e.le
    exact distance_isLeast hA hL hF hk hp (by linarith) (by linarith) (by linarith)
  obtain ⟨p, hp, row, pad, n, hk, hpi, d0, hd0, hmin⟩ := nearest_least_partial hA hL hF hopen hr h1 h2
  obtain ⟨d, hd, hd1, hd2⟩ := least hk hpi
  refine ⟨p, d, hp, hd, fun row' pad' p' hp' => ?_⟩
  obtain ⟨n', hk', -⟩ := id hp'.1
  obtain ⟨d', hd', ⟨q, hq, hqd⟩, -⟩ := least hk' hp'
  exact ⟨d', hd', le_trans (hd2 hd0) (hmin d' ⟨q, cell_subset hA hL hF hk' hp' hq, hqd⟩)⟩

theorem half_index {L : Layout ℝ} (hF : Filled L) (hk : PadsInRow L 0 9) {row pad n p pad' : ℤ} (hn : PadsInRow L row n)
    (h : IsIndex L row pad p) (h0 : 0 ≤ pad' ∧ pad' < 9) (h' : getPadIndex L 0 pad' = .ok p) :
    row = 0 ∧ pad = pad' ∧ n = 9 := by
  have e := numbers hF h
  have e' := numbers hF (⟨⟨9, hk, h0.1, h0.2⟩, h'⟩ : IsIndex L 0 pad' p)
  have hr : row = 0 := by rw [← e.1, e'.1]
  refine ⟨hr, by rw [← e.2, e'.2], ?_⟩
  subst hr
  obtain ⟨w, hw, rfl⟩ := hn
  obtain ⟨w', hw', h9⟩ := hk
  rw [hw] at hw'
  cases hw'
  exact h9

/-- Beyond the middle of the opening the wrong end of the segment is taken: from the angle 300 degrees the first pad of a half
ring, which ends at 180 degrees, is nearer than the last, which is returned. -/
theorem nearest_false_opening : ∃ L p, Made realFns halfArgs L ∧ Filled L ∧ getNearestPad realFns L 3 (5 * π / 3) = .ok p ∧
    ¬ IsNearest halfArgs L 3 (5 * π / 3) p := by
  obtain ⟨L, hA, hM, hF, hk, h1⟩ := half_made
  have hi := inv_made hM
  have hpi := Real.pi_pos
  have hpM : L.phiMax = π := proper_phiMax hA hi
  obtain ⟨w, hw, h9⟩ := id hk
  obtain ⟨p, hp⟩ := index_isSome hF (⟨9, hk, by norm_num, by norm_num⟩ : IsPad L 0 8)
  have hr0 : L.rMin = 2 := hi.rMin
  have hpi' : realFns.pi = π := rfl
  have hcs : realFns.cos = cos := rfl
  have hfc : ¬ fullCircle realFns L := by
    unfold fullCircle
    rw [hpM, hpi', not_lt, abs_sub_comm, abs_of_nonneg (by linarith)]
    linarith [Real.pi_gt_three]
  have hcos : cos (5 * π / 3) = 1 / 2 := by
    rw [show 5 * π / 3 = 2 * π - π / 3 by ring, cos_two_pi_sub, cos_pi_div_three]
  refine ⟨L, p, hM, hF, ?_, ?_⟩
  · unfold getNearestPad
    rw [if_neg (by norm_num)]
    simp only [if_neg hfc]
    rw [hpi', hcs, wrapUp_id (by linarith), wrapDown_id (by linarith), hpM, hr0, if_neg (by rintro ⟨-, -, h⟩; linarith),
      if_neg (by rintro ⟨-, h⟩; linarith), if_neg (by rintro ⟨-, h⟩; linarith), if_pos, Rect.elemUb_of hw, Res.bind_ok, h9]
    · exact hp
    · refine ⟨?_, by linarith⟩
      rw [show 5 * π / 3 - π = π - π / 3 by ring, cos_pi_sub, cos_pi_div_three]
      norm_num
  · rintro ⟨row, pad, n, hn, hi', d, ⟨q, ⟨ρ, θ, a, b, c, e, rfl⟩, rfl⟩, hd⟩
    obtain ⟨rfl, rfl, rfl⟩ := half_index hF hk hn hi' (by norm_num) hp
    have := hd _ ⟨point 3 0, ⟨3, 0, by norm_num [halfArgs], by norm_num [halfArgs], le_rfl, hpi.le, rfl⟩, rfl⟩
    rw [dist2_point, dist2_point, sub_zero, hcos] at this
    have hM' : halfArgs.phiMax = π := rfl
    rw [h1] at a b
    simp only [halfArgs] at a b c e
    norm_num at a b c e
    have hc : cos (5 * π / 3 - θ) ≤ -(1 / 2) := by
      rw [← cos_pi_div_three, ← cos_pi_sub]
      exact cos_le_cos_of_nonneg_of_le_pi (by linarith) (by linarith) (by linarith)
    have h2 := Real.sqrt_le_sqrt_iff (x := 3 ^ 2 + ρ ^ 2 - 2 * ρ * (3 * cos (5 * π / 3 - θ)))
      (y := 3 ^ 2 + 3 ^ 2 - 2 * 3 * (3 * (1 / 2))) (by norm_num)
    have h3 := h2.1 this
    nlinarith

/-- A point in the middle of the half ring whose angle is given one turn lower: it is on the segment, but the first pad is
returned, and the point is not in its cell. -/
theorem nearest_false_lower : ∃ L p, Made realFns halfArgs L ∧ Filled L ∧ getNearestPad realFns L 3 (-(3 * π / 2)) = .ok p ∧
    0 ∈ distancesTo (segment halfArgs) 3 (-(3 * π / 2)) ∧ ¬ IsNearest halfArgs L 3 (-(3 * π / 2)) p := by
  obtain ⟨L, hA, hM, hF, hk, h1⟩ := half_made
  have hi := inv_made hM
  have hpi := Real.pi_pos
  have hpM : L.phiMax = π := proper_phiMax hA hi
  obtain ⟨p, hp⟩ := index_isSome hF (⟨9, hk, by norm_num, by norm_num⟩ : IsPad L 0 0)
  have hr0 : L.rMin = 2 := hi.rMin
  have hpi' : realFns.pi = π := rfl
  have hcs : realFns.cos = cos := rfl
  have hfc : ¬ fullCircle realFns L := by
    unfold fullCircle
    rw [hpM, hpi', not_lt, abs_sub_comm, abs_of_nonneg (by linarith)]
    linarith [Real.pi_gt_three]
  have hcos : ∀ θ, cos (-(3 * π / 2) - θ) = sin θ := by
    intro θ
    rw [show -(3 * π / 2) - θ = (π / 2 - θ) - 2 * π by ring, cos_sub_two_pi, cos_pi_div_two_sub]
  have hz : (0 : ℝ) ∈ distancesTo (segment halfArgs) 3 (-(3 * π / 2)) := by
    refine ⟨_, ⟨3, π / 2, by norm_num [halfArgs], by norm_num [halfArgs], by linarith, ?_, rfl⟩, ?_⟩
    · simp only [halfArgs]; linarith
    · rw [dist2_point, hcos, sin_pi_div_two]; norm_num
  refine ⟨L, p, hM, hF, ?_, hz, ?_⟩
  · unfold getNearestPad
    rw [if_neg (by norm_num)]
    simp only [if_neg hfc]
    rw [hpi', hcs, wrapUp_id (by linarith), wrapDown_id (by linarith), hpM, hr0, if_neg (by rintro ⟨-, h, -⟩; linarith),
      if_pos]
    · exact hp
    · refine ⟨?_, by linarith⟩
      rw [hcos, sin_zero]; norm_num
  · rintro ⟨row, pad, n, hn, hi', d, ⟨q, ⟨ρ, θ, a, b, c, e, rfl⟩, rfl⟩, hd⟩
    obtain ⟨rfl, rfl, rfl⟩ := half_index hF hk hn hi' (by norm_num) hp
    have := hd _ hz
    rw [dist2_point, hcos] at this
    rw [h1] at a b
    simp only [halfArgs] at a b c e
    norm_num at a b c e
    have hc : sin θ ≤ 1 / 2 := by
      rw [← sin_pi_div_six]
      exact sin_le_sin_of_le_of_le_pi_div_two (by linarith) (by linarith) (by linarith)
    have h2 : 0 < 3 ^ 2 + ρ ^ 2 - 2 * ρ * (3 * sin θ) := by nlinarith
    have h3 := Real.sqrt_pos.2 h2
    linarith

example : ∃ L, halfArgs.Proper realFns ∧ Made realFns halfArgs L ∧ Filled L ∧ halfArgs.phiMax + 1 / 1000000 ≤ 2 * π ∧
    -((2 * π - halfArgs.phiMax) / 2) ≤ -1 ∧ 4 ≤ halfArgs.phiMax + (2 * π - halfArgs.phiMax) / 2 := by
  obtain ⟨L, hA, hM, hF, -⟩ := half_made
  have hpi := Real.pi_gt_three
  refine ⟨L, hA, hM, hF, ?_⟩
  simp only [halfArgs]
  refine ⟨?_, ?_, ?_⟩ <;> linarith

end Gear.PadSize
