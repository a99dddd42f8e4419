/-
Properties C77 and C26 for the versatile disk layout, over the real numbers with the mathematical functions.
-/
import Verif.VersatileProps
import Verif.DiskDistance
import Mathlib.Analysis.Real.Pi.Bounds

set_option autoImplicit false
set_option linter.unusedSectionVars false

namespace Gear.Versatile

open PadIndex Disk Spec Disk.Spec Real
open Rect (elem)
open PadSize (wrapTurn wrapTurn_id wrapTurn_spec)

/-! ### C77 distance to a pad -/

/-- For a point within a full turn of the pad, `getDistanceToPad` is the Euclidean distance to the cell of
the pad. -/
theorem distance_isLeast {L : Layout ℝ} (hL : Made π L) (hS : Sized L) {row pad p : ℤ}
    (h : IsIndex L row pad p) {c : ℝ × ℝ} {w hgt : ℝ} (hc : getPadCenter L p = .ok c)
    (hw : getPadPitch L p = .ok w) (hh : getRowHeight L row = .ok hgt) (h0 : 0 ≤ w) (hin : 0 ≤ c.1 - hgt / 2)
    {r phi : ℝ} (hr : 0 ≤ r) (h1 : c.2 + w / 2 - 2 * π ≤ phi) (h2 : phi ≤ c.2 - w / 2 + 2 * π) :
    ∃ d, getDistanceToPad realFns L r phi p = .ok d ∧
      IsLeast (distancesTo (keystone (c.1 - hgt / 2) (c.1 + hgt / 2) (c.2 - w / 2) (c.2 + w / 2)) r phi) d := by
  obtain ⟨e1, -⟩ := numbers hS h
  have hpos : 0 < hgt := by
    obtain ⟨n, ⟨rr, he, rfl⟩, -⟩ := h.1
    obtain ⟨j, rfl, hj⟩ := Rect.elem_eq_some.1 he
    unfold getRowHeight at hh
    rw [Rect.elemAt_of he, Res.bind_ok, Res.pure_eq] at hh
    cases hh
    exact ((inv_made hL).row j rr hj).2.2.1
  unfold getDistanceToPad
  rw [hc, Res.bind_ok, e1, Res.bind_ok, hh, Res.bind_ok, hw, Res.bind_ok]
  exact ⟨_, rfl, keystoneDistance_isLeast hr hin (by linarith) (by linarith) h1 h2⟩

/-- A quarter ring between the radii 1 and 3 with a single pad. -/
example : ∃ (L : Layout ℝ) (p : ℤ) (c : ℝ × ℝ), Made π L ∧ Sized L ∧ IsIndex L 0 0 p ∧
    getPadCenter L p = .ok c ∧ c.1 = 2 ∧ getPadPitch L p = .ok (π / 2) ∧ getRowHeight L 0 = .ok 2 := by
  have hpi := Real.pi_pos
  have hok := (addRow_ok_iff (L := new (1 : ℝ)) (by norm_num [Versatile.new]) hpi ⟨1, π, 2, 0, 0, 0, 1⟩).2
    ⟨by norm_num, le_rfl, hpi.le, by norm_num, by norm_num, by norm_num [Versatile.new]; linarith⟩
  have hb : Built π 1 [⟨1, π, 2, 0, 0, 0, 1⟩] (addRow π (new (1 : ℝ)) ⟨1, π, 2, 0, 0, 0, 1⟩).1 :=
    .addRow (as := []) _ .new (Prod.ext rfl hok)
  generalize (addRow π (new (1 : ℝ)) ⟨1, π, 2, 0, 0, 0, 1⟩).1 = L at hb
  obtain ⟨h1, -, h3⟩ := counts hb
  have hr : getNRows L = 1 := by rw [h1]; rfl
  have hlen := (binv_built hb).len
  have hfl : flat [(⟨1, π, 2, 0, 0, 0, 1⟩ : RowArgs ℝ)] = [⟨1, π, 2, 0, 0, 0, 1⟩] := by simp [flat]
  have hS : Sized L := by
    refine sized_of (by omega) ?_
    intro r hrm
    obtain ⟨i, hlt, he⟩ := List.mem_iff_getElem.1 hrm
    have hi : i = 0 := by rw [hlen, hfl] at hlt; simpa using hlt
    subst hi
    obtain ⟨r', e, hR⟩ := (binv_built hb).row 0 _ (by rw [hfl]; rfl)
    rw [List.getElem?_eq_getElem hlt, he] at e
    cases e
    rw [hR.nPads]; norm_num
  have hmid : middle 1 [(⟨1, π, 2, 0, 0, 0, 1⟩ : RowArgs ℝ)] 0 ⟨1, π, 2, 0, 0, 0, 1⟩ = 2 := by
    norm_num [middle, inner]
  obtain ⟨q1, q2, q3⟩ := pads_placed hb hS (i := 0) (by rw [hfl]; rfl) (by rw [hmid]; norm_num)
  have hip : IsPad L 0 0 := ⟨1, q1, by norm_num, by norm_num⟩
  obtain ⟨p, hp⟩ := index_isSome hS hip
  obtain ⟨⟨phi, r1, -⟩, r2, -⟩ := q3 0 p ⟨hip, hp⟩
  rw [hmid] at r1 r2
  exact ⟨L, p, _, built_made hb, hS, ⟨hip, hp⟩, r1, rfl, r2, q2⟩

/-! ### C26 distance to a row -/

/-- Partial: for a point at an angle covered by the row, the distance to the row that decides which row is
nearest is the Euclidean distance.  Missing: points beside the row, see `rowDistance_false_side`. -/
theorem rowDistance_isLeast_partial {row : Row ℝ} (hin : 0 ≤ row.rCentre - row.rowHeight / 2)
    (hh : 0 ≤ row.rowHeight) (hfit : row.padPitch * row.nPads ≤ 2 * π) {r phi : ℝ} (hr : 0 ≤ r)
    (h1 : row.offset ≤ wrapTurn π phi) (h2 : wrapTurn π phi ≤ row.offset + row.nPads * row.padPitch) :
    IsLeast (distancesTo (keystone (row.rCentre - row.rowHeight / 2) (row.rCentre + row.rowHeight / 2)
      row.offset (row.offset + row.nPads * row.padPitch)) r phi) (getDistanceToRow realFns row r phi) := by
  have hk := keystoneDistance_isLeast (r := r) (phi := wrapTurn π phi)
    (rMin := row.rCentre - row.rowHeight / 2) (rMax := row.rCentre + row.rowHeight / 2)
    (phiMin := row.offset) (phiMax := row.offset + row.nPads * row.padPitch)
    hr hin (by linarith) (by linarith) (by linarith [mul_comm row.padPitch (row.nPads : ℝ)])
    (by linarith [mul_comm row.padPitch (row.nPads : ℝ)])
  obtain ⟨-, k, hw⟩ := wrapTurn_spec Real.pi_pos phi
  have hpt : point r (wrapTurn π phi) = point r phi := by
    unfold point
    rw [hw, cos_add_int_mul_two_pi, sin_add_int_mul_two_pi]
  have he : getDistanceToRow realFns row r phi = keystoneDistance realFns r (wrapTurn π phi)
      (row.rCentre - row.rowHeight / 2) (row.rCentre + row.rowHeight / 2)
      row.offset (row.offset + row.nPads * row.padPitch) := by
    unfold getDistanceToRow keystoneDistance
    have hm : row.rowHeight * (1 / 2) = row.rowHeight / 2 := by ring
    have hpi : realFns.pi = π := rfl
    rw [hm, hpi]
    dsimp only
    have hc : wrapTurn π phi ≥ row.offset ∧ wrapTurn π phi ≤ row.offset + row.nPads * row.padPitch := ⟨h1, h2⟩
    simp only [if_pos hc]
  rw [he]
  unfold distancesTo at hk ⊢
  rw [hpt] at hk
  exact hk

/-- Beside the row only its corners are considered: for a quarter ring between the radii 1 and 3, the point at
radius 4 and 150 degrees is nearest to a point in the middle of the ring's edge. -/
theorem rowDistance_false_side : ∃ row : Row ℝ, mkRow π 0 1 2 π 2 π 2 0 = .ok row ∧
    ∃ d ∈ distancesTo (keystone 1 3 0 (π / 2)) 4 (5 * π / 6), d < getDistanceToRow realFns row 4 (5 * π / 6) := by
  have hpi := Real.pi_pos
  obtain ⟨row, hrow⟩ : ∃ row, mkRow π 0 1 2 π 2 π 2 0 = .ok row := by
    unfold mkRow
    dsimp only
    rw [if_neg (by rw [gt_iff_lt, not_lt]; push_cast; linarith)]
    exact ⟨_, rfl⟩
  have hR := mkRow_ok hrow
  have hoff : row.offset = 0 := by
    rw [hR.offset (by linarith) (by linarith)]; norm_num
  refine ⟨row, hrow, _, ⟨point 2 (π / 2), ⟨2, π / 2, by norm_num, by norm_num, by linarith, le_rfl, rfl⟩, rfl⟩, ?_⟩
  have hw : wrapTurn π (5 * π / 6) = 5 * π / 6 := wrapTurn_id (by linarith) (by linarith)
  have c1 : cos (5 * π / 6 - π / 2) = 1 / 2 := by
    rw [show 5 * π / 6 - π / 2 = π / 3 by ring, cos_pi_div_three]
  have c2 : cos (0 + π / 2 - 5 * π / 6) = 1 / 2 := by
    rw [show 0 + π / 2 - 5 * π / 6 = -(π / 3) by ring, cos_neg, cos_pi_div_three]
  have c3 : cos (0 - 5 * π / 6) ≤ 0 := by
    rw [zero_sub, cos_neg]
    exact cos_nonpos_of_pi_div_two_le_of_le (by linarith) (by linarith)
  have e1 : dist2 (point 4 (5 * π / 6)) (point 2 (π / 2)) = √12 := by
    rw [dist2_point, c1]; norm_num
  have hp : realFns.pi = π := rfl
  have hcos : realFns.cos = cos := rfl
  have hsqrt : realFns.sqrt = fun x => √x := rfl
  rw [e1]
  unfold getDistanceToRow distanceToPhiMin distanceToPhiMax distanceToEdge
  rw [hp, hcos, hsqrt, hoff, hR.padPitch, hR.nPads, hR.rCentre, hR.rowHeight]
  dsimp only
  simp only [hw]
  rw [if_neg (by
    rintro ⟨-, h⟩
    push_cast at h
    linarith)]
  push_cast
  rw [one_mul, c2]
  have b1 : √12 < √13 := Real.sqrt_lt_sqrt (by norm_num) (by norm_num)
  have b2 : ∀ x : ℝ, x ≤ 0 → √12 <
      √(if (2 - 2 * (1 / 2)) * (2 - 2 * (1 / 2)) + 4 * 4 - 2 * (2 - 2 * (1 / 2)) * 4 * x >
          (2 + 2 * (1 / 2)) * (2 + 2 * (1 / 2)) + 4 * 4 - 2 * (2 + 2 * (1 / 2)) * 4 * x
        then (2 + 2 * (1 / 2)) * (2 + 2 * (1 / 2)) + 4 * 4 - 2 * (2 + 2 * (1 / 2)) * 4 * x
        else (2 - 2 * (1 / 2)) * (2 - 2 * (1 / 2)) + 4 * 4 - 2 * (2 - 2 * (1 / 2)) * 4 * x) := by
    intro x hx
    apply Real.sqrt_lt_sqrt (by norm_num)
    split_ifs <;> norm_num <;> linarith
  have b3 := b2 _ c3
  split_ifs with q1 q2 q2 q2 q2 <;> norm_num at * <;> first | assumption | skip
  all_goals norm_num at b3 ⊢
  all_goals first | assumption | linarith | skip

end Gear.Versatile
