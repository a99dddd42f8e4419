/-
Property C77 for layouts with a fixed pad size, over the real numbers with the mathematical functions.
-/
import Verif.PadSizeProps
import Verif.DiskDistance
import Mathlib.Analysis.Real.Pi.Bounds

set_option autoImplicit false
set_option linter.unusedSectionVars false

namespace Gear.PadSize

open PadIndex Disk Spec Disk.Spec Real
open Rect (elem)

/-! ### C77 distance to a pad -/

/-- For a point within a full turn of the pad, `getDistanceToPad` is the Euclidean distance to the cell of
the pad (the pad with the surrounding gap): the row in the radius, one pitch in the angle. -/
theorem distance_isLeast {A : Args ℝ} {L : Layout ℝ} (hA : A.Proper realFns) (hL : Made realFns A L)
    (hF : Filled L) {row pad n p : ℤ} (hn : PadsInRow L row n) (h : IsIndex L row pad p) {r phi : ℝ}
    (hr : 0 ≤ r) (h1 : (pad + 1) * (A.phiMax / n) - 2 * π ≤ phi)
    (h2 : phi ≤ pad * (A.phiMax / n) + 2 * π) :
    ∃ d, getDistanceToPad realFns L r phi p = .ok d ∧
      IsLeast (distancesTo (keystone
        (A.rMin + row * ((A.rMax - A.rMin) / getNRows L)) (A.rMin + (row + 1) * ((A.rMax - A.rMin) / getNRows L))
        (pad * (A.phiMax / n)) ((pad + 1) * (A.phiMax / n))) r phi) d := by
  have hi := inv_made hL
  obtain ⟨hh, hc, hp, -⟩ := rows_tile hA hL hF hn h
  obtain ⟨e1, -⟩ := numbers hF h
  have hnr := filled_nRow hi hF
  have hdr := rowHeight_pos hA hi hnr.1
  have hrow := isPad_nRow hi hn
  have hl : getNRows L = L.nRow := length_rows hi
  have hrow0 : (0 : ℝ) ≤ row := by exact_mod_cast hrow.1
  have hnp : (0 : ℝ) < n := by exact_mod_cast (hF.pads _ _ hn).1
  have hd : 0 < A.phiMax / n := div_pos hA.phi0 hnp
  rw [hl, ← hi.rowHeight] at hh hc ⊢
  have h0 := hA.r0
  have hm := mul_nonneg hrow0 hdr.le
  unfold getDistanceToPad
  rw [hc, Res.bind_ok, e1, hh, hp]
  refine ⟨_, rfl, ?_⟩
  dsimp only
  rw [show A.rMin + ((row : ℝ) + 1 / 2) * L.rowHeight - L.rowHeight / 2 = A.rMin + row * L.rowHeight by ring,
    show A.rMin + ((row : ℝ) + 1 / 2) * L.rowHeight + L.rowHeight / 2 = A.rMin + (row + 1) * L.rowHeight by ring,
    show ((pad : ℝ) + 1 / 2) * (A.phiMax / n) - A.phiMax / n / 2 = pad * (A.phiMax / n) by ring,
    show ((pad : ℝ) + 1 / 2) * (A.phiMax / n) + A.phiMax / n / 2 = (pad + 1) * (A.phiMax / n) by ring]
  exact keystoneDistance_isLeast hr (by linarith) (by linarith) (by linarith) h1 h2

/-- A half ring with one row: the row at radius 3 has room for nine pads of width 1. -/
noncomputable def halfArgs : Args ℝ := ⟨2, 4, 2, 1, 1, 0, π⟩

theorem half_made : ∃ L, halfArgs.Proper realFns ∧ Made realFns halfArgs L ∧ Filled L ∧ PadsInRow L 0 9 ∧
    getNRows L = 1 := by
  have hA : halfArgs.Proper realFns := by
    have := Real.pi_pos
    constructor <;> norm_num [halfArgs, realFns]
    · exact this
    · linarith
  obtain ⟨L, hL⟩ := new_accepts hA (by norm_num [halfArgs]) (by norm_num [halfArgs])
  have hM : Made realFns halfArgs L := .new hL
  have hi := inv_made hM
  have hl : getNRows L = L.nRow := length_rows hi
  obtain ⟨nr, h1, h2⟩ := rows_fit hA hM
  have hnr : nr = 1 := by
    obtain ⟨a, b⟩ := h1
    simp only [halfArgs] at a b
    have a' : (nr : ℝ) < 2 := by linarith
    have b' : (0 : ℝ) < nr := by linarith
    have a'' : nr < 2 := by exact_mod_cast a'
    have b'' : 0 < nr := by exact_mod_cast b'
    omega
  have h3 : getNRows L = 1 := by rw [h2, hnr]; simp [halfArgs]
  have key : ∀ row n, PadsInRow L row n → row = 0 ∧ n = 9 := by
    intro row n h
    have hr := isPad_nRow hi h
    have h0 : row = 0 := by omega
    subst h0
    refine ⟨rfl, ?_⟩
    obtain ⟨a, b⟩ := pads_fit hA hM h
    rw [h3] at a b
    simp only [halfArgs] at a b
    norm_num at a b
    have p1 := Real.pi_gt_three
    have p2 := Real.pi_lt_d2
    have a' : (n : ℝ) < 10 := by linarith
    have b' : (8 : ℝ) < n := by linarith
    have a'' : n < 10 := by exact_mod_cast a'
    have b'' : 8 < n := by exact_mod_cast b'
    omega
  obtain ⟨r, hr⟩ := Rect.elem_isSome (l := L.rows) (i := 0) le_rfl (by unfold getNRows at h3; omega)
  have hp : PadsInRow L 0 9 := ⟨r, hr, (key 0 _ ⟨r, hr, rfl⟩).2⟩
  have hF : Filled L := ⟨by omega, fun row n h => by have := (key row n h).2; omega⟩
  exact ⟨L, hA, hM, hF, hp, h3⟩

example : ∃ L p, halfArgs.Proper realFns ∧ Made realFns halfArgs L ∧ Filled L ∧ PadsInRow L 0 9 ∧
    IsIndex L 0 8 p := by
  obtain ⟨L, hA, hM, hF, hp, -⟩ := half_made
  have hip : IsPad L 0 8 := ⟨9, hp, by omega, by omega⟩
  obtain ⟨p, hp'⟩ := index_isSome hF hip
  exact ⟨L, p, hA, hM, hF, hp, hip, hp'⟩

end Gear.PadSize
