/-
Properties C08, C09, C18, C19, C21 and C76 for layouts with a fixed pad angle.
-/
import Verif.PadAngleLemmas

set_option autoImplicit false
set_option linter.unusedSectionVars false

namespace Gear.PadAngle

open PadIndex Disk Spec
open Rect (elem)

variable {K : Type} [Field K] [LinearOrder K] [IsStrictOrderedRing K] [FloorRing K]

/-- Functions for the examples: only their bounds matter there. -/
def exampleFns : Fns ℚ := ⟨22/7, fun _ => 0, fun _ => 0, fun x => x⟩

theorem exampleFns_ok : exampleFns.Ok := ⟨by norm_num [exampleFns], by intro a b; norm_num [exampleFns]⟩

/-- A quarter ring of 4 rows with 5 pads each. -/
def exampleArgs : Args ℚ := ⟨10, 18, 4, 0, 11/7, 5⟩

theorem exampleArgs_proper : exampleArgs.Proper :=
  ⟨by norm_num [exampleArgs], by norm_num [exampleArgs], by norm_num [exampleArgs],
   by norm_num [exampleArgs]⟩

def exampleLayout : Layout ℚ :=
  (getPadsInRow ⟨10, 18, 4, 2, 0, 11/7, 11/35, 5, 20, [10, 18, 0, 11/7], [none, none, none, none]⟩ 2).1

theorem exampleLayout_made : Made exampleArgs exampleLayout :=
  .padsInRow 2 (.new (by decide +kernel))

/-- A full circle of 2 rows with 4 pads each, to have a wrap around. -/
def circleArgs : Args ℚ := ⟨0, 2, 2, 0, 44/7, 4⟩

theorem circleArgs_proper : circleArgs.Proper :=
  ⟨by norm_num [circleArgs], by norm_num [circleArgs], by norm_num [circleArgs], by norm_num [circleArgs]⟩

def circleLayout : Layout ℚ := ⟨0, 2, 2, 1, 0, 44/7, 11/7, 4, 8, [0, 2, 0, 44/7], [none, none]⟩

theorem circleLayout_made : Made circleArgs circleLayout := .new (by decide +kernel)

/-! ### C08 pad index encoding is invertible -/

/-- Partial: proved for the pads that exist.  Missing: negative pad numbers are accepted as well, see
below. -/
theorem padIndex_roundtrip_partial {A : Args K} {L : Layout K} (hA : A.Proper) (hL : Made A L)
    {row pad : ℤ} (h : A.IsPad row pad) :
    ∃ p, getPadIndex L row pad = .ok p ∧ getRowNumber p = row ∧ getPadNumber p = pad := by
  obtain ⟨p, hp⟩ := index_isSome hA (inv_made hL) h
  exact ⟨p, hp, numbers hA (inv_made hL) ⟨h, hp⟩⟩

/-- Different pads have different indices. -/
theorem padIndex_injective {A : Args K} {L : Layout K} (hA : A.Proper) (hL : Made A L)
    {row pad row' pad' p : ℤ} (h : IsIndex A L row pad p) (h' : IsIndex A L row' pad' p) :
    row = row' ∧ pad = pad' := by
  obtain ⟨h1, h2⟩ := numbers hA (inv_made hL) h
  obtain ⟨h3, h4⟩ := numbers hA (inv_made hL) h'
  exact ⟨h1.symm.trans h3, h2.symm.trans h4⟩

/-- The accepted pad number -1 comes back as 65535. -/
theorem padIndex_false_negative :
    ∃ p, getPadIndex exampleLayout 0 (-1) = .ok p ∧ getPadNumber p ≠ -1 :=
  ⟨65535, by decide +kernel, by decide +kernel⟩

example : exampleArgs.IsPad 3 4 ∧ getPadIndex exampleLayout 3 4 = .ok 196612 := by
  constructor
  · simp [Args.IsPad, exampleArgs]
  · decide +kernel

/-! ### C09 getPadIndex rejects exactly the non-existing pads -/

/-- Partial: proved for row and pad numbers that are not negative.  Missing: a negative pad number is
accepted and a negative row number is shifted, which is undefined, see below. -/
theorem getPadIndex_rejects_partial {A : Args K} {L : Layout K} (hA : A.Proper) (hL : Made A L)
    {row pad : ℤ} (hr : 0 ≤ row) (hp : 0 ≤ pad) :
    (A.IsPad row pad → ∃ p, getPadIndex L row pad = .ok p) ∧
    (¬ A.IsPad row pad → getPadIndex L row pad = .throw .outOfRange) := by
  refine ⟨fun h => index_isSome hA (inv_made hL) h, fun h => ?_⟩
  have hi := inv_made hL
  unfold getPadIndex
  rw [hi.nRow, hi.nPadsInRow]
  by_cases h1 : row > A.nRow - 1
  · rw [if_pos h1]
  · rw [if_neg h1, if_pos]
    by_contra h2
    exact h ⟨⟨hr, by omega⟩, hp, by omega⟩

/-- A negative pad number is accepted. -/
theorem getPadIndex_false_negativePad :
    (∃ p, getPadIndex exampleLayout 0 (-1) = .ok p) ∧ ¬ exampleArgs.IsPad 0 (-1) :=
  ⟨⟨65535, by decide +kernel⟩, by simp [Args.IsPad]⟩

/-- A negative row number is undefined behaviour. -/
theorem getPadIndex_false_negativeRow : getPadIndex exampleLayout (-1) 0 = .ub := by decide +kernel

example : getPadIndex exampleLayout 4 0 = .throw .outOfRange ∧
    getPadIndex exampleLayout 0 5 = .throw .outOfRange := by decide +kernel

/-! ### C76 the pads tile the ring segment -/

/-- `isInsidePad(r, phi, i)` tells whether the point is in the keystone of the pad. -/
theorem isInsidePad_iff {A : Args K} {L : Layout K} (hA : A.Proper) (hL : Made A L) {row pad p : ℤ}
    (h : IsIndex A L row pad p) (r phi : K) :
    isInsidePad L r phi p = true ↔ A.InPad row pad r phi := by
  have hi := inv_made hL
  unfold isInsidePad
  rw [center_of hA hi h, hi.rowHeight, hi.padAngle]
  simp only [Bool.not_eq_true', decide_eq_false_iff_not, not_or, not_lt, Args.InPad]
  constructor
  · rintro ⟨h1, h2, h3, h4⟩
    refine ⟨⟨?_, ?_⟩, ?_, ?_⟩ <;> linarith
  · rintro ⟨⟨h1, h2⟩, h3, h4⟩
    refine ⟨?_, ?_, ?_, ?_⟩ <;> linarith

/-- The centre is the middle of the keystone, and pitch, width and height are its size. -/
theorem center_and_size {A : Args K} {L : Layout K} (hA : A.Proper) (hL : Made A L) {row pad p : ℤ}
    (h : IsIndex A L row pad p) :
    getPadCenter L p = (A.rMin + (row + 1 / 2) * A.dr, A.phiMin + (pad + 1 / 2) * A.dphi) ∧
    getPadHeight L p = A.dr ∧ getRowHeight L row = A.dr ∧
    getPadWidth L p = A.dphi ∧ getPadPitch L p = A.dphi := by
  have hi := inv_made hL
  refine ⟨?_, hi.rowHeight, hi.rowHeight, hi.padAngle, hi.padAngle⟩
  rw [center_of hA hi h]
  ext <;> ring

/-- `isInsidePad(r, phi)` tells whether the point is in the ring segment. -/
theorem isInsideAnyPad_iff {A : Args K} {L : Layout K} (hL : Made A L) (r phi : K) :
    isInsideAnyPad L r phi = true ↔ (A.rMin ≤ r ∧ r ≤ A.rMax) ∧ A.phiMin ≤ phi ∧ phi ≤ A.phiMax := by
  have hi := inv_made hL
  unfold isInsideAnyPad
  rw [hi.rMin, hi.rMax, hi.phiMin, hi.phiMax]
  simp only [Bool.not_eq_true', decide_eq_false_iff_not, not_or, not_lt]
  tauto

/-- A point is inside the ring segment iff it is inside some pad. -/
theorem insideAny_iff {A : Args K} {L : Layout K} (hA : A.Proper) (hL : Made A L) (r phi : K) :
    isInsideAnyPad L r phi = true ↔
      ∃ row pad p, IsIndex A L row pad p ∧ isInsidePad L r phi p = true := by
  have hi := inv_made hL
  have hdr := hA.dr_pos
  have hdp := hA.dphi_pos
  constructor
  · intro h
    obtain ⟨⟨h1, h2⟩, h3, h4⟩ := (isInsideAnyPad_iff hL r phi).1 h
    obtain ⟨hrow, -, ha, hb, -⟩ := row_of_radius hA r
    set row := (if (if r < A.rMin then 0 else ⌊(r - A.rMin) / A.dr⌋) ≥ A.nRow then A.nRow - 1
      else (if r < A.rMin then 0 else ⌊(r - A.rMin) / A.dr⌋)) with hrowdef
    rcases h4.lt_or_eq with h5 | h5
    · obtain ⟨hpad, hc, hd⟩ := pad_of_angle hA h3 h5
      obtain ⟨p, hp⟩ := index_isSome hA hi ⟨hrow, hpad⟩
      exact ⟨row, _, p, ⟨⟨hrow, hpad⟩, hp⟩,
        (isInsidePad_iff hA hL ⟨⟨hrow, hpad⟩, hp⟩ r phi).2 ⟨⟨ha h1, hb h2⟩, hc, hd.le⟩⟩
    · have hpad : 0 ≤ A.nPads - 1 ∧ A.nPads - 1 < A.nPads := by have := hA.pads; omega
      obtain ⟨p, hp⟩ := index_isSome hA hi ⟨hrow, hpad⟩
      refine ⟨row, _, p, ⟨⟨hrow, hpad⟩, hp⟩,
        (isInsidePad_iff hA hL ⟨⟨hrow, hpad⟩, hp⟩ r phi).2 ⟨⟨ha h1, hb h2⟩, ?_, ?_⟩⟩
      · rw [h5, hA.phiMax_eq]; push_cast; linarith
      · rw [h5, hA.phiMax_eq]; push_cast; linarith
  · rintro ⟨row, pad, p, h, hin⟩
    obtain ⟨⟨h1, h2⟩, h3, h4⟩ := (isInsidePad_iff hA hL h r phi).1 hin
    obtain ⟨⟨⟨a0, a1⟩, b0, b1⟩, -⟩ := h
    rw [isInsideAnyPad_iff hL, hA.rMax_eq, hA.phiMax_eq]
    have e1 : (0 : K) ≤ row := by exact_mod_cast a0
    have e2 : (row : K) + 1 ≤ A.nRow := by exact_mod_cast a1
    have e3 : (0 : K) ≤ pad := by exact_mod_cast b0
    have e4 : (pad : K) + 1 ≤ A.nPads := by exact_mod_cast b1
    have f1 := mul_nonneg e1 hdr.le
    have f2 := mul_le_mul_of_nonneg_right e2 hdr.le
    have f3 := mul_nonneg e3 hdp.le
    have f4 := mul_le_mul_of_nonneg_right e4 hdp.le
    refine ⟨⟨?_, ?_⟩, ?_, ?_⟩ <;> linarith

/-- Pads overlap on their borders only: a point in the open keystone of one pad is in no other pad. -/
theorem pads_disjoint {A : Args K} {L : Layout K} (hA : A.Proper) (hL : Made A L)
    {row pad p row' pad' p' : ℤ} (h : IsIndex A L row pad p) (h' : IsIndex A L row' pad' p') {r phi : K}
    (h1 : A.StrictlyInPad row pad r phi) (h2 : isInsidePad L r phi p' = true) : p = p' := by
  obtain ⟨⟨a, b⟩, c, d⟩ := h1
  obtain ⟨⟨a', b'⟩, c', d'⟩ := (isInsidePad_iff hA hL h' r phi).1 h2
  have e := cell_unique hA.dr_pos a b a' b'
  have e' := cell_unique hA.dphi_pos c d c' d'
  subst e e'
  exact Res.ok.inj (h.2.symm.trans h'.2)

/-- The counts and the plane extent are those asked for. -/
theorem counts {A : Args K} {L : Layout K} (hL : Made A L) :
    getNRows L = A.nRow ∧ getNPadsInRow L = A.nPads ∧ getNPads L = A.nRow * A.nPads ∧
    getPlaneExtent L = [A.rMin, A.rMax, A.phiMin, A.phiMax] := by
  have hi := inv_made hL
  exact ⟨hi.nRow, hi.nPadsInRow, hi.nPad, hi.extent⟩

/-- After any history, the list of a row holds exactly the indices of its pads, in order; other row
numbers give an empty list. -/
theorem padsInRow_made {A : Args K} {L : Layout K} (hA : A.Proper) (hL : Made A L) (row : ℤ) :
    ∃ l, (getPadsInRow L row).2 = .ok l ∧
      (0 ≤ row ∧ row < A.nRow → (l.length : ℤ) = A.nPads ∧
        ∀ pad : ℕ, (pad : ℤ) < A.nPads → ∃ p, l[pad]? = some p ∧ getPadIndex L row pad = .ok p) ∧
      (¬ (0 ≤ row ∧ row < A.nRow) → l = []) := by
  have hi := inv_made hL
  have key : ∀ row : ℤ, 0 ≤ row ∧ row < A.nRow → ∃ l, buildPads (getPadIndex L) row A.nPads.toNat = .ok l ∧
      (l.length : ℤ) = A.nPads ∧
      ∀ pad : ℕ, (pad : ℤ) < A.nPads → ∃ p, l[pad]? = some p ∧ getPadIndex L row pad = .ok p := by
    intro row hr
    have hex : ∀ i : ℕ, ∃ p, i < A.nPads.toNat → getPadIndex L row i = .ok p := by
      intro i
      by_cases hlt : i < A.nPads.toNat
      · obtain ⟨p, hp⟩ := index_isSome hA hi (row := row) (pad := i) ⟨hr, by omega, by omega⟩
        exact ⟨p, fun _ => hp⟩
      · exact ⟨0, fun h => absurd h hlt⟩
    choose g hg using hex
    refine ⟨_, buildPads_of A.nPads.toNat hg, ?_, ?_⟩
    · have := hA.pads; simp; omega
    · intro pad hlt
      refine ⟨g pad, ?_, hg pad (by omega)⟩
      rw [List.getElem?_map, List.getElem?_range (by omega)]; rfl
  by_cases hr : 0 ≤ row ∧ row < A.nRow
  · obtain ⟨l, hl, h1, h2⟩ := key row hr
    refine ⟨l, ?_, fun _ => ⟨h1, h2⟩, fun h => absurd hr h⟩
    obtain ⟨c, hc⟩ := Rect.elem_isSome (l := L.padIndices) hr.1 (by rw [hi.len]; omega)
    unfold getPadsInRow
    rw [hc]
    rcases c with _ | l'
    · dsimp only
      rw [hi.nPadsInRow, if_neg (by have := hA.pads; omega), hl]
    · dsimp only
      obtain ⟨i, rfl, hc'⟩ := Rect.elem_eq_some.1 hc
      have := (hi.cache i l' hc').1
      rw [hl] at this
      exact congrArg _ (Res.ok.inj this).symm
  · refine ⟨[], ?_, fun h => absurd h hr, fun _ => rfl⟩
    unfold getPadsInRow
    have : elem L.padIndices row = none := by
      rcases hc : elem L.padIndices row with _ | c
      · rfl
      · have := Rect.elem_range hc
        rw [hi.len] at this
        omega
    rw [this]

example : (getPadsInRow exampleLayout 2).2 = .ok [131072, 131073, 131074, 131075, 131076] ∧
    isInsidePad exampleLayout 15 1 131075 = true ∧ exampleArgs.StrictlyInPad 2 3 15 1 := by
  refine ⟨by decide +kernel, by decide +kernel, ?_⟩
  norm_num [Args.StrictlyInPad, exampleArgs, Args.dr, Args.dphi]

/-! ### C21 nearest pad -/

/-- Partial: for every point with `r ≥ 0` an existing pad is returned, unless the angle is the upper end of
the ring segment (modulo full turns).  Missing: those angles, see `nearest_false_phiMax`. -/
theorem nearest_exists_partial {F : Fns K} (hF : F.Ok) {A : Args K} {L : Layout K} (hA : A.Proper)
    (hL : Made A L) {r phi : K} (hr : 0 ≤ r) (hphi : ∀ k : ℤ, phi ≠ A.phiMax + k * (2 * F.pi)) :
    ∃ row pad p, IsIndex A L row pad p ∧ getNearestPad F L r phi = .ok p := by
  have hi := inv_made hL
  unfold getNearestPad
  rw [if_neg (not_lt.2 hr)]
  dsimp only
  set phi' := wrapDown F.pi _ (wrapUp F.pi _ phi) with hphi'
  have hne : phi' ≠ A.phiMax := by
    obtain ⟨k, hk⟩ := wrapUp_shift F.pi ((L.phiMax + L.phiMin) / 2 - F.pi) phi
    obtain ⟨m, hm⟩ := wrapDown_shift F.pi ((L.phiMax + L.phiMin) / 2 + F.pi)
      (wrapUp F.pi ((L.phiMax + L.phiMin) / 2 - F.pi) phi)
    intro h
    rw [hphi', hm, hk] at h
    refine hphi (-(k + m)) ?_
    rw [← h]; push_cast; ring
  by_cases h1 : phi' ≤ L.phiMax ∧ phi' ≥ L.phiMin
  · rw [if_pos h1]
    rw [hi.phiMax, hi.phiMin] at h1
    obtain ⟨hrow, -⟩ := row_of_radius hA r
    obtain ⟨hpad, -⟩ := pad_of_angle hA h1.2 (lt_of_le_of_ne h1.1 hne)
    rw [hi.phiMin, hi.padAngle, hi.rMin, hi.rowHeight, hi.nRow]
    obtain ⟨p, hp⟩ := index_isSome hA hi ⟨hrow, hpad⟩
    exact ⟨_, _, p, ⟨⟨hrow, hpad⟩, hp⟩, hp⟩
  · rw [if_neg h1]
    have hp := hA.pads
    have hr1 := edgeRow_range hF hA hi hr phi' L.phiMin
    have hr2 := edgeRow_range hF hA hi hr phi' L.phiMax
    have i1 : A.IsPad (edgeRow F L r phi' L.phiMin) 0 := ⟨hr1, by omega⟩
    have i2 : A.IsPad (edgeRow F L r phi' L.phiMax) (A.nPads - 1) := ⟨hr2, by omega⟩
    obtain ⟨p1, hp1⟩ := index_isSome hA hi i1
    obtain ⟨p2, hp2⟩ := index_isSome hA hi i2
    rw [hi.nPadsInRow]
    rw [hp1, Res.bind_ok, hp2, Res.bind_ok, Res.pure_eq]
    split_ifs
    · exact ⟨_, _, p1, ⟨i1, hp1⟩, rfl⟩
    · exact ⟨_, _, p2, ⟨i2, hp2⟩, rfl⟩

/-- A negative radius is refused. -/
theorem nearest_negative_radius (F : Fns K) (L : Layout K) {r : K} (phi : K) (h : r < 0) :
    getNearestPad F L r phi = .throw .outOfRange := by
  unfold getNearestPad; rw [if_pos h]

/-- What `getNearestPad` does for an angle in the ring segment: column from the angle, row from the
radius, first or last row when the radius is outside. -/
theorem nearest_in_sector {F : Fns K} (hF : F.Ok) {A : Args K} {L : Layout K} (hA : A.Proper)
    (hL : Made A L) (hspan : A.phiMax - A.phiMin ≤ 2 * F.pi) {r phi : K} (hr : 0 ≤ r)
    (h0 : A.phiMin ≤ phi) (h1 : phi < A.phiMax) :
    ∃ row pad p, IsIndex A L row pad p ∧ getNearestPad F L r phi = .ok p ∧
      (A.phiMin + pad * A.dphi ≤ phi ∧ phi < A.phiMin + (pad + 1) * A.dphi) ∧
      (A.rMin ≤ r → A.rMin + row * A.dr ≤ r) ∧ (r ≤ A.rMax → r ≤ A.rMin + (row + 1) * A.dr) ∧
      (r < A.rMin → row = 0) ∧ (A.rMax < r → row = A.nRow - 1) := by
  have hi := inv_made hL
  have e1 : wrapUp F.pi ((A.phiMax + A.phiMin) / 2 - F.pi) phi = phi := wrapUp_id (by linarith)
  have e2 : wrapDown F.pi ((A.phiMax + A.phiMin) / 2 + F.pi) phi = phi := wrapDown_id (by linarith)
  unfold getNearestPad
  rw [if_neg (not_lt.2 hr)]
  dsimp only
  rw [hi.phiMax, hi.phiMin, e1, e2, if_pos ⟨h1.le, h0⟩]
  obtain ⟨hrow, ha, hb, hc, hd⟩ := row_of_radius hA r
  obtain ⟨hpad, he, hf⟩ := pad_of_angle hA h0 h1
  rw [hi.padAngle, hi.rMin, hi.rowHeight, hi.nRow]
  obtain ⟨p, hp⟩ := index_isSome hA hi ⟨hrow, hpad⟩
  exact ⟨_, _, p, ⟨⟨hrow, hpad⟩, hp⟩, hp, ⟨he, hf⟩, hb, hc, ha, hd⟩

/-- Partial: a point inside the plane extent is inside the pad that is returned.  Missing: the upper end
of the angular range (`nearest_false_phiMax`) and ring segments of more than a full turn. -/
theorem nearest_contains_partial {F : Fns K} (hF : F.Ok) {A : Args K} {L : Layout K} (hA : A.Proper)
    (hL : Made A L) (hspan : A.phiMax - A.phiMin ≤ 2 * F.pi) {r phi : K} (hr : 0 ≤ r)
    (hr0 : A.rMin ≤ r) (hr1 : r ≤ A.rMax) (h0 : A.phiMin ≤ phi) (h1 : phi < A.phiMax) :
    ∃ row pad p, IsIndex A L row pad p ∧ getNearestPad F L r phi = .ok p ∧
      isInsidePad L r phi p = true := by
  obtain ⟨row, pad, p, hp, hn, ⟨ha, hb⟩, hc, hd, -, -⟩ := nearest_in_sector hF hA hL hspan hr h0 h1
  exact ⟨row, pad, p, hp, hn, (isInsidePad_iff hA hL hp r phi).2 ⟨⟨hc hr0, hd hr1⟩, ha, hb.le⟩⟩

/-- The centre of every pad is inside the pad and the pad is the nearest one. -/
theorem nearest_center {F : Fns K} (hF : F.Ok) {A : Args K} {L : Layout K} (hA : A.Proper)
    (hL : Made A L) (hspan : A.phiMax - A.phiMin ≤ 2 * F.pi) (hr : 0 ≤ A.rMin) {row pad p : ℤ}
    (h : IsIndex A L row pad p) :
    isInsidePad L (getPadCenter L p).1 (getPadCenter L p).2 p = true ∧
    getNearestPad F L (getPadCenter L p).1 (getPadCenter L p).2 = .ok p := by
  have hdr := hA.dr_pos
  have hdp := hA.dphi_pos
  rw [center_of hA (inv_made hL) h]
  dsimp only
  obtain ⟨⟨a0, a1⟩, b0, b1⟩ := h.1
  have e1 : (0 : K) ≤ row := by exact_mod_cast a0
  have e2 : (row : K) + 1 ≤ A.nRow := by exact_mod_cast a1
  have e3 : (0 : K) ≤ pad := by exact_mod_cast b0
  have e4 : (pad : K) + 1 ≤ A.nPads := by exact_mod_cast b1
  have f1 := mul_nonneg e1 hdr.le
  have f2 := mul_le_mul_of_nonneg_right e2 hdr.le
  have f3 := mul_nonneg e3 hdp.le
  have f4 := mul_le_mul_of_nonneg_right e4 hdp.le
  have hs : A.StrictlyInPad row pad ((row + 1 / 2) * A.dr + A.rMin) ((pad + 1 / 2) * A.dphi + A.phiMin) := by
    refine ⟨⟨?_, ?_⟩, ?_, ?_⟩ <;> linarith
  have hin := (isInsidePad_iff hA hL h ((row + 1 / 2) * A.dr + A.rMin)
    ((pad + 1 / 2) * A.dphi + A.phiMin)).2 ⟨⟨hs.1.1.le, hs.1.2.le⟩, hs.2.1.le, hs.2.2.le⟩
  refine ⟨hin, ?_⟩
  have m1 := hA.rMax_eq
  have m2 := hA.phiMax_eq
  obtain ⟨row', pad', p', hp', hn, hin'⟩ := nearest_contains_partial hF hA hL hspan
    (r := (row + 1 / 2) * A.dr + A.rMin) (phi := (pad + 1 / 2) * A.dphi + A.phiMin)
    (by linarith) (by linarith) (by linarith) (by linarith) (by linarith)
  rw [hn, pads_disjoint hA hL h hp' hs hin']

/-- The upper end of the angular range belongs to the plane and to a pad, but `getNearestPad` throws. -/
theorem nearest_false_phiMax :
    isInsideAnyPad exampleLayout 11 (11/7) = true ∧
    getNearestPad exampleFns exampleLayout 11 (11/7) = .throw .outOfRange := by decide +kernel

/-- The same on a full circle. -/
theorem nearest_false_fullCircle :
    getNearestPad exampleFns circleLayout 1 (44/7) = .throw .outOfRange ∧
    getNearestPad exampleFns circleLayout 1 0 = .ok 65536 := by decide +kernel

example : exampleArgs.phiMax - exampleArgs.phiMin ≤ 2 * exampleFns.pi ∧
    getNearestPad exampleFns exampleLayout 15 1 = .ok 131075 ∧
    getNearestPad exampleFns exampleLayout 3 (1 - 44/7) = .ok 3 ∧
    (∀ k : ℤ, (1 : ℚ) ≠ exampleArgs.phiMax + k * (2 * exampleFns.pi)) := by
  refine ⟨by norm_num [exampleArgs, exampleFns], by decide +kernel, by decide +kernel, ?_⟩
  intro k h
  simp only [exampleArgs, exampleFns] at h
  have h2 : (7 : ℚ) = 11 + k * 44 := by linarith
  have h3 : (7 : ℤ) = 11 + k * 44 := by exact_mod_cast h2
  omega

/-! ### C18 neighbours -/

/-- The left neighbour is the pad with the next higher number; the last pad of a full circle has the first
one as its neighbour, the last pad of an open segment has none. -/
theorem left_neighbour (F : Fns K) {A : Args K} {L : Layout K} (hA : A.Proper) (hL : Made A L)
    {row pad p : ℤ} (h : IsIndex A L row pad p) :
    (pad + 1 < A.nPads → ∃ q, IsIndex A L row (pad + 1) q ∧ getLeftNeighbour F L p = .ok q) ∧
    (pad + 1 = A.nPads → |A.phiMax - A.phiMin - 2 * F.pi| < 1 / 1000000 →
      ∃ q, IsIndex A L row 0 q ∧ getLeftNeighbour F L p = .ok q) ∧
    (pad + 1 = A.nPads → ¬ |A.phiMax - A.phiMin - 2 * F.pi| < 1 / 1000000 →
      getLeftNeighbour F L p = .throw .gear) := by
  have hi := inv_made hL
  obtain ⟨h1, h2⟩ := numbers hA hi h
  obtain ⟨⟨hr, hp⟩, -⟩ := h
  have hfull : fullCircle F L ↔ |A.phiMax - A.phiMin - 2 * F.pi| < 1 / 1000000 := by
    unfold fullCircle; rw [hi.phiMax, hi.phiMin]
  unfold getLeftNeighbour
  simp only [h1, h2, hi.nPadsInRow]
  refine ⟨fun hlt => ?_, fun he hc => ?_, fun he hc => ?_⟩
  · have hx : A.IsPad row (pad + 1) := ⟨hr, by omega, hlt⟩
    obtain ⟨q, hq⟩ := index_isSome hA hi hx
    exact ⟨q, ⟨hx, hq⟩, by rw [if_neg (by omega), hq]⟩
  · have hx : A.IsPad row 0 := ⟨hr, le_rfl, hA.pads.1⟩
    obtain ⟨q, hq⟩ := index_isSome hA hi hx
    exact ⟨q, ⟨hx, hq⟩, by rw [if_pos he, if_pos (hfull.2 hc), hq]⟩
  · rw [if_pos he, if_neg (fun x => hc (hfull.1 x))]

/-- The right neighbour is the pad with the next lower number; the first pad of a full circle has the last
one as its neighbour, the first pad of an open segment has none. -/
theorem right_neighbour (F : Fns K) {A : Args K} {L : Layout K} (hA : A.Proper) (hL : Made A L)
    {row pad p : ℤ} (h : IsIndex A L row pad p) :
    (0 < pad → ∃ q, IsIndex A L row (pad - 1) q ∧ getRightNeighbour F L p = .ok q) ∧
    (pad = 0 → |A.phiMax - A.phiMin - 2 * F.pi| < 1 / 1000000 →
      ∃ q, IsIndex A L row (A.nPads - 1) q ∧ getRightNeighbour F L p = .ok q) ∧
    (pad = 0 → ¬ |A.phiMax - A.phiMin - 2 * F.pi| < 1 / 1000000 →
      getRightNeighbour F L p = .throw .gear) := by
  have hi := inv_made hL
  obtain ⟨h1, h2⟩ := numbers hA hi h
  obtain ⟨⟨hr, hp⟩, -⟩ := h
  have hn := hA.pads
  have hfull : fullCircle F L ↔ |A.phiMax - A.phiMin - 2 * F.pi| < 1 / 1000000 := by
    unfold fullCircle; rw [hi.phiMax, hi.phiMin]
  unfold getRightNeighbour
  simp only [h1, h2, hi.nPadsInRow]
  refine ⟨fun hlt => ?_, fun he hc => ?_, fun he hc => ?_⟩
  · have hx : A.IsPad row (pad - 1) := ⟨hr, by omega, by omega⟩
    obtain ⟨q, hq⟩ := index_isSome hA hi hx
    exact ⟨q, ⟨hx, hq⟩, by rw [if_neg (by omega), hq]⟩
  · have hx : A.IsPad row (A.nPads - 1) := ⟨hr, by omega, by omega⟩
    obtain ⟨q, hq⟩ := index_isSome hA hi hx
    exact ⟨q, ⟨hx, hq⟩, by rw [if_pos (by omega), if_pos (hfull.2 hc), hq]⟩
  · rw [if_pos (by omega), if_neg (fun x => hc (hfull.1 x))]

/-- Left and right are inverse to each other, also across the seam of a full circle. -/
theorem left_right (F : Fns K) {A : Args K} {L : Layout K} (hA : A.Proper) (hL : Made A L)
    {row pad p q : ℤ} (h : IsIndex A L row pad p) :
    (getLeftNeighbour F L p = .ok q → getRightNeighbour F L q = .ok p) ∧
    (getRightNeighbour F L p = .ok q → getLeftNeighbour F L q = .ok p) := by
  have hp := h.1.2
  have hn := hA.pads
  constructor
  · intro hq
    obtain ⟨h1, h2, h3⟩ := left_neighbour F hA hL h
    rcases lt_or_ge (pad + 1) A.nPads with hlt | hge
    · obtain ⟨q', hi, hq'⟩ := h1 hlt
      rw [hq] at hq'; cases hq'
      obtain ⟨p', hi', hp'⟩ := (right_neighbour F hA hL hi).1 (by omega)
      rw [hp']
      have := hi'.2; rw [show pad + 1 - 1 = pad by ring, h.2] at this
      cases this; rfl
    · have he : pad + 1 = A.nPads := by omega
      by_cases hc : |A.phiMax - A.phiMin - 2 * F.pi| < 1 / 1000000
      · obtain ⟨q', hi, hq'⟩ := h2 he hc
        rw [hq] at hq'; cases hq'
        obtain ⟨p', hi', hp'⟩ := (right_neighbour F hA hL hi).2.1 rfl hc
        rw [hp']
        have := hi'.2; rw [show A.nPads - 1 = pad by omega, h.2] at this
        cases this; rfl
      · rw [h3 he hc] at hq; cases hq
  · intro hq
    obtain ⟨h1, h2, h3⟩ := right_neighbour F hA hL h
    rcases lt_or_ge 0 pad with hlt | hge
    · obtain ⟨q', hi, hq'⟩ := h1 hlt
      rw [hq] at hq'; cases hq'
      obtain ⟨p', hi', hp'⟩ := (left_neighbour F hA hL hi).1 (by omega)
      rw [hp']
      have := hi'.2; rw [show pad - 1 + 1 = pad by ring, h.2] at this
      cases this; rfl
    · have he : pad = 0 := by omega
      by_cases hc : |A.phiMax - A.phiMin - 2 * F.pi| < 1 / 1000000
      · obtain ⟨q', hi, hq'⟩ := h2 he hc
        rw [hq] at hq'; cases hq'
        obtain ⟨p', hi', hp'⟩ := (left_neighbour F hA hL hi).2.1 (by omega) hc
        rw [hp']
        have := hi'.2; rw [← he, h.2] at this
        cases this; rfl
      · rw [h3 he hc] at hq; cases hq

example : getLeftNeighbour exampleFns circleLayout 65539 = .ok 65536 ∧
    getRightNeighbour exampleFns circleLayout 65536 = .ok 65539 ∧
    getLeftNeighbour exampleFns exampleLayout 65540 = .throw .gear ∧
    getLeftNeighbour exampleFns exampleLayout 65539 = .ok 65540 := by decide +kernel

/-! ### C19 copies -/

/-- A copy answers every query as the original does. -/
theorem copy_queries (F : Fns K) {A : Args K} {L : Layout K} (hA : A.Proper) (hL : Made A L) :
    getNPads (copy L) = getNPads L ∧ getNRows (copy L) = getNRows L ∧
    getNPadsInRow (copy L) = getNPadsInRow L ∧ getFixedPadAngle (copy L) = getFixedPadAngle L ∧
    getPlaneExtent (copy L) = getPlaneExtent L ∧
    (∀ i, getRowHeight (copy L) i = getRowHeight L i) ∧ (∀ i, getPadHeight (copy L) i = getPadHeight L i) ∧
    (∀ i, getPadWidth (copy L) i = getPadWidth L i) ∧ (∀ i, getPadPitch (copy L) i = getPadPitch L i) ∧
    (∀ i, getPadCenter (copy L) i = getPadCenter L i) ∧
    (∀ i j, getPadIndex (copy L) i j = getPadIndex L i j) ∧
    (∀ i, (getPadsInRow (copy L) i).2 = (getPadsInRow L i).2) ∧
    (∀ r phi i, getDistanceToPad F (copy L) r phi i = getDistanceToPad F L r phi i) ∧
    (∀ r phi, getNearestPad F (copy L) r phi = getNearestPad F L r phi) ∧
    (∀ i, getLeftNeighbour F (copy L) i = getLeftNeighbour F L i) ∧
    (∀ i, getRightNeighbour F (copy L) i = getRightNeighbour F L i) ∧
    (∀ r phi i, isInsidePad (copy L) r phi i = isInsidePad L r phi i) ∧
    (∀ r phi, isInsideAnyPad (copy L) r phi = isInsideAnyPad L r phi) := by
  refine ⟨rfl, rfl, rfl, rfl, rfl, fun _ => rfl, fun _ => rfl, fun _ => rfl, fun _ => rfl, fun _ => rfl,
    fun _ _ => rfl, fun row => ?_, fun _ _ _ => rfl, fun _ _ => rfl, fun _ => rfl, fun _ => rfl,
    fun _ _ _ => rfl, fun _ _ => rfl⟩
  obtain ⟨l, h1, h2, h3⟩ := padsInRow_made hA hL row
  obtain ⟨l', h1', h2', h3'⟩ := padsInRow_made hA hL.copy row
  rw [h1, h1']
  congr 1
  by_cases hr : 0 ≤ row ∧ row < A.nRow
  · obtain ⟨a, b⟩ := h2 hr
    obtain ⟨a', b'⟩ := h2' hr
    apply List.ext_getElem? 
    intro i
    by_cases hlt : (i : ℤ) < A.nPads
    · obtain ⟨p, e, f⟩ := b i hlt
      obtain ⟨p', e', f'⟩ := b' i hlt
      have f'' : getPadIndex L row i = .ok p' := f'
      rw [f] at f''; cases f''
      rw [e, e']
    · rw [List.getElem?_eq_none (by omega), List.getElem?_eq_none (by omega)]
  · rw [h3 hr, h3' hr]

example : Made exampleArgs (copy exampleLayout) ∧
    (getPadsInRow (copy exampleLayout) 2).2 = .ok [131072, 131073, 131074, 131075, 131076] :=
  ⟨exampleLayout_made.copy, by decide +kernel⟩

end Gear.PadAngle
