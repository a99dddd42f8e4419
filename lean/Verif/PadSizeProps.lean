/-
Properties C08, C09, C18, C19, C22, C23, C79 and C80 for layouts with a fixed pad size.
-/
import Verif.PadSizeLemmas

set_option autoImplicit false
set_option linter.unusedSectionVars false

namespace Gear.PadSize

open PadIndex Disk Spec
open Rect (elem elemUb elemAt)

variable {K : Type} [Field K] [LinearOrder K] [IsStrictOrderedRing K] [FloorRing K]

/-- Functions for the examples; the cosine is a stand-in. -/
def exampleFns : Fns ℚ := ⟨22/7, fun _ => 0, fun _ => 0, fun x => x⟩

/-- A full ring between r = 10 and r = 12 with pads of 1 mm x 10 mm: rows of 6 and 7 pads. -/
def exampleArgs : Args ℚ := ⟨10, 12, 1, 10, 0, 0, 44/7⟩

theorem exampleArgs_proper : exampleArgs.Proper exampleFns := by
  constructor <;> norm_num [exampleArgs, exampleFns]

def exampleLayout : Layout ℚ :=
  ⟨10, 12, 44/7, 1, 10, 1, 0, 2, 13, [⟨6, 21/2, 22/21⟩, ⟨7, 23/2, 44/49⟩], [10, 12, 0, 44/7], [none, none]⟩

theorem exampleLayout_made : Made exampleFns exampleArgs exampleLayout := .new (by decide +kernel)

theorem filled_of {L : Layout K} (h0 : 0 < getNRows L ∧ getNRows L ≤ 65536)
    (h : ∀ r ∈ L.rows, 1 ≤ r.nPad ∧ r.nPad ≤ 65536) : Filled L := by
  refine ⟨h0, ?_⟩
  rintro row n ⟨r, hr, rfl⟩
  exact h r (Rect.elem_mem hr)

theorem exampleLayout_filled : Filled exampleLayout := filled_of (by decide +kernel) (by decide +kernel)

/-- Three quarters of a ring. -/
def openArgs : Args ℚ := ⟨10, 12, 4/5, 9, 0, 1, 33/7⟩

def openLayout : Layout ℚ :=
  ⟨10, 12, 33/7, 1, 9, 4/5, 1, 2, 9, [⟨4, 21/2, 33/28⟩, ⟨5, 23/2, 33/35⟩], [10, 12, 0, 33/7], [none, none]⟩

theorem openArgs_proper : openArgs.Proper exampleFns := by
  constructor <;> norm_num [openArgs, exampleFns]

theorem openLayout_made : Made exampleFns openArgs openLayout := .new (by decide +kernel)

theorem openLayout_filled : Filled openLayout := filled_of (by decide +kernel) (by decide +kernel)

/-! ### C22 rows and pads fit into the declared disk -/

/-- The number of rows: the most that fit (with a tolerance of 0.01 mm), or fewer if asked for. -/
theorem rows_fit {F : Fns K} {A : Args K} {L : Layout K} (hA : A.Proper F) (hL : Made F A L) :
    ∃ nr, IsMostThatFit A.padHeight (A.rMax + 1 / 100 - A.rMin) nr ∧
      getNRows L = if A.nRow > 0 then min A.nRow nr else nr := by
  have hi := inv_made hL
  obtain ⟨nr, h1, -, h2⟩ := numRows_spec (nRow := A.nRow) hi.height_pos
    (show A.rMin ≤ A.rMax + 1 / 100 by have := hA.r; linarith)
  refine ⟨nr, h1, ?_⟩
  unfold getNRows
  rw [length_rows hi, hi.nRow, h2]

/-- The rows have the same height and tile the ring: row `i` is `[rMin + i h, rMin + (i+1) h]` with
`h = (rMax - rMin) / nRows`, its pads are centred in it and, in the angle, divide `[0, phiMax]` evenly. -/
theorem rows_tile {F : Fns K} {A : Args K} {L : Layout K} (hA : A.Proper F) (hL : Made F A L)
    (hF : Filled L) {row pad n p : ℤ} (hn : PadsInRow L row n) (h : IsIndex L row pad p) :
    getRowHeight L row = (A.rMax - A.rMin) / getNRows L ∧
    getPadCenter L p = .ok (A.rMin + (row + 1 / 2) * ((A.rMax - A.rMin) / getNRows L),
      (pad + 1 / 2) * (A.phiMax / n)) ∧
    getPadPitch L p = A.phiMax / n ∧
    getPadWidth L p = A.padWidth / (A.rMin + (row + 1 / 2) * ((A.rMax - A.rMin) / getNRows L)) ∧
    getPadHeight L p = A.padHeight := by
  have hi := inv_made hL
  obtain ⟨r, hr, rfl⟩ := hn
  obtain ⟨h1, h2⟩ := numbers hF h
  obtain ⟨-, hc, hp, -⟩ := row_props hA hi hr
  have hl : getNRows L = L.nRow := length_rows hi
  rw [hl, ← hi.rowHeight]
  refine ⟨rfl, ?_, ?_, ?_, hi.padHeight⟩
  · unfold getPadCenter
    rw [h1, h2, Rect.elemUb_of hr, Res.bind_ok, Res.pure_eq, hc, hp]
    rfl
  · unfold getPadPitch
    rw [h1, hr]; exact hp
  · unfold getPadWidth
    rw [h1, hr]; dsimp only; rw [hc, hi.padWidth]; rfl

/-- In every row there are as many pads as fit into the arc of the row at its middle radius. -/
theorem pads_fit {F : Fns K} {A : Args K} {L : Layout K} (hA : A.Proper F) (hL : Made F A L)
    {row n : ℤ} (hn : PadsInRow L row n) :
    IsMostThatFit (A.padWidth + A.padGap)
      ((A.rMin + (row + 1 / 2) * ((A.rMax - A.rMin) / getNRows L)) * A.phiMax) n := by
  have hi := inv_made hL
  obtain ⟨r, hr, rfl⟩ := hn
  obtain ⟨-, -, -, hf⟩ := row_props hA hi hr
  have hl : getNRows L = L.nRow := length_rows hi
  rw [hl, ← hi.rowHeight]
  exact hf

/-- A pad is not wider than its pitch, and lies in `[0, phiMax]`. -/
theorem pad_in_angle {F : Fns K} {A : Args K} {L : Layout K} (hA : A.Proper F) (hL : Made F A L)
    (hF : Filled L) {row pad p : ℤ} (h : IsIndex L row pad p) {c : K × K} (hc : getPadCenter L p = .ok c) :
    getPadWidth L p ≤ getPadPitch L p ∧ 0 < getPadWidth L p ∧
    0 ≤ c.2 - getPadPitch L p / 2 ∧ c.2 + getPadPitch L p / 2 ≤ A.phiMax := by
  have hi := inv_made hL
  obtain ⟨n, hn, h0, h1⟩ := h.1
  obtain ⟨-, hc', hp, hw, -⟩ := rows_tile hA hL hF hn h
  rw [hc] at hc'; cases hc'
  rw [hp, hw]
  dsimp only
  have hr := isPad_nRow hi hn
  have hl : getNRows L = L.nRow := length_rows hi
  have hm := mid_pos hA hi hr
  have hfit := pads_fit hA hL hn
  rw [hl, ← hi.rowHeight] at hfit ⊢
  have hm' : A.rMin + ((row : K) + 1 / 2) * L.rowHeight = mid A L row := rfl
  rw [hm'] at hfit ⊢
  have hnp : (0 : K) < n := by exact_mod_cast (by omega : 0 < n)
  have hphi := hA.phi0
  have hwp := hi.width_pos
  have hgap := hA.gap
  have e1 : (0 : K) ≤ pad := by exact_mod_cast h0
  have e2 : (pad : K) + 1 ≤ n := by exact_mod_cast h1
  have hd : 0 < A.phiMax / n := div_pos hphi hnp
  refine ⟨?_, div_pos hwp hm.2.2, ?_, ?_⟩
  · rw [div_le_div_iff₀ hm.2.2 hnp]
    have := hfit.1
    nlinarith
  · have := mul_nonneg e1 hd.le
    linarith
  · have := mul_le_mul_of_nonneg_right e2 hd.le
    have e3 : (n : K) * (A.phiMax / n) = A.phiMax := by field_simp
    linarith

/-- `getNPads` is the sum over the rows. -/
theorem getNPads_sum {F : Fns K} {A : Args K} {L : Layout K} (hL : Made F A L) :
    ∃ ns : List ℤ, (ns.length : ℤ) = getNRows L ∧
      (∀ (i : ℕ) n, ns[i]? = some n → PadsInRow L i n) ∧ getNPads L = ns.sum := by
  have hi := inv_made hL
  refine ⟨L.rows.map Row.nPad, by simp [getNRows], ?_, hi.nPad⟩
  intro i n h
  rw [List.getElem?_map, Option.map_eq_some_iff] at h
  obtain ⟨r, hr, rfl⟩ := h
  exact ⟨r, by rw [Rect.elem_nat]; exact hr, rfl⟩

/-- Non-positive pad sizes are refused. -/
theorem new_rejects (pi rMin rMax padHeight padWidth : K) (nRow : ℤ) (padGap phiMax : K)
    (h : padHeight ≤ 0 ∨ padWidth ≤ 0) :
    new pi rMin rMax padHeight padWidth nRow padGap phiMax = .throw .parse := by
  unfold new; rw [if_pos h]

/-- And for proper arguments a layout is built. -/
theorem new_accepts {F : Fns K} {A : Args K} (hA : A.Proper F) (h1 : 0 < A.padHeight) (h2 : 0 < A.padWidth) :
    ∃ L, new F.pi A.rMin A.rMax A.padHeight A.padWidth A.nRow A.padGap A.phiMax = .ok L := by
  obtain ⟨nr, -, h0, hn⟩ := numRows_spec (nRow := A.nRow) h1
    (show A.rMin ≤ A.rMax + 1 / 100 by have := hA.r; linarith)
  unfold new
  rw [if_neg (by rw [not_or, not_le, not_le]; exact ⟨h1, h2⟩)]
  dsimp only
  rw [if_neg]
  · exact ⟨_, rfl⟩
  · rw [hn]; split_ifs <;> omega

/-- "Rows fit" holds up to the tolerance only: a pad may be higher than its row and stick out of the
disk. -/
theorem rows_fit_false_height : ∃ L : Layout ℚ, new (22/7) 10 20 (10005/1000) 1 0 0 (44/7) = .ok L ∧
    getNRows L = 1 ∧ getRowHeight L 0 = 10 ∧ getPadHeight L 0 = 10005/1000 :=
  ⟨⟨10, 20, 44/7, 10, 1, 10005/1000, 0, 1, 94, [⟨94, 15, 44/658⟩], [10, 20, 0, 44/7], [none]⟩,
   by decide +kernel, by decide +kernel, by decide +kernel, by decide +kernel⟩

example : PadsInRow exampleLayout 1 7 ∧ IsIndex exampleLayout 1 6 65542 := by
  have : PadsInRow exampleLayout 1 7 := ⟨⟨7, 23/2, 44/49⟩, by decide +kernel, rfl⟩
  exact ⟨this, ⟨7, this, by decide, by decide⟩, by decide +kernel⟩

/-! ### C23 nearest pad -/

/-- The centre of a pad is inside it. -/
theorem center_inside {F : Fns K} (hpi : 0 < F.pi) {A : Args K} {L : Layout K} (hA : A.Proper F)
    (hL : Made F A L) (hF : Filled L) {row pad p : ℤ} (h : IsIndex L row pad p) {c : K × K}
    (hc : getPadCenter L p = .ok c) : isInsidePad F L c.1 c.2 p = .ok true := by
  have hi := inv_made hL
  obtain ⟨n, hn, h0, h1⟩ := id h.1
  obtain ⟨hw, hw0, ha, hb⟩ := pad_in_angle hA hL hF h hc
  obtain ⟨-, hc', -⟩ := rows_tile hA hL hF hn h
  have hl : getNRows L = L.nRow := length_rows hi
  rw [hl, ← hi.rowHeight] at hc'
  have hm := mid_pos hA hi (isPad_nRow hi hn)
  have hc1 : c.1 = mid A L row := by rw [hc] at hc'; cases hc'; rfl
  unfold isInsidePad
  rw [hi.rMin, hi.rMax, hc1, if_neg (by rw [not_or, not_lt, not_lt]; exact ⟨hm.1.le, hm.2.1.le⟩)]
  have hphi := hA.phi
  rw [wrapTurn_id (show 0 ≤ c.2 by linarith) (by linarith), hc, Res.bind_ok]
  simp only [hc1, sub_self, abs_zero]
  rw [Res.pure_eq]
  congr 1
  have := hi.height_pos
  rw [← hi.padHeight] at this
  simp only [decide_eq_true_eq]
  constructor <;> linarith

/-- What `getNearestPad` does for an angle in `[0, phiMax]`. -/
theorem nearest_in_sector {F : Fns K} (hpi : 0 < F.pi) {A : Args K} {L : Layout K} (hA : A.Proper F)
    (hL : Made F A L) (hF : Filled L) {r phi : K} (hr : 1 / 1000000 ≤ r) (h0 : 0 ≤ phi)
    (h1 : phi ≤ A.phiMax) :
    ∃ row pad n p, PadsInRow L row n ∧ IsIndex L row pad p ∧ getNearestPad F L r phi = .ok p ∧
      (A.rMin ≤ r → A.rMin + row * L.rowHeight ≤ r) ∧
      (r ≤ A.rMax → r ≤ A.rMin + (row + 1) * L.rowHeight) ∧
      pad * (A.phiMax / n) ≤ phi ∧ phi ≤ (pad + 1) * (A.phiMax / n) := by
  have hi := inv_made hL
  have hn := filled_nRow hi hF
  have hrp : 0 < r := lt_of_lt_of_le (by norm_num) hr
  have hpm := proper_phiMax hA hi
  have hphi := hA.phi
  unfold getNearestPad
  rw [if_neg (by rw [abs_of_pos hrp]; exact not_lt.2 hr)]
  dsimp only
  have hw : (if fullCircle F L then wrapTurn F.pi phi
      else wrapDown F.pi (2 * F.pi) (wrapUp F.pi (-2 * F.pi) phi)) = phi := by
    split_ifs
    · exact wrapTurn_id h0 (by linarith)
    · rw [wrapUp_id (by linarith), wrapDown_id (by linarith)]
  rw [hw, if_pos ⟨hrp, h0, by rw [hpm]; exact h1⟩]
  obtain ⟨hrow, ha, hb⟩ := row_of_radius hA hi hn.1 r
  set row := (if (if r < L.rMin then 0 else ⌊(r - L.rMin) / L.rowHeight⌋) ≥ L.nRow then L.nRow - 1
      else (if r < L.rMin then 0 else ⌊(r - L.rMin) / L.rowHeight⌋)) with hrowdef
  obtain ⟨rr, hrr⟩ := Rect.elem_isSome (l := L.rows) hrow.1 (by rw [length_rows hi]; exact hrow.2)
  have hk : PadsInRow L row rr.nPad := ⟨rr, hrr, rfl⟩
  obtain ⟨-, -, hp, -⟩ := row_props hA hi hrr
  obtain ⟨hpad, hc, hd⟩ := pad_of_angle hA.phi0 (hF.pads _ _ hk).1 h0
  rw [Rect.elemUb_of hrr, Res.bind_ok, hp]
  have hisp : IsPad L row _ := ⟨rr.nPad, hk, hpad⟩
  obtain ⟨p, hp'⟩ := index_isSome hF hisp
  exact ⟨row, _, rr.nPad, p, hk, ⟨hisp, hp'⟩, hp', ha, hb, hc, hd h1⟩

/-- The centre of a pad has the pad as its nearest one. -/
theorem nearest_center {F : Fns K} (hpi : 0 < F.pi) {A : Args K} {L : Layout K} (hA : A.Proper F)
    (hL : Made F A L) (hF : Filled L) {row pad p : ℤ} (h : IsIndex L row pad p) {c : K × K}
    (hc : getPadCenter L p = .ok c) (hr : 1 / 1000000 ≤ c.1) :
    getNearestPad F L c.1 c.2 = .ok p := by
  have hi := inv_made hL
  have hn := filled_nRow hi hF
  obtain ⟨n, hk, h0, h1⟩ := id h.1
  have hnp : (0 : K) < n := by exact_mod_cast (by omega : 0 < n)
  have hd : 0 < A.phiMax / n := div_pos hA.phi0 hnp
  obtain ⟨-, hc', hpitch, -⟩ := rows_tile hA hL hF hk h
  obtain ⟨-, -, ha, hb⟩ := pad_in_angle hA hL hF h hc
  have hl : getNRows L = L.nRow := length_rows hi
  rw [hl, ← hi.rowHeight] at hc'
  rw [hc] at hc'; cases hc'
  rw [hpitch] at ha hb
  dsimp only at *
  have hrow := isPad_nRow hi hk
  have hm := mid_pos hA hi hrow
  have hm' : A.rMin + ((row : K) + 1 / 2) * L.rowHeight = mid A L row := rfl
  have hh := rowHeight_pos hA hi hn.1
  obtain ⟨row', pad', n', p', hk', hp', hnear, b1, b2, b3, b4⟩ := nearest_in_sector hpi hA hL hF hr
    (phi := ((pad : K) + 1 / 2) * (A.phiMax / n)) (by linarith) (by linarith)
  rw [hnear]
  have e := cell_unique hh (lo := A.rMin) (i := row) (j := row')
    (x := A.rMin + ((row : K) + 1 / 2) * L.rowHeight)
    (by linarith) (by linarith) (b1 (by rw [hm']; exact hm.1.le)) (b2 (by rw [hm']; exact hm.2.1.le))
  subst e
  have en : n' = n := by
    obtain ⟨r1, e1, rfl⟩ := hk
    obtain ⟨r2, e2, rfl⟩ := hk'
    rw [e1] at e2; cases e2; rfl
  subst en
  have e := cell_unique hd (lo := 0) (i := pad) (j := pad') (x := ((pad : K) + 1 / 2) * (A.phiMax / n'))
    (by linarith) (by linarith) (by linarith) (by linarith)
  subst e
  have hq := hp'.2
  rw [h.2] at hq
  exact congrArg _ (Res.ok.inj hq).symm

/-- For every point but those at the origin, `getNearestPad` returns an existing pad. -/
theorem nearest_exists {F : Fns K} {A : Args K} {L : Layout K} (hA : A.Proper F) (hL : Made F A L)
    (hF : Filled L) {r : K} (hr : 1 / 1000000 ≤ |r|) (phi : K) :
    ∃ row pad p, IsIndex L row pad p ∧ getNearestPad F L r phi = .ok p := by
  have hi := inv_made hL
  have hn := filled_nRow hi hF
  have hlen := length_rows hi
  -- first and last pad of an existing row
  have first : ∀ row, 0 ≤ row ∧ row < L.nRow →
      ∃ r p q, elem L.rows row = some r ∧ IsIndex L row 0 p ∧ IsIndex L row (r.nPad - 1) q := by
    intro row h
    obtain ⟨rr, hrr⟩ := Rect.elem_isSome (l := L.rows) h.1 (by rw [hlen]; exact h.2)
    have hk : PadsInRow L row rr.nPad := ⟨rr, hrr, rfl⟩
    have h1 := (hF.pads _ _ hk).1
    have i1 : IsPad L row 0 := ⟨_, hk, by omega, by omega⟩
    have i2 : IsPad L row (rr.nPad - 1) := ⟨_, hk, by omega, by omega⟩
    obtain ⟨p, hp⟩ := index_isSome hF i1
    obtain ⟨q, hq⟩ := index_isSome hF i2
    exact ⟨rr, p, q, hrr, ⟨i1, hp⟩, ⟨i2, hq⟩⟩
  have getFirst : ∀ row, 0 ≤ row ∧ row < L.nRow →
      ∃ row' pad p, IsIndex L row' pad p ∧ getPadIndex L row 0 = .ok p := by
    intro row h
    obtain ⟨-, p, -, -, hp, -⟩ := first row h
    exact ⟨_, _, p, hp, hp.2⟩
  have getLast : ∀ row, 0 ≤ row ∧ row < L.nRow → ∃ row' pad p, IsIndex L row' pad p ∧
      (elemUb L.rows row >>= fun r => getPadIndex L row (r.nPad - 1)) = .ok p := by
    intro row h
    obtain ⟨rr, -, q, hrr, -, hq⟩ := first row h
    refine ⟨_, _, q, hq, ?_⟩
    rw [Rect.elemUb_of hrr, Res.bind_ok]; exact hq.2
  unfold getNearestPad
  rw [if_neg (not_lt.2 hr)]
  dsimp only
  generalize (if fullCircle F L then wrapTurn F.pi phi
      else wrapDown F.pi (2 * F.pi) (wrapUp F.pi (-2 * F.pi) phi)) = phi'
  generalize (if fullCircle F L then r else r * F.cos (phi' - L.phiMax)) = rOnMax
  generalize (if fullCircle F L then r else r * F.cos (phi' - 0)) = rOnMin
  by_cases c1 : r > 0 ∧ phi' ≥ 0 ∧ phi' ≤ L.phiMax
  · rw [if_pos c1]
    obtain ⟨hrow, -⟩ := row_of_radius hA hi hn.1 r
    obtain ⟨rr, hrr⟩ := Rect.elem_isSome (l := L.rows) hrow.1 (by rw [hlen]; exact hrow.2)
    have hk : PadsInRow L _ rr.nPad := ⟨rr, hrr, rfl⟩
    obtain ⟨-, -, hp, -⟩ := row_props hA hi hrr
    obtain ⟨hpad, -⟩ := pad_of_angle hA.phi0 (hF.pads _ _ hk).1 c1.2.1
    rw [Rect.elemUb_of hrr, Res.bind_ok, hp]
    have hisp : IsPad L _ _ := ⟨rr.nPad, hk, hpad⟩
    obtain ⟨p, hp'⟩ := index_isSome hF hisp
    exact ⟨_, _, p, ⟨hisp, hp'⟩, hp'⟩
  rw [if_neg c1]
  by_cases c2 : rOnMin < L.rMin ∧ phi' < 0
  · rw [if_pos c2]; exact getFirst 0 (by omega)
  rw [if_neg c2]
  by_cases c3 : rOnMin > L.rMax ∧ phi' < 0
  · rw [if_pos c3]; exact getFirst (L.nRow - 1) (by omega)
  rw [if_neg c3]
  by_cases c4 : rOnMax < L.rMin ∧ phi' > L.phiMax
  · rw [if_pos c4]; exact getLast 0 (by omega)
  rw [if_neg c4]
  by_cases c5 : rOnMax > L.rMax ∧ phi' > L.phiMax
  · rw [if_pos c5]; exact getLast (L.nRow - 1) (by omega)
  rw [if_neg c5]
  by_cases c6 : rOnMin ≥ L.rMin ∧ rOnMin ≤ L.rMax ∧ phi' < 0
  · rw [if_pos c6]; exact getFirst _ (clampRow_range hn.1 _)
  rw [if_neg c6]
  by_cases c7 : rOnMax ≥ L.rMin ∧ rOnMax ≤ L.rMax ∧ phi' > L.phiMax
  · rw [if_pos c7]; exact getLast _ (clampRow_range hn.1 _)
  rw [if_neg c7]
  exact getFirst 0 (by omega)

/-- At the origin it throws. -/
theorem nearest_origin (F : Fns K) (L : Layout K) {r : K} (phi : K) (h : |r| < 1 / 1000000) :
    getNearestPad F L r phi = .throw .gear := by
  unfold getNearestPad; rw [if_pos h]

/-- A row without pads (pads wider than the arc): the index of a pad that does not exist is returned. -/
theorem nearest_false_emptyRow : ∃ L : Layout ℚ, Made exampleFns ⟨0, 2, 1, 10, 0, 0, 44/7⟩ L ∧
    getNearestPad exampleFns L (1/2) 1 = .ok 65535 ∧ PadsInRow L 0 0 :=
  ⟨⟨0, 2, 44/7, 1, 10, 1, 0, 2, 0, [⟨0, 1/2, 0⟩, ⟨0, 3/2, 0⟩], [0, 2, 0, 44/7], [none, none]⟩,
   .new (by decide +kernel), by decide +kernel, ⟨⟨0, 1/2, 0⟩, by decide +kernel, rfl⟩⟩

example : getPadCenter exampleLayout 65542 = .ok (23/2, 13/2 * (44/49)) ∧
    getNearestPad exampleFns exampleLayout (23/2) (13/2 * (44/49)) = .ok 65542 ∧
    getNearestPad exampleFns openLayout 3 (-1) = .ok 0 ∧
    getNearestPad exampleFns openLayout (-3) 5 = .ok 3 := by decide +kernel

/-! ### C79 points on a pad -/

/-- A point inside some pad as told by `isInsidePad(r, phi)`: the nearest pad contains it. -/
theorem insideAny_exists {F : Fns K} (hpi : 0 < F.pi) {A : Args K} {L : Layout K} (hA : A.Proper F)
    (hL : Made F A L) (hF : Filled L) {r phi : K} (h : isInsideAnyPad F L r phi = .ok true) :
    ∃ row pad p, IsIndex L row pad p ∧ isInsidePad F L r phi p = .ok true := by
  unfold isInsideAnyPad at h
  by_cases h1 : r < L.rMin ∨ r > L.rMax
  · rw [if_pos h1] at h; cases h
  rw [if_neg h1] at h
  dsimp only at h
  set phi' := wrapTurn F.pi phi with hphi'
  have hid : wrapTurn F.pi phi' = phi' := by
    obtain ⟨⟨a, b⟩, -⟩ := wrapTurn_spec hpi phi
    exact wrapTurn_id a b
  by_cases hr : 1 / 1000000 ≤ |r|
  · obtain ⟨row, pad, p, hp, hn⟩ := nearest_exists hA hL hF hr phi'
    rw [hn, Res.bind_ok] at h
    refine ⟨row, pad, p, hp, ?_⟩
    rw [← h]
    unfold isInsidePad
    rw [hid]
  · rw [nearest_origin F L phi' (not_le.1 hr)] at h
    cases h

/-- Partial: if rows have a gap between them, a point is inside some pad iff `isInsidePad(r, phi)` says so.
Missing: rows without a gap, where it fails on the border (`insideAny_false_border`), and points within
1e-6 of the origin. -/
theorem insideAny_iff_partial {F : Fns K} (hpi : 0 < F.pi) {A : Args K} {L : Layout K} (hA : A.Proper F)
    (hL : Made F A L) (hF : Filled L) (hgap : A.padHeight < getRowHeight L 0) {r phi : K}
    (hr : 1 / 1000000 ≤ r) :
    isInsideAnyPad F L r phi = .ok true ↔
      ∃ row pad p, IsIndex L row pad p ∧ isInsidePad F L r phi p = .ok true := by
  constructor
  · exact insideAny_exists hpi hA hL hF
  · rintro ⟨row, pad, p, h, hin⟩
    have hi := inv_made hL
    have hn := filled_nRow hi hF
    have hh := rowHeight_pos hA hi hn.1
    obtain ⟨n, hk, h0, h1⟩ := id h.1
    have hnp : (0 : K) < n := by exact_mod_cast (by omega : 0 < n)
    have hd : 0 < A.phiMax / n := div_pos hA.phi0 hnp
    obtain ⟨hid0, hid1⟩ := (wrapTurn_spec hpi phi).1
    have hid : wrapTurn F.pi (wrapTurn F.pi phi) = wrapTurn F.pi phi := wrapTurn_id hid0 hid1
    obtain ⟨-, hc', hpitch, -⟩ := rows_tile hA hL hF hk h
    obtain ⟨hwp, hw0, ha, hb⟩ := pad_in_angle hA hL hF h hc'
    have hl : getNRows L = L.nRow := length_rows hi
    rw [hl, ← hi.rowHeight] at hc' ha hb
    rw [hpitch] at ha hb hwp
    dsimp only at ha hb
    have hin' := hin
    unfold isInsidePad at hin
    by_cases hout : r < L.rMin ∨ r > L.rMax
    · rw [if_pos hout] at hin; cases hin
    rw [if_neg hout] at hin
    rw [hc', Res.bind_ok, Res.pure_eq] at hin
    have hin2 := Res.ok.inj hin
    simp only [decide_eq_true_eq] at hin2
    obtain ⟨i1, i2⟩ := hin2
    rw [hi.padHeight] at i1
    unfold getRowHeight at hgap
    rw [abs_le] at i1 i2
    rw [hi.rMin, hi.rMax, not_or, not_lt, not_lt] at hout
    set phi' := wrapTurn F.pi phi with hphi'
    have hphim := hA.phi
    obtain ⟨row', pad', n', p', hk', hp', hnear, b1, b2, b3, b4⟩ := nearest_in_sector hpi hA hL hF hr
      (phi := phi') hid0 (by linarith)
    have e := cell_unique hh (lo := A.rMin) (i := row) (j := row') (x := r)
      (by linarith) (by linarith) (b1 hout.1) (b2 hout.2)
    subst e
    have en : n' = n := by
      obtain ⟨r1, e1, rfl⟩ := hk
      obtain ⟨r2, e2, rfl⟩ := hk'
      rw [e1] at e2; cases e2; rfl
    subst en
    unfold isInsideAnyPad
    rw [hi.rMin, hi.rMax, if_neg (by rw [not_or, not_lt, not_lt]; exact hout)]
    dsimp only
    rw [← hphi', hnear, Res.bind_ok]
    unfold isInsidePad
    rw [hid, hi.rMin, hi.rMax, if_neg (by rw [not_or, not_lt, not_lt]; exact hout)]
    obtain ⟨-, hc2, hpitch2, hw2, -⟩ := rows_tile hA hL hF hk hp'
    obtain ⟨-, -, -, hw1, -⟩ := rows_tile hA hL hF hk h
    rw [hl, ← hi.rowHeight] at hc2 hw1 hw2
    dsimp only
    rw [hc2, Res.bind_ok, Res.pure_eq]
    congr 1
    simp only [decide_eq_true_eq]
    rw [hi.padHeight, hw2, ← hw1, abs_le, abs_le]
    refine ⟨⟨by linarith, by linarith⟩, ?_⟩
    -- the pads are equal, or the point is on the border of both
    have g1 : (pad : K) * (A.phiMax / n') ≤ phi' := by linarith
    have g2 : phi' ≤ ((pad : K) + 1) * (A.phiMax / n') := by linarith
    have s1 : (pad : K) ≤ pad' + 1 := by
      have : (pad : K) * (A.phiMax / n') ≤ (pad' + 1) * (A.phiMax / n') := by linarith
      exact le_of_mul_le_mul_right this hd
    have s2 : (pad' : K) ≤ pad + 1 := by
      have : (pad' : K) * (A.phiMax / n') ≤ (pad + 1) * (A.phiMax / n') := by linarith
      exact le_of_mul_le_mul_right this hd
    have s1' : pad ≤ pad' + 1 := by exact_mod_cast s1
    have s2' : pad' ≤ pad + 1 := by exact_mod_cast s2
    rcases (by omega : pad' = pad ∨ pad = pad' + 1 ∨ pad' = pad + 1) with s | s | s
    · subst s; exact ⟨i2.1, i2.2⟩
    · subst s; push_cast at *; constructor <;> linarith
    · subst s; push_cast at *; constructor <;> linarith

/-- Without a gap between the rows: the point on the border is inside pad 0 of row 0, but the nearest pad
is searched in row 1, where the point is between two pads. -/
theorem insideAny_false_border :
    isInsidePad exampleFns exampleLayout 11 (44/49) 0 = .ok true ∧
    isInsideAnyPad exampleFns exampleLayout 11 (44/49) = .ok false := by decide +kernel

example : openArgs.padHeight < getRowHeight openLayout 0 ∧
    isInsideAnyPad exampleFns openLayout (21/2) (33/56 + 44/7) = .ok true ∧
    isInsidePad exampleFns openLayout (21/2) (33/56) 0 = .ok true := by decide +kernel

/-! ### C80 full turns -/

/-- Partial: for `isInsidePad` full turns do not matter, unless the angle is a multiple of a full turn. -/
theorem isInsidePad_turn_partial {F : Fns K} (hpi : 0 < F.pi) (L : Layout K) (r : K) {phi : K}
    (h : ∀ k : ℤ, phi ≠ k * (2 * F.pi)) (m p : ℤ) :
    isInsidePad F L r (phi + m * (2 * F.pi)) p = isInsidePad F L r phi p ∧
    isInsideAnyPad F L r (phi + m * (2 * F.pi)) = isInsideAnyPad F L r phi := by
  unfold isInsideAnyPad isInsidePad
  rw [wrapTurn_turn hpi h]
  exact ⟨rfl, rfl⟩

/-- Partial: on a full circle `getNearestPad` does not depend on full turns, unless the angle is a multiple
of a full turn. -/
theorem nearest_turn_partial {F : Fns K} (hpi : 0 < F.pi) {A : Args K} {L : Layout K} (hA : A.Proper F)
    (hL : Made F A L) (hfull : |A.phiMax - 2 * F.pi| < 1 / 1000000) (r : K) {phi : K}
    (h : ∀ k : ℤ, phi ≠ k * (2 * F.pi)) (m : ℤ) :
    getNearestPad F L r (phi + m * (2 * F.pi)) = getNearestPad F L r phi := by
  have hf : fullCircle F L := by
    unfold fullCircle; rw [proper_phiMax hA (inv_made hL)]; exact hfull
  unfold getNearestPad
  simp only [if_pos hf, wrapTurn_turn hpi h]

/-- On an open segment it does: the point (11, pi/2 - 2 pi) is inside pad 65537 of three quarters of a
ring, but pad 0 is returned; given as (11, pi/2) it is found. -/
theorem nearest_false_turn :
    getNearestPad exampleFns openLayout 11 (11/7) = .ok 65537 ∧
    getNearestPad exampleFns openLayout 11 (11/7 + (-1 : ℤ) * (2 * exampleFns.pi)) = .ok 0 := by
  decide +kernel

/-- At phi = 0 two different pads are returned on a full circle. -/
theorem nearest_false_seam : getNearestPad exampleFns exampleLayout 11 0 = .ok 65536 ∧
    getNearestPad exampleFns exampleLayout 11 (0 + (1 : ℤ) * (2 * exampleFns.pi)) = .ok 65542 := by
  decide +kernel

example : |exampleArgs.phiMax - 2 * exampleFns.pi| < 1 / 1000000 ∧
    getNearestPad exampleFns exampleLayout 11 (1 - 44/7) = getNearestPad exampleFns exampleLayout 11 1 := by
  decide +kernel

/-! ### C08, C09 pad indices -/

/-- Partial: proved for the pads that exist.  Missing: negative pad numbers are accepted as well, see
below. -/
theorem padIndex_roundtrip_partial {L : Layout K} (hF : Filled L) {row pad : ℤ} (h : IsPad L row pad) :
    ∃ p, getPadIndex L row pad = .ok p ∧ getRowNumber p = row ∧ getPadNumber p = pad := by
  obtain ⟨p, hp⟩ := index_isSome hF h
  exact ⟨p, hp, numbers hF ⟨h, hp⟩⟩

/-- Different pads have different indices. -/
theorem padIndex_injective {L : Layout K} (hF : Filled L) {row pad row' pad' p : ℤ}
    (h : IsIndex L row pad p) (h' : IsIndex L row' pad' p) : row = row' ∧ pad = pad' := by
  obtain ⟨h1, h2⟩ := numbers hF h
  obtain ⟨h3, h4⟩ := numbers hF h'
  exact ⟨h1.symm.trans h3, h2.symm.trans h4⟩

/-- The accepted pad number -1 comes back as 65535. -/
theorem padIndex_false_negative :
    ∃ p, getPadIndex exampleLayout 0 (-1) = .ok p ∧ getPadNumber p ≠ -1 :=
  ⟨65535, by decide +kernel, by decide +kernel⟩

/-- Partial: proved for layouts with rows and pad numbers that are not negative. -/
theorem getPadIndex_rejects_partial {L : Layout K} (hF : Filled L) {row pad : ℤ}
    (hr : Rect.Spec.IsInt row) (hp : 0 ≤ pad) :
    (IsPad L row pad → ∃ p, getPadIndex L row pad = .ok p) ∧
    (¬ IsPad L row pad → getPadIndex L row pad = .throw .outOfRange) := by
  have hn := hF.rows
  unfold getNRows at hn
  have hrows : L.rows ≠ [] := by intro h; simp [h] at hn
  refine ⟨fun h => index_isSome hF h, fun h => ?_⟩
  rcases Classical.em (0 ≤ row ∧ row < L.rows.length) with h1 | h1
  · obtain ⟨r, hr⟩ := Rect.elem_isSome h1.1 h1.2
    have h2 : r.nPad ≤ pad := by
      by_contra h2
      exact h ⟨r.nPad, ⟨r, hr, rfl⟩, hp, by omega⟩
    have hnat := ofInt_toNat_of_range h1.1 (by omega)
    unfold getPadIndex
    rw [if_neg, Rect.elemUb_of hr]
    · simp only [Res.bind_ok]
      rw [if_pos (by omega)]
    · rintro ⟨-, h3⟩
      rw [hnat] at h3; omega
  · unfold getPadIndex
    rw [if_pos]
    refine ⟨hrows, ?_⟩
    rw [BitVec.toNat_ofInt]
    have : ((2 ^ 32 : ℕ) : ℤ) = 4294967296 := by norm_num
    rw [this]
    obtain ⟨ha, hb⟩ := hr
    omega

/-- A negative pad number is accepted. -/
theorem getPadIndex_false_negative :
    (∃ p, getPadIndex exampleLayout 0 (-1) = .ok p) ∧ ¬ IsPad exampleLayout 0 (-1) := by
  refine ⟨⟨65535, by decide +kernel⟩, ?_⟩
  rintro ⟨n, -, h, -⟩
  omega

/-- A layout without rows reads outside its table. -/
theorem getPadIndex_false_empty : ∃ L : Layout ℚ, new (22/7) 10 11 2 1 0 0 (44/7) = .ok L ∧
    getPadIndex L 0 0 = .ub ∧ getNearestPad exampleFns L 10 1 = .ub :=
  ⟨⟨10, 11, 44/7, 0, 1, 2, 0, 0, 0, [], [10, 11, 0, 44/7], []⟩, by decide +kernel, by decide +kernel,
   by decide +kernel⟩

example : getPadIndex exampleLayout 2 0 = .throw .outOfRange ∧
    getPadIndex exampleLayout (-1) 0 = .throw .outOfRange ∧
    getPadIndex exampleLayout 0 6 = .throw .outOfRange ∧ getPadIndex exampleLayout 1 6 = .ok 65542 := by
  decide +kernel

/-! ### C18 neighbours -/

/-- The left neighbour is the pad with the next higher number; the last pad of a full circle has the first
one as its neighbour, the last pad of an open segment has none. -/
theorem left_neighbour {F : Fns K} {A : Args K} {L : Layout K} (hA : A.Proper F) (hL : Made F A L)
    (hF : Filled L) {row pad n p : ℤ} (hk : PadsInRow L row n) (h : IsIndex L row pad p) :
    (pad + 1 < n → ∃ q, IsIndex L row (pad + 1) q ∧ getLeftNeighbour F L p = .ok q) ∧
    (pad + 1 = n → |A.phiMax - 2 * F.pi| < 1 / 1000000 →
      ∃ q, IsIndex L row 0 q ∧ getLeftNeighbour F L p = .ok q) ∧
    (pad + 1 = n → ¬ |A.phiMax - 2 * F.pi| < 1 / 1000000 → getLeftNeighbour F L p = .throw .gear) := by
  obtain ⟨h1, h2⟩ := numbers hF h
  have hfull : fullCircle F L ↔ |A.phiMax - 2 * F.pi| < 1 / 1000000 := by
    unfold fullCircle; rw [proper_phiMax hA (inv_made hL)]
  obtain ⟨n', hk', hp0, hp1⟩ := h.1
  have en : n' = n := by
    obtain ⟨r1, e1, rfl⟩ := hk
    obtain ⟨r2, e2, rfl⟩ := hk'
    rw [e1] at e2; cases e2; rfl
  subst en
  obtain ⟨r, hr, rfl⟩ := id hk
  unfold getLeftNeighbour
  simp only [h1, h2]
  rw [Rect.elemAt_of hr]
  simp only [Res.bind_ok]
  refine ⟨fun hlt => ?_, fun he hc => ?_, fun he hc => ?_⟩
  · have hx : IsPad L row (pad + 1) := ⟨_, hk, by omega, hlt⟩
    obtain ⟨q, hq⟩ := index_isSome hF hx
    exact ⟨q, ⟨hx, hq⟩, by rw [if_neg (by omega), hq]⟩
  · have hx : IsPad L row 0 := ⟨_, hk, by omega, by omega⟩
    obtain ⟨q, hq⟩ := index_isSome hF hx
    exact ⟨q, ⟨hx, hq⟩, by rw [if_pos (by omega), if_pos (hfull.2 hc), hq]⟩
  · rw [if_pos (by omega), if_neg (fun x => hc (hfull.1 x))]

/-- The right neighbour is the pad with the next lower number; the first pad of a full circle has the last
one as its neighbour, the first pad of an open segment has none. -/
theorem right_neighbour {F : Fns K} {A : Args K} {L : Layout K} (hA : A.Proper F) (hL : Made F A L)
    (hF : Filled L) {row pad n p : ℤ} (hk : PadsInRow L row n) (h : IsIndex L row pad p) :
    (0 < pad → ∃ q, IsIndex L row (pad - 1) q ∧ getRightNeighbour F L p = .ok q) ∧
    (pad = 0 → |A.phiMax - 2 * F.pi| < 1 / 1000000 →
      ∃ q, IsIndex L row (n - 1) q ∧ getRightNeighbour F L p = .ok q) ∧
    (pad = 0 → ¬ |A.phiMax - 2 * F.pi| < 1 / 1000000 → getRightNeighbour F L p = .throw .gear) := by
  obtain ⟨h1, h2⟩ := numbers hF h
  have hfull : fullCircle F L ↔ |A.phiMax - 2 * F.pi| < 1 / 1000000 := by
    unfold fullCircle; rw [proper_phiMax hA (inv_made hL)]
  obtain ⟨n', hk', hp0, hp1⟩ := h.1
  have en : n' = n := by
    obtain ⟨r1, e1, rfl⟩ := hk
    obtain ⟨r2, e2, rfl⟩ := hk'
    rw [e1] at e2; cases e2; rfl
  subst en
  obtain ⟨r, hr, rfl⟩ := id hk
  unfold getRightNeighbour
  simp only [h1, h2]
  rw [Rect.elemAt_of hr]
  simp only [Res.bind_ok]
  refine ⟨fun hlt => ?_, fun he hc => ?_, fun he hc => ?_⟩
  · have hx : IsPad L row (pad - 1) := ⟨_, hk, by omega, by omega⟩
    obtain ⟨q, hq⟩ := index_isSome hF hx
    exact ⟨q, ⟨hx, hq⟩, by rw [if_neg (by omega), hq]⟩
  · have hx : IsPad L row (r.nPad - 1) := ⟨_, hk, by omega, by omega⟩
    obtain ⟨q, hq⟩ := index_isSome hF hx
    exact ⟨q, ⟨hx, hq⟩, by rw [if_pos (by omega), if_pos (hfull.2 hc), hq]⟩
  · rw [if_pos (by omega), if_neg (fun x => hc (hfull.1 x))]

/-- Left and right are inverse to each other, also across the seam of a full circle. -/
theorem left_right {F : Fns K} {A : Args K} {L : Layout K} (hA : A.Proper F) (hL : Made F A L)
    (hF : Filled L) {row pad p q : ℤ} (h : IsIndex L row pad p) :
    (getLeftNeighbour F L p = .ok q → getRightNeighbour F L q = .ok p) ∧
    (getRightNeighbour F L p = .ok q → getLeftNeighbour F L q = .ok p) := by
  obtain ⟨n, hk, hp0, hp1⟩ := id h.1
  constructor
  · intro hq
    obtain ⟨h1, h2, h3⟩ := left_neighbour hA hL hF hk h
    rcases lt_or_ge (pad + 1) n with hlt | hge
    · obtain ⟨q', hi, hq'⟩ := h1 hlt
      rw [hq] at hq'; cases hq'
      obtain ⟨p', hi', hp'⟩ := (right_neighbour hA hL hF hk hi).1 (by omega)
      rw [hp']
      have := hi'.2; rw [show pad + 1 - 1 = pad by ring, h.2] at this
      cases this; rfl
    · have he : pad + 1 = n := by omega
      by_cases hc : |A.phiMax - 2 * F.pi| < 1 / 1000000
      · obtain ⟨q', hi, hq'⟩ := h2 he hc
        rw [hq] at hq'; cases hq'
        obtain ⟨p', hi', hp'⟩ := (right_neighbour hA hL hF hk hi).2.1 rfl hc
        rw [hp']
        have := hi'.2; rw [show n - 1 = pad by omega, h.2] at this
        cases this; rfl
      · rw [h3 he hc] at hq; cases hq
  · intro hq
    obtain ⟨h1, h2, h3⟩ := right_neighbour hA hL hF hk h
    rcases lt_or_ge 0 pad with hlt | hge
    · obtain ⟨q', hi, hq'⟩ := h1 hlt
      rw [hq] at hq'; cases hq'
      obtain ⟨p', hi', hp'⟩ := (left_neighbour hA hL hF hk hi).1 (by omega)
      rw [hp']
      have := hi'.2; rw [show pad - 1 + 1 = pad by ring, h.2] at this
      cases this; rfl
    · have he : pad = 0 := by omega
      by_cases hc : |A.phiMax - 2 * F.pi| < 1 / 1000000
      · obtain ⟨q', hi, hq'⟩ := h2 he hc
        rw [hq] at hq'; cases hq'
        obtain ⟨p', hi', hp'⟩ := (left_neighbour hA hL hF hk hi).2.1 (by omega) hc
        rw [hp']
        have := hi'.2; rw [← he, h.2] at this
        cases this; rfl
      · rw [h3 he hc] at hq; cases hq

example : getLeftNeighbour exampleFns exampleLayout 65542 = .ok 65536 ∧
    getRightNeighbour exampleFns exampleLayout 65536 = .ok 65542 ∧
    getLeftNeighbour exampleFns openLayout 65540 = .throw .gear ∧
    getLeftNeighbour exampleFns openLayout 65539 = .ok 65540 := by decide +kernel

/-! ### C19 copies, and the lists of pads -/

/-- After any history, the list of a row holds exactly the indices of its pads, in order; other row
numbers give an empty list. -/
theorem padsInRow_made {F : Fns K} {A : Args K} {L : Layout K} (hL : Made F A L) (hF : Filled L) (row : ℤ) :
    ∃ l, (getPadsInRow L row).2 = .ok l ∧
      (∀ n, PadsInRow L row n → (l.length : ℤ) = n ∧
        ∀ pad : ℕ, (pad : ℤ) < n → ∃ p, l[pad]? = some p ∧ getPadIndex L row pad = .ok p) ∧
      ((¬ ∃ n, PadsInRow L row n) → l = []) := by
  have hi := inv_made hL
  have key : ∀ (row : ℤ) r, elem L.rows row = some r →
      ∃ l, buildPads (getPadIndex L) row r.nPad.toNat = .ok l ∧ (l.length : ℤ) = r.nPad ∧
      ∀ pad : ℕ, (pad : ℤ) < r.nPad → ∃ p, l[pad]? = some p ∧ getPadIndex L row pad = .ok p := by
    intro row r hr
    have hk : PadsInRow L row r.nPad := ⟨r, hr, rfl⟩
    have hex : ∀ i : ℕ, ∃ p, i < r.nPad.toNat → getPadIndex L row i = .ok p := by
      intro i
      by_cases hlt : i < r.nPad.toNat
      · obtain ⟨p, hp⟩ := index_isSome hF (row := row) (pad := i) ⟨r.nPad, hk, by omega, by omega⟩
        exact ⟨p, fun _ => hp⟩
      · exact ⟨0, fun h => absurd h hlt⟩
    choose g hg using hex
    refine ⟨_, buildPads_of r.nPad.toNat hg, ?_, ?_⟩
    · have := hF.pads _ _ hk; simp; omega
    · intro pad hlt
      refine ⟨g pad, ?_, hg pad (by omega)⟩
      rw [List.getElem?_map, List.getElem?_range (by omega)]; rfl
  by_cases hr : 0 ≤ row ∧ row < L.nRow
  · obtain ⟨r, hrr⟩ := Rect.elem_isSome (l := L.rows) hr.1 (by rw [length_rows hi]; exact hr.2)
    obtain ⟨l, hl, h1, h2⟩ := key row r hrr
    refine ⟨l, ?_, ?_, fun h => absurd ⟨r.nPad, r, hrr, rfl⟩ h⟩
    · obtain ⟨c, hc⟩ := Rect.elem_isSome (l := L.padIndices) hr.1 (by rw [hi.len]; omega)
      unfold getPadsInRow
      rw [hc]
      rcases c with _ | l'
      · dsimp only
        have := (hF.pads row r.nPad ⟨r, hrr, rfl⟩).1
        rw [hrr]
        dsimp only
        rw [if_neg (by omega), hl]
      · dsimp only
        obtain ⟨i, rfl, hc'⟩ := Rect.elem_eq_some.1 hc
        obtain ⟨r', hr', -, hb⟩ := hi.cache i l' hc'
        rw [Rect.elem_nat, hr'] at hrr
        cases hrr
        rw [hl] at hb
        exact congrArg _ (Res.ok.inj hb).symm
    · rintro n ⟨r', hr', rfl⟩
      rw [hrr] at hr'; cases hr'
      exact ⟨h1, h2⟩
  · refine ⟨[], ?_, ?_, fun _ => rfl⟩
    · unfold getPadsInRow
      have : elem L.padIndices row = none := by
        rcases hc : elem L.padIndices row with _ | c
        · rfl
        · have := Rect.elem_range hc
          rw [hi.len] at this
          omega
      rw [this]
    · intro n hk
      exact absurd (isPad_nRow hi hk) hr

/-- A copy answers every query as the original does. -/
theorem copy_queries (F : Fns K) {A : Args K} {L : Layout K} (hL : Made F A L) (hF : Filled L) :
    getNPads (copy L) = getNPads L ∧ getNRows (copy L) = getNRows L ∧
    getPadGap (copy L) = getPadGap L ∧ getFixedPadWidth (copy L) = getFixedPadWidth L ∧
    getPlaneExtent (copy L) = getPlaneExtent L ∧
    (∀ i, getRowHeight (copy L) i = getRowHeight L i) ∧ (∀ i, getPadHeight (copy L) i = getPadHeight L i) ∧
    (∀ i, getPadWidth (copy L) i = getPadWidth L i) ∧ (∀ i, getPadPitch (copy L) i = getPadPitch L i) ∧
    (∀ i, getPadCenter (copy L) i = getPadCenter L i) ∧
    (∀ i j, getPadIndex (copy L) i j = getPadIndex L i j) ∧
    (∀ i, (getPadsInRow (copy L) i).2 = (getPadsInRow L i).2) ∧
    (∀ r phi i, getDistanceToPad F (copy L) r phi i = getDistanceToPad F L r phi i) ∧
    (∀ r phi, getNearestPad F (copy L) r phi = getNearestPad F L r phi) ∧
    (∀ i, getLeftNeighbour F (copy L) i = getLeftNeighbour F L i) ∧
    (∀ i, getRightNeighbour F (copy L) i = getRightNeighbour F L i) ∧
    (∀ r phi i, isInsidePad F (copy L) r phi i = isInsidePad F L r phi i) ∧
    (∀ r phi, isInsideAnyPad F (copy L) r phi = isInsideAnyPad F L r phi) := by
  refine ⟨rfl, rfl, rfl, rfl, rfl, fun _ => rfl, fun _ => rfl, fun _ => rfl, fun _ => rfl, fun _ => rfl,
    fun _ _ => rfl, fun row => ?_, fun _ _ _ => rfl, fun _ _ => rfl, fun _ => rfl, fun _ => rfl,
    fun _ _ _ => rfl, fun _ _ => rfl⟩
  have hF' : Filled (copy L) := ⟨hF.rows, hF.pads⟩
  obtain ⟨l, h1, h2, h3⟩ := padsInRow_made hL hF row
  obtain ⟨l', h1', h2', h3'⟩ := padsInRow_made hL.copy hF' row
  rw [h1, h1']
  congr 1
  by_cases hr : ∃ n, PadsInRow L row n
  · obtain ⟨n, hn⟩ := hr
    obtain ⟨a, b⟩ := h2 n hn
    obtain ⟨a', b'⟩ := h2' n hn
    apply List.ext_getElem?
    intro i
    by_cases hlt : (i : ℤ) < n
    · obtain ⟨p, e, f⟩ := b i hlt
      obtain ⟨p', e', f'⟩ := b' i hlt
      have f'' : getPadIndex L row i = .ok p' := f'
      rw [f] at f''; cases f''
      rw [e, e']
    · rw [List.getElem?_eq_none (by omega), List.getElem?_eq_none (by omega)]
  · rw [h3 hr, h3' hr]

example : Made exampleFns exampleArgs (copy (getPadsInRow exampleLayout 0).1) ∧
    (getPadsInRow (copy (getPadsInRow exampleLayout 0).1) 0).2 = .ok [0, 1, 2, 3, 4, 5] :=
  ⟨(exampleLayout_made.padsInRow 0).copy, by decide +kernel⟩

end Gear.PadSize
