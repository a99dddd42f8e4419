/-
Versatile disk layouts with the arithmetic of `double` (C149, C150).
-/
import Verif.VersatileDoubleSearch
import Verif.VersatileProps
import Verif.PadSizeDoubleProps

set_option autoImplicit false
set_option linter.unusedSectionVars false

namespace Gear.Versatile.Double

open PadIndex Disk Doubles Versatile.Spec Spec
open Rect (elem elemUb elemAt)
open MaterialMap (Arith binary64)
open PadAngle.Double (doubles doubles_rounded)
open PadAngle.Double.Spec (Rounded)

variable {K : Type} [Field K] [LinearOrder K] [IsStrictOrderedRing K] [FloorRing K]
variable {F : Arith K} {u rMin : K} {as : List (RowArgs K)} {L : Layout K} {i : ℕ} {a : RowArgs K} {pad p : ℤ}

/-! ### the rows of a layout -/

theorem isRow_lt (h : IsRow as i a) : i < (flat as).length := (List.getElem?_eq_some_iff.1 h).1

theorem isRow_mem (h : IsRow as i a) : a ∈ as := by
  have : a ∈ flat as := List.mem_of_getElem? h
  unfold flat at this
  rw [List.mem_flatMap] at this
  obtain ⟨b, hb, hab⟩ := this
  rw [List.eq_of_mem_replicate hab]
  exact hb

theorem middle_pos (h0 : 0 ≤ rMin) (hall : ∀ a ∈ as, ArgsOk a) (h : IsRow as i a) :
    0 < middle rMin as i a ∧ a.rowHeight / 2 ≤ middle rMin as i a ∧ 0 < a.rowHeight := by
  have h1 := inner_nonneg h0 hall i
  have h2 := (hall a (isRow_mem h)).rowHeight
  unfold middle
  exact ⟨by linarith, by linarith, h2⟩

theorem row_near (R : Rounded F u) (hA : Proper rMin as u) (hL : Spec.Built F rMin as L) (h : IsRow as i a) :
    ∃ row, L.rows[i]? = some row ∧ Near F u (2 * (i + 2) * u) (middle rMin as i a) a row ∧
      RowOf F i a.nPads row.rCentre a.padPitch a.rowHeight (widthOf a) (heightOf a) a.offset row := by
  have B := binv_built R hA.rMin hL
  obtain ⟨row, rc, h1, h2, h3⟩ := B.row i a h
  have ok := B.args a (isRow_mem h)
  obtain ⟨m1, m2, m3⟩ := middle_pos hA.rMin B.args h
  have hi : ((i : K) + 1) ≤ (flat as).length := by exact_mod_cast isRow_lt h
  have hu := R.nonneg
  have i0 : (0 : K) ≤ i := by positivity
  have iu := mul_nonneg i0 hu
  have d1 : 2 * ((i : K) + 2) * u ≤ 1 / 500 := by
    have := mul_le_mul_of_nonneg_right hi hu
    have e := hA.few
    have : 1000 * (((flat as).length : K) + 2) * u = 1000 * (((flat as).length : K) * u) + 2000 * u := by ring
    linarith
  have hn := h2.near hu (by push_cast; linarith) m1.le
  push_cast at hn
  obtain rfl := h3.rCentre
  exact ⟨row, h1, ⟨m1, by linarith, d1, hn, m3, m2, h3.rowHeight, h3.nPads, ok.nPads, hA.pads a (isRow_mem h), ok.padPitch,
    h3.padPitch, h3.fits⟩, h3⟩

theorem row_placed (R : Rounded F u) (hA : Proper rMin as u) (hS : Started F.pi rMin as) (hL : Spec.Built F rMin as L)
    (h : IsRow as i a) : ∃ row, L.rows[i]? = some row ∧ Placed F u (2 * (i + 2) * u) (middle rMin as i a) a row ∧
      RowOf F i a.nPads row.rCentre a.padPitch a.rowHeight (widthOf a) (heightOf a) a.offset row := by
  obtain ⟨row, h1, N, h3⟩ := row_near R hA hL h
  have off := hS i a h
  obtain ⟨c1, c2⟩ := N.rc_bounds
  have m1 := N.pos
  generalize middle rMin as i a = m at *
  have hc : 0 < row.rCentre := by linarith
  have p3 := R.pi.1
  have hb : |a.offset / row.rCentre| ≤ 1994 / 1000 * F.pi := by
    rw [abs_div, abs_of_pos hc, div_le_iff₀ hc]
    have := mul_le_mul_of_nonneg_left c1 (by linarith : 0 ≤ 1994 / 1000 * F.pi)
    have := mul_nonneg (by linarith : 0 ≤ F.pi) m1.le
    linarith
  obtain ⟨b1, b2⟩ := _root_.abs_le.1 hb
  refine ⟨row, h1, ⟨N, off, h3.offset (R.rounding.mono _ _ (by linarith)) ?_⟩, h3⟩
  have t1 := (R.rounding.bounds (by linarith : 0 ≤ 2 * F.pi)).1
  have t2 := R.rounding.abs_le (a.offset / row.rCentre)
  have t3 := le_abs_self (F.rnd (a.offset / row.rCentre))
  have t4 := mul_le_mul_of_nonneg_right (by linarith [R.small] : 1 + u ≤ 1001 / 1000) (abs_nonneg (a.offset / row.rCentre))
  have t5 := mul_le_mul_of_nonneg_right (by linarith [R.small] : 999 / 1000 ≤ 1 - u) (by linarith : 0 ≤ 2 * F.pi)
  linarith

theorem elem_nat {L : Layout K} {row : Row K} (h : L.rows[i]? = some row) : elem L.rows (i : ℤ) = some row :=
  Rect.elem_eq_some.2 ⟨i, rfl, h⟩

theorem layout_sized (R : Rounded F u) (hA : Proper rMin as u) (hL : Spec.Built F rMin as L) : Sized L := by
  have B := binv_built R hA.rMin hL
  refine ⟨?_, ?_⟩
  · unfold getNRows
    rw [B.len]
    exact_mod_cast hA.rows
  · rintro row n ⟨r, hr, rfl⟩
    obtain ⟨j, rfl, hj⟩ := Rect.elem_eq_some.1 hr
    have hlt := (List.getElem?_eq_some_iff.1 hj).1
    rw [B.len] at hlt
    have hb : IsRow as j (flat as)[j] := List.getElem?_eq_getElem hlt
    obtain ⟨row, rc, h1, -, h3⟩ := B.row j _ hb
    rw [hj] at h1
    cases h1
    rw [h3.nPads]
    exact hA.pads _ (isRow_mem hb)

theorem index_parts (R : Rounded F u) (hA : Proper rMin as u) (hL : Spec.Built F rMin as L) (h : IsRow as i a) (p0 : 0 ≤ pad)
    (p1 : pad < a.nPads) (hp : getPadIndex L i pad = .ok p) : getRowNumber L p = .ok i ∧ getPadNumber p = pad := by
  obtain ⟨row, h1, N, -⟩ := row_near R hA hL h
  exact numbers (layout_sized R hA hL) ⟨⟨_, ⟨row, elem_nat h1, N.nPads⟩, p0, p1⟩, hp⟩

theorem inner_le (hall : ∀ a ∈ as, ArgsOk a) (j : ℕ) : ∀ k : ℕ, inner rMin as j ≤ inner rMin as (j + k) := by
  intro k
  induction k with
  | zero => exact le_rfl
  | succ k ih =>
    refine ih.trans ?_
    cases hg : (flat as)[j + k]? with
    | none =>
      have hl := List.getElem?_eq_none_iff.1 hg
      unfold inner
      rw [List.take_of_length_le hl, List.take_of_length_le (by omega)]
    | some b =>
      have e := inner_succ rMin as hg
      have := (hall b (isRow_mem hg)).rowHeight
      rw [show j + (k + 1) = j + k + 1 by omega, e]
      linarith

/-- A row lies below the following ones. -/
theorem below (hall : ∀ a ∈ as, ArgsOk a) {j : ℕ} {b : RowArgs K} (hj : IsRow as j b) (hi : IsRow as i a) (h : j < i) :
    middle rMin as j b + b.rowHeight / 2 ≤ middle rMin as i a - a.rowHeight / 2 ∧ middle rMin as j b ≤ middle rMin as i a := by
  have e := inner_succ rMin as hj
  obtain ⟨k, rfl⟩ := Nat.exists_eq_add_of_lt h
  have l := inner_le (rMin := rMin) hall (j + 1) k
  rw [show j + 1 + k = j + k + 1 by omega] at l
  have h1 := (hall b (isRow_mem hj)).rowHeight
  have h2 := (hall a (isRow_mem hi)).rowHeight
  unfold middle
  exact ⟨by linarith, by linarith⟩

/-! ### C149 -/

/-- There are as many rows as asked for, every row has the number of pads and the height it was asked to have, and every pad the
height. -/
theorem counts_double (R : Rounded F u) (hA : Proper rMin as u) (hL : Spec.Built F rMin as L) :
    getNRows L = (flat as).length ∧ getNPads L = ((flat as).map RowArgs.nPads).sum ∧
    ∀ i a, IsRow as i a → PadsInRow L i a.nPads ∧ getRowHeight L i = .ok a.rowHeight ∧
      ∀ pad, 0 ≤ pad → pad < a.nPads → ∃ p, getPadIndex L i pad = .ok p ∧ getRowNumber L p = .ok (i : ℤ) ∧ getPadNumber p = pad ∧
        getPadHeight L p = .ok (if a.padHeight = 0 then a.rowHeight else a.padHeight) := by
  have B := binv_built R hA.rMin hL
  refine ⟨by unfold getNRows; rw [B.len], B.nPad, ?_⟩
  intro i a h
  obtain ⟨row, h1, N, h3⟩ := row_near R hA hL h
  have he := elem_nat h1
  refine ⟨⟨row, he, N.nPads⟩, ?_, ?_⟩
  · unfold getRowHeight
    rw [Rect.elemAt_of he, Res.bind_ok, N.rowHeight]
    rfl
  · intro pad p0 p1
    obtain ⟨p, hp⟩ := index_isSome (layout_sized R hA hL) ⟨_, ⟨row, he, N.nPads⟩, p0, p1⟩
    obtain ⟨e1, e2⟩ := index_parts R hA hL h p0 p1 hp
    refine ⟨p, hp, e1, e2, ?_⟩
    unfold getPadHeight
    rw [e1, Res.bind_ok, Rect.elemUb_of he, Res.bind_ok, h3.padHeight]
    rfl

/-- The plane extent starts at the inner radius and ends where the last row ends, up to two roundings for every call of `addRow`. -/
theorem extent_double (R : Rounded F u) (hA : Proper rMin as u) (hL : Spec.Built F rMin as L) :
    ∃ r1 p0 p1, getPlaneExtent L = [rMin, r1, p0, p1] ∧
      |r1 - (rMin + ((flat as).map RowArgs.rowHeight).sum)| ≤
        2 * (as.length + 1) * u * (rMin + ((flat as).map RowArgs.rowHeight).sum) := by
  have B := binv_built R hA.rMin hL
  refine ⟨L.ext1, L.ext2, L.ext3, by unfold getPlaneExtent; rw [B.ext0], ?_⟩
  have e : inner rMin as (flat as).length = rMin + ((flat as).map RowArgs.rowHeight).sum := by unfold inner; rw [List.take_length]
  rw [← e]
  have hc : (as.length : K) ≤ (flat as).length := by exact_mod_cast B.calls
  have := mul_le_mul_of_nonneg_right hc R.nonneg
  have l0 := mul_nonneg (by positivity : (0 : K) ≤ as.length) R.nonneg
  have := B.ext1.near R.nonneg (by
    push_cast
    have e := hA.few
    have : 1000 * (((flat as).length : K) + 2) * u = 1000 * (((flat as).length : K) * u) + 2000 * u := by ring
    linarith [R.nonneg]) (inner_nonneg hA.rMin B.args _)
  push_cast at this
  exact this

/-- The radius of a pad centre is the middle of its row, up to two roundings for every row, and the pitch and the width of a pad are
the ones asked for divided by the radius. -/
theorem sizes_double (R : Rounded F u) (hA : Proper rMin as u) (hL : Spec.Built F rMin as L) (h : IsRow as i a) (p0 : 0 ≤ pad)
    (p1 : pad < a.nPads) (hp : getPadIndex L i pad = .ok p) :
    (∃ c, getPadCenter F L p = .ok c ∧ |c.1 - middle rMin as i a| ≤ 2 * (i + 2) * u * middle rMin as i a) ∧
    (∃ w, getPadPitch L p = .ok w ∧ |w - pitch rMin as i a| ≤ 3 * (i + 3) * u * pitch rMin as i a) ∧
    ∃ w, getPadWidth L p = .ok w ∧
      |w - (if a.padWidth = 0 then a.padPitch else a.padWidth) / middle rMin as i a| ≤
        3 * (i + 3) * u * ((if a.padWidth = 0 then a.padPitch else a.padWidth) / middle rMin as i a) := by
  obtain ⟨row, h1, N, h3⟩ := row_near R hA hL h
  obtain ⟨e1, e2⟩ := index_parts R hA hL h p0 p1 hp
  have he := elem_nat h1
  have ok := (binv_built R hA.rMin hL).args a (isRow_mem h)
  have key : ∀ x : K, 0 ≤ x → |F.rnd (x / row.rCentre) - x / middle rMin as i a| ≤ 3 * (i + 3) * u * (x / middle rMin as i a) := by
    intro x hx
    have q := (N.quot R x).1
    rw [abs_of_nonneg hx] at q
    refine q.trans (mul_le_mul_of_nonneg_right ?_ (div_nonneg hx N.pos.le))
    have i0 : (0 : K) ≤ i := by positivity
    have := mul_nonneg i0 R.nonneg
    linarith [R.nonneg]
  refine ⟨?_, ?_, ?_⟩
  · refine ⟨_, by unfold getPadCenter; rw [e1, Res.bind_ok, Rect.elemUb_of he, Res.bind_ok]; rfl, N.rc⟩
  · refine ⟨row.padPitch, by unfold getPadPitch; rw [e1, Res.bind_ok, Rect.elemUb_of he, Res.bind_ok]; rfl, ?_⟩
    rw [N.pitch]
    exact key _ ok.padPitch
  · refine ⟨row.padWidth, by unfold getPadWidth; rw [e1, Res.bind_ok, Rect.elemUb_of he, Res.bind_ok]; rfl, ?_⟩
    rw [h3.padWidth]
    refine key _ ?_
    unfold widthOf
    split_ifs
    · exact ok.padPitch
    · exact ok.padWidth

/-- The angle of a pad centre is where it is in exact arithmetic, up to three roundings for every row. -/
theorem angle_double (R : Rounded F u) (hA : Proper rMin as u) (hS : Started F.pi rMin as) (hL : Spec.Built F rMin as L)
    (h : IsRow as i a) (p0 : 0 ≤ pad) (p1 : pad < a.nPads) (hp : getPadIndex L i pad = .ok p) :
    ∃ c, getPadCenter F L p = .ok c ∧ |c.2 - angle rMin as i a pad| ≤
      3 * (i + 4) * u * (|a.offset| / middle rMin as i a + (pad + 1 / 2) * pitch rMin as i a) := by
  obtain ⟨row, h1, N, h3⟩ := row_placed R hA hS hL h
  obtain ⟨e1, e2⟩ := index_parts R hA hL h p0 p1 hp
  refine ⟨_, by unfold getPadCenter; rw [e1, Res.bind_ok, Rect.elemUb_of (elem_nat h1), Res.bind_ok]; rfl, ?_⟩
  dsimp only
  rw [e2]
  have c := N.centre R p0 p1
  unfold Arith.add Arith.mul
  refine c.trans (mul_le_mul_of_nonneg_right ?_ ?_)
  · have i0 : (0 : K) ≤ i := by positivity
    have := mul_nonneg i0 R.nonneg
    linarith [R.nonneg]
  · have q0 : (0 : K) ≤ pad := by exact_mod_cast p0
    exact add_nonneg (div_nonneg (abs_nonneg _) N.pos.le) (mul_nonneg (by linarith) (div_nonneg N.pp N.pos.le))

/-! ### C150 -/

theorem phiError_eq (u : K) (i : ℕ) : phiError u i = 50 * (2 * (i + 2) * u) + 300 * u := by unfold phiError; ring

theorem rError_eq (u rMin : K) (as : List (RowArgs K)) (i : ℕ) (a : RowArgs K) :
    rError u rMin as i a = (2 * (i + 2) * u + 4 * u) * middle rMin as i a := by unfold rError; ring

/-- A point inside a pad, not too near to its border, has this pad as its nearest pad: if the rows below also have pads at its
angle, rounding errors are enough of a distance from the border, otherwise it is four times the square root of a rounding error. -/
theorem nearest_double_partial (R : Rounded F u) (hF : Functions F) (hA : Proper rMin as u) (hS : Started F.pi rMin as)
    (hW : Wide rMin as) (hL : Spec.Built F rMin as L) (h : IsRow as i a) (p0 : 0 ≤ pad) (p1 : pad < a.nPads)
    (hp : getPadIndex L i pad = .ok p) {r phi mu : K} (h0 : 0 ≤ phi) (h1 : phi ≤ F.mul 2 F.pi)
    (hphi : |phi - angle rMin as i a pad| ≤ pitch rMin as i a / 2 - phiError u i) (hmu : 0 ≤ mu)
    (hr : |r - middle rMin as i a| ≤ a.rowHeight / 2 - (2 * rError u rMin as i a + mu))
    (hfar : ∀ j b, IsRow as j b → j < i → 16 * u * r ^ 2 ≤ mu ^ 2 ∨ Covers u rMin as j b phi) (fuel : ℕ) (hf : 1 ≤ fuel) :
    getNearestPad F L fuel r phi = some (.ok p) := by
  have B := binv_built R hA.rMin hL
  obtain ⟨row, g1, N, g3⟩ := row_placed R hA hS hL h
  rw [phiError_eq] at hphi
  have hfound := N.found R p0 p1 hphi
  obtain ⟨f1, f2, f3, f4⟩ := hfound
  have hrad := N.radii R
  have hu := R.pos
  have hm := N.pos
  have eR := rError_eq u rMin as i a
  have Rpos : 0 < rError u rMin as i a := by unfold rError; positivity
  obtain ⟨r1, r2⟩ := _root_.abs_le.1 hr
  obtain ⟨q1, q2, q3⟩ := hrad
  rw [← eR] at q1 q2
  have hdist : getDistanceToRow F row r phi = some 0 := by
    unfold getDistanceToRow
    rw [if_pos ⟨f4, f3.le⟩, if_pos ⟨by linarith [(_root_.abs_le.1 q1).2], by linarith [(_root_.abs_le.1 q2).1]⟩]
  have hi := isRow_lt h
  have hrows := hA.rows
  have hpad : rowNearestPad F row r phi = .ok p := by
    unfold rowNearestPad
    rw [if_pos f3, if_neg f2, f1, Res.bind_ok, g3.rowNumber]
    exact getPadIndex_encode hp
  have hsplit : L.rows = L.rows.take i ++ row :: L.rows.drop (i + 1) := by
    obtain ⟨hlt, e⟩ := List.getElem?_eq_some_iff.1 g1
    conv_lhs => rw [← List.take_append_drop i L.rows]
    rw [List.drop_eq_getElem_cons hlt, e]
  unfold getNearestPad
  have hne : L.rows ≠ [] := by
    intro hc
    rw [hc] at g1
    simp at g1
  rw [if_neg hne]
  obtain ⟨n, rfl⟩ : ∃ n, fuel = n + 1 := ⟨fuel - 1, by omega⟩
  rw [PadSize.Double.wrap_id h0 h1, Option.map_some]
  have hloop : nearestLoop F r phi L.rows true (-1) (some 0) = .ok p := by
    rw [hsplit]
    refine loop_found R hF r phi _ hdist hpad _ _ _ _ ?_ (.inl rfl)
    intro row' hrow'
    obtain ⟨j, hj⟩ := List.mem_iff_getElem?.1 hrow'
    have hjl : j < (L.rows.take i).length := (List.getElem?_eq_some_iff.1 hj).1
    have hji : j < i := by rw [List.length_take] at hjl; omega
    rw [List.getElem?_take, if_pos hji] at hj
    have hb : IsRow as j (flat as)[j] := List.getElem?_eq_getElem (by omega)
    generalize (flat as)[j] = b at hb
    obtain ⟨row2, k1, N', k3⟩ := row_placed R hA hS hL hb
    rw [hj] at k1
    cases k1
    obtain ⟨w1, w2⟩ := below (rMin := rMin) B.args hb h hji
    obtain ⟨v1, v2, v3⟩ := N'.radii R
    rw [← rError_eq] at v1 v2
    have er : rError u rMin as j b ≤ rError u rMin as i a := by
      unfold rError
      have hj' : (j : K) ≤ i := by exact_mod_cast hji.le
      have j0 : (0 : K) ≤ j := by positivity
      exact mul_le_mul (mul_le_mul_of_nonneg_right (by linarith) hu.le) w2 N'.pos.le (by positivity)
    have hin := inner_nonneg hA.rMin B.args j
    have hmid : inner rMin as j = middle rMin as j b - b.rowHeight / 2 := by unfold middle; ring
    have hin' := inner_nonneg hA.rMin B.args i
    have hmid' : inner rMin as i = middle rMin as i a - a.rowHeight / 2 := by unfold middle; ring
    refine ⟨dist_pos R hF hmu (by linarith) (by linarith [(_root_.abs_le.1 v2).2]) (by linarith [(_root_.abs_le.1 v1).1]) v3 ?_, ?_⟩
    · rcases hfar j b hb hji with hc | ⟨c1, c2⟩
      · exact .inl hc
      · right
        rw [phiError_eq] at c1 c2
        unfold edge pitch at c1 c2
        have hd := N'.d4
        have l1 := _root_.abs_le.1 (N'.last R)
        obtain ⟨X8, aX, hX⟩ := N'.start R
        have hX8 := mul_le_mul_of_nonneg_left X8 (by linarith : 0 ≤ 103 / 100 * (2 * ((j : K) + 2) * u + u))
        have o := _root_.abs_le.1 hX
        push_cast at c1
        exact ⟨by linarith, by linarith [l1.1]⟩
    · refine N'.pad_isOk R (hW j b hb) h0 h1 ?_ ?_
      · rw [k3.rowNumber]; positivity
      · rw [k3.rowNumber]; omega
  rw [hloop, Res.bind_ok]
  have hne1 : p ≠ -1 := encode_ne_neg_one (getPadIndex_encode hp) (by omega)
  rw [if_neg hne1]

/-- The nearest pad of a pad centre, as `getPadCenter` gives it, is the pad. -/
theorem nearest_center_double_partial (R : Rounded F u) (hF : Functions F) (hA : Proper rMin as u) (hS : Started F.pi rMin as)
    (hW : Wide rMin as) (hL : Spec.Built F rMin as L) (h : IsRow as i a) (p0 : 0 ≤ pad) (p1 : pad < a.nPads)
    (hp : getPadIndex L i pad = .ok p) {c : K × K} (hc : getPadCenter F L p = .ok c) (h0 : 0 ≤ c.2) (h1 : c.2 ≤ F.mul 2 F.pi)
    (hphi : 4 * phiError u i ≤ pitch rMin as i a) (hr : 6 * rError u rMin as i a ≤ a.rowHeight)
    (hfar : ∀ j b, IsRow as j b → j < i → 64 * u * middle rMin as i a ^ 2 ≤ (a.rowHeight / 2 - 3 * rError u rMin as i a) ^ 2 ∨
      Covers u rMin as j b c.2) (fuel : ℕ) (hf : 1 ≤ fuel) :
    getNearestPad F L fuel c.1 c.2 = some (.ok p) := by
  obtain ⟨⟨c1, e1, b1⟩, -, -⟩ := sizes_double R hA hL h p0 p1 hp
  rw [hc] at e1; cases e1
  obtain ⟨c2, e2, -⟩ := angle_double R hA hS hL h p0 p1 hp
  rw [hc] at e2; cases e2
  obtain ⟨row, g1, N, g3⟩ := row_placed R hA hS hL h
  obtain ⟨n1, n2⟩ := index_parts R hA hL h p0 p1 hp
  have b2 : |c.2 - angle rMin as i a pad| ≤ phiError u i := by
    have hcc := hc
    unfold getPadCenter at hcc
    rw [n1, Res.bind_ok, Rect.elemUb_of (elem_nat g1), Res.bind_ok, n2] at hcc
    cases hcc
    obtain ⟨X8, aX, hX⟩ := N.start R
    obtain ⟨P0, -, n8, -, -⟩ := N.sizes R
    refine (N.centre R p0 p1).trans ?_
    have q0 : (0 : K) ≤ pad := by exact_mod_cast p0
    have q1 : (pad : K) + 1 ≤ a.nPads := by exact_mod_cast p1
    have := mul_le_mul_of_nonneg_right q1 P0
    have hd := N.d4
    have hu := R.nonneg
    have := mul_le_mul_of_nonneg_left (show |a.offset| / middle rMin as i a + (pad + 1 / 2) * (a.padPitch / middle rMin as i a) ≤ 17 by
      linarith) (by linarith : 0 ≤ 103 / 100 * (2 * ((i : K) + 2) * u) + 4 * u)
    rw [phiError_eq]
    linarith
  have hu := R.pos
  have hm := N.pos
  have i0 : (0 : K) ≤ i := by positivity
  have Rp : 0 ≤ rError u rMin as i a := by unfold rError; positivity
  have b1' : |c.1 - middle rMin as i a| ≤ rError u rMin as i a := b1.trans (by
    unfold rError
    exact mul_le_mul_of_nonneg_right (mul_le_mul_of_nonneg_right (by linarith) hu.le) hm.le)
  refine nearest_double_partial R hF hA hS hW hL h p0 p1 hp h0 h1 (mu := a.rowHeight / 2 - 3 * rError u rMin as i a) (b2.trans (by linarith))
    (by linarith) (b1'.trans (by linarith)) ?_ fuel hf
  intro j b hb hj
  refine (hfar j b hb hj).imp_left fun hx => le_trans ?_ hx
  have c2m : |c.1| ≤ 2 * middle rMin as i a := by
    have hs := N.small
    have hmh := N.hm
    obtain ⟨x1, x2⟩ := _root_.abs_le.1 b1'
    exact _root_.abs_le.2 ⟨by linarith, by linarith⟩
  have := pow_le_pow_left₀ (abs_nonneg _) c2m 2
  rw [sq_abs] at this
  have := mul_le_mul_of_nonneg_left this (by linarith : 0 ≤ 16 * u)
  linarith

theorem isInside_eq (R : Rounded F u) (hA : Proper rMin as u) (hL : Spec.Built F rMin as L) (h : IsRow as i a) (p0 : 0 ≤ pad)
    (p1 : pad < a.nPads) (hp : getPadIndex L i pad = .ok p) {row : Row K} (g : L.rows[i]? = some row) (r phi : K) :
    isInsidePad F L r phi p = .ok true ↔ (rowMin F row ≤ r ∧ r ≤ rowMax F row) ∧ insidePhi F row pad phi := by
  obtain ⟨e1, e2⟩ := index_parts R hA hL h p0 p1 hp
  unfold isInsidePad insidePhi
  rw [e1, Res.bind_ok, Rect.elemUb_of (elem_nat g), Res.bind_ok, e2, Res.pure_eq]
  simp only [Res.ok.injEq, decide_eq_true_eq, ge_iff_le, and_assoc]

/-- A point inside a pad, not too near to its border, passes the inside test, also with an angle a full turn away. -/
theorem inside_double_partial (R : Rounded F u) (hA : Proper rMin as u) (hS : Started F.pi rMin as)
    (hL : Spec.Built F rMin as L) (h : IsRow as i a) (p0 : 0 ≤ pad) (p1 : pad < a.nPads) (hp : getPadIndex L i pad = .ok p)
    {r phi : K} {k : ℤ} (hk : |k| ≤ 1)
    (hphi : |phi + k * (2 * F.pi) - angle rMin as i a pad| ≤ pitch rMin as i a / 2 - phiError u i)
    (hr : |r - middle rMin as i a| ≤ a.rowHeight / 2 - rError u rMin as i a) : isInsidePad F L r phi p = .ok true := by
  obtain ⟨row, g1, N, -⟩ := row_placed R hA hS hL h
  rw [phiError_eq] at hphi
  rw [isInside_eq R hA hL h p0 p1 hp g1]
  obtain ⟨v1, v2, -⟩ := N.radii R
  rw [← rError_eq] at v1 v2
  obtain ⟨r1, r2⟩ := _root_.abs_le.1 hr
  exact ⟨⟨by linarith [(_root_.abs_le.1 v1).2], by linarith [(_root_.abs_le.1 v2).1]⟩, N.inside R p0 p1 hk hphi⟩

/-- A point that passes the inside test, with an angle not more than six below that of the pad, is inside the pad up to rounding
errors. -/
theorem inside_only_double_partial (R : Rounded F u) (hA : Proper rMin as u) (hS : Started F.pi rMin as)
    (hL : Spec.Built F rMin as L) (h : IsRow as i a) (p0 : 0 ≤ pad) (p1 : pad < a.nPads) (hp : getPadIndex L i pad = .ok p)
    {r phi : K} (h6 : angle rMin as i a pad - 6 ≤ phi) (ht : isInsidePad F L r phi p = .ok true) :
    |r - middle rMin as i a| ≤ a.rowHeight / 2 + rError u rMin as i a ∧
    ∃ k : ℤ, |k| ≤ 1 ∧ |phi + k * (2 * F.pi) - angle rMin as i a pad| ≤ pitch rMin as i a / 2 + phiError u i := by
  obtain ⟨row, g1, N, -⟩ := row_placed R hA hS hL h
  rw [isInside_eq R hA hL h p0 p1 hp g1] at ht
  obtain ⟨⟨t1, t2⟩, t3⟩ := ht
  obtain ⟨v1, v2, -⟩ := N.radii R
  rw [← rError_eq] at v1 v2
  refine ⟨_root_.abs_le.2 ⟨by linarith [(_root_.abs_le.1 v1).1], by linarith [(_root_.abs_le.1 v2).2]⟩, ?_⟩
  rw [phiError_eq]
  exact N.inside_conv R p0 p1 h6 t3

/-- The search ends for angles that are small compared to the inverse of a rounding error. -/
theorem nearest_ends_double (R : Rounded F u) (L : Layout K) (r : K) {phi : K} (h : u * (|phi| + 40) ≤ 1 / 2) :
    ∃ n, ∀ fuel, n ≤ fuel → getNearestPad F L fuel r phi ≠ none := by
  have t2 : |F.mul 2 F.pi| ≤ 10 := by
    unfold Arith.mul
    have := R.rounding.abs_le (2 * F.pi)
    rw [abs_of_nonneg (by linarith [R.pi.1] : 0 ≤ 2 * F.pi)] at this
    have := mul_le_mul (by linarith [R.small] : 1 + u ≤ 1001 / 1000) (by linarith [R.pi.2] : 2 * F.pi ≤ 8) (by linarith [R.pi.1])
      (by norm_num)
    linarith
  obtain ⟨n, hn⟩ := PadSize.Double.wrap_ends R h (lo := 0) (by rw [abs_zero]; norm_num) t2
  refine ⟨n, fun fuel hf => ?_⟩
  obtain ⟨phi', e⟩ := hn fuel hf
  unfold getNearestPad
  split_ifs
  · simp
  · rw [e]; simp

/-- For a double of size `2^57` or more the search in a layout with rows never ends. -/
theorem nearest_endless_false (hF : F.rnd = binary64) (hpi : 3 ≤ F.pi ∧ F.pi < 39 / 10) {L : Layout K} (hne : L.rows ≠ []) (r : K)
    {phi : K} (hd : binary64 phi = phi) (hphi : 2 ^ 57 ≤ |phi|) (fuel : ℕ) : getNearestPad F L fuel r phi = none := by
  have R : Rounding F.rnd (1 / 2 ^ 53) := by rw [hF]; exact binary64_rounding
  have t := R.bounds (x := 2 * F.pi) (by linarith)
  have t2 : |F.mul 2 F.pi| ≤ 10 := by
    unfold Arith.mul
    norm_num at t
    exact _root_.abs_le.2 ⟨by linarith, by linarith⟩
  unfold getNearestPad
  rw [if_neg hne, PadSize.Double.wrap_endless hF hpi (by rw [abs_zero]; norm_num) t2 hd hphi]
  rfl

/-! ### without rounding -/

theorem pushRows_exact (hF : F.rnd = id) (np : ℤ) (pp h pw ph off : K) : ∀ (n : ℕ) (L : Layout K) (rc : K),
    pushRows F np pp h pw ph off n L rc = Versatile.pushRows F.pi np pp h pw ph off n L rc := by
  intro n
  induction n with
  | zero => intro L rc; rfl
  | succ n ih =>
    intro L rc
    have e : ∀ (i : ℤ), mkRow F i np rc pp h pw ph off = Versatile.mkRow F.pi i np rc pp h pw ph off := by
      intro i
      unfold mkRow Versatile.mkRow Arith.add Arith.sub Arith.mul Arith.div
      simp only [hF, id_eq, mul_assoc]
    unfold pushRows Versatile.pushRows
    rw [e]
    split <;> rename_i e1
    · rw [e1, ih]
      unfold Arith.add
      rw [hF]
      rfl
    · rw [e1]
    · rw [e1]

/-- Without rounding the functions are those of C24, C81 and C26. -/
theorem exact_arithmetic (hF : F.rnd = id) (L : Layout K) :
    (∀ a, addRow F L a = Versatile.addRow F.pi L a) ∧ (∀ p, getPadCenter F L p = Versatile.getPadCenter L p) ∧
    ∀ r phi p, isInsidePad F L r phi p = Versatile.isInsidePad F.toFns L r phi p := by
  refine ⟨?_, ?_, ?_⟩
  · intro a
    have e : ∀ M : Layout K, updateExtent F a M = Versatile.updateExtent F.pi a M := by
      intro M
      unfold updateExtent Versatile.updateExtent Arith.add Arith.sub Arith.mul
      simp only [hF, id_eq]
      rfl
    unfold addRow Versatile.addRow
    simp only [pushRows_exact hF, e]
    unfold Arith.add Arith.mul
    simp only [hF, id_eq]
    rfl
  · intro p
    unfold getPadCenter Versatile.getPadCenter Arith.add Arith.mul
    simp only [hF, id_eq]
  · intro r phi p
    unfold isInsidePad Versatile.isInsidePad rowMin rowMax Arith.add Arith.sub Arith.mul
    simp only [hF, id_eq]

/-! ### A layout -/

/-- One row of one pad, and two of two pads of one radian. -/
def plateArgs : List (RowArgs ℚ) := [⟨1, 11, 2, 0, 0, 0, 1⟩, ⟨2, 13, 2, 3, 12, 1, 2⟩]

/-- The layout of these. -/
def plate : Layout ℚ := (addRow doubles (addRow doubles (new 10) ⟨1, 11, 2, 0, 0, 0, 1⟩).1 ⟨2, 13, 2, 3, 12, 1, 2⟩).1

theorem plate_built : Spec.Built doubles 10 plateArgs plate :=
  .addRow (as := [⟨1, 11, 2, 0, 0, 0, 1⟩]) ⟨2, 13, 2, 3, 12, 1, 2⟩ (.addRow (as := []) ⟨1, 11, 2, 0, 0, 0, 1⟩ .new
    (Prod.ext rfl (by decide +kernel))) (Prod.ext rfl (by decide +kernel))

theorem plate_proper : Proper 10 plateArgs (1 / 2 ^ 53 : ℚ) :=
  ⟨by norm_num, by decide +kernel, by decide +kernel, by decide +kernel⟩

theorem plate_rows {i : ℕ} {a : RowArgs ℚ} (h : IsRow plateArgs i a) :
    (i = 0 ∧ a = ⟨1, 11, 2, 0, 0, 0, 1⟩) ∨ (i = 1 ∧ a = ⟨2, 13, 2, 3, 12, 1, 2⟩) ∨ (i = 2 ∧ a = ⟨2, 13, 2, 3, 12, 1, 2⟩) := by
  have e : flat plateArgs = [⟨1, 11, 2, 0, 0, 0, 1⟩, ⟨2, 13, 2, 3, 12, 1, 2⟩, ⟨2, 13, 2, 3, 12, 1, 2⟩] := rfl
  unfold IsRow at h
  rw [e] at h
  match i, h with
  | 0, h => exact .inl ⟨rfl, by simpa using h.symm⟩
  | 1, h => exact .inr (.inl ⟨rfl, by simpa using h.symm⟩)
  | 2, h => exact .inr (.inr ⟨rfl, by simpa using h.symm⟩)
  | n + 3, h => simp at h

theorem plate_started : Started doubles.pi 10 plateArgs := by
  intro i a h
  rcases plate_rows h with ⟨rfl, rfl⟩ | ⟨rfl, rfl⟩ | ⟨rfl, rfl⟩ <;> decide +kernel

theorem plate_wide : Wide 10 plateArgs := by
  intro i a h
  rcases plate_rows h with ⟨rfl, rfl⟩ | ⟨rfl, rfl⟩ | ⟨rfl, rfl⟩ <;> decide +kernel

theorem doubles_functions : Functions doubles :=
  ⟨fun x => by simp [doubles], fun x _ => abs_nonneg x, fun x h => abs_pos.2 h.ne'⟩

example : getNRows plate = 3 ∧ getNPads plate = 5 := ⟨by decide +kernel, by decide +kernel⟩

example : IsRow plateArgs 2 ⟨2, 13, 2, 3, 12, 1, 2⟩ ∧ getPadIndex plate 2 1 = .ok 131073 := ⟨rfl, by decide +kernel⟩

/-- In the middle of a pad of the last row, at an angle at which the first row has no pads. -/
example : getNearestPad doubles plate 1 15 (3 / 2) = some (.ok 131073) :=
  nearest_double_partial (u := 1 / 2 ^ 53) (mu := 9 / 10) (i := 2) (pad := 1) doubles_rounded doubles_functions plate_proper plate_started
    plate_wide plate_built (a := ⟨2, 13, 2, 3, 12, 1, 2⟩) rfl (by norm_num) (by norm_num) (by decide +kernel) (by norm_num) (by decide +kernel)
    (by decide +kernel) (by norm_num) (by decide +kernel) (fun j b _ _ => .inl (by norm_num)) 1 le_rfl

/-- At an angle at which all rows have pads, nearer to the border. -/
example : getNearestPad doubles plate 1 (14 + 1 / 1000000000000) (1 / 2) = some (.ok 131072) :=
  nearest_double_partial (u := 1 / 2 ^ 53) (mu := 0) (i := 2) (pad := 0) doubles_rounded doubles_functions plate_proper plate_started
    plate_wide plate_built (a := ⟨2, 13, 2, 3, 12, 1, 2⟩) rfl (by norm_num) (by norm_num) (by decide +kernel) (by norm_num) (by decide +kernel)
    (by decide +kernel) le_rfl (by decide +kernel) (fun j b hb hj => .inr (by
      rcases plate_rows hb with ⟨rfl, rfl⟩ | ⟨rfl, rfl⟩ | ⟨rfl, rfl⟩
      · unfold Covers; decide +kernel
      · unfold Covers; decide +kernel
      · omega)) 1 le_rfl

/-- The hypotheses of the other theorems are met. -/
example : isInsidePad doubles plate 15 (3 / 2 + 2 * doubles.pi) 131073 = .ok true :=
  inside_double_partial (i := 2) (pad := 1) (k := -1) doubles_rounded plate_proper plate_started plate_built
    (a := ⟨2, 13, 2, 3, 12, 1, 2⟩) rfl (by norm_num) (by norm_num) (by decide +kernel) (by norm_num) (by decide +kernel) (by decide +kernel)

example : isInsidePad doubles plate 15 (3 / 2) 131072 = .ok false ∧ isInsidePad doubles plate 13 (3 / 2) 131073 = .ok false :=
  ⟨by decide +kernel, by decide +kernel⟩

/-- `double` arithmetic with the first terms of the series of the cosine. -/
def flatDoubles : Arith ℚ := { doubles with cos := fun x => 1 - x ^ 2 / 2 }

/-- The same layout, in which the first row ends at an angle of 1 and a radius of 12. -/
def flatPlate : Layout ℚ := (addRow flatDoubles (addRow flatDoubles (new 10) ⟨1, 11, 2, 0, 0, 0, 1⟩).1 ⟨2, 13, 2, 3, 12, 1, 2⟩).1

/-- A point well inside the second row that is near to a corner of the first row, at an angle at which the first row has no pads: its
nearest pad is the one of the first row, because its distance to the corner is computed as zero. -/
theorem nearest_corner_false : isInsidePad flatDoubles flatPlate (12 + 1 / 2 ^ 23) (1 + 1 / 2 ^ 30) 65536 = .ok true ∧
    isInsidePad flatDoubles flatPlate (12 + 1 / 2 ^ 23) (1 + 1 / 2 ^ 30) 0 = .ok false ∧
    getNearestPad flatDoubles flatPlate 1 (12 + 1 / 2 ^ 23) (1 + 1 / 2 ^ 30) = some (.ok 0) := by
  refine ⟨?_, ?_, ?_⟩ <;> decide +kernel

end Gear.Versatile.Double
