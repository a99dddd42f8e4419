/-
Properties C08, C09, C18, C19, C24, C25, C26, C80 and C81 for the versatile disk layout.
-/
import Verif.VersatileLemmas

set_option autoImplicit false
set_option linter.unusedSectionVars false

namespace Gear.Versatile

open PadIndex Disk Spec
open Rect (elem elemUb elemAt)
open PadSize (wrapTurn)

variable {K : Type} [Field K] [LinearOrder K] [IsStrictOrderedRing K] [FloorRing K]

/-- Functions for the examples; the cosine is a stand-in. -/
def exampleFns : Fns ℚ := ⟨22/7, fun _ => 0, fun _ => 0, fun x => x⟩

/-- Two rows of four pads each, 2 mm high. -/
def args1 : RowArgs ℚ := ⟨4, 10, 2, 0, 0, 0, 2⟩
/-- One row with a negative offset and a gap around the pads. -/
def args2 : RowArgs ℚ := ⟨5, 8, 1, -3, 7, 9/10, 1⟩

def exampleLayout : Layout ℚ := (addRow (22/7) (addRow (22/7) (new 10) args1).1 args2).1

theorem exampleLayout_built : Built (22/7) 10 [args1, args2] exampleLayout :=
  .addRow args2 (.addRow args1 .new (Prod.ext rfl (by decide +kernel))) (Prod.ext rfl (by decide +kernel))

theorem sized_of {L : Layout K} (h0 : getNRows L ≤ 65535) (h : ∀ r ∈ L.rows, r.nPads ≤ 65536) : Sized L := by
  refine ⟨h0, ?_⟩
  rintro row n ⟨r, hr, rfl⟩
  exact h r (Rect.elem_mem hr)

theorem exampleLayout_sized : Sized exampleLayout := sized_of (by decide +kernel) (by decide +kernel)

theorem isIndex_of {L : Layout K} {row pad p : ℤ} {r : Row K} (h : elem L.rows row = some r)
    (h0 : 0 ≤ pad ∧ pad < r.nPads) (hp : getPadIndex L row pad = .ok p) : IsIndex L row pad p :=
  ⟨⟨r.nPads, ⟨r, h, rfl⟩, h0⟩, hp⟩

theorem example_isIndex : IsIndex exampleLayout 2 3 131075 := by
  have h : ∃ r, elem exampleLayout.rows 2 = some r ∧ (0 ≤ (3 : ℤ) ∧ 3 < r.nPads) := by
    have : (elem exampleLayout.rows 2).map Row.nPads = some 5 := by decide +kernel
    rw [Option.map_eq_some_iff] at this
    obtain ⟨r, h1, h2⟩ := this
    exact ⟨r, h1, by omega⟩
  obtain ⟨r, h1, h2⟩ := h
  exact isIndex_of h1 h2 (by decide +kernel)

/-! ### C24 plane extent -/

/-- After any sequence of successful `addRow` calls, the radial part of the extent goes from `rMin` to the
outer radius of the last row; the rows follow each other outwards without gaps. -/
theorem extent_radial {pi rMin : K} {as : List (RowArgs K)} {L : Layout K} (h : Built pi rMin as L) :
    (getPlaneExtent L)[0]? = some rMin ∧
    (getPlaneExtent L)[1]? = some (rMin + ((flat as).map RowArgs.rowHeight).sum) ∧
    ∀ (i : ℕ) a, (flat as)[i]? = some a → inner rMin as i + a.rowHeight = inner rMin as (i + 1) ∧
      rMin ≤ inner rMin as i ∧ inner rMin as (i + 1) ≤ rMin + ((flat as).map RowArgs.rowHeight).sum := by
  have hb := binv_built h
  have e : inner rMin as (flat as).length = rMin + ((flat as).map RowArgs.rowHeight).sum := by
    unfold inner; rw [List.take_length]
  refine ⟨by simp [getPlaneExtent, hb.ext0], by simp [getPlaneExtent, hb.ext1, e], ?_⟩
  intro i a ha
  refine ⟨(inner_succ rMin as ha).symm, inner_ge hb.args i, ?_⟩
  unfold inner
  have hs : ((flat as).map RowArgs.rowHeight).sum =
      (((flat as).take (i + 1)).map RowArgs.rowHeight).sum +
      (((flat as).drop (i + 1)).map RowArgs.rowHeight).sum := by
    rw [← List.sum_append, ← List.map_append, List.take_append_drop]
  have : 0 ≤ (((flat as).drop (i + 1)).map RowArgs.rowHeight).sum := by
    apply List.sum_nonneg
    intro x hx
    rw [List.mem_map] at hx
    obtain ⟨b, hb', rfl⟩ := hx
    exact (flat_ok hb.args b (List.mem_of_mem_drop hb')).rowHeight.le
  linarith

/-- The extent after a successful `addRow` of one row. -/
theorem updateExtent_phi {pi : K} {a : RowArgs K} {L : Layout K} {back : Row K}
    (h : L.rows.getLast? = some back) :
    let ext2 := if L.rows.length = 1 ∨ back.offset < L.ext2 then back.offset else L.ext2
    let ext3 := if L.rows.length = 1 ∨ back.phiMax > L.ext3 then back.phiMax else L.ext3
    if ext3 - ext2 > 2 * pi then (updateExtent pi a L).ext2 = 0 ∧ (updateExtent pi a L).ext3 = 2 * pi
    else (updateExtent pi a L).ext2 = ext2 ∧ (updateExtent pi a L).ext3 = ext3 := by
  intro ext2 ext3
  unfold updateExtent
  rw [h]
  dsimp only
  by_cases c : ext3 - ext2 > 2 * pi
  · rw [if_pos c, if_pos c]; exact ⟨rfl, rfl⟩
  · rw [if_neg c, if_neg c]; exact ⟨rfl, rfl⟩

/-- Partial: if no rows were repeated, the angular part of the extent is the full circle or covers all
rows.  Missing: with `repeat` it does not, see below. -/
theorem extent_phi_partial {pi rMin : K} (hpi : 0 < pi) {as : List (RowArgs K)} {L : Layout K}
    (h : Built pi rMin as L) (h1 : ∀ a ∈ as, a.repeats = 1) :
    (L.ext2 = 0 ∧ L.ext3 = 2 * pi) ∨
    ∀ row ∈ L.rows, L.ext2 ≤ row.offset ∧ row.offset + row.padPitch * row.nPads ≤ L.ext3 := by
  induction h with
  | new => right; intro row h; simp [Versatile.new] at h
  | @addRow as L L' a hL hadd ih =>
    have ih := ih fun b hb => h1 b (List.mem_append_left _ hb)
    have ha : a.repeats = 1 := h1 a (by simp)
    rcases addRow_unfold pi L a with ⟨hu, -⟩ | ⟨hok, hu⟩
    · rw [hadd] at hu; cases hu
    rw [hadd, ha] at hu
    have e1 : (1 : ℤ).toNat = 1 := rfl
    rw [e1] at hu
    unfold pushRows at hu
    rcases hm : mkRow pi L.rows.length a.nPads (L.ext1 + a.rowHeight * (1 / 2)) a.padPitch a.rowHeight
        (widthOf a) (heightOf a) a.offset with row | e | _
    · dsimp only at hu
      rw [hm] at hu
      dsimp only [pushRows] at hu
      have hR := mkRow_ok hm
      have hL' := (Prod.mk.inj hu).1
      set L1 : Layout K := { L with
        nPad := L.nPad + 1 * a.nPads, rows := L.rows ++ [row], padIndices := L.padIndices ++ [none] } with hL1
      have hrows : L'.rows = L.rows ++ [row] := by rw [hL', (updateExtent_rows pi a L1).1]
      have hlast : L1.rows.getLast? = some row := by rw [hL1]; simp
      have hup := updateExtent_phi (pi := pi) (a := a) hlast
      dsimp only at hup
      rw [← hL'] at hup
      have hlen : L1.rows.length = L.rows.length + 1 := by rw [hL1]; simp
      have e2 : L1.ext2 = L.ext2 := rfl
      have e3 : L1.ext3 = L.ext3 := rfl
      rw [hlen, e2, e3] at hup
      have hphi : row.offset + row.padPitch * row.nPads = row.phiMax := by rw [hR.nPads]; exact hR.phiMax.symm
      set x2 := (if L.rows.length + 1 = 1 ∨ row.offset < L.ext2 then row.offset else L.ext2) with hx2
      set x3 := (if L.rows.length + 1 = 1 ∨ row.phiMax > L.ext3 then row.phiMax else L.ext3) with hx3
      by_cases c : x3 - x2 > 2 * pi
      · rw [if_pos c] at hup; exact .inl hup
      rw [if_neg c] at hup
      have b2 : x2 ≤ row.offset := by
        rw [hx2]; split_ifs with q
        · exact le_rfl
        · rw [not_or, not_lt] at q; exact q.2
      have b3 : row.phiMax ≤ x3 := by
        rw [hx3]; split_ifs with q
        · exact le_rfl
        · rw [not_or, not_lt] at q; exact q.2
      have b2' : L.rows ≠ [] → x2 ≤ L.ext2 := by
        intro hne
        rw [hx2]; split_ifs with q
        · rcases q with q | q
          · exact absurd (List.length_eq_zero_iff.1 (by omega)) hne
          · exact q.le
        · exact le_rfl
      have b3' : L.rows ≠ [] → L.ext3 ≤ x3 := by
        intro hne
        rw [hx3]; split_ifs with q
        · rcases q with q | q
          · exact absurd (List.length_eq_zero_iff.1 (by omega)) hne
          · exact q.le
        · exact le_rfl
      rw [hup.1, hup.2, hrows]
      by_cases hne : L.rows = []
      · right
        intro r hr
        rw [hne] at hr
        simp at hr
        subst hr
        exact ⟨b2, by rw [hphi]; exact b3⟩
      · have c2 := b2' hne
        have c3 := b3' hne
        rcases ih with ⟨i1, i2⟩ | ih
        · left
          rw [i1] at c2; rw [i2] at c3
          rw [not_lt] at c
          constructor <;> linarith
        · right
          intro r hr
          rcases List.mem_append.1 hr with hr | hr
          · obtain ⟨i1, i2⟩ := ih r hr
            exact ⟨c2.trans i1, i2.trans c3⟩
          · rw [List.mem_singleton.1 hr]
            exact ⟨b2, by rw [hphi]; exact b3⟩
    · rw [hm] at hu
      dsimp only at hu
      cases hu
    · rw [hm] at hu
      dsimp only at hu
      cases hu
  | @padsInRow as L row _ ih =>
    rcases getPadsInRow_cases L row with h | ⟨i, r, l, rfl, -, -, h⟩
    · rw [h]; exact ih h1
    · rw [h]; exact ih h1
  | @copy as L _ ih => exact ih h1

/-- Repeated rows: only the outermost of them is considered.  The centre of the first row's pad, at
8/3 rad, is outside of the extent [0, 2], and `isInsidePad` says it is in no pad. -/
theorem extent_false_repeat : ∃ L : Layout ℚ, Built (22/7) 1 [⟨1, 2, 1, 3, 0, 0, 2⟩] L ∧
    getPadCenter L 0 = .ok (3/2, 8/3) ∧ getPlaneExtent L = [1, 3, 0, 2] ∧
    isInsidePad exampleFns L (3/2) (8/3) 0 = .ok true ∧
    isInsideAnyPad exampleFns L (3/2) (8/3) = .ok false :=
  ⟨(addRow (22/7) (new 1) ⟨1, 2, 1, 3, 0, 0, 2⟩).1,
   .addRow (as := []) _ .new (Prod.ext rfl (by decide +kernel)),
   by decide +kernel, by decide +kernel, by decide +kernel, by decide +kernel⟩

example : ∃ L : Layout ℚ, Built (22/7) 10 [⟨4, 10, 2, 0, 0, 0, 1⟩, ⟨5, 8, 1, -3, 7, 9/10, 1⟩] L ∧
    L.ext2 = -6/25 ∧ L.ext3 = 40/11 :=
  ⟨(addRow (22/7) (addRow (22/7) (new 10) ⟨4, 10, 2, 0, 0, 0, 1⟩).1 ⟨5, 8, 1, -3, 7, 9/10, 1⟩).1,
   .addRow (as := [_]) _ (.addRow (as := []) _ .new (Prod.ext rfl (by decide +kernel)))
     (Prod.ext rfl (by decide +kernel)),
   by decide +kernel, by decide +kernel⟩

/-! ### C25 counts and failed adds -/

/-- The number of rows is the sum of the repeat counts, and the number of pads the sum over the rows. -/
theorem counts {pi rMin : K} {as : List (RowArgs K)} {L : Layout K} (h : Built pi rMin as L) :
    getNRows L = (as.map RowArgs.repeats).sum ∧
    getNPads L = (as.map fun a => a.repeats * a.nPads).sum ∧
    getNPads L = (L.rows.map Row.nPads).sum := by
  have hb := binv_built h
  have h1 : ∀ bs : List (RowArgs K), (∀ a ∈ bs, ArgsOk a) →
      ((flat bs).length : ℤ) = (bs.map RowArgs.repeats).sum ∧
      ((flat bs).map RowArgs.nPads).sum = (bs.map fun a => a.repeats * a.nPads).sum := by
    intro bs
    induction bs with
    | nil => intro _; exact ⟨rfl, rfl⟩
    | cons b bs ih =>
      intro hbs
      obtain ⟨i1, i2⟩ := ih fun a ha => hbs a (List.mem_cons_of_mem _ ha)
      have hr := (hbs b (by simp)).repeats
      have e : flat (b :: bs) = List.replicate b.repeats.toNat b ++ flat bs := by simp [flat]
      rw [e]
      simp only [List.length_append, List.length_replicate, List.map_append, List.sum_append, List.map_cons,
        List.sum_cons, List.map_replicate, List.sum_replicate, i2, nsmul_eq_mul]
      push_cast
      rw [i1]
      constructor
      · omega
      · rw [Int.toNat_of_nonneg hr.le]
  obtain ⟨h2, h3⟩ := h1 as hb.args
  refine ⟨by unfold getNRows; rw [hb.len, h2], by unfold getNPads; rw [hb.nPad, h3], ?_⟩
  unfold getNPads
  rw [hb.nPad]
  congr 1
  apply List.ext_getElem?
  intro i
  rw [List.getElem?_map, List.getElem?_map]
  rcases hi : (flat as)[i]? with _ | a
  · have : L.rows[i]? = none := by
      rw [List.getElem?_eq_none_iff] at hi ⊢
      rw [hb.len]; exact hi
    rw [this]; rfl
  · obtain ⟨row, hr, hR⟩ := hb.row i a hi
    rw [hr]
    simp [hR.nPads]

/-- `addRow` succeeds iff its arguments make sense and the pads of the first (innermost) row fit into the
circle. -/
theorem addRow_ok_iff {pi : K} {L : Layout K} (h0 : 0 ≤ L.ext1) (hpi : 0 < pi) (a : RowArgs K) :
    (addRow pi L a).2 = .ok () ↔
      0 < a.nPads ∧ 0 ≤ a.padWidth ∧ a.padWidth ≤ a.padPitch ∧ 0 < a.rowHeight ∧ 0 < a.repeats ∧
      a.nPads * a.padPitch ≤ 2 * pi * (L.ext1 + a.rowHeight / 2) := by
  obtain ⟨new, -, -, -, -, h4, h5⟩ := addRow_spec pi L a
  constructor
  · intro h
    rcases h5 with ⟨-, hok, hlen, -⟩ | ⟨h', -⟩
    · have hr := hok.repeats
      have hrh := hok.rowHeight
      refine ⟨hok.nPads, hok.padWidth, hok.width_le, hok.rowHeight, hok.repeats, ?_⟩
      have hlt : 0 < new.length := by omega
      have hR := mkRow_ok (h4 0 _ (List.getElem?_eq_getElem hlt))
      have := hR.fits
      rw [hR.padPitch] at this
      simp only [Nat.cast_zero, zero_mul, add_zero] at this
      have hpos : 0 < L.ext1 + a.rowHeight / 2 := by linarith
      rw [div_mul_eq_mul_div, div_le_iff₀ hpos] at this
      linarith
    · rw [h] at h'; cases h'
  · rintro ⟨c1, c2, c3, c4, c5, c6⟩
    rcases h5 with ⟨h, -⟩ | ⟨-, ⟨hn, -⟩ | ⟨hok, hlen, hb, -⟩⟩
    · exact h
    · exact absurd ⟨c1, c2.trans c3, c2, c3, c4, c5⟩ hn
    · exfalso
      have hnew : (0 : K) ≤ new.length := by positivity
      have hpos : 0 < L.ext1 + a.rowHeight / 2 := by linarith
      have hle := mul_nonneg hnew c4.le
      rw [div_mul_eq_mul_div, gt_iff_lt, lt_div_iff₀ (by linarith)] at hb
      nlinarith [mul_nonneg hpi.le hle]

/-- Partial: a call of `addRow` that throws leaves everything but the number of pads as it was; the layout
is untouched if it is an argument that was refused.  Missing: `getNPads`, see below. -/
theorem addRow_rejected_partial {pi : K} {L : Layout K} (h0 : 0 ≤ L.ext1) (hpi : 0 < pi) (a : RowArgs K)
    (h : (addRow pi L a).2 ≠ .ok ()) :
    (addRow pi L a).2 = .throw .gear ∧
    (addRow pi L a).1 = { L with nPad := getNPads (addRow pi L a).1 } ∧
    (a.nPads ≤ 0 ∨ a.padWidth < 0 ∨ a.padPitch < a.padWidth ∨ a.rowHeight ≤ 0 ∨ a.repeats ≤ 0 →
      (addRow pi L a).1 = L) := by
  obtain ⟨new, -, -, -, -, h4, h5⟩ := addRow_spec pi L a
  rcases h5 with ⟨h', -⟩ | ⟨ht, ⟨hn, hL⟩ | ⟨hok, hlen, hb, hL⟩⟩
  · exact absurd h' h
  · refine ⟨ht, ?_, fun _ => hL⟩
    rw [hL]; rfl
  · have hnew : new = [] := by
      rcases new with _ | ⟨row, new⟩
      · rfl
      exfalso
      have hR := mkRow_ok (h4 0 _ rfl)
      have hf := hR.fits
      rw [hR.padPitch] at hf
      simp only [Nat.cast_zero, zero_mul, add_zero] at hf
      have c4 := hok.rowHeight
      have hpos : 0 < L.ext1 + a.rowHeight / 2 := by linarith
      have hnn : (0 : K) ≤ (row :: new).length := by positivity
      have hle := mul_nonneg hnn c4.le
      rw [div_mul_eq_mul_div, div_le_iff₀ hpos] at hf
      rw [div_mul_eq_mul_div, gt_iff_lt, lt_div_iff₀ (by linarith)] at hb
      nlinarith [mul_nonneg hpi.le hle]
    subst hnew
    refine ⟨ht, by rw [hL]; simp [getNPads], ?_⟩
    rintro (c | c | c | c | c)
    · exact absurd hok.nPads (by omega)
    · exact absurd hok.padWidth (not_le.2 c)
    · exact absurd hok.width_le (not_le.2 c)
    · exact absurd hok.rowHeight (not_lt.2 c)
    · exact absurd hok.repeats (by omega)

/-- If the pads do not fit into the circle, they are counted although they are not there. -/
theorem addRow_rejected_false : (addRow (22/7) (new (1 : ℚ)) ⟨10, 10, 1, 0, 0, 0, 1⟩).2 = .throw .gear ∧
    getNPads (addRow (22/7) (new (1 : ℚ)) ⟨10, 10, 1, 0, 0, 0, 1⟩).1 = 10 ∧
    getNRows (addRow (22/7) (new (1 : ℚ)) ⟨10, 10, 1, 0, 0, 0, 1⟩).1 = 0 := by decide +kernel

example : getNRows exampleLayout = 3 ∧ getNPads exampleLayout = 13 ∧ 0 ≤ exampleLayout.ext1 ∧
    (addRow (22/7) exampleLayout ⟨4, 1, 2, 0, 2, 0, 2⟩).2 ≠ .ok () := by decide +kernel

/-! ### C81 pads are where `addRow` put them -/

/-- The pads of a built layout: sizes and centre as asked for, the angle up to full turns. -/
theorem pads_placed {pi rMin : K} {as : List (RowArgs K)} {L : Layout K} (h : Built pi rMin as L)
    (hS : Sized L) {i : ℕ} {a : RowArgs K} (ha : (flat as)[i]? = some a) (hm : middle rMin as i a ≠ 0) :
    PadsInRow L i a.nPads ∧ getRowHeight L i = .ok a.rowHeight ∧
    ∀ pad p, IsIndex L i pad p →
      (∃ phi, getPadCenter L p = .ok (middle rMin as i a, phi) ∧
        SameAngle pi phi ((a.offset + (pad + 1 / 2) * a.padPitch) / middle rMin as i a)) ∧
      getPadPitch L p = .ok (a.padPitch / middle rMin as i a) ∧
      getPadWidth L p = .ok ((if a.padWidth = 0 then a.padPitch else a.padWidth) / middle rMin as i a) ∧
      getPadHeight L p = .ok (if a.padHeight = 0 then a.rowHeight else a.padHeight) := by
  have hb := binv_built h
  obtain ⟨row, hr, hR⟩ := hb.row i a ha
  have he : elem L.rows i = some row := by rw [Rect.elem_nat]; exact hr
  refine ⟨⟨row, he, hR.nPads⟩, ?_, ?_⟩
  · unfold getRowHeight
    rw [Rect.elemAt_of he, Res.bind_ok, hR.rowHeight]; rfl
  · intro pad p hp
    obtain ⟨h1, h2⟩ := numbers hS hp
    refine ⟨?_, ?_, ?_, ?_⟩
    · obtain ⟨k, hk⟩ := hR.turns hm
      refine ⟨row.offset + ((pad : K) + 1 / 2) * row.padPitch, ?_, k, ?_⟩
      · unfold getPadCenter
        rw [h1, Res.bind_ok, Rect.elemUb_of he, Res.bind_ok, h2, hR.rCentre]; rfl
      · rw [hk, hR.padPitch]; field_simp; ring
    · unfold getPadPitch
      rw [h1, Res.bind_ok, Rect.elemUb_of he, Res.bind_ok, hR.padPitch]; rfl
    · unfold getPadWidth
      rw [h1, Res.bind_ok, Rect.elemUb_of he, Res.bind_ok, hR.padWidth]; rfl
    · unfold getPadHeight
      rw [h1, Res.bind_ok, Rect.elemUb_of he, Res.bind_ok, hR.padHeight]; rfl

/-- Partial: the inside test is exact for angles up to a full turn below and two full turns above the pad.
Missing: other angles, for which it is wrong (below). -/
theorem isInsidePad_iff_partial {F : Fns K} (hpi : 0 < F.pi) {L : Layout K} (hL : Made F.pi L) (hS : Sized L)
    {row pad p : ℤ} (h : IsIndex L row pad p) {c : K × K} {w hgt : K} (hc : getPadCenter L p = .ok c)
    (hw : getPadPitch L p = .ok w) (hh : getRowHeight L row = .ok hgt) {r phi : K}
    (h1 : c.2 - w / 2 - 2 * F.pi ≤ phi) (h2 : phi < c.2 - w / 2 + 4 * F.pi) :
    isInsidePad F L r phi p = .ok true ↔
      (c.1 - hgt / 2 ≤ r ∧ r ≤ c.1 + hgt / 2) ∧
      ∃ x, SameAngle F.pi x phi ∧ c.2 - w / 2 ≤ x ∧ x ≤ c.2 + w / 2 := by
  have hi := inv_made hL
  obtain ⟨n1, n2⟩ := numbers hS h
  obtain ⟨n, ⟨rr, he, rfl⟩, hp0, hp1⟩ := h.1
  obtain ⟨j, rfl, hj⟩ := Rect.elem_eq_some.1 he
  obtain ⟨-, g1, g2, g3, -⟩ := hi.row j rr hj
  unfold getPadCenter at hc
  rw [n1, Res.bind_ok, Rect.elemUb_of he, Res.bind_ok, Res.pure_eq, n2] at hc
  cases hc
  unfold getPadPitch at hw
  rw [n1, Res.bind_ok, Rect.elemUb_of he, Res.bind_ok, Res.pure_eq] at hw
  cases hw
  unfold getRowHeight at hh
  rw [Rect.elemAt_of he, Res.bind_ok, Res.pure_eq] at hh
  cases hh
  dsimp only at h1 h2 ⊢
  have hw2 : rr.padPitch ≤ 2 * F.pi := by
    rcases le_total 0 rr.padPitch with hh | hh
    · have : (1 : K) ≤ rr.nPads := by exact_mod_cast g1
      nlinarith
    · linarith
  have hmin : rr.offset + ((pad : K) + 1 / 2) * rr.padPitch - rr.padPitch / 2 =
      rr.offset + rr.padPitch * pad := by ring
  have hmax : rr.offset + ((pad : K) + 1 / 2) * rr.padPitch + rr.padPitch / 2 =
      rr.offset + rr.padPitch * pad + rr.padPitch := by ring
  rw [hmin] at h1 h2
  rw [hmin, hmax]
  unfold isInsidePad
  rw [n1, n2, Res.bind_ok, Rect.elemUb_of he, Res.bind_ok, Res.pure_eq]
  simp only [Res.ok.injEq, decide_eq_true_eq]
  set lo := rr.offset + rr.padPitch * pad with hlo
  set phi1 := (if phi < lo then phi + 2 * F.pi else phi) with hphi1
  set phi2 := (if phi1 ≥ lo + 2 * F.pi then phi1 - 2 * F.pi else phi1) with hphi2
  have key : (lo ≤ phi2 ∧ phi2 < lo + 2 * F.pi) ∧ ∃ k : ℤ, phi2 = phi + k * (2 * F.pi) := by
    rw [hphi2, hphi1]
    by_cases c1 : phi < lo
    · simp only [if_pos c1]
      rw [if_neg (by rw [not_le]; linarith)]
      exact ⟨⟨by linarith, by linarith⟩, 1, by push_cast; ring⟩
    · simp only [if_neg c1]
      rw [not_lt] at c1
      by_cases c2 : phi ≥ lo + 2 * F.pi
      · rw [if_pos c2]
        exact ⟨⟨by linarith, by linarith⟩, -1, by push_cast; ring⟩
      · rw [if_neg c2]
        exact ⟨⟨c1, not_le.1 c2⟩, 0, by push_cast; ring⟩
  obtain ⟨⟨k1, k2⟩, k, hk⟩ := key
  have hr : rr.rowHeight * (1 / 2) = rr.rowHeight / 2 := by ring
  rw [hr]
  constructor
  · rintro ⟨a, b, d⟩
    exact ⟨⟨a, b⟩, phi2, ⟨k, hk⟩, k1, d⟩
  · rintro ⟨⟨a, b⟩, x, ⟨m, hx⟩, d1, d2⟩
    refine ⟨a, b, ?_⟩
    by_cases hxx : x < lo + 2 * F.pi
    · have hpos : (0 : K) < 2 * F.pi := by linarith
      have e1 : (m : K) < k + 1 := by
        have : (m : K) * (2 * F.pi) < (k + 1) * (2 * F.pi) := by linarith
        exact lt_of_mul_lt_mul_right this hpos.le
      have e2 : (k : K) < m + 1 := by
        have : (k : K) * (2 * F.pi) < (m + 1) * (2 * F.pi) := by linarith
        exact lt_of_mul_lt_mul_right this hpos.le
      have e1' : m < k + 1 := by exact_mod_cast e1
      have e2' : k < m + 1 := by exact_mod_cast e2
      have : m = k := by omega
      subst this
      rw [hk, ← hx]; exact d2
    · linarith

/-- A turn and a half below the pad, every point of the row is said to be inside of it. -/
theorem isInsidePad_false_turn : getPadCenter exampleLayout 0 = .ok (11, 5/11) ∧
    getPadPitch exampleLayout 0 = .ok (10/11) ∧
    isInsidePad exampleFns exampleLayout 11 (5/11 - 3 * (22/7)) 0 = .ok true ∧
    isInsidePad exampleFns exampleLayout 11 (5/11 - 22/7) 0 = .ok false := by decide +kernel

/-- A point strictly inside one cell (up to full turns) is in no other cell. -/
theorem pads_disjoint {pi rMin : K} (hpi : 0 < pi) (h0 : 0 ≤ rMin) {as : List (RowArgs K)} {L : Layout K}
    (h : Built pi rMin as L) (hS : Sized L) {row pad p row' pad' p' : ℤ} (hp : IsIndex L row pad p)
    (hp' : IsIndex L row' pad' p') {c c' : K × K} {w w' hgt hgt' : K}
    (hc : getPadCenter L p = .ok c) (hw : getPadPitch L p = .ok w) (hh : getRowHeight L row = .ok hgt)
    (hc' : getPadCenter L p' = .ok c') (hw' : getPadPitch L p' = .ok w') (hh' : getRowHeight L row' = .ok hgt')
    {r phi x x' : K} (r1 : c.1 - hgt / 2 < r) (r2 : r < c.1 + hgt / 2)
    (r1' : c'.1 - hgt' / 2 ≤ r) (r2' : r ≤ c'.1 + hgt' / 2)
    (hx : SameAngle pi x phi) (x1 : c.2 - w / 2 < x) (x2 : x < c.2 + w / 2)
    (hx' : SameAngle pi x' phi) (x1' : c'.2 - w' / 2 ≤ x') (x2' : x' ≤ c'.2 + w' / 2) : p = p' := by
  have hb := binv_built h
  have hi := inv_made (built_made h)
  obtain ⟨n1, n2⟩ := numbers hS hp
  obtain ⟨n1', n2'⟩ := numbers hS hp'
  obtain ⟨n, ⟨rr, he, rfl⟩, hp0, hp1⟩ := id hp.1
  obtain ⟨n', ⟨rr', he', rfl⟩, hp0', hp1'⟩ := id hp'.1
  obtain ⟨j, rfl, hj⟩ := Rect.elem_eq_some.1 he
  obtain ⟨j', rfl, hj'⟩ := Rect.elem_eq_some.1 he'
  unfold getPadCenter at hc hc'
  rw [n1, Res.bind_ok, Rect.elemUb_of he, Res.bind_ok, Res.pure_eq, n2] at hc
  cases hc
  rw [n1', Res.bind_ok, Rect.elemUb_of he', Res.bind_ok, Res.pure_eq, n2'] at hc'
  cases hc'
  unfold getPadPitch at hw hw'
  rw [n1, Res.bind_ok, Rect.elemUb_of he, Res.bind_ok, Res.pure_eq] at hw
  cases hw
  rw [n1', Res.bind_ok, Rect.elemUb_of he', Res.bind_ok, Res.pure_eq] at hw'
  cases hw'
  unfold getRowHeight at hh hh'
  rw [Rect.elemAt_of he, Res.bind_ok, Res.pure_eq] at hh
  cases hh
  rw [Rect.elemAt_of he', Res.bind_ok, Res.pure_eq] at hh'
  cases hh'
  dsimp only at *
  -- the rows
  have hrow : ∀ (i : ℕ) (q : Row K), L.rows[i]? = some q →
      q.rCentre - q.rowHeight / 2 = inner rMin as i ∧ q.rCentre + q.rowHeight / 2 = inner rMin as (i + 1) := by
    intro i q hq
    have hlt : i < (flat as).length := by
      rw [← hb.len]; exact (List.getElem?_eq_some_iff.1 hq).1
    obtain ⟨q', hq', hR⟩ := hb.row i _ (List.getElem?_eq_getElem hlt)
    rw [hq] at hq'; cases hq'
    rw [inner_succ rMin as (List.getElem?_eq_getElem hlt), hR.rCentre, hR.rowHeight]
    unfold middle
    constructor <;> ring
  have mono : ∀ (i k : ℕ), i + k ≤ (flat as).length → inner rMin as i ≤ inner rMin as (i + k) := by
    intro i k
    induction k with
    | zero => intro _; exact le_rfl
    | succ k ih =>
      intro hlt
      have hlt' : i + k < (flat as).length := by omega
      have hm := List.getElem?_eq_getElem hlt'
      rw [← add_assoc, inner_succ rMin as hm]
      have := (flat_ok hb.args _ (List.getElem_mem hlt')).rowHeight
      have := ih (by omega)
      linarith
  obtain ⟨a1, a2⟩ := hrow j rr hj
  obtain ⟨a1', a2'⟩ := hrow j' rr' hj'
  have hlt : j < (flat as).length := by rw [← hb.len]; exact (List.getElem?_eq_some_iff.1 hj).1
  have hlt' : j' < (flat as).length := by rw [← hb.len]; exact (List.getElem?_eq_some_iff.1 hj').1
  have hjj : j = j' := by
    rcases lt_trichotomy j j' with hl | hl | hl
    · obtain ⟨k, rfl⟩ := Nat.exists_eq_add_of_lt hl
      have := mono (j + 1) k (by omega)
      rw [show j + 1 + k = j + k + 1 by ring] at this
      linarith
    · exact hl
    · obtain ⟨k, rfl⟩ := Nat.exists_eq_add_of_lt hl
      have := mono (j' + 1) k (by omega)
      rw [show j' + 1 + k = j' + k + 1 by ring] at this
      linarith
  subst hjj
  rw [hj] at hj'; cases hj'
  -- the pads
  obtain ⟨-, -, -, g3, -⟩ := hi.row j rr hj
  have hwpos : 0 < rr.padPitch := by linarith
  obtain ⟨k, hk⟩ := hx
  obtain ⟨k', hk'⟩ := hx'
  have e1 : (0 : K) ≤ pad := by exact_mod_cast hp0
  have e2 : (pad : K) + 1 ≤ rr.nPads := by exact_mod_cast hp1
  have e1' : (0 : K) ≤ pad' := by exact_mod_cast hp0'
  have e2' : (pad' : K) + 1 ≤ rr.nPads := by exact_mod_cast hp1'
  have f1 := mul_nonneg e1 hwpos.le
  have f2 := mul_le_mul_of_nonneg_right e2 hwpos.le
  have f1' := mul_nonneg e1' hwpos.le
  have f2' := mul_le_mul_of_nonneg_right e2' hwpos.le
  have hpos : (0 : K) < 2 * pi := by linarith
  have d1 : (k : K) < k' + 1 := by
    have : (k : K) * (2 * pi) < (k' + 1) * (2 * pi) := by linarith
    exact lt_of_mul_lt_mul_right this hpos.le
  have d2 : (k' : K) < k + 1 := by
    have : (k' : K) * (2 * pi) < (k + 1) * (2 * pi) := by linarith
    exact lt_of_mul_lt_mul_right this hpos.le
  have d1' : k < k' + 1 := by exact_mod_cast d1
  have d2' : k' < k + 1 := by exact_mod_cast d2
  have hkk : k = k' := by omega
  subst hkk
  rw [← hk'] at hk
  subst hk
  have := cell_unique hwpos (lo := rr.offset) (i := pad) (j := pad') (x := x)
    (by linarith) (by linarith) (by linarith) (by linarith)
  subst this
  have := hp.2; rw [hp'.2] at this
  exact (Res.ok.inj this).symm

example : IsIndex exampleLayout 2 3 131075 ∧ getPadCenter exampleLayout 131075 = .ok (29/2, 50/29) ∧
    getPadPitch exampleLayout 131075 = .ok (16/29) ∧ getPadWidth exampleLayout 131075 = .ok (14/29) ∧
    getPadHeight exampleLayout 131075 = .ok (9/10) ∧ getRowHeight exampleLayout 2 = .ok 1 :=
  ⟨example_isIndex, by decide +kernel⟩

/-! ### C26 nearest pad -/

/-- The returned pad is the one chosen in the (first) row with the smallest distance. -/
theorem nearest_row {F : Fns K} {L : Layout K} {r phi : K} {p : ℤ} (h : getNearestPad F L r phi = .ok p) :
    ∃ (i : ℕ) (row : Row K), L.rows[i]? = some row ∧ rowNearestPad F row r phi = .ok p ∧
      (∀ row' ∈ L.rows, getDistanceToRow F row r phi ≤ getDistanceToRow F row' r phi) ∧
      (∀ (j : ℕ) row', j < i → L.rows[j]? = some row' →
        getDistanceToRow F row r phi < getDistanceToRow F row' r phi) := by
  unfold getNearestPad at h
  rcases hl : nearestLoop F r phi L.rows true (-1) 0 with q | e | _
  · rw [hl, Res.bind_ok] at h
    split_ifs at h with h1
    cases h
    have hne : L.rows ≠ [] := by
      intro e
      rw [e] at hl
      cases hl
      exact h1 rfl
    exact nearestLoop_true F r phi hne hl
  · rw [hl] at h; cases h
  · rw [hl] at h; cases h

/-- Partial: the pad exists, and is the one at the angle of the point if there is one, provided that the
angle is not below the offset of a row.  Missing: angles below the offset, see `nearest_false_offset`. -/
theorem nearest_exists_partial {F : Fns K} (hpi : 0 < F.pi) {L : Layout K} (hL : Made F.pi L) (hS : Sized L)
    (hne : 0 < getNRows L) {r phi : K} (hpitch : ∀ row ∈ L.rows, 0 < row.padPitch)
    (hoff : ∀ row ∈ L.rows, row.offset ≤ wrapTurn F.pi phi) :
    ∃ (row pad p : ℤ) (rr : Row K), elem L.rows row = some rr ∧ IsIndex L row pad p ∧
      getNearestPad F L r phi = .ok p ∧
      (∀ row' ∈ L.rows, getDistanceToRow F rr r phi ≤ getDistanceToRow F row' r phi) ∧
      (wrapTurn F.pi phi < rr.offset + rr.nPads * rr.padPitch →
        rr.offset + pad * rr.padPitch ≤ wrapTurn F.pi phi ∧
        wrapTurn F.pi phi < rr.offset + (pad + 1) * rr.padPitch) := by
  have hi := inv_made hL
  have hs := hS.rows
  unfold getNRows at hs hne
  have hpad : ∀ (i : ℕ) (row : Row K), L.rows[i]? = some row →
      ∃ pad p, rowNearestPad F row r phi = .ok p ∧ IsIndex L i pad p ∧
      (wrapTurn F.pi phi < row.offset + row.nPads * row.padPitch →
        row.offset + pad * row.padPitch ≤ wrapTurn F.pi phi ∧
        wrapTurn F.pi phi < row.offset + (pad + 1) * row.padPitch) := by
    intro i row hr
    obtain ⟨g0, g1, -⟩ := hi.row i row hr
    have hmem := List.mem_of_getElem? hr
    have hw := hpitch row hmem
    have ho := hoff row hmem
    have he : elem L.rows i = some row := by rw [Rect.elem_nat]; exact hr
    have hlt : i < L.rows.length := (List.getElem?_eq_some_iff.1 hr).1
    have mk : ∀ pad, 0 ≤ pad → pad < row.nPads → ∃ p, encode i pad = .ok p ∧ IsIndex L i pad p := by
      intro pad h0 h1
      have hip : IsPad L i pad := ⟨row.nPads, ⟨row, he, rfl⟩, h0, h1⟩
      obtain ⟨p, hp⟩ := index_isSome hS hip
      have hp' := hp
      rw [getPadIndex_of he (by omega) h1] at hp'
      exact ⟨p, hp', hip, hp⟩
    unfold rowNearestPad
    dsimp only
    by_cases c : wrapTurn F.pi phi < row.offset + row.nPads * row.padPitch
    · rw [if_pos c, if_neg hw.ne', g0]
      obtain ⟨p, h1, h2⟩ := mk ⌊(wrapTurn F.pi phi - row.offset) / row.padPitch⌋ (cell_nonneg hw ho)
        (cell_lt hw c)
      exact ⟨_, p, h1, h2, fun _ => cell hw⟩
    · rw [if_neg c]
      by_cases d : distanceToPhiMin F row r (wrapTurn F.pi phi) < distanceToPhiMax F row r (wrapTurn F.pi phi)
      · rw [if_pos d, g0]
        obtain ⟨p, h1, h2⟩ := mk 0 le_rfl (by omega)
        exact ⟨_, p, h1, h2, fun x => absurd x c⟩
      · rw [if_neg d, g0]
        obtain ⟨p, h1, h2⟩ := mk (row.nPads - 1) (by omega) (by omega)
        exact ⟨_, p, h1, h2, fun x => absurd x c⟩
  obtain ⟨p, hp⟩ := nearestLoop_isOk F r phi L.rows true (-1) 0 (by
    intro row hrow
    obtain ⟨i, hlt, hr⟩ := List.mem_iff_getElem.1 hrow
    obtain ⟨-, p, h, -⟩ := hpad i row (by rw [List.getElem?_eq_getElem hlt, hr])
    exact ⟨p, h⟩)
  have hne' : L.rows ≠ [] := by rintro e; rw [e] at hne; simp at hne
  obtain ⟨i, row, hr, hq, hall, -⟩ := nearestLoop_true F r phi hne' hp
  obtain ⟨pad, p', hq', hidx, hang⟩ := hpad i row hr
  rw [hq] at hq'; cases hq'
  refine ⟨i, pad, p, row, by rw [Rect.elem_nat]; exact hr, hidx, ?_, hall, hang⟩
  unfold getNearestPad
  rw [hp, Res.bind_ok, if_neg]
  have h2 := getPadIndex_encode hidx.2
  have hlt : i < L.rows.length := (List.getElem?_eq_some_iff.1 hr).1
  exact encode_ne_neg_one h2 (by omega)

/-- It throws iff there are no rows. -/
theorem nearest_throws_iff {F : Fns K} {L : Layout K} (hL : Made F.pi L) (hS : Sized L) (r phi : K) (e : Exn) :
    getNearestPad F L r phi = .throw e ↔ getNRows L = 0 ∧ e = .gear := by
  have hi := inv_made hL
  have hs := hS.rows
  unfold getNRows at hs ⊢
  constructor
  · intro h
    unfold getNearestPad at h
    rcases hl : nearestLoop F r phi L.rows true (-1) 0 with q | e' | _
    · rw [hl, Res.bind_ok] at h
      split_ifs at h with h1
      cases h
      refine ⟨?_, rfl⟩
      by_contra hne
      have hne' : L.rows ≠ [] := by rintro e; rw [e] at hne; simp at hne
      obtain ⟨i, row, hr, hq, -⟩ := nearestLoop_true F r phi hne' hl
      obtain ⟨pad, hp⟩ := rowNearestPad_encode hq
      obtain ⟨g0, -⟩ := hi.row i row hr
      have hlt : i < L.rows.length := (List.getElem?_eq_some_iff.1 hr).1
      exact encode_ne_neg_one hp (by omega) h1
    · exfalso
      -- the loop itself does not throw
      have : ∀ (rows : List (Row K)) (b : Bool) (q : ℤ) (d : K),
          nearestLoop F r phi rows b q d ≠ .throw e' := by
        intro rows
        induction rows with
        | nil => intro b q d h; cases h
        | cons row rows ih =>
          intro b q d h
          unfold nearestLoop at h
          dsimp only at h
          by_cases c : getDistanceToRow F row r phi < d ∨ b = true
          · rw [if_pos c] at h
            rcases hq : rowNearestPad F row r phi with x | x | _
            · rw [hq, Res.bind_ok] at h; exact ih _ _ _ h
            · unfold rowNearestPad encode at hq
              dsimp only at hq
              split_ifs at hq
            · rw [hq] at h; cases h
          · rw [if_neg c] at h; exact ih _ _ _ h
      exact this _ _ _ _ hl
    · rw [hl] at h; cases h
  · rintro ⟨h, rfl⟩
    have : L.rows = [] := by
      rw [← List.length_eq_zero_iff]; omega
    unfold getNearestPad
    rw [this]
    rfl

/-- Below the offset of the row, the index of a pad that does not exist is returned. -/
theorem nearest_false_offset : ∃ L : Layout ℚ, Built (22/7) 10 [⟨2, 11, 2, 22, 0, 0, 1⟩] L ∧
    getNearestPad exampleFns L 11 1 = .ok 65535 ∧ getPadIndex L 0 65535 = .throw .outOfRange :=
  ⟨(addRow (22/7) (new 10) ⟨2, 11, 2, 22, 0, 0, 1⟩).1,
   .addRow (as := []) _ .new (Prod.ext rfl (by decide +kernel)), by decide +kernel, by decide +kernel⟩

example : getNearestPad exampleFns exampleLayout 11 1 = .ok 1 ∧
    getNearestPad exampleFns exampleLayout 100 1 = .ok 131074 ∧
    wrapTurn exampleFns.pi 1 = 1 := by decide +kernel

example : (∀ row ∈ exampleLayout.rows, 0 < row.padPitch) ∧
    (∀ row ∈ exampleLayout.rows, row.offset ≤ wrapTurn exampleFns.pi 1) := by decide +kernel

/-! ### C80 full turns -/

/-- Partial: full turns do not matter for the nearest pad unless the angle is a multiple of a full turn.
Missing: these angles (`nearest_false_seam`); for `isInsidePad` see `isInsidePad_false_turn`. -/
theorem nearest_turn_partial {F : Fns K} (hpi : 0 < F.pi) (L : Layout K) (r : K) {phi : K}
    (h : ∀ k : ℤ, phi ≠ k * (2 * F.pi)) (m : ℤ) :
    getNearestPad F L r (phi + m * (2 * F.pi)) = getNearestPad F L r phi := by
  have hw := PadSize.wrapTurn_turn hpi h m
  have h1 : ∀ row : Row K, rowNearestPad F row r (phi + m * (2 * F.pi)) = rowNearestPad F row r phi := by
    intro row; unfold rowNearestPad; rw [hw]
  have h2 : ∀ row : Row K, getDistanceToRow F row r (phi + m * (2 * F.pi)) = getDistanceToRow F row r phi := by
    intro row; unfold getDistanceToRow; rw [hw]
  have h3 : ∀ (rows : List (Row K)) (b : Bool) (q : ℤ) (d : K),
      nearestLoop F r (phi + m * (2 * F.pi)) rows b q d = nearestLoop F r phi rows b q d := by
    intro rows
    induction rows with
    | nil => intro b q d; rfl
    | cons row rows ih => intro b q d; unfold nearestLoop; simp only [h1, h2, ih]
  unfold getNearestPad
  rw [h3]

/-- At a multiple of a full turn the answer depends on it: in a row of two pads that covers the circle, the
point at angle 0 is in pad 0 and the same point at angle 2 pi in pad 1. -/
theorem nearest_false_seam : ∃ L : Layout ℚ, Built (22/7) 10 [⟨2, 242/7, 2, 0, 0, 0, 1⟩] L ∧
    getNearestPad exampleFns L 11 0 = .ok 0 ∧
    getNearestPad exampleFns L 11 (0 + (1 : ℤ) * (2 * exampleFns.pi)) = .ok 1 :=
  ⟨(addRow (22/7) (new 10) ⟨2, 242/7, 2, 0, 0, 0, 1⟩).1,
   .addRow (as := []) _ .new (Prod.ext rfl (by decide +kernel)), by decide +kernel, by decide +kernel⟩

/-! ### C08, C09 pad indices -/

/-- Partial: proved for the pads that exist.  Missing: negative pad numbers are accepted as well, see
below. -/
theorem padIndex_roundtrip_partial {L : Layout K} (hS : Sized L) {row pad : ℤ} (h : IsPad L row pad) :
    ∃ p, getPadIndex L row pad = .ok p ∧ getRowNumber L p = .ok row ∧ getPadNumber p = pad := by
  obtain ⟨p, hp⟩ := index_isSome hS h
  exact ⟨p, hp, numbers hS ⟨h, hp⟩⟩

/-- Different pads have different indices. -/
theorem padIndex_injective {L : Layout K} (hS : Sized L) {row pad row' pad' p : ℤ}
    (h : IsIndex L row pad p) (h' : IsIndex L row' pad' p) : row = row' ∧ pad = pad' := by
  obtain ⟨h1, h2⟩ := numbers hS h
  obtain ⟨h3, h4⟩ := numbers hS h'
  rw [h1] at h3
  exact ⟨Res.ok.inj h3, h2.symm.trans h4⟩

/-- The accepted pad number -1 comes back as 65535. -/
theorem padIndex_false_negative : ∃ p, getPadIndex exampleLayout 0 (-1) = .ok p ∧ getPadNumber p ≠ -1 :=
  ⟨65535, by decide +kernel, by decide +kernel⟩

/-- Partial: proved for layouts with rows and pad numbers that are not negative. -/
theorem getPadIndex_rejects_partial {L : Layout K} (hS : Sized L) (hne : 0 < getNRows L) {row pad : ℤ}
    (hr : Rect.Spec.IsInt row) (hp : 0 ≤ pad) :
    (IsPad L row pad → ∃ p, getPadIndex L row pad = .ok p) ∧
    (¬ IsPad L row pad → getPadIndex L row pad = .throw .outOfRange) := by
  have hn := hS.rows
  unfold getNRows at hn hne
  have hrows : L.rows ≠ [] := by intro h; simp [h] at hne
  refine ⟨fun h => index_isSome hS h, fun h => ?_⟩
  rcases Classical.em (0 ≤ row ∧ row < L.rows.length) with h1 | h1
  · obtain ⟨r, hr⟩ := Rect.elem_isSome h1.1 h1.2
    have h2 : r.nPads ≤ pad := by
      by_contra h2
      exact h ⟨r.nPads, ⟨r, hr, rfl⟩, hp, by omega⟩
    have hnat := ofInt_toNat_of_range h1.1 (by omega)
    unfold getPadIndex
    rw [if_neg, Rect.elemUb_of hr]
    · simp only [Res.bind_ok]
      rw [if_pos (by omega)]
    · rintro ⟨-, h3⟩
      rw [hnat] at h3; omega
  · unfold getPadIndex
    rw [if_pos]
    refine ⟨hrows, ?_⟩
    rw [BitVec.toNat_ofInt]
    have : ((2 ^ 32 : ℕ) : ℤ) = 4294967296 := by norm_num
    rw [this]
    obtain ⟨ha, hb⟩ := hr
    omega

/-- A negative pad number is accepted, and a layout without rows reads outside its table. -/
theorem getPadIndex_false : (∃ p, getPadIndex exampleLayout 0 (-1) = .ok p) ∧
    ¬ IsPad exampleLayout 0 (-1) ∧ getPadIndex (new (1 : ℚ)) 0 0 = .ub := by
  refine ⟨⟨65535, by decide +kernel⟩, ?_, by decide +kernel⟩
  rintro ⟨n, -, h, -⟩
  omega

/-- A pad index with a row that does not exist is refused by all queries. -/
theorem illegal_row {F : Fns K} {L : Layout K} {p : ℤ} (h : getNRows L ≤ rowBits p) :
    getRowNumber L p = .throw .gear ∧ getPadCenter L p = .throw .gear ∧ getPadPitch L p = .throw .gear ∧
    getPadWidth L p = .throw .gear ∧ getPadHeight L p = .throw .gear ∧
    getLeftNeighbour F L p = .throw .gear ∧ getRightNeighbour F L p = .throw .gear ∧
    (∀ r phi, isInsidePad F L r phi p = .throw .gear) ∧
    (∀ r phi, getDistanceToPad F L r phi p = .throw .gear) := by
  have h1 : getRowNumber L p = .throw .gear := by
    unfold getRowNumber
    unfold getNRows at h
    exact if_pos (.inr (by omega))
  refine ⟨h1, ?_, ?_, ?_, ?_, ?_, ?_, ?_, ?_⟩
  · unfold getPadCenter; rw [h1]; rfl
  · unfold getPadPitch; rw [h1]; rfl
  · unfold getPadWidth; rw [h1]; rfl
  · unfold getPadHeight; rw [h1]; rfl
  · unfold getLeftNeighbour; rw [h1]; rfl
  · unfold getRightNeighbour; rw [h1]; rfl
  · intro r phi; unfold isInsidePad; rw [h1]; rfl
  · intro r phi; unfold getDistanceToPad getPadCenter; rw [h1]; rfl

example : getPadIndex exampleLayout 3 0 = .throw .outOfRange ∧
    getPadIndex exampleLayout (-1) 0 = .throw .outOfRange ∧
    getPadIndex exampleLayout 2 5 = .throw .outOfRange ∧ getPadIndex exampleLayout 2 4 = .ok 131076 ∧
    getNRows exampleLayout ≤ rowBits (3 * 65536) := by
  decide +kernel

/-! ### C18 neighbours -/

/-- The left neighbour is the pad with the next higher number; the last pad has the first one as its
neighbour if the layout's extent is a full circle, none otherwise. -/
theorem left_neighbour {F : Fns K} {L : Layout K} (hS : Sized L) {row pad n p : ℤ} (hk : PadsInRow L row n)
    (h : IsIndex L row pad p) :
    (pad + 1 < n → ∃ q, IsIndex L row (pad + 1) q ∧ getLeftNeighbour F L p = .ok q) ∧
    (pad + 1 = n → |L.ext3 - L.ext2 - 2 * F.pi| < 1 / 1000000 →
      ∃ q, IsIndex L row 0 q ∧ getLeftNeighbour F L p = .ok q) ∧
    (pad + 1 = n → ¬ |L.ext3 - L.ext2 - 2 * F.pi| < 1 / 1000000 →
      getLeftNeighbour F L p = .throw .gear) := by
  obtain ⟨h1, h2⟩ := numbers hS h
  obtain ⟨n', hk', hp0, hp1⟩ := h.1
  have en : n' = n := by
    obtain ⟨r1, e1, rfl⟩ := hk
    obtain ⟨r2, e2, rfl⟩ := hk'
    rw [e1] at e2; cases e2; rfl
  subst en
  obtain ⟨r, hr, rfl⟩ := id hk
  unfold getLeftNeighbour
  rw [h1, h2, Res.bind_ok, Rect.elemUb_of hr, Res.bind_ok]
  refine ⟨fun hlt => ?_, fun he hc => ?_, fun he hc => ?_⟩
  · have hx : IsPad L row (pad + 1) := ⟨_, hk, by omega, hlt⟩
    obtain ⟨q, hq⟩ := index_isSome hS hx
    exact ⟨q, ⟨hx, hq⟩, by rw [if_neg (by omega), hq]⟩
  · have hx : IsPad L row 0 := ⟨_, hk, by omega, by omega⟩
    obtain ⟨q, hq⟩ := index_isSome hS hx
    exact ⟨q, ⟨hx, hq⟩, by rw [if_pos he, if_pos (show fullCircle F L from hc), hq]⟩
  · rw [if_pos he, if_neg (show ¬ fullCircle F L from hc)]

/-- The right neighbour is the pad with the next lower number; the first pad has the last one as its
neighbour if the layout's extent is a full circle, none otherwise. -/
theorem right_neighbour {F : Fns K} {L : Layout K} (hS : Sized L) {row pad n p : ℤ} (hk : PadsInRow L row n)
    (h : IsIndex L row pad p) :
    (0 < pad → ∃ q, IsIndex L row (pad - 1) q ∧ getRightNeighbour F L p = .ok q) ∧
    (pad = 0 → |L.ext3 - L.ext2 - 2 * F.pi| < 1 / 1000000 →
      ∃ q, IsIndex L row (n - 1) q ∧ getRightNeighbour F L p = .ok q) ∧
    (pad = 0 → ¬ |L.ext3 - L.ext2 - 2 * F.pi| < 1 / 1000000 →
      getRightNeighbour F L p = .throw .gear) := by
  obtain ⟨h1, h2⟩ := numbers hS h
  obtain ⟨n', hk', hp0, hp1⟩ := h.1
  have en : n' = n := by
    obtain ⟨r1, e1, rfl⟩ := hk
    obtain ⟨r2, e2, rfl⟩ := hk'
    rw [e1] at e2; cases e2; rfl
  subst en
  obtain ⟨r, hr, rfl⟩ := id hk
  unfold getRightNeighbour
  rw [h1, h2, Res.bind_ok]
  refine ⟨fun hlt => ?_, fun he hc => ?_, fun he hc => ?_⟩
  · have hx : IsPad L row (pad - 1) := ⟨_, hk, by omega, by omega⟩
    obtain ⟨q, hq⟩ := index_isSome hS hx
    exact ⟨q, ⟨hx, hq⟩, by rw [if_neg (by omega), hq]⟩
  · have hx : IsPad L row (r.nPads - 1) := ⟨_, hk, by omega, by omega⟩
    obtain ⟨q, hq⟩ := index_isSome hS hx
    refine ⟨q, ⟨hx, hq⟩, ?_⟩
    rw [if_pos (by omega), if_pos (show fullCircle F L from hc), Rect.elemUb_of hr, Res.bind_ok, hq]
  · rw [if_pos (by omega), if_neg (show ¬ fullCircle F L from hc)]

/-- Left and right are inverse to each other. -/
theorem left_right {F : Fns K} {L : Layout K} (hS : Sized L) {row pad p q : ℤ} (h : IsIndex L row pad p) :
    (getLeftNeighbour F L p = .ok q → getRightNeighbour F L q = .ok p) ∧
    (getRightNeighbour F L p = .ok q → getLeftNeighbour F L q = .ok p) := by
  obtain ⟨n, hk, hp0, hp1⟩ := id h.1
  constructor
  · intro hq
    obtain ⟨h1, h2, h3⟩ := left_neighbour (F := F) hS hk h
    rcases lt_or_ge (pad + 1) n with hlt | hge
    · obtain ⟨q', hi, hq'⟩ := h1 hlt
      rw [hq] at hq'; cases hq'
      obtain ⟨p', hi', hp'⟩ := (right_neighbour (F := F) hS hk hi).1 (by omega)
      rw [hp']
      have := hi'.2; rw [show pad + 1 - 1 = pad by ring, h.2] at this
      cases this; rfl
    · have he : pad + 1 = n := by omega
      by_cases hc : |L.ext3 - L.ext2 - 2 * F.pi| < 1 / 1000000
      · obtain ⟨q', hi, hq'⟩ := h2 he hc
        rw [hq] at hq'; cases hq'
        obtain ⟨p', hi', hp'⟩ := (right_neighbour (F := F) hS hk hi).2.1 rfl hc
        rw [hp']
        have := hi'.2; rw [show n - 1 = pad by omega, h.2] at this
        cases this; rfl
      · rw [h3 he hc] at hq; cases hq
  · intro hq
    obtain ⟨h1, h2, h3⟩ := right_neighbour (F := F) hS hk h
    rcases lt_or_ge 0 pad with hlt | hge
    · obtain ⟨q', hi, hq'⟩ := h1 hlt
      rw [hq] at hq'; cases hq'
      obtain ⟨p', hi', hp'⟩ := (left_neighbour (F := F) hS hk hi).1 (by omega)
      rw [hp']
      have := hi'.2; rw [show pad - 1 + 1 = pad by ring, h.2] at this
      cases this; rfl
    · have he : pad = 0 := by omega
      by_cases hc : |L.ext3 - L.ext2 - 2 * F.pi| < 1 / 1000000
      · obtain ⟨q', hi, hq'⟩ := h2 he hc
        rw [hq] at hq'; cases hq'
        obtain ⟨p', hi', hp'⟩ := (left_neighbour (F := F) hS hk hi).2.1 (by omega) hc
        rw [hp']
        have := hi'.2; rw [← he, h.2] at this
        cases this; rfl
      · rw [h3 he hc] at hq; cases hq

example : getLeftNeighbour exampleFns exampleLayout 131075 = .ok 131076 ∧
    getLeftNeighbour exampleFns exampleLayout 131076 = .throw .gear ∧
    getRightNeighbour exampleFns exampleLayout 131072 = .throw .gear ∧
    getRightNeighbour exampleFns exampleLayout 131073 = .ok 131072 := by decide +kernel

/-! ### C19 copies, and the lists of pads -/

/-- After any history, the list of a row holds exactly the indices of its pads, in order; other row
numbers give an empty list. -/
theorem padsInRow_made {pi : K} {L : Layout K} (hL : Made pi L) (hS : Sized L) (row : ℤ) :
    ∃ l, (getPadsInRow L row).2 = .ok l ∧
      (∀ n, PadsInRow L row n → (l.length : ℤ) = n ∧
        ∀ pad : ℕ, (pad : ℤ) < n → ∃ p, l[pad]? = some p ∧ getPadIndex L row pad = .ok p) ∧
      ((¬ ∃ n, PadsInRow L row n) → l = []) := by
  have hi := inv_made hL
  have key : ∀ (row : ℤ) r, elem L.rows row = some r →
      ∃ l, buildPads (getPadIndex L) row r.nPads.toNat = .ok l ∧ (l.length : ℤ) = r.nPads ∧
      ∀ pad : ℕ, (pad : ℤ) < r.nPads → ∃ p, l[pad]? = some p ∧ getPadIndex L row pad = .ok p := by
    intro row r hr
    have hk : PadsInRow L row r.nPads := ⟨r, hr, rfl⟩
    have hex : ∀ i : ℕ, ∃ p, i < r.nPads.toNat → getPadIndex L row i = .ok p := by
      intro i
      by_cases hlt : i < r.nPads.toNat
      · obtain ⟨p, hp⟩ := index_isSome hS (row := row) (pad := i) ⟨r.nPads, hk, by omega, by omega⟩
        exact ⟨p, fun _ => hp⟩
      · exact ⟨0, fun h => absurd h hlt⟩
    choose g hg using hex
    refine ⟨_, buildPads_of r.nPads.toNat hg, ?_, ?_⟩
    · obtain ⟨j, rfl, hj⟩ := Rect.elem_eq_some.1 hr
      have := (hi.row j r hj).2.1; simp; omega
    · intro pad hlt
      refine ⟨g pad, ?_, hg pad (by omega)⟩
      rw [List.getElem?_map, List.getElem?_range (by omega)]; rfl
  by_cases hr : 0 ≤ row ∧ row < L.rows.length
  · obtain ⟨r, hrr⟩ := Rect.elem_isSome (l := L.rows) hr.1 hr.2
    obtain ⟨l, hl, h1, h2⟩ := key row r hrr
    refine ⟨l, ?_, ?_, fun h => absurd ⟨r.nPads, r, hrr, rfl⟩ h⟩
    · obtain ⟨c, hc⟩ := Rect.elem_isSome (l := L.padIndices) hr.1 (by rw [hi.len]; exact hr.2)
      unfold getPadsInRow
      rw [hc]
      rcases c with _ | l'
      · dsimp only
        rw [hrr]
        dsimp only
        rw [hl]
      · dsimp only
        obtain ⟨i, rfl, hc'⟩ := Rect.elem_eq_some.1 hc
        obtain ⟨r', hr', hb⟩ := hi.cache i l' hc'
        rw [Rect.elem_nat, hr'] at hrr
        cases hrr
        have := buildPads_imp (g := encode) (fun p x hx => getPadIndex_encode hx) _ _ hl
        rw [this] at hb
        exact congrArg _ (Res.ok.inj hb).symm
    · rintro n ⟨r', hr', rfl⟩
      rw [hrr] at hr'; cases hr'
      exact ⟨h1, h2⟩
  · refine ⟨[], ?_, ?_, fun _ => rfl⟩
    · unfold getPadsInRow
      have : elem L.padIndices row = none := by
        rcases hc : elem L.padIndices row with _ | c
        · rfl
        · have := Rect.elem_range hc
          rw [hi.len] at this
          exact absurd this hr
      rw [this]
    · rintro n ⟨r', hr', rfl⟩
      exact absurd (Rect.elem_range hr') hr

/-- A copy answers every query as the original does. -/
theorem copy_queries (F : Fns K) {pi : K} {L : Layout K} (hL : Made pi L) (hS : Sized L) :
    getNPads (copy L) = getNPads L ∧ getNRows (copy L) = getNRows L ∧
    getPlaneExtent (copy L) = getPlaneExtent L ∧
    (∀ i, getRowHeight (copy L) i = getRowHeight L i) ∧ (∀ i, getPadHeight (copy L) i = getPadHeight L i) ∧
    (∀ i, getPadWidth (copy L) i = getPadWidth L i) ∧ (∀ i, getPadPitch (copy L) i = getPadPitch L i) ∧
    (∀ i, getPadCenter (copy L) i = getPadCenter L i) ∧ (∀ i, getRowNumber (copy L) i = getRowNumber L i) ∧
    (∀ i j, getPadIndex (copy L) i j = getPadIndex L i j) ∧
    (∀ i, (getPadsInRow (copy L) i).2 = (getPadsInRow L i).2) ∧
    (∀ r phi i, getDistanceToPad F (copy L) r phi i = getDistanceToPad F L r phi i) ∧
    (∀ r phi, getNearestPad F (copy L) r phi = getNearestPad F L r phi) ∧
    (∀ i, getLeftNeighbour F (copy L) i = getLeftNeighbour F L i) ∧
    (∀ i, getRightNeighbour F (copy L) i = getRightNeighbour F L i) ∧
    (∀ r phi i, isInsidePad F (copy L) r phi i = isInsidePad F L r phi i) ∧
    (∀ r phi, isInsideAnyPad F (copy L) r phi = isInsideAnyPad F L r phi) := by
  refine ⟨rfl, rfl, rfl, fun _ => rfl, fun _ => rfl, fun _ => rfl, fun _ => rfl, fun _ => rfl, fun _ => rfl,
    fun _ _ => rfl, fun row => ?_, fun _ _ _ => rfl, fun _ _ => rfl, fun _ => rfl, fun _ => rfl,
    fun _ _ _ => rfl, fun _ _ => rfl⟩
  have hS' : Sized (copy L) := ⟨hS.rows, hS.pads⟩
  obtain ⟨l, h1, h2, h3⟩ := padsInRow_made hL hS row
  obtain ⟨l', h1', h2', h3'⟩ := padsInRow_made hL.copy hS' row
  rw [h1, h1']
  congr 1
  by_cases hr : ∃ n, PadsInRow L row n
  · obtain ⟨n, hn⟩ := hr
    obtain ⟨a, b⟩ := h2 n hn
    obtain ⟨a', b'⟩ := h2' n hn
    apply List.ext_getElem?
    intro i
    by_cases hlt : (i : ℤ) < n
    · obtain ⟨p, e, f⟩ := b i hlt
      obtain ⟨p', e', f'⟩ := b' i hlt
      have f'' : getPadIndex L row i = .ok p' := f'
      rw [f] at f''; cases f''
      rw [e, e']
    · rw [List.getElem?_eq_none (by omega), List.getElem?_eq_none (by omega)]
  · rw [h3 hr, h3' hr]

example : Made (22/7) (copy (getPadsInRow exampleLayout 1).1) ∧
    (getPadsInRow (copy (getPadsInRow exampleLayout 1).1) 1).2 = .ok [65536, 65537, 65538, 65539] :=
  ⟨(Made.padsInRow 1 (built_made exampleLayout_built)).copy, by decide +kernel⟩

end Gear.Versatile
