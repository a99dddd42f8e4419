/-
Lemmas about the versatile disk layout.
-/
import Verif.VersatileSpec
import Verif.PadSizeLemmas

set_option autoImplicit false
set_option linter.unusedSectionVars false

namespace Gear.Versatile

open PadIndex Disk Spec
open Rect (elem elemUb elemAt)
open PadSize (wrapTurn)

variable {K : Type} [Field K] [LinearOrder K] [IsStrictOrderedRing K] [FloorRing K]

/-! ### rows -/

/-- What a row looks like. -/
structure RowOf (pi : K) (i n : ℤ) (rc pp h pw ph off : K) (row : Row K) : Prop where
  rowNumber : row.rowNumber = i
  nPads : row.nPads = n
  padPitch : row.padPitch = pp / rc
  padWidth : row.padWidth = pw / rc
  rowHeight : row.rowHeight = h
  padHeight : row.padHeight = ph
  rCentre : row.rCentre = rc
  phiMax : row.phiMax = row.offset + row.padPitch * n
  fits : row.padPitch * n ≤ 2 * pi
  turns : rc ≠ 0 → ∃ k : ℤ, row.offset = off / rc + k * (2 * pi)
  offset : -2 * pi ≤ off / rc → off / rc < 2 * pi → row.offset = off / rc

theorem mkRow_ok {pi : K} {i n : ℤ} {rc pp h pw ph off : K} {row : Row K}
    (hr : mkRow pi i n rc pp h pw ph off = .ok row) : RowOf pi i n rc pp h pw ph off row := by
  unfold mkRow at hr
  dsimp only at hr
  by_cases h1 : pp / rc * n > 2 * pi
  · rw [if_pos h1] at hr; cases hr
  rw [if_neg h1] at hr
  cases hr
  refine ⟨rfl, rfl, rfl, rfl, rfl, rfl, rfl, rfl, not_lt.1 h1, ?_, ?_⟩
  · intro hrc
    dsimp only
    by_cases a : off / rc < -2 * pi
    · simp only [if_pos a]
      by_cases b : off / rc + 2 * pi ≥ 2 * pi
      · simp only [if_pos b]
        exact ⟨2, by push_cast; field_simp; ring⟩
      · simp only [if_neg b]
        exact ⟨1, by push_cast; field_simp⟩
    · simp only [if_neg a]
      by_cases b : off / rc ≥ 2 * pi
      · simp only [if_pos b]
        exact ⟨1, by push_cast; field_simp⟩
      · simp only [if_neg b]
        exact ⟨0, by push_cast; ring⟩
  · intro a b
    dsimp only
    simp only [if_neg (not_lt.2 a), if_neg (not_le.2 b)]

theorem mkRow_throw_iff (pi : K) (i n : ℤ) (rc pp h pw ph off : K) :
    (∃ row, mkRow pi i n rc pp h pw ph off = .ok row) ∨
    (mkRow pi i n rc pp h pw ph off = .throw .gear ∧ pp / rc * n > 2 * pi) := by
  unfold mkRow
  dsimp only
  by_cases h1 : pp / rc * n > 2 * pi
  · rw [if_pos h1]; exact .inr ⟨rfl, h1⟩
  · rw [if_neg h1]; exact .inl ⟨_, rfl⟩

theorem pushRows_spec (pi : K) (np : ℤ) (pp h pw ph off : K) : ∀ (n : ℕ) (L : Layout K) (rc : K),
    ∃ new : List (Row K),
      (pushRows pi np pp h pw ph off n L rc).1 =
        { L with rows := L.rows ++ new, padIndices := L.padIndices ++ List.replicate new.length none } ∧
      (∀ (i : ℕ) row, new[i]? = some row →
        mkRow pi (L.rows.length + i) np (rc + i * h) pp h pw ph off = .ok row) ∧
      (((pushRows pi np pp h pw ph off n L rc).2 = .ok () ∧ new.length = n) ∨
       ((pushRows pi np pp h pw ph off n L rc).2 = .throw .gear ∧ new.length < n ∧
        pp / (rc + new.length * h) * np > 2 * pi)) := by
  intro n
  induction n with
  | zero => intro L rc; exact ⟨[], by simp [pushRows], by simp, .inl ⟨rfl, rfl⟩⟩
  | succ n ih =>
    intro L rc
    unfold pushRows
    rcases mkRow_throw_iff pi L.rows.length np rc pp h pw ph off with ⟨row, hr⟩ | ⟨ht, hb⟩
    · rw [hr]
      dsimp only
      obtain ⟨new, h1, h2, h3⟩ := ih
        { L with rows := L.rows ++ [row], padIndices := L.padIndices ++ [none] } (rc + h)
      refine ⟨row :: new, ?_, ?_, ?_⟩
      · rw [h1]; simp [List.replicate_succ]
      · intro i r hi
        rcases i with _ | i
        · simp only [List.getElem?_cons_zero, Option.some.injEq] at hi
          subst hi
          simpa using hr
        · rw [List.getElem?_cons_succ] at hi
          have := h2 i r hi
          rw [← this]
          simp only [List.length_append, List.length_singleton]
          push_cast
          congr 1 <;> ring
      · rcases h3 with ⟨a, b⟩ | ⟨a, b, c⟩
        · exact .inl ⟨a, by simp [b]⟩
        · refine .inr ⟨a, by simp; omega, ?_⟩
          have e : rc + ((row :: new).length : K) * h = rc + h + new.length * h := by
            simp only [List.length_cons]; push_cast; ring
          rw [e]; exact c
    · rw [ht]
      refine ⟨[], by simp, by simp, .inr ⟨rfl, by simp, by simpa using hb⟩⟩

/-- The arguments `addRow` checks first. -/
structure ArgsOk (a : RowArgs K) : Prop where
  nPads : 0 < a.nPads
  padPitch : 0 ≤ a.padPitch
  padWidth : 0 ≤ a.padWidth
  width_le : a.padWidth ≤ a.padPitch
  rowHeight : 0 < a.rowHeight
  repeats : 0 < a.repeats

/-- The pad width and height `addRow` uses. -/
def widthOf (a : RowArgs K) : K := if a.padWidth = 0 then a.padPitch else a.padWidth
/-- The pad height `addRow` uses. -/
def heightOf (a : RowArgs K) : K := if a.padHeight = 0 then a.rowHeight else a.padHeight

theorem addRow_unfold (pi : K) (L : Layout K) (a : RowArgs K) :
    (addRow pi L a = (L, .throw .gear) ∧ ¬ ArgsOk a) ∨
    (ArgsOk a ∧ addRow pi L a =
      match pushRows pi a.nPads a.padPitch a.rowHeight (widthOf a) (heightOf a) a.offset a.repeats.toNat
          { L with nPad := L.nPad + a.repeats * a.nPads } (L.ext1 + a.rowHeight * (1 / 2)) with
      | (L', .ok ()) => (updateExtent pi a L', .ok ())
      | r => r) := by
  unfold addRow
  by_cases h1 : a.nPads ≤ 0
  · rw [if_pos h1]; exact .inl ⟨rfl, fun h => not_lt.2 h1 h.nPads⟩
  rw [if_neg h1]
  by_cases h2 : a.padPitch < 0
  · rw [if_pos h2]; exact .inl ⟨rfl, fun h => not_lt.2 h.padPitch h2⟩
  rw [if_neg h2]
  by_cases h3 : a.padWidth < 0
  · rw [if_pos h3]; exact .inl ⟨rfl, fun h => not_lt.2 h.padWidth h3⟩
  rw [if_neg h3]
  by_cases h4 : a.padWidth > a.padPitch
  · rw [if_pos h4]; exact .inl ⟨rfl, fun h => not_lt.2 h.width_le h4⟩
  rw [if_neg h4]
  by_cases h5 : a.rowHeight ≤ 0
  · rw [if_pos h5]; exact .inl ⟨rfl, fun h => not_lt.2 h5 h.rowHeight⟩
  rw [if_neg h5]
  by_cases h6 : a.repeats ≤ 0
  · rw [if_pos h6]; exact .inl ⟨rfl, fun h => not_lt.2 h6 h.repeats⟩
  rw [if_neg h6]
  exact .inr ⟨⟨by omega, not_lt.1 h2, not_lt.1 h3, not_lt.1 h4, not_le.1 h5, by omega⟩, rfl⟩

theorem updateExtent_rows (pi : K) (a : RowArgs K) (L : Layout K) :
    (updateExtent pi a L).rows = L.rows ∧ (updateExtent pi a L).padIndices = L.padIndices ∧
    (updateExtent pi a L).nPad = L.nPad ∧ (updateExtent pi a L).ext0 = L.ext0 := by
  unfold updateExtent
  rcases L.rows.getLast? with _ | back
  · exact ⟨rfl, rfl, rfl, rfl⟩
  · dsimp only
    by_cases h : (if L.rows.length = 1 ∨ back.phiMax > L.ext3 then back.phiMax else L.ext3) -
        (if L.rows.length = 1 ∨ back.offset < L.ext2 then back.offset else L.ext2) > 2 * pi
    · rw [if_pos h]; exact ⟨rfl, rfl, rfl, rfl⟩
    · rw [if_neg h]; exact ⟨rfl, rfl, rfl, rfl⟩

theorem updateExtent_ext1 (pi : K) (a : RowArgs K) (L : Layout K) (h : L.rows ≠ []) :
    (updateExtent pi a L).ext1 = L.ext1 + a.repeats * a.rowHeight := by
  unfold updateExtent
  rcases hl : L.rows.getLast? with _ | back
  · exact absurd (List.getLast?_eq_none_iff.1 hl) h
  · dsimp only
    by_cases h : (if L.rows.length = 1 ∨ back.phiMax > L.ext3 then back.phiMax else L.ext3) -
        (if L.rows.length = 1 ∨ back.offset < L.ext2 then back.offset else L.ext2) > 2 * pi
    · rw [if_pos h]
    · rw [if_neg h]

/-- The effect of `addRow` on the rows. -/
theorem addRow_spec (pi : K) (L : Layout K) (a : RowArgs K) :
    ∃ new : List (Row K),
      (addRow pi L a).1.rows = L.rows ++ new ∧
      (addRow pi L a).1.padIndices = L.padIndices ++ List.replicate new.length none ∧
      (addRow pi L a).1.ext0 = L.ext0 ∧
      (new ≠ [] → ArgsOk a) ∧
      (∀ (i : ℕ) row, new[i]? = some row →
        mkRow pi (L.rows.length + i) a.nPads (L.ext1 + a.rowHeight / 2 + i * a.rowHeight) a.padPitch
          a.rowHeight (widthOf a) (heightOf a) a.offset = .ok row) ∧
      (((addRow pi L a).2 = .ok () ∧ ArgsOk a ∧ (new.length : ℤ) = a.repeats ∧
        (addRow pi L a).1.nPad = L.nPad + a.repeats * a.nPads ∧
        (addRow pi L a).1.ext1 = L.ext1 + a.repeats * a.rowHeight) ∨
       ((addRow pi L a).2 = .throw .gear ∧ ((¬ ArgsOk a ∧ (addRow pi L a).1 = L) ∨
        (ArgsOk a ∧ (new.length : ℤ) < a.repeats ∧
          a.padPitch / (L.ext1 + a.rowHeight / 2 + new.length * a.rowHeight) * a.nPads > 2 * pi ∧
          (addRow pi L a).1 = { L with
            nPad := L.nPad + a.repeats * a.nPads
            rows := L.rows ++ new
            padIndices := L.padIndices ++ List.replicate new.length none })))) := by
  rcases addRow_unfold pi L a with ⟨h, hn⟩ | ⟨hok, h⟩
  · refine ⟨[], ?_⟩
    rw [h]
    exact ⟨by simp, by simp, rfl, fun x => absurd rfl x, by simp, .inr ⟨rfl, .inl ⟨hn, rfl⟩⟩⟩
  · obtain ⟨new, h1, h2, h3⟩ := pushRows_spec pi a.nPads a.padPitch a.rowHeight (widthOf a) (heightOf a)
      a.offset a.repeats.toNat { L with nPad := L.nPad + a.repeats * a.nPads }
      (L.ext1 + a.rowHeight * (1 / 2))
    have ehalf : L.ext1 + a.rowHeight * (1 / 2) = L.ext1 + a.rowHeight / 2 := by ring
    rw [ehalf] at h1 h2 h3 h
    rw [h]
    have hr := hok.repeats
    generalize hp : pushRows pi a.nPads a.padPitch a.rowHeight (widthOf a) (heightOf a) a.offset
      a.repeats.toNat { L with nPad := L.nPad + a.repeats * a.nPads } (L.ext1 + a.rowHeight / 2) = P
    rw [hp] at h1 h3
    obtain ⟨L', res⟩ := P
    dsimp only at h1 h3
    refine ⟨new, ?_⟩
    rcases h3 with ⟨rfl, hl⟩ | ⟨rfl, hl, hb⟩
    · obtain ⟨u1, u2, u3, u4⟩ := updateExtent_rows pi a L'
      have u5 := updateExtent_ext1 pi a L' (by
        rw [h1]; simp only [ne_eq, List.append_eq_nil_iff, not_and]
        intro _ hnew; rw [hnew] at hl; simp at hl; omega)
      dsimp only
      rw [u1, u2, u3, u4, u5, h1]
      exact ⟨rfl, rfl, rfl, fun _ => hok, h2, .inl ⟨rfl, hok, by omega, rfl, rfl⟩⟩
    · dsimp only
      rw [h1]
      exact ⟨rfl, rfl, rfl, fun _ => hok, h2, .inr ⟨rfl, .inr ⟨hok, by omega, hb, rfl⟩⟩⟩

/-! ### the invariant of all histories -/

theorem buildPads_imp {f g : ℤ → ℤ → Res ℤ} {row : ℤ} (h : ∀ p x, f row p = .ok x → g row p = .ok x) :
    ∀ (n : ℕ) l, buildPads f row n = .ok l → buildPads g row n = .ok l := by
  intro n
  induction n with
  | zero => intro l hl; exact hl
  | succ n ih =>
    intro l hl
    unfold buildPads at hl ⊢
    rcases h1 : buildPads f row n with l' | e | _
    · rw [h1, Res.bind_ok] at hl
      rcases h2 : f row n with x | e | _
      · rw [h2, Res.bind_ok] at hl
        rw [ih l' h1, Res.bind_ok, h _ x h2, Res.bind_ok]; exact hl
      · rw [h2] at hl; cases hl
      · rw [h2] at hl; cases hl
    · rw [h1] at hl; cases hl
    · rw [h1] at hl; cases hl

theorem getPadIndex_encode {L : Layout K} {row p x : ℤ} (h : getPadIndex L row p = .ok x) :
    encode row p = .ok x := by
  unfold getPadIndex at h
  split_ifs at h
  rcases hr : elemUb L.rows row with r | e | _
  · rw [hr, Res.bind_ok] at h
    split_ifs at h
    exact h
  · rw [hr] at h; cases h
  · rw [hr] at h; cases h

structure Inv (pi : K) (L : Layout K) : Prop where
  len : L.padIndices.length = L.rows.length
  cache : ∀ (i : ℕ) l, L.padIndices[i]? = some (some l) →
    ∃ row, L.rows[i]? = some row ∧ buildPads encode i row.nPads.toNat = .ok l
  row : ∀ (i : ℕ) row, L.rows[i]? = some row →
    row.rowNumber = i ∧ 1 ≤ row.nPads ∧ 0 < row.rowHeight ∧ row.padPitch * row.nPads ≤ 2 * pi ∧
    row.phiMax = row.offset + row.padPitch * row.nPads

theorem getPadsInRow_cases (L : Layout K) (row : ℤ) :
    (getPadsInRow L row).1 = L ∨ ∃ (i : ℕ) (r : Row K) (l : List ℤ), row = i ∧ L.rows[i]? = some r ∧
      buildPads (getPadIndex L) row r.nPads.toNat = .ok l ∧
      (getPadsInRow L row).1 = { L with padIndices := L.padIndices.set i (some l) } := by
  unfold getPadsInRow
  rcases h1 : elem L.padIndices row with _ | _ | l
  · exact .inl rfl
  · dsimp only
    rcases h2 : elem L.rows row with _ | r
    · exact .inl rfl
    · dsimp only
      rcases h3 : buildPads (getPadIndex L) row r.nPads.toNat with l | e | _
      · obtain ⟨i, rfl, h⟩ := Rect.elem_eq_some.1 h2
        exact .inr ⟨i, r, l, rfl, h, h3, by simp⟩
      · left; cases e <;> rfl
      · exact .inl rfl
  · exact .inl rfl

theorem inv_made {pi : K} {L : Layout K} (h : Made pi L) : Inv pi L := by
  induction h with
  | new rMin => exact ⟨rfl, by simp [Versatile.new], by simp [Versatile.new]⟩
  | @addRow L a _ ih =>
    obtain ⟨new, h1, h2, -, h3, h4, -⟩ := addRow_spec pi L a
    refine ⟨by rw [h1, h2]; simp [ih.len], ?_, ?_⟩
    · intro i l h
      rw [h2] at h
      rw [h1]
      rcases lt_or_ge i L.padIndices.length with hlt | hge
      · rw [List.getElem?_append_left hlt] at h
        obtain ⟨row, hr, hb⟩ := ih.cache i l h
        exact ⟨row, by rw [List.getElem?_append_left (by rw [← ih.len]; exact hlt)]; exact hr, hb⟩
      · rw [List.getElem?_append_right hge, List.getElem?_replicate] at h
        split_ifs at h
        simp at h
    · intro i row h
      rw [h1] at h
      rcases lt_or_ge i L.rows.length with hlt | hge
      · rw [List.getElem?_append_left hlt] at h
        exact ih.row i row h
      · rw [List.getElem?_append_right hge] at h
        have ha := h3 (by rintro rfl; simp at h)
        have hr := mkRow_ok (h4 _ _ h)
        refine ⟨by rw [hr.rowNumber]; omega, ?_, by rw [hr.rowHeight]; exact ha.rowHeight, ?_, ?_⟩
        · have := ha.nPads; rw [hr.nPads]; omega
        · rw [hr.nPads]; exact hr.fits
        · rw [hr.nPads]; exact hr.phiMax
  | @padsInRow L row _ ih =>
    rcases getPadsInRow_cases L row with h | ⟨i, r, l, rfl, hr, hb, h⟩
    · rw [h]; exact ih
    · rw [h]
      refine { ih with len := by simp [ih.len], cache := ?_ }
      intro j m hj
      dsimp only at hj
      rw [List.getElem?_set] at hj
      split_ifs at hj with h1 h2
      · subst h1; cases hj
        exact ⟨r, hr, buildPads_imp (fun p x hx => getPadIndex_encode hx) _ _ hb⟩
      · exact ih.cache j m hj
  | @copy L _ ih =>
    refine { ih with len := by simp [copy], cache := ?_ }
    intro i l h
    simp only [copy] at h
    rw [List.getElem?_replicate] at h
    split_ifs at h <;> simp at h

theorem built_made {pi rMin : K} {as : List (RowArgs K)} {L : Layout K} (h : Built pi rMin as L) :
    Made pi L := by
  induction h with
  | new => exact .new rMin
  | @addRow as L L' a _ hL ih =>
    have := Made.addRow a ih
    rw [hL] at this; exact this
  | padsInRow row _ ih => exact .padsInRow row ih
  | copy _ ih => exact .copy ih

/-! ### pad indices -/

theorem getPadIndex_of {L : Layout K} {row pad : ℤ} {r : Row K} (h : elem L.rows row = some r)
    (hs : row < 65536) (hp : pad < r.nPads) : getPadIndex L row pad = encode row pad := by
  obtain ⟨hr0, hr1⟩ := Rect.elem_range h
  unfold getPadIndex
  rw [if_neg, Rect.elemUb_of h]
  · simp only [Res.bind_ok]
    rw [if_neg (by omega)]
  · rintro ⟨-, h3⟩
    rw [ofInt_toNat_of_range hr0 hs] at h3; omega

theorem index_isSome {L : Layout K} (hS : Sized L) {row pad : ℤ} (h : IsPad L row pad) :
    ∃ p, getPadIndex L row pad = .ok p := by
  obtain ⟨n, ⟨r, hr, rfl⟩, h0, h1⟩ := h
  obtain ⟨hr0, hr1⟩ := Rect.elem_range hr
  have hs := hS.rows
  unfold getNRows at hs
  rw [getPadIndex_of hr (by omega) h1]
  exact encode_isOk _ hr0 (by omega)

theorem numbers {L : Layout K} (hS : Sized L) {row pad p : ℤ} (h : IsIndex L row pad p) :
    getRowNumber L p = .ok row ∧ getPadNumber p = pad := by
  obtain ⟨⟨n, ⟨r, hr, rfl⟩, h0, h1⟩, h2⟩ := h
  obtain ⟨hr0, hr1⟩ := Rect.elem_range hr
  have hs := hS.rows
  unfold getNRows at hs
  rw [getPadIndex_of hr (by omega) h1] at h2
  have := hS.pads row r.nPads ⟨r, hr, rfl⟩
  refine ⟨?_, padBits_encode' h2 h0 (by omega)⟩
  unfold getRowNumber
  rw [rowBits_encode h2]
  exact if_neg (by omega)

/-! ### rows of a built layout -/

theorem flat_append (as : List (RowArgs K)) (a : RowArgs K) :
    flat (as ++ [a]) = flat as ++ List.replicate a.repeats.toNat a := by
  unfold flat; simp

theorem inner_append (rMin : K) (as : List (RowArgs K)) (a : RowArgs K) {i : ℕ}
    (h : i ≤ (flat as).length) : inner rMin (as ++ [a]) i = inner rMin as i := by
  unfold inner
  rw [flat_append, List.take_append_of_le_length h]

theorem inner_new (rMin : K) (as : List (RowArgs K)) (a : RowArgs K) {j : ℕ} (h : j ≤ a.repeats.toNat) :
    inner rMin (as ++ [a]) ((flat as).length + j) = inner rMin as (flat as).length + j * a.rowHeight := by
  unfold inner
  rw [flat_append, List.take_append, List.take_replicate]
  simp [List.take_of_length_le, h, add_assoc]

structure BInv (pi rMin : K) (as : List (RowArgs K)) (L : Layout K) : Prop where
  len : L.rows.length = (flat as).length
  args : ∀ a ∈ as, ArgsOk a
  row : ∀ (i : ℕ) a, (flat as)[i]? = some a → ∃ row, L.rows[i]? = some row ∧
    RowOf pi i a.nPads (middle rMin as i a) a.padPitch a.rowHeight (widthOf a) (heightOf a) a.offset row
  ext0 : L.ext0 = rMin
  ext1 : L.ext1 = inner rMin as (flat as).length
  nPad : L.nPad = ((flat as).map RowArgs.nPads).sum

theorem binv_built {pi rMin : K} {as : List (RowArgs K)} {L : Layout K} (h : Built pi rMin as L) :
    BInv pi rMin as L := by
  induction h with
  | new => exact ⟨rfl, by simp, by simp [flat], rfl, by simp [inner, flat, Versatile.new], rfl⟩
  | @addRow as L L' a _ hL ih =>
    obtain ⟨new, h1, -, h0, -, h4, h5⟩ := addRow_spec pi L a
    rw [hL] at h1 h0 h5
    dsimp only at h1 h0 h5
    rcases h5 with ⟨-, hok, hlen, hn, he⟩ | ⟨h, -⟩
    swap
    · cases h
    have hrep := hok.repeats
    have hlen' : new.length = a.repeats.toNat := by omega
    refine ⟨?_, ?_, ?_, by rw [h0, ih.ext0], ?_, ?_⟩
    · rw [h1, flat_append]; simp [ih.len, hlen']
    · intro b hb
      rcases List.mem_append.1 hb with hb | hb
      · exact ih.args b hb
      · rw [List.mem_singleton.1 hb]; exact hok
    · intro i b hb
      rw [flat_append] at hb
      rcases lt_or_ge i (flat as).length with hlt | hge
      · rw [List.getElem?_append_left hlt] at hb
        obtain ⟨row, hr, hR⟩ := ih.row i b hb
        refine ⟨row, by rw [h1, List.getElem?_append_left (by rw [ih.len]; exact hlt)]; exact hr, ?_⟩
        have : middle rMin (as ++ [a]) i b = middle rMin as i b := by
          unfold middle; rw [inner_append _ _ _ hlt.le]
        rw [this]; exact hR
      · obtain ⟨j, rfl⟩ := Nat.exists_eq_add_of_le hge
        rw [List.getElem?_append_right hge, List.getElem?_replicate] at hb
        split_ifs at hb with hj
        cases hb
        have hj' : j < new.length := by omega
        have hr : new[j]? = some new[j] := List.getElem?_eq_getElem hj'
        refine ⟨new[j], ?_, ?_⟩
        · rw [h1, List.getElem?_append_right (by rw [ih.len]; omega), ih.len]
          simpa using hr
        · have := mkRow_ok (h4 j _ hr)
          have e : middle rMin (as ++ [a]) ((flat as).length + j) a =
              L.ext1 + a.rowHeight / 2 + j * a.rowHeight := by
            unfold middle; rw [inner_new _ _ _ (by omega), ih.ext1]; ring
          rw [e]
          have e2 : (((flat as).length + j : ℕ) : ℤ) = (L.rows.length : ℤ) + j := by rw [ih.len]; push_cast; rfl
          rw [e2]; exact this
    · rw [he, ih.ext1, flat_append, List.length_append, inner_new _ _ _ (by simp), List.length_replicate]
      congr 2
      have : ((a.repeats.toNat : ℤ) : K) = (a.repeats : K) := by rw [Int.toNat_of_nonneg hrep.le]
      exact_mod_cast this.symm
    · rw [hn, ih.nPad, flat_append]
      simp [Int.max_eq_left hrep.le]
  | @padsInRow as L row _ ih =>
    rcases getPadsInRow_cases L row with h | ⟨i, r, l, rfl, -, -, h⟩
    · rw [h]; exact ih
    · rw [h]; exact { ih with }
  | @copy as L _ ih => exact { ih with }

theorem inner_ge {rMin : K} {as : List (RowArgs K)} (h : ∀ a ∈ as, ArgsOk a) (i : ℕ) : rMin ≤ inner rMin as i := by
  unfold inner
  have : 0 ≤ ((flat as).take i |>.map RowArgs.rowHeight).sum := by
    apply List.sum_nonneg
    intro x hx
    rw [List.mem_map] at hx
    obtain ⟨a, ha, rfl⟩ := hx
    have := List.mem_of_mem_take ha
    unfold flat at this
    rw [List.mem_flatMap] at this
    obtain ⟨b, hb, hab⟩ := this
    rw [List.eq_of_mem_replicate hab]
    exact (h b hb).rowHeight.le
  linarith

theorem flat_ok {as : List (RowArgs K)} (h : ∀ a ∈ as, ArgsOk a) : ∀ a ∈ flat as, ArgsOk a := by
  intro a ha
  unfold flat at ha
  rw [List.mem_flatMap] at ha
  obtain ⟨b, hb, hab⟩ := ha
  rw [List.eq_of_mem_replicate hab]
  exact h b hb

theorem inner_succ (rMin : K) (as : List (RowArgs K)) {i : ℕ} {a : RowArgs K} (h : (flat as)[i]? = some a) :
    inner rMin as (i + 1) = inner rMin as i + a.rowHeight := by
  unfold inner
  rw [List.take_add_one, h]; simp [add_assoc]

/-! ### the nearest pad -/

theorem nearestLoop_spec (F : Fns K) (r phi : K) : ∀ (rows : List (Row K)) (nearest p : ℤ) (d : K),
    nearestLoop F r phi rows false nearest d = .ok p →
    (p = nearest ∧ ∀ row ∈ rows, d ≤ getDistanceToRow F row r phi) ∨
    ∃ (i : ℕ) (row : Row K), rows[i]? = some row ∧ rowNearestPad F row r phi = .ok p ∧
      getDistanceToRow F row r phi < d ∧
      (∀ row' ∈ rows, getDistanceToRow F row r phi ≤ getDistanceToRow F row' r phi) ∧
      (∀ (j : ℕ) row', j < i → rows[j]? = some row' →
        getDistanceToRow F row r phi < getDistanceToRow F row' r phi) := by
  intro rows
  induction rows with
  | nil => intro nearest p d h; cases h; exact .inl ⟨rfl, by simp⟩
  | cons row rows ih =>
    intro nearest p d h
    unfold nearestLoop at h
    dsimp only at h
    by_cases c : getDistanceToRow F row r phi < d
    · rw [if_pos (.inl c)] at h
      rcases hp : rowNearestPad F row r phi with q | e | _
      · rw [hp, Res.bind_ok] at h
        right
        rcases ih q p _ h with ⟨rfl, hall⟩ | ⟨i, row', hi, hq, hlt, hall, hfirst⟩
        · exact ⟨0, row, rfl, hp, c, by simpa using hall, by simp⟩
        · refine ⟨i + 1, row', hi, hq, hlt.trans c, ?_, ?_⟩
          · intro x hx
            rcases List.mem_cons.1 hx with rfl | hx
            · exact hlt.le
            · exact hall x hx
          · intro j x hj hx
            rcases j with _ | j
            · cases hx; exact hlt
            · exact hfirst j x (by omega) hx
      · rw [hp] at h; cases h
      · rw [hp] at h; cases h
    · rw [if_neg (by simp [c])] at h
      rcases ih nearest p d h with ⟨rfl, hall⟩ | ⟨i, row', hi, hq, hlt, hall, hfirst⟩
      · left
        exact ⟨rfl, by intro x hx; rcases List.mem_cons.1 hx with rfl | hx; exacts [not_lt.1 c, hall x hx]⟩
      · right
        refine ⟨i + 1, row', hi, hq, hlt, ?_, ?_⟩
        · intro x hx
          rcases List.mem_cons.1 hx with rfl | hx
          · exact (hlt.trans_le (not_lt.1 c)).le
          · exact hall x hx
        · intro j x hj hx
          rcases j with _ | j
          · cases hx; exact hlt.trans_le (not_lt.1 c)
          · exact hfirst j x (by omega) hx

theorem nearestLoop_true (F : Fns K) (r phi : K) {rows : List (Row K)} (hne : rows ≠ []) {nearest p : ℤ}
    {d : K} (h : nearestLoop F r phi rows true nearest d = .ok p) :
    ∃ (i : ℕ) (row : Row K), rows[i]? = some row ∧ rowNearestPad F row r phi = .ok p ∧
      (∀ row' ∈ rows, getDistanceToRow F row r phi ≤ getDistanceToRow F row' r phi) ∧
      (∀ (j : ℕ) row', j < i → rows[j]? = some row' →
        getDistanceToRow F row r phi < getDistanceToRow F row' r phi) := by
  rcases rows with _ | ⟨row, rows⟩
  · exact absurd rfl hne
  unfold nearestLoop at h
  dsimp only at h
  rw [if_pos (.inr rfl)] at h
  rcases hp : rowNearestPad F row r phi with q | e | _
  · rw [hp, Res.bind_ok] at h
    rcases nearestLoop_spec F r phi rows q p _ h with ⟨rfl, hall⟩ | ⟨i, row', hi, hq, hlt, hall, hfirst⟩
    · exact ⟨0, row, rfl, hp, by simpa using hall, by simp⟩
    · refine ⟨i + 1, row', hi, hq, ?_, ?_⟩
      · intro x hx
        rcases List.mem_cons.1 hx with rfl | hx
        · exact hlt.le
        · exact hall x hx
      · intro j x hj hx
        rcases j with _ | j
        · cases hx; exact hlt
        · exact hfirst j x (by omega) hx
  · rw [hp] at h; cases h
  · rw [hp] at h; cases h

/-- If every row gives a pad, so does the loop. -/
theorem nearestLoop_isOk (F : Fns K) (r phi : K) : ∀ (rows : List (Row K)) (first : Bool) (nearest : ℤ) (d : K),
    (∀ row ∈ rows, ∃ p, rowNearestPad F row r phi = .ok p) →
    ∃ p, nearestLoop F r phi rows first nearest d = .ok p := by
  intro rows
  induction rows with
  | nil => intro first nearest d _; exact ⟨nearest, rfl⟩
  | cons row rows ih =>
    intro first nearest d h
    unfold nearestLoop
    dsimp only
    by_cases c : getDistanceToRow F row r phi < d ∨ first = true
    · rw [if_pos c]
      obtain ⟨q, hq⟩ := h row (by simp)
      rw [hq, Res.bind_ok]
      exact ih _ _ _ fun x hx => h x (List.mem_cons_of_mem _ hx)
    · rw [if_neg c]
      exact ih _ _ _ fun x hx => h x (List.mem_cons_of_mem _ hx)

theorem encode_ne_neg_one {row pad p : ℤ} (h : encode row pad = .ok p) (hr : row < 65535) : p ≠ -1 := by
  obtain ⟨h0, -, h2⟩ := encode_emod h
  rintro rfl
  omega

theorem rowNearestPad_encode {F : Fns K} {row : Row K} {r phi : K} {p : ℤ}
    (h : rowNearestPad F row r phi = .ok p) : ∃ pad, encode row.rowNumber pad = .ok p := by
  unfold rowNearestPad at h
  dsimp only at h
  split_ifs at h
  all_goals exact ⟨_, h⟩

end Gear.Versatile
