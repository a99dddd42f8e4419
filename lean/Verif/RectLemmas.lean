/-
Helper lemmas for rectangular pad layouts.
-/
import Mathlib.Data.List.Induction
import Verif.PadIndexLemmas
import Verif.RectSpec

set_option autoImplicit false
set_option linter.unusedSectionVars false

namespace Gear.Rect

open PadIndex

section elem

variable {α : Type}

theorem elem_nat (l : List α) (n : ℕ) : elem l (n : ℤ) = l[n]? := by simp [elem]

theorem elem_eq_some {l : List α} {i : ℤ} {a : α} :
    elem l i = some a ↔ ∃ n : ℕ, i = n ∧ l[n]? = some a := by
  unfold elem
  split_ifs with h
  · constructor
    · intro h1; exact ⟨i.toNat, by omega, h1⟩
    · rintro ⟨n, rfl, h1⟩; simpa using h1
  · simp only [false_iff, reduceCtorEq]
    rintro ⟨n, rfl, -⟩; omega

theorem elem_range {l : List α} {i : ℤ} {a : α} (h : elem l i = some a) :
    0 ≤ i ∧ i < l.length := by
  obtain ⟨n, rfl, h⟩ := elem_eq_some.1 h
  have := (List.getElem?_eq_some_iff.1 h).1
  omega

theorem elem_isSome {l : List α} {i : ℤ} (h0 : 0 ≤ i) (h1 : i < l.length) :
    ∃ a, elem l i = some a := by
  have h : i.toNat < l.length := by omega
  exact ⟨l[i.toNat], by simp [elem, h0, h]⟩

theorem elemUb_ok {l : List α} {i : ℤ} {a : α} : elemUb l i = .ok a ↔ elem l i = some a := by
  unfold elemUb; cases elem l i <;> simp

theorem elemUb_of {l : List α} {i : ℤ} {a : α} (h : elem l i = some a) : elemUb l i = .ok a :=
  elemUb_ok.2 h

theorem elemAt_of {l : List α} {i : ℤ} {a : α} (h : elem l i = some a) : elemAt l i = .ok a := by
  unfold elemAt; simp [h]

theorem elem_mem {l : List α} {i : ℤ} {a : α} (h : elem l i = some a) : a ∈ l := by
  obtain ⟨n, rfl, h⟩ := elem_eq_some.1 h
  exact List.mem_of_getElem? h

end elem

variable {K : Type} [Field K] [LinearOrder K] [IsStrictOrderedRing K] [FloorRing K]

/-- Parameters of a row that `addRow` accepts. -/
structure RowOk (xMin xMax : K) (r : Row K) : Prop where
  nPad : 0 < r.nPad
  padWidth : 0 ≤ r.padWidth
  padHeight : 0 ≤ r.padHeight
  height : r.padHeight ≤ r.height
  left : 0 ≤ r.leftOffset
  right : 0 ≤ r.rightOffset
  fits : (r.nPad : K) * r.padWidth ≤ (xMax - r.rightOffset) - (xMin + r.leftOffset)
  pitch : r.widthPerPad = ((xMax - r.rightOffset) - (xMin + r.leftOffset)) / (r.nPad : K)

/-- Sum of the heights of the rows. -/
def hsum (rows : List (Row K)) : K := (rows.map Row.height).sum

@[simp] theorem hsum_nil : hsum ([] : List (Row K)) = 0 := rfl
@[simp] theorem hsum_append (a b : List (Row K)) : hsum (a ++ b) = hsum a + hsum b := by
  simp [hsum]
@[simp] theorem hsum_cons (a : Row K) (b : List (Row K)) : hsum (a :: b) = a.height + hsum b := by
  simp [hsum]

/-- Invariant of every layout built by the API, apart from the pad count and the pad lists. -/
structure Wf (xMin xMax yMin : K) (L : Layout K) : Prop where
  eXMin : L.xMin = xMin
  eXMax : L.xMax = xMax
  eYMin : L.yMin = yMin
  eYMax : L.yMax = yMin + hsum L.rows
  rowOk : ∀ r ∈ L.rows, RowOk xMin xMax r
  stacked : ∀ (i : ℕ) (r : Row K), L.rows[i]? = some r →
    r.center = yMin + hsum (L.rows.take i) + r.height / 2

theorem wf_new (xMin xMax yMin : K) : Wf xMin xMax yMin (new xMin xMax yMin) := by
  constructor <;> simp [new]

/-- One pass of the loop of `addRow`. -/
def push1 (row : Row K) (L : Layout K) : Layout K :=
  { L with
    yMax := L.yMax + row.height
    rows := L.rows ++ [{ row with center := L.yMax + row.height / 2 }]
    padIndices := L.padIndices ++ [none] }

theorem pushRows_succ (row : Row K) (n : ℕ) (L : Layout K) :
    pushRows row (n + 1) L = pushRows row n (push1 row L) := rfl

theorem RowOk.recenter {xMin xMax : K} {r : Row K} (h : RowOk xMin xMax r) (c : K) :
    RowOk xMin xMax { r with center := c } := ⟨h.1, h.2, h.3, h.4, h.5, h.6, h.7, h.8⟩

theorem wf_push1 {xMin xMax yMin : K} {L : Layout K} (h : Wf xMin xMax yMin L) {row : Row K}
    (hr : RowOk xMin xMax row) : Wf xMin xMax yMin (push1 row L) := by
  refine ⟨h.eXMin, h.eXMax, h.eYMin, ?_, ?_, ?_⟩
  · simp only [push1, h.eYMax, hsum_append, hsum_cons, hsum_nil]; ring
  · intro r hmem
    simp only [push1, List.mem_append, List.mem_singleton] at hmem
    rcases hmem with hmem | rfl
    · exact h.rowOk r hmem
    · exact hr.recenter _
  · intro i r hi
    simp only [push1] at hi ⊢
    rcases lt_or_ge i L.rows.length with hlt | hge
    · rw [List.getElem?_append_left hlt] at hi
      rw [List.take_append_of_le_length hlt.le]
      exact h.stacked i r hi
    · rw [List.getElem?_append_right hge] at hi
      have hi0 : i = L.rows.length := by
        by_contra hne
        have : i - L.rows.length = (i - L.rows.length - 1) + 1 := by omega
        rw [this] at hi; simp at hi
      subst hi0
      simp at hi
      subst hi
      simp [h.eYMax]

theorem wf_pushRows {xMin xMax yMin : K} {row : Row K} (hr : RowOk xMin xMax row) (n : ℕ) :
    ∀ {L : Layout K}, Wf xMin xMax yMin L → Wf xMin xMax yMin (pushRows row n L) := by
  induction n with
  | zero => intro L h; exact h
  | succ n ih => intro L h; rw [pushRows_succ]; exact ih (wf_push1 h hr)

/-- The row that a successful `addRow` inserts. -/
def newRow (L : Layout K) (nPad : ℤ) (padWidth padHeight rowHeight leftOffset rightOffset : K) :
    Row K where
  nPad := nPad
  padWidth := padWidth
  padHeight := padHeight
  height := if rowHeight = 0 then padHeight else rowHeight
  leftOffset := leftOffset
  rightOffset := rightOffset
  center := 0
  widthPerPad := ((L.xMax - rightOffset) - (L.xMin + leftOffset)) / (nPad : K)

/-- All ways a call of `addRow` can go. -/
theorem addRow_cases (L : Layout K) (nRow nPad : ℤ) (w h rh l r : K) :
    (addRow L nRow nPad w h rh l r = (L, .throw .assertion) ∧
      ¬ (0 < nRow ∧ 0 < nPad ∧ 0 ≤ w ∧ 0 ≤ h ∧ 0 ≤ rh ∧ 0 ≤ l ∧ 0 ≤ r)) ∨
    (addRow L nRow nPad w h rh l r = (L, .throw .gear) ∧
      (nPad : K) * w > (L.xMax - r) - (L.xMin + l)) ∨
    (addRow L nRow nPad w h rh l r = ({ L with nPad := L.nPad + |nRow| * |nPad| }, .throw .gear) ∧
      (if rh = 0 then h else rh) < h) ∨
    (addRow L nRow nPad w h rh l r =
        ({ pushRows (newRow L nPad w h rh l r) nRow.toNat { L with nPad := L.nPad + |nRow| * |nPad| }
            with nRows := L.nRows ++ [nRow] }, .ok ()) ∧
      0 < nRow ∧ RowOk L.xMin L.xMax (newRow L nPad w h rh l r)) := by
  have hn : ∀ (row : Row K) n (L : Layout K), (pushRows row n L).nRows = L.nRows := by
    intro row n
    induction n with
    | zero => intro L; rfl
    | succ n ih => intro L; rw [pushRows_succ, ih]; rfl
  by_cases h1 : 0 < nRow ∧ 0 < nPad ∧ 0 ≤ w ∧ 0 ≤ h ∧ 0 ≤ rh ∧ 0 ≤ l ∧ 0 ≤ r
  · have h1' : ¬ ¬ (0 < nRow ∧ 0 < nPad ∧ ¬ w < 0 ∧ ¬ h < 0 ∧ ¬ rh < 0 ∧ ¬ l < 0 ∧ ¬ r < 0) := by
      simpa only [not_lt, not_not] using h1
    right
    by_cases h2 : (nPad : K) * w > (L.xMax - r) - (L.xMin + l)
    · left
      exact ⟨by unfold addRow; rw [if_neg h1', if_pos h2], h2⟩
    · right
      by_cases h3 : (if rh = 0 then h else rh) < h
      · left
        exact ⟨by unfold addRow; rw [if_neg h1', if_neg h2]; exact if_pos h3, h3⟩
      · right
        obtain ⟨g1, g2, g3, g4, g5, g6, g7⟩ := h1
        refine ⟨?_, g1, ⟨g2, g3, g4, not_lt.1 h3, g6, g7, not_lt.1 h2, rfl⟩⟩
        unfold addRow
        rw [if_neg h1', if_neg h2]
        refine (if_neg h3).trans ?_
        simp only [newRow, hn]
  · left
    refine ⟨?_, h1⟩
    unfold addRow
    rw [if_pos]
    simpa only [not_lt] using h1

theorem wf_addRow {xMin xMax yMin : K} {L : Layout K} (hw : Wf xMin xMax yMin L) (nRow nPad : ℤ)
    (w h rh l r : K) : Wf xMin xMax yMin (addRow L nRow nPad w h rh l r).1 := by
  rcases addRow_cases L nRow nPad w h rh l r with ⟨e, -⟩ | ⟨e, -⟩ | ⟨e, -⟩ | ⟨e, -, hr⟩
  · rw [e]; exact hw
  · rw [e]; exact hw
  · rw [e]; exact ⟨hw.1, hw.2, hw.3, hw.4, hw.5, hw.6⟩
  · rw [e]
    rw [hw.eXMin, hw.eXMax] at hr
    have h0 : Wf xMin xMax yMin { L with nPad := L.nPad + |nRow| * |nPad| } :=
      ⟨hw.1, hw.2, hw.3, hw.4, hw.5, hw.6⟩
    have h1 := wf_pushRows hr nRow.toNat h0
    exact ⟨h1.1, h1.2, h1.3, h1.4, h1.5, h1.6⟩

/-- Adding an already accepted row once more succeeds and inserts exactly that row. -/
theorem addRow_again {xMin xMax yMin : K} {L : Layout K} (hw : Wf xMin xMax yMin L) {r : Row K}
    (hr : RowOk xMin xMax r) :
    addRow L 1 r.nPad r.padWidth r.padHeight r.height r.leftOffset r.rightOffset =
      ({ push1 r L with nPad := L.nPad + r.nPad, nRows := L.nRows ++ [1] }, .ok ()) := by
  have hh : (if r.height = 0 then r.padHeight else r.height) = r.height := by
    split_ifs with h
    · have := hr.padHeight; have := hr.height; rw [h] at this ⊢; linarith
    · rfl
  have hf := hr.fits
  have hd := hr.nPad
  have hp := hr.padHeight
  have hh2 := hr.height
  have habs : |r.nPad| = r.nPad := abs_of_pos hr.nPad
  have hrow : newRow L r.nPad r.padWidth r.padHeight r.height r.leftOffset r.rightOffset
      = { r with center := 0 } := by
    simp only [newRow, hh, hw.eXMin, hw.eXMax, ← hr.pitch]
  rcases addRow_cases L 1 r.nPad r.padWidth r.padHeight r.height r.leftOffset r.rightOffset
    with ⟨e, h1⟩ | ⟨e, h1⟩ | ⟨e, h1⟩ | ⟨e, -, -⟩
  · exact absurd ⟨one_pos, hr.nPad, hr.padWidth, hr.padHeight, hp.trans hh2, hr.left, hr.right⟩ h1
  · rw [hw.eXMin, hw.eXMax] at h1; exact absurd h1 (not_lt.2 hf)
  · rw [hh] at h1; exact absurd h1 (not_lt.2 hr.height)
  · rw [e, hrow]
    simp [pushRows, push1, habs]

/-- A row without its position. -/
def bare (r : Row K) : Row K := { r with center := 0 }

theorem repeatOnce_spec {xMin xMax yMin : K} (nRow : ℕ) (k : ℕ) :
    ∀ {L : Layout K}, Wf xMin xMax yMin L → k ≤ nRow → nRow ≤ L.rows.length →
      ∃ L', repeatOnce nRow k L = (L', .ok ()) ∧ Wf xMin xMax yMin L' ∧
        L'.rows.map bare = L.rows.map bare ++ ((L.rows.take nRow).drop (nRow - k)).map bare ∧
        L'.rows.take nRow = L.rows.take nRow ∧ nRow ≤ L'.rows.length ∧
        L'.padIndices = L.padIndices ++ List.replicate k none ∧
        L'.repeatRows = L.repeatRows ∧
        L'.nPad = L.nPad + (((L.rows.take nRow).drop (nRow - k)).map Row.nPad).sum := by
  induction k with
  | zero =>
    intro L hw hk hn
    refine ⟨L, rfl, hw, ?_, rfl, hn, by simp, rfl, ?_⟩
    · have : (L.rows.take nRow).drop (nRow - 0) = [] := by simp
      rw [this]; simp
    · have : (L.rows.take nRow).drop (nRow - 0) = [] := by simp
      rw [this]; simp
  | succ k ih =>
    intro L hw hk hn
    have hi : nRow - (k + 1) < L.rows.length := by omega
    obtain ⟨r, hr⟩ : ∃ r, L.rows[nRow - (k + 1)]? = some r :=
      ⟨_, List.getElem?_eq_getElem hi⟩
    have hrok : RowOk xMin xMax r := hw.rowOk r (List.mem_of_getElem? hr)
    simp only [repeatOnce, hr, addRow_again hw hrok]
    set L1 : Layout K := { push1 r L with nPad := L.nPad + r.nPad, nRows := L.nRows ++ [1] } with hL1
    have hrows : L1.rows = L.rows ++ [{ r with center := L.yMax + r.height / 2 }] := rfl
    have hw1 : Wf xMin xMax yMin L1 := by
      have h1 := wf_push1 hw hrok
      exact ⟨h1.1, h1.2, h1.3, h1.4, h1.5, h1.6⟩
    have htake : L1.rows.take nRow = L.rows.take nRow := by
      rw [hrows, List.take_append_of_le_length hn]
    have hdrop : (L.rows.take nRow).drop (nRow - (k + 1)) =
        r :: (L.rows.take nRow).drop (nRow - k) := by
      have hlt : nRow - (k + 1) < (L.rows.take nRow).length := by
        rw [List.length_take]; omega
      rw [List.drop_eq_getElem_cons hlt]
      congr 1
      · rw [List.getElem_take]
        exact (List.getElem?_eq_some_iff.1 hr).2
      · congr 1; omega
    obtain ⟨L', e, hw', hb, ht, hl, hpi, hrr, hnp⟩ := ih hw1 (by omega)
      (by rw [hrows]; simp; omega)
    refine ⟨L', e, hw', ?_, ht.trans htake, hl, ?_, hrr, ?_⟩
    · rw [hb, htake, hdrop, hrows]
      simp [bare]
    · rw [hpi]
      simp [hL1, push1, List.replicate_succ]
    · rw [hnp, htake, hdrop]
      simp [hL1]; ring

theorem repeatLoop_spec {xMin xMax yMin : K} (nRow : ℕ) (n : ℕ) :
    ∀ {L : Layout K}, Wf xMin xMax yMin L → nRow ≤ L.rows.length →
      ∃ L', repeatLoop nRow n L = (L', .ok ()) ∧ Wf xMin xMax yMin L' ∧
        L'.rows.map bare = L.rows.map bare ++
          (List.replicate n ((L.rows.take nRow).map bare)).flatten ∧
        L'.rows.take nRow = L.rows.take nRow ∧
        L'.padIndices = L.padIndices ++ List.replicate (n * nRow) none ∧
        L'.repeatRows = L.repeatRows ∧
        L'.nPad = L.nPad + n * ((L.rows.take nRow).map Row.nPad).sum := by
  induction n with
  | zero => intro L hw hn; exact ⟨L, rfl, hw, by simp, rfl, by simp, rfl, by simp⟩
  | succ n ih =>
    intro L hw hn
    obtain ⟨L1, e1, hw1, hb1, ht1, hl1, hp1, hr1, hn1⟩ := repeatOnce_spec nRow nRow hw le_rfl hn
    obtain ⟨L', e, hw', hb, ht, hp, hr, hnp⟩ := ih hw1 hl1
    refine ⟨L', ?_, hw', ?_, ht.trans ht1, ?_, hr.trans hr1, ?_⟩
    · simp only [repeatLoop, e1, e]
    · rw [hb, hb1, ht1]; simp [List.replicate_succ]
    · rw [hp, hp1, List.append_assoc, List.replicate_append_replicate]
      congr 2; ring
    · rw [hnp, hn1, ht1]; simp; ring

theorem repeatRows_spec {xMin xMax yMin : K} {L : Layout K} (hw : Wf xMin xMax yMin L) (count : ℕ)
    (h : L.repeatRows ≤ 0) :
    ∃ L', repeatRows L count = (L', .ok ()) ∧ Wf xMin xMax yMin L' ∧
        L'.rows.map bare = L.rows.map bare ++
          (List.replicate (BitVec.ofNat 32 count - 1).toNat (L.rows.map bare)).flatten ∧
        L'.padIndices = L.padIndices ++
          List.replicate ((BitVec.ofNat 32 count - 1).toNat * L.rows.length) none ∧
        L'.repeatRows = (BitVec.ofNat 32 count).toInt ∧
        L'.nPad = L.nPad + (BitVec.ofNat 32 count - 1).toNat * (L.rows.map Row.nPad).sum ∧
        L'.rows.take L.rows.length = L.rows := by
  set L0 : Layout K := { L with repeatRows := (BitVec.ofNat 32 count).toInt } with hL0
  have hw0 : Wf xMin xMax yMin L0 := ⟨hw.1, hw.2, hw.3, hw.4, hw.5, hw.6⟩
  obtain ⟨L', e, hw', hb, ht, hp, hr, hn⟩ :=
    repeatLoop_spec L.rows.length (BitVec.ofNat 32 count - 1).toNat hw0 le_rfl
  refine ⟨L', ?_, hw', ?_, hp, hr, ?_, ?_⟩
  · unfold repeatRows
    rw [if_neg (not_lt.2 h)]
    exact e
  · rw [hb]; simp [hL0]
  · rw [hn]; simp [hL0]
  · rw [ht]; simp [hL0]

theorem wf_repeatRows {xMin xMax yMin : K} {L : Layout K} (hw : Wf xMin xMax yMin L) (count : ℕ) :
    Wf xMin xMax yMin (repeatRows L count).1 := by
  rcases le_or_gt L.repeatRows 0 with h | h
  · obtain ⟨L', e, hw', -⟩ := repeatRows_spec hw count h
    rw [e]; exact hw'
  · unfold repeatRows
    rw [if_pos h]; exact hw

theorem getPadsInRow_cases (L : Layout K) (row : ℤ) :
    (getPadsInRow L row).1 = L ∨
    ∃ l, (getPadsInRow L row).1 = { L with padIndices := L.padIndices.set row.toNat (some l) } ∧
      0 ≤ row ∧ ∃ r, elem L.rows row = some r ∧ buildPads L row r.nPad.toNat = .ok l ∧
      (getPadsInRow L row).2 = .ok l := by
  unfold getPadsInRow
  split
  · left; rfl
  · left; rfl
  · rename_i h0
    split
    · left; rfl
    · rename_i r hr
      split
      · rename_i l hl
        right
        exact ⟨l, rfl, (elem_range hr).1, r, hr, hl, rfl⟩
      · left; rfl
      · left; rfl
      · left; rfl

theorem wf_step {xMin xMax yMin : K} {L : Layout K} (hw : Wf xMin xMax yMin L) (op : Op K) :
    Wf xMin xMax yMin (step L op) := by
  cases op with
  | addRow => exact wf_addRow hw ..
  | repeatRows c => exact wf_repeatRows hw c
  | getPadsInRow r =>
    show Wf xMin xMax yMin (getPadsInRow L r).1
    rcases getPadsInRow_cases L r with e | ⟨l, e, -⟩
    · rw [e]; exact hw
    · rw [e]; exact ⟨hw.1, hw.2, hw.3, hw.4, hw.5, hw.6⟩

theorem wf_run (xMin xMax yMin : K) (h : List (Op K)) : Wf xMin xMax yMin (run xMin xMax yMin h) := by
  induction h using List.reverseRecOn with
  | nil => exact wf_new xMin xMax yMin
  | append_singleton h op ih =>
    unfold run at ih ⊢
    rw [List.foldl_append]
    exact wf_step ih op

end Gear.Rect
