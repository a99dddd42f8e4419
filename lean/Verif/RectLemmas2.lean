/-
Helper lemmas for rectangular pad layouts: pad indices, pad lists, boxes, the row search.
-/
import Verif.RectLemmas

set_option autoImplicit false
set_option linter.unusedSectionVars false

namespace Gear.Rect

open PadIndex Spec

variable {K : Type} [Field K] [LinearOrder K] [IsStrictOrderedRing K] [FloorRing K]

/-! ### pad indices -/

theorem getPadIndex_of {L : Layout K} {row pad : ℤ} {r : Row K} (h : elem L.rows row = some r)
    (hs : row < 65536) (hp : pad ≤ r.nPad - 1) : getPadIndex L row pad = encode row pad := by
  obtain ⟨h0, h1⟩ := elem_range h
  have hn := ofInt_toNat_of_range h0 hs
  unfold getPadIndex
  rw [if_neg, elemUb_of h]
  · simp only [Res.bind_ok]
    rw [if_neg (by omega)]
  · rintro ⟨-, h2⟩
    rw [hn] at h2; omega

theorem encode_of_getPadIndex {L : Layout K} {row pad i : ℤ} (h : getPadIndex L row pad = .ok i) :
    encode row pad = .ok i ∧ ∃ r, elem L.rows row = some r ∧ pad ≤ r.nPad - 1 := by
  unfold getPadIndex at h
  split_ifs at h with h1
  cases hr : elem L.rows row with
  | none => simp [elemUb, hr] at h
  | some r =>
    rw [elemUb_of hr] at h
    simp only [Res.bind_ok] at h
    split_ifs at h with h2
    exact ⟨h, r, rfl, by omega⟩

theorem getRowNumber_of {L : Layout K} {p : ℤ} (h : rowBits p < L.rows.length) :
    getRowNumber L p = .ok (rowBits p) := by
  have := rowBits_range p
  unfold getRowNumber
  rw [if_neg]; omega

theorem getRowNumber_ok {L : Layout K} {p i : ℤ} (h : getRowNumber L p = .ok i) :
    i = rowBits p ∧ ∃ r, elem L.rows i = some r := by
  unfold getRowNumber at h
  simp only at h
  split_ifs at h with h1
  simp only [Res.ok.injEq] at h
  have := rowBits_range p
  refine ⟨h.symm, ?_⟩
  rw [← h]
  exact elem_isSome (by omega) (by omega)

theorem getRowNumber_elem {L : Layout K} {p : ℤ} {r : Row K} (h : elem L.rows (rowBits p) = some r) :
    getRowNumber L p = .ok (rowBits p) := getRowNumber_of (elem_range h).2

/-- Box of a pad in terms of the row table. -/
theorem hasBox_of {L : Layout K} {p : ℤ} {r : Row K} (h : elem L.rows (rowBits p) = some r) :
    HasBox L p (L.xMin + r.leftOffset + padBits p * r.widthPerPad + r.widthPerPad / 2, r.center)
      r.padWidth r.padHeight := by
  have hn := getRowNumber_elem h
  refine ⟨?_, ?_, ?_⟩
  · simp [getPadCenter, hn, elemUb_of h, getPadNumber]
  · simp [getPadWidth, hn, elemUb_of h]
  · simp [getPadHeight, hn, elemUb_of h]

theorem hasBox_inv {L : Layout K} {p : ℤ} {c : K × K} {w h : K} (hb : HasBox L p c w h) :
    ∃ r, elem L.rows (rowBits p) = some r ∧
      c = (L.xMin + r.leftOffset + padBits p * r.widthPerPad + r.widthPerPad / 2, r.center) ∧
      w = r.padWidth ∧ h = r.padHeight := by
  cases hr : elem L.rows (rowBits p) with
  | none =>
    obtain ⟨h1, -, -⟩ := hb
    cases hn : getRowNumber L p with
    | ok i =>
      obtain ⟨rfl, r, hr'⟩ := getRowNumber_ok hn
      rw [hr] at hr'; cases hr'
    | throw e => simp [getPadCenter, hn] at h1
    | ub => simp [getPadCenter, hn] at h1
  | some r =>
    have h2 := hasBox_of hr
    obtain ⟨a1, a2, a3⟩ := hb
    obtain ⟨b1, b2, b3⟩ := h2
    rw [b1] at a1; rw [b2] at a2; rw [b3] at a3
    refine ⟨r, rfl, ?_, ?_, ?_⟩
    · exact (Res.ok.inj a1).symm
    · exact (Res.ok.inj a2).symm
    · exact (Res.ok.inj a3).symm

theorem isInsidePad_of {L : Layout K} {x y : K} {p : ℤ} {r : Row K}
    (h : elem L.rows (rowBits p) = some r) :
    isInsidePad L x y p = .ok (decide
      (|x - (L.xMin + r.leftOffset + padBits p * r.widthPerPad + r.widthPerPad / 2)| ≤ r.padWidth / 2 ∧
        |y - r.center| ≤ r.padHeight / 2)) := by
  unfold isInsidePad
  simp only [getRowNumber_elem h, Res.bind_ok, elemUb_of h, Res.pure_eq]
  refine congrArg Res.ok (decide_eq_decide.2 ?_)
  rw [abs_le, abs_le]
  simp only [getPadNumber]
  constructor
  · rintro ⟨h1, h2, h3, h4⟩
    refine ⟨⟨?_, ?_⟩, ⟨?_, ?_⟩⟩ <;> linarith
  · rintro ⟨⟨h1, h2⟩, ⟨h3, h4⟩⟩
    refine ⟨?_, ?_, ?_, ?_⟩ <;> linarith

theorem isInsidePad_iff (L : Layout K) (x y : K) (p : ℤ) :
    isInsidePad L x y p = .ok true ↔ InPad L x y p := by
  constructor
  · intro h
    cases hr : elem L.rows (rowBits p) with
    | none =>
      unfold isInsidePad at h
      cases hn : getRowNumber L p with
      | ok i =>
        obtain ⟨rfl, r, hr'⟩ := getRowNumber_ok hn
        rw [hr] at hr'; cases hr'
      | throw e => simp [hn] at h
      | ub => simp [hn] at h
    | some r =>
      rw [isInsidePad_of hr] at h
      simp only [Res.ok.injEq, decide_eq_true_eq] at h
      exact ⟨_, _, _, hasBox_of hr, h.1, h.2⟩
  · rintro ⟨c, w, h, hb, h1, h2⟩
    obtain ⟨r, hr, rfl, rfl, rfl⟩ := hasBox_inv hb
    rw [isInsidePad_of hr]
    simp [h1, h2]

/-! ### pad lists -/

theorem buildPads_of {L : Layout K} {row : ℤ} {r : Row K} (h : elem L.rows row = some r)
    (hs : row < 65536) (k : ℕ) (hk : (k : ℤ) ≤ r.nPad) :
    ∃ l, buildPads L row k = .ok l ∧ l.length = k ∧
      ∀ (j : ℕ) (p : ℤ), l[j]? = some p → getPadIndex L row j = .ok p := by
  induction k with
  | zero => exact ⟨[], rfl, rfl, by simp⟩
  | succ k ih =>
    obtain ⟨l, hl, hlen, hget⟩ := ih (by push_cast at hk; omega)
    have hidx := getPadIndex_of h hs (pad := (k : ℤ)) (by push_cast at hk; omega)
    obtain ⟨i, hi⟩ := encode_isOk (row := row) (k : ℤ) (elem_range h).1 hs
    rw [hi] at hidx
    refine ⟨l ++ [i], by simp [buildPads, hl, hidx], by simp [hlen], ?_⟩
    intro j p hj
    rcases lt_trichotomy j l.length with h1 | h1 | h1
    · rw [List.getElem?_append_left h1] at hj
      exact hget j p hj
    · subst h1
      simp at hj
      rw [hlen, hidx, hj]
    · rw [List.getElem?_eq_none (by simp; omega)] at hj
      cases hj

theorem buildPads_ok {L : Layout K} {row : ℤ} (k : ℕ) : ∀ {l}, buildPads L row k = .ok l →
    l.length = k ∧ ∀ (j : ℕ) (p : ℤ), l[j]? = some p → getPadIndex L row j = .ok p := by
  induction k with
  | zero => intro l h; simp [buildPads] at h; subst h; simp
  | succ k ih =>
    intro l h
    simp only [buildPads] at h
    cases h1 : buildPads L row k with
    | throw e => simp [h1] at h
    | ub => simp [h1] at h
    | ok l1 =>
      cases h2 : getPadIndex L row k with
      | throw e => simp [h1, h2] at h
      | ub => simp [h1, h2] at h
      | ok i =>
        simp [h1, h2] at h
        subst h
        obtain ⟨hlen, hget⟩ := ih h1
        refine ⟨by simp [hlen], ?_⟩
        intro j p hj
        rcases lt_trichotomy j l1.length with h3 | h3 | h3
        · rw [List.getElem?_append_left h3] at hj
          exact hget j p hj
        · subst h3
          simp at hj
          rw [hlen, h2, hj]
        · rw [List.getElem?_eq_none (by simp; omega)] at hj
          cases hj

/-- Invariant of the lazily built pad lists. -/
structure Lists (L : Layout K) : Prop where
  len : L.padIndices.length = L.rows.length
  cached : ∀ (n : ℕ) (l : List ℤ), L.padIndices[n]? = some (some l) → ∃ r, L.rows[n]? = some r ∧
    l.length = r.nPad.toNat ∧ ∀ (j : ℕ) (p : ℤ), l[j]? = some p → encode n j = .ok p

theorem lists_new (xMin xMax yMin : K) : Lists (new xMin xMax yMin) := ⟨rfl, by simp [new]⟩

theorem lists_push1 {L : Layout K} (h : Lists L) (r : Row K) : Lists (push1 r L) := by
  refine ⟨by simp [push1, h.len], ?_⟩
  intro n l hn
  simp only [push1] at hn ⊢
  rcases lt_or_ge n L.padIndices.length with h1 | h1
  · rw [List.getElem?_append_left h1] at hn
    obtain ⟨r', hr', hh⟩ := h.cached n l hn
    exact ⟨r', by rw [List.getElem?_append_left (by rw [← h.len]; exact h1)]; exact hr', hh⟩
  · rw [List.getElem?_append_right h1] at hn
    cases hk : n - L.padIndices.length with
    | zero => rw [hk] at hn; simp at hn
    | succ k => rw [hk] at hn; simp at hn

theorem lists_pushRows (row : Row K) (n : ℕ) : ∀ {L : Layout K}, Lists L → Lists (pushRows row n L) := by
  induction n with
  | zero => intro L h; exact h
  | succ n ih => intro L h; rw [pushRows_succ]; exact ih (lists_push1 h row)

theorem lists_addRow {L : Layout K} (hl : Lists L) (nRow nPad : ℤ) (w h rh l r : K) :
    Lists (addRow L nRow nPad w h rh l r).1 := by
  rcases addRow_cases L nRow nPad w h rh l r with ⟨e, -⟩ | ⟨e, -⟩ | ⟨e, -⟩ | ⟨e, -, hr⟩
  · rw [e]; exact hl
  · rw [e]; exact hl
  · rw [e]; exact ⟨hl.1, hl.2⟩
  · rw [e]
    have h0 : Lists { L with nPad := L.nPad + |nRow| * |nPad| } := ⟨hl.1, hl.2⟩
    have h1 := lists_pushRows (newRow L nPad w h rh l r) nRow.toNat h0
    exact ⟨h1.1, h1.2⟩

theorem lists_repeatOnce (nRow k : ℕ) : ∀ {L : Layout K}, Lists L → Lists (repeatOnce nRow k L).1 := by
  induction k with
  | zero => intro L h; exact h
  | succ k ih =>
    intro L h
    unfold repeatOnce
    split
    · exact h
    · rename_i r hr
      have h1 := lists_addRow h 1 r.nPad r.padWidth r.padHeight r.height r.leftOffset r.rightOffset
      split
      · rename_i L1 he
        rw [he] at h1
        exact ih h1
      · rename_i L1 e hne he
        rw [he] at h1
        exact h1

theorem lists_repeatLoop (nRow n : ℕ) : ∀ {L : Layout K}, Lists L → Lists (repeatLoop nRow n L).1 := by
  induction n with
  | zero => intro L h; exact h
  | succ n ih =>
    intro L h
    unfold repeatLoop
    have h1 := lists_repeatOnce nRow nRow h
    split
    · rename_i L1 he
      rw [he] at h1
      exact ih h1
    · rename_i L1 e hne he
      rw [he] at h1
      exact h1

theorem lists_step {L : Layout K} (hl : Lists L) (op : Op K) : Lists (step L op) := by
  cases op with
  | addRow => exact lists_addRow hl ..
  | repeatRows c =>
    show Lists (repeatRows L c).1
    unfold repeatRows
    split_ifs with h
    · exact hl
    · exact lists_repeatLoop _ _ ⟨hl.1, hl.2⟩
  | getPadsInRow row =>
    show Lists (getPadsInRow L row).1
    rcases getPadsInRow_cases L row with e | ⟨l, e, h0, r, hr, hb, -⟩
    · rw [e]; exact hl
    · rw [e]
      refine ⟨by simp [hl.len], ?_⟩
      intro n l' hn
      simp only [List.getElem?_set] at hn
      split_ifs at hn with h1 h2
      · simp at hn
        subst hn
        obtain ⟨hlen, hget⟩ := buildPads_ok _ hb
        obtain ⟨m, rfl, hm⟩ := elem_eq_some.1 hr
        simp at h1
        subst h1
        refine ⟨r, hm, hlen, ?_⟩
        intro j p hj
        exact (encode_of_getPadIndex (hget j p hj)).1
      · exact hl.cached n l' hn

theorem lists_run (xMin xMax yMin : K) (h : List (Op K)) : Lists (run xMin xMax yMin h) := by
  induction h using List.reverseRecOn with
  | nil => exact lists_new xMin xMax yMin
  | append_singleton h op ih =>
    unfold run at ih ⊢
    rw [List.foldl_append]
    exact lists_step ih op

theorem getPadsInRow_of {L : Layout K} (hl : Lists L) {row : ℤ} {r : Row K}
    (h : elem L.rows row = some r) (hs : row < 65536) :
    ∃ l, (getPadsInRow L row).2 = .ok l ∧ l.length = r.nPad.toNat ∧
      ∀ (j : ℕ) (p : ℤ), l[j]? = some p → getPadIndex L row j = .ok p := by
  obtain ⟨n, rfl, hn⟩ := elem_eq_some.1 h
  have hlt : n < L.padIndices.length := by
    rw [hl.len]; exact (List.getElem?_eq_some_iff.1 hn).1
  have hpi : elem L.padIndices (n : ℤ) = some L.padIndices[n] := by
    rw [elem_nat]; exact List.getElem?_eq_getElem hlt
  unfold getPadsInRow
  cases hc : L.padIndices[n] with
  | some l =>
    rw [hpi, hc]
    obtain ⟨r', hr', hlen, hget⟩ := hl.cached n l (by rw [List.getElem?_eq_getElem hlt, hc])
    rw [hn] at hr'; cases hr'
    refine ⟨l, rfl, hlen, ?_⟩
    intro j p hj
    have hjl := (List.getElem?_eq_some_iff.1 hj).1
    rw [getPadIndex_of h hs (by omega)]
    exact hget j p hj
  | none =>
    rw [hpi, hc]
    simp only [h]
    rcases Int.lt_or_le r.nPad 0 with h0 | h0
    · exact ⟨[], by simp [Int.toNat_of_nonpos h0.le, buildPads],
        by simp [Int.toNat_of_nonpos h0.le], by simp⟩
    · obtain ⟨l, hb, hlen, hget⟩ := buildPads_of h hs r.nPad.toNat (by omega)
      rw [hb]; exact ⟨l, rfl, hlen, hget⟩

end Gear.Rect
