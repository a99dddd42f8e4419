/-
Helper lemmas for `getNearestPad` of rectangular pad layouts.
-/
import Verif.RectLemmas2

set_option autoImplicit false
set_option linter.unusedSectionVars false

namespace Gear.Rect

open PadIndex Spec

variable {K : Type} [Field K] [LinearOrder K] [IsStrictOrderedRing K] [FloorRing K]

/-! ### positions of the rows -/

theorem hsum_nonneg {xMin xMax : K} {rows : List (Row K)} (h : ∀ r ∈ rows, RowOk xMin xMax r) :
    0 ≤ hsum rows := by
  induction rows with
  | nil => simp
  | cons a l ih =>
    have h1 := ih fun r hr => h r (List.mem_cons_of_mem _ hr)
    have h2 := (h a (by simp)).height
    have h3 := (h a (by simp)).padHeight
    rw [hsum_cons]; linarith

theorem hsum_take_mono {xMin xMax : K} {rows : List (Row K)} (h : ∀ r ∈ rows, RowOk xMin xMax r)
    {i j : ℕ} (hij : i ≤ j) : hsum (rows.take i) ≤ hsum (rows.take j) := by
  have e : rows.take j = rows.take i ++ (rows.drop i).take (j - i) := by
    have h1 : j = i + (j - i) := by omega
    conv_lhs => rw [h1]
    exact List.take_add
  rw [e, hsum_append]
  have : 0 ≤ hsum ((rows.drop i).take (j - i)) :=
    hsum_nonneg (xMin := xMin) (xMax := xMax) fun r hr =>
      h r (List.mem_of_mem_drop (List.mem_of_mem_take hr))
  linarith

theorem hsum_take_succ {rows : List (Row K)} {i : ℕ} {r : Row K} (h : rows[i]? = some r) :
    hsum (rows.take (i + 1)) = hsum (rows.take i) + r.height := by
  rw [List.take_succ, h]; simp

theorem hsum_take_le {xMin xMax : K} {rows : List (Row K)} (h : ∀ r ∈ rows, RowOk xMin xMax r)
    (i : ℕ) : hsum (rows.take i) ≤ hsum rows := by
  rcases le_or_gt i rows.length with h1 | h1
  · have := hsum_take_mono h h1
    simpa using this
  · rw [List.take_of_length_le h1.le]

variable {xMin xMax yMin : K} {L : Layout K}

/-- Lower edge of row `i`. -/
def bot (yMin : K) (L : Layout K) (i : ℕ) : K := yMin + hsum (L.rows.take i)

theorem center_eq (hw : Wf xMin xMax yMin L) {i : ℕ} {r : Row K} (h : L.rows[i]? = some r) :
    r.center = bot yMin L i + r.height / 2 := hw.stacked i r h

theorem bot_succ {i : ℕ} {r : Row K} (h : L.rows[i]? = some r) :
    bot yMin L (i + 1) = bot yMin L i + r.height := by
  unfold bot; rw [hsum_take_succ h]; ring

theorem bot_mono (hw : Wf xMin xMax yMin L) {i j : ℕ} (h : i ≤ j) :
    bot yMin L i ≤ bot yMin L j := by
  unfold bot; have := hsum_take_mono hw.rowOk h; linarith

theorem bot_zero : bot yMin L 0 = yMin := by simp [bot]

theorem bot_length (hw : Wf xMin xMax yMin L) : bot yMin L L.rows.length = L.yMax := by
  simp [bot, hw.eYMax]

theorem bot_le_yMax (hw : Wf xMin xMax yMin L) (i : ℕ) : bot yMin L i ≤ L.yMax := by
  unfold bot; have := hsum_take_le hw.rowOk i; rw [hw.eYMax]; linarith

theorem yMin_le_bot (hw : Wf xMin xMax yMin L) (i : ℕ) : yMin ≤ bot yMin L i := by
  have := bot_mono hw (Nat.zero_le i); rwa [bot_zero] at this

/-- The pads of row `r` reach the height `y`. -/
def Covers (r : Row K) (y : K) : Prop := |y - r.center| ≤ r.padHeight / 2

theorem covers_bounds (hw : Wf xMin xMax yMin L) {i : ℕ} {r : Row K} (h : L.rows[i]? = some r) {y : K}
    (hc : Covers r y) : bot yMin L i ≤ y ∧ y ≤ bot yMin L (i + 1) := by
  have h1 := center_eq hw h
  have h2 := (hw.rowOk r (List.mem_of_getElem? h)).height
  rw [bot_succ h]
  obtain ⟨h3, h4⟩ := abs_le.1 hc
  constructor <;> linarith

/-- A pass in the gap of a row that shares its border with covering pads moves to pads that cover. -/
theorem gap_covers (hw : Wf xMin xMax yMin L) {i : ℕ} {r : Row K} (h : L.rows[i]? = some r) {y : K}
    (hn : ¬ Covers r y) (hh : |y - r.center| ≤ r.height / 2) {k : ℕ} {q : Row K}
    (hk : L.rows[k]? = some q) (hc : Covers q y) :
    (y - r.center < 0 → ∃ j r', i = j + 1 ∧ L.rows[j]? = some r' ∧ Covers r' y) ∧
    (¬ y - r.center < 0 → ∃ r', L.rows[i + 1]? = some r' ∧ Covers r' y) := by
  have hcen := center_eq hw h
  have hcb := covers_bounds hw hk hc
  obtain ⟨ha, hb⟩ := abs_le.1 hh
  have hbs := bot_succ (yMin := yMin) h
  have hrok := hw.rowOk r (List.mem_of_getElem? h)
  have hpos : 0 < r.height := by
    rcases lt_or_eq_of_le (hrok.padHeight.trans hrok.height) with h1 | h1
    · exact h1
    · exfalso; apply hn
      have h2 : |y - r.center| ≤ 0 := by rw [← h1] at hh; simpa using hh
      exact h2.trans (by have := hrok.padHeight; linarith)
  have hne : k ≠ i := by
    rintro rfl
    rw [h] at hk; cases hk; exact hn hc
  rcases lt_or_gt_of_ne hne with hlt | hgt
  · -- the covering row is below
    have h1 : bot yMin L (k + 1) ≤ bot yMin L i := bot_mono hw hlt
    have hy : y = bot yMin L i := by linarith [hcb.2]
    constructor
    · intro _
      obtain ⟨j, rfl⟩ : ∃ j, i = j + 1 := ⟨i - 1, by omega⟩
      have hjl : j < L.rows.length := by
        have := (List.getElem?_eq_some_iff.1 h).1; omega
      refine ⟨j, _, rfl, List.getElem?_eq_getElem hjl, ?_⟩
      have hj := List.getElem?_eq_getElem hjl
      rcases Nat.lt_or_ge k j with hkj | hkj
      · -- row j has no height
        have hjok := hw.rowOk _ (List.mem_of_getElem? hj)
        have h3 : bot yMin L (k + 1) ≤ bot yMin L j := bot_mono hw hkj
        have h4 := bot_succ (yMin := yMin) hj
        have h5 := hjok.padHeight
        have h6 := hjok.height
        have h7 := center_eq hw hj
        have h8 : L.rows[j].height = 0 := by linarith [hcb.2]
        unfold Covers
        have h9 : y - L.rows[j].center = 0 := by rw [h7, h8]; linarith
        rw [h9]; simp; linarith
      · have : k = j := by omega
        subst this
        rw [hj] at hk; cases hk; exact hc
    · intro h2; exfalso; linarith
  · have h1 : bot yMin L (i + 1) ≤ bot yMin L k := bot_mono hw hgt
    have hy : y = bot yMin L (i + 1) := by linarith [hcb.1]
    constructor
    · intro h2; exfalso; linarith
    · intro _
      have hil : i + 1 < L.rows.length := by
        have := (List.getElem?_eq_some_iff.1 hk).1; omega
      have hj := List.getElem?_eq_getElem hil
      refine ⟨_, hj, ?_⟩
      rcases Nat.lt_or_ge (i + 1) k with hkj | hkj
      · have hjok := hw.rowOk _ (List.mem_of_getElem? hj)
        have h3 : bot yMin L (i + 1 + 1) ≤ bot yMin L k := bot_mono hw hkj
        have h4 := bot_succ (yMin := yMin) hj
        have h5 := hjok.padHeight
        have h6 := hjok.height
        have h7 := center_eq hw hj
        have h8 : L.rows[i + 1].height = 0 := by linarith [hcb.1]
        unfold Covers
        have h9 : y - L.rows[i + 1].center = 0 := by rw [h7, h8]; linarith
        rw [h9]; simp; linarith
      · have : k = i + 1 := by omega
        subst this
        rw [hj] at hk; cases hk; exact hc

/-- The height `y` is not in the gap below the pads of the first row, nor above those of the last. -/
def NoOuterGap (L : Layout K) (y : K) : Prop :=
  (∀ r, L.rows[0]? = some r → r.center - r.padHeight / 2 ≤ y) ∧
  (∀ r, L.rows[L.rows.length - 1]? = some r → y ≤ r.center + r.padHeight / 2)

theorem covers_noOuterGap (hw : Wf xMin xMax yMin L) {k : ℕ} {q : Row K}
    (hk : L.rows[k]? = some q) {y : K} (hc : Covers q y) : NoOuterGap L y := by
  have hkl := (List.getElem?_eq_some_iff.1 hk).1
  have hcb := covers_bounds hw hk hc
  constructor
  · intro r hr
    have hrok := hw.rowOk r (List.mem_of_getElem? hr)
    rcases Nat.eq_zero_or_pos k with rfl | h0
    · rw [hr] at hk; cases hk
      have := (abs_le.1 hc).1; linarith
    · have h1 : bot yMin L 1 ≤ bot yMin L k := bot_mono hw h0
      rw [bot_succ hr] at h1
      have := center_eq hw hr
      linarith [hrok.padHeight, hrok.height]
  · intro r hr
    have hrok := hw.rowOk r (List.mem_of_getElem? hr)
    rcases Nat.lt_or_ge k (L.rows.length - 1) with h0 | h0
    · have h1 : bot yMin L (k + 1) ≤ bot yMin L (L.rows.length - 1) := bot_mono hw h0
      have := center_eq hw hr
      linarith [hrok.padHeight, hrok.height]
    · have : k = L.rows.length - 1 := by omega
      subst this
      rw [hr] at hk; cases hk
      have := (abs_le.1 hc).2; linarith

/-- The row number found next stays inside the table. -/
theorem pass_spec (hw : Wf xMin xMax yMin L) {y : K} (hy0 : yMin ≤ y) (hy1 : y ≤ L.yMax) {i : ℕ}
    {r : Row K} (h : L.rows[i]? = some r) (hgap : NoOuterGap L y) :
    (∃ (j : ℕ) (r' : Row K), pass L y i = .ok (.done j) ∧ L.rows[j]? = some r' ∧
      |y - r.center| ≤ r.height / 2 ∧
      ∀ (k : ℕ) (q : Row K), L.rows[k]? = some q → Covers q y → Covers r' y) ∨
    (∃ (j : ℕ) (r' : Row K), pass L y i = .ok (.next j) ∧ L.rows[j]? = some r' ∧
      ¬ |y - r.center| ≤ r.height / 2) := by
  have hil := (List.getElem?_eq_some_iff.1 h).1
  have hrok := hw.rowOk r (List.mem_of_getElem? h)
  have hcen := center_eq hw h
  have hbs := bot_succ (yMin := yMin) h
  have hel : elemUb L.rows (i : ℤ) = .ok r := elemUb_of (by rw [elem_nat]; exact h)
  unfold pass
  simp only [hel, Res.bind_ok]
  by_cases h1 : |y - r.center| ≤ r.padHeight / 2
  · left
    refine ⟨i, r, by rw [if_pos h1]; rfl, h, ?_, fun _ _ _ _ => h1⟩
    have := hrok.height; linarith
  · rw [if_neg h1]
    by_cases h2 : |y - r.center| ≤ r.height / 2
    · rw [if_pos h2]
      left
      by_cases h3 : y - r.center < 0
      · -- look below
        have hi0 : i ≠ 0 := by
          rintro rfl
          have := hgap.1 r h
          apply h1
          rw [abs_le]; constructor <;> linarith [hrok.padHeight]
        obtain ⟨j, rfl⟩ : ∃ j, i = j + 1 := ⟨i - 1, by omega⟩
        have hjl : j < L.rows.length := by omega
        have hj := List.getElem?_eq_getElem hjl
        have hel2 : elemUb L.rows (((j + 1 : ℕ) : ℤ) - 1) = .ok L.rows[j] := by
          have : ((j + 1 : ℕ) : ℤ) - 1 = (j : ℕ) := by push_cast; ring
          rw [this]; exact elemUb_of (by rw [elem_nat]; exact hj)
        simp only [h3, if_true, hel2, Res.bind_ok, Res.pure_eq]
        have hcov : ∀ (k : ℕ) (q : Row K), L.rows[k]? = some q → Covers q y → Covers L.rows[j] y := by
          intro k q hk hc
          obtain ⟨j', r', e, hr', hcr⟩ := (gap_covers hw h h1 h2 hk hc).1 h3
          have : j' = j := by omega
          subst this
          rw [hj] at hr'; cases hr'; exact hcr
        split_ifs with h4
        · exact ⟨j, _, by congr 2; push_cast; ring, hj, h2, hcov⟩
        · refine ⟨j + 1, r, rfl, h, h2, ?_⟩
          intro k q hk hc
          exfalso; apply h4
          have h5 := hcov k q hk hc
          unfold Covers at h5
          linarith [not_le.1 h1]
      · have hi0 : i + 1 < L.rows.length := by
          by_contra hlt
          have hieq : i = L.rows.length - 1 := by omega
          have := hgap.2 r (by rw [← hieq]; exact h)
          apply h1
          rw [abs_le]; constructor <;> linarith [hrok.padHeight]
        have hj := List.getElem?_eq_getElem hi0
        have hel2 : elemUb L.rows ((i : ℤ) + 1) = .ok L.rows[i + 1] := by
          have : (i : ℤ) + 1 = ((i + 1 : ℕ) : ℤ) := by push_cast; ring
          rw [this]; exact elemUb_of (by rw [elem_nat]; exact hj)
        simp only [h3, if_false, hel2, Res.bind_ok, Res.pure_eq]
        have hcov : ∀ (k : ℕ) (q : Row K), L.rows[k]? = some q → Covers q y →
            Covers L.rows[i + 1] y := by
          intro k q hk hc
          obtain ⟨r', hr', hcr⟩ := (gap_covers hw h h1 h2 hk hc).2 h3
          rw [hj] at hr'; cases hr'; exact hcr
        split_ifs with h4
        · exact ⟨i + 1, _, by push_cast; rfl, hj, h2, hcov⟩
        · refine ⟨i, r, rfl, h, h2, ?_⟩
          intro k q hk hc
          exfalso; apply h4
          have h5 := hcov k q hk hc
          unfold Covers at h5
          linarith [not_le.1 h1]
    · rw [if_neg h2]
      right
      by_cases h3 : y - r.center < 0
      · simp only [h3, if_true]
        have hlt : y < bot yMin L i := by
          rw [abs_of_neg h3] at h2
          linarith [not_le.1 h2]
        have hi0 : 0 < i := by
          rcases Nat.eq_zero_or_pos i with h0 | h0
          · subst h0; rw [bot_zero] at hlt; linarith
          · exact h0
        have hD : r.center - L.yMin - r.height / 2 = bot yMin L i - yMin := by
          rw [hcen, hw.eYMin]; ring
        have hO : y - r.center + r.height / 2 = y - bot yMin L i := by rw [hcen]; ring
        have hDpos : 0 < bot yMin L i - yMin := by linarith
        rw [hD, hO, if_neg hDpos.ne']
        have hiK : (0 : K) < ((i : ℤ) : K) := by exact_mod_cast hi0
        have hneg : ((i : ℤ) : K) * ((y - bot yMin L i) / (bot yMin L i - yMin)) < 0 :=
          mul_neg_of_pos_of_neg hiK (div_neg_of_neg_of_pos (by linarith) hDpos)
        have hge : -((i : ℤ) : K) ≤ ((i : ℤ) : K) * ((y - bot yMin L i) / (bot yMin L i - yMin)) := by
          have : -1 ≤ (y - bot yMin L i) / (bot yMin L i - yMin) := by
            rw [le_div_iff₀ hDpos]; linarith
          nlinarith
        simp only [hneg, if_true]
        have hf1 : ⌊((i : ℤ) : K) * ((y - bot yMin L i) / (bot yMin L i - yMin))⌋ < 0 := by
          rw [Int.floor_lt]; exact_mod_cast hneg
        have hf2 : -(i : ℤ) ≤ ⌊((i : ℤ) : K) * ((y - bot yMin L i) / (bot yMin L i - yMin))⌋ := by
          rw [Int.le_floor]; push_cast; exact_mod_cast hge
        generalize ⌊((i : ℤ) : K) * ((y - bot yMin L i) / (bot yMin L i - yMin))⌋ = f at hf1 hf2 ⊢
        rw [if_neg hf1.ne]
        refine ⟨((i : ℤ) + f).toNat, _, ?_, List.getElem?_eq_getElem (by omega), h2⟩
        simp only [Res.pure_eq]
        congr 2; omega
      · simp only [h3, if_false]
        have hlt : bot yMin L (i + 1) < y := by
          rw [abs_of_nonneg (not_lt.1 h3)] at h2
          linarith [not_le.1 h2]
        have hi0 : i + 1 < L.rows.length := by
          by_contra hge
          have : i + 1 = L.rows.length := by omega
          rw [this, bot_length hw] at hlt
          linarith
        have hD : L.yMax - r.center - r.height / 2 = L.yMax - bot yMin L (i + 1) := by
          rw [hcen, hbs]; ring
        have hO : y - r.center - r.height / 2 = y - bot yMin L (i + 1) := by rw [hcen, hbs]; ring
        have hDpos : 0 < L.yMax - bot yMin L (i + 1) := by linarith
        rw [hD, hO, if_neg hDpos.ne']
        have hmpos : (0 : ℤ) < (L.rows.length : ℤ) - i - 1 := by omega
        generalize hm : (L.rows.length : ℤ) - (i : ℤ) - 1 = m at hmpos ⊢
        have hiK : (0 : K) < (m : K) := by exact_mod_cast hmpos
        have hpos : 0 < (m : K) * ((y - bot yMin L (i + 1)) / (L.yMax - bot yMin L (i + 1))) :=
          mul_pos hiK (div_pos (by linarith) hDpos)
        have hge : (m : K) * ((y - bot yMin L (i + 1)) / (L.yMax - bot yMin L (i + 1))) ≤ (m : K) := by
          have : (y - bot yMin L (i + 1)) / (L.yMax - bot yMin L (i + 1)) ≤ 1 := by
            rw [div_le_one hDpos]; linarith
          nlinarith
        rw [if_neg (not_lt.2 hpos.le)]
        have hf1 : 0 < ⌈(m : K) * ((y - bot yMin L (i + 1)) / (L.yMax - bot yMin L (i + 1)))⌉ :=
          Int.ceil_pos.2 hpos
        have hf2 : ⌈(m : K) * ((y - bot yMin L (i + 1)) / (L.yMax - bot yMin L (i + 1)))⌉ ≤ m :=
          Int.ceil_le.2 hge
        generalize ⌈(m : K) * ((y - bot yMin L (i + 1)) / (L.yMax - bot yMin L (i + 1)))⌉ = f
          at hf1 hf2 ⊢
        rw [if_neg hf1.ne']
        refine ⟨((i : ℤ) + f).toNat, _, ?_, List.getElem?_eq_getElem (by omega), h2⟩
        simp only [Res.pure_eq]
        congr 2; omega

/-- Every outcome of the row search is a row of the layout, and one whose pads cover `y` if there is
any such row. -/
theorem search_safe (hw : Wf xMin xMax yMin L) {y : K} (hy0 : yMin ≤ y) (hy1 : y ≤ L.yMax)
    (hgap : NoOuterGap L y) (fuel : ℕ) : ∀ {i : ℕ} {r : Row K}, L.rows[i]? = some r →
    search L y fuel i = none ∨
    ∃ (j : ℕ) (r' : Row K), search L y fuel i = some (.ok j) ∧ L.rows[j]? = some r' ∧
      ∀ (k : ℕ) (q : Row K), L.rows[k]? = some q → Covers q y → Covers r' y := by
  induction fuel with
  | zero => intro i r h; left; rfl
  | succ fuel ih =>
    intro i r h
    rcases pass_spec hw hy0 hy1 h hgap with ⟨j, r', hp, hj, -, hc⟩ | ⟨j, r', hp, hj, -⟩
    · right
      exact ⟨j, r', by simp only [search, hp], hj, hc⟩
    · have := ih hj
      simpa only [search, hp] using this

theorem clamp_mem {lo hi : K} (h : lo ≤ hi) (v : K) : lo ≤ clamp lo hi v ∧ clamp lo hi v ≤ hi := by
  unfold clamp
  simp only
  split_ifs <;> constructor <;> linarith

theorem clamp_id {lo hi v : K} (h1 : lo ≤ v) (h2 : v ≤ hi) : clamp lo hi v = v := by
  unfold clamp
  simp only
  rw [if_neg (not_lt.2 h1), if_neg (not_lt.2 h2)]

theorem clamp_eq {lo hi : K} (h : lo ≤ hi) (v : K) : clamp lo hi v = max lo (min hi v) := by
  unfold clamp
  simp only
  rcases lt_or_ge v lo with h1 | h1
  · rw [if_pos h1, if_neg (not_lt.2 h), min_eq_right (h1.le.trans h), max_eq_left h1.le]
  · rw [if_neg (not_lt.2 h1)]
    split_ifs with h2
    · rw [min_eq_left h2.le, max_eq_right h]
    · rw [min_eq_right (not_lt.1 h2), max_eq_right h1]

theorem rows_ne_nil (hw : Wf xMin xMax yMin L) (h : yMin < L.yMax) : 0 < L.rows.length := by
  rcases Nat.eq_zero_or_pos L.rows.length with h0 | h0
  · have : L.rows = [] := List.length_eq_zero_iff.1 h0
    rw [hw.eYMax, this] at h; simp at h
  · exact h0

theorem startRow_spec (hw : Wf xMin xMax yMin L) (hpos : yMin < L.yMax) {y : K} (hy0 : yMin ≤ y)
    (hy1 : y ≤ L.yMax) : ∃ (i : ℕ) (r : Row K), startRow L y = .ok i ∧ L.rows[i]? = some r := by
  have hn := rows_ne_nil hw hpos
  have hd : 0 < L.yMax - L.yMin := by rw [hw.eYMin]; linarith
  unfold startRow
  rw [if_neg hd.ne']
  have hn1 : (0 : K) ≤ (L.rows.length : K) - 1 := by
    have : (1 : K) ≤ (L.rows.length : K) := by exact_mod_cast hn
    linarith
  have h0 : 0 ≤ ((L.rows.length : K) - 1) * (y - L.yMin) / (L.yMax - L.yMin) := by
    apply div_nonneg _ hd.le
    apply mul_nonneg hn1
    rw [hw.eYMin]; linarith
  have h1 : ((L.rows.length : K) - 1) * (y - L.yMin) / (L.yMax - L.yMin) ≤ (L.rows.length : K) - 1 := by
    rw [div_le_iff₀ hd]
    apply mul_le_mul_of_nonneg_left _ hn1
    linarith
  generalize ((L.rows.length : K) - 1) * (y - L.yMin) / (L.yMax - L.yMin) = v at h0 h1
  have h2 : 0 ≤ roundInt v := by
    unfold roundInt; rw [if_pos h0]
    exact Int.floor_nonneg.2 (by linarith)
  have h3 : roundInt v < L.rows.length := by
    unfold roundInt; rw [if_pos h0, Int.floor_lt]
    push_cast; linarith
  refine ⟨(roundInt v).toNat, _, ?_, List.getElem?_eq_getElem (by omega)⟩
  congr 1; omega

theorem truncInt_nonneg {v : K} (h : 0 ≤ v) : truncInt v = ⌊v⌋ := by
  unfold truncInt; rw [if_pos h]

theorem widthPerPad_mul (hw : Wf xMin xMax yMin L) {r : Row K} (h : r ∈ L.rows) :
    (r.nPad : K) * r.widthPerPad = (xMax - r.rightOffset) - (xMin + r.leftOffset) := by
  have hr := hw.rowOk r h
  have : (0 : K) < (r.nPad : K) := by exact_mod_cast hr.nPad
  rw [hr.pitch]; field_simp

theorem padWidth_le (hw : Wf xMin xMax yMin L) {r : Row K} (h : r ∈ L.rows) :
    r.padWidth ≤ r.widthPerPad := by
  have hr := hw.rowOk r h
  have h1 : (0 : K) < (r.nPad : K) := by exact_mod_cast hr.nPad
  have h2 := widthPerPad_mul hw h
  have h3 := hr.fits
  rw [← h2] at h3
  exact le_of_mul_le_mul_left h3 h1

/-- The pad of a row the code chooses for `x`. -/
def padOf (L : Layout K) (row : Row K) (x : K) : ℤ :=
  if x ≤ L.xMin + row.leftOffset then 0
  else if x ≥ L.xMax - row.rightOffset then row.nPad - 1
  else truncInt ((x - (L.xMin + row.leftOffset)) / row.widthPerPad)

theorem padOf_spec (hw : Wf xMin xMax yMin L) {r : Row K} (h : r ∈ L.rows) (x : K) :
    0 ≤ padOf L r x ∧ padOf L r x < r.nPad ∧
    ∀ pn : ℤ, 0 ≤ pn → pn < r.nPad →
      |x - (L.xMin + r.leftOffset + pn * r.widthPerPad + r.widthPerPad / 2)| ≤ r.padWidth / 2 →
      |x - (L.xMin + r.leftOffset + (padOf L r x : ℤ) * r.widthPerPad + r.widthPerPad / 2)|
        ≤ r.padWidth / 2 := by
  have hr := hw.rowOk r h
  have hmul := widthPerPad_mul hw h
  have hle := padWidth_le hw h
  have hn : (0 : K) < (r.nPad : K) := by exact_mod_cast hr.nPad
  unfold padOf
  rw [hw.eXMin, hw.eXMax]
  split_ifs with h1 h2
  · refine ⟨le_rfl, hr.nPad, ?_⟩
    intro pn hp0 hp1 hc
    obtain ⟨ha, hb⟩ := abs_le.1 hc
    have hpK : (0 : K) ≤ (pn : K) := by exact_mod_cast hp0
    have hw0 : 0 ≤ r.widthPerPad := hr.padWidth.trans hle
    have : 0 ≤ (pn : K) * r.widthPerPad := mul_nonneg hpK hw0
    rw [abs_le]; push_cast
    constructor <;> linarith
  · refine ⟨by linarith [hr.nPad], by omega, ?_⟩
    intro pn hp0 hp1 hc
    obtain ⟨ha, hb⟩ := abs_le.1 hc
    have hpK : (pn : K) + 1 ≤ (r.nPad : K) := by exact_mod_cast hp1
    have hw0 : 0 ≤ r.widthPerPad := hr.padWidth.trans hle
    have : ((pn : K) + 1) * r.widthPerPad ≤ (r.nPad : K) * r.widthPerPad :=
      mul_le_mul_of_nonneg_right hpK hw0
    rw [abs_le]; push_cast
    constructor <;> linarith
  · have h1' := not_le.1 h1
    have h2' := not_le.1 h2
    have hwpos : 0 < r.widthPerPad := by
      have : 0 < (r.nPad : K) * r.widthPerPad := by rw [hmul]; linarith
      exact (mul_pos_iff_of_pos_left hn).1 this
    have hv0 : 0 ≤ (x - (xMin + r.leftOffset)) / r.widthPerPad := div_nonneg (by linarith) hwpos.le
    have hv1 : (x - (xMin + r.leftOffset)) / r.widthPerPad < r.nPad := by
      rw [div_lt_iff₀ hwpos, hmul]; linarith
    rw [truncInt_nonneg hv0]
    refine ⟨Int.floor_nonneg.2 hv0, Int.floor_lt.2 hv1, ?_⟩
    intro pn hp0 hp1 hc
    have hf1 := Int.floor_le ((x - (xMin + r.leftOffset)) / r.widthPerPad)
    have hf2 := Int.lt_floor_add_one ((x - (xMin + r.leftOffset)) / r.widthPerPad)
    generalize hf : ⌊(x - (xMin + r.leftOffset)) / r.widthPerPad⌋ = f at hf1 hf2 ⊢
    rw [le_div_iff₀ hwpos] at hf1
    rw [div_lt_iff₀ hwpos] at hf2
    obtain ⟨ha, hb⟩ := abs_le.1 hc
    rcases lt_trichotomy pn f with hlt | heq | hgt
    · have hK : (pn : K) + 1 ≤ (f : K) := by exact_mod_cast hlt
      have := mul_le_mul_of_nonneg_right hK hwpos.le
      have hK0 : (f : K) ≥ (pn : K) + 1 := hK
      -- x is at the common border
      have e1 : ((f : K) - pn - 1) * r.widthPerPad ≤ 0 := by nlinarith
      have e2 : r.padWidth = r.widthPerPad := by nlinarith
      have e3 : x - (xMin + r.leftOffset) = (f : K) * r.widthPerPad := by nlinarith
      rw [abs_le]
      constructor <;> linarith
    · subst heq; exact hc
    · exfalso
      have hK : (f : K) + 1 ≤ (pn : K) := by exact_mod_cast hgt
      have := mul_le_mul_of_nonneg_right hK hwpos.le
      nlinarith

/-- The whole of `getNearestPad` after the row has been found. -/
theorem padInRow_spec (hw : Wf xMin xMax yMin L) (hf : Fits L) {j : ℕ} {r : Row K}
    (h : L.rows[j]? = some r) (x : K) :
    ∃ p, padInRow L x j = .ok p ∧ encode j (padOf L r x) = .ok p ∧ rowBits p = j ∧
      padBits p = padOf L r x := by
  have hmem := List.mem_of_getElem? h
  have hel : elem L.rows (j : ℤ) = some r := by rw [elem_nat]; exact h
  have hjl := (List.getElem?_eq_some_iff.1 h).1
  have hj : (j : ℤ) < 65536 := by have := hf.1; omega
  obtain ⟨h0, h1, -⟩ := padOf_spec hw hmem x
  obtain ⟨p, hp⟩ := encode_isOk (row := (j : ℤ)) (padOf L r x) (by omega) hj
  refine ⟨p, ?_, hp, rowBits_encode hp, padBits_encode' hp h0 (by have := hf.2 r hmem; omega)⟩
  have := getPadIndex_of hel hj (pad := padOf L r x) (by omega)
  rw [hp] at this
  unfold padInRow
  simp only [elemUb_of hel, Res.bind_ok]
  exact this

/-- Every outcome of `getNearestPad`. -/
theorem nearest_safe (hw : Wf xMin xMax yMin L) (hf : Fits L) (hpos : yMin < L.yMax) {x y : K}
    (hgap : NoOuterGap L (clamp L.yMin L.yMax y)) (fuel : ℕ) :
    getNearestPad L x y fuel = none ∨
    ∃ (j : ℕ) (r : Row K) (p : ℤ), getNearestPad L x y fuel = some (.ok p) ∧ L.rows[j]? = some r ∧
      encode j (padOf L r (clamp L.xMin L.xMax x)) = .ok p ∧ rowBits p = j ∧
      padBits p = padOf L r (clamp L.xMin L.xMax x) ∧
      ∀ (k : ℕ) (q : Row K), L.rows[k]? = some q → Covers q (clamp L.yMin L.yMax y) →
        Covers r (clamp L.yMin L.yMax y) := by
  have hcm := clamp_mem (lo := L.yMin) (hi := L.yMax) (by rw [hw.eYMin]; exact hpos.le) y
  have hcm0 : yMin ≤ clamp L.yMin L.yMax y := by rw [hw.eYMin] at hcm ⊢; exact hcm.1
  obtain ⟨i, r0, hs, hi⟩ := startRow_spec hw hpos hcm0 hcm.2
  unfold getNearestPad
  simp only [hs]
  rcases search_safe hw hcm0 hcm.2 hgap fuel hi with h | ⟨j, r, h, hj, hc⟩
  · left; rw [h]
  · right
    obtain ⟨p, hp, he, hr, hpb⟩ := padInRow_spec hw hf hj (clamp L.xMin L.xMax x)
    exact ⟨j, r, p, by rw [h]; exact congrArg some hp, hj, he, hr, hpb, hc⟩

end Gear.Rect
