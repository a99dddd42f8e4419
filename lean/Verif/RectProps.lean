/-
Properties C08-C20 for rectangular pad layouts.
-/
import Verif.RectMonotone
import Mathlib.Tactic.IntervalCases

set_option autoImplicit false
set_option linter.unusedSectionVars false

namespace Gear.Rect

open PadIndex Spec

variable {K : Type} [Field K] [LinearOrder K] [IsStrictOrderedRing K] [FloorRing K]

/-- A layout used in the examples: five rows of four pads with a gap, then repeated. -/
def exampleOps : List (Op ℚ) :=
  [.addRow 2 4 (2/10) (8/10) 1 0 0, .addRow 1 3 (2/10) 1 1 (1/10) (1/10), .repeatRows 2,
   .getPadsInRow 1]

def exampleLayout : Layout ℚ := run 0 1 5 exampleOps

/-! ### C08 pad index encoding is invertible -/

/-- Partial: proved for the pads that exist and when row and pad numbers fit into 16 bits.
Missing: `getPadIndex` also accepts negative pad numbers, and rows with more than 65536 pads; both are
refuted below. -/
theorem padIndex_roundtrip_partial {L : Layout K} (hf : Fits L) {row pad : ℤ} (hp : IsPad L row pad) :
    ∃ p, getPadIndex L row pad = .ok p ∧ getRowNumber L p = .ok row ∧ getPadNumber L p = pad := by
  obtain ⟨r, hr, h0, h1⟩ := hp
  obtain ⟨hr0, hr1⟩ := elem_range hr
  have hs : row < 65536 := by have := hf.1; omega
  have hm := hf.2 r (elem_mem hr)
  obtain ⟨p, hp⟩ := encode_isOk (row := row) pad hr0 hs
  have hrb := rowBits_encode hp
  refine ⟨p, by rw [getPadIndex_of hr hs (by omega), hp], ?_, padBits_encode' hp h0 (by omega)⟩
  rw [getRowNumber_of (by rw [hrb]; exact hr1), hrb]

/-- Different pads have different indices. -/
theorem padIndex_injective {L : Layout K} (hf : Fits L) {row pad row' pad' p : ℤ}
    (hp : IsPad L row pad) (hp' : IsPad L row' pad') (h : getPadIndex L row pad = .ok p)
    (h' : getPadIndex L row' pad' = .ok p) : row = row' ∧ pad = pad' := by
  obtain ⟨q, e, hr, hq⟩ := padIndex_roundtrip_partial hf hp
  obtain ⟨q', e', hr', hq'⟩ := padIndex_roundtrip_partial hf hp'
  rw [h] at e; rw [h'] at e'
  cases e; cases e'
  rw [hr] at hr'
  exact ⟨Res.ok.inj hr', hq.symm.trans hq'⟩

/-- The accepted pad number -1 comes back as 65535. -/
theorem padIndex_false_negative : ∃ (L : Layout ℚ) (p : ℤ),
    L = run 0 1 5 exampleOps ∧ getPadIndex L 0 (-1) = .ok p ∧ getPadNumber L p ≠ -1 := by
  refine ⟨_, 65535, rfl, by decide +kernel, by decide +kernel⟩

/-- In a row of more than 65536 pads, two pads share an index. -/
theorem padIndex_false_wide : ∃ (L : Layout ℚ) (p : ℤ), L = run 0 1 0 [.addRow 1 65537 0 1 1 0 0] ∧
    getPadIndex L 0 0 = .ok p ∧ getPadIndex L 0 65536 = .ok p := by
  refine ⟨_, 0, rfl, by decide +kernel, by decide +kernel⟩

theorem exampleLayout_fits : Fits exampleLayout := by
  constructor <;> decide +kernel

example : IsPad exampleLayout 4 3 ∧ IsPad exampleLayout 5 2 := by
  refine ⟨⟨⟨4, 2/10, 8/10, 1, 0, 0, 19/2, 1/4⟩, by decide +kernel, by decide, by decide⟩,
    ⟨⟨3, 2/10, 1, 1, 1/10, 1/10, 21/2, 8/30⟩, by decide +kernel, by decide, by decide⟩⟩

/-! ### C09 getPadIndex rejects exactly the non-existing pads -/

/-- Partial: proved for layouts with at least one row and pad numbers that are not negative.  Missing:
negative pad numbers are accepted and the empty layout reads outside its table, see below. -/
theorem getPadIndex_rejects_partial {L : Layout K} (hne : 0 < getNRows L) (hn : getNRows L ≤ 65536)
    {row pad : ℤ} (hr : IsInt row) (hp : 0 ≤ pad) :
    (IsPad L row pad → ∃ p, getPadIndex L row pad = .ok p) ∧
    (¬ IsPad L row pad → getPadIndex L row pad = .throw .outOfRange) := by
  unfold getNRows at hne hn
  have hrows : L.rows ≠ [] := by intro h; simp [h] at hne
  constructor
  · rintro ⟨r, hr, h0, h1⟩
    obtain ⟨hr0, hr1⟩ := elem_range hr
    rw [getPadIndex_of hr (by omega) (by omega)]
    exact encode_isOk _ hr0 (by omega)
  · intro h
    rcases Classical.em (0 ≤ row ∧ row < L.rows.length) with h1 | h1
    · obtain ⟨r, hr⟩ := elem_isSome h1.1 h1.2
      have h2 : r.nPad ≤ pad := by
        by_contra h2
        exact h ⟨r, hr, hp, by omega⟩
      have hnat := ofInt_toNat_of_range h1.1 (by omega)
      unfold getPadIndex
      rw [if_neg, elemUb_of hr]
      · simp only [Res.bind_ok]
        rw [if_pos (by omega)]
      · rintro ⟨-, h3⟩
        rw [hnat] at h3; omega
    · unfold getPadIndex
      rw [if_pos]
      refine ⟨hrows, ?_⟩
      rw [BitVec.toNat_ofInt]
      have : ((2 ^ 32 : ℕ) : ℤ) = 4294967296 := by norm_num
      rw [this]
      obtain ⟨ha, hb⟩ := hr
      omega

/-- A negative pad number is accepted. -/
theorem getPadIndex_false_negative : ∃ p, getPadIndex exampleLayout 0 (-1) = .ok p ∧
    ¬ IsPad exampleLayout 0 (-1) := by
  refine ⟨65535, by decide +kernel, ?_⟩
  rintro ⟨r, -, h, -⟩
  omega

/-- The empty layout reads outside its table. -/
theorem getPadIndex_false_empty : getPadIndex (run (0 : ℚ) 1 0 []) 0 0 = .ub := by decide +kernel

example : 0 < getNRows exampleLayout ∧ getNRows exampleLayout ≤ 65536 ∧
    getPadIndex exampleLayout 6 0 = .throw .outOfRange ∧
    getPadIndex exampleLayout (-1) 0 = .throw .outOfRange ∧
    getPadIndex exampleLayout 2 3 = .throw .outOfRange ∧
    getPadIndex exampleLayout 2 2 = .ok 131074 := by decide +kernel

/-! ### C10 rows stack without gap or overlap -/

/-- For every history of calls, failed ones included: there is a list of row heights such that row `i` has
the `i`-th height, the plane extent is `[xMin, xMax, yMin, yMin + sum of the heights]` and every pad of
row `i` is centred in the `i`-th of the stacked intervals and not higher than the row. -/
theorem rows_stack (xMin xMax yMin : K) (h : List (Op K)) :
    ∃ hs : List K, (hs.length : ℤ) = getNRows (run xMin xMax yMin h) ∧
      getPlaneExtent (run xMin xMax yMin h) = [xMin, xMax, yMin, yMin + hs.sum] ∧
      ∀ (i : ℕ) (H : K), hs[i]? = some H →
        0 ≤ H ∧ getRowHeight (run xMin xMax yMin h) i = .ok H ∧
        ∀ p, getRowNumber (run xMin xMax yMin h) p = .ok i →
          (∃ x, getPadCenter (run xMin xMax yMin h) p = .ok (x, yMin + (hs.take i).sum + H / 2)) ∧
          ∃ ph, getPadHeight (run xMin xMax yMin h) p = .ok ph ∧ 0 ≤ ph ∧ ph ≤ H := by
  set L := run xMin xMax yMin h with hL
  have hw : Wf xMin xMax yMin L := wf_run xMin xMax yMin h
  refine ⟨L.rows.map Row.height, by simp [getNRows], ?_, ?_⟩
  · simp only [getPlaneExtent, hw.eXMin, hw.eXMax, hw.eYMin, hw.eYMax]; rfl
  · intro i H hi
    rw [List.getElem?_map, Option.map_eq_some_iff] at hi
    obtain ⟨r, hr, rfl⟩ := hi
    have hel : elem L.rows (i : ℤ) = some r := by rw [elem_nat]; exact hr
    have hok := hw.rowOk r (List.mem_of_getElem? hr)
    refine ⟨hok.padHeight.trans hok.height, by simp [getRowHeight, elemAt_of hel], ?_⟩
    intro p hp
    obtain ⟨hrb, -⟩ := getRowNumber_ok hp
    rw [hrb] at hel
    obtain ⟨h1, -, h3⟩ := hasBox_of hel
    refine ⟨⟨L.xMin + r.leftOffset + padBits p * r.widthPerPad + r.widthPerPad / 2, ?_⟩, r.padHeight, h3,
      hok.padHeight, hok.height⟩
    rw [h1, hw.stacked i r hr, hsum, List.map_take]

example : getPlaneExtent exampleLayout = [0, 1, 5, 11] ∧ getNRows exampleLayout = 6 ∧
    getPadCenter exampleLayout 262145 = .ok (3/8, 19/2) := by decide +kernel

/-! ### C11 pad counts and pad lists agree -/

theorem nPad_pushRows (row : Row K) (n : ℕ) : ∀ L : Layout K,
    (pushRows row n L).nPad = L.nPad ∧
    ((pushRows row n L).rows.map Row.nPad).sum = (L.rows.map Row.nPad).sum + n * row.nPad := by
  induction n with
  | zero => intro L; simp [pushRows]
  | succ n ih =>
    intro L
    rw [pushRows_succ]
    obtain ⟨h1, h2⟩ := ih (push1 row L)
    refine ⟨h1, ?_⟩
    rw [h2]; simp [push1]; ring

theorem counted_step {xMin xMax yMin : K} {L : Layout K} (hw : Wf xMin xMax yMin L)
    (hc : L.nPad = (L.rows.map Row.nPad).sum) (op : Op K) (ho : outcome L op = .ok ()) :
    (step L op).nPad = ((step L op).rows.map Row.nPad).sum := by
  cases op with
  | addRow nRow nPad w h rh l r =>
    simp only [outcome] at ho
    simp only [step]
    rcases addRow_cases L nRow nPad w h rh l r with ⟨e, -⟩ | ⟨e, -⟩ | ⟨e, -⟩ | ⟨e, hn, hr⟩
    · rw [e] at ho; cases ho
    · rw [e] at ho; cases ho
    · rw [e] at ho; cases ho
    · rw [e]
      obtain ⟨h1, h2⟩ := nPad_pushRows (newRow L nPad w h rh l r) nRow.toNat
        { L with nPad := L.nPad + |nRow| * |nPad| }
      simp only [h1, h2]
      rw [hc]
      have hp : (newRow L nPad w h rh l r).nPad = nPad := rfl
      have hpos := hr.nPad
      rw [hp] at hpos ⊢
      rw [abs_of_pos hn, abs_of_pos hpos, Int.toNat_of_nonneg hn.le]
  | repeatRows c =>
    simp only [step]
    rcases le_or_gt L.repeatRows 0 with h | h
    · obtain ⟨L', e, -, hb, -, -, hn, -⟩ := repeatRows_spec hw c h
      rw [e]
      simp only
      have hbare : ∀ l : List (Row K), l.map Row.nPad = (l.map bare).map Row.nPad := by
        intro l; simp [bare, Function.comp_def]
      rw [hn, hbare L'.rows, hb, hc]
      have hrep : ∀ n : ℕ, (((List.replicate n (L.rows.map bare)).flatten).map Row.nPad).sum
          = n * (L.rows.map Row.nPad).sum := by
        intro n
        induction n with
        | zero => simp
        | succ n ih =>
          rw [List.replicate_succ, List.flatten_cons, List.map_append, List.sum_append, ih,
            ← hbare]
          push_cast; ring
      rw [List.map_append, List.sum_append, hrep, ← hbare]
    · unfold repeatRows
      rw [if_pos h]; exact hc
  | getPadsInRow row =>
    show (getPadsInRow L row).1.nPad = _
    rcases getPadsInRow_cases L row with e | ⟨l, e, -⟩
    · simp only [step]; rw [e]; exact hc
    · simp only [step]; rw [e]; exact hc

theorem counted_run {xMin xMax yMin : K} (h : List (Op K)) (ho : AllSucceed xMin xMax yMin h) :
    (run xMin xMax yMin h).nPad = ((run xMin xMax yMin h).rows.map Row.nPad).sum := by
  induction h using List.reverseRecOn with
  | nil => simp [run, new]
  | append_singleton h op ih =>
    have h1 := ih (fun h₁ o h₂ e => ho h₁ o (h₂ ++ [op]) (by rw [e]; simp))
    have h2 := ho h op [] rfl
    have h3 := counted_step (wf_run xMin xMax yMin h) h1 op h2
    have e : run xMin xMax yMin (h ++ [op]) = step (run xMin xMax yMin h) op := by
      simp [run, List.foldl_append]
    rw [e]; exact h3

/-- `getPadsInRow(r)` lists exactly the indices of the pads of row `r` in order, after every history of
calls (failed ones, repetitions and earlier pad listings included). -/
theorem padsInRow_run (xMin xMax yMin : K) (h : List (Op K))
    (hn : getNRows (run xMin xMax yMin h) ≤ 65536) (row : ℤ) :
    ∃ l, (getPadsInRow (run xMin xMax yMin h) row).2 = .ok l ∧
      (∀ j : ℕ, j < l.length ↔ IsPad (run xMin xMax yMin h) row j) ∧
      ∀ (j : ℕ) (p : ℤ), l[j]? = some p → getPadIndex (run xMin xMax yMin h) row j = .ok p := by
  set L := run xMin xMax yMin h with hL
  have hl : Lists L := lists_run xMin xMax yMin h
  have hw : Wf xMin xMax yMin L := wf_run xMin xMax yMin h
  unfold getNRows at hn
  cases hr : elem L.rows row with
  | none =>
    refine ⟨[], ?_, ?_, by simp⟩
    · have : elem L.padIndices row = none := by
        cases hp : elem L.padIndices row with
        | none => rfl
        | some o =>
          obtain ⟨h0, h1⟩ := elem_range hp
          rw [hl.len] at h1
          obtain ⟨r, hr'⟩ := elem_isSome h0 h1
          rw [hr] at hr'; cases hr'
      simp [getPadsInRow, this]
    · intro j
      simp only [List.length_nil, not_lt_zero, false_iff]
      rintro ⟨r, hr', -⟩
      rw [hr] at hr'; cases hr'
  | some r =>
    obtain ⟨l, hl1, hlen, hget⟩ := getPadsInRow_of hl hr (by have := (elem_range hr).2; omega)
    refine ⟨l, hl1, ?_, hget⟩
    intro j
    rw [hlen]
    constructor
    · intro hj; exact ⟨r, hr, by omega, by omega⟩
    · rintro ⟨r', hr', h0, h1⟩
      rw [hr] at hr'; cases hr'
      omega

/-- `getNPads` is the sum over all rows of the number of listed pads.
Partial: for histories in which no call threw. Missing: an `addRow` rejected because of its row height
has already been counted, see `getNPads_false_rejected`. -/
theorem getNPads_run_partial {xMin xMax yMin : K} (h : List (Op K))
    (ho : AllSucceed xMin xMax yMin h) (hn : getNRows (run xMin xMax yMin h) ≤ 65536) :
    ∃ ls : List (List ℤ), (ls.length : ℤ) = getNRows (run xMin xMax yMin h) ∧
      (∀ (i : ℕ) (l : List ℤ), ls[i]? = some l → (getPadsInRow (run xMin xMax yMin h) i).2 = .ok l) ∧
      getNPads (run xMin xMax yMin h) = ((ls.map List.length).sum : ℕ) := by
  set L := run xMin xMax yMin h with hL
  have hl : Lists L := lists_run xMin xMax yMin h
  have hw : Wf xMin xMax yMin L := wf_run xMin xMax yMin h
  have hc : L.nPad = (L.rows.map Row.nPad).sum := counted_run h ho
  unfold getNRows at hn
  have key : ∀ k : ℕ, k ≤ L.rows.length → ∃ ls : List (List ℤ), ls.length = k ∧
      (∀ (i : ℕ) (l : List ℤ), ls[i]? = some l → (getPadsInRow L i).2 = .ok l) ∧
      ((ls.map List.length).sum : ℤ) = ((L.rows.take k).map Row.nPad).sum := by
    intro k
    induction k with
    | zero => intro _; exact ⟨[], by simp⟩
    | succ k ih =>
      intro hk
      obtain ⟨ls, h1, h2, h3⟩ := ih (by omega)
      have hkr := List.getElem?_eq_getElem (l := L.rows) (i := k) (by omega)
      have hel : elem L.rows (k : ℤ) = some L.rows[k] := by rw [elem_nat]; exact hkr
      obtain ⟨l, hl1, hlen, -⟩ := getPadsInRow_of hl hel (by omega)
      have hpos := (hw.rowOk _ (List.mem_of_getElem? hkr)).nPad
      refine ⟨ls ++ [l], by simp [h1], ?_, ?_⟩
      · intro i l' hi
        rcases lt_trichotomy i ls.length with h4 | h4 | h4
        · rw [List.getElem?_append_left h4] at hi; exact h2 i l' hi
        · subst h4; simp at hi; subst hi; rw [h1]; exact hl1
        · rw [List.getElem?_eq_none (by simp; omega)] at hi; cases hi
      · rw [List.take_succ, hkr]
        simp only [List.map_append, List.sum_append, Nat.cast_add, h3]
        simp only [Option.toList_some, List.map_cons, List.map_nil, List.sum_cons, List.sum_nil,
          add_zero, hlen]
        rw [Int.toNat_of_nonneg hpos.le]
  obtain ⟨ls, h1, h2, h3⟩ := key L.rows.length le_rfl
  refine ⟨ls, by simp [getNRows, h1], h2, ?_⟩
  rw [getNPads, hc, h3, List.take_length]

/-- After an `addRow` that was rejected for its row height, the pad count is wrong. -/
theorem getNPads_false_rejected : ∃ L : Layout ℚ,
    L = run 0 1 0 [.addRow 1 2 (1/2) 1 1 0 0, .addRow 1 2 (1/2) 2 1 0 0] ∧
    getNRows L = 1 ∧ (getPadsInRow L 0).2 = .ok [0, 1] ∧ getNPads L = 4 := by
  refine ⟨_, rfl, by decide +kernel, by decide +kernel, by decide +kernel⟩

theorem exampleOps_succeed : AllSucceed 0 1 5 exampleOps := by
  intro h₁ op h₂ e
  unfold exampleOps at e
  rcases h₁ with _ | ⟨a, _ | ⟨b, _ | ⟨c, _ | ⟨d, h₁⟩⟩⟩⟩
  · simp at e; obtain ⟨rfl, -⟩ := e; decide +kernel
  · simp at e; obtain ⟨rfl, rfl, -⟩ := e; decide +kernel
  · simp at e; obtain ⟨rfl, rfl, rfl, -⟩ := e; decide +kernel
  · simp at e; obtain ⟨rfl, rfl, rfl, rfl, -⟩ := e; decide +kernel
  · simp at e

example : getNPads exampleLayout = 22 ∧
    (getPadsInRow exampleLayout 2).2 = .ok [131072, 131073, 131074] := by decide +kernel

/-! ### C75 addRow creates the rows that were asked for -/

theorem sameRow_of {L L' : Layout K} {i i' : ℕ} {r r' : Row K} (hx : L.xMin = L'.xMin)
    (h : L.rows[i]? = some r) (h' : L'.rows[i']? = some r') (hb : bare r = bare r') :
    SameRow L i L' i' := by
  have hel : elem L.rows (i : ℤ) = some r := by rw [elem_nat]; exact h
  have hel' : elem L'.rows (i' : ℤ) = some r' := by rw [elem_nat]; exact h'
  obtain ⟨n, w, ph, he, lo, ro, ce, wp⟩ := r
  obtain ⟨n', w', ph', he', lo', ro', ce', wp'⟩ := r'
  simp only [bare, Row.mk.injEq] at hb
  obtain ⟨rfl, rfl, rfl, rfl, rfl, rfl, -, rfl⟩ := hb
  refine ⟨⟨he, by simp [getRowHeight, elemAt_of hel], by simp [getRowHeight, elemAt_of hel']⟩, ?_, ?_⟩
  · intro pad
    constructor
    · rintro ⟨r, hr, h1, h2⟩
      rw [hel] at hr; cases hr
      exact ⟨_, hel', h1, h2⟩
    · rintro ⟨r, hr, h1, h2⟩
      rw [hel'] at hr; cases hr
      exact ⟨_, hel, h1, h2⟩
  · intro pad p p' hp hp'
    obtain ⟨e, -⟩ := encode_of_getPadIndex hp
    obtain ⟨e', -⟩ := encode_of_getPadIndex hp'
    have hb := rowBits_encode e
    have hb' := rowBits_encode e'
    rw [← hb] at hel
    rw [← hb'] at hel'
    obtain ⟨a1, a2, a3⟩ := hasBox_of hel
    obtain ⟨b1, b2, b3⟩ := hasBox_of hel'
    refine ⟨by rw [a2, b2], by rw [a3, b3], ?_, _, _, a1, b1, ?_⟩
    · simp [getPadPitch, getRowNumber_elem hel, getRowNumber_elem hel', elemUb_of hel, elemUb_of hel']
    · simp only [hx, padBits_encode e, padBits_encode e']

theorem pushRows_rows (row : Row K) (n : ℕ) : ∀ L : Layout K,
    (pushRows row n L).xMin = L.xMin ∧ ∃ t : List (Row K), (pushRows row n L).rows = L.rows ++ t ∧
      t.length = n ∧ ∀ r ∈ t, bare r = bare row := by
  induction n with
  | zero => intro L; exact ⟨rfl, [], by simp [pushRows]⟩
  | succ n ih =>
    intro L
    rw [pushRows_succ]
    obtain ⟨hx, t, h1, h2, h3⟩ := ih (push1 row L)
    refine ⟨hx, { row with center := L.yMax + row.height / 2 } :: t, ?_, by simp [h2], ?_⟩
    · rw [h1]; simp [push1]
    · intro r hr
      rcases List.mem_cons.1 hr with rfl | hr
      · rfl
      · exact h3 r hr

/-- `addRow` succeeds exactly for arguments that make sense: positive counts, no negative length, pads that
fit side by side between the offsets and, unless the row height is left open (0), into the row height. -/
theorem addRow_ok_iff (L : Layout K) (nRow nPad : ℤ) (w h rh l r : K) :
    (addRow L nRow nPad w h rh l r).2 = .ok () ↔
      0 < nRow ∧ 0 < nPad ∧ 0 ≤ w ∧ 0 ≤ h ∧ 0 ≤ rh ∧ 0 ≤ l ∧ 0 ≤ r ∧
      (nPad : K) * w ≤ (L.xMax - r) - (L.xMin + l) ∧ (rh = 0 ∨ h ≤ rh) := by
  unfold addRow
  by_cases h1 : 0 < nRow ∧ 0 < nPad ∧ ¬ w < 0 ∧ ¬ h < 0 ∧ ¬ rh < 0 ∧ ¬ l < 0 ∧ ¬ r < 0
  · rw [if_neg (not_not.2 h1)]
    obtain ⟨a1, a2, a3, a4, a5, a6, a7⟩ := h1
    rw [not_lt] at a3 a4 a5 a6 a7
    by_cases h2 : (nPad : K) * w > (L.xMax - r) - (L.xMin + l)
    · simp only [h2, if_true]
      constructor
      · intro h; cases h
      · intro h; exact absurd h.2.2.2.2.2.2.2.1 (not_le.2 h2)
    · simp only [h2, if_false]
      by_cases h3 : rh = 0
      · simp only [h3, if_true, lt_irrefl, if_false]
        simp only [true_or, and_true, true_iff]
        exact ⟨a1, a2, a3, a4, le_rfl, a6, a7, not_lt.1 h2⟩
      · simp only [h3, if_false, false_or]
        by_cases h4 : rh < h
        · simp only [h4, if_true]
          constructor
          · intro h; cases h
          · intro h; exact absurd h.2.2.2.2.2.2.2.2 (not_le.2 h4)
        · simp only [h4, if_false, true_iff]
          exact ⟨a1, a2, a3, a4, a5, a6, a7, not_lt.1 h2, not_lt.1 h4⟩
  · rw [if_pos h1]
    constructor
    · intro h; cases h
    · rintro ⟨a1, a2, a3, a4, a5, a6, a7, -⟩
      exact absurd ⟨a1, a2, not_lt.2 a3, not_lt.2 a4, not_lt.2 a5, not_lt.2 a6, not_lt.2 a7⟩ h1

/-- A successful `addRow` adds `nRow` rows on top of the old ones, which stay as they were.  Each new row has
`nPad` pads of the given size with the pitch that fills the space between the offsets, the first pad next to
the left offset; the row height is the given one, or the pad height if that was left open. -/
theorem addRow_rows (xMin xMax yMin : K) (h : List (Op K)) (L L' : Layout K)
    (hL : L = run xMin xMax yMin h) (nRow nPad : ℤ) (w hh rh l r : K)
    (hok : addRow L nRow nPad w hh rh l r = (L', .ok ())) (hf : Fits L') :
    getNRows L' = getNRows L + nRow ∧
    (∀ i, 0 ≤ i → i < getNRows L → SameRow L i L' i) ∧
    ∀ i, getNRows L ≤ i → i < getNRows L' →
      getRowHeight L' i = .ok (if rh = 0 then hh else rh) ∧
      (∀ pad, IsPad L' i pad ↔ 0 ≤ pad ∧ pad < nPad) ∧
      ∀ pad p, IsPad L' i pad → getPadIndex L' i pad = .ok p →
        getPadWidth L' p = .ok w ∧ getPadHeight L' p = .ok hh ∧
        getPadPitch L' p = .ok (((xMax - r) - (xMin + l)) / nPad) ∧
        ∃ c, getPadCenter L' p = .ok c ∧
          c.1 = xMin + l + (pad + 1 / 2) * (((xMax - r) - (xMin + l)) / nPad) := by
  have hw : Wf xMin xMax yMin L := by rw [hL]; exact wf_run xMin xMax yMin h
  rcases addRow_cases L nRow nPad w hh rh l r with ⟨e, -⟩ | ⟨e, -⟩ | ⟨e, -⟩ | ⟨e, hn, hr⟩
  · rw [e] at hok; cases hok
  · rw [e] at hok; cases hok
  · rw [e] at hok; cases hok
  rw [e] at hok
  simp only [Prod.mk.injEq, and_true] at hok
  obtain ⟨hx, t, ht, htl, htb⟩ := pushRows_rows (newRow L nPad w hh rh l r) nRow.toNat
    { L with nPad := L.nPad + |nRow| * |nPad| }
  have hrows : L'.rows = L.rows ++ t := by rw [← hok]; exact ht
  have hx' : L'.xMin = L.xMin := by rw [← hok]; exact hx
  have hlen : L'.rows.length = L.rows.length + nRow.toNat := by rw [hrows, List.length_append, htl]
  refine ⟨by simp only [getNRows]; rw [hlen]; push_cast; rw [Int.toNat_of_nonneg hn.le], ?_, ?_⟩
  · intro i h0 h1
    obtain ⟨n, rfl⟩ := Int.eq_ofNat_of_zero_le h0
    simp only [getNRows] at h1
    have h1 : n < L.rows.length := by omega
    have hg := List.getElem?_eq_getElem h1
    refine sameRow_of hx'.symm hg ?_ rfl
    rw [hrows, List.getElem?_append_left h1, hg]
  · intro i h0 h1
    have hi0 : 0 ≤ i := le_trans (by simp [getNRows]) h0
    obtain ⟨n, rfl⟩ := Int.eq_ofNat_of_zero_le hi0
    simp only [getNRows] at h0 h1
    have hg := List.getElem?_eq_getElem (l := L'.rows) (i := n) (by omega)
    set q := L'.rows[n]'(by omega) with hq
    have hqt : q ∈ t := by
      rw [hrows, List.getElem?_append_right (by omega)] at hg
      exact List.mem_of_getElem? hg
    have hb := htb q hqt
    have hel : elem L'.rows (n : ℤ) = some q := by rw [elem_nat]; exact hg
    clear_value q
    obtain ⟨n1, n2, n3, n4, n5, n6, n7, n8⟩ := q
    simp only [bare, newRow, Row.mk.injEq] at hb
    obtain ⟨rfl, rfl, rfl, rfl, rfl, rfl, -, rfl⟩ := hb
    have hiff : ∀ pad, IsPad L' n pad ↔ 0 ≤ pad ∧ pad < n1 := by
      intro k
      constructor
      · rintro ⟨r2, h2, h3⟩; rw [hel] at h2; cases h2; exact h3
      · intro h3; exact ⟨_, hel, h3⟩
    refine ⟨by simp [getRowHeight, elemAt_of hel], hiff, ?_⟩
    intro pad p hp hidx
    obtain ⟨henc, -⟩ := encode_of_getPadIndex hidx
    have hrb := rowBits_encode henc
    have hn1 := hf.2 _ (elem_mem hel)
    simp only at hn1
    have hpb := padBits_encode' henc ((hiff pad).1 hp).1 (by have := ((hiff pad).1 hp).2; omega)
    have hr2 := hel
    rw [← hrb] at hr2
    obtain ⟨b1, b2, b3⟩ := hasBox_of hr2
    refine ⟨b2, b3, ?_, _, b1, ?_⟩
    · simp [getPadPitch, getRowNumber_elem hr2, elemUb_of hr2, hw.eXMin, hw.eXMax]
    · simp only [hpb, hx', hw.eXMin, hw.eXMax]; ring

example : ∃ L', addRow exampleLayout 2 3 (1/5) (1/2) 0 (1/10) (1/5) = (L', .ok ()) ∧ Fits L' ∧
    getNRows L' = 8 ∧ getPadCenter L' (7 * 65536 + 2) = .ok (41/60, 47/4) := by
  refine ⟨(addRow exampleLayout 2 3 (1/5) (1/2) 0 (1/10) (1/5)).1, Prod.ext rfl ?_, ⟨?_, ?_⟩, ?_, ?_⟩ <;>
    decide +kernel

/-! ### C12 a rejected addRow leaves the layout unchanged -/

/-- Partial: all queries except `getNPads` are unchanged by a rejected `addRow`, and everything is
unchanged when the call was rejected by an argument check or for its width.  Missing: `getNPads`, see
`addRow_rejected_false`. -/
theorem addRow_rejected_partial (L : Layout K) (nRow nPad : ℤ) (w h rh l r : K) {e : Exn}
    (he : (addRow L nRow nPad w h rh l r).2 = .throw e) :
    ({ (addRow L nRow nPad w h rh l r).1 with nPad := L.nPad } = L) ∧
    ((e = .assertion ∨ (nPad : K) * w > (L.xMax - r) - (L.xMin + l)) →
      (addRow L nRow nPad w h rh l r).1 = L) := by
  rcases addRow_cases L nRow nPad w h rh l r with ⟨e1, -⟩ | ⟨e1, -⟩ | ⟨e1, h3⟩ | ⟨e1, -, -⟩
  · rw [e1]; exact ⟨rfl, fun _ => rfl⟩
  · rw [e1]; exact ⟨rfl, fun _ => rfl⟩
  · rw [e1] at he ⊢
    refine ⟨rfl, ?_⟩
    rintro (rfl | h4)
    · cases he
    · exfalso
      by_cases h1 : 0 < nRow ∧ 0 < nPad ∧ ¬ w < 0 ∧ ¬ h < 0 ∧ ¬ rh < 0 ∧ ¬ l < 0 ∧ ¬ r < 0
      · have : addRow L nRow nPad w h rh l r = (L, .throw .gear) := by
          unfold addRow
          rw [if_neg (not_not.2 h1), if_pos h4]
        rw [this] at e1
        have h5 := congrArg (fun q => q.1.nPad) e1
        simp only at h5
        have : 0 < |nRow| * |nPad| := mul_pos (abs_pos.2 h1.1.ne') (abs_pos.2 h1.2.1.ne')
        omega
      · have : addRow L nRow nPad w h rh l r = (L, .throw .assertion) := by
          unfold addRow
          rw [if_pos h1]
        rw [this] at e1
        have := congrArg Prod.snd e1
        cases this
  · rw [e1] at he; cases he

/-- A rejected `addRow` changes the number of pads. -/
theorem addRow_rejected_false : ∃ L : Layout ℚ, L = run 0 1 0 [.addRow 1 2 (1/2) 1 1 0 0] ∧
    (addRow L 1 2 (1/2) 2 1 0 0).2 = .throw .gear ∧ getNPads L = 2 ∧
    getNPads (addRow L 1 2 (1/2) 2 1 0 0).1 = 4 := by
  refine ⟨_, rfl, by decide +kernel, by decide +kernel, by decide +kernel⟩

example : (addRow exampleLayout 1 6 (2/10) 1 1 0 0).2 = .throw .gear ∧
    (addRow exampleLayout 1 4 (2/10) 2 1 0 0).2 = .throw .gear ∧
    (addRow exampleLayout 0 4 (2/10) 1 1 0 0).2 = .throw .assertion := by decide +kernel

/-! ### C13 repeatRows repeats the pattern exactly count times, once -/

theorem getElem?_flatten_replicate {α : Type} (l : List α) (k i : ℕ) (hi : i < l.length) :
    ∀ n, k < n → (List.replicate n l).flatten[k * l.length + i]? = l[i]? := by
  induction k with
  | zero =>
    intro n hn
    obtain ⟨m, rfl⟩ : ∃ m, n = m + 1 := ⟨n - 1, by omega⟩
    rw [List.replicate_succ, List.flatten_cons, List.getElem?_append_left (by omega)]
    simp
  | succ k ih =>
    intro n hn
    obtain ⟨m, rfl⟩ : ∃ m, n = m + 1 := ⟨n - 1, by omega⟩
    rw [List.replicate_succ, List.flatten_cons, List.getElem?_append_right (by
      rw [Nat.succ_mul]; omega)]
    rw [← ih m (by omega)]
    congr 1
    rw [Nat.succ_mul]; omega

theorem pushRows_repeatRows (row : Row K) (n : ℕ) : ∀ L : Layout K,
    (pushRows row n L).repeatRows = L.repeatRows := by
  induction n with
  | zero => intro L; rfl
  | succ n ih => intro L; exact ih _

theorem run_repeatRows (xMin xMax yMin : K) (h : List (Op K)) (hno : ∀ c, Op.repeatRows c ∉ h) :
    (run xMin xMax yMin h).repeatRows = 0 := by
  induction h using List.reverseRecOn with
  | nil => rfl
  | append_singleton h op ih =>
    have h1 := ih (fun c hc => hno c (by simp [hc]))
    have e : run xMin xMax yMin (h ++ [op]) = step (run xMin xMax yMin h) op := by
      simp [run, List.foldl_append]
    rw [e, ← h1]
    generalize run xMin xMax yMin h = L
    cases op with
    | addRow nRow nPad w hh rh l r =>
      simp only [step]
      rcases addRow_cases L nRow nPad w hh rh l r with ⟨e, -⟩ | ⟨e, -⟩ | ⟨e, -⟩ | ⟨e, -, -⟩ <;> rw [e]
      simp only [pushRows_repeatRows]
    | repeatRows c => exact absurd (by simp) (hno c)
    | getPadsInRow row =>
      simp only [step]
      rcases getPadsInRow_cases L row with e | ⟨l, e, -⟩ <;> rw [e]

/-- Row `k*n + i` of the repeated layout looks like row `i` of the pattern, for every `k < count`; there
are `count` times as many rows (their positions are given by `rows_stack`); a second call does nothing.
Partial: for `1 ≤ count < 2^31`.  Missing: `count = 0` wraps around, see `repeatRows_false_zero`. -/
theorem repeatRows_run_partial (xMin xMax yMin : K) (h : List (Op K)) (L : Layout K)
    (hL : L = run xMin xMax yMin h) (hno : ∀ c, Op.repeatRows c ∉ h) (count : ℕ) (hc1 : 1 ≤ count)
    (hc2 : count < 2147483648) :
    (repeatRows L count).2 = .ok () ∧
    getNRows (repeatRows L count).1 = count * getNRows L ∧
    (∀ k i : ℕ, k < count → (i : ℤ) < getNRows L →
      SameRow L i (repeatRows L count).1 ((k * (getNRows L).toNat + i : ℕ) : ℤ)) ∧
    ∀ count', repeatRows (repeatRows L count).1 count' = ((repeatRows L count).1, .ok ()) := by
  have hw : Wf xMin xMax yMin L := by rw [hL]; exact wf_run xMin xMax yMin h
  have h0 : L.repeatRows ≤ 0 := by rw [hL, run_repeatRows xMin xMax yMin h hno]
  obtain ⟨L', e, hw', hb, -, hrep, -, -⟩ := repeatRows_spec hw count h0
  have hcnt : (BitVec.ofNat 32 count - 1).toNat = count - 1 := by
    show (2 ^ 32 - (1#32).toNat + (BitVec.ofNat 32 count).toNat) % 2 ^ 32 = count - 1
    have h1 : (1#32).toNat = 1 := rfl
    have h2 : (BitVec.ofNat 32 count).toNat = count := by rw [BitVec.toNat_ofNat]; omega
    rw [h1, h2]; omega
  have hint : (BitVec.ofNat 32 count).toInt = count := by
    rw [BitVec.toInt_eq_toNat_of_lt] <;> rw [BitVec.toNat_ofNat]
    · congr 1; omega
    · omega
  rw [hcnt] at hb
  have hall : L.rows.map bare ++ (List.replicate (count - 1) (L.rows.map bare)).flatten
      = (List.replicate count (L.rows.map bare)).flatten := by
    obtain ⟨m, rfl⟩ : ∃ m, count = m + 1 := ⟨count - 1, by omega⟩
    simp [List.replicate_succ]
  rw [hall] at hb
  rw [e]
  refine ⟨rfl, ?_, ?_, ?_⟩
  · have := congrArg List.length hb
    simp at this
    simp only [getNRows]
    rw [this]; push_cast; ring
  · intro k i hk hi
    simp only [getNRows] at hi
    have hi' : i < L.rows.length := by omega
    have hir := List.getElem?_eq_getElem hi'
    have h1 := getElem?_flatten_replicate (L.rows.map bare) k i (by simpa using hi') count hk
    rw [← hb, List.getElem?_map, List.getElem?_map, hir, List.length_map, Option.map_some,
      Option.map_eq_some_iff] at h1
    obtain ⟨r', hr', hbr⟩ := h1
    have : (getNRows L).toNat = L.rows.length := by simp [getNRows]
    rw [this]
    exact sameRow_of (by rw [hw.eXMin, hw'.eXMin]) hir hr' hbr.symm
  · intro count'
    unfold repeatRows
    rw [if_pos]
    simp only
    rw [hrep, hint]; omega

/-- `repeatRows(0)` repeats the pattern 4294967295 more times (in a program with enough memory). -/
theorem repeatRows_false_zero (xMin xMax yMin : K) (h : List (Op K)) (L : Layout K)
    (hL : L = run xMin xMax yMin h) (hno : ∀ c, Op.repeatRows c ∉ h) :
    getNRows (repeatRows L 0).1 = 4294967296 * getNRows L := by
  have hw : Wf xMin xMax yMin L := by rw [hL]; exact wf_run xMin xMax yMin h
  have h0 : L.repeatRows ≤ 0 := by rw [hL, run_repeatRows xMin xMax yMin h hno]
  obtain ⟨L', e, -, hb, -⟩ := repeatRows_spec hw 0 h0
  rw [e]
  have := congrArg List.length hb
  simp only [List.length_map, List.length_append, List.length_flatten, List.map_replicate,
    List.sum_replicate] at this
  have h1 : (BitVec.ofNat 32 0 - 1).toNat = 4294967295 := by decide
  rw [h1] at this
  simp only [getNRows]
  rw [this]; simp; ring

example : (∀ c, Op.repeatRows c ∉ exampleOps.take 2) ∧ getNRows (run 0 1 5 (exampleOps.take 2)) = 3 :=
  ⟨by intro c; simp [exampleOps], by decide +kernel⟩

/-! ### C14 pads do not overlap -/

/-- `isInsidePad(x, y, p)` is membership in the closed rectangle of the pad's centre, width and height. -/
theorem isInsidePad_eq (L : Layout K) (x y : K) (p : ℤ) :
    isInsidePad L x y p = .ok true ↔ InPad L x y p := isInsidePad_iff L x y p

/-- A point in the open rectangle of one pad is in no other pad, border included. -/
theorem pads_disjoint (xMin xMax yMin : K) (h : List (Op K)) (x y : K) {p q : ℤ} (hp : IsInt p)
    (hq : IsInt q) (h1 : StrictlyInPad (run xMin xMax yMin h) x y p)
    (h2 : isInsidePad (run xMin xMax yMin h) x y q = .ok true) : p = q := by
  set L := run xMin xMax yMin h
  have hw : Wf xMin xMax yMin L := wf_run xMin xMax yMin h
  obtain ⟨c, w, hh, hb, hx, hy⟩ := h1
  obtain ⟨c', w', hh', hb', hx', hy'⟩ := (isInsidePad_iff L x y q).1 h2
  obtain ⟨r, hr, rfl, rfl, rfl⟩ := hasBox_inv hb
  obtain ⟨r', hr', rfl, rfl, rfl⟩ := hasBox_inv hb'
  obtain ⟨i, hi, hri⟩ := elem_eq_some.1 hr
  obtain ⟨i', hi', hri'⟩ := elem_eq_some.1 hr'
  have hrow : i = i' := by
    by_contra hne
    have hcen := center_eq hw hri
    have hcen' := center_eq hw hri'
    have hok := hw.rowOk r (List.mem_of_getElem? hri)
    have hok' := hw.rowOk r' (List.mem_of_getElem? hri')
    have hbs := bot_succ (yMin := yMin) hri
    have hbs' := bot_succ (yMin := yMin) hri'
    obtain ⟨a1, a2⟩ := abs_lt.1 hy
    obtain ⟨b1, b2⟩ := abs_le.1 hy'
    simp only at a1 a2 b1 b2
    rcases lt_or_gt_of_ne hne with hlt | hgt
    · have := bot_mono (yMin := yMin) hw (show i + 1 ≤ i' from hlt)
      linarith [hok.height, hok'.height]
    · have := bot_mono (yMin := yMin) hw (show i' + 1 ≤ i from hgt)
      linarith [hok.height, hok'.height]
  subst hrow
  rw [hri] at hri'; cases hri'
  have hrb : rowBits p = rowBits q := by rw [hi, hi']
  have hwp := padWidth_le hw (List.mem_of_getElem? hri)
  obtain ⟨a1, a2⟩ := abs_lt.1 hx
  obtain ⟨b1, b2⟩ := abs_le.1 hx'
  simp only at a1 a2 b1 b2
  have hpb : padBits p = padBits q := by
    by_contra hne
    have hwpos : 0 ≤ r.widthPerPad := (hw.rowOk r (List.mem_of_getElem? hri)).padWidth.trans hwp
    rcases lt_or_gt_of_ne hne with hlt | hgt
    · have hK : (padBits p : K) + 1 ≤ (padBits q : K) := by exact_mod_cast hlt
      have := mul_le_mul_of_nonneg_right hK hwpos
      linarith
    · have hK : (padBits q : K) + 1 ≤ (padBits p : K) := by exact_mod_cast hgt
      have := mul_le_mul_of_nonneg_right hK hwpos
      linarith
  have e1 := encode_parts hp.1 hp.2
  have e2 := encode_parts hq.1 hq.2
  rw [hrb, hpb, e2] at e1
  exact (Res.ok.inj e1).symm

example : StrictlyInPad exampleLayout (1/8) (11/2) 0 ∧
    isInsidePad exampleLayout (1/8) (11/2) 0 = .ok true := by
  refine ⟨⟨(1/8, 11/2), 2/10, 8/10, ⟨by decide +kernel, by decide +kernel, by decide +kernel⟩, ?_, ?_⟩,
    by decide +kernel⟩ <;> norm_num

/-! ### C16 getNearestPad terminates with an existing pad -/

/-- The point's height, moved into the extent, is not in the gap below the pads of row 0 or above the
pads of the last row. -/
def Spec.ReachesPads (L : Layout K) (y : K) : Prop :=
  (∀ p c h, getRowNumber L p = .ok 0 → getPadCenter L p = .ok c → getPadHeight L p = .ok h →
    c.2 - h / 2 ≤ max L.yMin (min L.yMax y)) ∧
  (∀ p c h, getRowNumber L p = .ok (getNRows L - 1) → getPadCenter L p = .ok c →
    getPadHeight L p = .ok h → max L.yMin (min L.yMax y) ≤ c.2 + h / 2)

theorem noOuterGap_of {xMin xMax yMin : K} {L : Layout K} (hw : Wf xMin xMax yMin L)
    (hn : L.rows.length ≤ 65536) {y : K} (h : ReachesPads L y) :
    NoOuterGap L (clamp L.yMin L.yMax y) := by
  have hle : L.yMin ≤ L.yMax := by
    rw [hw.eYMin, hw.eYMax]; linarith [hsum_nonneg hw.rowOk]
  rw [clamp_eq hle]
  have key : ∀ (i : ℕ) r, L.rows[i]? = some r → ∃ p, getRowNumber L p = .ok i ∧
      (∃ x, getPadCenter L p = .ok (x, r.center)) ∧ getPadHeight L p = .ok r.padHeight := by
    intro i r hr
    have hil := (List.getElem?_eq_some_iff.1 hr).1
    obtain ⟨p, hp⟩ := encode_isOk (row := (i : ℤ)) 0 (by omega) (by omega)
    have hrb := rowBits_encode hp
    have hel : elem L.rows (rowBits p) = some r := by rw [hrb, elem_nat]; exact hr
    obtain ⟨h1, -, h3⟩ := hasBox_of hel
    exact ⟨p, by rw [getRowNumber_elem hel, hrb], ⟨_, h1⟩, h3⟩
  constructor
  · intro r hr
    obtain ⟨p, h1, ⟨x, h2⟩, h3⟩ := key 0 r hr
    exact h.1 p _ _ h1 h2 h3
  · intro r hr
    obtain ⟨p, h1, ⟨x, h2⟩, h3⟩ := key (L.rows.length - 1) r hr
    have hil := (List.getElem?_eq_some_iff.1 hr).1
    refine h.2 p _ _ ?_ h2 h3
    rw [h1, getNRows]; congr 1; omega

/-- Every outcome of `getNearestPad` is the index of an existing pad: no read outside the row table, no
exception.  Partial: for points that are not in the gap below the first or above the last pads
(`nearest_false_gap`); whether the search ends is `nearest_terminates_partial`. -/
theorem nearest_safe_partial (xMin xMax yMin : K) (h : List (Op K)) (L : Layout K)
    (hL : L = run xMin xMax yMin h) (hf : Fits L) (hpos : L.yMin < L.yMax) (x y : K)
    (hr : ReachesPads L y) (res : Res ℤ) (hn : Nearest L x y res) :
    ∃ p, res = .ok p ∧ IsPadIndex L p := by
  have hw : Wf xMin xMax yMin L := by rw [hL]; exact wf_run xMin xMax yMin h
  obtain ⟨fuel, hn⟩ := hn
  rw [hw.eYMin] at hpos
  rcases nearest_safe hw hf hpos (x := x) (noOuterGap_of hw hf.1 hr) fuel with
    h1 | ⟨j, r, p, h1, hj, he, hrb, hpb, -⟩
  · rw [h1] at hn; cases hn
  · rw [h1] at hn; cases hn
    have hmem := List.mem_of_getElem? hj
    obtain ⟨h0, h2, -⟩ := padOf_spec hw hmem (clamp L.xMin L.xMax x)
    have hel : elem L.rows (j : ℤ) = some r := by rw [elem_nat]; exact hj
    refine ⟨p, rfl, j, _, ⟨r, hel, h0, h2⟩, ?_⟩
    rw [getPadIndex_of hel (by have := hf.1; have := (elem_range hel).2; omega) (by omega)]
    exact he

theorem pairwise_of_heights {L : Layout K} {R : K → K → Prop}
    (h : ∀ i j : ℕ, i ≤ j → ∀ a b, getRowHeight L i = .ok a → getRowHeight L j = .ok b → R a b) :
    L.rows.Pairwise fun a b => R a.height b.height := by
  rw [List.pairwise_iff_getElem]
  intro i j hi hj hij
  have he : ∀ (k : ℕ) (hk : k < L.rows.length), getRowHeight L k = .ok (L.rows[k]).height := by
    intro k hk
    have hel : elem L.rows (k : ℤ) = some L.rows[k] := by rw [elem_nat, List.getElem?_eq_getElem hk]
    simp [getRowHeight, elemAt_of hel]
  exact h i j hij.le _ _ (he i hi) (he j hj)

/-- With rows that only grow or only shrink the search ends. -/
theorem nearest_terminates_partial (xMin xMax yMin : K) (h : List (Op K)) (L : Layout K)
    (hL : L = run xMin xMax yMin h) (hf : Fits L) (hpos : L.yMin < L.yMax) (hm : HeightsMonotone L) (x y : K)
    (hr : ReachesPads L y) : ∃ p, Nearest L x y (.ok p) ∧ IsPadIndex L p := by
  have hw : Wf xMin xMax yMin L := by rw [hL]; exact wf_run xMin xMax yMin h
  have hpos' : yMin < L.yMax := by rw [hw.eYMin] at hpos; exact hpos
  have hgap := noOuterGap_of hw hf.1 hr
  have hcm := clamp_mem (lo := L.yMin) (hi := L.yMax) hpos.le y
  have hcm0 : yMin ≤ clamp L.yMin L.yMax y := by rw [hw.eYMin] at hcm ⊢; exact hcm.1
  obtain ⟨i, r0, hs, hi⟩ := startRow_spec hw hpos' hcm0 hcm.2
  have hterm := search_monotone hw (hm.imp pairwise_of_heights pairwise_of_heights) hcm0 hcm.2 hgap hi
  have hsome : getNearestPad L x y (L.rows.length + 1) ≠ none := by
    unfold getNearestPad
    simp only [hs]
    cases hse : search L (clamp L.yMin L.yMax y) (L.rows.length + 1) i with
    | none => exact absurd hse hterm
    | some o => cases o <;> simp
  obtain ⟨res, hres⟩ := Option.ne_none_iff_exists'.1 hsome
  obtain ⟨p, rfl, hp⟩ := nearest_safe_partial xMin xMax yMin h L hL hf hpos x y hr res ⟨_, hres⟩
  exact ⟨p, ⟨_, hres⟩, hp⟩

/-- For every layout and point the search has ended after one pass more than there are rows, or it never ends. -/
theorem nearest_ends_iff (L : Layout K) (x y : K) :
    (∃ res, Nearest L x y res) ↔ ∃ res, getNearestPad L x y (L.rows.length + 1) = some res := by
  refine ⟨?_, fun ⟨res, h⟩ => ⟨res, _, h⟩⟩
  rintro ⟨res, fuel, h⟩
  unfold getNearestPad at h ⊢
  simp only at h ⊢
  cases hs : startRow L (clamp L.yMin L.yMax y) with
  | throw e => exact ⟨_, rfl⟩
  | ub => exact ⟨_, rfl⟩
  | ok i =>
    rw [hs] at h
    simp only at h ⊢
    cases hse : search L (clamp L.yMin L.yMax y) (L.rows.length + 1) i with
    | none => rw [search_bounded L _ i hse fuel] at h; cases h
    | some o => cases o <;> exact ⟨_, rfl⟩

/-- The number of passes does not matter once the search has ended. -/
theorem nearest_unique {L : Layout K} {x y : K} {r r' : Res ℤ} (h : Nearest L x y r)
    (h' : Nearest L x y r') : r = r' := by
  have key : ∀ (y : K) (f : ℕ) (i : ℤ) (o : Res ℤ), search L y f i = some o →
      ∀ g, search L y (f + g) i = some o := by
    intro y f
    induction f with
    | zero => intro i o h; simp [search] at h
    | succ f ih =>
      intro i o h g
      have : f + 1 + g = (f + g) + 1 := by omega
      rw [this]
      unfold search at h ⊢
      split at h <;> simp_all
  obtain ⟨f, hf⟩ := h
  obtain ⟨f', hf'⟩ := h'
  unfold getNearestPad at hf hf'
  simp only at hf hf'
  cases hs : startRow L (clamp L.yMin L.yMax y) with
  | throw e => rw [hs] at hf hf'; simp at hf hf'; rw [← hf, ← hf']
  | ub => rw [hs] at hf hf'; simp at hf hf'; rw [← hf, ← hf']
  | ok i =>
    rw [hs] at hf hf'
    simp only at hf hf'
    cases h1 : search L (clamp L.yMin L.yMax y) f i with
    | none => rw [h1] at hf; simp at hf
    | some o =>
      cases h2 : search L (clamp L.yMin L.yMax y) f' i with
      | none => rw [h2] at hf'; simp at hf'
      | some o' =>
        have e1 := key _ _ _ _ h1 f'
        have e2 := key _ _ _ _ h2 f
        rw [Nat.add_comm, e1] at e2
        cases e2
        rw [h1] at hf; rw [h2] at hf'
        rw [hf] at hf'
        exact Option.some.inj hf'

/-- In the gap below the pads of the first row the search reads `_rows[-1]`. -/
theorem nearest_false_gap : ∃ L : Layout ℚ, L = run 0 1 0 [.addRow 3 2 (1/2) (1/2) 1 0 0] ∧
    Nearest L (1/2) 0 .ub := by
  refine ⟨_, rfl, 1, by decide +kernel⟩

/-- The layout whose row search does not end. -/
def loopLayout : Layout ℚ :=
  run 0 1 0 [.addRow 1 1 1 (1/100) 0 0 0, .addRow 1 1 1 1 0 0 0, .addRow 8 1 1 (1/100) 0 0 0]

/-- With rows of different heights the search can go back and forth between two rows for ever. -/
theorem nearest_false_loop : ∀ res, ¬ Nearest loopLayout (1/2) (21/100) res := by
  rintro res ⟨fuel, h⟩
  have hc : clamp loopLayout.yMin loopLayout.yMax (21/100) = 21/100 := by decide +kernel
  have hs : startRow loopLayout (21/100) = .ok 2 := by decide +kernel
  have h2 : pass loopLayout (21/100) 2 = .ok (.next 0) := by decide +kernel
  have h0 : pass loopLayout (21/100) 0 = .ok (.next 2) := by decide +kernel
  have key : ∀ f, search loopLayout (21/100) f 2 = none ∧ search loopLayout (21/100) f 0 = none := by
    intro f
    induction f with
    | zero => exact ⟨rfl, rfl⟩
    | succ f ih =>
      simp only [search, h2, h0]
      exact ⟨ih.2, ih.1⟩
  unfold getNearestPad at h
  simp only [hc, hs, (key fuel).1] at h
  cases h

example : Fits exampleLayout ∧ 0 < getNRows exampleLayout ∧
    getNearestPad exampleLayout (3/10) (79/10) 2 = some (.ok 131072) ∧
    getNearestPad exampleLayout (-3) 8 2 = some (.ok 131072) :=
  ⟨exampleLayout_fits, by decide +kernel, by decide +kernel, by decide +kernel⟩

/-- Two rows of height 1 below three of height 2 and one of height 5. -/
def growLayout : Layout ℚ :=
  run 0 1 0 [.addRow 2 2 (1/4) 1 0 0 0, .addRow 3 4 (1/4) 2 0 0 0, .addRow 1 1 (1/4) 5 0 0 0]

theorem growLayout_monotone : HeightsMonotone growLayout := by
  left
  have heights : ∀ (i : ℕ) (a : ℚ), getRowHeight growLayout i = .ok a →
      i < 6 ∧ a = if i < 2 then 1 else if i < 5 then 2 else 5 := by
    intro i a h
    rcases Nat.lt_or_ge i 6 with hi | hi
    · refine ⟨hi, ?_⟩
      interval_cases i
      all_goals
        first
          | (rw [show getRowHeight growLayout _ = .ok 1 by decide +kernel] at h; cases h; rfl)
          | (rw [show getRowHeight growLayout _ = .ok 2 by decide +kernel] at h; cases h; rfl)
          | (rw [show getRowHeight growLayout _ = .ok 5 by decide +kernel] at h; cases h; rfl)
    · have : elem growLayout.rows (i : ℤ) = none := by
        have hl : growLayout.rows.length = 6 := by decide +kernel
        rw [elem_nat]
        exact List.getElem?_eq_none (by omega)
      simp [getRowHeight, elemAt, this] at h
  intro i j hij a b ha hb
  obtain ⟨h1, rfl⟩ := heights i a ha
  obtain ⟨h2, rfl⟩ := heights j b hb
  split_ifs <;> first | omega | norm_num

example : growLayout.yMin < growLayout.yMax ∧ getNearestPad growLayout (1/2) (15/2) 7 = some (.ok 262146) ∧
    getNearestPad growLayout (1/2) (3/2) 7 = some (.ok 65537) :=
  ⟨by decide +kernel, by decide +kernel, by decide +kernel⟩

/-! ### C15 a pad's centre belongs to that pad -/

/-- The centre of a pad is inside the pad. -/
theorem center_inside (xMin xMax yMin : K) (h : List (Op K)) {p : ℤ} {c : K × K}
    (hc : getPadCenter (run xMin xMax yMin h) p = .ok c) :
    isInsidePad (run xMin xMax yMin h) c.1 c.2 p = .ok true := by
  set L := run xMin xMax yMin h
  have hw : Wf xMin xMax yMin L := wf_run xMin xMax yMin h
  cases hr : elem L.rows (rowBits p) with
  | none =>
    cases hn : getRowNumber L p with
    | ok i =>
      obtain ⟨rfl, r, hr'⟩ := getRowNumber_ok hn
      rw [hr] at hr'; cases hr'
    | throw e => simp [getPadCenter, hn] at hc
    | ub => simp [getPadCenter, hn] at hc
  | some r =>
    have hb := hasBox_of hr
    rw [hb.1] at hc; cases hc
    have hok := hw.rowOk r (elem_mem hr)
    rw [isInsidePad_of hr]
    simp only [sub_self, abs_zero, Res.ok.injEq, decide_eq_true_eq]
    constructor
    · linarith [hok.padWidth]
    · linarith [hok.padHeight]

/-- Every outcome of `getNearestPad` at the centre of a pad is that pad, if its row has a height and its
pads a pitch. -/
theorem nearest_center (xMin xMax yMin : K) (h : List (Op K)) (L : Layout K)
    (hL : L = run xMin xMax yMin h) (hf : Fits L) {row pad p : ℤ} (hp : IsPad L row pad)
    (hidx : getPadIndex L row pad = .ok p) {c : K × K} (hc : getPadCenter L p = .ok c)
    {H W : K} (hH : getRowHeight L row = .ok H) (hH0 : 0 < H) (hW : getPadPitch L p = .ok W)
    (hW0 : 0 < W) (res : Res ℤ) (hn : Nearest L c.1 c.2 res) : res = .ok p := by
  have hw : Wf xMin xMax yMin L := by rw [hL]; exact wf_run xMin xMax yMin h
  obtain ⟨r, hr, hp0, hp1⟩ := hp
  obtain ⟨henc, -⟩ := encode_of_getPadIndex hidx
  have hrb := rowBits_encode henc
  have hpb := padBits_encode' henc hp0 (by have := hf.2 r (elem_mem hr); omega)
  have hr' := hr
  rw [← hrb] at hr'
  have hbox := hasBox_of hr'
  rw [hbox.1] at hc; cases hc
  have e1 : r.height = H := by simpa [getRowHeight, elemAt_of hr] using hH
  have e2 : r.widthPerPad = W := by
    simpa [getPadPitch, getRowNumber_elem hr', elemUb_of hr'] using hW
  rw [← e1] at hH0
  rw [← e2] at hW0
  obtain ⟨k, rfl, hk⟩ := elem_eq_some.1 hr
  have hmem := List.mem_of_getElem? hk
  have hok := hw.rowOk r hmem
  have hcen := center_eq hw hk
  have hbs := bot_succ (yMin := yMin) hk
  have hb0 := yMin_le_bot hw k
  have hb1 := bot_le_yMax hw (k + 1)
  have hpos : yMin < L.yMax := by linarith
  have hcovers : Covers r r.center := by
    unfold Covers; simp; linarith [hok.padHeight]
  have hcl : clamp L.yMin L.yMax r.center = r.center := by
    apply clamp_id <;> [rw [hw.eYMin]; skip] <;> linarith
  obtain ⟨fuel, hn⟩ := hn
  have hgap : NoOuterGap L (clamp L.yMin L.yMax r.center) := by
    rw [hcl]; exact covers_noOuterGap hw hk hcovers
  have hK0 : (0 : K) ≤ (pad : K) := by exact_mod_cast hp0
  have hK1 : (pad : K) + 1 ≤ (r.nPad : K) := by exact_mod_cast hp1
  have hm1 : 0 ≤ (pad : K) * r.widthPerPad := mul_nonneg hK0 hW0.le
  have hm2 := mul_le_mul_of_nonneg_right hK1 hW0.le
  rw [widthPerPad_mul hw hmem] at hm2
  rw [hpb] at hn
  have hxc : clamp L.xMin L.xMax (L.xMin + r.leftOffset + pad * r.widthPerPad + r.widthPerPad / 2)
      = L.xMin + r.leftOffset + pad * r.widthPerPad + r.widthPerPad / 2 := by
    have := hok.left
    have := hok.right
    apply clamp_id <;> simp only [hw.eXMin, hw.eXMax] <;> linarith
  rcases nearest_safe hw hf hpos (x := L.xMin + r.leftOffset + pad * r.widthPerPad +
      r.widthPerPad / 2) hgap fuel with h1 | ⟨j, r2, q, h1, hj, he, -, -, hcov⟩
  · simp only at hn; rw [h1] at hn; cases hn
  · simp only at hn; rw [h1] at hn; cases hn
    rw [hcl] at hcov
    have hcb := covers_bounds hw hj (hcov k r hk hcovers)
    have hjk : j = k := by
      rcases lt_trichotomy j k with hlt | heq | hgt
      · have := bot_mono (yMin := yMin) hw (show j + 1 ≤ k from hlt)
        linarith [hcb.2]
      · exact heq
      · have := bot_mono (yMin := yMin) hw (show k + 1 ≤ j from hgt)
        linarith [hcb.1]
    subst hjk
    rw [hk] at hj; cases hj
    have hpo : padOf L r (L.xMin + r.leftOffset + pad * r.widthPerPad + r.widthPerPad / 2) = pad := by
      unfold padOf
      rw [hw.eXMin, hw.eXMax, if_neg (by linarith), if_neg (by linarith)]
      have hv : (xMin + r.leftOffset + pad * r.widthPerPad + r.widthPerPad / 2 -
          (xMin + r.leftOffset)) / r.widthPerPad = (pad : K) + 1 / 2 := by
        field_simp; ring
      rw [hv, truncInt_nonneg (by linarith), Int.floor_eq_iff]
      constructor <;> linarith
    rw [hxc, hpo, henc] at he
    exact he.symm

/-- Rows that only grow or only shrink: `getNearestPad` of a pad's centre returns that pad.
Partial: otherwise the search may not end (`nearest_false_loop`), see `nearest_center` for what holds then. -/
theorem nearest_center_partial (xMin xMax yMin : K) (h : List (Op K)) (L : Layout K)
    (hL : L = run xMin xMax yMin h) (hf : Fits L) (hm : HeightsMonotone L) {row pad p : ℤ}
    (hp : IsPad L row pad) (hidx : getPadIndex L row pad = .ok p) {c : K × K}
    (hc : getPadCenter L p = .ok c) {H W : K} (hH' : getRowHeight L row = .ok H) (hH : 0 < H)
    (hW : getPadPitch L p = .ok W) (hW0 : 0 < W) :
    Nearest L c.1 c.2 (.ok p) := by
  have hw : Wf xMin xMax yMin L := by rw [hL]; exact wf_run xMin xMax yMin h
  have hp' := hp
  obtain ⟨r, hr, hp0, hp1⟩ := hp
  obtain ⟨k, rfl, hk⟩ := elem_eq_some.1 hr
  have hkl := (elem_range hr).2
  have hok := hw.rowOk r (elem_mem hr)
  have hrb := rowBits_encode (encode_of_getPadIndex hidx).1
  have hr' := hr
  rw [← hrb] at hr'
  have hb := hasBox_of hr'
  have hc' := hc
  rw [hb.1] at hc'; cases hc'
  have hcovers : Covers r r.center := by
    unfold Covers; simp; linarith [hok.padHeight]
  have hrh : r.height = H := by simpa [getRowHeight, elemAt_of hr] using hH'
  have hcen := center_eq hw hk
  have hbs := bot_succ (yMin := yMin) hk
  have hb0 := yMin_le_bot hw k
  have hb1 := bot_le_yMax hw (k + 1)
  have hmax : max L.yMin (min L.yMax r.center) = r.center := by
    rw [min_eq_right (by linarith), max_eq_right (by rw [hw.eYMin]; linarith)]
  have hgap := covers_noOuterGap hw hk hcovers
  have hreach : ReachesPads L r.center := by
    rw [ReachesPads, hmax]
    constructor
    · intro q c' hh h1 h2 h3
      obtain ⟨e, r2, hr2⟩ := getRowNumber_ok h1
      have hr2' := hr2; rw [e] at hr2'
      have hb2 := hasBox_of hr2'
      rw [hb2.1] at h2; cases h2
      rw [hb2.2.2] at h3; cases h3
      exact hgap.1 r2 (by simpa [elem] using hr2)
    · intro q c' hh h1 h2 h3
      obtain ⟨e, r2, hr2⟩ := getRowNumber_ok h1
      have hr2' := hr2; rw [e] at hr2'
      have hb2 := hasBox_of hr2'
      rw [hb2.1] at h2; cases h2
      rw [hb2.2.2] at h3; cases h3
      refine hgap.2 r2 ?_
      obtain ⟨m, hm, hm2⟩ := elem_eq_some.1 hr2
      have : L.rows.length - 1 = m := by simp only [getNRows] at hm; omega
      rw [this]; exact hm2
  obtain ⟨q, hq, -⟩ := nearest_terminates_partial xMin xMax yMin h L hL hf
    (by rw [hw.eYMin]; linarith) hm
    (L.xMin + r.leftOffset + padBits p * r.widthPerPad + r.widthPerPad / 2) r.center hreach
  have := nearest_center xMin xMax yMin h L hL hf hp' hidx hc hH' hH hW hW0 _ hq
  cases this
  exact hq

example : getPadPitch exampleLayout 262145 = .ok (1/4) ∧ IsPad exampleLayout 4 1 ∧
    getPadIndex exampleLayout 4 1 = .ok 262145 := by
  refine ⟨by decide +kernel, ⟨⟨4, 2/10, 8/10, 1, 0, 0, 19/2, 1/4⟩, by decide +kernel, by decide,
    by decide⟩, by decide +kernel⟩

/-! ### C17 the point's pad is the nearest pad -/

/-- If the point is in a pad, and not on its upper or lower border, then every outcome of `getNearestPad` is a
pad that contains the point. -/
theorem nearest_contains (xMin xMax yMin : K) (h : List (Op K)) (L : Layout K)
    (hL : L = run xMin xMax yMin h) (hf : Fits L) {x y : K} {p : ℤ} (hp : IsPadIndex L p)
    {c : K × K} {w hh : K} (hb : HasBox L p c w hh) (hx : |x - c.1| ≤ w / 2) (hy : |y - c.2| < hh / 2)
    (res : Res ℤ) (hn : Nearest L x y res) :
    ∃ q, res = .ok q ∧ IsPadIndex L q ∧ isInsidePad L x y q = .ok true := by
  have hw : Wf xMin xMax yMin L := by rw [hL]; exact wf_run xMin xMax yMin h
  obtain ⟨row, pad, ⟨r, hr, hp0, hp1⟩, hidx⟩ := hp
  obtain ⟨henc, -⟩ := encode_of_getPadIndex hidx
  have hrb := rowBits_encode henc
  have hpb := padBits_encode' henc hp0 (by have := hf.2 r (elem_mem hr); omega)
  obtain ⟨r', hr', rfl, rfl, rfl⟩ := hasBox_inv hb
  rw [hrb, hr] at hr'; cases hr'
  rw [hpb] at hx
  simp only at hx hy
  obtain ⟨k, rfl, hk⟩ := elem_eq_some.1 hr
  have hmem := List.mem_of_getElem? hk
  have hok := hw.rowOk r hmem
  have hcen := center_eq hw hk
  have hbs := bot_succ (yMin := yMin) hk
  have hb0 := yMin_le_bot hw k
  have hb1 := bot_le_yMax hw (k + 1)
  obtain ⟨a1, a2⟩ := abs_lt.1 hy
  have hcovers : Covers r y := hy.le
  have hpos : yMin < L.yMax := by linarith [hok.height]
  have hcl : clamp L.yMin L.yMax y = y := by
    apply clamp_id <;> [rw [hw.eYMin]; skip] <;> linarith [hok.height]
  obtain ⟨fuel, hn⟩ := hn
  have hgap : NoOuterGap L (clamp L.yMin L.yMax y) := by
    rw [hcl]; exact covers_noOuterGap hw hk hcovers
  obtain ⟨b1, b2⟩ := abs_le.1 hx
  have hwp := padWidth_le hw hmem
  have hW0 : 0 ≤ r.widthPerPad := hok.padWidth.trans hwp
  have hK0 : (0 : K) ≤ (pad : K) := by exact_mod_cast hp0
  have hK1 : (pad : K) + 1 ≤ (r.nPad : K) := by exact_mod_cast hp1
  have hm1 : 0 ≤ (pad : K) * r.widthPerPad := mul_nonneg hK0 hW0
  have hm2 := mul_le_mul_of_nonneg_right hK1 hW0
  rw [widthPerPad_mul hw hmem] at hm2
  have hxc : clamp L.xMin L.xMax x = x := by
    have := hok.left
    have := hok.right
    rw [hw.eXMin] at b1 b2 ⊢
    rw [hw.eXMax]
    apply clamp_id <;> linarith
  rcases nearest_safe hw hf hpos (x := x) hgap fuel with h1 | ⟨j, r2, q, h1, hj, he, hqr, hqp, hcov⟩
  · rw [h1] at hn; cases hn
  · rw [h1] at hn; cases hn
    rw [hcl] at hcov
    have hcj := hcov k r hk hcovers
    have hcb := covers_bounds hw hj hcj
    have hjk : j = k := by
      rcases lt_trichotomy j k with hlt | heq | hgt
      · have := bot_mono (yMin := yMin) hw (show j + 1 ≤ k from hlt)
        linarith [hcb.2, hok.height]
      · exact heq
      · have := bot_mono (yMin := yMin) hw (show k + 1 ≤ j from hgt)
        linarith [hcb.1, hok.height]
    subst hjk
    rw [hk] at hj; cases hj
    rw [hxc] at he hqp
    obtain ⟨h0, h2, hbox⟩ := padOf_spec hw hmem x
    refine ⟨q, rfl, ⟨j, padOf L r x, ⟨r, hr, h0, h2⟩, ?_⟩, ?_⟩
    · rw [getPadIndex_of hr (by have := hf.1; have := (elem_range hr).2; omega) (by omega)]
      exact he
    · have hr2 : elem L.rows (rowBits q) = some r := by rw [hqr]; exact hr
      rw [isInsidePad_of hr2, hqp]
      have := hbox pad hp0 hp1 hx
      simp only [Res.ok.injEq, decide_eq_true_eq]
      exact ⟨this, hcj⟩

/-- For a point strictly inside a pad every outcome is that pad. -/
theorem nearest_of_strictlyInPad (xMin xMax yMin : K) (h : List (Op K)) (L : Layout K)
    (hL : L = run xMin xMax yMin h) (hf : Fits L) {x y : K} {p : ℤ} (hp : IsPadIndex L p)
    (hs : StrictlyInPad L x y p) (res : Res ℤ) (hn : Nearest L x y res) : res = .ok p := by
  have hs' := hs
  obtain ⟨c, w, hh, hb, hx, hy⟩ := hs
  obtain ⟨q, rfl, hq, hin⟩ := nearest_contains xMin xMax yMin h L hL hf hp hb hx.le hy res hn
  have hint : ∀ {a : ℤ}, IsPadIndex L a → IsInt a := by
    rintro a ⟨row, pad, -, hidx⟩
    obtain ⟨henc, -⟩ := encode_of_getPadIndex hidx
    exact encode_isInt henc
  subst hL
  rw [pads_disjoint xMin xMax yMin h x y (hint hp) (hint hq) hs' hin]

/-- `isInsidePad(x, y)` is true only if the point is in a pad, and is true for every point in a pad that is
not on the upper or lower border of the pad.  Partial: whether the search ends is
`nearest_terminates_partial`; on a border between two rows see `insideAny_false_border`. -/
theorem insideAny_partial (xMin xMax yMin : K) (h : List (Op K)) (L : Layout K)
    (hL : L = run xMin xMax yMin h) (hf : Fits L) (x y : K) (b : Bool)
    (hi : InsideAny L x y (.ok b)) :
    (b = true → ∃ p, InPad L x y p) ∧
    ((∃ p c w hh, IsPadIndex L p ∧ HasBox L p c w hh ∧ |x - c.1| ≤ w / 2 ∧ |y - c.2| < hh / 2) →
      b = true) := by
  have hw : Wf xMin xMax yMin L := by rw [hL]; exact wf_run xMin xMax yMin h
  obtain ⟨fuel, hi⟩ := hi
  unfold isInsideAnyPad at hi
  split_ifs at hi with hout
  · simp only [Option.some.injEq, Res.ok.injEq] at hi
    subst hi
    refine ⟨by simp, ?_⟩
    rintro ⟨p, c, w, hh, ⟨row, pad, ⟨r, hr, hp0, hp1⟩, hidx⟩, hb, hx, hy⟩
    exfalso
    obtain ⟨henc, -⟩ := encode_of_getPadIndex hidx
    have hrb := rowBits_encode henc
    have hpb := padBits_encode' henc hp0 (by have := hf.2 r (elem_mem hr); omega)
    obtain ⟨r', hr', rfl, rfl, rfl⟩ := hasBox_inv hb
    rw [hrb, hr] at hr'; cases hr'
    rw [hpb] at hx
    simp only at hx hy
    obtain ⟨k, rfl, hk⟩ := elem_eq_some.1 hr
    have hmem := List.mem_of_getElem? hk
    have hok := hw.rowOk r hmem
    have hcen := center_eq hw hk
    have hbs := bot_succ (yMin := yMin) hk
    have hb0 := yMin_le_bot hw k
    have hb1 := bot_le_yMax hw (k + 1)
    obtain ⟨a1, a2⟩ := abs_lt.1 hy
    obtain ⟨b1, b2⟩ := abs_le.1 hx
    have hwp := padWidth_le hw hmem
    have hW0 : 0 ≤ r.widthPerPad := hok.padWidth.trans hwp
    have hK0 : (0 : K) ≤ (pad : K) := by exact_mod_cast hp0
    have hK1 : (pad : K) + 1 ≤ (r.nPad : K) := by exact_mod_cast hp1
    have hm1 : 0 ≤ (pad : K) * r.widthPerPad := mul_nonneg hK0 hW0
    have hm2 := mul_le_mul_of_nonneg_right hK1 hW0
    rw [widthPerPad_mul hw hmem] at hm2
    rw [hw.eXMin] at b1 b2 hout
    rw [hw.eXMax, hw.eYMin] at hout
    have := hok.left
    have := hok.right
    have := hok.height
    rcases hout with h1 | h1 | h1 | h1 <;> linarith
  · cases hn : getNearestPad L x y fuel with
    | none => rw [hn] at hi; simp at hi
    | some o =>
      rw [hn] at hi
      cases o with
      | throw e => simp at hi
      | ub => simp at hi
      | ok q =>
        simp only [Option.some.injEq] at hi
        constructor
        · rintro rfl
          exact ⟨q, (isInsidePad_iff L x y q).1 hi⟩
        · rintro ⟨p, c, w, hh, hp, hb, hx, hy⟩
          obtain ⟨q', hq', -, hin⟩ :=
            nearest_contains xMin xMax yMin h L hL hf hp hb hx hy (.ok q) ⟨fuel, hn⟩
          cases hq'
          rw [hin] at hi
          exact (Res.ok.inj hi).symm

/-- On the border between two rows a point of a pad of one row can be reported outside, when it is in the gap
between two pads of the other row. -/
theorem insideAny_false_border : ∃ L : Layout ℚ,
    L = run 0 1 0 [.addRow 1 2 (1/2) 1 1 0 0, .addRow 1 2 (1/4) 1 1 0 0] ∧
    isInsidePad L (1/2) 1 0 = .ok true ∧ InsideAny L (1/2) 1 (.ok false) :=
  ⟨_, rfl, by decide +kernel, 1, by decide +kernel⟩

example : IsPadIndex exampleLayout 262145 ∧ StrictlyInPad exampleLayout (3/8) (19/2) 262145 ∧
    InsideAny exampleLayout (3/8) (19/2) (.ok true) ∧ InsideAny exampleLayout (1/8) 6 (.ok false) := by
  refine ⟨⟨4, 1, ⟨⟨4, 2/10, 8/10, 1, 0, 0, 19/2, 1/4⟩, by decide +kernel, by decide, by decide⟩,
    by decide +kernel⟩, ⟨(3/8, 19/2), 2/10, 8/10,
    ⟨by decide +kernel, by decide +kernel, by decide +kernel⟩, by norm_num, by norm_num⟩,
    ⟨2, by decide +kernel⟩, ⟨2, by decide +kernel⟩⟩

/-! ### C18 neighbours -/

open Classical in
/-- The right neighbour of a pad is the next pad of its row, the left neighbour the previous one; at the ends
of the row the calls throw. -/
theorem neighbours (L : Layout K) (hf : Fits L) {row pad p : ℤ} (hp : IsPad L row pad)
    (hidx : getPadIndex L row pad = .ok p) :
    getRightNeighbour L p =
      (if IsPad L row (pad + 1) then getPadIndex L row (pad + 1) else .throw .gear) ∧
    getLeftNeighbour L p =
      (if IsPad L row (pad - 1) then getPadIndex L row (pad - 1) else .throw .gear) := by
  classical
  obtain ⟨r, hr, h0, h1⟩ := hp
  obtain ⟨henc, -⟩ := encode_of_getPadIndex hidx
  have hrb := rowBits_encode henc
  have hpb := padBits_encode' henc h0 (by have := hf.2 r (elem_mem hr); omega)
  have hr' := hr
  rw [← hrb] at hr'
  have hrn := getRowNumber_elem hr'
  have hiff : ∀ k, IsPad L row k ↔ 0 ≤ k ∧ k < r.nPad := by
    intro k
    constructor
    · rintro ⟨r2, h2, h3⟩; rw [hr] at h2; cases h2; exact h3
    · intro h3; exact ⟨r, hr, h3⟩
  constructor
  · unfold getRightNeighbour
    simp only [hrn, hrb, Res.bind_ok, elemAt_of hr, getPadNumber, hpb, hiff]
    by_cases h3 : pad + 1 < r.nPad
    · rw [if_neg (by omega), if_pos (by omega)]
    · rw [if_pos (by omega), if_neg (by omega)]
  · unfold getLeftNeighbour
    simp only [hrn, hrb, Res.bind_ok, getPadNumber, hpb, hiff]
    by_cases h3 : 0 ≤ pad - 1
    · rw [if_neg (by omega), if_pos (by omega)]
    · rw [if_pos (by omega), if_neg (by omega)]

/-- Left and right are inverse. -/
theorem left_right (L : Layout K) (hf : Fits L) {row pad p q : ℤ} (hp : IsPad L row pad)
    (hidx : getPadIndex L row pad = .ok p) (hq : getRightNeighbour L p = .ok q) :
    getLeftNeighbour L q = .ok p := by
  classical
  rw [(neighbours L hf hp hidx).1] at hq
  split_ifs at hq with h1
  rw [(neighbours L hf h1 hq).2]
  have e : pad + 1 - 1 = pad := by ring
  rw [e, if_pos hp, hidx]

theorem right_left (L : Layout K) (hf : Fits L) {row pad p q : ℤ} (hp : IsPad L row pad)
    (hidx : getPadIndex L row pad = .ok p) (hq : getLeftNeighbour L p = .ok q) :
    getRightNeighbour L q = .ok p := by
  classical
  rw [(neighbours L hf hp hidx).2] at hq
  split_ifs at hq with h1
  rw [(neighbours L hf h1 hq).1]
  have e : pad - 1 + 1 = pad := by ring
  rw [e, if_pos hp, hidx]

/-- The right neighbour lies one pitch to the right. -/
theorem right_center (L : Layout K) (hf : Fits L) {row pad p q : ℤ} (hp : IsPad L row pad)
    (hidx : getPadIndex L row pad = .ok p) (hq : getRightNeighbour L p = .ok q) :
    ∃ c c' W, getPadCenter L p = .ok c ∧ getPadCenter L q = .ok c' ∧ getPadPitch L p = .ok W ∧
      c' = (c.1 + W, c.2) := by
  classical
  rw [(neighbours L hf hp hidx).1] at hq
  split_ifs at hq with h1
  obtain ⟨r, hr, h0, h2⟩ := hp
  obtain ⟨r2, hr2, h02, h22⟩ := h1
  rw [hr] at hr2; cases hr2
  have hm := hf.2 r (elem_mem hr)
  obtain ⟨henc, -⟩ := encode_of_getPadIndex hidx
  obtain ⟨henc', -⟩ := encode_of_getPadIndex hq
  have hrb := rowBits_encode henc
  have hrb' := rowBits_encode henc'
  have hpb := padBits_encode' henc h0 (by omega)
  have hpb' := padBits_encode' henc' h02 (by omega)
  have a := hr; rw [← hrb] at a
  have b := hr; rw [← hrb'] at b
  refine ⟨_, _, r.widthPerPad, (hasBox_of a).1, (hasBox_of b).1, ?_, ?_⟩
  · simp [getPadPitch, getRowNumber_elem a, elemUb_of a]
  · rw [hpb, hpb']
    refine Prod.ext ?_ rfl
    simp only
    push_cast; ring

example : getRightNeighbour exampleLayout 0 = .ok 1 ∧ getLeftNeighbour exampleLayout 1 = .ok 0 ∧
    getRightNeighbour exampleLayout 3 = .throw .gear ∧
    getLeftNeighbour exampleLayout 65536 = .throw .gear := by decide +kernel

/-! ### C19 a copy behaves like the original -/

/-- Partial: the copy answers every query except `getPadsInRow` like the original.  Missing:
`getPadsInRow`, see `copy_false_lists`. -/
theorem copy_queries_partial (L : Layout K) :
    getNPads (copy L) = getNPads L ∧ getNRows (copy L) = getNRows L ∧
    getPlaneExtent (copy L) = getPlaneExtent L ∧
    (∀ i, getRowHeight (copy L) i = getRowHeight L i) ∧
    (∀ p, getRowNumber (copy L) p = getRowNumber L p ∧ getPadNumber (copy L) p = getPadNumber L p ∧
      getPadWidth (copy L) p = getPadWidth L p ∧ getPadHeight (copy L) p = getPadHeight L p ∧
      getPadPitch (copy L) p = getPadPitch L p ∧ getPadCenter (copy L) p = getPadCenter L p ∧
      getRightNeighbour (copy L) p = getRightNeighbour L p ∧
      getLeftNeighbour (copy L) p = getLeftNeighbour L p) ∧
    (∀ row pad, getPadIndex (copy L) row pad = getPadIndex L row pad) ∧
    (∀ x y p, isInsidePad (copy L) x y p = isInsidePad L x y p) ∧
    (∀ x y r, Nearest (copy L) x y r ↔ Nearest L x y r) ∧
    (∀ x y r, InsideAny (copy L) x y r ↔ InsideAny L x y r) := by
  have hs : ∀ y f i, search (copy L) y f i = search L y f i := by
    intro y f
    induction f with
    | zero => intro i; rfl
    | succ f ih =>
      intro i
      have hp : pass (copy L) y i = pass L y i := rfl
      simp only [search, hp, ih]
  have hn : ∀ x y f, getNearestPad (copy L) x y f = getNearestPad L x y f := by
    intro x y f
    unfold getNearestPad
    simp only [hs]
    rfl
  have hi : ∀ x y f, isInsideAnyPad (copy L) x y f = isInsideAnyPad L x y f := by
    intro x y f
    unfold isInsideAnyPad
    rw [hn]
    rfl
  refine ⟨rfl, rfl, rfl, fun _ => rfl, fun _ => ⟨rfl, rfl, rfl, rfl, rfl, rfl, rfl, rfl⟩,
    fun _ _ => rfl, fun _ _ _ => rfl, ?_, ?_⟩
  · intro x y r; simp only [Nearest, hn]
  · intro x y r; simp only [InsideAny, hi]

/-- The pad lists of the copy of a layout with rows are empty. -/
theorem copy_false_lists : (getPadsInRow exampleLayout 0).2 = .ok [0, 1, 2, 3] ∧
    (getPadsInRow (copy exampleLayout) 0).2 = .ok [] := by decide +kernel

end Gear.Rect
