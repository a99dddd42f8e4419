/-
Property C152: no pad of a rectangular layout is nearer than the one `getNearestPad` returns.
-/
import Verif.RectDistanceProps

set_option autoImplicit false
set_option linter.unusedSectionVars false

namespace Gear.Rect

open PadIndex Spec

section field

variable {K : Type} [Field K] [LinearOrder K] [IsStrictOrderedRing K] [FloorRing K]

namespace Spec

/-- How far the pad `p` is from `x`, in the direction of the rows. -/
def XGap (L : Layout K) (x : K) (p : ℤ) (d : K) : Prop := ∃ c w h, HasBox L p c w h ∧ d = max 0 (|x - c.1| - w / 2)

/-- In the direction of the rows all rows are equally near to `x`: whatever pad there is, every row has one that is not
further. -/
def RowsAlike (L : Layout K) (x : K) : Prop :=
  ∀ p' d', IsPadIndex L p' → XGap L x p' d' → ∀ row, 0 ≤ row ∧ row < getNRows L →
    ∃ pad p d, IsPad L row pad ∧ getPadIndex L row pad = .ok p ∧ XGap L x p d ∧ d ≤ d'

/-- The pads of all rows are in line: for every pad of a row all rows have a pad of the same number, width and horizontal
position. -/
def Aligned (L : Layout K) : Prop :=
  ∀ row pad p, IsPad L row pad → getPadIndex L row pad = .ok p → ∀ row', 0 ≤ row' ∧ row' < getNRows L →
    ∃ p', IsPad L row' pad ∧ getPadIndex L row' pad = .ok p' ∧ getPadWidth L p' = getPadWidth L p ∧
      ∃ c c', getPadCenter L p = .ok c ∧ getPadCenter L p' = .ok c' ∧ c'.1 = c.1

/-- Every row has a pad at every place of the extent: no gaps and no offsets. -/
def NoGaps (L : Layout K) : Prop :=
  ∀ row, 0 ≤ row ∧ row < getNRows L → ∀ x, L.xMin ≤ x → x ≤ L.xMax →
    ∃ pad p c w, IsPad L row pad ∧ getPadIndex L row pad = .ok p ∧ getPadCenter L p = .ok c ∧ getPadWidth L p = .ok w ∧
      |x - c.1| ≤ w / 2

end Spec

variable {xMin xMax yMin : K} {L : Layout K}

/-- The vertical distance of the pads of a row. -/
def yGap (r : Row K) (y : K) : K := max 0 (|y - r.center| - r.padHeight / 2)

theorem yGap_covers {r : Row K} {y : K} (h : |y - r.center| ≤ r.padHeight / 2) : yGap r y = 0 :=
  max_eq_left (by linarith)

theorem row_band (hw : Wf xMin xMax yMin L) {i : ℕ} {r : Row K} (h : L.rows[i]? = some r) :
    bot yMin L i ≤ r.center - r.padHeight / 2 ∧ r.center + r.padHeight / 2 ≤ bot yMin L (i + 1) ∧ 0 ≤ r.padHeight := by
  have hr := hw.rowOk r (List.mem_of_getElem? h)
  have hc := center_eq hw h
  have hb := bot_succ (yMin := yMin) h
  have := hr.height
  exact ⟨by linarith, by linarith, hr.padHeight⟩

theorem yGap_above {r : Row K} {y : K} (h : r.center + r.padHeight / 2 ≤ y) (h0 : 0 ≤ r.padHeight) :
    yGap r y = y - (r.center + r.padHeight / 2) := by
  unfold yGap
  rw [abs_of_nonneg (by linarith), max_eq_right (by linarith)]; ring

theorem yGap_below {r : Row K} {y : K} (h : y ≤ r.center - r.padHeight / 2) (h0 : 0 ≤ r.padHeight) :
    yGap r y = r.center - r.padHeight / 2 - y := by
  unfold yGap
  rw [abs_of_nonpos (by linarith), max_eq_right (by linarith)]; ring

/-- The row a pass ends with is the nearest in the vertical direction. -/
theorem pass_nearest (hw : Wf xMin xMax yMin L) {y : K} {i j : ℕ} {r r' : Row K} (h : L.rows[i]? = some r)
    (hin : |y - r.center| ≤ r.height / 2) (hp : pass L y i = .ok (.done j)) (hj : L.rows[j]? = some r') {k : ℕ} {q : Row K}
    (hk : L.rows[k]? = some q) : yGap r' y ≤ yGap q y := by
  have hel : elem L.rows (i : ℤ) = some r := by rw [elem_nat]; exact h
  have hc := center_eq hw h
  have hbs := bot_succ (yMin := yMin) h
  obtain ⟨b1, b2, b3⟩ := row_band hw h
  obtain ⟨q1, q2, q3⟩ := row_band hw hk
  obtain ⟨i1, i2⟩ := abs_le.1 hin
  unfold pass at hp
  rw [elemUb_of hel, Res.bind_ok] at hp
  dsimp only at hp
  by_cases c1 : |y - r.center| ≤ r.padHeight / 2
  · rw [if_pos c1, Res.pure_eq] at hp
    have hp' := Res.ok.inj hp
    have : j = i := by have := Pass.done.inj hp'; omega
    subst this
    rw [h] at hj; cases hj
    rw [yGap_covers c1]; exact le_max_left _ _
  rw [if_neg c1, if_pos hin] at hp
  by_cases c2 : y - r.center < 0
  · simp only [if_pos c2] at hp
    have c1' : y < r.center - r.padHeight / 2 := by
      rw [abs_of_neg c2] at c1; linarith
    cases he : elem L.rows ((i : ℤ) - 1) with
    | none => simp [elemUb, he] at hp
    | some n =>
      rw [elemUb_of he, Res.bind_ok, Res.pure_eq] at hp
      obtain ⟨m, hm, hn⟩ := elem_eq_some.1 he
      obtain ⟨n1, n2, n3⟩ := row_band hw hn
      have hmi : m + 1 = i := by omega
      rw [hmi] at n2
      have hny : yGap n y = y - (n.center + n.padHeight / 2) := yGap_above (by linarith) n3
      have hry : yGap r y = r.center - r.padHeight / 2 - y := yGap_below c1'.le b3
      have key : yGap n y ≤ yGap q y ∨ yGap r y ≤ yGap q y := by
        rcases Nat.lt_or_ge k m with hlt | hge
        · left
          have := bot_mono hw (show k + 1 ≤ m from hlt)
          rw [hny, yGap_above (r := q) (by linarith) q3]; linarith
        · rcases Nat.lt_or_ge i k with hgt | hle
          · right
            have := bot_mono hw (show i + 1 ≤ k from hgt)
            rw [hry, yGap_below (r := q) (by linarith) q3]; linarith
          · rcases Nat.eq_or_lt_of_le hle with e | e
            · subst e; rw [h] at hk; cases hk; exact Or.inr le_rfl
            · have : k = m := by omega
              subst this; rw [hn] at hk; cases hk; exact Or.inl le_rfl
      have e1 : |y - n.center| - n.padHeight / 2 = yGap n y := by
        rw [hny, abs_of_nonneg (by linarith)]; ring
      have e2 : |y - r.center| - r.padHeight / 2 = yGap r y := by
        rw [hry, abs_of_neg c2]; ring
      rw [e1, e2] at hp
      have hp' := Pass.done.inj (Res.ok.inj hp)
      split_ifs at hp' with c3
      · have : j = m := by omega
        subst this; rw [hn] at hj; cases hj
        rcases key with h1 | h1
        · exact h1
        · linarith
      · have : j = i := by omega
        subst this; rw [h] at hj; cases hj
        rcases key with h1 | h1
        · linarith
        · exact h1
  · simp only [if_neg c2] at hp
    have c2' := not_lt.1 c2
    have c1' : r.center + r.padHeight / 2 < y := by
      rw [abs_of_nonneg c2'] at c1; linarith
    cases he : elem L.rows ((i : ℤ) + 1) with
    | none => simp [elemUb, he] at hp
    | some n =>
      rw [elemUb_of he, Res.bind_ok, Res.pure_eq] at hp
      obtain ⟨m, hm, hn⟩ := elem_eq_some.1 he
      obtain ⟨n1, n2, n3⟩ := row_band hw hn
      have hmi : m = i + 1 := by omega
      subst hmi
      have hny : yGap n y = n.center - n.padHeight / 2 - y := yGap_below (by linarith) n3
      have hry : yGap r y = y - (r.center + r.padHeight / 2) := yGap_above c1'.le b3
      have key : yGap n y ≤ yGap q y ∨ yGap r y ≤ yGap q y := by
        rcases Nat.lt_or_ge k i with hlt | hge
        · right
          have := bot_mono hw (show k + 1 ≤ i from hlt)
          rw [hry, yGap_above (r := q) (by linarith) q3]; linarith
        · rcases Nat.lt_or_ge (i + 1) k with hgt | hle
          · left
            have := bot_mono hw (show i + 1 + 1 ≤ k from hgt)
            rw [hny, yGap_below (r := q) (by linarith) q3]; linarith
          · rcases Nat.eq_or_lt_of_le hle with e | e
            · subst e; rw [hn] at hk; cases hk; exact Or.inl le_rfl
            · have : k = i := by omega
              subst this; rw [h] at hk; cases hk; exact Or.inr le_rfl
      have e1 : |y - n.center| - n.padHeight / 2 = yGap n y := by
        rw [hny, abs_of_nonpos (by linarith)]; ring
      have e2 : |y - r.center| - r.padHeight / 2 = yGap r y := by
        rw [hry, abs_of_nonneg c2']; ring
      rw [e1, e2] at hp
      have hp' := Pass.done.inj (Res.ok.inj hp)
      split_ifs at hp' with c3
      · have : j = i + 1 := by omega
        subst this; rw [hn] at hj; cases hj
        rcases key with h1 | h1
        · exact h1
        · linarith
      · have : j = i := by omega
        subst this; rw [h] at hj; cases hj
        rcases key with h1 | h1
        · linarith
        · exact h1

/-- The row the search ends with is the nearest in the vertical direction. -/
theorem search_nearest (hw : Wf xMin xMax yMin L) {y : K} (hy0 : yMin ≤ y) (hy1 : y ≤ L.yMax) (hgap : NoOuterGap L y)
    (fuel : ℕ) : ∀ {i : ℕ} {r : Row K}, L.rows[i]? = some r → search L y fuel i = none ∨
    ∃ (j : ℕ) (r' : Row K), search L y fuel i = some (.ok j) ∧ L.rows[j]? = some r' ∧
      ∀ (k : ℕ) (q : Row K), L.rows[k]? = some q → yGap r' y ≤ yGap q y := by
  induction fuel with
  | zero => intro i r h; left; rfl
  | succ fuel ih =>
    intro i r h
    rcases pass_spec hw hy0 hy1 h hgap with ⟨j, r', hp, hj, hin, -⟩ | ⟨j, r', hp, hj, -⟩
    · right
      exact ⟨j, r', by simp only [search, hp], hj, fun k q hk => pass_nearest hw h hin hp hj hk⟩
    · have := ih hj
      simpa only [search, hp] using this

/-- The pad chosen in a row is the one with the nearest centre. -/
theorem padOf_nearest (hw : Wf xMin xMax yMin L) {r : Row K} (h : r ∈ L.rows) (x : K) {pn : ℤ} (hp0 : 0 ≤ pn)
    (hp1 : pn < r.nPad) :
    |x - (L.xMin + r.leftOffset + (padOf L r x : ℤ) * r.widthPerPad + r.widthPerPad / 2)| ≤
      |x - (L.xMin + r.leftOffset + pn * r.widthPerPad + r.widthPerPad / 2)| := by
  have hr := hw.rowOk r h
  have hmul := widthPerPad_mul hw h
  have hle := padWidth_le hw h
  have hn : (0 : K) < (r.nPad : K) := by exact_mod_cast hr.nPad
  have hw0 : 0 ≤ r.widthPerPad := hr.padWidth.trans hle
  have hpK : (0 : K) ≤ (pn : K) := by exact_mod_cast hp0
  have hpK1 : (pn : K) + 1 ≤ (r.nPad : K) := by exact_mod_cast hp1
  have m0 := mul_nonneg hpK hw0
  have m1 := mul_le_mul_of_nonneg_right hpK1 hw0
  unfold padOf
  rw [hw.eXMin, hw.eXMax]
  split_ifs with h1 h2
  · push_cast
    rw [abs_of_nonpos (by linarith), abs_of_nonpos (by linarith)]; linarith
  · push_cast
    rw [abs_of_nonneg (by linarith), abs_of_nonneg (by linarith)]; linarith
  · have h1' := not_le.1 h1
    have h2' := not_le.1 h2
    have hwpos : 0 < r.widthPerPad := by
      have : 0 < (r.nPad : K) * r.widthPerPad := by rw [hmul]; linarith
      exact (mul_pos_iff_of_pos_left hn).1 this
    have hv0 : 0 ≤ (x - (xMin + r.leftOffset)) / r.widthPerPad := div_nonneg (by linarith) hwpos.le
    rw [truncInt_nonneg hv0]
    have hf1 := Int.floor_le ((x - (xMin + r.leftOffset)) / r.widthPerPad)
    have hf2 := Int.lt_floor_add_one ((x - (xMin + r.leftOffset)) / r.widthPerPad)
    generalize ⌊(x - (xMin + r.leftOffset)) / r.widthPerPad⌋ = f at hf1 hf2 ⊢
    rw [le_div_iff₀ hwpos] at hf1
    rw [div_lt_iff₀ hwpos] at hf2
    have hhalf : |x - (xMin + r.leftOffset + (f : K) * r.widthPerPad + r.widthPerPad / 2)| ≤ r.widthPerPad / 2 := by
      rw [abs_le]; constructor <;> linarith
    rcases lt_trichotomy pn f with hlt | heq | hgt
    · have hK : (pn : K) + 1 ≤ (f : K) := by exact_mod_cast hlt
      have := mul_le_mul_of_nonneg_right hK hwpos.le
      refine hhalf.trans (le_trans ?_ (le_abs_self _)); linarith
    · rw [heq]
    · have hK : (f : K) + 1 ≤ (pn : K) := by exact_mod_cast hgt
      have := mul_le_mul_of_nonneg_right hK hwpos.le
      refine hhalf.trans (le_trans ?_ (neg_le_abs _)); linarith

/-- Moving a point into a range shortens its distance to everything in the range by the same amount. -/
theorem clamp_dist {lo hi v c : K} (h : lo ≤ hi) (h1 : lo ≤ c) (h2 : c ≤ hi) :
    |v - c| = |v - clamp lo hi v| + |clamp lo hi v - c| := by
  unfold clamp
  dsimp only
  split_ifs with a b b
  · linarith
  · rw [abs_of_nonpos (show v - c ≤ 0 by linarith), abs_of_nonpos (show v - lo ≤ 0 by linarith),
      abs_of_nonpos (show lo - c ≤ 0 by linarith)]; ring
  · rw [abs_of_nonneg (show 0 ≤ v - c by linarith), abs_of_nonneg (show 0 ≤ v - hi by linarith),
      abs_of_nonneg (show 0 ≤ hi - c by linarith)]; ring
  · rw [sub_self, abs_zero, zero_add]

/-- The same for the vertical distance of a row. -/
theorem clamp_yGap (hw : Wf xMin xMax yMin L) {i : ℕ} {r : Row K} (h : L.rows[i]? = some r) (y : K) :
    yGap r y = |y - clamp L.yMin L.yMax y| + yGap r (clamp L.yMin L.yMax y) := by
  obtain ⟨b1, b2, b3⟩ := row_band hw h
  have m0 := yMin_le_bot hw i
  have m1 := bot_le_yMax hw (i + 1)
  have e := hw.eYMin
  have hle : L.yMin ≤ L.yMax := by linarith
  unfold clamp
  dsimp only
  split_ifs with a b b
  · linarith
  · rw [abs_of_nonpos (show y - L.yMin ≤ 0 by linarith), yGap_below (r := r) (by linarith) b3,
      yGap_below (r := r) (by linarith) b3]; ring
  · rw [abs_of_nonneg (show 0 ≤ y - L.yMax by linarith), yGap_above (r := r) (by linarith) b3,
      yGap_above (r := r) (by linarith) b3]; ring
  · rw [sub_self, abs_zero, zero_add]

/-- The horizontal range of a pad. -/
theorem pad_band (hw : Wf xMin xMax yMin L) {r : Row K} (h : r ∈ L.rows) {pn : ℤ} (hp0 : 0 ≤ pn) (hp1 : pn < r.nPad) :
    xMin ≤ xMin + r.leftOffset + pn * r.widthPerPad + r.widthPerPad / 2 - r.padWidth / 2 ∧
    xMin + r.leftOffset + pn * r.widthPerPad + r.widthPerPad / 2 + r.padWidth / 2 ≤ xMax := by
  have hr := hw.rowOk r h
  have hmul := widthPerPad_mul hw h
  have hle := padWidth_le hw h
  have hw0 : 0 ≤ r.widthPerPad := hr.padWidth.trans hle
  have hpK : (0 : K) ≤ (pn : K) := by exact_mod_cast hp0
  have hpK1 : (pn : K) + 1 ≤ (r.nPad : K) := by exact_mod_cast hp1
  have m0 := mul_nonneg hpK hw0
  have m1 := mul_le_mul_of_nonneg_right hpK1 hw0
  have := hr.left
  have := hr.right
  constructor <;> linarith

/-- The row and the numbers of an existing pad. -/
theorem index_row (hf : Fits L) {row pad p : ℤ} (hp : IsPad L row pad) (h : getPadIndex L row pad = .ok p) :
    ∃ (k : ℕ) (r : Row K), row = k ∧ L.rows[k]? = some r ∧ elem L.rows (rowBits p) = some r ∧ rowBits p = row ∧
      padBits p = pad ∧ 0 ≤ pad ∧ pad < r.nPad := by
  obtain ⟨r, hr, h0, h1⟩ := hp
  obtain ⟨k, hk, hr'⟩ := elem_eq_some.1 hr
  have he := (encode_of_getPadIndex h).1
  have hb := rowBits_encode he
  have hpb := padBits_encode' he h0 (by have := hf.2 r (List.mem_of_getElem? hr'); omega)
  exact ⟨k, r, hk, hr', by rw [hb]; exact hr, hb, hpb, h0, h1⟩

/-- Rows in line are alike everywhere. -/
theorem aligned_alike (h : Aligned L) (hf : Fits L) (x : K) : RowsAlike L x := by
  rintro p' d' ⟨row, pad, hp, hi⟩ ⟨c, w, ph, ⟨hc, hw, -⟩, rfl⟩ row' hr
  obtain ⟨q, hq, hqi, hqw, c1, c2, e1, e2, e3⟩ := h row pad p' hp hi row' hr
  obtain ⟨k, r, -, -, hel, -⟩ := index_row hf hq hqi
  obtain ⟨b1, b2, b3⟩ := hasBox_of hel
  rw [hc] at e1
  have e1' := Res.ok.inj e1
  rw [hw] at hqw
  exact ⟨pad, q, _, hq, hqi, ⟨c2, w, _, ⟨e2, hqw, b3⟩, rfl⟩, by rw [e3, e1']⟩

/-- Rows without gaps are alike everywhere. -/
theorem noGaps_alike (hw : Wf xMin xMax yMin L) (h : NoGaps L) (hf : Fits L) (x : K) : RowsAlike L x := by
  rintro p' d' ⟨row, pad, hp, hi⟩ ⟨c, w, ph, hbox, rfl⟩ row' hr
  obtain ⟨k, r, -, hk, hel, -, hpb, p0, p1⟩ := index_row hf hp hi
  obtain ⟨r1, hr1, rfl, rfl, -⟩ := hasBox_inv hbox
  rw [hel] at hr1; cases hr1
  have hmem := List.mem_of_getElem? hk
  have hpw := (hw.rowOk r hmem).padWidth
  have hband := pad_band hw hmem p0 p1
  rw [← hw.eXMin, ← hw.eXMax] at hband
  have hle : L.xMin ≤ L.xMax := by linarith [hband.1, hband.2]
  obtain ⟨m1, m2⟩ := clamp_mem hle x
  obtain ⟨pad2, q, c2, w2, hq, hqi, hc2, hw2, hin⟩ := h row' hr _ m1 m2
  obtain ⟨k2, r2, -, -, hel2, -⟩ := index_row hf hq hqi
  obtain ⟨b1, b2, b3⟩ := hasBox_of hel2
  refine ⟨pad2, q, _, hq, hqi, ⟨c2, w2, _, ⟨hc2, hw2, b3⟩, rfl⟩, max_le (le_max_left _ _) ?_⟩
  have t := abs_sub_le x (clamp L.xMin L.xMax x) c2.1
  have t2 : |x - clamp L.xMin L.xMax x| ≤ max 0 (|x - (L.xMin + r.leftOffset + padBits p' * r.widthPerPad +
      r.widthPerPad / 2)| - r.padWidth / 2) := by
    rw [hpb]
    obtain ⟨g1, g2⟩ := hband
    unfold clamp
    dsimp only
    split_ifs with a b b
    · linarith
    · refine le_trans ?_ (le_max_right _ _)
      rw [abs_of_nonpos (by linarith), abs_of_nonpos (by linarith)]; linarith
    · refine le_trans ?_ (le_max_right _ _)
      rw [abs_of_nonneg (by linarith), abs_of_nonneg (by linarith)]; linarith
    · rw [sub_self, abs_zero]; exact le_max_left _ _
  dsimp only
  linarith

/-- Rows made with the same number and width of pads and the same offsets are in line. -/
theorem aligned_of_rows (hw : Wf xMin xMax yMin L) (hf : Fits L) (h : ∀ r ∈ L.rows, ∀ r' ∈ L.rows, r'.nPad = r.nPad ∧
    r'.padWidth = r.padWidth ∧ r'.leftOffset = r.leftOffset ∧ r'.widthPerPad = r.widthPerPad) : Aligned L := by
  intro row pad p hp hi row' hr
  obtain ⟨k, r, -, hk, hel, -, hpb, p0, p1⟩ := index_row hf hp hi
  obtain ⟨r', hr'⟩ := elem_isSome hr.1 (by simpa [getNRows] using hr.2)
  obtain ⟨e1, e2, e3, e4⟩ := h r (List.mem_of_getElem? hk) r' (elem_mem hr')
  have hip : IsPad L row' pad := ⟨r', hr', p0, by omega⟩
  obtain ⟨q, hq, -, -⟩ := padIndex_roundtrip_partial hf hip
  obtain ⟨k2, r2, hk2, hk2', hel2, -, hpb2, -, -⟩ := index_row hf hip hq
  have : r2 = r' := by rw [hk2, elem_nat, hk2'] at hr'; exact Option.some.inj hr'
  subst this
  obtain ⟨b1, b2, b3⟩ := hasBox_of hel
  obtain ⟨d1, d2, d3⟩ := hasBox_of hel2
  exact ⟨q, hip, hq, by rw [b2, d2, e2], _, _, b1, d1, by dsimp only; rw [hpb, hpb2, e3, e4]⟩

/-- The point of a range that is nearest to `v`. -/
theorem toEdge (v c : K) {w : K} (hw0 : 0 ≤ w) : ∃ t, |t - c| ≤ w / 2 ∧ |v - t| = max 0 (|v - c| - w / 2) := by
  by_cases a : |v - c| ≤ w / 2
  · exact ⟨v, a, by rw [sub_self, abs_zero, max_eq_left (by linarith)]⟩
  · have a' := not_le.1 a
    rcases le_total c v with b | b
    · rw [abs_of_nonneg (by linarith)] at a' ⊢
      refine ⟨c + w / 2, by rw [add_sub_cancel_left, abs_of_nonneg (by linarith)], ?_⟩
      rw [abs_of_nonneg (by linarith), max_eq_right (by linarith)]; ring
    · rw [abs_of_nonpos (by linarith)] at a' ⊢
      refine ⟨c - w / 2, by rw [sub_sub_cancel_left, abs_neg, abs_of_nonneg (by linarith)], ?_⟩
      rw [abs_of_nonpos (by linarith), max_eq_right (by linarith)]; ring

end field

/-! ### C152 no pad is nearer than the one returned -/

/-- Partial: at a place at which all rows are equally near in the direction of the rows, and unless the search does not end,
`getNearestPad` returns an existing pad, and no pad has a smaller distance.  Missing: points in the gap below the first or above
the last pads, where the search may read outside the table (`nearest_false_gap`), and places where the rows are not alike, see
`nearest_least_false`. -/
theorem nearest_least_partial (xMin xMax yMin : ℝ) (h : List (Op ℝ)) (L : Layout ℝ) (hL : L = run xMin xMax yMin h)
    (hf : Fits L) (hpos : L.yMin < L.yMax) {x y : ℝ} (hr : ReachesPads L y) (hx : RowsAlike L x) (res : Res ℤ)
    (hn : Nearest L x y res) :
    ∃ p D, res = .ok p ∧ IsPadIndex L p ∧ getDistanceToPad L x y p = .ok D ∧
      ∀ p', IsPadIndex L p' → ∃ D', getDistanceToPad L x y p' = .ok D' ∧ D ≤ D' := by
  have hw : Wf xMin xMax yMin L := by rw [hL]; exact wf_run xMin xMax yMin h
  obtain ⟨p, rfl, hpi⟩ := nearest_safe_partial xMin xMax yMin h L hL hf hpos x y hr res hn
  have hgap := noOuterGap_of hw hf.1 hr
  have hpos' := hpos
  rw [hw.eYMin] at hpos'
  -- the row and pad that were found
  obtain ⟨fuel, hn⟩ := hn
  have hcm := clamp_mem (lo := L.yMin) (hi := L.yMax) hpos.le y
  have hcm0 : yMin ≤ clamp L.yMin L.yMax y := by rw [← hw.eYMin]; exact hcm.1
  obtain ⟨i, r0, hs, hi⟩ := startRow_spec hw hpos' hcm0 hcm.2
  unfold getNearestPad at hn
  simp only [hs] at hn
  rcases search_nearest hw hcm0 hcm.2 hgap fuel hi with hnone | ⟨j, r, hj0, hj, hymin⟩
  · rw [hnone] at hn; cases hn
  rw [hj0] at hn
  obtain ⟨p', hp', -, hrb, hpb⟩ := padInRow_spec hw hf hj (clamp L.xMin L.xMax x)
  simp only [hp', Option.some.injEq, Res.ok.injEq] at hn
  subst hn
  have hmem := List.mem_of_getElem? hj
  have hel : elem L.rows (rowBits p') = some r := by rw [hrb, elem_nat]; exact hj
  have hbox := hasBox_of hel
  obtain ⟨o0, o1, -⟩ := padOf_spec hw hmem (clamp L.xMin L.xMax x)
  rw [hL] at hbox
  obtain ⟨D, hD, -, hDmin⟩ := distance_isLeast xMin xMax yMin h x y hbox
  rw [← hL] at hD hDmin
  refine ⟨p', D, rfl, hpi, hD, fun p'' hp'' => ?_⟩
  obtain ⟨row2, pad2, hip2, hix2⟩ := id hp''
  obtain ⟨k, q, rfl, hk, helq, -, hpb2, q0, q1⟩ := index_row hf hip2 hix2
  have hbox2 := hasBox_of helq
  have hbox2' := hbox2
  rw [hL] at hbox2
  obtain ⟨D', hD', ⟨z, ⟨hz1, hz2⟩, hzD⟩, -⟩ := distance_isLeast xMin xMax yMin h x y hbox2
  rw [← hL] at hD' hz1 hz2
  refine ⟨D', hD', ?_⟩
  rw [← hzD]
  have hokr := hw.rowOk r hmem
  have hwle := hokr.padWidth
  have hhle := hokr.padHeight
  -- horizontally
  have hxx : max 0 (|x - (L.xMin + r.leftOffset + padBits p' * r.widthPerPad + r.widthPerPad / 2)| - r.padWidth / 2) ≤
      |x - z.1| := by
    obtain ⟨pad3, p3, d3, hip3, hix3, ⟨c3, w3, h3, hb3, rfl⟩, hle3⟩ := hx p'' _ hp'' ⟨_, _, _, hbox2', rfl⟩ (j : ℤ)
      ⟨by omega, by have := (List.getElem?_eq_some_iff.1 hj).1; unfold getNRows; omega⟩
    obtain ⟨k', r3, hkk, hk3, hel3, -, hpb3, p30, p31⟩ := index_row hf hip3 hix3
    have : k' = j := by omega
    subst this
    rw [hj] at hk3; cases hk3
    obtain ⟨r4, hr4, rfl, rfl, -⟩ := hasBox_inv hb3
    rw [hel3] at hr4; cases hr4
    have hlex : xMin ≤ xMax := by
      have := pad_band hw hmem p30 p31
      linarith
    have near := padOf_nearest hw hmem (clamp L.xMin L.xMax x) p30 p31
    have e1 := pad_band hw hmem o0 o1
    have e2 := pad_band hw hmem p30 p31
    rw [← hw.eXMin, ← hw.eXMax] at e1 e2 hlex
    have d1 := clamp_dist (v := x) hlex (show L.xMin ≤ L.xMin + r.leftOffset +
      (padOf L r (clamp L.xMin L.xMax x) : ℤ) * r.widthPerPad + r.widthPerPad / 2 by linarith [e1.1]) (by linarith [e1.2])
    have d2 := clamp_dist (v := x) hlex (show L.xMin ≤ L.xMin + r.leftOffset + pad3 * r.widthPerPad + r.widthPerPad / 2 by
      linarith [e2.1]) (by linarith [e2.2])
    rw [hpb3] at hle3
    dsimp only at hle3
    rw [hpb]
    have step : max 0 (|x - (L.xMin + r.leftOffset + (padOf L r (clamp L.xMin L.xMax x) : ℤ) * r.widthPerPad +
        r.widthPerPad / 2)| - r.padWidth / 2) ≤
        max 0 (|x - (L.xMin + r.leftOffset + pad3 * r.widthPerPad + r.widthPerPad / 2)| - r.padWidth / 2) :=
      max_le_max le_rfl (by rw [d1, d2]; linarith)
    refine step.trans (hle3.trans (max_le (abs_nonneg _) ?_))
    have := abs_sub_le x z.1 (L.xMin + q.leftOffset + padBits p'' * q.widthPerPad + q.widthPerPad / 2)
    dsimp only at hz1 ⊢
    linarith
  -- vertically
  have hyy : yGap r y ≤ |y - z.2| := by
    have := hymin k q hk
    rw [clamp_yGap hw hj]
    have h2 : yGap q y ≤ |y - z.2| := by
      unfold yGap
      refine max_le (abs_nonneg _) ?_
      have := abs_sub_le y z.2 q.center
      dsimp only at hz2
      linarith
    rw [clamp_yGap hw hk] at h2
    linarith
  -- a point of the pad with these distances
  obtain ⟨t1, ht1, ht1'⟩ := toEdge x (L.xMin + r.leftOffset + padBits p' * r.widthPerPad + r.widthPerPad / 2) hwle
  obtain ⟨t2, ht2, ht2'⟩ := toEdge y r.center hhle
  refine le_trans (hDmin ⟨(t1, t2), ⟨ht1, ht2⟩, rfl⟩) ?_
  unfold euclid
  apply Real.sqrt_le_sqrt
  have s1 := sq_le_sq.2 (show |x - t1| ≤ |x - z.1| by rw [ht1']; exact hxx)
  have s2 := sq_le_sq.2 (show |y - t2| ≤ |y - z.2| by rw [ht2']; exact hyy)
  exact add_le_add s1 s2

/-- With the pads of all rows in line. -/
theorem nearest_least_aligned (xMin xMax yMin : ℝ) (h : List (Op ℝ)) (L : Layout ℝ) (hL : L = run xMin xMax yMin h)
    (hf : Fits L) (hpos : L.yMin < L.yMax) {x y : ℝ} (hr : ReachesPads L y) (ha : Aligned L) (res : Res ℤ)
    (hn : Nearest L x y res) :
    ∃ p D, res = .ok p ∧ IsPadIndex L p ∧ getDistanceToPad L x y p = .ok D ∧
      ∀ p', IsPadIndex L p' → ∃ D', getDistanceToPad L x y p' = .ok D' ∧ D ≤ D' :=
  nearest_least_partial xMin xMax yMin h L hL hf hpos hr (aligned_alike ha hf x) res hn

/-- Without gaps between the pads and without offsets. -/
theorem nearest_least_noGaps (xMin xMax yMin : ℝ) (h : List (Op ℝ)) (L : Layout ℝ) (hL : L = run xMin xMax yMin h)
    (hf : Fits L) (hpos : L.yMin < L.yMax) {x y : ℝ} (hr : ReachesPads L y) (ha : NoGaps L) (res : Res ℤ)
    (hn : Nearest L x y res) :
    ∃ p D, res = .ok p ∧ IsPadIndex L p ∧ getDistanceToPad L x y p = .ok D ∧
      ∀ p', IsPadIndex L p' → ∃ D', getDistanceToPad L x y p' = .ok D' ∧ D ≤ D' :=
  nearest_least_partial xMin xMax yMin h L hL hf hpos hr
    (noGaps_alike (by rw [hL]; exact wf_run xMin xMax yMin h) ha hf x) res hn

/-- With rows that are not alike another pad may be nearer: the pad returned is at least 1 away from the point, the other one at
most 1/10. -/
theorem nearest_least_false : ∃ (L : Layout ℚ) (x y : ℚ) (p p' : ℤ) (c c' : ℚ × ℚ) (w h w' h' : ℚ),
    L = run 0 4 0 [.addRow 1 1 1 1 1 0 0, .addRow 1 4 1 1 1 0 0] ∧ Nearest L x y (.ok p) ∧ IsPadIndex L p' ∧
    HasBox L p c w h ∧ HasBox L p' c' w' h' ∧
    w / 2 + 1 ≤ |x - c.1| ∧ |x - c'.1| ≤ w' / 2 ∧ |y - c'.2| ≤ h' / 2 + 1 / 10 := by
  refine ⟨_, 1/2, 9/10, 0, 65536, (2, 1/2), (1/2, 3/2), 1, 1, 1, 1, rfl, ⟨5, by decide +kernel⟩,
    ⟨1, 0, ⟨⟨4, 1, 1, 1, 0, 0, 3/2, 1⟩, by decide +kernel, by decide, by decide⟩, by decide +kernel⟩,
    ⟨by decide +kernel, by decide +kernel, by decide +kernel⟩, ⟨by decide +kernel, by decide +kernel, by decide +kernel⟩,
    by decide +kernel, by decide +kernel, by decide +kernel⟩

/-- Two rows of two pads with gaps on all sides but the bottom and the top. -/
def alikeOps (K : Type) [Field K] : List (Op K) := [.addRow 1 2 1 1 1 0 0, .addRow 1 2 1 1 2 0 0,
  .addRow 1 2 1 1 1 0 0]

/-- A layout that meets the hypotheses: rows in line with gaps between the pads and between the rows, and a point next to it.  The
search ends with a pad there. -/
example : Fits (run (0 : ℝ) 4 0 (alikeOps ℝ)) ∧ (run (0 : ℝ) 4 0 (alikeOps ℝ)).yMin < (run (0 : ℝ) 4 0 (alikeOps ℝ)).yMax ∧
    Aligned (run (0 : ℝ) 4 0 (alikeOps ℝ)) ∧ RowsAlike (run (0 : ℝ) 4 0 (alikeOps ℝ)) 7 ∧
    ReachesPads (run (0 : ℝ) 4 0 (alikeOps ℝ)) (6/5) ∧
    Nearest (run (0 : ℚ) 4 0 (alikeOps ℚ)) 7 (6/5) (.ok 1) ∧ Nearest (run (0 : ℚ) 4 0 (alikeOps ℚ)) 7 9 (.ok 131073) := by
  have hr : run (0 : ℝ) 4 0 (alikeOps ℝ) =
      { nRow := 0, nPad := 6, repeatRows := 0, rows := [⟨2, 1, 1, 1, 0, 0, 1/2, 2⟩, ⟨2, 1, 1, 2, 0, 0, 2, 2⟩,
          ⟨2, 1, 1, 1, 0, 0, 7/2, 2⟩], xMin := 0, xMax := 4,
        yMin := 0, yMax := 4, padIndices := [none, none, none], nRows := [1, 1, 1] } := by
    simp only [run, List.foldl, step, addRow, new, alikeOps]
    norm_num [pushRows]
  have hf : Fits (run (0 : ℝ) 4 0 (alikeOps ℝ)) := by
    rw [hr]; norm_num [Fits]
  have ha : Aligned (run (0 : ℝ) 4 0 (alikeOps ℝ)) := by
    refine aligned_of_rows (wf_run 0 4 0 _) hf ?_
    rw [hr]
    simp
  refine ⟨hf, by rw [hr]; norm_num, ha, aligned_alike ha hf 7, ?_, ⟨5, by decide +kernel⟩, ⟨5, by decide +kernel⟩⟩
  rw [hr]
  constructor
  · intro p c h hn hc hh
    simp only [one_div] at hn hc hh
    simp [getPadCenter, hn, elemUb, elem] at hc
    simp [getPadHeight, hn, elemUb, elem] at hh
    rw [← hc, ← hh]; norm_num
  · intro p c h hn hc hh
    simp [getNRows] at hn
    simp [getPadCenter, hn, elemUb, elem] at hc
    simp [getPadHeight, hn, elemUb, elem] at hh
    rw [← hc, ← hh]; norm_num

end Gear.Rect
