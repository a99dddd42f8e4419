/-
Properties C20 and C74: distances and the linear search in rectangular pad layouts.
-/
import Verif.RectDistance
import Verif.RectProps

set_option autoImplicit false
set_option linter.unusedSectionVars false

namespace Gear.Rect

open PadIndex Spec

/-- Euclidean distance in the plane. -/
noncomputable def Spec.euclid (x y x' y' : ℝ) : ℝ := Real.sqrt ((x - x') ^ 2 + (y - y') ^ 2)

/-- The points of the closed rectangle of a pad. -/
def Spec.box (c : ℝ × ℝ) (w h : ℝ) : Set (ℝ × ℝ) := {q | |q.1 - c.1| ≤ w / 2 ∧ |q.2 - c.2| ≤ h / 2}

/-- For a box that is not empty, `distanceToBox` is -1 inside and otherwise the distance to the closest
point of the box. -/
theorem distanceToBox_spec (x y a b c d : ℝ) (hx : a ≤ c) (hy : b ≤ d) :
    (distanceToBox x y a b c d = -1 ∧ (a ≤ x ∧ x ≤ c ∧ b ≤ y ∧ y ≤ d)) ∨
    (¬ (a ≤ x ∧ x ≤ c ∧ b ≤ y ∧ y ≤ d) ∧ 0 < distanceToBox x y a b c d ∧
      distanceToBox x y a b c d = euclid x y (max a (min c x)) (max b (min d y))) := by
  unfold distanceToBox euclid
  have pos : ∀ {u v : ℝ}, u ≠ 0 → 0 < Real.sqrt (u * u + v * v) := by
    intro u v hu
    apply Real.sqrt_pos.2
    have := mul_self_pos.2 hu
    have := mul_self_nonneg v
    linarith
  have one : ∀ u : ℝ, 0 ≤ u → Real.sqrt (u ^ 2 + 0 ^ 2) = u := by
    intro u hu; rw [zero_pow two_ne_zero, add_zero, Real.sqrt_sq hu]
  have two : ∀ u : ℝ, 0 ≤ u → Real.sqrt (0 ^ 2 + u ^ 2) = u := by
    intro u hu; rw [zero_pow two_ne_zero, zero_add, Real.sqrt_sq hu]
  by_cases h1 : x < a
  · have e1 : max a (min c x) = a := by rw [min_eq_right (by linarith), max_eq_left h1.le]
    right
    refine ⟨by intro h; linarith [h.1], ?_⟩
    rw [if_pos h1, e1]
    by_cases h2 : y < b
    · have e2 : max b (min d y) = b := by rw [min_eq_right (by linarith), max_eq_left h2.le]
      rw [if_pos h2, e2]
      exact ⟨pos (sub_ne_zero.2 h1.ne'), by congr 1; ring⟩
    · rw [if_neg h2]
      by_cases h3 : y > d
      · have e2 : max b (min d y) = d := by rw [min_eq_left h3.le, max_eq_right hy]
        rw [if_pos h3, e2]
        exact ⟨pos (sub_ne_zero.2 h1.ne'), by congr 1; ring⟩
      · have e2 : max b (min d y) = y := by
          rw [min_eq_right (by linarith), max_eq_right (by linarith)]
        rw [if_neg h3, e2, sub_self]
        refine ⟨by linarith, ?_⟩
        rw [← one (a - x) (by linarith)]; congr 1; ring
  · rw [if_neg h1]
    by_cases h4 : x > c
    · have e1 : max a (min c x) = c := by rw [min_eq_left h4.le, max_eq_right hx]
      right
      refine ⟨by intro h; linarith [h.2.1], ?_⟩
      rw [if_pos h4, e1]
      by_cases h2 : y < b
      · have e2 : max b (min d y) = b := by rw [min_eq_right (by linarith), max_eq_left h2.le]
        rw [if_pos h2, e2]
        exact ⟨pos (sub_ne_zero.2 h4.ne), by congr 1; ring⟩
      · rw [if_neg h2]
        by_cases h3 : y > d
        · have e2 : max b (min d y) = d := by rw [min_eq_left h3.le, max_eq_right hy]
          rw [if_pos h3, e2]
          exact ⟨pos (sub_ne_zero.2 h4.ne), by congr 1; ring⟩
        · have e2 : max b (min d y) = y := by
            rw [min_eq_right (by linarith), max_eq_right (by linarith)]
          rw [if_neg h3, e2, sub_self]
          refine ⟨by linarith, ?_⟩
          rw [one (x - c) (by linarith)]
    · have e1 : max a (min c x) = x := by
        rw [min_eq_right (by linarith), max_eq_right (by linarith)]
      rw [if_neg h4, e1, sub_self]
      by_cases h2 : y < b
      · right
        have e2 : max b (min d y) = b := by rw [min_eq_right (by linarith), max_eq_left h2.le]
        rw [if_pos h2, e2]
        refine ⟨by intro h; linarith [h.2.2.1], by linarith, ?_⟩
        rw [← two (b - y) (by linarith)]; congr 1; ring
      · rw [if_neg h2]
        by_cases h3 : y > d
        · right
          have e2 : max b (min d y) = d := by rw [min_eq_left h3.le, max_eq_right hy]
          rw [if_pos h3, e2]
          refine ⟨by intro h; linarith [h.2.2.2], by linarith, ?_⟩
          rw [two (y - d) (by linarith)]
        · left
          rw [if_neg h3]
          exact ⟨rfl, by linarith, by linarith, by linarith, by linarith⟩

/-! ### C20 distance to a pad is the Euclidean distance to its rectangle -/

/-- `getDistanceToPad` is the smallest Euclidean distance between the point and a point of the pad's
rectangle. -/
theorem distance_isLeast (xMin xMax yMin : ℝ) (h : List (Op ℝ)) (x y : ℝ) {p : ℤ} {c : ℝ × ℝ}
    {w hh : ℝ} (hb : HasBox (run xMin xMax yMin h) p c w hh) :
    ∃ D, getDistanceToPad (run xMin xMax yMin h) x y p = .ok D ∧
      IsLeast ((fun q : ℝ × ℝ => euclid x y q.1 q.2) '' box c w hh) D := by
  set L := run xMin xMax yMin h
  have hw : Wf xMin xMax yMin L := wf_run xMin xMax yMin h
  have hb' := hb
  obtain ⟨r, hr, rfl, rfl, rfl⟩ := hasBox_inv hb'
  have hok := hw.rowOk r (elem_mem hr)
  set c : ℝ × ℝ := (L.xMin + r.leftOffset + padBits p * r.widthPerPad + r.widthPerPad / 2, r.center)
  have h05 : ∀ v : ℝ, v * 0.5 = v / 2 := by intro v; norm_num; ring
  have hD : getDistanceToPad L x y p = .ok (
      if distanceToBox x y (c.1 - r.padWidth / 2) (c.2 - r.padHeight / 2) (c.1 + r.padWidth / 2)
        (c.2 + r.padHeight / 2) < 0 then 0 else
      distanceToBox x y (c.1 - r.padWidth / 2) (c.2 - r.padHeight / 2) (c.1 + r.padWidth / 2)
        (c.2 + r.padHeight / 2)) := by
    simp only [getDistanceToPad, hb.1, hb.2.1, hb.2.2, Res.bind_ok, Res.pure_eq, h05]
  have hw0 := hok.padWidth
  have hh0 := hok.padHeight
  refine ⟨_, hD, ?_, ?_⟩
  · refine ⟨(max (c.1 - r.padWidth / 2) (min (c.1 + r.padWidth / 2) x),
      max (c.2 - r.padHeight / 2) (min (c.2 + r.padHeight / 2) y)), ⟨?_, ?_⟩, ?_⟩
    · have h1 := le_max_left (c.1 - r.padWidth / 2) (min (c.1 + r.padWidth / 2) x)
      have h2 : max (c.1 - r.padWidth / 2) (min (c.1 + r.padWidth / 2) x) ≤ c.1 + r.padWidth / 2 :=
        max_le (by linarith) (min_le_left _ _)
      rw [abs_le]; constructor <;> simp only <;> linarith
    · have h1 := le_max_left (c.2 - r.padHeight / 2) (min (c.2 + r.padHeight / 2) y)
      have h2 : max (c.2 - r.padHeight / 2) (min (c.2 + r.padHeight / 2) y) ≤ c.2 + r.padHeight / 2 :=
        max_le (by linarith) (min_le_left _ _)
      rw [abs_le]; constructor <;> simp only <;> linarith
    · rcases distanceToBox_spec x y (c.1 - r.padWidth / 2) (c.2 - r.padHeight / 2) (c.1 + r.padWidth / 2)
        (c.2 + r.padHeight / 2) (by linarith) (by linarith) with ⟨e, h1, h2, h3, h4⟩ | ⟨-, hpos, e⟩
      · rw [if_pos (by rw [e]; norm_num)]
        simp only [min_eq_right h2, min_eq_right h4, max_eq_right h1, max_eq_right h3]
        simp [euclid]
      · rw [if_neg (not_lt.2 hpos.le), e]
  · rintro _ ⟨q, ⟨hq1, hq2⟩, rfl⟩
    obtain ⟨a1, a2⟩ := abs_le.1 hq1
    obtain ⟨b1, b2⟩ := abs_le.1 hq2
    rcases distanceToBox_spec x y (c.1 - r.padWidth / 2) (c.2 - r.padHeight / 2) (c.1 + r.padWidth / 2)
        (c.2 + r.padHeight / 2) (by linarith) (by linarith) with ⟨e, -⟩ | ⟨-, hpos, e⟩
    · rw [if_pos (by rw [e]; norm_num)]
      exact Real.sqrt_nonneg _
    · rw [if_neg (not_lt.2 hpos.le), e]
      have key : ∀ lo hi v t : ℝ, lo ≤ t → t ≤ hi → (v - max lo (min hi v)) ^ 2 ≤ (v - t) ^ 2 := by
        intro lo hi v t h1 h2
        apply sq_le_sq.2
        rcases le_total v lo with h3 | h3
        · rw [min_eq_right (by linarith), max_eq_left h3, abs_of_nonpos (by linarith),
            abs_of_nonpos (by linarith)]
          linarith
        · rcases le_total v hi with h4 | h4
          · rw [min_eq_right h4, max_eq_right h3, sub_self, abs_zero]; exact abs_nonneg _
          · rw [min_eq_left h4, max_eq_right (by linarith), abs_of_nonneg (by linarith),
              abs_of_nonneg (by linarith)]
            linarith
      have k1 := key (c.1 - r.padWidth / 2) (c.1 + r.padWidth / 2) x q.1 (by linarith) (by linarith)
      have k2 := key (c.2 - r.padHeight / 2) (c.2 + r.padHeight / 2) y q.2 (by linarith) (by linarith)
      exact Real.sqrt_le_sqrt (by linarith)

/-- The distance is 0 exactly for the points inside the pad. -/
theorem distance_zero_iff (xMin xMax yMin : ℝ) (h : List (Op ℝ)) (x y : ℝ) {p : ℤ} {c : ℝ × ℝ}
    {w hh : ℝ} (hb : HasBox (run xMin xMax yMin h) p c w hh) :
    getDistanceToPad (run xMin xMax yMin h) x y p = .ok 0 ↔
      isInsidePad (run xMin xMax yMin h) x y p = .ok true := by
  obtain ⟨D, hD, ⟨q, hq, hqD⟩, hlow⟩ := distance_isLeast xMin xMax yMin h x y hb
  rw [hD, isInsidePad_eq]
  have hz : ∀ u v : ℝ, euclid x y u v = 0 ↔ u = x ∧ v = y := by
    intro u v
    unfold euclid
    rw [Real.sqrt_eq_zero (by positivity)]
    constructor
    · intro h0
      have h1 := sq_nonneg (x - u)
      have h2 := sq_nonneg (y - v)
      have h3 : (x - u) ^ 2 = 0 := by linarith
      have h4 : (y - v) ^ 2 = 0 := by linarith
      have h5 := pow_eq_zero_iff (two_ne_zero) |>.1 h3
      have h6 := pow_eq_zero_iff (two_ne_zero) |>.1 h4
      exact ⟨by linarith, by linarith⟩
    · rintro ⟨rfl, rfl⟩; simp
  constructor
  · intro h0
    simp only [Res.ok.injEq] at h0
    simp only at hqD
    rw [h0, hz] at hqD
    refine ⟨c, w, hh, hb, ?_⟩
    rw [← hqD.1, ← hqD.2]; exact hq
  · rintro ⟨c', w', h', hb', h1, h2⟩
    obtain ⟨e1, e2, e3⟩ := hb'
    rw [hb.1] at e1
    rw [hb.2.1] at e2
    rw [hb.2.2] at e3
    cases e1; cases e2; cases e3
    have h3 : D ≤ 0 := by
      apply hlow
      exact ⟨(x, y), ⟨h1, h2⟩, (hz x y).2 ⟨rfl, rfl⟩⟩
    have h4 : 0 ≤ D := by
      simp only at hqD
      rw [← hqD]; exact Real.sqrt_nonneg _
    rw [le_antisymm h3 h4]

/-- A layout with a gap: the pads are 1 × 1 with pitch 2 in rows of height 1. -/
theorem example_box : HasBox (run (0 : ℝ) 4 0 [.addRow 1 2 1 1 1 0 0]) 1 (3, 1/2) 1 1 := by
  have hr : run (0 : ℝ) 4 0 [.addRow 1 2 1 1 1 0 0] =
      { nRow := 0, nPad := 2, repeatRows := 0, rows := [⟨2, 1, 1, 1, 0, 0, 1/2, 2⟩], xMin := 0, xMax := 4,
        yMin := 0, yMax := 1, padIndices := [none], nRows := [1] } := by
    simp only [run, List.foldl, step, addRow, new]
    norm_num [pushRows]
  rw [hr]
  have hb : rowBits 1 = 0 := by decide
  have hp : padBits 1 = 1 := by decide
  refine ⟨?_, ?_, ?_⟩ <;>
    simp [getPadCenter, getPadWidth, getPadHeight, getRowNumber, getPadNumber, hb, hp, elemUb, elem] <;>
    norm_num

/-! ### C74 the linear search getNearestPadOld always finds an existing pad -/

theorem oldSearch_range (L : Layout ℝ) (x y : ℝ) : ∀ (rows : List (Row ℝ)) (i : ℤ) (dMin : ℝ) (rn : ℤ),
    oldSearch L x y rows i dMin rn = rn ∨
    (i ≤ oldSearch L x y rows i dMin rn ∧ oldSearch L x y rows i dMin rn < i + rows.length) := by
  intro rows
  induction rows with
  | nil => intro i d rn; left; rfl
  | cons row rows ih =>
    intro i dMin rn
    unfold oldSearch
    simp only [List.length_cons]
    split_ifs with h1 h2
    · right; push_cast; omega
    · right
      rcases ih (i + 1) _ i with h3 | h3
      · rw [h3]; push_cast; omega
      · push_cast; omega
    · rcases ih (i + 1) dMin rn with h3 | h3
      · left; exact h3
      · right; push_cast; omega

theorem oldSearch_finds (L : Layout ℝ) (x y : ℝ) (pre : List (Row ℝ)) : ∀ (r : Row ℝ)
    (post : List (Row ℝ)) (i : ℤ) (dMin : ℝ) (rn : ℤ), 0 ≤ dMin →
    (∀ q ∈ pre, 0 ≤ distanceToBox x y (L.xMin + q.leftOffset) (q.center - q.padHeight / 2)
      (L.xMax - q.rightOffset) (q.center + q.padHeight / 2)) →
    distanceToBox x y (L.xMin + r.leftOffset) (r.center - r.padHeight / 2)
      (L.xMax - r.rightOffset) (r.center + r.padHeight / 2) = -1 →
    oldSearch L x y (pre ++ r :: post) i dMin rn = i + pre.length := by
  induction pre with
  | nil =>
    intro r post i dMin rn hd _ hr
    simp only [List.nil_append, List.length_nil]
    unfold oldSearch
    simp only [hr]
    rw [if_pos (by linarith), if_pos (by norm_num)]
    simp
  | cons q pre ih =>
    intro r post i dMin rn hd hpre hr
    have hq := hpre q (by simp)
    have ih' := fun i d rn hd => ih r post i d rn hd (fun q' h' => hpre q' (by simp [h'])) hr
    simp only [List.cons_append, List.length_cons]
    unfold oldSearch
    simp only
    split_ifs with h1 h2
    · linarith
    · rw [ih' _ _ _ hq]; push_cast; ring
    · rw [ih' _ _ _ hd]; push_cast; ring

/-- For every layout with rows and every point, `getNearestPadOld` returns the index of an existing pad. -/
theorem nearestOld_exists (xMin xMax yMin : ℝ) (h : List (Op ℝ)) (L : Layout ℝ)
    (hL : L = run xMin xMax yMin h) (hf : Fits L) (hne : 0 < getNRows L) (x y : ℝ) :
    ∃ p, getNearestPadOld L x y = .ok p ∧ IsPadIndex L p := by
  have hw : Wf xMin xMax yMin L := by rw [hL]; exact wf_run xMin xMax yMin h
  unfold getNearestPadOld
  simp only
  set X := clamp L.xMin L.xMax x
  set Y := clamp L.yMin L.yMax y
  have hrange : 0 ≤ oldSearch L X Y L.rows 0 (2 * (L.yMax - L.yMin)) 0 ∧
      oldSearch L X Y L.rows 0 (2 * (L.yMax - L.yMin)) 0 < L.rows.length := by
    simp only [getNRows] at hne
    rcases oldSearch_range L X Y L.rows 0 (2 * (L.yMax - L.yMin)) 0 with h1 | h1
    · rw [h1]; omega
    · omega
  set rn := oldSearch L X Y L.rows 0 (2 * (L.yMax - L.yMin)) 0
  obtain ⟨r, hr⟩ := elem_isSome hrange.1 hrange.2
  have hok := hw.rowOk r (elem_mem hr)
  rw [elemUb_of hr]
  simp only [Res.bind_ok]
  have key : ∀ pn : ℤ, 0 ≤ pn → pn < r.nPad → ∃ p, getPadIndex L rn pn = .ok p ∧ IsPadIndex L p := by
    intro pn h0 h1
    obtain ⟨p, hp, -, -⟩ := padIndex_roundtrip_partial hf ⟨r, hr, h0, h1⟩
    exact ⟨p, hp, rn, pn, ⟨r, hr, h0, h1⟩, hp⟩
  have hpos := hok.nPad
  split_ifs with h1 h2
  · exact key 0 le_rfl hpos
  · exact key _ (by omega) (by omega)
  · have h3 := padOf_spec hw (elem_mem hr) X
    have hp : padOf L r X = truncInt ((X - (L.xMin + r.leftOffset)) / r.widthPerPad) := by
      unfold padOf
      rw [if_neg h2]
      split_ifs with h4
      · have : X = L.xMin + r.leftOffset := le_antisymm h4 (not_lt.1 h1)
        rw [this, sub_self, zero_div, truncInt_nonneg le_rfl]; simp
      · rfl
    rw [← hp]
    exact key _ h3.1 h3.2.1

/-- For a point in a pad, not on its upper or lower border, the pad found contains the point. -/
theorem nearestOld_contains (xMin xMax yMin : ℝ) (h : List (Op ℝ)) (L : Layout ℝ)
    (hL : L = run xMin xMax yMin h) (hf : Fits L) {x y : ℝ} {p : ℤ} (hp : IsPadIndex L p)
    {c : ℝ × ℝ} {w hh : ℝ} (hb : HasBox L p c w hh) (hx : |x - c.1| ≤ w / 2) (hy : |y - c.2| < hh / 2) :
    ∃ q, getNearestPadOld L x y = .ok q ∧ isInsidePad L x y q = .ok true := by
  have hw : Wf xMin xMax yMin L := by rw [hL]; exact wf_run xMin xMax yMin h
  obtain ⟨row, pad, ⟨r, hr, hp0, hp1⟩, hidx⟩ := hp
  obtain ⟨henc, -⟩ := encode_of_getPadIndex hidx
  have hrb := rowBits_encode henc
  have hpb := padBits_encode' henc hp0 (by have := hf.2 r (elem_mem hr); omega)
  obtain ⟨r', hr', rfl, rfl, rfl⟩ := hasBox_inv hb
  rw [hrb, hr] at hr'; cases hr'
  rw [hpb] at hx
  simp only at hx hy
  obtain ⟨k, rfl, hk⟩ := elem_eq_some.1 hr
  have hmem := List.mem_of_getElem? hk
  have hok := hw.rowOk r hmem
  have hcen := center_eq hw hk
  have hbs := bot_succ (yMin := yMin) hk
  have hb0 := yMin_le_bot hw k
  have hb1 := bot_le_yMax hw (k + 1)
  obtain ⟨a1, a2⟩ := abs_lt.1 hy
  obtain ⟨b1, b2⟩ := abs_le.1 hx
  have hcl : clamp L.yMin L.yMax y = y := by
    apply clamp_id <;> [rw [hw.eYMin]; skip] <;> linarith [hok.height]
  have hwp := padWidth_le hw hmem
  have hW0 : 0 ≤ r.widthPerPad := hok.padWidth.trans hwp
  have hK0 : (0 : ℝ) ≤ (pad : ℝ) := by exact_mod_cast hp0
  have hK1 : (pad : ℝ) + 1 ≤ (r.nPad : ℝ) := by exact_mod_cast hp1
  have hm1 : 0 ≤ (pad : ℝ) * r.widthPerPad := mul_nonneg hK0 hW0
  have hm2 := mul_le_mul_of_nonneg_right hK1 hW0
  rw [widthPerPad_mul hw hmem] at hm2
  have hl := hok.left
  have hrr := hok.right
  have hx1 : L.xMin + r.leftOffset ≤ x := by linarith
  have hx2 : x ≤ L.xMax - r.rightOffset := by rw [hw.eXMin] at b2; rw [hw.eXMax]; linarith
  have hxc : clamp L.xMin L.xMax x = x := clamp_id (by linarith) (by linarith)
  have hfind : oldSearch L x y L.rows 0 (2 * (L.yMax - L.yMin)) 0 = (k : ℤ) := by
    have hkl := (List.getElem?_eq_some_iff.1 hk).1
    have hsplit : L.rows = L.rows.take k ++ r :: L.rows.drop (k + 1) := by
      have := List.getElem?_eq_some_iff.1 hk
      rw [← this.2, List.getElem_cons_drop, List.take_append_drop]
    rw [hsplit]
    rw [oldSearch_finds L x y (L.rows.take k) r (L.rows.drop (k + 1))]
    · simp; omega
    · rw [hw.eYMax, hw.eYMin]; linarith [hsum_nonneg hw.rowOk]
    · intro q hq
      obtain ⟨j, hj, hjq⟩ := List.getElem_of_mem hq
      have hjk : j < k := by simp at hj; omega
      have hjr : L.rows[j]? = some q := by
        rw [List.getElem_take] at hjq
        rw [← hjq, List.getElem?_eq_getElem]
      have hqok := hw.rowOk q (List.mem_of_getElem? hjr)
      have hqc := center_eq hw hjr
      have hqb := bot_succ (yMin := yMin) hjr
      have hm := bot_mono (yMin := yMin) hw (show j + 1 ≤ k from hjk)
      have hqf := hqok.fits
      have hqw : (0 : ℝ) ≤ (q.nPad : ℝ) * q.padWidth :=
        mul_nonneg (by exact_mod_cast hqok.nPad.le) hqok.padWidth
      rcases distanceToBox_spec x y (L.xMin + q.leftOffset) (q.center - q.padHeight / 2)
        (L.xMax - q.rightOffset) (q.center + q.padHeight / 2)
        (by rw [hw.eXMin, hw.eXMax]; linarith) (by linarith [hqok.padHeight]) with ⟨-, hin⟩ | ⟨-, hpos, -⟩
      · exfalso; linarith [hin.2.2.2, hqok.height, hok.height]
      · exact hpos.le
    · rcases distanceToBox_spec x y (L.xMin + r.leftOffset) (r.center - r.padHeight / 2)
        (L.xMax - r.rightOffset) (r.center + r.padHeight / 2) (by linarith)
        (by linarith [hok.padHeight]) with ⟨e, -⟩ | ⟨hn, -⟩
      · exact e
      · exact absurd ⟨hx1, hx2, by linarith, by linarith⟩ hn
  unfold getNearestPadOld
  simp only [hcl, hxc, hfind, elemUb_of hr, Res.bind_ok]
  have hfin : ∀ pn : ℤ, 0 ≤ pn → pn < r.nPad →
      |x - (L.xMin + r.leftOffset + pn * r.widthPerPad + r.widthPerPad / 2)| ≤ r.padWidth / 2 →
      ∃ q, getPadIndex L k pn = .ok q ∧ isInsidePad L x y q = .ok true := by
    intro pn h0 h1 hxx
    obtain ⟨q, hq, hqr, hqp⟩ := padIndex_roundtrip_partial hf ⟨r, hr, h0, h1⟩
    refine ⟨q, hq, ?_⟩
    have hqb := rowBits_encode (encode_of_getPadIndex hq).1
    have hr2 : elem L.rows (rowBits q) = some r := by rw [hqb]; exact hr
    rw [isInsidePad_of hr2]
    simp only [getPadNumber] at hqp
    rw [hqp]
    simp only [Res.ok.injEq, decide_eq_true_eq]
    exact ⟨hxx, hy.le⟩
  have h3 := padOf_spec hw hmem x
  have hpos := hok.nPad
  rw [if_neg (not_lt.2 hx1)]
  split_ifs with h2
  · have hxe : x = L.xMax - r.rightOffset := le_antisymm hx2 h2
    refine hfin _ (by omega) (by omega) ?_
    have h4 := h3.2.2 pad hp0 hp1 hx
    unfold padOf at h4
    split_ifs at h4 with h5
    · have hz : r.widthPerPad = 0 := by
        have h6 : (r.nPad : ℝ) * r.widthPerPad = 0 := by
          rw [widthPerPad_mul hw hmem, ← hw.eXMin, ← hw.eXMax]; linarith
        rcases mul_eq_zero.1 h6 with h7 | h7
        · exfalso
          have : (0 : ℝ) < r.nPad := by exact_mod_cast hpos
          linarith
        · exact h7
      rw [hz] at h4 ⊢
      simpa using h4
    · exact h4
  · have hp : padOf L r x = truncInt ((x - (L.xMin + r.leftOffset)) / r.widthPerPad) := by
      unfold padOf
      rw [if_neg h2]
      split_ifs with h4
      · have : x = L.xMin + r.leftOffset := le_antisymm h4 hx1
        rw [this, sub_self, zero_div, truncInt_nonneg le_rfl]; simp
      · rfl
    rw [← hp]
    exact hfin _ h3.1 h3.2.1 (h3.2.2 pad hp0 hp1 hx)

example : Fits (run (0 : ℝ) 4 0 [.addRow 1 2 1 1 1 0 0]) ∧
    0 < getNRows (run (0 : ℝ) 4 0 [.addRow 1 2 1 1 1 0 0]) := by
  constructor
  · simp only [run, List.foldl, step, addRow, new]
    norm_num [pushRows, Fits]
  · simp only [run, List.foldl, step, addRow, new, getNRows]
    norm_num [pushRows]

end Gear.Rect
