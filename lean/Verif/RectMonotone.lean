/-
Helper lemmas for the row search of rectangular pad layouts whose row heights only grow or only shrink.
-/
import Verif.RectSearch
import Mathlib.Data.Fintype.Pigeonhole

set_option autoImplicit false
set_option linter.unusedSectionVars false

namespace Gear.Rect

open PadIndex Spec

variable {K : Type} [Field K] [LinearOrder K] [IsStrictOrderedRing K] [FloorRing K]

/-! ### mean heights -/

theorem hsum_le_of {l : List (Row K)} {M : K} (h : ∀ r ∈ l, r.height ≤ M) : hsum l ≤ l.length * M := by
  induction l with
  | nil => simp
  | cons a l ih =>
    rw [hsum_cons]
    have h1 := ih fun r hr => h r (List.mem_cons_of_mem _ hr)
    have h2 := h a (by simp)
    push_cast [List.length_cons]; linarith

theorem le_hsum_of {l : List (Row K)} {M : K} (h : ∀ r ∈ l, M ≤ r.height) : l.length * M ≤ hsum l := by
  induction l with
  | nil => simp
  | cons a l ih =>
    rw [hsum_cons]
    have h1 := ih fun r hr => h r (List.mem_cons_of_mem _ hr)
    have h2 := h a (by simp)
    push_cast [List.length_cons]; linarith

theorem hsum_take_drop (l : List (Row K)) (k : ℕ) : hsum l = hsum (l.take k) + hsum (l.drop k) := by
  rw [← hsum_append, List.take_append_drop]

/-- The first rows of a growing layout are on average no higher than all. -/
theorem mean_grow {l : List (Row K)} (h : l.Pairwise fun a b => a.height ≤ b.height) {k : ℕ} (hk : k ≤ l.length) :
    l.length * hsum (l.take k) ≤ k * hsum l := by
  rcases Nat.lt_or_ge k l.length with hlt | hge
  · have hd := List.drop_eq_getElem_cons hlt
    have hp := h
    rw [← List.take_append_drop k l, List.pairwise_append] at hp
    have h1 : hsum (l.take k) ≤ k * l[k].height := by
      have := hsum_le_of (l := l.take k) (M := l[k].height) fun r hr => hp.2.2 r hr _ (by rw [hd]; exact List.mem_cons_self)
      rwa [List.length_take, min_eq_left hk] at this
    have h2 : ((l.length : K) - k) * l[k].height ≤ hsum (l.drop k) := by
      have := le_hsum_of (l := l.drop k) (M := l[k].height) (by
        intro r hr
        rw [hd] at hr hp
        rcases List.mem_cons.1 hr with rfl | hr
        · exact le_rfl
        · exact (List.pairwise_cons.1 hp.2.1).1 r hr)
      rw [List.length_drop, Nat.cast_sub hk] at this
      exact this
    rw [hsum_take_drop l k]
    have hkl : (k : K) ≤ l.length := by exact_mod_cast hk
    have h3 := mul_le_mul_of_nonneg_left h1 (sub_nonneg.2 hkl)
    have h4 := mul_le_mul_of_nonneg_left h2 (Nat.cast_nonneg k : (0 : K) ≤ k)
    nlinarith
  · have : k = l.length := by omega
    subst this
    simp

/-- The first rows of a shrinking layout are on average no lower than all. -/
theorem mean_shrink {l : List (Row K)} (h : l.Pairwise fun a b => b.height ≤ a.height) {k : ℕ} (hk : k ≤ l.length) :
    k * hsum l ≤ l.length * hsum (l.take k) := by
  rcases Nat.lt_or_ge k l.length with hlt | hge
  · have hd := List.drop_eq_getElem_cons hlt
    have hp := h
    rw [← List.take_append_drop k l, List.pairwise_append] at hp
    have h1 : k * l[k].height ≤ hsum (l.take k) := by
      have := le_hsum_of (l := l.take k) (M := l[k].height) fun r hr => hp.2.2 r hr _ (by rw [hd]; exact List.mem_cons_self)
      rwa [List.length_take, min_eq_left hk] at this
    have h2 : hsum (l.drop k) ≤ ((l.length : K) - k) * l[k].height := by
      have := hsum_le_of (l := l.drop k) (M := l[k].height) (by
        intro r hr
        rw [hd] at hr hp
        rcases List.mem_cons.1 hr with rfl | hr
        · exact le_rfl
        · exact (List.pairwise_cons.1 hp.2.1).1 r hr)
      rw [List.length_drop, Nat.cast_sub hk] at this
      exact this
    rw [hsum_take_drop l k]
    have hkl : (k : K) ≤ l.length := by exact_mod_cast hk
    have h3 := mul_le_mul_of_nonneg_left h1 (sub_nonneg.2 hkl)
    have h4 := mul_le_mul_of_nonneg_left h2 (Nat.cast_nonneg k : (0 : K) ≤ k)
    nlinarith
  · have : k = l.length := by omega
    subst this
    simp

/-! ### one pass -/

variable {xMin xMax yMin : K} {L : Layout K}

/-- Where the search goes next: down in proportion to the distance from the lower edge of the layout, up in proportion to
that from the upper edge. -/
theorem pass_next (hw : Wf xMin xMax yMin L) {y : K} (hy0 : yMin ≤ y) {i j : ℕ} {r : Row K} (h : L.rows[i]? = some r)
    (hp : pass L y i = .ok (.next j)) (hn : ¬ |y - r.center| ≤ r.height / 2) :
    (y < bot yMin L i ∧ yMin < bot yMin L i ∧ (j : ℤ) = i + ⌊(i : K) * ((y - bot yMin L i) / (bot yMin L i - yMin))⌋) ∨
    (bot yMin L (i + 1) < y ∧ bot yMin L (i + 1) ≠ L.yMax ∧
      (j : ℤ) = i + ⌈((L.rows.length : K) - i - 1) * ((y - bot yMin L (i + 1)) / (L.yMax - bot yMin L (i + 1)))⌉) := by
  have hil := (List.getElem?_eq_some_iff.1 h).1
  have hcen := center_eq hw h
  have hrok := hw.rowOk r (List.mem_of_getElem? h)
  have hbs := bot_succ (yMin := yMin) h
  have hel : elemUb L.rows (i : ℤ) = .ok r := elemUb_of (by rw [elem_nat]; exact h)
  have hpad : ¬ |y - r.center| ≤ r.padHeight / 2 := by
    intro hc; apply hn
    have := hrok.height
    linarith
  unfold pass at hp
  simp only [hel, Res.bind_ok, if_neg hpad, if_neg hn] at hp
  by_cases h3 : y - r.center < 0
  · left
    simp only [h3, if_true] at hp
    rw [abs_of_neg h3] at hn
    have hlt : y < bot yMin L i := by have := not_le.1 hn; linarith
    have hD : r.center - L.yMin - r.height / 2 = bot yMin L i - yMin := by rw [hcen, hw.eYMin]; ring
    have hO : y - r.center + r.height / 2 = y - bot yMin L i := by rw [hcen]; ring
    rw [hD, hO] at hp
    by_cases h4 : bot yMin L i - yMin = 0
    · rw [if_pos h4] at hp; cases hp
    rw [if_neg h4] at hp
    have hD0 : yMin < bot yMin L i := by linarith
    have hi : (0 : K) < i := by
      rcases Nat.eq_zero_or_pos i with h0 | h0
      · subst h0; rw [bot_zero] at hlt; linarith
      · exact_mod_cast h0
    have hneg : (i : K) * ((y - bot yMin L i) / (bot yMin L i - yMin)) < 0 :=
      mul_neg_of_pos_of_neg hi (div_neg_of_neg_of_pos (by linarith) (by linarith))
    simp only [Int.cast_natCast, if_pos hneg] at hp
    refine ⟨hlt, hD0, ?_⟩
    split_ifs at hp with h5
    · simp only [Res.pure_eq, Res.ok.injEq, reduceCtorEq] at hp
    · simp only [Res.pure_eq, Res.ok.injEq, Pass.next.injEq] at hp
      exact hp.symm
  · right
    simp only [h3, if_false] at hp
    rw [abs_of_nonneg (not_lt.1 h3)] at hn
    have hlt : bot yMin L (i + 1) < y := by have := not_le.1 hn; rw [hbs]; linarith
    have hD : L.yMax - r.center - r.height / 2 = L.yMax - bot yMin L (i + 1) := by rw [hcen, hbs]; ring
    have hO : y - r.center - r.height / 2 = y - bot yMin L (i + 1) := by rw [hcen, hbs]; ring
    rw [hD, hO] at hp
    have hc : (((L.rows.length : ℤ) - (i : ℤ) - 1 : ℤ) : K) = (L.rows.length : K) - i - 1 := by push_cast; ring
    have hb : bot yMin L (i + 1) ≤ L.yMax := bot_le_yMax hw _
    have hil' : (0 : K) ≤ (L.rows.length : K) - i - 1 := by
      have : ((i + 1 : ℕ) : K) ≤ (L.rows.length : K) := by exact_mod_cast hil
      push_cast at this; linarith
    rw [hc] at hp
    by_cases h4 : L.yMax - bot yMin L (i + 1) = 0
    · rw [if_pos h4] at hp; cases hp
    rw [if_neg h4] at hp
    have hnn : ¬ ((L.rows.length : K) - i - 1) * ((y - bot yMin L (i + 1)) / (L.yMax - bot yMin L (i + 1))) < 0 :=
      not_lt.2 (mul_nonneg hil' (div_nonneg (by linarith) (by linarith)))
    simp only [if_neg hnn] at hp
    refine ⟨hlt, fun he => h4 (by rw [he]; ring), ?_⟩
    split_ifs at hp with h5
    · simp only [Res.pure_eq, Res.ok.injEq, reduceCtorEq] at hp
    · simp only [Res.pure_eq, Res.ok.injEq, Pass.next.injEq] at hp
      exact hp.symm

theorem bot_sub (i k : ℕ) : bot yMin L (i + k) = bot yMin L i + hsum ((L.rows.drop i).take k) := by
  unfold bot
  rw [List.take_add, hsum_append]; ring

/-- Growing rows: the next row begins at or below the height searched for, and from such a row it lies above. -/
theorem grow_next (hw : Wf xMin xMax yMin L) (hg : L.rows.Pairwise fun a b => a.height ≤ b.height) {y : K} (hy0 : yMin ≤ y)
    {i j : ℕ} {r : Row K} (h : L.rows[i]? = some r) (hp : pass L y i = .ok (.next j))
    (hn : ¬ |y - r.center| ≤ r.height / 2) (hjl : j < L.rows.length) : bot yMin L j ≤ y ∧ (bot yMin L i ≤ y → i < j) := by
  have hil := (List.getElem?_eq_some_iff.1 h).1
  rcases pass_next hw hy0 h hp hn with ⟨h1, h2, h3⟩ | ⟨h1, h2, h3⟩
  · refine ⟨?_, fun h4 => by linarith⟩
    have hD : 0 < bot yMin L i - yMin := by linarith
    have hi : (0 : K) < i := by
      rcases Nat.eq_zero_or_pos i with h0 | h0
      · subst h0; rw [bot_zero] at h1; linarith
      · exact_mod_cast h0
    have hfl := Int.floor_le ((i : K) * ((y - bot yMin L i) / (bot yMin L i - yMin)))
    have hfl2 : (j : K) - i ≤ (i : K) * ((y - bot yMin L i) / (bot yMin L i - yMin)) := by
      have e : (⌊(i : K) * ((y - bot yMin L i) / (bot yMin L i - yMin))⌋ : ℤ) = (j : ℤ) - i := by omega
      rw [e] at hfl; push_cast at hfl; exact hfl
    have hle : (j : K) * (bot yMin L i - yMin) ≤ i * (y - yMin) := by
      rw [← mul_div_assoc, le_div_iff₀ hD] at hfl2
      linarith [hfl2]
    have hji : j ≤ i := by
      have : (j : K) - i ≤ 0 := hfl2.trans (mul_nonpos_of_nonneg_of_nonpos hi.le (div_nonpos_of_nonpos_of_nonneg (by linarith) hD.le))
      have : (j : K) ≤ i := by linarith
      exact_mod_cast this
    have hm := mean_grow (l := L.rows.take i) (hg.sublist (List.take_sublist _ _)) (k := j)
      (by rw [List.length_take]; omega)
    rw [List.length_take, min_eq_left hil.le, List.take_take, min_eq_left hji] at hm
    have e1 : hsum (L.rows.take j) = bot yMin L j - yMin := by unfold bot; ring
    have e2 : hsum (L.rows.take i) = bot yMin L i - yMin := by unfold bot; ring
    rw [e1, e2] at hm
    have : (i : K) * (bot yMin L j - yMin) ≤ i * (y - yMin) := hm.trans hle
    have := le_of_mul_le_mul_left this hi
    linarith
  · have hb : bot yMin L (i + 1) ≤ L.yMax := bot_le_yMax hw _
    have hD : 0 < L.yMax - bot yMin L (i + 1) := by
      rcases lt_or_eq_of_le hb with h | h
      · linarith
      · exact absurd h h2
    have hN : (0 : K) < (L.rows.length : K) - i - 1 := by
      have h0 : i + 1 ≠ L.rows.length := by
        intro he; rw [he, bot_length hw] at h2; exact h2 rfl
      have : ((i + 1 : ℕ) : K) < (L.rows.length : K) := by exact_mod_cast (by omega : i + 1 < L.rows.length)
      push_cast at this; linarith
    have hpos : 0 < ((L.rows.length : K) - i - 1) * ((y - bot yMin L (i + 1)) / (L.yMax - bot yMin L (i + 1))) :=
      mul_pos hN (div_pos (by linarith) hD)
    have hc := Int.ceil_pos.2 hpos
    have hij : i < j := by omega
    refine ⟨?_, fun _ => hij⟩
    have hce := Int.ceil_lt_add_one (((L.rows.length : K) - i - 1) * ((y - bot yMin L (i + 1)) / (L.yMax - bot yMin L (i + 1))))
    have e : (⌈((L.rows.length : K) - i - 1) * ((y - bot yMin L (i + 1)) / (L.yMax - bot yMin L (i + 1)))⌉ : ℤ) = (j : ℤ) - i := by omega
    rw [e] at hce; push_cast at hce
    have hk : ((j - (i + 1) : ℕ) : K) = (j : K) - i - 1 := by
      rw [Nat.cast_sub (by omega)]; push_cast; ring
    have hle : ((j : K) - i - 1) * (L.yMax - bot yMin L (i + 1)) ≤ ((L.rows.length : K) - i - 1) * (y - bot yMin L (i + 1)) := by
      have : (j : K) - i - 1 ≤ ((L.rows.length : K) - i - 1) * ((y - bot yMin L (i + 1)) / (L.yMax - bot yMin L (i + 1))) := by linarith
      rwa [← mul_div_assoc, le_div_iff₀ hD] at this
    have hm := mean_grow (l := L.rows.drop (i + 1)) (hg.sublist (List.drop_sublist _ _)) (k := j - (i + 1))
      (by rw [List.length_drop]; omega)
    have e1 : hsum ((L.rows.drop (i + 1)).take (j - (i + 1))) = bot yMin L j - bot yMin L (i + 1) := by
      have := bot_sub (yMin := yMin) (L := L) (i + 1) (j - (i + 1))
      rw [show i + 1 + (j - (i + 1)) = j by omega] at this
      linarith
    have e2 : hsum (L.rows.drop (i + 1)) = L.yMax - bot yMin L (i + 1) := by
      have := hsum_take_drop L.rows (i + 1)
      rw [hw.eYMax]; unfold bot; linarith
    rw [e1, e2, hk, List.length_drop, Nat.cast_sub (by omega)] at hm
    push_cast at hm
    have hm' : ((L.rows.length : K) - i - 1) * (bot yMin L j - bot yMin L (i + 1)) ≤
        ((L.rows.length : K) - i - 1) * (y - bot yMin L (i + 1)) := by linarith
    have := le_of_mul_le_mul_left hm' hN
    linarith

/-- Shrinking rows: the next row ends at or above the height searched for, and from such a row it lies below. -/
theorem shrink_next (hw : Wf xMin xMax yMin L) (hg : L.rows.Pairwise fun a b => b.height ≤ a.height) {y : K} (hy0 : yMin ≤ y)
    {i j : ℕ} {r : Row K} (h : L.rows[i]? = some r) (hp : pass L y i = .ok (.next j))
    (hn : ¬ |y - r.center| ≤ r.height / 2) (hjl : j < L.rows.length) :
    y ≤ bot yMin L (j + 1) ∧ (y ≤ bot yMin L (i + 1) → j < i) := by
  have hil := (List.getElem?_eq_some_iff.1 h).1
  rcases pass_next hw hy0 h hp hn with ⟨h1, h2, h3⟩ | ⟨h1, h2, h3⟩
  · have hD : 0 < bot yMin L i - yMin := by linarith
    have hi : (0 : K) < i := by
      rcases Nat.eq_zero_or_pos i with h0 | h0
      · subst h0; rw [bot_zero] at h1; linarith
      · exact_mod_cast h0
    have hneg : (i : K) * ((y - bot yMin L i) / (bot yMin L i - yMin)) < 0 :=
      mul_neg_of_pos_of_neg hi (div_neg_of_neg_of_pos (by linarith) hD)
    have hf : ⌊(i : K) * ((y - bot yMin L i) / (bot yMin L i - yMin))⌋ < 0 := by rw [Int.floor_lt]; simpa using hneg
    have hji : j < i := by omega
    refine ⟨?_, fun _ => hji⟩
    have hfl := Int.lt_floor_add_one ((i : K) * ((y - bot yMin L i) / (bot yMin L i - yMin)))
    have e : (⌊(i : K) * ((y - bot yMin L i) / (bot yMin L i - yMin))⌋ : ℤ) = (j : ℤ) - i := by omega
    rw [e] at hfl; push_cast at hfl
    have hle : (i : K) * (y - yMin) ≤ ((j : K) + 1) * (bot yMin L i - yMin) := by
      rw [← mul_div_assoc, div_lt_iff₀ hD] at hfl
      linarith
    have hm := mean_shrink (l := L.rows.take i) (hg.sublist (List.take_sublist _ _)) (k := j + 1)
      (by rw [List.length_take]; omega)
    rw [List.length_take, min_eq_left hil.le, List.take_take, min_eq_left hji] at hm
    have e1 : hsum (L.rows.take (j + 1)) = bot yMin L (j + 1) - yMin := by unfold bot; ring
    have e2 : hsum (L.rows.take i) = bot yMin L i - yMin := by unfold bot; ring
    rw [e1, e2] at hm
    push_cast at hm
    have := le_of_mul_le_mul_left (hle.trans hm) hi
    linarith
  · refine ⟨?_, fun h4 => by linarith⟩
    have hb : bot yMin L (i + 1) ≤ L.yMax := bot_le_yMax hw _
    have hD : 0 < L.yMax - bot yMin L (i + 1) := by
      rcases lt_or_eq_of_le hb with h | h
      · linarith
      · exact absurd h h2
    have hN : (0 : K) < (L.rows.length : K) - i - 1 := by
      have h0 : i + 1 ≠ L.rows.length := by
        intro he; rw [he, bot_length hw] at h2; exact h2 rfl
      have : ((i + 1 : ℕ) : K) < (L.rows.length : K) := by exact_mod_cast (by omega : i + 1 < L.rows.length)
      push_cast at this; linarith
    have hpos : 0 < ((L.rows.length : K) - i - 1) * ((y - bot yMin L (i + 1)) / (L.yMax - bot yMin L (i + 1))) :=
      mul_pos hN (div_pos (by linarith) hD)
    have hc := Int.ceil_pos.2 hpos
    have hij : i < j := by omega
    have hce := Int.le_ceil (((L.rows.length : K) - i - 1) * ((y - bot yMin L (i + 1)) / (L.yMax - bot yMin L (i + 1))))
    have e : (⌈((L.rows.length : K) - i - 1) * ((y - bot yMin L (i + 1)) / (L.yMax - bot yMin L (i + 1)))⌉ : ℤ) = (j : ℤ) - i := by omega
    rw [e] at hce; push_cast at hce
    have hk : ((j - i : ℕ) : K) = (j : K) - i := Nat.cast_sub (by omega)
    have hle : ((L.rows.length : K) - i - 1) * (y - bot yMin L (i + 1)) ≤ ((j : K) - i) * (L.yMax - bot yMin L (i + 1)) := by
      rwa [← mul_div_assoc, div_le_iff₀ hD] at hce
    have hm := mean_shrink (l := L.rows.drop (i + 1)) (hg.sublist (List.drop_sublist _ _)) (k := j - i)
      (by rw [List.length_drop]; omega)
    have e1 : hsum ((L.rows.drop (i + 1)).take (j - i)) = bot yMin L (j + 1) - bot yMin L (i + 1) := by
      have := bot_sub (yMin := yMin) (L := L) (i + 1) (j - i)
      rw [show i + 1 + (j - i) = j + 1 by omega] at this
      linarith
    have e2 : hsum (L.rows.drop (i + 1)) = L.yMax - bot yMin L (i + 1) := by
      have := hsum_take_drop L.rows (i + 1)
      rw [hw.eYMax]; unfold bot; linarith
    rw [e1, e2, hk, List.length_drop, Nat.cast_sub (by omega)] at hm
    push_cast at hm
    have hm' : ((L.rows.length : K) - i - 1) * (y - bot yMin L (i + 1)) ≤
        ((L.rows.length : K) - i - 1) * (bot yMin L (j + 1) - bot yMin L (i + 1)) := by linarith
    have := le_of_mul_le_mul_left hm' hN
    linarith

/-! ### the search ends -/

theorem search_grow (hw : Wf xMin xMax yMin L) (hg : L.rows.Pairwise fun a b => a.height ≤ b.height) {y : K}
    (hy0 : yMin ≤ y) (hy1 : y ≤ L.yMax) (hgap : NoOuterGap L y) :
    ∀ (k i : ℕ) (r : Row K), L.rows[i]? = some r → bot yMin L i ≤ y → L.rows.length ≤ i + k → search L y k i ≠ none := by
  intro k
  induction k with
  | zero =>
    intro i r h _ hk
    have := (List.getElem?_eq_some_iff.1 h).1
    omega
  | succ k ih =>
    intro i r h hb hk
    rcases pass_spec hw hy0 hy1 h hgap with ⟨j, r', hp, -⟩ | ⟨j, r', hp, hj, hn⟩
    · simp [search, hp]
    · obtain ⟨h1, h2⟩ := grow_next hw hg hy0 h hp hn (List.getElem?_eq_some_iff.1 hj).1
      simp only [search, hp]
      exact ih j r' hj h1 (by have := h2 hb; omega)

theorem search_shrink (hw : Wf xMin xMax yMin L) (hg : L.rows.Pairwise fun a b => b.height ≤ a.height) {y : K}
    (hy0 : yMin ≤ y) (hy1 : y ≤ L.yMax) (hgap : NoOuterGap L y) :
    ∀ (k i : ℕ) (r : Row K), L.rows[i]? = some r → y ≤ bot yMin L (i + 1) → i < k → search L y k i ≠ none := by
  intro k
  induction k with
  | zero => intro i r h _ hk; omega
  | succ k ih =>
    intro i r h hb hk
    rcases pass_spec hw hy0 hy1 h hgap with ⟨j, r', hp, -⟩ | ⟨j, r', hp, hj, hn⟩
    · simp [search, hp]
    · obtain ⟨h1, h2⟩ := shrink_next hw hg hy0 h hp hn (List.getElem?_eq_some_iff.1 hj).1
      simp only [search, hp]
      exact ih j r' hj h1 (by have := h2 hb; omega)

/-- With rows that only grow or only shrink the search ends after at most one pass more than there are rows. -/
theorem search_monotone (hw : Wf xMin xMax yMin L)
    (hg : (L.rows.Pairwise fun a b => a.height ≤ b.height) ∨ L.rows.Pairwise fun a b => b.height ≤ a.height) {y : K}
    (hy0 : yMin ≤ y) (hy1 : y ≤ L.yMax) (hgap : NoOuterGap L y) {i : ℕ} {r : Row K} (h : L.rows[i]? = some r) :
    search L y (L.rows.length + 1) i ≠ none := by
  rcases pass_spec hw hy0 hy1 h hgap with ⟨j, r', hp, -⟩ | ⟨j, r', hp, hj, hn⟩
  · simp [search, hp]
  · have hjl := (List.getElem?_eq_some_iff.1 hj).1
    simp only [search, hp]
    rcases hg with hg | hg
    · exact search_grow hw hg hy0 hy1 hgap _ j r' hj (grow_next hw hg hy0 h hp hn hjl).1 (by omega)
    · exact search_shrink hw hg hy0 hy1 hgap _ j r' hj (shrink_next hw hg hy0 h hp hn hjl).1 hjl

/-! ### a search that is longer than the table never ends -/

/-- The rows met by the search. -/
def visits (L : Layout K) (y : K) (i : ℤ) : ℕ → Option ℤ
  | 0 => some i
  | n + 1 =>
    match visits L y i n with
    | some r =>
      match pass L y r with
      | .ok (.next r') => some r'
      | _ => none
    | none => none

theorem search_mono (L : Layout K) (y : K) : ∀ (n : ℕ) (i : ℤ) (o : Res ℤ), search L y n i = some o → ∀ m, search L y (n + m) i = some o := by
  intro n
  induction n with
  | zero => intro i o h; simp [search] at h
  | succ n ih =>
    intro i o h m
    rw [show n + 1 + m = (n + m) + 1 by omega]
    unfold search at h ⊢
    split at h <;> simp_all

theorem search_visits (L : Layout K) (y : K) : ∀ (n : ℕ) (i r : ℤ) (k : ℕ), visits L y i n = some r → search L y (n + k) i = search L y k r := by
  intro n
  induction n with
  | zero => intro i r k h; cases h; rw [Nat.zero_add]
  | succ n ih =>
    intro i r k h
    simp only [visits] at h
    split at h
    · rename_i r0 h0
      split at h
      · rename_i r1 h1
        cases h
        rw [show n + 1 + k = n + (k + 1) by omega, ih i r0 (k + 1) h0, search, h1]
      · cases h
    · cases h

theorem visits_of_none (L : Layout K) (y : K) : ∀ (n : ℕ) (i : ℤ), search L y n i = none → ∃ r, visits L y i n = some r := by
  intro n
  induction n with
  | zero => intro i _; exact ⟨i, rfl⟩
  | succ n ih =>
    intro i h
    have hn : search L y n i = none := by
      by_contra hc
      obtain ⟨o, ho⟩ := Option.ne_none_iff_exists'.1 hc
      rw [search_mono L y n i o ho 1] at h; cases h
    obtain ⟨r, hr⟩ := ih i hn
    have := search_visits L y n i r 1 hr
    rw [this, search] at h
    cases hp : pass L y r with
    | ok a =>
      rw [hp] at h
      cases a with
      | done q => simp at h
      | next q => exact ⟨q, by simp only [visits, hr, hp]⟩
    | throw e => rw [hp] at h; simp at h
    | ub => rw [hp] at h; simp at h

theorem visits_add (L : Layout K) (y : K) (i : ℤ) (a : ℕ) {r : ℤ} (h : visits L y i a = some r) : ∀ b, visits L y i (a + b) = visits L y r b := by
  intro b
  induction b with
  | zero => exact h
  | succ b ih => rw [← Nat.add_assoc, visits, visits, ih]

theorem search_bounded (L : Layout K) (y : K) (i : ℤ) (h : search L y (L.rows.length + 1) i = none) : ∀ fuel, search L y fuel i = none := by
  -- every row visited and left is a row of the table
  set n := L.rows.length
  have hv : ∀ k ≤ n + 1, ∃ r, visits L y i k = some r := by
    intro k hk
    by_contra hc
    have hk' : visits L y i k = none := by
      cases hh : visits L y i k with
      | none => rfl
      | some r => exact absurd ⟨r, hh⟩ hc
    have : ∀ m, visits L y i (k + m) = none := by
      intro m
      induction m with
      | zero => exact hk'
      | succ m ih => rw [← Nat.add_assoc, visits, ih]
    obtain ⟨r, hr⟩ := visits_of_none L y (n + 1) i h
    have h2 := this (n + 1 - k)
    rw [show k + (n + 1 - k) = n + 1 by omega, hr] at h2
    cases h2
  have hrange : ∀ k ≤ n, ∃ m : ℕ, m < n ∧ visits L y i k = some (m : ℤ) := by
    intro k hk
    obtain ⟨r, hr⟩ := hv k (by omega)
    obtain ⟨r', hr'⟩ := hv (k + 1) (by omega)
    simp only [visits, hr] at hr'
    cases hp : pass L y r with
    | ok a =>
      have he : elemUb L.rows r ≠ .ub := by
        intro he; simp [pass, he] at hp
      cases hel : elem L.rows r with
      | none => exact absurd (by simp [elemUb, hel]) he
      | some x =>
        obtain ⟨m, rfl, hm⟩ := elem_eq_some.1 hel
        exact ⟨m, (List.getElem?_eq_some_iff.1 hm).1, hr⟩
    | throw e => rw [hp] at hr'; simp at hr'
    | ub => rw [hp] at hr'; simp at hr'
  -- two visits meet the same row
  obtain ⟨f, hf⟩ : ∃ f : Fin (n + 1) → Fin n, ∀ k : Fin (n + 1), visits L y i k = some ((f k : ℕ) : ℤ) := by
    have : ∀ k : Fin (n + 1), ∃ m : Fin n, visits L y i k = some ((m : ℕ) : ℤ) := by
      intro k
      obtain ⟨m, hm, e⟩ := hrange k (by omega)
      exact ⟨⟨m, hm⟩, e⟩
    exact ⟨fun k => (this k).choose, fun k => (this k).choose_spec⟩
  obtain ⟨a, b, hab, heq⟩ := Fintype.exists_ne_map_eq_of_card_lt f (by simp)
  have hloop : ∃ a p : ℕ, a + (p + 1) ≤ n ∧ ∃ r, visits L y i a = some r ∧ visits L y r (p + 1) = some r := by
    rcases lt_or_gt_of_ne hab with hlt | hlt
    · refine ⟨a, b - a - 1, by omega, _, hf a, ?_⟩
      rw [← visits_add L y i a (hf a), show (a : ℕ) + ((b : ℕ) - a - 1 + 1) = b by omega, hf b, heq]
    · refine ⟨b, a - b - 1, by omega, _, hf b, ?_⟩
      rw [← visits_add L y i b (hf b), show (b : ℕ) + ((a : ℕ) - b - 1 + 1) = a by omega, hf a, heq]
  obtain ⟨a, p, hap, r, hr, hrr⟩ := hloop
  have never : ∀ fuel, search L y fuel r = none := by
    intro fuel
    induction fuel using Nat.strong_induction_on with
    | _ fuel ih =>
      rcases Nat.lt_or_ge fuel (p + 1) with hlt | hge
      · by_contra hc
        obtain ⟨o, ho⟩ := Option.ne_none_iff_exists'.1 hc
        have h1 := search_mono L y fuel r o ho (n + 1 - a - fuel)
        have h2 := search_visits L y a i r (fuel + (n + 1 - a - fuel)) hr
        rw [h1, show a + (fuel + (n + 1 - a - fuel)) = n + 1 by omega, h] at h2
        cases h2
      · have := search_visits L y (p + 1) r r (fuel - (p + 1)) hrr
        rw [show p + 1 + (fuel - (p + 1)) = fuel by omega] at this
        rw [this]
        exact ih _ (by omega)
  intro fuel
  by_contra hc
  obtain ⟨o, ho⟩ := Option.ne_none_iff_exists'.1 hc
  have h1 := search_mono L y fuel i o ho a
  have h2 := search_visits L y a i r fuel hr
  rw [Nat.add_comm, h2, never fuel] at h1
  cases h1

end Gear.Rect
