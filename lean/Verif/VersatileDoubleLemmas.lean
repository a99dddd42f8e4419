/-
Lemmas about the versatile disk layout in the arithmetic of `double`: what `addRow` makes.
-/
import Verif.VersatileDoubleSpec
import Verif.VersatileLemmas
import Verif.PadSizeDoubleLemmas
import Mathlib.Algebra.Order.Ring.Pow

set_option autoImplicit false
set_option linter.unusedSectionVars false

namespace Gear.Versatile.Double

open PadIndex Disk Doubles Versatile.Spec Spec
open Rect (elem elemUb elemAt)
open MaterialMap (Arith)
open PadAngle.Double.Spec (Rounded)

variable {K : Type} [Field K] [LinearOrder K] [IsStrictOrderedRing K] [FloorRing K]
variable {F : Arith K} {u : K}

/-! ### rows -/

/-- What a row looks like. -/
structure RowOf (F : Arith K) (i n : ℤ) (rc pp h pw ph off : K) (row : Row K) : Prop where
  rowNumber : row.rowNumber = i
  nPads : row.nPads = n
  padPitch : row.padPitch = F.rnd (pp / rc)
  padWidth : row.padWidth = F.rnd (pw / rc)
  rowHeight : row.rowHeight = h
  padHeight : row.padHeight = ph
  rCentre : row.rCentre = rc
  fits : F.rnd (row.padPitch * n) ≤ F.rnd (2 * F.pi)
  offset : F.rnd (-2 * F.pi) ≤ F.rnd (off / rc) → F.rnd (off / rc) < F.rnd (2 * F.pi) → row.offset = F.rnd (off / rc)

theorem mkRow_ok {i n : ℤ} {rc pp h pw ph off : K} {row : Row K}
    (hr : mkRow F i n rc pp h pw ph off = .ok row) : RowOf F i n rc pp h pw ph off row := by
  unfold mkRow Arith.add Arith.sub Arith.mul Arith.div at hr
  dsimp only at hr
  by_cases h1 : F.rnd (F.rnd (pp / rc) * n) > F.rnd (2 * F.pi)
  · rw [if_pos h1] at hr; cases hr
  rw [if_neg h1] at hr
  cases hr
  refine ⟨rfl, rfl, rfl, rfl, rfl, rfl, rfl, not_lt.1 h1, ?_⟩
  intro a b
  dsimp only
  simp only [if_neg (not_lt.2 a), if_neg (not_le.2 b)]

/-- The middle radius of the `n`-th row of a call of `addRow` whose first row has the middle radius `rc`. -/
def centreAt (F : Arith K) (rc h : K) : ℕ → K
  | 0 => rc
  | n + 1 => centreAt F (F.rnd (rc + h)) h n

theorem pushRows_spec (np : ℤ) (pp h pw ph off : K) : ∀ (n : ℕ) (L : Layout K) (rc : K),
    (pushRows F np pp h pw ph off n L rc).2 = .ok () → ∃ new : List (Row K),
      (pushRows F np pp h pw ph off n L rc).1 =
        { L with rows := L.rows ++ new, padIndices := L.padIndices ++ List.replicate new.length none } ∧
      new.length = n ∧
      ∀ (i : ℕ) row, new[i]? = some row → mkRow F (L.rows.length + i) np (centreAt F rc h i) pp h pw ph off = .ok row := by
  intro n
  induction n with
  | zero => intro L rc _; exact ⟨[], by simp [pushRows], rfl, by simp⟩
  | succ n ih =>
    intro L rc hok
    rw [pushRows] at hok ⊢
    cases hr : mkRow F L.rows.length np rc pp h pw ph off with
    | throw e => rw [hr] at hok; cases hok
    | ub => rw [hr] at hok; cases hok
    | ok row =>
      rw [hr] at hok
      dsimp only at hok ⊢
      obtain ⟨new, h1, h2, h3⟩ := ih _ _ hok
      refine ⟨row :: new, ?_, by simp [h2], ?_⟩
      · rw [h1]; simp [List.replicate_succ]
      · intro i r hi
        rcases i with _ | i
        · simp only [List.getElem?_cons_zero, Option.some.injEq] at hi
          subst hi
          simpa [centreAt] using hr
        · rw [List.getElem?_cons_succ] at hi
          have := h3 i r hi
          rw [← this, centreAt]
          simp only [List.length_append, List.length_singleton]
          push_cast
          unfold Arith.add
          congr 1; ring

theorem updateExtent_rows (a : RowArgs K) (L : Layout K) :
    (updateExtent F a L).rows = L.rows ∧ (updateExtent F a L).nPad = L.nPad ∧ (updateExtent F a L).ext0 = L.ext0 := by
  unfold updateExtent
  rcases L.rows.getLast? with _ | back
  · exact ⟨rfl, rfl, rfl⟩
  · dsimp only
    split_ifs <;> exact ⟨rfl, rfl, rfl⟩

theorem updateExtent_ext1 (a : RowArgs K) (L : Layout K) (h : L.rows ≠ []) :
    (updateExtent F a L).ext1 = F.rnd (L.ext1 + F.rnd (a.repeats * a.rowHeight)) := by
  unfold updateExtent Arith.add Arith.mul
  rcases hl : L.rows.getLast? with _ | back
  · exact absurd (List.getLast?_eq_none_iff.1 hl) h
  · dsimp only
    split_ifs <;> rfl

theorem addRow_spec {L L' : Layout K} {a : RowArgs K} (h : addRow F L a = (L', .ok ())) :
    ArgsOk a ∧ ∃ new : List (Row K), L'.rows = L.rows ++ new ∧ new.length = a.repeats.toNat ∧ L'.ext0 = L.ext0 ∧
      L'.nPad = L.nPad + a.repeats * a.nPads ∧ L'.ext1 = F.rnd (L.ext1 + F.rnd (a.repeats * a.rowHeight)) ∧
      ∀ (i : ℕ) row, new[i]? = some row →
        mkRow F (L.rows.length + i) a.nPads (centreAt F (F.rnd (L.ext1 + F.rnd (a.rowHeight / 2))) a.rowHeight i) a.padPitch
          a.rowHeight (widthOf a) (heightOf a) a.offset = .ok row := by
  unfold addRow at h
  by_cases h1 : a.nPads ≤ 0
  · rw [if_pos h1] at h; cases h
  rw [if_neg h1] at h
  by_cases h2 : a.padPitch < 0
  · rw [if_pos h2] at h; cases h
  rw [if_neg h2] at h
  by_cases h3 : a.padWidth < 0
  · rw [if_pos h3] at h; cases h
  rw [if_neg h3] at h
  by_cases h4 : a.padWidth > a.padPitch
  · rw [if_pos h4] at h; cases h
  rw [if_neg h4] at h
  by_cases h5 : a.rowHeight ≤ 0
  · rw [if_pos h5] at h; cases h
  rw [if_neg h5] at h
  by_cases h6 : a.repeats ≤ 0
  · rw [if_pos h6] at h; cases h
  rw [if_neg h6] at h
  have hok : ArgsOk a := ⟨by omega, not_lt.1 h2, not_lt.1 h3, not_lt.1 h4, not_le.1 h5, by omega⟩
  refine ⟨hok, ?_⟩
  dsimp only at h
  have e : F.add L.ext1 (F.mul a.rowHeight (1 / 2)) = F.rnd (L.ext1 + F.rnd (a.rowHeight / 2)) := by
    unfold Arith.add Arith.mul; rw [show a.rowHeight * (1 / 2) = a.rowHeight / 2 by ring]
  rw [e] at h
  change (match pushRows F a.nPads a.padPitch a.rowHeight (widthOf a) (heightOf a) a.offset a.repeats.toNat
    { L with nPad := L.nPad + a.repeats * a.nPads } (F.rnd (L.ext1 + F.rnd (a.rowHeight / 2))) with
    | (L', .ok ()) => (updateExtent F a L', .ok ())
    | r => r) = (L', .ok ()) at h
  have hs := pushRows_spec (F := F) a.nPads a.padPitch a.rowHeight (widthOf a) (heightOf a) a.offset a.repeats.toNat
    { L with nPad := L.nPad + a.repeats * a.nPads } (F.rnd (L.ext1 + F.rnd (a.rowHeight / 2)))
  generalize pushRows F a.nPads a.padPitch a.rowHeight (widthOf a) (heightOf a) a.offset a.repeats.toNat
    { L with nPad := L.nPad + a.repeats * a.nPads } (F.rnd (L.ext1 + F.rnd (a.rowHeight / 2))) = P at h hs
  obtain ⟨M, res⟩ := P
  cases res with
  | throw e => cases h
  | ub => cases h
  | ok _ =>
    dsimp only at h hs
    cases h
    obtain ⟨new, m1, m2, m3⟩ := hs rfl
    obtain ⟨u1, u2, u3⟩ := updateExtent_rows (F := F) a M
    have hr := hok.repeats
    have u4 := updateExtent_ext1 (F := F) a M (by
      rw [m1]; simp only [ne_eq, List.append_eq_nil_iff, not_and]
      intro _ hnew; rw [hnew] at m2; simp at m2; omega)
    refine ⟨new, ?_, m2, ?_, ?_, ?_, m3⟩
    · rw [u1, m1]
    · rw [u3, m1]
    · rw [u2, m1]
    · rw [u4, m1]

/-! ### rounding errors that add up -/

/-- `x` is `y` up to `n` roundings. -/
def Off (u x y : K) (n : ℕ) : Prop := (1 - u) ^ n * y ≤ x ∧ x ≤ (1 + u) ^ n * y

theorem Off.mono {x y : K} {n m : ℕ} (h : Off u x y n) (hnm : n ≤ m) (h0 : 0 ≤ u) (h1 : u ≤ 1) (hy : 0 ≤ y) : Off u x y m := by
  refine ⟨le_trans ?_ h.1, h.2.trans ?_⟩
  · exact mul_le_mul_of_nonneg_right (pow_le_pow_of_le_one (by linarith) (by linarith) hnm) hy
  · exact mul_le_mul_of_nonneg_right (pow_le_pow_right₀ (by linarith) hnm) hy

theorem Off.add {x y x' y' : K} {n : ℕ} (h : Off u x y n) (h' : Off u x' y' n) : Off u (x + x') (y + y') n :=
  ⟨by linarith [h.1, h'.1, mul_add ((1 - u) ^ n) y y'], by linarith [h.2, h'.2, mul_add ((1 + u) ^ n) y y']⟩

theorem Off.nonneg {x y : K} {n : ℕ} (h : Off u x y n) (h1 : u ≤ 1) (hy : 0 ≤ y) : 0 ≤ x :=
  le_trans (mul_nonneg (pow_nonneg (by linarith) _) hy) h.1

theorem Off.rnd (R : Rounded F u) {x y : K} {n : ℕ} (h : Off u x y n) (hy : 0 ≤ y) : Off u (F.rnd x) y (n + 1) := by
  have h1 : u ≤ 1 := by linarith [R.small]
  have hb := R.rounding.bounds (h.nonneg h1 hy)
  have a := mul_le_mul_of_nonneg_left h.1 (by linarith : 0 ≤ 1 - u)
  have b := mul_le_mul_of_nonneg_left h.2 (by linarith [R.nonneg] : 0 ≤ 1 + u)
  have e1 : (1 - u) ^ (n + 1) * y = (1 - u) * ((1 - u) ^ n * y) := by ring
  have e2 : (1 + u) ^ (n + 1) * y = (1 + u) * ((1 + u) ^ n * y) := by ring
  exact ⟨by rw [e1]; linarith [hb.1], by rw [e2]; linarith [hb.2]⟩

theorem Off.refl (x : K) : Off u x x 0 := ⟨by simp, by simp⟩

/-- `n` roundings are an error of at most `2 n u`. -/
theorem Off.near {x y : K} {n : ℕ} (h : Off u x y n) (h0 : 0 ≤ u) (hn : 2 * n * u ≤ 1) (hy : 0 ≤ y) :
    |x - y| ≤ 2 * n * u * y := by
  have lo : 1 - n * u ≤ (1 - u) ^ n := by
    have hu : u ≤ 1 ∨ n = 0 := by
      rcases Nat.eq_zero_or_pos n with h | h
      · exact .inr h
      · left
        have : (1 : K) ≤ n := by exact_mod_cast h
        have := mul_le_mul_of_nonneg_right this h0
        linarith
    rcases hu with hu | rfl
    · have := one_add_mul_le_pow (a := -u) (by linarith) n
      have e : 1 + -u = 1 - u := by ring
      rw [e] at this
      linarith
    · simp
  have hi : ∀ m : ℕ, 2 * (m : K) * u ≤ 1 → (1 + u) ^ m ≤ 1 + 2 * m * u := by
    intro m
    induction m with
    | zero => intro _; simp
    | succ m ih =>
      intro hm
      push_cast at hm
      have hm' : 2 * (m : K) * u ≤ 1 := by linarith
      have := mul_le_mul_of_nonneg_right (ih hm') (by linarith : 0 ≤ 1 + u)
      have e := mul_le_mul_of_nonneg_right hm' h0
      rw [pow_succ]
      push_cast
      linarith
  have a := mul_le_mul_of_nonneg_right lo hy
  have b := mul_le_mul_of_nonneg_right (hi n hn) hy
  have c : 0 ≤ n * u * y := mul_nonneg (mul_nonneg (by positivity) h0) hy
  rw [_root_.abs_le]
  exact ⟨by linarith [h.1], by linarith [h.2]⟩

theorem centreAt_off (R : Rounded F u) {h : K} (hh : 0 ≤ h) : ∀ (j : ℕ) {rc m : K} {n : ℕ}, 0 ≤ m → Off u rc m n →
    Off u (centreAt F rc h j) (m + j * h) (n + j) := by
  intro j
  induction j with
  | zero => intro rc m n _ hm; simpa [centreAt] using hm
  | succ j ih =>
    intro rc m n h0 hm
    have h1 : u ≤ 1 := by linarith [R.small]
    have hadd := (hm.add ((Off.refl h).mono (Nat.zero_le n) R.nonneg h1 hh)).rnd R (add_nonneg h0 hh)
    have := ih (add_nonneg h0 hh) hadd
    rw [centreAt]
    have e : m + ((j + 1 : ℕ) : K) * h = m + h + j * h := by push_cast; ring
    rw [e, show n + (j + 1) = n + 1 + j by omega]
    exact this

/-! ### the invariant -/

structure BInv (F : Arith K) (u rMin : K) (as : List (RowArgs K)) (L : Layout K) : Prop where
  len : L.rows.length = (flat as).length
  args : ∀ a ∈ as, ArgsOk a
  calls : as.length ≤ (flat as).length
  row : ∀ (i : ℕ) a, (flat as)[i]? = some a → ∃ row rc, L.rows[i]? = some row ∧ Off u rc (middle rMin as i a) (i + 2) ∧
    RowOf F i a.nPads rc a.padPitch a.rowHeight (widthOf a) (heightOf a) a.offset row
  ext0 : L.ext0 = rMin
  ext1 : Off u L.ext1 (inner rMin as (flat as).length) (as.length + 1)
  nPad : L.nPad = ((flat as).map RowArgs.nPads).sum

theorem inner_nonneg {rMin : K} (h0 : 0 ≤ rMin) {as : List (RowArgs K)} (h : ∀ a ∈ as, ArgsOk a) (i : ℕ) :
    0 ≤ inner rMin as i := h0.trans (inner_ge h i)

theorem binv_built (R : Rounded F u) {rMin : K} (h0 : 0 ≤ rMin) {as : List (RowArgs K)} {L : Layout K}
    (h : Spec.Built F rMin as L) : BInv F u rMin as L := by
  have hu0 := R.nonneg
  have hu1 : u ≤ 1 := by linarith [R.small]
  induction h with
  | new =>
    refine ⟨rfl, by simp, by simp, by simp [flat], rfl, ?_, rfl⟩
    have := (Off.refl (u := u) rMin).mono (Nat.zero_le 1) hu0 hu1 h0
    simpa [inner, flat, Versatile.new] using this
  | @addRow as L L' a _ hL ih =>
    obtain ⟨hok, new, h1, h2, h3, h4, h5, h6⟩ := addRow_spec hL
    have hrep := hok.repeats
    have hcast : ((a.repeats.toNat : ℕ) : K) = (a.repeats : K) := by
      have : ((a.repeats.toNat : ℤ) : K) = (a.repeats : K) := by rw [Int.toNat_of_nonneg hrep.le]
      exact_mod_cast this
    have hin := inner_nonneg h0 ih.args (flat as).length
    have hh := hok.rowHeight.le
    refine ⟨?_, ?_, ?_, ?_, by rw [h3, ih.ext0], ?_, ?_⟩
    · rw [h1, flat_append]; simp [ih.len, h2]
    · intro b hb
      rcases List.mem_append.1 hb with hb | hb
      · exact ih.args b hb
      · rw [List.mem_singleton.1 hb]; exact hok
    · rw [flat_append]
      have := ih.calls
      simp only [List.length_append, List.length_singleton, List.length_replicate]
      omega
    · intro i b hb
      rw [flat_append] at hb
      rcases lt_or_ge i (flat as).length with hlt | hge
      · rw [List.getElem?_append_left hlt] at hb
        obtain ⟨row, rc, hr, hO, hR⟩ := ih.row i b hb
        refine ⟨row, rc, by rw [h1, List.getElem?_append_left (by rw [ih.len]; exact hlt)]; exact hr, ?_, hR⟩
        have : middle rMin (as ++ [a]) i b = middle rMin as i b := by
          unfold middle; rw [inner_append _ _ _ hlt.le]
        rw [this]; exact hO
      · obtain ⟨j, rfl⟩ := Nat.exists_eq_add_of_le hge
        rw [List.getElem?_append_right hge, List.getElem?_replicate] at hb
        split_ifs at hb with hj
        cases hb
        have hj' : j < new.length := by omega
        have hr : new[j]? = some new[j] := List.getElem?_eq_getElem hj'
        refine ⟨new[j], centreAt F (F.rnd (L.ext1 + F.rnd (a.rowHeight / 2))) a.rowHeight j, ?_, ?_, ?_⟩
        · rw [h1, List.getElem?_append_right (by rw [ih.len]; omega), ih.len]
          simpa using hr
        · have e : middle rMin (as ++ [a]) ((flat as).length + j) a =
              inner rMin as (flat as).length + a.rowHeight / 2 + j * a.rowHeight := by
            unfold middle; rw [inner_new _ _ _ (by omega)]; ring
          rw [e]
          have o1 : Off u (F.rnd (a.rowHeight / 2)) (a.rowHeight / 2) 1 := (Off.refl _).rnd R (by linarith)
          have o2 := (ih.ext1.add (o1.mono (by omega : 1 ≤ as.length + 1) hu0 hu1 (by linarith))).rnd R (by linarith)
          have o3 := centreAt_off R hh j (by linarith) o2
          have := ih.calls
          refine o3.mono (by omega) hu0 hu1 ?_
          have : (0 : K) ≤ j * a.rowHeight := mul_nonneg (by positivity) hh
          linarith
        · have := mkRow_ok (h6 j _ hr)
          have e2 : (((flat as).length + j : ℕ) : ℤ) = (L.rows.length : ℤ) + j := by rw [ih.len]; push_cast; rfl
          rw [e2]; exact this
    · rw [h5, flat_append, List.length_append, inner_new _ _ _ (by simp), List.length_replicate, hcast,
        List.length_append, List.length_singleton]
      have hp : 0 ≤ (a.repeats : K) * a.rowHeight := mul_nonneg (by exact_mod_cast hrep.le) hh
      have o1 : Off u (F.rnd (a.repeats * a.rowHeight)) (a.repeats * a.rowHeight) 1 := (Off.refl _).rnd R hp
      exact (ih.ext1.add (o1.mono (by omega : 1 ≤ as.length + 1) hu0 hu1 hp)).rnd R (by linarith)
    · rw [h4, ih.nPad, flat_append]
      simp [Int.max_eq_left hrep.le]
  | @padsInRow as L row _ ih =>
    rcases getPadsInRow_cases L row with h | ⟨i, r, l, rfl, -, -, h⟩
    · rw [h]; exact ih
    · rw [h]; exact { ih with }
  | @copy as L _ ih => exact { ih with }

end Gear.Versatile.Double
