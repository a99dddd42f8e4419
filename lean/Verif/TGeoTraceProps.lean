/-
C105 and C106: the volumes and thicknesses along a path, and the end of the loop that follows it.
-/
import Verif.TGeoTrace
import Verif.Vector3DProps
import Mathlib.Tactic.IntervalCases
import Mathlib.Tactic.Ring
import Mathlib.Tactic.Linarith
import Mathlib.Tactic.FieldSimp

set_option autoImplicit false
set_option linter.unusedSectionVars false

namespace Gear.TGeoDistance

open Vector3D (V3)
open Disk (Fns)

variable {K : Type} [Field K] [LinearOrder K] [IsStrictOrderedRing K]

/-! ### The geometry of the path -/

theorem length_nonneg_sq {F : Fns K} {p0 p1 : V3 K} (h : Straight F p0 p1) :
    0 ≤ pathLength F p0 p1 ∧ pathLength F p0 p1 * pathLength F p0 p1 =
      (p1.x - p0.x) * (p1.x - p0.x) + (p1.y - p0.y) * (p1.y - p0.y) + (p1.z - p0.z) * (p1.z - p0.z) := by
  obtain ⟨t, ht, e⟩ := h.length
  have h1 : pathLength F p0 p1 = t := by
    show F.sqrt ((p1.x - p0.x) * (p1.x - p0.x) + (p1.y - p0.y) * (p1.y - p0.y) + (p1.z - p0.z) * (p1.z - p0.z)) = t
    rw [← e, h.root t ht]
  rw [h1]
  exact ⟨ht, e⟩

theorem length_sq {F : Fns K} {p0 p1 : V3 K} (h : Straight F p0 p1) :
    pathLength F p0 p1 * pathLength F p0 p1 =
      (p1.x - p0.x) * (p1.x - p0.x) + (p1.y - p0.y) * (p1.y - p0.y) + (p1.z - p0.z) * (p1.z - p0.z) :=
  (length_nonneg_sq h).2

theorem length_pos {F : Fns K} {p0 p1 : V3 K} (h : Straight F p0 p1) : 0 < pathLength F p0 p1 := by
  rcases (length_nonneg_sq h).1.lt_or_eq with h0 | h0
  · exact h0
  · exfalso
    have h1 := length_sq h
    rw [← h0] at h1
    have hx := mul_self_nonneg (p1.x - p0.x)
    have hy := mul_self_nonneg (p1.y - p0.y)
    have hz := mul_self_nonneg (p1.z - p0.z)
    have ex : p1.x - p0.x = 0 := mul_self_eq_zero.1 (by linarith)
    have ey : p1.y - p0.y = 0 := mul_self_eq_zero.1 (by linarith)
    have ez : p1.z - p0.z = 0 := mul_self_eq_zero.1 (by linarith)
    apply h.differ
    obtain ⟨a, b, c⟩ := p0
    obtain ⟨a', b', c'⟩ := p1
    simp only at ex ey ez
    rw [sub_eq_zero.1 ex, sub_eq_zero.1 ey, sub_eq_zero.1 ez]

theorem direction_sq {F : Fns K} {p0 p1 : V3 K} (h : Straight F p0 p1) :
    (direction F p0 p1).x * (direction F p0 p1).x + (direction F p0 p1).y * (direction F p0 p1).y +
      (direction F p0 p1).z * (direction F p0 p1).z = 1 := by
  have h0 := (length_pos h).ne'
  have h1 := length_sq h
  simp only [direction, Vector3D.sub]
  field_simp
  rw [sq (pathLength F p0 p1), h1]
  ring

theorem length_between {F : Fns K} {p0 p1 : V3 K} (h : Straight F p0 p1) {a b : K} (hab : a ≤ b) :
    pathLength F (pointAt F p0 p1 a) (pointAt F p0 p1 b) = b - a := by
  have h1 := direction_sq h
  have h2 : ∀ u v w : K, (b - a) * (b - a) * (u * u + v * v + w * w) =
      ((b - a) * u) * ((b - a) * u) + ((b - a) * v) * ((b - a) * v) + ((b - a) * w) * ((b - a) * w) := by
    intro u v w; ring
  have h3 := h2 (direction F p0 p1).x (direction F p0 p1).y (direction F p0 p1).z
  rw [h1, mul_one] at h3
  have h4 : pathLength F (pointAt F p0 p1 a) (pointAt F p0 p1 b) = F.sqrt ((b - a) * (b - a)) := by
    rw [h3]
    show F.sqrt _ = F.sqrt _
    congr 1
    simp only [Vector3D.sub, pointAt]
    ring
  rw [h4, h.root _ (sub_nonneg.2 hab)]

theorem pointAt_zero (F : Fns K) (p0 p1 : V3 K) : pointAt F p0 p1 0 = p0 := by
  simp [pointAt]

theorem pointAt_end {F : Fns K} {p0 p1 : V3 K} (h : Straight F p0 p1) :
    pointAt F p0 p1 (pathLength F p0 p1) = p1 := by
  have h0 := (length_pos h).ne'
  obtain ⟨a, b, c⟩ := p1
  simp only [pointAt, direction, Vector3D.sub]
  congr 1 <;> · rw [mul_div_cancel₀ _ h0]; ring

theorem length_from_start {F : Fns K} {p0 p1 : V3 K} (h : Straight F p0 p1) {t : K} (ht : 0 ≤ t) :
    pathLength F p0 (pointAt F p0 p1 t) = t := by
  have h1 := length_between h ht
  rwa [pointAt_zero, sub_zero] at h1

theorem length_to_end {F : Fns K} {p0 p1 : V3 K} (h : Straight F p0 p1) {t : K}
    (ht : t ≤ pathLength F p0 p1) :
    pathLength F (pointAt F p0 p1 t) p1 = pathLength F p0 p1 - t := by
  have h1 := length_between h ht
  rwa [pointAt_end h] at h1

theorem pointAt_add (F : Fns K) (p0 p1 : V3 K) (t d : K) :
    (⟨(pointAt F p0 p1 t).x + d * (direction F p0 p1).x, (pointAt F p0 p1 t).y + d * (direction F p0 p1).y,
      (pointAt F p0 p1 t).z + d * (direction F p0 p1).z⟩ : V3 K) = pointAt F p0 p1 (t + d) := by
  simp only [pointAt]
  congr 1 <;> ring

theorem minStep_pos : (0 : K) < minStep := by unfold minStep; positivity

/-! ### C106 -/

theorem loop_ends {F : Fns K} {N : Nav K} {p0 p1 : V3 K} (h : Straight F p0 p1) (M : Moves F N p0 p1) :
    ∀ (n : ℕ) (s : N.S) (nd : Option (Node K)) (acc : List (Seg K)), 0 ≤ M.at_ s →
      pathLength F p0 p1 - M.at_ s < n * minStep → beamLoop F N p0 p1 (n + 1) s nd acc ≠ none := by
  intro n
  induction n with
  | zero =>
    intro s nd acc h0 hlt
    rw [beamLoop]
    split
    · simp
    · cases hadv : advance N (direction F p0 p1) s with
      | none => simp
      | some r =>
        obtain ⟨s', node2, len⟩ := r
        cases nd with
        | none => simp
        | some nd =>
          have hge : M.at_ s ≤ M.at_ s' := by
            unfold advance at hadv
            dsimp only at hadv
            split at hadv
            · cases hadv
            · have h1 := M.next s
              have h2 := M.forward s
              split at hadv
              · cases hadv
                have h3 := M.current (N.findNext s).1
                rw [h3, pointAt_add]
                have hm := @minStep_pos K _ _ _
                have h5 := M.put (N.findNext s).1 (M.at_ (N.findNext s).1 + minStep) (by linarith)
                have h6 := M.next (N.setCurrentPoint (N.findNext s).1
                  (pointAt F p0 p1 (M.at_ (N.findNext s).1 + minStep)))
                have h7 := M.forward (N.setCurrentPoint (N.findNext s).1
                  (pointAt F p0 p1 (M.at_ (N.findNext s).1 + minStep)))
                rw [h5] at h6
                linarith
              · cases hadv
                linarith
          dsimp only
          rw [if_pos]
          · simp
          · rw [M.current, length_from_start h (le_trans h0 hge)]
            simp at hlt
            exact lt_of_lt_of_le hlt hge
  | succ n ih =>
    intro s nd acc h0 hlt
    rw [beamLoop]
    split
    · simp
    · cases hadv : advance N (direction F p0 p1) s with
      | none => simp
      | some r =>
        obtain ⟨s', node2, len⟩ := r
        cases nd with
        | none => simp
        | some nd =>
          have hm := @minStep_pos K _ _ _
          have hge : M.at_ s + minStep ≤ M.at_ s' := by
            unfold advance at hadv
            dsimp only at hadv
            split at hadv
            · cases hadv
            · have h1 := M.next s
              have h2 := M.forward s
              split at hadv
              · cases hadv
                have h3 := M.current (N.findNext s).1
                rw [h3, pointAt_add]
                have h5 := M.put (N.findNext s).1 (M.at_ (N.findNext s).1 + minStep) (by linarith)
                have h6 := M.next (N.setCurrentPoint (N.findNext s).1
                  (pointAt F p0 p1 (M.at_ (N.findNext s).1 + minStep)))
                have h7 := M.forward (N.setCurrentPoint (N.findNext s).1
                  (pointAt F p0 p1 (M.at_ (N.findNext s).1 + minStep)))
                rw [h5] at h6
                linarith
              · rename_i hst
                cases hadv
                have := not_lt.1 hst
                linarith
          dsimp only
          split
          · simp
          · apply ih
            · linarith
            · push_cast at hlt
              linarith

/-- C106: following a path ends, whatever the navigator does, as long as it moves forward and goes where it is put:
even if it never moves by itself.  The number of passes is at most the length of the path over the smallest step,
plus one. -/
theorem trace_ends {F : Fns K} {N : Nav K} {p0 p1 : V3 K} (h : Straight F p0 p1) (M : Moves F N p0 p1)
    (n : ℕ) (hn : pathLength F p0 p1 < n * minStep) : trace F N (n + 1) p0 p1 ≠ none := by
  unfold trace
  dsimp only
  cases (N.initTrack p0 (direction F p0 p1)).2 with
  | none => simp
  | some nd =>
    have h0 := M.start
    exact loop_ends h M n _ _ _ (by rw [h0]) (by rw [h0]; simpa using hn)

/-! ### C105 -/

theorem thick_tail {l : K} (h : Thick l) (h5 : 500 < l) : Thick (l - 500) := by
  refine ⟨sub_pos.2 h5, ?_⟩
  intro k hk
  have := h.2 (k + 1) (by push_cast; linarith)
  push_cast at this
  linarith

/-- A step that is not shorter than the smallest one. -/
theorem advance_step {F : Fns K} {N : Nav K} {p0 p1 : V3 K} {ray : List (Node K × K)} (R : Rides F N p0 p1 ray)
    (dir : V3 K) (s : N.S) (nd : Node K) (l : K) (r : List (Node K × K))
    (hr : (R.view s).next.rest = (nd, l) :: r) (hs : minStep ≤ (R.view s).next.step) :
    advance N dir s = some ((N.findNext s).1, some nd, (R.view s).next.step) := by
  unfold advance
  dsimp only
  have h1 : (N.findNext s).2 = some nd := by rw [R.node, hr]; rfl
  have h2 : N.isOutside (N.findNext s).1 = false := by rw [R.outside, R.next, hr]; rfl
  have h3 : N.getStep (N.findNext s).1 = (R.view s).next.step := by rw [R.step, R.next]
  rw [if_neg (by rw [h1, h2]; simp), h3, if_neg (not_lt.2 hs), h1]

theorem loop_splits {F : Fns K} {N : Nav K} {p0 p1 : V3 K} (h : Straight F p0 p1) {ray : List (Node K × K)}
    (R : Rides F N p0 p1 ray) :
    ∀ (n : ℕ) (s : N.S) (nd : Node K) (l : K) (r : List (Node K × K)) (acc : List (Seg K)),
      (R.view s).rest = (nd, l) :: r → 0 ≤ (R.view s).gone → (R.view s).gone ≤ pathLength F p0 p1 →
      (∀ x ∈ (nd, l) :: r, Thick x.2) →
      pathLength F p0 p1 + 500 ≤ (R.view s).gone + total ((nd, l) :: r) →
      pathLength F p0 p1 - (R.view s).gone < n * minStep →
      ∃ segs z, Split (crossed (pathLength F p0 p1 - (R.view s).gone) ((nd, l) :: r)) segs ∧
        (z = [] ∨ ∃ m, z = [⟨0, m⟩]) ∧
        ∀ k, beamLoop F N p0 p1 (n + k) s (some nd) acc = some (.ok (acc ++ (segs ++ z))) := by
  intro n
  induction n with
  | zero =>
    intro s nd l r acc _ _ hle _ _ hlt
    exfalso
    simp at hlt
    exact absurd hlt (not_lt.2 hle)
  | succ n ih =>
    intro s nd l r acc hrest h0 hle hthick htot hlt
    have hm := @minStep_pos K _ _ _
    have hout : ¬ (N.isOutside s = true) := by rw [R.outside, hrest]; simp
    have htl : Thick l := hthick (nd, l) (by simp)
    have hsum : total ((nd, l) :: r) = l + total r := by simp [total]
    generalize hT : pathLength F p0 p1 = T at *
    generalize hg : (R.view s).gone = g at *
    have hcur : ∀ t, 0 ≤ t → pathLength F p0 (pointAt F p0 p1 t) = t := fun t ht => length_from_start h ht
    have hlast : N.lastPoint (N.findNext s).1 = pointAt F p0 p1 (R.view s).next.last := by rw [R.last, R.next]
    have hcurp : N.currentPoint (N.findNext s).1 = pointAt F p0 p1 (R.view s).next.gone := by rw [R.current, R.next]
    by_cases hl : l ≤ 500
    · -- a step to the boundary
      have hnext : (R.view s).next = ⟨g + l, g, l, r⟩ := by
        unfold View.next; rw [hrest]; dsimp only; rw [if_pos hl, hg]
      have hstep : minStep ≤ (R.view s).next.step := by
        rw [hnext]
        have := htl.2 0 (by simpa using htl.1)
        simpa using this
      cases r with
      | nil =>
        -- only if the path ends here
        have e1 : total ([] : List (Node K × K)) = 0 := rfl
        rw [hsum, e1] at htot
        have ht0 : T - g = 0 := by linarith
        refine ⟨[], [], ?_, Or.inl rfl, ?_⟩
        · rw [ht0, crossed, if_pos le_rfl]; exact Split.nil
        · intro k
          have hk : n + 1 + k = (n + k) + 1 := by omega
          rw [hk, beamLoop, if_neg hout]
          have : advance N (direction F p0 p1) s = none := by
            unfold advance
            dsimp only
            rw [if_pos]
            right
            rw [R.outside, R.next, hnext]; rfl
          rw [this]
          simp
      | cons x r' =>
        obtain ⟨nd2, l2⟩ := x
        have hadv := advance_step R (direction F p0 p1) s nd2 l2 r' (by rw [hnext]) hstep
        have hloop : ∀ k, beamLoop F N p0 p1 (n + 1 + k) s (some nd) acc =
            if g + l > T then some (.ok (acc ++ [⟨T - g, nd⟩]))
            else beamLoop F N p0 p1 (n + k) (N.findNext s).1 (some nd2) (acc ++ [⟨l, nd⟩]) := by
          intro k
          have hk : n + 1 + k = (n + k) + 1 := by omega
          rw [hk, beamLoop, if_neg hout, hadv]
          dsimp only
          rw [hcurp, hlast, hnext]
          dsimp only
          rw [hcur (g + l) (by linarith [htl.1]), length_to_end h (by rw [hT]; exact hle), hT]
        by_cases hfar : g + l > T
        · -- the boundary lies behind the end
          by_cases ht0 : T - g = 0
          · refine ⟨[], [⟨0, nd⟩], ?_, Or.inr ⟨nd, rfl⟩, ?_⟩
            · rw [ht0, crossed, if_pos le_rfl]; exact Split.nil
            · intro k; rw [hloop k, if_pos hfar, ht0]; simp
          · have htpos : 0 < T - g := lt_of_le_of_ne (by linarith) (Ne.symm ht0)
            refine ⟨[⟨T - g, nd⟩], [], ?_, Or.inl rfl, ?_⟩
            · rw [crossed, if_neg (not_le.2 htpos), if_pos (by linarith)]
              exact Split.whole _ _ _ _ Split.nil
            · intro k; rw [hloop k, if_pos hfar]; simp
        · have hv : R.view (N.findNext s).1 = ⟨g + l, g, l, (nd2, l2) :: r'⟩ := by rw [R.next, hnext]
          have hle' : g + l ≤ T := not_lt.1 hfar
          obtain ⟨segs, z, hs, hz, hb⟩ := ih (N.findNext s).1 nd2 l2 r' (acc ++ [⟨l, nd⟩]) (by rw [hv])
            (by rw [hv]; dsimp only; linarith [htl.1]) (by rw [hv]; exact hle')
            (fun x hx => hthick x (by simp at hx ⊢; tauto))
            (by rw [hv]; dsimp only; rw [hsum] at htot; linarith)
            (by
              rw [hv]; dsimp only
              rw [hnext] at hstep
              dsimp only at hstep
              push_cast at hlt
              linarith)
          rw [hv] at hs
          dsimp only at hs
          refine ⟨⟨l, nd⟩ :: segs, z, ?_, hz, ?_⟩
          · rw [crossed, if_neg (not_le.2 (by linarith [htl.1]))]
            by_cases hlt' : T - g ≤ l
            · have e : T - g = l := by linarith
              rw [if_pos hlt']
              have e2 : T - (g + l) = 0 := by linarith
              rw [e2, crossed, if_pos le_rfl] at hs
              rw [e]
              exact Split.whole _ _ _ _ hs
            · rw [if_neg hlt']
              have e2 : T - g - l = T - (g + l) := by ring
              rw [e2]
              exact Split.whole _ _ _ _ hs
          · intro k
            rw [hloop k, if_neg hfar, hb k]
            simp
    · -- a step within the volume
      have hl' : 500 < l := not_le.1 hl
      have hnext : (R.view s).next = ⟨g + 500, g, 500, (nd, l - 500) :: r⟩ := by
        unfold View.next; rw [hrest]; dsimp only; rw [if_neg hl, hg]
      have hm5 : (minStep : K) ≤ 500 := by
        unfold minStep
        rw [div_le_iff₀ (by norm_num)]
        norm_num
      have hstep : minStep ≤ (R.view s).next.step := by rw [hnext]; exact hm5
      have hadv := advance_step R (direction F p0 p1) s nd (l - 500) r (by rw [hnext]) hstep
      have hloop : ∀ k, beamLoop F N p0 p1 (n + 1 + k) s (some nd) acc =
          if g + 500 > T then some (.ok (acc ++ [⟨T - g, nd⟩]))
          else beamLoop F N p0 p1 (n + k) (N.findNext s).1 (some nd) (acc ++ [⟨500, nd⟩]) := by
        intro k
        have hk : n + 1 + k = (n + k) + 1 := by omega
        rw [hk, beamLoop, if_neg hout, hadv]
        dsimp only
        rw [hcurp, hlast, hnext]
        dsimp only
        rw [hcur (g + 500) (by linarith), length_to_end h (by rw [hT]; exact hle), hT]
      by_cases hfar : g + 500 > T
      · by_cases ht0 : T - g = 0
        · refine ⟨[], [⟨0, nd⟩], ?_, Or.inr ⟨nd, rfl⟩, ?_⟩
          · rw [ht0, crossed, if_pos le_rfl]; exact Split.nil
          · intro k; rw [hloop k, if_pos hfar, ht0]; simp
        · have htpos : 0 < T - g := lt_of_le_of_ne (by linarith) (Ne.symm ht0)
          refine ⟨[⟨T - g, nd⟩], [], ?_, Or.inl rfl, ?_⟩
          · rw [crossed, if_neg (not_le.2 htpos), if_pos (by linarith)]
            exact Split.whole _ _ _ _ Split.nil
          · intro k; rw [hloop k, if_pos hfar]; simp
      · have hv : R.view (N.findNext s).1 = ⟨g + 500, g, 500, (nd, l - 500) :: r⟩ := by rw [R.next, hnext]
        have hle' : g + 500 ≤ T := not_lt.1 hfar
        obtain ⟨segs, z, hs, hz, hb⟩ := ih (N.findNext s).1 nd (l - 500) r (acc ++ [⟨500, nd⟩]) (by rw [hv])
          (by rw [hv]; dsimp only; linarith) (by rw [hv]; exact hle')
          (fun x hx => by
            rcases List.mem_cons.1 hx with e | hx
            · rw [e]; exact thick_tail htl hl'
            · exact hthick x (List.mem_cons_of_mem _ hx))
          (by
            rw [hv]; dsimp only
            have : total ((nd, l - 500) :: r) = l - 500 + total r := by simp [total]
            rw [this]; rw [hsum] at htot; linarith)
          (by
            rw [hv]; dsimp only
            push_cast at hlt
            linarith)
        rw [hv] at hs
        dsimp only at hs
        refine ⟨⟨500, nd⟩ :: segs, z, ?_, hz, ?_⟩
        · rw [crossed, if_neg (not_le.2 (by linarith))]
          rw [crossed] at hs
          by_cases he : T - (g + 500) ≤ 0
          · rw [if_pos he] at hs
            have e : T - g = 500 := by linarith
            rw [if_pos (by linarith), e]
            exact Split.whole _ _ _ _ hs
          · rw [if_neg he] at hs
            by_cases hc : T - g ≤ l
            · rw [if_pos (by linarith)] at hs
              rw [if_pos hc]
              have e : T - g = 500 + (T - (g + 500)) := by ring
              rw [e]
              exact Split.part _ _ _ _ _ (by norm_num) (by linarith [not_le.1 he]) hs
            · rw [if_neg (by intro h'; apply hc; linarith)] at hs
              rw [if_neg hc]
              have e1 : T - (g + 500) - (l - 500) = T - g - l := by ring
              have e2 : l = 500 + (l - 500) := by ring
              rw [e1] at hs
              rw [e2]
              have := Split.part nd 500 (l - 500) _ _ (by norm_num) (by linarith) hs
              rw [← e2] at this ⊢
              exact this
        · intro k
          rw [hloop k, if_neg hfar, hb k]
          simp

theorem trace_of_fuel [Archimedean K] {F : Fns K} {N : Nav K} {p0 p1 : V3 K} (h : Straight F p0 p1)
    {ray : List (Node K × K)} (R : Rides F N p0 p1 ray) (hthick : ∀ x ∈ ray, Thick x.2)
    (htot : pathLength F p0 p1 + 500 ≤ total ray) :
    ∃ n segs z, Split (crossed (pathLength F p0 p1) ray) segs ∧ (z = [] ∨ ∃ m, z = [⟨0, m⟩]) ∧
      ∀ k, trace F N (n + k) p0 p1 = some (.ok (segs ++ z)) := by
  have hT := length_pos h
  cases ray with
  | nil =>
    exfalso
    have : total ([] : List (Node K × K)) = 0 := rfl
    rw [this] at htot
    linarith
  | cons x r =>
    obtain ⟨nd, l⟩ := x
    obtain ⟨n, hn⟩ := Archimedean.arch (pathLength F p0 p1 + 1) (@minStep_pos K _ _ _)
    have hst := R.start
    obtain ⟨segs, z, hs, hz, hb⟩ := loop_splits h R n (N.initTrack p0 (direction F p0 p1)).1 nd l r []
      (by rw [hst]) (by rw [hst]) (by rw [hst]; exact hT.le) hthick
      (by rw [hst]; simpa using htot)
      (by rw [hst]; dsimp only; rw [nsmul_eq_mul] at hn; linarith)
    rw [hst] at hs
    dsimp only at hs
    rw [sub_zero] at hs
    refine ⟨n, segs, z, hs, hz, ?_⟩
    intro k
    unfold trace
    dsimp only
    rw [R.first]
    have := hb k
    simpa using this

/-- C105, the provable part: on a straight path through volumes with no piece shorter than the smallest step, in a
world that goes on for at least 500 behind the end, the recorded pieces are the crossed volumes in their order, cut
at the end of the path; a volume that is entered just at the end may follow with the thickness zero.
Missing: thin volumes and a world that ends earlier, for which this is false (`trace_false_thin`,
`trace_false_border`). -/
theorem trace_partial [Archimedean K] {F : Fns K} {N : Nav K} {p0 p1 : V3 K} (h : Straight F p0 p1)
    {ray : List (Node K × K)} (R : Rides F N p0 p1 ray) (hthick : ∀ x ∈ ray, Thick x.2)
    (htot : pathLength F p0 p1 + 500 ≤ total ray) :
    ∃ segs z, Split (crossed (pathLength F p0 p1) ray) segs ∧ (z = [] ∨ ∃ m, z = [⟨0, m⟩]) ∧
      (∃ n, trace F N n p0 p1 = some (.ok (segs ++ z))) := by
  obtain ⟨n, segs, z, hs, hz, hb⟩ := trace_of_fuel h R hthick htot
  exact ⟨segs, z, hs, hz, n + 0, hb 0⟩

/-- The loop does not depend on the bound on the number of passes, once that is enough. -/
theorem beamLoop_mono (F : Fns K) (N : Nav K) (p0 p1 : V3 K) :
    ∀ (n : ℕ) (s : N.S) (nd : Option (Node K)) (acc : List (Seg K)) (r : Res (List (Seg K))),
      beamLoop F N p0 p1 n s nd acc = some r → beamLoop F N p0 p1 (n + 1) s nd acc = some r := by
  intro n
  induction n with
  | zero => intro s nd acc r h; cases h
  | succ n ih =>
    intro s nd acc r h
    rw [beamLoop] at h ⊢
    split at h
    · rename_i hc; rw [if_pos hc]; exact h
    · rename_i hc
      rw [if_neg hc]
      cases hadv : advance N (direction F p0 p1) s with
      | none => rw [hadv] at h; exact h
      | some x =>
        obtain ⟨s', node2, len⟩ := x
        rw [hadv] at h
        cases nd with
        | none => exact h
        | some nd =>
          dsimp only at h ⊢
          split at h
          · rename_i hd; rw [if_pos hd]; exact h
          · rename_i hd; rw [if_neg hd]; exact ih _ _ _ _ h

theorem trace_mono (F : Fns K) (N : Nav K) (p0 p1 : V3 K) {n : ℕ} {r : Res (List (Seg K))}
    (h : trace F N n p0 p1 = some r) (k : ℕ) : trace F N (n + k) p0 p1 = some r := by
  induction k with
  | zero => exact h
  | succ k ih =>
    rw [← Nat.add_assoc]
    unfold trace at ih ⊢
    dsimp only at ih ⊢
    cases hf : (N.initTrack p0 (direction F p0 p1)).2 with
    | none => rw [hf] at ih; exact ih
    | some nd => rw [hf] at ih; exact beamLoop_mono _ _ _ _ _ _ _ _ _ ih

theorem split_weight (w : Node K → K) : ∀ {v : List (Node K × K)} {s : List (Seg K)}, Split v s →
    (s.map (fun x => x.length * w x.node)).sum = (v.map (fun x => x.2 * w x.1)).sum := by
  intro v s h
  induction h with
  | nil => rfl
  | whole nd l r s _ ih => simp [ih]
  | part nd a l r s _ _ _ ih =>
    simp only [List.map_cons, List.sum_cons] at ih ⊢
    rw [ih]; ring

theorem crossed_total : ∀ (ray : List (Node K × K)) (t : K), 0 ≤ t → t ≤ total ray →
    ((crossed t ray).map (·.2)).sum = t := by
  intro ray
  induction ray with
  | nil => intro t h0 h1; simp [total] at h1; simp [crossed]; linarith
  | cons x r ih =>
    obtain ⟨nd, l⟩ := x
    intro t h0 h1
    rw [crossed]
    split
    · simp; linarith
    · split
      · simp
      · rename_i h2
        have h3 : total ((nd, l) :: r) = l + total r := by simp [total]
        simp only [List.map_cons, List.sum_cons]
        rw [ih (t - l) (by linarith [not_le.1 h2]) (by linarith)]
        ring

/-- The thickness of the volumes of a path, weighted with any function of the volumes. -/
def weighted (w : Node K → K) (v : List (Node K × K)) : K := (v.map (fun x => x.2 * w x.1)).sum

theorem trace_weight [Archimedean K] {F : Fns K} {N : Nav K} {p0 p1 : V3 K} (h : Straight F p0 p1)
    {ray : List (Node K × K)} (R : Rides F N p0 p1 ray) (hthick : ∀ x ∈ ray, Thick x.2)
    (htot : pathLength F p0 p1 + 500 ≤ total ray) {fuel : ℕ} {l : List (Seg K)}
    (hl : trace F N fuel p0 p1 = some (.ok l)) (w : Node K → K) :
    (l.map (fun x => x.length * w x.node)).sum = weighted w (crossed (pathLength F p0 p1) ray) := by
  obtain ⟨n, segs, z, hs, hz, hb⟩ := trace_of_fuel h R hthick htot
  have h1 := trace_mono F N p0 p1 hl n
  have h2 := hb fuel
  rw [Nat.add_comm] at h2
  rw [h2] at h1
  cases h1
  unfold weighted
  rw [List.map_append, List.sum_append, split_weight w hs]
  rcases hz with rfl | ⟨m, rfl⟩ <;> simp

/-- C105: the thicknesses add up to the length of the path. -/
theorem thicknesses_sum_partial [Archimedean K] {F : Fns K} {N : Nav K} {p0 p1 : V3 K} (h : Straight F p0 p1)
    {ray : List (Node K × K)} (R : Rides F N p0 p1 ray) (hthick : ∀ x ∈ ray, Thick x.2)
    (htot : pathLength F p0 p1 + 500 ≤ total ray) {fuel : ℕ} {l : List (Seg K)}
    (hl : trace F N fuel p0 p1 = some (.ok l)) : (l.map (·.length)).sum = pathLength F p0 p1 := by
  have h1 := trace_weight h R hthick htot hl (fun _ => 1)
  have h2 := crossed_total ray (pathLength F p0 p1) (length_pos h).le (by linarith)
  unfold weighted at h1
  simpa [h2] using h1

/-- The loop that adds up thickness over length for the volumes where the length is not zero. -/
theorem sumLengths_eq (f : Node K → K) : ∀ (l : List (Seg K)) (v : K),
    sumLengths (l.map (fun x => f x.node)) (l.map (·.length)) v =
      .ok (v + (l.map (fun x => x.length * (f x.node)⁻¹)).sum) := by
  intro l
  induction l with
  | nil => intro v; simp [sumLengths]
  | cons x l ih =>
    intro v
    simp only [List.map_cons, sumLengths, List.sum_cons]
    by_cases hf : f x.node = 0
    · rw [if_neg (by simp [hf]), List.tail_cons, ih, hf]
      simp
    · rw [if_pos hf, ih, div_eq_mul_inv, add_assoc]

/-- C105: in a new object, the number of radiation lengths and that of interaction lengths are the sums over the
crossed volumes of the thickness over the radiation (interaction) length; volumes with length zero do not count. -/
theorem lengths_partial [Archimedean K] {F : Fns K} {N : Nav K} {p0 p1 : V3 K} (h : Straight F p0 p1)
    {ray : List (Node K × K)} (R : Rides F N p0 p1 ray) (hthick : ∀ x ∈ ray, Thick x.2)
    (htot : pathLength F p0 p1 + 500 ≤ total ray) {fuel : ℕ} {tr : V3 K → V3 K → Res (List (Seg K))}
    (hne : ¬ (p0 = ⟨0, 0, 0⟩ ∧ p1 = ⟨0, 0, 0⟩)) (hl : trace F N fuel p0 p1 = some (tr p0 p1)) :
    (query tr init .nRadlen p0 p1).1 = .ok (.number (weighted (fun nd => nd.radLen⁻¹)
      (crossed (pathLength F p0 p1) ray))) ∧
    (query tr init .nIntlen p0 p1).1 = .ok (.number (weighted (fun nd => nd.intLen⁻¹)
      (crossed (pathLength F p0 p1) ray))) := by
  obtain ⟨n, segs, z, hs, hz, hb⟩ := trace_of_fuel h R hthick htot
  have h1 := trace_mono F N p0 p1 hl n
  have h2 := hb fuel
  rw [Nat.add_comm, h1] at h2
  have h3 : tr p0 p1 = .ok (segs ++ z) := Option.some.inj h2
  rw [h3] at hl
  have he : ¬ (Vector3D.equal p0 p1 = true) := fun e => h.differ ((Vector3D.equal_iff p0 p1).mp e)
  have hi : ¬ (Vector3D.equal p0 (init : Cache K).p0 = true ∧ Vector3D.equal p1 (init : Cache K).p1 = true) := by
    rw [Vector3D.equal_iff, Vector3D.equal_iff]
    exact hne
  have hr := trace_weight h R hthick htot hl (fun nd => nd.radLen⁻¹)
  have hn := trace_weight h R hthick htot hl (fun nd => nd.intLen⁻¹)
  constructor
  · simp only [query, if_neg he, beamOn, if_neg hi, h3]
    have := sumLengths_eq (fun nd : Node K => nd.radLen) (segs ++ z) 0
    rw [hr, zero_add] at this
    simp only [Res.bind_ok]
    rw [this]
    rfl
  · simp only [query, if_neg he, beamOn, if_neg hi, h3]
    have := sumLengths_eq (fun nd : Node K => nd.intLen) (segs ++ z) 0
    rw [hn, zero_add] at this
    simp only [Res.bind_ok]
    rw [this]
    rfl

/-! ### Cases -/

/-- Functions over the rationals with the square root that is exact on squares. -/
def ratFns : Fns ℚ := ⟨3, fun _ => 1, fun _ => 0, Rat.sqrt⟩

theorem ratFns_root (t : ℚ) (ht : 0 ≤ t) : ratFns.sqrt (t * t) = t := by
  show Rat.sqrt (t * t) = t
  rw [Rat.sqrt_eq, abs_of_nonneg ht]

def origin : V3 ℚ := ⟨0, 0, 0⟩
def far : V3 ℚ := ⟨600, 0, 800⟩

def air : Node ℚ := ⟨"air", "Air", 700, 300⟩
def iron : Node ℚ := ⟨"iron", "Fe", 170, 18⟩
def lead : Node ℚ := ⟨"lead", "Pb", 170, 6⟩

theorem straight_far : Straight ratFns origin far :=
  ⟨by decide, ratFns_root, 1000, by norm_num, by norm_num [origin, far]⟩

theorem far_length : pathLength ratFns origin far = 1000 := by
  show ratFns.sqrt ((600 - 0) * (600 - 0) + (0 - 0) * (0 - 0) + (800 - 0) * (800 - 0)) = 1000
  have : ((600 - 0) * (600 - 0) + (0 - 0) * (0 - 0) + (800 - 0) * (800 - 0) : ℚ) = 1000 * 1000 := by norm_num
  rw [this]
  exact ratFns_root 1000 (by norm_num)

/-- The ray navigator moves along its ray. -/
def rayNav_rides (F : Fns K) (p0 p1 : V3 K) (ray : List (Node K × K)) :
    Rides F (rayNav F p0 p1 ray) p0 p1 ray where
  view s := s
  start := rfl
  first := rfl
  outside _ := rfl
  next _ := rfl
  node _ := rfl
  current _ := rfl
  last _ := rfl
  step _ := rfl

/-- The navigator that is stuck moves forward, by nothing. -/
def stuckNav_moves {F : Fns K} {p0 p1 : V3 K} (h : Straight F p0 p1) (nd : Node K) :
    Moves F (stuckNav F p0 p1 nd) p0 p1 where
  at_ s := s
  start := rfl
  current _ := rfl
  next s := (add_zero (show K from s)).symm
  forward _ := le_rfl
  put _ t ht := length_from_start h ht

theorem thick_700 : Thick (700 : ℚ) := by
  refine ⟨by norm_num, ?_⟩
  intro k hk
  have h2 : k < 2 := by
    by_contra hc
    have : (2 : ℚ) ≤ (k : ℚ) := by exact_mod_cast not_lt.1 hc
    linarith
  interval_cases k <;> norm_num [minStep]

theorem thick_small {l : ℚ} (h : 1 ≤ l) (h2 : l ≤ 500) : Thick l := by
  refine ⟨by linarith, ?_⟩
  intro k hk
  have h2 : k < 1 := by
    by_contra hc
    have : (1 : ℚ) ≤ (k : ℚ) := by exact_mod_cast not_lt.1 hc
    linarith
  interval_cases k
  simp only [minStep, Nat.cast_zero, mul_zero, sub_zero]
  linarith [show (1 : ℚ) / 100000 ≤ 1 by norm_num]

theorem thick_2000 : Thick (2000 : ℚ) := by
  refine ⟨by norm_num, ?_⟩
  intro k hk
  have h2 : k < 4 := by
    by_contra hc
    have : (4 : ℚ) ≤ (k : ℚ) := by exact_mod_cast not_lt.1 hc
    linarith
  interval_cases k <;> norm_num [minStep]

/-- Air, iron and lead, and more air behind. -/
def ray : List (Node ℚ × ℚ) := [(air, 700), (iron, 20), (lead, 100), (air, 2000)]

example : Straight ratFns origin far ∧ Nonempty (Rides ratFns (rayNav ratFns origin far ray) origin far ray) ∧
    (∀ x ∈ ray, Thick x.2) ∧ pathLength ratFns origin far + 500 ≤ total ray := by
  refine ⟨straight_far, ⟨rayNav_rides _ _ _ _⟩, ?_, ?_⟩
  · intro x hx
    simp only [ray, List.mem_cons, List.not_mem_nil, or_false] at hx
    rcases hx with rfl | rfl | rfl | rfl
    · exact thick_700
    · exact thick_small (by norm_num) (by norm_num)
    · exact thick_small (by norm_num) (by norm_num)
    · exact thick_2000
  · rw [far_length]; norm_num [total, ray]

example : trace ratFns (rayNav ratFns origin far ray) 10 origin far =
    some (.ok [⟨500, air⟩, ⟨200, air⟩, ⟨20, iron⟩, ⟨100, lead⟩, ⟨180, air⟩]) := by decide +kernel

example : crossed 1000 ray = [(air, 700), (iron, 20), (lead, 100), (air, 180)] := by decide +kernel

example : Nonempty (Moves ratFns (stuckNav ratFns origin far air) origin far) ∧
    pathLength ratFns origin far < (100000001 : ℕ) * minStep :=
  ⟨⟨stuckNav_moves straight_far air⟩, by rw [far_length]; norm_num [minStep]⟩

/-- C105 is false for thin volumes: the foil of lead is recorded with its thickness, but the iron behind it is
lost. -/
theorem trace_false_thin :
    ∃ (N : Nav ℚ) (ray : List (Node ℚ × ℚ)), Nonempty (Rides ratFns N origin far ray) ∧
      pathLength ratFns origin far + 500 ≤ total ray ∧ crossed (pathLength ratFns origin far) ray =
        [(air, 300), (lead, 1 / 200000), (iron, 100), (air, 600 - 1 / 200000)] ∧
      trace ratFns N 10 origin far = some (.ok [⟨300, air⟩, ⟨1 / 200000, lead⟩, ⟨500, air⟩, ⟨100 - 1 / 200000, air⟩]) := by
  refine ⟨rayNav ratFns origin far [(air, 300), (lead, 1 / 200000), (iron, 100), (air, 2000)],
    [(air, 300), (lead, 1 / 200000), (iron, 100), (air, 2000)], ⟨rayNav_rides _ _ _ _⟩, ?_, ?_, ?_⟩
  · rw [far_length]; norm_num [total]
  · rw [far_length]; decide +kernel
  · decide +kernel

/-- C105 is false near the end of the world: if the world ends within the next step behind the end of the path, the
last volume is not recorded. -/
theorem trace_false_border :
    ∃ (N : Nav ℚ) (ray : List (Node ℚ × ℚ)), Nonempty (Rides ratFns N origin far ray) ∧ (∀ x ∈ ray, Thick x.2) ∧
      pathLength ratFns origin far + 300 ≤ total ray ∧
      crossed (pathLength ratFns origin far) ray = [(air, 700), (iron, 100), (air, 200)] ∧
      trace ratFns N 10 origin far = some (.ok [⟨500, air⟩, ⟨200, air⟩, ⟨100, iron⟩]) := by
  refine ⟨rayNav ratFns origin far [(air, 700), (iron, 100), (air, 500)],
    [(air, 700), (iron, 100), (air, 500)], ⟨rayNav_rides _ _ _ _⟩, ?_, ?_, ?_, ?_⟩
  · intro x hx
    simp only [List.mem_cons, List.not_mem_nil, or_false] at hx
    rcases hx with rfl | rfl | rfl
    · exact thick_700
    · exact thick_small (by norm_num) (by norm_num)
    · exact thick_small (by norm_num) (by norm_num)
  · rw [far_length]; norm_num [total]
  · rw [far_length]; decide +kernel
  · decide +kernel

end Gear.TGeoDistance
