/-
Areas of the modules of a TPC with versatile disk layouts, in `double` arithmetic (C169).
-/
import Verif.TpcAreaAnyDoubleProps
import Verif.TpcVersatileDoubleProps

set_option autoImplicit false
set_option linter.unusedSectionVars false

namespace Gear.TpcModule.Double

open Real
open TpcModule.Spec (Known plane place Op Values values Settled)
open Versatile (RowArgs)
open Versatile.Spec (flat)
open Spec

/-! ### Specification -/

namespace Spec

/-- `W` is the ring segment of the plane extent of the layout `L`, as one large pad, placed as the module `V` is. -/
def MountedVersatile.Segment (V : MountedVersatile) (L : Versatile.Layout ℝ) (W : MountedDisk) : Prop :=
  ∃ e0 e1 e2 e3, Versatile.getPlaneExtent L = [e0, e1, e2, e3] ∧ W = ⟨V.id, V.frequency, V.ops, ⟨e0, e1, 1, e2, e3, 1⟩⟩

end Spec

variable {F : Arith ℝ} {u : ℝ} {t : ℤ} {fuel : ℕ} {V : MountedVersatile} {L : Versatile.Layout ℝ} {W : MountedDisk}

/-- What `MountedAny` says of a versatile layout. -/
theorem versatile_ring (hW : V.Segment L W) (n : ℕ) :
    (⟨V.id, V.frequency, V.ops, versatile F n L⟩ : MountedAny).ring = W := by
  obtain ⟨e0, e1, e2, e3, h, rfl⟩ := hW
  have h' : [L.ext0, L.ext1, L.ext2, L.ext3] = [e0, e1, e2, e3] := h
  simp only [List.cons.injEq, and_true] at h'
  obtain ⟨rfl, rfl, rfl, rfl⟩ := h'
  rfl

/-! ### C169 -/

/-- The ring segment of a module with a versatile layout goes from the inner radius to the outer end of the last row, up to rounding. -/
theorem versatile_segment_double (R : Rounded F u) (hu : 0 < u) (hM : V.Proper F u L) :
    ∃ W, V.Segment L W ∧ W.pads.rMin = V.rMin ∧ |W.pads.rMax - (V.rMin + ((flat V.rows).map RowArgs.rowHeight).sum)| ≤
      2 * (V.rows.length + 1) * u * (V.rMin + ((flat V.rows).map RowArgs.rowHeight).sum) := by
  obtain ⟨r1, p0, p1, h1, h2⟩ := Versatile.Double.extent_double (angle_rounded R hu) hM.proper hM.built
  exact ⟨_, ⟨_, _, _, _, h1, rfl⟩, rfl, h2⟩

/-- `isInsideModule` of a module with a versatile layout, for points that are not near to the edge of the area. -/
theorem versatile_area_inside_double_partial (R : Rounded F u) (hu : 0 < u) (ht : Known t) {n : ℕ} (hW : V.Segment L W) (hP : W.Proper F)
    (hF : W.Framed u) {c : ℝ × ℝ} (h0 : t = POLAR → 0 ≤ c.1) {r phi : ℝ} (hr : 0 < r) (he : 2 * W.shift u t c ≤ r) (hq : W.At t r phi c)
    (hs : u * W.angles t c ≤ 1 / 20) (hf : W.angles t c + 1 ≤ fuel) :
    ∃ b, ringInsideModule F (V.module F n t L) fuel c.1 c.2 = .ok b ∧
      ((∃ k : ℤ, W.InArea (-W.areaRadius u t c) (-W.areaAngle u t c r) r (phi + k * (2 * π))) → b = true) ∧
      (b = true → ∃ k : ℤ, W.InArea (W.areaRadius u t c) (W.areaAngle u t c r) r (phi + k * (2 * π))) := by
  have e := versatile_ring (F := F) hW (n + 1)
  rw [← e] at hP hF he hq hs hf ⊢
  exact any_area_inside_double_partial (M := ⟨V.id, V.frequency, V.ops, versatile F (n + 1) L⟩) R hu ht ⟨rfl, hP, hF⟩ h0
    ⟨hr, he, hq, hs, hf⟩

/-! ### Non-vacuity -/

/-- Where the extent of a layout goes to with rows of two pads. -/
theorem twoPads_extent {L : Versatile.Layout ℝ} {p : ℝ} (h0 : 0 < p) (h1 : L.ext1 = p - 1) (h2 : realDoubles.rnd p = p)
    (h3 : realDoubles.rnd (p + 1) = p + 1) (hx : L.rows = [] ∨ L.ext2 = 0 ∧ L.ext3 = 2) :
    ∃ L', Versatile.Double.addRow realDoubles.toArith L (twoPads p) = (L', .ok ()) ∧ L'.ext1 = p + 1 ∧ L'.ext0 = L.ext0 ∧
      L'.ext2 = 0 ∧ L'.ext3 = 2 ∧ L'.rows ≠ [] := by
  have r0 := exact (n := 0) (k := 0) 0 (by norm_num) (by norm_num)
  have r1 := exact (n := 1) (k := 0) 1 (by norm_num) (by norm_num)
  have r2 := exact (n := 1) (k := 1) 2 (by norm_num) (by norm_num)
  have hpi := abs_le.1 realDoubles_rounded.pi
  have h4 := Real.pi_gt_d2
  have e1 := abs_le.1 (realDoubles_rounded.rounding.err (-2 * realDoubles.pi))
  have e2 := abs_le.1 (realDoubles_rounded.rounding.err (2 * realDoubles.pi))
  norm_num at hpi
  have p0 : 3 < realDoubles.pi := by linarith [hpi.1]
  rw [abs_of_neg (by linarith)] at e1
  rw [abs_of_pos (by linarith)] at e2
  have t1 : realDoubles.toArith.mul (-2) realDoubles.toArith.pi < 0 := by
    show realDoubles.rnd (-2 * realDoubles.pi) < 0
    norm_num at e1 ⊢
    linarith [e1.2]
  have t2 : 2 < realDoubles.toArith.mul 2 realDoubles.toArith.pi := by
    show 2 < realDoubles.rnd (2 * realDoubles.pi)
    norm_num at e2
    linarith [e2.1]
  have hc : realDoubles.toArith.add L.ext1 (realDoubles.toArith.mul 2 (1 / 2)) = p := by
    show realDoubles.rnd (L.ext1 + realDoubles.rnd (2 * (1 / 2))) = p
    rw [show (2 : ℝ) * (1 / 2) = 1 by norm_num, r1, h1, sub_add_cancel, h2]
  have hz : realDoubles.toArith.div 0 p = 0 := by
    show realDoubles.rnd (0 / p) = 0
    rw [zero_div, r0]
  have ho : realDoubles.toArith.div p p = 1 := by
    show realDoubles.rnd (p / p) = 1
    rw [div_self h0.ne', r1]
  have hn : realDoubles.toArith.mul 1 ((2 : ℤ) : ℝ) = 2 := by
    show realDoubles.rnd (1 * ((2 : ℤ) : ℝ)) = 2
    norm_num
    exact r2
  have hm : realDoubles.toArith.add 0 2 = 2 := by
    show realDoubles.rnd (0 + 2) = 2
    rw [zero_add, r2]
  obtain ⟨row, hrow, hb1, hb2⟩ : ∃ row, Versatile.Double.mkRow realDoubles.toArith L.rows.length 2 p p 2 p 2 0 = .ok row ∧ row.offset = 0 ∧
      row.phiMax = 2 := by
    unfold Versatile.Double.mkRow
    dsimp only
    have n1 : ¬(0 : ℝ) < realDoubles.toArith.mul (-2) realDoubles.toArith.pi := by linarith
    have n2 : ¬(0 : ℝ) ≥ realDoubles.toArith.mul 2 realDoubles.toArith.pi := by simp only [ge_iff_le, not_le]; linarith
    have n3 : ¬(2 : ℝ) > realDoubles.toArith.mul 2 realDoubles.toArith.pi := by simp only [gt_iff_lt, not_lt]; linarith
    simp only [hz, n1, n2, if_false, ho, hn, n3, hm]
    exact ⟨_, rfl, rfl, rfl⟩
  have hadd : Versatile.Double.addRow realDoubles.toArith L (twoPads p) =
      (Versatile.Double.updateExtent realDoubles.toArith (twoPads p)
        { L with nPad := L.nPad + 1 * 2, rows := L.rows ++ [row], padIndices := L.padIndices ++ [none] }, .ok ()) := by
    unfold Versatile.Double.addRow twoPads
    dsimp only
    rw [if_neg (by norm_num), if_neg (by linarith), if_neg (by norm_num), if_neg (by linarith), if_neg (by norm_num), if_neg (by norm_num),
      if_pos rfl, if_pos rfl, hc]
    rw [show (1 : ℤ).toNat = 1 from rfl]
    simp only [Versatile.Double.pushRows, hrow]
  refine ⟨_, hadd, ?_⟩
  have hy : realDoubles.toArith.add L.ext1 (realDoubles.toArith.mul ((1 : ℤ) : ℝ) 2) = p + 1 := by
    show realDoubles.rnd (L.ext1 + realDoubles.rnd (((1 : ℤ) : ℝ) * 2)) = p + 1
    rw [show ((1 : ℤ) : ℝ) * 2 = 2 by norm_num, r2, h1, show p - 1 + 2 = p + 1 by ring, h3]
  have hd : ¬realDoubles.toArith.sub 2 0 > realDoubles.toArith.mul 2 realDoubles.toArith.pi := by
    have : realDoubles.toArith.sub 2 0 = 2 := by
      show realDoubles.rnd (2 - 0) = 2
      rw [sub_zero, r2]
    rw [this]
    simp only [gt_iff_lt, not_lt]
    linarith
  have i2 : (if (L.rows ++ [row]).length = 1 ∨ row.offset < L.ext2 then row.offset else L.ext2) = 0 := by
    rw [hb1]
    rcases hx with h | h
    · rw [if_pos (Or.inl (by rw [h]; rfl))]
    · rw [h.1]; split_ifs <;> rfl
  have i3 : (if (L.rows ++ [row]).length = 1 ∨ row.phiMax > L.ext3 then row.phiMax else L.ext3) = 2 := by
    rw [hb2]
    rcases hx with h | h
    · rw [if_pos (Or.inl (by rw [h]; rfl))]
    · rw [h.2]; split_ifs <;> rfl
  have hl : (L.rows ++ [row]).getLast? = some row := by simp
  unfold Versatile.Double.updateExtent
  dsimp only
  rw [hl]
  dsimp only
  rw [i2, i3, if_neg hd]
  exact ⟨hy, rfl, rfl, rfl, by simp⟩

/-- The pads of `TpcVersatileDoubleProps.lean` in a module with a border of a quarter. -/
noncomputable def platesFramed : MountedVersatile := ⟨5, 1, [.border (1 / 4), .offset 0 0], 1, [twoPads 2, twoPads 4]⟩

/-- Their ring segment. -/
noncomputable def platesRing : MountedDisk := ⟨5, 1, [.border (1 / 4), .offset 0 0], ⟨1, 5, 1, 0, 2, 1⟩⟩

theorem platesRing_values : platesRing.values = ⟨1 / 4, (0, 0), 0, none, 1⟩ := rfl

theorem platesRing_proper : platesRing.Proper realDoubles := by
  have hpi := abs_le.1 realDoubles_rounded.pi
  have h3 := Real.pi_gt_three
  norm_num at hpi
  refine ⟨⟨[.border (1 / 4)], .offset 0 0, [], rfl, trivial, by simp⟩, ?_, ?_, by norm_num [platesRing], ?_⟩
  · intro o ho
    have : o = .border (1 / 4) ∨ o = .offset 0 0 := by simpa [platesRing] using ho
    rcases this with rfl | rfl
    · trivial
    · exact Doubles.binary64_zero
  · constructor <;> norm_num [platesRing]
  · norm_num [platesRing]
    linarith [hpi.1]

theorem platesRing_framed : platesRing.Framed (1 / 2 ^ 53) := by
  have := Real.pi_gt_three
  refine ⟨?_, Or.inr ?_, Or.inr ?_⟩
  · rw [platesRing_values]; norm_num
  · norm_num [platesRing]
  · unfold MountedDisk.borderAngle
    rw [platesRing_values]
    norm_num [platesRing]
    linarith

theorem plates_segment : ∃ L, Versatile.Double.Spec.Built realDoubles.toArith 1 [twoPads 2, twoPads 4] L ∧ platesFramed.Segment L platesRing := by
  obtain ⟨L1, a1, b1, b2, b3, b4, b5⟩ := twoPads_extent (L := Versatile.new 1) (p := 2) (by norm_num) (by norm_num [Versatile.new])
    (exact (n := 1) (k := 1) 2 (by norm_num) (by norm_num)) (exact (n := 3) (k := 0) _ (by norm_num) (by norm_num)) (Or.inl rfl)
  obtain ⟨L2, a2, c1, c2, c3, c4, -⟩ := twoPads_extent (L := L1) (p := 4) (by norm_num) (by rw [b1]; norm_num)
    (exact (n := 1) (k := 2) 4 (by norm_num) (by norm_num)) (exact (n := 5) (k := 0) _ (by norm_num) (by norm_num)) (Or.inr ⟨b3, b4⟩)
  refine ⟨L2, .addRow (as := [twoPads 2]) _ (.addRow (as := []) _ .new a1) a2, 1, 5, 0, 2, ?_, rfl⟩
  unfold Versatile.getPlaneExtent
  rw [c1, c2, c3, c4, b2]
  norm_num [Versatile.new]

theorem platesRing_angles (c : ℝ × ℝ) : platesRing.angles CARTESIAN c = 74 := by
  unfold MountedDisk.angles
  rw [platesRing_values]
  norm_num [platesRing, CARTESIAN, POLAR]

/-- Non-vacuity of `versatile_area_inside_double_partial`: a point in the border, at the angle -1/8. -/
example : ∃ L, Versatile.Double.Spec.Built realDoubles.toArith 1 [twoPads 2, twoPads 4] L ∧
    ringInsideModule realDoubles (platesFramed.module realDoubles 0 CARTESIAN L) 77 (3 / 2 * cos (-1 / 8)) (3 / 2 * sin (-1 / 8)) = .ok true := by
  obtain ⟨L, hB, hW⟩ := plates_segment
  have s1 : platesRing.shift (1 / 2 ^ 53) CARTESIAN (3 / 2 * cos (-1 / 8), 3 / 2 * sin (-1 / 8)) ≤ 1 / 2 ^ 43 :=
    ringFramed_shift (by norm_num) (by norm_num)
  obtain ⟨b, b1, b2, -⟩ := versatile_area_inside_double_partial (fuel := 77) realDoubles_rounded (by norm_num) (Or.inl rfl)
    (n := 0) hW platesRing_proper platesRing_framed (c := (3 / 2 * cos (-1 / 8), 3 / 2 * sin (-1 / 8))) (fun h => absurd h polar_ne)
    (r := 3 / 2) (phi := -1 / 8) (by norm_num) (by norm_num at s1 ⊢; linarith) (by
      unfold MountedDisk.At
      rw [plane_cartesian, platesRing_values]
      unfold onPlate place
      norm_num) (by rw [platesRing_angles]; norm_num) (by rw [platesRing_angles]; norm_num)
  refine ⟨L, hB, ?_⟩
  rw [b1, b2 ⟨0, ?_⟩]
  unfold MountedDisk.InArea MountedDisk.areaRadius MountedDisk.areaAngle MountedDisk.borderAngle
  rw [platesRing_angles, platesRing_values]
  generalize platesRing.shift (1 / 2 ^ 53) CARTESIAN (3 / 2 * cos (-1 / 8), 3 / 2 * sin (-1 / 8)) = x at s1 ⊢
  norm_num [platesRing] at s1 ⊢
  refine ⟨⟨?_, ?_⟩, ?_, ?_⟩ <;> linarith

end Gear.TpcModule.Double
