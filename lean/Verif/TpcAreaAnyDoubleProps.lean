/-
Areas of the modules of a TPC with any layout in polar coordinates, in `double` arithmetic (C168).
-/
import Verif.TpcAreaDiskDoubleFar
import Verif.TpcSizeDoubleProps

set_option autoImplicit false
set_option linter.unusedSectionVars false

namespace Gear.TpcModule.Double

open Real
open TpcModule.Spec (Known plane place Op Values values Settled)
open Spec

/-! ### Specification -/

namespace Spec

/-- A module with any layout: what was passed to the constructor, and all calls on the module. -/
structure MountedAny where
  id : ℤ
  frequency : ℝ
  ops : List Op
  layout : LayoutI ℝ

namespace MountedAny

/-- The module. -/
noncomputable def module (F : Arith ℝ) (t : ℤ) (M : MountedAny) : Module ℝ := made F M.id M.layout t M.frequency M.ops

/-- The ring segment which the layout covers, as one large pad, placed in the same way. -/
def ring (M : MountedAny) : MountedDisk :=
  ⟨M.id, M.frequency, M.ops, ⟨M.layout.planeExtent.e0, M.layout.planeExtent.e1, 1, M.layout.planeExtent.e2, M.layout.planeExtent.e3, 1⟩⟩

/-- The layout has polar coordinates and covers a ring segment of at most one turn, which is placed properly, with a border that leaves a
gap. -/
structure Proper (F : Arith ℝ) (u : ℝ) (M : MountedAny) : Prop where
  polar : M.layout.coordinateType = POLAR
  ring : M.ring.Proper F
  framed : M.ring.Framed u

/-- The point `c` of the TPC is placed at the radius `r` and the angle `phi` of the module's own plane, not near to its origin; angles are
not too large for the loops over full turns. -/
structure Sees (u : ℝ) (fuel : ℕ) (t : ℤ) (M : MountedAny) (r phi : ℝ) (c : ℝ × ℝ) : Prop where
  radius : 0 < r
  off : 2 * M.ring.shift u t c ≤ r
  place : M.ring.At t r phi c
  small : u * M.ring.angles t c ≤ 1 / 20
  loops : M.ring.angles t c + 1 ≤ fuel

/-- The point is in the area of the module, not near to its edge, or `d` away from it, where `d` is large compared with the rounding. -/
def Decided (u : ℝ) (t : ℤ) (M : MountedAny) (r phi d : ℝ) (c : ℝ × ℝ) : Prop :=
  M.ring.InArea (-M.ring.areaRadius u t c) (-M.ring.areaAngle u t c r) r phi ∨
    M.ring.Clear u t c r phi ∧ M.ring.AreaLarge u t c r d ∧ 0 < d

end MountedAny

/-- The module `y` of the TPC is rectangular or has polar coordinates; `d` is the smallest distance between the point `c` and the points of
its area with the border, and `e` the error bound. -/
inductive ModuleAt (F : Arith ℝ) (u : ℝ) (fuel : ℕ) (t : ℤ) (y : TpcParams.Mod ℝ) (c : ℝ × ℝ) : ℝ → ℝ → Prop
  | rectangular {N : Mounted} {d : ℝ} {n : ℕ} : (∀ a b, y.getDistanceToModule a b = getDistanceToModule F (N.module F n t) a b) →
      N.Proper F → N.Wide F → IsLeast (N.areaDistances F t c) d → ModuleAt F u fuel t y c d (N.areaError F u t c)
  | polar {M : MountedAny} {r phi d : ℝ} : (∀ a b, y.getDistanceToModule a b = ringDistance F (M.module F t) fuel a b) → M.Proper F u →
      M.Sees u fuel t r phi c → M.Decided u t r phi d c → IsLeast (M.ring.areaDistances t c) d →
      ModuleAt F u fuel t y c d (M.ring.areaMargin u t c r + 50 * u * M.ring.areaRadii r ^ 2 / d)

end Spec

variable {F : Arith ℝ} {u : ℝ} {t : ℤ} {fuel : ℕ} {M : MountedAny}

/-! ### Lemmas -/

/-- The modules are the same but for their layouts, and these have the same extent and the same type of coordinates. -/
structure Alike (m n : Module ℝ) : Prop where
  type : m.layout.coordinateType = n.layout.coordinateType
  extent : m.layout.planeExtent = n.layout.planeExtent
  border : m.border = n.border
  offset : m.offset = n.offset
  cartesian : m.offsetCartesian = n.offsetCartesian
  z : m.zPosition = n.zPosition
  angle : m.angle = n.angle
  cos : m.cosAngle = n.cosAngle
  sin : m.sinAngle = n.sinAngle
  moms : m.momsCoordinateType = n.momsCoordinateType
  same : m.localIsGlobal = n.localIsGlobal

theorem Alike.check {m n : Module ℝ} (h : Alike m n) : Alike (checkLocalIsGlobal m) (checkLocalIsGlobal n) := by
  refine ⟨h.type, h.extent, h.border, h.offset, h.cartesian, h.z, h.angle, h.cos, h.sin, h.moms, ?_⟩
  show decide _ = decide _
  rw [h.moms, h.type, h.angle, h.offset, h.z]

theorem Alike.step {m n : Module ℝ} (h : Alike m n) (o : Op) : Alike (step F m o) (step F n o) := by
  cases o with
  | border w => exact ⟨h.type, h.extent, rfl, h.offset, h.cartesian, h.z, h.angle, h.cos, h.sin, h.moms, h.same⟩
  | z z => exact ⟨h.type, h.extent, h.border, h.offset, h.cartesian, rfl, h.angle, h.cos, h.sin, h.moms, h.same⟩
  | frequency g => exact ⟨h.type, h.extent, h.border, h.offset, h.cartesian, h.z, h.angle, h.cos, h.sin, h.moms, h.same⟩
  | angle a => exact Alike.check ⟨h.type, h.extent, h.border, h.offset, h.cartesian, h.z, rfl, rfl, rfl, h.moms, h.same⟩
  | offset x y =>
    show Alike (setOffset F m x y) (setOffset F n x y)
    unfold setOffset
    dsimp only
    by_cases p1 : m.momsCoordinateType = POLAR
    · rw [if_pos p1, if_pos (h.moms ▸ p1)]
      exact Alike.check ⟨h.type, h.extent, h.border, rfl, rfl, h.z, h.angle, h.cos, h.sin, h.moms, h.same⟩
    rw [if_neg p1, if_neg (show ¬n.momsCoordinateType = POLAR from h.moms ▸ p1)]
    by_cases p2 : m.momsCoordinateType = CARTESIAN
    · rw [if_pos p2, if_pos (h.moms ▸ p2)]
      exact Alike.check ⟨h.type, h.extent, h.border, rfl, rfl, h.z, h.angle, h.cos, h.sin, h.moms, h.same⟩
    rw [if_neg p2, if_neg (h.moms ▸ p2)]
    exact ⟨h.type, h.extent, h.border, rfl, h.cartesian, h.z, h.angle, h.cos, h.sin, h.moms, h.same⟩

theorem Alike.run {m n : Module ℝ} (h : Alike m n) (ops : List Op) : Alike (run F m ops) (run F n ops) := by
  induction ops generalizing m n with
  | nil => exact h
  | cons o ops ih => exact ih (h.step o)

theorem alike_made {P Q : LayoutI ℝ} (h1 : P.coordinateType = Q.coordinateType) (h2 : P.planeExtent = Q.planeExtent) (id : ℤ) (f : ℝ)
    (ops : List Op) : Alike (made F id P t f ops) (made F id Q t f ops) :=
  Alike.run (m := new id P t f) (n := new id Q t f) (by
    unfold new
    exact Alike.check ⟨h1, h2, rfl, rfl, rfl, rfl, rfl, rfl, rfl, rfl, rfl⟩) ops

theorem Alike.extents {m n : Module ℝ} (h : Alike m n) : ringExtent F m = ringExtent F n := by
  unfold ringExtent
  rw [h.extent, h.border]

theorem Alike.global {m n : Module ℝ} (h : Alike m n) (c0 c1 : ℝ) : globalToLocal F m c0 c1 = globalToLocal F n c0 c1 := by
  unfold globalToLocal mirror Double.cartesian toLocal
  rw [h.same, h.moms, h.type, h.cartesian, h.z, h.angle, h.cos, h.sin]

theorem Alike.inside {m n : Module ℝ} (h : Alike m n) (c0 c1 : ℝ) : ringInsideModule F m fuel c0 c1 = ringInsideModule F n fuel c0 c1 := by
  unfold ringInsideModule ringLocal
  rw [h.extents, h.global]

theorem Alike.distance {m n : Module ℝ} (h : Alike m n) (c0 c1 : ℝ) : ringDistance F m fuel c0 c1 = ringDistance F n fuel c0 c1 := by
  unfold ringDistance ringLocal
  rw [h.extents, h.global]

/-- The layout with one large pad, and its module. -/
theorem ring_module (hP : M.layout.coordinateType = POLAR) (fuel : ℕ) :
    ∃ L, M.ring.Has F L ∧ Alike (M.module F t) (M.ring.module F fuel t L) := by
  refine ⟨_, if_neg (by show ¬(1 : ℤ) < 0; norm_num), alike_made (hP.trans rfl) ?_ _ _ _⟩
  rfl

/-! ### C168 -/

/-- `isInsideModule` is right for points that are not near to the edge of the area. -/
theorem any_area_inside_double_partial (R : Rounded F u) (hu : 0 < u) (ht : Known t) (hM : M.Proper F u) {c : ℝ × ℝ}
    (h0 : t = POLAR → 0 ≤ c.1) {r phi : ℝ} (hc : M.Sees u fuel t r phi c) :
    ∃ b, ringInsideModule F (M.module F t) fuel c.1 c.2 = .ok b ∧
      ((∃ k : ℤ, M.ring.InArea (-M.ring.areaRadius u t c) (-M.ring.areaAngle u t c r) r (phi + k * (2 * π))) → b = true) ∧
      (b = true → ∃ k : ℤ, M.ring.InArea (M.ring.areaRadius u t c) (M.ring.areaAngle u t c r) r (phi + k * (2 * π))) := by
  obtain ⟨L, hL, hA⟩ := ring_module (F := F) (t := t) hM.polar fuel
  rw [hA.inside]
  exact disk_area_inside_double_partial R hu ht hM.ring hM.framed hL h0 hc.radius hc.off hc.place hc.small hc.loops

/-- `getDistanceToModule` is 0 for points in the area, not near to its edge. -/
theorem any_area_within_double (R : Rounded F u) (hu : 0 < u) (ht : Known t) (hM : M.Proper F u) {c : ℝ × ℝ} (h0 : t = POLAR → 0 ≤ c.1)
    {r phi : ℝ} (hc : M.Sees u fuel t r phi c)
    (hd : M.ring.InArea (-M.ring.areaRadius u t c) (-M.ring.areaAngle u t c r) r phi) :
    ringDistance F (M.module F t) fuel c.1 c.2 = .ok 0 := by
  obtain ⟨L, hL, hA⟩ := ring_module (F := F) (t := t) hM.polar fuel
  rw [hA.distance]
  exact disk_area_within_double R hu ht hM.ring hM.framed hL h0 hc.radius hc.off hc.place hc.small hc.loops hd

/-- `getDistanceToModule` is the smallest distance from the placed ring segment and its border, up to rounding, for points that are away
from it. -/
theorem any_area_far_double_partial (R : Rounded F u) (hu : 0 < u) (N : Nearest F) (ht : Known t) (hM : M.Proper F u) {c : ℝ × ℝ}
    (h0 : t = POLAR → 0 ≤ c.1) {r phi : ℝ} (hc : M.Sees u fuel t r phi c) (hC : M.ring.Clear u t c r phi) {d : ℝ}
    (hd : IsLeast (M.ring.areaDistances t c) d) (h : M.ring.AreaLarge u t c r d) (hd0 : 0 < d) :
    ∃ D, ringDistance F (M.module F t) fuel c.1 c.2 = .ok D ∧
      |D - d| ≤ M.ring.areaMargin u t c r + 50 * u * M.ring.areaRadii r ^ 2 / d := by
  obtain ⟨L, hL, hA⟩ := ring_module (F := F) (t := t) hM.polar fuel
  rw [hA.distance]
  exact disk_area_far_double_partial R hu N ht hM.ring hM.framed hL h0 hc.radius hc.off hc.place hc.small hc.loops hC hd h hd0

/-- A TPC with any number of modules with polar layouts of any kinds: `isInsideModule` is right for points not near to an edge. -/
theorem tpc_any_inside_double_partial (R : Rounded F u) (hu : 0 < u) (ht : Known t) (N : TpcParams.Mod ℝ → MountedAny)
    (T : TpcParams.Tpc ℝ) {c : ℝ × ℝ} (h0 : t = POLAR → 0 ≤ c.1) (ρ φ : TpcParams.Mod ℝ → ℝ)
    (hN : ∀ y ∈ TpcParams.getModules T, (∀ a b, y.isInsideModule a b = ringInsideModule F ((N y).module F t) fuel a b) ∧
      (N y).Proper F u ∧ (N y).Sees u fuel t (ρ y) (φ y) c) :
    ∃ b, TpcParams.isInsideModule T c.1 c.2 = .ok b ∧
      ((∃ y ∈ TpcParams.getModules T, ∃ k : ℤ, (N y).ring.InArea (-(N y).ring.areaRadius u t c) (-(N y).ring.areaAngle u t c (ρ y)) (ρ y)
        (φ y + k * (2 * π))) → b = true) ∧
      (b = true → ∃ y ∈ TpcParams.getModules T, ∃ k : ℤ, (N y).ring.InArea ((N y).ring.areaRadius u t c) ((N y).ring.areaAngle u t c (ρ y))
        (ρ y) (φ y + k * (2 * π))) := by
  refine any_answer (fun m : TpcParams.Mod ℝ => m.isInsideModule c.1 c.2) _ _ _ fun y hy => ?_
  obtain ⟨hC, hM, hS⟩ := hN y hy
  obtain ⟨b, b1, b2, b3⟩ := any_area_inside_double_partial R hu ht hM h0 hS
  exact ⟨b, by rw [hC]; exact b1, b2, b3⟩

/-- A TPC with any number of modules of any kinds, rectangular and with polar coordinates: `getNearestModule` gives a module of the TPC, and
no other module is nearer, up to rounding. -/
theorem tpc_mixed_nearest_module_double_partial (R : Rounded F u) (hu : 0 < u) (H : Nearest F) (ht : Known t) (T : TpcParams.Tpc ℝ)
    (hT : TpcParams.getModules T ≠ []) {c : ℝ × ℝ} (h0 : t = POLAR → 0 ≤ c.1) (δ ε : TpcParams.Mod ℝ → ℝ)
    (hN : ∀ y ∈ TpcParams.getModules T, ModuleAt F u fuel t y c (δ y) (ε y)) :
    ∃ x ∈ TpcParams.getModules T, TpcParams.getNearestModule T c.1 c.2 = .ok x ∧
      ∀ y ∈ TpcParams.getModules T, δ x ≤ δ y + ε x + ε y := by
  refine nearest_of_near T hT c δ ε fun y hy => ?_
  obtain ⟨d, hd⟩ : ∃ d, d = δ y := ⟨_, rfl⟩
  obtain ⟨e, he⟩ : ∃ e, e = ε y := ⟨_, rfl⟩
  have h := hN y hy
  rw [← hd, ← he] at h ⊢
  cases h with
  | @rectangular N d n hC hM hW hd =>
    obtain ⟨D, d', h1, h2, h3, -⟩ := area_distance_double (fuel := n) R ht hM hW c
    obtain rfl := hd.unique h2
    exact ⟨D, by rw [hC]; exact h1, h3⟩
  | polar hC hM hS hw hd =>
    obtain ⟨L, hL, hA⟩ := ring_module (F := F) (t := t) hM.polar fuel
    rw [hC, hA.distance]
    exact ring_near R hu H ht hM.ring hM.framed hL h0 hS.radius hS.off hS.place hS.small hS.loops hd hw

/-- What `MountedAny` says of a layout with a fixed pad size: the ring segment goes from the angle 0 to the largest angle. -/
theorem size_ring (R : Rounded F u) (hu : 0 < u) {S : MountedSize} {L : PadSize.Layout ℝ} (hM : S.Proper F L) (n : ℕ) :
    (⟨S.id, S.frequency, S.ops, fixedSize F n L⟩ : MountedAny).ring =
      ⟨S.id, S.frequency, S.ops, ⟨S.pads.rMin, S.pads.rMax, 1, 0, S.pads.phiMax, 1⟩⟩ ∧
    (⟨S.id, S.frequency, S.ops, fixedSize F n L⟩ : MountedAny).ring.Proper F := by
  have B := PadSize.Double.built_of (angle_rounded R hu) hM.made
  have hp := hM.made.proper
  have e : (⟨S.id, S.frequency, S.ops, fixedSize F n L⟩ : MountedAny).ring =
      ⟨S.id, S.frequency, S.ops, ⟨S.pads.rMin, S.pads.rMax, 1, 0, S.pads.phiMax, 1⟩⟩ := by
    unfold MountedAny.ring fixedSize
    dsimp only
    rw [B.rMin, B.rMax, B.phiMax]
  refine ⟨e, ?_⟩
  rw [e]
  refine ⟨hM.settled, hM.given, ⟨hp.r, hp.phi0, by norm_num, by norm_num⟩, hp.r0, ?_⟩
  have : S.pads.phiMax ≤ 2 * F.pi := hp.phi
  dsimp only
  linarith

/-- `isInsideModule` of a module with pads of a fixed size, for points that are not near to the edge of the area. -/
theorem size_area_inside_double_partial (R : Rounded F u) (hu : 0 < u) (ht : Known t) {S : MountedSize} {L : PadSize.Layout ℝ}
    (hM : S.Proper F L) {n : ℕ} {W : MountedDisk} (hW : W = ⟨S.id, S.frequency, S.ops, ⟨S.pads.rMin, S.pads.rMax, 1, 0, S.pads.phiMax, 1⟩⟩)
    (hF : W.Framed u) {c : ℝ × ℝ} (h0 : t = POLAR → 0 ≤ c.1) {r phi : ℝ} (hr : 0 < r) (he : 2 * W.shift u t c ≤ r) (hq : W.At t r phi c)
    (hs : u * W.angles t c ≤ 1 / 20) (hf : W.angles t c + 1 ≤ fuel) :
    ∃ b, ringInsideModule F (S.module F n t L) fuel c.1 c.2 = .ok b ∧
      ((∃ k : ℤ, W.InArea (-W.areaRadius u t c) (-W.areaAngle u t c r) r (phi + k * (2 * π))) → b = true) ∧
      (b = true → ∃ k : ℤ, W.InArea (W.areaRadius u t c) (W.areaAngle u t c r) r (phi + k * (2 * π))) := by
  obtain ⟨e, hp⟩ := size_ring R hu hM (n + 1)
  rw [hW, ← e] at hF he hq hs hf ⊢
  exact any_area_inside_double_partial (M := ⟨S.id, S.frequency, S.ops, fixedSize F (n + 1) L⟩) R hu ht ⟨rfl, hp, hF⟩ h0
    ⟨hr, he, hq, hs, hf⟩

/-! ### Non-vacuity -/

/-- The pads of `TpcSizeDoubleProps.lean` in a module with a border of a quarter. -/
noncomputable def rowFramed : MountedSize := ⟨5, 1, [.border (1 / 4), .offset 0 0], rowPads⟩

theorem rowFramed_proper : rowFramed.Proper realDoubles fourPads := by
  refine ⟨⟨[.border (1 / 4)], .offset 0 0, [], rfl, trivial, by simp⟩, ?_, rowAt_proper.made, rowAt_proper.filled⟩
  intro o ho
  have : o = .border (1 / 4) ∨ o = .offset 0 0 := by simpa [rowFramed] using ho
  rcases this with rfl | rfl
  · trivial
  · exact Doubles.binary64_zero

/-- Its ring segment. -/
noncomputable def rowRing : MountedDisk := ⟨5, 1, [.border (1 / 4), .offset 0 0], ⟨1, 2, 1, 0, 3, 1⟩⟩

theorem rowRing_values : rowRing.values = ⟨1 / 4, (0, 0), 0, none, 1⟩ := rfl

theorem rowRing_framed : rowRing.Framed (1 / 2 ^ 53) := by
  have := Real.pi_gt_three
  refine ⟨?_, Or.inr ?_, Or.inr ?_⟩
  · rw [rowRing_values]; norm_num
  · norm_num [rowRing]
  · unfold MountedDisk.borderAngle
    rw [rowRing_values]
    norm_num [rowRing]
    linarith

theorem rowRing_at (r phi : ℝ) : rowRing.At CARTESIAN r phi (r * cos phi, r * sin phi) := by
  unfold MountedDisk.At
  rw [plane_cartesian, rowRing_values]
  unfold onPlate place
  norm_num

theorem rowRing_angles (c : ℝ × ℝ) : rowRing.angles CARTESIAN c = 76 := by
  unfold MountedDisk.angles
  rw [rowRing_values]
  norm_num [rowRing, CARTESIAN, POLAR]

theorem rowRing_shift {r phi : ℝ} (h0 : 0 ≤ r) (h1 : r ≤ 3) : rowRing.shift (1 / 2 ^ 53) CARTESIAN (r * cos phi, r * sin phi) ≤ 1 / 2 ^ 43 :=
  ringFramed_shift h0 h1

/-- Non-vacuity of `size_area_inside_double_partial`: a point in the border, at the angle -1/8. -/
example : ringInsideModule realDoubles (rowFramed.module realDoubles 0 CARTESIAN fourPads) 77 (3 / 2 * cos (-1 / 8)) (3 / 2 * sin (-1 / 8)) =
    .ok true := by
  have s1 := rowRing_shift (r := 3 / 2) (phi := -1 / 8) (by norm_num) (by norm_num)
  obtain ⟨b, b1, b2, -⟩ := size_area_inside_double_partial (fuel := 77) realDoubles_rounded (by norm_num) (Or.inl rfl) rowFramed_proper
    (n := 0) (W := rowRing) rfl rowRing_framed (c := (3 / 2 * cos (-1 / 8), 3 / 2 * sin (-1 / 8))) (fun h => absurd h polar_ne)
    (r := 3 / 2) (phi := -1 / 8) (by norm_num) (by norm_num at s1 ⊢; linarith) (rowRing_at _ _) (by rw [rowRing_angles]; norm_num)
    (by rw [rowRing_angles]; norm_num)
  rw [b1, b2 ⟨0, ?_⟩]
  unfold MountedDisk.InArea MountedDisk.areaRadius MountedDisk.areaAngle MountedDisk.borderAngle
  rw [rowRing_angles, rowRing_values]
  generalize rowRing.shift (1 / 2 ^ 53) CARTESIAN (3 / 2 * cos (-1 / 8), 3 / 2 * sin (-1 / 8)) = x at s1 ⊢
  norm_num [rowRing] at s1 ⊢
  refine ⟨⟨?_, ?_⟩, ?_, ?_⟩ <;> linarith

/-- The module with any layout that it is. -/
noncomputable def rowAny : MountedAny := ⟨5, 1, [.border (1 / 4), .offset 0 0], fixedSize realDoubles 1 fourPads⟩

theorem rowAny_ring : rowAny.ring = rowRing := (size_ring realDoubles_rounded (by norm_num) rowFramed_proper 1).1

theorem rowAny_proper : rowAny.Proper realDoubles (1 / 2 ^ 53) := by
  refine ⟨rfl, (size_ring realDoubles_rounded (by norm_num) rowFramed_proper 1).2, ?_⟩
  rw [rowAny_ring]
  exact rowRing_framed

theorem rowAny_sees : rowAny.Sees (1 / 2 ^ 53) 77 CARTESIAN (3 / 2) 0 (3 / 2 * cos 0, 3 / 2 * sin 0) := by
  have s1 := rowRing_shift (r := 3 / 2) (phi := 0) (by norm_num) (by norm_num)
  refine ⟨by norm_num, ?_, ?_, ?_, ?_⟩ <;> rw [rowAny_ring]
  · norm_num at s1 ⊢; linarith
  · exact rowRing_at _ _
  · rw [rowRing_angles]; norm_num
  · rw [rowRing_angles]; norm_num

theorem rowAny_deep : rowRing.InArea (-rowRing.areaRadius (1 / 2 ^ 53) CARTESIAN (3 / 2 * cos 0, 3 / 2 * sin 0))
    (-rowRing.areaAngle (1 / 2 ^ 53) CARTESIAN (3 / 2 * cos 0, 3 / 2 * sin 0) (3 / 2)) (3 / 2) 0 := by
  have s1 := rowRing_shift (r := 3 / 2) (phi := 0) (by norm_num) (by norm_num)
  unfold MountedDisk.InArea MountedDisk.areaRadius MountedDisk.areaAngle MountedDisk.borderAngle
  rw [rowRing_angles, rowRing_values]
  generalize rowRing.shift (1 / 2 ^ 53) CARTESIAN (3 / 2 * cos 0, 3 / 2 * sin 0) = x at s1 ⊢
  norm_num [rowRing] at s1 ⊢
  refine ⟨⟨?_, ?_⟩, ?_, ?_⟩ <;> linarith

/-- Behind the interface of modules. -/
noncomputable def rowMod : TpcParams.Mod ℝ :=
  { framedMod 5 0 with
    isInsideModule := ringInsideModule realDoubles (rowAny.module realDoubles CARTESIAN) 77
    getDistanceToModule := ringDistance realDoubles (rowAny.module realDoubles CARTESIAN) 77 }

/-- Non-vacuity of `tpc_any_inside_double_partial`. -/
example : TpcParams.isInsideModule { TpcParams.new 10 CARTESIAN with modules := [rowMod] } (3 / 2 * cos 0) (3 / 2 * sin 0) = .ok true := by
  have hm : TpcParams.getModules { TpcParams.new 10 CARTESIAN with modules := [rowMod] } = [rowMod] := rfl
  obtain ⟨b, b1, b2, -⟩ := tpc_any_inside_double_partial (fuel := 77) realDoubles_rounded (by norm_num) (Or.inl rfl) (fun _ => rowAny)
    { TpcParams.new 10 CARTESIAN with modules := [rowMod] } (c := (3 / 2 * cos 0, 3 / 2 * sin 0)) (fun h => absurd h polar_ne)
    (fun _ => 3 / 2) (fun _ => 0)
    (by
      intro y hy
      obtain rfl : y = rowMod := by rw [hm] at hy; simpa using hy
      exact ⟨fun _ _ => rfl, rowAny_proper, rowAny_sees⟩)
  rw [b1, b2 ⟨rowMod, by rw [hm]; simp, 0, ?_⟩]
  rw [rowAny_ring, Int.cast_zero, zero_mul, add_zero]
  exact rowAny_deep

/-- The point (3/2, 0) is 5 away from the rectangular module `framedAt 7 4`. -/
theorem framed_least : IsLeast ((framedAt 7 4).areaDistances realDoubles CARTESIAN (3 / 2 * cos 0, 3 / 2 * sin 0)) 5 := by
  constructor
  · refine ⟨(-1 / 2, 0), (framed_area 7 4 0 _).2 (by norm_num), ?_⟩
    show far (plane CARTESIAN _) (onPlate CARTESIAN (framedAt 7 4).values (-1 / 2, 0)) = 5
    rw [plane_cartesian, framed_plate]
    unfold far
    rw [Real.cos_zero, Real.sin_zero]
    norm_num
    rw [show (25 : ℝ) = 5 ^ 2 by norm_num, Real.sqrt_sq (by norm_num)]
  · rintro _ ⟨q, hq, rfl⟩
    have hq := (framed_area 7 4 0 q).1 hq
    show 5 ≤ far (plane CARTESIAN _) (onPlate CARTESIAN (framedAt 7 4).values q)
    rw [plane_cartesian, framed_plate, Real.cos_zero, Real.sin_zero]
    have := (far_components (le_refl (far (3 / 2 * 1, 3 / 2 * 0) (-(q.1 + 4), q.2)))).1
    refine le_trans ?_ (le_trans (le_abs_self _) this)
    dsimp only
    linarith [hq.1]

/-- The point is in the ring segment. -/
theorem row_least : IsLeast (rowRing.areaDistances CARTESIAN (3 / 2 * cos 0, 3 / 2 * sin 0)) 0 := by
  constructor
  · refine ⟨Disk.Spec.point (3 / 2) 0, ⟨3 / 2, 0, ?_⟩, ?_⟩
    · unfold MountedDisk.borderAngle
      rw [rowRing_values]
      norm_num [rowRing]
    · show far (plane CARTESIAN _) (onPlate CARTESIAN rowRing.values (3 / 2 * cos 0, 3 / 2 * sin 0)) = 0
      have : plane CARTESIAN (3 / 2 * cos 0, 3 / 2 * sin 0) = _ := rowRing_at (3 / 2) 0
      rw [← this]
      unfold far
      simp
  · rintro _ ⟨q, -, rfl⟩
    exact Real.sqrt_nonneg _

/-- Non-vacuity of `tpc_mixed_nearest_module_double_partial`: a TPC with a rectangular module and this one. -/
example : TpcParams.getNearestModule { TpcParams.new 10 CARTESIAN with modules := [framedMod 7 4, rowMod] } (3 / 2 * cos 0) (3 / 2 * sin 0) =
    .ok rowMod := by
  have hm : TpcParams.getModules { TpcParams.new 10 CARTESIAN with modules := [framedMod 7 4, rowMod] } = [framedMod 7 4, rowMod] := rfl
  have i1 : (framedMod 7 4).id = 7 := rfl
  have i2 : rowMod.id = 5 := rfl
  have e1 : (framedAt 7 4).areaError realDoubles (1 / 2 ^ 53) CARTESIAN (3 / 2 * cos 0, 3 / 2 * sin 0) ≤ 1 :=
    ((framed_error 7 (x := 4) (c := (3 / 2 * cos 0, 3 / 2 * sin 0)) (by norm_num [abs_of_nonneg])).2).trans (by norm_num)
  have s1 := rowRing_shift (r := 3 / 2) (phi := 0) (by norm_num) (by norm_num)
  have e2 : rowRing.areaMargin (1 / 2 ^ 53) CARTESIAN (3 / 2 * cos 0, 3 / 2 * sin 0) (3 / 2) ≤ 1 := by
    unfold MountedDisk.areaMargin
    rw [rowRing_angles, rowRing_values]
    generalize rowRing.shift (1 / 2 ^ 53) CARTESIAN (3 / 2 * cos 0, 3 / 2 * sin 0) = s at *
    norm_num [rowRing] at s1 ⊢
    linarith
  obtain ⟨x, x1, x2, x3⟩ := tpc_mixed_nearest_module_double_partial (fuel := 77) realDoubles_rounded (by norm_num) realDoubles_nearest
    (t := CARTESIAN) (Or.inl rfl) { TpcParams.new 10 CARTESIAN with modules := [framedMod 7 4, rowMod] } (by rw [hm]; simp)
    (c := (3 / 2 * cos 0, 3 / 2 * sin 0)) (fun h => absurd h polar_ne) (fun y => if y.id = 7 then 5 else 0)
    (fun y => if y.id = 7 then (framedAt 7 4).areaError realDoubles (1 / 2 ^ 53) CARTESIAN (3 / 2 * cos 0, 3 / 2 * sin 0) else
      rowRing.areaMargin (1 / 2 ^ 53) CARTESIAN (3 / 2 * cos 0, 3 / 2 * sin 0) (3 / 2) + 50 * (1 / 2 ^ 53) * rowRing.areaRadii (3 / 2) ^ 2 / 0)
    (by
      intro y hy
      rw [hm] at hy
      simp only [List.mem_cons, List.not_mem_nil, or_false] at hy
      rcases hy with rfl | rfl
      · exact .rectangular (N := framedAt 7 4) (n := 2) (fun _ _ => rfl) (framed_mounted _ _) (framed_wide _ _)
          framed_least
      · have := ModuleAt.polar (F := realDoubles) (u := 1 / 2 ^ 53) (fuel := 77) (t := CARTESIAN) (y := rowMod) (M := rowAny) (r := 3 / 2)
          (phi := 0) (d := 0) (c := (3 / 2 * cos 0, 3 / 2 * sin 0)) (fun _ _ => rfl) rowAny_proper rowAny_sees
          (Or.inl (by rw [rowAny_ring]; exact rowAny_deep)) (by rw [rowAny_ring]; exact row_least)
        rw [rowAny_ring] at this
        exact this)
  rw [x2]
  rw [hm] at x1
  simp only [List.mem_cons, List.not_mem_nil, or_false] at x1
  rcases x1 with rfl | rfl
  · exfalso
    have h := x3 rowMod (by rw [hm]; simp)
    rw [if_pos i1, if_pos i1, if_neg (by rw [i2]; norm_num), if_neg (by rw [i2]; norm_num), div_zero] at h
    linarith
  · rfl

/-- Non-vacuity of `any_area_within_double`. -/
example : ringDistance realDoubles (rowAny.module realDoubles CARTESIAN) 77 (3 / 2 * cos 0) (3 / 2 * sin 0) = .ok 0 :=
  any_area_within_double (c := (3 / 2 * cos 0, 3 / 2 * sin 0)) realDoubles_rounded (by norm_num) (Or.inl rfl) rowAny_proper
    (fun h => absurd h polar_ne) rowAny_sees (by rw [rowAny_ring]; exact rowAny_deep)

/-- The point at radius 10 and angle 0 is 31/4 away from the ring segment with its border. -/
theorem row_least_far : IsLeast (rowRing.areaDistances CARTESIAN (10 * cos 0, 10 * sin 0)) (31 / 4) := by
  have hp := Real.pi_gt_three
  have h := Disk.keystoneDistance_isLeast (r := 10) (phi := 0) (rMin := 3 / 4) (rMax := 9 / 4) (phiMin := -1 / 4) (phiMax := 13 / 4)
    (by norm_num) (by norm_num) (by norm_num) (by norm_num) (by linarith) (by linarith)
  have e : Disk.keystoneDistance Disk.realFns 10 0 (3 / 4) (9 / 4) (-1 / 4) (13 / 4) = 31 / 4 := by
    unfold Disk.keystoneDistance
    norm_num
  rw [e] at h
  have hk : Disk.Spec.keystone (max 0 (rowRing.pads.rMin - rowRing.values.border)) (rowRing.pads.rMax + rowRing.values.border)
      (rowRing.pads.phiMin - rowRing.borderAngle) (rowRing.pads.phiMax + rowRing.borderAngle) =
      Disk.Spec.keystone (3 / 4) (9 / 4) (-1 / 4) (13 / 4) := by
    unfold MountedDisk.borderAngle
    rw [rowRing_values]
    norm_num [rowRing]
  have hf : ∀ g, far (plane CARTESIAN (10 * cos 0, 10 * sin 0)) (onPlate CARTESIAN rowRing.values g) =
      Disk.Spec.dist2 (Disk.Spec.point 10 0) g := by
    intro g
    have := rowRing_at 10 0
    unfold MountedDisk.At at this
    rw [this, dist2_far, far_eq, far_eq]
    exact place_far _ _ _ _ _
  unfold MountedDisk.areaDistances
  rw [hk]
  obtain ⟨⟨g, g1, g2⟩, h2⟩ := h
  refine ⟨⟨g, g1, ?_⟩, ?_⟩
  · rw [g2]; exact hf g
  · rintro x ⟨q, q1, rfl⟩
    exact h2 ⟨q, q1, hf q⟩

/-- Non-vacuity of `any_area_far_double_partial`: the distance of this point. -/
example : ∃ D, ringDistance realDoubles (rowAny.module realDoubles CARTESIAN) 77 (10 * cos 0) (10 * sin 0) = .ok D ∧
    |D - 31 / 4| ≤ 1 / 2 ^ 30 := by
  have hp := Real.pi_gt_three
  have s1 : rowRing.shift (1 / 2 ^ 53) CARTESIAN (10 * cos 0, 10 * sin 0) ≤ 1 / 2 ^ 43 := by
    unfold MountedDisk.shift size
    rw [rowRing_values, weight_cartesian, weight_cartesian]
    norm_num
  have m : rowRing.areaMargin (1 / 2 ^ 53) CARTESIAN (10 * cos 0, 10 * sin 0) 10 ≤ 1 / 2 ^ 33 := by
    unfold MountedDisk.areaMargin
    rw [rowRing_angles, rowRing_values]
    generalize rowRing.shift (1 / 2 ^ 53) CARTESIAN (10 * cos 0, 10 * sin 0) = s at *
    norm_num [rowRing] at s1 ⊢
    linarith
  have w : rowRing.areaRadii 10 = 49 / 2 := by
    unfold MountedDisk.areaRadii
    rw [rowRing_values]
    norm_num [rowRing]
  obtain ⟨D, D1, D2⟩ := any_area_far_double_partial (fuel := 77) (M := rowAny) (c := (10 * cos 0, 10 * sin 0)) realDoubles_rounded
    (by norm_num) realDoubles_nearest (t := CARTESIAN) (Or.inl rfl) rowAny_proper (fun h => absurd h polar_ne) (r := 10) (phi := 0)
    (by
      refine ⟨by norm_num, ?_, ?_, ?_, ?_⟩ <;> rw [rowAny_ring]
      · norm_num at s1 ⊢; linarith
      · exact rowRing_at _ _
      · rw [rowRing_angles]; norm_num
      · rw [rowRing_angles]; norm_num)
    (by
      rw [rowAny_ring]
      unfold MountedDisk.Clear MountedDisk.areaAngle MountedDisk.borderAngle
      rw [rowRing_angles, rowRing_values]
      generalize rowRing.shift (1 / 2 ^ 53) CARTESIAN (10 * cos 0, 10 * sin 0) = s at *
      norm_num [rowRing] at s1 ⊢
      constructor <;> linarith) (by rw [rowAny_ring]; exact row_least_far)
    (by
      rw [rowAny_ring]
      unfold MountedDisk.AreaLarge
      rw [w]
      generalize rowRing.areaMargin (1 / 2 ^ 53) CARTESIAN (10 * cos 0, 10 * sin 0) 10 = x at *
      norm_num at m ⊢
      linarith) (by norm_num)
  refine ⟨D, D1, D2.trans ?_⟩
  rw [rowAny_ring, w]
  generalize rowRing.areaMargin (1 / 2 ^ 53) CARTESIAN (10 * cos 0, 10 * sin 0) 10 = x at *
  norm_num at m ⊢
  linarith

end Gear.TpcModule.Double
