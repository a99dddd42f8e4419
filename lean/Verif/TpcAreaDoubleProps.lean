/-
The areas of the rectangular modules of a TPC in `double` arithmetic (C165).
-/
import Verif.TpcAreaDouble
import Verif.TpcDoubleProps

set_option autoImplicit false
set_option linter.unusedSectionVars false

namespace Gear.TpcModule.Double

open Real
open TpcModule.Spec (Known plane place Op Values values Settled)
open Rect.Spec (euclid box)
open Rect.Double.Spec (Args MadeOf HasBox)
open Rect.Double (gap gap_near gap_nonneg gap_le plane_near plane_le corner_near isLeast_box rnd_nonneg)
open MaterialMap (binary64)
open Spec

/-! ### Specification -/

namespace Spec

namespace Mounted

/-- The area of the module, before it is placed: the extent of its layout and the border around it, or points up to `e` outside. -/
def area (F : Arith ℝ) (M : Mounted) (e : ℝ) : Set (ℝ × ℝ) :=
  {q | (M.layout F).xMin - M.values.border - e ≤ q.1 ∧ q.1 ≤ (M.layout F).xMax + M.values.border + e ∧
    (M.layout F).yMin - M.values.border - e ≤ q.2 ∧ q.2 ≤ (M.layout F).yMax + M.values.border + e}

/-- The layout is not turned inside out, and the border is not negative. -/
structure Wide (F : Arith ℝ) (M : Mounted) : Prop where
  x : (M.layout F).xMin ≤ (M.layout F).xMax
  y : (M.layout F).yMin ≤ (M.layout F).yMax
  border : 0 ≤ M.values.border

/-- The size of the numbers of the area. -/
noncomputable def reach (F : Arith ℝ) (M : Mounted) : ℝ :=
  |(M.layout F).xMin| + |(M.layout F).xMax| + |(M.layout F).yMin| + |(M.layout F).yMax| + M.values.border

/-- The distances of the point `c` from the points of the module, as it is placed. -/
noncomputable def areaDistances (F : Arith ℝ) (t : ℤ) (M : Mounted) (c : ℝ × ℝ) : Set ℝ :=
  (fun q => far (plane t c) (onPlate t M.values q)) '' M.area F 0

/-- The rounding errors of the border of the area. -/
noncomputable def edgeError (F : Arith ℝ) (u : ℝ) (t : ℤ) (M : Mounted) (c : ℝ × ℝ) : ℝ :=
  100 * u * size t M.values c + u * M.reach F

/-- The rounding errors of a distance from the area. -/
noncomputable def areaError (F : Arith ℝ) (u : ℝ) (t : ℤ) (M : Mounted) (c : ℝ × ℝ) : ℝ :=
  220 * u * size t M.values c + 12 * u * M.reach F

/-- The module of the TPC is this one: what it is asked for areas. -/
structure Covers (F : Arith ℝ) (fuel : ℕ) (t : ℤ) (M : Mounted) (x : TpcParams.Mod ℝ) : Prop where
  distance : ∀ a b, x.getDistanceToModule a b = getDistanceToModule F (M.module F fuel t) a b
  inside : ∀ a b, x.isInsideModule a b = isInsideModule F (M.module F fuel t) a b
  pad : ∀ a b, x.isInsidePad a b = isInsideAnyPad F (M.module F fuel t) a b

end Mounted

end Spec

variable {F : Arith ℝ} {u : ℝ} {t : ℤ} {fuel : ℕ} {M : Mounted}

/-! ### The extent -/

theorem run_border (F : Arith ℝ) {m : Module ℝ} {v : Values} (h : m.border = v.border) (ops : List Op) :
    (run F m ops).border = (ops.foldl Values.set v).border := by
  induction ops generalizing m v with
  | nil => exact h
  | cons o ops ih =>
    refine ih ?_
    cases o with
    | border w => rfl
    | z z => exact h
    | frequency g => exact h
    | angle a => exact h
    | offset x y =>
      show (setOffset F m x y).border = v.border
      unfold setOffset
      dsimp only
      split_ifs <;> exact h

theorem module_border : (M.module F fuel t).border = M.values.border :=
  run_border F (m := new M.id (rectangular F fuel (M.layout F)) t M.frequency) rfl M.ops

theorem reach_nonneg (hW : M.Wide F) : 0 ≤ M.reach F := by
  have := hW.border
  unfold Mounted.reach
  positivity

/-- The extent is right up to one rounding, and not turned inside out. -/
theorem extent_near (R : Rounded F u) (hW : M.Wide F) :
    |(localExtent F (M.module F fuel t)).e0 - ((M.layout F).xMin - M.values.border)| ≤ u * M.reach F ∧
    |(localExtent F (M.module F fuel t)).e1 - ((M.layout F).xMax + M.values.border)| ≤ u * M.reach F ∧
    |(localExtent F (M.module F fuel t)).e2 - ((M.layout F).yMin - M.values.border)| ≤ u * M.reach F ∧
    |(localExtent F (M.module F fuel t)).e3 - ((M.layout F).yMax + M.values.border)| ≤ u * M.reach F ∧
    (localExtent F (M.module F fuel t)).e0 ≤ (localExtent F (M.module F fuel t)).e1 ∧
    (localExtent F (M.module F fuel t)).e2 ≤ (localExtent F (M.module F fuel t)).e3 := by
  have hu := (rect_rounded R).nonneg
  have hr := mul_nonneg hu (reach_nonneg hW)
  unfold localExtent
  dsimp only
  rw [module_border, module_layout]
  by_cases h0 : M.values.border = 0
  · rw [if_pos h0, h0]
    simp only [sub_zero, add_zero, rectangular, sub_self, abs_zero]
    exact ⟨hr, hr, hr, hr, hW.x, hW.y⟩
  · rw [if_neg h0]
    have hb := hW.border
    have n1 := abs_nonneg (M.layout F).xMin
    have n2 := abs_nonneg (M.layout F).xMax
    have n3 := abs_nonneg (M.layout F).yMin
    have n4 := abs_nonneg (M.layout F).yMax
    have key : ∀ v : ℝ, |v| ≤ M.reach F → |F.rnd v - v| ≤ u * M.reach F := fun v hv =>
      (R.rounding.err v).trans (mul_le_mul_of_nonneg_left hv hu)
    simp only [MaterialMap.Arith.sub, MaterialMap.Arith.add, rectangular]
    refine ⟨key _ ((abs_sub _ _).trans ?_), key _ ((abs_add_le _ _).trans ?_), key _ ((abs_sub _ _).trans ?_),
      key _ ((abs_add_le _ _).trans ?_), R.rounding.mono _ _ (by linarith [hW.x]), R.rounding.mono _ _ (by linarith [hW.y])⟩ <;>
    · rw [abs_of_nonneg hb]; unfold Mounted.reach; linarith

/-! ### Distances -/

theorem gap_point {v v' a b e : ℝ} (h : |v' - v| ≤ e) : |gap v' a b - gap v a b| ≤ e := by
  have he : 0 ≤ e := (abs_nonneg _).trans h
  unfold gap
  have h1 : |max (a - v') (v' - b) - max (a - v) (v - b)| ≤ e := by
    refine (abs_max_sub_max_le_max _ _ _ _).trans (max_le ?_ ?_)
    · rw [sub_sub_sub_cancel_left, abs_sub_comm]; exact h
    · rw [sub_sub_sub_cancel_right]; exact h
  refine (abs_max_sub_max_le_max _ _ _ _).trans (max_le ?_ h1)
  rw [sub_self, abs_zero]; exact he

theorem isLeast_area (hW : M.Wide F) (q : ℝ × ℝ) :
    IsLeast ((fun p : ℝ × ℝ => euclid q.1 q.2 p.1 p.2) '' M.area F 0)
      (√(gap q.1 ((M.layout F).xMin - M.values.border) ((M.layout F).xMax + M.values.border) ^ 2 +
        gap q.2 ((M.layout F).yMin - M.values.border) ((M.layout F).yMax + M.values.border) ^ 2)) := by
  have hb := hW.border
  have hx := hW.x
  have hy := hW.y
  have e : M.area F 0 = box (((M.layout F).xMin + (M.layout F).xMax) / 2, ((M.layout F).yMin + (M.layout F).yMax) / 2)
      ((M.layout F).xMax - (M.layout F).xMin + 2 * M.values.border) ((M.layout F).yMax - (M.layout F).yMin + 2 * M.values.border) := by
    ext p
    unfold Mounted.area box
    simp only [Set.mem_setOf_eq, _root_.abs_le]
    constructor
    · rintro ⟨h1, h2, h3, h4⟩
      exact ⟨⟨by linarith, by linarith⟩, by linarith, by linarith⟩
    · rintro ⟨⟨h1, h2⟩, h3, h4⟩
      exact ⟨by linarith, by linarith, by linarith, by linarith⟩
  have h := isLeast_box q.1 q.2 (((M.layout F).xMin + (M.layout F).xMax) / 2, ((M.layout F).yMin + (M.layout F).yMax) / 2)
    (w := (M.layout F).xMax - (M.layout F).xMin + 2 * M.values.border) (h := (M.layout F).yMax - (M.layout F).yMin + 2 * M.values.border)
    (by linarith) (by linarith)
  rw [e]
  convert h using 5 <;> ring_nf

theorem areaDistances_eq {c q : ℝ × ℝ} (hq : plane t c = onPlate t M.values q) :
    M.areaDistances F t c = (fun p : ℝ × ℝ => euclid q.1 q.2 p.1 p.2) '' M.area F 0 := by
  unfold Mounted.areaDistances
  refine Set.image_congr fun p _ => ?_
  rw [hq, far_eq]
  unfold onPlate
  rw [place_far, ← far_eq]
  rfl

/-- The computation of the distance from an extent. -/
theorem toExtent_near (R : Rounded F u) {m : Module ℝ} {g0 g1 : ℝ} {l : ℝ × ℝ} (hl : globalToLocal F m g0 g1 = .ok l)
    (hx : (localExtent F m).e0 ≤ (localExtent F m).e1) (hy : (localExtent F m).e2 ≤ (localExtent F m).e3) :
    ∃ D, getDistanceToModule F m g0 g1 = .ok D ∧ 0 ≤ D ∧
      |D - √(gap l.1 (localExtent F m).e0 (localExtent F m).e1 ^ 2 + gap l.2 (localExtent F m).e2 (localExtent F m).e3 ^ 2)| ≤
        4 * u * √(gap l.1 (localExtent F m).e0 (localExtent F m).e1 ^ 2 + gap l.2 (localExtent F m).e2 (localExtent F m).e3 ^ 2) := by
  have hR := rect_rounded R
  have hu := hR.nonneg
  unfold getDistanceToModule
  rw [hl, Res.bind_ok]
  refine ⟨_, rfl, ?_⟩
  generalize localExtent F m = e at hx hy ⊢
  obtain ⟨a, b, c, d⟩ := e
  obtain ⟨x, y⟩ := l
  dsimp only at hx hy ⊢
  have low : ∀ {v p q : ℝ}, p ≤ q → v < p → gap v p q = p - v := by
    intro v p q h1 h2
    unfold gap; rw [max_eq_left (by linarith : v - q ≤ p - v), max_eq_right (by linarith)]
  have high : ∀ {v p q : ℝ}, p ≤ q → v > q → gap v p q = v - q := by
    intro v p q h1 h2
    unfold gap; rw [max_eq_right (by linarith : p - v ≤ v - q), max_eq_right (by linarith)]
  have mid : ∀ {v p q : ℝ}, ¬ v < p → v ≤ q → gap v p q = 0 := by
    intro v p q h1 h2
    unfold gap; rw [max_eq_left]; exact max_le (by linarith [not_lt.1 h1]) (by linarith)
  have side : ∀ {v : ℝ}, 0 ≤ v → 0 ≤ F.rnd v ∧ |F.rnd v - v| ≤ 4 * u * v := by
    intro v hv
    refine ⟨rnd_nonneg hR hv, ?_⟩
    have := R.rounding.err v
    rw [abs_of_nonneg hv] at this
    have := mul_nonneg hu hv
    linarith
  by_cases y1 : y < c
  · rw [if_neg (fun h : y ≥ c ∧ y ≤ d => absurd h.1 (not_le.2 y1)), if_pos y1, low hy y1]
    by_cases x1 : x < a
    · rw [if_pos x1, low hx x1]
      exact (corner_near hR a c x y).symm
    · rw [if_neg x1]
      by_cases x2 : x ≤ b
      · rw [if_pos x2, mid x1 x2, zero_pow two_ne_zero, zero_add, Real.sqrt_sq (by linarith)]
        exact side (by linarith)
      · rw [if_neg x2, high hx (not_le.1 x2)]
        exact (corner_near hR x c b y).symm
  · by_cases y2 : y ≤ d
    · rw [if_pos ⟨not_lt.1 y1, y2⟩, mid y1 y2, zero_pow two_ne_zero, add_zero, Real.sqrt_sq (gap_nonneg _ _ _)]
      by_cases x1 : x < a
      · rw [if_pos x1, low hx x1]
        exact side (by linarith)
      · rw [if_neg x1]
        by_cases x2 : x ≤ b
        · rw [if_pos x2, mid x1 x2]
          norm_num
        · rw [if_neg x2, high hx (not_le.1 x2)]
          exact side (by linarith [not_le.1 x2])
    · rw [if_neg (fun h : y ≥ c ∧ y ≤ d => y2 h.2), if_neg y1, high hy (not_le.1 y2)]
      by_cases x1 : x < a
      · rw [if_pos x1, low hx x1]
        exact (corner_near hR a y x d).symm
      · rw [if_neg x1]
        by_cases x2 : x ≤ b
        · rw [if_pos x2, mid x1 x2, zero_pow two_ne_zero, zero_add, Real.sqrt_sq (by linarith [not_le.1 y2])]
          exact side (by linarith [not_le.1 y2])
        · rw [if_neg x2, high hx (not_le.1 x2)]
          exact (corner_near hR x y b d).symm

/-! ### Pads -/

theorem any_eq {m : Module ℝ} {g0 g1 : ℝ} {p : ℤ} (h : getNearestPad F m g0 g1 = .ok p) :
    isInsideAnyPad F m g0 g1 = isInsidePad F m g0 g1 p := by
  unfold getNearestPad at h
  unfold isInsideAnyPad isInsidePad
  cases hg : globalToLocal F m g0 g1 with
  | throw x => rw [hg] at h; cases h
  | ub => rw [hg] at h; cases h
  | ok l =>
    rw [hg, Res.bind_ok] at h
    rw [Res.bind_ok, Res.bind_ok, h, Res.bind_ok]

theorem any_parts {m : Module ℝ} {g0 g1 : ℝ} (h : isInsideAnyPad F m g0 g1 = .ok true) :
    ∃ p, getNearestPad F m g0 g1 = .ok p ∧ isInsidePad F m g0 g1 p = .ok true := by
  have hn : ∃ p, getNearestPad F m g0 g1 = .ok p := by
    unfold isInsideAnyPad at h
    unfold getNearestPad
    cases hg : globalToLocal F m g0 g1 with
    | throw x => rw [hg] at h; cases h
    | ub => rw [hg] at h; cases h
    | ok l =>
      rw [hg, Res.bind_ok] at h
      rw [Res.bind_ok]
      cases hp : m.layout.getNearestPad l.1 l.2 with
      | throw x => rw [hp] at h; cases h
      | ub => rw [hp] at h; cases h
      | ok p => exact ⟨p, rfl⟩
  obtain ⟨p, hp⟩ := hn
  exact ⟨p, hp, by rw [← any_eq hp]; exact h⟩

/-- What `getNearestPad` of a rectangular layout gives is a pad. -/
theorem nearest_isPad {F : Arith ℝ} {L : Rect.Layout ℝ} (R : PadAngle.Double.Spec.Rounded F.toArith u) {A : Args ℝ} (hA : A.Proper u)
    (hL : MadeOf F.toArith A L) {x y : ℝ} {p : ℤ} (h : (rectangular F fuel L).getNearestPad x y = .ok p) :
    ∃ row pad, A.IsPad row pad ∧ Rect.getPadIndex L row pad = .ok p := by
  have B := Rect.Double.built hL
  have nn : ∀ {v : ℝ}, 0 ≤ v → 0 ≤ F.rnd v := by
    intro v hv
    have h1 := R.rounding.mono 0 v hv
    have h2 := R.rounding.err 0
    rw [abs_zero, mul_zero, sub_zero] at h2
    rwa [abs_eq_zero.1 (le_antisymm h2 (abs_nonneg _))] at h1
  have h : (match Rect.Double.getNearestPad F.toArith L fuel x y with | some r => r | none => Res.ub) = .ok p := h
  have h1 : ∃ x' r, Rect.Double.padInRow F.toArith L x' r = .ok p := by
    unfold Rect.Double.getNearestPad at h
    dsimp only at h
    split at h
    · rename_i e
      split at e
      · split at e
        · cases e
        · obtain rfl := Option.some.inj e; exact ⟨_, _, h⟩
        · obtain rfl := Option.some.inj e; cases h
        · obtain rfl := Option.some.inj e; cases h
      · obtain rfl := Option.some.inj e; cases h
      · obtain rfl := Option.some.inj e; cases h
    · cases h
  obtain ⟨x', r, h2⟩ := h1
  unfold Rect.Double.padInRow at h2
  cases he : Rect.elemUb L.rows r with
  | throw e => rw [he] at h2; cases h2
  | ub => rw [he] at h2; cases h2
  | ok row =>
    rw [he, Res.bind_ok] at h2
    have he := Rect.elemUb_ok.1 he
    obtain ⟨r0, r1⟩ := Rect.elem_range he
    rw [B.length] at r1
    have hrow := Option.some.inj (he.symm.trans (B.row r r0 r1))
    have fin : ∀ k : ℤ, 0 ≤ k → Rect.getPadIndex L r k = .ok p → ∃ row pad, A.IsPad row pad ∧ Rect.getPadIndex L row pad = .ok p := by
      intro k hk hi
      obtain ⟨-, r', e1, e2⟩ := Rect.encode_of_getPadIndex hi
      obtain rfl := Option.some.inj (e1.symm.trans he)
      rw [hrow] at e2
      dsimp only at e2
      exact ⟨r, k, ⟨⟨r0, r1⟩, hk, by omega⟩, hi⟩
    split_ifs at h2 with c1 c2
    · exact fin 0 le_rfl h2
    · rw [Res.bind_ok, hrow] at h2
      exact fin _ (by have := B.pads; dsimp only; omega) h2
    · cases ht : PadAngle.Double.toInt (F.div (F.sub x' (F.add L.xMin row.leftOffset)) row.widthPerPad) with
      | throw e => rw [ht] at h2; cases h2
      | ub => rw [ht] at h2; cases h2
      | ok k =>
        rw [ht, Res.bind_ok] at h2
        refine fin k ?_ h2
        unfold PadAngle.Double.toInt at ht
        split_ifs at ht
        obtain rfl := Res.ok.inj ht
        have c1 := not_le.1 c1
        have hw : 0 ≤ row.widthPerPad := by
          rw [hrow]
          dsimp only
          have hlr := R.rounding.mono _ _ hA.width.le
          have n0 : (0 : ℝ) ≤ A.nPad := by exact_mod_cast B.pads.le
          exact nn (div_nonneg (nn (sub_nonneg.2 hlr)) n0)
        have hx : 0 ≤ F.sub x' (F.add L.xMin row.leftOffset) := nn (sub_nonneg.2 c1.le)
        have hd : 0 ≤ F.div (F.sub x' (F.add L.xMin row.leftOffset)) row.widthPerPad := nn (div_nonneg hx hw)
        unfold truncInt
        rw [if_pos hd]
        exact Int.floor_nonneg.2 hd

/-- Different points of a module are at different places. -/
theorem onPlate_injective {v : Values} {p q : ℝ × ℝ} (h : onPlate t v p = onPlate t v q) : p = q := by
  have e := place_far v.angle (plane t v.offset) (v.z.getD 1) p q
  unfold onPlate at h
  rw [h, sub_self, norm_zero] at e
  have e := sub_eq_zero.1 (norm_eq_zero.1 e.symm)
  have h1 := congrArg Complex.re e
  have h2 := congrArg Complex.im e
  exact Prod.ext h1 h2

/-- A question to all modules. -/
theorem any_answer (f : TpcParams.Mod ℝ → Res Bool) (l : List (TpcParams.Mod ℝ)) (P Q : TpcParams.Mod ℝ → Prop)
    (h : ∀ y ∈ l, ∃ b, f y = .ok b ∧ (P y → b = true) ∧ (b = true → Q y)) :
    ∃ b, TpcParams.anyOf f l false = .ok b ∧ ((∃ y ∈ l, P y) → b = true) ∧ (b = true → ∃ y ∈ l, Q y) := by
  induction l with
  | nil => exact ⟨false, rfl, fun ⟨_, hy, _⟩ => absurd hy (by simp), fun h => by cases h⟩
  | cons a l ih =>
    obtain ⟨b, b1, b2, b3⟩ := h a List.mem_cons_self
    unfold TpcParams.anyOf
    rw [if_neg (by simp), b1, Res.bind_ok]
    cases b with
    | true =>
      dsimp only
      rw [TpcParams.anyOf_true]
      exact ⟨true, rfl, fun _ => rfl, fun _ => ⟨a, List.mem_cons_self, b3 rfl⟩⟩
    | false =>
      obtain ⟨b', c1, c2, c3⟩ := ih fun y hy => h y (List.mem_cons_of_mem _ hy)
      refine ⟨b', c1, ?_, fun h => ?_⟩
      · rintro ⟨y, hy, hP⟩
        rcases List.mem_cons.1 hy with rfl | hy
        · cases b2 hP
        · exact c2 ⟨y, hy, hP⟩
      · obtain ⟨y, hy, hQ⟩ := c3 h
        exact ⟨y, List.mem_cons_of_mem _ hy, hQ⟩

/-! ### C165 -/

/-- `getDistanceToModule` is the smallest distance between the point and the area of the module where it is placed, up to rounding. -/
theorem area_distance_double (R : Rounded F u) (ht : Known t) (hM : M.Proper F) (hW : M.Wide F) (c : ℝ × ℝ) :
    ∃ D d, getDistanceToModule F (M.module F fuel t) c.1 c.2 = .ok D ∧ IsLeast (M.areaDistances F t c) d ∧
      |D - d| ≤ M.areaError F u t c ∧ 0 ≤ D := by
  obtain ⟨q, hq⟩ := onPlate_onto t M.values (plane t c)
  obtain ⟨l, h1, h2⟩ := local_near (fuel := fuel) R ht hM hq.symm
  obtain ⟨h3, h4⟩ := far_components h2
  obtain ⟨e0, e1, e2, e3, e4, e5⟩ := extent_near (fuel := fuel) (t := t) R hW
  obtain ⟨D, d1, d2, d3⟩ := toExtent_near R h1 e4 e5
  refine ⟨D, _, d1, by rw [areaDistances_eq hq.symm]; exact isLeast_area hW q, ?_, d2⟩
  have hu := (rect_rounded R).nonneg
  have hs := R.small
  have hz := size_nonneg t M.values c
  have hr := reach_nonneg hW
  have hur := mul_nonneg hu hr
  have huz := mul_nonneg hu hz
  have hur2 : u * M.reach F ≤ 1 / 1000 * M.reach F := mul_le_mul_of_nonneg_right hs hr
  have huz2 : u * size t M.values c ≤ 1 / 1000 * size t M.values c := mul_le_mul_of_nonneg_right hs hz
  generalize localExtent F (M.module F fuel t) = E at e0 e1 e2 e3 e4 e5 d3
  have hb := hW.border
  -- the edges are not large
  have n1 := abs_nonneg (M.layout F).xMin
  have n2 := abs_nonneg (M.layout F).xMax
  have n3 := abs_nonneg (M.layout F).yMin
  have n4 := abs_nonneg (M.layout F).yMax
  have big : ∀ a x : ℝ, |a - x| ≤ u * M.reach F → |x| ≤ M.reach F → |a| ≤ M.reach F * (1001 / 1000) := by
    intro a x h h'
    have := abs_sub_abs_le_abs_sub a x
    linarith
  have f0 := big _ _ e0 ((abs_sub _ _).trans (by rw [abs_of_nonneg hb]; unfold Mounted.reach; linarith))
  have f1 := big _ _ e1 ((abs_add_le _ _).trans (by rw [abs_of_nonneg hb]; unfold Mounted.reach; linarith))
  have f2 := big _ _ e2 ((abs_sub _ _).trans (by rw [abs_of_nonneg hb]; unfold Mounted.reach; linarith))
  have f3 := big _ _ e3 ((abs_add_le _ _).trans (by rw [abs_of_nonneg hb]; unfold Mounted.reach; linarith))
  have h5 := local_size ht hq.symm
  have h6 := abs_sub_abs_le_abs_sub l.1 q.1
  have h7 := abs_sub_abs_le_abs_sub l.2 q.2
  have g1 := gap_le (v := l.1) (a := E.e0) (b := E.e1) (m := M.reach F * (1001 / 1000) + |l.1|) (by positivity) (by linarith) (by linarith)
  have g2 := gap_le (v := l.2) (a := E.e2) (b := E.e3) (m := M.reach F * (1001 / 1000) + |l.2|) (by positivity) (by linarith) (by linarith)
  have g3 := plane_le (gap_nonneg l.1 E.e0 E.e1) (gap_nonneg l.2 E.e2 E.e3)
  have k1 : |gap l.1 E.e0 E.e1 - gap q.1 ((M.layout F).xMin - M.values.border) ((M.layout F).xMax + M.values.border)| ≤
      100 * u * size t M.values c + u * M.reach F := by
    have a1 := gap_point (a := E.e0) (b := E.e1) h3
    have a2 := gap_near (v := q.1) e0 e1
    have a3 := abs_sub_le (gap l.1 E.e0 E.e1) (gap q.1 E.e0 E.e1)
      (gap q.1 ((M.layout F).xMin - M.values.border) ((M.layout F).xMax + M.values.border))
    linarith
  have k2 : |gap l.2 E.e2 E.e3 - gap q.2 ((M.layout F).yMin - M.values.border) ((M.layout F).yMax + M.values.border)| ≤
      100 * u * size t M.values c + u * M.reach F := by
    have a1 := gap_point (a := E.e2) (b := E.e3) h4
    have a2 := gap_near (v := q.2) e2 e3
    have a3 := abs_sub_le (gap l.2 E.e2 E.e3) (gap q.2 E.e2 E.e3)
      (gap q.2 ((M.layout F).yMin - M.values.border) ((M.layout F).yMax + M.values.border))
    linarith
  have k3 := plane_near (gap q.1 ((M.layout F).xMin - M.values.border) ((M.layout F).xMax + M.values.border))
    (gap q.2 ((M.layout F).yMin - M.values.border) ((M.layout F).yMax + M.values.border)) (gap l.1 E.e0 E.e1) (gap l.2 E.e2 E.e3)
  have k4 : 4 * u * √(gap l.1 E.e0 E.e1 ^ 2 + gap l.2 E.e2 E.e3 ^ 2) ≤
      4 * u * (M.reach F * (1001 / 500) + 2 * size t M.values c + 1 / 5 * size t M.values c) :=
    mul_le_mul_of_nonneg_left (by linarith) (by linarith)
  have k5 := abs_sub_le D (√(gap l.1 E.e0 E.e1 ^ 2 + gap l.2 E.e2 E.e3 ^ 2))
    (√(gap q.1 ((M.layout F).xMin - M.values.border) ((M.layout F).xMax + M.values.border) ^ 2 +
      gap q.2 ((M.layout F).yMin - M.values.border) ((M.layout F).yMax + M.values.border) ^ 2))
  unfold Mounted.areaError
  have e : 4 * u * (M.reach F * (1001 / 500) + 2 * size t M.values c + 1 / 5 * size t M.values c) =
      1001 / 125 * (u * M.reach F) + 44 / 5 * (u * size t M.values c) := by ring
  rw [e] at k4
  linarith

/-- `isInsideModule` is right, except near to the border of the area. -/
theorem area_inside_double (R : Rounded F u) (ht : Known t) (hM : M.Proper F) (hW : M.Wide F) {c q : ℝ × ℝ}
    (hq : plane t c = onPlate t M.values q) :
    ∃ b, isInsideModule F (M.module F fuel t) c.1 c.2 = .ok b ∧ (q ∈ M.area F (-M.edgeError F u t c) → b = true) ∧
      (b = true → q ∈ M.area F (M.edgeError F u t c)) := by
  obtain ⟨l, h1, h2⟩ := local_near (fuel := fuel) R ht hM hq
  obtain ⟨h3, h4⟩ := far_components h2
  obtain ⟨e0, e1, e2, e3, -, -⟩ := extent_near (fuel := fuel) (t := t) R hW
  unfold isInsideModule
  rw [h1, Res.bind_ok]
  refine ⟨_, rfl, ?_, ?_⟩
  all_goals
    generalize localExtent F (M.module F fuel t) = E at e0 e1 e2 e3
    rw [_root_.abs_le] at h3 h4 e0 e1 e2 e3
    unfold Mounted.area Mounted.edgeError
    rw [decide_eq_true_iff]
    simp only [Set.mem_setOf_eq]
    rintro ⟨a, b, c', d⟩
    refine ⟨?_, ?_, ?_, ?_⟩ <;> linarith [h3.1, h3.2, h4.1, h4.2, e0.1, e0.2, e1.1, e1.2, e2.1, e2.2, e3.1, e3.2]

/-- `isInsidePad` without a pad is true for a point on a pad, not near to its border, and is true only for points on a pad or very near
to its border. -/
theorem any_pad_double (R : Rounded F u) (hu : 0 < u) (ht : Known t) (hf : 2 ≤ fuel) (hM : M.Proper F) {A : Args ℝ} (hA : A.Proper u)
    (hL : MadeOf F.toArith A (M.layout F)) {c q : ℝ × ℝ} (hq : plane t c = onPlate t M.values q) :
    ((∃ row pad, A.IsPad row pad ∧ M.On u t A row pad c) → isInsideAnyPad F (M.module F fuel t) c.1 c.2 = .ok true) ∧
    (isInsideAnyPad F (M.module F fuel t) c.1 c.2 = .ok true → ∃ row pad, A.IsPad row pad ∧
      |q.1 - A.xCenter pad| ≤ A.padWidth / 2 + 12 * A.xError u + 100 * u * size t M.values c ∧
      |q.2 - A.yCenter row| ≤ A.padHeight / 2 + 2 * A.yError u + 100 * u * size t M.values c) := by
  have hR := angle_rounded R hu
  have B := Rect.Double.built hL
  constructor
  · rintro ⟨row, pad, hp, hc⟩
    obtain ⟨p, h, -, -⟩ := Rect.Double.index_double hA hL hp
    have h1 := nearest_double_partial (fuel := fuel) R hu ht hM hA hL hp h hc hf
    obtain ⟨q', hq', hx, hy⟩ := hc
    obtain ⟨b, b1, b2, -⟩ := inside_double (fuel := fuel) R hu ht hM hA hL hp h hq'
    have y0 : 0 ≤ A.yError u := by
      obtain ⟨g, -, -, g2⟩ := Rect.Double.center_double hR hA hL hp h
      exact (abs_nonneg _).trans g2
    rw [b2 (by linarith [min_le_left A.padWidth A.pitch]) (by linarith)] at b1
    rw [any_eq h1, b1]
  · intro h
    obtain ⟨p, h1, h2⟩ := any_parts h
    have h3 : ∃ l, globalToLocal F (M.module F fuel t) c.1 c.2 = .ok l ∧
        (M.module F fuel t).layout.getNearestPad l.1 l.2 = .ok p := by
      unfold getNearestPad at h1
      cases hg : globalToLocal F (M.module F fuel t) c.1 c.2 with
      | throw x => rw [hg] at h1; cases h1
      | ub => rw [hg] at h1; cases h1
      | ok l => rw [hg] at h1; exact ⟨l, rfl, h1⟩
    obtain ⟨l, -, h4⟩ := h3
    rw [module_layout] at h4
    obtain ⟨row, pad, hp, hi⟩ := nearest_isPad hR hA hL h4
    obtain ⟨b, b1, -, b3⟩ := inside_double (fuel := fuel) R hu ht hM hA hL hp hi hq
    obtain rfl := Res.ok.inj (h2.symm.trans b1)
    exact ⟨row, pad, hp, b3 rfl⟩

/-- A TPC with any number of modules with rectangular pads: `isInsideModule` is true for every point in the area of a module, and only for
points in such an area, except near to the borders. -/
theorem tpc_inside_double (R : Rounded F u) (ht : Known t) (N : TpcParams.Mod ℝ → Mounted) (T : TpcParams.Tpc ℝ)
    (hN : ∀ y ∈ TpcParams.getModules T, (N y).Covers F fuel t y ∧ (N y).Proper F ∧ (N y).Wide F) (c : ℝ × ℝ) :
    ∃ b, TpcParams.isInsideModule T c.1 c.2 = .ok b ∧
      ((∃ y ∈ TpcParams.getModules T, ∃ q ∈ (N y).area F (-(N y).edgeError F u t c), plane t c = onPlate t (N y).values q) → b = true) ∧
      (b = true → ∃ y ∈ TpcParams.getModules T, ∃ q ∈ (N y).area F ((N y).edgeError F u t c),
        plane t c = onPlate t (N y).values q) := by
  refine any_answer (fun m : TpcParams.Mod ℝ => m.isInsideModule c.1 c.2) _ _ _ fun y hy => ?_
  obtain ⟨hC, hM, hW⟩ := hN y hy
  obtain ⟨q, hq⟩ := onPlate_onto t (N y).values (plane t c)
  obtain ⟨b, b1, b2, b3⟩ := area_inside_double (fuel := fuel) R ht hM hW hq.symm
  refine ⟨b, by rw [hC.inside]; exact b1, ?_, fun h => ⟨q, b3 h, hq.symm⟩⟩
  rintro ⟨q', h1, h2⟩
  refine b2 ?_
  rwa [onPlate_injective (hq.trans h2)]

/-- `getNearestModule` of a TPC gives a module of the TPC, and no other module is nearer, up to rounding. -/
theorem tpc_nearest_module_double (R : Rounded F u) (ht : Known t) (N : TpcParams.Mod ℝ → Mounted) (T : TpcParams.Tpc ℝ)
    (h0 : TpcParams.getModules T ≠ [])
    (hN : ∀ y ∈ TpcParams.getModules T, (N y).Covers F fuel t y ∧ (N y).Proper F ∧ (N y).Wide F) (c : ℝ × ℝ) :
    ∃ x ∈ TpcParams.getModules T, TpcParams.getNearestModule T c.1 c.2 = .ok x ∧
      ∀ y ∈ TpcParams.getModules T, ∃ d d', IsLeast ((N x).areaDistances F t c) d ∧ IsLeast ((N y).areaDistances F t c) d' ∧
        d ≤ d' + (N x).areaError F u t c + (N y).areaError F u t c := by
  have key : ∀ y ∈ TpcParams.getModules T, ∃ D d, y.getDistanceToModule c.1 c.2 = .ok D ∧ IsLeast ((N y).areaDistances F t c) d ∧
      |D - d| ≤ (N y).areaError F u t c := by
    intro y hy
    obtain ⟨hC, hM, hW⟩ := hN y hy
    obtain ⟨D, d, h1, h2, h3, -⟩ := area_distance_double (fuel := fuel) R ht hM hW c
    exact ⟨D, d, by rw [hC.distance]; exact h1, h2, h3⟩
  obtain ⟨x, hx⟩ := (TpcParams.getNearestModule_ok_iff T c.1 c.2).1.2 ⟨h0, fun y hy => (key y hy).imp fun D h => h.choose_spec.1⟩
  obtain ⟨pre, post, v, e1, e2, e3, e4⟩ := TpcParams.getNearestModule_first_least T c.1 c.2 x hx
  have hmem : x ∈ TpcParams.getModules T := by rw [e1]; simp
  refine ⟨x, hmem, hx, fun y hy => ?_⟩
  obtain ⟨D, d, k1, k2, k3⟩ := key x hmem
  obtain ⟨D', d', l1, l2, l3⟩ := key y hy
  refine ⟨d, d', k2, l2, ?_⟩
  have hD : D = v := Res.ok.inj (k1.symm.trans e2)
  have hle : v ≤ D' := by
    rw [e1] at hy
    rcases List.mem_append.1 hy with h | h
    · obtain ⟨v', a, b⟩ := e3 y h
      have := Res.ok.inj (l1.symm.trans a)
      linarith
    · rcases List.mem_cons.1 h with rfl | h
      · have := Res.ok.inj (l1.symm.trans e2)
        linarith
      · obtain ⟨v', a, b⟩ := e4 y h
        have := Res.ok.inj (l1.symm.trans a)
        linarith
  rw [_root_.abs_le] at k3 l3
  linarith [k3.1, k3.2, l3.1, l3.2]

/-- `isInsidePad` of a TPC is true for every point on a pad of a module, not near to its border, and only for points on a pad or very near
to its border, if every module answers. -/
theorem tpc_any_pad_double_partial (R : Rounded F u) (hu : 0 < u) (ht : Known t) (hf : 2 ≤ fuel) (N : TpcParams.Mod ℝ → Mounted)
    (A : TpcParams.Mod ℝ → Args ℝ) (T : TpcParams.Tpc ℝ) (c : ℝ × ℝ)
    (hN : ∀ y ∈ TpcParams.getModules T, (N y).Covers F fuel t y ∧ (N y).Proper F ∧ (A y).Proper u ∧ MadeOf F.toArith (A y) ((N y).layout F) ∧
      ∃ b, y.isInsidePad c.1 c.2 = .ok b) :
    ∃ b, TpcParams.isInsidePad T c.1 c.2 = .ok b ∧
      ((∃ y ∈ TpcParams.getModules T, ∃ row pad, (A y).IsPad row pad ∧ (N y).On u t (A y) row pad c) → b = true) ∧
      (b = true → ∃ y ∈ TpcParams.getModules T, ∃ q row pad, plane t c = onPlate t (N y).values q ∧ (A y).IsPad row pad ∧
        |q.1 - (A y).xCenter pad| ≤ (A y).padWidth / 2 + 12 * (A y).xError u + 100 * u * size t (N y).values c ∧
        |q.2 - (A y).yCenter row| ≤ (A y).padHeight / 2 + 2 * (A y).yError u + 100 * u * size t (N y).values c) := by
  refine any_answer (fun m : TpcParams.Mod ℝ => m.isInsidePad c.1 c.2) _ _ _ fun y hy => ?_
  obtain ⟨hC, hM, hA, hL, b, hb⟩ := hN y hy
  obtain ⟨q, hq⟩ := onPlate_onto t (N y).values (plane t c)
  obtain ⟨h1, h2⟩ := any_pad_double (fuel := fuel) R hu ht hf hM hA hL hq.symm
  refine ⟨b, hb, fun h => ?_, ?_⟩
  · rw [hC.pad, h1 h] at hb
    exact (Res.ok.inj hb).symm
  · rintro rfl
    rw [hC.pad] at hb
    obtain ⟨row, pad, k⟩ := h2 hb
    exact ⟨q, row, pad, hq.symm, k⟩

/-! ### A concrete TPC -/

/-- The module `squaresAt` with a border of a half around it. -/
noncomputable def framedAt (id : ℤ) (x : ℝ) : Mounted :=
  ⟨id, 1, [.border (1 / 2), .z (-1), .offset x 0], 0, 2, 0, [.addRow 2 2 1 1 0 0 0]⟩

theorem framed_mounted (id : ℤ) (x : ℝ) : (framedAt id x).Proper realDoubles := by
  refine ⟨⟨[.border (1 / 2), .z (-1)], .offset x 0, [], rfl, trivial, by simp⟩, ?_⟩
  intro o ho
  have ho : o = .border (1 / 2) ∨ o = .z (-1) ∨ o = .offset x 0 := by simpa [framedAt] using ho
  rcases ho with rfl | rfl | rfl
  · trivial
  · trivial
  · exact realDoubles_rounded.rounding.zero

theorem framed_values (id : ℤ) (x : ℝ) : (framedAt id x).values = ⟨1 / 2, (x, 0), 0, some (-1), 1⟩ := rfl

theorem framed_made (id : ℤ) (x : ℝ) : MadeOf realDoubles.toArith squares ((framedAt id x).layout realDoubles) := squares_made id x

theorem framed_extent (id : ℤ) (x : ℝ) : ((framedAt id x).layout realDoubles).xMin = 0 ∧ ((framedAt id x).layout realDoubles).xMax = 2 ∧
    ((framedAt id x).layout realDoubles).yMin = 0 ∧ ((framedAt id x).layout realDoubles).yMax = 2 := by
  have B := Rect.Double.built (framed_made id x)
  refine ⟨B.xMin, B.xMax, B.yMin, B.yMax.trans ?_⟩
  have one : binary64 (1 : ℝ) = 1 := by
    have := Doubles.binary64_scaled (K := ℝ) 1 0 (by norm_num)
    simpa using this
  show binary64 (binary64 ((0 : ℝ) + squares.height) + squares.height) = 2
  have : squares.height = 1 := by norm_num [squares, Args.height]
  rw [this, zero_add, one]
  norm_num [rnd_two]

theorem framed_wide (id : ℤ) (x : ℝ) : (framedAt id x).Wide realDoubles := by
  obtain ⟨h1, h2, h3, h4⟩ := framed_extent id x
  constructor
  · rw [h1, h2]; norm_num
  · rw [h3, h4]; norm_num
  · rw [framed_values]; norm_num

theorem framed_plate (id : ℤ) (x : ℝ) (q : ℝ × ℝ) : onPlate CARTESIAN (framedAt id x).values q = (-(q.1 + x), q.2) := by
  rw [framed_values]
  unfold onPlate place
  simp

theorem framed_area (id : ℤ) (x e : ℝ) (q : ℝ × ℝ) : q ∈ (framedAt id x).area realDoubles e ↔
    -1 / 2 - e ≤ q.1 ∧ q.1 ≤ 5 / 2 + e ∧ -1 / 2 - e ≤ q.2 ∧ q.2 ≤ 5 / 2 + e := by
  obtain ⟨h1, h2, h3, h4⟩ := framed_extent id x
  unfold Mounted.area
  rw [h1, h2, h3, h4, framed_values]
  norm_num

theorem framed_error (id : ℤ) {x : ℝ} {c : ℝ × ℝ} (h : |c.1| + |c.2| + |x| ≤ 16) :
    (framedAt id x).edgeError realDoubles (1 / 2 ^ 53) CARTESIAN c ≤ 1 / 2 ^ 40 ∧
    (framedAt id x).areaError realDoubles (1 / 2 ^ 53) CARTESIAN c ≤ 1 / 2 ^ 40 := by
  obtain ⟨h1, h2, h3, h4⟩ := framed_extent id x
  have hs : size CARTESIAN (framedAt id x).values c = |c.1| + |c.2| + |x| := by
    rw [framed_values]
    unfold size
    rw [weight_cartesian, weight_cartesian]
    simp
  have hr : (framedAt id x).reach realDoubles = 9 / 2 := by
    unfold Mounted.reach
    rw [h1, h2, h3, h4, framed_values]
    norm_num
  unfold Mounted.edgeError Mounted.areaError
  rw [hs, hr]
  constructor <;> linarith

/-- The module behind the interface of modules. -/
noncomputable def framedMod (id : ℤ) (x : ℝ) : TpcParams.Mod ℝ where
  id := id
  tpcCoordinateType := CARTESIAN
  z := some (-1)
  moduleExtent := ⟨0, 0, 0, 0⟩
  angle := 0
  offset := (x, 0)
  readoutFrequency := 1
  getDistanceToModule := getDistanceToModule realDoubles ((framedAt id x).module realDoubles 2 CARTESIAN)
  isInsideModule := isInsideModule realDoubles ((framedAt id x).module realDoubles 2 CARTESIAN)
  isInsidePad := isInsideAnyPad realDoubles ((framedAt id x).module realDoubles 2 CARTESIAN)
  getNearestPad := getNearestPad realDoubles ((framedAt id x).module realDoubles 2 CARTESIAN)
  getDistanceToPad := getDistanceToPad realDoubles ((framedAt id x).module realDoubles 2 CARTESIAN)

/-- A TPC with two modules on the negative side, at (-4, 0) and (4, 0). -/
noncomputable def framedTpc : TpcParams.Tpc ℝ := { TpcParams.new 10 CARTESIAN with modules := [framedMod 7 4, framedMod 5 (-4)] }

theorem framed_all : ∀ y ∈ TpcParams.getModules framedTpc,
    (framedAt y.id y.offset.1).Covers realDoubles 2 CARTESIAN y ∧ (framedAt y.id y.offset.1).Proper realDoubles ∧
      (framedAt y.id y.offset.1).Wide realDoubles := by
  intro y hy
  have hy : y = framedMod 7 4 ∨ y = framedMod 5 (-4) := by simpa [framedTpc, TpcParams.getModules] using hy
  rcases hy with rfl | rfl <;> exact ⟨⟨fun _ _ => rfl, fun _ _ => rfl, fun _ _ => rfl⟩, framed_mounted _ _, framed_wide _ _⟩

/-- Non-vacuity: the point (3.75, -0.25) is in the border around the module at (4, 0). -/
example : TpcParams.isInsideModule framedTpc (15 / 4) (-1 / 4) = .ok true := by
  obtain ⟨b, h1, h2, -⟩ := tpc_inside_double realDoubles_rounded (Or.inl rfl) (fun y => framedAt y.id y.offset.1) framedTpc framed_all
    (15 / 4, -1 / 4)
  rw [h1, h2 ⟨framedMod 5 (-4), by simp [framedTpc, TpcParams.getModules], (1 / 4, -1 / 4), ?_, ?_⟩]
  · have e := (framed_error 5 (x := -4) (c := (15 / 4, -1 / 4)) (by norm_num [abs_of_nonneg])).1
    show _ ∈ (framedAt 5 (-4)).area realDoubles (-(framedAt 5 (-4)).edgeError realDoubles (1 / 2 ^ 53) CARTESIAN (15 / 4, -1 / 4))
    rw [framed_area]
    generalize (framedAt 5 (-4)).edgeError realDoubles (1 / 2 ^ 53) CARTESIAN (15 / 4, -1 / 4) = v at e ⊢
    norm_num at e
    dsimp only
    refine ⟨?_, ?_, ?_, ?_⟩ <;> linarith
  · show _ = onPlate CARTESIAN (framedAt 5 (-4)).values _
    rw [plane_cartesian, framed_plate]
    norm_num

/-- Non-vacuity: the point (3.75, -2) is not in the area of a module. -/
example : TpcParams.isInsideModule framedTpc (15 / 4) (-2) = .ok false := by
  obtain ⟨b, h1, -, h3⟩ := tpc_inside_double realDoubles_rounded (Or.inl rfl) (fun y => framedAt y.id y.offset.1) framedTpc framed_all
    (15 / 4, -2)
  rw [h1]
  cases b with
  | false => rfl
  | true =>
    obtain ⟨y, hy, q, hq, e⟩ := h3 rfl
    have hx : |y.offset.1| = 4 := by
      have hy : y = framedMod 7 4 ∨ y = framedMod 5 (-4) := by simpa [framedTpc, TpcParams.getModules] using hy
      rcases hy with rfl | rfl <;> norm_num [framedMod]
    have e1 := (framed_error y.id (x := y.offset.1) (c := (15 / 4, -2)) (by rw [hx]; norm_num [abs_of_nonneg])).1
    rw [framed_area] at hq
    rw [plane_cartesian, framed_plate] at e
    have e2 : (-2 : ℝ) = q.2 := congrArg Prod.snd e
    norm_num at e1
    linarith [hq.2.2.1]

/-- Non-vacuity: the distance of this point from the module at (4, 0) is 1.5, up to rounding. -/
example : ∃ D, getDistanceToModule realDoubles ((framedAt 5 (-4)).module realDoubles 2 CARTESIAN) (15 / 4) (-2) = .ok D ∧
    |D - 3 / 2| ≤ 1 / 2 ^ 40 := by
  obtain ⟨D, d, h1, h2, h3, -⟩ := area_distance_double (fuel := 2) realDoubles_rounded (Or.inl rfl) (framed_mounted 5 (-4))
    (framed_wide 5 (-4)) (t := CARTESIAN) (15 / 4, -2)
  refine ⟨D, h1, ?_⟩
  have e := (framed_error 5 (x := -4) (c := (15 / 4, -2)) (by norm_num [abs_of_nonneg])).2
  have hd : d = 3 / 2 := by
    refine h2.unique ⟨⟨(1 / 4, -1 / 2), ?_, ?_⟩, ?_⟩
    · rw [framed_area]; norm_num
    · dsimp only
      rw [plane_cartesian, framed_plate]
      unfold far
      rw [show ((15 / 4 : ℝ) - -(1 / 4 + -4)) ^ 2 + (-2 - -1 / 2) ^ 2 = (3 / 2) ^ 2 by norm_num, Real.sqrt_sq (by norm_num)]
    · rintro _ ⟨q, hq, rfl⟩
      rw [framed_area] at hq
      dsimp only
      rw [plane_cartesian, framed_plate]
      have := (far_components (le_refl (far (15 / 4, -2) (-(q.1 + -4), q.2)))).2
      refine le_trans ?_ (le_trans (neg_le_abs _) this)
      dsimp only
      linarith [hq.2.2.1]
  rw [hd] at h3
  exact h3.trans e

/-- Non-vacuity: the nearest module is the one at (4, 0). -/
example : TpcParams.getNearestModule framedTpc (15 / 4) (-2) = .ok (framedMod 5 (-4)) := by
  obtain ⟨x, hx, h1, h2⟩ := tpc_nearest_module_double realDoubles_rounded (Or.inl rfl) (fun y => framedAt y.id y.offset.1) framedTpc
    (by simp [framedTpc, TpcParams.getModules]) framed_all (15 / 4, -2)
  have hx : x = framedMod 7 4 ∨ x = framedMod 5 (-4) := by simpa [framedTpc, TpcParams.getModules] using hx
  rcases hx with rfl | rfl
  · exfalso
    obtain ⟨d, d', k1, k2, k3⟩ := h2 (framedMod 5 (-4)) (by simp [framedTpc, TpcParams.getModules])
    have e1 := (framed_error 7 (x := 4) (c := (15 / 4, -2)) (by norm_num [abs_of_nonneg])).2
    have e2 := (framed_error 5 (x := -4) (c := (15 / 4, -2)) (by norm_num [abs_of_nonneg])).2
    have f1 : (6 : ℝ) ≤ d := by
      obtain ⟨q, hq, rfl⟩ := k1.1
      have hq := (framed_area 7 4 0 q).1 hq
      show 6 ≤ far (plane CARTESIAN (15 / 4, -2)) (onPlate CARTESIAN (framedAt 7 4).values q)
      rw [plane_cartesian, framed_plate]
      have := (far_components (le_refl (far (15 / 4, -2) (-(q.1 + 4), q.2)))).1
      refine le_trans ?_ (le_trans (le_abs_self _) this)
      dsimp only
      linarith [hq.1]
    have f2 : d' ≤ 5 := by
      refine (k2.2 ⟨(1 / 4, -1 / 2), (framed_area 5 (-4) 0 _).2 (by norm_num), rfl⟩).trans ?_
      show far (plane CARTESIAN (15 / 4, -2)) (onPlate CARTESIAN (framedAt 5 (-4)).values (1 / 4, -1 / 2)) ≤ 5
      rw [plane_cartesian, framed_plate]
      unfold far
      rw [Real.sqrt_le_left (by norm_num)]
      norm_num
    have e1 : (framedAt 7 4).areaError realDoubles (1 / 2 ^ 53) CARTESIAN (15 / 4, -2) ≤ 1 / 4 := e1.trans (by norm_num)
    have e2 : (framedAt 5 (-4)).areaError realDoubles (1 / 2 ^ 53) CARTESIAN (15 / 4, -2) ≤ 1 / 4 := e2.trans (by norm_num)
    have k3 : d ≤ d' + (framedAt 7 4).areaError realDoubles (1 / 2 ^ 53) CARTESIAN (15 / 4, -2) +
      (framedAt 5 (-4)).areaError realDoubles (1 / 2 ^ 53) CARTESIAN (15 / 4, -2) := k3
    linarith
  · exact h1

theorem framed_on : (framedAt 5 (-4)).On (1 / 2 ^ 53) CARTESIAN squares 1 0 (15 / 4, 3 / 2) := by
  have e1 : squares.xCenter 0 = 1 / 2 := by norm_num [squares, Args.xCenter, Args.pitch, Args.left, Args.right]
  have e2 : squares.yCenter 1 = 3 / 2 := by norm_num [squares, Args.yCenter, Args.height]
  have e3 : squares.xError (1 / 2 ^ 53) = 1 / 2 ^ 52 := by norm_num [squares, Args.xError, Args.left, Args.right]
  have e4 : squares.yError (1 / 2 ^ 53) = 1 / 2 ^ 50 := by norm_num [squares, Args.yError, Args.height]
  have hs : size CARTESIAN (framedAt 5 (-4)).values (15 / 4, 3 / 2) = |15 / 4| + |3 / 2| + |-4| := by
    rw [framed_values]
    unfold size
    rw [weight_cartesian, weight_cartesian]
    simp
  refine ⟨(1 / 4, 3 / 2), ?_, ?_, ?_⟩
  · rw [plane_cartesian, framed_plate]
    norm_num
  · rw [e1, e3, hs]
    norm_num [squares, Args.pitch, Args.left, Args.right, _root_.abs_le]
  · rw [e2, e4, hs]
    norm_num [squares, _root_.abs_le]

theorem framed_pad : isInsideAnyPad realDoubles ((framedAt 5 (-4)).module realDoubles 2 CARTESIAN) (15 / 4) (3 / 2) = .ok true := by
  obtain ⟨q, hq⟩ := onPlate_onto CARTESIAN (framedAt 5 (-4)).values (plane CARTESIAN (15 / 4, 3 / 2))
  refine (any_pad_double (fuel := 2) realDoubles_rounded (by norm_num) (Or.inl rfl) le_rfl (framed_mounted 5 (-4)) squares_proper
    (framed_made 5 (-4)) hq.symm).1 ⟨1, 0, ?_, framed_on⟩
  refine ⟨⟨?_, ?_⟩, ?_, ?_⟩ <;> decide

/-- Non-vacuity: a TPC with the module at (4, 0), and the point (3.75, 1.5) on one of its pads. -/
example : TpcParams.isInsidePad { framedTpc with modules := [framedMod 5 (-4)] } (15 / 4) (3 / 2) = .ok true := by
  obtain ⟨b, h1, h2, -⟩ := tpc_any_pad_double_partial realDoubles_rounded (by norm_num) (Or.inl rfl) (le_refl 2)
    (fun y => framedAt y.id y.offset.1) (fun _ => squares) { framedTpc with modules := [framedMod 5 (-4)] } (15 / 4, 3 / 2) (by
      intro y hy
      obtain rfl : y = framedMod 5 (-4) := by simpa [TpcParams.getModules] using hy
      exact ⟨⟨fun _ _ => rfl, fun _ _ => rfl, fun _ _ => rfl⟩, framed_mounted 5 (-4), squares_proper, framed_made 5 (-4), true,
        framed_pad⟩)
  rw [h1, h2 ⟨framedMod 5 (-4), by simp [TpcParams.getModules], 1, 0, ?_, framed_on⟩]
  refine ⟨⟨?_, ?_⟩, ?_, ?_⟩ <;> decide

end Gear.TpcModule.Double
