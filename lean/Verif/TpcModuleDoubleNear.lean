/-
How far the transformations of `TPCModuleImpl` in `double` arithmetic are from the exact ones: helper lemmas.
-/
import Verif.TpcModuleDoubleLemmas

set_option autoImplicit false
set_option linter.unusedSectionVars false

namespace Gear.TpcModule.Double

open Disk Real
open TpcModule.Spec (Known plane place Op Values values Settled)
open Doubles (Rounding)
open Spec

/-! ### Helpers -/

theorem weight_nonneg (t : ℤ) (c : ℝ × ℝ) : 0 ≤ weight t c := by
  unfold weight; split_ifs <;> positivity

theorem weight_polar (c : ℝ × ℝ) : weight POLAR c = |c.1| * (1 + |c.2|) := if_pos rfl
theorem weight_cartesian (c : ℝ × ℝ) : weight CARTESIAN c = |c.1| + |c.2| := if_neg polar_ne

theorem norm_plane_le {t : ℤ} (ht : Known t) (c : ℝ × ℝ) : ‖toC (plane t c)‖ ≤ weight t c := by
  rcases ht with rfl | rfl
  · rw [plane_cartesian, weight_cartesian]; exact norm_le c
  · rw [plane_polar, weight_polar, norm_polar]
    have := mul_nonneg (abs_nonneg c.1) (abs_nonneg c.2)
    linarith

/-- The placement without the mirror. -/
noncomputable def turned (angle : ℝ) (off q : ℝ × ℝ) : ℝ × ℝ :=
  (q.1 * cos angle - q.2 * sin angle + off.1, q.1 * sin angle + q.2 * cos angle + off.2)

/-- The mirror. -/
noncomputable def flip (z : ℝ) (p : ℝ × ℝ) : ℝ × ℝ := (if z ≤ 0 then -p.1 else p.1, p.2)

theorem place_eq (angle : ℝ) (off : ℝ × ℝ) (z : ℝ) (q : ℝ × ℝ) : place angle off z q = flip z (turned angle off q) := rfl

theorem flip_far (z : ℝ) (p q : ℝ × ℝ) : ‖toC (flip z p) - toC (flip z q)‖ = ‖toC p - toC q‖ := by
  rw [← far_eq, ← far_eq]
  unfold far flip
  split_ifs
  · congr 1; ring
  · rfl

theorem flip_flip (z : ℝ) (p : ℝ × ℝ) : flip z (flip z p) = p := by
  unfold flip
  split_ifs <;> simp

theorem flip_norm (z : ℝ) (p : ℝ × ℝ) : ‖toC (flip z p)‖ = ‖toC p‖ := by
  have := flip_far z p (0, 0)
  have e1 : toC (flip z (0, 0)) = 0 := by unfold flip; split_ifs <;> apply Complex.ext <;> simp
  have e2 : toC (0, 0) = 0 := by apply Complex.ext <;> simp
  rwa [e1, e2, sub_zero, sub_zero] at this

theorem turned_far (angle : ℝ) (off p q : ℝ × ℝ) : ‖toC (turned angle off p) - toC (turned angle off q)‖ = ‖toC p - toC q‖ := by
  rw [← far_eq, ← far_eq]
  unfold far turned
  congr 1
  have s := sin_sq_add_cos_sq angle
  linear_combination ((p.1 - q.1) ^ 2 + (p.2 - q.2) ^ 2) * s

theorem place_far (angle : ℝ) (off : ℝ × ℝ) (z : ℝ) (p q : ℝ × ℝ) :
    ‖toC (place angle off z p) - toC (place angle off z q)‖ = ‖toC p - toC q‖ := by
  rw [place_eq, place_eq, flip_far, turned_far]

theorem turned_norm (angle : ℝ) (off q : ℝ × ℝ) : ‖toC (turned angle off q)‖ ≤ ‖toC q‖ + ‖toC off‖ := by
  have h := turned_far angle off q (0, 0)
  have e1 : turned angle off (0, 0) = off := by unfold turned; simp
  have e2 : toC (0, 0) = 0 := by apply Complex.ext <;> simp
  rw [e1, e2, sub_zero] at h
  have := norm_sub_norm_le (toC (turned angle off q)) (toC off)
  linarith

/-- The state that the setters keep. -/
structure Inv (F : Arith ℝ) (u : ℝ) (m : Module ℝ) : Prop where
  cosA : |m.cosAngle - cos m.angle| ≤ u * |cos m.angle|
  sinA : |m.sinAngle - sin m.angle| ≤ u * |sin m.angle|
  cart : m.momsCoordinateType = CARTESIAN → m.offsetCartesian = m.offset
  pol : m.momsCoordinateType = POLAR →
    m.offsetCartesian = (F.mul m.offset.1 (F.cos m.offset.2), F.mul m.offset.1 (F.sin m.offset.2))
  given : F.rnd m.offset.2 = m.offset.2
  flag : Known m.momsCoordinateType → m.localIsGlobal = true → m.momsCoordinateType = m.layout.coordinateType ∧ m.angle = 0 ∧
    m.offset = (0, 0)

section
variable {F : Arith ℝ} {u : ℝ} (R : Rounded F u)
include R

theorem Inv.new (id : ℤ) (L : LayoutI ℝ) (t : ℤ) (f : ℝ) : Inv F u (new id L t f) := by
  have hu := R.nonneg
  have z : F.mul 0 (F.cos 0) = 0 ∧ F.mul 0 (F.sin 0) = 0 := by
    unfold MaterialMap.Arith.mul; rw [zero_mul, zero_mul]; exact ⟨R.rounding.zero, R.rounding.zero⟩
  refine ⟨?_, ?_, fun _ => rfl, fun _ => ?_, R.rounding.zero, fun _ h => ?_⟩
  · simp [TpcModule.new, checkLocalIsGlobal, hu]
  · simp [TpcModule.new, checkLocalIsGlobal]
  · simp [TpcModule.new, checkLocalIsGlobal, z]
  · have := of_decide_eq_true h
    exact ⟨this.1, this.2.1, Prod.ext this.2.2.1 this.2.2.2.1⟩

theorem Inv.step {m : Module ℝ} (h : Inv F u m) (o : Op) (ho : Given F o) : Inv F u (step F m o) := by
  cases o with
  | border w => exact ⟨h.cosA, h.sinA, h.cart, h.pol, h.given, h.flag⟩
  | z z => exact ⟨h.cosA, h.sinA, h.cart, h.pol, h.given, h.flag⟩
  | frequency f => exact ⟨h.cosA, h.sinA, h.cart, h.pol, h.given, h.flag⟩
  | angle a =>
    refine ⟨R.cos a, R.sin a, h.cart, h.pol, h.given, fun _ hd => ?_⟩
    have := of_decide_eq_true hd
    exact ⟨this.1, this.2.1, Prod.ext this.2.2.1 this.2.2.2.1⟩
  | offset x y =>
    show Inv F u (setOffset F m x y)
    unfold setOffset
    dsimp only
    split_ifs with h1 h2
    · refine ⟨h.cosA, h.sinA, fun hc => absurd (hc.symm.trans h1) polar_ne, fun _ => rfl, ho, fun _ hd => ?_⟩
      have := of_decide_eq_true hd
      exact ⟨this.1, this.2.1, Prod.ext this.2.2.1 this.2.2.2.1⟩
    · refine ⟨h.cosA, h.sinA, fun _ => rfl, fun hc => absurd hc h1, ho, fun _ hd => ?_⟩
      have := of_decide_eq_true hd
      exact ⟨this.1, this.2.1, Prod.ext this.2.2.1 this.2.2.2.1⟩
    · exact ⟨h.cosA, h.sinA, fun hc => absurd hc h2, fun hc => absurd hc h1, ho, fun hk => absurd hk fun hk => hk.elim h2 h1⟩

theorem Inv.run {m : Module ℝ} (h : Inv F u m) (ops : List Op) (ho : ∀ o ∈ ops, Given F o) : Inv F u (run F m ops) := by
  induction ops generalizing m with
  | nil => exact h
  | cons o ops ih =>
    exact ih (h.step R o (ho o List.mem_cons_self)) fun p hp => ho p (List.mem_cons_of_mem _ hp)

/-- The first component of a polar offset vanishes only with the offset: no double is an odd multiple of `π/2`. -/
theorem offset_zero {x y : ℝ} (hy : F.rnd y = y) (h : F.mul x (F.cos y) = 0) : x = 0 := by
  have hu := R.nonneg
  have hs := R.small
  by_contra hx
  have zero : ∀ a, F.rnd a = 0 → a = 0 := by
    intro a ha
    have := R.rounding.err a
    rw [ha, zero_sub, abs_neg] at this
    by_contra hn
    have hp := abs_pos.2 hn
    have : u * |a| ≤ 1 / 1000 * |a| := mul_le_mul_of_nonneg_right hs hp.le
    linarith
  have h1 := zero _ h
  rcases mul_eq_zero.1 h1 with h2 | h2
  · exact hx h2
  · have h3 := R.cos y
    rw [h2, zero_sub, abs_neg] at h3
    have h4 : cos y = 0 := by
      by_contra hn
      have hp := abs_pos.2 hn
      have : u * |cos y| ≤ 1 / 1000 * |cos y| := mul_le_mul_of_nonneg_right hs hp.le
      linarith
    obtain ⟨k, hk⟩ := Real.cos_eq_zero_iff.1 h4
    obtain ⟨n, j, hn⟩ := R.form y
    rw [hy] at hn
    have hodd : ((2 * k + 1 : ℤ) : ℝ) ≠ 0 := by exact_mod_cast (by omega : (2 * k + 1 : ℤ) ≠ 0)
    have hpi : π = ((2 * n * 2 ^ j / (2 * k + 1 : ℤ) : ℚ) : ℝ) := by
      push_cast at hodd ⊢
      rw [eq_div_iff hodd]
      rw [hn] at hk
      linear_combination (-2) * hk
    exact irrational_pi ⟨_, hpi.symm⟩

/-- The offset in Cartesian coordinates. -/
theorem Inv.off {m : Module ℝ} (h : Inv F u m) (ht : Known m.momsCoordinateType) :
    ‖toC m.offsetCartesian - toC (plane m.momsCoordinateType m.offset)‖ ≤ 3 * u * weight m.momsCoordinateType m.offset := by
  have hu := R.nonneg
  rcases ht with ht | ht
  · rw [h.cart ht, ht, plane_cartesian, sub_self, norm_zero]
    exact mul_nonneg (by linarith) (weight_nonneg _ _)
  · rw [h.pol ht, ht, plane_polar, weight_polar]
    refine (cart_err R _ _).trans ?_
    have := mul_nonneg (abs_nonneg m.offset.1) (abs_nonneg m.offset.2)
    have := mul_nonneg hu this
    linarith

theorem toGlobal_near {m : Module ℝ} (h : Inv F u m) (ht : Known m.momsCoordinateType) {x y : ℝ} {q : ℝ × ℝ} {W : ℝ}
    (hq : ‖toC q‖ ≤ W) (he : ‖toC (x, y) - toC q‖ ≤ 20 * u * W) :
    ∃ p, toGlobal F m x y = .ok p ∧
      ‖toC (plane m.momsCoordinateType p) - toC (flip m.zPosition
        (q.1 + (plane m.momsCoordinateType m.offset).1, q.2 + (plane m.momsCoordinateType m.offset).2))‖
        ≤ 100 * u * (W + weight m.momsCoordinateType m.offset) ∧
      weight m.momsCoordinateType p ≤ 24 * (W + weight m.momsCoordinateType m.offset) ∧
      (m.momsCoordinateType = POLAR → 0 ≤ p.1) := by
  have hu := R.nonneg
  have hs := R.small
  have ho := h.off R ht
  have hO := norm_plane_le ht m.offset
  have hW : 0 ≤ W := (norm_nonneg _).trans hq
  have hO0 := weight_nonneg m.momsCoordinateType m.offset
  generalize plane m.momsCoordinateType m.offset = o at *
  generalize weight m.momsCoordinateType m.offset = O at *
  set s : ℝ × ℝ := (x + m.offsetCartesian.1, y + m.offsetCartesian.2) with hsdef
  set s' : ℝ × ℝ := (F.rnd s.1, F.rnd s.2) with hs'def
  set e : ℝ × ℝ := (q.1 + o.1, q.2 + o.2) with hedef
  have uW : u * W ≤ 1 / 1000 * W := mul_le_mul_of_nonneg_right hs hW
  have uO : u * O ≤ 1 / 1000 * O := mul_le_mul_of_nonneg_right hs hO0
  have uW0 : 0 ≤ u * W := mul_nonneg hu hW
  have uO0 : 0 ≤ u * O := mul_nonneg hu hO0
  have a1 : ‖toC s - toC e‖ ≤ 20 * u * W + 3 * u * O := by
    have e1 : toC s - toC e = (toC (x, y) - toC q) + (toC m.offsetCartesian - toC o) := by
      apply Complex.ext <;> simp [hsdef, hedef] <;> ring
    rw [e1]
    exact (norm_add_le _ _).trans (by linarith)
  have a2 : ‖toC e‖ ≤ W + O := by
    have e1 : toC e = toC q + toC o := by apply Complex.ext <;> simp [hedef]
    rw [e1]
    exact (norm_add_le _ _).trans (by linarith)
  have a3 : ‖toC s‖ ≤ 1.02 * (W + O) := by
    have := norm_sub_norm_le (toC s) (toC e); linarith
  have a4 := rnd_err R s
  rw [← hs'def] at a4
  have a5 : u * ‖toC s‖ ≤ u * (1.02 * (W + O)) := mul_le_mul_of_nonneg_left a3 hu
  have a6 : ‖toC s' - toC e‖ ≤ 22 * u * (W + O) := by
    have : toC s' - toC e = (toC s' - toC s) + (toC s - toC e) := by ring
    rw [this]
    refine (norm_add_le _ _).trans ?_
    linarith
  have a7 : ‖toC s'‖ ≤ 1.03 * (W + O) := by
    have := norm_sub_norm_le (toC s') (toC e); linarith
  have b1 := flip_far m.zPosition s' e
  have b2 := flip_norm m.zPosition s'
  unfold toGlobal
  have ex : (if m.zPosition ≤ 0 then -F.add x m.offsetCartesian.1 else F.add x m.offsetCartesian.1) = (flip m.zPosition s').1 := rfl
  have ey : F.add y m.offsetCartesian.2 = (flip m.zPosition s').2 := rfl
  dsimp only
  rw [ex, ey]
  generalize flip m.zPosition s' = g at *
  generalize flip m.zPosition e = ge at *
  rcases ht with ht | ht
  · rw [if_neg (by rw [ht]; exact polar_ne), if_pos ht, ht]
    refine ⟨_, rfl, ?_, ?_, fun hp => absurd hp polar_ne⟩
    · rw [plane_cartesian]
      have : ‖toC g - toC ge‖ ≤ _ := b1.le.trans a6
      linarith
    · rw [weight_cartesian]
      have h1 := abs_fst_le g
      have h2 := abs_snd_le g
      dsimp only
      linarith
  · rw [if_pos ht, ht]
    obtain ⟨c1, c2, c3, c4⟩ := polar_err R g.1 g.2
    have c0 : ‖toC (g.1, g.2)‖ ≤ 1.03 * (W + O) := by
      have : ‖toC (g.1, g.2)‖ = ‖toC g‖ := rfl
      rw [this, b2]; exact a7
    refine ⟨_, rfl, ?_, ?_, fun _ => c2⟩
    · have : toC (plane POLAR (polar F g.1 g.2)) - toC ge =
          (toC (plane POLAR (polar F g.1 g.2)) - toC (g.1, g.2)) + (toC g - toC ge) := by
        have : toC (g.1, g.2) = toC g := rfl
        rw [this]; ring
      rw [this]
      refine (norm_add_le _ _).trans ?_
      have := mul_le_mul_of_nonneg_left c0 (show 0 ≤ 40 * u by linarith)
      rw [b1]
      linarith
    · rw [weight_polar, abs_of_nonneg c2]
      have c5 : (polar F g.1 g.2).1 ≤ 1.2 * (W + O) := by linarith
      calc (polar F g.1 g.2).1 * (1 + |(polar F g.1 g.2).2|) ≤ 1.2 * (W + O) * 14 :=
            mul_le_mul c5 (by linarith) (by positivity) (by linarith)
        _ ≤ 24 * (W + O) := by linarith

/-- `localToGlobal` places the point up to rounding. -/
theorem localToGlobal_near {m : Module ℝ} (h : Inv F u m) (ht : Known m.momsCoordinateType)
    (hl : Known m.layout.coordinateType) (c : ℝ × ℝ) :
    ∃ p, localToGlobal F m c.1 c.2 = .ok p ∧
      ((m.localIsGlobal = true → 0 < m.zPosition) →
        ‖toC (plane m.momsCoordinateType p) - toC (place m.angle (plane m.momsCoordinateType m.offset) m.zPosition
          (plane m.layout.coordinateType c))‖
        ≤ 100 * u * (weight m.layout.coordinateType c * (1 + |m.angle|) + weight m.momsCoordinateType m.offset)) ∧
      weight m.momsCoordinateType p
        ≤ 24 * (weight m.layout.coordinateType c * (1 + |m.angle|) + weight m.momsCoordinateType m.offset) := by
  have hu := R.nonneg
  have hs := R.small
  have hw := weight_nonneg m.layout.coordinateType c
  have hO0 := weight_nonneg m.momsCoordinateType m.offset
  have hwa : 0 ≤ weight m.layout.coordinateType c * |m.angle| := mul_nonneg hw (abs_nonneg _)
  unfold localToGlobal
  by_cases hg : m.localIsGlobal = true
  · rw [if_pos hg]
    obtain ⟨e1, e2, e3⟩ := h.flag ht hg
    refine ⟨c, rfl, fun hf => ?_, ?_⟩
    · have e : plane m.momsCoordinateType c = place m.angle (plane m.momsCoordinateType m.offset) m.zPosition
          (plane m.layout.coordinateType c) := by
        rw [e2, e3, e1]
        have : plane m.layout.coordinateType (0, 0) = (0, 0) := by
          unfold plane; split_ifs <;> simp
        rw [this]
        unfold place
        simp [not_le.2 (hf hg)]
      rw [e, sub_self, norm_zero]
      refine mul_nonneg (by linarith) ?_
      linarith
    · have : weight m.momsCoordinateType c = weight m.layout.coordinateType c := by rw [e1]
      rw [this]
      change weight m.layout.coordinateType c ≤ _
      linarith
  · rw [if_neg hg]
    have hn := norm_plane_le hl c
    rcases hl with hl | hl
    · rw [if_neg (by rw [hl]; exact polar_ne), if_pos hl]
      rw [hl] at hw hwa hn
      have x1 := abs_fst_le c
      have y1 := abs_snd_le c
      rw [plane_cartesian] at hn
      have l1 := (lin_err R x1 y1 (abs_cos_le_one m.angle) (abs_sin_le_one m.angle) h.cosA h.sinA).2
      have l2 := (lin_err R y1 x1 (abs_cos_le_one m.angle) (abs_sin_le_one m.angle) h.cosA h.sinA).1
      obtain ⟨p, k1, k2, k3, -⟩ := toGlobal_near R h ht
        (x := F.sub (F.mul c.1 m.cosAngle) (F.mul c.2 m.sinAngle)) (y := F.add (F.mul c.2 m.cosAngle) (F.mul c.1 m.sinAngle))
        (q := turned m.angle (0, 0) c) (W := weight CARTESIAN c * (1 + |m.angle|))
        (by
          have := turned_norm m.angle (0, 0) c
          have e2 : toC (0, 0) = 0 := by apply Complex.ext <;> simp
          rw [e2, norm_zero] at this
          linarith)
        (by
          refine (Complex.norm_le_abs_re_add_abs_im _).trans ?_
          have e1 : (toC (F.sub (F.mul c.1 m.cosAngle) (F.mul c.2 m.sinAngle), F.add (F.mul c.2 m.cosAngle) (F.mul c.1 m.sinAngle))
            - toC (turned m.angle (0, 0) c)).re = F.sub (F.mul c.1 m.cosAngle) (F.mul c.2 m.sinAngle)
              - (c.1 * cos m.angle - c.2 * sin m.angle) := by simp [turned]
          have e2 : (toC (F.sub (F.mul c.1 m.cosAngle) (F.mul c.2 m.sinAngle), F.add (F.mul c.2 m.cosAngle) (F.mul c.1 m.sinAngle))
            - toC (turned m.angle (0, 0) c)).im = F.add (F.mul c.2 m.cosAngle) (F.mul c.1 m.sinAngle)
              - (c.2 * cos m.angle + c.1 * sin m.angle) := by simp [turned]; ring
          rw [e1, e2]
          have a := mul_le_mul_of_nonneg_left hn hu
          have b := mul_nonneg hu hwa
          have := weight_nonneg CARTESIAN c
          have := mul_nonneg hu this
          linarith)
      rw [hl]
      refine ⟨p, k1, fun _ => ?_, k3⟩
      rw [place_eq, plane_cartesian]
      have e : turned m.angle (plane m.momsCoordinateType m.offset) c =
          ((turned m.angle (0, 0) c).1 + (plane m.momsCoordinateType m.offset).1,
            (turned m.angle (0, 0) c).2 + (plane m.momsCoordinateType m.offset).2) := by
        unfold turned; simp
      rw [e]; exact k2
    · rw [if_pos hl]
      rw [hl] at hw hwa hn ⊢
      rw [plane_polar, norm_polar] at hn
      dsimp only
      set S := |c.2| + |m.angle| with hS
      have hS0 : 0 ≤ S := by positivity
      have hr0 := abs_nonneg c.1
      have hWS : |c.1| * (1 + S) ≤ weight POLAR c * (1 + |m.angle|) := by
        rw [weight_polar, mul_assoc]
        refine mul_le_mul_of_nonneg_left ?_ hr0
        have := mul_nonneg (abs_nonneg c.2) (abs_nonneg m.angle)
        rw [hS]; linarith
      set W := weight POLAR c * (1 + |m.angle|) with hWdef
      have f0 : |F.add c.2 m.angle - (c.2 + m.angle)| ≤ u * S := by
        refine (R.rounding.err _).trans (mul_le_mul_of_nonneg_left (abs_add_le _ _) hu)
      have f1 : |F.add c.2 m.angle| ≤ 1.001 * S := by
        have := abs_sub_abs_le_abs_sub (F.add c.2 m.angle) (c.2 + m.angle)
        have := abs_add_le c.2 m.angle
        have : u * S ≤ 1 / 1000 * S := mul_le_mul_of_nonneg_right hs hS0
        linarith
      have uS0 : 0 ≤ u * S := mul_nonneg hu hS0
      by_cases hc : m.momsCoordinateType = POLAR ∧ m.offsetCartesian.1 = 0 ∧ m.offsetCartesian.2 = 0
      · rw [if_pos hc]
        have hx : m.offset.1 = 0 := by
          have := h.pol hc.1
          exact offset_zero R h.given (by rw [this] at hc; exact hc.2.1)
        set p0 := F.add c.2 m.angle
        have f2 : |(if m.zPosition ≤ 0 then F.sub F.pi p0 else p0) - (if m.zPosition ≤ 0 then π - (c.2 + m.angle) else c.2 + m.angle)|
            ≤ u * (8 + 2.001 * S) ∧ |if m.zPosition ≤ 0 then F.sub F.pi p0 else p0| ≤ 1.01 * S + 4 := by
          obtain ⟨g1, g2⟩ := pi_sub R p0
          have g3 := mul_le_mul_of_nonneg_left f1 hu
          split_ifs
          · constructor
            · have e : F.sub F.pi p0 - (π - (c.2 + m.angle)) = (F.sub F.pi p0 - (π - p0)) - (p0 - (c.2 + m.angle)) := by ring
              rw [e]
              refine (abs_sub _ _).trans ?_
              linarith
            · linarith
          · constructor <;> linarith
        set ph1 := (if m.zPosition ≤ 0 then F.sub F.pi p0 else p0)
        obtain ⟨⟨k1, w1⟩, w2⟩ := wrap_add R ph1 (ph1 < 0)
        set ph2 := (if ph1 < 0 then F.add ph1 F.turn else ph1)
        obtain ⟨⟨k2, w3⟩, w4⟩ := wrap_sub R ph2 (ph2 > F.turn)
        set ph3 := (if ph2 > F.turn then F.sub ph2 F.turn else ph2)
        set E := (if m.zPosition ≤ 0 then π - (c.2 + m.angle) else c.2 + m.angle) with hE
        have b2 : |ph2| ≤ 1.02 * S + 13 := by linarith [f2.2]
        have w5 := mul_le_mul_of_nonneg_left f2.2 hu
        have w6 := mul_le_mul_of_nonneg_left b2 hu
        have tot : |ph3 - E - ((k1 + k2 : ℤ) : ℝ) * (2 * π)| ≤ 80 * u * (1 + S) := by
          have e : ph3 - E - ((k1 + k2 : ℤ) : ℝ) * (2 * π) =
              (ph3 - ph2 - k2 * (2 * π)) + ((ph2 - ph1 - k1 * (2 * π)) + (ph1 - E)) := by push_cast; ring
          rw [e]
          have t1 := abs_add_le (ph3 - ph2 - k2 * (2 * π)) ((ph2 - ph1 - k1 * (2 * π)) + (ph1 - E))
          have t2 := abs_add_le (ph2 - ph1 - k1 * (2 * π)) (ph1 - E)
          linarith [f2.1]
        have near := polar_near (r := c.1) (r' := c.1) (k1 + k2) tot
        rw [sub_self, abs_zero, zero_add] at near
        refine ⟨(c.1, ph3), rfl, fun _ => ?_, ?_⟩
        · rw [hc.1, plane_polar, plane_polar c, place_angle]
          dsimp only
          have e : ((if m.zPosition ≤ 0 then -(c.1 * cos (c.2 + m.angle) + (plane POLAR m.offset).1)
              else c.1 * cos (c.2 + m.angle) + (plane POLAR m.offset).1,
              c.1 * sin (c.2 + m.angle) + (plane POLAR m.offset).2) : ℝ × ℝ) = (c.1 * cos E, c.1 * sin E) := by
            rw [plane_polar, hx, hE]
            split_ifs
            · rw [cos_pi_sub, sin_pi_sub]; simp
            · simp
          rw [e]
          refine near.trans ?_
          have a := mul_le_mul_of_nonneg_left hWS (show 0 ≤ 80 * u by linarith)
          have b : 0 ≤ u * W := mul_nonneg hu (le_trans (by positivity) hWS)
          rw [hc.1] at hO0
          have d := mul_nonneg hu hO0
          linarith
        · rw [hc.1, weight_polar]
          dsimp only
          rw [hc.1] at hO0
          have : 1 + |ph3| ≤ 24 * (1 + S) := by linarith
          have := mul_le_mul_of_nonneg_left this hr0
          linarith
      · rw [if_neg hc]
        have near := polar_near (r := c.1) (r' := c.1) (phi := c.2 + m.angle) (phi' := F.add c.2 m.angle) 0
          (e := u * S) (by simpa using f0)
        rw [sub_self, abs_zero, zero_add] at near
        have ce := cart_err R c.1 (F.add c.2 m.angle)
        obtain ⟨p, k1, k2, k3, -⟩ := toGlobal_near R h ht
          (x := F.mul c.1 (F.cos (F.add c.2 m.angle))) (y := F.mul c.1 (F.sin (F.add c.2 m.angle)))
          (q := (c.1 * cos (c.2 + m.angle), c.1 * sin (c.2 + m.angle))) (W := W)
          (by
            rw [norm_polar]
            have := mul_nonneg hr0 hS0
            linarith)
          (by
            have e : toC (F.mul c.1 (F.cos (F.add c.2 m.angle)), F.mul c.1 (F.sin (F.add c.2 m.angle)))
                - toC (c.1 * cos (c.2 + m.angle), c.1 * sin (c.2 + m.angle)) =
              (toC (F.mul c.1 (F.cos (F.add c.2 m.angle)), F.mul c.1 (F.sin (F.add c.2 m.angle)))
                - toC (c.1 * cos (F.add c.2 m.angle), c.1 * sin (F.add c.2 m.angle))) +
              (toC (c.1 * cos (F.add c.2 m.angle), c.1 * sin (F.add c.2 m.angle))
                - toC (c.1 * cos (c.2 + m.angle), c.1 * sin (c.2 + m.angle))) := by ring
            rw [e]
            refine (norm_add_le _ _).trans ?_
            have a := mul_le_mul_of_nonneg_left hWS (show 0 ≤ 20 * u by linarith)
            have b := mul_nonneg hu hr0
            have d := mul_nonneg hu (mul_nonneg hr0 hS0)
            linarith)
        refine ⟨p, k1, fun _ => ?_, k3⟩
        rw [plane_polar, place_angle]
        exact k2

/-- The mirror of `globalToLocal`. -/
theorem mirror_near {m : Module ℝ} (ht : Known m.momsCoordinateType) (c : ℝ × ℝ) :
    ∃ d, mirror F m c.1 c.2 = .ok d ∧
      ‖toC (plane m.momsCoordinateType d) - toC (flip m.zPosition (plane m.momsCoordinateType c))‖
        ≤ 8 * u * weight m.momsCoordinateType c ∧
      (m.momsCoordinateType = POLAR → d.1 = c.1 ∧ |d.2| ≤ 1.001 * |c.2| + 4) := by
  have hu := R.nonneg
  have hw := weight_nonneg m.momsCoordinateType c
  have uw : 0 ≤ 8 * u * weight m.momsCoordinateType c := mul_nonneg (by linarith) hw
  unfold mirror
  by_cases hz : m.zPosition ≤ 0
  · simp only [if_pos hz]
    rcases ht with ht | ht
    · rw [if_neg (by rw [ht]; exact polar_ne), if_pos ht]
      refine ⟨_, rfl, ?_, fun h => absurd (ht.symm.trans h) polar_ne⟩
      rw [ht] at uw ⊢
      rw [plane_cartesian, plane_cartesian, flip, if_pos hz, sub_self, norm_zero]
      exact uw
    · rw [if_pos ht]
      obtain ⟨h1, h2⟩ := pi_sub R c.2
      refine ⟨_, rfl, ?_, fun _ => ⟨rfl, h2⟩⟩
      rw [ht, plane_polar, plane_polar, weight_polar, flip, if_pos hz]
      have near := polar_near (r := c.1) (r' := c.1) (phi := π - c.2) (phi' := F.sub F.pi c.2) 0
        (e := u * (8 + |c.2|)) (by simpa using h1)
      rw [sub_self, abs_zero, zero_add, cos_pi_sub, sin_pi_sub, mul_neg] at near
      refine near.trans ?_
      have := mul_nonneg hu (mul_nonneg (abs_nonneg c.1) (abs_nonneg c.2))
      linarith
  · simp only [if_neg hz]
    refine ⟨_, rfl, ?_, fun _ => ⟨rfl, ?_⟩⟩
    · rw [flip, if_neg hz, sub_self, norm_zero]
      exact uw
    · have := abs_nonneg c.2
      dsimp only
      linarith

theorem toLocal_near {m : Module ℝ} (h : Inv F u m) (ht : Known m.momsCoordinateType) (hl : Known m.layout.coordinateType)
    {p' g : ℝ × ℝ} {w : ℝ} (hg : ‖toC g‖ ≤ w) (he : ‖toC p' - toC g‖ ≤ 11 * u * w) :
    ∃ p, toLocal F m p'.1 p'.2 = .ok p ∧
      ‖toC (turned m.angle (plane m.momsCoordinateType m.offset) (plane m.layout.coordinateType p)) - toC g‖
        ≤ 90 * u * (w + weight m.momsCoordinateType m.offset) ∧
      weight m.layout.coordinateType p ≤ 24 * (w + weight m.momsCoordinateType m.offset) := by
  have hu := R.nonneg
  have hs := R.small
  have ho := h.off R ht
  have hO := norm_plane_le ht m.offset
  have hw : 0 ≤ w := (norm_nonneg _).trans hg
  have hO0 := weight_nonneg m.momsCoordinateType m.offset
  generalize plane m.momsCoordinateType m.offset = o at *
  generalize weight m.momsCoordinateType m.offset = O at *
  set s : ℝ × ℝ := (p'.1 - m.offsetCartesian.1, p'.2 - m.offsetCartesian.2) with hsdef
  set s' : ℝ × ℝ := (F.rnd s.1, F.rnd s.2) with hs'def
  set e : ℝ × ℝ := (g.1 - o.1, g.2 - o.2) with hedef
  have uw : u * w ≤ 1 / 1000 * w := mul_le_mul_of_nonneg_right hs hw
  have uO : u * O ≤ 1 / 1000 * O := mul_le_mul_of_nonneg_right hs hO0
  have uw0 : 0 ≤ u * w := mul_nonneg hu hw
  have uO0 : 0 ≤ u * O := mul_nonneg hu hO0
  have a1 : ‖toC s - toC e‖ ≤ 11 * u * w + 3 * u * O := by
    have e1 : toC s - toC e = (toC p' - toC g) - (toC m.offsetCartesian - toC o) := by
      apply Complex.ext <;> simp [hsdef, hedef] <;> ring
    rw [e1]
    exact (norm_sub_le _ _).trans (by linarith)
  have a2 : ‖toC e‖ ≤ w + O := by
    have e1 : toC e = toC g - toC o := by apply Complex.ext <;> simp [hedef]
    rw [e1]
    exact (norm_sub_le _ _).trans (by linarith)
  have a3 : ‖toC s‖ ≤ 1.02 * (w + O) := by
    have := norm_sub_norm_le (toC s) (toC e); linarith
  have a4 := rnd_err R s
  rw [← hs'def] at a4
  have a5 : u * ‖toC s‖ ≤ u * (1.02 * (w + O)) := mul_le_mul_of_nonneg_left a3 hu
  have a6 : ‖toC s' - toC e‖ ≤ 13 * u * (w + O) := by
    have : toC s' - toC e = (toC s' - toC s) + (toC s - toC e) := by ring
    rw [this]
    refine (norm_add_le _ _).trans ?_
    linarith
  have a7 : ‖toC s'‖ ≤ 1.02 * (w + O) := by
    have := norm_sub_norm_le (toC s') (toC e); linarith
  have x1 := abs_fst_le s'
  have y1 := abs_snd_le s'
  have l1 := (lin_err R x1 y1 (abs_cos_le_one m.angle) (abs_sin_le_one m.angle) h.cosA h.sinA).1
  have l2 := (lin_err R y1 x1 (abs_cos_le_one m.angle) (abs_sin_le_one m.angle) h.cosA h.sinA).2
  set t : ℝ × ℝ := (F.add (F.mul s'.1 m.cosAngle) (F.mul s'.2 m.sinAngle),
    F.sub (F.mul s'.2 m.cosAngle) (F.mul s'.1 m.sinAngle)) with htdef
  have b1 : ‖toC t - toC (turned (-m.angle) (0, 0) s')‖ ≤ 20 * u * (w + O) := by
    refine (Complex.norm_le_abs_re_add_abs_im _).trans ?_
    have e1 : (toC t - toC (turned (-m.angle) (0, 0) s')).re = F.add (F.mul s'.1 m.cosAngle) (F.mul s'.2 m.sinAngle)
        - (s'.1 * cos m.angle + s'.2 * sin m.angle) := by simp [turned, htdef]
    have e2 : (toC t - toC (turned (-m.angle) (0, 0) s')).im = F.sub (F.mul s'.2 m.cosAngle) (F.mul s'.1 m.sinAngle)
        - (s'.2 * cos m.angle - s'.1 * sin m.angle) := by simp [turned, htdef]; ring
    rw [e1, e2]
    have := mul_le_mul_of_nonneg_left a7 hu
    linarith
  have b2 : ‖toC t - toC (turned (-m.angle) (0, 0) e)‖ ≤ 33 * u * (w + O) := by
    have e1 : toC t - toC (turned (-m.angle) (0, 0) e) = (toC t - toC (turned (-m.angle) (0, 0) s')) +
      (toC (turned (-m.angle) (0, 0) s') - toC (turned (-m.angle) (0, 0) e)) := by ring
    rw [e1]
    refine (norm_add_le _ _).trans ?_
    rw [turned_far]
    linarith
  have b3 : ‖toC t‖ ≤ 1.05 * (w + O) := by
    have := norm_sub_norm_le (toC t) (toC (turned (-m.angle) (0, 0) e))
    have := turned_norm (-m.angle) (0, 0) e
    have e2 : toC (0, 0) = 0 := by apply Complex.ext <;> simp
    rw [e2, norm_zero] at this
    linarith
  have back : turned m.angle o (turned (-m.angle) (0, 0) e) = g := by
    have sq := sin_sq_add_cos_sq m.angle
    unfold turned
    rw [cos_neg, sin_neg]
    apply Prod.ext
    · dsimp only [hedef]
      linear_combination (g.1 - o.1) * sq
    · dsimp only [hedef]
      linear_combination (g.2 - o.2) * sq
  have key : ∀ q : ℝ × ℝ, ‖toC (turned m.angle o q) - toC g‖ = ‖toC q - toC (turned (-m.angle) (0, 0) e)‖ := by
    intro q
    have := turned_far m.angle o q (turned (-m.angle) (0, 0) e)
    rwa [back] at this
  unfold toLocal
  have ex : F.sub p'.1 m.offsetCartesian.1 = s'.1 := rfl
  have ey : F.sub p'.2 m.offsetCartesian.2 = s'.2 := rfl
  dsimp only
  rw [ex, ey]
  have et1 : F.add (F.mul s'.1 m.cosAngle) (F.mul s'.2 m.sinAngle) = t.1 := rfl
  have et2 : F.sub (F.mul s'.2 m.cosAngle) (F.mul s'.1 m.sinAngle) = t.2 := rfl
  rw [et1, et2]
  clear_value t s' e
  rcases hl with hl | hl
  · rw [if_neg (by rw [hl]; exact polar_ne), if_pos hl, hl]
    refine ⟨_, rfl, ?_, ?_⟩
    · rw [plane_cartesian, key]
      have : ‖toC (t.1, t.2) - toC (turned (-m.angle) (0, 0) e)‖ ≤ _ := b2
      linarith
    · rw [weight_cartesian]
      have h1 := abs_fst_le t
      have h2 := abs_snd_le t
      dsimp only
      linarith
  · rw [if_pos hl, hl]
    obtain ⟨c1, c2, c3, c4⟩ := polar_err R t.1 t.2
    have c0 : ‖toC (t.1, t.2)‖ ≤ 1.05 * (w + O) := b3
    refine ⟨_, rfl, ?_, ?_⟩
    · rw [key]
      have : toC (plane POLAR (polar F t.1 t.2)) - toC (turned (-m.angle) (0, 0) e) =
          (toC (plane POLAR (polar F t.1 t.2)) - toC (t.1, t.2)) + (toC t - toC (turned (-m.angle) (0, 0) e)) := by
        have : toC (t.1, t.2) = toC t := rfl
        rw [this]; ring
      rw [this]
      refine (norm_add_le _ _).trans ?_
      have := mul_le_mul_of_nonneg_left c0 (show 0 ≤ 40 * u by linarith)
      linarith
    · rw [weight_polar, abs_of_nonneg c2]
      have c5 : (polar F t.1 t.2).1 ≤ 1.2 * (w + O) := by linarith
      calc (polar F t.1 t.2).1 * (1 + |(polar F t.1 t.2).2|) ≤ 1.2 * (w + O) * 14 :=
            mul_le_mul c5 (by linarith) (by positivity) (by linarith)
        _ ≤ 24 * (w + O) := by linarith

/-- `globalToLocal` undoes the placement up to rounding. -/
theorem globalToLocal_near {m : Module ℝ} (h : Inv F u m) (ht : Known m.momsCoordinateType)
    (hl : Known m.layout.coordinateType) (c : ℝ × ℝ) :
    ∃ p, globalToLocal F m c.1 c.2 = .ok p ∧
      ((m.localIsGlobal = true → 0 < m.zPosition) →
        ‖toC (place m.angle (plane m.momsCoordinateType m.offset) m.zPosition (plane m.layout.coordinateType p))
          - toC (plane m.momsCoordinateType c)‖
        ≤ 100 * u * (weight m.momsCoordinateType c * (1 + |m.angle|) + weight m.momsCoordinateType m.offset)) ∧
      weight m.layout.coordinateType p
        ≤ 24 * (weight m.momsCoordinateType c * (1 + |m.angle|) + weight m.momsCoordinateType m.offset) := by
  have hu := R.nonneg
  have hs := R.small
  have hw := weight_nonneg m.momsCoordinateType c
  have hO0 := weight_nonneg m.momsCoordinateType m.offset
  have hwa : 0 ≤ weight m.momsCoordinateType c * |m.angle| := mul_nonneg hw (abs_nonneg _)
  unfold globalToLocal
  by_cases hg : m.localIsGlobal = true
  · rw [if_pos hg]
    obtain ⟨e1, e2, e3⟩ := h.flag ht hg
    refine ⟨c, rfl, fun hf => ?_, ?_⟩
    · have e : place m.angle (plane m.momsCoordinateType m.offset) m.zPosition
          (plane m.layout.coordinateType c) = plane m.momsCoordinateType c := by
        rw [e2, e3, e1]
        have : plane m.layout.coordinateType (0, 0) = (0, 0) := by
          unfold plane; split_ifs <;> simp
        rw [this]
        unfold place
        simp [not_le.2 (hf hg)]
      rw [e, sub_self, norm_zero]
      refine mul_nonneg (by linarith) ?_
      linarith
    · rw [← e1]
      change weight m.momsCoordinateType c ≤ _
      linarith
  · rw [if_neg hg]
    obtain ⟨d, d1, d2, d3⟩ := mirror_near R ht c
    rw [d1, Res.bind_ok]
    dsimp only
    have flipped : ∀ q : ℝ × ℝ, ‖toC (flip m.zPosition q) - toC (plane m.momsCoordinateType c)‖ =
        ‖toC q - toC (flip m.zPosition (plane m.momsCoordinateType c))‖ := by
      intro q
      have := flip_far m.zPosition q (flip m.zPosition (plane m.momsCoordinateType c))
      rwa [flip_flip] at this
    by_cases hc : m.momsCoordinateType = POLAR ∧ m.layout.coordinateType = POLAR ∧
        m.offsetCartesian.1 = 0 ∧ m.offsetCartesian.1 = 0
    · rw [if_pos hc]
      have hx : m.offset.1 = 0 := by
        have := h.pol hc.1
        exact offset_zero R h.given (by rw [this] at hc; exact hc.2.2.1)
      obtain ⟨d3, d4⟩ := d3 hc.1
      set S := |d.2| + |m.angle| with hS
      have hS0 : 0 ≤ S := by positivity
      have hr0 := abs_nonneg c.1
      have f0 : |F.sub d.2 m.angle - (d.2 - m.angle)| ≤ u * S := by
        refine (R.rounding.err _).trans (mul_le_mul_of_nonneg_left (abs_sub _ _) hu)
      have uS0 : 0 ≤ u * S := mul_nonneg hu hS0
      have f1 : |F.sub d.2 m.angle| ≤ 1.001 * S := by
        have := abs_sub_abs_le_abs_sub (F.sub d.2 m.angle) (d.2 - m.angle)
        have := abs_sub d.2 m.angle
        have : u * S ≤ 1 / 1000 * S := mul_le_mul_of_nonneg_right hs hS0
        linarith
      set ph1 := F.sub d.2 m.angle
      obtain ⟨⟨k1, w1⟩, w2⟩ := wrap_add R ph1 (ph1 < 0)
      set ph2 := (if ph1 < 0 then F.add ph1 F.turn else ph1)
      obtain ⟨⟨k2, w3⟩, w4⟩ := wrap_add R ph2 (ph2 > F.turn)
      set ph3 := (if ph2 > F.turn then F.add ph2 F.turn else ph2)
      have b2 : |ph2| ≤ 1.01 * S + 8 := by linarith
      have w5 := mul_le_mul_of_nonneg_left f1 hu
      have w6 := mul_le_mul_of_nonneg_left b2 hu
      have tot : |ph3 + m.angle - d.2 - ((k1 + k2 : ℤ) : ℝ) * (2 * π)| ≤ u * (50 + 4 * S) := by
        have e : ph3 + m.angle - d.2 - ((k1 + k2 : ℤ) : ℝ) * (2 * π) =
            (ph3 - ph2 - k2 * (2 * π)) + ((ph2 - ph1 - k1 * (2 * π)) + (ph1 - (d.2 - m.angle))) := by push_cast; ring
        rw [e]
        have t1 := abs_add_le (ph3 - ph2 - k2 * (2 * π)) ((ph2 - ph1 - k1 * (2 * π)) + (ph1 - (d.2 - m.angle)))
        have t2 := abs_add_le (ph2 - ph1 - k1 * (2 * π)) (ph1 - (d.2 - m.angle))
        linarith
      have near := polar_near (r := c.1) (r' := c.1) (k1 + k2) tot
      rw [sub_self, abs_zero, zero_add] at near
      rw [hc.1] at hO0 hw hwa d2 flipped ⊢
      rw [hc.2.1]
      have big : |c.1| * (1 + |c.2| + |m.angle|) ≤ weight POLAR c * (1 + |m.angle|) := by
        rw [weight_polar, mul_assoc]
        refine mul_le_mul_of_nonneg_left ?_ hr0
        have := mul_nonneg (abs_nonneg c.2) (abs_nonneg m.angle)
        linarith
      have hcc : 0 ≤ |c.1| * |c.2| := by positivity
      have hca : 0 ≤ |c.1| * |m.angle| := by positivity
      refine ⟨(d.1, ph3), rfl, fun _ => ?_, ?_⟩
      · rw [place_eq, flipped]
        have e : turned m.angle (plane POLAR m.offset) (plane POLAR (d.1, ph3)) =
            (c.1 * cos (ph3 + m.angle), c.1 * sin (ph3 + m.angle)) := by
          rw [plane_polar, plane_polar, hx, d3]
          unfold turned
          dsimp only
          rw [cos_add, sin_add]
          apply Prod.ext <;> dsimp only <;> ring
        rw [e]
        have hd : toC (plane POLAR d) = toC (c.1 * cos d.2, c.1 * sin d.2) := by rw [plane_polar, d3]
        rw [hd] at d2
        have e2 : toC (c.1 * cos (ph3 + m.angle), c.1 * sin (ph3 + m.angle)) - toC (flip m.zPosition (plane POLAR c)) =
          (toC (c.1 * cos (ph3 + m.angle), c.1 * sin (ph3 + m.angle)) - toC (c.1 * cos d.2, c.1 * sin d.2)) +
          (toC (c.1 * cos d.2, c.1 * sin d.2) - toC (flip m.zPosition (plane POLAR c))) := by ring
        rw [e2]
        refine (norm_add_le _ _).trans ?_
        have a1 : |c.1| * (u * (50 + 4 * S)) ≤ 70 * u * (weight POLAR c * (1 + |m.angle|)) := by
          have : |c.1| * (50 + 4 * S) ≤ 70 * (|c.1| * (1 + |c.2| + |m.angle|)) := by
            have : 50 + 4 * S ≤ 70 * (1 + |c.2| + |m.angle|) := by
              have := abs_nonneg c.2
              have := abs_nonneg m.angle
              rw [hS]; linarith
            have := mul_le_mul_of_nonneg_left this hr0
            linarith
          have := mul_le_mul_of_nonneg_left this hu
          have := mul_le_mul_of_nonneg_left big hu
          linarith
        have a2 := mul_nonneg hu hO0
        have a3 := mul_nonneg hu hwa
        have a4 := mul_nonneg hu hw
        linarith
      · rw [weight_polar]
        dsimp only
        rw [d3]
        have : 1 + |ph3| ≤ 24 * (1 + |c.2| + |m.angle|) := by
          have := abs_nonneg c.2
          have := abs_nonneg m.angle
          rw [hS] at b2
          linarith
        have := mul_le_mul_of_nonneg_left this hr0
        linarith
    · rw [if_neg hc]
      have hn := norm_plane_le ht c
      obtain ⟨p', p1, p2⟩ : ∃ p', cartesian F m d.1 d.2 = .ok p' ∧
          ‖toC p' - toC (flip m.zPosition (plane m.momsCoordinateType c))‖ ≤ 11 * u * weight m.momsCoordinateType c := by
        have uw := mul_nonneg hu hw
        unfold cartesian
        rcases ht with ht | ht
        · rw [if_neg (by rw [ht]; exact polar_ne), if_pos ht]
          refine ⟨_, rfl, ?_⟩
          rw [ht, plane_cartesian] at d2
          rw [ht] at uw ⊢
          have : ‖toC (d.1, d.2) - toC (flip m.zPosition (plane CARTESIAN c))‖ ≤ _ := d2
          linarith
        · rw [if_pos ht]
          refine ⟨_, rfl, ?_⟩
          have ce := cart_err R d.1 d.2
          rw [ht] at d2 uw ⊢
          rw [plane_polar d] at d2
          have e2 : toC (F.mul d.1 (F.cos d.2), F.mul d.1 (F.sin d.2)) - toC (flip m.zPosition (plane POLAR c)) =
            (toC (F.mul d.1 (F.cos d.2), F.mul d.1 (F.sin d.2)) - toC (d.1 * cos d.2, d.1 * sin d.2)) +
            (toC (d.1 * cos d.2, d.1 * sin d.2) - toC (flip m.zPosition (plane POLAR c))) := by ring
          rw [e2]
          refine (norm_add_le _ _).trans ?_
          rw [(d3 ht).1] at ce
          rw [(d3 ht).1] at d2
          have : u * |c.1| ≤ u * weight POLAR c := by
            refine mul_le_mul_of_nonneg_left ?_ hu
            rw [weight_polar]
            have := mul_nonneg (abs_nonneg c.1) (abs_nonneg c.2)
            linarith
          rw [(d3 ht).1]
          linarith
      rw [p1, Res.bind_ok]
      obtain ⟨p, k1, k2, k3⟩ := toLocal_near R h ht hl (p' := p') (g := flip m.zPosition (plane m.momsCoordinateType c))
        (w := weight m.momsCoordinateType c) (by rw [flip_norm]; exact hn) p2
      refine ⟨p, k1, fun _ => ?_, by linarith⟩
      rw [place_eq, flipped]
      refine k2.trans ?_
      have a2 := mul_nonneg hu hO0
      have a3 := mul_nonneg hu hwa
      have a4 := mul_nonneg hu hw
      linarith

end

end Gear.TpcModule.Double
