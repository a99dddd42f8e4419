/-
Properties of the transformations of `TPCModuleImpl` in `double` arithmetic (C145).
-/
import Verif.TpcModuleDoubleNear
import Verif.Doubles

set_option autoImplicit false
set_option linter.unusedSectionVars false

namespace Gear.TpcModule.Double

open Disk Real
open TpcModule.Spec (Known plane place Op Values values Settled)
open Doubles (Rounding binary64_rounding binary64_err binary64_form binary64_scaled)
open MaterialMap (binary64)
open Spec

/-- A module of a TPC with coordinates of type `t`, after any sequence of setter calls. -/
noncomputable abbrev made (F : Arith ℝ) (id : ℤ) (L : LayoutI ℝ) (t : ℤ) (f : ℝ) (ops : List Op) : Module ℝ :=
  run F (new id L t f) ops

variable {F : Arith ℝ} {u : ℝ} {id : ℤ} {L : LayoutI ℝ} {t : ℤ} {f : ℝ} {ops : List Op}

theorem setOffset_fields (m : Module ℝ) (x y : ℝ) :
    (setOffset F m x y).momsCoordinateType = m.momsCoordinateType ∧ (setOffset F m x y).layout = m.layout ∧
      (setOffset F m x y).angle = m.angle ∧ (setOffset F m x y).offset = (x, y) ∧
      (setOffset F m x y).zPosition = m.zPosition := by
  unfold setOffset
  dsimp only
  split_ifs <;> exact ⟨rfl, rfl, rfl, rfl, rfl⟩

/-- The values last set. -/
structure Has (m : Module ℝ) (L : LayoutI ℝ) (t : ℤ) (v : Values) : Prop where
  type : m.momsCoordinateType = t
  layout : m.layout = L
  angle : m.angle = v.angle
  offset : m.offset = v.offset
  z : m.zPosition = v.z.getD 1

theorem run_has (F : Arith ℝ) {m : Module ℝ} {v : Values} (h : Has m L t v) (ops : List Op) :
    Has (run F m ops) L t (ops.foldl Values.set v) := by
  induction ops generalizing m v with
  | nil => exact h
  | cons o ops ih =>
    refine ih ?_
    cases o with
    | border w => exact ⟨h.type, h.layout, h.angle, h.offset, h.z⟩
    | z z => exact ⟨h.type, h.layout, h.angle, h.offset, rfl⟩
    | frequency g => exact ⟨h.type, h.layout, h.angle, h.offset, h.z⟩
    | angle a => exact ⟨h.type, h.layout, rfl, h.offset, h.z⟩
    | offset x y =>
      obtain ⟨a, b, c, d, e⟩ := setOffset_fields (F := F) m x y
      exact ⟨a.trans h.type, b.trans h.layout, c.trans h.angle, d, e.trans h.z⟩

theorem made_has (F : Arith ℝ) (id : ℤ) (L : LayoutI ℝ) (t : ℤ) (f : ℝ) (ops : List Op) :
    Has (made F id L t f ops) L t (values f ops) :=
  run_has F ⟨rfl, rfl, rfl, rfl, rfl⟩ ops

theorem settled_flag (ht : Known t) (h : Settled ops) :
    (made F id L t f ops).localIsGlobal = true → 0 < (made F id L t f ops).zPosition := by
  obtain ⟨pre, o, post, rfl, ho, hp⟩ := h
  have keep : ∀ (post : List Op) (m : Module ℝ), Known m.momsCoordinateType → (m.localIsGlobal = true → 0 < m.zPosition) →
      (∀ p ∈ post, ¬ Op.setsZ p) → (run F m post).localIsGlobal = true → 0 < (run F m post).zPosition := by
    intro post
    induction post with
    | nil => intro m _ h _; exact h
    | cons p post ih =>
      intro m hm h hp
      refine ih (step F m p) ?_ ?_ fun q hq => hp q (List.mem_cons_of_mem _ hq)
      · cases p with
        | offset x y => exact (setOffset_fields (F := F) m x y).1 ▸ hm
        | _ => exact hm
      · cases p with
        | border w => exact h
        | z z => exact absurd trivial (hp _ List.mem_cons_self)
        | frequency g => exact h
        | angle a => exact fun hd => (of_decide_eq_true hd).2.2.2.2
        | offset x y =>
          show (setOffset F m x y).localIsGlobal = true → 0 < (setOffset F m x y).zPosition
          unfold setOffset
          dsimp only
          split_ifs with h1 h2
          · exact fun hd => (of_decide_eq_true hd).2.2.2.2
          · exact fun hd => (of_decide_eq_true hd).2.2.2.2
          · exact absurd hm fun hk => hk.elim h2 h1
  have e : made F id L t f (pre ++ o :: post) = run F (step F (made F id L t f pre) o) post := by
    unfold made run; rw [List.foldl_append]; rfl
  rw [e]
  have hm : Known (made F id L t f pre).momsCoordinateType := by rw [(made_has F id L t f pre).type]; exact ht
  refine keep post _ ?_ ?_ hp
  · cases o with
    | offset x y => exact (setOffset_fields (F := F) (made F id L t f pre) x y).1 ▸ hm
    | _ => exact hm
  · cases o with
    | border w => exact absurd ho (fun h => h)
    | z z => exact absurd ho (fun h => h)
    | frequency g => exact absurd ho (fun h => h)
    | angle a => exact fun hd => (of_decide_eq_true hd).2.2.2.2
    | offset x y =>
      show (setOffset F (made F id L t f pre) x y).localIsGlobal = true → 0 < (setOffset F (made F id L t f pre) x y).zPosition
      unfold setOffset
      dsimp only
      split_ifs with h1 h2
      · exact fun hd => (of_decide_eq_true hd).2.2.2.2
      · exact fun hd => (of_decide_eq_true hd).2.2.2.2
      · exact absurd hm fun hk => hk.elim h2 h1

/-! ### C145 -/

/-- A point of the module's own plane is found where the module has been placed, up to rounding, whatever the coordinate
types of the TPC and of the pads. -/
theorem localToGlobal_double (R : Rounded F u) (ht : Known t) (hl : Known L.coordinateType) (hs : Settled ops)
    (hg : ∀ o ∈ ops, Given F o) (c : ℝ × ℝ) :
    ∃ p, localToGlobal F (made F id L t f ops) c.1 c.2 = .ok p ∧
      far (plane t p) (place (values f ops).angle (plane t (values f ops).offset) ((values f ops).z.getD 1)
        (plane L.coordinateType c))
      ≤ 100 * u * (weight L.coordinateType c * (1 + |(values f ops).angle|) + weight t (values f ops).offset) := by
  have hh := made_has F id L t f ops
  obtain ⟨p, h1, h2, -⟩ := localToGlobal_near R ((Inv.new R id L t f).run R ops hg)
    (by rw [hh.type]; exact ht) (by rw [hh.layout]; exact hl) c
  have h2 := h2 (settled_flag ht hs)
  rw [hh.type, hh.layout, hh.angle, hh.offset, hh.z] at h2
  exact ⟨p, h1, by rw [far_eq]; exact h2⟩

/-- The local coordinates of a global point are those of the point of the module's own plane that is placed there, up to
rounding; also for offsets along the y axis, which exact arithmetic gets wrong (C27), since no double but 0 is a multiple of
`π/2`. -/
theorem globalToLocal_double (R : Rounded F u) (ht : Known t) (hl : Known L.coordinateType) (hs : Settled ops)
    (hg : ∀ o ∈ ops, Given F o) (c : ℝ × ℝ) :
    ∃ p, globalToLocal F (made F id L t f ops) c.1 c.2 = .ok p ∧
      far (place (values f ops).angle (plane t (values f ops).offset) ((values f ops).z.getD 1)
        (plane L.coordinateType p)) (plane t c)
      ≤ 100 * u * (weight t c * (1 + |(values f ops).angle|) + weight t (values f ops).offset) := by
  have hh := made_has F id L t f ops
  obtain ⟨p, h1, h2, -⟩ := globalToLocal_near R ((Inv.new R id L t f).run R ops hg)
    (by rw [hh.type]; exact ht) (by rw [hh.layout]; exact hl) c
  have h2 := h2 (settled_flag ht hs)
  rw [hh.type, hh.layout, hh.angle, hh.offset, hh.z] at h2
  exact ⟨p, h1, by rw [far_eq]; exact h2⟩

theorem combine {u a x y w o : ℝ} (hu : 0 ≤ u) (ha : 0 ≤ a) (hw : 0 ≤ w) (ho : 0 ≤ o) (h : y ≤ 24 * (w * (1 + a) + o))
    (hx : x ≤ 100 * u * (y * (1 + a) + o) + 100 * u * (w * (1 + a) + o)) :
    x ≤ 3000 * u * (1 + a) * (w * (1 + a) + o) := by
  have h1 : y * (1 + a) ≤ 24 * (w * (1 + a) + o) * (1 + a) := mul_le_mul_of_nonneg_right h (by linarith)
  have hT : 0 ≤ w * (1 + a) := by positivity
  generalize w * (1 + a) = T at *
  have h2 := mul_le_mul_of_nonneg_left h1 (show 0 ≤ 100 * u by linarith)
  have h3 : 0 ≤ u * T := mul_nonneg hu hT
  have h4 : 0 ≤ u * o := mul_nonneg hu ho
  have h5 : 0 ≤ u * T * a := mul_nonneg h3 ha
  have h6 : 0 ≤ u * o * a := mul_nonneg h4 ha
  have e1 : 100 * u * (24 * (T + o) * (1 + a)) = 2400 * (u * T) + 2400 * (u * o) + 2400 * (u * T * a) + 2400 * (u * o * a) := by ring
  have e2 : 3000 * u * (1 + a) * (T + o) = 3000 * (u * T) + 3000 * (u * o) + 3000 * (u * T * a) + 3000 * (u * o * a) := by ring
  linarith

/-- From local to global coordinates and back, after any sequence of setter calls: the point is the same up to rounding. -/
theorem local_roundtrip_double (R : Rounded F u) (ht : Known t) (hl : Known L.coordinateType)
    (hg : ∀ o ∈ ops, Given F o) (c : ℝ × ℝ) :
    ∃ p q, localToGlobal F (made F id L t f ops) c.1 c.2 = .ok p ∧
      globalToLocal F (made F id L t f ops) p.1 p.2 = .ok q ∧
      far (plane L.coordinateType q) (plane L.coordinateType c)
      ≤ 3000 * u * (1 + |(values f ops).angle|) *
        (weight L.coordinateType c * (1 + |(values f ops).angle|) + weight t (values f ops).offset) := by
  have hu := R.nonneg
  have hh := made_has F id L t f ops
  have inv := (Inv.new R id L t f).run R ops hg
  have hw := weight_nonneg L.coordinateType c
  have ho := weight_nonneg t (values f ops).offset
  by_cases hf : (made F id L t f ops).localIsGlobal = true
  · refine ⟨c, c, ?_, ?_, ?_⟩
    · unfold localToGlobal; rw [if_pos hf]
    · unfold globalToLocal; rw [if_pos hf]
    · rw [far_eq, sub_self, norm_zero]; positivity
  · obtain ⟨p, h1, h2, h3⟩ := localToGlobal_near R inv (by rw [hh.type]; exact ht) (by rw [hh.layout]; exact hl) c
    obtain ⟨q, k1, k2, -⟩ := globalToLocal_near R inv (by rw [hh.type]; exact ht) (by rw [hh.layout]; exact hl) p
    have h2 := h2 fun h => absurd h hf
    have k2 := k2 fun h => absurd h hf
    rw [hh.type, hh.layout, hh.angle, hh.offset, hh.z] at h2
    rw [hh.type, hh.layout, hh.angle, hh.offset] at h3
    rw [hh.type, hh.layout, hh.angle, hh.offset, hh.z] at k2
    refine ⟨p, q, h1, k1, ?_⟩
    rw [far_eq, ← place_far (values f ops).angle (plane t (values f ops).offset) ((values f ops).z.getD 1)]
    refine combine hu (abs_nonneg _) hw ho h3 ?_
    have e := norm_sub_le_norm_sub_add_norm_sub
      (toC (place (values f ops).angle (plane t (values f ops).offset) ((values f ops).z.getD 1) (plane L.coordinateType q)))
      (toC (plane t p))
      (toC (place (values f ops).angle (plane t (values f ops).offset) ((values f ops).z.getD 1) (plane L.coordinateType c)))
    linarith

/-- From global to local coordinates and back. -/
theorem global_roundtrip_double (R : Rounded F u) (ht : Known t) (hl : Known L.coordinateType)
    (hg : ∀ o ∈ ops, Given F o) (c : ℝ × ℝ) :
    ∃ p q, globalToLocal F (made F id L t f ops) c.1 c.2 = .ok p ∧
      localToGlobal F (made F id L t f ops) p.1 p.2 = .ok q ∧
      far (plane t q) (plane t c)
      ≤ 3000 * u * (1 + |(values f ops).angle|) *
        (weight t c * (1 + |(values f ops).angle|) + weight t (values f ops).offset) := by
  have hu := R.nonneg
  have hh := made_has F id L t f ops
  have inv := (Inv.new R id L t f).run R ops hg
  have hw := weight_nonneg t c
  have ho := weight_nonneg t (values f ops).offset
  by_cases hf : (made F id L t f ops).localIsGlobal = true
  · refine ⟨c, c, ?_, ?_, ?_⟩
    · unfold globalToLocal; rw [if_pos hf]
    · unfold localToGlobal; rw [if_pos hf]
    · rw [far_eq, sub_self, norm_zero]; positivity
  · obtain ⟨p, h1, h2, h3⟩ := globalToLocal_near R inv (by rw [hh.type]; exact ht) (by rw [hh.layout]; exact hl) c
    obtain ⟨q, k1, k2, -⟩ := localToGlobal_near R inv (by rw [hh.type]; exact ht) (by rw [hh.layout]; exact hl) p
    have h2 := h2 fun h => absurd h hf
    have k2 := k2 fun h => absurd h hf
    rw [hh.type, hh.layout, hh.angle, hh.offset, hh.z] at h2
    rw [hh.type, hh.layout, hh.angle, hh.offset] at h3
    rw [hh.type, hh.layout, hh.angle, hh.offset, hh.z] at k2
    refine ⟨p, q, h1, k1, ?_⟩
    rw [far_eq]
    refine combine hu (abs_nonneg _) hw ho h3 ?_
    have e := norm_sub_le_norm_sub_add_norm_sub (toC (plane t q))
      (toC (place (values f ops).angle (plane t (values f ops).offset) ((values f ops).z.getD 1) (plane L.coordinateType p)))
      (toC (plane t c))
    linarith

/-- The polar offsets that exact arithmetic mishandles do not occur with doubles: the first Cartesian component of the offset
vanishes only if the second one does. -/
theorem offset_along_y_never (R : Rounded F u) (hg : ∀ o ∈ ops, Given F o)
    (h : (made F id L POLAR f ops).offsetCartesian.1 = 0) : (made F id L POLAR f ops).offsetCartesian.2 = 0 := by
  have inv := (Inv.new R id L POLAR f).run R ops hg
  have hp := inv.pol (made_has F id L POLAR f ops).type
  rw [hp] at h ⊢
  have := offset_zero R inv.given h
  show F.mul _ _ = 0
  rw [this]
  unfold MaterialMap.Arith.mul
  rw [zero_mul]
  exact R.rounding.zero

/-! ### Doubles -/

/-- The arithmetic of doubles with a mathematical library that returns the double nearest to the exact value. -/
noncomputable def realDoubles : Arith ℝ where
  pi := binary64 π
  cos := fun x => binary64 (cos x)
  sin := fun x => binary64 (sin x)
  sqrt := fun x => binary64 √x
  rnd := binary64
  atan2 := fun y x => binary64 (Complex.arg ⟨x, y⟩)

theorem realDoubles_rounded : Rounded realDoubles (1 / 2 ^ 53) where
  rounding := binary64_rounding
  small := by norm_num
  form := fun x => by obtain ⟨n, k, -, h⟩ := binary64_form x; exact ⟨n, k, h⟩
  pi := by have := binary64_err π; rwa [abs_of_pos Real.pi_pos] at this
  cos := fun x => binary64_err (cos x)
  sin := fun x => binary64_err (sin x)
  sqrt := fun x _ => by have := binary64_err √x; rwa [abs_of_nonneg (Real.sqrt_nonneg x)] at this
  atan2 := fun x y => binary64_err _

/-- Non-vacuity: a module on the negative side of a polar TPC, with polar pads, whose offset is given with the double nearest
to `π/2`. -/
example : Known POLAR ∧ Known ringLayout.coordinateType ∧
    Settled [.z (-1), .offset 3 (binary64 (π / 2)), .angle 1, .border 2] ∧
    ∀ o ∈ [Op.z (-1), .offset 3 (binary64 (π / 2)), .angle 1, .border 2], Given realDoubles o := by
  refine ⟨Or.inr rfl, Or.inr rfl, ⟨[.z (-1)], .offset 3 _, [.angle 1, .border 2], rfl, trivial, ?_⟩, ?_⟩
  · intro p hp
    simp only [List.mem_cons, List.not_mem_nil, or_false] at hp
    rcases hp with rfl | rfl <;> exact fun h => h
  · intro o ho
    simp only [List.mem_cons, List.not_mem_nil, or_false] at ho
    rcases ho with rfl | rfl | rfl | rfl
    · trivial
    · exact binary64_rounding.idem _
    · trivial
    · trivial

/-- The round trip is not exact: a Cartesian module at (1, 0), and the local point (2^-60, 0). -/
theorem roundtrip_double_false_exact :
    localToGlobal realDoubles (made realDoubles 0 squareLayout CARTESIAN 1 [.offset 1 0]) (1 / 2 ^ 60) 0 = .ok (1, 0) ∧
    globalToLocal realDoubles (made realDoubles 0 squareLayout CARTESIAN 1 [.offset 1 0]) 1 0 = .ok (0, 0) := by
  have one : (binary64 (1 : ℝ)) = 1 := by have := binary64_scaled (K := ℝ) 1 0 (by norm_num); simpa using this
  have zero : (binary64 (0 : ℝ)) = 0 := Doubles.binary64_zero
  have small : (binary64 (1 / 2 ^ 60 : ℝ)) = 1 / 2 ^ 60 := by
    have := binary64_scaled (K := ℝ) 1 (-60) (by norm_num)
    have e : (((1 : ℤ) : ℝ) * 2 ^ (-60 : ℤ)) = 1 / 2 ^ 60 := by norm_num
    rwa [e] at this
  have sum : (binary64 (1 / 2 ^ 60 + 1 : ℝ)) = 1 := by
    have := Doubles.binary64_eval (K := ℝ) (x := 1 / 2 ^ 60 + 1) (n := 2 ^ 52) (k := -52) (by norm_num) (by norm_num)
      (by norm_num)
    rw [this]; norm_num
  have hm : made realDoubles 0 squareLayout CARTESIAN 1 [.offset 1 0] =
      setOffset realDoubles (new 0 squareLayout CARTESIAN 1) 1 0 := rfl
  have mz : (realDoubles.mul 0 0 : ℝ) = 0 := by unfold MaterialMap.Arith.mul; rw [zero_mul]; exact zero
  have z1 : ¬ (1 : ℝ) ≤ 0 := by norm_num
  constructor
  · rw [hm]
    simp only [localToGlobal, setOffset, checkLocalIsGlobal, TpcModule.new, squareLayout, CARTESIAN, POLAR, toGlobal,
      MaterialMap.Arith.mul, MaterialMap.Arith.add, MaterialMap.Arith.sub, realDoubles]
    norm_num
    norm_num at small sum
    rw [small, zero, sub_zero, small, add_zero, zero]
    exact ⟨by norm_num [sum], zero⟩
  · rw [hm]
    simp only [globalToLocal, mirror, cartesian, setOffset, checkLocalIsGlobal, TpcModule.new, squareLayout, CARTESIAN, POLAR,
      toLocal, MaterialMap.Arith.mul, MaterialMap.Arith.add, MaterialMap.Arith.sub, realDoubles]
    norm_num
    rw [zero, zero]
    exact ⟨by rw [add_zero, zero], by rw [sub_zero, zero]⟩

end Gear.TpcModule.Double
