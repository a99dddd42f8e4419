/-
C148: numbers of radiation and interaction lengths in `double` arithmetic.
-/
import Verif.TGeoDistanceDouble
import Verif.TGeoDistanceProps
import Verif.DoublesGrid

set_option autoImplicit false
set_option linter.unusedSectionVars false

namespace Gear.TGeoDistance.Double

open Vector3D (V3 equal_iff)
open Doubles

variable {K : Type} [Field K] [LinearOrder K] [IsStrictOrderedRing K] [FloorRing K]

/-! ### Specification -/

namespace Spec

/-- The volumes that count: those whose radiation (interaction) length `g` is not zero. -/
def counted {K : Type} [Field K] [LinearOrder K] (g : Node K → K) (l : List (Seg K)) : List (Seg K) :=
  l.filter fun s => g s.node ≠ 0

/-- The sum of length over radiation (interaction) length of these. -/
def lengths {K : Type} [Field K] [LinearOrder K] (g : Node K → K) (l : List (Seg K)) : K :=
  ((counted g l).map fun s => s.length / g s.node).sum

/-- No negative lengths. -/
def Sound {K : Type} [Field K] [LinearOrder K] (g : Node K → K) (l : List (Seg K)) : Prop :=
  ∀ s ∈ l, 0 ≤ s.length ∧ 0 ≤ g s.node

/-- The path `l'` goes through the volumes of `l`, not less far in each, and perhaps through more behind them. -/
def Longer {K : Type} [Field K] [LinearOrder K] (l l' : List (Seg K)) : Prop :=
  ∃ a b, l' = a ++ b ∧ List.Forall₂ (fun x y => x.node = y.node ∧ x.length ≤ y.length) l a

/-- The path between the two points can be followed, and after the history `h` the object answers for it as a new one does
(C72). -/
def Fresh {K : Type} [Field K] [LinearOrder K] [IsStrictOrderedRing K] (tr : V3 K → V3 K → Res (List (Seg K)))
    (h : List (Query × V3 K × V3 K)) (q : Query) (p0 p1 : V3 K) (l : List (Seg K)) : Prop :=
  p0 ≠ p1 ∧ tr p0 p1 = .ok l ∧ (lastPath h ≠ some (p0, p1) ∨ Unspoiled h q)

end Spec

open Spec

/-! ### The sum -/

/-- The sum, for a list of pieces. -/
def total (rnd : K → K) (g : Node K → K) : List (Seg K) → K → K
  | [], s => s
  | x :: l, s => total rnd g l (if g x.node ≠ 0 then rnd (s + rnd (x.length / g x.node)) else s)

theorem sumLengths_eq (rnd : K → K) (g : Node K → K) (l : List (Seg K)) (s : K) :
    sumLengths rnd (l.map fun x => g x.node) (l.map (·.length)) s = .ok (total rnd g l s) := by
  induction l generalizing s with
  | nil => rfl
  | cons x l ih =>
    simp only [List.map_cons, sumLengths, List.tail_cons, total]
    by_cases hx : g x.node = 0
    · rw [if_neg (by simp [hx]), if_neg (by simp [hx]), ih]
    · rw [if_pos hx, if_pos hx, ih]

variable {rnd : K → K} {u : K} {g : Node K → K}

theorem total_near (R : Rounding rnd u) (hu0 : 0 ≤ u) (hu : u ≤ 1) {l : List (Seg K)} (hl : Sound g l) {s : K} (hs : 0 ≤ s) :
    (1 - u) ^ (counted g l).length * s + (1 - u) ^ ((counted g l).length + 1) * lengths g l ≤ total rnd g l s ∧
      total rnd g l s ≤ (1 + u) ^ (counted g l).length * s + (1 + u) ^ ((counted g l).length + 1) * lengths g l := by
  induction l generalizing s with
  | nil => simp [counted, lengths, total]
  | cons x l ih =>
    have hl' : Sound g l := fun y hy => hl y (List.mem_cons_of_mem _ hy)
    obtain ⟨hx1, hx2⟩ := hl x List.mem_cons_self
    have hS : 0 ≤ lengths g l := by
      unfold lengths
      refine List.sum_nonneg fun y hy => ?_
      obtain ⟨z, hz, rfl⟩ := List.mem_map.1 hy
      obtain ⟨a, b⟩ := hl' z (List.mem_of_mem_filter hz)
      exact div_nonneg a b
    rw [total]
    by_cases h : g x.node = 0
    · have e : counted g (x :: l) = counted g l := by simp [counted, h]
      have e2 : lengths g (x :: l) = lengths g l := by unfold lengths; rw [e]
      rw [if_neg (by simp [h]), e, e2]
      exact ih hl' hs
    · have e : counted g (x :: l) = x :: counted g l := by simp [counted, h]
      have e2 : lengths g (x :: l) = x.length / g x.node + lengths g l := by unfold lengths; rw [e]; simp
      rw [if_pos h, e, e2, List.length_cons]
      have ht : 0 ≤ x.length / g x.node := div_nonneg hx1 hx2
      generalize x.length / g x.node = t at *
      have ht' := R.nonneg ht
      obtain ⟨b1, b2⟩ := R.bounds ht
      obtain ⟨b3, b4⟩ := R.bounds (add_nonneg hs ht')
      obtain ⟨i1, i2⟩ := ih hl' (R.nonneg (add_nonneg hs ht'))
      generalize (counted g l).length = m at *
      generalize rnd (s + rnd t) = s' at *
      generalize rnd t = t' at *
      have p0 : (0 : K) ≤ 1 - u := by linarith
      have p1 : (1 : K) ≤ 1 + u := by linarith
      have c1 : (1 - u) * (s + (1 - u) * t) ≤ s' := (mul_le_mul_of_nonneg_left (by linarith) p0).trans b3
      have c2 : s' ≤ (1 + u) * (s + (1 + u) * t) := b4.trans (mul_le_mul_of_nonneg_left (by linarith) (by linarith))
      have d1 := mul_le_mul_of_nonneg_left c1 (pow_nonneg p0 m)
      have d2 := mul_le_mul_of_nonneg_left c2 (pow_nonneg (zero_le_one.trans p1) m)
      have f1 : (1 - u) ^ (m + 1 + 1) * lengths g l ≤ (1 - u) ^ (m + 1) * lengths g l :=
        mul_le_mul_of_nonneg_right (pow_le_pow_of_le_one p0 (by linarith) (by omega)) hS
      have f2 : (1 + u) ^ (m + 1) * lengths g l ≤ (1 + u) ^ (m + 1 + 1) * lengths g l :=
        mul_le_mul_of_nonneg_right (pow_le_pow_right₀ p1 (by omega)) hS
      constructor
      · have : (1 - u) ^ (m + 1) * s + (1 - u) ^ (m + 1 + 1) * (t + lengths g l) =
            (1 - u) ^ m * ((1 - u) * (s + (1 - u) * t)) + (1 - u) ^ (m + 1 + 1) * lengths g l := by ring
        linarith
      · have : (1 + u) ^ (m + 1) * s + (1 + u) ^ (m + 1 + 1) * (t + lengths g l) =
            (1 + u) ^ m * ((1 + u) * (s + (1 + u) * t)) + (1 + u) ^ (m + 1 + 1) * lengths g l := by ring
        linarith

theorem total_grows (R : Rounding rnd u) {l : List (Seg K)} (hl : Sound g l) {s : K} (hs : rnd s = s) : s ≤ total rnd g l s := by
  induction l generalizing s with
  | nil => exact le_rfl
  | cons x l ih =>
    have hl' : Sound g l := fun y hy => hl y (List.mem_cons_of_mem _ hy)
    obtain ⟨hx1, hx2⟩ := hl x List.mem_cons_self
    rw [total]
    split_ifs with h
    · have ht := R.nonneg (div_nonneg hx1 hx2)
      have : s ≤ rnd (s + rnd (x.length / g x.node)) := by
        conv_lhs => rw [← hs]
        exact R.mono _ _ (by linarith)
      exact this.trans (ih hl' (R.idem _))
    · exact ih hl' hs

theorem total_mono (R : Rounding rnd u) {l a : List (Seg K)} (h : List.Forall₂ (fun x y => x.node = y.node ∧ x.length ≤ y.length) l a)
    (ha : ∀ x ∈ a, 0 ≤ g x.node) {s s' : K} (hs : s ≤ s') : total rnd g l s ≤ total rnd g a s' := by
  induction h generalizing s s' with
  | nil => exact hs
  | @cons x y l a hxy _ ih =>
    rw [total, total, hxy.1]
    refine ih (fun z hz => ha z (List.mem_cons_of_mem _ hz)) ?_
    split_ifs with h0
    · exact R.mono _ _ (add_le_add hs (R.mono _ _ (div_le_div_of_nonneg_right hxy.2 (ha y List.mem_cons_self))))
    · exact hs

theorem total_append (rnd : K → K) (g : Node K → K) (a b : List (Seg K)) (s : K) :
    total rnd g (a ++ b) s = total rnd g b (total rnd g a s) := by
  induction a generalizing s with
  | nil => rfl
  | cons x a ih => rw [List.cons_append, total, total, ih]

theorem total_double (R : Rounding rnd u) (l : List (Seg K)) {s : K} (hs : rnd s = s) : rnd (total rnd g l s) = total rnd g l s := by
  induction l generalizing s with
  | nil => exact hs
  | cons x l ih =>
    rw [total]
    split_ifs with h
    · exact ih (R.idem _)
    · exact ih hs

theorem total_longer (R : Rounding rnd u) {l l' : List (Seg K)} (h : Longer l l') (hl : Sound g l') :
    total rnd g l 0 ≤ total rnd g l' 0 := by
  obtain ⟨a, b, rfl, h⟩ := h
  rw [total_append]
  refine (total_mono R h (fun x hx => (hl x (List.mem_append_left _ hx)).2) le_rfl).trans ?_
  exact total_grows R (fun x hx => hl x (List.mem_append_right _ hx)) (total_double R a R.zero)

variable {tr : V3 K → V3 K → Res (List (Seg K))} {h h' : List (Query × V3 K × V3 K)} {p0 p1 q0 q1 : V3 K} {l l' : List (Seg K)}

theorem unspoiled_of {q : Query} (hq : ∀ j, Spoils j .thicknesses → Spoils j q) (hu : Unspoiled h q) : Unspoiled h .thicknesses :=
  fun x hx hxe hs => hu x hx hxe (hq _ hs)

theorem getNRadlen_eq (rnd : K → K) (hf : Fresh tr h .nRadlen p0 p1 l) :
    (getNRadlen rnd tr (run tr h) p0 p1).1 = .ok (total rnd (·.radLen) l 0) := by
  obtain ⟨hp, hl, hq⟩ := hf
  have he : ¬ (Vector3D.equal p0 p1 = true) := fun h => hp ((equal_iff p0 p1).mp h)
  obtain ⟨_, _, s⟩ := beamOn_state tr (inv_run tr h) hp
  obtain ⟨s0, -, -, s3, -, s5⟩ := s l hl
  have := s3 (hq.imp id (unspoiled_of (by intro j hj; simp only [Spoils] at hj ⊢; simp at hj; simp [hj])))
  simp only [getNRadlen, if_neg he, s0, this, s5, Res.bind_ok]
  exact sumLengths_eq rnd (·.radLen) l 0

theorem getNIntlen_eq (rnd : K → K) (hf : Fresh tr h .nIntlen p0 p1 l) :
    (getNIntlen rnd tr (run tr h) p0 p1).1 = .ok (total rnd (·.intLen) l 0) := by
  obtain ⟨hp, hl, hq⟩ := hf
  have he : ¬ (Vector3D.equal p0 p1 = true) := fun h => hp ((equal_iff p0 p1).mp h)
  obtain ⟨_, _, s⟩ := beamOn_state tr (inv_run tr h) hp
  obtain ⟨s0, -, -, s3, s4, -⟩ := s l hl
  have := s3 (hq.imp id (unspoiled_of (by intro j hj; simp only [Spoils] at hj ⊢; simp at hj; simp [hj])))
  simp only [getNIntlen, if_neg he, s0, this, s4, Res.bind_ok]
  exact sumLengths_eq rnd (·.intLen) l 0

/-! ### C148 -/

/-- The number of radiation lengths is the sum over the volumes of length over radiation length, up to one rounding more than
there are volumes that count. -/
theorem radlen_double (R : Rounding rnd u) (hu0 : 0 ≤ u) (hu : u ≤ 1) (hf : Fresh tr h .nRadlen p0 p1 l)
    (hl : Sound (·.radLen) l) :
    ∃ v, (getNRadlen rnd tr (run tr h) p0 p1).1 = .ok v ∧
      (1 - u) ^ ((counted (·.radLen) l).length + 1) * lengths (·.radLen) l ≤ v ∧
      v ≤ (1 + u) ^ ((counted (·.radLen) l).length + 1) * lengths (·.radLen) l := by
  have := total_near R hu0 hu hl le_rfl
  rw [mul_zero, mul_zero, zero_add, zero_add] at this
  exact ⟨_, getNRadlen_eq rnd hf, this⟩

/-- The same for interaction lengths. -/
theorem intlen_double (R : Rounding rnd u) (hu0 : 0 ≤ u) (hu : u ≤ 1) (hf : Fresh tr h .nIntlen p0 p1 l)
    (hl : Sound (·.intLen) l) :
    ∃ v, (getNIntlen rnd tr (run tr h) p0 p1).1 = .ok v ∧
      (1 - u) ^ ((counted (·.intLen) l).length + 1) * lengths (·.intLen) l ≤ v ∧
      v ≤ (1 + u) ^ ((counted (·.intLen) l).length + 1) * lengths (·.intLen) l := by
  have := total_near R hu0 hu hl le_rfl
  rw [mul_zero, mul_zero, zero_add, zero_add] at this
  exact ⟨_, getNIntlen_eq rnd hf, this⟩

/-- A longer path has no fewer radiation lengths, to the last bit. -/
theorem radlen_grows (R : Rounding rnd u) (hf : Fresh tr h .nRadlen p0 p1 l) (hf' : Fresh tr h' .nRadlen q0 q1 l')
    (hl : Longer l l') (hs : Sound (·.radLen) l') :
    ∃ v v', (getNRadlen rnd tr (run tr h) p0 p1).1 = .ok v ∧ (getNRadlen rnd tr (run tr h') q0 q1).1 = .ok v' ∧ v ≤ v' :=
  ⟨_, _, getNRadlen_eq rnd hf, getNRadlen_eq rnd hf', total_longer R hl hs⟩

/-- A longer path has no fewer interaction lengths. -/
theorem intlen_grows (R : Rounding rnd u) (hf : Fresh tr h .nIntlen p0 p1 l) (hf' : Fresh tr h' .nIntlen q0 q1 l')
    (hl : Longer l l') (hs : Sound (·.intLen) l') :
    ∃ v v', (getNIntlen rnd tr (run tr h) p0 p1).1 = .ok v ∧ (getNIntlen rnd tr (run tr h') q0 q1).1 = .ok v' ∧ v ≤ v' :=
  ⟨_, _, getNIntlen_eq rnd hf, getNIntlen_eq rnd hf', total_longer R hl hs⟩

/-- Two pieces of lengths 0.1 and 0.2 (as doubles), of radiation length 1, on every path. -/
def tenths (_ _ : V3 ℚ) : Res (List (Seg ℚ)) :=
  .ok [⟨MaterialMap.binary64 (1 / 10), ⟨"a", "air", 1, 1⟩⟩, ⟨MaterialMap.binary64 (2 / 10), ⟨"b", "iron", 1, 1⟩⟩]

example : Fresh tenths [(.thicknesses, ⟨0, 0, 0⟩, ⟨0, 0, 1⟩), (.nRadlen, ⟨0, 0, 0⟩, ⟨0, 0, 2⟩)] .nRadlen ⟨0, 0, 0⟩ ⟨0, 0, 1⟩
    [⟨MaterialMap.binary64 (1 / 10), ⟨"a", "air", 1, 1⟩⟩, ⟨MaterialMap.binary64 (2 / 10), ⟨"b", "iron", 1, 1⟩⟩] ∧
    Sound (·.radLen) ([⟨MaterialMap.binary64 (1 / 10), ⟨"a", "air", 1, 1⟩⟩,
      ⟨MaterialMap.binary64 (2 / 10), ⟨"b", "iron", 1, 1⟩⟩] : List (Seg ℚ)) := by
  refine ⟨⟨by decide +kernel, rfl, Or.inl (by decide +kernel)⟩, ?_⟩
  unfold Sound
  decide +kernel

example : Longer ([⟨1, ⟨"a", "air", 1, 1⟩⟩, ⟨1 / 2, ⟨"b", "iron", 1, 1⟩⟩] : List (Seg ℚ))
    [⟨1, ⟨"a", "air", 1, 1⟩⟩, ⟨2, ⟨"b", "iron", 1, 1⟩⟩, ⟨3, ⟨"a", "air", 1, 1⟩⟩] :=
  ⟨[⟨1, ⟨"a", "air", 1, 1⟩⟩, ⟨2, ⟨"b", "iron", 1, 1⟩⟩], [⟨3, ⟨"a", "air", 1, 1⟩⟩], rfl,
    .cons ⟨rfl, le_rfl⟩ (.cons ⟨rfl, by norm_num⟩ .nil)⟩

/-- The sum is not exact: 0.1 and 0.2 as doubles, divided by 1. -/
theorem radlen_double_false_exact : ∃ (tr : V3 ℚ → V3 ℚ → Res (List (Seg ℚ))) (p0 p1 : V3 ℚ) (l : List (Seg ℚ)) (v : ℚ),
    Fresh tr [] .nRadlen p0 p1 l ∧ Sound (·.radLen) l ∧
    (getNRadlen MaterialMap.binary64 tr (run tr []) p0 p1).1 = .ok v ∧ v ≠ lengths (·.radLen) l := by
  refine ⟨tenths, ⟨0, 0, 0⟩, ⟨0, 0, 1⟩, _, _, ⟨by decide +kernel, rfl, Or.inl (by decide +kernel)⟩, ?_, getNRadlen_eq _
    ⟨by decide +kernel, rfl, Or.inl (by decide +kernel)⟩, by decide +kernel⟩
  unfold Sound
  decide +kernel

/-- In exact arithmetic the functions are those of `TGeoDistance.lean`, and the state afterwards is in any case. -/
theorem exact_arithmetic (tr : V3 K → V3 K → Res (List (Seg K))) (c : Cache K) (p0 p1 : V3 K) :
    query tr c .nRadlen p0 p1 = ((getNRadlen id tr c p0 p1).1 >>= fun v => .ok (.number v), (getNRadlen rnd tr c p0 p1).2) ∧
    query tr c .nIntlen p0 p1 = ((getNIntlen id tr c p0 p1).1 >>= fun v => .ok (.number v), (getNIntlen rnd tr c p0 p1).2) := by
  have key : ∀ (r d : List K) (s : K), sumLengths id r d s = TGeoDistance.sumLengths r d s := by
    intro r
    induction r with
    | nil => intro d s; rfl
    | cons x r ih =>
      intro d s
      simp only [sumLengths, TGeoDistance.sumLengths]
      split_ifs with h
      · cases d with
        | nil => rfl
        | cons y d => exact ih _ _
      · exact ih _ _
  unfold query getNRadlen getNIntlen
  dsimp only
  constructor <;> split_ifs
  · rfl
  · simp only [key]
    cases (beamOn tr c p0 p1).1 <;> rfl
  · rfl
  · simp only [key]
    cases (beamOn tr c p0 p1).1 <;> rfl

end Gear.TGeoDistance.Double
