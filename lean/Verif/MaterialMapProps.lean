/-
C69, C70: what material maps answer and how they are built.
-/
import Verif.MaterialMapLemmas

set_option autoImplicit false
set_option linter.unusedSectionVars false

namespace Gear.MaterialMap

open Vector3D (V3)
open Spec

variable {K : Type} [Field K] [LinearOrder K] [IsStrictOrderedRing K] [FloorRing K]

/-! ### C70 -/

/-- Arguments against the documentation are rejected with an exception. -/
theorem construct_rejects {F : Arith K} (hF : Exact F) (D : Option (Dist K)) (a : Args K)
    (h : ¬ Accepted F.pi a) (fuel : ℕ) : construct F D a fuel = some (.throw .gear) := by
  classical
  unfold construct
  rw [check_eq hF, if_neg h]

theorem construct_accepted {F : Arith K} (hF : Exact F) (D : Dist K) (a : Args K)
    (h : Accepted F.pi a) (fuel : ℕ) : construct F (some D) a fuel =
      if a.nx + 1 < 2 ^ 31 ∧ a.ny + 1 < 2 ^ 31 ∧ a.nz + 1 < 2 ^ 31 then fill F D a.coord fuel (init F a)
      else some .ub := by
  classical
  unfold construct
  rw [check_eq hF, if_pos h]

theorem construct_ok {F : Arith K} (hF : Exact F) {D : Dist K} {rad int : V3 K → K} (hD : Answers D rad int)
    (a : Args K) (h : Accepted F.pi a) (hfit : AllFit a) :
    ∃ m N, (∀ fuel, N ≤ fuel → construct F (some D) a fuel = some (.ok m)) ∧
      SameAxes m (init F a) ∧
      ∀ i j k : ℕ, (i : ℤ) ≤ a.nx → (j : ℤ) ≤ a.ny → (k : ℤ) ≤ a.nz →
        m.cells i j k = (material rad (world F a.coord (gridPoint a i j k)),
          material int (world F a.coord (gridPoint a i j k))) := by
  obtain ⟨gx, nx⟩ := axis_good hF h.1 hfit.1
  obtain ⟨gy, ny⟩ := axis_good hF h.2.1 hfit.2.1
  obtain ⟨gz, nz⟩ := axis_good hF h.2.2.1 hfit.2.2
  let N := a.nx.toNat + a.ny.toNat + a.nz.toNat + 2
  obtain ⟨m, hm, hax, hc⟩ := fill_ok hF hD a.coord (m := init F a) gx gy gz N (by omega) (by omega) (by omega)
  have hN : construct F (some D) a N = some (.ok m) := by
    rw [construct_accepted hF D a h, if_pos ⟨hfit.1.2, hfit.2.1.2, hfit.2.2.2⟩, hm]
  refine ⟨m, N, fun fuel hf => construct_mono F _ a hf _ hN, hax, ?_⟩
  intro i j k hi hj hk
  have hi' : i ≤ a.nx.toNat := by omega
  have hj' : j ≤ a.ny.toNat := by omega
  have hk' : k ≤ a.nz.toNat := by omega
  rw [hc, if_pos ⟨hi', hj', hk'⟩]
  have e1 := nx i hi'
  have e2 := ny j hj'
  have e3 := nz k hk'
  unfold val gridPoint
  rw [← e1, ← e2, ← e3]
  rfl

/-- For accepted arguments with proper ranges (`AllFit`) construction ends, after a number of passes that depends
on the arguments only, without leaving the array, and every cell holds the material between the vertex and its grid
point.  Missing: the other accepted arguments, see `construct_false`; rounding, see `construct_false_last_cell` and
`construct_false_endless`. -/
theorem construct_partial {F : Arith K} (hF : Exact F) {D : Dist K} {rad int : V3 K → K} (hD : Answers D rad int)
    (a : Args K) (h : Accepted F.pi a) (hfit : AllFit a) :
    ∃ m N, (∀ fuel, N ≤ fuel → construct F (some D) a fuel = some (.ok m)) ∧
      ∀ i j k : ℕ, (i : ℤ) ≤ a.nx → (j : ℤ) ≤ a.ny → (k : ℤ) ≤ a.nz →
        m.cells i j k = (material rad (world F a.coord (gridPoint a i j k)),
          material int (world F a.coord (gridPoint a i j k))) := by
  obtain ⟨m, N, h1, _, h2⟩ := construct_ok hF hD a h hfit
  exact ⟨m, N, h1, h2⟩

/-- All other accepted arguments lead to undefined behaviour: a grid index that does not exist. -/
theorem construct_false {F : Arith K} (hF : Exact F) {D : Dist K} {rad int : V3 K → K} (hD : Answers D rad int)
    (a : Args K) (h : Accepted F.pi a) (hfit : ¬ AllFit a) :
    ∃ N, ∀ fuel, N ≤ fuel → construct F (some D) a fuel = some .ub := by
  by_cases hs : a.nx + 1 < 2 ^ 31 ∧ a.ny + 1 < 2 ^ 31 ∧ a.nz + 1 < 2 ^ 31
  · have key : ∀ {lo hi : K} {n : ℤ}, lo ≤ hi → 0 ≤ n → n + 1 < 2 ^ 31 →
        (Bad (axis F lo hi n) ∨ ∃ k, Good (axis F lo hi n) k) ∧ (¬ Fits lo hi n → Bad (axis F lo hi n)) := by
      intro lo hi n h1 h2 h3
      refine ⟨?_, fun h => axis_bad hF h1 h2 h3 h⟩
      by_cases hf : Fits lo hi n
      · exact Or.inr ⟨_, (axis_good hF h1 hf).1⟩
      · exact Or.inl (axis_bad hF h1 h2 h3 hf)
    have kx := key h.1 h.2.2.2.1 hs.1
    have ky := key h.2.1 h.2.2.2.2.1 hs.2.1
    have kz := key h.2.2.1 h.2.2.2.2.2.1 hs.2.2
    obtain ⟨N, hN⟩ := fill_ub hF hD a.coord (m := init F a) kx.1 ky.1 kz.1 (by
      by_contra hc
      simp only [not_or] at hc
      apply hfit
      refine ⟨?_, ?_, ?_⟩
      · by_contra hf; exact hc.1 (kx.2 hf)
      · by_contra hf; exact hc.2.1 (ky.2 hf)
      · by_contra hf; exact hc.2.2 (kz.2 hf))
    refine ⟨N, fun fuel hf => ?_⟩
    rw [construct_accepted hF D a h, if_pos hs]
    exact hN fuel hf
  · refine ⟨0, fun fuel _ => ?_⟩
    rw [construct_accepted hF D a h, if_neg hs]

/-- Which arguments give a map. -/
theorem construct_iff {F : Arith K} (hF : Exact F) {D : Dist K} {rad int : V3 K → K} (hD : Answers D rad int)
    (a : Args K) : (∃ fuel m, construct F (some D) a fuel = some (.ok m)) ↔ Accepted F.pi a ∧ AllFit a := by
  constructor
  · rintro ⟨fuel, m, hm⟩
    have hacc : Accepted F.pi a := by
      by_contra hc
      rw [construct_rejects hF _ a hc] at hm
      cases hm
    refine ⟨hacc, ?_⟩
    by_contra hc
    obtain ⟨N, hN⟩ := construct_false hF hD a hacc hc
    have h1 := construct_mono F _ a (Nat.le_max_left fuel N) _ hm
    rw [hN _ (Nat.le_max_right fuel N)] at h1
    cases h1
  · rintro ⟨h1, h2⟩
    obtain ⟨m, N, hN, _⟩ := construct_partial hF hD a h1 h2
    exact ⟨N, m, hN N le_rfl⟩

/-- A manager without distance properties gives an exception. -/
theorem construct_no_distance {F : Arith K} (hF : Exact F) (a : Args K) (h : Accepted F.pi a) (fuel : ℕ) :
    ∃ key, construct F none a fuel = some (.throw (.unknownParameter key)) := by
  classical
  unfold construct
  rw [check_eq hF, if_pos h]
  exact ⟨_, rfl⟩

/-- Exact arithmetic for the examples; the square root is only used with arguments 0 and 1. -/
def exactQ : Arith ℚ := { pi := 355 / 113, cos := fun _ => 1, sin := fun _ => 0, sqrt := fun v => |v|, rnd := id }

theorem exactQ_exact : Exact exactQ := ⟨fun _ => rfl, fun _ => abs_nonneg _, by simp [exactQ]⟩

/-- Distance properties for the examples: the material grows with x. -/
def sampleDist : Dist ℚ := ⟨fun _ e => .ok (e.x + 1), fun _ e => .ok (2 * e.x + 2)⟩

theorem sampleDist_answers : Answers sampleDist (fun e => e.x + 1) (fun e => 2 * e.x + 2) := fun _ => ⟨rfl, rfl⟩

example : Accepted exactQ.pi ⟨0, 4, 2, -1, 1, 3, 5, 5, 0, 0⟩ ∧
    AllFit (⟨0, 4, 2, -1, 1, 3, 5, 5, 0, 0⟩ : Args ℚ) := by
  unfold Accepted AllFit Fits; norm_num

example : Accepted exactQ.pi ⟨0, 4, 2, 0, 3, 3, 0, 6, 2, 2⟩ := by
  unfold Accepted exactQ; norm_num

/-- Accepted, but a range of length 4 without steps, and an empty range with steps. -/
example : Accepted exactQ.pi ⟨0, 4, 0, 0, 0, 3, 5, 5, 0, 0⟩ ∧
    ¬ AllFit (⟨0, 4, 0, 0, 0, 3, 5, 5, 0, 0⟩ : Args ℚ) := by
  unfold Accepted AllFit Fits; norm_num

/-- The arithmetic of doubles for the examples. -/
def double : Arith ℚ :=
  { pi := binary64 (3141592653589793 / 10 ^ 15), cos := fun _ => 1, sin := fun _ => 0, sqrt := fun v => |v|,
    rnd := binary64 }

/-- Everything is a wall of one radiation length. -/
def wall : Dist ℚ := ⟨fun _ _ => .ok 1, fun _ _ => .ok 1⟩

/-- With the rounding of doubles, a map from 0 to 1 with 9 steps: the sum of the nine steps is above 1, the loop
ends before the last grid point, and its cell keeps the value zero. -/
theorem construct_false_last_cell : Accepted double.pi ⟨0, 1, 9, 0, 0, 0, 1, 1, 0, 0⟩ ∧
    AllFit (⟨0, 1, 9, 0, 0, 0, 1, 1, 0, 0⟩ : Args ℚ) ∧
    ∃ m fuel, construct double (some wall) ⟨0, 1, 9, 0, 0, 0, 1, 1, 0, 0⟩ fuel = some (.ok m) ∧
      m.cells 8 0 0 = (1, 1) ∧ m.cells 9 0 0 = (0, 0) := by
  refine ⟨?_, ?_, ?_⟩
  · unfold Accepted; norm_num
  · unfold AllFit Fits; norm_num
  · have h : (match construct double (some wall) ⟨0, 1, 9, 0, 0, 0, 1, 1, 0, 0⟩ 11 with
        | some (.ok m) => decide (m.cells 8 0 0 = (1, 1) ∧ m.cells 9 0 0 = (0, 0))
        | _ => false) = true := by decide +kernel
    cases hc : construct double (some wall) ⟨0, 1, 9, 0, 0, 0, 1, 1, 0, 0⟩ 11 with
    | none => rw [hc] at h; cases h
    | some r =>
      cases r with
      | ok m => rw [hc] at h; exact ⟨m, 11, hc, (of_decide_eq_true h).1, (of_decide_eq_true h).2⟩
      | throw e => rw [hc] at h; cases h
      | ub => rw [hc] at h; cases h

theorem loop_stuck {σ : Type} {F : Arith K} {hi step v : K} {f : K → σ → Option (Res σ)} (P : σ → Prop)
    (hv : v ≤ hi) (hstuck : F.add v step = v) (hf : ∀ s, P s → ∃ s', f v s = some (.ok s') ∧ P s') :
    ∀ (fuel : ℕ) (s : σ), P s → loop F hi step f fuel v s = none := by
  intro fuel
  induction fuel with
  | zero => intro s _; rfl
  | succ n ih =>
    intro s hs
    obtain ⟨s', h1, h2⟩ := hf s hs
    unfold loop
    rw [if_pos hv, h1]
    simp only
    rw [hstuck]
    exact ih s' h2

/-- With the rounding of doubles, steps of one half at 2^53 (the unit is then 2): the loop variable does not change
any more, and the constructor never returns. -/
theorem construct_false_endless : Accepted double.pi ⟨0, 0, 0, 0, 0, 0, 2 ^ 53, 2 ^ 53 + 2, 4, 0⟩ ∧
    AllFit (⟨0, 0, 0, 0, 0, 0, 2 ^ 53, 2 ^ 53 + 2, 4, 0⟩ : Args ℚ) ∧
    ∀ fuel, construct double (some wall) ⟨0, 0, 0, 0, 0, 0, 2 ^ 53, 2 ^ 53 + 2, 4, 0⟩ fuel = none := by
  refine ⟨?_, ?_, ?_⟩
  · unfold Accepted; norm_num
  · unfold AllFit Fits; norm_num
  intro fuel
  cases fuel with
  | zero => decide +kernel
  | succ n =>
    have hx : (init double (⟨0, 0, 0, 0, 0, 0, 2 ^ 53, 2 ^ 53 + 2, 4, 0⟩ : Args ℚ)).x = ⟨0, 0, 0, 1⟩ := rfl
    have hy : (init double (⟨0, 0, 0, 0, 0, 0, 2 ^ 53, 2 ^ 53 + 2, 4, 0⟩ : Args ℚ)).y = ⟨0, 0, 0, 1⟩ := rfl
    have hzs : (init double (⟨0, 0, 0, 0, 0, 0, 2 ^ 53, 2 ^ 53 + 2, 4, 0⟩ : Args ℚ)).z =
        ⟨2 ^ 53, 2 ^ 53 + 2, 4, 1 / 2⟩ := by
      have : (init double (⟨0, 0, 0, 0, 0, 0, 2 ^ 53, 2 ^ 53 + 2, 4, 0⟩ : Args ℚ)).z.step = 1 / 2 := by decide +kernel
      unfold init axis at this ⊢
      simp only at this ⊢
      rw [this]
    have hbody : ∀ s : Map ℚ, SameAxes s (init double (⟨0, 0, 0, 0, 0, 0, 2 ^ 53, 2 ^ 53 + 2, 4, 0⟩ : Args ℚ)) →
        ∃ s', body double wall 0 s ⟨0, 0, 2 ^ 53⟩ = .ok s' ∧
          SameAxes s' (init double (⟨0, 0, 0, 0, 0, 0, 2 ^ 53, 2 ^ 53 + 2, 4, 0⟩ : Args ℚ)) := by
      rintro s ⟨e1, e2, e3⟩
      have hg : gridIndex double s ⟨0, 0, 2 ^ 53⟩ = .ok (0, 0, 0) := by
        have hh : gridIndex double ⟨⟨0, 0, 0, 1⟩, ⟨0, 0, 0, 1⟩, ⟨2 ^ 53, 2 ^ 53 + 2, 4, 1 / 2⟩, fun _ _ _ => (0, 0)⟩
          ⟨0, 0, 2 ^ 53⟩ = .ok (0, 0, 0) := by decide +kernel
        unfold gridIndex at hh ⊢
        rw [e1, e2, e3, hx, hy, hzs]
        exact hh
      have hv : values wall (endPoint double 0 ⟨0, 0, 2 ^ 53⟩) = .ok (1, 1) := by decide +kernel
      unfold body
      rw [hv, Res.bind_ok, hg, Res.bind_ok]
      unfold write
      rw [if_pos (by unfold inGrid; rw [e1, e2, e3, hx, hy, hzs]; norm_num)]
      exact ⟨_, rfl, e1, e2, e3⟩
    have hc : check double (⟨0, 0, 0, 0, 0, 0, 2 ^ 53, 2 ^ 53 + 2, 4, 0⟩ : Args ℚ) = .ok () := by decide +kernel
    unfold construct
    rw [hc]
    simp only
    rw [if_pos (by norm_num)]
    have hz : ∀ s, SameAxes s (init double (⟨0, 0, 0, 0, 0, 0, 2 ^ 53, 2 ^ 53 + 2, 4, 0⟩ : Args ℚ)) →
        zLoop double wall 0 (n + 1) (init double ⟨0, 0, 0, 0, 0, 0, 2 ^ 53, 2 ^ 53 + 2, 4, 0⟩) 0 0 s = none := by
      intro s hs
      unfold zLoop
      rw [hzs]
      refine loop_stuck (fun s => SameAxes s (init double (⟨0, 0, 0, 0, 0, 0, 2 ^ 53, 2 ^ 53 + 2, 4, 0⟩ : Args ℚ)))
        (by norm_num) (by decide +kernel) ?_ (n + 1) s hs
      intro t ht
      obtain ⟨t', h1, h2⟩ := hbody t ht
      exact ⟨t', by rw [h1], h2⟩
    have hyl : yLoop double wall 0 (n + 1) (init double ⟨0, 0, 0, 0, 0, 0, 2 ^ 53, 2 ^ 53 + 2, 4, 0⟩) 0
        (init double ⟨0, 0, 0, 0, 0, 0, 2 ^ 53, 2 ^ 53 + 2, 4, 0⟩) = none := by
      unfold yLoop loop
      rw [hy, if_pos le_rfl]
      dsimp only
      rw [hz _ ⟨rfl, rfl, rfl⟩]
    rw [fill_eq]
    unfold loop
    rw [hx, if_pos le_rfl]
    dsimp only
    rw [hyl]

/-! ### C69 -/

section Queries

variable {F : Arith K} (hF : Exact F) {D : Dist K} {rad int : V3 K → K} (hD : Answers D rad int)
include hF hD

/-- What is known of a map that has been built. -/
theorem built {a : Args K} {m : Map K} {fuel : ℕ} (hm : construct F (some D) a fuel = some (.ok m)) :
    (Good m.x a.nx.toNat ∧ Good m.y a.ny.toNat ∧ Good m.z a.nz.toNat) ∧ Accepted F.pi a ∧ AllFit a ∧
    SameAxes m (init F a) ∧
    ∀ i j k : ℕ, (i : ℤ) ≤ a.nx → (j : ℤ) ≤ a.ny → (k : ℤ) ≤ a.nz →
      m.cells i j k = (material rad (world F a.coord (gridPoint a i j k)),
        material int (world F a.coord (gridPoint a i j k))) := by
  obtain ⟨h, hfit⟩ := (construct_iff hF hD a).1 ⟨fuel, m, hm⟩
  obtain ⟨m', N, h1, h2, h3⟩ := construct_ok hF hD a h hfit
  have e : m' = m := by
    have e1 := construct_mono F _ a (Nat.le_max_left fuel N) _ hm
    rw [h1 _ (Nat.le_max_right fuel N)] at e1
    cases e1; rfl
  subst e
  have h2' := h2
  obtain ⟨ex, ey, ez⟩ := h2
  rw [ex, ey, ez]
  exact ⟨⟨(axis_good hF h.1 hfit.1).1, (axis_good hF h.2.1 hfit.2.1).1, (axis_good hF h.2.2.1 hfit.2.2).1⟩,
    h, hfit, h2', h3⟩

/-- A point at most `step` away from the grid has neighbours, which are grid points. -/
theorem query_built {a : Args K} {m : Map K} {fuel : ℕ} (hm : construct F (some D) a fuel = some (.ok m))
    (p : V3 K) {g0 : ℤ × ℤ × ℤ} (hg : gridIndex F m p = .ok g0)
    (hx : -m.x.step < p.x - m.x.lo ∧ p.x - m.x.lo < (a.nx.toNat + 1) * m.x.step)
    (hy : -m.y.step < p.y - m.y.lo ∧ p.y - m.y.lo < (a.ny.toNat + 1) * m.y.step)
    (hz : -m.z.step < p.z - m.z.lo ∧ p.z - m.z.lo < (a.nz.toNat + 1) * m.z.step)
    (near : ℕ → ℕ → ℕ → Prop)
    (hn : ∀ i j k : ℕ, i ≤ a.nx.toNat → j ≤ a.ny.toNat → k ≤ a.nz.toNat →
      m.x.lo + i * m.x.step ∈ neighbours F m.x p.x → m.y.lo + j * m.y.step ∈ neighbours F m.y p.y →
      m.z.lo + k * m.z.step ∈ neighbours F m.z p.z → near i j k) :
    ∃ v w, getRadiationLength F m p = .ok (some v) ∧ getInteractionLength F m p = .ok (some w) ∧
      (∀ L U, (∀ i j k : ℕ, (i : ℤ) ≤ a.nx → (j : ℤ) ≤ a.ny → (k : ℤ) ≤ a.nz → near i j k →
        L ≤ material rad (world F a.coord (gridPoint a i j k)) ∧
        material rad (world F a.coord (gridPoint a i j k)) ≤ U) → L ≤ v ∧ v ≤ U) ∧
      (∀ L U, (∀ i j k : ℕ, (i : ℤ) ≤ a.nx → (j : ℤ) ≤ a.ny → (k : ℤ) ≤ a.nz → near i j k →
        L ≤ material int (world F a.coord (gridPoint a i j k)) ∧
        material int (world F a.coord (gridPoint a i j k)) ≤ U) → L ≤ w ∧ w ≤ U) := by
  obtain ⟨⟨gx, gy, gz⟩, hacc, hfit, _, hc⟩ := built hF hD hm
  obtain ⟨x1, x2, _⟩ := neighbours_nodes hF gx hx.1 hx.2
  obtain ⟨y1, y2, _⟩ := neighbours_nodes hF gy hy.1 hy.2
  obtain ⟨z1, z2, _⟩ := neighbours_nodes hF gz hz.1 hz.2
  have hne := corners_ne_nil x1 y1 z1
  have hcorner : ∀ q ∈ corners F m p, ∃ i j k : ℕ, (i : ℤ) ≤ a.nx ∧ (j : ℤ) ≤ a.ny ∧ (k : ℤ) ≤ a.nz ∧ near i j k ∧
      gridIndex F m q = .ok ((i : ℤ), (j : ℤ), (k : ℤ)) ∧
      read m ((i : ℤ), (j : ℤ), (k : ℤ)) = .ok (m.cells i j k) := by
    rintro ⟨qx, qy, qz⟩ hq
    obtain ⟨q1, q2, q3⟩ := mem_corners hq
    simp only at q1 q2 q3
    obtain ⟨i, hi, rfl⟩ := x2 qx q1
    obtain ⟨j, hj, rfl⟩ := y2 qy q2
    obtain ⟨k, hk, rfl⟩ := z2 qz q3
    obtain ⟨r1, r2⟩ := read_at hF (at_pass hF gx i hi) (at_pass hF gy j hj) (at_pass hF gz k hk)
    have a1 := hacc.2.2.2.1
    have a2 := hacc.2.2.2.2.1
    have a3 := hacc.2.2.2.2.2.1
    exact ⟨i, j, k, by omega, by omega, by omega, hn i j k hi hj hk q1 q2 q3, r1, r2⟩
  have main : ∀ L U L' U' : K, (∀ i j k : ℕ, (i : ℤ) ≤ a.nx → (j : ℤ) ≤ a.ny → (k : ℤ) ≤ a.nz → near i j k →
      L ≤ (m.cells i j k).1 ∧ (m.cells i j k).1 ≤ U ∧ L' ≤ (m.cells i j k).2 ∧ (m.cells i j k).2 ≤ U') →
      Between F m (corners F m p) L U L' U' := by
    intro L U L' U' hb q hq
    obtain ⟨i, j, k, h1, h2, h3, h4, h5, h6⟩ := hcorner q hq
    exact ⟨_, h5, _, h6, hb i j k h1 h2 h3 h4⟩
  -- bounds that hold for all cells
  obtain ⟨B, hB⟩ : ∃ B : K, ∀ i j k : ℕ, i ≤ a.nx.toNat → j ≤ a.ny.toNat → k ≤ a.nz.toNat →
      |(m.cells i j k).1| ≤ B ∧ |(m.cells i j k).2| ≤ B := by
    refine ⟨∑ i ∈ Finset.range (a.nx.toNat + 1), ∑ j ∈ Finset.range (a.ny.toNat + 1),
      ∑ k ∈ Finset.range (a.nz.toNat + 1), (|(m.cells i j k).1| + |(m.cells i j k).2|), ?_⟩
    intro i j k hi hj hk
    have s1 : |(m.cells i j k).1| + |(m.cells i j k).2| ≤
        ∑ k ∈ Finset.range (a.nz.toNat + 1), (|(m.cells i j k).1| + |(m.cells i j k).2|) :=
      Finset.single_le_sum (f := fun k => |(m.cells i j k).1| + |(m.cells i j k).2|)
        (fun k _ => by positivity) (Finset.mem_range.mpr (by omega))
    have s2 : (∑ k ∈ Finset.range (a.nz.toNat + 1), (|(m.cells i j k).1| + |(m.cells i j k).2|)) ≤
        ∑ j ∈ Finset.range (a.ny.toNat + 1), ∑ k ∈ Finset.range (a.nz.toNat + 1),
          (|(m.cells i j k).1| + |(m.cells i j k).2|) :=
      Finset.single_le_sum (f := fun j => ∑ k ∈ Finset.range (a.nz.toNat + 1),
          (|(m.cells i j k).1| + |(m.cells i j k).2|))
        (fun j _ => Finset.sum_nonneg fun k _ => by positivity) (Finset.mem_range.mpr (by omega))
    have s3 : (∑ j ∈ Finset.range (a.ny.toNat + 1), ∑ k ∈ Finset.range (a.nz.toNat + 1),
          (|(m.cells i j k).1| + |(m.cells i j k).2|)) ≤
        ∑ i ∈ Finset.range (a.nx.toNat + 1), ∑ j ∈ Finset.range (a.ny.toNat + 1),
          ∑ k ∈ Finset.range (a.nz.toNat + 1), (|(m.cells i j k).1| + |(m.cells i j k).2|) :=
      Finset.single_le_sum (f := fun i => ∑ j ∈ Finset.range (a.ny.toNat + 1),
          ∑ k ∈ Finset.range (a.nz.toNat + 1), (|(m.cells i j k).1| + |(m.cells i j k).2|))
        (fun i _ => Finset.sum_nonneg fun j _ => Finset.sum_nonneg fun k _ => by positivity)
        (Finset.mem_range.mpr (by omega))
    have p1 := abs_nonneg (m.cells i j k).1
    have p2 := abs_nonneg (m.cells i j k).2
    constructor <;> linarith
  have hB' : ∀ i j k : ℕ, (i : ℤ) ≤ a.nx → (j : ℤ) ≤ a.ny → (k : ℤ) ≤ a.nz →
      -B ≤ (m.cells i j k).1 ∧ (m.cells i j k).1 ≤ B ∧ -B ≤ (m.cells i j k).2 ∧ (m.cells i j k).2 ≤ B := by
    intro i j k hi hj hk
    obtain ⟨b1, b2⟩ := hB i j k (by omega) (by omega) (by omega)
    rw [abs_le] at b1 b2
    exact ⟨b1.1, b1.2, b2.1, b2.2⟩
  obtain ⟨v, w, hv, hw, _⟩ := query_between hF hg hne
    (main (-B) B (-B) B (fun i j k hi hj hk _ => hB' i j k hi hj hk))
  refine ⟨v, w, hv, hw, ?_, ?_⟩
  · intro L U hLU
    obtain ⟨v', w', hv', hw', r1, r2, _⟩ := query_between hF hg hne (main L U (-B) B (by
      intro i j k hi hj hk hnear
      have h1 := hLU i j k hi hj hk hnear
      have h2 := hB' i j k hi hj hk
      rw [hc i j k hi hj hk] at h2 ⊢
      exact ⟨h1.1, h1.2, h2.2.2.1, h2.2.2.2⟩))
    rw [hv] at hv'; cases hv'
    exact ⟨r1, r2⟩
  · intro L U hLU
    obtain ⟨v', w', hv', hw', _, _, r1, r2⟩ := query_between hF hg hne (main (-B) B L U (by
      intro i j k hi hj hk hnear
      have h1 := hLU i j k hi hj hk hnear
      have h2 := hB' i j k hi hj hk
      rw [hc i j k hi hj hk] at h2 ⊢
      exact ⟨h2.1, h2.2.1, h1.1, h1.2⟩))
    rw [hw] at hw'; cases hw'
    exact ⟨r1, r2⟩

theorem axis_inside {lo hi : K} {n : ℤ} {v : K} (g : Good (axis F lo hi n) n.toNat) (h : lo ≤ v ∧ v ≤ hi) :
    ¬ outside F (axis F lo hi n) v ∧ -(axis F lo hi n).step < v - (axis F lo hi n).lo ∧
    v - (axis F lo hi n).lo < (n.toNat + 1) * (axis F lo hi n).step := by
  refine ⟨not_outside hF _ _ h.1 h.2, ?_, ?_⟩
  · have h1 := g.step_pos
    have h2 : (axis F lo hi n).lo = lo := rfl
    rw [h2]; linarith [h.1]
  · have h1 := g.lt
    have h2 : (axis F lo hi n).hi = hi := rfl
    rw [h2] at h1; linarith [h.2]

/-- For every point inside a map both queries answer a number, which lies between the smallest and the largest of
the values at the grid points at most one step away.  Missing: rounding, see `interpolation_false_rounding`, and the
border of 1e-5 around the map, see `interpolation_false_border`. -/
theorem interpolation_between_partial {a : Args K} {m : Map K} {fuel : ℕ}
    (hm : construct F (some D) a fuel = some (.ok m)) (p : V3 K) (hp : Inside a p) :
    ∃ v w, getRadiationLength F m p = .ok (some v) ∧ getInteractionLength F m p = .ok (some w) ∧
      (∀ L U, (∀ i j k : ℕ, Neighbour a p i j k → L ≤ material rad (world F a.coord (gridPoint a i j k)) ∧
        material rad (world F a.coord (gridPoint a i j k)) ≤ U) → L ≤ v ∧ v ≤ U) ∧
      (∀ L U, (∀ i j k : ℕ, Neighbour a p i j k → L ≤ material int (world F a.coord (gridPoint a i j k)) ∧
        material int (world F a.coord (gridPoint a i j k)) ≤ U) → L ≤ w ∧ w ≤ U) := by
  obtain ⟨⟨gx, gy, gz⟩, hacc, hfit, ⟨ex, ey, ez⟩, hc⟩ := built hF hD hm
  rw [ex] at gx; rw [ey] at gy; rw [ez] at gz
  obtain ⟨ox, x1, x2⟩ := axis_inside hF hD gx hp.1
  obtain ⟨oy, y1, y2⟩ := axis_inside hF hD gy hp.2.1
  obtain ⟨oz, z1, z2⟩ := axis_inside hF hD gz hp.2.2
  have idx : ∀ {lo hi : K} {n : ℤ} {v : K}, 0 ≤ n → Good (axis F lo hi n) n.toNat → lo ≤ v ∧ v ≤ hi →
      ∃ i, index F (axis F lo hi n) v = .ok i := by
    intro lo hi n v hn g h
    have hs := g.step_pos
    unfold index
    rw [if_neg hs.ne', add_eq hF, div_eq hF, sub_eq hF]
    have h0 : 0 ≤ (v - lo) / (axis F lo hi n).step := div_nonneg (by linarith [h.1]) hs.le
    have h0' : 0 ≤ (v - (axis F lo hi n).lo) / (axis F lo hi n).step + 1 / 2 := by
      have : (axis F lo hi n).lo = lo := rfl
      rw [this]; linarith
    have h1 : (v - (axis F lo hi n).lo) / (axis F lo hi n).step + 1 / 2 < ((n + 2 : ℤ) : K) := by
      have h2 := (axis_inside hF hD g h).2.2
      rw [← div_lt_iff₀ hs] at h2
      have hcst : ((n.toNat : ℕ) : K) = (n : K) := by
        have : ((n.toNat : ℕ) : ℤ) = n := Int.toNat_of_nonneg hn
        exact_mod_cast congrArg (Int.cast : ℤ → K) this
      rw [hcst] at h2
      push_cast
      linarith
    unfold toInt
    rw [truncInt, if_pos h0']
    have f0 := Int.floor_nonneg.mpr h0'
    have f1 := Int.floor_lt.mpr h1
    have f2 := g.small
    rw [Int.toNat_of_nonneg hn] at f2
    rw [if_pos ⟨by omega, by omega⟩]
    exact ⟨_, rfl⟩
  obtain ⟨i0, hi0⟩ := idx hacc.2.2.2.1 gx hp.1
  obtain ⟨j0, hj0⟩ := idx hacc.2.2.2.2.1 gy hp.2.1
  obtain ⟨k0, hk0⟩ := idx hacc.2.2.2.2.2.1 gz hp.2.2
  have hg : gridIndex F m p = .ok (i0, j0, k0) := by
    unfold gridIndex
    rw [ex, ey, ez]
    show (if outside F (axis F a.xmin a.xmax a.nx) p.x ∨ outside F (axis F a.ymin a.ymax a.ny) p.y ∨
      outside F (axis F a.zmin a.zmax a.nz) p.z then _ else _) = _
    rw [if_neg (by rintro (h | h | h); exacts [ox h, oy h, oz h])]
    show (index F (axis F a.xmin a.xmax a.nx) p.x >>= fun i => index F (axis F a.ymin a.ymax a.ny) p.y >>= fun j =>
      index F (axis F a.zmin a.zmax a.nz) p.z >>= fun k => pure (i, j, k)) = _
    rw [hi0, hj0, hk0]; rfl
  have adj : ∀ {lo hi : K} {n : ℤ} {v : K} (i : ℕ), 0 ≤ n → lo ≤ hi → Fits lo hi n →
      Good (axis F lo hi n) n.toNat → lo ≤ v ∧ v ≤ hi →
      i ≤ n.toNat → (axis F lo hi n).lo + i * (axis F lo hi n).step ∈ neighbours F (axis F lo hi n) v →
      Adjacent lo hi n v i := by
    intro lo hi n v i hn hle hf g h hi' hmem
    refine ⟨by omega, ?_⟩
    by_cases h0 : n = 0
    · exact Or.inl h0
    right
    obtain ⟨_, h1, h2⟩ := axis_inside hF hD g h
    have := (neighbours_nodes hF g h1 h2).2.2 h.1 _ hmem
    have e : (axis F lo hi n).lo + i * (axis F lo hi n).step = node lo hi n i := (axis_good hF hle hf).2 i hi'
    rw [e, axis_step hF, if_neg h0] at this
    exact this
  obtain ⟨v, w, hv, hw, h1, h2⟩ := query_built hF hD hm p hg (by rw [ex]; exact ⟨x1, x2⟩) (by rw [ey]; exact ⟨y1, y2⟩)
    (by rw [ez]; exact ⟨z1, z2⟩) (fun i j k => Neighbour a p i j k) (by
      intro i j k hi hj hk n1 n2 n3
      rw [ex] at n1; rw [ey] at n2; rw [ez] at n3
      exact ⟨adj i hacc.2.2.2.1 hacc.1 hfit.1 gx hp.1 hi n1,
        adj j hacc.2.2.2.2.1 hacc.2.1 hfit.2.1 gy hp.2.1 hj n2,
        adj k hacc.2.2.2.2.2.1 hacc.2.2.1 hfit.2.2 gz hp.2.2 hk n3⟩)
  exact ⟨v, w, hv, hw, fun L U h => h1 L U (fun i j k _ _ _ hn => h i j k hn),
    fun L U h => h2 L U (fun i j k _ _ _ hn => h i j k hn)⟩

/-- At every grid point both queries answer the material between the vertex and that point.  Missing:
rounding, see `interpolation_false_rounding`. -/
theorem interpolation_at_grid_partial {a : Args K} {m : Map K} {fuel : ℕ}
    (hm : construct F (some D) a fuel = some (.ok m)) (i j k : ℕ) (hi : (i : ℤ) ≤ a.nx) (hj : (j : ℤ) ≤ a.ny)
    (hk : (k : ℤ) ≤ a.nz) :
    getRadiationLength F m (gridPoint a i j k) =
      .ok (some (material rad (world F a.coord (gridPoint a i j k)))) ∧
    getInteractionLength F m (gridPoint a i j k) =
      .ok (some (material int (world F a.coord (gridPoint a i j k)))) := by
  obtain ⟨⟨gx, gy, gz⟩, hacc, hfit, ⟨ex, ey, ez⟩, hc⟩ := built hF hD hm
  have hi' : i ≤ a.nx.toNat := by omega
  have hj' : j ≤ a.ny.toNat := by omega
  have hk' : k ≤ a.nz.toNat := by omega
  have h := query_at hF gx gy gz hi' hj' hk'
  have e1 := (axis_good hF hacc.1 hfit.1).2 i hi'
  have e2 := (axis_good hF hacc.2.1 hfit.2.1).2 j hj'
  have e3 := (axis_good hF hacc.2.2.1 hfit.2.2).2 k hk'
  rw [hc i j k hi hj hk, ex, ey, ez] at h
  have e : gridPoint a i j k = ⟨(init F a).x.lo + i * (init F a).x.step, (init F a).y.lo + j * (init F a).y.step,
      (init F a).z.lo + k * (init F a).z.step⟩ := by
    unfold gridPoint
    rw [← e1, ← e2, ← e3]; rfl
  rw [← e] at h
  exact h

/-- A query further than 1e-5 outside the map is answered with an exception. -/
theorem outside_throws {a : Args K} {m : Map K} {fuel : ℕ}
    (hm : construct F (some D) a fuel = some (.ok m)) (p : V3 K)
    (hp : p.x + 1 / 100000 < a.xmin ∨ a.xmax < p.x - 1 / 100000 ∨ p.y + 1 / 100000 < a.ymin ∨
      a.ymax < p.y - 1 / 100000 ∨ p.z + 1 / 100000 < a.zmin ∨ a.zmax < p.z - 1 / 100000) :
    getRadiationLength F m p = .throw .gear ∧ getInteractionLength F m p = .throw .gear := by
  obtain ⟨_, _, _, ⟨ex, ey, ez⟩, _⟩ := built hF hD hm
  have hg : gridIndex F m p = .throw .gear := by
    unfold gridIndex
    rw [if_pos]
    unfold outside
    simp only [add_eq hF, sub_eq hF, tol_eq hF, ex, ey, ez]
    show (p.x + 1 / 100000 < a.xmin ∨ p.x - 1 / 100000 > a.xmax) ∨
      (p.y + 1 / 100000 < a.ymin ∨ p.y - 1 / 100000 > a.ymax) ∨
      (p.z + 1 / 100000 < a.zmin ∨ p.z - 1 / 100000 > a.zmax)
    tauto
  unfold getRadiationLength getInteractionLength
  rw [hg]
  exact ⟨rfl, rfl⟩

end Queries

/-- The hypotheses are met: a map of 3 x 1 x 1 cells, queried between two grid points. -/
example : ∃ m fuel, construct exactQ (some sampleDist) ⟨0, 2, 2, 0, 0, 0, 0, 0, 0, 0⟩ fuel = some (.ok m) ∧
    Inside (⟨0, 2, 2, 0, 0, 0, 0, 0, 0, 0⟩ : Args ℚ) ⟨1 / 2, 0, 0⟩ ∧
    getRadiationLength exactQ m ⟨1 / 2, 0, 0⟩ = .ok (some 1) := by
  obtain ⟨m, N, h, _⟩ := construct_partial exactQ_exact sampleDist_answers ⟨0, 2, 2, 0, 0, 0, 0, 0, 0, 0⟩
    (by unfold Accepted; norm_num) (by unfold AllFit Fits; norm_num)
  refine ⟨m, N, h N le_rfl, by unfold Inside; norm_num, ?_⟩
  have h1 := h (max N 4) (Nat.le_max_left _ _)
  have h2 : (match construct exactQ (some sampleDist) ⟨0, 2, 2, 0, 0, 0, 0, 0, 0, 0⟩ 4 with
      | some (.ok m) => decide (getRadiationLength exactQ m ⟨1 / 2, 0, 0⟩ = .ok (some 1))
      | _ => false) = true := by decide +kernel
  cases hc : construct exactQ (some sampleDist) (⟨0, 2, 2, 0, 0, 0, 0, 0, 0, 0⟩ : Args ℚ) 4 with
  | none => rw [hc] at h2; cases h2
  | some r =>
    rw [construct_mono _ _ _ (Nat.le_max_right N 4) _ hc] at h1
    cases h1
    rw [hc] at h2
    exact of_decide_eq_true h2

/-- Points up to 1e-5 outside the map are accepted too.  The answer may then be NaN: a map without steps in x and
a range of nearly 1. -/
theorem interpolation_false_border : Accepted exactQ.pi ⟨0, 999999 / 1000000, 0, 0, 0, 0, 1, 1, 0, 0⟩ ∧
    ∃ m fuel, construct exactQ (some wall) ⟨0, 999999 / 1000000, 0, 0, 0, 0, 1, 1, 0, 0⟩ fuel = some (.ok m) ∧
      getRadiationLength exactQ m ⟨1000001 / 1000000, 0, 1⟩ = .ok none := by
  refine ⟨by unfold Accepted; norm_num, ?_⟩
  have h2 : (match construct exactQ (some wall) ⟨0, 999999 / 1000000, 0, 0, 0, 0, 1, 1, 0, 0⟩ 3 with
      | some (.ok m) => decide (getRadiationLength exactQ m ⟨1000001 / 1000000, 0, 1⟩ = .ok none)
      | _ => false) = true := by decide +kernel
  cases hc : construct exactQ (some wall) (⟨0, 999999 / 1000000, 0, 0, 0, 0, 1, 1, 0, 0⟩ : Args ℚ) 3 with
  | none => rw [hc] at h2; cases h2
  | some r =>
    rw [hc] at h2
    cases r with
    | ok m => exact ⟨m, 3, hc, of_decide_eq_true h2⟩
    | throw e => cases h2
    | ub => cases h2

/-- A single layer of material just before x = 5. -/
def layer : Dist ℚ := ⟨fun _ e => .ok (if 5 ≤ e.x then 1 else 0), fun _ e => .ok (if 5 ≤ e.x then 1 else 0)⟩

/-- With the rounding of doubles, a map from 0 to 5 with 12 steps: the cell of the last grid point holds 1, but the
query at that point answers 0.  The remainder of `fmod` is just below the step, the lower neighbour is the grid
point before, and the upper one is just above 5 and not used. -/
theorem interpolation_false_rounding :
    Accepted double.pi ⟨0, 5, 12, 0, 0, 0, 1, 1, 0, 0⟩ ∧ AllFit (⟨0, 5, 12, 0, 0, 0, 1, 1, 0, 0⟩ : Args ℚ) ∧
    gridPoint (⟨0, 5, 12, 0, 0, 0, 1, 1, 0, 0⟩ : Args ℚ) 12 0 0 = ⟨5, 0, 1⟩ ∧
    ∃ m fuel, construct double (some layer) ⟨0, 5, 12, 0, 0, 0, 1, 1, 0, 0⟩ fuel = some (.ok m) ∧
      m.cells 12 0 0 = (1, 1) ∧ getRadiationLength double m ⟨5, 0, 1⟩ = .ok (some 0) := by
  refine ⟨by unfold Accepted; norm_num, by unfold AllFit Fits; norm_num, by unfold gridPoint node; norm_num, ?_⟩
  have h2 : (match construct double (some layer) ⟨0, 5, 12, 0, 0, 0, 1, 1, 0, 0⟩ 15 with
      | some (.ok m) => decide (m.cells 12 0 0 = (1, 1) ∧ getRadiationLength double m ⟨5, 0, 1⟩ = .ok (some 0))
      | _ => false) = true := by decide +kernel
  cases hc : construct double (some layer) (⟨0, 5, 12, 0, 0, 0, 1, 1, 0, 0⟩ : Args ℚ) 15 with
  | none => rw [hc] at h2; cases h2
  | some r =>
    rw [hc] at h2
    cases r with
    | ok m => exact ⟨m, 15, hc, (of_decide_eq_true h2).1, (of_decide_eq_true h2).2⟩
    | throw e => cases h2
    | ub => cases h2

end Gear.MaterialMap
