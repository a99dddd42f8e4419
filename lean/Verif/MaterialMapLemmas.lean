/-
Lemmas about the model of material maps.
-/
import Verif.MaterialMapSpec
import Verif.DiskLemmas

set_option autoImplicit false
set_option linter.unusedSectionVars false

namespace Gear.MaterialMap

open Vector3D (V3)
open Spec

variable {K : Type} [Field K] [LinearOrder K] [IsStrictOrderedRing K] [FloorRing K]

/-! ### Loops -/

theorem loop_mono {σ : Type} (F : Arith K) (hi step : K) {f g : K → σ → Option (Res σ)}
    (hfg : ∀ v s r, f v s = some r → g v s = some r) :
    ∀ (fuel : ℕ) (v : K) (s : σ) (r : Res σ) (fuel' : ℕ), fuel ≤ fuel' → loop F hi step f fuel v s = some r →
      loop F hi step g fuel' v s = some r := by
  intro fuel
  induction fuel with
  | zero => intro v s r fuel' _ h; simp [loop] at h
  | succ n ih =>
    intro v s r fuel' hle h
    obtain ⟨m, rfl⟩ : ∃ m, fuel' = m + 1 := ⟨fuel' - 1, by omega⟩
    unfold loop at h ⊢
    by_cases hv : v ≤ hi
    · rw [if_pos hv] at h ⊢
      cases hf : f v s with
      | none => rw [hf] at h; simp at h
      | some q =>
        rw [hf] at h
        rw [hfg v s q hf]
        cases q with
        | ok s' => exact ih _ _ _ _ (by omega) h
        | throw e => exact h
        | ub => exact h
    · rw [if_neg hv] at h ⊢
      exact h

theorem fill_mono (F : Arith K) (D : Dist K) (coord : ℤ) {fuel fuel' : ℕ} (hle : fuel ≤ fuel') (m : Map K)
    (r : Res (Map K)) (h : fill F D coord fuel m = some r) : fill F D coord fuel' m = some r := by
  unfold fill at h ⊢
  refine loop_mono F _ _ ?_ fuel _ _ _ _ hle h
  intro x s r' h'
  refine loop_mono F _ _ ?_ fuel _ _ _ _ hle h'
  intro y s r' h'
  exact loop_mono F _ _ (fun _ _ _ h => h) fuel _ _ _ _ hle h'

theorem construct_mono (F : Arith K) (D : Option (Dist K)) (a : Args K) {fuel fuel' : ℕ} (hle : fuel ≤ fuel')
    (r : Res (Map K)) (h : construct F D a fuel = some r) : construct F D a fuel' = some r := by
  unfold construct at h ⊢
  cases hc : check F a with
  | throw e => rw [hc] at h; exact h
  | ub => rw [hc] at h; exact h
  | ok u =>
    rw [hc] at h
    cases D with
    | none => exact h
    | some D =>
      simp only at h ⊢
      split_ifs at h ⊢ with h1
      · exact fill_mono F D _ hle _ _ h
      · exact h

section Exact

variable {F : Arith K} (hF : Exact F)
include hF

theorem add_eq (a b : K) : F.add a b = a + b := hF.rnd _
theorem sub_eq (a b : K) : F.sub a b = a - b := hF.rnd _
theorem mul_eq (a b : K) : F.mul a b = a * b := hF.rnd _
theorem div_eq (a b : K) : F.div a b = a / b := hF.rnd _
theorem tol_eq : F.tol = 1 / 100000 := hF.rnd _

/-- A loop over `k + 1` points whose body always succeeds. -/
theorem loop_ok {σ : Type} {hi step : K} {f : K → σ → Option (Res σ)} (k : ℕ) :
    ∀ (v : K) (P : ℕ → σ → Prop) (s : σ), (∀ i : ℕ, i ≤ k → v + i * step ≤ hi) → hi < v + (k + 1) * step →
      (∀ i : ℕ, i ≤ k → ∀ s, P i s → ∃ s', f (v + i * step) s = some (.ok s') ∧ P (i + 1) s') → P 0 s →
      ∀ fuel, k + 2 ≤ fuel → ∃ s', loop F hi step f fuel v s = some (.ok s') ∧ P (k + 1) s' := by
  induction k with
  | zero =>
    intro v P s h1 h2 hb h0 fuel hf
    obtain ⟨n, rfl⟩ : ∃ n, fuel = n + 2 := ⟨fuel - 2, by omega⟩
    obtain ⟨s', hs, hp⟩ := hb 0 le_rfl s h0
    refine ⟨s', ?_, hp⟩
    have hv : v ≤ hi := by have := h1 0 le_rfl; simpa using this
    have hv' : ¬ v + step ≤ hi := by have := h2; simp at this; exact not_le.mpr this
    have hs' : f v s = some (.ok s') := by simpa using hs
    unfold loop
    rw [if_pos hv, hs']
    simp only
    rw [add_eq hF]
    unfold loop
    rw [if_neg hv']
  | succ k ih =>
    intro v P s h1 h2 hb h0 fuel hf
    obtain ⟨n, rfl⟩ : ∃ n, fuel = n + 1 := ⟨fuel - 1, by omega⟩
    obtain ⟨s', hs, hp⟩ := hb 0 (by omega) s h0
    have hv : v ≤ hi := by have := h1 0 (by omega); simpa using this
    have hs' : f v s = some (.ok s') := by simpa using hs
    unfold loop
    rw [if_pos hv, hs']
    simp only
    rw [add_eq hF]
    have e : ∀ i : ℕ, v + step + (i : K) * step = v + ((i + 1 : ℕ) : K) * step := by
      intro i; push_cast; ring
    refine ih (v + step) (fun i => P (i + 1)) s' ?_ ?_ ?_ hp n (by omega)
    · intro i hi'; rw [e]; exact h1 (i + 1) (by omega)
    · have := h2; push_cast at this ⊢; linarith
    · intro i hi' s hs; rw [e]; exact hb (i + 1) (by omega) s hs

/-- A loop whose body is undefined in the second or a later pass, or in the first. -/
theorem loop_ub {σ : Type} {hi step : K} {f : K → σ → Option (Res σ)} (k : ℕ) :
    ∀ (v : K) (P : ℕ → σ → Prop) (s : σ), (∀ i : ℕ, i ≤ k → v + i * step ≤ hi) →
      (∀ i : ℕ, i < k → ∀ s, P i s → ∃ s', f (v + i * step) s = some (.ok s') ∧ P (i + 1) s') →
      (∀ s, P k s → f (v + k * step) s = some .ub) → P 0 s →
      ∀ fuel, k + 1 ≤ fuel → loop F hi step f fuel v s = some .ub := by
  induction k with
  | zero =>
    intro v P s h1 hb hu h0 fuel hf
    obtain ⟨n, rfl⟩ : ∃ n, fuel = n + 1 := ⟨fuel - 1, by omega⟩
    have hv : v ≤ hi := by have := h1 0 le_rfl; simpa using this
    have hu' : f v s = some .ub := by simpa using hu s h0
    unfold loop
    rw [if_pos hv, hu']
  | succ k ih =>
    intro v P s h1 hb hu h0 fuel hf
    obtain ⟨n, rfl⟩ : ∃ n, fuel = n + 1 := ⟨fuel - 1, by omega⟩
    obtain ⟨s', hs, hp⟩ := hb 0 (by omega) s h0
    have hv : v ≤ hi := by have := h1 0 (by omega); simpa using this
    have hs' : f v s = some (.ok s') := by simpa using hs
    unfold loop
    rw [if_pos hv, hs']
    simp only
    rw [add_eq hF]
    have e : ∀ i : ℕ, v + step + (i : K) * step = v + ((i + 1 : ℕ) : K) * step := by
      intro i; push_cast; ring
    refine ih (v + step) (fun i => P (i + 1)) s' ?_ ?_ ?_ hp n (by omega)
    · intro i hi'; rw [e]; exact h1 (i + 1) (by omega)
    · intro i hi' s hs; rw [e]; exact hb (i + 1) (by omega) s hs
    · intro s hs; rw [e]; exact hu s hs

/-! ### One direction -/

theorem toInt_half (i : ℕ) (h : (i : ℤ) < 2 ^ 31) : toInt ((i : K) + 1 / 2) = .ok (i : ℤ) := by
  have e : truncInt ((i : K) + 1 / 2) = (i : ℤ) := by
    have h0 : (0 : K) ≤ (i : K) + 1 / 2 := by positivity
    rw [truncInt, if_pos h0, Int.floor_eq_iff]
    push_cast
    constructor <;> linarith
  unfold toInt
  rw [e, if_pos ⟨by omega, h⟩]

theorem index_step (a : Axis K) (hs : 0 < a.step) (i : ℕ) (h : (i : ℤ) < 2 ^ 31) :
    index F a (a.lo + i * a.step) = .ok (i : ℤ) := by
  unfold index
  rw [if_neg hs.ne', add_eq hF, div_eq hF, sub_eq hF]
  have : (a.lo + i * a.step - a.lo) / a.step = (i : K) := by field_simp; ring
  rw [this]
  exact toInt_half hF i h

theorem not_outside (a : Axis K) (v : K) (h1 : a.lo ≤ v) (h2 : v ≤ a.hi) : ¬ outside F a v := by
  unfold outside
  rw [add_eq hF, sub_eq hF, tol_eq hF]
  rintro (h | h) <;> norm_num at h <;> linarith

/-- A direction in which the loop makes `n + 1` passes. -/
structure Good (a : Axis K) (n : ℕ) : Prop where
  n_eq : a.n = n
  step_pos : 0 < a.step
  le : a.lo + n * a.step ≤ a.hi
  lt : a.hi < a.lo + (n + 1) * a.step
  small : (n : ℤ) + 1 < 2 ^ 31

omit hF in
theorem Good.passes {a : Axis K} {n : ℕ} (g : Good a n) (i : ℕ) (hi : i ≤ n) : a.lo + i * a.step ≤ a.hi := by
  have h1 : (i : K) ≤ (n : K) := by exact_mod_cast hi
  have := mul_le_mul_of_nonneg_right h1 g.step_pos.le
  linarith [g.le]

omit hF in
theorem Good.lo_le {a : Axis K} {n : ℕ} (g : Good a n) (i : ℕ) : a.lo ≤ a.lo + i * a.step := by
  have : 0 ≤ (i : K) * a.step := mul_nonneg (Nat.cast_nonneg i) g.step_pos.le
  linarith

/-- The coordinate is in range and its index is `i`. -/
def At (F : Arith K) (a : Axis K) (v : K) (i : ℕ) : Prop :=
  ¬ outside F a v ∧ index F a v = .ok (i : ℤ) ∧ (i : ℤ) ≤ a.n

theorem at_pass {a : Axis K} {n : ℕ} (g : Good a n) (i : ℕ) (hi : i ≤ n) : At F a (a.lo + i * a.step) i :=
  ⟨not_outside hF a _ (g.lo_le i) (g.passes i hi), index_step hF a g.step_pos i (by have := g.small; omega),
    by rw [g.n_eq]; exact_mod_cast hi⟩

/-- The coordinate is in range and its index is undefined or too large. -/
def BadAt (F : Arith K) (a : Axis K) (v : K) : Prop :=
  ¬ outside F a v ∧ (index F a v = .ub ∨ ∃ i : ℤ, index F a v = .ok i ∧ a.n < i)

omit hF in
theorem values_ok {D : Dist K} {rad int : V3 K → K} (hD : Answers D rad int) (e : V3 K) :
    values D e = .ok (material rad e, material int e) := by
  unfold values material
  by_cases h : e = ⟨0, 0, 0⟩
  · subst h
    rw [if_pos (by simp [Vector3D.equal, Vector3D.zero])]
    simp
  · rw [if_neg]
    · have := hD e
      show (D.radlen ⟨0, 0, 0⟩ e >>= _) = _
      rw [this.1, Res.bind_ok]
      show (D.intlen ⟨0, 0, 0⟩ e >>= _) = _
      rw [this.2, Res.bind_ok, if_neg h, if_neg h]
      rfl
    · intro h'
      apply h
      have h'' := of_decide_eq_true h'
      exact Vector3D.V3.ext h''.1 h''.2.1 h''.2.2

theorem endPoint_eq (coord : ℤ) (p : V3 K) : endPoint F coord p = world F coord p := by
  unfold endPoint world
  simp only [mul_eq hF, hF.rnd]

/-- What a pass of the innermost loop stores. -/
def val (F : Arith K) (rad int : V3 K → K) (coord : ℤ) (x y z : K) : K × K :=
  (material rad (world F coord ⟨x, y, z⟩), material int (world F coord ⟨x, y, z⟩))

/-- The limits and steps are the same. -/
def SameAxes (s m : Map K) : Prop := s.x = m.x ∧ s.y = m.y ∧ s.z = m.z

theorem body_ok {D : Dist K} {rad int : V3 K → K} (hD : Answers D rad int) (coord : ℤ) {m s : Map K}
    (hs : SameAxes s m) {x y z : K} {i j k : ℕ} (hx : At F m.x x i) (hy : At F m.y y j) (hz : At F m.z z k) :
    ∃ s', body F D coord s ⟨x, y, z⟩ = .ok s' ∧ SameAxes s' m ∧ ∀ a b c, s'.cells a b c =
      if a = i ∧ b = j ∧ c = k then val F rad int coord x y z else s.cells a b c := by
  obtain ⟨ex, ey, ez⟩ := hs
  have hg : gridIndex F s ⟨x, y, z⟩ = .ok ((i : ℤ), (j : ℤ), (k : ℤ)) := by
    unfold gridIndex
    rw [ex, ey, ez, if_neg]
    · simp only [hx.2.1, hy.2.1, hz.2.1, Res.bind_ok, Res.pure_eq]
    · rintro (h | h | h)
      · exact hx.1 h
      · exact hy.1 h
      · exact hz.1 h
  have hin : inGrid s ((i : ℤ), (j : ℤ), (k : ℤ)) := by
    unfold inGrid
    rw [ex, ey, ez]
    exact ⟨⟨by simp, hx.2.2⟩, ⟨by simp, hy.2.2⟩, ⟨by simp, hz.2.2⟩⟩
  unfold body
  rw [values_ok hD, Res.bind_ok, hg, Res.bind_ok]
  unfold write
  rw [if_pos hin]
  refine ⟨_, rfl, ⟨ex, ey, ez⟩, ?_⟩
  intro a b c
  simp only [Int.toNat_natCast]
  rw [endPoint_eq hF]
  rfl

theorem body_ub {D : Dist K} {rad int : V3 K → K} (hD : Answers D rad int) (coord : ℤ) {m s : Map K}
    (hs : SameAxes s m) {x y z : K} (hx : BadAt F m.x x ∨ ∃ i, At F m.x x i)
    (hy : BadAt F m.y y ∨ ∃ j, At F m.y y j) (hz : BadAt F m.z z ∨ ∃ k, At F m.z z k)
    (hbad : BadAt F m.x x ∨ BadAt F m.y y ∨ BadAt F m.z z) :
    body F D coord s ⟨x, y, z⟩ = .ub := by
  obtain ⟨ex, ey, ez⟩ := hs
  have key : ∀ {a : Axis K} {v : K}, (BadAt F a v ∨ ∃ i, At F a v i) → ¬ outside F a v ∧
      (index F a v = .ub ∨ ∃ i : ℤ, index F a v = .ok i) := by
    rintro a v (⟨h1, h | ⟨i, h, _⟩⟩ | ⟨i, h1, h, _⟩)
    · exact ⟨h1, Or.inl h⟩
    · exact ⟨h1, Or.inr ⟨_, h⟩⟩
    · exact ⟨h1, Or.inr ⟨_, h⟩⟩
  obtain ⟨ox, ix⟩ := key hx
  obtain ⟨oy, iy⟩ := key hy
  obtain ⟨oz, iz⟩ := key hz
  unfold body
  rw [values_ok hD, Res.bind_ok]
  unfold gridIndex
  rw [ex, ey, ez, if_neg (by rintro (h | h | h); exacts [ox h, oy h, oz h])]
  show ((index F m.x x >>= fun i => index F m.y y >>= fun j => index F m.z z >>= fun k => pure (i, j, k)) >>= _) = _
  rcases ix with h | ⟨i, h⟩
  · rw [h]; rfl
  rcases iy with h' | ⟨j, h'⟩
  · rw [h, h']; rfl
  rcases iz with h'' | ⟨k, h''⟩
  · rw [h, h', h'']; rfl
  rw [h, h', h'']
  simp only [Res.bind_ok, Res.pure_eq]
  unfold write
  rw [if_neg]
  unfold inGrid
  rw [ex, ey, ez]
  rintro ⟨⟨_, g1⟩, ⟨_, g2⟩, ⟨_, g3⟩⟩
  rcases hbad with ⟨_, hb | ⟨n, hb, hn⟩⟩ | ⟨_, hb | ⟨n, hb, hn⟩⟩ | ⟨_, hb | ⟨n, hb, hn⟩⟩
  · rw [h] at hb; cases hb
  · rw [h] at hb; cases hb; exact absurd g1 (not_le.mpr hn)
  · rw [h'] at hb; cases hb
  · rw [h'] at hb; cases hb; exact absurd g2 (not_le.mpr hn)
  · rw [h''] at hb; cases hb
  · rw [h''] at hb; cases hb; exact absurd g3 (not_le.mpr hn)

/-- The innermost loop. -/
def zLoop (F : Arith K) (D : Dist K) (coord : ℤ) (fuel : ℕ) (m : Map K) (x y : K) (s : Map K) :
    Option (Res (Map K)) :=
  loop F m.z.hi m.z.step (fun z s => some (body F D coord s ⟨x, y, z⟩)) fuel m.z.lo s

/-- The two inner loops. -/
def yLoop (F : Arith K) (D : Dist K) (coord : ℤ) (fuel : ℕ) (m : Map K) (x : K) (s : Map K) :
    Option (Res (Map K)) :=
  loop F m.y.hi m.y.step (fun y => zLoop F D coord fuel m x y) fuel m.y.lo s

omit hF in
theorem fill_eq (D : Dist K) (coord : ℤ) (fuel : ℕ) (m : Map K) :
    fill F D coord fuel m = loop F m.x.hi m.x.step (fun x => yLoop F D coord fuel m x) fuel m.x.lo m := rfl

theorem zLoop_ok {D : Dist K} {rad int : V3 K → K} (hD : Answers D rad int) (coord : ℤ) {m s : Map K}
    (hs : SameAxes s m) {x y : K} {i j : ℕ} (hx : At F m.x x i) (hy : At F m.y y j) {nz : ℕ} (gz : Good m.z nz)
    (fuel : ℕ) (hf : nz + 2 ≤ fuel) :
    ∃ s', zLoop F D coord fuel m x y s = some (.ok s') ∧ SameAxes s' m ∧ ∀ a b c, s'.cells a b c =
      if a = i ∧ b = j ∧ c ≤ nz then val F rad int coord x y (m.z.lo + c * m.z.step) else s.cells a b c := by
  obtain ⟨s', h, hp⟩ := loop_ok hF (f := fun z s => some (body F D coord s ⟨x, y, z⟩)) nz m.z.lo
    (fun k s' => SameAxes s' m ∧ ∀ a b c, s'.cells a b c =
      if a = i ∧ b = j ∧ c < k then val F rad int coord x y (m.z.lo + c * m.z.step) else s.cells a b c) s
    (fun k hk => gz.passes k hk) gz.lt (by
    intro k hk t ht
    obtain ⟨t', h1, h2, h3⟩ := body_ok hF hD coord ht.1 hx hy (at_pass hF gz k hk)
    refine ⟨t', by rw [h1], h2, ?_⟩
    intro a b c
    rw [h3, ht.2]
    by_cases hab : a = i ∧ b = j
    · obtain ⟨rfl, rfl⟩ := hab
      by_cases hc : c = k
      · subst hc; simp
      · have e : (c < k + 1) ↔ c < k := by omega
        simp [hc, e]
    · have e1 : ¬ (a = i ∧ b = j ∧ c = k) := fun h => hab ⟨h.1, h.2.1⟩
      have e2 : ¬ (a = i ∧ b = j ∧ c < k) := fun h => hab ⟨h.1, h.2.1⟩
      have e3 : ¬ (a = i ∧ b = j ∧ c < k + 1) := fun h => hab ⟨h.1, h.2.1⟩
      rw [if_neg e1, if_neg e2, if_neg e3]) ⟨hs, by intro a b c; simp⟩ fuel hf
  refine ⟨s', h, hp.1, ?_⟩
  intro a b c
  rw [hp.2 a b c]
  simp only [Nat.lt_succ_iff]

theorem yLoop_ok {D : Dist K} {rad int : V3 K → K} (hD : Answers D rad int) (coord : ℤ) {m s : Map K}
    (hs : SameAxes s m) {x : K} {i : ℕ} (hx : At F m.x x i) {ny nz : ℕ} (gy : Good m.y ny) (gz : Good m.z nz)
    (fuel : ℕ) (hfy : ny + 2 ≤ fuel) (hfz : nz + 2 ≤ fuel) :
    ∃ s', yLoop F D coord fuel m x s = some (.ok s') ∧ SameAxes s' m ∧ ∀ a b c, s'.cells a b c =
      if a = i ∧ b ≤ ny ∧ c ≤ nz then val F rad int coord x (m.y.lo + b * m.y.step) (m.z.lo + c * m.z.step)
      else s.cells a b c := by
  obtain ⟨s', h, hp⟩ := loop_ok hF (f := fun y => zLoop F D coord fuel m x y) ny m.y.lo
    (fun k s' => SameAxes s' m ∧ ∀ a b c, s'.cells a b c =
      if a = i ∧ b < k ∧ c ≤ nz then val F rad int coord x (m.y.lo + b * m.y.step) (m.z.lo + c * m.z.step)
      else s.cells a b c) s
    (fun k hk => gy.passes k hk) gy.lt (by
    intro k hk t ht
    obtain ⟨t', h1, h2, h3⟩ := zLoop_ok hF hD coord ht.1 hx (at_pass hF gy k hk) gz fuel hfz
    refine ⟨t', h1, h2, ?_⟩
    intro a b c
    rw [h3, ht.2]
    by_cases hab : a = i ∧ c ≤ nz
    · obtain ⟨rfl, hc⟩ := hab
      by_cases hb : b = k
      · subst hb; simp [hc]
      · have e : (b < k + 1) ↔ b < k := by omega
        simp [hb, e, hc]
    · have e1 : ¬ (a = i ∧ b = k ∧ c ≤ nz) := fun h => hab ⟨h.1, h.2.2⟩
      have e2 : ¬ (a = i ∧ b < k ∧ c ≤ nz) := fun h => hab ⟨h.1, h.2.2⟩
      have e3 : ¬ (a = i ∧ b < k + 1 ∧ c ≤ nz) := fun h => hab ⟨h.1, h.2.2⟩
      rw [if_neg e1, if_neg e2, if_neg e3]) ⟨hs, by intro a b c; simp⟩ fuel hfy
  refine ⟨s', h, hp.1, ?_⟩
  intro a b c
  rw [hp.2 a b c]
  simp only [Nat.lt_succ_iff]

theorem fill_ok {D : Dist K} {rad int : V3 K → K} (hD : Answers D rad int) (coord : ℤ) {m : Map K}
    {nx ny nz : ℕ} (gx : Good m.x nx) (gy : Good m.y ny) (gz : Good m.z nz)
    (fuel : ℕ) (hfx : nx + 2 ≤ fuel) (hfy : ny + 2 ≤ fuel) (hfz : nz + 2 ≤ fuel) :
    ∃ s', fill F D coord fuel m = some (.ok s') ∧ SameAxes s' m ∧ ∀ a b c, s'.cells a b c =
      if a ≤ nx ∧ b ≤ ny ∧ c ≤ nz then
        val F rad int coord (m.x.lo + a * m.x.step) (m.y.lo + b * m.y.step) (m.z.lo + c * m.z.step)
      else m.cells a b c := by
  rw [fill_eq]
  obtain ⟨s', h, hp⟩ := loop_ok hF (f := fun x => yLoop F D coord fuel m x) nx m.x.lo
    (fun k s' => SameAxes s' m ∧ ∀ a b c, s'.cells a b c =
      if a < k ∧ b ≤ ny ∧ c ≤ nz then
        val F rad int coord (m.x.lo + a * m.x.step) (m.y.lo + b * m.y.step) (m.z.lo + c * m.z.step)
      else m.cells a b c) m
    (fun k hk => gx.passes k hk) gx.lt (by
    intro k hk t ht
    obtain ⟨t', h1, h2, h3⟩ := yLoop_ok hF hD coord ht.1 (at_pass hF gx k hk) gy gz fuel hfy hfz
    refine ⟨t', h1, h2, ?_⟩
    intro a b c
    rw [h3, ht.2]
    by_cases hab : b ≤ ny ∧ c ≤ nz
    · by_cases ha : a = k
      · subst ha; simp [hab]
      · have e : (a < k + 1) ↔ a < k := by omega
        simp [ha, e, hab]
    · have e1 : ¬ (a = k ∧ b ≤ ny ∧ c ≤ nz) := fun h => hab h.2
      have e2 : ¬ (a < k ∧ b ≤ ny ∧ c ≤ nz) := fun h => hab h.2
      have e3 : ¬ (a < k + 1 ∧ b ≤ ny ∧ c ≤ nz) := fun h => hab h.2
      rw [if_neg e1, if_neg e2, if_neg e3]) ⟨⟨rfl, rfl, rfl⟩, by intro a b c; simp⟩ fuel hfx
  refine ⟨s', h, hp.1, ?_⟩
  intro a b c
  rw [hp.2 a b c]
  simp only [Nat.lt_succ_iff]

/-! ### Directions that lead out of the array -/

/-- The loop of this direction leaves the array: the step is zero, or there is one cell and the range is at least
one step long. -/
def Bad (a : Axis K) : Prop :=
  a.lo ≤ a.hi ∧ 0 ≤ a.n ∧ (a.step = 0 ∨ a.n = 0 ∧ a.step = 1 ∧ a.lo + 1 ≤ a.hi)

/-- The first pass is bad if the step is zero. -/
theorem badAt_zero {a : Axis K} (h : a.lo ≤ a.hi) (h0 : a.step = 0) : BadAt F a a.lo :=
  ⟨not_outside hF a _ le_rfl h, Or.inl (by unfold index; rw [if_pos h0])⟩

/-- Otherwise the first pass has index 0. -/
theorem at_first {a : Axis K} (h : a.lo ≤ a.hi) (hn : 0 ≤ a.n) (h0 : 0 < a.step) : At F a a.lo 0 := by
  refine ⟨not_outside hF a _ le_rfl h, ?_, by exact_mod_cast hn⟩
  have := index_step hF a h0 0 (by norm_num)
  simpa using this

theorem badAt_second {a : Axis K} (hn : a.n = 0) (hs : a.step = 1) (h : a.lo + 1 ≤ a.hi) :
    BadAt F a (a.lo + (1 : ℕ) * a.step) := by
  refine ⟨not_outside hF a _ ?_ ?_, Or.inr ⟨1, ?_, by omega⟩⟩
  · rw [hs]; norm_num
  · rw [hs]; norm_num; exact h
  · have := index_step hF a (by rw [hs]; exact one_pos) 1 (by norm_num)
    simpa using this

/-- The first pass of a direction: bad, or index 0. -/
theorem first_pass {a : Axis K} (h : Bad a ∨ ∃ n, Good a n) :
    a.lo ≤ a.hi ∧ (BadAt F a a.lo ∨ ∃ i, At F a a.lo i) := by
  rcases h with ⟨h1, h2, h3 | ⟨h3, h4, h5⟩⟩ | ⟨n, g⟩
  · exact ⟨h1, Or.inl (badAt_zero hF h1 h3)⟩
  · exact ⟨h1, Or.inr ⟨0, at_first hF h1 h2 (by rw [h4]; exact one_pos)⟩⟩
  · have := g.passes 0 (by omega)
    have h1 : a.lo ≤ a.hi := by simpa using this
    exact ⟨h1, Or.inr ⟨0, at_first hF h1 (by rw [g.n_eq]; exact Int.natCast_nonneg n) g.step_pos⟩⟩

theorem zLoop_ub {D : Dist K} {rad int : V3 K → K} (hD : Answers D rad int) (coord : ℤ) {m s : Map K}
    (hs : SameAxes s m) {x y : K} (hx : BadAt F m.x x ∨ ∃ i, At F m.x x i)
    (hy : BadAt F m.y y ∨ ∃ i, At F m.y y i) (hz : Bad m.z ∨ ∃ n, Good m.z n)
    (hbad : BadAt F m.x x ∨ BadAt F m.y y ∨ Bad m.z) (fuel : ℕ) (hf : 2 ≤ fuel) :
    zLoop F D coord fuel m x y s = some .ub := by
  obtain ⟨hz1, hz2⟩ := first_pass hF hz
  by_cases h : BadAt F m.x x ∨ BadAt F m.y y ∨ BadAt F m.z m.z.lo
  · refine loop_ub hF (f := fun z s => some (body F D coord s ⟨x, y, z⟩)) 0 m.z.lo (fun _ s => SameAxes s m) s ?_ ?_
      ?_ hs fuel (by omega)
    · intro i hi; obtain rfl : i = 0 := by omega
      simpa using hz1
    · intro i hi; omega
    · intro t ht
      have := body_ub hF hD coord ht hx hy hz2 h
      simp [this]
  · have hx' : ∃ i, At F m.x x i := hx.resolve_left (fun h' => h (Or.inl h'))
    have hy' : ∃ i, At F m.y y i := hy.resolve_left (fun h' => h (Or.inr (Or.inl h')))
    have hz' : ¬ BadAt F m.z m.z.lo := fun h' => h (Or.inr (Or.inr h'))
    obtain ⟨i, hi⟩ := hx'
    obtain ⟨j, hj⟩ := hy'
    have hb : Bad m.z := by
      rcases hbad with h' | h' | h'
      · exact absurd (Or.inl h') h
      · exact absurd (Or.inr (Or.inl h')) h
      · exact h'
    obtain ⟨b1, b2, b3 | ⟨b3, b4, b5⟩⟩ := hb
    · exact absurd (badAt_zero hF b1 b3) hz'
    refine loop_ub hF (f := fun z s => some (body F D coord s ⟨x, y, z⟩)) 1 m.z.lo (fun _ s => SameAxes s m) s ?_ ?_
      ?_ hs fuel (by omega)
    · intro k hk
      have : k = 0 ∨ k = 1 := by omega
      rcases this with rfl | rfl
      · simpa using b1
      · rw [b4]; simpa using b5
    · intro k hk t ht
      obtain rfl : k = 0 := by omega
      obtain ⟨t', e1, e2, _⟩ := body_ok hF hD coord ht hi hj (at_first hF b1 b2 (by rw [b4]; exact one_pos))
      exact ⟨t', by simp [e1], e2⟩
    · intro t ht
      have hb := badAt_second hF b3 b4 b5
      have := body_ub hF hD coord ht (Or.inr ⟨i, hi⟩) (Or.inr ⟨j, hj⟩) (Or.inl hb) (Or.inr (Or.inr hb))
      rw [this]

theorem yLoop_ub {D : Dist K} {rad int : V3 K → K} (hD : Answers D rad int) (coord : ℤ) {m s : Map K}
    (hs : SameAxes s m) {x : K} (hx : BadAt F m.x x ∨ ∃ i, At F m.x x i)
    (hy : Bad m.y ∨ ∃ n, Good m.y n) (hz : Bad m.z ∨ ∃ n, Good m.z n)
    (hbad : BadAt F m.x x ∨ Bad m.y ∨ Bad m.z) :
    ∃ N, ∀ fuel, N ≤ fuel → yLoop F D coord fuel m x s = some .ub := by
  obtain ⟨hy1, hy2⟩ := first_pass hF hy
  by_cases h : BadAt F m.x x ∨ BadAt F m.y m.y.lo ∨ Bad m.z
  · refine ⟨2, fun fuel hf => ?_⟩
    refine loop_ub hF (f := fun y => zLoop F D coord fuel m x y) 0 m.y.lo (fun _ s => SameAxes s m) s ?_ ?_
      ?_ hs fuel (by omega)
    · intro i hi; obtain rfl : i = 0 := by omega
      simpa using hy1
    · intro i hi; omega
    · intro t ht
      have := zLoop_ub hF hD coord ht hx hy2 hz h fuel hf
      simpa using this
  · have hx' : ∃ i, At F m.x x i := hx.resolve_left (fun h' => h (Or.inl h'))
    have hy' : ¬ BadAt F m.y m.y.lo := fun h' => h (Or.inr (Or.inl h'))
    have hz' : ∃ n, Good m.z n := hz.resolve_left (fun h' => h (Or.inr (Or.inr h')))
    obtain ⟨i, hi⟩ := hx'
    obtain ⟨nz, gz⟩ := hz'
    have hb : Bad m.y := by
      rcases hbad with h' | h' | h'
      · exact absurd (Or.inl h') h
      · exact h'
      · exact absurd (Or.inr (Or.inr h')) h
    obtain ⟨b1, b2, b3 | ⟨b3, b4, b5⟩⟩ := hb
    · exact absurd (badAt_zero hF b1 b3) hy'
    refine ⟨nz + 2, fun fuel hf => ?_⟩
    refine loop_ub hF (f := fun y => zLoop F D coord fuel m x y) 1 m.y.lo (fun _ s => SameAxes s m) s ?_ ?_
      ?_ hs fuel (by omega)
    · intro k hk
      have : k = 0 ∨ k = 1 := by omega
      rcases this with rfl | rfl
      · simpa using b1
      · rw [b4]; simpa using b5
    · intro k hk t ht
      obtain rfl : k = 0 := by omega
      obtain ⟨t', e1, e2, _⟩ := zLoop_ok hF hD coord ht hi (at_first hF b1 b2 (by rw [b4]; exact one_pos)) gz fuel hf
      exact ⟨t', by simpa using e1, e2⟩
    · intro t ht
      have hb := badAt_second hF b3 b4 b5
      exact zLoop_ub hF hD coord ht (Or.inr ⟨i, hi⟩) (Or.inl hb) hz (Or.inr (Or.inl hb)) fuel (by omega)

theorem fill_ub {D : Dist K} {rad int : V3 K → K} (hD : Answers D rad int) (coord : ℤ) {m : Map K}
    (hx : Bad m.x ∨ ∃ n, Good m.x n) (hy : Bad m.y ∨ ∃ n, Good m.y n) (hz : Bad m.z ∨ ∃ n, Good m.z n)
    (hbad : Bad m.x ∨ Bad m.y ∨ Bad m.z) :
    ∃ N, ∀ fuel, N ≤ fuel → fill F D coord fuel m = some .ub := by
  obtain ⟨hx1, hx2⟩ := first_pass hF hx
  have hm : SameAxes m m := ⟨rfl, rfl, rfl⟩
  by_cases h : BadAt F m.x m.x.lo ∨ Bad m.y ∨ Bad m.z
  · obtain ⟨N, hN⟩ := yLoop_ub hF hD coord hm hx2 hy hz h
    refine ⟨N + 1, fun fuel hf => ?_⟩
    rw [fill_eq]
    refine loop_ub hF (f := fun x => yLoop F D coord fuel m x) 0 m.x.lo (fun _ s => s = m) m ?_ ?_
      ?_ rfl fuel (by omega)
    · intro i hi; obtain rfl : i = 0 := by omega
      simpa using hx1
    · intro i hi; omega
    · intro t ht
      subst ht
      have := hN fuel (by omega)
      simpa using this
  · have hx' : ¬ BadAt F m.x m.x.lo := fun h' => h (Or.inl h')
    have hy' : ∃ n, Good m.y n := hy.resolve_left (fun h' => h (Or.inr (Or.inl h')))
    have hz' : ∃ n, Good m.z n := hz.resolve_left (fun h' => h (Or.inr (Or.inr h')))
    obtain ⟨ny, gy⟩ := hy'
    obtain ⟨nz, gz⟩ := hz'
    have hb : Bad m.x := by
      rcases hbad with h' | h' | h'
      · exact h'
      · exact absurd (Or.inr (Or.inl h')) h
      · exact absurd (Or.inr (Or.inr h')) h
    obtain ⟨b1, b2, b3 | ⟨b3, b4, b5⟩⟩ := hb
    · exact absurd (badAt_zero hF b1 b3) hx'
    obtain ⟨t1, e1, e2, _⟩ := yLoop_ok hF hD coord hm (at_first hF b1 b2 (by rw [b4]; exact one_pos)) gy gz
      (ny + nz + 2) (by omega) (by omega)
    have hb := badAt_second hF b3 b4 b5
    obtain ⟨N, hN⟩ := yLoop_ub hF hD coord e2 (Or.inl hb) hy hz (Or.inl hb)
    refine ⟨N + ny + nz + 2, fun fuel hf => ?_⟩
    rw [fill_eq]
    refine loop_ub hF (f := fun x => yLoop F D coord fuel m x) 1 m.x.lo
      (fun k s => (k = 0 → s = m) ∧ (k = 1 → s = t1)) m ?_ ?_ ?_ ⟨fun _ => rfl, fun h => by omega⟩ fuel (by omega)
    · intro k hk
      have : k = 0 ∨ k = 1 := by omega
      rcases this with rfl | rfl
      · simpa using b1
      · rw [b4]; simpa using b5
    · intro k hk t ht
      obtain rfl : k = 0 := by omega
      obtain rfl := ht.1 rfl
      refine ⟨t1, ?_, fun h => by omega, fun _ => rfl⟩
      have : yLoop F D coord fuel t t.x.lo t = some (.ok t1) := by
        unfold yLoop at e1 ⊢
        refine loop_mono F _ _ ?_ _ _ _ _ _ (by omega) e1
        intro y s r hr
        exact loop_mono F _ _ (fun _ _ _ h => h) _ _ _ _ _ (by omega) hr
      simpa using this
    · intro t ht
      obtain rfl := ht.2 rfl
      exact hN fuel (by omega)

/-! ### The arguments -/

theorem check_eq (a : Args K) [Decidable (Accepted F.pi a)] :
    check F a = if Accepted F.pi a then .ok () else .throw .gear := by
  unfold check
  simp only [mul_eq hF]
  split_ifs with h1 h2 h3 h4 h5 h6 h7 h8 h9 h10 h11 h12 <;> first
    | rfl
    | (exfalso
       simp only [not_or, not_lt, not_and, Accepted] at *
       first
        | (apply h4; refine ⟨h1.1, h1.2.1, h1.2.2, h2.1, h2.2.1, h2.2.2, ?_⟩; simp [h3]; done)
        | grind)

omit hF in
theorem axis_fields (lo hi : K) (n : ℤ) : (axis F lo hi n).lo = lo ∧ (axis F lo hi n).hi = hi ∧
    (axis F lo hi n).n = n := ⟨rfl, rfl, rfl⟩

theorem axis_step (lo hi : K) (n : ℤ) : (axis F lo hi n).step = if n = 0 then 1 else (hi - lo) / n := by
  unfold axis
  simp only [div_eq hF, sub_eq hF]

theorem axis_good {lo hi : K} {n : ℤ} (hle : lo ≤ hi) (h : Fits lo hi n) :
    Good (axis F lo hi n) n.toNat ∧ (∀ i : ℕ, i ≤ n.toNat → lo + i * (axis F lo hi n).step = node lo hi n i) := by
  obtain ⟨⟨rfl, h1⟩ | ⟨h1, h2⟩, h3⟩ := h
  · refine ⟨⟨rfl, ?_, ?_, ?_, by norm_num⟩, ?_⟩
    · rw [axis_step hF, if_pos rfl]; exact one_pos
    · show lo + ((0 : ℤ).toNat : K) * _ ≤ hi
      simpa using hle
    · rw [axis_step hF, if_pos rfl]
      show hi < lo + (((0 : ℤ).toNat : K) + 1) * 1
      simpa using h1
    · intro i hi; obtain rfl : i = 0 := by simpa using hi
      simp [node]
  · have hn : (0 : K) < n := by exact_mod_cast h1
    have hst : (axis F lo hi n).step = (hi - lo) / n := by rw [axis_step hF, if_neg h1.ne']
    have hp : 0 < (hi - lo) / n := div_pos (by linarith) hn
    have hc : ((n.toNat : ℕ) : K) = (n : K) := by
      have : ((n.toNat : ℕ) : ℤ) = n := Int.toNat_of_nonneg h1.le
      exact_mod_cast congrArg (Int.cast : ℤ → K) this
    have he : lo + (n : K) * ((hi - lo) / n) = hi := by field_simp; ring
    refine ⟨⟨(Int.toNat_of_nonneg h1.le).symm, by rw [hst]; exact hp, ?_, ?_, by
      rw [Int.toNat_of_nonneg h1.le]; exact h3⟩, ?_⟩
    · rw [hst, hc]; exact he.le
    · rw [hst, hc]
      show hi < lo + ((n : K) + 1) * ((hi - lo) / n)
      linarith
    · intro i _; rw [hst]; rfl

theorem axis_bad {lo hi : K} {n : ℤ} (hle : lo ≤ hi) (h0 : 0 ≤ n) (hs : n + 1 < 2 ^ 31) (h : ¬ Fits lo hi n) :
    Bad (axis F lo hi n) := by
  refine ⟨hle, h0, ?_⟩
  rw [axis_step hF]
  show _ ∨ n = 0 ∧ _ ∧ lo + 1 ≤ hi
  by_cases hn : n = 0
  · right
    refine ⟨hn, if_pos hn, ?_⟩
    by_contra hc
    exact h ⟨Or.inl ⟨hn, not_le.mp hc⟩, hs⟩
  · left
    rw [if_neg hn]
    have : lo = hi := by
      by_contra hc
      exact h ⟨Or.inr ⟨by omega, lt_of_le_of_ne hle hc⟩, hs⟩
    rw [this]; simp

/-! ### Queries -/

theorem below_eq {a : Axis K} (hs : 0 < a.step) (v : K) :
    below F a v = a.lo + truncInt ((v - a.lo) / a.step) * a.step := by
  unfold below fmod
  rw [sub_eq hF, sub_eq hF]
  ring

theorem neighbours_nodes {a : Axis K} {n : ℕ} (g : Good a n) {v : K} (h1 : -a.step < v - a.lo)
    (h2 : v - a.lo < (n + 1) * a.step) :
    neighbours F a v ≠ [] ∧ (∀ q ∈ neighbours F a v, ∃ i : ℕ, i ≤ n ∧ q = a.lo + i * a.step) ∧
    (a.lo ≤ v → ∀ q ∈ neighbours F a v, |v - q| ≤ a.step) := by
  have hs := g.step_pos
  obtain ⟨i, hi, ht⟩ : ∃ i : ℕ, i ≤ n ∧ truncInt ((v - a.lo) / a.step) = (i : ℤ) := by
    by_cases h0 : 0 ≤ (v - a.lo) / a.step
    · have hf : 0 ≤ ⌊(v - a.lo) / a.step⌋ := Int.floor_nonneg.mpr h0
      refine ⟨⌊(v - a.lo) / a.step⌋.toNat, ?_, by rw [truncInt, if_pos h0, Int.toNat_of_nonneg hf]⟩
      have : ⌊(v - a.lo) / a.step⌋ < (n : ℤ) + 1 := by
        rw [Int.floor_lt]; push_cast; rw [div_lt_iff₀ hs]; exact h2
      omega
    · refine ⟨0, by omega, ?_⟩
      rw [truncInt, if_neg h0, Int.ceil_eq_iff]
      push_cast
      constructor
      · rw [lt_div_iff₀ hs]; linarith
      · exact (not_le.mp h0).le
  have hb : below F a v = a.lo + i * a.step := by rw [below_eq hF hs, ht]; simp
  have ha : above F a v = a.lo + ((i + 1 : ℕ) : K) * a.step := by
    unfold above; rw [add_eq hF, hb]; push_cast; ring
  have hin : a.lo ≤ below F a v ∧ below F a v ≤ a.hi := by rw [hb]; exact ⟨g.lo_le i, g.passes i hi⟩
  have hd : a.lo ≤ v → a.lo + i * a.step ≤ v ∧ v < a.lo + (i + 1) * a.step := by
    intro hv
    have h0 : 0 ≤ (v - a.lo) / a.step := div_nonneg (by linarith) hs.le
    rw [truncInt, if_pos h0, Int.floor_eq_iff] at ht
    obtain ⟨t1, t2⟩ := ht
    push_cast at t1 t2
    rw [le_div_iff₀ hs] at t1
    rw [div_lt_iff₀ hs] at t2
    constructor <;> linarith
  have hbd : a.lo ≤ v → |v - (a.lo + i * a.step)| ≤ a.step := by
    intro hv; obtain ⟨d1, d2⟩ := hd hv
    rw [abs_le]; constructor <;> linarith
  have had : a.lo ≤ v → |v - (a.lo + ((i + 1 : ℕ) : K) * a.step)| ≤ a.step := by
    intro hv; obtain ⟨d1, d2⟩ := hd hv
    rw [abs_le]; push_cast; constructor <;> linarith
  unfold neighbours
  simp only [if_pos hin]
  by_cases hu : a.lo ≤ above F a v ∧ above F a v ≤ a.hi
  · have hi1 : i + 1 ≤ n := by
      by_contra hc
      have hc' : n + 1 ≤ i + 1 := by omega
      have h3 : ((n + 1 : ℕ) : K) ≤ ((i + 1 : ℕ) : K) := by exact_mod_cast hc'
      have h4 := mul_le_mul_of_nonneg_right h3 hs.le
      have h5 := hu.2
      rw [ha] at h5
      have h6 := g.lt
      push_cast at h4 h5
      linarith
    simp only [if_pos hu]
    refine ⟨by simp, ?_, ?_⟩
    · intro q hq
      simp only [List.take, List.mem_cons, List.not_mem_nil, or_false] at hq
      rcases hq with rfl | rfl
      · exact ⟨i, hi, hb⟩
      · exact ⟨i + 1, hi1, ha⟩
    · intro hv q hq
      simp only [List.take, List.mem_cons, List.not_mem_nil, or_false] at hq
      rcases hq with rfl | rfl
      · rw [hb]; exact hbd hv
      · rw [ha]; exact had hv
  · simp only [if_neg hu]
    refine ⟨by simp, ?_, ?_⟩
    · intro q hq
      simp only [List.take, List.mem_cons, List.not_mem_nil, or_false] at hq
      subst hq
      exact ⟨i, hi, hb⟩
    · intro hv q hq
      simp only [List.take, List.mem_cons, List.not_mem_nil, or_false] at hq
      subst hq
      rw [hb]; exact hbd hv

/-- At a grid point the point itself comes first. -/
theorem neighbours_at {a : Axis K} {n : ℕ} (g : Good a n) (i : ℕ) (hi : i ≤ n) :
    ∃ l, neighbours F a (a.lo + i * a.step) = (a.lo + i * a.step) :: l := by
  have hs := g.step_pos
  have hb : below F a (a.lo + i * a.step) = a.lo + i * a.step := by
    rw [below_eq hF hs]
    have e : (a.lo + i * a.step - a.lo) / a.step = ((i : ℤ) : K) := by push_cast; field_simp; ring
    have h0 : (0 : K) ≤ ((i : ℤ) : K) := by push_cast; exact Nat.cast_nonneg i
    rw [e, truncInt, if_pos h0, Int.floor_intCast]
    push_cast; rfl
  unfold neighbours
  simp only [hb]
  rw [if_pos ⟨g.lo_le i, g.passes i hi⟩, Nat.add_comm]
  exact ⟨_, rfl⟩

theorem tol_pos : 0 < F.tol := by rw [tol_eq hF]; norm_num

/-- Every neighbour has a cell whose values are between the limits. -/
def Between (F : Arith K) (m : Map K) (l : List (V3 K)) (L U L' U' : K) : Prop :=
  ∀ q ∈ l, ∃ g, gridIndex F m q = .ok g ∧ ∃ v, read m g = .ok v ∧ L ≤ v.1 ∧ v.1 ≤ U ∧ L' ≤ v.2 ∧ v.2 ≤ U'

theorem sums_between {m : Map K} {p : V3 K} {L U L' U' : K} (l : List (V3 K)) :
    ∀ (s : K × K × K), Between F m l L U L' U' →
      0 ≤ s.2.2 → L * s.2.2 ≤ s.1 → s.1 ≤ U * s.2.2 → L' * s.2.2 ≤ s.2.1 → s.2.1 ≤ U' * s.2.2 →
      ∃ r, sums F m p l s = .ok r ∧ (l ≠ [] ∨ 0 < s.2.2 → 0 < r.2.2) ∧
        L * r.2.2 ≤ r.1 ∧ r.1 ≤ U * r.2.2 ∧ L' * r.2.2 ≤ r.2.1 ∧ r.2.1 ≤ U' * r.2.2 := by
  induction l with
  | nil =>
    intro s _ h0 h1 h2 h3 h4
    exact ⟨s, rfl, by rintro (h | h); exacts [absurd rfl h, h], h1, h2, h3, h4⟩
  | cons q l ih =>
    intro s hb h0 h1 h2 h3 h4
    obtain ⟨g, hg, v, hv, b1, b2, b3, b4⟩ := hb q (by simp)
    unfold sums
    rw [hg, Res.bind_ok, hv, Res.bind_ok]
    by_cases hd : |distance F p q| < F.tol
    · rw [if_pos hd]
      exact ⟨_, rfl, fun _ => one_pos, by simpa using b1, by simpa using b2, by simpa using b3, by simpa using b4⟩
    · rw [if_neg hd]
      have hd0 : 0 ≤ distance F p q := by unfold distance; rw [hF.rnd]; exact hF.sqrt_nonneg _
      have hdp : 0 < distance F p q := by
        rw [abs_of_nonneg hd0] at hd
        exact lt_of_lt_of_le (tol_pos hF) (not_lt.mp hd)
      have hw : 0 < 1 / distance F p q := one_div_pos.mpr hdp
      have e : ∀ c : K, c / distance F p q = c * (1 / distance F p q) := by intro c; ring
      obtain ⟨r, hr, hpos, hrest⟩ := ih
        (F.add s.1 (F.div v.1 (distance F p q)), F.add s.2.1 (F.div v.2 (distance F p q)),
          F.add s.2.2 (F.div 1 (distance F p q))) (fun q' hq' => hb q' (by simp [hq']))
        (by simp only [add_eq hF, div_eq hF]; linarith)
        (by simp only [add_eq hF, div_eq hF]; rw [e v.1]
            have := mul_le_mul_of_nonneg_right b1 hw.le; linarith)
        (by simp only [add_eq hF, div_eq hF]; rw [e v.1]
            have := mul_le_mul_of_nonneg_right b2 hw.le; linarith)
        (by simp only [add_eq hF, div_eq hF]; rw [e v.2]
            have := mul_le_mul_of_nonneg_right b3 hw.le; linarith)
        (by simp only [add_eq hF, div_eq hF]; rw [e v.2]
            have := mul_le_mul_of_nonneg_right b4 hw.le; linarith)
      refine ⟨r, hr, fun _ => hpos (Or.inr ?_), hrest⟩
      simp only [add_eq hF, div_eq hF]; linarith

/-- What the queries answer if every neighbour has a cell. -/
theorem query_between {m : Map K} {p : V3 K} {g0 : ℤ × ℤ × ℤ} (hg : gridIndex F m p = .ok g0)
    (hne : corners F m p ≠ []) {L U L' U' : K} (hb : Between F m (corners F m p) L U L' U') :
    ∃ v w, getRadiationLength F m p = .ok (some v) ∧ getInteractionLength F m p = .ok (some w) ∧
      L ≤ v ∧ v ≤ U ∧ L' ≤ w ∧ w ≤ U' := by
  obtain ⟨r, hr, hpos, h1, h2, h3, h4⟩ := sums_between hF (p := p) (corners F m p) (0, 0, 0) hb le_rfl
    (by simp) (by simp) (by simp) (by simp)
  have hp := hpos (Or.inl hne)
  have hi : interpolate F m p = .ok (some (r.1 / r.2.2), some (r.2.1 / r.2.2)) := by
    unfold interpolate
    rw [hr, Res.bind_ok]
    unfold quotient
    rw [if_neg hp.ne', if_neg hp.ne', div_eq hF, div_eq hF]
    rfl
  refine ⟨r.1 / r.2.2, r.2.1 / r.2.2, ?_, ?_, ?_, ?_, ?_, ?_⟩
  · unfold getRadiationLength; rw [hg, Res.bind_ok, hi]; rfl
  · unfold getInteractionLength; rw [hg, Res.bind_ok, hi]; rfl
  · rw [le_div_iff₀ hp]; exact h1
  · rw [div_le_iff₀ hp]; exact h2
  · rw [le_div_iff₀ hp]; exact h3
  · rw [div_le_iff₀ hp]; exact h4

omit hF in
theorem mem_corners {m : Map K} {p q : V3 K} (h : q ∈ corners F m p) : q.x ∈ neighbours F m.x p.x ∧
    q.y ∈ neighbours F m.y p.y ∧ q.z ∈ neighbours F m.z p.z := by
  unfold corners at h
  simp only [List.mem_flatMap, List.mem_map] at h
  obtain ⟨x, hx, y, hy, z, hz, rfl⟩ := h
  exact ⟨hx, hy, hz⟩

omit hF in
theorem corners_ne_nil {m : Map K} {p : V3 K} (hx : neighbours F m.x p.x ≠ []) (hy : neighbours F m.y p.y ≠ [])
    (hz : neighbours F m.z p.z ≠ []) : corners F m p ≠ [] := by
  unfold corners
  cases h1 : neighbours F m.x p.x with
  | nil => exact absurd h1 hx
  | cons x l =>
    cases h2 : neighbours F m.y p.y with
    | nil => exact absurd h2 hy
    | cons y l' =>
      cases h3 : neighbours F m.z p.z with
      | nil => exact absurd h3 hz
      | cons z l'' => simp

/-- A grid point has its cell. -/
theorem read_at {m : Map K} {x y z : K} {i j k : ℕ} (hx : At F m.x x i) (hy : At F m.y y j) (hz : At F m.z z k) :
    gridIndex F m ⟨x, y, z⟩ = .ok ((i : ℤ), (j : ℤ), (k : ℤ)) ∧
    read m ((i : ℤ), (j : ℤ), (k : ℤ)) = .ok (m.cells i j k) := by
  constructor
  · unfold gridIndex
    rw [if_neg]
    · simp only [hx.2.1, hy.2.1, hz.2.1, Res.bind_ok, Res.pure_eq]
    · rintro (h | h | h)
      · exact hx.1 h
      · exact hy.1 h
      · exact hz.1 h
  · unfold read
    rw [if_pos ⟨⟨by simp, hx.2.2⟩, ⟨by simp, hy.2.2⟩, ⟨by simp, hz.2.2⟩⟩]
    simp

theorem distance_self (p : V3 K) : distance F p p = 0 := by
  unfold distance
  simp only [hF.rnd, mul_eq hF, sub_eq hF, add_eq hF]
  simp [hF.sqrt_zero]

/-- At a grid point the queries answer the stored values. -/
theorem query_at {m : Map K} {nx ny nz : ℕ} (gx : Good m.x nx) (gy : Good m.y ny) (gz : Good m.z nz)
    {i j k : ℕ} (hi : i ≤ nx) (hj : j ≤ ny) (hk : k ≤ nz) :
    let p : V3 K := ⟨m.x.lo + i * m.x.step, m.y.lo + j * m.y.step, m.z.lo + k * m.z.step⟩
    getRadiationLength F m p = .ok (some (m.cells i j k).1) ∧
    getInteractionLength F m p = .ok (some (m.cells i j k).2) := by
  intro p
  obtain ⟨hg, hr⟩ := read_at hF (at_pass hF gx i hi) (at_pass hF gy j hj) (at_pass hF gz k hk)
  obtain ⟨lx, ex⟩ := neighbours_at hF gx i hi
  obtain ⟨ly, ey⟩ := neighbours_at hF gy j hj
  obtain ⟨lz, ez⟩ := neighbours_at hF gz k hk
  obtain ⟨l, el⟩ : ∃ l, corners F m p = p :: l := by
    unfold corners
    show ∃ l, (List.flatMap _ (neighbours F m.x (m.x.lo + i * m.x.step))) = p :: l
    rw [ex]
    show ∃ l, (List.flatMap (fun x => List.flatMap _ (neighbours F m.y (m.y.lo + j * m.y.step))) _) = p :: l
    rw [ey]
    show ∃ l, (List.flatMap (fun x => List.flatMap (fun y => List.map _ (neighbours F m.z (m.z.lo + k * m.z.step))) _)
      _) = p :: l
    rw [ez]
    exact ⟨_, rfl⟩
  have hs : interpolate F m p = .ok (some (m.cells i j k).1, some (m.cells i j k).2) := by
    unfold interpolate
    rw [el]
    unfold sums
    rw [hg, Res.bind_ok, hr, Res.bind_ok, distance_self hF, if_pos (by rw [abs_zero]; exact tol_pos hF)]
    simp only [Res.pure_eq, Res.bind_ok]
    unfold quotient
    rw [if_neg one_ne_zero, if_neg one_ne_zero, div_eq hF, div_eq hF, div_one, div_one]
  constructor
  · unfold getRadiationLength; rw [hg, Res.bind_ok, hs]; rfl
  · unfold getInteractionLength; rw [hg, Res.bind_ok, hs]; rfl

end Exact

end Gear.MaterialMap
