/-
Lemmas about layouts with a fixed pad size in the arithmetic of `double`.
-/
import Verif.PadSizeDouble
import Verif.PadSizeProps
import Verif.PadAngleDoubleProps

set_option autoImplicit false
set_option linter.unusedSectionVars false

namespace Gear.PadSize.Double

open PadIndex Disk Doubles Spec
open Rect (elem elemUb)
open MaterialMap (Arith binary64)
open PadAngle.Double (toInt floorInt loopUp loopDown loopUp_ends loopDown_ends nat_above loops_id floorInt_nonneg toInt_nonneg)
open PadAngle.Double.Spec (Rounded)

variable {K : Type} [Field K] [LinearOrder K] [IsStrictOrderedRing K] [FloorRing K]
variable {F : Arith K} {u : K} {A : Args K} {L : Layout K}

theorem truncInt_int (n : ℤ) : truncInt (n : K) = n := by
  unfold truncInt
  split_ifs with h
  · exact Int.floor_intCast n
  · exact Int.ceil_intCast n

theorem floorInt_ok {x : K} {n : ℤ} (h : floorInt x = .ok n) : n = ⌊x⌋ := by
  unfold floorInt toInt at h
  rw [truncInt_int] at h
  split_ifs at h
  exact (Res.ok.inj h).symm

theorem wrap_id {fuel : ℕ} {lo hi phi : K} (h1 : lo ≤ phi) (h2 : phi ≤ hi) : wrap F (fuel + 1) lo hi phi = some phi := by
  unfold wrap
  rw [(loops_id (F := F) (fuel := fuel) h1 h2).1]
  exact (loops_id (F := F) (fuel := fuel) h1 h2).2

theorem wrap_some {fuel : ℕ} {lo hi phi phi' : K} (h1 : lo ≤ phi) (h2 : phi ≤ hi) (h : wrap F fuel lo hi phi = some phi') :
    phi' = phi := by
  cases fuel with
  | zero => cases h
  | succ n => rw [wrap_id h1 h2] at h; exact (Option.some.inj h).symm

theorem mkRows_ok {f : ℕ → Res (Row K)} : ∀ {n : ℕ} {l : List (Row K)}, mkRows f n = .ok l →
    l.length = n ∧ ∀ i row, l[i]? = some row → f i = .ok row := by
  intro n
  induction n with
  | zero =>
    intro l h
    cases h
    exact ⟨rfl, fun i row h => by simp at h⟩
  | succ n ih =>
    intro l h
    unfold mkRows at h
    cases hm : mkRows f n with
    | throw e => rw [hm] at h; cases h
    | ub => rw [hm] at h; cases h
    | ok rows =>
      rw [hm, Res.bind_ok] at h
      cases hf : f n with
      | throw e => rw [hf] at h; cases h
      | ub => rw [hf] at h; cases h
      | ok row =>
        rw [hf, Res.bind_ok] at h
        cases h
        obtain ⟨h1, h2⟩ := ih hm
        refine ⟨by simp [h1], fun i r hi => ?_⟩
        rcases lt_or_ge i n with hlt | hge
        · rw [List.getElem?_append_left (by omega)] at hi
          exact h2 i r hi
        · rw [List.getElem?_append_right (by omega)] at hi
          have hlt : i - rows.length < 1 := by
            have := (List.getElem?_eq_some_iff.1 hi).1
            simpa using this
          obtain rfl : i = n := by omega
          have : i - rows.length = 0 := by omega
          rw [this] at hi
          simp only [List.getElem?_cons_zero, Option.some.injEq] at hi
          rw [← hi]
          exact hf

/-- What is known of a layout. -/
structure Built (F : Arith K) (A : Args K) (L : Layout K) : Prop where
  rMin : L.rMin = A.rMin
  rMax : L.rMax = A.rMax
  phiMax : L.phiMax = A.phiMax
  padWidth : L.padWidth = A.padWidth
  padHeight : L.padHeight = A.padHeight
  padGap : L.padGap = A.padGap
  width_pos : 0 < A.padWidth
  height_pos : 0 < A.padHeight
  rowHeight : L.rowHeight = F.rnd (F.rnd (A.rMax - A.rMin) / L.nRow)
  length : (L.rows.length : ℤ) = L.nRow
  rows : ∀ i row, elem L.rows i = some row →
    mkRow F A.rMin A.phiMax A.padWidth A.padGap L.rowHeight i.toNat = .ok row

theorem turn_bounds (R : Rounded F u) : F.mul (-2) F.pi ≤ 0 ∧ 0 ≤ F.mul 2 F.pi := by
  unfold Arith.mul
  constructor
  · have := R.rounding.mono (-2 * F.pi) 0 (by linarith [R.pi.1])
    rwa [R.rounding.zero] at this
  · exact R.rounding.nonneg (by linarith [R.pi.1])

theorem built (R : Rounded F u) (hA : A.Proper F.toFns) (hphi : F.rnd A.phiMax = A.phiMax) {fuel : ℕ}
    (h : new F fuel A.rMin A.rMax A.padHeight A.padWidth A.nRow A.padGap A.phiMax = some (.ok L)) : Built F A L := by
  unfold new at h
  split_ifs at h with h1
  · cases h
  rw [not_or, not_le, not_le] at h1
  split at h
  · cases h
  rename_i phi' hw
  have t := turn_bounds R
  have hhi : A.phiMax ≤ F.mul 2 F.pi := by
    rw [← hphi]; exact R.rounding.mono _ _ hA.phi
  obtain rfl := wrap_some (by linarith [hA.phi0]) hhi hw
  have h := Option.some.inj h
  cases hn : numRows F A.rMin A.rMax A.padHeight A.nRow with
  | throw e => rw [hn] at h; cases h
  | ub => rw [hn] at h; cases h
  | ok n =>
    rw [hn, Res.bind_ok] at h
    split_ifs at h with h2
    dsimp only at h
    generalize hm : mkRows _ n.toNat = m at h
    cases m with
    | throw e => cases h
    | ub => cases h
    | ok rows =>
      rw [Res.bind_ok] at h
      cases h
      obtain ⟨l1, l2⟩ := mkRows_ok hm
      refine ⟨rfl, rfl, rfl, rfl, rfl, rfl, h1.2, h1.1, rfl, ?_, ?_⟩
      · dsimp only
        rw [l1]
        omega
      · intro i row hi
        obtain ⟨k, rfl, hk⟩ := Rect.elem_eq_some.1 hi
        exact l2 k row hk

/-! ### Rows -/

theorem rounded_chain (R : Rounded F u) {x y a b : K} (ha : 0 ≤ a) (h1 : a ≤ x) (h2 : x ≤ b) (hy : y = F.rnd x) :
    (1 - u) * a ≤ y ∧ y ≤ (1 + u) * b := by
  have hu := R.small
  have hu0 := R.nonneg
  obtain ⟨b1, b2⟩ := R.rounding.bounds (ha.trans h1)
  rw [hy]
  exact ⟨(mul_le_mul_of_nonneg_left h1 (by linarith)).trans b1, b2.trans (mul_le_mul_of_nonneg_left h2 (by linarith))⟩

/-- The radius of the middle of row `i`. -/
def mid (A : Args K) (L : Layout K) (i : ℤ) : K := A.rMin + (i + 1 / 2) * ((A.rMax - A.rMin) / L.nRow)

theorem mid_bounds (hA : A.Proper F.toFns) {i : ℤ} (h : 0 ≤ i ∧ i < L.nRow) :
    A.rMin < mid A L i ∧ mid A L i < A.rMax ∧ 0 < mid A L i := by
  have hn : (0 : K) < L.nRow := by exact_mod_cast (by omega : 0 < L.nRow)
  have hH : 0 < (A.rMax - A.rMin) / L.nRow := div_pos (by linarith [hA.r]) hn
  have e1 : (0 : K) ≤ i := by exact_mod_cast h.1
  have e2 : (i : K) + 1 ≤ L.nRow := by exact_mod_cast h.2
  have e3 : L.nRow * ((A.rMax - A.rMin) / L.nRow) = A.rMax - A.rMin := mul_div_cancel₀ _ hn.ne'
  have f1 := mul_nonneg e1 hH.le
  have f2 := mul_le_mul_of_nonneg_right e2 hH.le
  have h0 := hA.r0
  unfold mid
  refine ⟨?_, ?_, ?_⟩ <;> linarith

/-- The number `⌊rnd (v / rnd W)⌋` for a `v` close to `T`: as many steps `W` as fit in `T`. -/
theorem count_props (R : Rounded F u) {T W v : K} {n : ℤ} (hTp : 0 < T) (hwg : 0 < W) (v1 : (1 - 6 * u) * T ≤ v)
    (v2 : v ≤ (1 + 7 * u) * T) (hnf : n = ⌊F.rnd (v / F.rnd W)⌋) :
    n * W ≤ (1 + 10 * u) * T ∧ T ≤ (1 + 10 * u) * ((n + 1) * W) := by
  have hu0 := R.nonneg
  have hu := R.small
  have hu1 : (0 : K) ≤ 1 - u := by linarith
  have hv0 : 0 ≤ v := le_trans (mul_nonneg (by linarith) hTp.le) v1
  have uT : 0 ≤ u * T := mul_nonneg hu0 hTp.le
  have uuT : u * (u * T) ≤ 1 / 1000 * (u * T) := mul_le_mul_of_nonneg_right hu uT
  have uuT0 : 0 ≤ u * (u * T) := mul_nonneg hu0 uT
  have hn0 : 0 ≤ n := by rw [hnf]; exact Int.floor_nonneg.2 (R.rounding.share_nonneg hu hwg hv0)
  have hn0' : (0 : K) ≤ n := by exact_mod_cast hn0
  obtain ⟨g1, g2⟩ := Int.floor_eq_iff.1 hnf.symm
  constructor
  · have c1 := mt (R.rounding.share hu0 hu hwg hv0 hn0').2 (not_lt.2 g1)
    rw [not_lt] at c1
    have c2 : (1 + u) * v ≤ (1 + u) * ((1 + 7 * u) * T) := mul_le_mul_of_nonneg_left v2 (by linarith)
    by_contra hcon
    rw [not_le] at hcon
    have c3 : (1 - u) * ((1 + 10 * u) * T) < (1 - u) * (n * W) := mul_lt_mul_of_pos_left hcon (by linarith)
    have f1 : (1 + u) * ((1 + 7 * u) * T) = T + 8 * (u * T) + 7 * (u * (u * T)) := by ring
    have f2 : (1 - u) * ((1 + 10 * u) * T) = T + 9 * (u * T) - 10 * (u * (u * T)) := by ring
    have f3 : (n : K) * ((1 - u) * W) = (1 - u) * (n * W) := by ring
    linarith
  · have c1 := mt (R.rounding.share hu0 hu hwg hv0 (c := n + 1) (by linarith)).1 (not_le.2 g2)
    rw [not_le] at c1
    have c2 : (1 - u) * ((1 - 6 * u) * T) ≤ (1 - u) * v := mul_le_mul_of_nonneg_left v1 hu1
    by_contra hcon
    rw [not_le] at hcon
    have hX : 0 ≤ (n + 1) * W := mul_nonneg (by linarith) hwg.le
    have f1 : (1 - u) * ((1 - 6 * u) * T) = T - 7 * (u * T) + 6 * (u * (u * T)) := by ring
    have f3 : ((n : K) + 1) * ((1 + u) * W) = (n + 1) * W + u * ((n + 1) * W) := by ring
    have uX : u * ((n + 1) * W) ≤ u * T := mul_le_mul_of_nonneg_left (by
      have : 0 ≤ u * ((n + 1) * W) := mul_nonneg hu0 hX
      have e : (1 + 10 * u) * ((n + 1) * W) = (n + 1) * W + 10 * (u * ((n + 1) * W)) := by ring
      linarith) hu0
    have e : (1 + 10 * u) * ((n + 1) * W) = (n + 1) * W + 10 * (u * ((n + 1) * W)) := by ring
    have uX0 : 0 ≤ u * ((n + 1) * W) := mul_nonneg hu0 hX
    -- `X < T / (1 + 10 u)` and `(1 - 7 u) T ≤ (1 + u) X`
    have k1 : (1 + u) * ((1 + 10 * u) * ((n + 1) * W)) < (1 + u) * T := mul_lt_mul_of_pos_left hcon (by linarith)
    have k2 : (1 + 10 * u) * (T - 7 * (u * T) + 6 * (u * (u * T))) ≤ (1 + 10 * u) * ((n + 1) * W + u * ((n + 1) * W)) :=
      mul_le_mul_of_nonneg_left (by linarith) (by linarith)
    have k3 : (1 + 10 * u) * ((n + 1) * W + u * ((n + 1) * W)) = (1 + u) * ((1 + 10 * u) * ((n + 1) * W)) := by ring
    have k4 : (1 + 10 * u) * (T - 7 * (u * T) + 6 * (u * (u * T))) = T + 3 * (u * T) - 64 * (u * (u * T)) + 60 * (u * (u * (u * T))) := by ring
    have uuuT0 : 0 ≤ u * (u * (u * T)) := mul_nonneg hu0 uuT0
    have k5 : (1 + u) * T = T + u * T := by ring
    linarith

set_option maxHeartbeats 1000000 in
/-- The row of a layout: its rounded radius, its angle, and its number of pads. -/
theorem row_props (R : Rounded F u) (hA : A.Proper F.toFns) (B : Built F A L) {i : ℤ} {row : Row K} (h : elem L.rows i = some row) :
    (0 ≤ i ∧ i < L.nRow) ∧ ((1 - 6 * u) * mid A L i ≤ row.rCenter ∧ row.rCenter ≤ (1 + 6 * u) * mid A L i) ∧
      row.phiPad = F.rnd (A.phiMax / row.nPad) ∧
      row.nPad * (A.padWidth + A.padGap) ≤ (1 + 10 * u) * (mid A L i * A.phiMax) ∧
      mid A L i * A.phiMax ≤ (1 + 10 * u) * ((row.nPad + 1) * (A.padWidth + A.padGap)) := by
  have hu0 := R.nonneg
  have hu := R.small
  have hr := Rect.elem_range h
  rw [B.length] at hr
  have hn : 0 < L.nRow := by omega
  have hn' : (0 : K) < L.nRow := by exact_mod_cast hn
  have hi' : (0 : K) ≤ i := by exact_mod_cast hr.1
  obtain ⟨-, -, mp⟩ := mid_bounds hA hr
  have hk := B.rows i row h
  unfold mkRow at hk
  dsimp only at hk
  obtain ⟨H, hH⟩ : ∃ H, H = (A.rMax - A.rMin) / L.nRow := ⟨_, rfl⟩
  have hHp : 0 < H := by rw [hH]; exact div_pos (by linarith [hA.r]) hn'
  have hc : ((i.toNat : ℕ) : K) = (i : K) := by
    have : ((i.toNat : ℤ) : K) = (i : K) := by rw [Int.toNat_of_nonneg hr.1]
    exact_mod_cast this
  rw [hc] at hk
  -- the radius
  obtain ⟨s1, s2, s3⟩ := R.rounding.size hu0 hu hA.r hn
  rw [← B.rowHeight, ← hH] at s1 s2
  rw [← B.rowHeight] at s3
  obtain ⟨h', hh'⟩ : ∃ h', h' = L.rowHeight := ⟨_, rfl⟩
  rw [← hh'] at s1 s2 s3 hk
  have hu1 : (0 : K) ≤ 1 - u := by linarith
  obtain ⟨a, ha⟩ : ∃ a, a = F.rnd (i * h') := ⟨_, rfl⟩
  have a12 := rounded_chain R (x := i * h') (a := i * ((1 - u) * (1 - u) * H)) (b := i * ((1 + u) * (1 + u) * H)) (by positivity)
    (mul_le_mul_of_nonneg_left s1 hi') (mul_le_mul_of_nonneg_left s2 hi') ha
  obtain ⟨b, hb⟩ : ∃ b, b = F.rnd (1 / 2 * h') := ⟨_, rfl⟩
  have b12 := rounded_chain R (x := 1 / 2 * h') (a := 1 / 2 * ((1 - u) * (1 - u) * H)) (b := 1 / 2 * ((1 + u) * (1 + u) * H))
    (by positivity) (by linarith) (by linarith) hb
  have hr0 := hA.r0
  have hle : ∀ k : ℕ, (1 - u) ^ k ≤ 1 := fun k => pow_le_one₀ hu1 (by linarith)
  have hge : ∀ k : ℕ, 1 ≤ (1 + u) ^ k := fun k => one_le_pow₀ (by linarith)
  have i1 : (0 : K) ≤ i * H := mul_nonneg hi' hHp.le
  obtain ⟨c, hcc⟩ : ∃ c, c = F.rnd (A.rMin + a) := ⟨_, rfl⟩
  have c12 := rounded_chain R (x := A.rMin + a) (a := (1 - u) ^ 3 * (A.rMin + i * H)) (b := (1 + u) ^ 3 * (A.rMin + i * H))
    (by positivity)
    (by
      have := mul_le_mul_of_nonneg_right (hle 3) hr0
      have e : (1 - u) * (i * ((1 - u) * (1 - u) * H)) = (1 - u) ^ 3 * (i * H) := by ring
      linarith [a12.1])
    (by
      have := mul_le_mul_of_nonneg_right (hge 3) hr0
      have e : (1 + u) * (i * ((1 + u) * (1 + u) * H)) = (1 + u) ^ 3 * (i * H) := by ring
      linarith [a12.2]) hcc
  obtain ⟨d, hd⟩ : ∃ d, d = F.rnd (c + b) := ⟨_, rfl⟩
  have hmid : mid A L i = A.rMin + i * H + 1 / 2 * H := by unfold mid; rw [← hH]; ring
  have d12 := rounded_chain R (x := c + b) (a := (1 - u) ^ 4 * mid A L i) (b := (1 + u) ^ 4 * mid A L i)
    (by have := mp.le; positivity)
    (by
      have e : (1 - u) * (1 / 2 * ((1 - u) * (1 - u) * H)) = (1 - u) ^ 3 * (1 / 2 * H) := by ring
      have e2 : (1 - u) ^ 4 * (1 / 2 * H) ≤ (1 - u) ^ 3 * (1 / 2 * H) := by
        rw [pow_succ]
        have := mul_le_mul_of_nonneg_left (show 1 - u ≤ 1 by linarith) (show 0 ≤ (1 - u) ^ 3 * (1 / 2 * H) by positivity)
        linarith
      have e3 : (1 - u) * ((1 - u) ^ 3 * (A.rMin + i * H)) = (1 - u) ^ 4 * (A.rMin + i * H) := by ring
      rw [hmid]
      linarith [c12.1, b12.1])
    (by
      have e : (1 + u) * (1 / 2 * ((1 + u) * (1 + u) * H)) = (1 + u) ^ 3 * (1 / 2 * H) := by ring
      have e2 : (1 + u) ^ 3 * (1 / 2 * H) ≤ (1 + u) ^ 4 * (1 / 2 * H) := by
        rw [pow_succ (1 + u) 3]
        have := mul_le_mul_of_nonneg_left (show 1 ≤ 1 + u by linarith) (show 0 ≤ (1 + u) ^ 3 * (1 / 2 * H) by positivity)
        linarith
      have e3 : (1 + u) * ((1 + u) ^ 3 * (A.rMin + i * H)) = (1 + u) ^ 4 * (A.rMin + i * H) := by ring
      rw [hmid]
      linarith [c12.2, b12.2]) hd
  have e5 : (1 - u) * ((1 - u) ^ 4 * mid A L i) = (1 - u) ^ 5 * mid A L i := by ring
  have e6 : (1 + u) * ((1 + u) ^ 4 * mid A L i) = (1 + u) ^ 5 * mid A L i := by ring
  rw [e5, e6] at d12
  have hk' : (floorInt (F.rnd (F.rnd (d * A.phiMax) / F.rnd (A.padWidth + A.padGap))) >>= fun nPad =>
      (pure ⟨nPad, d, F.rnd (A.phiMax / nPad)⟩ : Res (Row K))) = .ok row := by
    rw [hd, hcc, ha, hb]
    exact hk
  generalize hq : F.rnd (F.rnd (d * A.phiMax) / F.rnd (A.padWidth + A.padGap)) = q at hk'
  cases hf : floorInt q with
  | throw e => rw [hf] at hk'; cases hk'
  | ub => rw [hf] at hk'; cases hk'
  | ok n =>
    rw [hf, Res.bind_ok] at hk'
    obtain rfl := Res.ok.inj hk'
    have hnf := floorInt_ok hf
    dsimp only
    have usq : u * u ≤ 1 / 1000 * u := mul_le_mul_of_nonneg_right hu hu0
    have p2 : (1 + u) ^ 2 ≤ 1 + 2001 / 1000 * u := by nlinarith
    have p4 : (1 + u) ^ 4 ≤ 1 + 401 / 100 * u := by
      have : (1 + u) ^ 4 ≤ (1 + 2001 / 1000 * u) * (1 + 2001 / 1000 * u) := by
        calc (1 + u) ^ 4 = (1 + u) ^ 2 * (1 + u) ^ 2 := by ring
          _ ≤ _ := mul_le_mul p2 p2 (by positivity) (by linarith)
      nlinarith
    have p5 : (1 + u) ^ 5 ≤ 1 + 6 * u := by
      calc (1 + u) ^ 5 = (1 + u) ^ 4 * (1 + u) := by ring
        _ ≤ (1 + 401 / 100 * u) * (1 + u) := mul_le_mul_of_nonneg_right p4 (by linarith)
        _ ≤ _ := by nlinarith
    have m2 : 1 - 2 * u ≤ (1 - u) ^ 2 := by nlinarith
    have m4 : 1 - 4 * u ≤ (1 - u) ^ 4 := by
      calc 1 - 4 * u ≤ (1 - 2 * u) * (1 - 2 * u) := by nlinarith
        _ ≤ (1 - u) ^ 2 * (1 - u) ^ 2 := mul_le_mul m2 m2 (by linarith) (by positivity)
        _ = _ := by ring
    have m5 : 1 - 6 * u ≤ (1 - u) ^ 5 := by
      calc 1 - 6 * u ≤ (1 - 4 * u) * (1 - u) := by nlinarith
        _ ≤ (1 - u) ^ 4 * (1 - u) := mul_le_mul_of_nonneg_right m4 hu1
        _ = _ := by ring
    refine ⟨hr, ⟨?_, ?_⟩, rfl, ?_⟩
    · exact (mul_le_mul_of_nonneg_right m5 mp.le).trans d12.1
    · exact d12.2.trans (mul_le_mul_of_nonneg_right p5 mp.le)
    -- the number of pads
    have hphi0 := hA.phi0
    have hwg : 0 < A.padWidth + A.padGap := by linarith [B.width_pos, hA.gap]
    obtain ⟨T, hT⟩ : ∃ T, T = mid A L i * A.phiMax := ⟨_, rfl⟩
    have hTp : 0 < T := by rw [hT]; exact mul_pos mp hphi0
    obtain ⟨v, hv⟩ : ∃ v, v = F.rnd (d * A.phiMax) := ⟨_, rfl⟩
    have v12 := rounded_chain R (x := d * A.phiMax) (a := (1 - u) ^ 5 * T) (b := (1 + u) ^ 5 * T) (by positivity)
      (by rw [hT, ← mul_assoc]; exact mul_le_mul_of_nonneg_right d12.1 hphi0.le)
      (by rw [hT, ← mul_assoc]; exact mul_le_mul_of_nonneg_right d12.2 hphi0.le) hv
    have hv0 : 0 ≤ v := le_trans (by positivity) v12.1
    rw [← hv] at hq
    rw [← hT]
    have m6 : 1 - 6 * u ≤ (1 - u) * (1 - u) ^ 5 := by
      calc 1 - 6 * u ≤ (1 - 2 * u) * (1 - 4 * u) := by nlinarith
        _ ≤ (1 - u) ^ 2 * (1 - u) ^ 4 := mul_le_mul m2 m4 (by linarith) (by positivity)
        _ = _ := by ring
    have p6 : (1 + u) * (1 + u) ^ 5 ≤ 1 + 7 * u := by
      calc (1 + u) * (1 + u) ^ 5 = (1 + u) ^ 4 * (1 + u) ^ 2 := by ring
        _ ≤ (1 + 401 / 100 * u) * (1 + 2001 / 1000 * u) := mul_le_mul p4 p2 (by positivity) (by linarith)
        _ ≤ _ := by nlinarith
    have v1 : (1 - 6 * u) * T ≤ v := by
      refine le_trans ?_ v12.1
      rw [← mul_assoc]
      exact mul_le_mul_of_nonneg_right m6 hTp.le
    have v2 : v ≤ (1 + 7 * u) * T := by
      refine v12.2.trans ?_
      rw [← mul_assoc]
      exact mul_le_mul_of_nonneg_right p6 hTp.le
    exact count_props R hTp hwg v1 v2 (by rw [hq]; exact hnf)

end Gear.PadSize.Double
