/-
Layouts with a fixed pad size, with the arithmetic of `double` (C142, C143).
-/
import Verif.PadSizeDoubleLemmas

set_option autoImplicit false
set_option linter.unusedSectionVars false

namespace Gear.PadSize.Double

open PadIndex Disk Doubles PadSize.Spec
open Rect (elem elemUb)
open MaterialMap (Arith binary64)
open PadAngle.Double (toInt floorInt loopUp loopDown loopUp_ends loopDown_ends nat_above floorInt_nonneg toInt_nonneg
  loopUp_endless loopDown_endless doubles doubles_rounded)
open PadAngle.Double.Spec (Rounded)

variable {K : Type} [Field K] [LinearOrder K] [IsStrictOrderedRing K] [FloorRing K]
variable {F : Arith K} {u : K} {A : Args K} {L : Layout K}

namespace Spec

/-- The layout of the arguments `A`, which are sensible; the inner radius and the range of angles are doubles. -/
structure MadeOf (F : Arith K) (A : Args K) (L : Layout K) : Prop where
  proper : A.Proper F.toFns
  rMin : F.rnd A.rMin = A.rMin
  phiMax : F.rnd A.phiMax = A.phiMax
  new : ∃ fuel, new F fuel A.rMin A.rMax A.padHeight A.padWidth A.nRow A.padGap A.phiMax = some (.ok L)

/-- The radius of the middle of row `row` of `rows`. -/
def rowCentre (A : Args K) (rows row : ℤ) : K := A.rMin + (row + 1 / 2) * ((A.rMax - A.rMin) / rows)

/-- The point is in row `row` of `rows` and in division `pad` of `n` divisions of this row, made smaller on all sides by `a`
and `b`; larger if they are negative. -/
def DeepInPad (A : Args K) (rows n : ℤ) (a b : K) (row pad : ℤ) (r phi : K) : Prop :=
  (A.rMin + row * ((A.rMax - A.rMin) / rows) + a ≤ r ∧ r ≤ A.rMin + (row + 1) * ((A.rMax - A.rMin) / rows) - a) ∧
  pad * (A.phiMax / n) + b ≤ phi ∧ phi ≤ (pad + 1) * (A.phiMax / n) - b

end Spec

open Spec

theorem built_of (R : Rounded F u) (h : MadeOf F A L) : Built F A L := by
  obtain ⟨fuel, hf⟩ := h.new
  exact built R h.proper h.phiMax hf

theorem nRow_of (B : Built F A L) (hF : Filled L) : (0 < L.nRow ∧ L.nRow ≤ 65536) ∧ getNRows L = L.nRow := by
  have := hF.rows
  have e : getNRows L = L.nRow := B.length
  rw [e] at this
  exact ⟨this, e⟩

theorem row_exists (B : Built F A L) {i : ℤ} (h : 0 ≤ i ∧ i < L.nRow) : ∃ row, elem L.rows i = some row :=
  Rect.elem_isSome (l := L.rows) h.1 (by rw [B.length]; exact h.2)

/-- The row for a radius, before the limit to the last row. -/
theorem row_number (R : Rounded F u) (hA : A.Proper F.toFns) (B : Built F A L) (hn : 0 < L.nRow) {r : K}
    (hfar : r - A.rMin ≤ 2 ^ 30 * ((A.rMax - A.rMin) / L.nRow)) (hr : A.rMin ≤ r) :
    floorInt (F.div (F.sub r L.rMin) L.rowHeight) = .ok ⌊F.rnd (F.rnd (r - A.rMin) / F.rnd (F.rnd (A.rMax - A.rMin) / L.nRow))⌋ ∧
      0 ≤ ⌊F.rnd (F.rnd (r - A.rMin) / F.rnd (F.rnd (A.rMax - A.rMin) / L.nRow))⌋ := by
  have hu0 := R.nonneg
  have hu := R.small
  have hn' : (0 : K) < L.nRow := by exact_mod_cast hn
  obtain ⟨-, -, s3⟩ := R.rounding.size hu0 hu hA.r hn
  have q0 : 0 ≤ F.rnd (F.rnd (r - A.rMin) / F.rnd (F.rnd (A.rMax - A.rMin) / L.nRow)) :=
    R.rounding.nonneg (div_nonneg (R.rounding.nonneg (by linarith)) s3.le)
  have q1 := (R.rounding.quotient hu0 hu hA.r hn hr (c := 2147483648) (by norm_num)).2 (by
    have hH : 0 < (A.rMax - A.rMin) / L.nRow := div_pos (by linarith [hA.r]) hn'
    generalize (A.rMax - A.rMin) / (L.nRow : K) = H at hfar hH
    have hx : 0 ≤ r - A.rMin := by linarith
    generalize r - A.rMin = x at hfar hx
    have e1 : (1 + u) * ((1 + u) * x) ≤ 11 / 10 * (11 / 10 * x) :=
      mul_le_mul (by linarith) (mul_le_mul_of_nonneg_right (by linarith) hx) (by positivity) (by norm_num)
    have e2 : 9 / 10 * (9 / 10) * H ≤ (1 - u) * (1 - u) * H :=
      mul_le_mul_of_nonneg_right (mul_le_mul (by linarith) (by linarith) (by norm_num) (by linarith)) hH.le
    norm_num at *
    linarith)
  refine ⟨?_, Int.floor_nonneg.2 q0⟩
  unfold Arith.div Arith.sub
  rw [B.rMin, B.rowHeight]
  exact floorInt_nonneg q0 q1

/-- The pad for an angle, before the limit to the last pad. -/
theorem pad_number (R : Rounded F u) (hA : A.Proper F.toFns) {n : ℤ} (hn : 1 ≤ n ∧ n ≤ 65536) {phi : K} (h0 : 0 ≤ phi)
    (h1 : phi ≤ A.phiMax) :
    floorInt (F.div phi (F.rnd (A.phiMax / n))) = .ok ⌊F.rnd (phi / F.rnd (A.phiMax / n))⌋ := by
  have hu0 := R.nonneg
  have hu := R.small
  have hn' : (0 : K) < n := by exact_mod_cast (by omega : 0 < n)
  have hn2 : (n : K) ≤ 65536 := by exact_mod_cast hn.2
  have hW : 0 < A.phiMax / n := div_pos hA.phi0 hn'
  have q1 := (R.rounding.share hu0 hu hW h0 (c := 2147483648) (by norm_num)).2 (by
    have e : n * (A.phiMax / n) = A.phiMax := mul_div_cancel₀ _ hn'.ne'
    have e1 : (1 + u) * phi ≤ 2 * (65536 * (A.phiMax / n)) := by
      refine mul_le_mul (by linarith) ?_ h0 (by norm_num)
      rw [← e] at h1
      exact h1.trans (mul_le_mul_of_nonneg_right hn2 hW.le)
    have e2 : 9 / 10 * (A.phiMax / n) ≤ (1 - u) * (A.phiMax / n) := mul_le_mul_of_nonneg_right (by linarith) hW.le
    linarith)
  exact floorInt_nonneg (R.rounding.share_nonneg hu hW h0) q1

/-! ### C142 and C143 -/

/-- The number of rows is the number asked for, but not more than fit, up to a few roundings of the outer radius. -/
theorem rows_fit_double (R : Rounded F u) (hL : MadeOf F A L) :
    ∃ nr : ℤ, nr * A.padHeight ≤ A.rMax + 1 / 100 - A.rMin + 6 * u * (A.rMax + 1) ∧
      A.rMax + 1 / 100 - A.rMin ≤ (nr + 1) * A.padHeight + 6 * u * (A.rMax + 1) ∧
      getNRows L = if A.nRow > 0 then min A.nRow nr else nr := by
  have hA := hL.proper
  have hu0 := R.nonneg
  have hu := R.small
  have B := built_of R hL
  have e : getNRows L = L.nRow := B.length
  obtain ⟨fuel, hf⟩ := hL.new
  have hnum : numRows F A.rMin A.rMax A.padHeight A.nRow = .ok L.nRow := by
    unfold new at hf
    split_ifs at hf
    · cases hf
    split at hf
    · cases hf
    have hf := Option.some.inj hf
    cases hn : numRows F A.rMin A.rMax A.padHeight A.nRow with
    | throw e => rw [hn] at hf; cases hf
    | ub => rw [hn] at hf; cases hf
    | ok n =>
      rw [hn, Res.bind_ok] at hf
      split_ifs at hf
      dsimp only at hf
      generalize mkRows _ n.toNat = m at hf
      cases m with
      | throw e => cases hf
      | ub => cases hf
      | ok rows => rw [Res.bind_ok] at hf; cases hf; rfl
  unfold numRows at hnum
  obtain ⟨t, ht⟩ : ∃ t, t = F.rnd (1 / 100) := ⟨_, rfl⟩
  obtain ⟨x, hx⟩ : ∃ x, x = F.rnd (A.rMax + t) := ⟨_, rfl⟩
  obtain ⟨y, hy⟩ : ∃ y, y = F.rnd (x - A.rMin) := ⟨_, rfl⟩
  obtain ⟨q, hq⟩ : ∃ q, q = F.rnd (y / A.padHeight) := ⟨_, rfl⟩
  have hnum : (toInt q >>= fun nr => (pure (if A.nRow > nr then nr else if A.nRow > 0 then A.nRow else nr) : Res ℤ)) = .ok L.nRow := by
    rw [hq, hy, hx, ht]
    exact hnum
  have hh := B.height_pos
  have t12 := R.rounding.bounds (x := 1 / 100) (by norm_num)
  rw [← ht] at t12
  have t0 : 0 ≤ t := by rw [ht]; exact R.rounding.nonneg (by norm_num)
  have x12 := R.rounding.bounds (x := A.rMax + t) (by linarith [hA.r, hA.r0])
  rw [← hx] at x12
  have x0 : A.rMin ≤ x := by
    rw [hx, ← hL.rMin]
    exact R.rounding.mono _ _ (by linarith [hA.r])
  have y12 := R.rounding.bounds (x := x - A.rMin) (by linarith)
  rw [← hy] at y12
  have y0 : 0 ≤ y := by rw [hy]; exact R.rounding.nonneg (by linarith)
  have q12 := R.rounding.bounds (x := y / A.padHeight) (div_nonneg y0 hh.le)
  rw [← hq] at q12
  have q0 : 0 ≤ q := by rw [hq]; exact R.rounding.nonneg (div_nonneg y0 hh.le)
  have hr0 := hA.r0
  have hr := hA.r
  obtain ⟨M, hM⟩ : ∃ M, M = u * (A.rMax + 1) := ⟨_, rfl⟩
  have hM0 : 0 ≤ M := by rw [hM]; exact mul_nonneg hu0 (by linarith)
  have t1 : t ≤ 11 / 1000 := by linarith
  have m1 : u * (A.rMax + t) ≤ M := by rw [hM]; exact mul_le_mul_of_nonneg_left (by linarith) hu0
  have x1 : x ≤ A.rMax + 1 / 100 + 11 / 10 * M := by
    have : u * (1 / 100) ≤ 1 / 100 * M := by
      rw [hM]
      have := mul_le_mul_of_nonneg_left (show (1 : K) ≤ A.rMax + 1 by linarith) hu0
      linarith
    linarith
  have x2 : A.rMax + 1 / 100 - 11 / 10 * M ≤ x := by
    have : u * (1 / 100) ≤ 1 / 100 * M := by
      rw [hM]
      have := mul_le_mul_of_nonneg_left (show (1 : K) ≤ A.rMax + 1 by linarith) hu0
      linarith
    linarith
  have hMs : M ≤ 1 / 1000 * (A.rMax + 1) := by rw [hM]; exact mul_le_mul_of_nonneg_right hu (by linarith)
  have m2 : u * (x - A.rMin) ≤ 11 / 10 * M := by
    rw [hM]
    have := mul_le_mul_of_nonneg_left (show x - A.rMin ≤ 11 / 10 * (A.rMax + 1) by linarith) hu0
    linarith
  have y1 : y ≤ A.rMax + 1 / 100 - A.rMin + 22 / 10 * M := by linarith
  have y2 : A.rMax + 1 / 100 - A.rMin - 22 / 10 * M ≤ y := by linarith
  have m3 : u * y ≤ 12 / 10 * M := by
    rw [hM]
    have := mul_le_mul_of_nonneg_left (show y ≤ 12 / 10 * (A.rMax + 1) by linarith) hu0
    linarith
  have e1 : (1 + u) * (y / A.padHeight) * A.padHeight = y + u * y := by field_simp
  have e2 : (1 - u) * (y / A.padHeight) * A.padHeight = y - u * y := by field_simp
  cases hti : toInt q with
  | throw e => rw [hti] at hnum; cases hnum
  | ub => rw [hti] at hnum; cases hnum
  | ok nr =>
    rw [hti, Res.bind_ok] at hnum
    have hnr : nr = ⌊q⌋ := by
      unfold toInt truncInt at hti
      rw [if_pos q0] at hti
      split_ifs at hti
      exact (Res.ok.inj hti).symm
    have f1 := Int.floor_le q
    have f2 := Int.lt_floor_add_one q
    rw [← hnr] at f1 f2
    have hnr0 : 0 ≤ nr := by rw [hnr]; exact Int.floor_nonneg.2 q0
    refine ⟨nr, ?_, ?_, ?_⟩
    · have := mul_le_mul_of_nonneg_right (f1.trans q12.2) hh.le
      rw [mul_assoc 6 u, ← hM]
      linarith
    · have := mul_le_mul_of_nonneg_right (q12.1.trans f2.le) hh.le
      rw [mul_assoc 6 u, ← hM]
      linarith
    · rw [e, ← Res.ok.inj hnum]
      split_ifs <;> omega

/-- The number of pads in a row is the most that fit into the arc in the middle of the row, up to ten roundings. -/
theorem pads_fit_double (R : Rounded F u) (hL : MadeOf F A L) {row n : ℤ} (h : PadsInRow L row n) :
    n * (A.padWidth + A.padGap) ≤ (1 + 10 * u) * (rowCentre A (getNRows L) row * A.phiMax) ∧
      rowCentre A (getNRows L) row * A.phiMax ≤ (1 + 10 * u) * ((n + 1) * (A.padWidth + A.padGap)) := by
  have B := built_of R hL
  obtain ⟨rr, hr, rfl⟩ := h
  obtain ⟨-, -, -, h⟩ := row_props R hL.proper B hr
  rw [show getNRows L = L.nRow from B.length]
  exact h

/-- For every point of the ring segment, also on its edges, `getNearestPad` returns a pad, and the point is in that pad up to
the error of eight roundings of the radius and four of the angle. -/
theorem nearest_in_sector_double (R : Rounded F u) (hL : MadeOf F A L) (hF : Filled L) {r phi : K} (hr : F.rnd (1 / 1000000) ≤ r)
    (h1 : A.rMin ≤ r) (h2 : r ≤ A.rMax) (h3 : 0 ≤ phi) (h4 : phi ≤ A.phiMax) :
    ∃ row pad n p, PadsInRow L row n ∧ IsIndex L row pad p ∧ (∀ fuel, getNearestPad F L (fuel + 1) r phi = some (.ok p)) ∧
      DeepInPad A (getNRows L) n (-(8 * u * (A.rMax - A.rMin))) (-(4 * u * A.phiMax)) row pad r phi := by
  have hA := hL.proper
  have B := built_of R hL
  have hu0 := R.nonneg
  have hu := R.small
  obtain ⟨hn, hlen⟩ := nRow_of B hF
  rw [hlen]
  have hn' : (0 : K) < L.nRow := by exact_mod_cast hn.1
  have hn2 : (L.nRow : K) ≤ 65536 := by exact_mod_cast hn.2
  have hrp : 0 < r := lt_of_lt_of_le (R.rounding.pos (by linarith) (by norm_num)) hr
  have hD : 0 < A.rMax - A.rMin := by linarith [hA.r]
  have hH : L.nRow * ((A.rMax - A.rMin) / L.nRow) = A.rMax - A.rMin := mul_div_cancel₀ _ hn'.ne'
  have hHp : 0 < (A.rMax - A.rMin) / L.nRow := div_pos hD hn'
  have hfar : r - A.rMin ≤ 2 ^ 30 * ((A.rMax - A.rMin) / L.nRow) := by
    have := mul_le_mul_of_nonneg_right hn2 hHp.le
    norm_num at *
    linarith
  obtain ⟨q1, q2⟩ := row_number R hA B hn.1 hfar h1
  obtain ⟨-, g1, g2⟩ := R.rounding.found hu0 hu hA.r hn.1 h1 h2 rfl
  generalize ⌊F.rnd (F.rnd (r - A.rMin) / F.rnd (F.rnd (A.rMax - A.rMin) / L.nRow))⌋ = q at q1 q2 g1 g2
  obtain ⟨row, hrow⟩ : ∃ row, row = if q ≥ L.nRow then L.nRow - 1 else q := ⟨_, rfl⟩
  have hrow' : 0 ≤ row ∧ row < L.nRow := by rw [hrow]; split_ifs <;> omega
  have uD : 0 ≤ 8 * u * (A.rMax - A.rMin) := mul_nonneg (mul_nonneg (by norm_num) hu0) hD.le
  have hin : A.rMin + row * ((A.rMax - A.rMin) / L.nRow) + -(8 * u * (A.rMax - A.rMin)) ≤ r ∧
      r ≤ A.rMin + (row + 1) * ((A.rMax - A.rMin) / L.nRow) - -(8 * u * (A.rMax - A.rMin)) := by
    rw [hrow]
    split_ifs with hc
    · have hc' : (L.nRow : K) ≤ q := by exact_mod_cast hc
      have := mul_le_mul_of_nonneg_right hc' hHp.le
      push_cast
      constructor <;> linarith
    · constructor <;> linarith
  obtain ⟨rr, hrr⟩ := row_exists B hrow'
  have hk : PadsInRow L row rr.nPad := ⟨rr, hrr, rfl⟩
  have hnp := hF.pads _ _ hk
  have hnp' : (0 : K) < rr.nPad := by exact_mod_cast (by omega : 0 < rr.nPad)
  obtain ⟨-, -, hpp, -⟩ := row_props R hA B hrr
  have p1 := pad_number R hA hnp h3 h4
  obtain ⟨p2, k1, k2⟩ := R.rounding.share_found hu0 hu hA.phi0 (by omega : 0 < rr.nPad) h3 h4 rfl
  generalize ⌊F.rnd (phi / F.rnd (A.phiMax / rr.nPad))⌋ = pq at p1 p2 k1 k2
  obtain ⟨pad, hpad⟩ : ∃ pad, pad = if pq ≥ rr.nPad then rr.nPad - 1 else pq := ⟨_, rfl⟩
  have hpad' : 0 ≤ pad ∧ pad < rr.nPad := by rw [hpad]; split_ifs <;> omega
  have hW : rr.nPad * (A.phiMax / rr.nPad) = A.phiMax := mul_div_cancel₀ _ hnp'.ne'
  have hWp : 0 < A.phiMax / rr.nPad := div_pos hA.phi0 hnp'
  have uP : 0 ≤ 4 * u * A.phiMax := mul_nonneg (mul_nonneg (by norm_num) hu0) hA.phi0.le
  have hin2 : pad * (A.phiMax / rr.nPad) + -(4 * u * A.phiMax) ≤ phi ∧
      phi ≤ (pad + 1) * (A.phiMax / rr.nPad) - -(4 * u * A.phiMax) := by
    rw [hpad]
    split_ifs with hc
    · have hc' : (rr.nPad : K) ≤ pq := by exact_mod_cast hc
      have := mul_le_mul_of_nonneg_right hc' hWp.le
      push_cast
      constructor <;> linarith
    · constructor <;> linarith
  have hisp : IsPad L row pad := ⟨rr.nPad, hk, hpad'⟩
  obtain ⟨p, hp⟩ := index_isSome hF hisp
  refine ⟨row, pad, rr.nPad, p, hk, ⟨hisp, hp⟩, fun fuel => ?_, hin, hin2⟩
  have t := turn_bounds R
  have hhi : phi ≤ F.mul 2 F.pi := by
    refine h4.trans ?_
    rw [← hL.phiMax]; exact R.rounding.mono _ _ hA.phi
  have hfrom : ∀ a b, nearestFrom F L r phi a b = .ok p := by
    intro a b
    unfold nearestFrom
    rw [if_pos ⟨hrp, h3, by rw [B.phiMax]; exact h4⟩, if_neg (by rw [B.rMin]; exact not_lt.2 h1), q1, Res.bind_ok]
    dsimp only
    rw [← hrow, Rect.elemUb_of hrr, Res.bind_ok, hpp, p1, Res.bind_ok, ← hpad]
    exact hp
  unfold getNearestPad
  rw [if_neg (by rw [abs_of_pos hrp]; exact not_lt.2 hr), wrap_id h3 hhi, wrap_id (by linarith) hhi]
  split_ifs <;> exact congrArg some (hfrom _ _)

theorem cells_eq {lo H a b x : K} {i j : ℤ} (hH : 0 < H) (hab : a < b) (h1 : lo + i * H + b ≤ x) (h2 : x ≤ lo + (i + 1) * H - b)
    (h3 : lo + j * H + -a ≤ x) (h4 : x ≤ lo + (j + 1) * H - -a) : i = j := by
  have e1 : (i : K) < j + 1 := by
    by_contra hc
    have := mul_le_mul_of_nonneg_right (not_lt.1 hc) hH.le
    linarith
  have e2 : (j : K) < i + 1 := by
    by_contra hc
    have := mul_le_mul_of_nonneg_right (not_lt.1 hc) hH.le
    linarith
  have e1' : i < j + 1 := by exact_mod_cast e1
  have e2' : j < i + 1 := by exact_mod_cast e2
  omega

/-- For a point in a pad, not within a few roundings of its edges, that pad is returned. -/
theorem nearest_deep_double (R : Rounded F u) (hL : MadeOf F A L) (hF : Filled L) {row pad n p : ℤ} (hn : PadsInRow L row n)
    (hp : IsIndex L row pad p) {r phi : K} (hr : F.rnd (1 / 1000000) ≤ r)
    (h : DeepInPad A (getNRows L) n (9 * u * (A.rMax - A.rMin)) (5 * u * A.phiMax) row pad r phi) (fuel : ℕ) :
    getNearestPad F L (fuel + 1) r phi = some (.ok p) := by
  have hA := hL.proper
  have B := built_of R hL
  have hu0 := R.nonneg
  obtain ⟨hN, hlen⟩ := nRow_of B hF
  have hN' : (0 : K) < L.nRow := by exact_mod_cast hN.1
  have hD : 0 < A.rMax - A.rMin := by linarith [hA.r]
  have hHp : 0 < (A.rMax - A.rMin) / (getNRows L : K) := by rw [hlen]; exact div_pos hD hN'
  have hH : (getNRows L : K) * ((A.rMax - A.rMin) / (getNRows L : K)) = A.rMax - A.rMin := by
    rw [hlen]; exact mul_div_cancel₀ _ hN'.ne'
  obtain ⟨n', hn', h0, h1⟩ := id hp.1
  have same : ∀ m, PadsInRow L row m → m = n := by
    rintro m ⟨a, ha, rfl⟩
    obtain ⟨b, hb, rfl⟩ := hn
    rw [ha] at hb; cases hb; rfl
  obtain rfl := same n' hn'
  have hrow : 0 ≤ row ∧ row < getNRows L := by
    obtain ⟨a, ha, -⟩ := hn
    exact Rect.elem_range ha
  have hnK : (0 : K) < n' := by exact_mod_cast (by omega : 0 < n')
  have hWp : 0 < A.phiMax / n' := div_pos hA.phi0 hnK
  have hW : n' * (A.phiMax / n') = A.phiMax := mul_div_cancel₀ _ hnK.ne'
  obtain ⟨⟨a1, a2⟩, b1, b2⟩ := h
  have i0 : (0 : K) ≤ row := by exact_mod_cast hrow.1
  have i1 : (row : K) + 1 ≤ getNRows L := by exact_mod_cast hrow.2
  have j0 : (0 : K) ≤ pad := by exact_mod_cast h0
  have j1 : (pad : K) + 1 ≤ n' := by exact_mod_cast h1
  have k1 := mul_nonneg i0 hHp.le
  have k2 := mul_le_mul_of_nonneg_right i1 hHp.le
  have k3 := mul_nonneg j0 hWp.le
  have k4 := mul_le_mul_of_nonneg_right j1 hWp.le
  have uD : 0 < u * (A.rMax - A.rMin) := mul_pos R.pos hD
  have uP : 0 < u * A.phiMax := mul_pos R.pos hA.phi0
  obtain ⟨row', pad', n'', p', hk, hi, hres, ⟨c1, c2⟩, c3, c4⟩ := nearest_in_sector_double R hL hF (r := r) (phi := phi) hr
    (by linarith) (by linarith) (by linarith) (by linarith)
  obtain rfl : row = row' := cells_eq hHp (show 8 * u * (A.rMax - A.rMin) < 9 * u * (A.rMax - A.rMin) by linarith) a1 a2 c1 c2
  obtain rfl := same n'' hk
  obtain rfl : pad = pad' := cells_eq (lo := 0) (x := phi) hWp (show 4 * u * A.phiMax < 5 * u * A.phiMax by linarith)
    (by linarith) (by linarith) (by linarith) (by linarith)
  rw [hres fuel]
  have := hp.2
  rw [hi.2] at this
  exact congrArg some this

/-- The rounded centre of a pad. -/
theorem centre_near (R : Rounded F u) (hL : MadeOf F A L) (hF : Filled L) {row pad n p : ℤ} (hn : PadsInRow L row n)
    (hp : IsIndex L row pad p) :
    ∃ c, getPadCenter F L p = .ok c ∧ |c.1 - rowCentre A (getNRows L) row| ≤ 6 * u * A.rMax ∧
      |c.2 - (pad + 1 / 2) * (A.phiMax / n)| ≤ 3 * u * A.phiMax := by
  have hA := hL.proper
  have B := built_of R hL
  have hu0 := R.nonneg
  have hu := R.small
  obtain ⟨hN, hlen⟩ := nRow_of B hF
  obtain ⟨e1, e2⟩ := numbers hF hp
  obtain ⟨rr, hrr, rfl⟩ := hn
  obtain ⟨n', ⟨r2, hr2, rfl⟩, h0, h1⟩ := id hp.1
  rw [hrr] at hr2; cases hr2
  have hnp := hF.pads _ _ ⟨rr, hrr, rfl⟩
  obtain ⟨hrow, ⟨m1, m2⟩, hpp, -⟩ := row_props R hA B hrr
  obtain ⟨-, mid2, mid3⟩ := mid_bounds hA hrow
  refine ⟨(rr.rCenter, F.mul (F.add (pad : K) (1 / 2)) rr.phiPad), ?_, ?_, ?_⟩
  · unfold getPadCenter
    rw [e1, e2, Rect.elemUb_of hrr, Res.bind_ok]
    rfl
  · rw [hlen]
    change |rr.rCenter - mid A L row| ≤ _
    have : 6 * u * mid A L row ≤ 6 * u * A.rMax := mul_le_mul_of_nonneg_left mid2.le (mul_nonneg (by norm_num) hu0)
    rw [_root_.abs_le]
    constructor <;> linarith
  · dsimp only
    have hnK : (0 : K) < rr.nPad := by exact_mod_cast (by omega : 0 < rr.nPad)
    have hWp : 0 < A.phiMax / rr.nPad := div_pos hA.phi0 hnK
    have hW : rr.nPad * (A.phiMax / rr.nPad) = A.phiMax := mul_div_cancel₀ _ hnK.ne'
    have j0 : (0 : K) ≤ pad := by exact_mod_cast h0
    have j1 : (pad : K) + 1 ≤ rr.nPad := by exact_mod_cast h1
    unfold Arith.mul Arith.add
    rw [R.rounding.half h0 (by omega), hpp]
    generalize A.phiMax / (rr.nPad : K) = W at hWp hW ⊢
    obtain ⟨w1, w2⟩ := R.rounding.bounds hWp.le
    have s0 : (0 : K) ≤ pad + 1 / 2 := by linarith
    obtain ⟨v1, v2⟩ := R.rounding.bounds (x := (pad + 1 / 2) * F.rnd W) (mul_nonneg s0 (R.rounding.nonneg hWp.le))
    obtain ⟨X, hX⟩ : ∃ X, X = ((pad : K) + 1 / 2) * W := ⟨_, rfl⟩
    have hX0 : 0 ≤ X := by rw [hX]; exact mul_nonneg s0 hWp.le
    have hX1 : X ≤ A.phiMax := by
      rw [hX, ← hW]; exact mul_le_mul_of_nonneg_right (by linarith) hWp.le
    have x1 : (1 - u) * X ≤ (pad + 1 / 2) * F.rnd W := by
      have := mul_le_mul_of_nonneg_left w1 s0
      rw [hX]; linarith
    have x2 : (pad + 1 / 2) * F.rnd W ≤ (1 + u) * X := by
      have := mul_le_mul_of_nonneg_left w2 s0
      rw [hX]; linarith
    have y1 := (mul_le_mul_of_nonneg_left x1 (show 0 ≤ 1 - u by linarith)).trans v1
    have y2 := v2.trans (mul_le_mul_of_nonneg_left x2 (show 0 ≤ 1 + u by linarith))
    have uX : u * X ≤ u * A.phiMax := mul_le_mul_of_nonneg_left hX1 hu0
    have uX0 : 0 ≤ u * X := mul_nonneg hu0 hX0
    have uuX : u * (u * X) ≤ 1 / 1000 * (u * X) := mul_le_mul_of_nonneg_right hu uX0
    have uuX0 : 0 ≤ u * (u * X) := mul_nonneg hu0 uX0
    have z1 : (1 - u) * ((1 - u) * X) = X - 2 * (u * X) + u * (u * X) := by ring
    have z2 : (1 + u) * ((1 + u) * X) = X + 2 * (u * X) + u * (u * X) := by ring
    rw [← hX, _root_.abs_le]
    constructor <;> linarith

set_option maxHeartbeats 2000000 in
/-- What `isInsidePad` decides, for a point of the ring: the distance from the centre of the pad is compared with half the
height and half the width of the pad, up to a few roundings. -/
theorem inside_double (R : Rounded F u) (hL : MadeOf F A L) (hF : Filled L) {row pad n p : ℤ} (hn : PadsInRow L row n)
    (hp : IsIndex L row pad p) {r phi : K} (h1 : A.rMin ≤ r) (h2 : r ≤ A.rMax) (h3 : 0 ≤ phi) (h4 : phi ≤ F.mul 2 F.pi) (fuel : ℕ) :
    ∃ b, isInsidePad F L (fuel + 1) r phi p = some (.ok b) ∧
      (|r - rowCentre A (getNRows L) row| ≤ A.padHeight / 2 - 8 * u * (A.rMax + A.padHeight) ∧
        |phi - (pad + 1 / 2) * (A.phiMax / n)| ≤ A.padWidth / rowCentre A (getNRows L) row / 2 - 90 * u → b = true) ∧
      (b = true → |r - rowCentre A (getNRows L) row| ≤ A.padHeight / 2 + 8 * u * (A.rMax + A.padHeight) ∧
        |phi - (pad + 1 / 2) * (A.phiMax / n)| ≤ A.padWidth / rowCentre A (getNRows L) row / 2 + 90 * u) := by
  have hA := hL.proper
  have B := built_of R hL
  have hu0 := R.nonneg
  have hu := R.small
  obtain ⟨hN, hlen⟩ := nRow_of B hF
  obtain ⟨c, hc, c1, c2⟩ := centre_near R hL hF hn hp
  obtain ⟨e1, -⟩ := numbers hF hp
  have hfit := pads_fit_double R hL hn
  have hn1 := (hF.pads _ _ hn).1
  obtain ⟨n', hn', p0, p1⟩ := id hp.1
  obtain ⟨rr, hrr, rfl⟩ := hn
  obtain ⟨r2, hr2, rfl⟩ := hn'
  rw [hrr] at hr2; cases hr2
  obtain ⟨hrow, ⟨m1, m2⟩, -, -⟩ := row_props R hA B hrr
  obtain ⟨-, mid2, mid3⟩ := mid_bounds hA hrow
  rw [hlen] at c1 hfit ⊢
  change |c.1 - mid A L row| ≤ _ at c1
  change rr.nPad * _ ≤ (1 + 10 * u) * (mid A L row * A.phiMax) ∧ _ at hfit
  obtain ⟨m, hm⟩ : ∃ m, m = mid A L row := ⟨_, rfl⟩
  change ∃ b, _ ∧ (|r - mid A L row| ≤ _ ∧ _ ≤ A.padWidth / mid A L row / 2 - _ → _) ∧
    (_ → |r - mid A L row| ≤ _ ∧ _ ≤ A.padWidth / mid A L row / 2 + _)
  rw [← hm] at c1 hfit m1 m2 mid2 mid3 ⊢
  -- the width of the pad
  obtain ⟨w, hw⟩ : ∃ w, w = A.padWidth / m := ⟨_, rfl⟩
  have hphi8 : A.phiMax ≤ 8 := by linarith [hA.phi, R.pi.2]
  have hw0 : 0 ≤ w := by rw [hw]; exact div_nonneg B.width_pos.le mid3.le
  have hw9 : w ≤ 9 := by
    rw [hw, div_le_iff₀ mid3]
    have k1 : (1 : K) ≤ rr.nPad := by exact_mod_cast hn1
    have k2 : A.padWidth + A.padGap ≤ rr.nPad * (A.padWidth + A.padGap) := by
      have := mul_le_mul_of_nonneg_right k1 (show 0 ≤ A.padWidth + A.padGap by linarith [B.width_pos, hA.gap])
      linarith
    have k3 : (1 + 10 * u) * (m * A.phiMax) ≤ 101 / 100 * (m * 8) :=
      mul_le_mul (by linarith) (mul_le_mul_of_nonneg_left hphi8 mid3.le) (mul_nonneg mid3.le hA.phi0.le) (by norm_num)
    linarith [hA.gap, hfit.1]
  have hrc : 0 < rr.rCenter := lt_of_lt_of_le (mul_pos (by linarith) mid3) m1
  obtain ⟨v, hv⟩ : ∃ v, v = F.rnd (A.padWidth / rr.rCenter) := ⟨_, rfl⟩
  obtain ⟨g1, g2⟩ := R.rounding.bounds (x := A.padWidth / rr.rCenter) (div_nonneg B.width_pos.le hrc.le)
  rw [← hv] at g1 g2
  have q1 : A.padWidth / rr.rCenter ≤ (1 + 7 * u) * w := by
    rw [div_le_iff₀ hrc]
    have k1 : (1 + 7 * u) * w * ((1 - 6 * u) * m) ≤ (1 + 7 * u) * w * rr.rCenter :=
      mul_le_mul_of_nonneg_left m1 (mul_nonneg (by linarith) hw0)
    have k2 : w * m = A.padWidth := by rw [hw, div_mul_cancel₀ _ mid3.ne']
    have k3 : (1 + 7 * u) * w * ((1 - 6 * u) * m) = (w * m) * (1 + u - 42 * (u * u)) := by ring
    rw [k2] at k3
    have k4 : A.padWidth * 1 ≤ A.padWidth * (1 + u - 42 * (u * u)) :=
      mul_le_mul_of_nonneg_left (by nlinarith) B.width_pos.le
    linarith
  have q2 : (1 - 6 * u) * w ≤ A.padWidth / rr.rCenter := by
    rw [le_div_iff₀ hrc]
    have k1 : (1 - 6 * u) * w * rr.rCenter ≤ (1 - 6 * u) * w * ((1 + 6 * u) * m) :=
      mul_le_mul_of_nonneg_left m2 (mul_nonneg (by linarith) hw0)
    have k2 : w * m = A.padWidth := by rw [hw, div_mul_cancel₀ _ mid3.ne']
    have k3 : (1 - 6 * u) * w * ((1 + 6 * u) * m) = (w * m) * (1 - 36 * (u * u)) := by ring
    rw [k2] at k3
    have k4 : A.padWidth * (1 - 36 * (u * u)) ≤ A.padWidth * 1 :=
      mul_le_mul_of_nonneg_left (by nlinarith [mul_nonneg hu0 hu0]) B.width_pos.le
    linarith
  have uw : u * w ≤ 9 * u := by
    have := mul_le_mul_of_nonneg_left hw9 hu0; linarith
  have uw0 : 0 ≤ u * w := mul_nonneg hu0 hw0
  have uuw : u * (u * w) ≤ 1 / 1000 * (u * w) := mul_le_mul_of_nonneg_right hu uw0
  have uuw0 : 0 ≤ u * (u * w) := mul_nonneg hu0 uw0
  have v1 : v ≤ w + 9 * (u * w) := by
    have := g2.trans (mul_le_mul_of_nonneg_left q1 (show 0 ≤ 1 + u by linarith))
    have e : (1 + u) * ((1 + 7 * u) * w) = w + 8 * (u * w) + 7 * (u * (u * w)) := by ring
    linarith
  have v2 : w - 9 * (u * w) ≤ v := by
    have := (mul_le_mul_of_nonneg_left q2 (show 0 ≤ 1 - u by linarith)).trans g1
    have e : (1 - u) * ((1 - 6 * u) * w) = w - 7 * (u * w) + 6 * (u * (u * w)) := by ring
    linarith
  have v0 : 0 ≤ v := by rw [hv]; exact R.rounding.nonneg (div_nonneg B.width_pos.le hrc.le)
  obtain ⟨s, hs⟩ : ∃ s, s = F.rnd (1 / 2 * v) := ⟨_, rfl⟩
  obtain ⟨s1, s2⟩ := R.rounding.bounds (x := 1 / 2 * v) (by linarith)
  rw [← hs] at s1 s2
  have uv : u * v ≤ 10 * u := by
    have := mul_le_mul_of_nonneg_left (show v ≤ 10 by linarith) hu0; linarith
  -- half the height
  obtain ⟨g, hg⟩ : ∃ g, g = F.rnd (1 / 2 * A.padHeight) := ⟨_, rfl⟩
  have hh := B.height_pos
  obtain ⟨t1, t2⟩ := R.rounding.bounds (x := 1 / 2 * A.padHeight) (by linarith)
  rw [← hg] at t1 t2
  -- the distances
  obtain ⟨x, hx⟩ : ∃ x, x = F.rnd (r - c.1) := ⟨_, rfl⟩
  have xe := R.rounding.err (r - c.1)
  rw [← hx] at xe
  obtain ⟨y, hy⟩ : ∃ y, y = F.rnd (phi - c.2) := ⟨_, rfl⟩
  have ye := R.rounding.err (phi - c.2)
  rw [← hy] at ye
  have hr0 := hA.r0
  have uM : 0 ≤ u * A.rMax := mul_nonneg hu0 (by linarith)
  have uMs : u * A.rMax ≤ 1 / 1000 * A.rMax := mul_le_mul_of_nonneg_right hu (by linarith)
  have c1' := _root_.abs_le.1 c1
  have c2' := _root_.abs_le.1 c2
  have d1 : |r - c.1| ≤ 101 / 100 * A.rMax := by
    rw [_root_.abs_le]; constructor <;> linarith
  have d1' : u * |r - c.1| ≤ 101 / 100 * (u * A.rMax) := by
    have := mul_le_mul_of_nonneg_left d1 hu0; linarith
  have uP : u * A.phiMax ≤ 8 * u := by
    have := mul_le_mul_of_nonneg_left hphi8 hu0; linarith
  have uP0 : 0 ≤ u * A.phiMax := mul_nonneg hu0 hA.phi0.le
  have hnK : (0 : K) < rr.nPad := by exact_mod_cast (by omega : 0 < rr.nPad)
  have hWp : 0 < A.phiMax / rr.nPad := div_pos hA.phi0 hnK
  have hW : rr.nPad * (A.phiMax / rr.nPad) = A.phiMax := mul_div_cancel₀ _ hnK.ne'
  have X0 : 0 ≤ ((pad : K) + 1 / 2) * (A.phiMax / rr.nPad) := by
    have : (0 : K) ≤ pad := by exact_mod_cast p0
    exact mul_nonneg (by linarith) hWp.le
  have X1 : ((pad : K) + 1 / 2) * (A.phiMax / rr.nPad) ≤ A.phiMax := by
    have : (pad : K) + 1 ≤ rr.nPad := by exact_mod_cast p1
    have := mul_le_mul_of_nonneg_right (show (pad : K) + 1 / 2 ≤ rr.nPad by linarith) hWp.le
    linarith
  have turn := (R.rounding.bounds (x := 2 * F.pi) (by linarith [R.pi.1])).2
  have turn9 : F.mul 2 F.pi ≤ 9 := by
    unfold Arith.mul
    have : (1 + u) * (2 * F.pi) ≤ 11 / 10 * 8 :=
      mul_le_mul (by linarith) (by linarith [R.pi.2]) (by linarith [R.pi.1]) (by norm_num)
    linarith
  have d2 : |phi - c.2| ≤ 10 := by
    rw [_root_.abs_le]; constructor <;> linarith
  have d2' : u * |phi - c.2| ≤ 10 * u := by
    have := mul_le_mul_of_nonneg_left d2 hu0; linarith
  refine ⟨decide (|x| ≤ g ∧ |y| ≤ s), ?_, ?_, ?_⟩
  · unfold isInsidePad
    rw [B.rMin, B.rMax, if_neg (by rw [not_or, not_lt, not_lt]; exact ⟨h1, h2⟩), wrap_id h3 h4]
    have hwid : getPadWidth F L p = v := by
      unfold getPadWidth
      rw [e1, hrr]
      dsimp only
      rw [B.padWidth, hv]
      rfl
    rw [Option.map_some, hc, Res.bind_ok, hwid, B.padHeight, hx, hy, hg, hs]
    rfl
  · rintro ⟨a1, a2⟩
    rw [decide_eq_true_eq]
    rw [← hw] at a2
    have n1 : |x| ≤ |x - (r - c.1)| + |c.1 - m| + |r - m| := by
      have k1 := abs_add_le (x - (r - c.1)) (r - c.1)
      rw [sub_add_cancel] at k1
      have k2 := abs_sub_le r m c.1
      rw [abs_sub_comm m c.1] at k2
      linarith
    have n2 : |y| ≤ |y - (phi - c.2)| + |c.2 - (pad + 1 / 2) * (A.phiMax / rr.nPad)| + |phi - (pad + 1 / 2) * (A.phiMax / rr.nPad)| := by
      have k1 := abs_add_le (y - (phi - c.2)) (phi - c.2)
      rw [sub_add_cancel] at k1
      have k2 := abs_sub_le phi ((pad + 1 / 2) * (A.phiMax / rr.nPad)) c.2
      rw [abs_sub_comm ((pad + 1 / 2) * (A.phiMax / rr.nPad)) c.2] at k2
      linarith
    have uh : 0 ≤ u * A.padHeight := mul_nonneg hu0 hh.le
    constructor <;> linarith
  · intro hb
    rw [decide_eq_true_eq] at hb
    obtain ⟨b1, b2⟩ := hb
    rw [← hw]
    have n1 : |r - m| ≤ |x| + |x - (r - c.1)| + |c.1 - m| := by
      have k1 := abs_sub_le r c.1 m
      have k2 : |r - c.1| ≤ |x| + |x - (r - c.1)| := by
        have := abs_sub_abs_le_abs_sub (r - c.1) x
        rw [abs_sub_comm (r - c.1) x] at this
        linarith
      linarith
    have n2 : |phi - (pad + 1 / 2) * (A.phiMax / rr.nPad)| ≤ |y| + |y - (phi - c.2)| + |c.2 - (pad + 1 / 2) * (A.phiMax / rr.nPad)| := by
      have k1 := abs_sub_le phi c.2 ((pad + 1 / 2) * (A.phiMax / rr.nPad))
      have k2 : |phi - c.2| ≤ |y| + |y - (phi - c.2)| := by
        have := abs_sub_abs_le_abs_sub (phi - c.2) y
        rw [abs_sub_comm (phi - c.2) y] at this
        linarith
      linarith
    have uh : 0 ≤ u * A.padHeight := mul_nonneg hu0 hh.le
    constructor <;> linarith

/-- If rows and pads are large against the rounding, the centre of a pad is inside the pad and has it as the nearest one. -/
theorem nearest_center_double (R : Rounded F u) (hL : MadeOf F A L) (hF : Filled L) {row pad n p : ℤ} (hn : PadsInRow L row n)
    (hp : IsIndex L row pad p) (h1 : 40 * u * A.rMax ≤ (A.rMax - A.rMin) / getNRows L) (h2 : 20 * u * n ≤ 1) {c : K × K}
    (hc : getPadCenter F L p = .ok c) (hr : F.rnd (1 / 1000000) ≤ c.1) (fuel : ℕ) :
    isInsidePad F L (fuel + 1) c.1 c.2 p = some (.ok true) ∧ getNearestPad F L (fuel + 1) c.1 c.2 = some (.ok p) := by
  have hA := hL.proper
  have B := built_of R hL
  have hu0 := R.nonneg
  have hu := R.small
  obtain ⟨hN, hlen⟩ := nRow_of B hF
  have hN' : (0 : K) < L.nRow := by exact_mod_cast hN.1
  obtain ⟨c', hc', c1, c2⟩ := centre_near R hL hF hn hp
  rw [hc] at hc'
  obtain rfl := Res.ok.inj hc'
  rw [_root_.abs_le] at c1 c2
  obtain ⟨n', hn', p0, p1⟩ := id hp.1
  obtain ⟨rr, hrr, rfl⟩ := id hn
  obtain ⟨r2, hr2, rfl⟩ := hn'
  rw [hrr] at hr2; cases hr2
  have hrow := Rect.elem_range hrr
  rw [B.length] at hrow
  have hD : 0 < A.rMax - A.rMin := by linarith [hA.r]
  have hr0 := hA.r0
  have hnK : (0 : K) < rr.nPad := by exact_mod_cast (by omega : 0 < rr.nPad)
  have hWp : 0 < A.phiMax / rr.nPad := div_pos hA.phi0 hnK
  have hW : rr.nPad * (A.phiMax / rr.nPad) = A.phiMax := mul_div_cancel₀ _ hnK.ne'
  have uM : u * (A.rMax - A.rMin) ≤ u * A.rMax := mul_le_mul_of_nonneg_left (by linarith) hu0
  have wide : 20 * u * A.phiMax ≤ A.phiMax / rr.nPad := by
    have := mul_le_mul_of_nonneg_right h2 hWp.le
    rw [mul_assoc, hW] at this
    linarith
  have deep : DeepInPad A (getNRows L) rr.nPad (9 * u * (A.rMax - A.rMin)) (5 * u * A.phiMax) row pad c.1 c.2 := by
    unfold rowCentre at c1
    unfold DeepInPad
    generalize (A.rMax - A.rMin) / (getNRows L : K) = H at c1 h1 ⊢
    generalize A.phiMax / (rr.nPad : K) = W at c2 wide ⊢
    have uP : 0 ≤ u * A.phiMax := mul_nonneg hu0 hA.phi0.le
    refine ⟨⟨?_, ?_⟩, ?_, ?_⟩ <;> linarith
  refine ⟨?_, nearest_deep_double R hL hF hn hp hr deep fuel⟩
  obtain ⟨⟨d1, d2⟩, d3, d4⟩ := deep
  have hHp : 0 < (A.rMax - A.rMin) / (getNRows L : K) := by rw [hlen]; exact div_pos hD hN'
  have hH : (getNRows L : K) * ((A.rMax - A.rMin) / (getNRows L : K)) = A.rMax - A.rMin := by
    rw [hlen]; exact mul_div_cancel₀ _ hN'.ne'
  have i0 : (0 : K) ≤ row := by exact_mod_cast hrow.1
  have i1 : (row : K) + 1 ≤ getNRows L := by rw [hlen]; exact_mod_cast hrow.2
  have j0 : (0 : K) ≤ pad := by exact_mod_cast p0
  have j1 : (pad : K) + 1 ≤ rr.nPad := by exact_mod_cast p1
  have k1 := mul_nonneg i0 hHp.le
  have k2 := mul_le_mul_of_nonneg_right i1 hHp.le
  have k3 := mul_nonneg j0 hWp.le
  have k4 := mul_le_mul_of_nonneg_right j1 hWp.le
  have uD : 0 ≤ u * (A.rMax - A.rMin) := mul_nonneg hu0 hD.le
  have uP : 0 ≤ u * A.phiMax := mul_nonneg hu0 hA.phi0.le
  obtain ⟨-, ⟨m1, -⟩, -, -⟩ := row_props R hA B hrr
  obtain ⟨-, -, mid3⟩ := mid_bounds hA hrow
  have hrc : 0 < rr.rCenter := lt_of_lt_of_le (mul_pos (by linarith) mid3) m1
  have hhi : c.2 ≤ F.mul 2 F.pi := by
    refine le_trans (show c.2 ≤ A.phiMax by linarith) ?_
    rw [← hL.phiMax]; exact R.rounding.mono _ _ hA.phi
  unfold isInsidePad
  rw [B.rMin, B.rMax, if_neg (by rw [not_or, not_lt, not_lt]; constructor <;> linarith), wrap_id (by linarith) hhi,
    Option.map_some, hc, Res.bind_ok]
  have z : ∀ a : K, F.sub a a = 0 := fun a => by unfold Arith.sub; rw [sub_self, R.rounding.zero]
  rw [z, z, abs_zero]
  have b1 : 0 ≤ F.mul (1 / 2) L.padHeight := by
    rw [B.padHeight]; exact R.rounding.nonneg (by linarith [B.height_pos])
  have b2 : 0 ≤ F.mul (1 / 2) (getPadWidth F L p) := by
    obtain ⟨e1, -⟩ := numbers hF hp
    unfold getPadWidth
    rw [e1, hrr]
    dsimp only
    rw [B.padWidth]
    exact R.rounding.nonneg (mul_nonneg (by norm_num) (R.rounding.nonneg (div_nonneg B.width_pos.le hrc.le)))
  dsimp only
  rw [decide_eq_true ⟨b1, b2⟩]
  rfl

/-- After the loops a pad is returned, whatever the angle, unless the point is further out than 2 ^ 30 rows. -/
theorem nearestFrom_exists (R : Rounded F u) (hL : MadeOf F A L) (hF : Filled L) {r : K}
    (hfar : r - A.rMin ≤ 2 ^ 30 * ((A.rMax - A.rMin) / getNRows L)) (phi a b : K) :
    ∃ row pad p, IsIndex L row pad p ∧ nearestFrom F L r phi a b = .ok p := by
  have hA := hL.proper
  have B := built_of R hL
  obtain ⟨hn, hlen⟩ := nRow_of B hF
  rw [hlen] at hfar
  have hn' : (0 : K) < L.nRow := by exact_mod_cast hn.1
  have hn2 : (L.nRow : K) ≤ 65536 := by exact_mod_cast hn.2
  have hD : 0 < A.rMax - A.rMin := by linarith [hA.r]
  have hH : L.nRow * ((A.rMax - A.rMin) / L.nRow) = A.rMax - A.rMin := mul_div_cancel₀ _ hn'.ne'
  have hHp : 0 < (A.rMax - A.rMin) / L.nRow := div_pos hD hn'
  have first : ∀ row, 0 ≤ row ∧ row < L.nRow →
      ∃ r p q, elem L.rows row = some r ∧ IsIndex L row 0 p ∧ IsIndex L row (r.nPad - 1) q := by
    intro row h
    obtain ⟨rr, hrr⟩ := row_exists B h
    have hk : PadsInRow L row rr.nPad := ⟨rr, hrr, rfl⟩
    have h1 := (hF.pads _ _ hk).1
    have i1 : IsPad L row 0 := ⟨_, hk, by omega, by omega⟩
    have i2 : IsPad L row (rr.nPad - 1) := ⟨_, hk, by omega, by omega⟩
    obtain ⟨p, hp⟩ := index_isSome hF i1
    obtain ⟨q, hq⟩ := index_isSome hF i2
    exact ⟨rr, p, q, hrr, ⟨i1, hp⟩, ⟨i2, hq⟩⟩
  have getFirst : ∀ row, 0 ≤ row ∧ row < L.nRow →
      ∃ row' pad p, IsIndex L row' pad p ∧ getPadIndex L row 0 = .ok p := by
    intro row h
    obtain ⟨-, p, -, -, hp, -⟩ := first row h
    exact ⟨_, _, p, hp, hp.2⟩
  have getLast : ∀ row, 0 ≤ row ∧ row < L.nRow → ∃ row' pad p, IsIndex L row' pad p ∧
      (elemUb L.rows row >>= fun r => getPadIndex L row (r.nPad - 1)) = .ok p := by
    intro row h
    obtain ⟨rr, -, q, hrr, -, hq⟩ := first row h
    refine ⟨_, _, q, hq, ?_⟩
    rw [Rect.elemUb_of hrr, Res.bind_ok]; exact hq.2
  have clamp : ∀ x, x ≥ L.rMin ∧ x ≤ L.rMax → ∃ row, clampRow F L x = .ok row ∧ 0 ≤ row ∧ row < L.nRow := by
    rintro x ⟨h1, h2⟩
    rw [B.rMin] at h1
    rw [B.rMax] at h2
    have hx : x - A.rMin ≤ 2 ^ 30 * ((A.rMax - A.rMin) / L.nRow) := by
      have := mul_le_mul_of_nonneg_right hn2 hHp.le
      norm_num at *
      linarith
    obtain ⟨q1, q2⟩ := row_number R hA B hn.1 hx h1
    unfold clampRow
    rw [q1, Res.bind_ok]
    refine ⟨_, rfl, ?_⟩
    rw [if_neg (not_lt.2 q2)]
    split_ifs <;> omega
  unfold nearestFrom
  by_cases c1 : r > 0 ∧ phi ≥ 0 ∧ phi ≤ L.phiMax
  · rw [if_pos c1]
    suffices hq : ∀ q, 0 ≤ q → ∃ row pad p, IsIndex L row pad p ∧
        (elemUb L.rows (if q ≥ L.nRow then L.nRow - 1 else q) >>= fun row => floorInt (F.div phi row.phiPad) >>= fun padNum =>
          getPadIndex L (if q ≥ L.nRow then L.nRow - 1 else q) (if padNum ≥ row.nPad then row.nPad - 1 else padNum)) = .ok p by
      by_cases hc : r < L.rMin
      · rw [if_pos hc]
        exact hq 0 le_rfl
      · rw [if_neg hc]
        rw [B.rMin] at hc
        obtain ⟨q1, q2⟩ := row_number R hA B hn.1 hfar (not_lt.1 hc)
        rw [q1, Res.bind_ok]
        exact hq _ q2
    intro q hq2
    have hrow : 0 ≤ (if q ≥ L.nRow then L.nRow - 1 else q) ∧ (if q ≥ L.nRow then L.nRow - 1 else q) < L.nRow := by
      split_ifs <;> omega
    generalize (if q ≥ L.nRow then L.nRow - 1 else q) = row at hrow
    obtain ⟨rr, hrr⟩ := row_exists B hrow
    have hk : PadsInRow L row rr.nPad := ⟨rr, hrr, rfl⟩
    have hnp := hF.pads _ _ hk
    obtain ⟨-, -, hpp, -⟩ := row_props R hA B hrr
    have hphi : phi ≤ A.phiMax := by rw [← B.phiMax]; exact c1.2.2
    have p1 := pad_number R hA hnp c1.2.1 hphi
    obtain ⟨p2, -⟩ := R.rounding.share_found R.nonneg R.small hA.phi0 (by omega : 0 < rr.nPad) c1.2.1 hphi rfl
    rw [Rect.elemUb_of hrr, Res.bind_ok, hpp, p1, Res.bind_ok]
    generalize ⌊F.rnd (phi / F.rnd (A.phiMax / rr.nPad))⌋ = pq at p2
    have hisp : IsPad L row (if pq ≥ rr.nPad then rr.nPad - 1 else pq) := ⟨rr.nPad, hk, by split_ifs <;> omega⟩
    obtain ⟨p, hp⟩ := index_isSome hF hisp
    exact ⟨_, _, p, ⟨hisp, hp⟩, hp⟩
  rw [if_neg c1]
  by_cases c2 : a < L.rMin ∧ phi < 0
  · rw [if_pos c2]; exact getFirst 0 (by omega)
  rw [if_neg c2]
  by_cases c3 : a > L.rMax ∧ phi < 0
  · rw [if_pos c3]; exact getFirst (L.nRow - 1) (by omega)
  rw [if_neg c3]
  by_cases c4 : b < L.rMin ∧ phi > L.phiMax
  · rw [if_pos c4]; exact getLast 0 (by omega)
  rw [if_neg c4]
  by_cases c5 : b > L.rMax ∧ phi > L.phiMax
  · rw [if_pos c5]; exact getLast (L.nRow - 1) (by omega)
  rw [if_neg c5]
  by_cases c6 : a ≥ L.rMin ∧ a ≤ L.rMax ∧ phi < 0
  · rw [if_pos c6]
    obtain ⟨row, e, hr⟩ := clamp a ⟨c6.1, c6.2.1⟩
    rw [e, Res.bind_ok]
    exact getFirst row hr
  rw [if_neg c6]
  by_cases c7 : b ≥ L.rMin ∧ b ≤ L.rMax ∧ phi > L.phiMax
  · rw [if_pos c7]
    obtain ⟨row, e, hr⟩ := clamp b ⟨c7.1, c7.2.1⟩
    rw [e, Res.bind_ok]
    exact getLast row hr
  rw [if_neg c7]
  exact getFirst 0 (by omega)

theorem wrap_ends (R : Rounded F u) {lo hi phi : K} (h : u * (|phi| + 40) ≤ 1 / 2) (hlo : |lo| ≤ 10) (hhi : |hi| ≤ 10) :
    ∃ n, ∀ fuel, n ≤ fuel → ∃ phi', wrap F fuel lo hi phi = some phi' := by
  have hu0 := R.nonneg
  have hu := R.small
  have ha := abs_nonneg phi
  have hM : u * (|phi| + 30 + 9) ≤ 1 / 2 := le_trans (mul_le_mul_of_nonneg_left (by linarith) hu0) h
  obtain ⟨n1, hn1⟩ := nat_above ((lo - phi) / 5)
  have up := loopUp_ends R.rounding hu0 hu R.pi.1 R.pi.2 hM (show |lo| ≤ _ by linarith) n1 phi
    (by linarith [neg_abs_le phi]) (by rw [div_le_iff₀ (by norm_num)] at hn1; linarith)
  obtain ⟨n2, hn2⟩ := nat_above ((max phi (lo + 9) - hi) / 5)
  refine ⟨max (n1 + 1) (n2 + 1), fun fuel hf => ?_⟩
  obtain ⟨phi', up1, -, -, up4⟩ := up fuel (le_trans (le_max_left _ _) hf)
  have hphi' : phi' ≤ |phi| + 30 := by
    refine up4.trans (max_le (by linarith [le_abs_self phi]) ?_)
    linarith [le_abs_self lo]
  obtain ⟨phi'', d1, -⟩ := loopDown_ends R.rounding hu0 hu R.pi.1 R.pi.2 hM (show |hi| ≤ _ by linarith) n2 phi' hphi'
    (by rw [div_le_iff₀ (by norm_num)] at hn2; linarith) fuel (le_trans (le_max_right _ _) hf)
  exact ⟨phi'', by unfold wrap; rw [up1]; exact d1⟩

theorem turn_small (R : Rounded F u) : |F.mul (-2) F.pi| ≤ 10 ∧ |F.mul 2 F.pi| ≤ 10 := by
  have hu := R.small
  have hu0 := R.nonneg
  have key : ∀ x : K, |x| ≤ 8 → |F.rnd x| ≤ 10 := by
    intro x hx
    have := R.rounding.abs_le x
    have h2 : (1 + u) * |x| ≤ 11 / 10 * 8 := mul_le_mul (by linarith) hx (abs_nonneg _) (by norm_num)
    linarith
  have h1 := R.pi.1
  have h2 := R.pi.2
  exact ⟨key _ (by rw [_root_.abs_le]; constructor <;> linarith), key _ (by rw [_root_.abs_le]; constructor <;> linarith)⟩

/-- For every point that is not within a micrometre of the origin, not further out than 2 ^ 30 rows, and whose angle is not so
large that a rounding of it is of the size of a radian, `getNearestPad` returns an existing pad. -/
theorem nearest_exists_double_partial (R : Rounded F u) (hL : MadeOf F A L) (hF : Filled L) {r phi : K}
    (hr : F.rnd (1 / 1000000) ≤ |r|) (hfar : r - A.rMin ≤ 2 ^ 30 * ((A.rMax - A.rMin) / getNRows L))
    (hphi : u * (|phi| + 40) ≤ 1 / 2) :
    ∃ n, ∀ fuel, n ≤ fuel → ∃ row pad p, IsIndex L row pad p ∧ getNearestPad F L fuel r phi = some (.ok p) := by
  obtain ⟨t1, t2⟩ := turn_small R
  have unf : ∀ fuel, getNearestPad F L fuel r phi = if fullCircle F L then
      (wrap F fuel 0 (F.mul 2 F.pi) phi).map fun phi => nearestFrom F L r phi r r
    else (wrap F fuel (F.mul (-2) F.pi) (F.mul 2 F.pi) phi).map fun phi =>
      nearestFrom F L r phi (F.mul r (F.rnd (F.cos (F.sub phi 0)))) (F.mul r (F.rnd (F.cos (F.sub phi L.phiMax)))) := by
    intro fuel
    unfold getNearestPad
    rw [if_neg (not_lt.2 hr)]
  by_cases hc : fullCircle F L
  · obtain ⟨n, hn⟩ := wrap_ends R hphi (lo := 0) (by rw [abs_zero]; norm_num) t2
    refine ⟨n, fun fuel hf => ?_⟩
    obtain ⟨phi', e⟩ := hn fuel hf
    obtain ⟨row, pad, p, h1, h2⟩ := nearestFrom_exists R hL hF hfar phi' r r
    exact ⟨row, pad, p, h1, by rw [unf, if_pos hc, e, Option.map_some, h2]⟩
  · obtain ⟨n, hn⟩ := wrap_ends R hphi t1 t2
    refine ⟨n, fun fuel hf => ?_⟩
    obtain ⟨phi', e⟩ := hn fuel hf
    obtain ⟨row, pad, p, h1, h2⟩ := nearestFrom_exists R hL hF hfar phi' (F.mul r (F.rnd (F.cos (F.sub phi' 0))))
      (F.mul r (F.rnd (F.cos (F.sub phi' L.phiMax))))
    exact ⟨row, pad, p, h1, by rw [unf, if_neg hc, e, Option.map_some, h2]⟩

/-- Near the origin `getNearestPad` throws. -/
theorem nearest_origin_double (F : Arith K) (L : Layout K) (fuel : ℕ) {r : K} (phi : K) (h : |r| < F.rnd (1 / 1000000)) :
    getNearestPad F L fuel r phi = some (.throw .gear) := by
  unfold getNearestPad; rw [if_pos h]

theorem wrap_endless (hF : F.rnd = binary64) (hpi : 3 ≤ F.pi ∧ F.pi < 39 / 10) {lo hi phi : K} (hlo : |lo| ≤ 10) (hhi : |hi| ≤ 10)
    (hd : binary64 phi = phi) (hphi : 2 ^ 57 ≤ |phi|) (fuel : ℕ) : wrap F fuel lo hi phi = none := by
  have R : Rounding F.rnd (1 / 2 ^ 53) := by rw [hF]; exact binary64_rounding
  have t := R.bounds (x := 2 * F.pi) (by linarith)
  have t0 : 0 ≤ F.mul 2 F.pi := by unfold Arith.mul; norm_num at *; linarith [t.1]
  have t1 : F.mul 2 F.pi < 8 := by unfold Arith.mul; norm_num at *; linarith [t.2]
  rw [_root_.abs_le] at hlo hhi
  unfold wrap
  rcases abs_cases phi with ⟨c1, c2⟩ | ⟨c1, c2⟩
  · rw [c1] at hphi
    have hs : F.sub phi (F.mul 2 F.pi) = phi := by
      unfold Arith.sub; rw [hF]; exact binary64_absorbs hd hphi ⟨t0, t1⟩
    cases fuel with
    | zero => rfl
    | succ n =>
      have h1 : PadAngle.Double.loopUp F lo (n + 1) phi = some phi := by
        rw [PadAngle.Double.loopUp, if_neg]; norm_num at *; linarith [hlo.2]
      rw [h1]
      exact loopDown_endless (by norm_num at *; linarith) hs _
  · rw [c1] at hphi
    have hs : F.add phi (F.mul 2 F.pi) = phi := by
      unfold Arith.add
      rw [hF]
      have := binary64_absorbs (x := -phi) (t := F.mul 2 F.pi) (by rw [binary64_neg, hd]) hphi ⟨t0, t1⟩
      rw [show phi + F.mul 2 F.pi = -(-phi - F.mul 2 F.pi) by ring, binary64_neg, this, neg_neg]
    rw [loopUp_endless (by norm_num at *; linarith) hs]
    rfl

/-- For every double of absolute value from `2 ^ 57` on, `getNearestPad` never returns. -/
theorem nearest_exists_double_false_large (hF : F.rnd = binary64) (hpi : 3 ≤ F.pi ∧ F.pi < 39 / 10) (L : Layout K) {r phi : K}
    (hr : F.rnd (1 / 1000000) ≤ |r|) (hd : binary64 phi = phi) (hphi : 2 ^ 57 ≤ |phi|) (fuel : ℕ) :
    getNearestPad F L fuel r phi = none := by
  have R : Rounded F (1 / 2 ^ 53) := ⟨by rw [hF]; exact binary64_rounding, by norm_num, by norm_num, hpi.1, by linarith [hpi.2]⟩
  obtain ⟨t1, t2⟩ := turn_small R
  unfold getNearestPad
  rw [if_neg (not_lt.2 hr), wrap_endless hF hpi (by rw [abs_zero]; norm_num) t2 hd hphi,
    wrap_endless hF hpi t1 t2 hd hphi]
  split_ifs <;> rfl

/-! ### A layout -/

/-- Two rows between the radii 10 and 12, pads that are 1 wide with a gap of 1/8, angles from 0 to 3. -/
def ringArgs : Args ℚ := ⟨10, 12, 1, 1, 0, 1 / 8, 3⟩

/-- The layout of these. -/
def ring : Layout ℚ :=
  match new doubles 1 10 12 1 1 0 (1 / 8) 3 with
  | some (.ok L) => L
  | _ => ⟨0, 0, 0, 0, 0, 0, 0, 0, 0, [], [], []⟩

theorem ring_made : MadeOf doubles ringArgs ring :=
  ⟨by constructor <;> norm_num [ringArgs, doubles], by decide +kernel, by decide +kernel, ⟨1, by decide +kernel⟩⟩

theorem ring_filled : Filled ring := by
  have h : ring.rows.map Row.nPad = [28, 30] := by decide +kernel
  refine ⟨by decide +kernel, ?_⟩
  rintro row n ⟨rr, hr, rfl⟩
  have hm : rr.nPad ∈ ring.rows.map Row.nPad := List.mem_map_of_mem (Rect.elem_mem hr)
  rw [h] at hm
  rcases List.mem_pair.1 hm with e | e <;> rw [e] <;> norm_num

/-- The second row has 30 pads, and the theorems apply to its last pad and to points of it. -/
example : PadsInRow ring 1 30 ∧ IsIndex ring 1 29 65565 ∧ getNRows ring = 2 ∧ doubles.rnd (1 / 1000000) ≤ 12 ∧
    DeepInPad ringArgs 2 30 (9 * (1 / 2 ^ 53) * (ringArgs.rMax - ringArgs.rMin)) (5 * (1 / 2 ^ 53) * ringArgs.phiMax) 1 29
      (47 / 4) (59 / 20) ∧
    40 * (1 / 2 ^ 53) * ringArgs.rMax ≤ (ringArgs.rMax - ringArgs.rMin) / 2 ∧ 20 * (1 / 2 ^ 53) * (30 : ℚ) ≤ 1 ∧
    getNearestPad doubles ring 1 12 3 = some (.ok 65565) ∧ isInsidePad doubles ring 1 (47 / 4) (59 / 20) 65565 = some (.ok true) := by
  have h : ∃ rr, elem ring.rows 1 = some rr ∧ rr.nPad = 30 := by
    cases hrr : elem ring.rows 1 with
    | none => exact absurd hrr (by decide +kernel)
    | some rr =>
      refine ⟨rr, rfl, ?_⟩
      have : (elem ring.rows 1).map Row.nPad = some 30 := by decide +kernel
      rw [hrr] at this
      exact Option.some.inj this
  refine ⟨h, ⟨⟨30, h, by norm_num, by norm_num⟩, by decide +kernel⟩, by decide +kernel, by decide +kernel, ?_,
    by norm_num [ringArgs], by norm_num, by decide +kernel, by decide +kernel⟩
  unfold DeepInPad
  norm_num [ringArgs]

example : (1 / 2 ^ 53 : ℚ) * (|(10 : ℚ) ^ 15| + 40) ≤ 1 / 2 ∧ (13 : ℚ) - ringArgs.rMin ≤ 2 ^ 30 * ((ringArgs.rMax - ringArgs.rMin) / 2) ∧
    getNearestPad doubles ring 10 13 (-7) = some (.ok 65536) ∧ getNearestPad doubles ring 10 (21 / 2) 5 = some (.ok 27) ∧
    (3 ≤ doubles.pi ∧ doubles.pi < 39 / 10) ∧ binary64 (-(2 ^ 60) : ℚ) = -(2 ^ 60) := by
  refine ⟨by norm_num, by norm_num [ringArgs], by decide +kernel, by decide +kernel, by norm_num [doubles], by decide +kernel⟩

/-- A point far out: the number of the row does not fit into an `int`, and the behaviour is undefined. -/
theorem nearest_exists_double_false_far : getNearestPad doubles ring 1 (2 ^ 40) (1 / 2) = some .ub := by decide +kernel

/-- The arc of the first row is 21 long, and 21 pads of width 1 with gaps of `2 ^ -54` do not fit, but the layout has them: the
sum of width and gap is rounded. -/
theorem pads_fit_double_false_exact : ∃ L : Layout ℚ, new doubles 1 10 12 1 1 0 (1 / 2 ^ 54) 2 = some (.ok L) ∧
    (elem L.rows 0).map Row.nPad = some 21 ∧ ¬ (21 : ℚ) * (1 + 1 / 2 ^ 54) ≤ rowCentre ⟨10, 12, 1, 1, 0, 1 / 2 ^ 54, 2⟩ 2 0 * 2 := by
  have h : (match new doubles 1 10 12 1 1 0 (1 / 2 ^ 54) 2 with
    | some (.ok L) => (elem L.rows 0).map Row.nPad
    | _ => none) = some 21 := by decide +kernel
  split at h
  · rename_i L hL
    exact ⟨L, hL, h, by norm_num [rowCentre]⟩
  · cases h

/-! ### Without rounding -/

/-- Without rounding these are the functions of `PadSize.lean`. -/
theorem exact_arithmetic (hF : F.rnd = id) :
    getPadCenter F L = PadSize.getPadCenter L ∧ getPadWidth F L = PadSize.getPadWidth L ∧
    ∀ i row, mkRow F A.rMin A.phiMax A.padWidth A.padGap L.rowHeight i = .ok row →
      row = PadSize.mkRow A.rMin A.phiMax A.padWidth A.padGap L.rowHeight i := by
  refine ⟨?_, ?_, ?_⟩
  · funext p
    unfold getPadCenter PadSize.getPadCenter Arith.add Arith.mul
    rw [hF]
    rfl
  · funext p
    unfold getPadWidth PadSize.getPadWidth Arith.div
    rw [hF]
    rfl
  · intro i row h
    unfold mkRow Arith.add Arith.mul Arith.div at h
    rw [hF] at h
    dsimp only [id] at h
    generalize hq : floorInt (K := K) _ = q at h
    cases q with
    | throw e => cases h
    | ub => cases h
    | ok n =>
      rw [Res.bind_ok] at h
      cases h
      have := floorInt_ok hq
      unfold PadSize.mkRow
      dsimp only
      rw [← this]

example : getNearestPad (⟨exampleFns, id⟩ : Arith ℚ) exampleLayout 1 (21 / 2) 1 = some (.ok 0) := by decide +kernel

end Gear.PadSize.Double
