/-
Lemmas about the searches of a versatile disk layout in the arithmetic of `double`.
-/
import Verif.VersatileDoubleRow

set_option autoImplicit false
set_option linter.unusedSectionVars false

namespace Gear.Versatile.Double

open PadIndex Disk Doubles Versatile.Spec Spec
open Rect (elem elemUb elemAt)
open MaterialMap (Arith)
open PadAngle.Double (floorInt toInt floorInt_nonneg)
open PadAngle.Double.Spec (Rounded)

variable {K : Type} [Field K] [LinearOrder K] [IsStrictOrderedRing K] [FloorRing K]
variable {F : Arith K} {u d m : K} {a : RowArgs K} {row : Row K}

/-! ### the pad of a row -/

theorem rnd_int (R : Rounded F u) {k : ℤ} (h0 : 0 ≤ k) (h : k ≤ 65536) : F.rnd (k : K) = k := by
  have := R.rounding.scaled k 0 (by rw [abs_of_nonneg h0]; norm_num; omega)
  simpa using this

/-- The pad number computed for an angle inside a pad. -/
theorem Placed.found (N : Placed F u d m a row) (R : Rounded F u) {k : ℤ} (k0 : 0 ≤ k) (kn : k < a.nPads) {phi : K}
    (h : |phi - (a.offset / m + (k + 1 / 2) * (a.padPitch / m))| ≤ a.padPitch / m / 2 - (50 * d + 300 * u)) :
    floorInt (F.div (F.sub phi row.offset) row.padPitch) = .ok k ∧ row.padPitch ≠ 0 ∧ phi < rowEnd F row ∧ row.offset ≤ phi := by
  have hu := R.nonneg
  have hup := R.pos
  have hd : 0 ≤ d := by linarith [N.d4]
  have hlast := N.last R
  obtain ⟨X8, aX, hX⟩ := N.start R
  obtain ⟨P0, -, n8, hP, p0⟩ := N.sizes R
  rw [← aX] at X8 hX
  unfold Arith.div Arith.sub
  generalize a.offset / m = x at *
  generalize a.padPitch / m = P at *
  have kk0 : (0 : K) ≤ k := by exact_mod_cast k0
  have kkn : (k : K) + 1 ≤ a.nPads := by exact_mod_cast kn
  have k8' := mul_le_mul_of_nonneg_right kkn P0
  have k8 := k8'.trans n8
  have kP0 := mul_nonneg kk0 P0
  have du : 0 ≤ d + u := by linarith
  obtain ⟨h1, h2⟩ := _root_.abs_le.1 h
  have Ppos : 0 < P := by linarith
  have P8 : P ≤ 81 / 10 := by linarith
  have s0 : ∀ t : K, 0 ≤ t → t * P ≤ 81 / 10 → |t * row.padPitch - t * P| ≤ 835 / 100 * (d + u) := by
    intro t ht ht8
    rw [← mul_sub, abs_mul, abs_of_nonneg ht]
    have a1 := mul_le_mul_of_nonneg_left hP ht
    have a2 := mul_le_mul_of_nonneg_left ht8 du
    linarith
  have hp : 0 < row.padPitch := by
    have a1 := (_root_.abs_le.1 hP).1
    have a2 := mul_le_mul_of_nonneg_right (by linarith [N.small, R.small] : 103 / 100 * (d + u) ≤ 1 / 2) P0
    linarith
  have b1 := _root_.abs_le.1 (s0 k kk0 (by linarith))
  have b2 := _root_.abs_le.1 (s0 (k + 1) (by linarith) k8)
  have hX' : |row.offset - x| ≤ 825 / 100 * (d + u) := by
    have := mul_le_mul_of_nonneg_left X8 du
    linarith
  obtain ⟨x1, x2⟩ := _root_.abs_le.1 hX'
  obtain ⟨l1, l2⟩ := _root_.abs_le.1 hlast
  set v := phi - row.offset with hv
  have v1 : k * row.padPitch + (30 * d + 280 * u) ≤ v := by rw [hv]; linarith
  have v2 : v ≤ (k + 1) * row.padPitch - (30 * d + 280 * u) := by rw [hv]; linarith
  have kp0 := mul_nonneg kk0 p0
  have v0 : 0 ≤ v := by linarith
  have v9 : v ≤ 9 := by linarith [N.small, R.small]
  have w := R.rounding.bounds v0
  have uv := mul_le_mul_of_nonneg_left v9 hu
  generalize F.rnd v = w' at *
  have w1 : k * row.padPitch ≤ w' := by linarith
  have w9 : w' ≤ 10 := by linarith [R.small]
  have uw := mul_le_mul_of_nonneg_left w9 hu
  have w2 : (1 + u) * w' < (k + 1) * row.padPitch := by linarith
  have q1 : (k : K) ≤ w' / row.padPitch := by rw [le_div_iff₀ hp]; exact w1
  have q2 : F.rnd (w' / row.padPitch) < k + 1 := by
    refine (R.rounding.bounds (by linarith)).2.trans_lt ?_
    rw [← mul_div_assoc, div_lt_iff₀ hp]
    exact w2
  have q3 := R.rounding.mono _ _ q1
  rw [rnd_int R k0 (by have := N.n1; omega)] at q3
  have hn : k < 65536 := by have := N.n1; omega
  have hn' : (k : K) < 65536 := by exact_mod_cast hn
  refine ⟨?_, hp.ne', by linarith, by linarith⟩
  rw [floorInt_nonneg (by linarith) (by linarith), Int.floor_eq_iff.2 ⟨q3, q2⟩]

/-- The conversion to `int` of `Row::getNearestPad` is in range. -/
theorem Placed.pad_ok (N : Placed F u d m a row) (R : Rounded F u) (hw : m ≤ 100000000 * a.padPitch) {phi : K} (h0 : 0 ≤ phi)
    (h1 : phi ≤ F.mul 2 F.pi) : row.padPitch ≠ 0 ∧ ∃ n, floorInt (F.div (F.sub phi row.offset) row.padPitch) = .ok n := by
  have hu := R.nonneg
  have hd : 0 ≤ d := by linarith [N.d4]
  obtain ⟨X8, aX, hX⟩ := N.start R
  obtain ⟨P0, -, n8, hP, p0⟩ := N.sizes R
  have hT := (R.rounding.bounds (by linarith [R.pi.1] : 0 ≤ 2 * F.pi)).2
  unfold Arith.mul at h1
  have uT := mul_le_mul_of_nonneg_right R.small (by linarith [R.pi.1] : 0 ≤ 2 * F.pi)
  have pi4 := R.pi.2
  rw [← aX] at X8 hX
  have hPw : 1 / 100000000 ≤ a.padPitch / m := by
    rw [le_div_iff₀ N.pos]
    linarith
  unfold Arith.div Arith.sub
  generalize a.offset / m = x at *
  generalize a.padPitch / m = P at *
  have du : 0 ≤ d + u := by linarith
  have de : 103 / 100 * (d + u) ≤ 4 / 1000 := by linarith [N.small, R.small]
  have a2 := mul_le_mul_of_nonneg_right de P0
  have hp : 99 / 100 / 100000000 ≤ row.padPitch := by linarith [(_root_.abs_le.1 hP).1]
  have hp' : 0 < row.padPitch := by linarith
  have a3 := mul_le_mul de X8 (abs_nonneg _) (by norm_num)
  obtain ⟨x1, x2⟩ := _root_.abs_le.1 X8
  obtain ⟨o1, o2⟩ := _root_.abs_le.1 hX
  have v : |phi - row.offset| ≤ 161 / 10 := _root_.abs_le.2 ⟨by linarith, by linarith⟩
  have w := R.rounding.abs_le (phi - row.offset)
  have w1 : |F.rnd (phi - row.offset)| ≤ 162 / 10 := by
    have := mul_le_mul (by linarith [R.small] : 1 + u ≤ 1001 / 1000) v (abs_nonneg _) (by norm_num)
    linarith
  generalize F.rnd (phi - row.offset) = w' at *
  have q : |w' / row.padPitch| ≤ 1700000000 := by
    rw [abs_div, abs_of_pos hp', div_le_iff₀ hp']
    linarith
  have t := R.rounding.abs_le (w' / row.padPitch)
  have t1 : |F.rnd (w' / row.padPitch)| ≤ 1800000000 := by
    have := mul_le_mul (by linarith [R.small] : 1 + u ≤ 1001 / 1000) q (abs_nonneg _) (by norm_num)
    linarith
  obtain ⟨t2, t3⟩ := _root_.abs_le.1 t1
  refine ⟨hp'.ne', ?_⟩
  generalize F.rnd (w' / row.padPitch) = z at *
  have f1 : -1800000000 ≤ ⌊z⌋ := Int.le_floor.2 (by push_cast; exact t2)
  have f2 : ⌊z⌋ ≤ 1800000000 := by
    have := Int.floor_le z
    have : ((⌊z⌋ : ℤ) : K) ≤ ((1800000000 : ℤ) : K) := by push_cast; linarith
    exact_mod_cast this
  refine ⟨⌊z⌋, ?_⟩
  unfold floorInt toInt
  rw [PadSize.Double.truncInt_int, if_pos (by omega)]

theorem Placed.pad_isOk (N : Placed F u d m a row) (R : Rounded F u) (hw : m ≤ 100000000 * a.padPitch) {r phi : K} (h0 : 0 ≤ phi)
    (h1 : phi ≤ F.mul 2 F.pi) (i0 : 0 ≤ row.rowNumber) (i1 : row.rowNumber < 65536) : ∃ p, rowNearestPad F row r phi = .ok p := by
  obtain ⟨e1, n, e2⟩ := N.pad_ok R hw h0 h1
  unfold rowNearestPad
  rw [if_neg e1, e2]
  simp only [Res.bind_ok]
  split_ifs
  · exact encode_isOk _ i0 i1
  · exact encode_isOk _ i0 i1
  · exact encode_isOk _ i0 i1

/-! ### distances -/

theorem corner_pos (R : Rounded F u) (hF : Functions F) {rho phiE r phi mu : K} (hmu : 0 ≤ mu) (hr : 0 < r) (h : |rho| ≤ r - mu)
    (hm : 16 * u * r ^ 2 ≤ mu ^ 2) : 0 < cornerSquare F rho phiE r phi := by
  have hu := R.nonneg
  unfold cornerSquare Arith.sub Arith.add Arith.mul
  have one : F.rnd 1 = 1 := by
    have := rnd_int (F := F) R (k := 1) (by norm_num) (by norm_num)
    simpa using this
  have hc : |F.rnd (F.cos (F.rnd (phiE - phi)))| ≤ 1 := by
    obtain ⟨c1, c2⟩ := _root_.abs_le.1 (hF.cos (F.rnd (phiE - phi)))
    have b1 := R.rounding.mono _ _ c2
    have b2 := R.rounding.mono _ _ c1
    have neg : F.rnd (-1) = -1 := by
      have := R.rounding.scaled (-1) 0 (by norm_num)
      simpa using this
    rw [one] at b1
    rw [neg] at b2
    exact _root_.abs_le.2 ⟨b2, b1⟩
  generalize F.rnd (F.cos (F.rnd (phiE - phi))) = c at *
  refine R.rounding.pos (by linarith [R.small]) ?_
  have s1 := (R.rounding.bounds (mul_self_nonneg rho)).1
  have s2 := (R.rounding.bounds (mul_self_nonneg r)).1
  have k1 : 0 ≤ 1 - u := by linarith [R.small]
  have k2 : 0 ≤ 1 + u := by linarith
  have s3 : 0 ≤ F.rnd (rho * rho) + F.rnd (r * r) :=
    add_nonneg (R.rounding.nonneg (mul_self_nonneg _)) (R.rounding.nonneg (mul_self_nonneg _))
  have s4 := (R.rounding.bounds s3).1
  have s5 := mul_le_mul_of_nonneg_left (add_le_add s1 s2) k1
  have t1 := R.rounding.abs_le (2 * rho)
  have t2 := R.rounding.abs_le (F.rnd (2 * rho) * r)
  have t3 := R.rounding.abs_le (F.rnd (F.rnd (2 * rho) * r) * c)
  rw [abs_mul, abs_of_pos hr] at t2
  rw [abs_mul] at t1 t3
  rw [abs_of_pos (by norm_num : (0 : K) < 2)] at t1
  have t4 := mul_le_mul_of_nonneg_right t1 hr.le
  have t5 := mul_le_mul_of_nonneg_left t4 k2
  have t6 : |F.rnd (F.rnd (2 * rho) * r)| * |c| ≤ |F.rnd (F.rnd (2 * rho) * r)| := by
    have := mul_le_mul_of_nonneg_left hc (abs_nonneg (F.rnd (F.rnd (2 * rho) * r)))
    linarith
  have t7 := mul_le_mul_of_nonneg_left t6 k2
  have t8 := mul_le_mul_of_nonneg_left (t2.trans t5) k2
  have t9 := le_abs_self (F.rnd (F.rnd (F.rnd (2 * rho) * r) * c))
  generalize F.rnd (F.rnd (F.rnd (2 * rho) * r) * c) = T at *
  generalize F.rnd (F.rnd (rho * rho) + F.rnd (r * r)) = S at *
  have e : rho * rho = |rho| * |rho| := (abs_mul_abs_self rho).symm
  have h0 := abs_nonneg rho
  have S1 : (1 - u) * ((1 - u) * (rho * rho) + (1 - u) * (r * r)) ≤ S := by linarith
  have T1 : T ≤ (1 + u) * ((1 + u) * ((1 + u) * (2 * |rho|) * r)) := by linarith
  rw [e] at S1
  generalize |rho| = t at *
  have tr : t ≤ r := by linarith
  have p1 : t * r ≤ r * r := mul_le_mul_of_nonneg_right tr hr.le
  have p2 : t * t ≤ r * r := mul_le_mul tr tr h0 hr.le
  have p0 : 0 ≤ t * r := mul_nonneg h0 hr.le
  have p3 : mu ^ 2 ≤ (r - t) ^ 2 := by
    apply pow_le_pow_left₀ hmu; linarith
  have u1 : u * u ≤ u * (1 / 1000) := mul_le_mul_of_nonneg_left R.small hu
  have u2 : u * u * u ≤ u * (1 / 1000) := by
    have := mul_le_mul_of_nonneg_left R.small (mul_nonneg hu hu)
    have := mul_le_mul_of_nonneg_left R.small hu
    linarith [mul_nonneg hu hu]
  have e1 : (1 - u) * ((1 - u) * (t * t) + (1 - u) * (r * r)) = (t * t + r * r) - 2 * (u * (t * t + r * r)) + u * u * (t * t + r * r) := by ring
  have e2 : (1 + u) * ((1 + u) * ((1 + u) * (2 * t) * r)) = 2 * (t * r) + (6 * u + 6 * (u * u) + 2 * (u * u * u)) * (t * r) := by ring
  have e3 : (r - t) ^ 2 = r * r - 2 * (t * r) + t * t := by ring
  have e4 : 16 * u * r ^ 2 = 16 * (u * (r * r)) := by ring
  have p4 : 6 * u + 6 * (u * u) + 2 * (u * u * u) ≤ 7 * u := by linarith
  have p5 := mul_le_mul_of_nonneg_right p4 p0
  have p6 := mul_le_mul_of_nonneg_left p1 hu
  have p7 := mul_le_mul_of_nonneg_left p2 hu
  have p8 : 0 ≤ u * u * (t * t + r * r) := mul_nonneg (mul_nonneg hu hu) (by positivity)
  have p9 : 0 < u * (r * r) := mul_pos R.pos (mul_pos hr hr)
  rw [e1] at S1
  rw [e2] at T1
  rw [e3] at p3
  rw [e4] at hm
  have e5 : u * (t * t + r * r) = u * (t * t) + u * (r * r) := by ring
  have e6 : 7 * u * (t * r) = 7 * (u * (t * r)) := by ring
  linarith

theorem edge_pos (R : Rounded F u) (hF : Functions F) {phiE r phi mu : K} (hmu : 0 ≤ mu) (hr : 0 < r) (h1 : |rowMin F row| ≤ r - mu)
    (h2 : |rowMax F row| ≤ r - mu) (hm : 16 * u * r ^ 2 ≤ mu ^ 2) : ∃ x, 0 < x ∧ distanceToEdge F row phiE r phi = some x := by
  unfold distanceToEdge squareRoot
  dsimp only
  have c1 := corner_pos R hF (phiE := phiE) (phi := phi) hmu hr h1 hm
  have c2 := corner_pos R hF (phiE := phiE) (phi := phi) hmu hr h2 hm
  have : 0 < (if cornerSquare F (rowMin F row) phiE r phi > cornerSquare F (rowMax F row) phiE r phi then
      cornerSquare F (rowMax F row) phiE r phi else cornerSquare F (rowMin F row) phiE r phi) := by
    split_ifs
    · exact c2
    · exact c1
  rw [if_neg (not_lt.2 this.le)]
  exact ⟨_, R.rounding.pos (by linarith [R.small]) (hF.sqrt_pos _ this), rfl⟩

/-- A row that ends below the radius of a point is not at the distance 0, if it has pads at the angle of the point or the point is
far enough away. -/
theorem dist_pos (R : Rounded F u) (hF : Functions F) {r phi mu : K} (hmu : 0 ≤ mu) (hr : 0 < r) (h1 : rowMax F row + mu < r)
    (h2 : -(r - mu) ≤ rowMin F row) (h3 : rowMin F row ≤ rowMax F row)
    (hm : 16 * u * r ^ 2 ≤ mu ^ 2 ∨ (row.offset ≤ phi ∧ phi ≤ rowEnd F row)) :
    ∃ x, 0 < x ∧ getDistanceToRow F row r phi = some x := by
  unfold getDistanceToRow
  dsimp only
  by_cases hc : phi ≥ row.offset ∧ phi ≤ rowEnd F row
  · rw [if_pos hc, if_neg (by rintro ⟨-, h⟩; linarith), if_neg (by intro h; linarith)]
    exact ⟨_, R.rounding.pos (by linarith [R.small]) (by linarith), rfl⟩
  · rw [if_neg hc]
    have hm := hm.resolve_right (fun h => hc ⟨h.1, h.2⟩)
    have b1 : |rowMin F row| ≤ r - mu := _root_.abs_le.2 ⟨h2, by linarith⟩
    have b2 : |rowMax F row| ≤ r - mu := _root_.abs_le.2 ⟨by linarith, by linarith⟩
    obtain ⟨x1, p1, e1⟩ := edge_pos R hF (phiE := row.offset) (phi := phi) hmu hr b1 b2 hm
    obtain ⟨x2, p2, e2⟩ := edge_pos R hF (phiE := rowEnd F row) (phi := phi) hmu hr b1 b2 hm
    rw [e1, e2]
    split_ifs
    · exact ⟨x1, p1, rfl⟩
    · exact ⟨x2, p2, rfl⟩

/-- Distances are never negative. -/
theorem dist_nonneg (R : Rounded F u) (hF : Functions F) (r phi : K) : less (getDistanceToRow F row r phi) (some 0) = false := by
  have he : ∀ phiE x, distanceToEdge F row phiE r phi = some x → 0 ≤ x := by
    intro phiE x h
    unfold distanceToEdge squareRoot at h
    dsimp only at h
    generalize (if cornerSquare F (rowMin F row) phiE r phi > cornerSquare F (rowMax F row) phiE r phi then
      cornerSquare F (rowMax F row) phiE r phi else cornerSquare F (rowMin F row) phiE r phi) = y at h
    split_ifs at h with hy
    rw [← Option.some.inj h]
    exact R.rounding.nonneg (hF.sqrt _ (not_lt.1 hy))
  have key : ∀ x, getDistanceToRow F row r phi = some x → 0 ≤ x := by
    intro x h
    unfold getDistanceToRow at h
    dsimp only at h
    split_ifs at h with c1 c2 c3 c4
    · rw [← Option.some.inj h]
    · rw [← Option.some.inj h]; exact R.rounding.nonneg (by linarith)
    · rw [← Option.some.inj h]
      have : rowMax F row < r := by
        by_contra hc
        exact c2 ⟨not_lt.1 c3, not_lt.1 hc⟩
      exact R.rounding.nonneg (by linarith)
    · exact he _ _ h
    · exact he _ _ h
  cases h : getDistanceToRow F row r phi with
  | none => rfl
  | some x => simp only [less, decide_eq_false_iff_not, not_lt]; exact key x h

/-! ### the search -/

theorem loop_after (R : Rounded F u) (hF : Functions F) (r phi : K) (p : ℤ) : ∀ rows : List (Row K),
    nearestLoop F r phi rows false p (some 0) = .ok p := by
  intro rows
  induction rows with
  | nil => rfl
  | cons row rows ih =>
    unfold nearestLoop
    dsimp only
    rw [dist_nonneg R hF, if_neg (by simp)]
    exact ih

theorem loop_found (R : Rounded F u) (hF : Functions F) (r phi : K) {t : Row K} {p : ℤ} (post : List (Row K))
    (h0 : getDistanceToRow F t r phi = some 0) (hp : rowNearestPad F t r phi = .ok p) : ∀ (pre : List (Row K)) (first : Bool) (q : ℤ)
    (dist : Option K), (∀ row ∈ pre, (∃ x, 0 < x ∧ getDistanceToRow F row r phi = some x) ∧ ∃ q, rowNearestPad F row r phi = .ok q) →
    (first = true ∨ ∃ x, 0 < x ∧ dist = some x) → nearestLoop F r phi (pre ++ t :: post) first q dist = .ok p := by
  intro pre
  induction pre with
  | nil =>
    intro first q dist _ hd
    simp only [List.nil_append]
    unfold nearestLoop
    dsimp only
    rw [if_pos, hp, Res.bind_ok, h0]
    · exact loop_after R hF r phi p post
    · rcases hd with hd | ⟨x, hx, rfl⟩
      · exact .inr hd
      · left; rw [h0]; simpa [less] using hx
  | cons row pre ih =>
    intro first q dist hall hd
    obtain ⟨⟨x, hx, e⟩, q', hq⟩ := hall row (by simp)
    have hrest := fun f q dist => ih f q dist (fun r hr => hall r (by simp [hr]))
    simp only [List.cons_append]
    unfold nearestLoop
    dsimp only
    split_ifs with hc
    · rw [hq, Res.bind_ok]
      exact hrest _ _ _ (.inr ⟨x, hx, e⟩)
    · refine hrest _ _ _ ?_
      rcases hd with hd | hd
      · exact absurd (.inr hd) hc
      · exact .inr hd

/-! ### the test -/

/-- The test of `isInsidePad` for angles. -/
def insidePhi (F : Arith K) (row : Row K) (k : ℤ) (phi : K) : Prop :=
  let phiMin := F.add row.offset (F.mul row.padPitch k)
  let phi := if phi < phiMin then F.add phi (F.mul 2 F.pi) else phi
  let phi := if phi ≥ F.add phiMin (F.mul 2 F.pi) then F.sub phi (F.mul 2 F.pi) else phi
  phi ≤ F.add phiMin row.padPitch

/-- What is known of the numbers in the test. -/
theorem Placed.limits (N : Placed F u d m a row) (R : Rounded F u) {k : ℤ} (k0 : 0 ≤ k) (kn : k < a.nPads) :
    ∃ A B C T x P : K, F.add row.offset (F.mul row.padPitch k) = A ∧ F.add A row.padPitch = B ∧ F.add A T = C ∧ F.mul 2 F.pi = T ∧
      x = a.offset / m + k * (a.padPitch / m) ∧ P = a.padPitch / m ∧ |A - x| ≤ 17 * d + 42 * u ∧ |B - (x + P)| ≤ 26 * d + 70 * u ∧
      |C - (x + 2 * F.pi)| ≤ 17 * d + 80 * u ∧ |T - 2 * F.pi| ≤ 8 * u ∧ 0 ≤ P ∧ P ≤ 2 * F.pi + 9 * d + 25 * u ∧ -8 ≤ x ∧
      x + P ≤ 161 / 10 ∧ P ≤ 81 / 10 := by
  have hu := R.nonneg
  have hd : 0 ≤ d := by linarith [N.d4]
  have e1 := N.edge R k0 kn.le
  have e2 := N.second R k0 kn
  obtain ⟨X8, aX, -⟩ := N.start R
  obtain ⟨P0, n0, n8, hP, p0⟩ := N.sizes R
  rw [← aX] at X8
  have hT : |F.rnd (2 * F.pi) - 2 * F.pi| ≤ 8 * u := by
    have := R.rounding.err (2 * F.pi)
    rw [abs_of_nonneg (by linarith [R.pi.1] : 0 ≤ 2 * F.pi)] at this
    have := mul_le_mul_of_nonneg_left R.pi.2 hu
    linarith
  have kk0 : (0 : K) ≤ k := by exact_mod_cast k0
  have kkn : (k : K) + 1 ≤ a.nPads := by exact_mod_cast kn
  have k8 := mul_le_mul_of_nonneg_right kkn P0
  have kP := mul_nonneg kk0 P0
  obtain ⟨x1, x2⟩ := _root_.abs_le.1 X8
  have e3 : |F.rnd (row.offset + F.rnd (row.padPitch * k)) + F.rnd (2 * F.pi) -
      (a.offset / m + k * (a.padPitch / m) + 2 * F.pi)| ≤ 17 * d + 50 * u := by
    rw [add_sub_add_comm]
    exact (abs_add_le _ _).trans (by linarith)
  have e4 := near_rnd R e3 (M := 25) (_root_.abs_le.2 ⟨by linarith [R.pi.1], by linarith [R.pi.2]⟩)
  have ud := mul_le_mul_of_nonneg_left N.small hu
  have uu := mul_le_mul_of_nonneg_left R.small hu
  refine ⟨_, _, _, _, _, _, rfl, rfl, rfl, rfl, rfl, rfl, e1, ?_, ?_, hT, P0, by linarith, by linarith, by linarith, by linarith⟩
  · rw [show a.offset / m + k * (a.padPitch / m) + a.padPitch / m = a.offset / m + (k + 1) * (a.padPitch / m) by ring]
    exact e2
  · unfold Arith.add Arith.mul
    linarith

theorem Placed.inside (N : Placed F u d m a row) (R : Rounded F u) {k : ℤ} (k0 : 0 ≤ k) (kn : k < a.nPads) {phi : K} {t : ℤ}
    (ht : |t| ≤ 1) (h : |phi + t * (2 * F.pi) - (a.offset / m + (k + 1 / 2) * (a.padPitch / m))| ≤
      a.padPitch / m / 2 - (50 * d + 300 * u)) : insidePhi F row k phi := by
  have hu := R.pos
  have hd : 0 ≤ d := by linarith [N.d4]
  have ds := N.small
  have us := R.small
  obtain ⟨A, B, C, T, x, P, eA, eB, eC, eT, ex, eP, hA, hB, hC, hT, P0, P1, x8, x16, P8⟩ := N.limits R k0 kn
  unfold insidePhi
  dsimp only
  rw [eT, eA, eB, eC]
  rw [show a.offset / m + (k + 1 / 2) * (a.padPitch / m) = x + P / 2 by rw [ex, eP]; ring, ← eP] at h
  obtain ⟨h1, h2⟩ := _root_.abs_le.1 h
  obtain ⟨A1, A2⟩ := _root_.abs_le.1 hA
  obtain ⟨B1, B2⟩ := _root_.abs_le.1 hB
  obtain ⟨C1, C2⟩ := _root_.abs_le.1 hC
  obtain ⟨T1, T2⟩ := _root_.abs_le.1 hT
  have p3 := R.pi.1
  have near : ∀ v V : K, |v - V| ≤ 8 * u → |V| ≤ 17 → |F.rnd v - V| ≤ 26 * u := by
    intro v V hv hV
    have := near_rnd R hv hV
    have := mul_le_mul_of_nonneg_left us hu.le
    linarith
  obtain rfl | rfl | rfl : t = -1 ∨ t = 0 ∨ t = 1 := by
    have := _root_.abs_le.1 ht
    omega
  · push_cast at h1 h2
    have g1 : ¬ phi < A := by intro hc; linarith
    have g2 : C ≤ phi := by linarith
    rw [if_neg g1, if_pos (show phi ≥ C from g2)]
    have := near (phi - T) (phi - 2 * F.pi) (_root_.abs_le.2 ⟨by linarith, by linarith⟩) (_root_.abs_le.2 ⟨by linarith, by linarith⟩)
    obtain ⟨n1, n2⟩ := _root_.abs_le.1 this
    unfold Arith.sub
    linarith
  · push_cast at h1 h2
    have g1 : ¬ phi < A := by intro hc; linarith
    have g2 : ¬ phi ≥ C := by intro hc; linarith
    rw [if_neg g1, if_neg g2]
    linarith
  · push_cast at h1 h2
    have hlt : phi < A := by linarith
    rw [if_pos hlt]
    have := near (phi + T) (phi + 2 * F.pi) (_root_.abs_le.2 ⟨by linarith, by linarith⟩) (_root_.abs_le.2 ⟨by linarith, by linarith⟩)
    obtain ⟨n1, n2⟩ := _root_.abs_le.1 this
    unfold Arith.add
    rw [if_neg (by intro hc; linarith)]
    linarith

theorem Placed.inside_conv (N : Placed F u d m a row) (R : Rounded F u) {k : ℤ} (k0 : 0 ≤ k) (kn : k < a.nPads) {phi : K}
    (hphi : a.offset / m + (k + 1 / 2) * (a.padPitch / m) - 6 ≤ phi) (h : insidePhi F row k phi) :
    ∃ t : ℤ, |t| ≤ 1 ∧ |phi + t * (2 * F.pi) - (a.offset / m + (k + 1 / 2) * (a.padPitch / m))| ≤
      a.padPitch / m / 2 + (50 * d + 300 * u) := by
  have hu := R.pos
  have hd : 0 ≤ d := by linarith [N.d4]
  have ds := N.small
  have us := R.small
  obtain ⟨A, B, C, T, x, P, eA, eB, eC, eT, ex, eP, hA, hB, hC, hT, P0, P1, x8, x16, P8⟩ := N.limits R k0 kn
  unfold insidePhi at h
  dsimp only at h
  rw [eT, eA, eB, eC] at h
  rw [show a.offset / m + (k + 1 / 2) * (a.padPitch / m) = x + P / 2 by rw [ex, eP]; ring] at hphi ⊢
  rw [← eP]
  obtain ⟨A1, A2⟩ := _root_.abs_le.1 hA
  obtain ⟨B1, B2⟩ := _root_.abs_le.1 hB
  obtain ⟨C1, C2⟩ := _root_.abs_le.1 hC
  obtain ⟨T1, T2⟩ := _root_.abs_le.1 hT
  have p3 := R.pi.1
  have p4 := R.pi.2
  have near : ∀ v : K, |v| ≤ 30 → |F.rnd v - v| ≤ 30 * u := by
    intro v hV
    have := R.rounding.err v
    have := mul_le_mul_of_nonneg_left hV hu.le
    linarith
  have b17 : B ≤ 17 := by linarith
  by_cases c1 : phi < A
  · rw [if_pos c1] at h
    unfold Arith.add Arith.sub at h
    have := near (phi + T) (_root_.abs_le.2 ⟨by linarith, by linarith⟩)
    obtain ⟨n1, n2⟩ := _root_.abs_le.1 this
    by_cases c2 : F.rnd (phi + T) ≥ C
    · exact ⟨0, by norm_num, _root_.abs_le.2 ⟨by push_cast; linarith, by push_cast; linarith⟩⟩
    · rw [if_neg c2] at h
      exact ⟨1, by norm_num, _root_.abs_le.2 ⟨by push_cast; linarith, by push_cast; linarith⟩⟩
  · rw [if_neg c1] at h
    rw [not_lt] at c1
    by_cases c2 : phi ≥ C
    · rw [if_pos c2] at h
      unfold Arith.sub at h
      have c2' : C ≤ phi := c2
      have v30 : |phi - T| ≤ 30 := by
        by_contra hc
        rw [not_le] at hc
        have hpos : 0 ≤ phi - T := by
          by_contra hn
          rw [abs_of_neg (not_le.1 hn)] at hc
          linarith
        have b := (R.rounding.bounds hpos).1
        rw [abs_of_nonneg hpos] at hc
        have := mul_le_mul_of_nonneg_right (by linarith : 999 / 1000 ≤ 1 - u) hpos
        linarith
      obtain ⟨n1, n2⟩ := _root_.abs_le.1 (near _ v30)
      exact ⟨-1, by norm_num, _root_.abs_le.2 ⟨by push_cast; linarith, by push_cast; linarith⟩⟩
    · rw [if_neg c2] at h
      exact ⟨0, by norm_num, _root_.abs_le.2 ⟨by push_cast; linarith, by push_cast; linarith⟩⟩

end Gear.Versatile.Double
