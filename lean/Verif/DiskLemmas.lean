/-
Lemmas about the parts shared by the polar pad layouts.
-/
import Verif.Disk
import Verif.PadIndexLemmas
import Verif.RectLemmas

set_option autoImplicit false
set_option linter.unusedSectionVars false

namespace Gear.Disk

variable {K : Type} [Field K] [LinearOrder K] [IsStrictOrderedRing K] [FloorRing K]

/-- What the theorems need to know about the functions. -/
structure Fns.Ok (F : Fns K) : Prop where
  pi_pos : 0 < F.pi
  cos_le : ∀ a b, F.cos a * F.cos b + F.sin a * F.sin b ≤ 1

theorem wrapUp_ge {pi lo : K} (hp : 0 < pi) (phi : K) : lo ≤ wrapUp pi lo phi := by
  unfold wrapUp
  split_ifs with h
  · have h2 : (0 : K) < 2 * pi := by linarith
    have := Int.le_ceil ((lo - phi) / (2 * pi))
    rw [div_le_iff₀ h2] at this
    linarith
  · exact not_lt.1 h

theorem wrapUp_lt {pi lo : K} (hp : 0 < pi) {phi : K} (h : phi < lo) : wrapUp pi lo phi < lo + 2 * pi := by
  unfold wrapUp
  rw [if_pos h]
  have h2 : (0 : K) < 2 * pi := by linarith
  have := Int.ceil_lt_add_one ((lo - phi) / (2 * pi))
  have := mul_lt_mul_of_pos_right this h2
  rw [add_mul, div_mul_cancel₀ _ h2.ne'] at this
  linarith

theorem wrapUp_id {pi lo phi : K} (h : lo ≤ phi) : wrapUp pi lo phi = phi := by
  unfold wrapUp; rw [if_neg (not_lt.2 h)]

theorem wrapUp_shift (pi lo phi : K) : ∃ k : ℤ, wrapUp pi lo phi = phi + k * (2 * pi) := by
  unfold wrapUp
  split_ifs
  · exact ⟨_, rfl⟩
  · exact ⟨0, by simp⟩

theorem wrapDown_le {pi hi : K} (hp : 0 < pi) (phi : K) : wrapDown pi hi phi ≤ hi := by
  unfold wrapDown
  split_ifs with h
  · have h2 : (0 : K) < 2 * pi := by linarith
    have := Int.le_ceil ((phi - hi) / (2 * pi))
    rw [div_le_iff₀ h2] at this
    linarith
  · exact not_lt.1 h

theorem wrapDown_gt {pi hi : K} (hp : 0 < pi) {phi : K} (h : hi < phi) :
    hi - 2 * pi < wrapDown pi hi phi := by
  unfold wrapDown
  rw [if_pos h]
  have h2 : (0 : K) < 2 * pi := by linarith
  have := Int.ceil_lt_add_one ((phi - hi) / (2 * pi))
  have := mul_lt_mul_of_pos_right this h2
  rw [add_mul, div_mul_cancel₀ _ h2.ne'] at this
  linarith

theorem wrapDown_id {pi hi phi : K} (h : phi ≤ hi) : wrapDown pi hi phi = phi := by
  unfold wrapDown; rw [if_neg (not_lt.2 h)]

theorem wrapDown_shift (pi hi phi : K) : ∃ k : ℤ, wrapDown pi hi phi = phi + k * (2 * pi) := by
  unfold wrapDown
  split_ifs
  · exact ⟨-⌈(phi - hi) / (2 * pi)⌉, by push_cast; ring⟩
  · exact ⟨0, by simp⟩

/-- The loop that adds 2*pi ends with `wrapUp`. -/
theorem loopUp_wrapUp {pi lo : K} (hp : 0 < pi) (phi : K) :
    ∃ n, loopUp pi lo n phi = some (wrapUp pi lo phi) := by
  have h2 : (0 : K) < 2 * pi := by linarith
  have key : ∀ (n : ℕ) (phi : K), ⌈(lo - phi) / (2 * pi)⌉ ≤ n →
      loopUp pi lo (n + 1) phi = some (wrapUp pi lo phi) := by
    intro n
    induction n with
    | zero =>
      intro phi h
      have h1 : (lo - phi) / (2 * pi) ≤ 0 := by
        have := Int.ceil_le.1 h; simpa using this
      rw [div_nonpos_iff] at h1
      have h3 : lo ≤ phi := by
        rcases h1 with ⟨_, h1⟩ | ⟨h1, _⟩ <;> linarith
      unfold loopUp
      rw [if_neg (not_lt.2 h3), wrapUp_id h3]
    | succ n ih =>
      intro phi h
      unfold loopUp
      split_ifs with h1
      · have e : (lo - (phi + 2 * pi)) / (2 * pi) = (lo - phi) / (2 * pi) - 1 := by
          field_simp; ring
        have hc : ⌈(lo - (phi + 2 * pi)) / (2 * pi)⌉ = ⌈(lo - phi) / (2 * pi)⌉ - 1 := by
          rw [e, Int.ceil_sub_one]
        rw [ih (phi + 2 * pi) (by rw [hc]; push_cast at h; omega)]
        congr 1
        have hpos : 0 < ⌈(lo - phi) / (2 * pi)⌉ := by
          rw [Int.ceil_pos]; exact div_pos (by linarith) h2
        unfold wrapUp
        rw [if_pos h1, hc]
        split_ifs with h4
        · push_cast; ring
        · have : (lo - phi) / (2 * pi) ≤ 1 := by rw [div_le_one h2]; linarith
          have h5 : ⌈(lo - phi) / (2 * pi)⌉ ≤ 1 := by rw [Int.ceil_le]; simpa using this
          have h6 : ⌈(lo - phi) / (2 * pi)⌉ = 1 := by omega
          rw [h6]; simp
      · rw [wrapUp_id (not_lt.1 h1)]
  exact ⟨_, key ⌈(lo - phi) / (2 * pi)⌉.toNat phi (Int.self_le_toNat _)⟩

theorem loopDown_neg (pi hi : K) : ∀ (n : ℕ) (phi : K),
    loopDown pi hi n phi = (loopUp pi (-hi) n (-phi)).map (fun x => -x) := by
  intro n
  induction n with
  | zero => intro phi; rfl
  | succ n ih =>
    intro phi
    unfold loopDown loopUp
    by_cases h : phi > hi
    · rw [if_pos h, if_pos (by linarith), ih]
      congr 2; ring
    · rw [if_neg h, if_neg (by linarith)]; simp

/-- The loop that subtracts 2*pi ends with `wrapDown`. -/
theorem loopDown_wrapDown {pi hi : K} (hp : 0 < pi) (phi : K) :
    ∃ n, loopDown pi hi n phi = some (wrapDown pi hi phi) := by
  obtain ⟨n, hn⟩ := loopUp_wrapUp (lo := -hi) hp (-phi)
  refine ⟨n, ?_⟩
  rw [loopDown_neg, hn, Option.map_some]
  congr 1
  unfold wrapUp wrapDown
  by_cases h : phi > hi
  · rw [if_pos h, if_pos (by linarith)]
    have : -hi - -phi = phi - hi := by ring
    rw [this]; ring
  · rw [if_neg h, if_neg (by linarith)]; ring

theorem truncInt_nonneg {v : K} (h : 0 ≤ v) : truncInt v = ⌊v⌋ := by
  unfold truncInt; rw [if_pos h]

/-- The cell of width `w` a point is in. -/
theorem cell {lo w x : K} (hw : 0 < w) :
    lo + ⌊(x - lo) / w⌋ * w ≤ x ∧ x < lo + (⌊(x - lo) / w⌋ + 1) * w := by
  have h1 := Int.floor_le ((x - lo) / w)
  have h2 := Int.lt_floor_add_one ((x - lo) / w)
  rw [le_div_iff₀ hw] at h1
  rw [div_lt_iff₀ hw] at h2
  constructor <;> linarith

theorem cell_nonneg {lo w x : K} (hw : 0 < w) (h : lo ≤ x) : 0 ≤ ⌊(x - lo) / w⌋ := by
  rw [Int.floor_nonneg]; exact div_nonneg (by linarith) hw.le

theorem cell_lt {lo w x : K} {n : ℤ} (hw : 0 < w) (h : x < lo + n * w) : ⌊(x - lo) / w⌋ < n := by
  rw [Int.floor_lt, div_lt_iff₀ hw]; linarith

theorem cell_mid {lo w : K} (hw : 0 < w) (i : ℤ) : ⌊((i + 1 / 2) * w + lo - lo) / w⌋ = i := by
  have : ((i + 1 / 2) * w + lo - lo) / w = (i : K) + 1 / 2 := by field_simp; ring
  rw [this, Int.floor_eq_iff]; constructor <;> linarith

/-- A point strictly inside cell `i` is in no other closed cell. -/
theorem cell_unique {lo w x : K} (hw : 0 < w) {i j : ℤ} (h1 : lo + i * w < x)
    (h2 : x < lo + (i + 1) * w) (h3 : lo + j * w ≤ x) (h4 : x ≤ lo + (j + 1) * w) : i = j := by
  have a : (i : K) < j + 1 := by
    have : (i : K) * w < (j + 1) * w := by linarith
    exact lt_of_mul_lt_mul_right this hw.le
  have b : (j : K) < i + 1 := by
    have : (j : K) * w < (i + 1) * w := by linarith
    exact lt_of_mul_lt_mul_right this hw.le
  have a' : i < j + 1 := by exact_mod_cast a
  have b' : j < i + 1 := by exact_mod_cast b
  omega

theorem buildPads_of {f : ℤ → ℤ → Res ℤ} {row : ℤ} {g : ℕ → ℤ} : ∀ (n : ℕ),
    (∀ i : ℕ, i < n → f row i = .ok (g i)) → buildPads f row n = .ok ((List.range n).map g) := by
  intro n
  induction n with
  | zero => intro _; simp [buildPads]
  | succ n ih =>
    intro h
    unfold buildPads
    rw [ih (fun i hi => h i (by omega)), Res.bind_ok, h n (by omega), Res.bind_ok]
    simp [List.range_succ, Res.pure_eq]

end Gear.Disk
