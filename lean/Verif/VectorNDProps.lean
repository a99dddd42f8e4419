/-
C139: the coordinates of a vector.
-/
import Verif.VectorND
import Mathlib.Tactic.Linarith

set_option autoImplicit false
set_option linter.unusedSectionVars false

namespace Gear.VectorND

variable {K : Type}

theorem toUnsigned_pred {N : ℕ} (h1 : 1 ≤ N) (h2 : N < 2147483648) : toUnsigned ((N : ℤ) - 1) = N - 1 := by
  unfold toUnsigned
  rw [Int.emod_eq_of_lt (by omega) (by omega)]
  omega

theorem zeros_eq [Zero K] : ∀ n, (zeros n : List K) = List.replicate n 0
  | 0 => rfl
  | n + 1 => by rw [zeros, zeros_eq n, List.replicate_succ]

theorem set_length {N : ℕ} {c c' : List K} {i : ℕ} {x : K} (h : set N c i x = .ok c') : c'.length = c.length := by
  unfold set at h
  split at h
  · cases h
  · split at h
    · cases h; simp
    · cases h

/-! ### C139 -/

/-- Reading a coordinate gives it if there is one, and an exception otherwise; nothing beyond the array is ever read. -/
theorem get_spec {N : ℕ} (h1 : 1 ≤ N) (h2 : N < 2147483648) (c : List K) (hc : c.length = N) (i : ℕ) :
    (∀ v, c[i]? = some v → get N c i = .ok v) ∧ (N ≤ i → get N c i = .throw .outOfRange) ∧ get N c i ≠ .ub := by
  have hp := toUnsigned_pred h1 h2
  have hlt : i < N → ∃ v, c[i]? = some v ∧ get N c i = .ok v := by
    intro hi
    refine ⟨c[i]'(by omega), List.getElem?_eq_getElem _, ?_⟩
    unfold get
    rw [hp, if_neg (by omega), List.getElem?_eq_getElem (by omega)]
  have hge : N ≤ i → get N c i = .throw .outOfRange := by
    intro hi
    unfold get
    rw [hp, if_pos (by omega)]
  refine ⟨fun v hv => ?_, hge, ?_⟩
  · have hi : i < N := by rw [← hc]; exact (List.getElem?_eq_some_iff.1 hv).1
    obtain ⟨w, e1, e2⟩ := hlt hi
    rw [e1] at hv
    rw [e2, Option.some.inj hv]
  · rcases Nat.lt_or_ge i N with hi | hi
    · obtain ⟨w, -, e⟩ := hlt hi
      rw [e]; nofun
    · rw [hge hi]; nofun

/-- A negative `int` as an index gives an exception, for reading and for writing. -/
theorem negative {N : ℕ} (h1 : 1 ≤ N) (h2 : N < 2147483648) (c : List K) (j : ℤ) (hj : j < 0) (hj2 : -2147483648 ≤ j) (x : K) :
    get N c (toUnsigned j) = .throw .outOfRange ∧ set N c (toUnsigned j) x = .throw .outOfRange := by
  have hp := toUnsigned_pred h1 h2
  have hu : toUnsigned j > N - 1 := by
    unfold toUnsigned
    have : j % 4294967296 = j + 4294967296 := by omega
    rw [this]
    omega
  unfold get set
  rw [hp, if_pos hu, if_pos hu]
  exact ⟨rfl, rfl⟩

/-- After any assignments to a new vector, a coordinate is the value assigned to it last, and zero if there is none.  Assignments beyond
the vector change nothing. -/
theorem history [Zero K] {N : ℕ} (h1 : 1 ≤ N) (h2 : N < 2147483648) (w : List (ℕ × K)) :
    ∃ c, assign N (zeros N) w = .ok c ∧ ∀ i, i < N → get N c i = .ok (((w.reverse.find? (fun p => p.1 = i)).map (·.2)).getD 0) := by
  have hp := toUnsigned_pred h1 h2
  have main : ∀ (w : List (ℕ × K)) (c : List K), c.length = N → ∃ c', assign N c w = .ok c' ∧ c'.length = N ∧
      ∀ i, i < N → c'[i]? = ((w.reverse.find? (fun p => p.1 = i)).map (·.2)).or c[i]? := by
    intro w
    induction w with
    | nil => exact fun c hc => ⟨c, rfl, hc, fun i _ => by simp⟩
    | cons y r ih =>
      intro c hc
      obtain ⟨k, x⟩ := y
      rcases Nat.lt_or_ge k N with hk | hk
      · obtain ⟨c', e, hl, hg⟩ := ih (c.set k x) (by simp [hc])
        refine ⟨c', ?_, hl, fun i hi => ?_⟩
        · rw [assign, set, hp, if_neg (by omega), if_pos (by omega)]
          exact e
        · rw [hg i hi, List.reverse_cons, List.find?_append]
          cases List.find? (fun p : ℕ × K => decide (p.1 = i)) r.reverse with
          | some z => rfl
          | none =>
            by_cases hki : k = i
            · subst hki
              simp [hc, hk]
            · simp [hki]
      · obtain ⟨c', e, hl, hg⟩ := ih c hc
        refine ⟨c', ?_, hl, fun i hi => ?_⟩
        · rw [assign, set, hp, if_pos (by omega)]
          exact e
        · rw [hg i hi, List.reverse_cons, List.find?_append]
          cases List.find? (fun p : ℕ × K => decide (p.1 = i)) r.reverse with
          | some z => rfl
          | none =>
            have hki : k ≠ i := by omega
            simp [hki]
  obtain ⟨c, e, hl, hg⟩ := main w (zeros N) (by rw [zeros_eq, List.length_replicate])
  refine ⟨c, e, fun i hi => (get_spec h1 h2 c hl i).1 _ ?_⟩
  rw [hg i hi, zeros_eq, List.getElem?_replicate, if_pos hi]
  cases List.find? (fun p : ℕ × K => decide (p.1 = i)) w.reverse <;> rfl

/-- The vectors of two and three coordinates hold the arguments of their constructors. -/
theorem constructed (a b d : K) : get 2 (vector2D a b) 0 = .ok a ∧ get 2 (vector2D a b) 1 = .ok b ∧
    get 3 (vector3D a b d) 0 = .ok a ∧ get 3 (vector3D a b d) 1 = .ok b ∧ get 3 (vector3D a b d) 2 = .ok d := ⟨rfl, rfl, rfl, rfl, rfl⟩

/-- A vector of two coordinates: an assignment beyond it, two to the first coordinate, and one with the index -1. -/
example : assign 2 (zeros 2) [(0, (5 : ℤ)), (2, 9), (0, 7), (toUnsigned (-1), 4)] = .ok [7, 0] ∧
    get 2 [(7 : ℤ), 0] 0 = .ok 7 ∧ get 2 [(7 : ℤ), 0] 2 = .throw .outOfRange ∧ toUnsigned (-1) = 4294967295 := by decide

end Gear.VectorND
