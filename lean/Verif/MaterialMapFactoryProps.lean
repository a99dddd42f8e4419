/-
C71: which map the factory returns.
-/
import Verif.MaterialMapFactory

set_option autoImplicit false
set_option linter.unusedSectionVars false

namespace Gear.MapFactory

open MaterialMap (Args)

variable {K M : Type} [Field K] [LinearOrder K] [IsStrictOrderedRing K]

/-- Two requests for the same grid: they differ at most in the coordinate type. -/
def SameGrid (a b : Args K) : Prop :=
  a.xmin = b.xmin ∧ a.xmax = b.xmax ∧ a.nx = b.nx ∧ a.ymin = b.ymin ∧ a.ymax = b.ymax ∧ a.ny = b.ny ∧
  a.zmin = b.zmin ∧ a.zmax = b.zmax ∧ a.nz = b.nz

theorem key_eq_iff (a b : Args K) : key a = key b ↔ SameGrid a b := by
  unfold key SameGrid
  simp only [List.cons.injEq, Int.cast_inj, and_true]

theorem eq_of_sameGrid {a b : Args K} (h : SameGrid a b) (hc : a.coord = b.coord) : a = b := by
  obtain ⟨h1, h2, h3, h4, h5, h6, h7, h8, h9⟩ := h
  cases a; cases b
  simp_all

theorem lookup_append (k : List K) (t u : List (List K × Option ℕ)) :
    lookup k (t ++ u) = (lookup k t).or (lookup k u) := by
  unfold lookup
  rw [List.find?_append]
  cases t.find? (fun e => e.1 = k) <;> simp

theorem lookup_one (k k' : List K) (v : Option ℕ) : lookup k [(k', v)] = if k' = k then some v else none := by
  unfold lookup
  by_cases h : k' = k <;> simp [h]

theorem run_append (build : Args K → Res M) (lf : Bool) (l : List (Args K)) (a : Args K) :
    run build lf (l ++ [a]) = (create build lf (run build lf l) a).2 := by
  unfold run; rw [List.foldl_append]; rfl

/-- What holds after every history, if the right side of line 24 is evaluated first. -/
structure Inv (build : Args K → Res M) (l : List (Args K)) (f : Factory K M) : Prop where
  made : ∀ e ∈ f.made, build e.1 = .ok e.2 ∧ e.1 ∈ l
  hit : ∀ (a : Args K) (p : Option ℕ), lookup (key a) f.table = some p →
    ∃ h e, p = some h ∧ f.made[h]? = some e ∧ SameGrid e.1 a ∧ e.1 ∈ l
  miss : ∀ a : Args K, lookup (key a) f.table = none → ∀ b ∈ l, SameGrid b a → ∀ m, build b ≠ .ok m

theorem inv_run (build : Args K → Res M) (l : List (Args K)) : Inv build l (run build false l) := by
  induction l using List.reverseRecOn with
  | nil =>
    refine ⟨(by intro e he; cases he), ?_, ?_⟩
    · intro a p h; cases h
    · intro a _ b hb; cases hb
  | append_singleton l a ih =>
    rw [run_append]
    generalize run build false l = f at ih
    unfold create
    cases hl : lookup (key a) f.table with
    | some p =>
      simp only
      refine ⟨fun e he => ⟨(ih.made e he).1, by simp [(ih.made e he).2]⟩, ?_, ?_⟩
      · intro b q hq
        obtain ⟨h, e, h1, h2, h3, h4⟩ := ih.hit b q hq
        exact ⟨h, e, h1, h2, h3, by simp [h4]⟩
      · intro b hb c hc hcb m
        rcases List.mem_append.mp hc with hc | hc
        · exact ih.miss b hb c hc hcb m
        · obtain rfl : c = a := by simpa using hc
          rw [(key_eq_iff c b).mpr hcb, hb] at hl
          cases hl
    | none =>
      simp only
      have old_hit : ∀ (g : Factory K M) (b : Args K) (q : Option ℕ), (∃ u, g.made = f.made ++ u) →
          lookup (key b) f.table = some q → ∃ h e, q = some h ∧ g.made[h]? = some e ∧ SameGrid e.1 b ∧
            e.1 ∈ l ++ [a] := by
        rintro g b q ⟨u, hu⟩ hq
        obtain ⟨h, e, h1, h2, h3, h4⟩ := ih.hit b q hq
        refine ⟨h, e, h1, ?_, h3, by simp [h4]⟩
        rw [hu, List.getElem?_append_left (by
          by_contra hc
          rw [List.getElem?_eq_none (not_lt.mp hc)] at h2
          cases h2)]
        exact h2
      have same : ∀ e : Exn, build a = .throw e ∨ build a = .ub → Inv build (l ++ [a]) f := by
        intro e hbuild
        refine ⟨fun e he => ⟨(ih.made e he).1, by simp [(ih.made e he).2]⟩, ?_, ?_⟩
        · intro b q hq
          exact old_hit f b q ⟨[], by simp⟩ hq
        · intro b hb c hc hcb m
          rcases List.mem_append.mp hc with hc | hc
          · exact ih.miss b hb c hc hcb m
          · obtain rfl : c = a := by simpa using hc
            rcases hbuild with h | h <;> rw [h] <;> simp
      cases hb : build a with
      | throw e => exact same e (Or.inl hb)
      | ub => exact same .gear (Or.inr hb)
      | ok m =>
        simp only
        refine ⟨?_, ?_, ?_⟩
        · intro e he
          rcases List.mem_append.mp he with he | he
          · exact ⟨(ih.made e he).1, by simp [(ih.made e he).2]⟩
          · obtain rfl : e = (a, m) := by simpa using he
            exact ⟨hb, by simp⟩
        · intro b q hq
          simp only at hq
          rw [lookup_append] at hq
          cases ho : lookup (key b) f.table with
          | some q' =>
            rw [ho] at hq
            obtain rfl : q' = q := by simpa using hq
            exact old_hit ⟨f.made ++ [(a, m)], _⟩ b q' ⟨_, rfl⟩ ho
          | none =>
            rw [ho, Option.none_or, lookup_one] at hq
            by_cases hk : key a = key b
            · rw [if_pos hk] at hq
              obtain rfl : some f.made.length = q := by simpa using hq
              exact ⟨f.made.length, (a, m), rfl, by simp, (key_eq_iff a b).mp hk, by simp⟩
            · rw [if_neg hk] at hq; cases hq
        · intro b hn c hc hcb m'
          simp only at hn
          rw [lookup_append, lookup_one] at hn
          have h1 : lookup (key b) f.table = none := by
            cases ho : lookup (key b) f.table with
            | none => rfl
            | some q => rw [ho] at hn; simp at hn
          have h2 : key a ≠ key b := by
            intro hk
            rw [h1, if_pos hk] at hn
            simp at hn
          rcases List.mem_append.mp hc with hc | hc
          · exact ih.miss b h1 c hc hcb m'
          · obtain rfl : c = a := by simpa using hc
            exact absurd ((key_eq_iff c b).mpr hcb) h2

/-! ### C71 -/

/-- After any history in which no request for the same grid had another coordinate type, the factory returns a map
that was built with exactly the requested arguments; if these are not accepted, it throws the constructor's
exception.  Missing: histories with another coordinate type for the same grid, see `create_false_coord`; compilers
that evaluate the left side of the assignment first, see `create_false_null`. -/
theorem create_partial (build : Args K → Res M) (l : List (Args K)) (a : Args K)
    (hl : ∀ b ∈ l, SameGrid b a → b.coord = a.coord) :
    (∀ m, build a = .ok m → ∃ h, (create build false (run build false l) a).1 = .ok (some h) ∧
      (create build false (run build false l) a).2.made[h]? = some (a, m)) ∧
    (∀ e, build a = .throw e → (create build false (run build false l) a).1 = .throw e) := by
  have inv := inv_run build l
  have key_hit : ∀ p, lookup (key a) (run build false l).table = some p →
      ∃ h m, p = some h ∧ (run build false l).made[h]? = some (a, m) ∧ build a = .ok m := by
    intro p hp
    obtain ⟨h, e, h1, h2, h3, h4⟩ := inv.hit a p hp
    have he : e.1 = a := eq_of_sameGrid h3 (hl _ h4 h3)
    have hmem := List.mem_of_getElem? h2
    have hb := (inv.made e hmem).1
    rw [he] at hb
    exact ⟨h, e.2, h1, by rw [h2, ← he], hb⟩
  unfold create
  cases hk : lookup (key a) (run build false l).table with
  | some p =>
    obtain ⟨h, m, h1, h2, h3⟩ := key_hit p hk
    simp only
    refine ⟨?_, ?_⟩
    · intro m' hm'
      rw [h3] at hm'; cases hm'
      exact ⟨h, by rw [h1], h2⟩
    · intro e he; rw [h3] at he; cases he
  | none =>
    simp only
    refine ⟨?_, ?_⟩
    · intro m hm
      rw [hm]
      exact ⟨_, rfl, by simp⟩
    · intro e he
      rw [he]

/-- In general the map returned belongs to the requested grid, but may have been built for an earlier request with
another coordinate type. -/
theorem create_same_grid (build : Args K → Res M) (l : List (Args K)) (a : Args K) (p : Option ℕ)
    (h : (create build false (run build false l) a).1 = .ok p) :
    ∃ i b m, p = some i ∧ (create build false (run build false l) a).2.made[i]? = some (b, m) ∧
      build b = .ok m ∧ SameGrid b a ∧ (b = a ∨ b ∈ l) := by
  have inv := inv_run build l
  unfold create at h ⊢
  cases hk : lookup (key a) (run build false l).table with
  | some q =>
    rw [hk] at h
    simp only at h ⊢
    cases h
    obtain ⟨i, e, h1, h2, h3, h4⟩ := inv.hit a p hk
    exact ⟨i, e.1, e.2, h1, h2, (inv.made e (List.mem_of_getElem? h2)).1, h3, Or.inr h4⟩
  | none =>
    rw [hk] at h
    simp only at h ⊢
    cases hb : build a with
    | ok m =>
      rw [hb] at h
      simp only at h ⊢
      cases h
      exact ⟨_, a, m, rfl, by simp, hb, ⟨rfl, rfl, rfl, rfl, rfl, rfl, rfl, rfl, rfl⟩, Or.inl rfl⟩
    | throw e => rw [hb] at h; cases h
    | ub => rw [hb] at h; cases h

/-- Maps handed out earlier are not touched by later requests. -/
theorem made_stable (build : Args K → Res M) (lf : Bool) (f : Factory K M) (l : List (Args K)) (i : ℕ)
    (e : Args K × M) (h : f.made[i]? = some e) :
    (l.foldl (fun f a => (create build lf f a).2) f).made[i]? = some e := by
  induction l generalizing f with
  | nil => exact h
  | cons a l ih =>
    rw [List.foldl_cons]
    apply ih
    unfold create
    cases lookup (key a) f.table with
    | some p => exact h
    | none =>
      cases build a with
      | ok m =>
        simp only
        rw [List.getElem?_append_left]
        · exact h
        · by_contra hc
          rw [List.getElem?_eq_none (not_lt.mp hc)] at h
          cases h
      | throw e' => cases lf <;> exact h
      | ub => exact h

/-- A request that has been answered gets the same map again, whatever was requested in between. -/
theorem create_again (build : Args K → Res M) (lf : Bool) (f : Factory K M) (a : Args K) (l : List (Args K))
    (p : Option ℕ) (h : (create build lf f a).1 = .ok p) :
    (create build lf (l.foldl (fun f a => (create build lf f a).2) (create build lf f a).2) a).1 = .ok p := by
  have h0 : lookup (key a) (create build lf f a).2.table = some p := by
    unfold create at h ⊢
    cases hk : lookup (key a) f.table with
    | some q =>
      rw [hk] at h
      simp only at h ⊢
      cases h
      exact hk
    | none =>
      rw [hk] at h
      simp only at h ⊢
      cases hb : build a with
      | ok m =>
        rw [hb] at h
        simp only at h ⊢
        cases h
        rw [lookup_append, hk, lookup_one, if_pos rfl]; rfl
      | throw e => rw [hb] at h; cases h
      | ub => rw [hb] at h; cases h
  have keep : ∀ (l : List (Args K)) (g : Factory K M), lookup (key a) g.table = some p →
      lookup (key a) (l.foldl (fun f a => (create build lf f a).2) g).table = some p := by
    intro l
    induction l with
    | nil => intro g hg; exact hg
    | cons b l ih =>
      intro g hg
      rw [List.foldl_cons]
      apply ih
      unfold create
      cases lookup (key b) g.table with
      | some q => exact hg
      | none =>
        cases build b with
        | ok m => simp only; rw [lookup_append, hg]; rfl
        | throw e =>
          cases lf with
          | true => simp only [if_true]; rw [lookup_append, hg]; rfl
          | false => exact hg
        | ub => exact hg
  have h1 := keep l _ h0
  unfold create at h1 ⊢
  rw [h1]

/-- A constructor for the examples: it takes the coordinate types 0 and 1. -/
def sampleBuild (a : Args ℚ) : Res ℤ := if a.coord = 0 ∨ a.coord = 1 then .ok a.coord else .throw .gear

/-- The hypothesis of `create_partial` is met by a history with other grids. -/
example : ∀ b ∈ [(⟨0, 1, 2, 0, 1, 2, 0, 1, 2, 0⟩ : Args ℚ), ⟨0, 2, 2, 0, 1, 2, 0, 1, 2, 1⟩],
    SameGrid b ⟨0, 1, 2, 0, 1, 2, 0, 1, 2, 0⟩ → b.coord = 0 := by
  intro b hb h
  simp only [List.mem_cons, List.not_mem_nil, or_false] at hb
  rcases hb with rfl | rfl
  · rfl
  · have := h.2.1; norm_num at this

/-- After a request for a grid in Cartesian coordinates, the request for the same grid in cylindrical coordinates
is answered with the Cartesian map. -/
theorem create_false_coord : ∃ (l : List (Args ℚ)) (a : Args ℚ) (i : ℕ) (b : Args ℚ) (m : ℤ),
    (create sampleBuild false (run sampleBuild false l) a).1 = .ok (some i) ∧
    (create sampleBuild false (run sampleBuild false l) a).2.made[i]? = some (b, m) ∧
    a.coord = 1 ∧ b.coord = 0 ∧ sampleBuild a = .ok 1 ∧ m = 0 :=
  ⟨[⟨0, 1, 2, 0, 1, 2, 0, 1, 2, 0⟩], ⟨0, 1, 2, 0, 1, 2, 0, 1, 2, 1⟩, 0, ⟨0, 1, 2, 0, 1, 2, 0, 1, 2, 0⟩, 0,
    by decide +kernel, by decide +kernel, rfl, rfl, by decide +kernel, rfl⟩

/-- With a compiler that evaluates the left side of the assignment first, a rejected request throws the first time
and returns a null pointer the second time. -/
theorem create_false_null : ∃ a : Args ℚ, sampleBuild a = .throw .gear ∧
    (create sampleBuild true empty a).1 = .throw .gear ∧
    (create sampleBuild true (run sampleBuild true [a]) a).1 = .ok none :=
  ⟨⟨0, 1, 2, 0, 1, 2, 0, 1, 2, 7⟩, by decide +kernel, by decide +kernel, by decide +kernel⟩

end Gear.MapFactory
