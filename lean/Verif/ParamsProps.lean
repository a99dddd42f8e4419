/-
Properties C01 and C02: named parameters.
-/
import Verif.ParamsSpec
import Mathlib.Data.List.Induction

namespace Gear.Params

variable {D : Type}

/-! ### Helper lemmas -/

theorem run_append (h : List (Op D)) (o : Op D) : run (h ++ [o]) = step (run h) o := by
  simp [run]

theorem lookup_set {α : Type} (k k' : String) (v : α) (m : SMap String α) :
    lookup k (SMap.set k' v m) = if k' = k then .ok v else lookup k m := by
  unfold lookup
  rw [SMap.find?_set]
  by_cases h : k' = k
  · simp [h]
  · simp [h, Ne.symm h]

theorem refill_eq {α : Type} (c : List String) (m : SMap String α) : refill c m = SMap.keys m := by
  have : ∀ acc : List String, m.foldl (fun acc e => acc ++ [e.1]) acc = acc ++ m.map Prod.fst := by
    induction m with
    | nil => simp
    | cons e m ih => intro acc; simp [ih]
  simpa [refill, SMap.keys] using this []

/-- The six maps of an object keep their iteration order sorted. -/
structure Inv (p : Params D) : Prop where
  i : SMap.Sorted p.intMap
  d : SMap.Sorted p.doubleMap
  s : SMap.Sorted p.stringMap
  iv : SMap.Sorted p.intVecMap
  dv : SMap.Sorted p.doubleVecMap
  sv : SMap.Sorted p.stringVecMap

theorem inv_run (h : List (Op D)) : Inv (run h) := by
  induction h using List.reverseRecOn with
  | nil => exact ⟨SMap.sorted_nil, SMap.sorted_nil, SMap.sorted_nil, SMap.sorted_nil,
      SMap.sorted_nil, SMap.sorted_nil⟩
  | append_singleton h o ih =>
    rw [run_append]
    obtain ⟨a, b, c, d, e, f⟩ := ih
    cases o <;> constructor <;>
      first
      | assumption
      | exact SMap.sorted_set (by assumption) _ _

theorem mem_keys_iff {α : Type} {k : String} {m : SMap String α} {o : Option α}
    (h : lookup k m = answer k o) : k ∈ SMap.keys m ↔ o.isSome := by
  rw [← SMap.find?_isSome_iff]
  unfold lookup answer at h
  cases hm : SMap.find? k m <;> cases o <;> simp_all

/-! ### C01: last write wins, types and keys are isolated -/

/-- C01 for `getIntVal`: after any history the getter answers with the value of the last
`setIntVal` under that key, and throws `UnknownParameterException(key)` if there was none; calls for
other keys or other types do not matter. -/
theorem getIntVal_run (h : List (Op D)) (k : String) :
    (run h).getIntVal k = answer k (lastInt k h) := by
  induction h using List.reverseRecOn with
  | nil => rfl
  | append_singleton h o ih =>
    rw [run_append]
    cases o <;> simp only [lastInt, List.reverse_append, List.reverse_cons, List.reverse_nil,
      List.nil_append, List.singleton_append, List.findSome?_cons] <;>
      first
      | exact ih
      | (rename_i k' v
         show lookup k (SMap.set k' v (run h).intMap) = _
         rw [lookup_set]
         split_ifs
         · rfl
         · exact ih)

/-- C01 for `getDoubleVal`. -/
theorem getDoubleVal_run (h : List (Op D)) (k : String) :
    (run h).getDoubleVal k = answer k (lastDouble k h) := by
  induction h using List.reverseRecOn with
  | nil => rfl
  | append_singleton h o ih =>
    rw [run_append]
    cases o <;> simp only [lastDouble, List.reverse_append, List.reverse_cons, List.reverse_nil,
      List.nil_append, List.singleton_append, List.findSome?_cons] <;>
      first
      | exact ih
      | (rename_i k' v
         show lookup k (SMap.set k' v (run h).doubleMap) = _
         rw [lookup_set]
         split_ifs
         · rfl
         · exact ih)

/-- C01 for `getStringVal`. -/
theorem getStringVal_run (h : List (Op D)) (k : String) :
    (run h).getStringVal k = answer k (lastString k h) := by
  induction h using List.reverseRecOn with
  | nil => rfl
  | append_singleton h o ih =>
    rw [run_append]
    cases o <;> simp only [lastString, List.reverse_append, List.reverse_cons, List.reverse_nil,
      List.nil_append, List.singleton_append, List.findSome?_cons] <;>
      first
      | exact ih
      | (rename_i k' v
         show lookup k (SMap.set k' v (run h).stringMap) = _
         rw [lookup_set]
         split_ifs
         · rfl
         · exact ih)

/-- C01 for `getIntVals`. -/
theorem getIntVals_run (h : List (Op D)) (k : String) :
    (run h).getIntVals k = answer k (lastInts k h) := by
  induction h using List.reverseRecOn with
  | nil => rfl
  | append_singleton h o ih =>
    rw [run_append]
    cases o <;> simp only [lastInts, List.reverse_append, List.reverse_cons, List.reverse_nil,
      List.nil_append, List.singleton_append, List.findSome?_cons] <;>
      first
      | exact ih
      | (rename_i k' v
         show lookup k (SMap.set k' v (run h).intVecMap) = _
         rw [lookup_set]
         split_ifs
         · rfl
         · exact ih)

/-- C01 for `getDoubleVals`. -/
theorem getDoubleVals_run (h : List (Op D)) (k : String) :
    (run h).getDoubleVals k = answer k (lastDoubles k h) := by
  induction h using List.reverseRecOn with
  | nil => rfl
  | append_singleton h o ih =>
    rw [run_append]
    cases o <;> simp only [lastDoubles, List.reverse_append, List.reverse_cons, List.reverse_nil,
      List.nil_append, List.singleton_append, List.findSome?_cons] <;>
      first
      | exact ih
      | (rename_i k' v
         show lookup k (SMap.set k' v (run h).doubleVecMap) = _
         rw [lookup_set]
         split_ifs
         · rfl
         · exact ih)

/-- C01 for `getStringVals`. -/
theorem getStringVals_run (h : List (Op D)) (k : String) :
    (run h).getStringVals k = answer k (lastStrings k h) := by
  induction h using List.reverseRecOn with
  | nil => rfl
  | append_singleton h o ih =>
    rw [run_append]
    cases o <;> simp only [lastStrings, List.reverse_append, List.reverse_cons, List.reverse_nil,
      List.nil_append, List.singleton_append, List.findSome?_cons] <;>
      first
      | exact ih
      | (rename_i k' v
         show lookup k (SMap.set k' v (run h).stringVecMap) = _
         rw [lookup_set]
         split_ifs
         · rfl
         · exact ih)

/-- A history in which an int and a double share a key, a key is overwritten, and a key is unset. -/
def demoHistory : List (Op Int) :=
  [.setInt "n" 3, .setDouble "n" 7, .listInt, .setInt "a" 1, .setInt "n" 4, .listInt,
   .setStrings "s" ["x", "y"]]

example : (run demoHistory).getIntVal "n" = .ok 4 ∧ (run demoHistory).getDoubleVal "n" = .ok 7 ∧
    (run demoHistory).getIntVal "s" = .throw (.unknownParameter "s") ∧
    (run demoHistory).getStringVals "s" = .ok ["x", "y"] := by
  refine ⟨?_, ?_, ?_, ?_⟩
  · rw [getIntVal_run]; simp [demoHistory, lastInt, answer]
  · rw [getDoubleVal_run]; simp [demoHistory, lastDouble, answer]
  · rw [getIntVal_run]; simp [demoHistory, lastInt, answer]
  · rw [getStringVals_run]; simp [demoHistory, lastStrings, answer]

/-! ### C02: key listings -/

/-- C02 for `getIntKeys`: after any history (listings included) the listing returned is strictly
ascending and contains exactly the keys for which a `setIntVal` was made. -/
theorem getIntKeys_run (h : List (Op D)) :
    IsListing (fun k => (lastInt k h).isSome) (run h).getIntKeys.intKeys := by
  refine ⟨?_, fun k => ?_⟩
  · simp only [getIntKeys, refill_eq]; exact (inv_run h).i
  · simp only [getIntKeys, refill_eq]; exact mem_keys_iff (getIntVal_run h k)

/-- C02 for `getDoubleKeys`. -/
theorem getDoubleKeys_run (h : List (Op D)) :
    IsListing (fun k => (lastDouble k h).isSome) (run h).getDoubleKeys.doubleKeys := by
  refine ⟨?_, fun k => ?_⟩
  · simp only [getDoubleKeys, refill_eq]; exact (inv_run h).d
  · simp only [getDoubleKeys, refill_eq]; exact mem_keys_iff (getDoubleVal_run h k)

/-- C02 for `getStringKeys`. -/
theorem getStringKeys_run (h : List (Op D)) :
    IsListing (fun k => (lastString k h).isSome) (run h).getStringKeys.stringKeys := by
  refine ⟨?_, fun k => ?_⟩
  · simp only [getStringKeys, refill_eq]; exact (inv_run h).s
  · simp only [getStringKeys, refill_eq]; exact mem_keys_iff (getStringVal_run h k)

/-- C02 for `getIntVecKeys`. -/
theorem getIntVecKeys_run (h : List (Op D)) :
    IsListing (fun k => (lastInts k h).isSome) (run h).getIntVecKeys.intVecKeys := by
  refine ⟨?_, fun k => ?_⟩
  · simp only [getIntVecKeys, refill_eq]; exact (inv_run h).iv
  · simp only [getIntVecKeys, refill_eq]; exact mem_keys_iff (getIntVals_run h k)

/-- C02 for `getDoubleVecKeys`. -/
theorem getDoubleVecKeys_run (h : List (Op D)) :
    IsListing (fun k => (lastDoubles k h).isSome) (run h).getDoubleVecKeys.doubleVecKeys := by
  refine ⟨?_, fun k => ?_⟩
  · simp only [getDoubleVecKeys, refill_eq]; exact (inv_run h).dv
  · simp only [getDoubleVecKeys, refill_eq]; exact mem_keys_iff (getDoubleVals_run h k)

/-- C02 for `getStringVecKeys`. -/
theorem getStringVecKeys_run (h : List (Op D)) :
    IsListing (fun k => (lastStrings k h).isSome) (run h).getStringVecKeys.stringVecKeys := by
  refine ⟨?_, fun k => ?_⟩
  · simp only [getStringVecKeys, refill_eq]; exact (inv_run h).sv
  · simp only [getStringVecKeys, refill_eq]; exact mem_keys_iff (getStringVals_run h k)

/-- A listing is determined by the set of keys, so C02 fixes the result completely. -/
theorem listing_unique {S : String → Prop} {l₁ l₂ : List String} (h₁ : IsListing S l₁)
    (h₂ : IsListing S l₂) : l₁ = l₂ :=
  eq_of_pairwise_lt_of_mem_iff h₁.1 h₂.1 fun a => (h₁.2 a).trans (h₂.2 a).symm

/-- Repeating a listing gives the same answer. -/
theorem getIntKeys_twice (h : List (Op D)) :
    (run (h ++ [.listInt])).getIntKeys.intKeys = (run h).getIntKeys.intKeys := by
  refine listing_unique (getIntKeys_run _) ?_
  have := getIntKeys_run h
  refine ⟨this.1, fun k => ?_⟩
  rw [this.2 k]; simp [lastInt]

example : (run demoHistory).getIntKeys.intKeys = ["a", "n"] := by
  refine listing_unique (getIntKeys_run _) ⟨by decide, fun k => ?_⟩
  simp only [demoHistory, lastInt, List.mem_cons, List.not_mem_nil, or_false]
  by_cases h1 : "n" = k <;> by_cases h2 : "a" = k <;> simp_all [eq_comm]

end Gear.Params
