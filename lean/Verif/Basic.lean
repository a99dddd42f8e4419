/-
Outcomes of C++ calls and the model of `std::map`.
-/
import Mathlib.Order.Defs.LinearOrder
import Mathlib.Order.Basic
import Mathlib.Data.String.Basic
import Mathlib.Data.List.Basic
import Mathlib.Tactic.Common

namespace Gear

/-- The exception classes the modelled code can throw.
`include/gear/GEAR.h` lines 26-169 (gear::Exception and its subclasses), plus `std::out_of_range`
and a failing `assert` (only in builds without NDEBUG).
Simplification: message texts are dropped, except the key of `UnknownParameterException`. -/
inductive Exn where
  | gear
  | unknownParameter (key : String)
  | parse
  | notImplemented
  | noZPosition
  | outsideGeometry
  | outOfRange
  | assertion
  | lengthError
deriving DecidableEq, Repr

/-- The outcome of a C++ call: a value, a thrown exception, or undefined behaviour
(reading outside a table, dereferencing null, using a deleted object, ...). -/
inductive Res (α : Type _) where
  | ok (a : α)
  | throw (e : Exn)
  | ub
deriving DecidableEq, Repr

namespace Res

/-- Sequencing of calls: an exception or undefined behaviour ends the computation. -/
def bind {α β : Type _} (x : Res α) (f : α → Res β) : Res β :=
  match x with
  | ok a => f a
  | throw e => throw e
  | ub => ub

instance : Monad Res where
  pure := Res.ok
  bind := Res.bind

@[simp] theorem bind_ok {α β : Type _} (a : α) (f : α → Res β) : (Res.ok a >>= f) = f a := rfl
@[simp] theorem bind_throw {α β : Type _} (e : Exn) (f : α → Res β) :
    ((Res.throw e : Res α) >>= f) = Res.throw e := rfl
@[simp] theorem bind_ub {α β : Type _} (f : α → Res β) :
    ((Res.ub : Res α) >>= f) = Res.ub := rfl
@[simp] theorem pure_eq {α : Type _} (a : α) : (pure a : Res α) = Res.ok a := rfl
@[simp] theorem map_ok {α β : Type _} (a : α) (f : α → β) : (f <$> Res.ok a) = Res.ok (f a) := rfl
@[simp] theorem map_throw {α β : Type _} (e : Exn) (f : α → β) :
    (f <$> (Res.throw e : Res α)) = Res.throw e := rfl
@[simp] theorem map_ub {α β : Type _} (f : α → β) : (f <$> (Res.ub : Res α)) = Res.ub := rfl

instance : LawfulMonad Res := LawfulMonad.mk' (m := Res)
  (id_map := by intro α x; cases x <;> rfl)
  (pure_bind := by intros; rfl)
  (bind_assoc := by intro α β γ x f g; cases x <;> rfl)

end Res

/-- `std::map<κ, α>` as the list of its entries in iteration order (ascending keys). -/
abbrev SMap (κ α : Type _) := List (κ × α)

namespace SMap

variable {κ α : Type _} [LinearOrder κ]

/-- `m.find(k)`: `none` models `m.end()`. -/
def find? (k : κ) : SMap κ α → Option α
  | [] => none
  | (k', v) :: m => if k' = k then some v else find? k m

/-- `m[k] = v`: overwrite the entry or insert a new one at its place in the order. -/
def set (k : κ) (v : α) : SMap κ α → SMap κ α
  | [] => [(k, v)]
  | (k', v') :: m =>
    if k = k' then (k, v) :: m
    else if k < k' then (k, v) :: (k', v') :: m
    else (k', v') :: set k v m

/-- The keys in iteration order. -/
def keys (m : SMap κ α) : List κ := m.map Prod.fst

/-- Iteration order is strictly ascending in the keys. -/
def Sorted (m : SMap κ α) : Prop := (keys m).Pairwise (· < ·)

@[simp] theorem find?_nil (k : κ) : find? k ([] : SMap κ α) = none := rfl

theorem find?_set_self (k : κ) (v : α) (m : SMap κ α) : find? k (set k v m) = some v := by
  induction m with
  | nil => simp [set, find?]
  | cons e m ih =>
    obtain ⟨k', v'⟩ := e
    unfold set
    split_ifs with h1 h2
    · simp [find?]
    · simp [find?]
    · have : k' ≠ k := fun h => h1 h.symm
      simp [find?, this, ih]

theorem find?_set_ne {k k₂ : κ} (h : k₂ ≠ k) (v : α) (m : SMap κ α) :
    find? k₂ (set k v m) = find? k₂ m := by
  induction m with
  | nil => simp [set, find?, h.symm]
  | cons e m ih =>
    obtain ⟨k', v'⟩ := e
    unfold set
    split_ifs with h1 h2
    · subst h1; simp [find?, h.symm]
    · simp [find?, h.symm]
    · simp [find?, ih]

theorem find?_set (k k₂ : κ) (v : α) (m : SMap κ α) :
    find? k₂ (set k v m) = if k₂ = k then some v else find? k₂ m := by
  split_ifs with h
  · subst h; exact find?_set_self _ _ _
  · exact find?_set_ne h v m

theorem mem_keys_set (k k₂ : κ) (v : α) (m : SMap κ α) :
    k₂ ∈ keys (set k v m) ↔ k₂ = k ∨ k₂ ∈ keys m := by
  induction m with
  | nil => simp [set, keys]
  | cons e m ih =>
    obtain ⟨k', v'⟩ := e
    unfold set
    simp only [keys] at ih ⊢
    split_ifs with h1 h2
    · subst h1; simp
    · simp
    · simp only [List.map_cons, List.mem_cons, ih]; tauto

theorem sorted_nil : Sorted ([] : SMap κ α) := List.Pairwise.nil

theorem sorted_set {m : SMap κ α} (hm : Sorted m) (k : κ) (v : α) : Sorted (set k v m) := by
  induction m with
  | nil => simp [set, Sorted, keys]
  | cons e m ih =>
    obtain ⟨k', v'⟩ := e
    have hm' : (∀ a ∈ keys m, k' < a) ∧ Sorted m := by
      simpa [Sorted, keys] using hm
    unfold set
    split_ifs with h1 h2
    · subst h1; exact hm
    · simp only [Sorted, keys, List.map_cons, List.pairwise_cons]
      refine ⟨?_, ?_, hm'.2⟩
      · intro a ha
        rcases List.mem_cons.1 ha with rfl | ha
        · exact h2
        · exact h2.trans (hm'.1 a ha)
      · exact fun a ha => hm'.1 a ha
    · have hlt : k' < k := lt_of_le_of_ne (not_lt.1 h2) (fun h => h1 h.symm)
      have := ih hm'.2
      simp only [Sorted, keys, List.map_cons, List.pairwise_cons]
      refine ⟨?_, this⟩
      intro a ha
      rcases (mem_keys_set k a v m).1 ha with rfl | ha
      · exact hlt
      · exact hm'.1 a ha

theorem find?_eq_none_iff (k : κ) (m : SMap κ α) : find? k m = none ↔ k ∉ keys m := by
  induction m with
  | nil => simp [keys]
  | cons e m ih =>
    obtain ⟨k', v'⟩ := e
    simp only [find?, keys, List.map_cons, List.mem_cons] at ih ⊢
    split_ifs with h
    · simp [h]
    · rw [ih]; constructor
      · rintro h1 (rfl | h2)
        · exact h rfl
        · exact h1 h2
      · exact fun h1 h2 => h1 (Or.inr h2)

theorem find?_isSome_iff (k : κ) (m : SMap κ α) : (find? k m).isSome ↔ k ∈ keys m := by
  rw [Option.isSome_iff_ne_none, Ne, find?_eq_none_iff, not_not]

theorem mem_of_find?_eq_some {k : κ} {v : α} {m : SMap κ α} (h : find? k m = some v) :
    (k, v) ∈ m := by
  induction m with
  | nil => simp at h
  | cons e m ih =>
    obtain ⟨k', v'⟩ := e
    simp only [find?] at h
    split_ifs at h with h1
    · subst h1; cases h; simp
    · exact List.mem_cons_of_mem _ (ih h)

theorem find?_of_mem {k : κ} {v : α} {m : SMap κ α} (hs : Sorted m) (h : (k, v) ∈ m) :
    find? k m = some v := by
  induction m with
  | nil => simp at h
  | cons e m ih =>
    obtain ⟨k', v'⟩ := e
    have hm' : (∀ a ∈ keys m, k' < a) ∧ Sorted m := by
      simpa [Sorted, keys] using hs
    simp only [find?]
    rcases List.mem_cons.1 h with h1 | h1
    · cases h1; simp
    · have hk : k ∈ keys m := List.mem_map.2 ⟨_, h1, rfl⟩
      have : k' ≠ k := ne_of_lt (hm'.1 k hk)
      simp [this, ih hm'.2 h1]

end SMap

/-- Strictly ascending lists with the same elements are equal: a sorted duplicate-free listing is
determined by the set it lists. -/
theorem eq_of_pairwise_lt_of_mem_iff {κ : Type _} [LinearOrder κ] {l₁ l₂ : List κ}
    (h₁ : l₁.Pairwise (· < ·)) (h₂ : l₂.Pairwise (· < ·)) (h : ∀ a, a ∈ l₁ ↔ a ∈ l₂) : l₁ = l₂ := by
  induction l₁ generalizing l₂ with
  | nil =>
    cases l₂ with
    | nil => rfl
    | cons b l₂ => exact absurd ((h b).2 (by simp)) (by simp)
  | cons a l₁ ih =>
    cases l₂ with
    | nil => exact absurd ((h a).1 (by simp)) (by simp)
    | cons b l₂ =>
      rw [List.pairwise_cons] at h₁ h₂
      have hab : a = b := by
        rcases List.mem_cons.1 ((h a).1 (by simp)) with h3 | h3
        · exact h3
        · rcases List.mem_cons.1 ((h b).2 (by simp)) with h4 | h4
          · exact h4.symm
          · exact absurd (h₂.1 a h3) (not_lt.2 (h₁.1 b h4).le)
      subst hab
      congr 1
      refine ih h₁.2 h₂.2 fun c => ?_
      constructor
      · intro hc
        rcases List.mem_cons.1 ((h c).1 (List.mem_cons_of_mem _ hc)) with h3 | h3
        · exact absurd (h₁.1 c hc) (by rw [h3]; exact lt_irrefl _)
        · exact h3
      · intro hc
        rcases List.mem_cons.1 ((h c).2 (List.mem_cons_of_mem _ hc)) with h3 | h3
        · exact absurd (h₂.1 c hc) (by rw [h3]; exact lt_irrefl _)
        · exact h3

end Gear
