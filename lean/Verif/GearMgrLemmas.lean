/-
Helper lemmas for the manager.
-/
import Verif.GearMgrSpec
import Verif.ParamsProps
import Mathlib.Data.List.Induction
import Mathlib.Data.List.Perm.Basic
import Mathlib.Data.List.Perm.Lattice
import Mathlib.Logic.Function.Basic

namespace Gear

theorem SMap.vals_set_none {κ α : Type _} [LinearOrder κ] {m : SMap κ α} {k : κ} (v : α)
    (h : SMap.find? k m = none) :
    ((SMap.set k v m).map Prod.snd).Perm (v :: m.map Prod.snd) := by
  induction m with
  | nil => simp [SMap.set]
  | cons e m ih =>
    obtain ⟨k', v'⟩ := e
    simp only [SMap.find?] at h
    split_ifs at h with h1
    unfold SMap.set
    split_ifs with h2 h3
    · exact absurd h2.symm h1
    · simp
    · simp only [List.map_cons]
      exact ((ih h).cons v').trans (List.Perm.swap v v' _)

theorem SMap.vals_set_some {κ α : Type _} [LinearOrder κ] {m : SMap κ α} (hs : SMap.Sorted m)
    {k : κ} {old : α} (v : α) (h : SMap.find? k m = some old) :
    (((SMap.set k v m).map Prod.snd) ++ [old]).Perm (v :: m.map Prod.snd) := by
  induction m with
  | nil => simp at h
  | cons e m ih =>
    obtain ⟨k', v'⟩ := e
    have hm' : (∀ a ∈ SMap.keys m, k' < a) ∧ SMap.Sorted m := by
      simpa [SMap.Sorted, SMap.keys] using hs
    simp only [SMap.find?] at h
    unfold SMap.set
    split_ifs at h with h1
    · subst h1; cases h
      simp only [if_true, List.map_cons]
      exact (List.perm_append_comm).trans (List.Perm.swap v old _)
    · have hk : k ∈ SMap.keys m := by
        rw [← SMap.find?_isSome_iff, h]; rfl
      have hlt := hm'.1 k hk
      rw [if_neg (fun h2 => h1 h2.symm), if_neg (not_lt.2 hlt.le)]
      simp only [List.map_cons, List.cons_append]
      exact ((ih hm'.2 h).cons v').trans (List.Perm.swap v v' _)

theorem filterMap_update_perm {ι : Type _} [DecidableEq ι] {α : Type _} (L : List ι) (hL : L.Nodup)
    (f : ι → Option α) (s : ι) (hs : s ∈ L) (v : Option α) :
    (L.filterMap (Function.update f s v) ++ (f s).toList).Perm (v.toList ++ L.filterMap f) := by
  induction L with
  | nil => simp at hs
  | cons a L ih =>
    rw [List.nodup_cons] at hL
    by_cases ha : a = s
    · subst ha
      have hrest : L.filterMap (Function.update f a v) = L.filterMap f := by
        apply List.filterMap_congr
        intro b hb
        have : b ≠ a := fun h => hL.1 (h ▸ hb)
        simp [this]
      rw [List.filterMap_cons, List.filterMap_cons, Function.update_self, hrest]
      cases v with
      | none =>
        cases hf : f a with
        | none => simp
        | some b => simp
      | some c =>
        cases hf : f a with
        | none => simp
        | some b => simp
    · have hs' : s ∈ L := by
        rcases List.mem_cons.1 hs with h | h
        · exact absurd h.symm ha
        · exact h
      have := ih hL.2 hs'
      rw [List.filterMap_cons, List.filterMap_cons, Function.update_of_ne ha]
      cases hf : f a with
      | none => simpa using this
      | some b =>
        simp only [List.cons_append]
        exact (this.cons b).trans List.perm_middle.symm

namespace Section

theorem mem_cleanupOrder (s : Section) : s ∈ cleanupOrder := by cases s <;> decide

theorem nodup_cleanupOrder : cleanupOrder.Nodup := by decide

end Section

namespace Mgr

variable {D : Type} [Zero D]

theorem run_append (w : Mgr D) (h : List Op) (o : Op) :
    run w (h ++ [o]) = (run w h).bind fun w' =>
      match w'.call o with
      | .ok w'' => some w''
      | .throw _ => some w'
      | .ub => none := by
  induction h generalizing w with
  | nil =>
    simp only [List.nil_append, run, Option.bind_some]
    cases w.call o <;> rfl
  | cons a h ih =>
    simp only [List.cons_append, run]
    cases w.call a <;> simp [ih]

theorem leaks_append (mn : Ptr → String) (past h : List Op) (o : Op) :
    leaks mn past (h ++ [o]) = leaks mn past h ++ leakNow mn (past ++ h) o := by
  induction h generalizing past with
  | nil => simp [leaks]
  | cons a h ih => simp [leaks, ih]

theorem handed_append (h₁ h₂ : List Op) : handed (h₁ ++ h₂) = handed h₁ ++ handed h₂ := by
  induction h₁ with
  | nil => rfl
  | cons a h ih => cases a <;> simp [handed, ih]

/-- What is known about the manager state after a history. -/
structure Inv (obj : Ptr → Params D) (mn : Ptr → String) (h : List Op) (w : Mgr D) : Prop where
  slot : ∀ s, w.slot s = (lastSet s h).getD none
  map : ∀ k, SMap.find? k w.map = lastGear k h
  mapSorted : SMap.Sorted w.map
  mats : ∀ n, SMap.find? n w.mats = firstMaterial mn n h
  matsSorted : SMap.Sorted w.mats
  name : w.detectorName = lastName h
  matName : w.matName = mn
  perm : (w.held ++ w.deleted ++ leaks mn [] h).Perm (handed h)

theorem lastSet_append_setSection (s s' : Section) (p : Option Ptr) (h : List Op) :
    lastSet s (h ++ [.setSection s' p]) = if s' = s then some p else lastSet s h := by
  simp only [lastSet, List.reverse_append, List.reverse_cons, List.reverse_nil, List.nil_append,
    List.singleton_append, List.findSome?_cons]
  split_ifs <;> rfl

theorem firstMaterial_append (mn : Ptr → String) (n : String) (p : Ptr) (h : List Op) :
    firstMaterial mn n (h ++ [.registerMaterial (some p)]) =
      (firstMaterial mn n h).or (if mn p = n then some p else none) := by
  simp only [firstMaterial, List.findSome?_append, List.findSome?_cons, List.findSome?_nil]
  cases List.findSome? _ h <;> simp
  split_ifs <;> rfl

theorem ensure_ok {w w' : Mgr D} {p : Option Ptr} (h : w.ensureCrossingAngle p = .ok w') :
    w'.slot = w.slot ∧ w'.map = w.map ∧ w'.mats = w.mats ∧ w'.detectorName = w.detectorName ∧
      w'.matName = w.matName ∧ w'.deleted = w.deleted := by
  unfold ensureCrossingAngle at h
  cases p with
  | none => simp at h
  | some p =>
    simp only at h
    split_ifs at h
    split at h <;> simp at h <;> subst h <;> simp

theorem ensure_ne_throw {w : Mgr D} {p : Option Ptr} {e : Exn} :
    w.ensureCrossingAngle p ≠ .throw e := by
  unfold ensureCrossingAngle
  cases p with
  | none => simp
  | some p =>
    simp only
    split_ifs
    · simp
    · have : ∀ e, (w.obj p).getDoubleVal crossingAngle = .throw e →
          e = .unknownParameter crossingAngle := by
        intro e he
        unfold Params.getDoubleVal Params.lookup at he
        split at he <;> simp at he
        exact he.symm
      split
      · simp
      · simp
      · rename_i e' hne he'
        exact absurd (this _ he') (hne _)
      · simp

/-- The effect of a successful section setter. -/
theorem setSection_ok {w w' : Mgr D} {s : Section} {p : Option Ptr}
    (h : w.setSection s p = .ok w') :
    w'.slot = Function.update w.slot s p ∧ w'.map = w.map ∧ w'.mats = w.mats ∧
      w'.detectorName = w.detectorName ∧ w'.matName = w.matName ∧
      w'.deleted = w.deleted ++ (if s = .tpc then (w.slot s).toList else []) := by
  unfold setSection at h
  by_cases hs : s = .tpc
  · subst hs
    simp only [if_true, Section.forward, Bool.false_eq_true, if_false] at h
    cases hp : w.slot .tpc with
    | none =>
      simp only [hp, delete?, Res.bind_ok] at h
      cases h; simp
    | some q =>
      simp only [hp, delete?, delete] at h
      split_ifs at h
      · simp at h
      · simp only [Res.bind_ok] at h
        cases h; simp
  · simp only [hs, if_false, Res.bind_ok] at h
    cases hf : s.forward with
    | false =>
      simp only [hf, Bool.false_eq_true, if_false] at h
      cases h; simp [hs]
    | true =>
      simp only [hf, if_true] at h
      cases he : w.ensureCrossingAngle p with
      | ok w₁ =>
        rw [he] at h
        simp only [Res.bind_ok] at h
        obtain ⟨h1, h2, h3, h4, h5, h6⟩ := ensure_ok he
        cases h; simp [h1, h2, h3, h4, h5, h6, hs]
      | throw e => rw [he] at h; simp at h
      | ub => rw [he] at h; simp at h

theorem setSection_ne_throw {w : Mgr D} {s : Section} {p : Option Ptr} {e : Exn} :
    w.setSection s p ≠ .throw e := by
  unfold setSection
  by_cases hs : s = .tpc
  · subst hs
    simp only [if_true, Section.forward, Bool.false_eq_true, if_false]
    cases hp : w.slot .tpc with
    | none => simp [delete?]
    | some q =>
      simp only [delete?, delete]
      split_ifs <;> simp
  · simp only [hs, if_false, Res.bind_ok]
    cases hf : s.forward with
    | false => simp
    | true =>
      simp only [if_true]
      cases he : w.ensureCrossingAngle p with
      | ok w₁ => simp
      | throw e => exact absurd he ensure_ne_throw
      | ub => simp

omit [Zero D] in
theorem setGear_ok {w w' : Mgr D} {k : String} {p : Ptr} (h : w.setGear k (some p) = .ok w') :
    w'.slot = w.slot ∧ w'.map = w.map.set k p ∧ w'.mats = w.mats ∧
      w'.detectorName = w.detectorName ∧ w'.matName = w.matName ∧
      w'.deleted = w.deleted ++ (w.map.find? k).toList := by
  unfold setGear at h
  cases hf : w.map.find? k with
  | none => simp only [hf] at h; cases h; simp
  | some old =>
    simp only [hf, delete] at h
    split_ifs at h
    · simp at h
    · simp only [Res.bind_ok] at h
      cases h; simp

omit [Zero D] in
theorem inv_init (obj : Ptr → Params D) (mn : Ptr → String) : Inv obj mn [] (init obj mn) where
  slot _ := rfl
  map _ := rfl
  mapSorted := SMap.sorted_nil
  mats _ := rfl
  matsSorted := SMap.sorted_nil
  name := rfl
  matName := rfl
  perm := by
    have : Section.cleanupOrder.filterMap (fun _ => (none : Option Ptr)) = [] := by
      simp
    simp [init, held, leaks, handed]

theorem perm_aux1 {a b c d e f x y : List Ptr} (h1 : (a ++ x).Perm (y ++ b))
    (h2 : ((b ++ c ++ d) ++ e ++ f).Perm z) :
    ((a ++ c ++ d) ++ (e ++ x) ++ f).Perm (z ++ y) := by
  rw [List.perm_iff_count] at *
  intro q
  have := h1 q; have := h2 q
  simp only [List.count_append] at *
  omega

theorem perm_aux2 {a b c d e f x y : List Ptr} (h1 : (a ++ x).Perm (y ++ b))
    (h2 : ((b ++ c ++ d) ++ e ++ f).Perm z) :
    ((a ++ c ++ d) ++ e ++ (f ++ x)).Perm (z ++ y) := by
  rw [List.perm_iff_count] at *
  intro q
  have := h1 q; have := h2 q
  simp only [List.count_append] at *
  omega

theorem inv_step {obj : Ptr → Params D} {mn : Ptr → String} {h : List Op} {w : Mgr D}
    (hi : Inv obj mn h w) (o : Op) :
    (∀ w', w.call o = .ok w' → Inv obj mn (h ++ [o]) w') ∧
    (∀ e, w.call o = .throw e → Inv obj mn (h ++ [o]) w) := by
  obtain rfl := hi.matName
  have hlast : ∀ {α} (f : Op → Option α), (h ++ [o]).reverse.findSome? f =
      (f o).or (h.reverse.findSome? f) := by
    intro α f; simp [List.findSome?_cons]; cases f o <;> rfl
  have hfirst : ∀ {α} (f : Op → Option α), f o = none → (h ++ [o]).findSome? f =
      h.findSome? f := by
    intro α f hf; simp [List.findSome?_append, hf]
  cases o with
  | setSection s p =>
    refine ⟨fun w' hw => ?_, fun e he => absurd he setSection_ne_throw⟩
    obtain ⟨h1, h2, h3, h4, h5, h6⟩ := setSection_ok hw
    refine ⟨?_, ?_, h2 ▸ hi.mapSorted, ?_, h3 ▸ hi.matsSorted, ?_, h5.trans hi.matName, ?_⟩
    · intro s'
      rw [h1, lastSet_append_setSection]
      by_cases hs : s = s'
      · subst hs; simp
      · rw [Function.update_of_ne (Ne.symm hs), if_neg hs]; exact hi.slot s'
    · intro k; rw [h2, hi.map]; simp only [lastGear]; rw [hlast]; rfl
    · intro n; rw [h3, hi.mats]; simp only [firstMaterial]; rw [hfirst _ rfl]
    · rw [h4, hi.name]; simp only [lastName]; rw [hlast]; rfl
    · have hp := filterMap_update_perm Section.cleanupOrder Section.nodup_cleanupOrder w.slot s
        (Section.mem_cleanupOrder s) p
      have hperm := hi.perm
      rw [leaks_append, handed_append]
      simp only [held, h1, h2, h3, h6, leakNow, List.nil_append, handed, List.append_nil] at hperm ⊢
      by_cases hs : s = .tpc
      · subst hs
        simp only [if_true, List.append_nil]
        exact perm_aux1 hp hperm
      · simp only [hs, if_false, List.append_nil, ← hi.slot]
        exact perm_aux2 hp hperm
  | setGear k p =>
    cases p with
    | none =>
      refine ⟨fun w' hw => ?_, fun e he => by simp [call, setGear] at he⟩
      simp only [call, setGear] at hw
      cases hw
      refine ⟨?_, ?_, hi.mapSorted, ?_, hi.matsSorted, ?_, hi.matName, ?_⟩
      · intro s; rw [hi.slot]; simp only [lastSet]; rw [hlast]; rfl
      · intro k'; rw [hi.map]; simp only [lastGear]; rw [hlast]; simp
      · intro n; rw [hi.mats]; simp only [firstMaterial]; rw [hfirst _ rfl]
      · rw [hi.name]; simp only [lastName]; rw [hlast]; rfl
      · rw [leaks_append, handed_append]; simpa [leakNow, handed] using hi.perm
    | some p =>
      refine ⟨fun w' hw => ?_, fun e he => ?_⟩
      · obtain ⟨h1, h2, h3, h4, h5, h6⟩ := setGear_ok hw
        refine ⟨?_, ?_, h2 ▸ SMap.sorted_set hi.mapSorted _ _, ?_, h3 ▸ hi.matsSorted, ?_,
          h5.trans hi.matName, ?_⟩
        · intro s; rw [h1, hi.slot]; simp only [lastSet]; rw [hlast]; rfl
        · intro k'; rw [h2, SMap.find?_set, hi.map]; simp only [lastGear]; rw [hlast]
          by_cases hk : k' = k
          · subst hk; simp
          · simp [hk, Ne.symm hk]
        · intro n; rw [h3, hi.mats]; simp only [firstMaterial]; rw [hfirst _ rfl]
        · rw [h4, hi.name]; simp only [lastName]; rw [hlast]; rfl
        · have hperm := hi.perm
          rw [leaks_append, handed_append]
          simp only [held, h1, h2, h3, h6, leakNow, handed, List.append_nil] at hperm ⊢
          generalize Section.cleanupOrder.filterMap w.slot = A at *
          rw [List.perm_iff_count] at hperm ⊢
          intro q
          have hq := hperm q
          cases hf : SMap.find? k w.map with
          | none =>
            have := (SMap.vals_set_none p hf).count_eq q
            simp only [List.count_append, List.count_cons, List.count_nil, Option.toList] at *
            omega
          | some old =>
            have := (SMap.vals_set_some hi.mapSorted p hf).count_eq q
            simp only [List.count_append, List.count_cons, List.count_nil, Option.toList] at *
            omega
      · simp only [call, setGear] at he
        split at he
        · simp only [delete] at he; split_ifs at he <;> simp at he
        · simp at he
  | registerMaterial p =>
    cases p with
    | none => simp [call, registerMaterial]
    | some p =>
      simp only [call, registerMaterial]
      have hm := hi.mats (w.matName p)
      cases hf : SMap.find? (w.matName p) w.mats with
      | some q =>
        refine ⟨fun w' hw => by simp at hw, fun e _ => ?_⟩
        refine ⟨?_, ?_, hi.mapSorted, ?_, hi.matsSorted, ?_, hi.matName, ?_⟩
        · intro s; rw [hi.slot]; simp only [lastSet]; rw [hlast]; rfl
        · intro k'; rw [hi.map]; simp only [lastGear]; rw [hlast]; simp
        · intro n
          rw [firstMaterial_append, hi.mats]
          by_cases hn : w.matName p = n
          · have : firstMaterial w.matName n h = some q := by
              rw [← hn, ← hf, hm]
            simp [this]
          · simp [hn]
        · rw [hi.name]; simp only [lastName]; rw [hlast]; rfl
        · rw [leaks_append, handed_append]
          have hl : (firstMaterial w.matName (w.matName p) h).isSome := by
            rw [← hm, hf]; rfl
          have hperm := hi.perm
          simp only [leakNow, List.nil_append, hl, if_true, handed, Option.toList, List.append_nil]
          rw [List.perm_iff_count] at hperm ⊢
          intro r
          have := hperm r
          simp only [List.count_append] at *
          omega
      | none =>
        refine ⟨fun w' hw => ?_, fun e he => by simp at he⟩
        simp only [Res.ok.injEq] at hw
        subst hw
        have hnone : firstMaterial w.matName (w.matName p) h = none := by
          rw [← hm, hf]
        refine ⟨?_, ?_, hi.mapSorted, ?_, SMap.sorted_set hi.matsSorted _ _, ?_, hi.matName, ?_⟩
        · intro s; rw [hi.slot]; simp only [lastSet]; rw [hlast]; rfl
        · intro k'; rw [hi.map]; simp only [lastGear]; rw [hlast]; simp
        · intro n
          simp only
          rw [firstMaterial_append, SMap.find?_set, hi.mats]
          by_cases hn : n = w.matName p
          · subst hn; simp [hnone]
          · simp [hn, Ne.symm hn]
        · rw [hi.name]; simp only [lastName]; rw [hlast]; rfl
        · rw [leaks_append, handed_append]
          have hperm := hi.perm
          have hv := SMap.vals_set_none p hf
          simp only [leakNow, List.nil_append, hnone, Option.isSome_none, Bool.false_eq_true,
            if_false, handed, Option.toList, List.append_nil, held] at hperm ⊢
          generalize Section.cleanupOrder.filterMap w.slot = A at *
          rw [List.perm_iff_count] at hperm ⊢
          intro r
          have := hperm r
          have := hv.count_eq r
          simp only [List.count_append, List.count_cons, List.count_nil] at *
          omega
  | setDetectorName n =>
    refine ⟨fun w' hw => ?_, fun e he => by simp [call] at he⟩
    simp only [call, setDetectorName] at hw
    cases hw
    refine ⟨?_, ?_, hi.mapSorted, ?_, hi.matsSorted, ?_, hi.matName, ?_⟩
    · intro s; simp only; rw [hi.slot]; simp only [lastSet]; rw [hlast]; rfl
    · intro k'; simp only; rw [hi.map]; simp only [lastGear]; rw [hlast]; simp
    · intro n; simp only; rw [hi.mats]; simp only [firstMaterial]; rw [hfirst _ rfl]
    · simp only [lastName]; rw [hlast]; rfl
    · rw [leaks_append, handed_append]; simpa [leakNow, handed, held] using hi.perm

theorem inv_run {obj : Ptr → Params D} {mn : Ptr → String} (h : List Op) :
    ∀ {w : Mgr D}, run (init obj mn) h = some w → Inv obj mn h w := by
  induction h using List.reverseRecOn with
  | nil => intro w hw; cases hw; exact inv_init obj mn
  | append_singleton h o ih =>
    intro w hw
    rw [run_append] at hw
    cases hr : run (init obj mn) h with
    | none => rw [hr] at hw; simp at hw
    | some w₁ =>
      rw [hr, Option.bind_some] at hw
      have hs := inv_step (ih hr) o
      cases hc : w₁.call o with
      | ok w₂ => rw [hc] at hw; cases hw; exact hs.1 _ hc
      | throw e => rw [hc] at hw; cases hw; exact hs.2 _ hc
      | ub => rw [hc] at hw; simp at hw

omit [Zero D] in
theorem deleteAll_ok (w : Mgr D) (l : List Ptr) (hl : (w.deleted ++ l).Nodup) :
    ∃ w', w.deleteAll l = .ok w' ∧ w'.deleted = w.deleted ++ l := by
  induction l generalizing w with
  | nil => exact ⟨w, rfl, by simp⟩
  | cons p l ih =>
    have hp : p ∉ w.deleted := by
      intro hp
      rw [List.nodup_append] at hl
      exact hl.2.2 p hp p (by simp) rfl
    simp only [deleteAll, delete, hp, if_false, Res.bind_ok]
    obtain ⟨w', h1, h2⟩ := ih { w with deleted := w.deleted ++ [p] } (by simpa using hl)
    exact ⟨w', h1, by simp [h2]⟩

theorem ne_ub_step {obj : Ptr → Params D} {mn : Ptr → String} {h : List Op} {w : Mgr D}
    (hi : Inv obj mn h w) (o : Op) (hn : NoNull (h ++ [o])) (hnd : (handed (h ++ [o])).Nodup) :
    w.call o ≠ .ub := by
  have hperm := hi.perm
  rw [handed_append] at hnd
  have hnd1 : (handed h).Nodup := (List.nodup_append.1 hnd).1
  have hnd2 := hperm.nodup_iff.2 hnd1
  have hfresh : ∀ p, p ∈ handed [o] → p ∉ w.deleted := by
    intro p hp hd
    have : p ∈ handed h := hperm.subset (by simp [hd])
    exact (List.nodup_append.1 hnd).2.2 p this p hp rfl
  have hheld : ∀ p, p ∈ w.held → p ∉ w.deleted := by
    intro p hp hd
    rw [List.append_assoc, List.nodup_append] at hnd2
    exact hnd2.2.2 p hp p (by simp [hd]) rfl
  cases o with
  | setSection s p =>
    simp only [call, setSection]
    by_cases hs : s = .tpc
    · subst hs
      simp only [if_true, Section.forward, Bool.false_eq_true, if_false]
      cases hp : w.slot .tpc with
      | none => simp [delete?]
      | some q =>
        have hq : q ∉ w.deleted := by
          apply hheld
          simp only [held, List.mem_append, List.mem_filterMap]
          exact Or.inl (Or.inl ⟨.tpc, Section.mem_cleanupOrder _, hp⟩)
        simp [delete?, delete, hq]
    · simp only [hs, if_false, Res.bind_ok]
      cases hf : s.forward with
      | false => simp
      | true =>
        simp only [if_true]
        cases p with
        | none => exact absurd (by simp) (hn.1 s hf)
        | some p =>
          have hd : p ∉ w.deleted := hfresh p (by simp [handed])
          intro hub
          cases he : w.ensureCrossingAngle (some p) with
          | ok w' => rw [he] at hub; simp at hub
          | throw e => rw [he] at hub; simp at hub
          | ub =>
            simp only [ensureCrossingAngle, hd, if_false] at he
            split at he <;> simp at he
            rename_i hg
            unfold Params.getDoubleVal Params.lookup at hg
            split at hg <;> simp at hg
  | setGear k p =>
    cases p with
    | none => simp [call, setGear]
    | some p =>
      simp only [call, setGear]
      cases hf : SMap.find? k w.map with
      | none => simp
      | some q =>
        have hq : q ∉ w.deleted := by
          apply hheld
          simp only [held, List.mem_append, List.mem_map]
          exact Or.inl (Or.inr ⟨_, SMap.mem_of_find?_eq_some hf, rfl⟩)
        simp [delete, hq]
  | registerMaterial p =>
    cases p with
    | none => exact absurd (by simp) hn.2
    | some p =>
      simp only [call, registerMaterial]
      split <;> simp
  | setDetectorName n => simp [call]

theorem NoNull.of_append {h₁ h₂ : List Op} (h : NoNull (h₁ ++ h₂)) : NoNull h₁ :=
  ⟨fun s hs hm => h.1 s hs (List.mem_append_left _ hm), fun hm => h.2 (List.mem_append_left _ hm)⟩

theorem run_isSome (obj : Ptr → Params D) (mn : Ptr → String) (h : List Op) (hn : NoNull h)
    (hnd : (handed h).Nodup) : ∃ w, run (init obj mn) h = some w := by
  induction h using List.reverseRecOn with
  | nil => exact ⟨_, rfl⟩
  | append_singleton h o ih =>
    have hnd' := hnd
    rw [handed_append] at hnd'
    obtain ⟨w, hw⟩ := ih hn.of_append (List.nodup_append.1 hnd').1
    have := ne_ub_step (inv_run h hw) o hn hnd
    rw [run_append, hw, Option.bind_some]
    cases hc : w.call o with
    | ok w' => exact ⟨w', rfl⟩
    | throw e => exact ⟨w, rfl⟩
    | ub => exact absurd hc this

end Mgr
end Gear
