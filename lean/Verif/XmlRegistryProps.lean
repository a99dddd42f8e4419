/-
The registry of handlers: C73 and C101.
-/
import Verif.XmlRegistry
import Mathlib.Data.List.Induction
import Mathlib.Data.List.Nodup
import Mathlib.Data.List.Range

set_option autoImplicit false
set_option linter.unusedSectionVars false

namespace Gear.Xml.Registry

/-- The handlers handed over in a history. -/
def handed : List Op → List HandlerPtr
  | [] => []
  | .set _ (some h) :: rest => h :: handed rest
  | _ :: rest => handed rest

/-- Specification: the handler for a type after a history, oldest call first: the last one that is not null and was set for this
type, else the one of the constructor. -/
def current (type : String) (h : List Op) : Option HandlerPtr :=
  (h.reverse.findSome? fun
      | .set t (some p) => if t = type then some p else none
      | _ => none).or (standard.idxOf? type)

theorem handed_append (h₁ h₂ : List Op) : handed (h₁ ++ h₂) = handed h₁ ++ handed h₂ := by
  induction h₁ with
  | nil => rfl
  | cons o h ih =>
    cases o with
    | get t => exact ih
    | set t p =>
      cases p with
      | none => exact ih
      | some p => simp [handed, ih]

theorem run_append (h : List Op) (o : Op) : run (h ++ [o]) = run h >>= fun r => step r o := by
  unfold run
  rw [List.foldlM_append]
  congr 1
  funext r
  simp only [List.foldlM_cons, List.foldlM_nil]
  cases step r o <;> rfl

theorem current_append (type : String) (h : List Op) (o : Op) :
    current type (h ++ [o]) = match o with
      | .set t (some p) => if t = type then some p else current type h
      | _ => current type h := by
  unfold current
  rw [List.reverse_append]
  cases o with
  | get t => rfl
  | set t p =>
    cases p with
    | none => rfl
    | some p =>
      simp only [List.reverse_cons, List.reverse_nil, List.nil_append, List.cons_append, List.findSome?_cons]
      split_ifs <;> rfl

theorem find_new (type : String) : (new.map.find? type).getD none = standard.idxOf? type := by
  have : new.map = [("CalorimeterParameters", some 2), ("FTDParameters", some 4), ("GearParameters", some 0),
      ("SiPlanesParameters", some 6), ("TPCParameters", some 1), ("TrackerPlanesParameters", some 5),
      ("ZPlanarParameters", some 3)] := by decide +kernel
  rw [this]
  by_cases hm : type ∈ standard
  · revert hm
    unfold standard
    simp only [List.mem_cons, List.not_mem_nil, or_false]
    rintro (rfl | rfl | rfl | rfl | rfl | rfl | rfl) <;> decide +kernel
  · rw [List.idxOf?_eq_none_iff.2 hm, (SMap.find?_eq_none_iff _ _).2]
    · rfl
    · intro hk
      refine hm ?_
      simp only [SMap.keys, List.map_cons, List.map_nil] at hk
      simp only [standard]
      exact List.Perm.mem_iff (by decide +kernel) |>.1 hk

theorem delete_map {r r' : Registry} {p : Option HandlerPtr} (h : r.delete p = .ok r') : r'.map = r.map := by
  cases p with
  | none => cases h; rfl
  | some p =>
    simp only [delete] at h
    split_ifs at h
    cases h
    rfl

theorem find_run {h : List Op} {r : Registry} (hr : run h = .ok r) (type : String) :
    (r.map.find? type).getD none = current type h := by
  induction h using List.reverseRecOn generalizing r with
  | nil =>
    cases hr
    exact find_new type
  | append_singleton h o ih =>
    rw [run_append] at hr
    cases hp : run h with
    | throw e => rw [hp] at hr; cases hr
    | ub => rw [hp] at hr; cases hr
    | ok r₀ =>
      rw [hp, Res.bind_ok] at hr
      have ih := ih hp
      rw [current_append]
      cases o with
      | get t =>
        cases hr
        unfold getHandler
        cases hf : SMap.find? t r₀.map with
        | some p => exact ih
        | none =>
          show (SMap.find? type (SMap.set t none r₀.map)).getD none = _
          rw [SMap.find?_set]
          split_ifs with he
          · subst he; rw [hf] at ih; exact ih
          · exact ih
      | set t p =>
        cases p with
        | none => cases hr; exact ih
        | some p =>
          have fin : ∀ m, SMap.find? type m = SMap.find? type r₀.map →
              (SMap.find? type (SMap.set t (some p) m)).getD none = if t = type then some p else current type h := by
            intro m hm
            rw [SMap.find?_set]
            by_cases he : t = type
            · rw [if_pos he.symm, if_pos he]; rfl
            · rw [if_neg (Ne.symm he), if_neg he, hm]; exact ih
          simp only [step, setHandler] at hr
          cases hf : SMap.find? t r₀.map with
          | none => rw [hf] at hr; cases hr; exact fin _ rfl
          | some old =>
            rw [hf] at hr
            simp only at hr
            cases hd : r₀.delete old with
            | ok r₁ => rw [hd] at hr; cases hr; exact fin _ (by rw [delete_map hd])
            | throw e => rw [hd] at hr; cases hr
            | ub => rw [hd] at hr; cases hr

/-! ### C73 -/

/-- C73: after every history of calls, `getHandler` returns the handler set last for the type, or null if there is none. -/
theorem getHandler_last {h : List Op} {r : Registry} (hr : run h = .ok r) (type : String) :
    (r.getHandler type).1 = current type h := by
  rw [← find_run hr type]
  unfold getHandler
  cases SMap.find? type r.map <;> rfl

/-- C73: setting a null handler changes nothing. -/
theorem setHandler_null (r : Registry) (type : String) : r.setHandler type none = .ok r := rfl

example : current "TPCParameters" [.set "TPCParameters" (some 7), .get "X", .set "X" none] = some 7
    ∧ current "X" [.set "TPCParameters" (some 7), .get "X", .set "X" none] = none
    ∧ current "FTDParameters" [.set "TPCParameters" (some 7)] = some 4 := by decide +kernel

/-! ### C101 -/

/-- The handlers held. -/
def held (m : SMap String (Option HandlerPtr)) : List HandlerPtr := m.filterMap Prod.snd

theorem held_set_none {m : SMap String (Option HandlerPtr)} {t : String} {p : Option HandlerPtr} (h : SMap.find? t m = none) :
    (held (SMap.set t p m)).Perm (p.toList ++ held m) := by
  induction m with
  | nil => cases p <;> exact List.Perm.refl _
  | cons e m ih =>
    obtain ⟨k, v⟩ := e
    rw [SMap.find?] at h
    split_ifs at h with hk
    unfold SMap.set
    rw [if_neg (Ne.symm hk)]
    split_ifs with hl
    · cases p <;> exact List.Perm.refl _
    · cases v with
      | none => exact ih h
      | some v =>
        show (v :: held (SMap.set t p m)).Perm (p.toList ++ v :: held m)
        exact ((ih h).cons v).trans (List.perm_middle.symm)

theorem held_set_some {m : SMap String (Option HandlerPtr)} (hs : SMap.Sorted m) {t : String} {p old : Option HandlerPtr}
    (h : SMap.find? t m = some old) : (old.toList ++ held (SMap.set t p m)).Perm (p.toList ++ held m) := by
  induction m with
  | nil => cases h
  | cons e m ih =>
    obtain ⟨k, v⟩ := e
    have hs' : (∀ a ∈ SMap.keys m, k < a) ∧ SMap.Sorted m := by simpa [SMap.Sorted, SMap.keys] using hs
    rw [SMap.find?] at h
    unfold SMap.set
    split_ifs at h with hk
    · cases h
      subst hk
      rw [if_pos rfl]
      cases p <;> cases old
      · exact List.Perm.refl _
      · exact List.Perm.refl _
      · exact List.Perm.refl _
      · exact List.Perm.swap ..
    · rw [if_neg (Ne.symm hk)]
      have hm : t ∈ SMap.keys m := (SMap.find?_isSome_iff t m).1 (by rw [h]; rfl)
      rw [if_neg (lt_asymm (hs'.1 t hm))]
      cases v with
      | none => exact ih hs'.2 h
      | some v =>
        have := ih hs'.2 h
        show (old.toList ++ v :: held (SMap.set t p m)).Perm (p.toList ++ v :: held m)
        exact List.perm_middle.trans ((this.cons v).trans List.perm_middle.symm)

/-- The handlers deleted and held are those made by the constructor and those handed over. -/
theorem ownership {h : List Op} (hd : (handed h).Nodup) (hf : ∀ p ∈ handed h, 7 ≤ p) :
    ∃ r, run h = .ok r ∧ SMap.Sorted r.map ∧ (r.deleted ++ held r.map).Perm (List.range 7 ++ handed h) := by
  induction h using List.reverseRecOn with
  | nil => exact ⟨new, rfl, by unfold SMap.Sorted; decide +kernel, by decide +kernel⟩
  | append_singleton h o ih =>
    rw [handed_append] at hd hf
    obtain ⟨r, hr, hs, hp⟩ := ih (List.Nodup.of_append_left hd) fun p hp => hf p (by simp [hp])
    rw [run_append, hr, Res.bind_ok]
    have allnd : (r.deleted ++ held r.map).Nodup := by
      refine hp.nodup_iff.2 (List.nodup_append.2 ⟨List.nodup_range, List.Nodup.of_append_left hd, ?_⟩)
      intro a ha b hb hab
      have := hf b (by simp [hb])
      rw [List.mem_range] at ha
      subst hab
      exact absurd ha (Nat.not_lt.2 this)
    cases o with
    | get t =>
      have hh : handed (h ++ [.get t]) = handed h := by rw [handed_append]; exact List.append_nil _
      rw [hh]
      simp only [step, getHandler]
      cases hfi : SMap.find? t r.map with
      | some p => exact ⟨r, rfl, hs, hp⟩
      | none =>
        refine ⟨_, rfl, SMap.sorted_set hs _ _, ?_⟩
        exact ((held_set_none (p := none) hfi).append_left _).trans hp
    | set t p =>
      cases p with
      | none =>
        have hh : handed (h ++ [.set t none]) = handed h := by rw [handed_append]; exact List.append_nil _
        rw [hh]
        exact ⟨r, rfl, hs, hp⟩
      | some p =>
        have hh : handed (h ++ [.set t (some p)]) = handed h ++ [p] := by rw [handed_append]; rfl
        rw [hh]
        have tail : ∀ l : List HandlerPtr, l.Perm (p :: (r.deleted ++ held r.map)) → l.Perm (List.range 7 ++ (handed h ++ [p])) := by
          intro l hl
          refine hl.trans ((hp.cons p).trans ?_)
          rw [← List.append_assoc]
          exact (List.perm_append_singleton p _).symm
        simp only [step, setHandler]
        cases hfi : SMap.find? t r.map with
        | none =>
          refine ⟨_, rfl, SMap.sorted_set hs _ _, tail _ ?_⟩
          refine ((held_set_none (p := some p) hfi).append_left _).trans ?_
          exact List.perm_middle
        | some old =>
          cases old with
          | none =>
            refine ⟨_, rfl, SMap.sorted_set hs _ _, tail _ ?_⟩
            refine ((held_set_some hs (p := some p) hfi).append_left _).trans ?_
            exact List.perm_middle
          | some q =>
            have hq : q ∈ held r.map :=
              List.mem_filterMap.2 ⟨_, SMap.mem_of_find?_eq_some hfi, rfl⟩
            have hqd : q ∉ r.deleted := fun hqd => (List.nodup_append.1 allnd).2.2 q hqd q hq rfl
            simp only [delete, if_neg hqd, Res.bind_ok]
            refine ⟨_, rfl, SMap.sorted_set hs _ _, tail _ ?_⟩
            have := held_set_some hs (p := some p) hfi
            show ((r.deleted ++ [q]) ++ held (SMap.set t (some p) r.map)).Perm _
            rw [List.append_assoc]
            exact (this.append_left _).trans List.perm_middle

theorem foldl_delete : ∀ (l : List (String × Option HandlerPtr)) (r : Registry), (r.deleted ++ held l).Nodup →
    ∃ r', l.foldlM (fun r e => r.delete e.2) r = .ok r' ∧ r'.deleted = r.deleted ++ held l
  | [], r, _ => ⟨r, rfl, by simp [held]⟩
  | (k, none) :: l, r, h => by
    obtain ⟨r', h1, h2⟩ := foldl_delete l r h
    exact ⟨r', h1, h2⟩
  | (k, some p) :: l, r, h => by
    have hh : held ((k, some p) :: l) = p :: held l := rfl
    rw [hh] at h
    have hp : p ∉ r.deleted := fun hm => (List.nodup_append.1 h).2.2 p hm p (by simp) rfl
    obtain ⟨r', h1, h2⟩ := foldl_delete l { r with deleted := r.deleted ++ [p] } (by simpa using h)
    refine ⟨r', ?_, by rw [h2, hh]; simp⟩
    rw [List.foldlM_cons]
    simp only [delete, if_neg hp, Res.bind_ok]
    exact h1

/-- C101, for callers that hand over each handler once (objects other than those of the constructor): no handler is deleted
twice, a handler returned has not been deleted, and after the destructor every handler has been deleted exactly once. -/
theorem ownership_partial {h : List Op} (hd : (handed h).Nodup) (hf : ∀ p ∈ handed h, 7 ≤ p) :
    ∃ r, run h = .ok r ∧ (∀ type p, (r.getHandler type).1 = some p → p ∉ r.deleted)
      ∧ ∃ r', r.destroy = .ok r' ∧ r'.deleted.Perm (List.range 7 ++ handed h) := by
  obtain ⟨r, h1, -, h3⟩ := ownership hd hf
  have allnd : (r.deleted ++ held r.map).Nodup := by
    refine h3.nodup_iff.2 (List.nodup_append.2 ⟨List.nodup_range, hd, ?_⟩)
    intro a ha b hb hab
    have := hf b hb
    rw [List.mem_range] at ha
    subst hab
    exact absurd ha (Nat.not_lt.2 this)
  refine ⟨r, h1, ?_, ?_⟩
  · intro type p hp hdel
    unfold getHandler at hp
    cases hfi : SMap.find? type r.map with
    | none => rw [hfi] at hp; cases hp
    | some q =>
      rw [hfi] at hp
      simp only at hp
      subst hp
      exact (List.nodup_append.1 allnd).2.2 p hdel p (List.mem_filterMap.2 ⟨_, SMap.mem_of_find?_eq_some hfi, rfl⟩) rfl
  · obtain ⟨r', h4, h5⟩ := foldl_delete r.map r allnd
    exact ⟨r', h4, h5 ▸ h3⟩

example : (handed [.set "A" (some 7), .get "B", .set "A" (some 8)]).Nodup
    ∧ ∀ p ∈ handed [.set "A" (some 7), .get "B", .set "A" (some 8)], 7 ≤ p := by decide

/-- C101 is false without this restriction: setting the handler that is already set deletes it, and it is then returned; setting
one handler for two types deletes it twice. -/
theorem ownership_false :
    (∃ r, run [.set "A" (some 7), .set "A" (some 7)] = .ok r ∧ (r.getHandler "A").1 = some 7 ∧ 7 ∈ r.deleted)
    ∧ (∃ r, run [.set "A" (some 7), .set "B" (some 7)] = .ok r ∧ r.destroy = .ub) := by
  refine ⟨⟨_, rfl, ?_, ?_⟩, ⟨_, rfl, ?_⟩⟩ <;> decide +kernel

end Gear.Xml.Registry
