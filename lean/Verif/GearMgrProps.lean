/-
Properties C03 - C07: the manager.
-/
import Verif.GearMgrLemmas

namespace Gear.Mgr

variable {D : Type} [Zero D]

/-! ### C03: section getters return the last object set, or throw -/

/-- What a getter must answer, given the pointer that is expected. -/
def expect : Option Ptr → Res Ptr
  | some p => .ok p
  | none => .throw (.unknownParameter "")

/-- C03: after any history without undefined behaviour, the getter of every section returns the
object passed to the last call of this section's setter, and throws if that was null or there was no
such call. Calls for other sections do not matter. -/
theorem getSection_run {obj : Ptr → Params D} {mn : Ptr → String} {h : List Op} {w : Mgr D}
    (hr : run (init obj mn) h = some w) (s : Section) :
    w.getSection s = expect ((lastSet s h).getD none) := by
  rw [← (inv_run h hr).slot s]
  unfold getSection expect
  cases w.slot s <;> rfl

/-- C03, detector name: the getter returns the name set last and throws if none (or the empty name)
was set. -/
theorem getDetectorName_run {obj : Ptr → Params D} {mn : Ptr → String} {h : List Op} {w : Mgr D}
    (hr : run (init obj mn) h = some w) :
    w.getDetectorName = if lastName h = "" then .throw (.unknownParameter "") else .ok (lastName h) := by
  unfold getDetectorName
  rw [(inv_run h hr).name]
  by_cases hn : lastName h = "" <;> simp [hn]

/-- C03: histories that pass every object once and no null to the forward calorimeter setters run
without undefined behaviour, so the two theorems above apply to them. -/
theorem run_defined (obj : Ptr → Params D) (mn : Ptr → String) (h : List Op) (hn : NoNull h)
    (hnd : (handed h).Nodup) : ∃ w, run (init obj mn) h = some w :=
  run_isSome obj mn h hn hnd

/-- A history with a replaced TPC, an overwritten ECAL, materials and generic parameters. -/
def demo : List Op :=
  [.setSection .tpc (some 1), .setSection .ecalBarrel (some 2), .setSection .lcal (some 3),
   .setGear "a" (some 4), .setSection .tpc (some 5), .setSection .ecalBarrel (some 6),
   .setGear "a" (some 7), .setGear "a" none, .registerMaterial (some 8),
   .registerMaterial (some 9), .setDetectorName "det"]

theorem demo_ok : NoNull demo ∧ (handed demo).Nodup := by
  refine ⟨⟨fun s hs => ?_, by decide⟩, by decide⟩
  cases s <;> simp [Section.forward, demo] at hs ⊢

example : ∃ w, run (init (fun _ => ({} : Params Int)) (fun _ => "Si")) demo = some w ∧
    w.getSection .ecalBarrel = .ok 6 ∧ w.getSection .tpc = .ok 5 ∧
    w.getSection .hcalRing = .throw (.unknownParameter "") ∧ w.getDetectorName = .ok "det" := by
  obtain ⟨w, hw⟩ := run_defined (fun _ => ({} : Params Int)) (fun _ => "Si") demo demo_ok.1 demo_ok.2
  refine ⟨w, hw, ?_, ?_, ?_, ?_⟩
  · rw [getSection_run hw]; simp [demo, lastSet, expect]
  · rw [getSection_run hw]; simp [demo, lastSet, expect]
  · rw [getSection_run hw]; simp [demo, lastSet, expect]
  · rw [getDetectorName_run hw]; simp [demo, lastName]

/-! ### C04: generic parameter collections -/

/-- C04: `getGearParameters(k)` returns the last non-null collection registered under `k`, and throws
if there is none. -/
theorem getGear_run {obj : Ptr → Params D} {mn : Ptr → String} {h : List Op} {w : Mgr D}
    (hr : run (init obj mn) h = some w) (k : String) :
    w.getGear k = expect (lastGear k h) := by
  unfold getGear
  rw [(inv_run h hr).map k]
  cases lastGear k h <;> rfl

/-- C04: the key listing is the sorted list of the keys with a collection. -/
theorem gearKeys_run {obj : Ptr → Params D} {mn : Ptr → String} {h : List Op} {w : Mgr D}
    (hr : run (init obj mn) h = some w) :
    Params.IsListing (fun k => (lastGear k h).isSome) w.gearKeys := by
  have hi := inv_run h hr
  refine ⟨?_, fun k => ?_⟩
  · simp only [gearKeys, Params.refill_eq]; exact hi.mapSorted
  · simp only [gearKeys, Params.refill_eq]
    rw [← SMap.find?_isSome_iff, hi.map]

example : lastGear "a" demo = some 7 := by decide

/-! ### C05: beam crossing angle of the forward calorimeters -/

/-- C05: a successful `setLcalParameters` / `setLHcalParameters` / `setBeamCalParameters` stores the
object; afterwards the object has a double parameter `beam_crossing_angle` with its previous value, or
0 if it had none. Every other parameter of the object, and every other object, is unchanged. -/
theorem forward_crossingAngle {w w' : Mgr D} {s : Section} {p : Ptr} (hs : s.forward = true)
    (h : w.setSection s (some p) = .ok w') :
    w'.getSection s = .ok p ∧
    (w'.obj p).getDoubleVal "beam_crossing_angle" =
      (match (w.obj p).getDoubleVal "beam_crossing_angle" with
       | .ok v => .ok v
       | _ => .ok 0) ∧
    (∀ k, k ≠ "beam_crossing_angle" → (w'.obj p).getDoubleVal k = (w.obj p).getDoubleVal k) ∧
    (∀ k, (w'.obj p).getIntVal k = (w.obj p).getIntVal k) ∧
    (∀ k, (w'.obj p).getStringVal k = (w.obj p).getStringVal k) ∧
    (∀ k, (w'.obj p).getIntVals k = (w.obj p).getIntVals k) ∧
    (∀ k, (w'.obj p).getDoubleVals k = (w.obj p).getDoubleVals k) ∧
    (∀ k, (w'.obj p).getStringVals k = (w.obj p).getStringVals k) ∧
    (∀ q, q ≠ p → w'.obj q = w.obj q) := by
  have hslot := (setSection_ok h).1
  have htpc : s ≠ .tpc := by rintro rfl; simp [Section.forward] at hs
  have hget : w'.getSection s = .ok p := by simp [getSection, hslot]
  simp only [setSection, htpc, if_false, hs, if_true, ensureCrossingAngle, Res.bind_ok] at h
  split_ifs at h with hd
  · simp at h
  · refine ⟨hget, ?_⟩
    cases hv : (w.obj p).getDoubleVal crossingAngle with
    | ok v =>
      rw [hv] at h
      simp only [Res.bind_ok] at h
      cases h
      simp only [crossingAngle] at hv
      simp [hv]
    | ub =>
      simp only [Params.getDoubleVal, Params.lookup] at hv
      split at hv <;> simp at hv
    | throw e =>
      have he : e = .unknownParameter crossingAngle := by
        simp only [Params.getDoubleVal, Params.lookup] at hv
        split at hv <;> simp at hv
        exact hv.symm
      subst he
      rw [hv] at h
      simp only [Res.bind_ok] at h
      cases h
      have hv' : (w.obj p).getDoubleVal "beam_crossing_angle" =
        .throw (.unknownParameter crossingAngle) := hv
      refine ⟨?_, ?_, ?_, ?_, ?_, ?_, ?_, ?_⟩
      · rw [hv']
        simp [Params.getDoubleVal, Params.setDoubleVal, Params.lookup_set, crossingAngle]
      · intro k hk
        simp [Params.getDoubleVal, Params.setDoubleVal, Params.lookup_set, crossingAngle, hk.symm]
      · intro k; simp [Params.getIntVal, Params.setDoubleVal]
      · intro k; simp [Params.getStringVal, Params.setDoubleVal]
      · intro k; simp [Params.getIntVals, Params.setDoubleVal]
      · intro k; simp [Params.getDoubleVals, Params.setDoubleVal]
      · intro k; simp [Params.getStringVals, Params.setDoubleVal]
      · intro q hq; simp [hq]

/-- C05: passing a live object to a forward calorimeter setter succeeds. -/
theorem forward_set_ok (w : Mgr D) {s : Section} {p : Ptr} (hs : s.forward = true)
    (hp : p ∉ w.deleted) : ∃ w', w.setSection s (some p) = .ok w' := by
  have htpc : s ≠ .tpc := by rintro rfl; simp [Section.forward] at hs
  simp only [setSection, htpc, if_false, hs, if_true, ensureCrossingAngle, hp, Res.bind_ok]
  cases hv : (w.obj p).getDoubleVal crossingAngle with
  | ok v => exact ⟨_, rfl⟩
  | ub =>
    simp only [Params.getDoubleVal, Params.lookup] at hv
    split at hv <;> simp at hv
  | throw e =>
    have he : e = .unknownParameter crossingAngle := by
      simp only [Params.getDoubleVal, Params.lookup] at hv
      split at hv <;> simp at hv
      exact hv.symm
    subst he
    exact ⟨_, rfl⟩

example : ∃ w', (init (fun _ => ({} : Params Int)) (fun _ => "")).setSection .lhcal (some 3) = .ok w' ∧
    (w'.obj 3).getDoubleVal "beam_crossing_angle" = .ok 0 := by
  obtain ⟨w', h⟩ := forward_set_ok (init (fun _ => ({} : Params Int)) (fun _ => "")) (s := .lhcal)
    (p := 3) rfl (by simp [init])
  refine ⟨w', h, ?_⟩
  rw [(forward_crossingAngle rfl h).2.1]; rfl

/-! ### C06: materials -/

/-- C06: registering a material succeeds iff no material of that name was registered before; when it
is rejected the exception is `gear::Exception`. -/
theorem registerMaterial_run {obj : Ptr → Params D} {mn : Ptr → String} {h : List Op} {w : Mgr D}
    (hr : run (init obj mn) h = some w) (p : Ptr) :
    (firstMaterial mn (mn p) h = none → ∃ w', w.call (.registerMaterial (some p)) = .ok w') ∧
    ((firstMaterial mn (mn p) h).isSome → w.call (.registerMaterial (some p)) = .throw .gear) := by
  have hi := inv_run h hr
  have hm := hi.mats (mn p)
  simp only [call, registerMaterial]
  rw [hi.matName]
  constructor
  · intro hn; rw [hm, hn]; exact ⟨_, rfl⟩
  · intro hn
    obtain ⟨q, hq⟩ := Option.isSome_iff_exists.1 hn
    rw [hm, hq]

/-- C06: after any history a lookup returns the first material registered under that name and throws
if there is none; in particular a rejected registration changes no lookup. -/
theorem getMaterial_run {obj : Ptr → Params D} {mn : Ptr → String} {h : List Op} {w : Mgr D}
    (hr : run (init obj mn) h = some w) (n : String) :
    w.getMaterial n = expect (firstMaterial mn n h) := by
  unfold getMaterial
  rw [(inv_run h hr).mats n]
  cases firstMaterial mn n h <;> rfl

/-- C06: the list of material names is the sorted list of the registered names. -/
theorem materialNames_run {obj : Ptr → Params D} {mn : Ptr → String} {h : List Op} {w : Mgr D}
    (hr : run (init obj mn) h = some w) :
    Params.IsListing (fun n => (firstMaterial mn n h).isSome) w.materialNames := by
  have hi := inv_run h hr
  refine ⟨?_, fun k => ?_⟩
  · simp only [materialNames, Params.refill_eq]; exact hi.matsSorted
  · simp only [materialNames, Params.refill_eq]
    rw [← SMap.find?_isSome_iff, hi.mats]

example : firstMaterial (fun _ => "Si") "Si" demo = some 8 := by decide

/-! ### C07: ownership

The full property (every object handed over is deleted exactly once, none is used after deletion) is
false of the code; the three witnesses below show it. What is missing in the `_partial` theorem is
exactly the set `leaks`: objects replaced in a section other than the TPC section, and materials
rejected because of their name. -/

/-- C07, the true part: if every object is handed over once (and null is not passed where it is
dereferenced), neither the calls nor the destruction of the manager delete an object twice or use it
after deletion, and the objects handed over are exactly the deleted ones plus the leaked ones. -/
theorem ownership_partial (obj : Ptr → Params D) (mn : Ptr → String) (h : List Op) (hn : NoNull h)
    (hnd : (handed h).Nodup) :
    ∃ w w', run (init obj mn) h = some w ∧ w.cleanup = .ok w' ∧
      (w'.deleted ++ leaks mn [] h).Perm (handed h) := by
  obtain ⟨w, hw⟩ := run_isSome obj mn h hn hnd
  have hi := inv_run h hw
  have hp := hi.perm
  have hnd2 := hp.nodup_iff.2 hnd
  obtain ⟨w', h1, h2⟩ := deleteAll_ok w w.held (by
    have := (List.nodup_append.1 hnd2).1
    exact (List.perm_append_comm.nodup_iff).1 this)
  refine ⟨w, w', hw, h1, ?_⟩
  rw [h2]
  exact ((List.perm_append_comm).append_right _).trans hp

/-- C07, the true part, per object: an object that is not leaked is deleted exactly once, a leaked
one never. -/
theorem ownership_each_partial (obj : Ptr → Params D) (mn : Ptr → String) (h : List Op)
    (hn : NoNull h) (hnd : (handed h).Nodup) (p : Ptr) (hp : p ∈ handed h) :
    ∃ w w', run (init obj mn) h = some w ∧ w.cleanup = .ok w' ∧
      w'.deleted.count p = if p ∈ leaks mn [] h then 0 else 1 := by
  obtain ⟨w, w', h1, h2, h3⟩ := ownership_partial obj mn h hn hnd
  refine ⟨w, w', h1, h2, ?_⟩
  have hc := h3.count_eq p
  rw [List.count_append, List.count_eq_one_of_mem hnd hp] at hc
  split_ifs with hl
  · have := List.count_pos_iff.2 hl; omega
  · rw [List.count_eq_zero_of_not_mem hl] at hc; omega

example : leaks (fun _ => "Si") [] demo = [2, 9] := by decide

/-- C07 fails: replacing an object in a section other than the TPC section leaks the old one (it is
never deleted, not even by the destructor). -/
theorem ownership_false_leak : ∃ (h : List Op) (w w' : Mgr Int),
    run (init (fun _ => {}) (fun _ => "")) h = some w ∧ w.cleanup = .ok w' ∧
    (1 ∈ handed h) ∧ 1 ∉ w'.deleted := by
  refine ⟨[.setSection .vxd (some 1), .setSection .vxd (some 2)], _, _, rfl, rfl, by decide, by decide⟩

/-- C07 fails: an object set in two sections is deleted twice by the destructor (undefined
behaviour). -/
theorem ownership_false_doubleFree : ∃ (h : List Op) (w : Mgr Int),
    run (init (fun _ => {}) (fun _ => "")) h = some w ∧ w.cleanup = .ub := by
  refine ⟨[.setSection .ecalBarrel (some 1), .setSection .ecalEndcap (some 1)], _, rfl, rfl⟩

/-- C07 fails: setting the current TPC parameters again leaves the manager with a deleted object,
which the getter then returns. -/
theorem ownership_false_dangling : ∃ (h : List Op) (w : Mgr Int),
    run (init (fun _ => {}) (fun _ => "")) h = some w ∧ w.getSection .tpc = .ok 1 ∧ 1 ∈ w.deleted := by
  refine ⟨[.setSection .tpc (some 1), .setSection .tpc (some 1)], _, rfl, rfl, by decide⟩

end Gear.Mgr
