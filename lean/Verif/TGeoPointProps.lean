/-
C109 to C111: the answers at a point, the lists of volumes around it, and the local position.
-/
import Verif.TGeoPoint
import Mathlib.Tactic.NormNum
import Mathlib.Data.Rat.Defs

set_option autoImplicit false
set_option linter.unusedSectionVars false

namespace Gear.TGeoPoint

open Vector3D (V3)

variable {K : Type}

/-! ### Specification -/

/-- A geometry as ROOT makes it: the list of the nodes at a point ends with the top, and neither the top node nor the
top volume is nested in anything else. -/
structure Proper (G : Geometry K) : Prop where
  nested : ∀ pos l, G.nodesAt pos = some l → ∃ inner, l = inner ++ [G.top] ∧
    ∀ nd ∈ inner, nd.nodeId ≠ G.top.nodeId ∧ nd.volumeId ≠ G.top.volumeId

/-- The innermost node at a point. -/
def nodeAt (G : Geometry K) (pos : V3 K) : Option (Placed K) := (G.nodesAt pos).bind List.head?

theorem findNode_snd (G : Geometry K) (s : State K) (pos : V3 K) : (findNode G s pos).2 = nodeAt G pos := by
  unfold findNode nodeAt
  cases G.nodesAt pos <;> rfl

/-! ### C109 -/

/-- C109: after any history, the number asked for is that of the material of the innermost volume at the point;
outside of the geometry there is an exception. -/
theorem getNumber_history (G : Geometry K) (fuel : ℕ) (h : List (Query × V3 K)) (q : Quantity) (pos : V3 K) :
    (getNumber G q (run G fuel h) pos).2 =
      match nodeAt G pos with
      | some nd => .ok (q.of nd.material)
      | none => .throw .outsideGeometry := by
  unfold getNumber
  dsimp only
  rw [findNode_snd]
  cases nodeAt G pos <;> rfl

/-- C109, for the name of the material. -/
theorem getMaterialName_history (G : Geometry K) (fuel : ℕ) (h : List (Query × V3 K)) (pos : V3 K) :
    (getMaterialName G (run G fuel h) pos).2 =
      match nodeAt G pos with
      | some nd => .ok nd.material.name
      | none => .throw .outsideGeometry := by
  unfold getMaterialName
  dsimp only
  rw [findNode_snd]
  cases nodeAt G pos <;> rfl

/-- The static string is changed by nothing but a further query for a name. -/
theorem matName_after (G : Geometry K) (fuel : ℕ) (s : State K) (q : Query) (pos : V3 K)
    (hq : ∀ nd, q = .materialName → nodeAt G pos ≠ some nd) : (after G fuel s q pos).matName = s.matName := by
  have hf : (findNode G s pos).1.matName = s.matName := by
    unfold findNode; cases G.nodesAt pos <;> rfl
  have hup : ∀ s : State K, (cdUp s).matName = s.matName := by
    intro s; unfold cdUp; split <;> rfl
  have hc : ∀ (name : Placed K → String) (ident : Placed K → ℕ) (n : ℕ) (s : State K) (acc : List String),
      (climb G name ident n s acc).1.matName = s.matName := by
    intro name ident n
    induction n with
    | zero => intro s acc; rfl
    | succ n ih =>
      intro s acc
      rw [climb]
      split
      · rfl
      · split
        · exact hup s
        · rw [ih]; exact hup s
  cases q with
  | materialName =>
    unfold after getMaterialName
    dsimp only
    rw [findNode_snd]
    cases hn : nodeAt G pos with
    | none => exact hf
    | some nd => exact absurd hn (hq nd rfl)
  | number q =>
    unfold after getNumber
    dsimp only
    cases (findNode G s pos).2 <;> exact hf
  | localPosition => rfl
  | logicalVolumes =>
    unfold after getList
    dsimp only
    cases (findNode G s pos).2 with
    | none => exact hf
    | some nd => exact (hc _ _ _ _ _).trans hf
  | physicalVolumes =>
    unfold after getList
    dsimp only
    cases (findNode G s pos).2 with
    | none => exact hf
    | some nd => exact (hc _ _ _ _ _).trans hf
  | notImplemented => rfl

/-! ### C110 -/

theorem climb_path (G : Geometry K) (name : Placed K → String) (ident : Placed K → ℕ) :
    ∀ (inner : List (Placed K)) (s : State K) (acc : List String) (n : ℕ), s.path = inner ++ [G.top] →
      (∀ nd ∈ inner, ident nd ≠ ident G.top) → inner.length < n →
      (climb G name ident n s acc).2 = some (acc ++ (inner ++ [G.top]).map name) ∧
      (climb G name ident n s acc).1.path = [G.top] := by
  intro inner
  induction inner with
  | nil =>
    intro s acc n hp _ hn
    obtain ⟨m, rfl⟩ : ∃ m, n = m + 1 := ⟨n - 1, by simp at hn; omega⟩
    rw [List.nil_append] at hp
    rw [climb, hp]
    simp [cdUp, hp]
  | cons nd inner ih =>
    intro s acc n hp hi hn
    obtain ⟨m, rfl⟩ : ∃ m, n = m + 1 := ⟨n - 1, by simp at hn; omega⟩
    rw [List.cons_append] at hp
    rw [climb, hp]
    dsimp only
    rw [if_neg (hi nd (by simp))]
    have hup : (cdUp s).path = inner ++ [G.top] := by
      unfold cdUp
      rw [hp]
      cases inner <;> rfl
    have := ih (cdUp s) (acc ++ [name nd]) m hup (fun x hx => hi x (by simp [hx])) (by simp at hn; omega)
    refine ⟨?_, this.2⟩
    rw [this.1]
    simp

/-- C110: after any history, the lists name the volumes that contain the point, from the innermost to the world;
outside there is an exception.  The loop ends after as many passes as there are volumes. -/
theorem getList_history (G : Geometry K) (hG : Proper G) (fuel : ℕ) (h : List (Query × V3 K)) (physical : Bool)
    (pos : V3 K) :
    (∀ l n, G.nodesAt pos = some l → l.length ≤ n →
      (getList G physical n (run G fuel h) pos).2 =
        some (.ok (l.map (if physical then (·.nodeName) else (·.volumeName))))) ∧
    (∀ n, G.nodesAt pos = none → (getList G physical n (run G fuel h) pos).2 = some (.throw .outsideGeometry)) := by
  constructor
  · intro l n hl hn
    obtain ⟨inner, rfl, hi⟩ := hG.nested pos l hl
    have hne : (inner ++ [G.top]).head? ≠ none := by
      cases inner <;> simp
    obtain ⟨nd, hnd⟩ := Option.ne_none_iff_exists'.1 hne
    have hlen : inner.length < n := by simp at hn; omega
    unfold getList findNode
    rw [hl]
    dsimp only
    rw [hnd]
    dsimp only
    cases physical with
    | true =>
      have := (climb_path G (·.nodeName) (·.nodeId) inner { run G fuel h with path := inner ++ [G.top] } [] n rfl
        (fun x hx => (hi x hx).1) hlen).1
      simp only [if_true, this, List.nil_append, Option.map_some]
    | false =>
      have := (climb_path G (·.volumeName) (·.volumeId) inner { run G fuel h with path := inner ++ [G.top] } [] n rfl
        (fun x hx => (hi x hx).2) hlen).1
      simp only [Bool.false_eq_true, if_false, this, List.nil_append, Option.map_some]
  · intro n hl
    unfold getList findNode
    rw [hl]

/-! ### C111 -/

/-- What `getLocalPosition` promises: the position in the coordinates of the volume at the point. -/
def localAt (G : Geometry K) (pos : V3 K) : Option (V3 K) := (G.nodesAt pos).map (fun l => local' l pos)

/-- C111, the provable part: right after a query for a number or a name at the same point, the local position is the
one in the volume there.  Missing: after other queries, or the first one, for which it is false
(`local_false_first`, `local_false_other`, `local_false_list`). -/
theorem local_partial (G : Geometry K) (fuel : ℕ) (h : List (Query × V3 K)) (q : Query) (pos : V3 K) (v : V3 K)
    (hq : q = .materialName ∨ ∃ k, q = .number k) (hv : localAt G pos = some v) :
    (getLocalPosition (run G fuel (h ++ [(q, pos)])) pos).2 = .ok v := by
  have hrun : run G fuel (h ++ [(q, pos)]) = after G fuel (run G fuel h) q pos := by
    unfold run; rw [List.foldl_append]; rfl
  rw [hrun]
  unfold localAt at hv
  cases hn : G.nodesAt pos with
  | none => rw [hn] at hv; cases hv
  | some l =>
    rw [hn] at hv
    have hv' : local' l pos = v := by simpa using hv
    have hp : (after G fuel (run G fuel h) q pos).path = l := by
      rcases hq with rfl | ⟨k, rfl⟩
      · unfold after getMaterialName findNode
        rw [hn]
        dsimp only
        cases l.head? <;> rfl
      · unfold after getNumber findNode
        rw [hn]
        dsimp only
        cases l.head? <;> rfl
    unfold getLocalPosition
    rw [hp, hv']

/-! ### Cases -/

def air : Material ℚ := ⟨"Air", 1, 293, 101325, 300, 700⟩
def silicon : Material ℚ := ⟨"Si", 2330, 293, 101325, 94, 455⟩

def world : Placed ℚ := ⟨0, "world_1", 0, "world", air, id⟩
/-- A volume shifted by 10 along x. -/
def sensor : Placed ℚ := ⟨1, "sensor_1", 1, "sensor", silicon, fun p => ⟨p.x - 10, p.y, p.z⟩⟩

/-- A sensor from 9 to 11 in a world up to 100. -/
def geo : Geometry ℚ where
  top := world
  nodesAt p := if 9 ≤ p.x ∧ p.x ≤ 11 then some [sensor, world] else if -100 ≤ p.x ∧ p.x ≤ 100 then some [world] else none

theorem geo_proper : Proper geo := by
  refine ⟨?_⟩
  intro pos l h
  unfold geo at h
  dsimp only at h
  split at h
  · cases h
    refine ⟨[sensor], rfl, ?_⟩
    intro nd hnd
    rw [List.mem_singleton] at hnd
    subst hnd
    decide
  · split at h
    · cases h
      exact ⟨[], rfl, by intro nd hnd; cases hnd⟩
    · cases h

def inSensor : V3 ℚ := ⟨10, 2, 3⟩
def inWorld : V3 ℚ := ⟨50, 0, 0⟩
def outside : V3 ℚ := ⟨500, 0, 0⟩

example : (getNumber geo .radlen (run geo 5 [(.logicalVolumes, inWorld)]) inSensor).2 = .ok 94 := by decide +kernel
example : (getNumber geo .radlen (start geo) outside).2 = .throw .outsideGeometry := by decide +kernel
example : (getList geo false 5 (run geo 5 [(.materialName, inWorld)]) inSensor).2 = some (.ok ["sensor", "world"]) := by
  decide +kernel
example : (getList geo true 5 (start geo) inSensor).2 = some (.ok ["sensor_1", "world_1"]) := by decide +kernel
example : localAt geo inSensor = some ⟨0, 2, 3⟩ := by decide +kernel
example : (getLocalPosition (run geo 5 [(.materialName, inSensor)]) inSensor).2 = .ok ⟨0, 2, 3⟩ := by decide +kernel

/-- C111 is false for the first query: it answers in the coordinates of the world. -/
theorem local_false_first : Proper geo ∧ localAt geo inSensor = some ⟨0, 2, 3⟩ ∧
    (getLocalPosition (start geo) inSensor).2 = .ok inSensor :=
  ⟨geo_proper, by decide +kernel, by decide +kernel⟩

/-- C111 is false after a query at another point: it answers in the coordinates of the volume there. -/
theorem local_false_other : Proper geo ∧ localAt geo inWorld = some inWorld ∧
    (getLocalPosition (run geo 5 [(.number .density, inSensor)]) inWorld).2 = .ok ⟨40, 0, 0⟩ :=
  ⟨geo_proper, by decide +kernel, by decide +kernel⟩

/-- C111 is false after a list of the volumes at the very point: that leaves the manager at the top. -/
theorem local_false_list : Proper geo ∧ localAt geo inSensor = some ⟨0, 2, 3⟩ ∧
    (getLocalPosition (run geo 5 [(.logicalVolumes, inSensor)]) inSensor).2 = .ok inSensor :=
  ⟨geo_proper, by decide +kernel, by decide +kernel⟩

end Gear.TGeoPoint
