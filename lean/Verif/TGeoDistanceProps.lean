/-
C72: what the distance properties answer after other queries.
-/
import Verif.TGeoDistance
import Verif.Vector3DProps

set_option autoImplicit false
set_option linter.unusedSectionVars false

namespace Gear.TGeoDistance

open Vector3D (V3 equal_iff)
open Disk (Fns)

variable {K : Type} [Field K] [LinearOrder K] [IsStrictOrderedRing K]

/-- A query that follows the path between its points, which differ. -/
def Follows (x : Query × V3 K × V3 K) : Prop := x.1 ≠ .bdl ∧ x.1 ≠ .edl ∧ x.2.1 ≠ x.2.2

instance (x : Query × V3 K × V3 K) : Decidable (Follows x) := by unfold Follows; infer_instance

/-- The points of the last query of a history that follows a path. -/
def lastPath (h : List (Query × V3 K × V3 K)) : Option (V3 K × V3 K) :=
  (h.reverse.find? (fun x => decide (Follows x))).map (·.2)

/-- A query of kind `k` between equal points spoils what a query of kind `q` reads. -/
def Spoils (k q : Query) : Prop :=
  k = .materialNames ∧ q = .materialNames ∨ k = .volumeNames ∧ q = .volumeNames ∨
  k = .thicknesses ∧ (q = .thicknesses ∨ q = .nRadlen ∨ q = .nIntlen)

/-- No query of the history between equal points spoils `q`. -/
def Unspoiled (h : List (Query × V3 K × V3 K)) (q : Query) : Prop :=
  ∀ x ∈ h, x.2.1 = x.2.2 → ¬ Spoils x.1 q

theorem lastPath_append (h : List (Query × V3 K × V3 K)) (x : Query × V3 K × V3 K) :
    lastPath (h ++ [x]) = if Follows x then some x.2 else lastPath h := by
  unfold lastPath
  rw [List.reverse_append]
  by_cases hx : Follows x <;> simp [hx]

variable (tr : V3 K → V3 K → Res (List (Seg K)))

theorem run_append (h : List (Query × V3 K × V3 K)) (x : Query × V3 K × V3 K) :
    run tr (h ++ [x]) = (query tr (run tr h) x.1 x.2.1 x.2.2).2 := by
  unfold run; rw [List.foldl_append]; rfl

/-- What the members hold after a history. -/
structure Inv (h : List (Query × V3 K × V3 K)) (c : Cache K) : Prop where
  start : lastPath h = none → c.p0 = ⟨0, 0, 0⟩ ∧ c.p1 = ⟨0, 0, 0⟩
  points : ∀ a b, lastPath h = some (a, b) → c.p0 = a ∧ c.p1 = b
  differ : ∀ a b, lastPath h = some (a, b) → a ≠ b
  data : ∀ a b l, lastPath h = some (a, b) → tr a b = .ok l →
    (Unspoiled h .materialNames → c.mat = l.map (·.node.material)) ∧
    (Unspoiled h .volumeNames → c.vol = l.map (·.node.name)) ∧
    (Unspoiled h .thicknesses → c.dist = l.map (·.length)) ∧
    c.int = l.map (·.node.intLen) ∧ c.rad = l.map (·.node.radLen)

/-- `beamOn` after any history: the points are those asked for, and the vectors are fresh if they could be
computed. -/
theorem beamOn_state {h : List (Query × V3 K × V3 K)} {c : Cache K} (inv : Inv tr h c) {p0 p1 : V3 K}
    (hp : p0 ≠ p1) :
    (beamOn tr c p0 p1).2.p0 = p0 ∧ (beamOn tr c p0 p1).2.p1 = p1 ∧
    ∀ l, tr p0 p1 = .ok l →
      (beamOn tr c p0 p1).1 = .ok () ∧
      (lastPath h ≠ some (p0, p1) ∨ Unspoiled h .materialNames →
        (beamOn tr c p0 p1).2.mat = l.map (·.node.material)) ∧
      (lastPath h ≠ some (p0, p1) ∨ Unspoiled h .volumeNames →
        (beamOn tr c p0 p1).2.vol = l.map (·.node.name)) ∧
      (lastPath h ≠ some (p0, p1) ∨ Unspoiled h .thicknesses →
        (beamOn tr c p0 p1).2.dist = l.map (·.length)) ∧
      (beamOn tr c p0 p1).2.int = l.map (·.node.intLen) ∧ (beamOn tr c p0 p1).2.rad = l.map (·.node.radLen) := by
  unfold beamOn
  simp only [equal_iff]
  by_cases hc : p0 = c.p0 ∧ p1 = c.p1
  · rw [if_pos hc]
    obtain ⟨h0, h1⟩ := hc
    have hlast : lastPath h = some (p0, p1) := by
      cases hl : lastPath h with
      | none =>
        obtain ⟨e0, e1⟩ := inv.start hl
        exact absurd (h0.trans (e0.trans (e1.symm.trans h1.symm))) hp
      | some ab =>
        obtain ⟨a, b⟩ := ab
        obtain ⟨e0, e1⟩ := inv.points a b hl
        rw [← e0, ← e1, ← h0, ← h1]
    refine ⟨h0.symm, h1.symm, ?_⟩
    intro l hl
    obtain ⟨d1, d2, d3, d4, d5⟩ := inv.data p0 p1 l hlast hl
    exact ⟨rfl, fun h => d1 (h.resolve_left (fun h' => h' hlast)),
      fun h => d2 (h.resolve_left (fun h' => h' hlast)),
      fun h => d3 (h.resolve_left (fun h' => h' hlast)), d4, d5⟩
  · rw [if_neg hc]
    cases ht : tr p0 p1 with
    | ok l =>
      refine ⟨rfl, rfl, ?_⟩
      intro l' hl'
      cases hl'
      exact ⟨rfl, fun _ => rfl, fun _ => rfl, fun _ => rfl, rfl, rfl⟩
    | throw e => exact ⟨rfl, rfl, fun l hl => by cases hl⟩
    | ub => exact ⟨rfl, rfl, fun l hl => by cases hl⟩

/-- After `beamOn` the invariant holds for the longer history. -/
theorem inv_beamOn {h : List (Query × V3 K × V3 K)} {c : Cache K} (inv : Inv tr h c) (q : Query) {p0 p1 : V3 K}
    (hq : q ≠ .bdl ∧ q ≠ .edl) (hp : p0 ≠ p1) : Inv tr (h ++ [(q, p0, p1)]) (beamOn tr c p0 p1).2 := by
  have hf : Follows (q, p0, p1) := ⟨hq.1, hq.2, hp⟩
  have hlast : lastPath (h ++ [(q, p0, p1)]) = some (p0, p1) := by rw [lastPath_append, if_pos hf]
  obtain ⟨s0, s1, s2⟩ := beamOn_state tr inv hp
  refine ⟨?_, ?_, ?_, ?_⟩
  · intro hn; rw [hlast] at hn; cases hn
  · intro a b hab; rw [hlast] at hab; cases hab; exact ⟨s0, s1⟩
  · intro a b hab; rw [hlast] at hab; cases hab; exact hp
  · intro a b l hab hl
    rw [hlast] at hab; cases hab
    obtain ⟨_, d1, d2, d3, d4, d5⟩ := s2 l hl
    have sub : ∀ k, Unspoiled (h ++ [(q, p0, p1)]) k → Unspoiled h k := fun k hu x hx => hu x (by simp [hx])
    exact ⟨fun hu => d1 (Or.inr (sub _ hu)), fun hu => d2 (Or.inr (sub _ hu)), fun hu => d3 (Or.inr (sub _ hu)),
      d4, d5⟩

/-- A query that follows no path leaves the points, and spoils at most what it says. -/
theorem inv_other {h : List (Query × V3 K × V3 K)} {c c' : Cache K} (inv : Inv tr h c) (x : Query × V3 K × V3 K)
    (hx : ¬ Follows x) (hp : c'.p0 = c.p0 ∧ c'.p1 = c.p1)
    (hm : c'.mat = c.mat ∨ Spoils x.1 .materialNames ∧ x.2.1 = x.2.2)
    (hv : c'.vol = c.vol ∨ Spoils x.1 .volumeNames ∧ x.2.1 = x.2.2)
    (hd : c'.dist = c.dist ∨ Spoils x.1 .thicknesses ∧ x.2.1 = x.2.2) (hi : c'.int = c.int) (hr : c'.rad = c.rad) :
    Inv tr (h ++ [x]) c' := by
  have hlast : lastPath (h ++ [x]) = lastPath h := by rw [lastPath_append, if_neg hx]
  refine ⟨?_, ?_, ?_, ?_⟩
  · intro hn; rw [hlast] at hn; rw [hp.1, hp.2]; exact inv.start hn
  · intro a b hab; rw [hlast] at hab; rw [hp.1, hp.2]; exact inv.points a b hab
  · intro a b hab; rw [hlast] at hab; exact inv.differ a b hab
  · intro a b l hab hl
    rw [hlast] at hab
    obtain ⟨d1, d2, d3, d4, d5⟩ := inv.data a b l hab hl
    have sub : ∀ k, Unspoiled (h ++ [x]) k → Unspoiled h k := fun k hu y hy => hu y (by simp [hy])
    have last : ∀ k, Unspoiled (h ++ [x]) k → x.2.1 = x.2.2 → ¬ Spoils x.1 k := fun k hu => hu x (by simp)
    refine ⟨?_, ?_, ?_, by rw [hi, d4], by rw [hr, d5]⟩
    · intro hu
      rcases hm with hm | ⟨h1, h2⟩
      · rw [hm]; exact d1 (sub _ hu)
      · exact absurd h1 (last _ hu h2)
    · intro hu
      rcases hv with hm | ⟨h1, h2⟩
      · rw [hm]; exact d2 (sub _ hu)
      · exact absurd h1 (last _ hu h2)
    · intro hu
      rcases hd with hm | ⟨h1, h2⟩
      · rw [hm]; exact d3 (sub _ hu)
      · exact absurd h1 (last _ hu h2)

theorem inv_query {h : List (Query × V3 K × V3 K)} {c : Cache K} (inv : Inv tr h c) (x : Query × V3 K × V3 K) :
    Inv tr (h ++ [x]) (query tr c x.1 x.2.1 x.2.2).2 := by
  obtain ⟨q, p0, p1⟩ := x
  by_cases hp : p0 = p1
  · have hx : ¬ Follows (q, p0, p1) := fun hf => hf.2.2 hp
    have he : Vector3D.equal p0 p1 = true := (equal_iff p0 p1).mpr hp
    cases q with
    | materialNames =>
      simp only [query, he, if_true]
      exact inv_other tr inv _ hx ⟨rfl, rfl⟩ (Or.inr ⟨Or.inl ⟨rfl, rfl⟩, hp⟩) (Or.inl rfl) (Or.inl rfl) rfl rfl
    | volumeNames =>
      simp only [query, he, if_true]
      exact inv_other tr inv _ hx ⟨rfl, rfl⟩ (Or.inl rfl) (Or.inr ⟨Or.inr (Or.inl ⟨rfl, rfl⟩), hp⟩) (Or.inl rfl) rfl rfl
    | thicknesses =>
      simp only [query, he, if_true]
      exact inv_other tr inv _ hx ⟨rfl, rfl⟩ (Or.inl rfl) (Or.inl rfl)
        (Or.inr ⟨Or.inr (Or.inr ⟨rfl, Or.inl rfl⟩), hp⟩) rfl rfl
    | nRadlen =>
      simp only [query, he, if_true]
      exact inv_other tr inv _ hx ⟨rfl, rfl⟩ (Or.inl rfl) (Or.inl rfl) (Or.inl rfl) rfl rfl
    | nIntlen =>
      simp only [query, he, if_true]
      exact inv_other tr inv _ hx ⟨rfl, rfl⟩ (Or.inl rfl) (Or.inl rfl) (Or.inl rfl) rfl rfl
    | bdl => exact inv_other tr inv _ hx ⟨rfl, rfl⟩ (Or.inl rfl) (Or.inl rfl) (Or.inl rfl) rfl rfl
    | edl => exact inv_other tr inv _ hx ⟨rfl, rfl⟩ (Or.inl rfl) (Or.inl rfl) (Or.inl rfl) rfl rfl
  · have he : ¬ (Vector3D.equal p0 p1 = true) := fun h => hp ((equal_iff p0 p1).mp h)
    cases q with
    | materialNames => simp only [query, he]; exact inv_beamOn tr inv _ ⟨by simp, by simp⟩ hp
    | volumeNames => simp only [query, he]; exact inv_beamOn tr inv _ ⟨by simp, by simp⟩ hp
    | thicknesses => simp only [query, he]; exact inv_beamOn tr inv _ ⟨by simp, by simp⟩ hp
    | nRadlen => simp only [query, he]; exact inv_beamOn tr inv _ ⟨by simp, by simp⟩ hp
    | nIntlen => simp only [query, he]; exact inv_beamOn tr inv _ ⟨by simp, by simp⟩ hp
    | bdl =>
      exact inv_other tr inv _ (fun hf => hf.1 rfl) ⟨rfl, rfl⟩ (Or.inl rfl) (Or.inl rfl) (Or.inl rfl) rfl rfl
    | edl =>
      exact inv_other tr inv _ (fun hf => hf.2.1 rfl) ⟨rfl, rfl⟩ (Or.inl rfl) (Or.inl rfl) (Or.inl rfl) rfl rfl

theorem inv_run (h : List (Query × V3 K × V3 K)) : Inv tr h (run tr h) := by
  induction h using List.reverseRecOn with
  | nil =>
    refine ⟨fun _ => ⟨rfl, rfl⟩, ?_, ?_, ?_⟩
    · intro a b hab; cases hab
    · intro a b hab; cases hab
    · intro a b l hab; cases hab
  | append_singleton h x ih => rw [run_append]; exact inv_query tr ih x

/-- If another path was followed last, `beamOn` does what it does in a new object. -/
theorem beamOn_other {h : List (Query × V3 K × V3 K)} {p0 p1 : V3 K} (hp : p0 ≠ p1)
    (hl : lastPath h ≠ some (p0, p1)) : beamOn tr (run tr h) p0 p1 = beamOn tr init p0 p1 := by
  have inv := inv_run tr h
  have h1 : ¬ (Vector3D.equal p0 (run tr h).p0 = true ∧ Vector3D.equal p1 (run tr h).p1 = true) := by
    rw [equal_iff, equal_iff]
    rintro ⟨e0, e1⟩
    cases hc : lastPath h with
    | none =>
      obtain ⟨f0, f1⟩ := inv.start hc
      exact hp (e0.trans (f0.trans (f1.symm.trans e1.symm)))
    | some ab =>
      obtain ⟨a, b⟩ := ab
      obtain ⟨f0, f1⟩ := inv.points a b hc
      apply hl
      rw [hc, ← f0, ← f1, ← e0, ← e1]
  have h2 : ¬ (Vector3D.equal p0 (init : Cache K).p0 = true ∧ Vector3D.equal p1 (init : Cache K).p1 = true) := by
    rw [equal_iff, equal_iff]
    rintro ⟨e0, e1⟩
    exact hp (e0.trans e1.symm)
  unfold beamOn
  rw [if_neg h1, if_neg h2]

/-! ### C72 -/

/-- After any history a query gives the answer of a new object, if another path was followed last, or if the path
can be followed and no query between equal points in the history spoiled the data it reads.  Missing: the other
cases, see `history_false_names`, `history_false_undefined` and `history_false_exception`. -/
theorem history_partial (h : List (Query × V3 K × V3 K)) (q : Query) (p0 p1 : V3 K)
    (hyp : lastPath h ≠ some (p0, p1) ∨ Unspoiled h q ∧ ∃ l, tr p0 p1 = .ok l) :
    (query tr (run tr h) q p0 p1).1 = (query tr init q p0 p1).1 := by
  by_cases hp : p0 = p1
  · have he : Vector3D.equal p0 p1 = true := (equal_iff p0 p1).mpr hp
    cases q <;> simp [query, he]
  have he : ¬ (Vector3D.equal p0 p1 = true) := fun h => hp ((equal_iff p0 p1).mp h)
  rcases hyp with hl | ⟨hu, l, hl⟩
  · have := beamOn_other tr hp hl
    cases q <;> simp [query, he, this]
  · obtain ⟨_, _, s⟩ := beamOn_state tr (inv_run tr h) hp
    obtain ⟨s0, s1, s2, s3, s4, s5⟩ := s l hl
    have inv0 : Inv tr [] init := inv_run tr []
    obtain ⟨_, _, t⟩ := beamOn_state tr inv0 hp
    obtain ⟨t0, t1, t2, t3, t4, t5⟩ := t l hl
    have hnil : lastPath ([] : List (Query × V3 K × V3 K)) ≠ some (p0, p1) := by
      intro hc; cases hc
    have t1' := t1 (Or.inl hnil)
    have t2' := t2 (Or.inl hnil)
    have t3' := t3 (Or.inl hnil)
    have conv : ∀ k, (∀ j, Spoils j k → Spoils j q) → Unspoiled h k :=
      fun k hk x hx hxe hs => hu x hx hxe (hk _ hs)
    cases q with
    | materialNames =>
      have := s1 (Or.inr hu)
      simp [query, he, s0, t0, this, t1']
    | volumeNames =>
      have := s2 (Or.inr hu)
      simp [query, he, s0, t0, this, t2']
    | thicknesses =>
      have := s3 (Or.inr hu)
      simp [query, he, s0, t0, this, t3']
    | nRadlen =>
      have := s3 (Or.inr (conv _ (by intro j hj; simp only [Spoils] at hj ⊢; simp at hj; simp [hj])))
      simp [query, he, s0, t0, this, t3', s5, t5]
    | nIntlen =>
      have := s3 (Or.inr (conv _ (by intro j hj; simp only [Spoils] at hj ⊢; simp at hj; simp [hj])))
      simp [query, he, s0, t0, this, t3', s4, t4]
    | bdl => rfl
    | edl => rfl

/-- What a new object answers for two different points, given the volumes on the path: their names and materials,
the lengths in them, and the sum of length over radiation or interaction length over those for which it is not
zero. -/
theorem answers (p0 p1 : V3 K) (hp : p0 ≠ p1) (l : List (Seg K)) (hl : tr p0 p1 = .ok l) :
    (query tr init .materialNames p0 p1).1 = .ok (.names (l.map (·.node.material))) ∧
    (query tr init .volumeNames p0 p1).1 = .ok (.names (l.map (·.node.name))) ∧
    (query tr init .thicknesses p0 p1).1 = .ok (.numbers (l.map (·.length))) ∧
    (query tr init .nRadlen p0 p1).1 =
      .ok (.number ((l.filter (fun s => s.node.radLen ≠ 0)).map (fun s => s.length / s.node.radLen)).sum) ∧
    (query tr init .nIntlen p0 p1).1 =
      .ok (.number ((l.filter (fun s => s.node.intLen ≠ 0)).map (fun s => s.length / s.node.intLen)).sum) := by
  have he : ¬ (Vector3D.equal p0 p1 = true) := fun h => hp ((equal_iff p0 p1).mp h)
  have inv0 : Inv tr [] init := inv_run tr []
  obtain ⟨_, _, t⟩ := beamOn_state tr inv0 hp
  obtain ⟨t0, t1, t2, t3, t4, t5⟩ := t l hl
  have hnil : lastPath ([] : List (Query × V3 K × V3 K)) ≠ some (p0, p1) := by
    intro hc; cases hc
  have t1' := t1 (Or.inl hnil)
  have t2' := t2 (Or.inl hnil)
  have t3' := t3 (Or.inl hnil)
  have key : ∀ (g : Node K → K) (l : List (Seg K)) (s : K), sumLengths (l.map (fun x => g x.node))
      (l.map (·.length)) s =
        .ok (s + ((l.filter (fun x => g x.node ≠ 0)).map (fun x => x.length / g x.node)).sum) := by
    intro g l
    induction l with
    | nil => intro s; simp [sumLengths]
    | cons x l ih =>
      intro s
      simp only [List.map_cons, sumLengths, List.tail_cons]
      by_cases hx : g x.node = 0
      · rw [if_neg (by simp [hx]), ih]
        simp [hx]
      · rw [if_pos hx, ih]
        simp [hx, add_assoc]
  refine ⟨?_, ?_, ?_, ?_, ?_⟩
  · simp [query, he, t0, t1']
  · simp [query, he, t0, t2']
  · simp [query, he, t0, t3']
  · simp only [query, he, t0, t3', t5]
    rw [key (fun n => n.radLen)]
    simp
  · simp only [query, he, t0, t3', t4]
    rw [key (fun n => n.intLen)]
    simp

/-- For two equal points there is no material. -/
theorem answers_equal (c : Cache K) (p : V3 K) :
    (query tr c .materialNames p p).1 = .ok (.names []) ∧ (query tr c .volumeNames p p).1 = .ok (.names []) ∧
    (query tr c .thicknesses p p).1 = .ok (.numbers []) ∧ (query tr c .nRadlen p p).1 = .ok (.number 0) ∧
    (query tr c .nIntlen p p).1 = .ok (.number 0) := by
  have he : Vector3D.equal p p = true := (equal_iff p p).mpr rfl
  refine ⟨?_, ?_, ?_, ?_, ?_⟩ <;> simp [query, he]

/-- A geometry for the examples: two volumes on every path that starts at z >= 0, nothing elsewhere. -/
def sampleTrace (p0 _p1 : V3 ℚ) : Res (List (Seg ℚ)) :=
  if 0 ≤ p0.z then .ok [⟨1, ⟨"a", "air", 4, 8⟩⟩, ⟨3, ⟨"b", "iron", 2, 6⟩⟩] else .throw .outsideGeometry

/-- The hypothesis of `history_partial` is met after queries for the same path, for another one, and one between
equal points that reads something else. -/
example : Unspoiled [(.nRadlen, (⟨0, 0, 1⟩ : V3 ℚ), ⟨0, 0, 5⟩), (.materialNames, ⟨0, 0, 2⟩, ⟨0, 0, 2⟩),
    (.thicknesses, ⟨0, 0, 1⟩, ⟨0, 0, 5⟩)] .nRadlen ∧ ∃ l, sampleTrace ⟨0, 0, 1⟩ ⟨0, 0, 5⟩ = .ok l := by
  refine ⟨?_, _, rfl⟩
  intro x hx hxe
  simp only [List.mem_cons, List.not_mem_nil, or_false] at hx
  rcases hx with rfl | rfl | rfl
  · have := congrArg V3.z hxe; norm_num at this
  · simp [Spoils]
  · have := congrArg V3.z hxe; norm_num at this

/-- A query between equal points empties the list of names; asking for the path again then answers no names. -/
theorem history_false_names : ∃ (h : List (Query × V3 ℚ × V3 ℚ)) (p0 p1 : V3 ℚ),
    (query sampleTrace init .materialNames p0 p1).1 = .ok (.names ["air", "iron"]) ∧
    (query sampleTrace (run sampleTrace h) .materialNames p0 p1).1 = .ok (.names []) :=
  ⟨[(.materialNames, ⟨0, 0, 1⟩, ⟨0, 0, 5⟩), (.materialNames, ⟨0, 0, 2⟩, ⟨0, 0, 2⟩)], ⟨0, 0, 1⟩, ⟨0, 0, 5⟩,
    by decide +kernel, by decide +kernel⟩

/-- After the thicknesses between equal points, the number of radiation lengths of the path followed before reads
outside the vector of distances. -/
theorem history_false_undefined : ∃ (h : List (Query × V3 ℚ × V3 ℚ)) (p0 p1 : V3 ℚ),
    (query sampleTrace init .nRadlen p0 p1).1 = .ok (.number (1 / 8 + 3 / 6)) ∧
    (query sampleTrace (run sampleTrace h) .nRadlen p0 p1).1 = .ub :=
  ⟨[(.nIntlen, ⟨0, 0, 1⟩, ⟨0, 0, 5⟩), (.thicknesses, ⟨0, 0, 2⟩, ⟨0, 0, 2⟩)], ⟨0, 0, 1⟩, ⟨0, 0, 5⟩,
    by decide +kernel, by decide +kernel⟩

/-- Whenever a path cannot be followed, the first query throws, and the second one answers that there is no
material. -/
theorem history_false_exception (h : List (Query × V3 K × V3 K)) (p0 p1 : V3 K) (hp : p0 ≠ p1) (e : Exn)
    (he : tr p0 p1 = .throw e) (hl : lastPath h ≠ some (p0, p1)) :
    (query tr (run tr h) .nRadlen p0 p1).1 = .throw e ∧
    (query tr (query tr (run tr h) .nRadlen p0 p1).2 .nRadlen p0 p1).1 = .ok (.number 0) ∧
    (query tr (query tr (run tr h) .nRadlen p0 p1).2 .materialNames p0 p1).1 = .ok (.names []) := by
  have hne : ¬ (Vector3D.equal p0 p1 = true) := fun h => hp ((equal_iff p0 p1).mp h)
  have hb : beamOn tr (run tr h) p0 p1 = (.throw e, ⟨p0, p1, [], [], [], [], []⟩) := by
    rw [beamOn_other tr hp hl]
    unfold beamOn
    rw [if_neg, he]
    rw [equal_iff, equal_iff]
    rintro ⟨e0, e1⟩
    exact hp (e0.trans e1.symm)
  have hself : ∀ p : V3 K, Vector3D.equal p p = true := fun p => (equal_iff p p).mpr rfl
  have hq : query tr (run tr h) .nRadlen p0 p1 = (.throw e, ⟨p0, p1, [], [], [], [], []⟩) := by
    simp [query, hne, hb]
  rw [hq]
  refine ⟨rfl, ?_, ?_⟩
  · simp [query, hne, beamOn, hself, sumLengths]
  · simp [query, hne, beamOn, hself]

example : sampleTrace ⟨0, 0, -1⟩ ⟨0, 0, 5⟩ = .throw .outsideGeometry := by decide +kernel

end Gear.TGeoDistance
