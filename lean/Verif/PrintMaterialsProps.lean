/-
C138: what printMaterials prints.
-/
import Verif.PrintMaterials
import Verif.TGeoDistanceProps
import Verif.TGeoTraceProps

set_option autoImplicit false
set_option linter.unusedSectionVars false

namespace Gear.TGeoDistance

open Vector3D (V3)
open Disk (Fns)

variable {K : Type} [Field K] [LinearOrder K] [IsStrictOrderedRing K]

/-! ### Points on the path -/

theorem unitDirection_eq (F : Fns K) (a b : V3 K) : unitDirection F a b = direction F a b := by
  unfold unitDirection direction
  show Vector3D.smul (1 / pathLength F a b) _ = _
  simp only [Vector3D.smul, Vector3D.sub]
  congr 1 <;> ring

theorem direction_on {F : Fns K} {a b : V3 K} (h : Straight F a b) {t : K} (ht : 0 < t) :
    direction F a (pointAt F a b t) = direction F a b := by
  have hl := length_from_start h ht.le
  have e : ∀ u v : K, (u + t * v - u) / t = v := fun u v => by field_simp; ring
  rw [direction, hl]
  simp only [Vector3D.sub, pointAt, e]

theorem straight_on {F : Fns K} {a b : V3 K} (h : Straight F a b) {t : K} (ht : 0 < t) : Straight F a (pointAt F a b t) where
  differ e := by
    have hl := length_from_start h ht.le
    rw [← e] at hl
    unfold pathLength at hl
    simp only [Vector3D.sub, sub_self] at hl
    have := h.root 0 le_rfl
    simp only [mul_zero] at this
    rw [mul_zero, add_zero, add_zero, this] at hl
    exact ht.ne hl
  root := h.root
  length := by
    refine ⟨t, ht.le, ?_⟩
    have h1 := direction_sq h
    have h2 : ∀ u v w x y z : K, x * x + y * y + z * z = 1 →
        t * t = (u + t * x - u) * (u + t * x - u) + (v + t * y - v) * (v + t * y - v) + (w + t * z - w) * (w + t * z - w) := by
      intro u v w x y z e
      calc t * t = t * t * (x * x + y * y + z * z) := by rw [e, mul_one]
        _ = _ := by ring
    exact h2 _ _ _ _ _ _ h1

theorem pointAt_on {F : Fns K} {a b : V3 K} (h : Straight F a b) {t : K} (ht : 0 < t) (u : K) :
    pointAt F a (pointAt F a b t) u = pointAt F a b u := by
  unfold pointAt
  have := direction_on h ht
  unfold pointAt at this
  rw [this]

/-- A navigator that follows a path follows it to any point. -/
def Rides.on {F : Fns K} {N : Nav K} {a b : V3 K} {ray : List (Node K × K)} (R : Rides F N a b ray) (h : Straight F a b) {t : K} (ht : 0 < t) :
    Rides F N a (pointAt F a b t) ray where
  view := R.view
  start := by rw [direction_on h ht]; exact R.start
  first := by rw [direction_on h ht]; exact R.first
  outside := R.outside
  next := R.next
  node := R.node
  current s := by rw [pointAt_on h ht]; exact R.current s
  last s := by rw [pointAt_on h ht]; exact R.last s
  step := R.step

theorem crossed_pos : ∀ (ray : List (Node K × K)) (t : K), (∀ x ∈ ray, 0 < x.2) → ∀ x ∈ crossed t ray, 0 < x.2
  | [], t, _ => by simp [crossed]
  | (nd, l) :: r, t, h => by
    rw [crossed]
    split
    · simp
    · split
      · intro x hx
        rw [List.mem_singleton] at hx
        subst hx
        rename_i h1 _
        exact not_le.1 h1
      · intro x hx
        rcases List.mem_cons.1 hx with rfl | hx
        · exact h _ (by simp)
        · exact crossed_pos r _ (fun y hy => h y (by simp [hy])) x hx

theorem split_pos {v : List (Node K × K)} {s : List (Seg K)} (h : Split v s) : (∀ x ∈ v, 0 < x.2) → ∀ y ∈ s, 0 < y.length := by
  induction h with
  | nil => simp
  | whole nd l r s _ ih =>
    intro hv y hy
    rcases List.mem_cons.1 hy with rfl | hy
    · exact hv (nd, l) (by simp)
    · exact ih (fun x hx => hv x (by simp [hx])) y hy
  | part nd a l r s ha hl _ ih =>
    intro hv y hy
    rcases List.mem_cons.1 hy with rfl | hy
    · exact ha
    · refine ih (fun x hx => ?_) y hy
      rcases List.mem_cons.1 hx with rfl | hx
      · exact hl
      · exact hv x (by simp [hx])

/-! ### The lines -/

/-- The lines for the pieces of a path that begin after the length `s`. -/
def linesOf (F : Fns K) (a b : V3 K) (ray : List (Node K × K)) : K → List (Seg K) → List (Line K)
  | _, [] => []
  | s, x :: r => ⟨x.node.material, x.length * 10, weighted (fun nd => nd.radLen⁻¹) (crossed (s + x.length) ray),
      weighted (fun nd => nd.intLen⁻¹) (crossed (s + x.length) ray), Vector3D.smul 10 a, Vector3D.smul 10 (pointAt F a b (s + x.length))⟩ ::
      linesOf F a b ray (s + x.length) r

section
variable [Archimedean K] {F : Fns K} {N : Nav K} {a b : V3 K} {ray : List (Node K × K)} {tr : V3 K → V3 K → Res (List (Seg K))}

theorem ask {h : Straight F a b} (R : Rides F N a b ray) (hthick : ∀ x ∈ ray, Thick x.2) (htot : pathLength F a b + 500 ≤ total ray)
    (htr : ∀ p n r, trace F N n a p = some r → tr a p = r) {t : K} (ht : 0 < t) (hL : t ≤ pathLength F a b)
    {hist : List (Query × V3 K × V3 K)} (hh : ∀ x ∈ hist, x.2.1 ≠ x.2.2) :
    (query tr (run tr hist) .nRadlen a (pointAt F a b t)).1 = .ok (.number (weighted (fun nd => nd.radLen⁻¹) (crossed t ray))) ∧
    (query tr (run tr hist) .nIntlen a (pointAt F a b t)).1 = .ok (.number (weighted (fun nd => nd.intLen⁻¹) (crossed t ray))) := by
  have hs := straight_on h ht
  have hl := length_from_start h ht.le
  have R' := R.on h ht
  have htot' : pathLength F a (pointAt F a b t) + 500 ≤ total ray := by rw [hl]; linarith
  obtain ⟨segs, z, -, -, n, hn⟩ := trace_partial hs R' hthick htot'
  have hok := htr _ _ _ hn
  have hne : ¬ (a = ⟨0, 0, 0⟩ ∧ pointAt F a b t = ⟨0, 0, 0⟩) := fun e => hs.differ (e.1.trans e.2.symm)
  obtain ⟨l1, l2⟩ := lengths_partial (fuel := n) (tr := tr) hs R' hthick htot' hne (by rw [hok]; exact hn)
  rw [hl] at l1 l2
  have hu : ∀ q, Unspoiled hist q := fun q x hx e => absurd e (hh x hx)
  exact ⟨(history_partial tr hist _ _ _ (Or.inr ⟨hu _, _, hok⟩)).trans l1, (history_partial tr hist _ _ _ (Or.inr ⟨hu _, _, hok⟩)).trans l2⟩

theorem loop_lines (h : Straight F a b) (R : Rides F N a b ray) (hthick : ∀ x ∈ ray, Thick x.2) (htot : pathLength F a b + 500 ≤ total ray)
    (htr : ∀ p n r, trace F N n a p = some r → tr a p = r) : ∀ (segs : List (Seg K)) (hist : List (Query × V3 K × V3 K)) (s : K),
    (∀ x ∈ hist, x.2.1 ≠ x.2.2) → 0 ≤ s → (∀ x ∈ segs, 0 ≤ x.length) → (s = 0 → ∀ x, segs.head? = some x → 0 < x.length) →
    s + (segs.map (·.length)).sum ≤ pathLength F a b →
    materialLoop tr a (direction F a b) (segs.map (·.node.material)) (segs.map (·.length)) s (run tr hist) = .ok (linesOf F a b ray s segs)
  | [], hist, s, _, _, _, _, _ => rfl
  | x :: segs, hist, s, hh, hs, hx, h0, hL => by
    have hx0 := hx x (by simp)
    have hrest : 0 ≤ (segs.map (·.length)).sum := List.sum_nonneg (by
      intro y hy
      obtain ⟨z, hz, rfl⟩ := List.mem_map.1 hy
      exact hx z (by simp [hz]))
    have hp : 0 < s + x.length := by
      rcases hs.lt_or_eq with h1 | h1
      · linarith
      · have := h0 h1.symm x rfl
        linarith
    rw [List.map_cons, List.sum_cons] at hL
    have hle : s + x.length ≤ pathLength F a b := by linarith
    have e : Vector3D.add a (Vector3D.smul (s + x.length) (direction F a b)) = pointAt F a b (s + x.length) := rfl
    have hd : a ≠ pointAt F a b (s + x.length) := (straight_on h hp).differ
    obtain ⟨q1, -⟩ := ask (h := h) R hthick htot htr hp hle hh
    have hh1 : ∀ y ∈ hist ++ [(Query.nRadlen, a, pointAt F a b (s + x.length))], y.2.1 ≠ y.2.2 := by
      intro y hy
      rcases List.mem_append.1 hy with hy | hy
      · exact hh y hy
      · rw [List.mem_singleton] at hy; subst hy; exact hd
    obtain ⟨-, q2⟩ := ask (h := h) R hthick htot htr hp hle hh1
    have hh2 : ∀ y ∈ (hist ++ [(Query.nRadlen, a, pointAt F a b (s + x.length))]) ++ [(Query.nIntlen, a, pointAt F a b (s + x.length))], y.2.1 ≠ y.2.2 := by
      intro y hy
      rcases List.mem_append.1 hy with hy | hy
      · exact hh1 y hy
      · rw [List.mem_singleton] at hy; subst hy; exact hd
    have ih := loop_lines h R hthick htot htr segs _ (s + x.length) hh2 hp.le (fun y hy => hx y (by simp [hy])) (fun e => absurd e hp.ne')
      (by linarith)
    simp only [List.map_cons, materialLoop, linesOf, e]
    have r1 : (query tr (run tr hist) .nRadlen a (pointAt F a b (s + x.length))).2
        = run tr (hist ++ [(Query.nRadlen, a, pointAt F a b (s + x.length))]) := by rw [run_append]
    rw [r1]
    have r2 : (query tr (run tr (hist ++ [(Query.nRadlen, a, pointAt F a b (s + x.length))])) .nIntlen a (pointAt F a b (s + x.length))).2
        = run tr ((hist ++ [(Query.nRadlen, a, pointAt F a b (s + x.length))]) ++ [(Query.nIntlen, a, pointAt F a b (s + x.length))]) := by
      rw [run_append tr (hist ++ _)]
    rw [r2, q1, q2, ih]
    rfl

end

theorem lines_material (F : Fns K) (a b : V3 K) (ray : List (Node K × K)) : ∀ (segs : List (Seg K)) (s : K),
    (linesOf F a b ray s segs).map (·.material) = segs.map (·.node.material) ∧
    (linesOf F a b ray s segs).map (·.thickness) = segs.map (fun x => x.length * 10)
  | [], _ => ⟨rfl, rfl⟩
  | x :: r, s => by
    obtain ⟨h1, h2⟩ := lines_material F a b ray r (s + x.length)
    simp only [linesOf, List.map_cons, h1, h2, and_self]

theorem lines_at (F : Fns K) (a b : V3 K) (ray : List (Node K × K)) : ∀ (segs : List (Seg K)) (s : K) (j : ℕ) (l : Line K),
    (linesOf F a b ray s segs)[j]? = some l →
    l.start = Vector3D.smul 10 a ∧ l.stop = Vector3D.smul 10 (pointAt F a b (s + ((segs.take (j + 1)).map (·.length)).sum)) ∧
    l.radLengths = weighted (fun nd => nd.radLen⁻¹) (crossed (s + ((segs.take (j + 1)).map (·.length)).sum) ray) ∧
    l.intLengths = weighted (fun nd => nd.intLen⁻¹) (crossed (s + ((segs.take (j + 1)).map (·.length)).sum) ray)
  | [], _, _, _, h => by simp [linesOf] at h
  | x :: r, s, 0, l, h => by
    simp only [linesOf, List.getElem?_cons_zero, Option.some.injEq] at h
    subst h
    simp
  | x :: r, s, j + 1, l, h => by
    simp only [linesOf, List.getElem?_cons_succ] at h
    have := lines_at F a b ray r _ j l h
    simpa only [List.take_succ_cons, List.map_cons, List.sum_cons, ← add_assoc] using this

theorem lines_last (F : Fns K) (a b : V3 K) (ray : List (Node K × K)) : ∀ (segs : List (Seg K)) (s : K), segs ≠ [] →
    ((linesOf F a b ray s segs).getLast?).map (·.stop) = some (Vector3D.smul 10 (pointAt F a b (s + (segs.map (·.length)).sum)))
  | [], _, h => absurd rfl h
  | [x], s, _ => by simp [linesOf]
  | x :: y :: r, s, _ => by
    have := lines_last F a b ray (y :: r) (s + x.length) (by simp)
    rw [linesOf, linesOf, List.getLast?_cons_cons, ← linesOf, this]
    simp [add_assoc]

/-- Millimetres are ten times what the geometry is asked for. -/
theorem mm (q : V3 K) : Vector3D.smul 10 (Vector3D.smul (1 / 10) q) = q := by
  have e : ∀ u : K, 10 * (1 / 10 * u) = u := fun u => by field_simp
  simp only [Vector3D.smul, e]

/-! ### C138 -/

/-- printMaterials prints a line for each piece of the path between two points (given in millimetres), in the order of the path: its
material and its thickness in millimetres.  The pieces are the volumes, each in one piece or cut into several, and possibly one piece of
no length at the end.  Every line starts at the first point and ends where its piece ends; the numbers of radiation and interaction
lengths are those from the first point up to there, not those of the piece.  The last line ends at the second point. -/
theorem printMaterials_partial [Archimedean K] {F : Fns K} {N : Nav K} {q0 q1 a b : V3 K} (ha : a = Vector3D.smul (1 / 10) q0)
    (hb : b = Vector3D.smul (1 / 10) q1) {ray : List (Node K × K)} {tr : V3 K → V3 K → Res (List (Seg K))} (h : Straight F a b)
    (R : Rides F N a b ray) (hthick : ∀ x ∈ ray, Thick x.2) (htot : pathLength F a b + 500 ≤ total ray)
    (htr : ∀ p n r, trace F N n a p = some r → tr a p = r) :
    ∃ (pieces z : List (Seg K)) (lines : List (Line K)), Split (crossed (pathLength F a b) ray) pieces ∧ (z = [] ∨ ∃ m, z = [⟨0, m⟩]) ∧
      printMaterials F tr q0 q1 = .ok lines ∧
      lines.map (·.material) = (pieces ++ z).map (·.node.material) ∧
      lines.map (·.thickness) = (pieces ++ z).map (fun x => x.length * 10) ∧
      (∀ j l, lines[j]? = some l → l.start = q0 ∧ ∀ t, t = (((pieces ++ z).take (j + 1)).map (·.length)).sum →
        l.stop = Vector3D.smul 10 (pointAt F a b t) ∧
        l.radLengths = weighted (fun nd => nd.radLen⁻¹) (crossed t ray) ∧
        l.intLengths = weighted (fun nd => nd.intLen⁻¹) (crossed t ray)) ∧
      lines.getLast?.map (·.stop) = some q1 := by
  obtain ⟨segs, z, hs, hz, n, hn⟩ := trace_partial h R hthick htot
  have hok := htr _ _ _ hn
  obtain ⟨n1, -, n3, -, -⟩ := answers tr a b h.differ _ hok
  have hh1 : ∀ y ∈ [(Query.materialNames, a, b)], y.2.1 ≠ y.2.2 := by
    intro y hy; rw [List.mem_singleton] at hy; subst hy; exact h.differ
  have hh2 : ∀ y ∈ [(Query.materialNames, a, b), (Query.thicknesses, a, b)], y.2.1 ≠ y.2.2 := by
    intro y hy
    simp only [List.mem_cons, List.not_mem_nil, or_false] at hy
    rcases hy with rfl | rfl <;> exact h.differ
  have n3' := (history_partial tr [(Query.materialNames, a, b)] .thicknesses a b
    (Or.inr ⟨fun x hx e => absurd e (hh1 x hx), _, hok⟩)).trans n3
  have hpos := split_pos hs (crossed_pos _ _ (fun x hx => (hthick x hx).1))
  have hsum : ((segs ++ z).map (·.length)).sum = pathLength F a b := by
    have := trace_weight h R hthick htot hn (fun _ => 1)
    rw [← crossed_total ray (pathLength F a b) (length_pos h).le (by linarith)]
    simpa [weighted] using this
  have hne : segs ≠ [] := by
    rintro rfl
    have : (z.map (·.length)).sum = 0 := by rcases hz with rfl | ⟨m, rfl⟩ <;> simp
    rw [List.nil_append, this] at hsum
    exact (length_pos h).ne hsum
  have hloop := loop_lines h R hthick htot htr (segs ++ z) [(Query.materialNames, a, b), (Query.thicknesses, a, b)] 0 hh2 le_rfl
    (by
      intro x hx
      rcases List.mem_append.1 hx with hx | hx
      · exact (hpos x hx).le
      · rcases hz with rfl | ⟨m, rfl⟩
        · simp at hx
        · rw [List.mem_singleton] at hx; subst hx; exact le_rfl)
    (by
      intro _ x hx
      cases segs with
      | nil => exact absurd rfl hne
      | cons y r =>
        simp only [List.cons_append, List.head?_cons, Option.some.injEq] at hx
        subst hx
        exact hpos y (by simp))
    (by rw [zero_add, hsum])
  refine ⟨segs, z, linesOf F a b ray 0 (segs ++ z), hs, hz, ?_, (lines_material F a b ray _ 0).1, (lines_material F a b ray _ 0).2, ?_, ?_⟩
  · unfold printMaterials
    simp only [← ha, ← hb, unitDirection_eq]
    have e1 : (query tr init .materialNames a b).2 = run tr [(Query.materialNames, a, b)] := rfl
    rw [e1, n1, n3']
    exact hloop
  · intro j l hl
    have := lines_at F a b ray _ 0 j l hl
    rw [zero_add] at this
    refine ⟨?_, fun t ht => ?_⟩
    · rw [this.1, ha, mm]
    · rw [ht]; exact this.2
  · rw [lines_last F a b ray _ 0 (by simp [hne]), zero_add, hsum, pointAt_end h, hb, mm]

/-- Between a point and itself nothing is printed. -/
theorem printMaterials_same (F : Fns K) (tr : V3 K → V3 K → Res (List (Seg K))) (q : V3 K) : printMaterials F tr q q = .ok [] := by
  unfold printMaterials
  dsimp only
  rw [(answers_equal tr init _).1, (answers_equal tr _ _).2.2.1]
  rfl

/-- The outcome of following a path, whatever the number of passes. -/
noncomputable def outcome (F : Fns K) (N : Nav K) (a p : V3 K) : Res (List (Seg K)) := by
  classical
  exact if h : ∃ r n, trace F N n a p = some r then h.choose else .ub

theorem outcome_eq (F : Fns K) (N : Nav K) (a p : V3 K) (n : ℕ) (r : Res (List (Seg K))) (h : trace F N n a p = some r) :
    outcome F N a p = r := by
  have he : ∃ r n, trace F N n a p = some r := ⟨r, n, h⟩
  unfold outcome
  rw [dif_pos he]
  obtain ⟨m, hm⟩ := he.choose_spec
  have h1 := trace_mono F N a p h m
  have h2 := trace_mono F N a p hm n
  rw [Nat.add_comm, h1] at h2
  exact (Option.some.inj h2).symm

/-- The hypotheses of `printMaterials_partial` are met by a path of ten metres through air, iron and lead. -/
example : origin = Vector3D.smul (1 / 10) origin ∧ far = Vector3D.smul (1 / 10) ⟨6000, 0, 8000⟩ ∧ Straight ratFns origin far ∧
    Nonempty (Rides ratFns (rayNav ratFns origin far ray) origin far ray) ∧ (∀ x ∈ ray, Thick x.2) ∧
    pathLength ratFns origin far + 500 ≤ total ray ∧
    (∀ p n r, trace ratFns (rayNav ratFns origin far ray) n origin p = some r →
      outcome ratFns (rayNav ratFns origin far ray) origin p = r) := by
  refine ⟨by decide +kernel, by decide +kernel, straight_far, ⟨rayNav_rides _ _ _ _⟩, ?_, ?_, fun p n r => outcome_eq _ _ _ _ _ _⟩
  · intro x hx
    simp only [ray, List.mem_cons, List.not_mem_nil, or_false] at hx
    rcases hx with rfl | rfl | rfl | rfl
    · exact thick_700
    · exact thick_small (by norm_num) (by norm_num)
    · exact thick_small (by norm_num) (by norm_num)
    · exact thick_2000
  · rw [far_length]; norm_num [total, ray]

/-- What is printed for that path.  The third line is the iron, of 200 mm; the numbers of lengths are those of the air before it and of the
iron. -/
example : printMaterials ratFns (fun a p => (trace ratFns (rayNav ratFns origin far ray) 20 a p).getD .ub) origin ⟨6000, 0, 8000⟩ =
    .ok [⟨"Air", 5000, 500 / 300, 500 / 700, origin, ⟨3000, 0, 4000⟩⟩,
      ⟨"Air", 2000, 700 / 300, 1, origin, ⟨4200, 0, 5600⟩⟩,
      ⟨"Fe", 200, 700 / 300 + 20 / 18, 1 + 20 / 170, origin, ⟨4320, 0, 5760⟩⟩,
      ⟨"Pb", 1000, 700 / 300 + 20 / 18 + 100 / 6, 1 + 120 / 170, origin, ⟨4920, 0, 6560⟩⟩,
      ⟨"Air", 1800, 700 / 300 + 20 / 18 + 100 / 6 + 180 / 300, 1 + 120 / 170 + 180 / 700, origin, ⟨6000, 0, 8000⟩⟩] := by decide +kernel

/-- It is false that a line shows the numbers of radiation and interaction lengths of its piece, and where that begins: the line of the
iron counts the air before it. -/
theorem piece_false : ∃ (N : Nav ℚ) (tr : V3 ℚ → V3 ℚ → Res (List (Seg ℚ))) (lines : List (Line ℚ)) (l : Line ℚ),
    Nonempty (Rides ratFns N origin far ray) ∧ (∀ a p r, trace ratFns N 20 a p = some r → tr a p = r) ∧
    printMaterials ratFns tr origin ⟨6000, 0, 8000⟩ = .ok lines ∧ lines[2]? = some l ∧ l.material = iron.material ∧
    l.radLengths ≠ l.thickness / 10 / iron.radLen ∧ l.intLengths ≠ l.thickness / 10 / iron.intLen ∧
    l.start ≠ Vector3D.smul 10 (pointAt ratFns origin far 700) := by
  refine ⟨rayNav ratFns origin far ray, fun a p => (trace ratFns (rayNav ratFns origin far ray) 20 a p).getD .ub,
    [⟨"Air", 5000, 500 / 300, 500 / 700, origin, ⟨3000, 0, 4000⟩⟩,
      ⟨"Air", 2000, 700 / 300, 1, origin, ⟨4200, 0, 5600⟩⟩,
      ⟨"Fe", 200, 700 / 300 + 20 / 18, 1 + 20 / 170, origin, ⟨4320, 0, 5760⟩⟩,
      ⟨"Pb", 1000, 700 / 300 + 20 / 18 + 100 / 6, 1 + 120 / 170, origin, ⟨4920, 0, 6560⟩⟩,
      ⟨"Air", 1800, 700 / 300 + 20 / 18 + 100 / 6 + 180 / 300, 1 + 120 / 170 + 180 / 700, origin, ⟨6000, 0, 8000⟩⟩],
    ⟨"Fe", 200, 700 / 300 + 20 / 18, 1 + 20 / 170, origin, ⟨4320, 0, 5760⟩⟩, ⟨rayNav_rides _ _ _ _⟩,
    fun a p r e => by simp only [e, Option.getD_some], by decide +kernel, rfl, by decide, by decide +kernel, by decide +kernel, by decide +kernel⟩

end Gear.TGeoDistance
