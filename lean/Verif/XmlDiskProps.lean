/-
Disk layouts in XML: C63.
-/
import Verif.XmlLayoutsProps

set_option autoImplicit false
set_option linter.unusedSectionVars false

namespace Gear.Xml

open Spec
open Rect (elem elemUb)

theorem layoutFromXML_padSize (pi : ℚ) (attrs : List (String × List Char)) (cs : List Node) :
    layoutFromXML pi (el "PadRowLayout2D" (("type", "FixedPadSizeDiskLayout".toList) :: attrs) cs)
      = asLayout .padSize (padSizeFromXML pi (el "PadRowLayout2D" (("type", "FixedPadSizeDiskLayout".toList) :: attrs) cs)) := by
  unfold layoutFromXML
  rw [attrOf_el]
  rfl

theorem layoutFromXML_padAngle (pi : ℚ) (attrs : List (String × List Char)) (cs : List Node) :
    layoutFromXML pi (el "PadRowLayout2D" (("type", "FixedPadAngleDiskLayout".toList) :: attrs) cs)
      = asLayout .padAngle (padAngleFromXML (el "PadRowLayout2D" (("type", "FixedPadAngleDiskLayout".toList) :: attrs) cs)) := by
  unfold layoutFromXML
  rw [attrOf_el]
  rfl

theorem layoutFromXML_versatile (pi : ℚ) (attrs : List (String × List Char)) (cs : List Node) :
    layoutFromXML pi (el "PadRowLayout2D" (("type", "VersatileDiskRowLayout".toList) :: attrs) cs)
      = asLayout .versatile (versatileFromXML pi (el "PadRowLayout2D" (("type", "VersatileDiskRowLayout".toList) :: attrs) cs)) := by
  unfold layoutFromXML
  rw [attrOf_el]
  rfl

/-! ### Disks with a fixed pad size -/

/-- The element of a layout built with the arguments `A`. -/
def padSizeNode (pi : ℚ) (A : PadSize.Spec.Args ℚ) : Node :=
  el "PadRowLayout2D" [("type", "FixedPadSizeDiskLayout".toList), ("rMin", formatE A.rMin), ("rMax", formatE A.rMax),
    ("padHeight", formatE A.padHeight), ("padWidth", formatE A.padWidth),
    ("maxRow", printInt (PadSize.numRows A.rMin A.rMax A.padHeight A.nRow)), ("padGap", formatE A.padGap),
    ("phiMax", formatE (PadSize.wrapPhiMax pi A.phiMax))] []

theorem padSizeToXML_eq {F : Disk.Fns ℚ} {A : PadSize.Spec.Args ℚ} {L : PadSize.Layout ℚ} (h : PadSize.Spec.Made F A L) :
    padSizeToXML L = .ok (padSizeNode F.pi A) := by
  have i := PadSize.inv_made h
  unfold padSizeToXML PadSize.getPlaneExtent PadSize.getPadHeight PadSize.getFixedPadWidth PadSize.getNRows PadSize.getPadGap
  rw [i.extent, i.padHeight, i.padWidth, i.padGap, PadSize.length_rows i, i.nRow, i.phiMax]
  rfl

theorem padSizeFromXML_eq (pi : ℚ) {A : PadSize.Spec.Args ℚ} (hi : IsInt (PadSize.numRows A.rMin A.rMax A.padHeight A.nRow)) :
    padSizeFromXML pi (padSizeNode pi A) = PadSize.new pi (r10 A.rMin) (r10 A.rMax) (r10 A.padHeight) (r10 A.padWidth)
      (PadSize.numRows A.rMin A.rMax A.padHeight A.nRow) (r10 A.padGap) (r10 (PadSize.wrapPhiMax pi A.phiMax)) := by
  unfold padSizeFromXML padSizeNode
  repeat rw [num_el rfl, Res.bind_ok]
  rw [int_el rfl hi, Res.bind_ok, num_el rfl, Res.bind_ok, numOr_el _ rfl, Res.bind_ok]

theorem wrapPhiMax_wrap {pi : ℚ} (hp : 0 < pi) (x : ℚ) :
    PadSize.wrapPhiMax pi (PadSize.wrapPhiMax pi x) = PadSize.wrapPhiMax pi x := by
  have h1 : PadSize.wrapPhiMax pi x ≤ 2 * pi := Disk.wrapDown_le hp _
  have h2 : -2 * pi ≤ PadSize.wrapPhiMax pi x := by
    unfold PadSize.wrapPhiMax
    have := Disk.wrapUp_ge (lo := -2 * pi) hp x
    rcases le_or_gt (Disk.wrapUp pi (-2 * pi) x) (2 * pi) with h | h
    · rw [Disk.wrapDown_id h]; exact this
    · have := Disk.wrapDown_gt hp h
      linarith
  rw [PadSize.wrapPhiMax, Disk.wrapUp_id h2, Disk.wrapDown_id h1]

theorem numRows_numRows (rMin rMax h : ℚ) (n : ℤ) :
    PadSize.numRows rMin rMax h (PadSize.numRows rMin rMax h n) = PadSize.numRows rMin rMax h n := by
  unfold PadSize.numRows
  dsimp only
  split_ifs <;> omega

/-- C63: every layout with fixed pad size, however it was used since it was built, is written, and is read back by the constructor,
called with the numbers rounded to ten digits. -/
theorem padSize_roundtrip_partial (F : Disk.Fns ℚ) (A : PadSize.Spec.Args ℚ) (L : PadSize.Layout ℚ)
    (h : PadSize.Spec.Made F A L) (hi : IsInt (PadSize.getNRows L)) :
    ∃ e, layoutToXML (.padSize L) = .ok e ∧ layoutFromXML F.pi e = asLayout .padSize
      (PadSize.new F.pi (r10 A.rMin) (r10 A.rMax) (r10 A.padHeight) (r10 A.padWidth) (PadSize.getNRows L) (r10 A.padGap)
        (r10 (PadSize.wrapPhiMax F.pi A.phiMax))) := by
  have i := PadSize.inv_made h
  unfold PadSize.getNRows at hi ⊢
  rw [PadSize.length_rows i, i.nRow] at hi ⊢
  exact ⟨_, padSizeToXML_eq h, by rw [← padSizeFromXML_eq F.pi hi]; exact layoutFromXML_padSize ..⟩

/-- C63: a layout with fixed pad size whose numbers have at most ten digits is read back as the layout that was built with the
same arguments: all that is lost are the lists of pads that were computed since. -/
theorem padSize_exact_partial (F : Disk.Fns ℚ) (hp : 0 < F.pi) (A : PadSize.Spec.Args ℚ) (L0 L : PadSize.Layout ℚ)
    (h0 : PadSize.new F.pi A.rMin A.rMax A.padHeight A.padWidth A.nRow A.padGap A.phiMax = .ok L0)
    (h : PadSize.Spec.Made F A L) (hi : IsInt (PadSize.getNRows L))
    (hx : ∀ x ∈ [A.rMin, A.rMax, A.padHeight, A.padWidth, A.padGap, PadSize.wrapPhiMax F.pi A.phiMax], TenDigits x) :
    ∃ e, layoutToXML (.padSize L) = .ok e ∧ layoutFromXML F.pi e = .ok (.padSize L0) := by
  obtain ⟨e, h1, h2⟩ := padSize_roundtrip_partial F A L h hi
  refine ⟨e, h1, ?_⟩
  rw [h2]
  simp only [List.forall_mem_cons] at hx
  obtain ⟨t1, t2, t3, t4, t5, t6, -⟩ := hx
  rw [r10_eq t1, r10_eq t2, r10_eq t3, r10_eq t4, r10_eq t5, r10_eq t6, PadSize.getNRows,
    PadSize.length_rows (PadSize.inv_made h), (PadSize.inv_made h).nRow]
  have : PadSize.new F.pi A.rMin A.rMax A.padHeight A.padWidth (PadSize.numRows A.rMin A.rMax A.padHeight A.nRow) A.padGap
      (PadSize.wrapPhiMax F.pi A.phiMax) = .ok L0 := by
    rw [← h0]
    unfold PadSize.new
    rw [wrapPhiMax_wrap hp, numRows_numRows]
  rw [this]
  rfl

/-- What the layouts answer is the same before and after: the two differ at most in the lists of pads computed so far. -/
theorem padSize_same (F : Disk.Fns ℚ) (A : PadSize.Spec.Args ℚ) (L0 L : PadSize.Layout ℚ)
    (h0 : PadSize.new F.pi A.rMin A.rMax A.padHeight A.padWidth A.nRow A.padGap A.phiMax = .ok L0)
    (h : PadSize.Spec.Made F A L) : L0 = { L with padIndices := L0.padIndices } := by
  have i0 := PadSize.inv_made (PadSize.Spec.Made.new h0)
  have i := PadSize.inv_made h
  have hn : L0.nRow = L.nRow := by rw [i0.nRow, i.nRow]
  have hp : L0.phiMax = L.phiMax := by rw [i0.phiMax, i.phiMax]
  have hh : L0.rowHeight = L.rowHeight := by rw [i0.rowHeight, i.rowHeight, hn]
  have hr : L0.rows = L.rows := by rw [i0.rows, i.rows, hn, hp, hh]
  have e1 := i0.rMin.trans i.rMin.symm
  have e2 := i0.rMax.trans i.rMax.symm
  have e3 := i0.padWidth.trans i.padWidth.symm
  have e4 := i0.padHeight.trans i.padHeight.symm
  have e5 := i0.padGap.trans i.padGap.symm
  have e6 : L0.nPad = L.nPad := by rw [i0.nPad, i.nPad, hr]
  have e7 : L0.extent = L.extent := by rw [i0.extent, i.extent, hp]
  obtain ⟨⟩ := L0
  obtain ⟨⟩ := L
  simp only at hn hp hh hr e1 e2 e3 e4 e5 e6 e7
  subst hn hp hh hr e1 e2 e3 e4 e5 e6 e7
  rfl

/-- A quarter of a disk. -/
def exampleSize : PadSize.Spec.Args ℚ := ⟨300, 1000, 6.5, 2.25, 0, 0.1, 1.5⟩

example : ∃ L e, PadSize.new (355 / 113) 300 1000 6.5 2.25 0 0.1 1.5 = .ok L ∧ L.rows.length = 107
    ∧ layoutToXML (.padSize L) = .ok e ∧ layoutFromXML (355 / 113) e = .ok (.padSize L) := by
  have : (match PadSize.new (355 / 113 : ℚ) 300 1000 6.5 2.25 0 0.1 1.5 with
    | .ok L => decide (L.rows.length = 107) | _ => false) = true := by decide +kernel
  cases h : PadSize.new (355 / 113 : ℚ) 300 1000 6.5 2.25 0 0.1 1.5 with
  | ok L =>
    rw [h] at this
    have hl := of_decide_eq_true this
    obtain ⟨e, h1, h2⟩ := padSize_exact_partial ⟨355 / 113, id, id, id⟩ (by norm_num) exampleSize L L h (.new h)
      (by unfold PadSize.getNRows IsInt; rw [hl]; decide) (tenDigits_of 4 (by decide +kernel))
    exact ⟨L, e, rfl, hl, h1, h2⟩
  | throw e => rw [h] at this; cases this
  | ub => rw [h] at this; cases this

/-- C63 is false for other numbers: a layout of three rows of height two thirds is read back with two rows. -/
theorem padSize_false : ∃ (pi : ℚ) (L L' : PadSize.Layout ℚ) (e : Node), 3 < pi
      ∧ PadSize.new pi 0 1.99 (2 / 3) 0.1 0 0 1.5 = .ok L ∧ layoutToXML (.padSize L) = .ok e
      ∧ layoutFromXML pi e = .ok (.padSize L') ∧ PadSize.getNRows L = 3 ∧ PadSize.getNRows L' = 2 := by
  have h1 : (match PadSize.new (355 / 113 : ℚ) 0 1.99 (2 / 3) 0.1 0 0 1.5 with
    | .ok L => decide (PadSize.getNRows L = 3) | _ => false) = true := by decide +kernel
  have h2 : (match PadSize.new (355 / 113 : ℚ) (r10 0) (r10 1.99) (r10 (2 / 3)) (r10 0.1) 3 (r10 0)
      (r10 (PadSize.wrapPhiMax (355 / 113) 1.5)) with
    | .ok L => decide (PadSize.getNRows L = 2) | _ => false) = true := by decide +kernel
  cases h : PadSize.new (355 / 113 : ℚ) 0 1.99 (2 / 3) 0.1 0 0 1.5 with
  | ok L =>
    rw [h] at h1
    have hl := of_decide_eq_true h1
    obtain ⟨e, he, hr⟩ := padSize_roundtrip_partial ⟨355 / 113, id, id, id⟩ ⟨0, 1.99, 2 / 3, 0.1, 0, 0, 1.5⟩ L (.new h)
      (by rw [hl]; unfold IsInt; decide)
    rw [hl] at hr
    dsimp only at hr
    cases h' : PadSize.new (355 / 113 : ℚ) (r10 0) (r10 1.99) (r10 (2 / 3)) (r10 0.1) 3 (r10 0)
      (r10 (PadSize.wrapPhiMax (355 / 113) 1.5)) with
    | ok L' =>
      rw [h'] at h2 hr
      exact ⟨_, L, L', e, by norm_num, h, he, hr, hl, of_decide_eq_true h2⟩
    | throw e => rw [h'] at h2; cases h2
    | ub => rw [h'] at h2; cases h2
  | throw e => rw [h] at h1; cases h1
  | ub => rw [h] at h1; cases h1

/-! ### Disks with a fixed pad angle -/

theorem padAngle_made {A : PadAngle.Spec.Args ℚ} {L : PadAngle.Layout ℚ} (h : PadAngle.Spec.Made A L) :
    L.extent = [A.rMin, A.rMax, A.phiMin, A.phiMax] ∧ L.nRow = A.nRow ∧ L.nPadsInRow = A.nPads := by
  induction h with
  | new h =>
    unfold PadAngle.new at h
    split_ifs at h
    cases h
    exact ⟨rfl, rfl, rfl⟩
  | @padsInRow L row _ ih =>
    unfold PadAngle.getPadsInRow
    repeat' split
    all_goals exact ih
  | copy _ ih => exact ih

/-- C63 is false for every layout with a fixed pad angle: it is written, but reading what was written throws, since the number of
pads is asked for under another name. -/
theorem padAngle_false (pi : ℚ) (A : PadAngle.Spec.Args ℚ) (L : PadAngle.Layout ℚ) (h : PadAngle.Spec.Made A L) (hi : IsInt A.nRow) :
    ∃ e, layoutToXML (.padAngle L) = .ok e ∧ layoutFromXML pi e = .throw .parse := by
  obtain ⟨h1, h2, h3⟩ := padAngle_made h
  refine ⟨el "PadRowLayout2D" [("type", "FixedPadAngleDiskLayout".toList), ("rMin", formatE A.rMin), ("rMax", formatE A.rMax),
    ("nRow", printInt A.nRow), ("phiMin", formatE A.phiMin), ("phiMax", formatE A.phiMax), ("nPadInRow", printInt A.nPads)] [], ?_, ?_⟩
  · show padAngleToXML L = _
    unfold padAngleToXML PadAngle.getPlaneExtent PadAngle.getNRows PadAngle.getNPadsInRow
    rw [h1, h2, h3]
    rfl
  · rw [layoutFromXML_padAngle, padAngleFromXML]
    repeat rw [num_el rfl, Res.bind_ok]
    rw [int_el rfl hi, Res.bind_ok]
    repeat rw [num_el rfl, Res.bind_ok]
    rw [int, attrOf_el]
    rfl

/-- C63: an element with the attributes the reader asks for is read as the layout with these numbers, rounded to ten digits. -/
theorem padAngle_read_partial (pi : ℚ) (A : PadAngle.Spec.Args ℚ) (hi : IsInt A.nRow) (hj : IsInt A.nPads) (cs : List Node) :
    layoutFromXML pi (el "PadRowLayout2D" [("type", "FixedPadAngleDiskLayout".toList), ("rMin", formatE A.rMin),
      ("rMax", formatE A.rMax), ("nRow", printInt A.nRow), ("phiMin", formatE A.phiMin), ("phiMax", formatE A.phiMax),
      ("nPadsInRow", printInt A.nPads)] cs)
      = asLayout .padAngle (PadAngle.new (r10 A.rMin) (r10 A.rMax) A.nRow (r10 A.phiMin) (r10 A.phiMax) A.nPads) := by
  rw [layoutFromXML_padAngle, padAngleFromXML]
  repeat rw [num_el rfl, Res.bind_ok]
  rw [int_el rfl hi, Res.bind_ok]
  repeat rw [num_el rfl, Res.bind_ok]
  rw [int_el rfl hj, Res.bind_ok]

/-- A disk of ten rows with 36 pads each. -/
def exampleAngle : PadAngle.Spec.Args ℚ := ⟨300, 1000, 10, 0, 1.5, 36⟩

example : ∃ L, PadAngle.new 300 1000 10 0 1.5 36 = .ok L ∧ PadAngle.Spec.Made exampleAngle L ∧ IsInt exampleAngle.nRow
    ∧ IsInt exampleAngle.nPads := by
  refine ⟨_, rfl, .new rfl, ?_, ?_⟩ <;> (unfold IsInt; decide)

/-! ### Disks with arbitrary rows -/

/-- What is given to `addRow` when a row is read: the angles, rounded, stand for lengths. -/
def versatileArgs (row : Versatile.Row ℚ) : Versatile.RowArgs ℚ :=
  ⟨row.nPads, r10 row.padPitch, r10 row.rowHeight, r10 row.offset, 0, r10 row.padHeight, 1⟩

theorem versatileReadRow_eq (pi : ℚ) (L : Versatile.Layout ℚ) {row : Versatile.Row ℚ} (hi : IsInt row.nPads) :
    versatileReadRow pi L (versatileRowNode row) = called (Versatile.addRow pi L (versatileArgs row)) := by
  unfold versatileReadRow versatileRowNode
  rw [int_el rfl hi, Res.bind_ok]
  repeat rw [num_el rfl, Res.bind_ok]
  rw [numOr_el_none _ rfl, Res.bind_ok]
  repeat rw [numOr_el _ rfl, Res.bind_ok]
  rw [intOr_el_none _ rfl, Res.bind_ok]
  rfl

theorem versatile_built {pi rMin : ℚ} : ∀ (l : List (Versatile.RowArgs ℚ)) {as : List (Versatile.RowArgs ℚ)} {L0 L : Versatile.Layout ℚ},
    Versatile.Spec.Built pi rMin as L0 → l.foldlM (fun L a => called (Versatile.addRow pi L a)) L0 = .ok L →
    Versatile.Spec.Built pi rMin (as ++ l) L
  | [], as, L0, L, hb, h => by cases h; simpa using hb
  | a :: l, as, L0, L, hb, h => by
    rw [List.foldlM_cons] at h
    rcases ha : Versatile.addRow pi L0 a with ⟨L1, ⟨⟨⟩⟩ | e | _⟩
    · rw [ha] at h
      have := versatile_built l (.addRow a hb ha) h
      simpa using this
    all_goals rw [ha] at h; cases h

/-- C63: every versatile layout is written, and is read back by calls of `addRow`, one for each row, to which the pitch and the
offset are given as the angles that were written. -/
theorem versatile_roundtrip_partial (pi : ℚ) (L : Versatile.Layout ℚ) (hi : ∀ row ∈ L.rows, IsInt row.nPads) :
    ∃ e, layoutToXML (.versatile L) = .ok e ∧ layoutFromXML pi e = asLayout .versatile
      ((L.rows.map versatileArgs).foldlM (fun L a => called (Versatile.addRow pi L a)) (Versatile.new (r10 L.ext0))) := by
  refine ⟨_, rfl, ?_⟩
  rw [layoutFromXML_versatile, versatileFromXML, num_el rfl, Res.bind_ok, named_of_all (by simp [versatileRowNode]), foldlM_map',
    foldlM_map']
  have hc : ∀ L0 : Versatile.Layout ℚ, L.rows.foldlM (fun L a => versatileReadRow pi L (versatileRowNode a)) L0
      = L.rows.foldlM (fun L a => called (Versatile.addRow pi L (versatileArgs a))) L0 :=
    foldlM_congr fun L a ha => versatileReadRow_eq pi L (hi a ha)
  rw [hc]

theorem flat_versatileArgs (l : List (Versatile.Row ℚ)) : Versatile.Spec.flat (l.map versatileArgs) = l.map versatileArgs := by
  unfold Versatile.Spec.flat
  induction l with
  | nil => rfl
  | cons a l ih => rw [List.map_cons, List.flatMap_cons, ih]; rfl

/-- C63: when a versatile layout that was written can be read, the rows, their numbers of pads and their heights are those that were
written, rounded; the pitch angle is the written one divided by the radius of the row, and the pads have no gaps. -/
theorem versatile_rows_partial (pi : ℚ) (L L' : Versatile.Layout ℚ) (hi : ∀ row ∈ L.rows, IsInt row.nPads) (e : Node)
    (h : layoutToXML (.versatile L) = .ok e) (h' : layoutFromXML pi e = .ok (.versatile L')) :
    Versatile.getNRows L' = Versatile.getNRows L ∧ L'.ext0 = r10 L.ext0
    ∧ ∀ (i : ℕ) (row : Versatile.Row ℚ), L.rows[i]? = some row → ∃ row', L'.rows[i]? = some row' ∧ row'.nPads = row.nPads
      ∧ row'.rowHeight = r10 row.rowHeight
      ∧ row'.padHeight = (if r10 row.padHeight = 0 then r10 row.rowHeight else r10 row.padHeight)
      ∧ row'.rCentre = r10 L.ext0 + ((L.rows.take i).map fun r => r10 r.rowHeight).sum + r10 row.rowHeight / 2
      ∧ row'.padPitch = r10 row.padPitch / row'.rCentre ∧ row'.padWidth = row'.padPitch := by
  obtain ⟨e', he, hr⟩ := versatile_roundtrip_partial pi L hi
  rw [h] at he
  cases he
  rw [h'] at hr
  cases hf : (L.rows.map versatileArgs).foldlM (fun L a => called (Versatile.addRow pi L a)) (Versatile.new (r10 L.ext0)) with
  | throw e => rw [hf] at hr; cases hr
  | ub => rw [hf] at hr; cases hr
  | ok L1 =>
    rw [hf] at hr
    cases hr
    have b := Versatile.binv_built (versatile_built _ .new hf)
    rw [List.nil_append] at b
    have bl := b.len
    rw [flat_versatileArgs, List.length_map] at bl
    refine ⟨by simp [Versatile.getNRows, bl], b.ext0, fun i row hrow => ?_⟩
    obtain ⟨row', h1, h2⟩ := b.row i (versatileArgs row) (by rw [flat_versatileArgs, List.getElem?_map, hrow]; rfl)
    refine ⟨row', h1, h2.nPads, h2.rowHeight, h2.padHeight, ?_, ?_, ?_⟩
    · rw [h2.rCentre, Versatile.Spec.middle, Versatile.Spec.inner, flat_versatileArgs, ← List.map_take, List.map_map]
      rfl
    · rw [h2.padPitch, h2.rCentre]; rfl
    · rw [h2.padPitch, h2.padWidth]; rfl

/-- C63 is false for versatile layouts: whenever the layout that was written can be read, a row comes back with another pitch, unless
its pads had no pitch or its middle radius is read as one; this holds for every row whose pitch has at most ten digits. -/
theorem versatile_false (pi : ℚ) (L L' : Versatile.Layout ℚ) (hi : ∀ row ∈ L.rows, IsInt row.nPads) (e : Node)
    (h : layoutToXML (.versatile L) = .ok e) (h' : layoutFromXML pi e = .ok (.versatile L')) (i : ℕ) (row row' : Versatile.Row ℚ)
    (hr : L.rows[i]? = some row) (hr' : L'.rows[i]? = some row') (hx : TenDigits row.padPitch) (h0 : row.padPitch ≠ 0)
    (h1 : row'.rCentre ≠ 1) : row'.padPitch ≠ row.padPitch := by
  obtain ⟨-, -, hrow⟩ := versatile_rows_partial pi L L' hi e h h'
  obtain ⟨row1, e1, -, -, -, -, e2, -⟩ := hrow i row hr
  rw [hr'] at e1
  cases e1
  rw [e2, r10_eq hx]
  by_cases hc : row'.rCentre = 0
  · rw [hc, div_zero]; exact h0.symm
  · intro he
    rw [div_eq_iff hc] at he
    exact h1 (mul_left_cancel₀ h0 (by rw [mul_one]; exact he.symm))

/-- A layout of two rows with a middle radius of 100 and 106: ten pads of width 3 at a distance of 3.5 in the first. -/
def exampleVersatile : Res (Versatile.Layout ℚ) :=
  [⟨10, 3.5, 6, 0, 3, 5, 1⟩, ⟨12, 3.18, 6, 1.06, 3.18, 5, 1⟩].foldlM (fun L a => called (Versatile.addRow (355 / 113) L a)) (Versatile.new 97)

example : ∃ L L' e, exampleVersatile = .ok L ∧ layoutToXML (.versatile L) = .ok e
    ∧ layoutFromXML (355 / 113) e = .ok (.versatile L') ∧ (∀ row ∈ L.rows, IsInt row.nPads)
    ∧ L.rows.map (fun row => (row.padPitch, row.padWidth)) = [(0.035, 0.03), (0.03, 0.03)]
    ∧ L'.rows.map (fun row => (row.padPitch, row.padWidth)) = [(0.00035, 0.00035), (0.03 / 106, 0.03 / 106)] := by
  have h1 : (match exampleVersatile with
    | .ok L => decide ((∀ row ∈ L.rows, -2 ^ 31 ≤ row.nPads ∧ row.nPads < 2 ^ 31)
      ∧ L.rows.map (fun row => (row.padPitch, row.padWidth)) = [(0.035, 0.03), (0.03, 0.03)]
      ∧ (match (L.rows.map versatileArgs).foldlM (fun L a => called (Versatile.addRow (355 / 113) L a)) (Versatile.new (r10 L.ext0)) with
        | .ok L' => decide (L'.rows.map (fun row => (row.padPitch, row.padWidth)) = [(0.00035, 0.00035), (0.03 / 106, 0.03 / 106)])
        | _ => false) = true)
    | _ => false) = true := by decide +kernel
  cases h : exampleVersatile with
  | throw e => rw [h] at h1; cases h1
  | ub => rw [h] at h1; cases h1
  | ok L =>
    rw [h] at h1
    obtain ⟨hi, hp, hm⟩ := of_decide_eq_true h1
    obtain ⟨e, he, hr⟩ := versatile_roundtrip_partial (355 / 113) L hi
    cases hf : (L.rows.map versatileArgs).foldlM (fun L a => called (Versatile.addRow (355 / 113) L a)) (Versatile.new (r10 L.ext0)) with
    | throw e => rw [hf] at hm; cases hm
    | ub => rw [hf] at hm; cases hm
    | ok L' =>
      rw [hf] at hm hr
      exact ⟨L, L', e, rfl, he, hr, hi, hp, of_decide_eq_true hm⟩

/-! ### What is written can be parsed -/

theorem wellFormed_rect (b : RectBuild) : WellFormed (rectNode b) ∧ (rectNode b).isText = false := by
  refine ⟨?_, rfl⟩
  unfold rectNode
  wf_el
  intro c hc
  obtain ⟨a, -, rfl⟩ := List.mem_map.1 hc
  refine ⟨?_, rfl⟩
  unfold rectArgNode
  split_ifs
  · rw [List.cons_append, List.nil_append]
    wf_el
    simp
  · rw [List.nil_append]
    wf_el
    simp

theorem wellFormed_padSize (pi : ℚ) (A : PadSize.Spec.Args ℚ) :
    WellFormed (padSizeNode pi A) ∧ (padSizeNode pi A).isText = false := by
  refine ⟨?_, rfl⟩
  unfold padSizeNode
  wf_el
  simp

theorem wellFormed_versatile (L : Versatile.Layout ℚ) {e : Node} (h : layoutToXML (.versatile L) = .ok e) :
    WellFormed e ∧ e.isText = false := by
  cases h
  refine ⟨?_, rfl⟩
  wf_el
  intro c hc
  obtain ⟨a, -, rfl⟩ := List.mem_map.1 hc
  refine ⟨?_, rfl⟩
  unfold versatileRowNode
  wf_el
  simp

end Gear.Xml
