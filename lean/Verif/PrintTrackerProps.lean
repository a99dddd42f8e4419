/-
C160: what is printed of a TrackerPlanes layout.
-/
import Verif.PrintTracker
import Verif.PrintTableProps

set_option autoImplicit false
set_option linter.unusedSectionVars false

namespace Gear.Print.Tracker

open Xml (Text natText printInt digitsOf roundEven atoi atof isDigit isSpace)
open Telescope (Material Sensor TLayer TLayout)

/-! ### The specification -/

/-- What separates the words of a row. -/
def Separates (c : Char) : Prop := c = ' ' ∨ c = '|' ∨ c = '`' ∨ c = '\n'

instance : DecidablePred Separates := fun c => by unfold Separates; infer_instance

/-- The words of a row, when `w` has been read of the first one. -/
def wordsFrom (w : Text) : Text → List Text
  | [] => if w = [] then [] else [w]
  | c :: t => if Separates c then (if w = [] then [] else [w]) ++ wordsFrom [] t else wordsFrom (w ++ [c]) t

/-- The words of a row. -/
def words (t : Text) : List Text := wordsFrom [] t

/-- What a reader expects in a row: a text, or a number as in `Value`. -/
inductive Entry where
  | text (t : String)
  | value (v : Value)

/-- A word shows an entry. -/
def Entry.ShownBy : Entry → Text → Prop
  | .text t, w => w = t.toList
  | .value v, w => Shows v w

/-- The row of a layer: the columns `ID` and `info`. -/
def layerEntries (l : TLayer ℚ) : List Entry := [.value (.int l.id), .text l.info]

/-- The row of a scatterer: `ID`, `info`, `pozX`, `pozY`, `pozZ`, `rotXY`, `rotZX`, `rotZY`, `sizX`, `sizY`, `Thick`, `X`; positions and
rotations to whole numbers. -/
def materialEntries (m : Material ℚ) : List Entry :=
  [.value (.int m.id), .text m.info] ++ ([.real 0 m.positionX, .real 0 m.positionY, .real 0 m.positionZ, .real 0 m.rotationXY,
    .real 0 m.rotationZX, .real 0 m.rotationZY, .real 2 m.sizeX, .real 2 m.sizeY, .real 2 m.thickness, .real 2 m.radLength]).map .value

/-- The row of a sensor: the same, and `NX`, `NY`, `PitchX`, `PitchY`, `ResX`, `RexY`. -/
def sensorEntries (s : Sensor ℚ) : List Entry :=
  [.value (.int s.id), .text s.info] ++ ([.real 0 s.positionX, .real 0 s.positionY, .real 0 s.positionZ, .real 0 s.rotationXY,
    .real 0 s.rotationZX, .real 0 s.rotationZY, .real 2 s.sizeX, .real 2 s.sizeY, .real 2 s.thickness, .real 2 s.radLength,
    .int s.npixelX, .int s.npixelY, .real 4 s.pitchX, .real 4 s.pitchY, .real 4 s.resolutionX, .real 4 s.resolutionY]).map .value

/-- All rows: every layer, followed by its scatterers and its sensors. -/
def entries (L : TLayout ℚ) : List (List Entry) :=
  L.layers.flatMap fun l => layerEntries l :: (l.materials.map materialEntries ++ l.sensors.map sensorEntries)

/-- A text that is one word. -/
def IsWord (t : String) : Prop := t.toList ≠ [] ∧ ∀ c ∈ t.toList, ¬ Separates c

/-- The texts are words, and the integers those of 32 bits. -/
structure Readable (l : TLayer ℚ) : Prop where
  layer : IsWord l.info ∧ IsInt l.id
  materials : ∀ m ∈ l.materials, IsWord m.info ∧ IsInt m.id
  sensors : ∀ s ∈ l.sensors, IsWord s.info ∧ IsInt s.id ∧ IsInt s.npixelX ∧ IsInt s.npixelY

/-! ### Words -/

theorem wordsFrom_sep (w a b : Text) {c : Char} (hc : Separates c) : wordsFrom w (a ++ c :: b) = wordsFrom w a ++ words b := by
  induction a generalizing w with
  | nil => simp only [List.nil_append, wordsFrom, if_pos hc]; rfl
  | cons x a ih =>
    simp only [List.cons_append, wordsFrom]
    split
    · rw [ih, List.append_assoc]
    · rw [ih]

theorem words_sep (a b : Text) {c : Char} (hc : Separates c) : words (a ++ c :: b) = words a ++ words b := wordsFrom_sep [] a b hc

theorem words_cons {c : Char} (hc : Separates c) (b : Text) : words (c :: b) = words b := by
  have := words_sep [] b hc
  exact this

theorem wordsFrom_word (w a : Text) (h : ∀ c ∈ a, ¬ Separates c) : wordsFrom w a = if w ++ a = [] then [] else [w ++ a] := by
  induction a generalizing w with
  | nil => simp [wordsFrom]
  | cons x a ih =>
    simp only [wordsFrom]
    rw [if_neg (h x (by simp)), ih _ fun c hc => h c (by simp [hc])]
    simp

theorem words_word {a : Text} (h0 : a ≠ []) (h : ∀ c ∈ a, ¬ Separates c) : words a = [a] := by
  unfold words
  rw [wordsFrom_word [] a h, if_neg (by simpa using h0)]; rfl

theorem words_pad (w : ℕ) (t : Text) : words (pad w t) = words t := by
  unfold pad
  generalize w - t.length = k
  induction k with
  | zero => rfl
  | succ k ih => rw [List.replicate_succ, List.cons_append, words_cons (by decide), ih]

theorem words_spaced (l : List Text) : words (spaced l) = l.flatMap words := by
  unfold spaced
  induction l with
  | nil => rfl
  | cons a l ih =>
    cases l with
    | nil => simp
    | cons b l =>
      have : [' '].intercalate (a :: b :: l) = a ++ ' ' :: [' '].intercalate (b :: l) := by
        simp [List.intercalate, List.intersperse]
      rw [this, words_sep _ _ (by decide), ih]
      rfl

theorem digit_not_sep {c : Char} (h : isDigit c = true) : ¬ Separates c := by
  unfold Separates
  rintro (rfl | rfl | rfl | rfl) <;> revert h <;> decide

theorem sep_not_digit {t : Text} (h : ∀ c ∈ t, isDigit c = true) : ∀ c ∈ t, ¬ Separates c := fun c hc => digit_not_sep (h c hc)

theorem words_str (w : ℕ) {t : String} (h : IsWord t) : words (str w t) = [t.toList] := by
  unfold str
  rw [words_pad, words_word h.1 h.2]

theorem words_empty (w : ℕ) : words (str w "") = [] := by
  unfold str
  rw [words_pad]; rfl

theorem words_int (w : ℕ) (n : ℤ) : words (int w n) = [int 0 n] := by
  have e : int 0 n = printInt n := by unfold int pad; simp
  rw [e]
  unfold int
  rw [words_pad]
  have hd := sep_not_digit (Xml.natText_isDigit n.natAbs)
  apply words_word
  · unfold printInt
    split
    · simp
    · exact Xml.natText_ne_nil _
  · unfold printInt
    split
    · intro c hc
      rcases List.mem_cons.1 hc with rfl | hc
      · decide
      · exact hd c hc
    · exact hd

theorem words_fixed (w p : ℕ) (v : ℚ) : words (fixed w p v) = [fixed 0 p v] := by
  unfold fixed
  dsimp only
  rw [words_pad]
  have e : ∀ t, pad 0 t = t := by intro t; unfold pad; simp
  rw [e]
  apply words_word
  · simp
  · intro c hc
    simp only [List.mem_append, List.mem_cons] at hc
    rcases hc with (hc | hc) | rfl | hc
    · split at hc
      · rw [List.mem_singleton.1 hc]; decide
      · cases hc
    · exact digit_not_sep (Xml.natText_isDigit _ c hc)
    · decide
    · exact digit_not_sep (Xml.digitsOf_isDigit _ _ c hc)

theorem words_whole (w : ℕ) (v : ℚ) : words (whole w v) = [whole 0 v] := by
  unfold whole
  rw [words_pad]
  have e : ∀ t, pad 0 t = t := by intro t; unfold pad; simp
  rw [e]
  apply words_word
  · intro h
    have := List.append_eq_nil_iff.1 h
    exact Xml.natText_ne_nil _ this.2
  · intro c hc
    simp only [List.mem_append] at hc
    rcases hc with hc | hc
    · split at hc
      · rw [List.mem_singleton.1 hc]; decide
      · cases hc
    · exact digit_not_sep (Xml.natText_isDigit _ c hc)

/-! ### The numbers -/

theorem atof_whole (v : ℚ) : atof (whole 0 v) = (if v < 0 then -1 else 1) * ((roundEven |v|).toNat : ℚ) := by
  obtain ⟨n, hn⟩ : ∃ n, n = (roundEven |v|).toNat := ⟨_, rfl⟩
  have e0 : whole 0 v = (if v < 0 then ['-'] else []) ++ natText n := by unfold whole pad; rw [← hn]; simp
  rw [e0, ← hn]
  unfold atof
  have hd := Xml.natText_isDigit n
  obtain ⟨c, s, hc⟩ := List.exists_cons_of_ne_nil (Xml.natText_ne_nil n)
  obtain ⟨q1, q2, q3, -⟩ := Xml.isDigit_not (hd c (by rw [hc]; simp))
  have e1 : Xml.readSign (((if v < 0 then ['-'] else []) ++ natText n).dropWhile isSpace) = (decide (v < 0), natText n) := by
    by_cases hv : v < 0
    · rw [if_pos hv, decide_eq_true hv]; rfl
    · rw [if_neg hv, decide_eq_false hv, hc]
      show Xml.readSign (List.dropWhile isSpace (c :: _)) = _
      rw [Xml.dropWhile_space q1]
      unfold Xml.readSign
      split
      · rename_i h; injection h with h _; exact absurd h q2
      · rename_i h; injection h with h _; exact absurd h q3
      · rfl
  have e2 := Xml.takeWhile_digits hd [] (by intro c r h; cases h)
  rw [List.append_nil] at e2
  rw [e1]
  dsimp only
  rw [e2.1, e2.2]
  have e4 : Xml.readFraction [] = ([], []) := rfl
  have e6 : Xml.readExponent [] = 0 := rfl
  rw [e4]
  dsimp only
  rw [if_neg (by rintro ⟨h, -⟩; exact Xml.natText_ne_nil _ h), List.append_nil, Xml.digitsVal_natText, e6]
  by_cases hv : v < 0 <;> simp [hv]

theorem shows_whole (v : ℚ) : Shows (.real 0 v) (whole 0 v) := by
  have h := shows_real 0 0 0 0 v
  have e : atof (Cell.text ⟨0, .f 0 0 v, 0⟩) = atof (whole 0 v) := by
    show atof (List.replicate 0 ' ' ++ fixed 0 0 v ++ List.replicate 0 ' ') = _
    rw [atof_blanks, atof_whole]
    simp
  change (∃ k : ℤ, atof (Cell.text ⟨0, .f 0 0 v, 0⟩) = k / 10 ^ 0) ∧ |atof (Cell.text ⟨0, .f 0 0 v, 0⟩) - v| ≤ 1 / 2 / 10 ^ 0 at h
  rw [e] at h
  exact h

theorem shows_fixed (p : ℕ) (v : ℚ) : Shows (.real p v) (fixed 0 p v) := by
  have h := shows_real 0 0 0 p v
  have e : Cell.text ⟨0, .f 0 p v, 0⟩ = fixed 0 p v := by
    show List.replicate 0 ' ' ++ fixed 0 p v ++ List.replicate 0 ' ' = _
    simp
  rw [e] at h
  exact h

theorem shows_id {n : ℤ} (hn : IsInt n) : Shows (.int n) (int 0 n) := by
  have h := shows_int 0 0 0 hn
  have e : Cell.text ⟨0, .d 0 n, 0⟩ = int 0 n := by
    show List.replicate 0 ' ' ++ int 0 n ++ List.replicate 0 ' ' = _
    simp
  rw [e] at h
  exact h

/-! ### The rows -/

theorem words_noLadder : words noLadder = [] := by
  unfold noLadder
  rw [words_spaced]
  simp [words_empty, List.replicate]

theorem words_noMeasurement : words noMeasurement = [] := by
  unfold noMeasurement
  rw [words_spaced]
  simp [words_empty, List.replicate]

theorem bar_sep : Separates '|' := by decide
theorem quote_sep : Separates '`' := by decide

theorem words_end : words ['\n'] = [] := by decide

theorem layer_shown (l : TLayer ℚ) (h : IsWord l.info ∧ IsInt l.id) :
    List.Forall₂ Entry.ShownBy (layerEntries l) (words (layerRow l)) := by
  have e : words (layerRow l) = [int 0 l.id, l.info.toList] := by
    unfold layerRow
    simp only [List.append_assoc, List.cons_append]
    rw [words_cons bar_sep, words_sep _ _ bar_sep, words_sep _ _ bar_sep, words_sep _ _ quote_sep, words_sep _ _ bar_sep,
      words_noLadder, words_noMeasurement, words_end, words_spaced]
    simp only [List.flatMap_cons, List.flatMap_nil, words_int, words_str _ h.1]
    rfl
  rw [e]
  exact .cons (shows_id h.2) (.cons rfl .nil)

theorem material_shown (m : Material ℚ) (h : IsWord m.info ∧ IsInt m.id) :
    List.Forall₂ Entry.ShownBy (materialEntries m) (words (materialRow m)) := by
  have e : words (materialRow m) = [int 0 m.id, m.info.toList, whole 0 m.positionX, whole 0 m.positionY, whole 0 m.positionZ,
      whole 0 m.rotationXY, whole 0 m.rotationZX, whole 0 m.rotationZY, fixed 0 2 m.sizeX, fixed 0 2 m.sizeY, fixed 0 2 m.thickness,
      fixed 0 2 m.radLength] := by
    unfold materialRow
    simp only [List.append_assoc, List.cons_append]
    rw [words_cons bar_sep, words_sep _ _ bar_sep, words_sep _ _ bar_sep, words_sep _ _ quote_sep, words_sep _ _ bar_sep,
      words_noLadder, words_noMeasurement, words_end, words_spaced, words_spaced]
    simp only [List.flatMap_cons, List.flatMap_nil, words_int, words_str _ h.1, words_empty, words_whole, words_fixed]
    rfl
  rw [e]
  exact .cons (shows_id h.2) (.cons rfl (.cons (shows_whole _) (.cons (shows_whole _) (.cons (shows_whole _) (.cons (shows_whole _)
    (.cons (shows_whole _) (.cons (shows_whole _) (.cons (shows_fixed _ _) (.cons (shows_fixed _ _) (.cons (shows_fixed _ _)
    (.cons (shows_fixed _ _) .nil)))))))))))

theorem sensor_shown (s : Sensor ℚ) (h : IsWord s.info ∧ IsInt s.id ∧ IsInt s.npixelX ∧ IsInt s.npixelY) :
    List.Forall₂ Entry.ShownBy (sensorEntries s) (words (sensorRow s)) := by
  have e : words (sensorRow s) = [int 0 s.id, s.info.toList, whole 0 s.positionX, whole 0 s.positionY, whole 0 s.positionZ,
      whole 0 s.rotationXY, whole 0 s.rotationZX, whole 0 s.rotationZY, fixed 0 2 s.sizeX, fixed 0 2 s.sizeY, fixed 0 2 s.thickness,
      fixed 0 2 s.radLength, int 0 s.npixelX, int 0 s.npixelY, fixed 0 4 s.pitchX, fixed 0 4 s.pitchY, fixed 0 4 s.resolutionX,
      fixed 0 4 s.resolutionY] := by
    unfold sensorRow
    simp only [List.append_assoc, List.cons_append]
    rw [words_cons bar_sep, words_sep _ _ bar_sep, words_sep _ _ bar_sep, words_sep _ _ quote_sep, words_sep _ _ bar_sep,
      words_noLadder, words_end, words_spaced, words_spaced, words_spaced]
    simp only [List.flatMap_cons, List.flatMap_nil, words_int, words_str _ h.1, words_empty, words_whole, words_fixed]
    rfl
  rw [e]
  exact .cons (shows_id h.2.1) (.cons rfl (.cons (shows_whole _) (.cons (shows_whole _) (.cons (shows_whole _) (.cons (shows_whole _)
    (.cons (shows_whole _) (.cons (shows_whole _) (.cons (shows_fixed _ _) (.cons (shows_fixed _ _) (.cons (shows_fixed _ _)
    (.cons (shows_fixed _ _) (.cons (shows_id h.2.2.1) (.cons (shows_id h.2.2.2) (.cons (shows_fixed _ _) (.cons (shows_fixed _ _)
    (.cons (shows_fixed _ _) (.cons (shows_fixed _ _) .nil)))))))))))))))))

/-! ### The loops -/

theorem write_ok {t r : Text} (h : write t = .ok r) : r = t ∧ t.length + 1 ≤ 1024 := by
  unfold write at h
  split at h
  · rename_i h'; cases h; exact ⟨rfl, h'⟩
  · cases h

theorem writeAll_ok {α : Type} (row : α → Res Text) (l : List α) {t : Text} (h : writeAll row l = .ok t) :
    ∃ rows : List Text, t = rows.flatten ∧ List.Forall₂ (fun a r => row a = .ok r) l rows := by
  induction l generalizing t with
  | nil => cases h; exact ⟨[], rfl, .nil⟩
  | cons a l ih =>
    rw [writeAll] at h
    cases hr : row a with
    | throw e => rw [hr] at h; cases h
    | ub => rw [hr] at h; cases h
    | ok r =>
      cases hs : writeAll row l with
      | throw e => rw [hr, hs] at h; cases h
      | ub => rw [hr, hs] at h; cases h
      | ok s =>
        rw [hr, hs] at h
        cases h
        obtain ⟨rows, h1, h2⟩ := ih hs
        exact ⟨r :: rows, by rw [h1]; rfl, .cons hr h2⟩

theorem writeAll_of {α : Type} (row : α → Res Text) (text : α → Text) (l : List α) (h : ∀ a ∈ l, row a = .ok (text a)) :
    writeAll row l = .ok (l.flatMap text) := by
  induction l with
  | nil => rfl
  | cons a l ih =>
    rw [writeAll, h a (by simp), ih fun b hb => h b (by simp [hb])]
    rfl

theorem rows_eq {α : Type} (text : α → Text) {l : List α} {rs : List Text} (h : List.Forall₂ (fun a r => write (text a) = .ok r) l rs) :
    rs = l.map text := by
  induction h with
  | nil => rfl
  | cons x _ ih => rw [List.map_cons, ← ih, (write_ok x).1]

theorem printLayer_ok (l : TLayer ℚ) {t : Text} (h : printLayer l = .ok t) :
    t = (layerRow l :: (l.materials.map materialRow ++ l.sensors.map sensorRow)).flatten := by
  unfold printLayer at h
  cases h1 : write (layerRow l) with
  | throw e => rw [h1] at h; cases h
  | ub => rw [h1] at h; cases h
  | ok a =>
    cases h2 : writeAll (fun m => write (materialRow m)) l.materials with
    | throw e => rw [h1, h2] at h; cases h
    | ub => rw [h1, h2] at h; cases h
    | ok b =>
      cases h3 : writeAll (fun s => write (sensorRow s)) l.sensors with
      | throw e => rw [h1, h2, h3] at h; cases h
      | ub => rw [h1, h2, h3] at h; cases h
      | ok c =>
        rw [h1, h2, h3] at h
        cases h
        obtain ⟨rs, r1, r2⟩ := writeAll_ok _ _ h2
        obtain ⟨ss, s1, s2⟩ := writeAll_ok _ _ h3
        have e1 : rs = l.materials.map materialRow := rows_eq materialRow r2
        have e2 : ss = l.sensors.map sensorRow := rows_eq sensorRow s2
        rw [(write_ok h1).1, r1, s1, e1, e2]
        simp

/-! ### The widths -/

theorem spaced_length (l : List Text) : (spaced l).length = (l.map List.length).sum + (l.length - 1) := by
  unfold spaced
  induction l with
  | nil => rfl
  | cons a l ih =>
    cases l with
    | nil => simp
    | cons b l =>
      have : [' '].intercalate (a :: b :: l) = a ++ ' ' :: [' '].intercalate (b :: l) := by
        simp [List.intercalate, List.intersperse]
      rw [this, List.length_append, List.length_cons, ih]
      simp only [List.map_cons, List.sum_cons, List.length_cons]
      omega

theorem str_length (w : ℕ) (t : String) : (str w t).length = max w t.toList.length := pad_length w _

theorem noLadder_length : noLadder.length = 78 := by decide
theorem noMeasurement_length : noMeasurement.length = 39 := by decide

theorem whole_length_le {w k : ℕ} {v : ℚ} (hv : |v| < 10 ^ k) (hw : w ≤ k + 2) : (whole w v).length ≤ k + 2 := by
  unfold whole
  rw [pad_length]
  refine max_le hw ?_
  have h0 : roundEven |v| ≤ ((10 ^ k : ℤ)) := roundEven_le (by push_cast; exact hv.le)
  have h1 : (roundEven |v|).toNat < 10 ^ (k + 1) := by
    have h2 : ((10 ^ k : ℤ)) < 10 ^ (k + 1) := by
      rw [pow_succ]; have : (0 : ℤ) < 10 ^ k := by positivity
      linarith
    have h3 : (roundEven |v|).toNat ≤ 10 ^ k := by
      rw [Int.toNat_le]; push_cast; exact h0
    have h4 : (10 : ℕ) ^ k < 10 ^ (k + 1) := by
      rw [pow_succ]; have : 0 < 10 ^ k := by positivity
      omega
    omega
  have h5 := natText_length_le (by omega) h1
  have h6 : (if v < 0 then ['-'] else [] : Text).length ≤ 1 := by split <;> simp
  rw [List.length_append]
  omega

/-! ### C160 -/

/-- The texts of a layer have at most 255 characters, and its numbers are less than `10 ^ 38`. -/
structure Small (l : TLayer ℚ) : Prop where
  layer : l.info.toList.length ≤ 255 ∧ |l.id| < 2 ^ 32
  materials : ∀ m ∈ l.materials, m.info.toList.length ≤ 255 ∧ |m.id| < 2 ^ 32 ∧
    ∀ v ∈ [m.positionX, m.positionY, m.positionZ, m.rotationXY, m.rotationZX, m.rotationZY, m.sizeX, m.sizeY, m.thickness,
      m.radLength], |v| < 10 ^ 38
  sensors : ∀ s ∈ l.sensors, s.info.toList.length ≤ 255 ∧ (∀ n ∈ [s.id, s.npixelX, s.npixelY], |n| < 2 ^ 32) ∧
    ∀ v ∈ [s.positionX, s.positionY, s.positionZ, s.rotationXY, s.rotationZX, s.rotationZY, s.sizeX, s.sizeY, s.thickness,
      s.radLength, s.pitchX, s.pitchY, s.resolutionX, s.resolutionY], |v| < 10 ^ 38

theorem layerRow_length (l : TLayer ℚ) :
    (layerRow l).length = (int 3 l.id).length + max 14 l.info.toList.length + 202 := by
  unfold layerRow
  simp only [List.length_append, List.length_cons, List.length_nil, noLadder_length, noMeasurement_length, spaced_length,
    List.map_cons, List.map_nil, List.sum_cons, List.sum_nil, str_length]
  omega

/-- C160: printing stays within its buffer and writes one row for every layer, followed by one for each of its scatterers and
each of its sensors.  Missing: longer texts and greater numbers, for which it is false (`tracker_false`). -/
theorem tracker_partial (L : TLayout ℚ) (h : ∀ l ∈ L.layers, Small l) :
    printLayers L = .ok ((L.layers.flatMap fun l => layerRow l ++ l.materials.flatMap materialRow ++ l.sensors.flatMap sensorRow)
      ++ footer) := by
  have key : ∀ l ∈ L.layers, printLayer l
      = .ok (layerRow l ++ l.materials.flatMap materialRow ++ l.sensors.flatMap sensorRow) := by
    intro l hl
    obtain ⟨⟨h1, h2⟩, h3, h4⟩ := h l hl
    have e1 : write (layerRow l) = .ok (layerRow l) := by
      unfold write
      rw [if_pos]
      have := int_length_le (w := 3) h2 (by norm_num)
      rw [layerRow_length]
      omega
    have e2 : ∀ m ∈ l.materials, write (materialRow m) = .ok (materialRow m) := by
      intro m hm
      obtain ⟨a1, a2, a3⟩ := h3 m hm
      simp only [List.forall_mem_cons, List.not_mem_nil, false_imp_iff, implies_true, and_true] at a3
      obtain ⟨v1, v2, v3, v4, v5, v6, v7, v8, v9, v10⟩ := a3
      have i1 := int_length_le (w := 3) a2 (by norm_num)
      have w1 := whole_length_le (w := 5) v1 (by norm_num)
      have w2 := whole_length_le (w := 5) v2 (by norm_num)
      have w3 := whole_length_le (w := 5) v3 (by norm_num)
      have w4 := whole_length_le (w := 5) v4 (by norm_num)
      have w5 := whole_length_le (w := 5) v5 (by norm_num)
      have w6 := whole_length_le (w := 5) v6 (by norm_num)
      have f7 := fixed_length_le (w := 5) (p := 2) v7 (by norm_num)
      have f8 := fixed_length_le (w := 5) (p := 2) v8 (by norm_num)
      have f9 := fixed_length_le (w := 5) (p := 2) v9 (by norm_num)
      have f10 := fixed_length_le (w := 5) (p := 2) v10 (by norm_num)
      unfold write
      rw [if_pos]
      unfold materialRow
      simp only [List.length_append, List.length_cons, List.length_nil, noLadder_length, noMeasurement_length, spaced_length,
        List.map_cons, List.map_nil, List.sum_cons, List.sum_nil, str_length]
      have z : ("".toList).length = 0 := rfl
      rw [z]
      clear v1 v2 v3 v4 v5 v6 v7 v8 v9 v10
      omega
    have e3 : ∀ s ∈ l.sensors, write (sensorRow s) = .ok (sensorRow s) := by
      intro s hs
      obtain ⟨a1, a2, a3⟩ := h4 s hs
      simp only [List.forall_mem_cons, List.not_mem_nil, false_imp_iff, implies_true, and_true] at a2 a3
      obtain ⟨n1, n2, n3⟩ := a2
      obtain ⟨v1, v2, v3, v4, v5, v6, v7, v8, v9, v10, v11, v12, v13, v14⟩ := a3
      have i1 := int_length_le (w := 3) n1 (by norm_num)
      have i2 := int_length_le (w := 5) n2 (by norm_num)
      have i3 := int_length_le (w := 5) n3 (by norm_num)
      have w1 := whole_length_le (w := 5) v1 (by norm_num)
      have w2 := whole_length_le (w := 5) v2 (by norm_num)
      have w3 := whole_length_le (w := 5) v3 (by norm_num)
      have w4 := whole_length_le (w := 5) v4 (by norm_num)
      have w5 := whole_length_le (w := 5) v5 (by norm_num)
      have w6 := whole_length_le (w := 5) v6 (by norm_num)
      have f7 := fixed_length_le (w := 5) (p := 2) v7 (by norm_num)
      have f8 := fixed_length_le (w := 5) (p := 2) v8 (by norm_num)
      have f9 := fixed_length_le (w := 5) (p := 2) v9 (by norm_num)
      have f10 := fixed_length_le (w := 5) (p := 2) v10 (by norm_num)
      have f11 := fixed_length_le (w := 5) (p := 4) v11 (by norm_num)
      have f12 := fixed_length_le (w := 5) (p := 4) v12 (by norm_num)
      have f13 := fixed_length_le (w := 5) (p := 4) v13 (by norm_num)
      have f14 := fixed_length_le (w := 5) (p := 4) v14 (by norm_num)
      unfold write
      rw [if_pos]
      unfold sensorRow
      simp only [List.length_append, List.length_cons, List.length_nil, noLadder_length, spaced_length,
        List.map_cons, List.map_nil, List.sum_cons, List.sum_nil, str_length]
      have z : ("".toList).length = 0 := rfl
      rw [z]
      clear v1 v2 v3 v4 v5 v6 v7 v8 v9 v10 v11 v12 v13 v14
      omega
    unfold printLayer
    rw [e1, Res.bind_ok, writeAll_of _ _ _ e2, Res.bind_ok, writeAll_of _ _ _ e3, Res.bind_ok]
  unfold printLayers
  rw [writeAll_of _ _ _ key, Res.bind_ok]

/-- C160: whatever is printed shows the layers: one row for every layer, followed by one for each of its scatterers and each of its
sensors, and the words of each row are the values of the columns. -/
theorem tracker_shows (L : TLayout ℚ) (hr : ∀ l ∈ L.layers, Readable l) {t : Text} (h : printLayers L = .ok t) :
    ∃ rows : List Text, t = rows.flatten ++ footer ∧
      List.Forall₂ (fun es r => (∃ b, r = b ++ ['|', '\n']) ∧ List.Forall₂ Entry.ShownBy es (words r)) (entries L) rows := by
  unfold printLayers at h
  cases hw : writeAll printLayer L.layers with
  | throw e => rw [hw] at h; cases h
  | ub => rw [hw] at h; cases h
  | ok a =>
    rw [hw] at h
    cases h
    obtain ⟨bs, h1, h2⟩ := writeAll_ok _ _ hw
    refine ⟨L.layers.flatMap fun l => layerRow l :: (l.materials.map materialRow ++ l.sensors.map sensorRow), ?_, ?_⟩
    · rw [h1]
      congr 1
      clear hw h1 hr
      generalize L.layers = ls at h2
      induction h2 with
      | nil => rfl
      | cons x _ ih => rw [List.flatten_cons, ih, printLayer_ok _ x, List.flatMap_cons, List.flatten_append]
    · unfold entries
      clear hw h1 h2
      generalize L.layers = ls at hr
      induction ls with
      | nil => exact .nil
      | cons l ls ih =>
        rw [List.flatMap_cons, List.flatMap_cons]
        obtain ⟨r1, r2, r3⟩ := hr l (by simp)
        refine List.rel_append (.cons ⟨⟨_, rfl⟩, layer_shown l r1⟩ (List.rel_append ?_ ?_)) (ih fun x hx => hr x (by simp [hx]))
        · rw [List.forall₂_map_left_iff, List.forall₂_map_right_iff, List.forall₂_same]
          exact fun m hm => ⟨⟨_, rfl⟩, material_shown m (r2 m hm)⟩
        · rw [List.forall₂_map_left_iff, List.forall₂_map_right_iff, List.forall₂_same]
          exact fun s hs => ⟨⟨_, rfl⟩, sensor_shown s (r3 s hs)⟩

/-- C160 is false for long texts: a layer whose info has 819 characters or more overflows the buffer, whatever else is in the layout. -/
theorem tracker_false (L : TLayout ℚ) {l : TLayer ℚ} (hl : l ∈ L.layers) (h : 819 ≤ l.info.toList.length) : printLayers L = .ub := by
  have h0 : printLayer l = .ub := by
    unfold printLayer write
    rw [if_neg]
    · rfl
    · rw [layerRow_length]
      have : 3 ≤ (int 3 l.id).length := by unfold int; rw [pad_length]; exact le_max_left _ _
      omega
  have noThrow : ∀ {α : Type} (row : α → Res Text), (∀ a e, row a ≠ .throw e) → ∀ (l : List α) e, writeAll row l ≠ .throw e := by
    intro α row hrow l
    induction l with
    | nil => intro e h; cases h
    | cons a l ih =>
      intro e h
      rw [writeAll] at h
      cases hr : row a with
      | throw e => exact hrow a e hr
      | ub => rw [hr] at h; cases h
      | ok r =>
        cases hs : writeAll row l with
        | throw e => exact ih e hs
        | ub => rw [hr, hs] at h; cases h
        | ok s => rw [hr, hs] at h; cases h
  have hwrite : ∀ (t : Text) e, write t ≠ .throw e := by
    intro t e h; unfold write at h; split at h <;> cases h
  have hlayer : ∀ (x : TLayer ℚ) e, printLayer x ≠ .throw e := by
    intro x e h
    unfold printLayer at h
    cases h1 : write (layerRow x) with
    | throw e => exact hwrite _ _ h1
    | ub => rw [h1] at h; cases h
    | ok a =>
      cases h2 : writeAll (fun m => write (materialRow m)) x.materials with
      | throw e => exact noThrow _ (fun m e => hwrite _ e) _ _ h2
      | ub => rw [h1, h2] at h; cases h
      | ok b =>
        cases h3 : writeAll (fun s => write (sensorRow s)) x.sensors with
        | throw e => exact noThrow _ (fun m e => hwrite _ e) _ _ h3
        | ub => rw [h1, h2, h3] at h; cases h
        | ok c => rw [h1, h2, h3] at h; cases h
  have key : ∀ ls : List (TLayer ℚ), l ∈ ls → writeAll printLayer ls = .ub := by
    intro ls
    induction ls with
    | nil => intro h; cases h
    | cons x ls ih =>
      intro hm
      rw [writeAll]
      cases hx : printLayer x with
      | throw e => exact absurd hx (hlayer x e)
      | ub => rfl
      | ok a =>
        rcases List.mem_cons.1 hm with rfl | hm
        · rw [h0] at hx; cases hx
        · rw [ih hm]; rfl
  unfold printLayers
  rw [key _ hl]
  rfl

/-- A row in columns: the bars and the quote are at fixed places. -/
def Columns (t : Text) : Prop := ∃ a b c d : Text, t = '|' :: a ++ '|' :: b ++ '|' :: c ++ '`' :: d ++ ['|', '\n'] ∧
  a.length = 18 ∧ b.length = 78 ∧ c.length = 78 ∧ d.length = 39

/-- A number fits into `w` characters without digits after the point. -/
def FitsWhole (w : ℕ) (v : ℚ) : Prop := (0 ≤ v ∧ 1 ≤ w ∧ v ≤ 10 ^ w - 1) ∨ (v < 0 ∧ 2 ≤ w ∧ -v ≤ 10 ^ (w - 1) - 1)

theorem whole_fits {w : ℕ} {v : ℚ} (h : FitsWhole w v) : (whole w v).length = w := by
  have key : ∀ k : ℕ, 0 < k → |v| ≤ 10 ^ k - 1 → (natText (roundEven |v|).toNat).length ≤ k := by
    intro k hk hv
    apply natText_length_le hk
    have h0 : roundEven |v| ≤ ((10 ^ k - 1 : ℤ)) := roundEven_le (by push_cast; exact hv)
    have h1 : 0 < 10 ^ k := by positivity
    zify
    have h2 : (0 : ℤ) < 10 ^ k := by positivity
    rcases le_total 0 (roundEven |v|) with h3 | h3
    · rw [Int.toNat_of_nonneg h3]; omega
    · rw [Int.toNat_of_nonpos h3]; exact_mod_cast h2
  unfold whole
  rw [pad_length]
  apply max_eq_left
  rw [List.length_append]
  rcases h with ⟨h1, h2, h3⟩ | ⟨h1, h2, h3⟩
  · rw [if_neg (not_lt.2 h1)]
    have := key w (by omega) (by rw [abs_of_nonneg h1]; exact h3)
    simpa using this
  · rw [if_pos h1]
    have := key (w - 1) (by omega) (by rw [abs_of_neg h1]; exact h3)
    simp only [List.length_cons, List.length_nil]
    omega

/-- C160: the columns of all rows stand below those of the heading if the values fit into them. -/
theorem tracker_columns_partial :
    Columns (heading[1]).toList ∧
    (∀ l : TLayer ℚ, FitsInt 3 l.id → l.info.toList.length ≤ 14 → Columns (layerRow l)) ∧
    (∀ m : Material ℚ, FitsInt 3 m.id → m.info.toList.length ≤ 14 →
      (∀ v ∈ [m.positionX, m.positionY, m.positionZ, m.rotationXY, m.rotationZX, m.rotationZY], FitsWhole 5 v) →
      (∀ v ∈ [m.sizeX, m.sizeY, m.thickness, m.radLength], Fits 5 2 v) → Columns (materialRow m)) ∧
    (∀ s : Sensor ℚ, FitsInt 3 s.id → s.info.toList.length ≤ 14 → FitsInt 5 s.npixelX → FitsInt 5 s.npixelY →
      (∀ v ∈ [s.positionX, s.positionY, s.positionZ, s.rotationXY, s.rotationZX, s.rotationZY], FitsWhole 5 v) →
      (∀ v ∈ [s.sizeX, s.sizeY, s.thickness, s.radLength], Fits 5 2 v) →
      (∀ v ∈ [s.pitchX, s.pitchY, s.resolutionX, s.resolutionY], 0 ≤ v ∧ v ≤ 99999 / 10000) → Columns (sensorRow s)) := by
  have f4 : ∀ {v : ℚ}, 0 ≤ v ∧ v ≤ 99999 / 10000 → (fixed 5 4 v).length = 6 := by
    intro v hv
    have h6 : (fixed 6 4 v).length = 6 := fixed_fits (Or.inl ⟨hv.1, by norm_num, by norm_num; linarith [hv.2]⟩)
    have h7 : 6 ≤ (fixed 5 4 v).length := by
      unfold fixed
      dsimp only
      rw [pad_length]
      refine le_trans ?_ (le_max_right _ _)
      have h8 := Xml.length_digitsOf 4 (roundEven (|v| * 10 ^ 4)).toNat
      have h9 : 0 < (natText ((roundEven (|v| * 10 ^ 4)).toNat / 10 ^ 4)).length := List.length_pos_of_ne_nil (Xml.natText_ne_nil _)
      simp only [List.length_append, List.length_cons, h8]
      omega
    have h8 : (fixed 5 4 v).length ≤ (fixed 6 4 v).length := by
      unfold fixed
      dsimp only
      rw [pad_length, pad_length]
      omega
    omega
  have z : ("".toList).length = 0 := rfl
  refine ⟨⟨" layer:           ".toList, "                 ladder/scattering only                                       ".toList,
    "          sensitive /       scattering part                                   ".toList,
    "      measurement part                 ".toList, by decide +kernel, by decide +kernel, by decide +kernel, by decide +kernel,
    by decide +kernel⟩, ?_, ?_, ?_⟩
  · intro l h1 h2
    refine ⟨_, _, _, _, rfl, ?_, noLadder_length, noLadder_length, noMeasurement_length⟩
    simp only [spaced_length, List.map_cons, List.map_nil, List.sum_cons, List.sum_nil, str_length, int_fits h1, List.length_cons,
      List.length_nil]
    omega
  · intro m h1 h2 h3 h4
    simp only [List.forall_mem_cons, List.not_mem_nil, false_imp_iff, implies_true, and_true] at h3 h4
    obtain ⟨a1, a2, a3, a4, a5, a6⟩ := h3
    obtain ⟨b1, b2, b3, b4⟩ := h4
    refine ⟨_, _, _, _, rfl, by decide, ?_, noLadder_length, noMeasurement_length⟩
    simp only [spaced_length, List.map_cons, List.map_nil, List.sum_cons, List.sum_nil, str_length, int_fits h1, List.length_cons,
      List.length_nil, whole_fits a1, whole_fits a2, whole_fits a3, whole_fits a4, whole_fits a5, whole_fits a6, fixed_fits b1,
      fixed_fits b2, fixed_fits b3, fixed_fits b4]
    omega
  · intro s h1 h2 h5 h6 h3 h4 h7
    simp only [List.forall_mem_cons, List.not_mem_nil, false_imp_iff, implies_true, and_true] at h3 h4 h7
    obtain ⟨a1, a2, a3, a4, a5, a6⟩ := h3
    obtain ⟨b1, b2, b3, b4⟩ := h4
    obtain ⟨c1, c2, c3, c4⟩ := h7
    refine ⟨_, _, _, _, rfl, by decide, noLadder_length, ?_, ?_⟩
    · simp only [spaced_length, List.map_cons, List.map_nil, List.sum_cons, List.sum_nil, str_length, int_fits h1, List.length_cons,
        List.length_nil, whole_fits a1, whole_fits a2, whole_fits a3, whole_fits a4, whole_fits a5, whole_fits a6, fixed_fits b1,
        fixed_fits b2, fixed_fits b3, fixed_fits b4]
      omega
    · simp only [spaced_length, List.map_cons, List.map_nil, List.sum_cons, List.sum_nil, int_fits h5, int_fits h6, List.length_cons,
        List.length_nil, f4 c1, f4 c2, f4 c3, f4 c4]
      rfl

/-- A telescope plane: a scatterer and a sensor. -/
def plane : TLayer ℚ := ⟨7, "Mimosa26", [⟨7, "kapton", 0, 0, 150, 0, 0, 0, 20, 10, 0.05, 28.6⟩],
  [⟨7, "silicon", 0, 0, 150, 0, 0, 0, 21.2, 10.6, 0.05, 9.37, 1152, 576, 0.0184, 0.0184, 0.0045, 0.0045⟩]⟩

example : Small plane := by
  refine ⟨⟨by decide, by decide⟩, ?_, ?_⟩
  · intro m hm
    rw [List.mem_singleton.1 hm]
    refine ⟨by decide, by decide, ?_⟩
    simp only [List.forall_mem_cons, List.not_mem_nil, false_imp_iff, implies_true, and_true]
    norm_num
  · intro s hs
    rw [List.mem_singleton.1 hs]
    refine ⟨by decide, by decide, ?_⟩
    simp only [List.forall_mem_cons, List.not_mem_nil, false_imp_iff, implies_true, and_true]
    norm_num

example : Readable plane := by
  refine ⟨⟨⟨by decide, by decide⟩, by unfold IsInt; decide⟩, ?_, ?_⟩
  · intro m hm
    rw [List.mem_singleton.1 hm]
    exact ⟨⟨by decide, by decide⟩, by unfold IsInt; decide⟩
  · intro m hm
    rw [List.mem_singleton.1 hm]
    exact ⟨⟨by decide, by decide⟩, by unfold IsInt; decide, by unfold IsInt; decide, by unfold IsInt; decide⟩

/-- What is printed for the sensor of that plane. -/
example : words (sensorRow ⟨7, "silicon", 0, 0, 150, 0, 0, 0, 21.2, 10.6, 0.05, 9.37, 1152, 576, 0.0184, 0.0184, 0.0045, 0.0045⟩)
    = ["7", "silicon", "0", "0", "150", "0", "0", "0", "21.20", "10.60", "0.05", "9.37", "1152", "576", "0.0184", "0.0184",
      "0.0045", "0.0045"].map String.toList := by
  decide +kernel

example : materialRow ⟨7, "kapton", 0, 0, 150, 0, 0, -0.2, 20, 10, 0.05, 28.6⟩ = ("|                  |  7         kapton     0     0   150     0     0    -0 20.00 10.00  0.05 28.60|                                                                              `                                       |\n").toList := by
  decide +kernel

end Gear.Print.Tracker
