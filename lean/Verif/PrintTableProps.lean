/-
C115 and C116: what the printed tables show, and their columns.
-/
import Verif.PrintProps

set_option autoImplicit false
set_option linter.unusedSectionVars false

namespace Gear.Print

open Xml (Text natText printInt digitsOf roundEven atoi atof isDigit isSpace)

/-! ### The specification -/

/-- A row cut at its bars. -/
def cut : Text → List Text
  | [] => [[]]
  | c :: t =>
    if c = '|' then [] :: cut t
    else match cut t with
      | [] => [[c]]
      | x :: xs => (c :: x) :: xs

/-- A value that a reader expects in a row: an integer, or a real number rounded to `p` digits after the point. -/
inductive Value where
  | int (n : ℤ)
  | real (p : ℕ) (v : ℚ)

/-- A cell shows a value: read as a number it is that value, for real numbers a multiple of `10 ^ -p` that differs by at
most half of that from it. -/
def Shows : Value → Text → Prop
  | .int n, c => atoi c = n
  | .real p v, c => (∃ k : ℤ, atof c = k / 10 ^ p) ∧ |atof c - v| ≤ 1 / 2 / 10 ^ p

/-- A row shows values: between the bars there is one cell for each, in this order. -/
def ShowsRow (vs : List Value) (t : Text) : Prop :=
  ∃ cs : List Text, cut t = [' ', ' '] :: cs ++ [['\n']] ∧ List.Forall₂ Shows vs cs

/-- The values of a layer of a vertex detector, with the names of the columns: `#`, and `d`, `w`, `l`, `t` of the ladder and of
the sensitive part. -/
def zplanarValues (l s : ZPlanar.Layer ℚ) : List Value :=
  [.int l.NLadders, .real 2 l.Distance, .real 2 l.Width, .real 2 l.Length, .real 2 l.Thickness,
   .real 2 s.Distance, .real 2 s.Width, .real 2 s.Length, .real 2 s.Thickness]

/-- The values of a layer of a forward tracker: `#`, and `x`, `X`, `y`, `t` of the support and of the sensitive part. -/
def ftdValues (l s : Ftd.Layer ℚ) : List Value :=
  [.int l.nPetals, .real 2 l.lengthMin, .real 2 l.lengthMax, .real 2 l.width, .real 2 l.thickness,
   .real 2 s.lengthMin, .real 2 s.lengthMax, .real 2 s.width, .real 2 s.thickness]

/-- The values of a layer of a telescope: `ID`, `pozX`, `pozY`, `pozZ`, `rotXY`, `rotZX`, `rotZY`, `sizeX`, `sizeY`, `Thick`
of the ladder, and `ID`, `pozX`, `pozY`, `pozZ`, `sizeX`, `sizeY`, `Thick`, `NpixX`, `NpixY`, `PitchX`, `PitchY`, `Resol`,
`Rot1` to `Rot4` of the sensitive part. -/
def siValues (l : Telescope.Layer ℚ) (s : Telescope.SensLayer ℚ) : List Value :=
  [.int l.id, .real 2 l.positionX, .real 2 l.positionY, .real 2 l.positionZ, .real 2 l.rotationXY, .real 2 l.rotationZX,
   .real 2 l.rotationZY, .real 2 l.sizeX, .real 2 l.sizeY, .real 3 l.thickness,
   .int s.id, .real 2 s.positionX, .real 2 s.positionY, .real 2 s.positionZ, .real 2 s.sizeX, .real 2 s.sizeY,
   .real 3 s.thickness, .int s.npixelX, .int s.npixelY, .real 2 s.pitchX, .real 2 s.pitchY, .real 4 s.resolution,
   .real 2 s.rotation1, .real 2 s.rotation2, .real 2 s.rotation3, .real 2 s.rotation4]

/-- The values of the device under test: the same without the rotations of the ladder and the resolution. -/
def dutValues (l : Telescope.Layer ℚ) (s : Telescope.SensLayer ℚ) : List Value :=
  [.int l.id, .real 2 l.positionX, .real 2 l.positionY, .real 2 l.positionZ, .real 2 l.sizeX, .real 2 l.sizeY,
   .real 3 l.thickness,
   .int s.id, .real 2 s.positionX, .real 2 s.positionY, .real 2 s.positionZ, .real 2 s.sizeX, .real 2 s.sizeY,
   .real 3 s.thickness, .int s.npixelX, .int s.npixelY, .real 2 s.pitchX, .real 2 s.pitchY,
   .real 2 s.rotation1, .real 2 s.rotation2, .real 2 s.rotation3, .real 2 s.rotation4]

/-! ### Lemmas -/

theorem cut_bar {a : Text} (h : '|' ∉ a) (b : Text) : cut (a ++ '|' :: b) = a :: cut b := by
  induction a with
  | nil => simp [cut]
  | cons c a ih =>
    have hc : c ≠ '|' := fun e => h (by simp [e])
    rw [List.cons_append, cut, if_neg hc, ih (fun hm => h (by simp [hm]))]

theorem cut_none {a : Text} (h : '|' ∉ a) : cut a = [a] := by
  induction a with
  | nil => rfl
  | cons c a ih =>
    have hc : c ≠ '|' := fun e => h (by simp [e])
    rw [cut, if_neg hc, ih (fun hm => h (by simp [hm]))]

/-- A cell: blanks, a number, blanks. -/
structure Cell where
  pre : ℕ
  piece : Piece
  post : ℕ

/-- The characters of a cell. -/
def Cell.text (c : Cell) : Text := List.replicate c.pre ' ' ++ c.piece.text ++ List.replicate c.post ' '

/-- A row made of cells. -/
def row (cs : List Cell) : Text := [' ', ' '] ++ (cs.flatMap fun c => '|' :: c.text) ++ ['|', '\n']

theorem cut_row (cs : List Cell) (h : ∀ c ∈ cs, '|' ∉ c.text) :
    cut (row cs) = [' ', ' '] :: cs.map Cell.text ++ [['\n']] := by
  have key : ∀ (cs : List Cell) (a : Text), '|' ∉ a → (∀ c ∈ cs, '|' ∉ c.text) →
      cut (a ++ ((cs.flatMap fun c => '|' :: c.text) ++ ['|', '\n'])) = a :: cs.map Cell.text ++ [['\n']] := by
    intro cs
    induction cs with
    | nil =>
      intro a ha _
      rw [List.flatMap_nil, List.nil_append, cut_bar ha]
      rfl
    | cons c cs ih =>
      intro a ha hcs
      rw [List.flatMap_cons, List.append_assoc, List.cons_append, cut_bar ha,
        ih c.text (hcs c (by simp)) (fun d hd => hcs d (by simp [hd]))]
      rfl
  unfold row
  rw [List.append_assoc]
  exact key cs _ (by decide) h

theorem isDigit_ne_bar {c : Char} (h : isDigit c = true) : c ≠ '|' := by
  rintro rfl; revert h; decide

theorem bar_replicate (n : ℕ) : '|' ∉ List.replicate n ' ' := by
  intro h; have := List.eq_of_mem_replicate h; revert this; decide

theorem bar_natText (n : ℕ) : '|' ∉ natText n := fun h => isDigit_ne_bar (Xml.natText_isDigit n _ h) rfl

theorem bar_digitsOf (p n : ℕ) : '|' ∉ digitsOf p n := fun h => isDigit_ne_bar (Xml.digitsOf_isDigit p n _ h) rfl

theorem bar_fixed (w p : ℕ) (v : ℚ) : '|' ∉ fixed w p v := by
  unfold fixed pad
  simp only [List.mem_append, List.mem_cons, not_or]
  refine ⟨bar_replicate _, ⟨?_, bar_natText _⟩, by decide, bar_digitsOf _ _⟩
  split
  · decide
  · simp

theorem bar_int (w : ℕ) (n : ℤ) : '|' ∉ int w n := by
  unfold int pad printInt
  simp only [List.mem_append, not_or]
  refine ⟨bar_replicate _, ?_⟩
  split
  · simp only [List.mem_cons, not_or]; exact ⟨by decide, bar_natText _⟩
  · exact bar_natText _

theorem dropWhile_blanks (k : ℕ) {t : Text} : (List.replicate k ' ' ++ t).dropWhile isSpace = t.dropWhile isSpace := by
  induction k with
  | zero => rfl
  | succ k ih =>
    rw [List.replicate_succ, List.cons_append, List.dropWhile_cons_of_pos (by decide), ih]

theorem blank_head {k : ℕ} {c : Char} {r : Text} (h : List.replicate k ' ' = c :: r) : c = ' ' := by
  cases k with
  | zero => cases h
  | succ k => rw [List.replicate_succ] at h; cases h; rfl

theorem atoi_blanks (a b w : ℕ) {n : ℤ} (h1 : -2 ^ 31 ≤ n) (h2 : n < 2 ^ 31) :
    atoi (List.replicate a ' ' ++ int w n ++ List.replicate b ' ') = n := by
  refine Eq.trans ?_ (Xml.int_roundtrip n h1 h2)
  have hd := Xml.natText_isDigit n.natAbs
  have e1 := Xml.takeWhile_digits hd (List.replicate b ' ') (by
    intro c r h; rw [blank_head h]; rfl)
  have e2 := Xml.takeWhile_digits hd [] (by simp)
  rw [List.append_nil] at e2
  unfold atoi int pad
  rw [List.append_assoc, dropWhile_blanks, List.append_assoc, dropWhile_blanks]
  unfold printInt
  split_ifs with hn
  · rw [List.cons_append, Xml.dropWhile_space (by decide), Xml.dropWhile_space (by decide)]
    simp only [Xml.readSign, e1.1, e2.1]
  · obtain ⟨c, s, hc⟩ := List.exists_cons_of_ne_nil (Xml.natText_ne_nil n.natAbs)
    obtain ⟨q1, q2, q3, -⟩ := Xml.isDigit_not (hd c (by rw [hc]; simp))
    have e3 : (natText n.natAbs).dropWhile isSpace = natText n.natAbs := by
      rw [hc]; exact Xml.dropWhile_space q1 s
    have e4 : (natText n.natAbs ++ List.replicate b ' ').dropWhile isSpace = natText n.natAbs ++ List.replicate b ' ' := by
      rw [hc]; exact Xml.dropWhile_space q1 _
    have e5 : Xml.readSign (natText n.natAbs ++ List.replicate b ' ') = (false, natText n.natAbs ++ List.replicate b ' ') := by
      rw [hc, List.cons_append]
      unfold Xml.readSign
      split
      · rename_i h; injection h with h _; exact absurd h q2
      · rename_i h; injection h with h _; exact absurd h q3
      · rfl
    rw [e3, e4, e5, Xml.readSign_digits hd]
    simp only [e1.1, e2.1]

theorem atof_blanks (a b w p : ℕ) (v : ℚ) :
    atof (List.replicate a ' ' ++ fixed w p v ++ List.replicate b ' ') =
      (if v < 0 then -1 else 1) * ((roundEven (|v| * 10 ^ p)).toNat : ℚ) / 10 ^ p := by
  obtain ⟨n, hn⟩ : ∃ n, n = (roundEven (|v| * 10 ^ p)).toNat := ⟨_, rfl⟩
  unfold fixed pad
  rw [← hn]
  dsimp only
  rw [List.append_assoc]
  unfold atof
  rw [dropWhile_blanks, List.append_assoc, dropWhile_blanks]
  have hd := Xml.natText_isDigit (n / 10 ^ p)
  obtain ⟨c, s, hc⟩ := List.exists_cons_of_ne_nil (Xml.natText_ne_nil (n / 10 ^ p))
  obtain ⟨q1, q2, q3, -⟩ := Xml.isDigit_not (hd c (by rw [hc]; simp))
  obtain ⟨R, hR⟩ : ∃ R, R = List.replicate b ' ' := ⟨_, rfl⟩
  have hRh : ∀ c r, R = c :: r → isDigit c = false := by
    intro c r h; rw [hR] at h; rw [blank_head h]; rfl
  have e1 : Xml.readSign (((if v < 0 then ['-'] else []) ++ natText (n / 10 ^ p) ++ '.' :: digitsOf p n ++ R).dropWhile isSpace)
      = (decide (v < 0), natText (n / 10 ^ p) ++ '.' :: digitsOf p n ++ R) := by
    by_cases hv : v < 0
    · rw [if_pos hv, decide_eq_true hv]
      rfl
    · rw [if_neg hv, decide_eq_false hv, hc]
      show Xml.readSign (List.dropWhile isSpace (c :: _)) = _
      rw [Xml.dropWhile_space q1]
      unfold Xml.readSign
      split
      · rename_i h; injection h with h _; exact absurd h q2
      · rename_i h; injection h with h _; exact absurd h q3
      · rfl
  have e2 := Xml.takeWhile_digits hd ('.' :: digitsOf p n ++ R) (by intro c r h; cases h; rfl)
  have e3 := Xml.takeWhile_digits (Xml.digitsOf_isDigit p n) R hRh
  have e4 : Xml.readFraction ('.' :: digitsOf p n ++ R) = (digitsOf p n, R) := by
    show (List.takeWhile isDigit (digitsOf p n ++ R), List.dropWhile isDigit (digitsOf p n ++ R)) = _
    rw [e3.1, e3.2]
  have e5 : Xml.digitsVal 0 (natText (n / 10 ^ p) ++ digitsOf p n) = n := by
    rw [Xml.digitsVal_append, Xml.digitsVal_digitsOf, Xml.digitsVal_natText]
    exact Nat.div_add_mod' n (10 ^ p)
  have e6 : Xml.readExponent R = 0 := by
    rw [hR]
    cases b with
    | zero => rfl
    | succ b => rfl
  rw [← hR, e1]
  dsimp only
  rw [List.append_assoc] at *
  rw [e2.1, e2.2, e4]
  dsimp only
  rw [if_neg (by rintro ⟨h, -⟩; exact Xml.natText_ne_nil _ h), e5, e6, Xml.length_digitsOf]
  have e7 : (10 : ℚ) ^ ((0 : ℤ) - (p : ℤ)) = 1 / 10 ^ p := by
    rw [zero_sub, zpow_neg, zpow_natCast, one_div]
  rw [e7]
  by_cases hv : v < 0
  · simp only [hv, decide_true, if_true]; ring
  · simp only [hv, decide_false, Bool.false_eq_true, if_false]; ring

theorem shows_real (a b w p : ℕ) (v : ℚ) : Shows (.real p v) (Cell.text ⟨a, .f w p v, b⟩) := by
  show (∃ k : ℤ, atof (List.replicate a ' ' ++ fixed w p v ++ List.replicate b ' ') = k / 10 ^ p) ∧
    |atof (List.replicate a ' ' ++ fixed w p v ++ List.replicate b ' ') - v| ≤ _
  rw [atof_blanks]
  have hp : (0 : ℚ) < 10 ^ p := by positivity
  have h1 := (Xml.roundEven_near (|v| * 10 ^ p)).1
  have h0 : 0 ≤ roundEven (|v| * 10 ^ p) := by
    have := (Xml.roundEven_near (|v| * 10 ^ p)).2.1
    have h2 : 0 ≤ ⌊|v| * 10 ^ p⌋ := Int.floor_nonneg.2 (by positivity)
    omega
  have h2 : (((roundEven (|v| * 10 ^ p)).toNat : ℕ) : ℚ) = (roundEven (|v| * 10 ^ p) : ℚ) := by
    have : (((roundEven (|v| * 10 ^ p)).toNat : ℕ) : ℤ) = roundEven (|v| * 10 ^ p) := Int.toNat_of_nonneg h0
    exact_mod_cast congrArg (Int.cast : ℤ → ℚ) this
  rw [h2]
  obtain ⟨r, hr⟩ : ∃ r, r = roundEven (|v| * 10 ^ p) := ⟨_, rfl⟩
  rw [← hr] at h1 ⊢
  have h3 : |(r : ℚ) / 10 ^ p - (|v|)| ≤ 1 / 2 / 10 ^ p := by
    have : (r : ℚ) / 10 ^ p - (|v|) = ((r : ℚ) - |v| * 10 ^ p) / 10 ^ p := by field_simp
    rw [this, abs_div, abs_of_pos hp]
    exact div_le_div_of_nonneg_right h1 hp.le
  by_cases hv : v < 0
  · rw [if_pos hv]
    refine ⟨⟨-r, by push_cast; ring⟩, ?_⟩
    rw [abs_of_neg hv] at h3
    rw [← abs_neg]
    convert h3 using 2
    ring
  · rw [if_neg hv]
    refine ⟨⟨r, by ring⟩, ?_⟩
    rw [abs_of_nonneg (not_lt.1 hv)] at h3
    convert h3 using 2
    ring

theorem shows_int (a b w : ℕ) {n : ℤ} (h : -2 ^ 31 ≤ n ∧ n < 2 ^ 31) : Shows (.int n) (Cell.text ⟨a, .d w n, b⟩) :=
  atoi_blanks a b w h.1 h.2

theorem bar_cell (a b : ℕ) {x : Piece} (h : ∀ t, x ≠ .lit t) : '|' ∉ Cell.text ⟨a, x, b⟩ := by
  unfold Cell.text
  simp only [List.mem_append, not_or]
  refine ⟨⟨bar_replicate a, ?_⟩, bar_replicate b⟩
  cases x with
  | lit t => exact absurd rfl (h t)
  | d w n => exact bar_int w n
  | f w p v => exact bar_fixed w p v

/-- The cells of a row with their values: none is a text, and the integers are ints. -/
def CellOk : Value → Cell → Prop
  | .int n, c => c.piece = .d (match c.piece with | .d w _ => w | _ => 0) n ∧ (-2 ^ 31 ≤ n ∧ n < 2 ^ 31)
  | .real p v, c => c.piece = .f (match c.piece with | .f w _ _ => w | _ => 0) p v

theorem showsRow_row {vs : List Value} {cs : List Cell} (h : List.Forall₂ CellOk vs cs) : ShowsRow vs (row cs) := by
  refine ⟨cs.map Cell.text, cut_row cs ?_, ?_⟩
  · induction h with
    | nil => simp
    | cons h1 _ ih =>
      intro c hc
      rcases List.mem_cons.1 hc with rfl | hc
      · rename_i v _ _ _
        obtain ⟨a, x, b⟩ := c
        apply bar_cell
        cases v with
        | int n => intro t ht; have := h1.1; simp [ht] at this
        | real p v => intro t ht; have : _ = _ := h1; simp [ht] at this
      · exact ih c hc
  · induction h with
    | nil => exact .nil
    | cons h1 _ ih =>
      refine .cons ?_ ih
      rename_i v c _ _ _
      obtain ⟨a, x, b⟩ := c
      cases v with
      | int n =>
        obtain ⟨h1, h2⟩ := h1
        dsimp only at h1
        rw [h1]
        exact shows_int _ _ _ h2
      | real p v =>
        have h1 : x = _ := h1
        rw [h1]
        exact shows_real _ _ _ _ _

/-! ### C115 -/

theorem zplanar_row (l s : ZPlanar.Layer ℚ) : format (zplanarPieces l s) = row
    [⟨1, .d 3 l.NLadders, 2⟩, ⟨2, .f 4 2 l.Distance, 2⟩, ⟨2, .f 4 2 l.Width, 2⟩, ⟨2, .f 4 2 l.Length, 2⟩,
     ⟨2, .f 4 2 l.Thickness, 2⟩, ⟨2, .f 4 2 s.Distance, 2⟩, ⟨2, .f 4 2 s.Width, 2⟩, ⟨2, .f 4 2 s.Length, 2⟩,
     ⟨2, .f 4 2 s.Thickness, 2⟩] := by
  simp [format, zplanarPieces, row, Cell.text, Piece.text, List.replicate]

theorem ftd_row (l s : Ftd.Layer ℚ) : format (ftdPieces l s) = row
    [⟨1, .d 3 l.nPetals, 2⟩, ⟨2, .f 4 2 l.lengthMin, 2⟩, ⟨2, .f 4 2 l.lengthMax, 2⟩, ⟨2, .f 4 2 l.width, 2⟩,
     ⟨2, .f 4 2 l.thickness, 2⟩, ⟨2, .f 4 2 s.lengthMin, 2⟩, ⟨2, .f 4 2 s.lengthMax, 2⟩, ⟨2, .f 4 2 s.width, 2⟩,
     ⟨2, .f 4 2 s.thickness, 2⟩] := by
  simp [format, ftdPieces, row, Cell.text, Piece.text, List.replicate]

theorem si_row (l : Telescope.Layer ℚ) (s : Telescope.SensLayer ℚ) : format (siPieces l s) = row
    [⟨0, .d 5 l.id, 0⟩, ⟨0, .f 5 2 l.positionX, 0⟩, ⟨0, .f 5 2 l.positionY, 0⟩, ⟨0, .f 7 2 l.positionZ, 0⟩,
     ⟨0, .f 5 2 l.rotationXY, 0⟩, ⟨0, .f 5 2 l.rotationZX, 0⟩, ⟨0, .f 5 2 l.rotationZY, 0⟩, ⟨0, .f 6 2 l.sizeX, 0⟩,
     ⟨0, .f 6 2 l.sizeY, 0⟩, ⟨0, .f 6 3 l.thickness, 0⟩,
     ⟨0, .d 5 s.id, 0⟩, ⟨0, .f 5 2 s.positionX, 0⟩, ⟨0, .f 5 2 s.positionY, 0⟩, ⟨0, .f 7 2 s.positionZ, 0⟩,
     ⟨0, .f 5 2 s.sizeX, 0⟩, ⟨0, .f 5 2 s.sizeY, 0⟩, ⟨0, .f 6 3 s.thickness, 0⟩, ⟨0, .d 5 s.npixelX, 0⟩,
     ⟨0, .d 5 s.npixelY, 0⟩, ⟨0, .f 6 2 s.pitchX, 0⟩, ⟨0, .f 6 2 s.pitchY, 0⟩, ⟨0, .f 6 4 s.resolution, 0⟩,
     ⟨0, .f 5 2 s.rotation1, 0⟩, ⟨0, .f 5 2 s.rotation2, 0⟩, ⟨0, .f 5 2 s.rotation3, 0⟩, ⟨0, .f 5 2 s.rotation4, 0⟩] := by
  simp [format, siPieces, row, Cell.text, Piece.text]

theorem dut_row (l : Telescope.Layer ℚ) (s : Telescope.SensLayer ℚ) : format (dutPieces l s) = row
    [⟨0, .d 5 l.id, 0⟩, ⟨0, .f 5 2 l.positionX, 0⟩, ⟨0, .f 5 2 l.positionY, 0⟩, ⟨0, .f 7 2 l.positionZ, 0⟩,
     ⟨0, .f 6 2 l.sizeX, 0⟩, ⟨0, .f 6 2 l.sizeY, 0⟩, ⟨0, .f 6 3 l.thickness, 0⟩,
     ⟨0, .d 5 s.id, 0⟩, ⟨0, .f 5 2 s.positionX, 0⟩, ⟨0, .f 5 2 s.positionY, 0⟩, ⟨0, .f 7 2 s.positionZ, 0⟩,
     ⟨0, .f 5 2 s.sizeX, 0⟩, ⟨0, .f 5 2 s.sizeY, 0⟩, ⟨0, .f 6 3 s.thickness, 0⟩, ⟨0, .d 5 s.npixelX, 0⟩,
     ⟨0, .d 5 s.npixelY, 0⟩, ⟨0, .f 6 2 s.pitchX, 0⟩, ⟨0, .f 6 2 s.pitchY, 0⟩,
     ⟨0, .f 5 2 s.rotation1, 0⟩, ⟨0, .f 5 2 s.rotation2, 0⟩, ⟨0, .f 5 2 s.rotation3, 0⟩, ⟨0, .f 5 2 s.rotation4, 0⟩] := by
  simp [format, dutPieces, row, Cell.text, Piece.text]

theorem table_inv (f : ℤ → Res Text) : ∀ (n : ℕ) (t : Text), table f n = .ok t →
    ∃ rs : List Text, t = rs.flatten ∧ rs.length = n ∧ ∀ (i : ℕ) (hi : i < rs.length), f i = .ok rs[i] := by
  intro n
  induction n with
  | zero => intro t h; cases h; exact ⟨[], rfl, rfl, by simp⟩
  | succ n ih =>
    intro t h
    rw [table] at h
    cases ha : table f n with
    | throw e => rw [ha] at h; cases h
    | ub => rw [ha] at h; cases h
    | ok a =>
      rw [ha, Res.bind_ok] at h
      cases hb : f n with
      | throw e => rw [hb] at h; cases h
      | ub => rw [hb] at h; cases h
      | ok b =>
        rw [hb] at h
        cases h
        obtain ⟨rs, h1, h2, h3⟩ := ih a ha
        refine ⟨rs ++ [b], by simp [h1], by simp [h2], ?_⟩
        intro i hi
        rw [List.length_append, List.length_singleton] at hi
        by_cases hin : i < rs.length
        · rw [List.getElem_append_left hin]; exact h3 i hin
        · have : i = n := by omega
          subst this
          rw [List.getElem_append_right (by omega)]
          simpa using hb

theorem forall₂_of_getElem {A B : Type} {R : A → B → Prop} {l : List A} {r : List B} (h : r.length = l.length)
    (hR : ∀ (i : ℕ) (hi : i < l.length) (hr : i < r.length), R l[i] r[i]) : List.Forall₂ R l r := by
  rw [List.forall₂_iff_get]
  exact ⟨h.symm, fun i h1 h2 => hR i h1 h2⟩

theorem sprintf_ok {n : ℕ} {l : List Piece} {t : Text} (h : sprintf n l = .ok t) : t = format l := by
  unfold sprintf at h
  split at h
  · cases h; rfl
  · cases h

/-- An int. -/
def IsInt (n : ℤ) : Prop := -2 ^ 31 ≤ n ∧ n < 2 ^ 31

theorem zplanar_row_shows (L : ZPlanar.Layout ℚ) (hi : ∀ x ∈ L, IsInt x.1.NLadders) {i : ℕ} (hl : i < L.length) {r : Text}
    (h4 : (do
      let l ← ZPlanar.layerAt L i false
      let s ← ZPlanar.layerAt L i true
      sprintf 1024 (zplanarPieces l s)) = .ok r) : ShowsRow (zplanarValues L[i].1 L[i].2) r := by
  have h5 : ∀ b, ZPlanar.layerAt L (i : ℤ) b = .ok (if b then L[i].2 else L[i].1) := by
    intro b
    unfold ZPlanar.layerAt
    rw [if_neg (by omega), Int.toNat_natCast, List.getElem?_eq_getElem hl]
  rw [h5, Res.bind_ok, h5, Res.bind_ok] at h4
  simp only [Bool.false_eq_true, if_false, if_true] at h4
  rw [sprintf_ok h4, zplanar_row]
  exact showsRow_row (.cons ⟨rfl, hi _ (List.getElem_mem hl)⟩ (.cons rfl (.cons rfl (.cons rfl (.cons rfl (.cons rfl
    (.cons rfl (.cons rfl (.cons rfl .nil)))))))))

/-- C115, for vertex detectors: if the table is printed, it has one row for every layer, in their order, and the row shows
the number of ladders and the values of the ladder and of the sensitive part, rounded to two digits. -/
theorem zplanar_shows (L : ZPlanar.Layout ℚ) (hi : ∀ x ∈ L, IsInt x.1.NLadders) {t : Text} (h : zplanarRows L = .ok t) :
    ∃ rows : List Text, t = rows.flatten ∧ List.Forall₂ (fun x r => ShowsRow (zplanarValues x.1 x.2) r) L rows := by
  obtain ⟨rs, h1, h2, h3⟩ := table_inv _ _ _ h
  refine ⟨rs, h1, forall₂_of_getElem h2 fun i hl hr => zplanar_row_shows L hi hl (h3 i hr)⟩

theorem ftd_row_shows (L : Ftd.Layout ℚ) (hi : ∀ x ∈ L, IsInt x.1.nPetals) {i : ℕ} (h7 : i < 7) (hl : i < L.length) {r : Text}
    (h4 : (do
      let l ← Ftd.sup L i
      let s ← Ftd.sen L i
      sprintf 1024 (ftdPieces l s)) = .ok r) : ShowsRow (ftdValues L[i].1 L[i].2) r := by
  have h0 : Ftd.at' L (Ftd.getEquivLayer L i) = .ok L[i] := by
    unfold Ftd.getEquivLayer Ftd.at'
    rw [if_neg (by omega), if_neg (by omega), Int.toNat_natCast, List.getElem?_eq_getElem hl]
  unfold Ftd.sup Ftd.sen at h4
  rw [h0] at h4
  simp only [Res.bind_ok, Res.pure_eq] at h4
  rw [sprintf_ok h4, ftd_row]
  exact showsRow_row (.cons ⟨rfl, hi _ (List.getElem_mem hl)⟩ (.cons rfl (.cons rfl (.cons rfl (.cons rfl (.cons rfl
    (.cons rfl (.cons rfl (.cons rfl .nil)))))))))

/-- C115, for forward tracking discs. -/
theorem ftd_shows (L : Ftd.Layout ℚ) (hi : ∀ x ∈ L, IsInt x.1.nPetals) {t : Text} (h : ftdRows L = .ok t) :
    ∃ rows : List Text, t = rows.flatten ∧ List.Forall₂ (fun x r => ShowsRow (ftdValues x.1 x.2) r) L rows := by
  have h7 : L.length ≤ 7 := by
    by_contra hc
    exact ftd_false_layers L (by omega) t h
  obtain ⟨rs, h1, h2, h3⟩ := table_inv _ _ _ h
  refine ⟨rs, h1, forall₂_of_getElem h2 fun i hl hr => ftd_row_shows L hi (by omega) hl (h3 i hr)⟩

theorem si_row_shows (s : Telescope.Si ℚ) (hi : ∀ l ∈ s.lVec, IsInt l.id)
    (hj : ∀ l ∈ s.sVec, IsInt l.id ∧ IsInt l.npixelX ∧ IsInt l.npixelY) {i : ℕ} (hi1 : i < s.lVec.length) (hi2 : i < s.sVec.length)
    {r : Text}
    (h4 : (do
      let l ← Telescope.at' s.lVec i
      let x ← Telescope.at' s.sVec i
      sprintf 1024 (siPieces l x)) = .ok r) : ShowsRow (siValues s.lVec[i] s.sVec[i]) r := by
  have e1 : Telescope.at' s.lVec (i : ℤ) = .ok s.lVec[i] := by
    unfold Telescope.at'
    rw [if_neg (by omega), Int.toNat_natCast, List.getElem?_eq_getElem hi1]
  have e2 : Telescope.at' s.sVec (i : ℤ) = .ok s.sVec[i] := by
    unfold Telescope.at'
    rw [if_neg (by omega), Int.toNat_natCast, List.getElem?_eq_getElem hi2]
  rw [e1, Res.bind_ok, e2, Res.bind_ok] at h4
  rw [sprintf_ok h4, si_row]
  have k1 := hi _ (List.getElem_mem hi1)
  obtain ⟨k2, k3, k4⟩ := hj _ (List.getElem_mem hi2)
  exact showsRow_row (.cons ⟨rfl, k1⟩ (.cons rfl (.cons rfl (.cons rfl (.cons rfl (.cons rfl (.cons rfl (.cons rfl
    (.cons rfl (.cons rfl (.cons ⟨rfl, k2⟩ (.cons rfl (.cons rfl (.cons rfl (.cons rfl (.cons rfl (.cons rfl
    (.cons ⟨rfl, k3⟩ (.cons ⟨rfl, k4⟩ (.cons rfl (.cons rfl (.cons rfl (.cons rfl (.cons rfl (.cons rfl
    (.cons rfl .nil))))))))))))))))))))))))))

/-- C115, for telescopes: the row of every layer shows the layer and its sensitive part. -/
theorem si_shows (s : Telescope.Si ℚ) (hi : ∀ l ∈ s.lVec, IsInt l.id)
    (hj : ∀ l ∈ s.sVec, IsInt l.id ∧ IsInt l.npixelX ∧ IsInt l.npixelY) {t : Text} (h : siRows s = .ok t) :
    ∃ rows : List Text, t = rows.flatten ∧ rows.length = s.lVec.length ∧ s.lVec.length ≤ s.sVec.length ∧
      List.Forall₂ (fun x r => ShowsRow (siValues x.1 x.2) r) (s.lVec.zip s.sVec) rows := by
  obtain ⟨rs, h1, h2, h3⟩ := table_inv _ _ _ h
  have hlen : s.lVec.length ≤ s.sVec.length := by
    by_contra hc
    have h4 := h3 s.sVec.length (by omega)
    have e1 : Telescope.at' s.lVec (s.sVec.length : ℤ) = .ok (s.lVec[s.sVec.length]'(by omega)) := by
      unfold Telescope.at'
      rw [if_neg (by omega), Int.toNat_natCast, List.getElem?_eq_getElem (by omega)]
    have e2 : Telescope.at' s.sVec (s.sVec.length : ℤ) = .throw .outOfRange := by
      unfold Telescope.at'
      rw [if_neg (by omega), Int.toNat_natCast, List.getElem?_eq_none (by omega)]
    rw [e1, Res.bind_ok, e2] at h4
    cases h4
  refine ⟨rs, h1, h2, hlen, forall₂_of_getElem (by rw [List.length_zip, h2]; omega) ?_⟩
  intro i hl hr
  rw [List.getElem_zip]
  exact si_row_shows s hi hj _ _ (h3 i hr)

/-- C115, for the device under test. -/
theorem dut_shows (s : Telescope.Si ℚ) (h1 : IsInt s.lDut.id) (h2 : IsInt s.sDut.id) (h3 : IsInt s.sDut.npixelX)
    (h4 : IsInt s.sDut.npixelY) {t : Text} (h : dutRow s = .ok t) : ShowsRow (dutValues s.lDut s.sDut) t := by
  rw [sprintf_ok h, dut_row]
  exact showsRow_row (.cons ⟨rfl, h1⟩ (.cons rfl (.cons rfl (.cons rfl (.cons rfl (.cons rfl (.cons rfl (.cons ⟨rfl, h2⟩
    (.cons rfl (.cons rfl (.cons rfl (.cons rfl (.cons rfl (.cons rfl (.cons ⟨rfl, h3⟩ (.cons ⟨rfl, h4⟩ (.cons rfl
    (.cons rfl (.cons rfl (.cons rfl (.cons rfl (.cons rfl .nil))))))))))))))))))))))

example (F : ZPlanar.PlanarFns ℚ) : ∃ t, zplanarRows (ZPlanar.addLayer F [] 10 0 ⟨15, 0, 11, 65, 1 / 3, 1⟩
    ⟨14, 0, 10, 60, 1 / 8, 1⟩) = .ok t := by
  refine ⟨_, zplanar_partial _ ?_⟩
  intro x hx
  simp only [ZPlanar.addLayer, List.nil_append, List.mem_singleton] at hx
  subst hx
  simp only [ZSmall, ZPlanar.mkLayer]
  norm_num [abs_of_pos]

/-! ### C116 -/

/-- A number fits into `w` characters with `p` digits after the point. -/
def Fits (w p : ℕ) (v : ℚ) : Prop :=
  (0 ≤ v ∧ p + 2 ≤ w ∧ v ≤ 10 ^ (w - p - 1) - 1 / 10 ^ p) ∨ (v < 0 ∧ p + 3 ≤ w ∧ -v ≤ 10 ^ (w - p - 2) - 1 / 10 ^ p)

/-- An integer fits into `w` characters. -/
def FitsInt (w : ℕ) (n : ℤ) : Prop := (0 ≤ n ∧ 1 ≤ w ∧ n < 10 ^ w) ∨ (n < 0 ∧ 2 ≤ w ∧ -n < 10 ^ (w - 1))

/-- The columns of two rows are the same: their bars are at the same places. -/
def SameColumns (a b : Text) : Prop :=
  (cut a).dropLast.map List.length = (cut b).dropLast.map List.length

/-- The third line of the table of a vertex detector, line 513. -/
def zplanarHeader : Text :=
  "  |  #   |    d    |    w    |    l    |   t    |    d    |    w    |    l    |    t   | \n".toList

/-- The third line of the table of a telescope, line 653. -/
def siHeader : Text :=
  "  |  ID | pozX| pozY|  pozZ |rotXY|rotZX|rotZY| sizeX| sizeY| Thick|  ID | pozX| pozY|  pozZ |sizeX|sizeY| Thick|NpixX|NpixY|PitchX|PitchY| Resol| Rot1| Rot2| Rot3| Rot4| \n".toList

/-- The third line of the table of the device under test, line 712. -/
def dutHeader : Text :=
  "  |  ID |  pozX| pozY|  pozZ | sizeX| sizeY| Thick|  ID | pozX| pozY|  pozZ |sizeX|sizeY| Thick|NpixX|NpixY|PitchX|PitchY| Rot1| Rot2| Rot3| Rot4| \n".toList

theorem roundEven_le {q : ℚ} {N : ℤ} (h : q ≤ N) : roundEven q ≤ N := by
  have h1 := (Xml.roundEven_near q).2.2
  rcases lt_or_eq_of_le h with hl | he
  · have : ⌊q⌋ < N := Int.floor_lt.2 hl
    omega
  · rw [he, Xml.roundEven_int]

theorem fixed_fits {w p : ℕ} {v : ℚ} (h : Fits w p v) : (fixed w p v).length = w := by
  have key : ∀ k : ℕ, 0 < k → |v| ≤ 10 ^ k - 1 / 10 ^ p →
      (natText ((roundEven (|v| * 10 ^ p)).toNat / 10 ^ p)).length ≤ k := by
    intro k hk hv
    have hp : (0 : ℚ) < 10 ^ p := by positivity
    have h1 : |v| * 10 ^ p ≤ ((10 ^ (k + p) - 1 : ℤ) : ℚ) := by
      push_cast
      have := mul_le_mul_of_nonneg_right hv hp.le
      rw [sub_mul, ← pow_add, one_div, inv_mul_cancel₀ hp.ne'] at this
      exact this
    have h2 := roundEven_le h1
    have h3 : (roundEven (|v| * 10 ^ p)).toNat < 10 ^ (k + p) := by
      have : (0 : ℤ) < 10 ^ (k + p) := by positivity
      zify
      have := Int.toNat_le.2 (show roundEven (|v| * 10 ^ p) ≤ (((10 ^ (k + p) - 1 : ℤ)).toNat : ℤ) by
        rw [Int.toNat_of_nonneg (by omega)]; exact h2)
      have h4 : (((10 ^ (k + p) - 1 : ℤ)).toNat : ℤ) = 10 ^ (k + p) - 1 := Int.toNat_of_nonneg (by omega)
      omega
    apply natText_length_le hk
    rw [Nat.div_lt_iff_lt_mul (by positivity), ← pow_add]
    exact h3
  unfold fixed
  rw [pad_length]
  apply max_eq_left
  simp only [List.length_append, List.length_cons, Xml.length_digitsOf]
  rcases h with ⟨h1, h2, h3⟩ | ⟨h1, h2, h3⟩
  · rw [if_neg (not_lt.2 h1)]
    have := key (w - p - 1) (by omega) (by rw [abs_of_nonneg h1]; exact h3)
    simp only [List.length_nil]
    omega
  · rw [if_pos h1]
    have := key (w - p - 2) (by omega) (by rw [abs_of_neg h1]; exact h3)
    simp only [List.length_cons, List.length_nil]
    omega

theorem int_fits {w : ℕ} {n : ℤ} (h : FitsInt w n) : (int w n).length = w := by
  unfold int
  rw [pad_length]
  apply max_eq_left
  unfold printInt
  rcases h with ⟨h1, h2, h3⟩ | ⟨h1, h2, h3⟩
  · rw [if_neg (not_lt.2 h1)]
    apply natText_length_le (by omega)
    zify
    rw [abs_of_nonneg h1]
    exact h3
  · rw [if_pos h1, List.length_cons]
    have := @natText_length_le n.natAbs (w - 1) (by omega) (by
      zify
      rw [abs_of_neg h1]
      exact h3)
    omega

/-- The number in a cell has the given number of characters. -/
def Wide (w : ℕ) (c : Cell) : Prop := c.text.length = w

theorem row_columns {ws : List ℕ} {cs : List Cell} {h : Text} (hb : ∀ c ∈ cs, '|' ∉ c.text)
    (hf : List.Forall₂ Wide ws cs) (hh : (cut h).dropLast.map List.length = 2 :: ws) : SameColumns (row cs) h := by
  unfold SameColumns
  rw [hh, cut_row cs hb, List.dropLast_concat, List.map_cons]
  congr 1
  clear hh hb
  induction hf with
  | nil => rfl
  | cons h1 _ ih => rw [List.map_cons, List.map_cons, ih]; exact congrArg (· :: _) h1

theorem wide_f {a b w p : ℕ} {v : ℚ} (h : Fits w p v) : Wide (a + w + b) ⟨a, .f w p v, b⟩ := by
  show (List.replicate a ' ' ++ fixed w p v ++ List.replicate b ' ').length = _
  simp only [List.length_append, List.length_replicate, fixed_fits h]

theorem wide_d {a b w : ℕ} {n : ℤ} (h : FitsInt w n) : Wide (a + w + b) ⟨a, .d w n, b⟩ := by
  show (List.replicate a ' ' ++ int w n ++ List.replicate b ' ').length = _
  simp only [List.length_append, List.length_replicate, int_fits h]

/-- The values of a telescope layer fit into their columns. -/
def SiFits (l : Telescope.Layer ℚ) (s : Telescope.SensLayer ℚ) : Prop :=
  (FitsInt 5 l.id ∧ Fits 5 2 l.positionX ∧ Fits 5 2 l.positionY ∧ Fits 7 2 l.positionZ ∧ Fits 5 2 l.rotationXY ∧
    Fits 5 2 l.rotationZX ∧ Fits 5 2 l.rotationZY ∧ Fits 6 2 l.sizeX ∧ Fits 6 2 l.sizeY ∧ Fits 6 3 l.thickness) ∧
  (FitsInt 5 s.id ∧ Fits 5 2 s.positionX ∧ Fits 5 2 s.positionY ∧ Fits 7 2 s.positionZ ∧ Fits 5 2 s.sizeX ∧
    Fits 5 2 s.sizeY ∧ Fits 6 3 s.thickness ∧ FitsInt 5 s.npixelX ∧ FitsInt 5 s.npixelY ∧ Fits 6 2 s.pitchX ∧
    Fits 6 2 s.pitchY ∧ Fits 6 4 s.resolution ∧ Fits 5 2 s.rotation1 ∧ Fits 5 2 s.rotation2 ∧ Fits 5 2 s.rotation3 ∧
    Fits 5 2 s.rotation4)

theorem bars_of {cs : List Cell} (h : ∀ c ∈ cs, ∀ t, c.piece ≠ .lit t) : ∀ c ∈ cs, '|' ∉ c.text :=
  fun c hc => bar_cell c.pre c.post (h c hc)

/-- C116, for telescopes: the columns of every row stand below those of the head, if the values fit into them. -/
theorem si_columns_partial (l : Telescope.Layer ℚ) (s : Telescope.SensLayer ℚ) (h : SiFits l s) :
    SameColumns (format (siPieces l s)) siHeader := by
  obtain ⟨⟨a0, a1, a2, a3, a4, a5, a6, a7, a8, a9⟩, ⟨b0, b1, b2, b3, b4, b5, b6, b7, b8, b9, b10, b11, b12, b13, b14, b15⟩⟩
    := h
  rw [si_row]
  refine row_columns (ws := [5, 5, 5, 7, 5, 5, 5, 6, 6, 6, 5, 5, 5, 7, 5, 5, 6, 5, 5, 6, 6, 6, 5, 5, 5, 5]) (bars_of ?_) ?_
    (by decide +kernel)
  · simp only [List.forall_mem_cons]
    simp
  · have f : ∀ {w p : ℕ} {v : ℚ}, Fits w p v → Wide w ⟨0, .f w p v, 0⟩ := fun h => by
      simpa using wide_f (a := 0) (b := 0) h
    have d : ∀ {w : ℕ} {n : ℤ}, FitsInt w n → Wide w ⟨0, .d w n, 0⟩ := fun h => by
      simpa using wide_d (a := 0) (b := 0) h
    exact .cons (d a0) (.cons (f a1) (.cons (f a2) (.cons (f a3) (.cons (f a4) (.cons (f a5) (.cons (f a6) (.cons (f a7)
      (.cons (f a8) (.cons (f a9) (.cons (d b0) (.cons (f b1) (.cons (f b2) (.cons (f b3) (.cons (f b4) (.cons (f b5)
      (.cons (f b6) (.cons (d b7) (.cons (d b8) (.cons (f b9) (.cons (f b10) (.cons (f b11) (.cons (f b12) (.cons (f b13)
      (.cons (f b14) (.cons (f b15) .nil)))))))))))))))))))))))))

/-- C116 is false for the device under test: even if all values fit, the second column is narrower than in the head. -/
theorem dut_columns_false (l : Telescope.Layer ℚ) (s : Telescope.SensLayer ℚ) (h : SiFits l s) :
    ¬ SameColumns (format (dutPieces l s)) dutHeader := by
  intro hc
  unfold SameColumns at hc
  rw [dut_row, cut_row _ (bars_of (by simp only [List.forall_mem_cons]; simp)), List.dropLast_concat] at hc
  have e : (cut dutHeader).dropLast.map List.length =
      [2, 5, 6, 5, 7, 6, 6, 6, 5, 5, 5, 7, 5, 5, 6, 5, 5, 6, 6, 5, 5, 5, 5] := by decide +kernel
  rw [e] at hc
  simp only [List.map_cons, List.cons.injEq] at hc
  have h1 := hc.2.2.1
  have h2 : Wide (0 + 5 + 0) ⟨0, .f 5 2 l.positionX, 0⟩ := wide_f h.1.2.1
  have h3 : (Cell.text ⟨0, .f 5 2 l.positionX, 0⟩).length = 0 + 5 + 0 := h2
  rw [h3] at h1
  exact absurd h1 (by decide)

/-- C116, for vertex detectors: the columns stand below those of the head for distances, widths and lengths of two digits
before the point and thicknesses of one. -/
theorem zplanar_columns_partial (l s : ZPlanar.Layer ℚ) (h0 : FitsInt 3 l.NLadders)
    (h1 : ∀ v ∈ [l.Distance, l.Width, l.Length, s.Distance, s.Width, s.Length], 10 ≤ v ∧ v ≤ 9999 / 100)
    (h2 : ∀ v ∈ [l.Thickness, s.Thickness], 0 ≤ v ∧ v ≤ 999 / 100) :
    SameColumns (format (zplanarPieces l s)) zplanarHeader := by
  have f4 : ∀ {v : ℚ}, 0 ≤ v ∧ v ≤ 999 / 100 → Wide 8 ⟨2, .f 4 2 v, 2⟩ := by
    intro v hv
    exact wide_f (a := 2) (b := 2) (w := 4) (p := 2) (.inl ⟨hv.1, by norm_num, by norm_num; linarith [hv.2]⟩)
  have f5 : ∀ {v : ℚ}, 10 ≤ v ∧ v ≤ 9999 / 100 → Wide 9 ⟨2, .f 4 2 v, 2⟩ := by
    intro v hv
    have g1 : (fixed 5 2 v).length = 5 := fixed_fits (.inl ⟨by linarith [hv.1], by norm_num, by norm_num; linarith [hv.2]⟩)
    have g2 : 1 + 2 + 2 ≤ (fixed 4 2 v).length := fixed_length_ge (by
      rw [abs_of_nonneg (by linarith [hv.1])]; linarith [hv.1])
    have g3 : (fixed 4 2 v).length = 5 := by
      unfold fixed at g1 g2 ⊢
      rw [pad_length] at g1 g2 ⊢
      omega
    show (List.replicate 2 ' ' ++ fixed 4 2 v ++ List.replicate 2 ' ').length = _
    simp only [List.length_append, List.length_replicate, g3]
  have d : Wide 6 ⟨1, .d 3 l.NLadders, 2⟩ := wide_d (a := 1) (b := 2) h0
  rw [zplanar_row]
  refine row_columns (ws := [6, 9, 9, 9, 8, 9, 9, 9, 8]) (bars_of ?_) ?_ (by decide +kernel)
  · simp only [List.forall_mem_cons]
    simp
  · simp only [List.forall_mem_cons] at h1 h2
    obtain ⟨a1, a2, a3, a4, a5, a6, -⟩ := h1
    obtain ⟨b1, b2, -⟩ := h2
    exact .cons d (.cons (f5 a1) (.cons (f5 a2) (.cons (f5 a3) (.cons (f4 b1) (.cons (f5 a4) (.cons (f5 a5) (.cons (f5 a6)
      (.cons (f4 b2) .nil))))))))

/-- C116 is false for vertex detectors with a ladder of half length 100 or more. -/
theorem zplanar_columns_false (l s : ZPlanar.Layer ℚ) (h : 100 ≤ l.Length) :
    ¬ SameColumns (format (zplanarPieces l s)) zplanarHeader := by
  intro hc
  unfold SameColumns at hc
  rw [zplanar_row, cut_row _ (bars_of (by simp only [List.forall_mem_cons]; simp)), List.dropLast_concat] at hc
  have e : (cut zplanarHeader).dropLast.map List.length = [2, 6, 9, 9, 9, 8, 9, 9, 9, 8] := by decide +kernel
  rw [e] at hc
  simp only [List.map_cons, List.cons.injEq] at hc
  have h1 := hc.2.2.2.2.1
  have g2 : 2 + 2 + 2 ≤ (fixed 4 2 l.Length).length := fixed_length_ge (by
    rw [abs_of_nonneg (by linarith)]; linarith)
  have h3 : (Cell.text ⟨2, .f 4 2 l.Length, 2⟩).length = 2 + (fixed 4 2 l.Length).length + 2 := by
    show (List.replicate 2 ' ' ++ fixed 4 2 l.Length ++ List.replicate 2 ' ').length = _
    simp only [List.length_append, List.length_replicate]
  rw [h3] at h1
  omega

example : Fits 5 2 (-(3 / 2)) ∧ Fits 7 2 1234 ∧ FitsInt 5 1024 ∧ ¬ Fits 5 2 100 := by
  refine ⟨.inr ?_, .inl ?_, .inl ?_, ?_⟩
  · norm_num
  · norm_num
  · norm_num
  · rintro (h | h) <;> norm_num at h

end Gear.Print
