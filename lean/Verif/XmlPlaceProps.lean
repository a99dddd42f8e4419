/-
Rows and columns: theorems.
-/
import Verif.XmlPlaceCode
import Verif.XmlProps

set_option autoImplicit false
set_option linter.unusedSectionVars false

namespace Gear.Xml.Place

open Spec

/-! ### C128 -/

/-- Whatever has been asked for before, at locations not behind this one, the row and the column reported for the location after
some signs are those of the location: one more than the number of line breaks in front of it, and than the width of what
follows the last one.  The signs that begin in front of a location asked for have to be signs in the encoding it is asked
with. -/
theorem stamp_place_partial {tab : ℕ} (ht : 0 < tab) (l : List Sign) (rest : Text) (hs : Separated rest l) (enc : Enc)
    (hv : ∀ s ∈ l, s.Valid enc) (h : List (Text × Enc))
    (hh : ∀ x ∈ h, rest.length ≤ x.1.length ∧
      ∀ a s b, l = a ++ s :: b → x.1.length < (text (s :: b) ++ rest).length → s.Valid x.2) :
    ∃ d, (start (text l ++ rest) tab).stamps (h ++ [(rest, enc)]) = .ok d ∧
      d.cursor.shown = ((row l : ℤ) + 1, (column tab l : ℤ) + 1) := by
  have hr : ∀ (now : Text) (e : Enc) (l : List Sign),
      (∀ a s b, l = a ++ s :: b → now.length < (text (s :: b) ++ rest).length → s.Valid e) → ReadUpTo rest now e l := by
    intro now e l
    induction l with
    | nil => intro _; exact True.intro
    | cons s l ih =>
      intro H
      exact ⟨H [] s l rfl, ih fun a s' b e' => H (s :: a) s' b (by rw [e']; rfl)⟩
  obtain ⟨a, b, g1, g2, g3⟩ := stamps_signs ht (h ++ [(rest, enc)]) l (0, 0) hs (by
    intro x hx
    rcases List.mem_append.1 hx with hx | hx
    · exact ⟨(hh x hx).1, hr _ _ _ (hh x hx).2⟩
    · rw [List.mem_singleton] at hx
      subst hx
      exact ⟨le_rfl, hr _ _ _ fun a s b e _ => hv s (by rw [e]; simp)⟩)
  refine ⟨_, g2, ?_⟩
  have hb : b = [] := by
    have := g3 (rest, enc) (by simp)
    cases b with
    | nil => rfl
    | cons s b =>
      exfalso
      have hne := bytes_ne (hv s (by rw [g1]; simp))
      have : 0 < s.bytes.length := List.length_pos_iff.2 hne
      rw [text_cons] at *
      simp only [List.length_append] at *
      omega
  subst hb
  rw [List.append_nil] at g1
  subst g1
  rw [after_foldl]
  simp only [Cursor.shown, cur, column, Nat.zero_add]

/-- A file with a byte order mark, a Windows line break, a tabulator and a letter of two bytes: the third line begins with a
tabulator, the letter and a blank, and the location after them is asked for after one in the second line. -/
example :
    let bom : Text := [Char.ofNat 0xef, Char.ofNat 0xbb, Char.ofNat 0xbf]
    let l : List Sign := [.mark bom, .char ['<'], .lineBreak ['\r', '\n'], .char ['a'], .lineBreak ['\n'], .tab,
      .char [Char.ofNat 0xc3, Char.ofNat 0xa4], .char [' ']]
    Separated ['<', '/'] l ∧ (∀ s ∈ l, s.Valid .utf8) ∧ row l = 2 ∧ column 4 l = 6 ∧
      (start (text l ++ ['<', '/']) 4).stamps [(text (l.drop 3) ++ ['<', '/'], .utf8), (['<', '/'], .utf8)]
        = .ok ⟨⟨2, 6⟩, ['<', '/'], 4⟩ := by
  refine ⟨?_, ?_, by decide +kernel, by decide +kernel, by decide +kernel⟩
  · exact ⟨by decide +kernel, by decide +kernel, by decide +kernel, by decide +kernel, by decide +kernel, by decide +kernel,
      by decide +kernel, by decide +kernel, by decide +kernel, by decide +kernel, by decide +kernel, by decide +kernel,
      by decide +kernel, by decide +kernel, by decide +kernel, by decide +kernel, True.intro⟩
  · intro s hs
    simp only [List.mem_cons, List.not_mem_nil, or_false] at hs
    rcases hs with rfl | rfl | rfl | rfl | rfl | rfl | rfl | rfl
    · exact ⟨rfl, .inl (by decide +kernel)⟩
    · refine ⟨⟨_, _, rfl, by unfold Spec.Plain; decide⟩, ?_⟩
      rw [if_pos rfl]
      exact ⟨⟨_, _, rfl, .inl (by decide)⟩, by unfold Spec.Mark; decide +kernel⟩
    · exact .inr (.inr (.inl rfl))
    · refine ⟨⟨_, _, rfl, by unfold Spec.Plain; decide⟩, ?_⟩
      rw [if_pos rfl]
      exact ⟨⟨_, _, rfl, .inl (by decide)⟩, by unfold Spec.Mark; decide +kernel⟩
    · exact .inl rfl
    · exact True.intro
    · refine ⟨⟨_, _, rfl, by unfold Spec.Plain; decide +kernel⟩, ?_⟩
      rw [if_pos rfl]
      exact ⟨⟨_, _, rfl, .inr (.inl (by decide +kernel))⟩, by unfold Spec.Mark; decide +kernel⟩
    · refine ⟨⟨_, _, rfl, by unfold Spec.Plain; decide⟩, ?_⟩
      rw [if_pos rfl]
      exact ⟨⟨_, _, rfl, .inl (by decide)⟩, by unfold Spec.Mark; decide +kernel⟩

/-- False of texts that are no UTF-8: a byte that announces another one hides the line break that follows it, and all rows
after it are off by one. -/
theorem stamp_place_false_cut :
    (start [Char.ofNat 0xc3, '\n', '<'] 4).stampAt ['<'] .utf8 = .ok ⟨⟨0, 1⟩, ['<'], 4⟩ := by decide +kernel

/-- Without a tab size all rows and columns are 1. -/
theorem stamp_off (text : Text) {tab : ℤ} (h : tab < 1) (l : List (Text × Enc)) :
    (start text tab).stamps l = .ok (start text tab) ∧ (start text tab).cursor.shown = (1, 1) := by
  refine ⟨?_, rfl⟩
  induction l with
  | nil => rfl
  | cons x l ih =>
    obtain ⟨now, enc⟩ := x
    have : (start text tab).stampAt now enc = .ok (start text tab) := by
      unfold Data.stampAt
      exact if_pos h
    simp only [Data.stamps, this, Run.bind_ok]
    exact ih

theorem loc_places {file : Text} {C : Coding file} {enc : Enc} (hv : ∀ s, C.V s → s.Valid enc)
    (hE : C.E .utf8 → enc = .utf8 ∨ ∀ c ∈ file, c.toNat < 128) {hi lo : ℕ} : ∀ {l : List (Cursor × What)},
    (signTracker C).Loc hi lo l → ∃ places : List (List Sign × Text),
      List.Forall₂ (fun x y => IsPlace enc file y.1 y.2 ∧ x.2.Stands enc y.2 ∧
        x.1.shown = ((row y.1 : ℤ) + 1, (column 4 y.1 : ℤ) + 1)) l places ∧
      places.Pairwise (fun y z => z.2.length < y.2.length) ∧ ∀ y ∈ places, y.2.length ≤ hi := by
  intro l
  induction l generalizing hi with
  | nil => intro _; exact ⟨[], .nil, .nil, by simp⟩
  | cons x l ih =>
    rintro ⟨q, g1, ⟨a, e1, e2, e3, e4⟩, g3, g4, m, g5, g6⟩
    obtain ⟨places, h1, h2, h3⟩ := ih g6
    refine ⟨(a, q) :: places, .cons ⟨⟨e1, fun s hs => hv s (e2 s hs), e3⟩, ?_, ?_⟩ h1, .cons ?_ h2, ?_⟩
    · by_cases hA : ∀ c ∈ file, c.toNat < 128
      · exact g3.ascii fun c hc => hA c (g1.subset hc)
      · exact g3.mono fun h => (hE h).resolve_right hA
    · rw [e4]; rfl
    · intro z hz; have := h3 z hz; simp only; omega
    · intro y hy
      rcases List.mem_cons.1 hy with rfl | hy
      · exact g4
      · have := h3 y hy; omega

/-- For a file in ASCII, in UTF-8 or in an encoding with one byte for each character: every node and attribute that is read has
a row and a column of its own, in the order of the document; they are those of a location where the node or the attribute
stands.  A file in UTF-8 has to say so before it uses it. -/
theorem load_places_partial {file : Text} {enc : Enc} (hr : Readable file enc) {okay : Bool} {l : List PNode}
    {e : Option (ErrorId × Cursor)} (h : load file = .ok (okay, l, e)) :
    ∃ places : List (List Sign × Text),
      List.Forall₂ (fun x y => IsPlace enc file y.1 y.2 ∧ x.2.Stands enc y.2 ∧
        x.1.shown = ((row y.1 : ℤ) + 1, (column 4 y.1 : ℤ) + 1)) (l.map PNode.all).flatten places ∧
      places.Pairwise (fun y z => z.2.length < y.2.length) := by
  obtain ⟨C, hv, hE, -, hl⟩ := load_known h hr
  obtain ⟨places, h1, h2, -⟩ := loc_places hv hE hl
  exact ⟨places, h1, h2⟩

/-- An element with two attributes, on two lines, and a text and an element in it; its rows and columns. -/
example : (match load "<a b='1'\n\tc='2'>\r\n x <d/>\n</a>".toList with
      | .ok (okay, l, e) => okay && e.isNone &&
          decide (((l.map PNode.all).flatten.map fun x => x.1.shown) = [(1, 1), (1, 4), (2, 5), (3, 2), (3, 4)])
      | _ => false) = true ∧
    ∀ c ∈ "<a b='1'\n\tc='2'>\r\n x <d/>\n</a>".toList, c.toNat < 128 := by
  constructor <;> decide +kernel

/-- A file that says it is in UTF-8, with a letter of two bytes in a comment, and a location after it. -/
example : Readable ("<?xml encoding='utf-8'?><!--".toList ++ [Char.ofNat 0xc3, Char.ofNat 0xa4] ++ "--><a/>".toList) .utf8 ∧
    (match load ("<?xml encoding='utf-8'?><!--".toList ++ [Char.ofNat 0xc3, Char.ofNat 0xa4] ++ "--><a/>".toList) with
      | .ok (okay, l, e) => okay && e.isNone &&
          decide (((l.map PNode.all).flatten.map fun x => x.1.shown) = [(1, 1), (1, 25), (1, 33)])
      | _ => false) = true := by
  constructor
  · refine .utf8 .unknown _ "<?xml encoding='utf-8'?>".toList _ (Grammar.first_iff.1 (by decide +kernel))
      ((Grammar.gap_iff (q := "<?xml encoding='utf-8'?><!--".toList ++ [Char.ofNat 0xc3, Char.ofNat 0xa4] ++ "--><a/>".toList)).1
        (by decide +kernel))
      (.node _ _ (.declaration [] "utf-8".toList []) ("<!--".toList ++ [Char.ofNat 0xc3, Char.ofNat 0xa4] ++ "--><a/>".toList) .utf8 _ _
        ("<!--".toList ++ [Char.ofNat 0xc3, Char.ofNat 0xa4] ++ "--><a/>".toList) ?_
        (Grammar.encoding_iff.1 (by decide +kernel)) (Grammar.gap_iff.1 (by decide +kernel)) (.none _ _))
      (by decide +kernel) (.inr (by decide +kernel)) ?_
    · refine (Grammar.nodes_sound .unknown 200).2.2 _ _ (some _) ⟨_, rfl⟩ ?_
      decide +kernel
    · refine ⟨("<?xml encoding='utf-8'?><!--".toList.map fun c => [c]) ++ [[Char.ofNat 0xc3, Char.ofNat 0xa4]] ++
        ("--><a/>".toList.map fun c => [c]), by decide +kernel, ?_⟩
      intro b hb
      rcases List.mem_append.1 hb with hb | hb
      · rcases List.mem_append.1 hb with hb | hb
        · obtain ⟨c, hc, rfl⟩ := List.mem_map.1 hb
          have : ∀ c ∈ "<?xml encoding='utf-8'?><!--".toList, c.toNat < 128 := by decide +kernel
          exact ⟨⟨c, [], rfl, .inl ⟨this c hc, rfl⟩⟩, by simp⟩
        · rw [List.mem_singleton] at hb
          subst hb
          exact ⟨⟨_, _, rfl, .inr (.inl (by decide +kernel))⟩, by unfold Continues; decide +kernel⟩
      · obtain ⟨c, hc, rfl⟩ := List.mem_map.1 hb
        have : ∀ c ∈ "--><a/>".toList, c.toNat < 128 := by decide +kernel
        exact ⟨⟨c, [], rfl, .inl ⟨this c hc, rfl⟩⟩, by simp⟩
  · decide +kernel

/-- A file in Latin-1 with two letters in a text, and locations after them. -/
example : Readable ("<?xml encoding='latin1'?><a>".toList ++ [Char.ofNat 0xe4, Char.ofNat 0xf6] ++ "<b/></a>".toList) .legacy ∧
    (match load ("<?xml encoding='latin1'?><a>".toList ++ [Char.ofNat 0xe4, Char.ofNat 0xf6] ++ "<b/></a>".toList) with
      | .ok (okay, l, e) => okay && e.isNone &&
          decide (((l.map PNode.all).flatten.map fun x => x.1.shown) = [(1, 1), (1, 26), (1, 29), (1, 31)])
      | _ => false) = true := by
  constructor
  · refine .bytes _ (by simp) fun enc' p q hf hg hb => ?_
    obtain rfl := Grammar.first_iff.2 hf
    have h0 : startEncoding ("<?xml encoding='latin1'?><a>".toList ++ [Char.ofNat 0xe4, Char.ofNat 0xf6] ++ "<b/></a>".toList)
      = .unknown := by decide +kernel
    rw [h0] at hb hg
    have hp : p = "<?xml encoding='latin1'?><a>".toList ++ [Char.ofNat 0xe4, Char.ofNat 0xf6] ++ "<b/></a>".toList :=
      hg.unique (Grammar.gap_iff.1 (by decide +kernel))
    subst hp
    have hd : Grammar.Complete .unknown
        ("<?xml encoding='latin1'?><a>".toList ++ [Char.ofNat 0xe4, Char.ofNat 0xf6] ++ "<b/></a>".toList)
        (.declaration [] "latin1".toList []) ("<a>".toList ++ [Char.ofNat 0xe4, Char.ofNat 0xf6] ++ "<b/></a>".toList) :=
      (Grammar.nodes_sound .unknown 200).2.2 _ _ (some _) ⟨_, rfl⟩ (by decide +kernel)
    cases hb with
    | node _ _ n p1 enc1 p2 _ _ hc hn hg' hb =>
      obtain ⟨rfl, rfl⟩ := hd.unique hc
      have hn := Grammar.encoding_iff.2 hn
      have h1 : nextEncoding .unknown (.declaration [] "latin1".toList []) = .legacy := by decide +kernel
      rw [h1] at hn
      subst hn
      exact absurd (before_settled hb (by simp)) (by simp)
  · decide +kernel

/-- A file that uses a letter of two bytes before the declaration and behind it: the column of the last attribute counts neither
the bytes nor the characters in front of it, of which there are 40 and 38. -/
theorem load_places_false_late :
    let file := "<!--".toList ++ [Char.ofNat 0xc3, Char.ofNat 0xa4] ++ "--><?xml version='1.0'?><a b='".toList ++
      [Char.ofNat 0xc3, Char.ofNat 0xa4] ++ "' c='1'/>".toList
    (match load file with
      | .ok (okay, l, e) => okay && e.isNone &&
          decide (((l.map PNode.all).flatten.map fun x => x.1.shown) = [(1, 1), (1, 10), (1, 31), (1, 34), (1, 40)])
      | _ => false) = true ∧
    (file.drop 40).take 3 = "c='".toList ∧
    ((file.take 40).filter fun c => !(decide (0x80 ≤ c.toNat) && decide (c.toNat < 0xc0))).length = 38 := by
  refine ⟨by decide +kernel, by decide +kernel, by decide +kernel⟩

/-! ### C98 -/

/-- Finding a row and a column ends, unless the text is read as UTF-8 and one of its last two bytes is `ef`. -/
theorem stamp_ends_partial (d : Data) (now : Text) (enc : Enc)
    (h : enc = .utf8 → ∀ a c r, d.stamp = a ++ c :: r → c.toNat = 0xef → 2 ≤ r.length) :
    ∃ d', d.stampAt now enc = .ok d' := by
  unfold Data.stampAt
  split_ifs
  · exact ⟨_, rfl⟩
  · obtain ⟨r, hr⟩ := stampLoop_ends (enc := enc) (tab := d.tabsize) (now := now) _ d.stamp d.cursor le_rfl
      (fun hu ⟨a, c, r, e, hc, hl⟩ => absurd (h hu a c r e hc) (by omega))
    simp only [hr, Run.bind_ok]
    exact ⟨_, rfl⟩

example : ∃ d', (start "<a>\n".toList 4).stampAt [] .utf8 = .ok d' ∧ d'.cursor = ⟨1, 0⟩ := ⟨_, rfl, by decide +kernel⟩

/-- Such a text keeps the loop from ending. -/
theorem stamp_false_endless :
    ∀ fuel, stampLoop .utf8 4 ['?'] fuel [Char.ofNat 0xef, '?'] ⟨0, 0⟩ = .endless :=
  stuck (by decide) (by decide +kernel)

/-- The number of passes that the model allows is enough for all loops that end. -/
theorem stamp_endless {d : Data} {now : Text} {enc : Enc} (h : d.stampAt now enc = .endless) :
    ∀ fuel, stampLoop enc d.tabsize now fuel d.stamp d.cursor = .endless := by
  unfold Data.stampAt at h
  split_ifs at h
  refine stampLoop_endless _ _ _ le_rfl ?_
  cases hl : stampLoop enc d.tabsize now d.stamp.length d.stamp d.cursor with
  | ok r => rw [hl] at h; cases h
  | ub => rw [hl] at h; cases h
  | assertFailed => rw [hl] at h; cases h
  | endless => rfl

/-- Loading ends, unless one of the last two bytes of the file is `ef`, and gives the nodes and the result of the parser of
Xml.lean, which does not care for rows and columns. -/
theorem load_ends_partial (file : Text) (h : ∀ a c r, file = a ++ c :: r → c.toNat = 0xef → 2 ≤ r.length) :
    load file ≠ .endless := by
  have hsim := Tracker.load_sim (T := anyTracker file) (fun _ => True.intro) List.suffix_rfl
  intro he
  rw [he] at hsim
  cases hl : loadFile file with
  | endless => exact load_terminates_partial file hl
  | _ =>
    rw [hl] at hsim
    obtain ⟨a, c, r, e, hc, hr⟩ := (hsim : Cut file)
    exact absurd (h a c r e hc) (by omega)

/-- Of all files: if loading ends, then as without rows and columns. -/
theorem load_erases (file : Text) (h : load file ≠ .endless) :
    loadFile file = match load file with
      | .ok (okay, l, _) => .ok (okay, l.map PNode.erase)
      | .ub => .ub
      | .assertFailed => .assertFailed
      | .endless => .endless := by
  have hsim := Tracker.load_sim (T := anyTracker file) (fun _ => True.intro) List.suffix_rfl
  revert hsim h
  generalize load file = A
  generalize loadFile file = B
  intro h hsim
  match A, B, hsim with
  | .ok (okay, l, e), .ok (okay', l'), hsim =>
    obtain ⟨rfl, rfl, -⟩ := hsim
    rfl
  | .ub, .ub, _ => rfl
  | .assertFailed, .assertFailed, _ => rfl
  | .endless, _, _ => exact absurd rfl h

example : ∀ a c r, "<a>\n</a>".toList = a ++ c :: r → c.toNat = 0xef → 2 ≤ r.length := by
  intro a c r e hc
  have : ∀ c ∈ "<a>\n</a>".toList, c.toNat ≠ 0xef := by decide
  exact absurd hc (this c (by rw [e]; simp))

/-- False of all files: this one keeps the parser from ending, when it wants the location of the error after the name of the
attribute. -/
theorem load_false_endless : load ("<?xml version=\"1.0\"?><a ".toList ++ [Char.ofNat 0xef, '?']) = .endless := by
  have h : (match load ("<?xml version=\"1.0\"?><a ".toList ++ [Char.ofNat 0xef, '?']) with
      | .endless => true
      | _ => false) = true := by decide +kernel
  revert h
  generalize load _ = A
  cases A <;> simp

/-! ### C129 -/

/-- The first error stays. -/
theorem setError_first (s : State) (id : ErrorId) (p : Option Text) (enc : Enc) {x : ErrorId × Cursor} (h : s.error = some x) :
    s.setError id p enc = .ok s := by
  unfold State.setError
  rw [h]

/-- Loading a file that is not empty fails if and only if an error is reported. -/
theorem load_error_iff_partial {file : Text} (hf : file ≠ []) {okay : Bool} {l : List PNode} {e : Option (ErrorId × Cursor)}
    (h : load file = .ok (okay, l, e)) : okay = false ↔ ∃ id k, e = some (id, k) := by
  unfold load at h
  rw [if_neg hf] at h
  cases hd : document 4 file with
  | ok x =>
    obtain ⟨l', s⟩ := x
    rw [hd] at h
    obtain ⟨rfl, h'⟩ := Prod.mk.inj (Run.ok.inj h)
    obtain ⟨rfl, rfl⟩ := Prod.mk.inj h'
    cases s.error with
    | none => simp
    | some x => obtain ⟨id, k⟩ := x; simp
  | ub => rw [hd] at h; cases h
  | assertFailed => rw [hd] at h; cases h
  | endless => rw [hd] at h; cases h

/-- False of an empty file: nothing is loaded, and no error is reported; the message says row 1 and column 1, and nothing
else. -/
theorem load_error_false_empty : load [] = .ok (false, [], none) ∧
    loadMessage "f" [] = .ok (some "GearXML::createGearMgr error in file [f, row: 1, col: 1] : ") := by
  constructor
  · rfl
  · decide +kernel

/-- For a file in ASCII, in UTF-8 or in an encoding with one byte for each character the row and the column of an error are
those of a location in the file, or 0 where the file has ended; those of a wrong end tag are those of an end tag. -/
theorem load_error_place_partial {file : Text} {enc : Enc} (hr : Readable file enc) {okay : Bool} {l : List PNode}
    {id : ErrorId} {k : Cursor} (h : load file = .ok (okay, l, some (id, k))) :
    (k.shown = (0, 0) ∧ id ∈ [ErrorId.readingAttributes, .readingElementValue, .documentEmpty]) ∨
      ∃ before rest, IsPlace enc file before rest ∧ k.shown = ((row before : ℤ) + 1, (column 4 before : ℤ) + 1) ∧
        (id = .readingEndTag → ['<', '/'] <+: rest) := by
  obtain ⟨C, hv, hE, he, -⟩ := load_known h hr
  rcases he id k rfl with ⟨rfl, hid⟩ | ⟨q, g1, ⟨a, e1, e2, e3, rfl⟩, g3⟩
  · exact .inl ⟨rfl, hid⟩
  · exact .inr ⟨a, q, ⟨e1, fun s hs => hv s (e2 s hs), e3⟩, rfl, g3⟩

/-- A wrong end tag in the second line, and what is said about it. -/
example : loadMessage "f.xml" "<a>\n <b></c>\n</a>".toList
      = .ok (some "GearXML::createGearMgr error in file [f.xml, row: 2, col: 5] : Error reading end tag.") ∧
    ∀ c ∈ "<a>\n <b></c>\n</a>".toList, c.toNat < 128 := by
  constructor <;> decide +kernel

end Gear.Xml.Place
