/-
What rows and columns are: a text is read as characters, tabulators, byte order marks and line breaks.
-/
import Mathlib.Order.Bounds.Basic
import Verif.Xml
import Verif.XmlGrammarSpec

set_option autoImplicit false
set_option linter.unusedSectionVars false

namespace Gear.Xml.Place.Spec

/-- What a text consists of. -/
inductive Sign where
  /-- a character that takes one column -/
  | char (bytes : Text)
  | tab
  /-- a byte order mark, which takes no column -/
  | mark (bytes : Text)
  | lineBreak (bytes : Text)

/-- The bytes of a sign. -/
def Sign.bytes : Sign → Text
  | .char b => b
  | .tab => ['\t']
  | .mark b => b
  | .lineBreak b => b

/-- The text of some signs. -/
def text (l : List Sign) : Text := (l.map Sign.bytes).flatten

/-- A byte that is no line break and no tabulator. -/
def Plain (c : Char) : Prop := c ≠ '\n' ∧ c ≠ '\r' ∧ c ≠ '\t'

/-- The byte order mark and the two codes that are no characters. -/
def Mark (b : Text) : Prop :=
  b.map Char.toNat = [0xef, 0xbb, 0xbf] ∨ b.map Char.toNat = [0xef, 0xbf, 0xbe] ∨ b.map Char.toNat = [0xef, 0xbf, 0xbf]

/-- A character in UTF-8: a byte below 80 hex, or a first byte that tells the number of bytes. -/
def Utf8Char (b : Text) : Prop :=
  ∃ c r, b = c :: r ∧
    ((c.toNat < 0x80 ∧ r.length = 0) ∨ (0xc2 ≤ c.toNat ∧ c.toNat < 0xe0 ∧ r.length = 1) ∨
      (0xe0 ≤ c.toNat ∧ c.toNat < 0xf0 ∧ r.length = 2) ∨ (0xf0 ≤ c.toNat ∧ c.toNat < 0xf5 ∧ r.length = 3))

/-- Whether this is a sign in the encoding: in UTF-8 characters have up to four bytes, otherwise one. -/
def Sign.Valid (enc : Enc) : Sign → Prop
  | .char b => (∃ c r, b = c :: r ∧ Plain c) ∧ if enc = .utf8 then Utf8Char b ∧ ¬ Mark b else b.length = 1
  | .tab => True
  | .mark b => enc = .utf8 ∧ Mark b
  | .lineBreak b => b = ['\n'] ∨ b = ['\r'] ∨ b = ['\r', '\n'] ∨ b = ['\n', '\r']

/-- No line feed and carriage return next to each other belong to different line breaks; `rest` follows the signs. -/
def Separated (rest : Text) : List Sign → Prop
  | [] => True
  | s :: l => (s.bytes = ['\n'] → (text l ++ rest).head? ≠ some '\r') ∧
      (s.bytes = ['\r'] → (text l ++ rest).head? ≠ some '\n') ∧ Separated rest l

/-- The number of line breaks. -/
def row : List Sign → ℕ
  | [] => 0
  | .lineBreak _ :: l => row l + 1
  | _ :: l => row l

/-- The column after a sign that begins in column `w`; tab stops are at the multiples of `tab`. -/
def advance (tab : ℕ) (w : ℕ) : Sign → ℕ
  | .char _ => w + 1
  | .tab => (w / tab + 1) * tab
  | .mark _ => w
  | .lineBreak _ => 0

/-- The column after some signs. -/
def column (tab : ℕ) (l : List Sign) : ℕ := l.foldl (advance tab) 0

/-- `rest` is what follows some signs of the file, in the encoding. -/
def IsPlace (enc : Enc) (file : Text) (before : List Sign) (rest : Text) : Prop :=
  file = text before ++ rest ∧ (∀ s ∈ before, s.Valid enc) ∧ Separated rest before

/-- A byte of a character in UTF-8 that is not its first. -/
def Continues (c : Char) : Prop := 0x80 ≤ c.toNat ∧ c.toNat < 0xc0

/-- A text in UTF-8: characters, each with as many further bytes as its first byte tells. -/
def Utf8 (t : Text) : Prop := ∃ cs : List Text, t = cs.flatten ∧ ∀ b ∈ cs, Utf8Char b ∧ ∀ c ∈ b.tail, Continues c

/-- Whether all of a file is read in this encoding: a file in ASCII can be read in any; a file in UTF-8 has a byte order mark, or
everything up to the declaration of UTF-8 is in ASCII; in other encodings there is neither a byte order mark nor a
declaration of UTF-8. -/
inductive Readable (file : Text) : Enc → Prop
  | ascii (enc : Enc) : (∀ c ∈ file, c.toNat < 128) → Readable file enc
  | utf8 (enc : Enc) (p a q : Text) : Grammar.First file enc → Grammar.Gap enc file p → Grammar.Before enc p .utf8 q →
      file = a ++ q → (enc = .utf8 ∨ ∀ c ∈ a, c.toNat < 128) → Utf8 file → Readable file .utf8
  | bytes (enc : Enc) : enc ≠ .utf8 →
      (∀ enc' p q, Grammar.First file enc' → Grammar.Gap enc' file p → ¬ Grammar.Before enc' p .utf8 q) → Readable file enc

/-- A tabulator leads to the next tab stop. -/
theorem advance_tab {tab : ℕ} (h : 0 < tab) (w : ℕ) : IsLeast {m | tab ∣ m ∧ w < m} (advance tab w .tab) := by
  constructor
  · refine ⟨Nat.dvd_mul_left _ _, ?_⟩
    have := Nat.lt_div_mul_add (a := w) h
    show w < (w / tab + 1) * tab
    rw [Nat.add_mul, one_mul]; exact this
  · rintro m ⟨⟨k, rfl⟩, hm⟩
    show (w / tab + 1) * tab ≤ tab * k
    rw [mul_comm]
    exact Nat.mul_le_mul_left _ (Nat.succ_le_of_lt ((Nat.div_lt_iff_lt_mul h).2 (by rw [mul_comm]; exact hm)))

end Gear.Xml.Place.Spec
