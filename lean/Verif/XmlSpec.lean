/-
Specification for the XML library (C56, C57): which names, values and trees are to survive printing and parsing.
-/
import Verif.Xml

set_option autoImplicit false

namespace Gear.Xml.Spec

/-- A name: an ASCII letter, an underscore or a byte above 126, and then also digits, hyphens, dots and colons. -/
def ValidName (n : Text) : Prop :=
  (∃ c rest, n = c :: rest ∧ (c.isAlpha = true ∨ c = '_' ∨ 127 ≤ c.toNat))
    ∧ ∀ c ∈ n, c.isAlphanum = true ∨ c = '_' ∨ c = '-' ∨ c = '.' ∨ c = ':' ∨ 127 ≤ c.toNat

/-- No hexadecimal character reference begins in the value. -/
def NoReference (v : Text) : Prop := ¬ ['&', '#', 'x'] <:+: v

/-- A text without superfluous white space: it neither begins nor ends with a blank and has no two together.  It does not
consist of white space alone. -/
def CondensedText (v : Text) : Prop :=
  (∀ rest, v ≠ ' ' :: rest) ∧ (∀ rest, v ≠ rest ++ [' ']) ∧ ¬ [' ', ' '] <:+: v ∧ ∃ c ∈ v, c.isWhitespace = false ∧ 13 < c.toNat

/-- No two neighbours are both texts. -/
def NoTwoTexts : List Node → Prop
  | .text _ :: .text _ :: _ => False
  | _ :: ns => NoTwoTexts ns
  | [] => True

mutual
/-- The trees that survive. -/
def WellFormed : Node → Prop
  | .element name attrs children =>
    ValidName name ∧ (∀ a ∈ attrs, ValidName a.1 ∧ NoReference a.2) ∧ (attrs.map Prod.fst).Nodup
      ∧ AllWellFormed children ∧ NoTwoTexts children
  | .text v => CondensedText v ∧ NoReference v
  | .comment v => '&' ∉ v ∧ ¬ ['-', '-', '>'] <:+: v
  | .unknown v => '>' ∉ v ∧ (∀ c rest, v = c :: rest → c ≠ '/' ∧ c ≠ '?' ∧ c ≠ '_' ∧ c.isAlpha = false ∧ c.toNat < 127)
      ∧ ¬ ['!', '-', '-'] <+: v
  | .declaration .. => False
/-- All of them. -/
def AllWellFormed : List Node → Prop
  | [] => True
  | n :: ns => WellFormed n ∧ AllWellFormed ns
end

/-! Decision procedures, for the examples. -/

instance (n : Text) : Decidable (ValidName n) :=
  match n with
  | [] => isFalse (by rintro ⟨⟨c, rest, h, -⟩, -⟩; cases h)
  | c :: rest =>
    decidable_of_iff ((c.isAlpha = true ∨ c = '_' ∨ 127 ≤ c.toNat)
      ∧ ∀ d ∈ c :: rest, d.isAlphanum = true ∨ d = '_' ∨ d = '-' ∨ d = '.' ∨ d = ':' ∨ 127 ≤ d.toNat)
      ⟨fun h => ⟨⟨c, rest, rfl, h.1⟩, h.2⟩, fun h => ⟨by obtain ⟨⟨c', r', e, h'⟩, -⟩ := h; cases e; exact h', h.2⟩⟩

instance (v : Text) : Decidable (NoReference v) := inferInstanceAs (Decidable (¬ _))

instance (v : Text) : Decidable (CondensedText v) :=
  decidable_of_iff (v.head? ≠ some ' ' ∧ v.getLast? ≠ some ' ' ∧ ¬ [' ', ' '] <:+: v
      ∧ ∃ c ∈ v, c.isWhitespace = false ∧ 13 < c.toNat) (by
    unfold CondensedText
    refine and_congr ?_ (and_congr ?_ Iff.rfl)
    · cases v with
      | nil => simp
      | cons c rest => simp
    · rw [not_iff_comm, List.getLast?_eq_some_iff]
      simp)

instance noTwoTexts : (ns : List Node) → Decidable (NoTwoTexts ns)
  | [] => isTrue trivial
  | n :: ns =>
    match n, ns, noTwoTexts ns with
    | .text _, .text _ :: _, _ => isFalse (by simp [NoTwoTexts])
    | .text _, [], _ => isTrue (by simp [NoTwoTexts])
    | .text _, .element n a c :: ms, d =>
      have := d; decidable_of_iff (NoTwoTexts (.element n a c :: ms)) (by simp [NoTwoTexts])
    | .text _, .comment v :: ms, d =>
      have := d; decidable_of_iff (NoTwoTexts (.comment v :: ms)) (by simp [NoTwoTexts])
    | .text _, .unknown v :: ms, d =>
      have := d; decidable_of_iff (NoTwoTexts (.unknown v :: ms)) (by simp [NoTwoTexts])
    | .text _, .declaration v e s :: ms, d =>
      have := d; decidable_of_iff (NoTwoTexts (.declaration v e s :: ms)) (by simp [NoTwoTexts])
    | .element .., ms, d => have := d; decidable_of_iff (NoTwoTexts ms) (by simp [NoTwoTexts])
    | .comment .., ms, d => have := d; decidable_of_iff (NoTwoTexts ms) (by simp [NoTwoTexts])
    | .unknown .., ms, d => have := d; decidable_of_iff (NoTwoTexts ms) (by simp [NoTwoTexts])
    | .declaration .., ms, d => have := d; decidable_of_iff (NoTwoTexts ms) (by simp [NoTwoTexts])

mutual
instance wellFormed : (n : Node) → Decidable (WellFormed n)
  | .element name attrs children =>
    have := allWellFormed children
    decidable_of_iff (ValidName name ∧ (∀ a ∈ attrs, ValidName a.1 ∧ NoReference a.2) ∧ (attrs.map Prod.fst).Nodup
      ∧ AllWellFormed children ∧ NoTwoTexts children) (by rw [WellFormed])
  | .text v => decidable_of_iff (CondensedText v ∧ NoReference v) (by rw [WellFormed])
  | .comment v => decidable_of_iff ('&' ∉ v ∧ ¬ ['-', '-', '>'] <:+: v) (by rw [WellFormed])
  | .unknown [] => isTrue (by simp [WellFormed])
  | .unknown (c :: rest) =>
    decidable_of_iff ('>' ∉ c :: rest ∧ (c ≠ '/' ∧ c ≠ '?' ∧ c ≠ '_' ∧ c.isAlpha = false ∧ c.toNat < 127)
      ∧ ¬ ['!', '-', '-'] <+: c :: rest) (by simp [WellFormed])
  | .declaration .. => isFalse (by simp [WellFormed])
instance allWellFormed : (ns : List Node) → Decidable (AllWellFormed ns)
  | [] => isTrue trivial
  | n :: ns =>
    have := wellFormed n
    have := allWellFormed ns
    decidable_of_iff (WellFormed n ∧ AllWellFormed ns) (by rw [AllWellFormed])
end

end Gear.Xml.Spec
