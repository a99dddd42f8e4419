/-
The parser with rows and columns reads the same as the one of Xml.lean.
-/
import Verif.XmlPlaceTree
import Verif.XmlPlaceLemmas
import Verif.XmlClosed

set_option autoImplicit false
set_option linter.unusedSectionVars false

namespace Gear.Xml.Place

/-- The two runs end in the same way, with related results, unless the first one does not end, which may be only if `H`. -/
def Sim {α β : Type} (H : Prop) (R : α → β → Prop) : Run α → Run β → Prop
  | .ok a, .ok b => R a b
  | .ub, .ub => True
  | .assertFailed, .assertFailed => True
  | .endless, .endless => True
  | .endless, _ => H
  | _, _ => False

theorem Sim.endless {α β : Type} {H : Prop} {R : α → β → Prop} (h : H) (y : Run β) : Sim H R .endless y := by
  cases y <;> first | exact h | exact True.intro

theorem Sim.bind {α β α' β' : Type} {H : Prop} {R : α → β → Prop} {S : α' → β' → Prop} {x : Run α} {y : Run β}
    {f : α → Run α'} {g : β → Run β'} (h : Sim H R x y) (k : ∀ a b, R a b → Sim H S (f a) (g b)) :
    Sim H S (x >>= f) (y >>= g) := by
  match x, y, h with
  | .ok a, .ok b, h => exact k a b h
  | .ub, .ub, _ => exact True.intro
  | .assertFailed, .assertFailed, _ => exact True.intro
  | .endless, .endless, _ => exact True.intro
  | .endless, .ok b, h => exact Sim.endless h _
  | .endless, .ub, h => exact h
  | .endless, .assertFailed, h => exact h

theorem Sim.refl {α : Type} {H : Prop} (x : Run α) : Sim H (· = ·) x x := by
  cases x <;> first | exact True.intro | rfl

/-- Only the first run does something. -/
theorem Sim.left {α α' β' : Type} {H : Prop} {P : α → Prop} {S : α' → β' → Prop} {x : Run α} {y : Run β'} {f : α → Run α'}
    (h : (H ∧ x = .endless) ∨ ∃ a, x = .ok a ∧ P a) (k : ∀ a, P a → Sim H S (f a) y) : Sim H S (x >>= f) y := by
  rcases h with ⟨h, rfl⟩ | ⟨a, rfl, ha⟩
  · exact Sim.endless h _
  · exact k a ha

/-! ### Locations between line breaks -/

/-- A character of a line break. -/
def LineEnd (c : Char) : Prop := c = '\n' ∨ c = '\r'

/-- The location is not inside a line break of two characters. -/
def Clean (full q : Text) : Prop :=
  ∃ pre, full = pre ++ q ∧ ∀ a ∈ pre.getLast?, ∀ b ∈ q.head?, LineEnd a → ¬ LineEnd b

theorem lineEnd_space {c : Char} (h : LineEnd c) : isSpace c = true := by
  rcases h with rfl | rfl <;> decide

theorem Clean.of_head {full q : Text} (hq : q <:+ full) (h : ∀ c r, q = c :: r → isSpace c = false) : Clean full q := by
  obtain ⟨pre, rfl⟩ := hq
  refine ⟨pre, rfl, fun a _ b hb _ hl => ?_⟩
  cases q with
  | nil => cases hb
  | cons c r =>
    obtain rfl : c = b := by simpa using hb
    have := lineEnd_space hl
    rw [h c r rfl] at this; cases this

theorem Clean.after {full q : Text} {c : Char} (hq : c :: q <:+ full) (h : ¬ LineEnd c) : Clean full q := by
  obtain ⟨pre, rfl⟩ := hq
  refine ⟨pre ++ [c], by simp, fun a ha b _ hl _ => ?_⟩
  obtain rfl : c = a := by simpa using ha
  exact h hl

theorem Clean.dropWhile {full : Text} {f : Char → Bool} (hf : ∀ c, f c = true → ¬ LineEnd c) :
    ∀ p : Text, p <:+ full → Clean full p → Clean full (p.dropWhile f) := by
  intro p
  induction p with
  | nil => intro _ h; exact h
  | cons c p ih =>
    intro hp h
    rw [List.dropWhile_cons]
    split
    · rename_i hc
      exact ih ((List.suffix_cons _ _).trans hp) (Clean.after hp (hf c hc))
    · exact h

theorem nameChar_no_lineEnd (c : Char) (h : isNameChar c = true) : ¬ LineEnd c := by
  rintro (rfl | rfl) <;> revert h <;> decide

theorem skip_head {enc : Enc} {p q : Text} (h : skipWhiteSpace enc (some p) = some q) : ∀ c r, q = c :: r → isSpace c = false := by
  intro c r e
  cases p with
  | nil => cases h
  | cons a b =>
    simp only [skipWhiteSpace, Option.some.injEq] at h
    exact skipBody_head enc _ (h.trans e)

theorem skipBody_idem (enc : Enc) (t : Text) : skipBody enc (skipBody enc t) = skipBody enc t := by
  fun_induction skipBody enc t with
  | case1 => rfl
  | case2 a h => rfl
  | case3 a h => simp [skipBody, h]
  | case4 a b h ih => exact ih
  | case5 a b h => simp [skipBody, h]
  | case6 a b c rest h ih => exact ih
  | case7 a b c rest h h' ih => exact ih
  | case8 a b c rest h h' =>
    rw [skipBody, if_neg h, if_neg h']

theorem skip_idem {enc : Enc} {p q : Text} (h : skipWhiteSpace enc (some p) = some q) (hq : q ≠ []) :
    skipWhiteSpace enc (some q) = some q := by
  cases p with
  | nil => cases h
  | cons a b =>
    simp only [skipWhiteSpace, Option.some.injEq] at h
    have := skipBody_idem enc (a :: b)
    rw [h] at this
    cases q with
    | nil => exact absurd rfl hq
    | cons c r => simp only [skipWhiteSpace, this]

theorem readQuoted_end {enc : Enc} {endTag p v q : Text} (h : readQuoted enc endTag p = .ok (v, q)) : endTag ++ q <:+ p := by
  unfold readQuoted at h
  have g := readKeep_good enc endTag p.length p [] le_rfl
  cases hk : readKeep enc endTag p.length p [] with
  | ok r =>
    obtain ⟨w, t⟩ := r
    rw [hk] at h g
    simp only [Run.bind_ok] at h
    split_ifs at h with hn
    obtain ⟨rfl, rfl⟩ := Prod.mk.inj (Run.ok.inj h)
    rcases g.2 with g2 | g2
    · exact absurd g2 hn
    · obtain ⟨u, hu⟩ := g2
      have hu : endTag ++ u = t := hu
      have g1 : t <:+ p := g.1
      rw [← hu] at g1 ⊢
      simpa using g1
  | ub => rw [hk] at h; cases h
  | assertFailed => rw [hk] at h; cases h
  | endless => rw [hk] at h; cases h

/-! ### Keeping track -/

/-- What is kept of the state in front of a location, and what is known of the location that `Stamp` finds.  `E` is whether an
encoding is used, and `B` whether a location is between two characters. -/
structure Tracker (full : Text) (H : Prop) where
  J : Text → State → Prop
  At : Text → Cursor → Prop
  E : Enc → Prop
  B : Text → Prop
  after : ∀ {c : Char} {q : Text}, c.toNat < 128 → c :: q <:+ full → B q
  head : ∀ {q : Text}, q <:+ full → (∀ c ∈ q.head?, c.toNat < 128) → B q
  skip : ∀ {enc : Enc} {p q : Text}, E enc → p <:+ full → B p → skipWhiteSpace enc (some p) = some q → B q
  mono : ∀ {p q : Text} {s : State}, J p s → q <:+ p → J q s
  error : ∀ {p : Text} {s : State} (e : Option (ErrorId × Cursor)), J p s → J p { s with error := e }
  stamp : ∀ {p q : Text} {s : State} {enc : Enc}, E enc → J p s → q <:+ p → p <:+ full → Clean full q → B q →
    (H ∧ s.stamp q enc = .endless) ∨
      ∃ s', s.stamp q enc = .ok s' ∧ J q s' ∧ At q s'.data.cursor ∧ s'.error = s.error

namespace Tracker
variable {full : Text} {H : Prop} (T : Tracker full H)

/-- The locations are, in this order, some at which what they are the locations of stands; `hi` or less of the text follows
the first one, more than `lo` the last one. -/
def Loc (hi lo : ℕ) : List (Cursor × What) → Prop
  | [] => lo ≤ hi
  | x :: l => ∃ q, q <:+ full ∧ T.At q x.1 ∧ x.2.Begins (T.E .utf8) q ∧ q.length ≤ hi ∧ ∃ m, m < q.length ∧ Loc m lo l

/-- A location at which `Stamp` can be called. -/
def Ok (q : Text) : Prop := Clean full q ∧ T.B q

/-- The error is without a location, or at one in the text. -/
def ErrOk (e : Option (ErrorId × Cursor)) : Prop :=
  ∀ id k, e = some (id, k) → (k = .clear ∧ id ∈ [ErrorId.readingAttributes, .readingElementValue, .documentEmpty]) ∨ ∃ q, q <:+ full ∧ T.At q k ∧ (id = .readingEndTag → ['<', '/'] <+: q)

variable {T}

theorem Loc.mono {l : List (Cursor × What)} {hi hi' lo lo' : ℕ} (h : T.Loc hi lo l) (h1 : hi ≤ hi') (h2 : lo' ≤ lo) :
    T.Loc hi' lo' l := by
  induction l generalizing hi hi' with
  | nil => exact h2.trans (le_trans h h1)
  | cons x l ih =>
    obtain ⟨q, g1, g2, g3, g4, m, g5, g6⟩ := h
    exact ⟨q, g1, g2, g3, g4.trans h1, m, g5, ih g6 le_rfl⟩

theorem Loc.append {l l' : List (Cursor × What)} {hi mid lo : ℕ} (h : T.Loc hi mid l) (h' : T.Loc mid lo l') :
    T.Loc hi lo (l ++ l') := by
  induction l generalizing hi with
  | nil => exact h'.mono h le_rfl
  | cons x l ih =>
    obtain ⟨q, g1, g2, g3, g4, m, g5, g6⟩ := h
    exact ⟨q, g1, g2, g3, g4, m, g5, ih g6⟩

theorem Loc.single {x : Cursor × What} {q : Text} {hi lo : ℕ} (h1 : q <:+ full) (h2 : T.At q x.1) (h3 : x.2.Begins (T.E .utf8) q)
    (h4 : q.length ≤ hi) (h5 : lo < q.length) : T.Loc hi lo [x] := ⟨q, h1, h2, h3, h4, lo, h5, le_rfl⟩

theorem Ok.of_head {q : Text} (hq : q <:+ full) (h : ∀ c r, q = c :: r → isSpace c = false) (hB : T.B q) : T.Ok q :=
  ⟨Clean.of_head hq h, hB⟩

theorem Ok.after {q : Text} {c : Char} (hq : c :: q <:+ full) (h : ¬ LineEnd c) (hc : c.toNat < 128) : T.Ok q :=
  ⟨Clean.after hq h, T.after hc hq⟩

theorem Ok.dropWhile {f : Char → Bool} (hf : ∀ c, f c = true → ¬ LineEnd c) (hf' : ∀ c, f c = false → c.toNat < 128) {p : Text}
    (hp : p <:+ full) (h : Clean full p) : T.Ok (p.dropWhile f) := by
  refine ⟨Clean.dropWhile hf p hp h, T.head ((dropWhile_suffix' _).trans hp) fun c hc => hf' c ?_⟩
  have := List.head?_dropWhile_not f p
  rw [Option.mem_def] at hc
  rw [hc] at this
  simpa using this

theorem space_ascii {c : Char} (h : isSpace c = true) : c.toNat < 128 := by
  unfold isSpace at h
  simp only [Bool.or_eq_true, Bool.and_eq_true, decide_eq_true_eq] at h
  omega

theorem nameChar_ascii (c : Char) (h : isNameChar c = false) : c.toNat < 128 := by
  unfold isNameChar isAlphaNum at h
  split_ifs at h with h'
  · omega
  · simp at h

theorem ErrOk.none : T.ErrOk none := fun _ _ h => by cases h

theorem setError_some {s : State} {p q : Text} {id : ErrorId} {enc : Enc} (he : T.ErrOk s.error)
    (hJ : s.error = Option.none → T.J p s) (hp : p <:+ full) (hq : q <:+ p) (hE : T.E enc) (hc : T.Ok q)
    (hid : id = .readingEndTag → ['<', '/'] <+: q) :
    (H ∧ s.setError id (some q) enc = .endless) ∨
      ∃ s', s.setError id (some q) enc = .ok s' ∧ s'.error.isSome = true ∧ T.ErrOk s'.error := by
  unfold State.setError
  cases hs : s.error with
  | some e => exact Or.inr ⟨s, rfl, by rw [hs]; rfl, he⟩
  | none =>
    rcases T.stamp hE (hJ hs) hq hp hc.1 hc.2 with ⟨h, e⟩ | ⟨s', e, j, a, -⟩
    · exact Or.inl ⟨h, by simp only [e]; rfl⟩
    · refine Or.inr ⟨{ s' with error := some (id, s'.data.cursor) }, by simp only [e]; rfl, rfl, fun id' k h => ?_⟩
      obtain ⟨rfl, rfl⟩ := Prod.mk.inj (Option.some.inj h)
      exact Or.inr ⟨q, hq.trans hp, a, hid⟩

theorem setError_null {s : State} {id : ErrorId} {enc : Enc} (he : T.ErrOk s.error)
    (hid : id ∈ [ErrorId.readingAttributes, .readingElementValue, .documentEmpty]) :
    ∃ s', s.setError id Option.none enc = .ok s' ∧ s'.error.isSome = true ∧ T.ErrOk s'.error := by
  unfold State.setError
  cases hs : s.error with
  | some e => exact ⟨s, rfl, by rw [hs]; rfl, he⟩
  | none =>
    refine ⟨_, rfl, rfl, fun id' k h => ?_⟩
    obtain ⟨rfl, rfl⟩ := Prod.mk.inj (Option.some.inj h)
    exact Or.inl ⟨rfl, hid⟩

/-- What is shown for reading an attribute. -/
def AttrRel (T : Tracker full H) (document : Bool) (s : State) (p : Text) :
    Option (Text × Text × Cursor × Text) × State → Option (Text × Text × Text) → Prop
  | (none, s'), none => T.ErrOk s'.error ∧ (document = true → s'.error.isSome = true) ∧ (document = false → s'.error = s.error)
  | (some (n, v, k, q), s'), some (n', v', q') =>
    n = n' ∧ v = v' ∧ q = q' ∧ T.Loc p.length q.length [(k, .attr n)] ∧ T.J p s' ∧ s'.error = s.error ∧ q <:+ p ∧ T.Ok q
  | _, _ => False

theorem setErrorIf_rel {document : Bool} {s0 s : State} {p0 p : Text} {q : Option Text} {id : ErrorId} {enc : Enc}
    (he : T.ErrOk s.error) (hs : s.error = s0.error) (hJ : T.J p s) (hp : p <:+ full) (hE : T.E enc)
    (hq : ∀ t, q = some t → t <:+ p ∧ T.Ok t) (hid : id = .readingAttributes) :
    Sim H (T.AttrRel document s0 p0) (s.setErrorIf document id q enc >>= fun s => .ok (none, s)) (.ok none) := by
  cases document with
  | false => exact ⟨he, by simp, fun _ => hs⟩
  | true =>
    refine Sim.left (P := fun s' => s'.error.isSome = true ∧ T.ErrOk s'.error) ?_ fun s' h => ⟨h.2, fun _ => h.1, by simp⟩
    show (H ∧ s.setError id q enc = .endless) ∨ _
    cases q with
    | none => exact Or.inr (setError_null (enc := enc) he (by simp [hid]))
    | some t => exact setError_some he (fun _ => hJ) hp (hq t rfl).1 hE (hq t rfl).2 fun h => by rw [hid] at h; cases h

theorem readAttr_sim {document : Bool} {enc : Enc} {s : State} {p : Text} (hJ : T.J p s) (hp : p <:+ full) (he : T.ErrOk s.error)
    (hs : skipWhiteSpace enc (some p) = some p) (hne : p ≠ []) (hE : T.E enc) (hB : T.B p) :
    Sim H (T.AttrRel document s p) (readAttr document enc s p) (parseAttribute enc p) := by
  have hcl : T.Ok p := Ok.of_head hp (skip_head hs) hB
  unfold readAttr parseAttribute
  rw [hs]
  obtain ⟨c, r, rfl⟩ := List.exists_cons_of_ne_nil hne
  simp only
  refine Sim.left (T.stamp hE hJ List.suffix_rfl hp hcl.1 hcl.2) fun s1 ⟨j1, a1, e1⟩ => ?_
  have he1 : T.ErrOk s1.error := by rw [e1]; exact he
  cases hn : readName (c :: r) with
  | none =>
    exact setErrorIf_rel he1 e1 j1 hp hE (fun t ht => by cases ht; exact ⟨List.suffix_rfl, hcl⟩) rfl
  | some x =>
    obtain ⟨name, p2⟩ := x
    obtain ⟨s2, l2⟩ := readName_suffix hn
    have hB2 : T.B p2 := by
      unfold readName at hn
      simp only at hn
      split_ifs at hn
      obtain ⟨rfl, rfl⟩ := Prod.mk.inj (Option.some.inj hn)
      exact (Ok.dropWhile nameChar_no_lineEnd nameChar_ascii hp hcl.1).2
    have hfound : ∀ q : Text, q <:+ p2 → T.Loc (c :: r).length q.length [(s1.data.cursor, .attr name)] := by
      intro q hq
      refine Loc.single hp a1 ⟨⟨p2, ?_⟩, ?_⟩ le_rfl (lt_of_le_of_lt hq.length_le l2)
      all_goals
        unfold readName at hn
        simp only at hn
        split_ifs at hn with hc
        obtain ⟨rfl, rfl⟩ := Prod.mk.inj (Option.some.inj hn)
      · exact List.takeWhile_append_dropWhile ..
      · have : isNameChar c = true := by
          unfold isNameChar isAlphaNum
          unfold isAlpha at hc
          revert hc
          split_ifs <;> simp +contextual
          rintro (h | h) <;> simp [h]
        rw [List.takeWhile_cons, if_pos this]; simp
    cases p2 with
    | nil => exact setErrorIf_rel he1 e1 j1 hp hE (fun t ht => by cases ht; exact ⟨List.suffix_rfl, hcl⟩) rfl
    | cons c2 r2 =>
      simp only
      cases h3 : skipWhiteSpace enc (some (c2 :: r2)) with
      | none => exact setErrorIf_rel he1 e1 j1 hp hE (fun t ht => by cases ht) rfl
      | some p3 =>
        have t3 := skipWhiteSpace_suffix h3
        have s3 := t3.trans s2
        have hc3 : T.Ok p3 := Ok.of_head (s3.trans hp) (skip_head h3) (T.skip hE (s2.trans hp) hB2 h3)
        by_cases heq : ∃ p4, p3 = '=' :: p4
        · obtain ⟨p4, rfl⟩ := heq
          simp only
          have t4 := (List.suffix_cons '=' p4).trans t3
          have s4 := t4.trans s2
          cases h5 : skipWhiteSpace enc (some p4) with
          | none => exact setErrorIf_rel he1 e1 j1 hp hE (fun t ht => by cases ht) rfl
          | some p5 =>
            have t5 := (skipWhiteSpace_suffix h5).trans t4
            have s5 := t5.trans s2
            have hc5 : T.Ok p5 := Ok.of_head (s5.trans hp) (skip_head h5)
              (T.skip hE (s4.trans hp) (T.after (by decide) (s3.trans hp)) h5)
            have quoted : ∀ (d : Char) (p6 : Text), ¬ LineEnd d → d.toNat < 128 → d :: p6 <:+ c2 :: r2 →
                Sim H (T.AttrRel document s (c :: r))
                  (readQuoted enc [d] p6 >>= fun x => .ok (some (name, x.1, s1.data.cursor, x.2), s1))
                  (readQuoted enc [d] p6 >>= fun x => .ok (some (name, x.1, x.2))) := by
              intro d p6 hd hd' hs6
              cases hq : readQuoted enc [d] p6 with
              | ok x =>
                obtain ⟨v, q⟩ := x
                have hend := readQuoted_end hq
                have htq : d :: q <:+ c2 :: r2 := hend.trans ((List.suffix_cons _ _).trans hs6)
                have hsq := htq.trans s2
                exact ⟨rfl, rfl, rfl, hfound q ((List.suffix_cons _ _).trans htq), j1, e1, (List.suffix_cons _ _).trans hsq, Ok.after (hsq.trans hp) hd hd'⟩
              | ub => exact True.intro
              | assertFailed => exact True.intro
              | endless => exact True.intro
            match p5, h5, t5, s5, hc5 with
            | [], _, _, s5, hc5 => exact setErrorIf_rel he1 e1 j1 hp hE (fun t ht => by cases ht; exact ⟨s5, hc5⟩) rfl
            | d :: p6, h5, t5, s5, hc5 =>
              by_cases hd1 : d = '\''
              · subst hd1; exact quoted '\'' p6 (by simp [LineEnd]) (by decide) t5
              · by_cases hd2 : d = '"'
                · subst hd2; exact quoted '"' p6 (by simp [LineEnd]) (by decide) t5
                · have close : ∀ {P : Prop} (e : Char) (p : Text), d ≠ e → some (d :: p6) = some (e :: p) → P :=
                    fun e p hne h => absurd (List.cons.inj (Option.some.inj h)).1 hne
                  split
                  · rename_i h; cases h
                  · rename_i h; cases h
                  · rename_i h; exact close _ _ hd1 h
                  · rename_i h; exact close _ _ hd2 h
                  rename_i h
                  obtain rfl := Option.some.inj h
                  split
                  · rename_i h; cases h
                  · rename_i h; cases h
                  · rename_i h; exact close _ _ hd1 h
                  · rename_i h; exact close _ _ hd2 h
                  rename_i h
                  obtain rfl := Option.some.inj h
                  refine ⟨rfl, rfl, rfl, hfound _ ((dropWhile_suffix' _).trans t5), j1, e1, (dropWhile_suffix' _).trans s5, ?_⟩
                  refine Ok.dropWhile ?_ ?_ (s5.trans hp) hc5.1
                  · intro x hx hl
                    have := lineEnd_space hl
                    simp [this] at hx
                  · intro x hx
                    simp only [Bool.and_eq_false_iff, Bool.not_eq_false', decide_eq_false_iff_not, ne_eq, not_not] at hx
                    rcases hx with (hx | rfl) | rfl
                    · exact space_ascii hx
                    · decide
                    · decide
        · split
          · rename_i h; exact absurd ⟨_, Option.some.inj h⟩ heq
          split
          · rename_i h; exact absurd ⟨_, Option.some.inj h⟩ heq
          exact setErrorIf_rel he1 e1 j1 hp hE (fun t ht => by cases ht; exact ⟨s3, hc3⟩) rfl

end Tracker

end Gear.Xml.Place
