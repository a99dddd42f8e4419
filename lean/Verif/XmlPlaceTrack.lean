/-
What is known of the locations when a file is loaded: of any file, and of a file in ASCII.
-/
import Verif.XmlPlaceNodes

set_option autoImplicit false
set_option linter.unusedSectionVars false

namespace Gear.Xml.Place

open Spec

/-! ### Any file -/

theorem stampLoop_suffix {enc : Enc} {tab : ℤ} {now : Text} : ∀ (fuel : ℕ) (p : Text) (k : Cursor) (r : Text × Cursor),
    stampLoop enc tab now fuel p k = .ok r → r.1 <:+ p := by
  intro fuel
  induction fuel with
  | zero =>
    intro p k r h
    unfold stampLoop at h
    split_ifs at h with hn
    · match p, hn, h with
      | [], hn, _ => simp at hn
      | _ :: _, _, h => cases h
    · obtain rfl := Run.ok.inj h
      exact List.suffix_rfl
  | succ fuel ih =>
    intro p k r h
    unfold stampLoop at h
    split_ifs at h with hn
    · match p, hn, h with
      | c :: rest, hn, h =>
        obtain ⟨n, hd⟩ := pass_drop enc tab c rest k
        have := ih _ _ _ h
        rw [hd] at this
        exact this.trans (List.drop_suffix _ _)
    · obtain rfl := Run.ok.inj h
      exact List.suffix_rfl

theorem stampLoop_no {enc : Enc} {tab : ℤ} {now : Text} : ∀ (fuel : ℕ) (p : Text) (k : Cursor),
    stampLoop enc tab now fuel p k ≠ .ub ∧ stampLoop enc tab now fuel p k ≠ .assertFailed := by
  intro fuel
  induction fuel with
  | zero =>
    intro p k
    unfold stampLoop
    split_ifs with hn
    · match p, hn with
      | [], hn => simp at hn
      | _ :: _, _ => exact ⟨by simp, by simp⟩
    · exact ⟨by simp, by simp⟩
  | succ fuel ih =>
    intro p k
    unfold stampLoop
    split_ifs with hn
    · match p, hn with
      | c :: rest, hn => exact ih _ _
    · exact ⟨by simp, by simp⟩

theorem cut_suffix {p q : Text} (h : Cut q) (hq : q <:+ p) : Cut p := by
  obtain ⟨a, rfl⟩ := hq
  obtain ⟨b, c, r, e, h⟩ := h
  exact ⟨a ++ b, c, r, by rw [e, List.append_assoc], h⟩

theorem stamp_any {full q : Text} {s : State} (enc : Enc) (h : s.data.stamp <:+ full) :
    (Cut full ∧ s.stamp q enc = .endless) ∨ ∃ s', s.stamp q enc = .ok s' ∧ s'.data.stamp <:+ full ∧ s'.error = s.error := by
  unfold State.stamp Data.stampAt
  split_ifs with ht
  · exact Or.inr ⟨s, rfl, h, rfl⟩
  · by_cases hc : enc = .utf8 → ¬ Cut s.data.stamp
    · obtain ⟨r, hr⟩ := stampLoop_ends (enc := enc) (tab := s.data.tabsize) (now := q) _ s.data.stamp s.data.cursor le_rfl hc
      refine Or.inr ⟨{ s with data := { s.data with stamp := r.1, cursor := r.2 } }, by simp only [hr]; rfl, ?_, rfl⟩
      exact (stampLoop_suffix _ _ _ _ hr).trans h
    · push Not at hc
      have hcut := cut_suffix hc.2 h
      cases hl : stampLoop enc s.data.tabsize q s.data.stamp.length s.data.stamp s.data.cursor with
      | ok r =>
        refine Or.inr ⟨{ s with data := { s.data with stamp := r.1, cursor := r.2 } }, rfl, ?_, rfl⟩
        exact (stampLoop_suffix _ _ _ _ hl).trans h
      | endless => exact Or.inl ⟨hcut, rfl⟩
      | ub => exact absurd hl (stampLoop_no _ _ _).1
      | assertFailed => exact absurd hl (stampLoop_no _ _ _).2

/-- Of any file only the end of loading is known. -/
def anyTracker (full : Text) : Tracker full (Cut full) where
  J := fun _ s => s.data.stamp <:+ full
  At := fun _ _ => True
  mono := fun h _ => h
  error := fun _ h => h
  E := fun _ => True
  B := fun _ => True
  after := fun _ _ => True.intro
  head := fun _ _ => True.intro
  skip := fun _ _ _ _ => True.intro
  stamp := fun {_ _ _ enc} _ h _ _ _ _ => by
    rcases stamp_any enc h with h | ⟨s', h1, h2, h3⟩
    · exact Or.inl h
    · exact Or.inr ⟨s', h1, h2, True.intro, h3⟩

/-! ### Files in an encoding -/

/-- What a text in an encoding is made of. -/
def Unit (V : Sign → Prop) (b : Text) : Prop :=
  (∃ c, b = [c] ∧ (LineEnd c ∨ c = '\t')) ∨ ((∃ c r, b = c :: r ∧ Spec.Plain c) ∧ (V (.char b) ∨ V (.mark b)))

/-- An encoding: the signs, the encodings of the parser in which they are read, and the locations between them. -/
structure Coding (full : Text) where
  V : Sign → Prop
  E : Enc → Prop
  B : Text → Prop
  after : ∀ {c : Char} {q : Text}, c.toNat < 128 → c :: q <:+ full → B q
  head : ∀ {q : Text}, q <:+ full → (∀ c ∈ q.head?, c.toNat < 128) → B q
  skip : ∀ {enc : Enc} {p q : Text}, E enc → p <:+ full → B p → skipWhiteSpace enc (some p) = some q → B q
  valid : ∀ {s : Sign} {enc : Enc}, V s → E enc → s.Valid enc
  lineBreak : ∀ {b : Text}, b = ['\n'] ∨ b = ['\r'] ∨ b = ['\r', '\n'] ∨ b = ['\n', '\r'] → V (.lineBreak b)
  tab : V .tab
  units : ∀ {t q : Text}, t ++ q <:+ full → B (t ++ q) → B q → ∃ cs : List Text, t = cs.flatten ∧ ∀ b ∈ cs, Unit V b

theorem separated_append {q : Text} {a b : List Sign} (h1 : Separated (text b ++ q) a) (h2 : Separated q b) :
    Separated q (a ++ b) := by
  induction a with
  | nil => exact h2
  | cons s a ih =>
    refine ⟨?_, ?_, ih h1.2.2⟩
    · show _ → (text (a ++ b) ++ q).head? ≠ _
      rw [text_append, List.append_assoc]; exact h1.1
    · show _ → (text (a ++ b) ++ q).head? ≠ _
      rw [text_append, List.append_assoc]; exact h1.2.1

theorem Unit.ne {V : Sign → Prop} {b : Text} (h : Unit V b) : b ≠ [] := by
  rcases h with ⟨c, rfl, -⟩ | ⟨⟨c, r, rfl, -⟩, -⟩ <;> simp

/-- A text consists of signs. -/
theorem signs_of {full : Text} (C : Coding full) (q : Text) : ∀ (n : ℕ) (cs : List Text), cs.length ≤ n → (∀ b ∈ cs, Unit C.V b) →
    (∀ a ∈ cs.flatten.getLast?, ∀ b ∈ q.head?, LineEnd a → ¬ LineEnd b) →
    ∃ l, text l = cs.flatten ∧ (∀ s ∈ l, C.V s) ∧ Separated q l := by
  intro n
  induction n with
  | zero =>
    intro cs h _ _
    rw [List.length_eq_zero_iff.1 (Nat.le_zero.1 h)]
    exact ⟨[], rfl, by simp, True.intro⟩
  | succ n ih =>
    intro cs h hu hb
    match cs, h, hu, hb with
    | [], _, _, _ => exact ⟨[], rfl, by simp, True.intro⟩
    | u :: cs, h, hu, hb =>
      have hb' : ∀ t : Text, t <:+ u ++ cs.flatten → ∀ a ∈ t.getLast?, ∀ b ∈ q.head?, LineEnd a → ¬ LineEnd b := by
        rintro t ⟨w, hw⟩ a hua
        refine hb a ?_
        rw [List.flatten_cons, ← hw, List.getLast?_append]
        rw [Option.mem_def] at hua ⊢
        rw [hua]; rfl
      have one : ∀ s : Sign, s.bytes = u → C.V s → (u = ['\n'] → (cs.flatten ++ q).head? ≠ some '\r') →
          (u = ['\r'] → (cs.flatten ++ q).head? ≠ some '\n') →
          ∃ l, text l = (u :: cs).flatten ∧ (∀ s ∈ l, C.V s) ∧ Separated q l := by
        intro s hs hv h1 h2
        obtain ⟨l, g1, g2, g3⟩ := ih cs (by simpa using h) (fun x hx => hu x (List.mem_cons_of_mem _ hx))
          (hb' cs.flatten (List.suffix_append _ _))
        refine ⟨s :: l, by rw [text_cons, hs, g1]; rfl, ?_, ?_, ?_, g3⟩
        · intro x hx
          rcases List.mem_cons.1 hx with rfl | hx
          · exact hv
          · exact g2 x hx
        · rw [hs, g1]; exact h1
        · rw [hs, g1]; exact h2
      rcases hu u (by simp) with ⟨c, rfl, hc | rfl⟩ | ⟨⟨c, r, rfl, hp⟩, hv⟩
      · have lone : (∀ d r', cs.flatten = d :: r' → LineEnd d → d = c) →
            ∃ l, text l = ([c] :: cs).flatten ∧ (∀ s ∈ l, C.V s) ∧ Separated q l := by
          intro hd
          have key : ∀ d, (cs.flatten ++ q).head? = some d → LineEnd d → d = c := by
            intro d hh hl
            cases hr : cs.flatten with
            | nil =>
              rw [hr] at hh
              exact absurd hl (hb c (by simp [hr]) d hh hc)
            | cons d' r' =>
              rw [hr] at hh
              obtain rfl : d' = d := by simpa using hh
              exact hd d' r' hr hl
          refine one (.lineBreak [c]) rfl (C.lineBreak ?_) ?_ ?_
          · rcases hc with rfl | rfl
            · exact .inl rfl
            · exact .inr (.inl rfl)
          · intro hc' hh
            obtain rfl : c = '\n' := by simpa using hc'
            exact absurd (key _ hh (.inr rfl)) (by decide)
          · intro hc' hh
            obtain rfl : c = '\r' := by simpa using hc'
            exact absurd (key _ hh (.inl rfl)) (by decide)
        match cs, lone, h, hu, hb' with
        | [], lone, _, _, _ => exact lone (by simp)
        | u' :: cs, lone, h, hu, hb' =>
          have next : ∀ d r', u' = d :: r' → (LineEnd d → d = c) →
              ∃ l, text l = ([c] :: u' :: cs).flatten ∧ (∀ s ∈ l, C.V s) ∧ Separated q l := by
            rintro d r' rfl hd
            refine lone fun d' r'' he hl => ?_
            obtain ⟨rfl, -⟩ := List.cons.inj he
            exact hd hl
          rcases hu u' (by simp) with ⟨d, rfl, hd | rfl⟩ | ⟨⟨d, r, rfl, hp⟩, -⟩
          · by_cases hne : d = c
            · exact next d [] rfl fun _ => hne
            · obtain ⟨l, g1, g2, g3⟩ := ih cs (by simp only [List.length_cons] at h; omega) (fun x hx => hu x (by simp [hx]))
                (hb' cs.flatten ((List.suffix_append [d] _).trans (List.suffix_append [c] _)))
              refine ⟨.lineBreak [c, d] :: l, by rw [text_cons, g1]; rfl, ?_, by simp [Sign.bytes], by simp [Sign.bytes], g3⟩
              intro x hx
              rcases List.mem_cons.1 hx with rfl | hx
              · refine C.lineBreak ?_
                rcases hc with rfl | rfl <;> rcases hd with h' | h'
                · exact absurd h' hne
                · subst h'; simp
                · subst h'; simp
                · exact absurd h' hne
              · exact g2 x hx
          · exact next '\t' [] rfl fun hl => by rcases hl with hl | hl <;> exact absurd hl (by decide)
          · exact next d r rfl fun hl => by rcases hl with rfl | rfl <;> exact absurd hp (by unfold Spec.Plain; decide)
      · exact one .tab rfl C.tab (fun h => by simp at h) (fun h => by simp at h)
      · have n1 : c :: r ≠ ['\n'] := fun h => hp.1 (List.cons.inj h).1
        have n2 : c :: r ≠ ['\r'] := fun h => hp.2.1 (List.cons.inj h).1
        rcases hv with hv | hv
        · exact one (.char (c :: r)) rfl hv (fun h => absurd h n1) (fun h => absurd h n2)
        · exact one (.mark (c :: r)) rfl hv (fun h => absurd h n1) (fun h => absurd h n2)

theorem after_column (a b : List Sign) : b.foldl (after 4) (row a, column 4 a) = (row (a ++ b), column 4 (a ++ b)) := by
  have h1 := after_foldl 4 (a ++ b) (0, 0)
  have h2 := after_foldl 4 a (0, 0)
  rw [List.foldl_append, h2] at h1
  simp only [Nat.zero_add] at h1
  exact h1

/-- In a file in an encoding the locations are known. -/
def signTracker {full : Text} (C : Coding full) : Tracker full False where
  J := fun p s => ∃ a, full = text a ++ s.data.stamp ∧ (∀ x ∈ a, C.V x) ∧ Separated s.data.stamp a ∧
    s.data.cursor = cur (row a, column 4 a) ∧ s.data.tabsize = 4 ∧ p <:+ s.data.stamp ∧ C.B s.data.stamp
  At := fun q k => ∃ a, full = text a ++ q ∧ (∀ x ∈ a, C.V x) ∧ Separated q a ∧ k = cur (row a, column 4 a)
  E := C.E
  B := C.B
  after := C.after
  head := C.head
  skip := C.skip
  mono := by
    rintro p q s ⟨a, h1, h2, h3, h4, h5, h6, h7⟩ hq
    exact ⟨a, h1, h2, h3, h4, h5, hq.trans h6, h7⟩
  error := fun _ h => h
  stamp := by
    rintro p q ⟨⟨k, st, tab⟩, err⟩ enc hE ⟨a, h1, h2, h3, h4, h5, h6, h7⟩ hq hp ⟨pre, hpre, hcl⟩ hB
    simp only at h1 h2 h3 h4 h5 h6 h7
    subst h5
    obtain ⟨t, rfl⟩ := hq.trans h6
    have hpre' : pre = text a ++ t := by
      rw [← List.append_assoc, hpre] at h1
      exact List.append_cancel_right h1
    obtain ⟨cs, rfl, hcs⟩ := C.units (h1 ▸ List.suffix_append _ _) h7 hB
    obtain ⟨b, g1, g2, g3⟩ := signs_of C q cs.length cs le_rfl hcs
      (fun x hx => hcl x (by
        rw [hpre', List.getLast?_append]
        rw [Option.mem_def] at hx ⊢
        rw [hx]; rfl))
    rw [← g1] at h1 h3 h6 h7 hpre' ⊢
    have hsep := separated_append h3 g3
    have hv : ∀ x ∈ a ++ b, C.V x := by
      intro x hx
      rcases List.mem_append.1 hx with hx | hx
      · exact h2 x hx
      · exact g2 x hx
    have hr : ∀ l : List Sign, (∀ x ∈ l, C.V x) → ReadUpTo q q enc l := by
      intro l
      induction l with
      | nil => intro _; exact True.intro
      | cons s l ih => intro H; exact ⟨fun _ => C.valid (H s (by simp)) hE, ih fun x hx => H x (by simp [hx])⟩
    obtain ⟨b1, b2, e1, e2, e3⟩ := stampAt_signs (tab := 4) (by decide) (k := (row a, column 4 a)) (enc := enc) (le_refl q.length) g3
      (hr b g2)
    have hb2 : b2 = [] := by
      cases b2 with
      | nil => rfl
      | cons s b2 =>
        exfalso
        have hne := bytes_ne (C.valid (g2 s (by rw [e1]; simp)) hE)
        have : 0 < s.bytes.length := List.length_pos_iff.2 hne
        rw [text_cons] at e2
        simp only [List.length_append] at e2
        omega
    subst hb2
    rw [List.append_nil] at e1
    subst e1
    subst h4
    rw [after_column] at e3
    have e3 : (⟨cur (row a, column 4 a), text b ++ q, 4⟩ : Data).stampAt q enc
      = .ok ⟨cur (row (a ++ b), column 4 (a ++ b)), q, 4⟩ := e3
    refine Or.inr ⟨⟨⟨cur (row (a ++ b), column 4 (a ++ b)), q, 4⟩, err⟩, ?_, ?_, ?_, rfl⟩
    · show (Data.stampAt _ _ _ >>= _) = _
      rw [e3]; rfl
    · exact ⟨a ++ b, by rw [h1, text_append, List.append_assoc], hv, hsep, rfl, rfl, List.suffix_rfl, hB⟩
    · exact ⟨a ++ b, by rw [h1, text_append, List.append_assoc], hv, hsep, rfl⟩

end Gear.Xml.Place
