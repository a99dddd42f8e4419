/-
The encodings of files: ASCII, one byte for each character, UTF-8; and what follows for loading.
-/
import Verif.XmlPlaceTrack
import Verif.XmlGrammarProps

set_option autoImplicit false
set_option linter.unusedSectionVars false

namespace Gear.Xml.Place

open Spec

/-! ### ASCII and single bytes -/

/-- A sign in every encoding. -/
def Always (s : Sign) : Prop := ∀ enc, s.Valid enc

theorem char_always {c : Char} (h1 : c.toNat < 128) (h2 : Spec.Plain c) : Always (.char [c]) := by
  intro enc
  refine ⟨⟨c, [], rfl, h2⟩, ?_⟩
  split_ifs
  · exact ⟨⟨c, [], rfl, .inl ⟨h1, rfl⟩⟩, by unfold Spec.Mark; simp⟩
  · rfl

theorem single_units {V : Sign → Prop} {t : Text} (h : ∀ c ∈ t, Spec.Plain c → V (.char [c])) :
    ∃ cs : List Text, t = cs.flatten ∧ ∀ b ∈ cs, Unit V b := by
  have e : ∀ t : Text, t = (t.map fun c => [c]).flatten := by
    intro t
    induction t with
    | nil => rfl
    | cons c t ih => rw [List.map_cons, List.flatten_cons, ← ih]; rfl
  refine ⟨_, e t, ?_⟩
  intro b hb
  obtain ⟨c, hc, rfl⟩ := List.mem_map.1 hb
  by_cases hl : LineEnd c ∨ c = '\t'
  · exact .inl ⟨c, rfl, hl⟩
  · have hp : Spec.Plain c := ⟨fun h => hl (.inl (.inl h)), fun h => hl (.inl (.inr h)), fun h => hl (.inr h)⟩
    exact .inr ⟨⟨c, [], rfl, hp⟩, .inl (h c hc hp)⟩

/-- Files in ASCII. -/
def asciiCoding (full : Text) (hA : ∀ c ∈ full, c.toNat < 128) : Coding full where
  V := Always
  E := fun _ => True
  B := fun _ => True
  after := fun _ _ => True.intro
  head := fun _ _ => True.intro
  skip := fun _ _ _ _ => True.intro
  valid := fun h _ => h _
  lineBreak := fun h _ => h
  tab := fun _ => True.intro
  units := fun h _ _ => single_units fun c hc hp => char_always (hA c (h.subset (by simp [hc]))) hp

/-- Files in which a byte is a character. -/
def byteCoding (full : Text) : Coding full where
  V := fun s => s.Valid .legacy
  E := fun enc => enc ≠ .utf8
  B := fun _ => True
  after := fun _ _ => True.intro
  head := fun _ _ => True.intro
  skip := fun _ _ _ _ => True.intro
  valid := by
    intro s enc h hE
    cases s with
    | char b =>
      refine ⟨h.1, ?_⟩
      rw [if_neg hE]
      exact h.2
    | tab => exact h
    | mark b => exact absurd h.1 (by simp)
    | lineBreak b => exact h
  lineBreak := fun h => h
  tab := True.intro
  units := fun _ _ _ => single_units fun c _ hp => ⟨⟨c, [], rfl, hp⟩, by rw [if_neg (by simp)]; rfl⟩

/-! ### UTF-8 -/

/-- A character in UTF-8. -/
def Whole (b : Text) : Prop := Utf8Char b ∧ ∀ c ∈ b.tail, Continues c

theorem Whole.cons {b : Text} (h : Whole b) : ∃ c r, b = c :: r ∧ ¬ Continues c ∧ ∀ d ∈ r, Continues d := by
  obtain ⟨⟨c, r, rfl, hc⟩, h2⟩ := h
  refine ⟨c, r, rfl, ?_, h2⟩
  unfold Continues
  omega

/-- Where no character is cut, the text falls into two. -/
theorem whole_split : ∀ (cs : List Text) (t q : Text), (∀ b ∈ cs, Whole b) → cs.flatten = t ++ q → (∀ c ∈ q.head?, ¬ Continues c) →
    ∃ cs1 cs2 : List Text, t = cs1.flatten ∧ q = cs2.flatten ∧ (∀ b ∈ cs1, Whole b) ∧ ∀ b ∈ cs2, Whole b := by
  intro cs
  induction cs with
  | nil =>
    intro t q _ e _
    obtain ⟨rfl, rfl⟩ := List.append_eq_nil_iff.1 e.symm
    exact ⟨[], [], rfl, rfl, by simp, by simp⟩
  | cons b cs ih =>
    intro t q hw e hq
    cases t with
    | nil => exact ⟨[], b :: cs, rfl, e.symm, by simp, hw⟩
    | cons x t =>
      obtain ⟨c, r, rfl, hc, hr⟩ := (hw b (by simp)).cons
      simp only [List.flatten_cons, List.cons_append, List.cons.injEq] at e
      obtain ⟨rfl, e⟩ := e
      rcases List.append_eq_append_iff.1 e with ⟨u, e1, e2⟩ | ⟨u, e1, e2⟩
      · obtain ⟨cs1, cs2, g1, g2, g3, g4⟩ := ih u q (fun b hb => hw b (by simp [hb])) e2 hq
        refine ⟨(c :: r) :: cs1, cs2, by rw [e1, g1]; rfl, g2, ?_, g4⟩
        intro b hb
        rcases List.mem_cons.1 hb with rfl | hb
        · exact hw _ (by simp)
        · exact g3 b hb
      · cases u with
        | nil =>
          rw [List.append_nil] at e1
          rw [List.nil_append] at e2
          exact ⟨[c :: r], cs, by simp [e1], e2, fun b hb => by rw [List.mem_singleton] at hb; rw [hb]; exact hw _ (by simp),
            fun b hb => hw b (by simp [hb])⟩
        | cons y u =>
          exact absurd (hr y (by simp [e1])) (hq y (by rw [e2]; rfl))

theorem utf8_suffix {full q : Text} (hf : Utf8 full) (hq : q <:+ full) (h : ∀ c ∈ q.head?, ¬ Continues c) : Utf8 q := by
  obtain ⟨cs, rfl, hw⟩ := hf
  obtain ⟨t, ht⟩ := hq
  obtain ⟨-, cs2, -, g2, -, g4⟩ := whole_split cs t q hw ht.symm h
  exact ⟨cs2, g2, g4⟩

theorem utf8_head {q : Text} (h : Utf8 q) : ∀ c ∈ q.head?, ¬ Continues c := by
  obtain ⟨cs, rfl, hw⟩ := h
  cases cs with
  | nil => intro c hc; cases hc
  | cons b cs =>
    obtain ⟨c, r, rfl, hc, -⟩ := Whole.cons (hw b (by simp))
    intro d hd
    obtain rfl : c = d := by simpa using hd
    exact hc

/-- A text in UTF-8 without its first character. -/
theorem utf8_drop {c : Char} {q : Text} (h : Utf8 (c :: q)) : ∃ b r, c :: q = b ++ r ∧ Whole b ∧ Utf8 r := by
  obtain ⟨cs, e, hw⟩ := h
  cases cs with
  | nil => cases e
  | cons b cs => exact ⟨b, cs.flatten, e, hw b (by simp), cs, rfl, fun b hb => hw b (by simp [hb])⟩

theorem utf8_after {c : Char} {q : Text} (h : Utf8 (c :: q)) (hc : c.toNat < 128) : Utf8 q := by
  obtain ⟨b, r, e, ⟨⟨d, t, rfl, hd⟩, -⟩, hr⟩ := utf8_drop h
  obtain ⟨rfl, e'⟩ : c = d ∧ q = t ++ r := List.cons.inj e
  rcases hd with hd | hd | hd | hd
  · rw [List.length_eq_zero_iff.1 hd.2, List.nil_append] at e'
    rw [e']; exact hr
  all_goals omega

theorem skipBody_utf8 (enc : Enc) (t : Text) : Utf8 t → Utf8 (skipBody enc t) := by
  fun_induction skipBody enc t with
  | case1 => exact id
  | case2 a h => intro _; exact ⟨[], rfl, by simp⟩
  | case3 a h => exact id
  | case4 a b h ih => exact fun hu => ih (utf8_after hu (Tracker.space_ascii h))
  | case5 a b h => exact id
  | case6 a b c rest h ih =>
    intro hu
    refine ih ?_
    simp only [Bool.and_eq_true, isMark, decide_eq_true_eq] at h
    obtain ⟨w, r, e, ⟨⟨d, t, rfl, hd⟩, -⟩, hr⟩ := utf8_drop hu
    obtain ⟨rfl, e⟩ := List.cons.inj e
    have hl : t.length = 2 := by omega
    match t, hl with
    | [x, y], _ =>
      simp only [List.cons_append, List.nil_append, List.cons.injEq] at e
      rw [e.2.2.2]; exact hr
  | case7 a b c rest h h' ih => exact fun hu => ih (utf8_after hu (Tracker.space_ascii h'))
  | case8 a b c rest h h' => exact id

theorem ascii_not_continues {c : Char} (h : c.toNat < 128) : ¬ Continues c := by
  unfold Continues; omega

theorem whole_unit {b : Text} (h : Whole b) : Unit (fun s => s.Valid .utf8) b := by
  obtain ⟨hu, -⟩ := h
  obtain ⟨c, r, rfl, hc⟩ := id hu
  by_cases hl : LineEnd c ∨ c = '\t'
  · have h128 : c.toNat < 128 := by rcases hl with (rfl | rfl) | rfl <;> decide
    have : r = [] := List.length_eq_zero_iff.1 (by omega)
    subst this
    exact .inl ⟨c, rfl, hl⟩
  · have hp : Spec.Plain c := ⟨fun h => hl (.inl (.inl h)), fun h => hl (.inl (.inr h)), fun h => hl (.inr h)⟩
    refine .inr ⟨⟨c, r, rfl, hp⟩, ?_⟩
    by_cases hm : Spec.Mark (c :: r)
    · exact .inr ⟨rfl, hm⟩
    · refine .inl ⟨⟨c, r, rfl, hp⟩, ?_⟩
      rw [if_pos rfl]
      exact ⟨hu, hm⟩

/-- Files in UTF-8. -/
def utf8Coding (full : Text) (hU : Utf8 full) : Coding full where
  V := fun s => s.Valid .utf8
  E := fun enc => enc = .utf8
  B := Utf8
  after := fun hc hq => utf8_after
    (utf8_suffix hU hq fun d hd => by cases hd; exact ascii_not_continues hc) hc
  head := fun hq h => utf8_suffix hU hq fun c hc => ascii_not_continues (h c hc)
  skip := by
    intro enc p q _ _ hp h
    cases p with
    | nil => cases h
    | cons a b =>
      simp only [skipWhiteSpace, Option.some.injEq] at h
      rw [← h]
      exact skipBody_utf8 _ _ hp
  valid := fun h hE => hE ▸ h
  lineBreak := fun h => h
  tab := True.intro
  units := by
    intro t q _ h hq
    obtain ⟨cs, e, hw⟩ := h
    obtain ⟨cs1, -, g1, -, g3, -⟩ := whole_split cs t q hw e.symm (utf8_head hq)
    exact ⟨cs1, g1, fun b hb => whole_unit (g3 b hb)⟩

/-! ### Reading the nodes of a document -/

/-- Where reading goes on there was no error. -/
theorem goes_on (enc : Enc) : ∀ fuel,
    (∀ p n q b, parseElement enc fuel p = .ok (n, some q, b) → b = false) ∧
    (∀ p l ns q b, readValue enc fuel p l = .ok (ns, some q, b) → b = false) ∧
    (∀ p n q b, parseNode enc fuel p = .ok (n, some q, b) → b = false) := by
  intro fuel
  induction fuel with
  | zero =>
    refine ⟨fun p n q b h => ?_, fun p l ns q b h => ?_, fun p n q b h => ?_⟩
    · cases h
    · cases h
    · cases h
  | succ fuel ih =>
    obtain ⟨ihE, ihV, ihN⟩ := ih
    refine ⟨fun p n q b h => ?_, fun p l ns q b h => ?_, fun p n q b h => ?_⟩
    · rw [parseElement] at h
      cases h1 : skipWhiteSpace enc (some (p.drop 1)) with
      | none => rw [h1] at h; cases h
      | some p1 =>
        rw [h1] at h
        simp only at h
        cases h2 : readName p1 with
        | none => rw [h2] at h; cases h
        | some x =>
          obtain ⟨name, p2⟩ := x
          rw [h2] at h
          cases p2 with
          | nil => cases h
          | cons c r =>
            simp only at h
            cases h3 : parseTag enc ((c :: r).length + 1) (c :: r) [] with
            | ok x =>
              obtain ⟨attrs, te⟩ := x
              rw [h3] at h
              simp only [Run.bind_ok] at h
              cases te with
              | failed e => cases h
              | closed p3 => cases h; rfl
              | opened p3 =>
                simp only at h
                cases h4 : skipWhiteSpace enc (some p3) with
                | none => rw [h4] at h; cases h
                | some p4 =>
                  rw [h4] at h
                  simp only at h
                  cases h5 : readValue enc fuel p4 [] with
                  | ok y =>
                    obtain ⟨cs, o, e⟩ := y
                    rw [h5] at h
                    simp only [Run.bind_ok] at h
                    match o, h5, h with
                    | none, _, h => cases h
                    | some [], _, h => cases h
                    | some (c :: t), h5, h =>
                      simp only at h
                      split_ifs at h
                      · obtain ⟨-, h⟩ := Prod.mk.inj (Run.ok.inj h)
                        obtain ⟨-, rfl⟩ := Prod.mk.inj h
                        exact ihV _ _ _ _ _ h5
                      · cases h
                  | ub => rw [h5] at h; cases h
                  | assertFailed => rw [h5] at h; cases h
                  | endless => rw [h5] at h; cases h
            | ub => rw [h3] at h; cases h
            | assertFailed => rw [h3] at h; cases h
            | endless => rw [h3] at h; cases h
    · cases p with
      | nil => cases h; rfl
      | cons c r =>
        rw [readValue] at h
        split_ifs at h with h1 h2
        · cases h3 : readTrim enc ['<'] (r.length + 1) false (c :: r) [] with
          | ok x =>
            rw [h3] at h
            simp only [Run.bind_ok] at h
            cases h4 : skipWhiteSpace enc (some x.2) with
            | none => rw [h4] at h; cases h
            | some p4 => rw [h4] at h; exact ihV _ _ _ _ _ h
          | ub => rw [h3] at h; cases h
          | assertFailed => rw [h3] at h; cases h
          | endless => rw [h3] at h; cases h
        · cases h; rfl
        · cases h3 : parseNode enc fuel (c :: r) with
          | ok x =>
            obtain ⟨n, o, e⟩ := x
            rw [h3] at h
            simp only [Run.bind_ok] at h
            cases o with
            | none => cases h
            | some p' =>
              cases h4 : skipWhiteSpace enc (some p') with
              | none => rw [h4] at h; cases h
              | some p4 =>
                rw [h4] at h
                simp only at h
                cases h5 : readValue enc fuel p4 (l ++ [n]) with
                | ok y =>
                  obtain ⟨cs, o, e'⟩ := y
                  rw [h5] at h
                  obtain ⟨-, h⟩ := Prod.mk.inj (Run.ok.inj h)
                  obtain ⟨rfl, rfl⟩ := Prod.mk.inj h
                  rw [ihN _ _ _ _ h3, ihV _ _ _ _ _ h5]; rfl
                | ub => rw [h5] at h; cases h
                | assertFailed => rw [h5] at h; cases h
                | endless => rw [h5] at h; cases h
          | ub => rw [h3] at h; cases h
          | assertFailed => rw [h3] at h; cases h
          | endless => rw [h3] at h; cases h
    · rw [parseNode] at h
      split_ifs at h
      · exact ihE _ _ _ _ h
      · cases h3 : parseOther enc p with
        | ok x =>
          rw [h3] at h
          obtain ⟨-, h⟩ := Prod.mk.inj (Run.ok.inj h)
          exact (Prod.mk.inj h).2.symm
        | ub => rw [h3] at h; cases h
        | assertFailed => rw [h3] at h; cases h
        | endless => rw [h3] at h; cases h

namespace Tracker
variable {full : Text} {H : Prop} {T : Tracker full H}

/-- What is known of a node that has been read. -/
theorem node_ok {enc : Enc} (hE : T.E enc) {fuel : ℕ} {s : State} {r : Text} (hJ : T.J ('<' :: r) s) (hp : '<' :: r <:+ full)
    (he : T.ErrOk s.error) {n : PNode} {o : Option Text} {t : State} (h : node enc fuel s ('<' :: r) = .ok (n, o, t)) :
    T.ErrOk t.error ∧ T.Loc ('<' :: r).length (low o) n.all ∧
      ∀ q, o = some q → q <:+ '<' :: r ∧ T.J q t ∧ parseNode enc fuel ('<' :: r) = .ok (n.erase, some q, false) := by
  have g := (nodes_sim hE fuel).2.2 s r hJ hp he
  rw [h] at g
  match hb : parseNode enc fuel ('<' :: r), g with
  | .ok (n', o', b), g =>
    obtain ⟨rfl, rfl, k3, k4, k5, k6⟩ := g
    refine ⟨k4, k5, fun q hq => ⟨(k6 q hq).1, (k6 q hq).2.2, ?_⟩⟩
    subst hq
    rw [(goes_on enc fuel).2.2 _ _ _ _ hb]

/-- The rest of a document, of which a node has been read. -/
theorem nodes_step {fuel : ℕ} {enc : Enc} {s : State} {r : Text} {l L : List PNode} {s' : State}
    (h : nodes (fuel + 1) enc s ('<' :: r) l = .ok (L, s')) :
    ∃ n o t, node enc (3 * (r.length + 2)) s ('<' :: r) = .ok (n, o, t) ∧
      ((skipWhiteSpace (nextEncoding enc n.erase) o = none ∧ L = l ++ [n] ∧ s' = t) ∨
        ∃ p, skipWhiteSpace (nextEncoding enc n.erase) o = some p ∧
          nodes fuel (nextEncoding enc n.erase) t p (l ++ [n]) = .ok (L, s')) := by
  rw [nodes] at h
  rw [if_neg (by simp)] at h
  cases hn : node enc (3 * (r.length + 2)) s ('<' :: r) with
  | ok x =>
    obtain ⟨n, o, t⟩ := x
    rw [hn] at h
    simp only [Run.bind_ok, encodingAfter_erase] at h
    refine ⟨n, o, t, rfl, ?_⟩
    cases hs : skipWhiteSpace (nextEncoding enc n.erase) o with
    | none => rw [hs] at h; cases h; exact .inl ⟨rfl, rfl, rfl⟩
    | some p => rw [hs] at h; exact .inr ⟨p, rfl, h⟩
  | ub => rw [hn] at h; cases h
  | assertFailed => rw [hn] at h; cases h
  | endless => rw [hn] at h; cases h

theorem nodes_stop {fuel : ℕ} {enc : Enc} {s : State} {p : Text} {l L : List PNode} {s' : State}
    (h : nodes fuel enc s p l = .ok (L, s')) (hp : ∀ r, p ≠ '<' :: r) : L = l ∧ s' = s := by
  cases p with
  | nil => cases fuel <;> cases h <;> exact ⟨rfl, rfl⟩
  | cons c r =>
    have hc : c ≠ '<' := fun h => hp r (by rw [h])
    cases fuel with
    | zero => cases h
    | succ fuel =>
      rw [nodes, if_pos hc] at h
      cases h; exact ⟨rfl, rfl⟩

theorem complete_of {enc : Enc} {fuel : ℕ} {r : Text} {n : Node} {q : Text}
    (h : parseNode enc fuel ('<' :: r) = .ok (n, some q, false)) : Grammar.Complete enc ('<' :: r) n q := by
  exact (Grammar.nodes_sound enc fuel).2.2 _ _ _ ⟨r, rfl⟩ h

theorem nodes_ok {hi : ℕ} : ∀ (fuel : ℕ) (enc : Enc) (s : State) (p : Text) (l L : List PNode) (s' : State),
    nodes fuel enc s p l = .ok (L, s') → (∀ e q, Grammar.Before enc p e q → T.E e) → T.J p s → p <:+ full → T.ErrOk s.error →
    T.Loc hi p.length (l.map PNode.all).flatten → T.ErrOk s'.error ∧ T.Loc hi 0 (L.map PNode.all).flatten := by
  intro fuel
  induction fuel with
  | zero =>
    intro enc s p l L s' h hE hJ hp he hl
    cases p with
    | nil => cases h; exact ⟨he, hl⟩
    | cons c r => cases h
  | succ fuel ih =>
    intro enc s p l L s' h hE hJ hp he hl
    by_cases hlt : ∃ r, p = '<' :: r
    · obtain ⟨r, rfl⟩ := hlt
      obtain ⟨n, o, t, hn, h⟩ := nodes_step h
      obtain ⟨g1, g2, g3⟩ := node_ok (hE _ _ (.none _ _)) hJ hp he hn
      have hl' : T.Loc hi (low o) ((l ++ [n]).map PNode.all).flatten := by
        rw [all_append]; exact hl.append g2
      rcases h with ⟨-, rfl, rfl⟩ | ⟨p', hs, h⟩
      · exact ⟨g1, hl'.mono le_rfl (Nat.zero_le _)⟩
      · cases o with
        | none => cases hs
        | some q =>
          obtain ⟨k1, k2, k3⟩ := g3 q rfl
          have sq := skipWhiteSpace_suffix hs
          refine ih _ _ _ _ _ _ h (fun e q' hb => hE e q' ?_) (T.mono k2 sq) (sq.trans (k1.trans hp)) g1
            (hl'.mono le_rfl sq.length_le)
          exact .node _ _ _ _ _ _ _ _ (complete_of k3) (Grammar.encoding_iff.1 rfl) (Grammar.gap_iff.1 hs) hb
    · obtain ⟨rfl, rfl⟩ := nodes_stop h fun r hr => hlt ⟨r, hr⟩
      exact ⟨he, hl.mono le_rfl (Nat.zero_le _)⟩

theorem Loc.le {hi lo : ℕ} : ∀ {l : List (Cursor × What)}, T.Loc hi lo l → lo ≤ hi := by
  intro l
  induction l generalizing hi with
  | nil => exact fun h => h
  | cons x l ih =>
    rintro ⟨q, -, -, -, g4, m, g5, g6⟩
    have := ih g6
    omega

/-- What is known with a tracker is known with another one. -/
theorem Loc.map {H' : Prop} {T' : Tracker full H'} {hi lo : ℕ} : ∀ {l : List (Cursor × What)}, T.Loc hi lo l →
    (∀ q k, q <:+ full → lo < q.length → T.At q k → T'.At q k) → (T.E .utf8 → T'.E .utf8) → T'.Loc hi lo l := by
  intro l
  induction l generalizing hi with
  | nil => intro h _ _; exact h
  | cons x l ih =>
    rintro ⟨q, g1, g2, g3, g4, m, g5, g6⟩ hA hE
    have hm : lo ≤ m := Loc.le g6
    exact ⟨q, g1, hA q _ g1 (lt_of_le_of_lt hm g5) g2, g3.mono hE, g4, m, g5, ih g6 hA hE⟩

end Tracker

/-! ### Files in ASCII up to the declaration of UTF-8 -/

theorem bytes_utf8 {s : Sign} (h : s.Valid .legacy) (ha : ∀ c ∈ s.bytes, c.toNat < 128) : s.Valid .utf8 := by
  cases s with
  | char b =>
    obtain ⟨⟨c, r, rfl, hp⟩, h2⟩ := h
    rw [if_neg (by simp)] at h2
    have : r = [] := by simpa using h2
    subst this
    exact char_always (ha c (by simp [Sign.bytes])) hp .utf8
  | tab => exact h
  | mark b => exact absurd h.1 (by simp)
  | lineBreak b => exact h

theorem signs_utf8 {full q : Text} {a : List Sign} {pre rest : Text} (h1 : full = text a ++ q) (h2 : ∀ x ∈ a, x.Valid .legacy)
    (hpre : full = pre ++ rest) (ha : ∀ c ∈ pre, c.toNat < 128) (hq : rest.length ≤ q.length) : ∀ x ∈ a, x.Valid .utf8 := by
  intro x hx
  refine bytes_utf8 (h2 x hx) fun c hc => ha c ?_
  obtain ⟨u, hu⟩ : text a <+: pre := by
    refine List.prefix_of_prefix_length_le (l₃ := full) ⟨q, h1.symm⟩ ⟨rest, hpre.symm⟩ ?_
    have := congrArg List.length (h1.symm.trans hpre)
    simp only [List.length_append] at this
    omega
  rw [← hu]
  refine List.mem_append_left _ ?_
  unfold text
  exact List.mem_flatten_of_mem (List.mem_map_of_mem hx) hc

theorem utf8_front {full pre rest : Text} (hU : Utf8 full) (hpre : full = pre ++ rest) (ha : ∀ c ∈ pre, c.toNat < 128) : Utf8 rest := by
  rcases List.eq_nil_or_concat pre with rfl | ⟨pre', c, rfl⟩
  · rw [List.nil_append] at hpre; exact hpre ▸ hU
  · refine (utf8Coding full hU).after (c := c) (ha c (by simp)) ⟨pre', ?_⟩
    rw [hpre]; simp

theorem switch_J {full p pre : Text} {s : State} (hU : Utf8 full) (hpre : full = pre ++ p) (ha : ∀ c ∈ pre, c.toNat < 128)
    (h : (signTracker (byteCoding full)).J p s) : (signTracker (utf8Coding full hU)).J p s := by
  obtain ⟨a, h1, h2, h3, h4, h5, h6, -⟩ := h
  refine ⟨a, h1, signs_utf8 h1 h2 hpre ha h6.length_le, h3, h4, h5, h6, ?_⟩
  obtain ⟨u, hu⟩ := h6
  refine utf8_front hU h1 fun c hc => ha c ?_
  have : pre = text a ++ u := by
    have e := hpre.symm.trans h1
    rw [← hu, ← List.append_assoc] at e
    exact List.append_cancel_right e
  rw [this]
  exact List.mem_append_left _ hc

theorem before_settled {enc : Enc} {p : Text} {e : Enc} {q : Text} (h : Grammar.Before enc p e q) (he : enc ≠ .unknown) : e = enc := by
  induction h with
  | none enc p => rfl
  | node enc p n p1 enc1 p2 enc2 q hc hn hg _ ih =>
    cases hn with
    | settled _ _ h => exact ih h
    | other => exact absurd rfl he
    | utf8 => exact absurd rfl he
    | legacy => exact absurd rfl he

theorem before_utf8 {p : Text} {e : Enc} {q : Text} (h : Grammar.Before .utf8 p e q) : e = .utf8 := before_settled h (by simp)

theorem nodes_switch {full : Text} (hU : Utf8 full) {hi : ℕ} {enc : Enc} {p : Text} {e : Enc} {q : Text}
    (hb : Grammar.Before enc p e q) (he : e = .utf8) : ∀ (pre : Text), full = pre ++ q → (∀ c ∈ pre, c.toNat < 128) →
    ∀ (fuel : ℕ) (s : State) (l L : List PNode) (s' : State), nodes fuel enc s p l = .ok (L, s') →
    (signTracker (byteCoding full)).J p s → p <:+ full → s.error = none →
    (signTracker (utf8Coding full hU)).Loc hi p.length (l.map PNode.all).flatten →
    (signTracker (utf8Coding full hU)).ErrOk s'.error ∧ (signTracker (utf8Coding full hU)).Loc hi 0 (L.map PNode.all).flatten := by
  have start : ∀ (pre : Text) (q p : Text), full = pre ++ q → (∀ c ∈ pre, c.toNat < 128) → q <:+ p → p <:+ full →
      ∃ pre', full = pre' ++ p ∧ ∀ c ∈ pre', c.toNat < 128 := by
    rintro pre q p h ha ⟨u, rfl⟩ ⟨v, hv⟩
    refine ⟨v, hv.symm, fun c hc => ha c ?_⟩
    rw [h, ← List.append_assoc] at hv
    rw [← List.append_cancel_right hv]
    exact List.mem_append_left _ hc
  have now : ∀ (p pre : Text), full = pre ++ p → (∀ c ∈ pre, c.toNat < 128) →
      ∀ (fuel : ℕ) (s : State) (l L : List PNode) (s' : State), nodes fuel .utf8 s p l = .ok (L, s') →
      (signTracker (byteCoding full)).J p s → s.error = none →
      (signTracker (utf8Coding full hU)).Loc hi p.length (l.map PNode.all).flatten →
      (signTracker (utf8Coding full hU)).ErrOk s'.error ∧
        (signTracker (utf8Coding full hU)).Loc hi 0 (L.map PNode.all).flatten := by
    intro p pre hpre ha fuel s l L s' h hJ hs hl
    exact Tracker.nodes_ok fuel .utf8 s p l L s' h (fun e q hb => before_utf8 hb) (switch_J hU hpre ha hJ) ⟨pre, hpre.symm⟩
      (by rw [hs]; exact Tracker.ErrOk.none) hl
  induction hb with
  | none enc p =>
    subst he
    intro pre hpre ha fuel s l L s' h hJ hp hs hl
    exact now p pre hpre ha fuel s l L s' h hJ hs hl
  | node enc p n p1 enc1 p2 enc2 q hc hn hg hb ih =>
    intro pre hpre ha fuel s l L s' h hJ hp hs hl
    have hb' : Grammar.Before enc p enc2 q := .node _ _ _ _ _ _ _ _ hc hn hg hb
    by_cases hu : enc = .utf8
    · subst hu
      obtain ⟨pre', hpre', ha'⟩ := start pre q p hpre ha hb'.isSuffix hp
      exact now p pre' hpre' ha' fuel s l L s' h hJ hs hl
    · obtain ⟨r, rfl⟩ := hc.lt
      cases fuel with
      | zero => cases h
      | succ fuel =>
        obtain ⟨m, o, t, hm, h⟩ := Tracker.nodes_step h
        have hE : (signTracker (byteCoding full)).E enc := hu
        obtain ⟨g1, g2, g3⟩ := Tracker.node_ok hE hJ hp (by rw [hs]; exact Tracker.ErrOk.none) hm
        have hsim := (Tracker.nodes_sim hE (3 * (r.length + 2))).2.2 s r hJ hp (by rw [hs]; exact Tracker.ErrOk.none)
        rw [hm, Grammar.parseNode_complete hc _ (by simp only [List.length_cons]; omega)] at hsim
        obtain ⟨rfl, rfl, k3, -⟩ := hsim
        obtain ⟨k1, k2, -⟩ := g3 p1 rfl
        have ht : t.error = none := by
          rw [hs] at k3
          cases hte : t.error with
          | none => rfl
          | some x => rw [hte] at k3; cases k3
        obtain rfl := Grammar.encoding_iff.2 hn
        rw [Grammar.gap_iff.2 hg] at h
        rcases h with ⟨h, -⟩ | ⟨p', hs', h⟩
        · cases h
        cases hs'
        have sq := hg.suffix
        refine ih he pre hpre ha fuel t (l ++ [m]) L s' h (Tracker.mono _ k2 sq) (sq.trans (k1.trans hp)) ht ?_
        rw [Tracker.all_append]
        obtain ⟨pre1, hpre1, ha1⟩ := start pre q p1 hpre ha (hb.isSuffix.trans sq) (k1.trans hp)
        refine (hl.append (Tracker.Loc.map g2 ?_ fun h => absurd rfl h)).mono le_rfl sq.length_le
        rintro q' k hq' hlen ⟨a, e1, e2, e3, e4⟩
        exact ⟨a, e1, signs_utf8 e1 e2 hpre1 ha1 (le_of_lt hlen), e3, e4⟩

/-! ### Loading -/

theorem load_nodes {file : Text} {okay : Bool} {l : List PNode} {e : Option (ErrorId × Cursor)} (h : load file = .ok (okay, l, e)) :
    (l = [] ∧ e = none) ∨ ∃ q s', skipWhiteSpace (startEncoding file) (some file) = some q ∧
      nodes (q.length + 1) (startEncoding file) ⟨start file 4, none⟩ q [] = .ok (l, s') ∧
      (e = s'.error ∨ e = some (.documentEmpty, .clear)) := by
  unfold load at h
  split_ifs at h with hf
  · cases h; exact .inl ⟨rfl, rfl⟩
  right
  obtain ⟨c, r, rfl⟩ := List.exists_cons_of_ne_nil hf
  unfold document at h
  simp only at h
  cases h1 : skipWhiteSpace (startEncoding (c :: r)) (some (c :: r)) with
  | none => rw [skipWhiteSpace_none] at h1; exact absurd h1 hf
  | some q =>
    rw [h1] at h
    simp only at h
    cases h2 : nodes (q.length + 1) (startEncoding (c :: r)) ⟨start (c :: r) 4, none⟩ q [] with
    | ok x =>
      obtain ⟨l', s'⟩ := x
      rw [h2] at h
      simp only [Run.bind_ok] at h
      refine ⟨q, s', rfl, ?_⟩
      cases l' with
      | nil =>
        rw [if_pos (by rfl)] at h
        unfold State.setError at h
        cases he : s'.error with
        | none =>
          rw [he] at h
          cases h
          exact ⟨h2, .inr rfl⟩
        | some x =>
          rw [he] at h
          simp only [Run.bind_ok, he] at h
          cases h
          exact ⟨h2, .inl rfl⟩
      | cons n l' =>
        rw [if_neg (by simp)] at h
        cases h
        exact ⟨h2, .inl rfl⟩
    | ub => rw [h2] at h; cases h
    | assertFailed => rw [h2] at h; cases h
    | endless => rw [h2] at h; cases h

theorem start_J {full q : Text} (C : Coding full) (hB : C.B full) (hq : q <:+ full) :
    (signTracker C).J q ⟨start full 4, none⟩ := ⟨[], rfl, by simp, True.intro, rfl, rfl, hq, hB⟩

/-- What is known of loading a file in an encoding. -/
theorem load_known {file : Text} {okay : Bool} {l : List PNode} {e : Option (ErrorId × Cursor)} (h : load file = .ok (okay, l, e))
    {enc : Enc} (hr : Readable file enc) : ∃ C : Coding file, (∀ s, C.V s → s.Valid enc) ∧
      (C.E .utf8 → enc = .utf8 ∨ ∀ c ∈ file, c.toNat < 128) ∧
      (signTracker C).ErrOk e ∧ (signTracker C).Loc file.length 0 (l.map PNode.all).flatten := by
  have fin : ∀ (C : Coding file) (q : Text) (s' : State), skipWhiteSpace (startEncoding file) (some file) = some q →
      (e = s'.error ∨ e = some (.documentEmpty, .clear)) →
      (signTracker C).ErrOk s'.error ∧ (signTracker C).Loc file.length 0 (l.map PNode.all).flatten →
      (signTracker C).ErrOk e ∧ (signTracker C).Loc file.length 0 (l.map PNode.all).flatten := by
    rintro C q s' _ (rfl | rfl) hC
    · exact hC
    · refine ⟨fun id k hk => ?_, hC.2⟩
      cases hk
      exact .inl ⟨rfl, by simp⟩
  have none' : ∀ C : Coding file, l = [] ∧ e = none →
      (signTracker C).ErrOk e ∧ (signTracker C).Loc file.length 0 (l.map PNode.all).flatten := by
    rintro C ⟨rfl, rfl⟩
    exact ⟨Tracker.ErrOk.none, Nat.zero_le _⟩
  cases hr with
  | ascii _ hA =>
    refine ⟨asciiCoding file hA, fun s hs => hs enc, fun _ => .inr hA, ?_⟩
    rcases load_nodes h with h | ⟨q, s', hq, hn, he⟩
    · exact none' _ h
    · have sq := skipWhiteSpace_suffix hq
      exact fin _ q s' hq he (Tracker.nodes_ok _ _ _ _ _ _ _ hn (fun _ _ _ => True.intro) (start_J _ True.intro sq) sq
        Tracker.ErrOk.none sq.length_le)
  | utf8 enc0 p a q hfirst hgap hb hfile hstart hU =>
    refine ⟨utf8Coding file hU, fun s hs => hs, fun _ => .inl rfl, ?_⟩
    rcases load_nodes h with h | ⟨q', s', hq, hn, he⟩
    · exact none' _ h
    · have sq := skipWhiteSpace_suffix hq
      rw [Grammar.first_iff.2 hfirst] at hq hn
      rw [Grammar.gap_iff.2 hgap] at hq
      cases hq
      refine fin _ p s' ?_ he ?_
      · rw [Grammar.first_iff.2 hfirst, Grammar.gap_iff.2 hgap]
      · rcases hstart with rfl | ha
        · exact Tracker.nodes_ok _ _ _ _ _ _ _ hn (fun _ _ hb => before_utf8 hb) (start_J _ hU sq) sq Tracker.ErrOk.none sq.length_le
        · exact nodes_switch hU hb rfl a hfile ha _ _ _ _ _ hn (start_J _ True.intro sq) sq rfl sq.length_le
  | bytes _ hne hno =>
    refine ⟨byteCoding file, fun s hs => ?_, fun h => absurd rfl h, ?_⟩
    · exact (byteCoding file).valid hs hne
    · rcases load_nodes h with h | ⟨q, s', hq, hn, he⟩
      · exact none' _ h
      · have sq := skipWhiteSpace_suffix hq
        refine fin _ q s' hq he (Tracker.nodes_ok _ _ _ _ _ _ _ hn (fun e q' hb => ?_) (start_J _ True.intro sq) sq
          Tracker.ErrOk.none sq.length_le)
        rintro rfl
        exact hno _ _ _ (Grammar.first_iff.1 rfl) (Grammar.gap_iff.1 hq) hb

end Gear.Xml.Place
