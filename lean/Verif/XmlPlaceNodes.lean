/-
The parser with rows and columns reads the same as the one of Xml.lean: tags, nodes and documents.
-/
import Verif.XmlPlaceSim

set_option autoImplicit false
set_option linter.unusedSectionVars false

namespace Gear.Xml.Place
namespace Tracker
variable {full : Text} {H : Prop} {T : Tracker full H}

/-- How much of the text follows where reading goes on. -/
def low : Option Text → ℕ
  | none => 0
  | some q => q.length

/-- What is shown for reading the attributes of an element. -/
def TagRel (T : Tracker full H) (s : State) (p : Text) (hi : ℕ) :
    List (Text × Text) × List Cursor × End × State → List (Text × Text) × TagEnd → Prop
  | (as, ks, e, s'), (as', te) =>
    as = as' ∧ T.ErrOk s'.error ∧ ks.length = as.length ∧
      match e, te with
      | .closed q, .closed q' => q = q' ∧ q <:+ p ∧ T.B q ∧ T.J q s' ∧ s'.error = s.error ∧ T.Loc hi q.length (attrPlaces as ks)
      | .opened q, .opened q' => q = q' ∧ q <:+ p ∧ T.B q ∧ T.J q s' ∧ s'.error = s.error ∧ T.Loc hi q.length (attrPlaces as ks)
      | .failed, .failed b => s'.error.isSome = (s.error.isSome || b) ∧ T.Loc hi 0 (attrPlaces as ks)
      | _, _ => False

theorem TagRel.mono {s s' : State} {p q : Text} {hi : ℕ} {x : List (Text × Text) × List Cursor × End × State}
    {y : List (Text × Text) × TagEnd} (h : T.TagRel s p hi x y) (he : s.error = s'.error) (hp : p <:+ q) : T.TagRel s' q hi x y := by
  obtain ⟨as, ks, e, t⟩ := x
  obtain ⟨as', te⟩ := y
  obtain ⟨h1, h2, h3, h4⟩ := h
  refine ⟨h1, h2, h3, ?_⟩
  cases e <;> cases te <;> simp only [← he] at h4 ⊢ <;> first
    | exact h4
    | exact ⟨h4.1, h4.2.1.trans hp, h4.2.2⟩

theorem Sim.mono {α β : Type} {R S : α → β → Prop} {x : Run α} {y : Run β} (h : Sim H R x y) (k : ∀ a b, R a b → S a b) :
    Sim H S x y := by
  match x, y, h with
  | .ok a, .ok b, h => exact k a b h
  | .ub, .ub, _ => exact True.intro
  | .assertFailed, .assertFailed, _ => exact True.intro
  | .endless, .endless, _ => exact True.intro
  | .endless, .ok b, h => exact h
  | .endless, .ub, h => exact h
  | .endless, .assertFailed, h => exact h

theorem tag_fail {enc : Enc} {s s0 : State} {p p0 q : Text} {hi : ℕ} {id : ErrorId} {attrs : List (Text × Text)} {places : List Cursor}
    (he : T.ErrOk s.error) (hJ : s.error = none → T.J p s) (hp : p <:+ full) (hq : q <:+ p) (hE : T.E enc) (hc : T.Ok q)
    (hid : id ≠ .readingEndTag)
    (hf : places.length = attrs.length ∧ T.Loc hi p.length (attrPlaces attrs places)) :
    Sim H (T.TagRel s0 p0 hi) (s.setError id (some q) enc >>= fun s => .ok (attrs, places, .failed, s))
      (.ok (attrs, .failed true)) :=
  Sim.left (P := fun s' => s'.error.isSome = true ∧ T.ErrOk s'.error)
    (setError_some he hJ hp hq hE hc fun h => absurd h hid) fun s' h =>
    ⟨rfl, h.2, hf.1, by simp [h.1], hf.2.mono le_rfl (Nat.zero_le _)⟩

theorem tag_sim {enc : Enc} {hi : ℕ} (hE : T.E enc) : ∀ (fuel : ℕ) (s : State) (p : Text) (attrs : List (Text × Text)) (places : List Cursor),
    T.J p s → p <:+ full → T.ErrOk s.error → T.Ok p →
    places.length = attrs.length ∧ T.Loc hi p.length (attrPlaces attrs places) →
    Sim H (T.TagRel s p hi) (tag enc fuel s p attrs places) (parseTag enc fuel p attrs) := by
  intro fuel
  induction fuel with
  | zero => intro s p attrs places _ _ _ _ _; exact True.intro
  | succ fuel ih =>
    intro s p attrs places hJ hp he hcl hf
    have hl := hf.1
    rw [tag, parseTag]
    split
    · rename_i h1
      simp only [h1]
      exact tag_fail he (fun _ => hJ) hp List.suffix_rfl hE hcl (by simp) hf
    · rename_i h1
      simp only [h1]
      exact tag_fail he (fun _ => hJ) hp List.suffix_rfl hE hcl (by simp) hf
    · rename_i q h1
      simp only [h1]
      have sq := (List.suffix_cons _ _).trans ((List.suffix_cons _ _).trans (skipWhiteSpace_suffix h1))
      exact ⟨rfl, he, hl, rfl, sq, T.after (by decide) ((List.suffix_cons _ _).trans ((skipWhiteSpace_suffix h1).trans hp)),
        T.mono hJ sq, rfl, hf.2.mono le_rfl sq.length_le⟩
    · rename_i q hq h1
      have sp := skipWhiteSpace_suffix h1
      have sq := (List.suffix_cons _ _).trans sp
      have fail := tag_fail (s0 := s) (p0 := p) (enc := enc) (id := .parsingEmpty) he (fun _ => hJ) hp sq hE
        (Ok.after (sp.trans hp) (by simp [LineEnd]) (by decide)) (by simp) hf
      split
      · exact fail
      · exact fail
      · rename_i h; rw [h1] at h; exact absurd (List.cons.inj (Option.some.inj h)).2 (hq _)
      · exact fail
      · rename_i h; rw [h1] at h; exact absurd (List.cons.inj (Option.some.inj h)).1 (by decide)
      · rename_i h4 _ h; rw [h1] at h; exact absurd (Option.some.inj h).symm (h4 _)
    · rename_i q h1
      simp only [h1]
      have sq := (List.suffix_cons _ _).trans (skipWhiteSpace_suffix h1)
      exact ⟨rfl, he, hl, rfl, sq, T.after (by decide) ((skipWhiteSpace_suffix h1).trans hp), T.mono hJ sq, rfl,
        hf.2.mono le_rfl sq.length_le⟩
    · rename_i q h2 h3 h4 h5 h1
      split
      · rename_i h; rw [h1] at h; cases h
      · rename_i h; rw [h1] at h; exact absurd (Option.some.inj h) h2
      · rename_i h; rw [h1] at h; exact absurd (Option.some.inj h) (h3 _)
      · rename_i h; rw [h1] at h; exact absurd (Option.some.inj h) (h4 _)
      · rename_i h; rw [h1] at h; exact absurd (Option.some.inj h) (h5 _)
      rename_i q' _ _ _ _ h
      rw [h1] at h
      obtain rfl := Option.some.inj h
      have sq := skipWhiteSpace_suffix h1
      have hne : q ≠ [] := h2
      have hcq : T.Ok q := Ok.of_head (sq.trans hp) (skip_head h1) (T.skip hE hp hcl.2 h1)
      have hfq : places.length = attrs.length ∧ T.Loc hi q.length (attrPlaces attrs places) := ⟨hl, hf.2.mono le_rfl sq.length_le⟩
      refine Sim.bind (readAttr_sim (document := true) (T.mono hJ sq) (sq.trans hp) he (skip_idem h1 hne) hne hE hcq.2) fun a b hab => ?_
      obtain ⟨a, s'⟩ := a
      match a, b, hab with
      | none, none, hab =>
        exact tag_fail hab.1 (fun h => by have := hab.2.1 rfl; rw [h] at this; cases this) (sq.trans hp) List.suffix_rfl hE hcq
          (by simp) hfq
      | some (n, v, k, t), some (n', v', t'), hab =>
        obtain ⟨rfl, rfl, rfl, g1, g2, g3, g4, g5⟩ := hab
        have he' : T.ErrOk s'.error := by rw [g3]; exact he
        cases t with
        | nil => exact tag_fail he' (fun _ => g2) (sq.trans hp) List.suffix_rfl hE hcq (by simp) hfq
        | cons c t =>
          simp only
          split_ifs with hd
          · refine ⟨rfl, he', by rw [setAttribute_length v hd]; exact hl, by simp [g3], ?_⟩
            rw [attrPlaces_set v hd]; exact hfq.2.mono le_rfl (Nat.zero_le _)
          · refine Sim.mono (ih s' (c :: t) _ _ (T.mono g2 g4) (g4.trans (sq.trans hp)) he' g5 ⟨by simp [hl], ?_⟩)
              fun a b h => h.mono g3 (g4.trans sq)
            rw [attrPlaces_append hl]
            exact hfq.2.append g1

/-- What is shown for reading a declaration, a comment or an unknown node. -/
def OtherRel (T : Tracker full H) (s : State) (p : Text) (hi : ℕ) : PNode × Option Text × State → Node × Option Text → Prop
  | (n, o, s'), (n', o') => n.erase = n' ∧ o = o' ∧ s'.error = s.error ∧ T.Loc hi (low o) n.all ∧ ∀ q, o = some q → q <:+ p ∧ T.B q ∧ T.J q s'

theorem OtherRel.mono {s s' : State} {p q : Text} {hi : ℕ} {x : PNode × Option Text × State}
    {y : Node × Option Text} (h : T.OtherRel s p hi x y) (he : s.error = s'.error) (hp : p <:+ q) : T.OtherRel s' q hi x y := by
  obtain ⟨n, o, t⟩ := x
  obtain ⟨n', o'⟩ := y
  obtain ⟨h1, h2, h3, h4, h5⟩ := h
  exact ⟨h1, h2, h3.trans he, h4, fun r hr => ⟨(h5 r hr).1.trans hp, (h5 r hr).2⟩⟩

theorem declaration_sim {enc : Enc} {place : Cursor} {hi lo : ℕ} (hE : T.E enc) (hf : T.Loc hi lo [(place, .declaration)]) :
    ∀ (fuel : ℕ) (st : State) (p v e s : Text), T.J p st → p <:+ full → T.B p → T.ErrOk st.error → p.length ≤ lo →
    Sim H (T.OtherRel st p hi) (declaration enc place fuel st p v e s) (parseDeclaration enc fuel p v e s) := by
  have hall : ∀ v e s m, m ≤ lo → T.Loc hi m (PNode.declaration place v e s).all := by
    intro v e s m hm
    rw [PNode.all]
    exact hf.mono le_rfl hm
  intro fuel
  induction fuel with
  | zero =>
    intro st p v e s hJ hp hB he hlo
    cases p with
    | nil => exact ⟨by rw [PNode.erase], rfl, rfl, hall _ _ _ _ (Nat.zero_le _), fun q h => by cases h⟩
    | cons c r => exact True.intro
  | succ fuel ih =>
    intro st p v e s hJ hp hB he hlo
    cases p with
    | nil => exact ⟨by rw [PNode.erase], rfl, rfl, hall _ _ _ _ (Nat.zero_le _), fun q h => by cases h⟩
    | cons c r =>
    by_cases hc : c = '>'
    · subst hc
      have sq := List.suffix_cons '>' r
      exact ⟨by rw [PNode.erase], rfl, rfl, hall _ _ _ _ (sq.length_le.trans hlo),
        fun q h => by cases h; exact ⟨sq, T.after (by decide) hp, T.mono hJ sq⟩⟩
    rw [declaration, parseDeclaration]
    rotate_left
    · simp
    · intro p h; exact hc (List.cons.inj h).1
    · simp
    · intro p h; exact hc (List.cons.inj h).1
    cases h1 : skipWhiteSpace enc (some (c :: r)) with
    | none => exact True.intro
    | some q =>
      cases q with
      | nil => exact True.intro
      | cons c' r' =>
        simp only
        have sq := skipWhiteSpace_suffix h1
        have hB' := T.skip hE hp hB h1
        have attr : ∀ (n : PNode) (f : State → Text → Text → Run (PNode × Option Text × State))
            (g : Text → Text → Run (Node × Option Text)), T.Loc hi 0 n.all →
            (∀ st' a t, T.J t st' → st'.error = st.error → t <:+ c :: r → T.B t →
              Sim H (T.OtherRel st (c :: r) hi) (f st' a t) (g a t)) →
            Sim H (T.OtherRel st (c :: r) hi)
              (readAttr false enc st (c' :: r') >>= fun x => match x with
                | (a, st) => match a with
                  | none => .ok (n, none, st)
                  | some (_, v, _, p) => f st v p)
              (parseAttribute enc (c' :: r') >>= fun x => match x with
                | none => .ok (n.erase, none)
                | some (_, v, p) => g v p) := by
          intro n f g hn hfg
          refine Sim.bind (readAttr_sim (document := false) (T.mono hJ sq) (sq.trans hp) he (skip_idem h1 (by simp)) (by simp) hE hB')
            fun a b hab => ?_
          obtain ⟨a, s'⟩ := a
          match a, b, hab with
          | none, none, hab => exact ⟨rfl, rfl, hab.2.2 rfl, hn, fun q h => by cases h⟩
          | some (n, v, k, t), some (n', v', t'), hab =>
            obtain ⟨rfl, rfl, rfl, g1, g2, g3, g4, g5⟩ := hab
            exact hfg s' v t (T.mono g2 g4) g3 (g4.trans sq) g5.2
        have rec' : ∀ st' t v e s, T.J t st' → st'.error = st.error → t <:+ c :: r → T.B t →
            Sim H (T.OtherRel st (c :: r) hi) (declaration enc place fuel st' t v e s) (parseDeclaration enc fuel t v e s) :=
          fun st' t v e s hJ' he' ht hb => Sim.mono (ih st' t v e s hJ' (ht.trans hp) hb (by rw [he']; exact he) (ht.length_le.trans hlo))
            fun a b h => h.mono he' ht
        split_ifs
        · have := attr (.declaration place [] e s) (fun st a t => declaration enc place fuel st t a e s)
            (fun a t => parseDeclaration enc fuel t a e s) (hall _ _ _ _ (Nat.zero_le _)) (fun st' a t j e1 h hb => rec' st' t a e s j e1 h hb)
          rw [PNode.erase] at this; exact this
        · have := attr (.declaration place v [] s) (fun st a t => declaration enc place fuel st t v a s)
            (fun a t => parseDeclaration enc fuel t v a s) (hall _ _ _ _ (Nat.zero_le _)) (fun st' a t j e1 h hb => rec' st' t v a s j e1 h hb)
          rw [PNode.erase] at this; exact this
        · have := attr (.declaration place v e []) (fun st a t => declaration enc place fuel st t v e a)
            (fun a t => parseDeclaration enc fuel t v e a) (hall _ _ _ _ (Nat.zero_le _)) (fun st' a t j e1 h hb => rec' st' t v e a j e1 h hb)
          rw [PNode.erase] at this; exact this
        · have sd := (dropWhile_suffix' (p := fun c => c ≠ '>' && !isSpace c) (c' :: r')).trans sq
          refine rec' st _ v e s (T.mono hJ sd) rfl sd (T.head (sd.trans hp) fun x hx => ?_)
          have h' := List.head?_dropWhile_not (fun c => decide (c ≠ '>') && !isSpace c) (c' :: r')
          rw [Option.mem_def] at hx
          rw [hx] at h'
          simp only [Bool.not_eq_true', Bool.and_eq_false_iff, decide_eq_false_iff_not, ne_eq, not_not, Bool.not_eq_false'] at h'
          rcases h' with rfl | h'
          · decide
          · exact space_ascii h'

theorem ok_lt {r : Text} (hp : '<' :: r <:+ full) : T.Ok ('<' :: r) :=
  Ok.of_head hp (fun c t h => by rw [← (List.cons.inj h).1]; decide) (T.head hp fun c h => by cases h; decide)

theorem other_sim {enc : Enc} {s : State} {r : Text} (hJ : T.J ('<' :: r) s) (hp : '<' :: r <:+ full) (he : T.ErrOk s.error)
    (hE : T.E enc) : Sim H (T.OtherRel s ('<' :: r) (r.length + 1)) (other enc s ('<' :: r)) (parseOther enc ('<' :: r)) := by
  have hcl := ok_lt (T := T) hp
  unfold other parseOther
  refine Sim.left (T.stamp hE hJ List.suffix_rfl hp hcl.1 hcl.2) fun s1 ⟨j1, a1, e1⟩ => ?_
  simp only
  split_ifs with h1 h2
  · have sd := List.drop_suffix 5 ('<' :: r)
    have hb : T.B (('<' :: r).drop 5) := by
      obtain ⟨a, b, c, d, t, rfl, hd⟩ : ∃ a b c d t, r = a :: b :: c :: d :: t ∧ d.toNat < 128 := by
        match r, h1 with
        | [], h1 => exact absurd h1 (by decide)
        | [_], h1 => simp [prefixNoCase] at h1
        | [_, _], h1 => simp [prefixNoCase] at h1
        | [_, _, _], h1 => simp [prefixNoCase] at h1
        | a :: b :: c :: d :: t, h1 =>
          refine ⟨a, b, c, d, t, rfl, ?_⟩
          have hd : toLower d = toLower 'l' := by
            simp only [show "<?xml".toList = ['<', '?', 'x', 'm', 'l'] from rfl, prefixNoCase, Bool.and_eq_true, decide_eq_true_eq] at h1
            exact h1.2.2.2.2.1
          by_contra hge
          have : toLower d = d := by
            unfold toLower
            rw [if_neg]
            simp only [Bool.and_eq_true, decide_eq_true_eq]
            omega
          rw [this] at hd
          subst hd
          exact hge (by decide)
      exact T.after hd (((List.suffix_cons _ _).trans ((List.suffix_cons _ _).trans ((List.suffix_cons _ _).trans (List.suffix_cons _ _)))).trans hp)
    exact Sim.mono (declaration_sim (lo := r.length) hE (Loc.single hp a1 h1 le_rfl (Nat.lt_succ_self _)) _ s1 _ [] [] [] (T.mono j1 sd)
      (sd.trans hp) hb (by rw [e1]; exact he) (by simp)) fun a b h => h.mono e1 sd
  · refine Sim.bind (R := fun a b => a = b ∧ '>' :: a.2 <:+ r) ?_ fun a b h => ?_
    · cases hq : readQuoted enc "-->".toList (('<' :: r).drop 4) with
      | ok x => exact ⟨rfl, (List.suffix_append ['-', '-'] _).trans ((readQuoted_end hq).trans (List.drop_suffix 3 r))⟩
      | ub => exact True.intro
      | assertFailed => exact True.intro
      | endless => exact True.intro
    · obtain ⟨rfl, h⟩ := h
      obtain ⟨v, q⟩ := a
      have hgt : '>' :: q <:+ r := h
      have h : q <:+ r := (List.suffix_cons _ _).trans hgt
      have h' : q <:+ '<' :: r := h.trans (List.suffix_cons _ _)
      refine ⟨by rw [PNode.erase], rfl, e1, ?_, fun q' e' => by
        cases e'; exact ⟨h', T.after (by decide) (hgt.trans ((List.suffix_cons _ _).trans hp)), T.mono j1 h'⟩⟩
      rw [PNode.all]
      exact Loc.single hp a1 (List.isPrefixOf_iff_prefix.1 h2) le_rfl (Nat.lt_succ_of_le h.length_le)
  · have sr : (List.dropWhile (fun x => decide (x ≠ '>')) (('<' :: r).drop 1)).drop 1 <:+ r :=
      (List.drop_suffix _ _).trans (dropWhile_suffix' _)
    have sq := sr.trans (List.suffix_cons '<' r)
    have hb : T.B ((List.dropWhile (fun x => decide (x ≠ '>')) (('<' :: r).drop 1)).drop 1) := by
      have h' := List.head?_dropWhile_not (fun x => decide (x ≠ '>')) r
      have ht : List.dropWhile (fun x => decide (x ≠ '>')) r <:+ full := (dropWhile_suffix' _).trans ((List.suffix_cons _ _).trans hp)
      simp only [List.drop_succ_cons, List.drop_zero]
      revert h' ht
      generalize List.dropWhile (fun x => decide (x ≠ '>')) r = w
      intro h' ht
      cases w with
      | nil => exact T.head (List.nil_suffix) fun c h => by cases h
      | cons c w =>
        obtain rfl : c = '>' := by simpa using h'
        exact T.after (by decide) ht
    refine ⟨by rw [PNode.erase]; rfl, rfl, e1, ?_, fun q' h' => by cases h'; exact ⟨sq, hb, T.mono j1 sq⟩⟩
    rw [PNode.all]
    exact Loc.single hp a1 ⟨r, rfl⟩ le_rfl (Nat.lt_succ_of_le sr.length_le)

/-- What is shown for reading a node. -/
def NodeRel (T : Tracker full H) (s : State) (p : Text) : PNode × Option Text × State → Node × Option Text × Bool → Prop
  | (n, o, s'), (n', o', b) =>
    n.erase = n' ∧ o = o' ∧ s'.error.isSome = (s.error.isSome || b) ∧ T.ErrOk s'.error ∧ T.Loc p.length (low o) n.all ∧
      ∀ q, o = some q → q <:+ p ∧ T.B q ∧ T.J q s'

/-- What is shown for reading the children of an element. -/
def ListRel (T : Tracker full H) (s : State) (p : Text) (hi : ℕ) :
    List PNode × Option Text × State → List Node × Option Text × Bool → Prop
  | (l, o, s'), (l', o', b) =>
    l.map PNode.erase = l' ∧ o = o' ∧ s'.error.isSome = (s.error.isSome || b) ∧ T.ErrOk s'.error ∧
      T.Loc hi (low o) (l.map PNode.all).flatten ∧ ∀ q, o = some q → q <:+ p ∧ T.J q s' ∧ (q = [] ∨ ['<', '/'] <+: q)

theorem ListRel.mono {s : State} {p q : Text} {hi : ℕ} {x : List PNode × Option Text × State}
    {y : List Node × Option Text × Bool} (h : T.ListRel s p hi x y) (hp : p <:+ q) : T.ListRel s q hi x y := by
  obtain ⟨l, o, t⟩ := x
  obtain ⟨l', o', b⟩ := y
  obtain ⟨h1, h2, h3, h4, h5, h6⟩ := h
  exact ⟨h1, h2, h3, h4, h5, fun r hr => ⟨(h6 r hr).1.trans hp, (h6 r hr).2⟩⟩

theorem element_found {r name : Text} {place : Cursor} {attrs : List (Text × Text)} {places : List Cursor} {children : List PNode}
    {mid lo : ℕ} (h0 : '<' :: r <:+ full) (h1 : T.At ('<' :: r) place ∧ (What.element name).Begins (T.E .utf8) ('<' :: r))
    (h2 : T.Loc r.length mid (attrPlaces attrs places)) (h3 : T.Loc mid lo (children.map PNode.all).flatten) :
    T.Loc ('<' :: r).length lo (PNode.element place name attrs places children).all := by
  rw [PNode.all_element]
  exact Loc.append (l := (place, .element name) :: attrPlaces attrs places)
    ⟨_, h0, h1.1, h1.2, le_rfl, r.length, Nat.lt_succ_self _, h2⟩ h3

theorem all_append (l : List PNode) (n : PNode) : ((l ++ [n]).map PNode.all).flatten = (l.map PNode.all).flatten ++ n.all := by
  simp

theorem after_end {w q : Text} {n : ℕ} (h : (w ++ ['>']).isPrefixOf q = true) (hq : q <:+ full) (hn : n = (w ++ ['>']).length) : T.B (q.drop n) := by
  obtain ⟨u, rfl⟩ := List.isPrefixOf_iff_prefix.1 h
  subst hn
  rw [List.drop_left]
  refine T.after (c := '>') (by decide) (List.IsSuffix.trans ?_ hq)
  exact ⟨w, by simp⟩

theorem nodes_sim {enc : Enc} (hE : T.E enc) : ∀ fuel,
    (∀ s r, T.J ('<' :: r) s → '<' :: r <:+ full → T.ErrOk s.error → isElement ('<' :: r) = true →
      Sim H (T.NodeRel s ('<' :: r)) (element enc fuel s ('<' :: r)) (parseElement enc fuel ('<' :: r))) ∧
    (∀ s p l, T.J p s → p <:+ full → T.B p → T.ErrOk s.error → (∀ c r, p = c :: r → isSpace c = false) →
      ∀ hi, T.Loc hi p.length (l.map PNode.all).flatten →
      Sim H (T.ListRel s p hi) (value enc fuel s p l) (readValue enc fuel p (l.map PNode.erase))) ∧
    (∀ s r, T.J ('<' :: r) s → '<' :: r <:+ full → T.ErrOk s.error →
      Sim H (T.NodeRel s ('<' :: r)) (node enc fuel s ('<' :: r)) (parseNode enc fuel ('<' :: r))) := by
  intro fuel
  induction fuel with
  | zero => exact ⟨fun _ _ _ _ _ _ => True.intro, fun _ _ _ _ _ _ _ _ _ _ => True.intro, fun _ _ _ _ _ => True.intro⟩
  | succ fuel ih =>
    obtain ⟨ihE, ihV, ihN⟩ := ih
    refine ⟨fun s r hJ hp he hel => ?_, fun s p l hJ hp hB he hh hi hl => ?_, fun s r hJ hp he => ?_⟩
    · have hcl := ok_lt (T := T) hp
      rw [element, parseElement]
      refine Sim.left (T.stamp hE hJ List.suffix_rfl hp hcl.1 hcl.2) fun s1 ⟨j1, a1, e1⟩ => ?_
      have he1 : T.ErrOk s1.error := by rw [e1]; exact he
      simp only [List.drop_succ_cons, List.drop_zero]
      cases h1 : skipWhiteSpace enc (some r) with
      | none => exact True.intro
      | some p1 =>
        have t1 := skipWhiteSpace_suffix h1
        have s1' := t1.trans (List.suffix_cons '<' r)
        have hc1 : T.Ok p1 := Ok.of_head (s1'.trans hp) (skip_head h1)
          (T.skip hE ((List.suffix_cons _ _).trans hp) (T.after (by decide) hp) h1)
        have hgap : ∃ gap, r = gap ++ p1 ∧
            (gap ≠ [] → T.E .utf8 ∧ Spec.Mark (gap.take 3) ∧ ∀ c ∈ gap, isSpace c = true ∨ 128 ≤ c.toNat) := by
          obtain ⟨_, d, rest, hd⟩ := isElement_cons hel
          obtain ⟨-, rfl⟩ := List.cons.inj hd
          have hsp : isSpace d = false := by
            have : isAlpha d = true ∨ d = '_' := by
              unfold isElement at hel
              simp only [Bool.and_eq_true, Bool.or_eq_true, decide_eq_true_eq, List.drop_succ_cons, List.drop_zero] at hel
              exact hel.2
            rcases this with h | rfl
            · unfold isAlpha isLetter at h
              unfold isSpace
              split_ifs at h with h'
              · simp only [Bool.and_eq_true, Bool.or_eq_true, decide_eq_true_eq] at h
                simp only [Bool.or_eq_false_iff, Bool.and_eq_false_iff, decide_eq_false_iff_not]
                omega
              · simp only [Bool.or_eq_false_iff, Bool.and_eq_false_iff, decide_eq_false_iff_not]
                omega
            · decide
          simp only [skipWhiteSpace, Option.some.injEq] at h1
          obtain ⟨gap, g1, g2⟩ := skipBody_gap enc (d :: rest)
          refine ⟨gap, by rw [g1, h1], fun hg => ?_⟩
          have h1' := h1
          unfold skipBody at h1'
          rw [h1] at g1
          have same : p1 = d :: rest → gap = [] := fun h => by
            rw [h] at g1
            exact List.append_left_eq_self.1 g1.symm
          split at h1'
          · cases ‹_ = []›
          · cases ‹_ = [_]›
            rw [hsp] at h1'
            exact absurd (same h1'.symm) hg
          · cases ‹_ = [_, _]›
            rw [hsp] at h1'
            exact absurd (same h1'.symm) hg
          · obtain ⟨rfl, rfl⟩ := List.cons.inj ‹_ = _ :: _ :: _ :: _›
            split_ifs at h1' with hm hs
            · simp only [Bool.and_eq_true, decide_eq_true_eq] at hm
              obtain ⟨rfl, hm⟩ := hm
              refine ⟨hE, ?_, g2⟩
              have hlen : 3 ≤ gap.length := by
                have h' : p1.length ≤ _ := h1' ▸ skipBody_length Enc.utf8 _
                have := congrArg List.length g1
                simp only [List.length_append, List.length_cons] at this
                omega
              obtain ⟨x, y, z, g, rfl⟩ : ∃ x y z g, gap = x :: y :: z :: g := by
                match gap, hlen with
                | x :: y :: z :: g, _ => exact ⟨x, y, z, g, rfl⟩
              simp only [List.cons_append, List.cons.injEq] at g1
              obtain ⟨rfl, rfl, rfl, -⟩ := g1
              simp only [isMark, Bool.and_eq_true, decide_eq_true_eq, Bool.or_eq_true] at hm
              simp only [List.take_succ_cons, List.take_zero, Spec.Mark, List.map_cons, List.map_nil, List.cons.injEq, and_true]
              omega
            · rw [hsp] at hs; cases hs
            · exact absurd (same h1'.symm) hg
        simp only
        cases hn : readName p1 with
        | none =>
          refine Sim.left (P := fun s' => s'.error.isSome = true ∧ T.ErrOk s'.error)
            (setError_some he1 (fun _ => j1) hp s1' hE hc1 (by simp)) fun s' h => ?_
          obtain ⟨gap, g1, g2⟩ := hgap
          exact ⟨by rw [PNode.erase_element]; rfl, rfl, by simp [h.1], h.2,
            element_found (mid := 0) hp ⟨a1, gap, p1, by simp [g1], g2⟩ (Nat.zero_le _) le_rfl, fun q h => by cases h⟩
        | some x =>
          obtain ⟨name, p2⟩ := x
          have t2 := (readName_suffix hn).1.trans t1
          have s2 := t2.trans (List.suffix_cons '<' r)
          have hsplit : p1 = name ++ p2 ∧ T.Ok p2 := by
            unfold readName at hn
            cases p1 with
            | nil => cases hn
            | cons c t =>
              simp only at hn
              split_ifs at hn
              obtain ⟨rfl, rfl⟩ := Prod.mk.inj (Option.some.inj hn)
              exact ⟨(List.takeWhile_append_dropWhile ..).symm,
                Ok.dropWhile nameChar_no_lineEnd nameChar_ascii (s1'.trans hp) hc1.1⟩
          have hfound : T.At ('<' :: r) s1.data.cursor ∧ (What.element name).Begins (T.E .utf8) ('<' :: r) := by
            obtain ⟨gap, g1, g2⟩ := hgap
            exact ⟨a1, gap, p2, by simp [g1, hsplit.1], g2⟩
          cases p2 with
          | nil =>
            refine Sim.left (P := fun s' => s'.error.isSome = true ∧ T.ErrOk s'.error)
              (setError_some he1 (fun _ => j1) hp s1' hE hc1 (by simp)) fun s' h => ?_
            exact ⟨by rw [PNode.erase_element]; rfl, rfl, by simp [h.1], h.2,
              element_found (mid := 0) hp hfound (Nat.zero_le _) le_rfl, fun q h => by cases h⟩
          | cons c2 r2 =>
            simp only
            refine Sim.bind (tag_sim (enc := enc) (hi := r.length) hE _ s1 (c2 :: r2) [] [] (T.mono j1 s2) (s2.trans hp) he1 hsplit.2
              ⟨rfl, t2.length_le⟩)
              fun a b hab => ?_
            obtain ⟨attrs, places, e, s3⟩ := a
            obtain ⟨attrs', te⟩ := b
            obtain ⟨rfl, g1, g2, g3⟩ := hab
            match e, te, g3 with
            | .failed, .failed b, g3 =>
              exact ⟨by rw [PNode.erase_element]; rfl, rfl, by rw [g3.1, e1], g1, element_found hp hfound g3.2 le_rfl,
                fun q h => by cases h⟩
            | .closed q, .closed q', g3 =>
              obtain ⟨rfl, g4, gB, g5, g6, g7⟩ := g3
              exact ⟨by rw [PNode.erase_element]; rfl, rfl, by rw [g6, e1]; simp, g1, element_found hp hfound g7 le_rfl,
                fun q h => by cases h; exact ⟨g4.trans s2, gB, g5⟩⟩
            | .opened q, .opened q', g3 =>
              obtain ⟨rfl, g4, gB, g5, g6, g7⟩ := g3
              simp only
              cases h3 : skipWhiteSpace enc (some q) with
              | none =>
                refine Sim.left (P := fun s' => s'.error.isSome = true ∧ T.ErrOk s'.error)
                  (Or.inr (setError_null (enc := enc) g1 (by simp))) fun s' h => ?_
                exact ⟨by rw [PNode.erase_element]; rfl, rfl, by simp [h.1], h.2, element_found hp hfound g7 (Nat.zero_le _),
                  fun q h => by cases h⟩
              | some p3 =>
                have s3' := (skipWhiteSpace_suffix h3)
                refine Sim.bind (ihV s3 p3 [] (T.mono g5 s3') (s3'.trans (g4.trans (s2.trans hp)))
                  (T.skip hE (g4.trans (s2.trans hp)) gB h3) g1 (skip_head h3) q.length
                  s3'.length_le) fun a b hab => ?_
                have hab := hab.mono (s3'.trans (g4.trans s2))
                obtain ⟨l, o, t⟩ := a
                obtain ⟨l', o', b⟩ := b
                obtain ⟨rfl, rfl, k3, k4, k5, k6⟩ := hab
                rw [g6, e1] at k3
                have hall := element_found hp hfound g7 k5
                match o, k6, hall with
                | none, k6, hall =>
                  exact ⟨by rw [PNode.erase_element], rfl, k3, k4, hall, fun q h => by cases h⟩
                | some [], k6, hall =>
                  exact ⟨by rw [PNode.erase_element], rfl, k3, k4, hall, fun q h => by cases h⟩
                | some (c :: q), k6, hall =>
                  obtain ⟨m1, m2, m3⟩ := k6 _ rfl
                  have m3 : ['<', '/'] <+: c :: q := m3.resolve_left (by simp)
                  simp only
                  split_ifs with hend
                  · have sd := (List.drop_suffix ('<' :: '/' :: name ++ ['>']).length (c :: q))
                    exact ⟨by rw [PNode.erase_element], rfl, k3, k4, hall.mono le_rfl sd.length_le,
                      fun q h => by cases h; exact ⟨sd.trans m1, after_end hend (m1.trans hp) rfl, T.mono m2 sd⟩⟩
                  · refine Sim.left (P := fun s' => s'.error.isSome = true ∧ T.ErrOk s'.error)
                      (setError_some k4 (fun _ => m2) (m1.trans hp) List.suffix_rfl hE ?_ fun _ => m3) fun s' h => ?_
                    · obtain ⟨u, hu⟩ := m3
                      obtain ⟨rfl, -⟩ := List.cons.inj hu
                      exact ok_lt (m1.trans hp)
                    · exact ⟨by rw [PNode.erase_element], rfl, by simp [h.1], h.2, hall.mono le_rfl (Nat.zero_le _), fun q h => by cases h⟩
    · cases p with
      | nil =>
        rw [value, readValue]
        exact ⟨rfl, rfl, by simp, he, hl, fun q h => by cases h; exact ⟨List.suffix_rfl, hJ, Or.inl rfl⟩⟩
      | cons c rest =>
        rw [value, readValue]
        have hcl : T.Ok (c :: rest) := Ok.of_head hp hh hB
        by_cases h1 : c = '<'
        · subst h1
          simp only [ne_eq, not_true_eq_false, if_false]
          split_ifs with h2
          · exact ⟨rfl, rfl, by simp, he, hl, fun q h => by
              cases h; exact ⟨List.suffix_rfl, hJ, Or.inr (List.isPrefixOf_iff_prefix.1 h2)⟩⟩
          · refine Sim.bind (ihN s rest hJ hp he) fun a b hab => ?_
            obtain ⟨n, o, t⟩ := a
            obtain ⟨n', o', b⟩ := b
            obtain ⟨rfl, rfl, k3, k4, k5, k6⟩ := hab
            have hl' : T.Loc hi (low o) ((l ++ [n]).map PNode.all).flatten := by
              rw [all_append]; exact hl.append k5
            have hmap : l.map PNode.erase ++ [n.erase] = (l ++ [n]).map PNode.erase := by simp
            simp only [hmap]
            cases h3 : skipWhiteSpace enc o with
            | none =>
              refine Sim.left (P := fun s' => s'.error.isSome = true ∧ T.ErrOk s'.error)
                (Or.inr (setError_null (enc := enc) k4 (by simp))) fun s' h => ?_
              exact ⟨rfl, rfl, by simp [h.1], h.2, hl'.mono le_rfl (Nat.zero_le _), fun q h => by cases h⟩
            | some p' =>
              cases o with
              | none => cases h3
              | some q =>
                obtain ⟨m1, mB, m2⟩ := k6 q rfl
                have s3 := skipWhiteSpace_suffix h3
                have g := ihV t p' (l ++ [n]) (T.mono m2 s3) (s3.trans (m1.trans hp)) (T.skip hE (m1.trans hp) mB h3) k4 (skip_head h3) hi
                  (hl'.mono le_rfl s3.length_le)
                simp only
                revert g
                generalize value enc fuel t p' (l ++ [n]) = A
                generalize readValue enc fuel p' ((l ++ [n]).map PNode.erase) = B
                intro g
                match A, B, g with
                | .ok a, .ok b', g =>
                  have g := g.mono (s3.trans m1)
                  obtain ⟨l2, o2, t2⟩ := a
                  obtain ⟨l2', o2', b2⟩ := b'
                  obtain ⟨u1, u2, u3, u4⟩ := g
                  exact ⟨u1, u2, by rw [u3, k3, Bool.or_assoc], u4⟩
                | .ub, .ub, _ => exact True.intro
                | .assertFailed, .assertFailed, _ => exact True.intro
                | .endless, .endless, _ => exact True.intro
                | .endless, .ok b, h => exact h
                | .endless, .ub, h => exact h
                | .endless, .assertFailed, h => exact h
        · rw [if_pos h1, if_pos h1]
          refine Sim.left (T.stamp hE hJ List.suffix_rfl hp hcl.1 hcl.2) fun s1 ⟨j1, a1, e1⟩ => ?_
          have he1 : T.ErrOk s1.error := by rw [e1]; exact he
          refine Sim.bind (R := fun a b => a = b ∧ a.2 <:+ c :: rest ∧ a.2.length < (c :: rest).length ∧ T.B a.2) ?_ fun a b h => ?_
          · have g := readTrim_good enc ['<'] (rest.length + 1) false (c :: rest) [] (by simp)
            cases hq : readTrim enc ['<'] (rest.length + 1) false (c :: rest) [] with
            | ok x =>
              rw [hq] at g
              refine ⟨rfl, g.1, ?_, T.head (g.1.trans hp) fun x' hx => ?_⟩
              rotate_left
              · rcases g.2 with hq | ⟨u, hq⟩
                · have hq : x.2 = [] := hq
                  rw [hq] at hx; cases hx
                · rw [← hq] at hx
                  cases hx; decide
              rcases Nat.lt_or_ge x.2.length (c :: rest).length with h | h
              · exact h
              · have hh : x.2 = c :: rest := g.1.eq_of_length_le h
                rcases g.2 with hq | hq
                · have hq : x.2 = [] := hq
                  rw [hq] at hh; cases hh
                · simp only [hh, List.cons_prefix_cons] at hq
                  exact absurd hq.1.symm h1
            | ub => exact True.intro
            | assertFailed => exact True.intro
            | endless => exact True.intro
          · obtain ⟨rfl, hs, hlt, hb⟩ := h
            obtain ⟨v, q⟩ := a
            simp only at hs hlt hb ⊢
            have hmap : (if blank v then l.map PNode.erase else l.map PNode.erase ++ [Node.text v])
                = (if blank v then l else l ++ [PNode.text s1.data.cursor v]).map PNode.erase := by
              split_ifs
              · rfl
              · simp [PNode.erase]
            have hl' : T.Loc hi q.length ((if blank v then l else l ++ [PNode.text s1.data.cursor v]).map PNode.all).flatten := by
              split_ifs
              · exact hl.mono le_rfl hs.length_le
              · rw [all_append, PNode.all]
                exact hl.append (Loc.single hp a1 ⟨c, rest, rfl, h1, hh c rest rfl⟩ le_rfl hlt)
            rw [hmap]
            generalize (if blank v then l else l ++ [PNode.text s1.data.cursor v]) = L at hl'
            cases h3 : skipWhiteSpace enc (some q) with
            | none =>
              refine Sim.left (P := fun s' => s'.error.isSome = true ∧ T.ErrOk s'.error)
                (Or.inr (setError_null (enc := enc) he1 (by simp))) fun s' h => ?_
              exact ⟨rfl, rfl, by simp [h.1], h.2, hl'.mono le_rfl (Nat.zero_le _), fun q h => by cases h⟩
            | some p' =>
              have t3 := skipWhiteSpace_suffix h3
              have s3 := t3.trans hs
              refine Sim.mono (ihV s1 p' L (T.mono j1 s3) (s3.trans hp) (T.skip hE (hs.trans hp) hb h3) he1 (skip_head h3) hi (hl'.mono le_rfl t3.length_le)) fun a b h => ?_
              have h := h.mono s3
              obtain ⟨l2, o2, t2⟩ := a
              obtain ⟨l2', o2', b2⟩ := b
              obtain ⟨u1, u2, u3, u4⟩ := h
              exact ⟨u1, u2, by rw [u3, e1], u4⟩
    · rw [node, parseNode]
      split_ifs with hel
      · exact ihE s r hJ hp he hel
      · have g := other_sim (enc := enc) hJ hp he hE
        revert g
        generalize other enc s ('<' :: r) = A
        generalize parseOther enc ('<' :: r) = B
        intro g
        match A, B, g with
        | .ok a, .ok b', g =>
          obtain ⟨n, o2, t2⟩ := a
          obtain ⟨n', o2'⟩ := b'
          obtain ⟨u1, u2, u3, u4, u5⟩ := g
          exact ⟨u1, u2, by rw [u3]; simp, by rw [u3]; exact he, u4, u5⟩
        | .ub, .ub, _ => exact True.intro
        | .assertFailed, .assertFailed, _ => exact True.intro
        | .endless, .endless, _ => exact True.intro
        | .endless, .ok b, h => exact h
        | .endless, .ub, h => exact h
        | .endless, .assertFailed, h => exact h

theorem encodingAfter_erase (enc : Enc) (n : PNode) : encodingAfter enc n = nextEncoding enc n.erase := by
  cases n with
  | element => rw [PNode.erase_element]; rfl
  | _ => rw [PNode.erase]; rfl

/-- What is shown for the nodes of a document. -/
def DocRel (T : Tracker full H) (s : State) (hi : ℕ) : List PNode × State → List Node × Bool → Prop
  | (l, s'), (l', b) =>
    l.map PNode.erase = l' ∧ s'.error.isSome = (s.error.isSome || b) ∧ T.ErrOk s'.error ∧ T.Loc hi 0 (l.map PNode.all).flatten

theorem list_sim {hi : ℕ} (hE : ∀ enc, T.E enc) : ∀ (fuel : ℕ) (enc : Enc) (s : State) (p : Text) (l : List PNode), T.J p s → p <:+ full → T.ErrOk s.error →
    T.Loc hi p.length (l.map PNode.all).flatten →
    Sim H (T.DocRel s hi) (nodes fuel enc s p l) (parseNodes fuel enc p (l.map PNode.erase)) := by
  intro fuel
  induction fuel with
  | zero =>
    intro enc s p l hJ hp he hl
    cases p with
    | nil => exact ⟨rfl, by simp, he, hl.mono le_rfl (Nat.zero_le _)⟩
    | cons c r => exact True.intro
  | succ fuel ih =>
    intro enc s p l hJ hp he hl
    cases p with
    | nil => exact ⟨rfl, by simp, he, hl.mono le_rfl (Nat.zero_le _)⟩
    | cons c r =>
      rw [nodes, parseNodes]
      by_cases hc : c = '<'
      · subst hc
        simp only [ne_eq, not_true_eq_false, if_false]
        refine Sim.bind ((nodes_sim (hE enc) _).2.2 s r hJ hp he) fun a b hab => ?_
        obtain ⟨n, o, t⟩ := a
        obtain ⟨n', o', b⟩ := b
        obtain ⟨rfl, rfl, k3, k4, k5, k6⟩ := hab
        have hl' : T.Loc hi (low o) ((l ++ [n]).map PNode.all).flatten := by
          rw [all_append]; exact hl.append k5
        have hmap : l.map PNode.erase ++ [n.erase] = (l ++ [n]).map PNode.erase := by simp
        simp only [hmap, encodingAfter_erase]
        cases h3 : skipWhiteSpace (nextEncoding enc n.erase) o with
        | none => exact ⟨rfl, k3, k4, hl'.mono le_rfl (Nat.zero_le _)⟩
        | some p' =>
          cases o with
          | none => cases h3
          | some q =>
            obtain ⟨m1, mB, m2⟩ := k6 q rfl
            have s3 := skipWhiteSpace_suffix h3
            have g := ih (nextEncoding enc n.erase) t p' (l ++ [n]) (T.mono m2 s3) (s3.trans (m1.trans hp)) k4
              (hl'.mono le_rfl s3.length_le)
            simp only
            revert g
            generalize nodes fuel _ t p' (l ++ [n]) = A
            generalize parseNodes fuel _ p' ((l ++ [n]).map PNode.erase) = B
            intro g
            match A, B, g with
            | .ok a, .ok b', g =>
              obtain ⟨l2, t2⟩ := a
              obtain ⟨l2', b2⟩ := b'
              obtain ⟨u1, u3, u4⟩ := g
              exact ⟨u1, by rw [u3, k3, Bool.or_assoc], u4⟩
            | .ub, .ub, _ => exact True.intro
            | .assertFailed, .assertFailed, _ => exact True.intro
            | .endless, .endless, _ => exact True.intro
            | .endless, .ok b, h => exact h
            | .endless, .ub, h => exact h
            | .endless, .assertFailed, h => exact h
      · rw [if_pos hc, if_pos hc]
        exact ⟨rfl, by simp, he, hl.mono le_rfl (Nat.zero_le _)⟩

/-- What is shown for loading. -/
def LoadRel (T : Tracker full H) : Bool × List PNode × Option (ErrorId × Cursor) → Bool × List Node → Prop
  | (b, l, e), (b', l') => b = b' ∧ l.map PNode.erase = l' ∧ T.ErrOk e ∧ T.Loc full.length 0 (l.map PNode.all).flatten

theorem load_sim (hE : ∀ enc, T.E enc) (hJ : T.J full ⟨start full 4, none⟩) : Sim H T.LoadRel (load full) (loadFile full) := by
  unfold load loadFile
  by_cases hf : full = []
  · rw [if_pos hf, if_pos hf]
    exact ⟨rfl, rfl, ErrOk.none, Nat.zero_le _⟩
  rw [if_neg hf, if_neg hf]
  have key : Sim H (T.DocRel ⟨start full 4, none⟩ full.length) (document 4 full) (parseDocument full) := by
    obtain ⟨c, r, rfl⟩ := List.exists_cons_of_ne_nil hf
    unfold document parseDocument
    simp only
    cases h1 : skipWhiteSpace (startEncoding (c :: r)) (some (c :: r)) with
        | none => rw [skipWhiteSpace_none] at h1; exact absurd h1 hf
        | some q =>
          have sq := skipWhiteSpace_suffix h1
          refine Sim.bind (list_sim (T := T) (hi := (c :: r).length) hE _ _ _ q [] (T.mono hJ sq) sq ErrOk.none sq.length_le) fun a b hab => ?_
          obtain ⟨l, t⟩ := a
          obtain ⟨l', b⟩ := b
          obtain ⟨rfl, h2, h3, h4⟩ := hab
          simp only
          cases l with
          | nil =>
            rw [if_pos (by rfl)]
            refine Sim.left (P := fun s' => s'.error.isSome = true ∧ T.ErrOk s'.error)
              (Or.inr (setError_null (enc := .unknown) h3 (by simp))) fun s' h => ?_
            exact ⟨rfl, by simp [h.1], h.2, Nat.zero_le _⟩
          | cons n l =>
            rw [if_neg (by simp)]
            exact ⟨rfl, by rw [h2]; simp, h3, h4⟩
  revert key
  generalize document 4 full = A
  generalize parseDocument full = B
  intro g
  match A, B, g with
  | .ok a, .ok b', g =>
    obtain ⟨l, t⟩ := a
    obtain ⟨l', b⟩ := b'
    obtain ⟨u1, u2, u3, u4⟩ := g
    have u2 : t.error.isSome = (false || b) := u2
    refine ⟨?_, u1, u3, u4⟩
    rw [Bool.false_or] at u2
    rw [← u2]
    cases t.error <;> rfl
  | .ub, .ub, _ => exact True.intro
  | .assertFailed, .assertFailed, _ => exact True.intro
  | .endless, .endless, _ => exact True.intro
  | .endless, .ok b, h => exact h
  | .endless, .ub, h => exact h
  | .endless, .assertFailed, h => exact h

end Tracker
end Gear.Xml.Place
