/-
C57, C135: documents are saved and loaded.
-/
import Verif.XmlSaveRender
import Verif.XmlSaveLoaded

set_option autoImplicit false
set_option linter.unusedSectionVars false

namespace Gear.Xml.Save

open Grammar Spec

/-! ### C57: saving and loading -/

/-- How files are written. -/
def fileStyle : Style where
  sep d n := '\n' :: (match n with | .declaration .. => [] | _ => indent d)
  close d := '\n' :: indent d
  decl := printDeclaration

theorem space_of {c : Char} (h : isSpace c = true) : Space c := space_iff.1 h

theorem indent_spaces (d : ℕ) : ∀ c ∈ indent d, Space c := fun c hc => space_of (indent_space d c hc)

theorem newline_spaces {t : Text} (h : ∀ c ∈ t, Space c) : ∀ c ∈ '\n' :: t, Space c := by
  intro c hc
  rcases List.mem_cons.1 hc with rfl | hc
  · unfold Space; decide
  · exact h c hc

theorem printDeclaration_eq (v e s : Text) : printDeclaration v e s
    = "<?xml ".toList ++ written id "version".toList v ++ written id "encoding".toList e ++ written id "standalone".toList s ++ "?>".toList := by
  rfl

theorem fileStyle_good (enc : Enc) : fileStyle.Good enc PlainField where
  sep d n := newline_spaces (by cases n <;> first | exact indent_spaces d | simp)
  close d := newline_spaces (indent_spaces d)
  decl v e s h q := by
    have := declaration_written (enc := enc) (val := id) (v := v) (e := e) (s := s) (fun x hx r => upto_quoted (h x hx).1.1 (h x hx).1.2 (h x hx).2 r) q
    rw [← printDeclaration_eq] at this
    exact this
  first v e s := ⟨_, by
    change printDeclaration v e s = _
    rw [printDeclaration_eq]; rfl⟩

mutual
theorem print_out : ∀ (n : Node) (d : ℕ), n.print d = (match n with | .declaration .. => [] | .text _ => [] | _ => indent d) ++ fileStyle.out d n
  | .element name attrs children, d => by
    rw [Node.print, Style.out, printList_out children (d + 1)]
    by_cases hc : children.isEmpty <;> simp [hc, fileStyle]
  | .comment v, d => by rw [Node.print, Style.out]; simp
  | .unknown v, d => by rw [Node.print, Style.out]; simp
  | .text v, d => by rw [Node.print, Style.out]; simp
  | .declaration v e s, d => by rw [Node.print, Style.out]; rfl
theorem printList_out : ∀ (ns : List Node) (d : ℕ), Node.printList d ns = fileStyle.outList d ns
  | [], d => by rw [Node.printList, Style.outList]
  | n :: ns, d => by
    rw [Node.printList, Style.outList, print_out n d, printList_out ns d]
    cases n <;> simp [Node.isText, fileStyle]
end

theorem print_top {n : Node} (h : n.isText = false) : n.print 0 = fileStyle.out 0 n := by
  rw [print_out]
  cases n <;> first | rfl | simp [Node.isText] at h

theorem nodes_print : ∀ (doc : List Node) (enc : Enc), DocumentSurvives PlainField enc doc → Nodes enc (printDocument doc) doc
  | [], enc, _ => .end enc
  | n :: ns, enc, h => by
    rw [DocumentSurvives] at h
    obtain ⟨h1, h2, enc', h3, h4⟩ := h
    rw [printDocument, print_top h1]
    refine .node enc _ n _ enc' (printDocument ns) ns (complete_out (fileStyle_good enc) n h1 h2 0 _) h3 ?_ (nodes_print ns enc' h4)
    cases ns with
    | nil => exact gap_end (ws := ['\n']) (newline_spaces (by simp)) (by simp)
    | cons m ms =>
      rw [DocumentSurvives] at h4
      obtain ⟨t, ht, -⟩ := out_first (fileStyle_good enc') h4.1 h4.2.1 0
      rw [printDocument, print_top h4.1, ht]
      exact gap_spaces (ws := ['\n']) (newline_spaces (by simp)) (gap_lt _)

/-- A document whose nodes survive in their encodings is saved and loaded unchanged. -/
theorem save_load_partial (doc : List Node) (hne : doc ≠ []) (h : DocumentSurvives PlainField .unknown doc) :
    loadFile (printDocument doc) = .ok (true, doc) := by
  rw [load_iff]
  obtain ⟨n, ns, rfl⟩ := List.exists_cons_of_ne_nil hne
  have hn := nodes_print _ _ h
  rw [DocumentSurvives] at h
  obtain ⟨t, ht, -⟩ := out_first (fileStyle_good .unknown) h.1 h.2.1 0
  have e : printDocument (n :: ns) = '<' :: (t ++ '\n' :: printDocument ns) := by
    rw [printDocument, print_top h.1, ht]; rfl
  refine ⟨.unknown, printDocument (n :: ns), ?_, ?_, hn, hne⟩
  · rw [e]; exact first_lt _
  · rw [e]; exact gap_lt _

theorem signs_ascii {v : Text} (h : ∀ c ∈ v, c.toNat < 0x80) : Signs v := by
  rintro a c b rfl
  refine ⟨[], b, rfl, ?_, by simp⟩
  rw [width_low]
  · rfl
  · have := h c (by simp); omega

theorem noMark_ascii {v : Text} (h : ∀ c ∈ v, c.toNat < 0x80) : NoMark v := by
  rintro m hM ⟨t, rfl⟩
  obtain ⟨a, b, c, rfl⟩ := mark_cons hM
  have := h a (by simp)
  simp only [Grammar.Mark, List.map_cons, List.map_nil, List.cons.injEq, and_true] at hM
  omega

/-- A document in UTF-8: a declaration and an element with a text of two characters, of two bytes and of one byte. -/
def sample8 : List Node :=
  [.declaration "1.0".toList "UTF-8".toList [], .element ['a'] [(['b'], ['\xe2', '\x82', '\xac'])] [.text ['\xc3', '\xa9', '<'], .comment ['x']]]

theorem sample8_survives {field : Text → Prop} (hf : field "1.0".toList ∧ field "UTF-8".toList ∧ field []) : DocumentSurvives field .unknown sample8 := by
  refine ⟨rfl, ?_, .utf8, .utf8 _ _ _ (Or.inr (Or.inl (by unfold Begins; decide))), rfl, ?_, .utf8, .settled _ _ (by decide), trivial⟩
  · rw [Survives]
    intro x hx
    simp only [List.mem_cons, List.not_mem_nil, or_false] at hx
    rcases hx with rfl | rfl | rfl
    · exact ⟨hf.1, nofun⟩
    · exact ⟨hf.2.1, nofun⟩
    · exact ⟨hf.2.2, nofun⟩
  · rw [Survives]
    refine ⟨by decide, fun _ => noMark_ascii (by decide), ?_, by decide, ⟨?_, ?_, trivial⟩, by simp [NoTwoTexts], by simp⟩
    · intro a ha
      rw [List.mem_singleton.1 ha]
      exact ⟨by decide, fun _ => noMark_ascii (by decide), by decide, fun _ => Signs.cons (s := ['\x82', '\xac']) (t := []) (by decide) (by decide) (signs_ascii (by simp))⟩
    · rw [Survives]
      refine ⟨⟨by simp, ?_, by decide, '<', by simp, by unfold Space; decide⟩, by decide, fun _ => ⟨Signs.cons (s := ['\xa9']) (t := ['<']) (by decide) (by decide)
        (signs_ascii (by decide)), ?_⟩⟩
      · intro t ht
        have := congrArg List.getLast? ht
        rw [List.getLast?_append_of_ne_nil _ (by simp)] at this
        revert this; decide
      · rintro m hM ⟨t, ht⟩
        obtain ⟨a, b, c, rfl⟩ := mark_cons hM
        simp only [List.cons_append, List.nil_append, List.cons.injEq] at ht
        obtain ⟨rfl, rfl, rfl, -⟩ := ht
        revert hM
        unfold Grammar.Mark
        decide
    · rw [Survives]
      exact ⟨by decide, by decide, fun _ => signs_ascii (by decide)⟩

example : loadFile (printDocument sample8) = .ok (true, sample8) := save_load_partial _ (by simp [sample8]) (sample8_survives (by unfold PlainField; decide))

/-- In UTF-8 a text that begins with a byte order mark loses it. -/
theorem mark_false : loadFile (printDocument [.declaration "1.0".toList "UTF-8".toList [], .element ['a'] [] [.text ['\xef', '\xbb', '\xbf', 'x']]])
    = .ok (true, [.declaration "1.0".toList "UTF-8".toList [], .element ['a'] [] [.text ['x']]]) := by
  decide +kernel

/-- In UTF-8 an incomplete character takes what follows with it. -/
theorem incomplete_false : loadFile (printDocument [.declaration "1.0".toList "UTF-8".toList [], .element ['a'] [] [.text ['\xc3', '<', 'x']]])
    = .ok (true, [.declaration "1.0".toList "UTF-8".toList [], .element ['a'] [] [.text ['\xc3', '&', 'l', 't', ';', 'x']]]) := by
  decide +kernel

/-- The fields of declarations are not escaped. -/
theorem declaration_false : loadFile (printDocument [.declaration "1\"0".toList [] [], .element ['a'] [] []])
    = .ok (true, [.declaration ['1'] [] [], .element ['a'] [] []]) := by
  decide +kernel

/-! ### C135: loading, saving and loading again -/

variable {u u' : Prop} {f : Text → Prop}

mutual
theorem Survives.mono (hu : u' → u) : ∀ n : Node, Survives u f n → Survives u' f n
  | .element name attrs children, h => by
    rw [Survives] at h ⊢
    obtain ⟨h1, h2, h3, h4, h5, h6, h7⟩ := h
    exact ⟨h1, fun h => h2 (hu h), fun a ha => ⟨(h3 a ha).1, fun h => (h3 a ha).2.1 (hu h), (h3 a ha).2.2.1, fun h => (h3 a ha).2.2.2 (hu h)⟩, h4,
      AllSurvive.mono hu children h5, h6, h7⟩
  | .text v, h => by
    rw [Survives] at h ⊢
    exact ⟨h.1, h.2.1, fun x => h.2.2 (hu x)⟩
  | .comment v, h => by
    rw [Survives] at h ⊢
    exact ⟨h.1, h.2.1, fun x => h.2.2 (hu x)⟩
  | .unknown v, h => by rw [Survives] at h ⊢; exact h
  | .declaration v e s, h => by
    rw [Survives] at h ⊢
    exact fun x hx => ⟨(h x hx).1, fun y => (h x hx).2 (hu y)⟩
theorem AllSurvive.mono (hu : u' → u) : ∀ ns : List Node, AllSurvive u f ns → AllSurvive u' f ns
  | [], _ => trivial
  | n :: ns, h => ⟨Survives.mono hu n h.1, AllSurvive.mono hu ns h.2⟩
end

mutual
theorem Loaded.survives {A : Prop} : ∀ n : Node, Loaded A u n → NoQuotes n → (A → Unescaped n) → Survives u PlainField n
  | .element name attrs children, h, hq, hA => by
    rw [Loaded] at h
    rw [Survives]
    rw [NoQuotes] at hq
    rw [Unescaped] at hA
    obtain ⟨h1, h2, h3, h4, h5, h6, h7⟩ := h
    exact ⟨h1, h2, h3, h4, AllLoaded.survive children h5 hq hA, h6, h7⟩
  | .text v, h, _, _ => by rw [Loaded] at h; rw [Survives]; exact h
  | .comment v, h, _, hA => by
    rw [Loaded] at h
    rw [Survives]
    rw [Unescaped] at hA
    have := h.1.elim hA id
    exact ⟨this.1, this.2, h.2⟩
  | .unknown v, h, _, _ => by rw [Loaded] at h; rw [Survives]; exact h
  | .declaration v e s, h, hq, hA => by
    rw [Loaded] at h
    rw [Survives]
    rw [NoQuotes] at hq
    rw [Unescaped] at hA
    intro x hx
    refine ⟨⟨?_, (h x hx).1.elim (fun hA' => ?_) id⟩, (h x hx).2⟩
    · simp only [List.mem_cons, List.not_mem_nil, or_false] at hx
      rcases hx with rfl | rfl | rfl
      · exact hq.1
      · exact hq.2.1
      · exact hq.2.2
    · simp only [List.mem_cons, List.not_mem_nil, or_false] at hx
      rcases hx with rfl | rfl | rfl
      · exact (hA hA').1
      · exact (hA hA').2.1
      · exact (hA hA').2.2
theorem AllLoaded.survive {A : Prop} : ∀ ns : List Node, AllLoaded A u ns → AllNoQuotes ns → (A → AllUnescaped ns) → AllSurvive u PlainField ns
  | [], _, _, _ => trivial
  | n :: ns, h, hq, hA => ⟨Loaded.survives n h.1 hq.1 fun x => (hA x).1, AllLoaded.survive ns h.2 hq.2 fun x => (hA x).2⟩
end

variable {A : Prop}

theorem complete_survives {enc : Enc} {p : Text} {n : Node} {q : Text} (h : Complete enc p n q) (hf : Fine A enc p) :
    Loaded A (enc = .utf8) n ∧ n.isText = false := by
  cases h with
  | other _ _ ho => exact ⟨(other_survives ho hf).1, (other_survives ho hf).2.1⟩
  | empty _ _ _ hs => exact ⟨survives_element (startTag_fine hs hf) ⟨trivial, trivial, by simp⟩, rfl⟩
  | element _ _ _ p₂ _ _ hs hg hc =>
    refine ⟨survives_element (startTag_fine hs hf) (content_survives hc ((hf.suffix hs.suffix).suffix hg.suffix) ?_).1, rfl⟩
    by_cases hp : p₂ = []
    · exact Or.inl hp
    · exact Or.inr (hg.again hp)

theorem complete_suffix {enc : Enc} {p : Text} {n : Node} {q : Text} (h : Complete enc p n q) : q <:+ p := by
  cases h with
  | other _ _ ho => exact ho.suffix
  | empty _ _ _ hs => exact hs.suffix
  | element name _ _ _ _ _ hs hg hc =>
    have : q <:+ '<' :: '/' :: name ++ '>' :: q := ⟨'<' :: '/' :: name ++ ['>'], by simp⟩
    exact this.trans (hc.isSuffix.trans (hg.suffix.trans hs.suffix))

/-- How the encoding of the saved file is related to that of the file loaded. -/
def Weaker (enc enc' : Enc) : Prop := (enc' = .utf8 → enc = .utf8) ∧ (enc' = .unknown → enc ≠ .legacy)

theorem encoding_exists (enc : Enc) (n : Node) : ∃ enc', Encoding enc n enc' := ⟨_, encoding_iff.1 rfl⟩

theorem weaker_next {enc enc' e e' : Enc} {n : Node} (h : Weaker enc enc') (h1 : Encoding enc n e) (h2 : Encoding enc' n e') : Weaker e e' := by
  cases enc' with
  | unknown =>
    cases enc with
    | unknown => rw [Encoding.unique h1 h2]; exact ⟨id, by rintro rfl; simp⟩
    | utf8 =>
      have : e = .utf8 := Encoding.unique h1 (.settled _ _ (by simp))
      rw [this]; exact ⟨fun _ => rfl, fun _ => by simp⟩
    | legacy => exact absurd rfl (h.2 rfl)
  | utf8 =>
    have : e = .utf8 := by
      rw [h.1 rfl] at h1
      exact Encoding.unique h1 (.settled _ _ (by simp))
    rw [this]; exact ⟨fun _ => rfl, fun _ => by simp⟩
  | legacy =>
    have : e' = .legacy := Encoding.unique h2 (.settled _ _ (by simp))
    rw [this]; exact ⟨by simp, by simp⟩

theorem documentSurvives_one {enc enc' : Enc} {n : Node} (hw : Weaker enc enc') (h : Loaded A (enc = .utf8) n ∧ n.isText = false)
    (hq : NoQuotes n) (hA : A → Unescaped n) : DocumentSurvives PlainField enc' [n] := by
  obtain ⟨e, he⟩ := encoding_exists enc' n
  exact ⟨h.2, Survives.mono hw.1 n (Loaded.survives n h.1 hq hA), e, he, trivial⟩

/-- Whether a declaration among the nodes says UTF-8. -/
def Declares (ns : List Node) : Prop :=
  ∃ v e s, .declaration v e s ∈ ns ∧ (e = [] ∨ Begins "utf-8".toList e ∨ Begins "utf8".toList e)

theorem nodes_survive {enc : Enc} {p : Text} {ns : List Node} (h : Nodes enc p ns) : ∀ enc', Weaker enc enc' → (A ∨ '&' ∉ p) → References p →
    (enc = .utf8 ∨ Declares ns → Signs p) → AllNoQuotes ns → (A → AllUnescaped ns) → DocumentSurvives PlainField enc' ns := by
  induction h with
  | «end» => exact fun _ _ _ _ _ _ _ => trivial
  | rest => exact fun _ _ _ _ _ _ _ => trivial
  | node enc p n p₁ e p₂ ns hc he hg _ ih =>
    intro enc' hw ha hr hs hq hA
    have hn := complete_survives (A := A) hc ⟨ha, hr, fun h => hs (Or.inl h)⟩
    obtain ⟨e', he'⟩ := encoding_exists enc' n
    have hsuf : p₂ <:+ p := hg.suffix.trans (complete_suffix hc)
    refine ⟨hn.2, Survives.mono hw.1 n (Loaded.survives n hn.1 hq.1 fun x => (hA x).1), e', he',
      ih e' (weaker_next hw he he') (ha.imp_right fun hn hm => hn (hsuf.mem hm)) (hr.suffix hsuf) ?_ hq.2 fun x => (hA x).2⟩
    intro h
    obtain ⟨a, rfl⟩ := hsuf
    refine (hs ?_).suffix
    rcases h with rfl | ⟨v, x, s, hm, hx⟩
    · cases he with
      | settled => exact Or.inl rfl
      | utf8 v x s hx => exact Or.inr ⟨v, x, s, by simp, hx⟩
    · exact Or.inr ⟨v, x, s, by simp [hm], hx⟩
  | last enc p n hc =>
    intro enc' hw ha hr hs hq hA
    exact documentSurvives_one hw (complete_survives hc ⟨ha, hr, fun h => hs (Or.inl h)⟩) hq.1 fun x => (hA x).1
  | unclosed enc p name attrs p₁ p₂ children hst hg hc =>
    intro enc' hw ha hr hs hq hA
    have hf : Fine A enc p := ⟨ha, hr, fun h => hs (Or.inl h)⟩
    refine documentSurvives_one (A := A) hw ⟨survives_element (startTag_fine hst hf)
      (content_survives hc ((hf.suffix hst.suffix).suffix hg.suffix) ?_).1, rfl⟩ hq.1 fun x => (hA x).1
    by_cases hp : p₂ = []
    · exact Or.inl hp
    · exact Or.inr (hg.again hp)
  | repeated enc p name p₁ attrs hst hr =>
    intro enc' hw ha hre hs hq hA
    have hf : Fine A enc p := ⟨ha, hre, fun h => hs (Or.inl h)⟩
    have := repeats_fine hr (hf.suffix hst.suffix) (by simp) (by simp)
    exact documentSurvives_one (A := A) hw ⟨survives_element ⟨(start_fine hst).1, (start_fine hst).2, this⟩ ⟨trivial, trivial, by simp⟩, rfl⟩ hq.1
      fun x => (hA x).1
  | declaration enc p n ho =>
    intro enc' hw ha hr hs hq hA
    have hf : Fine A enc p := ⟨ha, hr, fun h => hs (Or.inl h)⟩
    exact documentSurvives_one hw ⟨(other_survives ho hf).1, (other_survives ho hf).2.1⟩ hq.1 fun x => (hA x).1

/-- What is loaded from a file in which every ampersand begins one of the five entities is saved and loaded again unchanged, if no `&amp;#x` is
in it and what is not escaped in files (comments and declarations) has no references in it. -/
theorem resave_partial (file : Text) (nodes : List Node) (h : loadFile file = .ok (true, nodes)) (ha : References file)
    (hc : '&' ∉ file ∨ AllUnescaped nodes) (hs : SaysUtf8 file nodes → Signs file) (hq : AllNoQuotes nodes) :
    loadFile (printDocument nodes) = .ok (true, nodes) := by
  obtain ⟨enc, p, hf, hg, hn, hne⟩ := (load_iff file nodes).1 h
  refine save_load_partial nodes hne (nodes_survive (A := '&' ∈ file) hn .unknown ?_ ?_ (ha.suffix hg.suffix) ?_ hq fun x => hc.resolve_left fun hn => hn x)
  · cases hf with
    | mark => exact ⟨by simp, by simp⟩
    | none => exact ⟨by simp, by simp⟩
  · by_cases hm : '&' ∈ p
    · exact Or.inl (hg.suffix.mem hm)
    · exact Or.inr hm
  · intro hu
    obtain ⟨a, rfl⟩ := hg.suffix
    refine (hs ?_).suffix
    rcases hu with rfl | ⟨v, e, s, hm, he⟩
    · generalize a ++ p = file at hf
      cases hf with
      | mark m q hm => exact Or.inl ⟨m, q, rfl, hm⟩
    · exact Or.inr ⟨v, e, s, hm, he⟩

/-- A file with a byte order mark, a declaration without encoding, white space of all kinds and a root without end tag. -/
def careless : Text := '\xef' :: '\xbb' :: '\xbf' :: "<?xml version='1.0'?>\n <!-- it's  -->\n<a  b = 'x\"y'>\n  one\n  two <c d=1 />\n ".toList

def carelessNodes : List Node :=
  [.declaration "1.0".toList [] [], .comment " it's  ".toList,
    .element ['a'] [(['b'], "x\"y".toList)] [.text "one two".toList, .element ['c'] [(['d'], ['1'])] []]]

theorem careless_signs : Signs careless :=
  Signs.cons (s := ['\xbb', '\xbf']) (by decide) (by decide) (signs_ascii (by decide +kernel))

example : loadFile careless = .ok (true, carelessNodes) ∧ loadFile (printDocument carelessNodes) = .ok (true, carelessNodes) := by
  have h : loadFile careless = .ok (true, carelessNodes) := by decide +kernel
  refine ⟨h, resave_partial careless _ h (references_bare (by decide +kernel)) (Or.inl (by decide +kernel)) (fun _ => careless_signs) ?_⟩
  simp only [carelessNodes, AllNoQuotes, NoQuotes, and_true]
  decide

/-- A file with entities, in values with and without quotes and in texts. -/
def entities : Text := "<a b='&lt;x&gt; &amp;' c=&quot;><!-- no --> &apos;&amp;&amp; #x </a>".toList

def entitiesNodes : List Node :=
  [.element ['a'] [(['b'], "<x> &".toList), (['c'], "&quot;".toList)] [.comment " no ".toList, .text "'&& #x".toList]]

theorem references_of {t : Text} : (∀ k < t.length, t[k]? = some '&' →
    ∃ e ∈ entityNames, (e.1 ++ [';']) <+: t.drop (k + 1) ∧ (e.2 = '&' → ¬ ['#', 'x'] <+: (t.drop (k + 1)).drop (e.1.length + 1))) → References t := by
  rintro h a b rfl
  obtain ⟨e, he, ⟨r, hr⟩, hx⟩ := h a.length (by simp) (by simp)
  have hd : (a ++ '&' :: b).drop (a.length + 1) = b := by
    rw [← List.drop_drop, List.drop_left]; rfl
  rw [hd] at hr hx
  refine ⟨e, he, r, by rw [← hr]; simp, fun h2 => ?_⟩
  have := hx h2
  rw [← hr, show e.1.length + 1 = (e.1 ++ [';']).length by simp, List.drop_left] at this
  exact this

example : loadFile entities = .ok (true, entitiesNodes) ∧ loadFile (printDocument entitiesNodes) = .ok (true, entitiesNodes) := by
  have h : loadFile entities = .ok (true, entitiesNodes) := by decide +kernel
  refine ⟨h, resave_partial entities _ h (references_of (by decide +kernel)) (Or.inr ?_) (fun _ => signs_ascii (by decide +kernel)) ?_⟩
  · simp only [entitiesNodes, AllUnescaped, Unescaped, and_true]
    decide
  · simp only [entitiesNodes, AllNoQuotes, NoQuotes, and_true]

/-- A value that has become a character reference is read as the character. -/
theorem resave_reference_false : loadFile "<a b=\"&amp;#x41;\"/>".toList = .ok (true, [.element ['a'] [(['b'], "&#x41;".toList)] []]) ∧
    loadFile (printDocument [.element ['a'] [(['b'], "&#x41;".toList)] []]) = .ok (true, [.element ['a'] [(['b'], ['A'])] []]) := by
  decide +kernel

/-- An ampersand that begins nothing is left out of a text, and of the blanks around it one is lost the next time. -/
theorem resave_stray_false : loadFile "<a>x & y</a>".toList = .ok (true, [.element ['a'] [] [.text "x  y".toList]]) ∧
    loadFile (printDocument [.element ['a'] [] [.text "x  y".toList]]) = .ok (true, [.element ['a'] [] [.text "x y".toList]]) := by
  decide +kernel

/-- A blank that was given by its number is lost the next time. -/
theorem resave_blank_false : loadFile "<a>x&#32;</a>".toList = .ok (true, [.element ['a'] [] [.text "x ".toList]]) ∧
    loadFile (printDocument [.element ['a'] [] [.text "x ".toList]]) = .ok (true, [.element ['a'] [] [.text ['x']]]) := by
  decide +kernel

/-- Each loading and saving replaces the references in a comment once more. -/
theorem resave_comment_false : loadFile "<a/><!--&amp;lt;-->".toList = .ok (true, [.element ['a'] [] [], .comment "&lt;".toList]) ∧
    loadFile (printDocument [.element ['a'] [] [], .comment "&lt;".toList]) = .ok (true, [.element ['a'] [] [], .comment ['<']]) := by
  decide +kernel

/-- A declaration with a quote in it. -/
theorem resave_declaration_false : loadFile "<?xml version='1\"0'?><a/>".toList = .ok (true, [.declaration "1\"0".toList [] [], .element ['a'] [] []]) ∧
    loadFile (printDocument [.declaration "1\"0".toList [] [], .element ['a'] [] []]) = .ok (true, [.declaration ['1'] [] [], .element ['a'] [] []]) := by
  decide +kernel

/-- An incomplete character in UTF-8. -/
theorem resave_incomplete_false : ∃ nodes, loadFile ("<?xml version=\"1.0\"?><a b=\"".toList ++ '\xc3' :: ">\"/>".toList) = .ok (true, nodes) ∧
    loadFile (printDocument nodes) ≠ .ok (true, nodes) :=
  ⟨[.declaration "1.0".toList [] [], .element ['a'] [(['b'], ['\xc3', '>'])] []], by decide +kernel, by decide +kernel⟩

end Gear.Xml.Save
