/-
The XML library under gearxml: C56 (values), C57 (documents), C98 (reading ends), C99 (reading stays within the text) and
C100 (files cut off).
-/
import Verif.XmlSafety
import Verif.XmlClosed

set_option autoImplicit false
set_option linter.unusedSectionVars false

namespace Gear.Xml

open Spec

/-! ### C57: documents -/

theorem parseNodes_print : ∀ (doc : List Node) (fuel : ℕ) (acc : List Node), AllWellFormed doc →
    (∀ n ∈ doc, n.isText = false) → (printDocument doc).length < fuel →
    parseNodes fuel .unknown (printDocument doc) acc = .ok (acc ++ doc, false) := by
  have he : Enc.unknown ≠ .utf8 := by decide
  intro doc
  induction doc with
  | nil => intro fuel acc _ _ _; cases fuel <;> simp [printDocument, parseNodes]
  | cons n doc ih =>
    intro fuel acc hw ht hf
    simp only [AllWellFormed] at hw
    obtain ⟨b, hb, -, hp⟩ := reads_node he n hw.1 (ht n (by simp)) 0
    have hb : n.print 0 = '<' :: b := hb
    obtain ⟨fuel, rfl⟩ : ∃ k, fuel = k + 1 := ⟨fuel - 1, by omega⟩
    simp only [printDocument, hb, List.length_append, List.length_cons] at hf
    rw [printDocument, hb, List.cons_append, parseNodes, if_neg (by simp)]
    have := hp ('\n' :: printDocument doc) (3 * ((b ++ '\n' :: printDocument doc).length + 2)) (by
      simp only [List.length_append, List.length_cons]; omega)
    rw [List.cons_append] at this
    rw [this]
    simp only [Run.bind_ok]
    have hnd : nextEncoding .unknown n = .unknown := by
      cases n with
      | declaration => simp [WellFormed] at hw
      | _ => rfl
    have hdoc : skipBody .unknown (printDocument doc) = printDocument doc := by
      cases doc with
      | nil => rfl
      | cons m ms =>
        obtain ⟨b', hb', -⟩ := reads_node he m hw.2.1 (ht m (by simp)) 0
        have hb' : m.print 0 = '<' :: b' := hb'
        rw [printDocument, hb', List.cons_append, skipBody_of_not_space he (by decide)]
    rw [hnd, skipWhiteSpace, skipBody_of_space he (by decide), hdoc]
    · simp only
      rw [ih fuel (acc ++ [n]) hw.2 (fun m hm => ht m (by simp [hm])) (by omega)]
      simp
    · simp

theorem startEncoding_lt (t : Text) : startEncoding ('<' :: t) = .unknown := by
  match t with
  | [] => rfl
  | [_] => rfl
  | _ :: _ :: _ => rfl

/-- A document of elements and comments, with names that are names, values without `&#x` and texts without superfluous
white space, is saved and loaded unchanged. -/
theorem document_roundtrip_partial (doc : List Node) (h : AllWellFormed doc) (ht : ∀ n ∈ doc, n.isText = false)
    (hne : doc ≠ []) : loadFile (printDocument doc) = .ok (true, doc) := by
  have he : Enc.unknown ≠ .utf8 := by decide
  obtain ⟨n, ns, rfl⟩ := List.exists_cons_of_ne_nil hne
  obtain ⟨b, hb, -⟩ := reads_node he n (allWellFormed_mem h n (by simp)) (ht n (by simp)) 0
  have hb : n.print 0 = '<' :: b := hb
  obtain ⟨t, hp⟩ : ∃ t, printDocument (n :: ns) = '<' :: t := ⟨_, by rw [printDocument, hb]; rfl⟩
  have hparse := parseNodes_print (n :: ns) (('<' :: t).length + 1) [] h ht (by rw [hp]; omega)
  rw [hp] at hparse
  rw [loadFile, hp, if_neg (by simp), parseDocument]
  · simp only
    rw [startEncoding_lt, skip_cons he (by decide)]
    simp only
    rw [hparse]
    simp
  · simp

/-- The tree of a small gear file, with a comment and all kinds of special characters. -/
def sample : Node :=
  .element "gear".toList [("version".toList, "1<2 & \"3\"".toList), ("n".toList, "it's\n".toList)]
    [.comment " a comment < > \" ".toList,
      .element "global".toList [("detectorName".toList, "LDC".toList)] [],
      .element "detectors".toList [] [.element "detector".toList [] [.text "a few words &amp; signs".toList],
        .unknown "!DOCTYPE x".toList]]

theorem sample_wellFormed : WellFormed sample := by
  decide +kernel

example : loadFile (printDocument [sample]) = .ok (true, [sample]) :=
  document_roundtrip_partial [sample] ⟨sample_wellFormed, trivial⟩ (by simp [sample, Node.isText]) (by simp)

/-- Blanks in texts are lost. -/
theorem document_text_false : ∃ doc, (∀ n ∈ doc, n.isText = false) ∧ doc ≠ [] ∧ loadFile (printDocument doc) ≠ .ok (true, doc) :=
  ⟨[.element ['a'] [] [.text "x  y".toList]], by simp [Node.isText], by simp, by decide +kernel⟩

/-- In comments references are replaced, and other ampersands dropped. -/
theorem document_comment_false :
    loadFile (printDocument [.element ['a'] [] [.comment "R&D &lt; x".toList]])
      = .ok (true, [.element ['a'] [] [.comment "RD < x".toList]]) := by
  decide +kernel

/-! ### C56: attribute values -/

/-- Every value of an attribute that does not contain `&#x` is read back. -/
theorem value_roundtrip_partial (element name : Text) (he : ValidName element) (hn : ValidName name) (value : Text)
    (hv : NoReference value) :
    loadFile (printDocument [.element element [(name, value)] []]) = .ok (true, [.element element [(name, value)] []]) := by
  refine document_roundtrip_partial _ ?_ (by simp [Node.isText]) (by simp)
  simp only [AllWellFormed, WellFormed, and_true]
  exact ⟨he, by simpa using ⟨hn, hv⟩, by simp, trivial, trivial⟩

example : loadFile (printDocument [.element ['a'] [(['b'], "<'\">&amp;&\t".toList)] []])
    = .ok (true, [.element ['a'] [(['b'], "<'\">&amp;&\t".toList)] []]) :=
  value_roundtrip_partial _ _ (by decide +kernel) (by decide +kernel) _ (by decide +kernel)

/-- A value that looks like a character reference is read back as the character. -/
theorem value_false : loadFile (printDocument [.element ['a'] [(['b'], "&#x41;".toList)] []])
    = .ok (true, [.element ['a'] [(['b'], ['A'])] []]) := by
  decide +kernel

/-! ### C98: reading ends -/

/-- Reading any text ends, apart from the search for rows and columns (see XmlPlaceProps.lean). -/
theorem load_terminates_partial (file : Text) : loadFile file ≠ .endless := by
  have : (loadFile file).Good False fun _ => True := by
    unfold loadFile
    split_ifs
    · trivial
    · refine Run.Good.bind (safe' := False) (P := fun _ => True) ?_ id fun _ _ => trivial
      unfold parseDocument
      split
      · trivial
      · simp only
        split
        · trivial
        · exact (parseNodes_good _ _ _ [] (by omega)).bind False.elim fun _ _ => trivial
  intro h
  rw [h] at this
  exact this

/-! ### C99: reading stays within the text -/

/-- Reading a file in which nothing is quoted, referred to, commented or declared, and which has no byte order mark, neither
reads outside the text nor fails an assertion. -/
theorem load_safe_partial (file : Text) (h : '&' ∉ file) (hq : '"' ∉ file) (ha : '\'' ∉ file) (hc : ¬ ['<', '!'] <:+: file)
    (hd : ¬ ['<', '?'] <:+: file) (hb : ∀ c rest, file = c :: rest → c.toNat ≠ 0xef) :
    ∃ result nodes, loadFile file = .ok (result, nodes) := by
  have hp : Plain file := ⟨h, hq, ha, hc, hd⟩
  have : (loadFile file).Good True fun _ => True := by
    unfold loadFile
    split_ifs
    · trivial
    · refine Run.Good.bind (safe' := True) (P := fun _ => True) ?_ id fun _ _ => trivial
      unfold parseDocument
      split
      · trivial
      · have henc : startEncoding file = .unknown := by
          unfold startEncoding
          split
          · rename_i a b c _ _ _
            have := hb a _ rfl
            simp [this]
          · rfl
        rw [henc]
        split
        · trivial
        · rename_i p hp'
          exact (parseNodes_good _ _ _ [] (by omega)).bind
            (fun _ => ⟨by decide, hp.suffix (skipWhiteSpace_suffix hp')⟩) fun _ _ => trivial
  cases hr : loadFile file with
  | ok r => exact ⟨r.1, r.2, rfl⟩
  | ub => rw [hr] at this; exact absurd trivial this
  | assertFailed => rw [hr] at this; exact absurd trivial this
  | endless => rw [hr] at this; exact this.elim

example : ∃ result nodes, loadFile "<gear><a b=1></x".toList = .ok (result, nodes) :=
  load_safe_partial _ (by decide +kernel) (by decide +kernel) (by decide +kernel) (by decide +kernel) (by decide +kernel)
    (by intro c rest h; rw [show "<gear><a b=1></x".toList = '<' :: "gear><a b=1></x".toList from rfl] at h; cases h; decide)

/-- Reading a file in which everything that is opened is closed again, whatever its encoding, neither reads outside the text nor
fails an assertion.  `Closed` asks neither for matching tags nor for valid names, so that most files that are no XML are among these. -/
theorem load_closed_partial (file : Text) (h : Closed file) : ∃ result nodes, loadFile file = .ok (result, nodes) :=
  loadFile_closed file h

example : ∃ result nodes, loadFile "<?xml version='1.0'?><!-- - --><a b=\"x&#65;>&#x4f;\" c = '&lt;\"'><b>t</a> -->".toList =
    .ok (result, nodes) :=
  load_closed_partial _ (Closed.of_check (by decide +kernel))

/-- Nor does reading what has been written. -/
theorem load_written_partial (doc : List Node) (h : AllWellFormed doc) (ht : ∀ n ∈ doc, n.isText = false) (hne : doc ≠ []) :
    ∃ result nodes, loadFile (printDocument doc) = .ok (result, nodes) :=
  ⟨_, _, document_roundtrip_partial doc h ht hne⟩

/-- A file that ends within a quoted value, a comment, a reference or a character of several bytes is read beyond its end, and one
that ends within the declaration fails an assertion: no clause of `Closed` can be left out. -/
theorem load_safe_false : loadFile "<a b=\"".toList = .ub ∧ loadFile "<!--".toList = .ub ∧ loadFile "<a b=\"&#x;".toList = .ub
    ∧ loadFile "<a>&#65".toList = .ub ∧ loadFile ("<?xml ?><a>".toList ++ [Char.ofNat 0xc3]) = .ub
    ∧ loadFile "<?xml ".toList = .assertFailed := by
  decide +kernel

/-! ### C100: files cut off -/

/-- A file that is cut off behind an attribute of the root element is rejected. -/
theorem truncated_rejected_partial (name : Text) (hn : ValidName name) (attrs : List (Text × Text))
    (ha : ∀ a ∈ attrs, ValidName a.1 ∧ NoReference a.2) (hnd : (attrs.map Prod.fst).Nodup) :
    ∃ nodes, loadFile ('<' :: name ++ attrs.flatMap (fun a => ' ' :: printAttribute a) ++ [' ']) = .ok (false, nodes) := by
  have he : Enc.unknown ≠ .utf8 := by decide
  have hte : ∀ fuel acc, parseTag .unknown (fuel + 1) (' ' :: []) acc = .ok (acc, .failed true) := by
    intro fuel acc
    rw [parseTag]
    rfl
  obtain ⟨c, rest, rfl, -⟩ := name_head hn
  have hel := fun k => parseElement_tag he hn ha hnd (.failed true) ' ' rfl [] hte k
  have hise := isElement_name hn (attrs.flatMap (fun a => ' ' :: printAttribute a) ++ [' '])
  rw [show '<' :: (c :: rest) ++ attrs.flatMap (fun a => ' ' :: printAttribute a) ++ [' ']
    = '<' :: (c :: rest) ++ (attrs.flatMap (fun a => ' ' :: printAttribute a) ++ [' ']) by simp]
  generalize attrs.flatMap (fun a => ' ' :: printAttribute a) ++ [' '] = X at *
  rw [List.cons_append] at hise ⊢
  have hel : ∀ k, parseElement .unknown (k + 1) ('<' :: (c :: rest ++ X)) = .ok (.element (c :: rest) attrs [], none, true) := hel
  refine ⟨[.element (c :: rest) attrs []], ?_⟩
  generalize c :: rest ++ X = Y at *
  rw [loadFile, if_neg (by simp), parseDocument]
  · simp only
    rw [startEncoding_lt, skip_cons he (by decide)]
    simp only
    rw [parseNodes, if_neg (by simp), show 3 * (Y.length + 2) = 3 * Y.length + 4 + 1 + 1 by omega, parseNode, if_pos hise, hel]
    rfl
  · simp

example : ∃ nodes, loadFile "<gear a=\"1\" ".toList = .ok (false, nodes) :=
  truncated_rejected_partial "gear".toList (by decide +kernel) [(['a'], ['1'])] (by decide +kernel) (by simp)

/-- A file from which the end tag of the root element is missing is accepted, as if it were complete. -/
theorem truncated_false : loadFile "<gear>\n    <a />\n".toList = loadFile "<gear>\n    <a />\n</gear>\n".toList
    ∧ ∃ nodes, loadFile "<gear>\n    <a />\n".toList = .ok (true, nodes) :=
  ⟨by decide +kernel, [.element "gear".toList [] [.element ['a'] [] []]], by decide +kernel⟩

/-- After a repeated attribute of the root element the rest of the file is ignored, without error. -/
theorem repeated_attribute_false : loadFile "<gear a=\"1\" a=\"2\"><b /></gear>".toList
    = .ok (true, [.element "gear".toList [(['a'], ['2'])] []]) := by
  decide +kernel

end Gear.Xml
