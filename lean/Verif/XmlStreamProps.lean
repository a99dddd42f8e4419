/-
Properties of reading and writing documents with streams (C133, C134).
-/
import Verif.XmlStreamSafety
import Verif.XmlSaveProps
import Verif.XmlProps

set_option autoImplicit false
set_option linter.unusedSectionVars false

namespace Gear.Xml.Stream

open Xml.Spec Spec

theorem streamDocument_kept (before : List Node) (hb : ∀ n ∈ before, isElementNode n = false) {root : Node}
    (hr : isElementNode root = true) (after : List Node) :
    streamDocument (before ++ root :: after) = streamList (before ++ [root]) := by
  induction before with
  | nil => simp [streamDocument, streamList, hr]
  | cons n ns ih =>
    rw [List.cons_append, streamDocument, hb n (by simp), List.cons_append, streamList, ih (fun m hm => hb m (by simp [hm]))]
    rfl

theorem parseInto_nil (p : Text) : parseInto [] p = parseDocument p := rfl

/-! ### C133: what is written to a stream is read again -/

/-- Documents are read from `s` one after the other, a new one for each. -/
inductive ReadOneByOne (fuel : ℕ) : In → List (List Node) → In → Prop
  | nil (s) : ReadOneByOne fuel s [] s
  | cons {s t u doc docs} : read fuel s [] = .ok (t, doc, false) → ReadOneByOne fuel t docs u → ReadOneByOne fuel s (doc :: docs) u

/-- What `out << document` has written, wherever in a stream it stands, is what the next `in >> document` takes: no byte less, none more.
The nodes are added to those the document had, up to the root and with it, and there is no error. -/
theorem written_read_partial (d : Document) (h : d.Good) (doc : List Node) (r : Text) (fuel : ℕ)
    (hf : 3 * (write [] d.nodes).length < fuel) :
    read fuel ⟨write [] d.nodes ++ r, true⟩ doc = .ok (⟨r, true⟩, doc ++ d.kept, false) := by
  have hall := framed_document d.kept .unknown h.survives h.streamable
  have hnt : ∀ n ∈ d.kept, n.isText = false := fun n hn => (hall n hn).1
  have hne : ∀ n ∈ d.before, isElementNode n = false := by
    intro n hn
    cases n with
    | element name attrs children => exact absurd rfl (h.before _ hn name attrs children)
    | _ => rfl
  have hF : ∀ n ∈ d.kept, n.isText = false → Framed n := fun n hn _ => (hall n hn).2
  have hw : write [] d.nodes = streamList d.kept := by
    rw [write, List.nil_append, Document.nodes, Document.kept, List.append_assoc]
    exact streamDocument_kept d.before hne rfl d.after
  rw [hw] at hf ⊢
  obtain ⟨t, ht⟩ : ∃ t, streamList d.kept = '<' :: t := by
    obtain ⟨n, ns, e⟩ := List.exists_cons_of_ne_nil (show d.kept ≠ [] by simp [Document.kept])
    obtain ⟨k, pre, post, e', -⟩ := hF n (by simp [e]) (hnt n (by simp [e]))
    exact ⟨_, by rw [e, streamList, e']; rfl⟩
  have hlen : d.before.length ≤ (streamList d.kept).length := by
    have : ∀ ns : List Node, (∀ n ∈ ns, Framed n) → ns.length ≤ (streamList ns).length := by
      intro ns
      induction ns with
      | nil => simp
      | cons n ns ih =>
        intro hh
        obtain ⟨k, pre, post, e', -⟩ := hh n (by simp)
        have := ih (fun m hm => hh m (by simp [hm]))
        rw [streamList, e']
        simp only [List.length_append, List.length_cons]
        omega
    have := this d.kept (fun n hn => hF n hn (hnt n hn))
    simp only [Document.kept, List.length_append, List.length_cons, List.length_nil] at this ⊢
    omega
  have hn := nodes_framed d.before d.root (fun n hn => ⟨hF n (by simp [Document.kept, hn]) (hnt n (by simp [Document.kept, hn])), hne n hn⟩)
    (hF d.root (by simp [Document.kept]) rfl) rfl r fuel [] fuel (by omega) (by
      change 3 * (streamList d.kept).length ≤ fuel; omega)
  change nodes fuel fuel ⟨streamList d.kept ++ r, true⟩ [] = .ok (⟨r, true⟩, [] ++ streamList d.kept) at hn
  have hs : streamIn fuel ⟨streamList d.kept ++ r, true⟩ = .ok (⟨r, true⟩, streamList d.kept) := by
    unfold streamIn
    rw [if_pos rfl]
    simp only [ht, List.cons_append, streamTo, if_true]
    rw [ht] at hn
    exact hn
  have hp := Grammar.parseNodes_complete (nodes_stream d.kept .unknown h.survives) (('<' :: t).length + 1) doc (by rw [ht]; omega)
  rw [read, hs]
  simp only [Run.bind_ok]
  rw [ht] at hp ⊢
  rw [parseInto]
  · simp only
    rw [startEncoding_lt, skip_cons (by decide) (by decide)]
    simp only
    rw [hp]
    simp [Document.kept]
  · simp

/-- Documents that are written to a stream one after the other are read from it one by one. -/
theorem written_read_all_partial (ds : List Document) (h : ∀ d ∈ ds, d.Good) (out r : Text) (fuel : ℕ)
    (hf : 3 * ((ds.map Document.nodes).foldl write []).length < fuel) :
    ∃ b, (ds.map Document.nodes).foldl write out = out ++ b ∧
      ReadOneByOne fuel ⟨b ++ r, true⟩ (ds.map Document.kept) ⟨r, true⟩ := by
  have hsplit : ∀ (docs : List (List Node)) (o : Text), docs.foldl write o = o ++ docs.foldl write [] := by
    intro docs
    induction docs with
    | nil => simp
    | cons d docs ih =>
      intro o
      rw [List.foldl_cons, List.foldl_cons, ih, ih (write [] d), write, write]
      simp
  refine ⟨_, hsplit _ _, ?_⟩
  induction ds with
  | nil => exact ReadOneByOne.nil _
  | cons d ds ih =>
    rw [List.map_cons, List.foldl_cons, hsplit] at hf ⊢
    rw [List.length_append] at hf
    rw [List.append_assoc]
    refine ReadOneByOne.cons ?_ (ih (fun e he => h e (by simp [he])) (by omega))
    exact written_read_partial d (h d (by simp)) [] _ fuel (by omega)

/-- A document with a declaration and a comment before the root and another node behind it. -/
def document : Document :=
  ⟨[.declaration "1>0".toList "ISO-8859-1".toList [], .comment " gear -> file ".toList], "gear".toList, [("version".toList, "1<2 & \"3\"".toList), ("n".toList, "it's\n".toList)],
    [.comment " a comment < > \" ".toList, .element "global".toList [("detectorName".toList, "LDC>/".toList)] [],
      .element "detectors".toList [] [.element "detector".toList [] [.text "a few words &amp; signs".toList],
        .unknown "!DOCTYPE x".toList]], [.comment ['x']]⟩

theorem document_good : document.Good where
  before := by simp [document]
  survives := by
    have hd : Grammar.Encoding .unknown (.declaration "1>0".toList "ISO-8859-1".toList []) .legacy :=
      .legacy _ _ _ (by decide) (by unfold Grammar.Begins; decide) (by unfold Grammar.Begins; decide)
    rw [Document.kept, Document.root, document]
    refine .cons rfl ?_ hd (.cons rfl ?_ (.settled _ _ (by decide)) (.cons rfl ?_ (.settled _ _ (by decide)) trivial))
    · rw [Save.Survives]
      intro x hx
      have : NoReference x := by
        simp only [List.mem_cons, List.not_mem_nil, or_false] at hx
        rcases hx with h | h | h
        · rw [h]; decide +kernel
        · rw [h]; decide +kernel
        · rw [h]; decide +kernel
      exact ⟨this, fun h => by cases h⟩
    · exact Save.survives_of nofun _ (by decide +kernel)
    · exact Save.survives_of nofun _ (by decide +kernel)
  streamable := by
    simp only [Document.kept, Document.root, document, List.cons_append, List.nil_append, AllStreamable, Streamable, and_true, true_and]
    refine ⟨by decide, by decide, by decide, fun a b e => ⟨'!', ?_, by decide, by unfold Grammar.Space; decide⟩⟩
    cases a with
    | nil => revert e; simp
    | cons c a => simp only [List.cons_append, show "!DOCTYPE x".toList = ['!', 'D', 'O', 'C', 'T', 'Y', 'P', 'E', ' ', 'x'] from rfl,
        List.cons.injEq] at e; exact e.1 ▸ List.mem_cons_self

example : read 2000 ⟨write [] document.nodes ++ "<next />".toList, true⟩ [] = .ok (⟨"<next />".toList, true⟩, document.kept, false) :=
  written_read_partial document document_good [] _ 2000 (by decide +kernel)

/-- A document in UTF-8. -/
def document8 : Document :=
  ⟨[.declaration "1.0".toList "UTF-8".toList []], ['a'], [(['b'], ['\xe2', '\x82', '\xac'])], [.text ['\xc3', '\xa9', '<'], .comment ['x']], []⟩

theorem document8_good : document8.Good where
  before := by simp [document8]
  survives := Save.sample8_survives (by decide)
  streamable := by
    simp only [Document.kept, Document.root, document8, List.cons_append, List.nil_append, AllStreamable, Streamable, and_true, true_and]
    decide

example : read 1000 ⟨write [] document8.nodes ++ "<next />".toList, true⟩ [] = .ok (⟨"<next />".toList, true⟩, document8.kept, false) :=
  written_read_partial document8 document8_good [] _ 1000 (by decide +kernel)

/-- A comment that begins with `>` is read from a file, but not from a stream: there it seems to be complete too early. -/
theorem comment_false :
    loadFile (printDocument [.comment ">x".toList, .element ['a'] [] []]) = .ok (true, [.comment ">x".toList, .element ['a'] [] []]) ∧
      read 100 ⟨write [] [.comment ">x".toList, .element ['a'] [] []], true⟩ []
        ≠ .ok (⟨[], true⟩, [.comment ">x".toList, .element ['a'] [] []], false) := by
  decide +kernel

/-- In an element, an unknown tag with a slash after blanks is taken for the end tag. -/
theorem unknown_false : WellFormed (.element ['a'] [] [.unknown " /x".toList, .element ['b'] [] []]) ∧
    read 100 ⟨write [] [.element ['a'] [] [.unknown " /x".toList, .element ['b'] [] []]], true⟩ []
      ≠ .ok (⟨[], true⟩, [.element ['a'] [] [.unknown " /x".toList, .element ['b'] [] []]], false) := by
  decide +kernel

/-- What follows the root is not written. -/
theorem after_false : write [] [.element ['a'] [] [], .comment ['x']] = "<a />".toList := by decide +kernel

/-- The document that is read into is not emptied: reading twice into one gives it two roots. -/
theorem replaced_false : read 100 ⟨"<b />".toList, true⟩ [.element ['a'] [] []] = .ok (⟨[], true⟩, [.element ['a'] [] [], .element ['b'] [] []], false) := by
  decide +kernel

/-! ### C134: reading from any stream -/

/-- From a stream of any bytes but zero, reading a document takes some bytes off its beginning and ends, without failing an assertion.
What it gives is what these bytes give when they are parsed.  The stream stays good unless all of it was taken. -/
theorem read_takes_partial (bytes : Text) (hz : '\x00' ∉ bytes) (fuel : ℕ) (hf : 3 * bytes.length + 2 ≤ fuel) :
    ∃ taken left good, bytes = taken ++ left ∧ (good = false → left = []) ∧
      ∀ doc, read fuel ⟨bytes, true⟩ doc
        = (parseInto doc taken >>= fun result => .ok (⟨left, good⟩, result.1, result.2)) := by
  obtain ⟨s, tag, e, t, h2, h1, h3⟩ := streamIn_took (s := ⟨bytes, true⟩) hz (by simp) hf
  refine ⟨t, s.rest, s.good, h1, h3, fun doc => ?_⟩
  rw [read, e]
  simp only [Run.bind_ok]
  rw [h2, List.nil_append]

/-- The same for what the nodes are, read into a new document: as if the bytes taken were a file. -/
theorem read_as_file_partial (bytes : Text) (hz : '\x00' ∉ bytes) (fuel : ℕ) (hf : 3 * bytes.length + 2 ≤ fuel) :
    ∃ taken left good, bytes = taken ++ left ∧ (good = false → left = []) ∧
      ∀ result nodes, taken ≠ [] →
        (loadFile taken = .ok (result, nodes) ↔ read fuel ⟨bytes, true⟩ [] = .ok (⟨left, good⟩, nodes, !result)) := by
  obtain ⟨taken, left, good, e, hg, h⟩ := read_takes_partial bytes hz fuel hf
  refine ⟨taken, left, good, e, hg, fun result nodes hne => ?_⟩
  rw [h, parseInto_nil, loadFile, if_neg hne]
  cases parseDocument taken with
  | ok x =>
    obtain ⟨ns, er⟩ := x
    simp only [Run.bind_ok, Run.ok.injEq, Prod.mk.injEq, true_and]
    constructor
    · rintro ⟨rfl, rfl⟩; simp
    · rintro ⟨rfl, rfl⟩; simp
  | ub => simp only [bind]; constructor <;> intro hh <;> cases hh
  | assertFailed => simp only [bind]; constructor <;> intro hh <;> cases hh
  | endless => simp only [bind]; constructor <;> intro hh <;> cases hh

example : '\x00' ∉ "<?xml?> junk > <a><b x='>' ".toList := by decide

theorem content_zero (t : Text) : ∀ fuel tag, content fuel ⟨zero :: t, true⟩ tag = .endless := by
  intro fuel
  induction fuel with
  | zero => intro tag; rw [content]
  | succ fuel ih =>
    intro tag
    rw [content]
    have hw : white (zero :: t) tag = (⟨zero :: t, true⟩, tag) := by rw [white, if_pos (by simp)]
    have ht : text (zero :: t) tag = (⟨zero :: t, true⟩, tag) := by
      rw [text, if_neg (by decide), if_pos rfl]
    simp only [if_true, hw, ht]
    rw [if_pos (by decide)]
    exact ih tag

/-- A zero byte in the content of an element is looked at for ever. -/
theorem read_zero_false (t : Text) (fuel : ℕ) (doc : List Node) :
    read fuel ⟨"<a>".toList ++ '\x00' :: t, true⟩ doc = .endless := by
  have : streamIn fuel ⟨"<a>".toList ++ '\x00' :: t, true⟩ = .endless := by
    unfold streamIn
    rw [if_pos rfl]
    have h1 : streamTo '<' ("<a>".toList ++ '\x00' :: t) [] = (⟨"<a>".toList ++ '\x00' :: t, true⟩, [], true) := by
      simp [streamTo]
    have h2 : upTo ("<a>".toList ++ '\x00' :: t) [] = (⟨'>' :: '\x00' :: t, true⟩, ['<', 'a']) := by
      simp [upTo, zero]
    have hi : identify ['<', 'a'] = some .element := by decide +kernel
    have h3 : through ('>' :: '\x00' :: t) ['<', 'a'] = (⟨'\x00' :: t, true⟩, ['<', 'a', '>'], true) := by
      simp [through, zero]
    simp only [h1]
    cases fuel with
    | zero => rfl
    | succ fuel =>
      rw [nodes, if_pos rfl]
      simp only [h2, if_true, List.length_nil, List.drop_zero, hi, node]
      cases fuel with
      | zero => rfl
      | succ fuel =>
        rw [element]
        simp only [h3]
        have hf1 : fromEnd ['<', 'a', '>'] 1 = .ok '>' := by decide
        have hf2 : fromEnd ['<', 'a', '>'] 2 = .ok 'a' := by decide
        simp only [hf1, hf2, Run.bind_ok, List.length_cons, List.length_nil]
        rw [if_neg (by decide), if_pos True.intro, if_neg (by decide)]
        rw [show content fuel ⟨'\x00' :: t, true⟩ ['<', 'a', '>'] = .endless from content_zero t fuel _]
        rfl
  rw [read, this]
  rfl

/-- A `>` in the value of an attribute hides the end of the root: all that follows is taken with it. -/
theorem read_greater_false : read 100 ⟨"<a x=\"1>2\" /><b /><c />".toList, true⟩ []
      = .ok (⟨[], false⟩, [.element ['a'] [(['x'], "1>2".toList)] [], .element ['b'] [] [], .element ['c'] [] []], false) ∧
    loadFile "<a x=\"1>2\" />".toList = .ok (true, [.element ['a'] [(['x'], "1>2".toList)] []]) := by
  decide +kernel

/-- And `/>` in a value ends it too early: there is an error, and the rest of the document is left in the stream. -/
theorem read_slash_false : read 100 ⟨"<a x=\"/>\"><b /></a>".toList, true⟩ [] ≠ .ok (⟨[], true⟩, [.element ['a'] [(['x'], "/>".toList)] [.element ['b'] [] []]], false) ∧
    loadFile "<a x=\"/>\"><b /></a>".toList = .ok (true, [.element ['a'] [(['x'], "/>".toList)] [.element ['b'] [] []]]) := by
  decide +kernel

end Gear.Xml.Stream
