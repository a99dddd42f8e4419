/-
Named parameters in XML: C52 and C53.
-/
import Verif.XmlParamsLemmas

set_option autoImplicit false
set_option linter.unusedSectionVars false

namespace Gear.Xml

open Spec

/-! ### C52: vectors written with blanks -/

/-- A vector of texts without blanks, none of them empty, is read back from the text with blanks in between. -/
theorem tokens_roundtrip (ws : List Text) (h : ∀ w ∈ ws, w ≠ [] ∧ ' ' ∉ w) : tokenize ' ' (List.intercalate [' '] ws) = ws := by
  have : List.intercalate [' '] ws = joinBlank ws := by
    induction ws with
    | nil => rfl
    | cons w ws ih =>
      cases ws with
      | nil => simp [joinBlank, List.intercalate]
      | cons v ws =>
        have ih := ih fun x hx => h x (by simp [hx])
        rw [joinBlank, ← ih]
        · simp [List.intercalate]
        · simp
  rw [this, tokenize_joinBlank h]

/-- The vector of integers, numbers and words written by the handler. -/
theorem vectors_roundtrip (iv : List ℤ) (dv : List ℚ) (sv : List String) (h1 : ∀ v ∈ iv, IsInt v)
    (h2 : ∀ s ∈ sv, s ≠ "" ∧ ' ' ∉ s.toList) :
    (tokenize ' ' (joinBlank (iv.map printInt))).map atoi = iv
    ∧ (tokenize ' ' (joinBlank (dv.map formatE))).map atof = dv.map r10
    ∧ (tokenize ' ' (joinBlank (sv.map String.toList))).map str = sv := by
  have h2' : ∀ s ∈ sv, IsWord s := fun s hs => ⟨by simpa using (h2 s hs).1, (h2 s hs).2⟩
  rw [tokenize_joinBlank words_printInt, tokenize_joinBlank words_formatE, tokenize_joinBlank (words_string h2'), List.map_map,
    List.map_map, List.map_map]
  refine ⟨?_, rfl, ?_⟩
  · conv_rhs => rw [← List.map_id iv]
    exact List.map_congr_left fun n hn => int_roundtrip n (h1 n hn).1 (h1 n hn).2
  · conv_rhs => rw [← List.map_id sv]
    exact List.map_congr_left fun s _ => str_toList s

/-- What the tokens of any text are: they are not empty, have no blank, and hold all other characters in order. -/
theorem tokens_of_any (del : Char) (v : Text) :
    (∀ t ∈ tokenize del v, t ≠ [] ∧ del ∉ t) ∧ (tokenize del v).flatten = v.filter (· ≠ del) := by
  have key : ∀ (w : Text) (t : Tokenizer), (t.last ≠ del → t.tokens ≠ []) → (∀ x ∈ t.tokens, x ≠ [] ∧ del ∉ x) →
      (∀ x ∈ (w.foldl (Tokenizer.step del) t).tokens, x ≠ [] ∧ del ∉ x)
      ∧ (w.foldl (Tokenizer.step del) t).tokens.flatten = t.tokens.flatten ++ w.filter (· ≠ del) := by
    intro w
    induction w with
    | nil => intro t _ h; simpa using h
    | cons c w ih =>
      intro t h1 h2
      rw [List.foldl_cons]
      by_cases hc : c = del
      · have e : Tokenizer.step del t c = ⟨t.tokens, c⟩ := by simp [Tokenizer.step, hc]
        rw [e]
        have := ih ⟨t.tokens, c⟩ (fun h => absurd hc h) h2
        refine ⟨this.1, this.2.trans ?_⟩
        simp [hc]
      · by_cases hl : t.last = del
        · have e : Tokenizer.step del t c = ⟨t.tokens ++ [[c]], c⟩ := by
            have := appendBack_append t.tokens [] c
            simp only [List.nil_append] at this
            simp [Tokenizer.step, hc, hl, this]
          rw [e]
          have := ih ⟨t.tokens ++ [[c]], c⟩ (fun _ => by simp) (by
            intro x hx
            rcases List.mem_append.1 hx with h | h
            · exact h2 x h
            · simp only [List.mem_singleton] at h
              subst h
              simpa using Ne.symm hc)
          refine ⟨this.1, this.2.trans ?_⟩
          simp [hc]
        · have hne := h1 hl
          obtain ⟨ts, x, hx⟩ : ∃ ts x, t.tokens = ts ++ [x] :=
            ⟨_, _, (List.dropLast_append_getLast hne).symm⟩
          have e : Tokenizer.step del t c = ⟨ts ++ [x ++ [c]], c⟩ := by
            simp [Tokenizer.step, hc, hl, hx, appendBack_append]
          rw [e]
          have hx2 := h2 x (by simp [hx])
          have := ih ⟨ts ++ [x ++ [c]], c⟩ (fun _ => by simp) (by
            intro y hy
            rcases List.mem_append.1 hy with h | h
            · exact h2 y (by simp [hx, h])
            · simp only [List.mem_singleton] at h
              subst h
              refine ⟨by simp, ?_⟩
              simp only [List.mem_append, List.mem_singleton, not_or]
              exact ⟨hx2.2, Ne.symm hc⟩)
          refine ⟨this.1, this.2.trans ?_⟩
          simp [hc, hx]
  have := key v ⟨[], del⟩ (by simp) (by simp)
  exact ⟨this.1, by simpa [tokenize] using this.2⟩

/-- The hypotheses are met. -/
example : tokenize ' ' "  12 -3   x ".toList = ["12".toList, "-3".toList, "x".toList] := by decide +kernel

/-! ### C53: named parameters -/

/-- The parameters that can be written: integers of 32 bits, strings of one word, vectors that are not empty. -/
structure Storable (p : Params ℚ) : Prop where
  int : ∀ k v, p.getIntVal k = .ok v → -2 ^ 31 ≤ v ∧ v < 2 ^ 31
  string : ∀ k v, p.getStringVal k = .ok v → v ≠ "" ∧ ' ' ∉ v.toList
  intVec : ∀ k v, p.getIntVals k = .ok v → v ≠ [] ∧ ∀ n ∈ v, -2 ^ 31 ≤ n ∧ n < 2 ^ 31
  doubleVec : ∀ k v, p.getDoubleVals k = .ok v → v ≠ []
  stringVec : ∀ k v, p.getStringVals k = .ok v → v ≠ [] ∧ ∀ s ∈ v, s ≠ "" ∧ ' ' ∉ s.toList

/-- All getters and key lists return the same, with every number replaced by `r x`. -/
structure SameParams (r : ℚ → ℚ) (p q : Params ℚ) : Prop where
  int : ∀ k, q.getIntVal k = p.getIntVal k
  double : ∀ k, q.getDoubleVal k = r <$> p.getDoubleVal k
  string : ∀ k, q.getStringVal k = p.getStringVal k
  intVec : ∀ k, q.getIntVals k = p.getIntVals k
  doubleVec : ∀ k, q.getDoubleVals k = List.map r <$> p.getDoubleVals k
  stringVec : ∀ k, q.getStringVals k = p.getStringVals k
  intKeys : q.getIntKeys.intKeys = p.getIntKeys.intKeys
  doubleKeys : q.getDoubleKeys.doubleKeys = p.getDoubleKeys.doubleKeys
  stringKeys : q.getStringKeys.stringKeys = p.getStringKeys.stringKeys
  intVecKeys : q.getIntVecKeys.intVecKeys = p.getIntVecKeys.intVecKeys
  doubleVecKeys : q.getDoubleVecKeys.doubleVecKeys = p.getDoubleVecKeys.doubleVecKeys
  stringVecKeys : q.getStringVecKeys.stringVecKeys = p.getStringVecKeys.stringVecKeys

theorem lookup_of_mem {α : Type} {m : SMap String α} (hs : SMap.Sorted m) {e : String × α} (he : e ∈ m) :
    Params.lookup e.1 m = .ok e.2 := by
  rw [Params.lookup, SMap.find?_of_mem hs he]

theorem writable_of_storable {p : Params ℚ} (hi : Params.Inv p) (h : Storable p) : Writable p where
  ints e he := h.int e.1 e.2 (lookup_of_mem hi.i he)
  strings e he := by
    have := h.string e.1 e.2 (lookup_of_mem hi.s he)
    exact ⟨by simpa using this.1, this.2⟩
  intVecs e he := h.intVec e.1 e.2 (lookup_of_mem hi.iv he)
  doubleVecs e he := h.doubleVec e.1 e.2 (lookup_of_mem hi.dv he)
  stringVecs e he := by
    have := h.stringVec e.1 e.2 (lookup_of_mem hi.sv he)
    exact ⟨this.1, fun v hv => ⟨by simpa using (this.2 v hv).1, (this.2 v hv).2⟩⟩

theorem same_readBack (p : Params ℚ) : SameParams r10 p (readBack p) where
  int _ := rfl
  double k := lookup_map r10 p.doubleMap k
  string _ := rfl
  intVec _ := rfl
  doubleVec k := lookup_map (List.map r10) p.doubleVecMap k
  stringVec _ := rfl
  intKeys := by simp [Params.getIntKeys, Params.refill_eq, readBack]
  doubleKeys := by simp [Params.getDoubleKeys, Params.refill_eq, readBack, SMap.keys, Function.comp_def]
  stringKeys := by simp [Params.getStringKeys, Params.refill_eq, readBack]
  intVecKeys := by simp [Params.getIntVecKeys, Params.refill_eq, readBack]
  doubleVecKeys := by simp [Params.getDoubleVecKeys, Params.refill_eq, readBack, SMap.keys, Function.comp_def]
  stringVecKeys := by simp [Params.getStringVecKeys, Params.refill_eq, readBack]

/-- The number read back is the number written, if that has ten digits, and close to it otherwise. -/
theorem r10_close (x : ℚ) : |r10 x - x| ≤ 5 / 10 ^ 10 * |x| ∧ ∀ (n k : ℤ), |n| < 10 ^ 10 → x = n * 10 ^ k → r10 x = x :=
  ⟨double_error x, fun n k hn hx => double_exact x n k hn hx⟩

/-- C53, for parameters that can be written: after every history of calls, writing succeeds, and reading what was written gives
the same parameters. What is missing: strings with blanks, empty strings and empty vectors, for which it is false. -/
theorem params_roundtrip_partial (h : List (Params.Op ℚ)) (hp : Storable (Params.run h)) :
    ∃ n q, paramsToXML (Params.run h) = .ok n ∧ setParametersFromXML n {} = .ok q ∧ SameParams r10 (Params.run h) q := by
  have hi := Params.inv_run h
  refine ⟨el "detector" [] (paramsNodes (Params.run h)), readBack (Params.run h), ?_, ?_, same_readBack _⟩
  · rw [paramsToXML, getXMLForParameters_eq hi]; rfl
  · have := setParametersFromXML_el hi (writable_of_storable hi hp) "detector" [] (pre := []) (post := []) (by simp) (by simp)
    simpa using this

/-- The same through a file, for parameters whose names and strings have no reference to a character. -/
theorem params_file_roundtrip_partial (h : List (Params.Op ℚ)) (hp : Storable (Params.run h)) (hr : NoReferences (Params.run h)) :
    ∃ n q, paramsToXML (Params.run h) = .ok n ∧ loadFile (printDocument [n]) = .ok (true, [n])
      ∧ setParametersFromXML n {} = .ok q ∧ SameParams r10 (Params.run h) q := by
  have hi := Params.inv_run h
  refine ⟨el "detector" [] (paramsNodes (Params.run h)), readBack (Params.run h), ?_, ?_, ?_, same_readBack _⟩
  · rw [paramsToXML, getXMLForParameters_eq hi]; rfl
  · refine document_roundtrip_partial _ ⟨?_, trivial⟩ (by simp [el, Node.isText]) (by simp)
    exact wellFormed_el (by decide +kernel) (by simp) (by simp) (by simp)
      fun c hc => ⟨wellFormed_paramsNodes hr c hc, (paramsNodes_value c hc).2⟩
  · have := setParametersFromXML_el hi (writable_of_storable hi hp) "detector" [] (pre := []) (post := []) (by simp) (by simp)
    simpa using this

/-- A parameter collection with all types. -/
def sampleOps : List (Params.Op ℚ) :=
  [.setInt "n" (-5), .setDouble "r" (1 / 3), .setString "name" "tpc", .setInts "ids" [1, 2], .setDoubles "zs" [1 / 2, 7],
    .setStrings "mats" ["Si", "Fe"]]

theorem storable_sampleOps : Storable (Params.run sampleOps) := by
  have i : (Params.run sampleOps).intMap = [("n", -5)] := by decide +kernel
  have s : (Params.run sampleOps).stringMap = [("name", "tpc")] := by decide +kernel
  have iv : (Params.run sampleOps).intVecMap = [("ids", [1, 2])] := by decide +kernel
  have dv : (Params.run sampleOps).doubleVecMap = [("zs", [1 / 2, 7])] := by decide +kernel
  have sv : (Params.run sampleOps).stringVecMap = [("mats", ["Si", "Fe"])] := by decide +kernel
  have one : ∀ {α : Type} {k k' : String} {v w : α}, Params.lookup k [(k', w)] = .ok v → v = w := by
    intro α k k' v w h
    unfold Params.lookup SMap.find? at h
    split at h
    · cases h
    · rename_i u hu
      split_ifs at hu
      · cases h; cases hu; rfl
      · cases hu
  constructor
  · intro k v h; rw [Params.getIntVal, i] at h; cases one h; decide
  · intro k v h; rw [Params.getStringVal, s] at h; cases one h; decide +kernel
  · intro k v h; rw [Params.getIntVals, iv] at h; cases one h; decide
  · intro k v h; rw [Params.getDoubleVals, dv] at h; cases one h; simp
  · intro k v h; rw [Params.getStringVals, sv] at h; cases one h; decide +kernel

/-- C53 is false: a string with a blank is cut after the first word, an empty string and an empty vector are lost. -/
theorem params_false :
    (∃ n q, paramsToXML (Params.run [.setString "s" "barrel part"]) = .ok n ∧ setParametersFromXML n {} = .ok q
      ∧ q.getStringVal "s" = .ok "barrel")
    ∧ (∃ n q, paramsToXML (Params.run [.setString "s" ""]) = .ok n ∧ setParametersFromXML n {} = .ok q
      ∧ q.getStringVal "s" = .throw (.unknownParameter "s"))
    ∧ (∃ n q, paramsToXML (Params.run [.setInts "v" []]) = .ok n ∧ setParametersFromXML n {} = .ok q
      ∧ q.getIntVals "v" = .throw (.unknownParameter "v"))
    ∧ (∃ n q, paramsToXML (Params.run [.setStrings "v" ["a b", "c"]]) = .ok n ∧ setParametersFromXML n {} = .ok q
      ∧ q.getStringVals "v" = .ok ["a", "b", "c"]) := by
  refine ⟨⟨_, { stringMap := [("s", "barrel")] }, rfl, ?_, ?_⟩, ⟨_, {}, rfl, ?_, ?_⟩, ⟨_, {}, rfl, ?_, ?_⟩,
    ⟨_, { stringVecMap := [("v", ["a", "b", "c"])] }, rfl, ?_, ?_⟩⟩ <;> decide +kernel

end Gear.Xml
