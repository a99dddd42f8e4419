/-
Lemmas on writing and reading named parameters.
-/
import Verif.XmlParams
import Verif.ParamsProps

set_option autoImplicit false
set_option linter.unusedSectionVars false

namespace Gear.Xml

open Spec

/-! ### The tokenizer -/

theorem appendBack_append (ts : List Text) (t : Text) (c : Char) : appendBack (ts ++ [t]) c = ts ++ [t ++ [c]] := by
  induction ts with
  | nil => rfl
  | cons a ts ih =>
    cases ts with
    | nil => rfl
    | cons b ts => simp only [List.cons_append, appendBack] at ih ⊢; rw [ih]

/-- Reading the rest of a token. -/
theorem step_word {del : Char} {w : Text} (hw : del ∉ w) (ts : List Text) (t : Text) {last : Char} (hl : last ≠ del) :
    ∃ l, l ≠ del ∧ w.foldl (Tokenizer.step del) ⟨ts ++ [t], last⟩ = ⟨ts ++ [t ++ w], l⟩ := by
  induction w generalizing t last with
  | nil => exact ⟨last, hl, by simp⟩
  | cons c w ih =>
    have hc : c ≠ del := fun h => hw (by simp [h])
    obtain ⟨l, h1, h2⟩ := ih (fun h => hw (by simp [h])) (t ++ [c]) hc
    refine ⟨l, h1, ?_⟩
    rw [List.foldl_cons]
    have : Tokenizer.step del ⟨ts ++ [t], last⟩ c = ⟨ts ++ [t ++ [c]], c⟩ := by
      simp [Tokenizer.step, hc, hl, appendBack_append]
    rw [this, h2]
    simp

/-- Reading a token after a delimiter. -/
theorem step_token {del : Char} {w : Text} (hne : w ≠ []) (hw : del ∉ w) (ts : List Text) :
    ∃ l, l ≠ del ∧ w.foldl (Tokenizer.step del) ⟨ts, del⟩ = ⟨ts ++ [w], l⟩ := by
  obtain ⟨c, w, rfl⟩ := List.exists_cons_of_ne_nil hne
  have hc : c ≠ del := fun h => hw (by simp [h])
  rw [List.foldl_cons]
  have : Tokenizer.step del ⟨ts, del⟩ c = ⟨ts ++ [[c]], c⟩ := by
    have := appendBack_append ts [] c
    simp only [List.nil_append] at this
    simp [Tokenizer.step, hc, this]
  rw [this]
  simpa using step_word (fun h => hw (by simp [h])) ts [c] hc

theorem foldl_joinBlank : ∀ (ws : List Text) (ts : List Text), (∀ w ∈ ws, w ≠ [] ∧ ' ' ∉ w) →
    ((joinBlank ws).foldl (Tokenizer.step ' ') ⟨ts, ' '⟩).tokens = ts ++ ws
  | [], ts, _ => by simp [joinBlank]
  | [w], ts, h => by
    obtain ⟨l, -, h2⟩ := step_token (h w (by simp)).1 (h w (by simp)).2 ts
    simp [joinBlank, h2]
  | w :: v :: ws, ts, h => by
    obtain ⟨l, h1, h2⟩ := step_token (h w (by simp)).1 (h w (by simp)).2 ts
    have := foldl_joinBlank (v :: ws) (ts ++ [w]) fun x hx => h x (by simp [hx])
    rw [joinBlank, List.foldl_append, h2, List.foldl_cons]
    have hs : Tokenizer.step ' ' ⟨ts ++ [w], l⟩ ' ' = ⟨ts ++ [w], ' '⟩ := by simp [Tokenizer.step]
    rw [hs, this]
    simp
    simp

theorem tokenize_joinBlank {ws : List Text} (h : ∀ w ∈ ws, w ≠ [] ∧ ' ' ∉ w) : tokenize ' ' (joinBlank ws) = ws := by
  have := foldl_joinBlank ws [] h
  simpa [tokenize] using this

theorem tokenize_single {w : Text} (h : w ≠ []) (h' : ' ' ∉ w) : tokenize ' ' w = [w] :=
  tokenize_joinBlank (ws := [w]) (by simpa using ⟨h, h'⟩)

/-! ### Maps -/

theorem mapM_ok {α β : Type} (f : α → Res β) (g : α → β) {l : List α} (h : ∀ a ∈ l, f a = .ok (g a)) :
    l.mapM f = .ok (l.map g) := by
  induction l with
  | nil => rfl
  | cons a l ih =>
    rw [List.mapM_cons, h a (by simp), ih fun b hb => h b (by simp [hb])]
    rfl

theorem paramNodes_eq {α : Type} {m : SMap String α} (hs : SMap.Sorted m) (type : String) (text : α → Text) :
    paramNodes (SMap.keys m) (fun k => Params.lookup k m) type text
      = .ok (m.map fun e => paramNode e.1 type (text e.2)) := by
  unfold paramNodes
  have : ∀ l : SMap String α, (∀ e ∈ l, SMap.find? e.1 m = some e.2) →
      (SMap.keys l).mapM (fun k => do
        let v ← Params.lookup k m
        Res.ok (paramNode k type (text v))) = Res.ok (l.map fun e => paramNode e.1 type (text e.2)) := by
    intro l hl
    induction l with
    | nil => rfl
    | cons e l ih =>
      have h1 : Params.lookup e.1 m = .ok e.2 := by rw [Params.lookup, hl e (by simp)]
      have ih := ih fun e' he' => hl e' (by simp [he'])
      show ((e.1 :: SMap.keys l).mapM _) = _
      rw [List.mapM_cons, h1, ih]
      rfl
  exact this m fun e he => SMap.find?_of_mem hs he

theorem set_last {α : Type} {m : SMap String α} {k : String} {v : α} (h : ∀ k' ∈ SMap.keys m, k' < k) :
    SMap.set k v m = m ++ [(k, v)] := by
  induction m with
  | nil => rfl
  | cons e m ih =>
    obtain ⟨k', v'⟩ := e
    have h1 : k' < k := h k' (by simp [SMap.keys])
    rw [SMap.set, if_neg h1.ne', if_neg (lt_asymm h1), ih fun k'' hk => h k'' (by simp [SMap.keys] at hk ⊢; exact .inr hk)]
    rfl

/-- Setting the entries of a map one after the other gives the map. -/
theorem foldl_set {α β : Type} (f : α → β) {m : SMap String α} (hs : SMap.Sorted m) :
    m.foldl (fun acc e => SMap.set e.1 (f e.2) acc) [] = m.map fun e => (e.1, f e.2) := by
  have key : ∀ (l : SMap String α) (acc : SMap String β), (∀ k ∈ SMap.keys acc, ∀ k' ∈ SMap.keys l, k < k') → SMap.Sorted l →
      l.foldl (fun acc e => SMap.set e.1 (f e.2) acc) acc = acc ++ l.map fun e => (e.1, f e.2) := by
    intro l
    induction l with
    | nil => simp
    | cons e l ih =>
      intro acc h hl
      have hl' : (∀ k' ∈ SMap.keys l, e.1 < k') ∧ SMap.Sorted l := by
        simpa [SMap.Sorted, SMap.keys, List.pairwise_cons] using hl
      rw [List.foldl_cons, set_last fun k hk => h k hk e.1 (by simp [SMap.keys]), ih]
      · simp
      · intro k hk k' hk'
        simp only [SMap.keys, List.map_append, List.mem_append, List.map_cons, List.map_nil, List.mem_singleton] at hk
        rcases hk with hk | rfl
        · exact h k hk k' (by simp only [SMap.keys, List.map_cons, List.mem_cons]; exact .inr hk')
        · exact hl'.1 k' hk'
      · exact hl'.2
  simpa using key m [] (by simp [SMap.keys]) hs

theorem lookup_map {α β : Type} (f : α → β) (m : SMap String α) (k : String) :
    Params.lookup k (m.map fun e => (e.1, f e.2)) = f <$> Params.lookup k m := by
  have : SMap.find? k (m.map fun e => (e.1, f e.2)) = (SMap.find? k m).map f := by
    induction m with
    | nil => rfl
    | cons e m ih =>
      simp only [List.map_cons, SMap.find?]
      split_ifs
      · rfl
      · exact ih
  unfold Params.lookup
  rw [this]
  cases SMap.find? k m <;> rfl

/-! ### One type at a time -/

theorem paramValue_paramNode (k type : String) (v : Text) : paramValue (paramNode k type v) = v := by
  simp [paramValue, paramNode, getXMLAttribute, find]

theorem readParam_paramNode (p : Params ℚ) (k type : String) (v t : Text) (ts : List Text) (h : tokenize ' ' v = t :: ts) :
    readParam p (paramNode k type v) =
      (if type = "int" then .ok (p.setIntVal k (atoi t))
      else if type = "double" then .ok (p.setDoubleVal k (atof t))
      else if type = "string" then .ok (p.setStringVal k (str t))
      else if type = "IntVec" then .ok (p.setIntVals k ((t :: ts).map atoi))
      else if type = "DoubleVec" then .ok (p.setDoubleVals k ((t :: ts).map atof))
      else if type = "StringVec" then .ok (p.setStringVals k ((t :: ts).map str))
      else .ok p) := by
  unfold readParam
  rw [paramValue_paramNode, h]
  have h1 : getXMLAttribute (paramNode k type v) "name" = .ok k.toList := by
    simp [paramNode, getXMLAttribute, find]
  have h2 : getXMLAttribute (paramNode k type v) "type" = .ok type.toList := by
    simp [paramNode, getXMLAttribute, find]
  simp only [h1, h2, Res.bind_ok, String.toList_inj, str_toList]

theorem named_append (nm : Text) (l₁ l₂ : List Node) :
    (l₁ ++ l₂).filter (fun c : Node => c.value = nm) = l₁.filter (fun c => c.value = nm) ++ l₂.filter (fun c => c.value = nm) :=
  List.filter_append ..

theorem filter_paramNodes {α : Type} (m : List (String × α)) (type : String) (text : α → Text) :
    (m.map fun e => paramNode e.1 type (text e.2)).filter (fun c => c.value = "parameter".toList)
      = m.map fun e => paramNode e.1 type (text e.2) := by
  rw [List.filter_eq_self]
  intro n hn
  obtain ⟨e, -, rfl⟩ := List.mem_map.1 hn
  simp [paramNode]

theorem foldlM_ok {α β : Type} (f : α → β → Res α) (g : α → β → α) {l : List β} (h : ∀ a, ∀ b ∈ l, f a b = .ok (g a b)) (a : α) :
    l.foldlM f a = .ok (l.foldl g a) := by
  induction l generalizing a with
  | nil => rfl
  | cons b l ih =>
    rw [List.foldlM_cons, h a b (by simp), Res.bind_ok, ih fun a c hc => h a c (by simp [hc])]
    rfl

theorem wellFormed_paramNode {k type : String} {v : Text} (hk : NoReference k.toList) (ht : NoReference type.toList)
    (hv : NoReference v) : WellFormed (paramNode k type v) := by
  refine wellFormed_el (by decide +kernel) (by simp only [List.forall_mem_cons, List.not_mem_nil, false_imp_iff, implies_true, and_true]; decide +kernel) ?_ (by simp) (by simp)
  intro a ha
  simp only [List.mem_cons, List.not_mem_nil, or_false] at ha
  rcases ha with rfl | rfl | rfl
  · exact hk
  · exact ht
  · exact hv

/-! ### All parameters -/

/-- A number as it is read after it was written. -/
def r10 (x : ℚ) : ℚ := atof (formatE x)

/-- The parameters as they are read after they were written. -/
def readBack (p : Params ℚ) : Params ℚ :=
  { intMap := p.intMap
    doubleMap := p.doubleMap.map fun e => (e.1, r10 e.2)
    stringMap := p.stringMap
    intVecMap := p.intVecMap
    doubleVecMap := p.doubleVecMap.map fun e => (e.1, e.2.map r10)
    stringVecMap := p.stringVecMap }

/-- An integer of 32 bits. -/
def IsInt (v : ℤ) : Prop := -2 ^ 31 ≤ v ∧ v < 2 ^ 31

/-- One word. -/
def IsWord (s : String) : Prop := s.toList ≠ [] ∧ ' ' ∉ s.toList

/-- The parameters for which reading gives what was written, in terms of the maps. -/
structure Writable (p : Params ℚ) : Prop where
  ints : ∀ e ∈ p.intMap, IsInt e.2
  strings : ∀ e ∈ p.stringMap, IsWord e.2
  intVecs : ∀ e ∈ p.intVecMap, e.2 ≠ [] ∧ ∀ v ∈ e.2, IsInt v
  doubleVecs : ∀ e ∈ p.doubleVecMap, e.2 ≠ []
  stringVecs : ∀ e ∈ p.stringVecMap, e.2 ≠ [] ∧ ∀ v ∈ e.2, IsWord v

/-- The children written. -/
def paramsNodes (p : Params ℚ) : List Node :=
  (p.intMap.map fun e => paramNode e.1 "int" (printInt e.2))
  ++ (p.doubleMap.map fun e => paramNode e.1 "double" (formatE e.2))
  ++ (p.stringMap.map fun e => paramNode e.1 "string" e.2.toList)
  ++ (p.intVecMap.map fun e => paramNode e.1 "IntVec" (joinBlank (e.2.map printInt)))
  ++ (p.doubleVecMap.map fun e => paramNode e.1 "DoubleVec" (joinBlank (e.2.map formatE)))
  ++ (p.stringVecMap.map fun e => paramNode e.1 "StringVec" (joinBlank (e.2.map String.toList)))

theorem getXMLForParameters_eq {p : Params ℚ} (h : Params.Inv p) : getXMLForParameters p = .ok (paramsNodes p) := by
  unfold getXMLForParameters Params.getIntVal Params.getDoubleVal Params.getStringVal Params.getIntVals Params.getDoubleVals
    Params.getStringVals Params.getIntKeys Params.getDoubleKeys Params.getStringKeys Params.getIntVecKeys Params.getDoubleVecKeys
    Params.getStringVecKeys
  simp only [Params.refill_eq]
  rw [paramNodes_eq h.i, paramNodes_eq h.d, paramNodes_eq h.s, paramNodes_eq h.iv, paramNodes_eq h.dv, paramNodes_eq h.sv]
  rfl

theorem paramsNodes_value {p : Params ℚ} : ∀ n ∈ paramsNodes p, n.value = "parameter".toList ∧ n.isText = false := by
  intro n hn
  simp only [paramsNodes, List.mem_append, List.mem_map] at hn
  rcases hn with ((((⟨e, _, rfl⟩ | ⟨e, _, rfl⟩) | ⟨e, _, rfl⟩) | ⟨e, _, rfl⟩) | ⟨e, _, rfl⟩) | ⟨e, _, rfl⟩ <;>
    exact ⟨rfl, rfl⟩

theorem words_printInt {v : List ℤ} : ∀ w ∈ v.map printInt, w ≠ [] ∧ ' ' ∉ w := by
  intro w hw
  obtain ⟨n, _, rfl⟩ := List.mem_map.1 hw
  exact ⟨(printInt_noBlank n).2.2, (printInt_noBlank n).1⟩

theorem words_formatE {v : List ℚ} : ∀ w ∈ v.map formatE, w ≠ [] ∧ ' ' ∉ w := by
  intro w hw
  obtain ⟨n, _, rfl⟩ := List.mem_map.1 hw
  exact ⟨(formatE_noBlank n).2.2, (formatE_noBlank n).1⟩

theorem words_string {v : List String} (h : ∀ s ∈ v, IsWord s) : ∀ w ∈ v.map String.toList, w ≠ [] ∧ ' ' ∉ w := by
  intro w hw
  obtain ⟨n, hn, rfl⟩ := List.mem_map.1 hw
  exact h n hn

theorem foldlM_map {α β γ : Type} (f : α → γ → Res α) (g : β → γ) (l : List β) (a : α) :
    (l.map g).foldlM f a = l.foldlM (fun a b => f a (g b)) a := by
  induction l generalizing a with
  | nil => rfl
  | cons b l ih =>
    rw [List.map_cons, List.foldlM_cons, List.foldlM_cons]
    cases f a (g b) with
    | ok a' => exact ih a'
    | throw e => rfl
    | ub => rfl

theorem read_ints {m : SMap String ℤ} (hs : SMap.Sorted m) (h : ∀ e ∈ m, IsInt e.2) {p : Params ℚ} (hp : p.intMap = []) :
    (m.map fun e => paramNode e.1 "int" (printInt e.2)).foldlM readParam p
      = .ok { p with intMap := m.map fun e => (e.1, e.2) } := by
  rw [foldlM_map, foldlM_ok _ fun a e => a.setIntVal e.1 (e.2)]
  · have key : ∀ (l : SMap String ℤ) (q : Params ℚ), l.foldl (fun a e => a.setIntVal e.1 (e.2)) q
        = { q with intMap := l.foldl (fun acc e => SMap.set e.1 (e.2) acc) q.intMap } := by
      intro l
      induction l with
      | nil => intro q; rfl
      | cons e l ih => intro q; rw [List.foldl_cons, ih]; rfl
    rw [key, hp]
    have := foldl_set id hs
    exact congrArg (fun x => Res.ok { p with intMap := x }) this
  · intro a e he
    rw [readParam_paramNode _ _ _ _ _ _ (tokenize_single (printInt_noBlank e.2).2.2 (printInt_noBlank e.2).1),
      int_roundtrip e.2 (h e he).1 (h e he).2]
    rfl

theorem read_doubles {m : SMap String ℚ} (hs : SMap.Sorted m) (h : ∀ e ∈ m, True) {p : Params ℚ} (hp : p.doubleMap = []) :
    (m.map fun e => paramNode e.1 "double" (formatE e.2)).foldlM readParam p
      = .ok { p with doubleMap := m.map fun e => (e.1, r10 e.2) } := by
  rw [foldlM_map, foldlM_ok _ fun a e => a.setDoubleVal e.1 (r10 e.2)]
  · have key : ∀ (l : SMap String ℚ) (q : Params ℚ), l.foldl (fun a e => a.setDoubleVal e.1 (r10 e.2)) q
        = { q with doubleMap := l.foldl (fun acc e => SMap.set e.1 (r10 e.2) acc) q.doubleMap } := by
      intro l
      induction l with
      | nil => intro q; rfl
      | cons e l ih => intro q; rw [List.foldl_cons, ih]; rfl
    rw [key, hp]
    have := foldl_set r10 hs
    exact congrArg (fun x => Res.ok { p with doubleMap := x }) this
  · intro a e he
    rw [readParam_paramNode _ _ _ _ _ _ (tokenize_single (formatE_noBlank e.2).2.2 (formatE_noBlank e.2).1)]
    rfl

theorem read_strings {m : SMap String String} (hs : SMap.Sorted m) (h : ∀ e ∈ m, IsWord e.2) {p : Params ℚ} (hp : p.stringMap = []) :
    (m.map fun e => paramNode e.1 "string" (e.2.toList)).foldlM readParam p
      = .ok { p with stringMap := m.map fun e => (e.1, e.2) } := by
  rw [foldlM_map, foldlM_ok _ fun a e => a.setStringVal e.1 (e.2)]
  · have key : ∀ (l : SMap String String) (q : Params ℚ), l.foldl (fun a e => a.setStringVal e.1 (e.2)) q
        = { q with stringMap := l.foldl (fun acc e => SMap.set e.1 (e.2) acc) q.stringMap } := by
      intro l
      induction l with
      | nil => intro q; rfl
      | cons e l ih => intro q; rw [List.foldl_cons, ih]; rfl
    rw [key, hp]
    have := foldl_set id hs
    exact congrArg (fun x => Res.ok { p with stringMap := x }) this
  · intro a e he
    rw [readParam_paramNode _ _ _ _ _ _ (tokenize_single (h e he).1 (h e he).2), str_toList]
    rfl

theorem read_intVecs {m : SMap String (List ℤ)} (hs : SMap.Sorted m) (h : ∀ e ∈ m, (e.2 ≠ [] ∧ ∀ v ∈ e.2, IsInt v)) {p : Params ℚ} (hp : p.intVecMap = []) :
    (m.map fun e => paramNode e.1 "IntVec" (joinBlank (e.2.map printInt))).foldlM readParam p
      = .ok { p with intVecMap := m.map fun e => (e.1, e.2) } := by
  rw [foldlM_map, foldlM_ok _ fun a e => a.setIntVals e.1 (e.2)]
  · have key : ∀ (l : SMap String (List ℤ)) (q : Params ℚ), l.foldl (fun a e => a.setIntVals e.1 (e.2)) q
        = { q with intVecMap := l.foldl (fun acc e => SMap.set e.1 (e.2) acc) q.intVecMap } := by
      intro l
      induction l with
      | nil => intro q; rfl
      | cons e l ih => intro q; rw [List.foldl_cons, ih]; rfl
    rw [key, hp]
    have := foldl_set id hs
    exact congrArg (fun x => Res.ok { p with intVecMap := x }) this
  · intro a e he
    obtain ⟨k, v⟩ := e
    obtain ⟨h1, h2⟩ := h (k, v) he
    cases v with
    | nil => exact absurd rfl h1
    | cons x v =>
      have tk : tokenize ' ' (joinBlank ((x :: v).map printInt)) = printInt x :: v.map printInt :=
        tokenize_joinBlank (ws := (x :: v).map printInt) words_printInt
      refine (readParam_paramNode _ _ _ _ _ _ tk).trans ?_
      have : ((x :: v).map printInt).map atoi = x :: v := by
        rw [List.map_map]
        conv_rhs => rw [← List.map_id (x :: v)]
        exact List.map_congr_left fun n hn => int_roundtrip n (h2 n hn).1 (h2 n hn).2
      rw [List.map_cons] at this
      rw [this]
      rfl

theorem read_doubleVecs {m : SMap String (List ℚ)} (hs : SMap.Sorted m) (h : ∀ e ∈ m, e.2 ≠ []) {p : Params ℚ} (hp : p.doubleVecMap = []) :
    (m.map fun e => paramNode e.1 "DoubleVec" (joinBlank (e.2.map formatE))).foldlM readParam p
      = .ok { p with doubleVecMap := m.map fun e => (e.1, e.2.map r10) } := by
  rw [foldlM_map, foldlM_ok _ fun a e => a.setDoubleVals e.1 (e.2.map r10)]
  · have key : ∀ (l : SMap String (List ℚ)) (q : Params ℚ), l.foldl (fun a e => a.setDoubleVals e.1 (e.2.map r10)) q
        = { q with doubleVecMap := l.foldl (fun acc e => SMap.set e.1 (e.2.map r10) acc) q.doubleVecMap } := by
      intro l
      induction l with
      | nil => intro q; rfl
      | cons e l ih => intro q; rw [List.foldl_cons, ih]; rfl
    rw [key, hp]
    have := foldl_set (List.map r10) hs
    exact congrArg (fun x => Res.ok { p with doubleVecMap := x }) this
  · intro a e he
    obtain ⟨k, v⟩ := e
    have h1 := h (k, v) he
    cases v with
    | nil => exact absurd rfl h1
    | cons x v =>
      have tk : tokenize ' ' (joinBlank ((x :: v).map formatE)) = formatE x :: v.map formatE :=
        tokenize_joinBlank (ws := (x :: v).map formatE) words_formatE
      refine (readParam_paramNode _ _ _ _ _ _ tk).trans ?_
      have : ((x :: v).map formatE).map atof = (x :: v).map r10 := List.map_map
      rw [List.map_cons] at this
      rw [this]
      rfl

theorem read_stringVecs {m : SMap String (List String)} (hs : SMap.Sorted m) (h : ∀ e ∈ m, (e.2 ≠ [] ∧ ∀ v ∈ e.2, IsWord v)) {p : Params ℚ} (hp : p.stringVecMap = []) :
    (m.map fun e => paramNode e.1 "StringVec" (joinBlank (e.2.map String.toList))).foldlM readParam p
      = .ok { p with stringVecMap := m.map fun e => (e.1, e.2) } := by
  rw [foldlM_map, foldlM_ok _ fun a e => a.setStringVals e.1 (e.2)]
  · have key : ∀ (l : SMap String (List String)) (q : Params ℚ), l.foldl (fun a e => a.setStringVals e.1 (e.2)) q
        = { q with stringVecMap := l.foldl (fun acc e => SMap.set e.1 (e.2) acc) q.stringVecMap } := by
      intro l
      induction l with
      | nil => intro q; rfl
      | cons e l ih => intro q; rw [List.foldl_cons, ih]; rfl
    rw [key, hp]
    have := foldl_set id hs
    exact congrArg (fun x => Res.ok { p with stringVecMap := x }) this
  · intro a e he
    obtain ⟨k, v⟩ := e
    obtain ⟨h1, h2⟩ := h (k, v) he
    cases v with
    | nil => exact absurd rfl h1
    | cons x v =>
      have tk : tokenize ' ' (joinBlank ((x :: v).map String.toList)) = String.toList x :: v.map String.toList :=
        tokenize_joinBlank (ws := (x :: v).map String.toList) (words_string h2)
      refine (readParam_paramNode _ _ _ _ _ _ tk).trans ?_
      have : ((x :: v).map String.toList).map str = x :: v := by
        rw [List.map_map]
        conv_rhs => rw [← List.map_id (x :: v)]
        exact List.map_congr_left fun n _ => str_toList n
      rw [List.map_cons] at this
      rw [this]
      rfl

/-- Reading the children written gives the parameters. -/
theorem read_paramsNodes {p : Params ℚ} (hi : Params.Inv p) (h : Writable p) :
    (paramsNodes p).foldlM readParam {} = .ok (readBack p) := by
  unfold paramsNodes
  simp only [List.foldlM_append]
  rw [read_ints hi.i h.ints rfl, Res.bind_ok, read_doubles hi.d (fun _ _ => trivial) rfl, Res.bind_ok,
    read_strings hi.s h.strings rfl, Res.bind_ok, read_intVecs hi.iv h.intVecs rfl, Res.bind_ok,
    read_doubleVecs hi.dv h.doubleVecs rfl, Res.bind_ok, read_stringVecs hi.sv h.stringVecs rfl]
  simp [readBack]

/-- Other children do not matter. -/
theorem setParametersFromXML_el {p : Params ℚ} (hi : Params.Inv p) (h : Writable p) (nm : String) (attrs : List (String × Text))
    {pre post : List Node} (h1 : ∀ c ∈ pre, c.value ≠ "parameter".toList) (h2 : ∀ c ∈ post, c.value ≠ "parameter".toList) :
    setParametersFromXML (el nm attrs (pre ++ paramsNodes p ++ post)) {} = .ok (readBack p) := by
  have h3 := fun c hc => (paramsNodes_value (p := p) c hc).1
  have : (el nm attrs (pre ++ paramsNodes p ++ post)).named "parameter" = paramsNodes p := by
    show (pre ++ paramsNodes p ++ post).filter (fun c => decide (c.value = "parameter".toList)) = _
    generalize "parameter".toList = nm at *
    have e1 : pre.filter (fun c => decide (c.value = nm)) = [] :=
      List.filter_eq_nil_iff.2 fun c hc hd => h1 c hc (of_decide_eq_true hd)
    have e2 : post.filter (fun c => decide (c.value = nm)) = [] :=
      List.filter_eq_nil_iff.2 fun c hc hd => h2 c hc (of_decide_eq_true hd)
    have e3 : (paramsNodes p).filter (fun c => decide (c.value = nm)) = paramsNodes p :=
      List.filter_eq_self.2 fun c hc => decide_eq_true (h3 c hc)
    rw [List.filter_append, List.filter_append, e1, e2, e3, List.nil_append, List.append_nil]
  rw [setParametersFromXML, this]
  exact read_paramsNodes hi h

/-- No reference to a character. -/
structure NoReferences (p : Params ℚ) : Prop where
  keys : ∀ k, k ∈ SMap.keys p.intMap ∨ k ∈ SMap.keys p.doubleMap ∨ k ∈ SMap.keys p.stringMap ∨ k ∈ SMap.keys p.intVecMap
    ∨ k ∈ SMap.keys p.doubleVecMap ∨ k ∈ SMap.keys p.stringVecMap → NoReference k.toList
  strings : ∀ e ∈ p.stringMap, NoReference e.2.toList
  stringVecs : ∀ e ∈ p.stringVecMap, NoReference (joinBlank (e.2.map String.toList))

theorem mem_joinBlank {c : Char} : ∀ {ws : List Text}, c ∈ joinBlank ws → c = ' ' ∨ ∃ w ∈ ws, c ∈ w
  | [], h => by simp [joinBlank] at h
  | [w], h => .inr ⟨w, by simp, h⟩
  | w :: v :: ws, h => by
    rw [joinBlank, List.mem_append, List.mem_cons] at h
    · rcases h with h | h | h
      · exact .inr ⟨w, by simp, h⟩
      · exact .inl h
      · rcases mem_joinBlank h with h | ⟨x, hx, h⟩
        · exact .inl h
        · exact .inr ⟨x, by simp [hx], h⟩
    · simp

theorem wellFormed_paramsNodes {p : Params ℚ} (h : NoReferences p) : ∀ n ∈ paramsNodes p, WellFormed n := by
  have mk : ∀ {α : Type} {m : SMap String α} {e : String × α}, e ∈ m → e.1 ∈ SMap.keys m := fun he => List.mem_map.2 ⟨_, he, rfl⟩
  intro n hn
  simp only [paramsNodes, List.mem_append, List.mem_map] at hn
  rcases hn with ((((⟨e, he, rfl⟩ | ⟨e, he, rfl⟩) | ⟨e, he, rfl⟩) | ⟨e, he, rfl⟩) | ⟨e, he, rfl⟩) | ⟨e, he, rfl⟩ <;>
    refine wellFormed_paramNode (h.keys _ (by simp [mk he])) (by decide +kernel) ?_
  · exact noReference_printInt _
  · exact noReference_formatE _
  · exact h.strings e he
  · refine noReference_of fun hm => ?_
    rcases mem_joinBlank hm with h | ⟨w, hw, h⟩
    · cases h
    · obtain ⟨v, _, rfl⟩ := List.mem_map.1 hw
      exact (printInt_noBlank v).2.1 h
  · refine noReference_of fun hm => ?_
    rcases mem_joinBlank hm with h | ⟨w, hw, h⟩
    · cases h
    · obtain ⟨v, _, rfl⟩ := List.mem_map.1 hw
      exact (formatE_noBlank v).2.1 h
  · exact h.stringVecs e he

end Gear.Xml
