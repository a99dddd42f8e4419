/-
The magnetic field and the materials in XML: C65.
-/
import Verif.XmlSimple

set_option autoImplicit false
set_option linter.unusedSectionVars false

namespace Gear.Xml

open Spec

/-- A text in the format of `formatE` is one number for the stream. -/
theorem streamRead_number {sg d1 d2 d3 : Text} {s3 : Char} (hs : sg = [] ∨ sg = ['-']) (h1 : ∀ c ∈ d1, isDigit c = true)
    (h1' : d1 ≠ []) (h2 : ∀ c ∈ d2, isDigit c = true) (h3 : ∀ c ∈ d3, isDigit c = true) (h3' : d3 ≠ []) (h4 : s3 = '-' ∨ s3 = '+') :
    streamRead (sg ++ (d1 ++ '.' :: (d2 ++ 'e' :: s3 :: d3)))
      = (atof (sg ++ (d1 ++ '.' :: (d2 ++ 'e' :: s3 :: d3))), []) := by
  have t1 := takeWhile_digits h1 ('.' :: (d2 ++ 'e' :: s3 :: d3)) (by rintro c r h; cases h; rfl)
  have t2 := takeWhile_digits h2 ('e' :: s3 :: d3) (by rintro c r h; cases h; rfl)
  have t3 := takeWhile_digits h3 [] (by rintro c r h; cases h)
  rw [List.append_nil] at t3
  obtain ⟨c, d1', rfl⟩ := List.exists_cons_of_ne_nil h1'
  have hc := isDigit_not (h1 c (by simp))
  have sp : (sg ++ (c :: d1' ++ '.' :: (d2 ++ 'e' :: s3 :: d3))).dropWhile isSpace
      = sg ++ (c :: d1' ++ '.' :: (d2 ++ 'e' :: s3 :: d3)) := by
    rcases hs with rfl | rfl
    · exact dropWhile_space hc.1 _
    · exact dropWhile_space (by decide) _
  have sc : scanSign (sg ++ (c :: d1' ++ '.' :: (d2 ++ 'e' :: s3 :: d3)))
      = (sg, c :: d1' ++ '.' :: (d2 ++ 'e' :: s3 :: d3)) := by
    rcases hs with rfl | rfl
    · generalize hr : ([] : Text) ++ (c :: d1' ++ '.' :: (d2 ++ 'e' :: s3 :: d3)) = t
      have hr' : t = c :: (d1' ++ '.' :: (d2 ++ 'e' :: s3 :: d3)) := hr.symm
      unfold scanSign
      split
      · exact absurd (List.cons.inj hr').1.symm hc.2.1
      · exact absurd (List.cons.inj hr').1.symm hc.2.2.1
      · rw [hr']; rfl
    · rfl
  have sf : scanFraction ('.' :: (d2 ++ 'e' :: s3 :: d3)) = ('.' :: d2, 'e' :: s3 :: d3) := by
    show ('.' :: (d2 ++ 'e' :: s3 :: d3).takeWhile isDigit, (d2 ++ 'e' :: s3 :: d3).dropWhile isDigit) = _
    rw [t2.1, t2.2]
  have sx : scanExponent ('e' :: s3 :: d3) = (true, 'e' :: s3 :: d3, []) := by
    have : scanSign (s3 :: d3) = ([s3], d3) := by rcases h4 with rfl | rfl <;> rfl
    simp [scanExponent, this, t3.1, t3.2, h3']
  unfold streamRead
  rw [sp, sc]
  simp only [t1.1, t1.2, sf, sx]
  rw [if_neg (by simp)]
  simp

theorem exponentText_shape (e : ℤ) : ∃ s d, exponentText e = s :: d ∧ (s = '-' ∨ s = '+') ∧ d ≠ [] ∧ ∀ c ∈ d, isDigit c = true := by
  unfold exponentText
  refine ⟨_, _, rfl, ?_, ?_, ?_⟩
  · split_ifs <;> simp
  · split_ifs
    · simp
    · exact natText_ne_nil _
  · intro c hc
    split_ifs at hc
    · rcases List.mem_cons.1 hc with rfl | h
      · rfl
      · exact natText_isDigit _ c h
    · exact natText_isDigit _ c hc

theorem streamRead_formatE (x : ℚ) : streamRead (formatE x) = (r10 x, []) := by
  have shape : ∃ sg d1 d2 d3 : Text, ∃ s3, formatE x = sg ++ (d1 ++ '.' :: (d2 ++ 'e' :: s3 :: d3)) ∧ (sg = [] ∨ sg = ['-'])
      ∧ (∀ c ∈ d1, isDigit c = true) ∧ d1 ≠ [] ∧ (∀ c ∈ d2, isDigit c = true) ∧ (∀ c ∈ d3, isDigit c = true) ∧ d3 ≠ []
      ∧ (s3 = '-' ∨ s3 = '+') := by
    unfold formatE
    by_cases hx : x = 0
    · rw [if_pos hx]
      obtain ⟨s, d, h1, h2, h3, h4⟩ := exponentText_shape 0
      refine ⟨[], ['0'], digitsOf 9 0, d, s, ?_, .inl rfl, by decide, by simp, digitsOf_isDigit _ _, h4, h3, h2⟩
      rw [h1]; rfl
    · rw [if_neg hx]
      obtain ⟨s, d, h1, h2, h3, h4⟩ := exponentText_shape (mantissa |x|).2
      refine ⟨if x < 0 then ['-'] else [], [digit ((mantissa |x|).1 / 10 ^ 9)], digitsOf 9 (mantissa |x|).1, d, s, ?_, ?_,
        by simpa using isDigit_digit _, by simp, digitsOf_isDigit _ _, h4, h3, h2⟩
      · simp only [h1]
        simp
      · split_ifs <;> simp
  obtain ⟨sg, d1, d2, d3, s3, e, h1, h2, h3, h4, h5, h6, h7⟩ := shape
  rw [r10, e]
  exact streamRead_number h1 h2 h3 h4 h5 h6 h7

/-! ### C65 -/

/-- The material with all numbers as they are read after they were written. -/
def Material.rounded (m : Material) : Material :=
  ⟨m.name, r10 m.a, r10 m.z, r10 m.density, r10 m.radLength, r10 m.intLength⟩

/-- C65, materials: reading a written material gives the same name and the same numbers, to ten digits. -/
theorem material_roundtrip (m : Material) : materialFromXML (materialToXML m) = .ok m.rounded := by
  have g : ∀ (attrs : List (String × Text)) (n : String) (v : Text), find attrs n = some v →
      getXMLAttribute (el "material" attrs []) n = .ok v := by
    intro attrs n v h
    rw [getXMLAttribute_el, h]
  unfold materialFromXML materialToXML
  rw [g _ "name" _ rfl, Res.bind_ok, g _ "A" _ rfl, Res.bind_ok, g _ "Z" _ rfl, Res.bind_ok, g _ "density" _ rfl, Res.bind_ok,
    g _ "radLength" _ rfl, Res.bind_ok, g _ "intLength" _ rfl, Res.bind_ok]
  simp only [streamRead_formatE, List.nil_append, str_toList]
  rfl

/-- C65, materials: those whose numbers have at most ten digits are read back unchanged. -/
theorem material_exact (m : Material) (h : TenDigits m.a ∧ TenDigits m.z ∧ TenDigits m.density ∧ TenDigits m.radLength
    ∧ TenDigits m.intLength) : materialFromXML (materialToXML m) = .ok m := by
  rw [material_roundtrip, Material.rounded, r10_eq h.1, r10_eq h.2.1, r10_eq h.2.2.1, r10_eq h.2.2.2.1, r10_eq h.2.2.2.2]

example : materialFromXML (materialToXML ⟨"air", 14.61, 7.3, 1.2, 304200, 747750⟩)
    = .ok ⟨"air", 14.61, 7.3, 1.2, 304200, 747750⟩ :=
  material_exact _ ⟨⟨1461, -2, by norm_num, by norm_num⟩, ⟨73, -1, by norm_num, by norm_num⟩, ⟨12, -1, by norm_num, by norm_num⟩,
    ⟨304200, 0, by norm_num, by norm_num⟩, ⟨747750, 0, by norm_num, by norm_num⟩⟩

theorem bFieldToXML_eq {f : BField} (hi : Params.Inv f.params) : bFieldToXML f = .ok (el "BField" [("type",
    "ConstantBField".toList), ("x", formatE f.b.x), ("y", formatE f.b.y), ("z", formatE f.b.z)] (paramsNodes f.params)) := by
  rw [bFieldToXML, getXMLForParameters_eq hi]; rfl

/-- C65, fields: for every field and every history of calls on its parameters. -/
theorem bField_roundtrip_partial (b : Vector3D.V3 ℚ) (h : List (Params.Op ℚ)) (hp : Storable (Params.run h)) :
    ∃ n f, bFieldToXML ⟨b, Params.run h⟩ = .ok n ∧ bFieldFromXML n = .ok f ∧ f.b = ⟨r10 b.x, r10 b.y, r10 b.z⟩
      ∧ SameParams r10 (Params.run h) f.params := by
  have hi := Params.inv_run h
  refine ⟨_, ⟨⟨r10 b.x, r10 b.y, r10 b.z⟩, readBack (Params.run h)⟩, bFieldToXML_eq hi, ?_, rfl, same_readBack _⟩
  · unfold bFieldFromXML
    rw [num_el rfl, Res.bind_ok, num_el rfl, Res.bind_ok, num_el rfl, Res.bind_ok]
    have := parametersToElement "BField" [("type", "ConstantBField".toList), ("x", formatE b.x), ("y", formatE b.y), ("z", formatE b.z)]
      hi (writable_of_storable hi hp) [] (by simp)
    rw [List.nil_append] at this
    rw [this]
    rfl

/-- C65, fields: without parameters there is no restriction. -/
theorem bField_roundtrip (b : Vector3D.V3 ℚ) :
    ∃ n f, bFieldToXML ⟨b, {}⟩ = .ok n ∧ bFieldFromXML n = .ok f ∧ f.b = ⟨r10 b.x, r10 b.y, r10 b.z⟩
      ∧ SameParams r10 {} f.params := by
  refine bField_roundtrip_partial b [] ⟨?_, ?_, ?_, ?_, ?_⟩ <;> (intro k v h; cases h)

theorem wellFormed_material (m : Material) (h : NoReference m.name.toList) : WellFormed (materialToXML m) := by
  unfold materialToXML
  wf_el
  simp

theorem wellFormed_bField {f : BField} (h : NoReferences f.params) {n : Node} (hi : Params.Inv f.params)
    (hn : bFieldToXML f = .ok n) : WellFormed n := by
  rw [bFieldToXML_eq hi] at hn
  cases hn
  wf_el
  exact fun c hc => ⟨wellFormed_paramsNodes h c hc, (paramsNodes_value c hc).2⟩

/-! ### C102 -/

theorem getXMLAttribute_cases (e : Node) (n : String) :
    (e.attr n = none ∧ getXMLAttribute e n = .throw .parse) ∨ ∃ v, e.attr n = some v ∧ getXMLAttribute e n = .ok v := by
  unfold getXMLAttribute
  cases e.attr n with
  | none => exact .inl ⟨rfl, rfl⟩
  | some v => exact .inr ⟨v, rfl, rfl⟩

/-- C102, the part that holds: an element without one of the attributes of a material is rejected, whatever else it contains, and
nothing else is. -/
theorem material_missing_partial (e : Node) :
    materialFromXML e = .throw .parse ↔ ∃ n ∈ ["name", "A", "Z", "density", "radLength", "intLength"], e.attr n = none := by
  have step : ∀ (n : String) (f : Text → Res Material) (P : Prop), (∀ v, e.attr n = some v → (f v = .throw .parse ↔ P)) →
      ((getXMLAttribute e n >>= f) = .throw .parse ↔ e.attr n = none ∨ P) := by
    intro n f P hf
    rcases getXMLAttribute_cases e n with ⟨h, h'⟩ | ⟨v, h, h'⟩
    · rw [h', h]; simp
    · rw [h', h, Res.bind_ok, hf v h]; simp
  simp only [List.exists_mem_cons_iff, List.not_mem_nil, false_and, exists_false, or_false]
  exact step _ _ _ fun v _ => step _ _ _ fun v _ => step _ _ _ fun v _ => step _ _ _ fun v _ => step _ _ _ fun v _ => by
    rcases getXMLAttribute_cases e "intLength" with ⟨h, h'⟩ | ⟨w, h, h'⟩
    · rw [h', h]; simp
    · rw [h', h]; simp

/-- The same for the magnetic field: nothing else is rejected if it has no parameters. -/
theorem bField_missing_partial (e : Node) (h : e.named "parameter" = []) :
    bFieldFromXML e = .throw .parse ↔ ∃ n ∈ ["x", "y", "z"], e.attr n = none := by
  have step : ∀ (n : String) (f : ℚ → Res BField) (P : Prop), (∀ v, e.attr n = some v → (f (atof v) = .throw .parse ↔ P)) →
      ((num (some e) n >>= f) = .throw .parse ↔ e.attr n = none ∨ P) := by
    intro n f P hf
    show ((getXMLAttribute e n >>= fun v => .ok (atof v)) >>= f) = _ ↔ _
    rcases getXMLAttribute_cases e n with ⟨h, h'⟩ | ⟨v, h, h'⟩
    · rw [h', h]; simp
    · rw [h', h, Res.bind_ok, Res.bind_ok, hf v h]; simp
  simp only [List.exists_mem_cons_iff, List.not_mem_nil, false_and, exists_false, or_false]
  refine step _ _ _ fun v _ => step _ _ _ fun v _ => ?_
  rw [step "z" _ False]
  · simp
  · intro v _
    rw [setParametersFromXML, h]
    simp

theorem streams :
    streamRead ['1', '2', ' ', 'g'] = (12, [' ', 'g']) ∧ streamRead [' ', 'g', '6'] = (0, ['g', '6'])
    ∧ streamRead ['g', '6', '2'] = (0, ['g', '6', '2']) ∧ streamRead ['g', '6', '2', '3'] = (0, ['g', '6', '2', '3'])
    ∧ streamRead ['g', '6', '2', '3', '4'] = (0, ['g', '6', '2', '3', '4']) := by decide +kernel

/-- C102 is false: a number that is not one is accepted, and spoils the following ones: they are read as zero. -/
theorem material_malformed_false :
    materialFromXML (el "material" [("name", "x".toList), ("A", ['1', '2', ' ', 'g']), ("Z", ['6']), ("density", ['2']),
      ("radLength", ['3']), ("intLength", ['4'])] []) = .ok ⟨"x", 12, 0, 0, 0, 0⟩ := by
  have g : ∀ (attrs : List (String × Text)) (n : String) (v : Text), find attrs n = some v →
      getXMLAttribute (el "material" attrs []) n = .ok v := by
    intro attrs n v h
    rw [getXMLAttribute_el, h]
  unfold materialFromXML
  rw [g _ "name" _ rfl, Res.bind_ok, g _ "A" _ rfl, Res.bind_ok, g _ "Z" _ rfl, Res.bind_ok, g _ "density" _ rfl, Res.bind_ok,
    g _ "radLength" _ rfl, Res.bind_ok, g _ "intLength" _ rfl, Res.bind_ok]
  simp only [streams.1, List.cons_append, List.nil_append, streams.2.1, streams.2.2.1, streams.2.2.2.1, streams.2.2.2.2, str_toList]

/-- C102 is false for all other numbers too: `atof` takes every text. -/
theorem number_malformed_false :
    bFieldFromXML (el "BField" [("x", "four".toList), ("y", ['1']), ("z", ['2', ',', '5'])] []) = .ok ⟨⟨0, 1, 2⟩, {}⟩ := by
  unfold bFieldFromXML num
  have a : atof "four".toList = 0 ∧ atof ['1'] = 1 ∧ atof ['2', ',', '5'] = 2 := by decide +kernel
  simp only [attrOf_el, find, Res.bind_ok, if_pos, if_neg, reduceIte, String.reduceEq, a.1, a.2.1, a.2.2]
  rfl

end Gear.Xml
