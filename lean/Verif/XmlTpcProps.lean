/-
TPC sections in XML: C64.
-/
import Verif.XmlTpc
import Verif.XmlDiskProps
import Verif.TpcModuleOk
import Verif.TpcParamsLemmas
import Mathlib.Tactic.IntervalCases

set_option autoImplicit false
set_option linter.unusedSectionVars false

namespace Gear.Xml

open Spec
open TpcModule (CARTESIAN POLAR Ext LayoutI TrigFns Unsupported)
open TpcModule.Spec (Known)
open TpcParams (Tpc)

/-! ### Integers read from numbers with a fraction -/

theorem toInt32_small {n : ℤ} (h1 : -9 ≤ n) (h2 : n ≤ 9) : toInt32 (max (-2 ^ 63) (min (2 ^ 63 - 1) n)) = n := by
  rw [min_eq_right (by norm_num; omega), max_eq_right (by norm_num; omega), toInt32, Int.emod_eq_of_lt (by omega) (by norm_num; omega)]
  ring

theorem atoi_digit (n : ℕ) (t : Text) : atoi (digit n :: '.' :: t) = (n % 10 : ℕ) ∧ atoi ('-' :: digit n :: '.' :: t) = -((n % 10 : ℕ) : ℤ) := by
  have hd := isDigit_digit n
  have hn := isDigit_not hd
  have htake : (digit n :: '.' :: t).takeWhile isDigit = [digit n] := by
    rw [List.takeWhile_cons, hd]
    rfl
  have hval : digitsVal 0 [digit n] = n % 10 := by
    show 10 * 0 + ((digit n).toNat - 48) = _
    rw [(digit_cases n).2]; omega
  have hsign : readSign (digit n :: '.' :: t) = (false, digit n :: '.' :: t) := by
    unfold readSign
    split
    · rename_i h; exact absurd (List.cons.inj h).1 hn.2.1
    · rename_i h; exact absurd (List.cons.inj h).1 hn.2.2.1
    · rfl
  have hlt : n % 10 < 10 := Nat.mod_lt _ (by norm_num)
  constructor
  · unfold atoi
    rw [dropWhile_space hn.1, hsign]
    dsimp only
    rw [htake, hval]
    exact toInt32_small (by omega) (by omega)
  · unfold atoi
    rw [dropWhile_space (by decide)]
    simp only [readSign, htake, hval, if_true]
    exact toInt32_small (by omega) (by omega)

/-- Of a number as it is written, `atoi` reads the first digit only. -/
theorem atoi_formatE (x : ℚ) : -9 ≤ atoi (formatE x) ∧ atoi (formatE x) ≤ 9 := by
  by_cases hx : x = 0
  · subst hx
    decide +kernel
  · unfold formatE
    rw [if_neg hx]
    dsimp only
    have h := atoi_digit ((mantissa |x|).1 / 10 ^ 9) (digitsOf 9 (mantissa |x|).1 ++ 'e' :: exponentText (mantissa |x|).2)
    have hlt : (mantissa |x|).1 / 10 ^ 9 % 10 < 10 := Nat.mod_lt _ (by norm_num)
    split_ifs
    · rw [show ['-'] ++ digit ((mantissa |x|).1 / 10 ^ 9) :: '.' :: digitsOf 9 (mantissa |x|).1 ++ 'e' :: exponentText (mantissa |x|).2
        = '-' :: digit ((mantissa |x|).1 / 10 ^ 9) :: '.' :: (digitsOf 9 (mantissa |x|).1 ++ 'e' :: exponentText (mantissa |x|).2) by simp,
        h.2]
      omega
    · rw [show [] ++ digit ((mantissa |x|).1 / 10 ^ 9) :: '.' :: digitsOf 9 (mantissa |x|).1 ++ 'e' :: exponentText (mantissa |x|).2
        = digit ((mantissa |x|).1 / 10 ^ 9) :: '.' :: (digitsOf 9 (mantissa |x|).1 ++ 'e' :: exponentText (mantissa |x|).2) by simp,
        h.1]
      omega

/-! ### One module -/

/-- The layout is written, and what is written is read as `L'` (C63 tells which layouts these are). -/
def ReadLayout (pi : ℚ) (L L' : PadLayout) : Prop := ∃ le, layoutToXML L = .ok le ∧ layoutFromXML pi le = .ok L'

/-- The layout comes back in the same class. -/
theorem layout_element {L : PadLayout} {le : Node} (h : layoutToXML L = .ok le) :
    ∃ t attrs cs, le = el "PadRowLayout2D" (("type", t) :: attrs) cs ∧ (∀ pi L', layoutFromXML pi le = .ok L' →
      L'.coordinateType = L.coordinateType) := by
  have inv : ∀ {α : Type} (f : α → PadLayout) (r : Res α) (L' : PadLayout), asLayout f r = .ok L' → ∃ a, L' = f a := by
    intro α f r L' h
    cases r with
    | ok a => cases h; exact ⟨a, rfl⟩
    | throw e => cases h
    | ub => cases h
  cases L with
  | rect L =>
    change rectToXML L = .ok le at h
    unfold rectToXML at h
    simp only at h
    generalize rectRows _ _ _ _ = r at h
    cases r with
    | throw e => cases h
    | ub => cases h
    | ok rows =>
      cases h
      refine ⟨_, _, _, rfl, fun pi L' hL => ?_⟩
      unfold layoutFromXML at hL
      rw [attrOf_el] at hL
      obtain ⟨a, rfl⟩ := inv _ _ L' hL
      rfl
  | padSize L =>
    change padSizeToXML L = .ok le at h
    unfold padSizeToXML at h
    generalize Rect.elemUb _ 0 = r0 at h
    generalize Rect.elemUb _ 1 = r1 at h
    generalize Rect.elemUb _ 3 = r3 at h
    cases r0 <;> cases r1 <;> cases r3 <;> cases h
    refine ⟨_, _, _, rfl, fun pi L' hL => ?_⟩
    rw [layoutFromXML_padSize] at hL
    obtain ⟨a, rfl⟩ := inv _ _ L' hL
    rfl
  | padAngle L =>
    change padAngleToXML L = .ok le at h
    unfold padAngleToXML at h
    generalize Rect.elemUb _ 0 = r0 at h
    generalize Rect.elemUb _ 1 = r1 at h
    generalize Rect.elemUb _ 2 = r2 at h
    generalize Rect.elemUb _ 3 = r3 at h
    cases r0 <;> cases r1 <;> cases r2 <;> cases r3 <;> cases h
    refine ⟨_, _, _, rfl, fun pi L' hL => ?_⟩
    rw [layoutFromXML_padAngle] at hL
    obtain ⟨a, rfl⟩ := inv _ _ L' hL
    rfl
  | versatile L =>
    cases h
    refine ⟨_, _, _, rfl, fun pi L' hL => ?_⟩
    rw [layoutFromXML_versatile] at hL
    obtain ⟨a, rfl⟩ := inv _ _ L' hL
    rfl

/-- The z position, if it is set. -/
def zOf (m : TpcModule.Module ℚ) : Option ℚ := if m.zPositionIsSet then some m.zPosition else none

/-- `setZPosition`, if there is one. -/
def setZ (m : TpcModule.Module ℚ) : Option ℚ → TpcModule.Module ℚ
  | some z => TpcModule.setZPosition m z
  | none => m

/-- The module one gets from the constructor and the setters, called in the order of the reader. -/
def buildModule (E : Env) (id : ℤ) (L : PadLayout) (t : ℤ) (f : ℚ) (off : ℚ × ℚ) (z : Option ℚ) (a w : ℚ) : TpcModule.Module ℚ :=
  (TpcModule.setBorderWidth E.F (TpcModule.setAngle E.F
    (setZ (TpcModule.setOffset E.F (TpcModule.new id (L.view E.Q) t f) off.1 off.2).1 z) a).1 w).1

/-- The children of the element of a module. -/
def moduleChildren (m : TpcModule.Module ℚ) (le : Node) (p : Params ℚ) : List Node :=
  [el "moduleID" [("value", printInt m.moduleID)] [], el "readoutFrequency" [("value", formatE m.readoutFrequency)] [], le,
    el "offset" [("x_r", formatE m.offset.1), ("y_phi", formatE m.offset.2)] []]
    ++ (match zOf m with | some z => [el "zPosition" [("value", formatE z)] []] | none => [])
    ++ [el "angle" [("value", formatE m.angle)] [], el "enlargeActiveAreaBy" [("value", formatE m.border)] []] ++ paramsNodes p

theorem moduleToXML_eq {s : ModuleSection} {le : Node} (h : layoutToXML s.layout = .ok le) (hi : Params.Inv s.params) :
    moduleToXML s = .ok (el "module" [] (moduleChildren s.module le s.params)) := by
  unfold moduleToXML
  rw [h, Res.bind_ok, getXMLForParameters_eq hi, Res.bind_ok]
  have : zPositionNodes s.module = (match zOf s.module with | some z => [el "zPosition" [("value", formatE z)] []] | none => []) := by
    unfold zPositionNodes TpcModule.getZPosition zOf
    split_ifs <;> rfl
  rw [this]
  rfl

/-- The values of a module that are written, and its layout. -/
structure ModuleValues where
  id : ℤ
  type : ℤ
  frequency : ℚ
  offset : ℚ × ℚ
  z : Option ℚ
  angle : ℚ
  border : ℚ
  layout : LayoutI ℚ

/-- The values of a module. -/
def valuesOf (m : TpcModule.Module ℚ) : ModuleValues :=
  ⟨m.moduleID, m.momsCoordinateType, m.readoutFrequency, m.offset, zOf m, m.angle, m.border, m.layout⟩

theorem setOffset_values (F : TrigFns ℚ) {m : TpcModule.Module ℚ} (ht : Known m.momsCoordinateType)
    (hl : Known m.layout.coordinateType) (hu : ¬ Unsupported m.momsCoordinateType m.layout.coordinateType) (x y : ℚ) :
    called (TpcModule.setOffset F m x y) = .ok (TpcModule.setOffset F m x y).1
      ∧ valuesOf (TpcModule.setOffset F m x y).1 = { valuesOf m with offset := (x, y) } := by
  unfold TpcModule.setOffset
  dsimp only
  by_cases h1 : m.momsCoordinateType = POLAR
  · rw [if_pos h1]
    obtain ⟨a, b, c, h⟩ := TpcModule.Any.convertExtents_ok F (m := TpcModule.checkLocalIsGlobal
      { m with offset := (x, y), offsetCartesian := (x * F.cos y, x * F.sin y) }) ht hl hu
    rw [h]
    exact ⟨rfl, rfl⟩
  · have h2 : m.momsCoordinateType = CARTESIAN := ht.resolve_right h1
    rw [if_neg h1, if_pos h2]
    obtain ⟨a, b, c, h⟩ := TpcModule.Any.convertExtents_ok F (m := TpcModule.checkLocalIsGlobal
      { m with offset := (x, y), offsetCartesian := (x, y) }) ht hl hu
    rw [h]
    exact ⟨rfl, rfl⟩

theorem setAngle_values (F : TrigFns ℚ) {m : TpcModule.Module ℚ} (ht : Known m.momsCoordinateType)
    (hl : Known m.layout.coordinateType) (hu : ¬ Unsupported m.momsCoordinateType m.layout.coordinateType) (x : ℚ) :
    called (TpcModule.setAngle F m x) = .ok (TpcModule.setAngle F m x).1
      ∧ valuesOf (TpcModule.setAngle F m x).1 = { valuesOf m with angle := x } := by
  unfold TpcModule.setAngle
  obtain ⟨a, b, c, h⟩ := TpcModule.Any.convertExtents_ok F (m := TpcModule.checkLocalIsGlobal
    { m with angle := x, cosAngle := F.cos x, sinAngle := F.sin x }) ht hl hu
  rw [h]
  exact ⟨rfl, rfl⟩

theorem setBorderWidth_values (F : TrigFns ℚ) {m : TpcModule.Module ℚ} (ht : Known m.momsCoordinateType)
    (hl : Known m.layout.coordinateType) (hu : ¬ Unsupported m.momsCoordinateType m.layout.coordinateType) (x : ℚ) :
    called (TpcModule.setBorderWidth F m x) = .ok (TpcModule.setBorderWidth F m x).1
      ∧ valuesOf (TpcModule.setBorderWidth F m x).1 = { valuesOf m with border := x } := by
  unfold TpcModule.setBorderWidth
  obtain ⟨a, b, c, h⟩ := TpcModule.Any.convertExtents_ok F (m := { m with border := x }) ht hl hu
  rw [h]
  exact ⟨rfl, rfl⟩

theorem setZ_values (m : TpcModule.Module ℚ) (z : Option ℚ) (h : m.zPositionIsSet = false) :
    valuesOf (setZ m z) = { valuesOf m with z := z } := by
  cases z with
  | none =>
    unfold setZ valuesOf zOf
    rw [h]
    rfl
  | some z => rfl

theorem layout_known (L : PadLayout) : Known L.coordinateType := by
  unfold Known
  cases L
  · exact Or.inl rfl
  all_goals exact Or.inr rfl

theorem build_ok (E : Env) (id : ℤ) (L : PadLayout) {t : ℤ} (f : ℚ) (off : ℚ × ℚ) (z : Option ℚ) (a w : ℚ) (ht : Known t)
    (hu : ¬ Unsupported t L.coordinateType) :
    let m0 := TpcModule.new id (L.view E.Q) t f
    let m1 := (TpcModule.setOffset E.F m0 off.1 off.2).1
    let m2 := setZ m1 z
    let m3 := (TpcModule.setAngle E.F m2 a).1
    called (TpcModule.setOffset E.F m0 off.1 off.2) = .ok m1 ∧ called (TpcModule.setAngle E.F m2 a) = .ok m3
      ∧ called (TpcModule.setBorderWidth E.F m3 w) = .ok (buildModule E id L t f off z a w)
      ∧ valuesOf (buildModule E id L t f off z a w) = ⟨id, t, f, off, z, a, w, L.view E.Q⟩ := by
  have hl := layout_known L
  intro m0 m1 m2 m3
  have v0 : valuesOf m0 = ⟨id, t, f, (0, 0), none, 0, 0, L.view E.Q⟩ := rfl
  obtain ⟨o1, v1⟩ := setOffset_values E.F (m := m0) ht hl hu off.1 off.2
  have v1' : valuesOf m1 = ⟨id, t, f, off, none, 0, 0, L.view E.Q⟩ := v1
  have z1 : m1.zPositionIsSet = false := by
    have := congrArg ModuleValues.z v1'
    simp only [valuesOf, zOf] at this
    split_ifs at this with h
    exact Bool.not_eq_true _ ▸ h
  have v2 : valuesOf m2 = ⟨id, t, f, off, z, 0, 0, L.view E.Q⟩ := by rw [setZ_values m1 z z1, v1']
  have t2 : m2.momsCoordinateType = t := congrArg ModuleValues.type v2
  have l2 : m2.layout = L.view E.Q := congrArg ModuleValues.layout v2
  have c2 : m2.layout.coordinateType = L.coordinateType := by rw [l2]; rfl
  obtain ⟨o3, v3⟩ := setAngle_values E.F (m := m2) (by rw [t2]; exact ht) (by rw [c2]; exact hl) (by rw [t2, c2]; exact hu) a
  have v3' : valuesOf m3 = ⟨id, t, f, off, z, a, 0, L.view E.Q⟩ := by
    show valuesOf (TpcModule.setAngle E.F m2 a).1 = _
    rw [v3, v2]
  have t3 : m3.momsCoordinateType = t := congrArg ModuleValues.type v3'
  have l3 : m3.layout = L.view E.Q := congrArg ModuleValues.layout v3'
  have c3 : m3.layout.coordinateType = L.coordinateType := by rw [l3]; rfl
  obtain ⟨o4, v4⟩ := setBorderWidth_values E.F (m := m3) (by rw [t3]; exact ht) (by rw [c3]; exact hl) (by rw [t3, c3]; exact hu) w
  rw [v3'] at v4
  exact ⟨o1, o3, o4, v4⟩

/-- What the reader makes of a module. -/
def readModule (E : Env) (m : TpcModule.Module ℚ) (L' : PadLayout) (t : ℤ) : TpcModule.Module ℚ :=
  buildModule E m.moduleID L' t (atoi (formatE m.readoutFrequency)) (r10 m.offset.1, r10 m.offset.2) ((zOf m).map r10) (r10 m.angle)
    (r10 m.border)

theorem orDefault_some {e : Node} {d : Option Node} {name : String} {c : Node} (h : e.firstElement name = some c) :
    orDefault e d name = some c := by
  unfold orDefault
  rw [h]

theorem moduleChildren_find (m : TpcModule.Module ℚ) {le : Node} {t : Text} {as : List (String × Text)} {cs : List Node}
    (hle : le = el "PadRowLayout2D" (("type", t) :: as) cs) (p : Params ℚ) :
    let e := el "module" [] (moduleChildren m le p)
    e.firstElement "moduleID" = some (el "moduleID" [("value", printInt m.moduleID)] [])
    ∧ e.firstElement "readoutFrequency" = some (el "readoutFrequency" [("value", formatE m.readoutFrequency)] [])
    ∧ e.firstElement "PadRowLayout2D" = some le
    ∧ e.firstElement "offset" = some (el "offset" [("x_r", formatE m.offset.1), ("y_phi", formatE m.offset.2)] [])
    ∧ e.firstElement "zPosition" = (zOf m).map (fun z => el "zPosition" [("value", formatE z)] [])
    ∧ e.firstElement "angle" = some (el "angle" [("value", formatE m.angle)] [])
    ∧ e.firstElement "enlargeActiveAreaBy" = some (el "enlargeActiveAreaBy" [("value", formatE m.border)] []) := by
  subst hle
  unfold moduleChildren
  cases zOf m with
  | none =>
    simp only [List.cons_append, List.nil_append, firstElement_cons, String.reduceEq, ↓reduceIte, Option.map_none,
      firstElement_params _ _ _ (show "zPosition" ≠ "parameter" by decide), and_self]
  | some z =>
    simp only [List.cons_append, List.nil_append, firstElement_cons, String.reduceEq, ↓reduceIte, Option.map_some, and_self]

theorem moduleChildren_pre (m : TpcModule.Module ℚ) {le : Node} {t : Text} {as : List (String × Text)} {cs : List Node}
    (hle : le = el "PadRowLayout2D" (("type", t) :: as) cs) (p : Params ℚ) :
    ∃ pre, moduleChildren m le p = pre ++ paramsNodes p ∧ ∀ c ∈ pre, c.value ≠ "parameter".toList := by
  refine ⟨_, rfl, ?_⟩
  subst hle
  have v := fun (nm : String) (h : nm ≠ "parameter") (attrs : List (String × Text)) (cs : List Node) =>
    value_ne (attrs := attrs) (cs := cs) h
  intro c hc
  cases hz : zOf m <;> rw [hz] at hc <;>
    simp only [List.cons_append, List.nil_append, List.mem_cons, List.not_mem_nil, or_false] at hc
  · rcases hc with rfl | rfl | rfl | rfl | rfl | rfl
    all_goals exact v _ (by decide) _ _
  · rcases hc with rfl | rfl | rfl | rfl | rfl | rfl | rfl
    all_goals exact v _ (by decide) _ _

theorem moduleFromXML_eq (E : Env) {s : ModuleSection} {le : Node} {L' : PadLayout} (h : layoutToXML s.layout = .ok le)
    (h' : layoutFromXML E.F.pi le = .ok L') (hi : Params.Inv s.params) (hw : Writable s.params) (hid : IsInt s.module.moduleID)
    {t : ℤ} (ht : Known t) (hu : ¬ Unsupported t s.layout.coordinateType) (n : ℤ) :
    moduleFromXML E (el "module" [] (moduleChildren s.module le s.params)) none t n
      = .ok ⟨readModule E s.module L' t, L', readBack s.params⟩ := by
  obtain ⟨ty, as, cs, hle, hty⟩ := layout_element h
  have hu' : ¬ Unsupported t L'.coordinateType := by rw [hty _ _ h']; exact hu
  obtain ⟨f1, f2, f3, f4, f5, f6, f7⟩ := moduleChildren_find s.module hle s.params
  obtain ⟨pre, hpre, hpv⟩ := moduleChildren_pre s.module hle s.params
  have hp : setParametersFromXML (el "module" [] (moduleChildren s.module le s.params)) {} = .ok (readBack s.params) := by
    rw [hpre]
    exact parametersToElement _ _ hi hw _ hpv
  obtain ⟨b1, b2, b3, -⟩ := build_ok E s.module.moduleID L' (atoi (formatE s.module.readoutFrequency) : ℚ)
    (r10 s.module.offset.1, r10 s.module.offset.2) ((zOf s.module).map r10) (r10 s.module.angle) (r10 s.module.border) ht hu'
  have hz : orDefault (el "module" [] (moduleChildren s.module le s.params)) none "zPosition"
      = (zOf s.module).map (fun z => el "zPosition" [("value", formatE z)] []) := by
    unfold orDefault
    rw [f5]
    cases zOf s.module <;> rfl
  unfold moduleFromXML
  rw [orDefault_some f1, orDefault_some f2, orDefault_some f3, orDefault_some f4, orDefault_some f6, orDefault_some f7, hz]
  simp only [setting]
  rw [int_el rfl hid, Res.bind_ok]
  have hfr : int (some (el "readoutFrequency" [("value", formatE s.module.readoutFrequency)] [])) "value"
      = .ok (atoi (formatE s.module.readoutFrequency)) := by
    rw [int, attrOf_el]
    rfl
  rw [hfr, Res.bind_ok, h', Res.bind_ok]
  rw [num_el (x := s.module.offset.1) rfl, Res.bind_ok, num_el (x := s.module.offset.2) rfl, Res.bind_ok, b1, Res.bind_ok]
  cases hzc : zOf s.module with
  | none =>
    rw [hzc] at b2 b3
    simp only [Option.map_none, setZ] at b2 b3 ⊢
    simp only [Res.bind_ok]
    rw [num_el rfl, Res.bind_ok, b2, Res.bind_ok, num_el rfl, Res.bind_ok,
      b3, Res.bind_ok, hp, Res.bind_ok]
    simp only [readModule, hzc]
    rfl
  | some z =>
    rw [hzc] at b2 b3
    simp only [Option.map_some, setZ] at b2 b3 ⊢
    rw [num_el rfl, Res.bind_ok, Res.bind_ok, num_el rfl, Res.bind_ok, b2, Res.bind_ok,
      num_el rfl, Res.bind_ok, b3, Res.bind_ok, hp, Res.bind_ok]
    simp only [readModule, hzc]
    rfl

/-! ### The whole section -/

/-- The element of the layout of a module. -/
def layoutNode (m : ModuleSection) : Node := match layoutToXML m.layout with | .ok e => e | _ => .text []

/-- The layout that is read from it. -/
def layoutBack (pi : ℚ) (m : ModuleSection) : PadLayout := match layoutFromXML pi (layoutNode m) with | .ok L => L | _ => m.layout

/-- What is read of a module. -/
def moduleBack (E : Env) (t : ℤ) (m : ModuleSection) : ModuleSection :=
  ⟨readModule E m.module (layoutBack E.F.pi m) t, layoutBack E.F.pi m, readBack m.params⟩

theorem layoutBack_ok {pi : ℚ} {m : ModuleSection} {L : PadLayout} (h : ReadLayout pi m.layout L) :
    layoutToXML m.layout = .ok (layoutNode m) ∧ layoutFromXML pi (layoutNode m) = .ok (layoutBack pi m) ∧ layoutBack pi m = L := by
  obtain ⟨le, h1, h2⟩ := h
  have e : layoutNode m = le := by unfold layoutNode; rw [h1]
  have e' : layoutBack pi m = L := by unfold layoutBack; rw [e, h2]
  exact ⟨by rw [e]; exact h1, by rw [e, e']; exact h2, e'⟩

/-- A TPC section as it comes out of the calls a user makes: the constructor, `addModule`, the setters, and the parameters. -/
inductive TpcMade (E : Env) : TpcSection → Prop
  | new (l : ℚ) (t : ℤ) : TpcMade E ⟨TpcParams.new l t, [], {}⟩
  | add {s s' : TpcSection} (m : ModuleSection) : TpcMade E s → s.add E m = .ok s' → TpcMade E s'
  | drift {s : TpcSection} (l : ℚ) : TpcMade E s → TpcMade E { s with tpc := TpcParams.setMaxDriftLength s.tpc l }
  | velocity {s : TpcSection} (v : ℚ) : TpcMade E s → TpcMade E { s with tpc := TpcParams.setDriftVelocity s.tpc v }
  | params {s : TpcSection} (p : Params ℚ) : TpcMade E s → TpcMade E { s with params := p }

/-- The TPC knows the modules of the section. -/
def Knows (E : Env) (s : TpcSection) : Prop :=
  ∃ B, TpcParams.Inv s.tpc.coordinateType s.tpc B ∧ B.modules = s.mods.map fun m => TpcParams.ofModule E.F m.module

theorem add_inv {E : Env} {s s' : TpcSection} {m : ModuleSection} (h : Knows E s) (ha : s.add E m = .ok s') :
    Knows E s' ∧ s'.tpc.coordinateType = s.tpc.coordinateType ∧ s'.tpc.maxDriftLength = s.tpc.maxDriftLength
      ∧ s'.tpc.driftVelocity = s.tpc.driftVelocity ∧ s'.mods = s.mods ++ [m] ∧ s'.params = s.params := by
  obtain ⟨B, hB, hm⟩ := h
  unfold TpcSection.add at ha
  by_cases hac : TpcParams.Spec.Accepts s.tpc.coordinateType B.modules (TpcParams.ofModule E.F m.module)
  · obtain ⟨T', h1, h2⟩ := hB.accept hac
    rw [h1] at ha
    cases ha
    refine ⟨⟨_, by rw [h2.type]; exact h2, ?_⟩, h2.type, ?_, ?_, rfl, rfl⟩
    · show B.modules ++ _ = _
      rw [hm, List.map_append]
      rfl
    · rw [h2.drift, hB.drift]
    · rw [h2.velocity, hB.velocity]
  · have h1 := hB.reject hac
    rw [h1] at ha
    cases ha

theorem knows_made {E : Env} {s : TpcSection} (h : TpcMade E s) : Knows E s := by
  induction h with
  | new l t => exact ⟨_, TpcParams.Inv.new l t, rfl⟩
  | add m _ ha ih => exact (add_inv ih ha).1
  | @drift s l _ ih =>
    obtain ⟨B, hB, hm⟩ := ih
    have := hB.step (F := E.F) (.drift l)
    have e : (TpcParams.setMaxDriftLength s.tpc l).coordinateType = s.tpc.coordinateType := this.type
    refine ⟨{ B with drift := l }, ?_, hm⟩
    show TpcParams.Inv (TpcParams.setMaxDriftLength s.tpc l).coordinateType (TpcParams.setMaxDriftLength s.tpc l) _
    rw [e]
    exact this
  | @velocity s v _ ih =>
    obtain ⟨B, hB, hm⟩ := ih
    exact ⟨_, hB.step (F := E.F) (.velocity v), hm⟩
  | params p _ ih => exact ih

/-- The modules have different IDs and the type of the TPC. -/
theorem knows_ids {E : Env} {s : TpcSection} (h : Knows E s) : (s.mods.map fun m => m.module.moduleID).Nodup
    ∧ ∀ m ∈ s.mods, m.module.momsCoordinateType = s.tpc.coordinateType := by
  obtain ⟨B, hB, hm⟩ := h
  constructor
  · rw [List.nodup_iff_injective_getElem]
    rintro ⟨i, hi⟩ ⟨j, hj⟩ hij
    rw [List.length_map] at hi hj
    simp only [List.getElem_map] at hij
    have a := (hB.ids s.mods[i].module.moduleID i).2 ⟨TpcParams.ofModule E.F s.mods[i].module, by rw [hm]; simp [hi], rfl⟩
    have b := (hB.ids s.mods[i].module.moduleID j).2 ⟨TpcParams.ofModule E.F s.mods[j].module, by rw [hm]; simp [hj], hij.symm⟩
    rw [a] at b
    cases b
    rfl
  · intro m hmem
    exact hB.types (TpcParams.ofModule E.F m.module) (by rw [hm]; exact List.mem_map_of_mem hmem)

/-- The children of the element of a TPC. -/
def tpcChildren (s : TpcSection) (t : Text) : List Node :=
  [el "maxDriftLength" [("value", formatE s.tpc.maxDriftLength)] [], el "driftVelocity" [("value", formatE s.tpc.driftVelocity)] [],
    el "coordinateType" [("value", t)] [],
    el "modules" [] (s.mods.map fun m => el "module" [] (moduleChildren m.module (layoutNode m) m.params))] ++ paramsNodes s.params

theorem tpcToXML_eq {s : TpcSection} {t : Text} (ht : coordinateText s.tpc.coordinateType = .ok t)
    (hl : ∀ m ∈ s.mods, layoutToXML m.layout = .ok (layoutNode m) ∧ Params.Inv m.params) (hi : Params.Inv s.params) :
    tpcToXML s = .ok (el "detector" [("geartype", "TPCParameters".toList)] (tpcChildren s t)) := by
  unfold tpcToXML
  rw [show coordinateText (TpcParams.getCoordinateType s.tpc) = .ok t from ht, Res.bind_ok,
    mapM_ok moduleToXML (fun m => el "module" [] (moduleChildren m.module (layoutNode m) m.params))
      (fun m hm => moduleToXML_eq (hl m hm).1 (hl m hm).2), Res.bind_ok, getXMLForParameters_eq hi, Res.bind_ok]
  rfl

/-- The loop over the modules. -/
theorem modulesLoop_eq (E : Env) {t : ℤ} (ht : Known t) : ∀ (l : List ModuleSection) (st : ModulesLoop),
    (∀ m ∈ l, (∃ L, ReadLayout E.F.pi m.layout L) ∧ Params.Inv m.params ∧ Writable m.params ∧ IsInt m.module.moduleID
      ∧ ¬ Unsupported t m.layout.coordinateType) →
    st.default = none → Knows E st.tpc → st.tpc.tpc.coordinateType = t →
    ((st.tpc.mods ++ l).map fun m => m.module.moduleID).Nodup →
    ∃ st', (l.map fun m => el "module" [] (moduleChildren m.module (layoutNode m) m.params)).foldlM (modulesLoopBody E t 0) st = .ok st'
      ∧ st'.tpc.mods = st.tpc.mods ++ l.map (moduleBack E t) ∧ Knows E st'.tpc ∧ st'.tpc.tpc.coordinateType = t
      ∧ st'.tpc.tpc.maxDriftLength = st.tpc.tpc.maxDriftLength ∧ st'.tpc.tpc.driftVelocity = st.tpc.tpc.driftVelocity := by
  intro l
  induction l with
  | nil =>
    intro st _ _ hk htt _
    exact ⟨st, rfl, by simp, hk, htt, rfl, rfl⟩
  | cons m l ih =>
    intro st hm hd hk htt hn
    obtain ⟨⟨L, hL⟩, hi, hw, hid, hu⟩ := hm m (by simp)
    obtain ⟨l1, l2, -⟩ := layoutBack_ok hL
    have hu' : ¬ Unsupported t (layoutBack E.F.pi m).coordinateType := by
      obtain ⟨_, _, _, _, hty⟩ := layout_element l1
      rw [hty _ _ l2]
      exact hu
    obtain ⟨-, -, -, hv⟩ := build_ok E m.module.moduleID (layoutBack E.F.pi m) (atoi (formatE m.module.readoutFrequency) : ℚ)
      (r10 m.module.offset.1, r10 m.module.offset.2) ((zOf m.module).map r10) (r10 m.module.angle) (r10 m.module.border) ht hu'
    have hid' : (moduleBack E t m).module.moduleID = m.module.moduleID := congrArg ModuleValues.id hv
    have htt' : (moduleBack E t m).module.momsCoordinateType = t := congrArg ModuleValues.type hv
    obtain ⟨B, hB, hBm⟩ := hk
    have hac : TpcParams.Spec.Accepts st.tpc.tpc.coordinateType B.modules (TpcParams.ofModule E.F (moduleBack E t m).module) := by
      refine ⟨htt'.trans htt.symm, fun m' hm' => ?_⟩
      rw [hBm] at hm'
      obtain ⟨x, hx, rfl⟩ := List.mem_map.1 hm'
      show x.module.moduleID ≠ (moduleBack E t m).module.moduleID
      rw [hid']
      intro he
      rw [List.map_append, List.map_cons] at hn
      exact (List.disjoint_of_nodup_append hn) (List.mem_map_of_mem (f := fun m => m.module.moduleID) hx) (by simp [he])
    obtain ⟨T', hadd, -⟩ := hB.accept hac
    have hadd' : st.tpc.add E (moduleBack E t m) = .ok { st.tpc with tpc := T', mods := st.tpc.mods ++ [moduleBack E t m] } := by
      unfold TpcSection.add
      rw [hadd]
      rfl
    obtain ⟨k1, k2, k3, k4, k5, -⟩ := add_inv ⟨B, hB, hBm⟩ hadd'
    have hbody : modulesLoopBody E t 0 st (el "module" [] (moduleChildren m.module (layoutNode m) m.params))
        = .ok { st with tpc := { st.tpc with tpc := T', mods := st.tpc.mods ++ [moduleBack E t m] }, offset := st.offset + 1 } := by
      unfold modulesLoopBody
      rw [if_neg (fun h => Bool.noConfusion h), if_neg (value_ne (by decide)), if_neg (by rw [value_el]; exact fun h => h rfl), hd,
        moduleFromXML_eq E l1 l2 hi hw hid ht hu, Res.bind_ok]
      show (st.tpc.add E (moduleBack E t m)).bind _ = _
      rw [hadd']
      simp only [Res.bind, ← hd]
    rw [List.map_cons, List.foldlM_cons, hbody, Res.bind_ok]
    obtain ⟨st', e1, e2, e3, e4, e5, e6⟩ := ih
      { st with tpc := { st.tpc with tpc := T', mods := st.tpc.mods ++ [moduleBack E t m] }, offset := st.offset + 1 }
      (fun m' hm' => hm m' (by simp [hm'])) hd k1 (k2.trans htt) (by simpa [hid'] using hn)
    refine ⟨st', e1, ?_, e3, e4, e5.trans k3, e6.trans k4⟩
    rw [e2]
    simp

/-- A single digit is read back as it was. -/
theorem atoi_small (n : ℤ) (h1 : -9 ≤ n) (h2 : n ≤ 9) : atoi (formatE n) = n := by
  interval_cases n <;> decide +kernel

/-! ### C64 -/

/-- What of a module comes back: everything but the readout frequency, of which only its first digit does.  The layout that is read
is given by C63. -/
structure SameModule (pi : ℚ) (m m' : ModuleSection) : Prop where
  id : TpcModule.getModuleID m'.module = TpcModule.getModuleID m.module
  type : TpcModule.getTPCCoordinateType m'.module = TpcModule.getTPCCoordinateType m.module
  offset : TpcModule.getOffset m'.module = (r10 (TpcModule.getOffset m.module).1, r10 (TpcModule.getOffset m.module).2)
  angle : TpcModule.getAngle m'.module = r10 (TpcModule.getAngle m.module)
  border : TpcModule.getBorderWidth m'.module = r10 (TpcModule.getBorderWidth m.module)
  z : ∀ z, TpcModule.getZPosition m.module = .ok z → TpcModule.getZPosition m'.module = .ok (r10 z)
  noZ : TpcModule.getZPosition m.module = .throw .noZPosition → TpcModule.getZPosition m'.module = .throw .noZPosition
  layout : ReadLayout pi m.layout m'.layout
  params : SameParams r10 m.params m'.params
  frequency : ∀ n : ℤ, -9 ≤ n → n ≤ 9 → TpcModule.getReadoutFrequency m.module = n → TpcModule.getReadoutFrequency m'.module = n

theorem same_moduleBack {E : Env} {t : ℤ} (ht : Known t) {m : ModuleSection} {L : PadLayout} (hL : ReadLayout E.F.pi m.layout L)
    (hu : ¬ Unsupported t m.layout.coordinateType) (hmt : m.module.momsCoordinateType = t) :
    SameModule E.F.pi m (moduleBack E t m) ∧ (moduleBack E t m).module.layout = (moduleBack E t m).layout.view E.Q := by
  obtain ⟨l1, l2, -⟩ := layoutBack_ok hL
  have hu' : ¬ Unsupported t (layoutBack E.F.pi m).coordinateType := by
    obtain ⟨_, _, _, _, hty⟩ := layout_element l1
    rw [hty _ _ l2]
    exact hu
  obtain ⟨-, -, -, hv⟩ := build_ok E m.module.moduleID (layoutBack E.F.pi m) (atoi (formatE m.module.readoutFrequency) : ℚ)
    (r10 m.module.offset.1, r10 m.module.offset.2) ((zOf m.module).map r10) (r10 m.module.angle) (r10 m.module.border) ht hu'
  have hz : zOf (moduleBack E t m).module = (zOf m.module).map r10 := congrArg ModuleValues.z hv
  refine ⟨⟨congrArg ModuleValues.id hv, (congrArg ModuleValues.type hv).trans hmt.symm, congrArg ModuleValues.offset hv,
    congrArg ModuleValues.angle hv, congrArg ModuleValues.border hv, ?_, ?_, ⟨_, l1, l2⟩, same_readBack _, ?_⟩,
    congrArg ModuleValues.layout hv⟩
  · intro z h
    unfold TpcModule.getZPosition zOf at *
    generalize (moduleBack E t m).module = m' at *
    split_ifs at h hz ⊢ with h1 h2
    · cases h
      exact congrArg Res.ok (Option.some.inj hz)
    · cases hz
  · intro h
    unfold TpcModule.getZPosition zOf at *
    generalize (moduleBack E t m).module = m' at *
    split_ifs at h hz ⊢ with h1 h2
    · cases hz
    · rfl
  · intro n h1 h2 h
    have : (moduleBack E t m).module.readoutFrequency = (atoi (formatE m.module.readoutFrequency) : ℚ) := congrArg ModuleValues.frequency hv
    show (moduleBack E t m).module.readoutFrequency = n
    rw [this, show m.module.readoutFrequency = n from h, atoi_small n h1 h2]

/-- A module that can be written and read: its layout comes back (C63), its named parameters can be written (C54), and its ID is an `int`. -/
def Good (E : Env) (t : ℤ) (m : ModuleSection) : Prop :=
  (∃ L, ReadLayout E.F.pi m.layout L) ∧ Params.Inv m.params ∧ Storable m.params ∧ IsInt m.module.moduleID
    ∧ ¬ Unsupported t m.layout.coordinateType

/-- C64, the part that holds: the drift length, the coordinate type, the named parameters and all modules come back, in order.
Missing: the drift velocity (`driftVelocity_false`), readout frequencies with more than one digit (`frequency_false`) and modules with a
Cartesian layout in a polar TPC (`unsupported_false`). -/
theorem tpc_roundtrip_partial (E : Env) (s : TpcSection) (hs : TpcMade E s) (ht : Known (TpcParams.getCoordinateType s.tpc))
    (hm : ∀ m ∈ s.mods, Good E (TpcParams.getCoordinateType s.tpc) m) (hi : Params.Inv s.params) (hw : Storable s.params)
    (hd : r10 (TpcParams.getMaxDriftLength s.tpc) ≠ -1) :
    ∃ cs, tpcToXML s = .ok (el "detector" [("geartype", "TPCParameters".toList)] cs)
      ∧ ∀ attrs, ∃ s', tpcFromXML E (el "detector" attrs cs) = .ok s'
        ∧ TpcParams.getMaxDriftLength s'.tpc = r10 (TpcParams.getMaxDriftLength s.tpc)
        ∧ TpcParams.getCoordinateType s'.tpc = TpcParams.getCoordinateType s.tpc
        ∧ List.Forall₂ (SameModule E.F.pi) s.mods s'.mods
        ∧ TpcParams.getModules s'.tpc = s'.mods.map (fun m => TpcParams.ofModule E.F m.module)
        ∧ SameParams r10 s.params s'.params ∧ TpcParams.getDriftVelocity s'.tpc = 0 := by
  have hk := knows_made hs
  obtain ⟨hn, htypes⟩ := knows_ids hk
  generalize htt : s.tpc.coordinateType = t at *
  have htt' : TpcParams.getCoordinateType s.tpc = t := htt
  rw [htt'] at ht hm
  obtain ⟨tx, htx⟩ : ∃ tx, coordinateText t = .ok tx ∧ tx ≠ [] ∧ (t = CARTESIAN → tx = "cartesian".toList)
      ∧ (t = POLAR → tx = "polar".toList) := by
    rcases ht with rfl | rfl
    · exact ⟨_, rfl, by decide, fun _ => rfl, fun h => absurd h (by decide)⟩
    · exact ⟨_, rfl, by decide, fun h => absurd h (by decide), fun _ => rfl⟩
  obtain ⟨htx, hne, hc, hp⟩ := htx
  refine ⟨tpcChildren s tx, tpcToXML_eq (by rw [htt]; exact htx) (fun m h => ?_) hi, fun attrs => ?_⟩
  · obtain ⟨⟨L, hL⟩, hi, -⟩ := hm m h
    exact ⟨(layoutBack_ok hL).1, hi⟩
  obtain ⟨st, e1, e2, e3, e4, e5, e6⟩ := modulesLoop_eq E ht s.mods ⟨⟨TpcParams.new (r10 s.tpc.maxDriftLength) t, [], {}⟩, none, 0⟩
    (fun m h => ⟨(hm m h).1, (hm m h).2.1, writable_of_storable (hm m h).2.1 (hm m h).2.2.1, (hm m h).2.2.2.1, (hm m h).2.2.2.2⟩) rfl
    ⟨_, TpcParams.Inv.new _ _, rfl⟩
    (by
      show (if _ ∨ _ then _ else _) = t
      rw [if_neg]
      rintro (h | h)
      · exact hd h
      · rcases ht with rfl | rfl <;> revert h <;> decide)
    (by simpa using hn)
  have hread : readModules E t ⟨TpcParams.new (r10 s.tpc.maxDriftLength) t, [], {}⟩
      (el "modules" [] (s.mods.map fun m => el "module" [] (moduleChildren m.module (layoutNode m) m.params))) = .ok st.tpc := by
    unfold readModules
    rw [intOr_el_none 0 rfl, Res.bind_ok]
    have hdef : (el "modules" [] (s.mods.map fun m => el "module" [] (moduleChildren m.module (layoutNode m) m.params))).firstElement
        "default" = none := by
      unfold Node.firstElement
      rw [named_of_none]
      · rfl
      · intro c hc
        obtain ⟨m, -, rfl⟩ := List.mem_map.1 hc
        exact value_ne (by decide)
    rw [hdef, children_el, e1, Res.bind_ok]
  have hmods : (el "detector" attrs (tpcChildren s tx)).named "modules"
      = [el "modules" [] (s.mods.map fun m => el "module" [] (moduleChildren m.module (layoutNode m) m.params))] := by
    unfold tpcChildren
    simp only [List.cons_append, List.nil_append, named_cons, String.reduceEq, ↓reduceIte,
      named_params _ _ _ (show "modules" ≠ "parameter" by decide)]
  have hloop : tpcFromModules E (el "detector" attrs (tpcChildren s tx)) (r10 s.tpc.maxDriftLength) t = .ok st.tpc := by
    unfold tpcFromModules
    rw [hmods]
    show List.foldlM _ _ [_] = _
    rw [List.foldlM_cons, hread]
    rfl
  have hpar : setParametersFromXML (el "detector" attrs (tpcChildren s tx)) {} = .ok (readBack s.params) := by
    refine parametersToElement _ _ hi (writable_of_storable hi hw) _ ?_
    intro c hc
    simp only [List.mem_cons, List.not_mem_nil, or_false] at hc
    rcases hc with rfl | rfl | rfl | rfl
    all_goals exact value_ne (by decide)
  have hv : getChildElementValue (el "detector" attrs (tpcChildren s tx)) "maxDriftLength" = .ok (formatE s.tpc.maxDriftLength) := by
    unfold getChildElementValue tpcChildren
    rw [if_pos (show (el _ _ _).isElt = true from rfl)]
    simp only [List.cons_append, List.nil_append, firstElement_cons, ↓reduceIte]
    rw [getXMLAttribute_el]
    rfl
  have ht' : getOptionalChildElementValue (el "detector" attrs (tpcChildren s tx)) "coordinateType" [] = .ok tx := by
    unfold getOptionalChildElementValue tpcChildren
    rw [if_pos (show (el _ _ _).isElt = true from rfl)]
    simp only [List.cons_append, List.nil_append, firstElement_cons, String.reduceEq, ↓reduceIte]
    rw [getXMLAttribute_el]
    rfl
  refine ⟨{ st.tpc with params := readBack s.params }, ?_, ?_, ?_, ?_, ?_, same_readBack _, e6⟩
  · have key : tpcContent E (el "detector" attrs (tpcChildren s tx)) (r10 s.tpc.maxDriftLength) tx = .ok st.tpc := by
      unfold tpcContent
      rw [if_neg hne]
      rcases ht with h | h
      · rw [if_pos (hc h), ← h]
        exact hloop
      · rw [if_neg (by rw [hp h]; decide), if_pos (hp h), ← h]
        exact hloop
    unfold tpcFromXML
    rw [hv, Res.bind_ok, ht', Res.bind_ok, show tpcContent _ _ (atof _) _ = _ from key, Res.bind_ok, hpar]
    rfl
  · show st.tpc.tpc.maxDriftLength = r10 s.tpc.maxDriftLength
    rw [e5]
    show (if _ ∨ _ then _ else _) = _
    rw [if_neg]
    rintro (h | h)
    · exact hd h
    · rcases ht with rfl | rfl <;> revert h <;> decide
  · show st.tpc.tpc.coordinateType = s.tpc.coordinateType
    rw [e4, htt]
  · show List.Forall₂ _ s.mods st.tpc.mods
    rw [e2]
    simp only [List.nil_append]
    rw [List.forall₂_map_right_iff, List.forall₂_same]
    intro m h
    obtain ⟨⟨L, hL⟩, -, -, -, hu⟩ := hm m h
    exact (same_moduleBack ht hL hu (htypes m h)).1
  · obtain ⟨B, hB, hBm⟩ := e3
    show st.tpc.tpc.modules = _
    rw [hB.mods, hBm]

/-- C64 fails for the drift velocity: it is written but not read, so that whatever it was it is zero afterwards. -/
theorem driftVelocity_false (E : Env) (s : TpcSection) (hs : TpcMade E s) (ht : Known (TpcParams.getCoordinateType s.tpc))
    (hm : ∀ m ∈ s.mods, Good E (TpcParams.getCoordinateType s.tpc) m) (hi : Params.Inv s.params) (hw : Storable s.params)
    (hd : r10 (TpcParams.getMaxDriftLength s.tpc) ≠ -1) (hv : TpcParams.getDriftVelocity s.tpc ≠ 0) :
    ∃ e s', tpcToXML s = .ok e ∧ tpcFromXML E e = .ok s' ∧ TpcParams.getDriftVelocity s'.tpc ≠ TpcParams.getDriftVelocity s.tpc := by
  obtain ⟨cs, h1, h2⟩ := tpc_roundtrip_partial E s hs ht hm hi hw hd
  obtain ⟨s', h3, -, -, -, -, -, h4⟩ := h2 [("geartype", "TPCParameters".toList)]
  exact ⟨_, s', h1, h3, by rw [h4]; exact fun h => hv h.symm⟩

/-- C64 fails for every readout frequency above nine: it is written with ten digits and read as an integer. -/
theorem frequency_false (E : Env) (t : ℤ) (ht : Known t) (m : ModuleSection) (hm : Good E t m)
    (hf : 9 < |TpcModule.getReadoutFrequency m.module|) (n : ℤ) :
    ∃ e m', moduleToXML m = .ok e ∧ moduleFromXML E e none t n = .ok m'
      ∧ TpcModule.getReadoutFrequency m'.module ≠ TpcModule.getReadoutFrequency m.module := by
  obtain ⟨⟨L, le, h1, h2⟩, hi, hw, hid, hu⟩ := hm
  refine ⟨_, _, moduleToXML_eq h1 hi, moduleFromXML_eq E h1 h2 hi (writable_of_storable hi hw) hid ht hu n, ?_⟩
  obtain ⟨_, _, _, _, hty⟩ := layout_element h1
  have hu' : ¬ Unsupported t L.coordinateType := by rw [hty _ _ h2]; exact hu
  obtain ⟨-, -, -, hv⟩ := build_ok E m.module.moduleID L (atoi (formatE m.module.readoutFrequency) : ℚ)
    (r10 m.module.offset.1, r10 m.module.offset.2) ((zOf m.module).map r10) (r10 m.module.angle) (r10 m.module.border) ht hu'
  have hv' : (readModule E m.module L t).readoutFrequency = (atoi (formatE m.module.readoutFrequency) : ℚ) :=
    congrArg ModuleValues.frequency hv
  show (readModule E m.module L t).readoutFrequency ≠ m.module.readoutFrequency
  rw [hv']
  intro he
  obtain ⟨b1, b2⟩ := atoi_formatE m.module.readoutFrequency
  have hf' : 9 < |m.module.readoutFrequency| := hf
  rw [← he, ← Int.cast_abs] at hf'
  have : (9 : ℤ) < |atoi (formatE m.module.readoutFrequency)| := by exact_mod_cast hf'
  rw [lt_abs] at this
  omega

/-- C64 fails for a polar TPC of which a module has a Cartesian layout: the section is written, but cannot be read. -/
theorem unsupported_false (E : Env) (s : TpcSection) (m : ModuleSection) (rest : List ModuleSection) (hs : s.mods = m :: rest)
    (ht : TpcParams.getCoordinateType s.tpc = POLAR) (hc : m.layout.coordinateType = CARTESIAN)
    (hm : ∀ m ∈ s.mods, (∃ L, ReadLayout E.F.pi m.layout L) ∧ Params.Inv m.params) (hid : IsInt m.module.moduleID)
    (hi : Params.Inv s.params) :
    ∃ e, tpcToXML s = .ok e ∧ tpcFromXML E e = .throw .notImplemented := by
  have ht : s.tpc.coordinateType = POLAR := ht
  refine ⟨_, tpcToXML_eq (t := "polar".toList) (by rw [ht]; rfl)
    (fun m h => ⟨(layoutBack_ok (hm m h).1.choose_spec).1, (hm m h).2⟩) hi, ?_⟩
  obtain ⟨⟨L, hL⟩, hpi⟩ := hm m (by rw [hs]; simp)
  obtain ⟨l1, l2, -⟩ := layoutBack_ok hL
  obtain ⟨ty, as, cs, hle, hty⟩ := layout_element l1
  have hl : (layoutBack E.F.pi m).coordinateType = CARTESIAN := by rw [hty _ _ l2, hc]
  have hmod : ∀ n, moduleFromXML E (el "module" [] (moduleChildren m.module (layoutNode m) m.params)) none POLAR n
      = .throw .notImplemented := by
    intro n
    obtain ⟨f1, f2, f3, f4, -, -, -⟩ := moduleChildren_find m.module hle m.params
    unfold moduleFromXML
    rw [orDefault_some f1, orDefault_some f2, orDefault_some f3, orDefault_some f4]
    simp only [setting]
    rw [int_el rfl hid, Res.bind_ok]
    have hfr : int (some (el "readoutFrequency" [("value", formatE m.module.readoutFrequency)] [])) "value"
        = .ok (atoi (formatE m.module.readoutFrequency)) := by
      rw [int, attrOf_el]
      rfl
    rw [hfr, Res.bind_ok, l2, Res.bind_ok]
    rw [num_el (x := m.module.offset.1) rfl, Res.bind_ok, num_el (x := m.module.offset.2) rfl, Res.bind_ok]
    have : ∀ x y f, called (TpcModule.setOffset E.F (TpcModule.new m.module.moduleID ((layoutBack E.F.pi m).view E.Q) POLAR f) x y)
        = .throw .notImplemented := by
      intro x y f
      unfold TpcModule.setOffset
      dsimp only
      rw [if_pos (show (TpcModule.new m.module.moduleID ((layoutBack E.F.pi m).view E.Q) POLAR f).momsCoordinateType = POLAR from rfl)]
      obtain ⟨a, h⟩ := TpcModule.Any.convertExtents_unsupported E.F (m := TpcModule.checkLocalIsGlobal
        { TpcModule.new m.module.moduleID ((layoutBack E.F.pi m).view E.Q) POLAR f with
          offset := (x, y), offsetCartesian := (x * E.F.cos y, x * E.F.sin y) }) ⟨rfl, hl⟩
      rw [h]
      rfl
    rw [this]
    rfl
  have hmods : (el "detector" [("geartype", "TPCParameters".toList)] (tpcChildren s "polar".toList)).named "modules"
      = [el "modules" [] (s.mods.map fun m => el "module" [] (moduleChildren m.module (layoutNode m) m.params))] := by
    unfold tpcChildren
    simp only [List.cons_append, List.nil_append, named_cons, String.reduceEq, ↓reduceIte,
      named_params _ _ _ (show "modules" ≠ "parameter" by decide)]
  have hdef : (el "modules" [] (s.mods.map fun m => el "module" [] (moduleChildren m.module (layoutNode m) m.params))).firstElement
      "default" = none := by
    unfold Node.firstElement
    rw [named_of_none]
    · rfl
    · intro c hc
      obtain ⟨m, -, rfl⟩ := List.mem_map.1 hc
      exact value_ne (by decide)
  have hread : ∀ x, readModules E POLAR x
      (el "modules" [] (s.mods.map fun m => el "module" [] (moduleChildren m.module (layoutNode m) m.params))) = .throw .notImplemented := by
    intro x
    unfold readModules
    rw [intOr_el_none 0 rfl, Res.bind_ok, hdef, children_el, hs, List.map_cons, List.foldlM_cons]
    unfold modulesLoopBody
    rw [if_neg (fun h => Bool.noConfusion h), if_neg (value_ne (by decide)), if_neg (by rw [value_el]; exact fun h => h rfl), hmod]
    rfl
  have hv : getChildElementValue (el "detector" [("geartype", "TPCParameters".toList)] (tpcChildren s "polar".toList)) "maxDriftLength"
      = .ok (formatE s.tpc.maxDriftLength) := by
    unfold getChildElementValue tpcChildren
    rw [if_pos (show (el _ _ _).isElt = true from rfl)]
    simp only [List.cons_append, List.nil_append, firstElement_cons, ↓reduceIte]
    rw [getXMLAttribute_el]
    rfl
  have ht' : getOptionalChildElementValue (el "detector" [("geartype", "TPCParameters".toList)] (tpcChildren s "polar".toList))
      "coordinateType" [] = .ok "polar".toList := by
    unfold getOptionalChildElementValue tpcChildren
    rw [if_pos (show (el _ _ _).isElt = true from rfl)]
    simp only [List.cons_append, List.nil_append, firstElement_cons, String.reduceEq, ↓reduceIte]
    rw [getXMLAttribute_el]
    rfl
  unfold tpcFromXML
  rw [hv, Res.bind_ok, ht', Res.bind_ok]
  unfold tpcContent
  rw [if_neg (by decide), if_neg (by decide), if_pos rfl]
  unfold tpcFromModules
  rw [hmods]
  show (List.foldlM (readModules E POLAR) _ [_]).bind _ = _
  rw [List.foldlM_cons, hread]
  rfl

/-- `addModule` accepts a module of the right type with a new ID. -/
theorem add_ok {E : Env} {s : TpcSection} (h : Knows E s) {m : ModuleSection} (ht : m.module.momsCoordinateType = s.tpc.coordinateType)
    (hid : ∀ m' ∈ s.mods, m'.module.moduleID ≠ m.module.moduleID) : ∃ s', s.add E m = .ok s' := by
  obtain ⟨B, hB, hm⟩ := h
  obtain ⟨T', h1, -⟩ := hB.accept (m := TpcParams.ofModule E.F m.module) ⟨ht, by
    rw [hm]
    intro x hx
    obtain ⟨m', hm', rfl⟩ := List.mem_map.1 hx
    exact hid m' hm'⟩
  exact ⟨{ s with tpc := T', mods := s.mods ++ [m] }, by unfold TpcSection.add; rw [h1]; rfl⟩

/-- A TPC with two modules that are rotated and shifted, on either side, with a drift velocity and named parameters. -/
theorem exampleTpc (E : Env) (t : ℤ) (ht : Known t) : ∃ (L : Rect.Layout ℚ) (s : TpcSection) (m1 m2 : ModuleSection), TpcMade E s
    ∧ TpcParams.getCoordinateType s.tpc = t ∧ s.mods = [m1, m2] ∧ TpcParams.getDriftVelocity s.tpc = 45
    ∧ TpcParams.getMaxDriftLength s.tpc = 2500
    ∧ m1 = ⟨TpcModule.new 7 ((PadLayout.rect L).view E.Q) t 40, .rect L, Params.run sampleOps⟩
    ∧ m2 = ⟨TpcModule.setZPosition (TpcModule.setAngle E.F (TpcModule.setOffset E.F
      (TpcModule.new 3 ((PadLayout.rect L).view E.Q) t 40) 100 20).1 (1 / 2)).1 2500, .rect L, {}⟩
    ∧ (∃ L', ReadLayout E.F.pi (.rect L) L') ∧ Params.Inv s.params ∧ Storable s.params
    ∧ (¬ Unsupported t CARTESIAN → Good E t m1 ∧ Good E t m2) := by
  obtain ⟨L, hL⟩ : ∃ L, exampleRect.run = .ok L := by
    have : (match exampleRect.run with | .ok _ => true | _ => false) = true := by decide +kernel
    cases h : exampleRect.run with
    | ok L => exact ⟨L, rfl⟩
    | throw e => rw [h] at this; cases this
    | ub => rw [h] at this; cases this
  obtain ⟨e, h1, h2⟩ := rect_exact_partial E.F.pi exampleRect L hL (by unfold RectBuild.Ints IsInt; decide)
    (tenDigits_of 4 (by decide +kernel))
  have hread : ∃ L', ReadLayout E.F.pi (.rect L) L' := ⟨_, e, h1, h2⟩
  let m1 : ModuleSection := ⟨TpcModule.new 7 ((PadLayout.rect L).view E.Q) t 40, .rect L, Params.run sampleOps⟩
  let m2 : ModuleSection := ⟨TpcModule.setZPosition (TpcModule.setAngle E.F (TpcModule.setOffset E.F
      (TpcModule.new 3 ((PadLayout.rect L).view E.Q) t 40) 100 20).1 (1 / 2)).1 2500, .rect L, {}⟩
  have keep : ∀ m : TpcModule.Module ℚ, (TpcModule.convertExtents E.F m).1.moduleID = m.moduleID
      ∧ (TpcModule.convertExtents E.F m).1.momsCoordinateType = m.momsCoordinateType := by
    intro m
    unfold TpcModule.convertExtents
    dsimp only
    repeat' split
    all_goals exact ⟨rfl, rfl⟩
  have i2 : m2.module.moduleID = 3 ∧ m2.module.momsCoordinateType = t := by
    show (TpcModule.setAngle E.F _ _).1.moduleID = 3 ∧ (TpcModule.setAngle E.F _ _).1.momsCoordinateType = t
    unfold TpcModule.setAngle
    rw [(keep _).1, (keep _).2]
    show (TpcModule.setOffset E.F _ _ _).1.moduleID = 3 ∧ (TpcModule.setOffset E.F _ _ _).1.momsCoordinateType = t
    unfold TpcModule.setOffset
    dsimp only
    split_ifs
    · rw [(keep _).1, (keep _).2]
      exact ⟨rfl, rfl⟩
    · rw [(keep _).1, (keep _).2]
      exact ⟨rfl, rfl⟩
    · exact ⟨rfl, rfl⟩
  have hne : t ≠ -1 := by rintro rfl; rcases ht with h | h <;> revert h <;> decide
  have s0 : TpcMade E ⟨TpcParams.setDriftVelocity (TpcParams.new 2500 t) 45, [], Params.run sampleOps⟩ :=
    .params (Params.run sampleOps) (.velocity 45 (.new 2500 t))
  have e0 : (TpcParams.new (2500 : ℚ) t).coordinateType = t ∧ (TpcParams.new (2500 : ℚ) t).maxDriftLength = 2500 := by
    unfold TpcParams.new
    rw [if_neg (by rintro (h | h); · norm_num at h
                   · exact hne h), if_neg (by rintro (h | h); · norm_num at h
                                              · exact hne h)]
    exact ⟨rfl, rfl⟩
  obtain ⟨s1, a1⟩ := add_ok (knows_made s0) (m := m1) e0.1.symm (by intro m' h; cases h)
  obtain ⟨k1, t1, d1, v1, mm1, p1⟩ := add_inv (knows_made s0) a1
  have t1' : s1.tpc.coordinateType = t := t1.trans e0.1
  obtain ⟨s2, a2⟩ := add_ok k1 (m := m2) (i2.2.trans t1'.symm) (by
    rw [mm1]
    intro m' h
    rw [List.nil_append, List.mem_singleton] at h
    rw [h, i2.1]
    show (7 : ℤ) ≠ 3
    decide)
  obtain ⟨k2, t2, d2, v2, mm2, p2⟩ := add_inv k1 a2
  refine ⟨L, s2, m1, m2, .add m2 (.add m1 s0 a1) a2, t2.trans t1', by rw [mm2, mm1]; rfl, v2.trans v1, d2.trans (d1.trans e0.2), rfl, rfl,
    hread, ?_, ?_, fun hu => ⟨⟨hread, ?_, storable_sampleOps, ?_, hu⟩, ⟨hread, ?_, ?_, ?_, hu⟩⟩⟩
  · rw [p2, p1]
    exact Params.inv_run sampleOps
  · rw [p2, p1]
    exact storable_sampleOps
  · exact Params.inv_run sampleOps
  · show IsInt 7
    unfold IsInt
    decide
  · exact Params.inv_run []
  · constructor <;> (intro k v h; cases h)
  · rw [i2.1]
    unfold IsInt
    decide

/-- The hypotheses of `tpc_roundtrip_partial` and `driftVelocity_false` are met. -/
example (E : Env) : ∃ (s : TpcSection) (e : Node) (s' : TpcSection), TpcMade E s ∧ s.mods.length = 2 ∧ tpcToXML s = .ok e
    ∧ tpcFromXML E e = .ok s' ∧ List.Forall₂ (SameModule E.F.pi) s.mods s'.mods ∧ TpcParams.getDriftVelocity s.tpc = 45
    ∧ TpcParams.getDriftVelocity s'.tpc = 0 := by
  obtain ⟨L, s, m1, m2, hs, ht, hm, hv, hd, -, -, -, hi, hw, hg⟩ := exampleTpc E CARTESIAN (Or.inl rfl)
  have hg := hg (by unfold Unsupported; decide)
  obtain ⟨cs, h1, h2⟩ := tpc_roundtrip_partial E s hs (by rw [ht]; exact Or.inl rfl)
    (by
      rw [ht, hm]
      simp only [List.forall_mem_cons, List.not_mem_nil, false_imp_iff, implies_true, and_true]
      exact hg) hi hw (by rw [hd]; decide +kernel)
  obtain ⟨s', h3, -, -, h4, -, -, h5⟩ := h2 [("geartype", "TPCParameters".toList)]
  exact ⟨s, _, s', hs, by rw [hm]; rfl, h1, h3, h4, hv, h5⟩

/-- The hypotheses of `frequency_false` are met. -/
example (E : Env) : ∃ m, Good E CARTESIAN m ∧ TpcModule.getReadoutFrequency m.module = 40 := by
  obtain ⟨L, s, m1, m2, -, -, -, -, -, rfl, -, -, -, -, hg⟩ := exampleTpc E CARTESIAN (Or.inl rfl)
  exact ⟨_, (hg (by unfold Unsupported; decide)).1, rfl⟩

/-- The hypotheses of `unsupported_false` are met by a TPC a user can build. -/
example (E : Env) : ∃ s e, TpcMade E s ∧ s.mods.length = 2 ∧ tpcToXML s = .ok e ∧ tpcFromXML E e = .throw .notImplemented := by
  obtain ⟨L, s, m1, m2, hs, ht, hm, hv, hd, h1, h2, hL, hi, hw, -⟩ := exampleTpc E POLAR (Or.inr rfl)
  obtain ⟨e, e1, e2⟩ := unsupported_false E s m1 [m2] hm ht (by rw [h1]; rfl)
    (by
      rw [hm, h1, h2]
      simp only [List.forall_mem_cons, List.not_mem_nil, false_imp_iff, implies_true, and_true]
      exact ⟨⟨hL, Params.inv_run sampleOps⟩, hL, Params.inv_run []⟩)
    (by rw [h1]; show IsInt 7; unfold IsInt; decide) hi
  exact ⟨s, e, hs, by rw [hm]; rfl, e1, e2⟩

/-! ### C103 -/

/-- C103: a section without "coordinateType" describes a TPC with exactly one module, with the ID 0, the given layout, without shift,
rotation or z position; the TPC has the coordinate type of the layout, and drift length, drift velocity, readout frequency and named
parameters are the numbers in the file.  The order of the elements does not matter. -/
theorem oldSyntax (E : Env) (e le : Node) (l v f : Text) (L : PadLayout) (p : Params ℚ) (he : e.isElt = true)
    (hl : getChildElementValue e "maxDriftLength" = .ok l) (hv : getChildElementValue e "driftVelocity" = .ok v)
    (hf : getChildElementValue e "readoutFrequency" = .ok f) (ht : e.firstElement "coordinateType" = none)
    (hle : e.firstElement "PadRowLayout2D" = some le) (hL : layoutFromXML E.F.pi le = .ok L) (hp : setParametersFromXML e {} = .ok p)
    (hd : atof l ≠ -1) :
    ∃ s m, tpcFromXML E e = .ok s ∧ s.mods = [m] ∧ s.params = p ∧ m.layout = L ∧ m.module.layout = L.view E.Q
      ∧ TpcParams.getModules s.tpc = [TpcParams.ofModule E.F m.module]
      ∧ TpcParams.getMaxDriftLength s.tpc = atof l ∧ TpcParams.getDriftVelocity s.tpc = atof v
      ∧ TpcParams.getReadoutFrequency s.tpc = .ok (atof f) ∧ TpcParams.getCoordinateType s.tpc = L.coordinateType
      ∧ TpcModule.getModuleID m.module = 0 ∧ TpcModule.getReadoutFrequency m.module = atof f
      ∧ TpcModule.getTPCCoordinateType m.module = L.coordinateType ∧ TpcModule.getOffset m.module = (0, 0)
      ∧ TpcModule.getAngle m.module = 0 ∧ TpcModule.getBorderWidth m.module = 0
      ∧ TpcModule.getZPosition m.module = .throw .noZPosition := by
  have hk := layout_known L
  have hne : L.coordinateType ≠ -1 := by rcases hk with h | h <;> rw [h] <;> decide
  have e0 : (TpcParams.new (atof l) L.coordinateType).coordinateType = L.coordinateType
      ∧ (TpcParams.new (atof l) L.coordinateType).maxDriftLength = atof l := by
    have hn : ¬ (atof l = -1 ∨ L.coordinateType = -1) := by
      rintro (h | h)
      · exact hd h
      · exact hne h
    unfold TpcParams.new
    rw [if_neg hn, if_neg hn]
    exact ⟨rfl, rfl⟩
  have ho : getOptionalChildElementValue e "coordinateType" [] = .ok [] := by
    unfold getOptionalChildElementValue
    rw [if_pos he, ht]
  have hi := TpcParams.Inv.new (atof l) L.coordinateType
  obtain ⟨T', h1, h2⟩ := hi.accept (m := TpcParams.ofModule E.F (TpcModule.new 0 (L.view E.Q) (TpcParams.new (atof l) L.coordinateType).coordinateType 0))
    ⟨rfl, by intro m' h; cases h⟩
  have hset : called (TpcParams.setPadLayout E.F (TpcParams.new (atof l) L.coordinateType) false (L.view E.Q)) = .ok T' := by
    unfold TpcParams.setPadLayout
    rw [if_neg (show ¬ (TpcParams.new (atof l) L.coordinateType).modules.length ≠ 0 from fun h => h rfl), if_neg (by decide), h1]
    rfl
  have hmods : T'.modules = [TpcParams.ofModule E.F (TpcModule.new 0 (L.view E.Q) (TpcParams.new (atof l) L.coordinateType).coordinateType 0)] := h2.mods
  have hty : T'.coordinateType = L.coordinateType := h2.type.trans e0.1
  have hfr : called (TpcParams.setReadoutFrequency (TpcParams.setDriftVelocity T' (atof v)) (atof f))
      = .ok { TpcParams.setDriftVelocity T' (atof v) with modules := [{ TpcParams.ofModule E.F (TpcModule.new 0 (L.view E.Q)
        (TpcParams.new (atof l) L.coordinateType).coordinateType 0) with readoutFrequency := atof f }] } := by
    unfold TpcParams.setReadoutFrequency
    have : (TpcParams.setDriftVelocity T' (atof v)).modules = [TpcParams.ofModule E.F (TpcModule.new 0 (L.view E.Q)
      (TpcParams.new (atof l) L.coordinateType).coordinateType 0)] := hmods
    rw [this]
    rfl
  refine ⟨⟨{ TpcParams.setDriftVelocity T' (atof v) with modules := [{ TpcParams.ofModule E.F (TpcModule.new 0 (L.view E.Q)
        (TpcParams.new (atof l) L.coordinateType).coordinateType 0) with readoutFrequency := atof f }] },
      [⟨TpcModule.setReadoutFrequency (TpcModule.new 0 (L.view E.Q) T'.coordinateType 0) (atof f), L, {}⟩], p⟩,
    ⟨TpcModule.setReadoutFrequency (TpcModule.new 0 (L.view E.Q) T'.coordinateType 0) (atof f), L, {}⟩, ?_, rfl, rfl, rfl, rfl, ?_,
    ?_, rfl, rfl, ?_, rfl, rfl, hty, rfl, rfl, rfl, rfl⟩
  · unfold tpcFromXML
    rw [hl, Res.bind_ok, ho, Res.bind_ok]
    unfold tpcContent
    rw [if_pos rfl]
    unfold tpcFromLayout
    rw [hle]
    dsimp only
    rw [hL, Res.bind_ok, hset, Res.bind_ok, hv, Res.bind_ok, hf, Res.bind_ok, hfr, Res.bind_ok, Res.bind_ok, hp, Res.bind_ok]
    rfl
  · show [_] = [_]
    rw [hty, e0.1]
    rfl
  · show T'.maxDriftLength = _
    rw [h2.drift]
    exact e0.2
  · exact hty

/-- A section in the old syntax. -/
example (E : Env) : ∃ (e : Node) (s : TpcSection) (m : ModuleSection), tpcFromXML E e = .ok s ∧ s.mods = [m]
    ∧ TpcParams.getDriftVelocity s.tpc = 45 ∧ TpcParams.getReadoutFrequency s.tpc = .ok 40 ∧ TpcParams.getMaxDriftLength s.tpc = 2500 := by
  obtain ⟨L, -, -, -, -, -, -, -, -, -, -, ⟨L', le, h1, h2⟩, -⟩ := exampleTpc E CARTESIAN (Or.inl rfl)
  obtain ⟨ty, as, cs, hle, -⟩ := layout_element h1
  let e := el "detector" [] ([el "driftVelocity" [("value", "45".toList)] [], el "readoutFrequency" [("value", "40".toList)] [], le,
    el "maxDriftLength" [("value", "2.5e3".toList)] []] ++ paramsNodes (Params.run sampleOps))
  have hp : setParametersFromXML e {} = .ok (readBack (Params.run sampleOps)) := by
    refine parametersToElement _ _ (Params.inv_run sampleOps) (writable_of_storable (Params.inv_run sampleOps) storable_sampleOps) _ ?_
    intro c hc
    simp only [List.mem_cons, List.not_mem_nil, or_false] at hc
    rcases hc with rfl | rfl | rfl | rfl
    · exact value_ne (by decide)
    · exact value_ne (by decide)
    · rw [hle]
      exact value_ne (by decide)
    · exact value_ne (by decide)
  obtain ⟨s, m, r1, r2, -, -, -, -, r3, r4, r5, -⟩ := oldSyntax E e le "2.5e3".toList "45".toList "40".toList L' _ rfl
    (by
      unfold getChildElementValue
      rw [if_pos (show e.isElt = true from rfl)]
      simp only [e, hle, List.cons_append, List.nil_append, firstElement_cons, String.reduceEq, ↓reduceIte]
      rw [getXMLAttribute_el]
      rfl)
    (by
      unfold getChildElementValue
      rw [if_pos (show e.isElt = true from rfl)]
      simp only [e, hle, List.cons_append, List.nil_append, firstElement_cons, String.reduceEq, ↓reduceIte]
      rw [getXMLAttribute_el]
      rfl)
    (by
      unfold getChildElementValue
      rw [if_pos (show e.isElt = true from rfl)]
      simp only [e, hle, List.cons_append, List.nil_append, firstElement_cons, String.reduceEq, ↓reduceIte]
      rw [getXMLAttribute_el]
      rfl)
    (by
      simp only [e, hle, List.cons_append, List.nil_append, firstElement_cons, String.reduceEq, ↓reduceIte]
      exact firstElement_params _ _ _ (by decide))
    (by simp only [e, hle, List.cons_append, List.nil_append, firstElement_cons, String.reduceEq, ↓reduceIte])
    h2 hp (by decide +kernel)
  refine ⟨e, s, m, r1, r2, ?_, ?_, ?_⟩
  · rw [r4]; decide +kernel
  · rw [r5]; exact congrArg Res.ok (by decide +kernel)
  · rw [r3]; decide +kernel

/-- The children of a TPC section can be part of a file. -/
theorem wellFormed_module {m : ModuleSection} (hl : WellFormed (layoutNode m) ∧ (layoutNode m).isText = false)
    (h : NoReferences m.params) : WellFormed (el "module" [] (moduleChildren m.module (layoutNode m) m.params)) := by
  wf_el
  intro c hc
  unfold moduleChildren at hc
  simp only [List.mem_append, List.mem_cons, List.not_mem_nil, or_false] at hc
  rcases hc with (((rfl | rfl | rfl | rfl) | hc) | rfl | rfl) | hc
  · refine ⟨?_, rfl⟩
    wf_el
    simp
  · refine ⟨?_, rfl⟩
    wf_el
    simp
  · exact hl
  · refine ⟨?_, rfl⟩
    wf_el
    simp
  · cases hz : zOf m.module with
    | none => rw [hz] at hc; cases hc
    | some z =>
      rw [hz] at hc
      rw [List.mem_singleton] at hc
      subst hc
      refine ⟨?_, rfl⟩
      wf_el
      simp
  · refine ⟨?_, rfl⟩
    wf_el
    simp
  · refine ⟨?_, rfl⟩
    wf_el
    simp
  · exact ⟨wellFormed_paramsNodes h c hc, (paramsNodes_value c hc).2⟩

theorem wellFormed_tpc {s : TpcSection} {t : Text} (ht : coordinateText s.tpc.coordinateType = .ok t)
    (hm : ∀ m ∈ s.mods, (WellFormed (layoutNode m) ∧ (layoutNode m).isText = false) ∧ NoReferences m.params)
    (h : NoReferences s.params) : ∀ n ∈ tpcChildren s t, WellFormed n ∧ n.isText = false := by
  intro n hn
  unfold tpcChildren at hn
  have hr : NoReference t := by
    unfold coordinateText at ht
    split_ifs at ht
    · cases ht; decide +kernel
    · cases ht; decide +kernel
  simp only [List.mem_append, List.mem_cons, List.not_mem_nil, or_false] at hn
  rcases hn with (rfl | rfl | rfl | rfl) | hn
  · refine ⟨?_, rfl⟩
    wf_el
    simp
  · refine ⟨?_, rfl⟩
    wf_el
    simp
  · refine ⟨?_, rfl⟩
    wf_el
    simp
  · refine ⟨?_, rfl⟩
    wf_el
    intro c hc
    obtain ⟨m, hmm, rfl⟩ := List.mem_map.1 hc
    exact ⟨wellFormed_module (hm m hmm).1 (hm m hmm).2, rfl⟩
  · exact ⟨wellFormed_paramsNodes h n hn, (paramsNodes_value n hn).2⟩

end Gear.Xml
