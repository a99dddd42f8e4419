/-
C137: the program mergeXML, its exit status and the file it writes.
-/
import Verif.XmlMergeMain
import Verif.XmlMergeProps
import Verif.XmlSaveProps

set_option autoImplicit false
set_option linter.unusedSectionVars false

namespace Gear.Xml.Merge

namespace Spec

mutual
/-- Every element that contains texts begins with one. -/
def TextFirst : Node → Prop
  | .element _ _ cs => (startsWithText cs = true ∨ ∀ c ∈ cs, c.isText = false) ∧ AllTextFirst cs
  | _ => True
/-- All of them. -/
def AllTextFirst : List Node → Prop
  | [] => True
  | c :: cs => TextFirst c ∧ AllTextFirst cs
end

end Spec

open Spec Gear.Xml.Save Gear.Xml.Spec

/-! ### What is merged can be saved -/

section
variable {P : Prop} {f : Text → Prop}

theorem allSurvive_iff : ∀ {ns : List Node}, AllSurvive P f ns ↔ ∀ n ∈ ns, Survives P f n
  | [] => by simp [AllSurvive]
  | n :: ns => by rw [AllSurvive, allSurvive_iff (ns := ns)]; simp

mutual
theorem survives_weaken : ∀ n : Node, Survives True f n → Survives P f n
  | .element name attrs children => by
    rw [Survives, Survives]
    rintro ⟨h1, h2, h3, h4, h5, h6⟩
    exact ⟨h1, fun _ => h2 trivial, fun a ha => ⟨(h3 a ha).1, fun _ => (h3 a ha).2.1 trivial, (h3 a ha).2.2.1, fun _ => (h3 a ha).2.2.2 trivial⟩, h4,
      allSurvive_weaken children h5, h6⟩
  | .text v => by rw [Survives, Survives]; exact fun ⟨h1, h2, h3⟩ => ⟨h1, h2, fun _ => h3 trivial⟩
  | .comment v => by rw [Survives, Survives]; exact fun ⟨h1, h2, h3⟩ => ⟨h1, h2, fun _ => h3 trivial⟩
  | .unknown v => by rw [Survives, Survives]; exact id
  | .declaration v e s => by rw [Survives, Survives]; exact fun h x hx => ⟨(h x hx).1, fun _ => (h x hx).2 trivial⟩
theorem allSurvive_weaken : ∀ ns : List Node, AllSurvive True f ns → AllSurvive P f ns
  | [] => by rw [AllSurvive, AllSurvive]; exact id
  | n :: ns => by rw [AllSurvive, AllSurvive]; exact fun ⟨h1, h2⟩ => ⟨survives_weaken n h1, allSurvive_weaken ns h2⟩
end

theorem noTwo_append {c : Node} (hc : c.isText = false) : ∀ ns : List Node, NoTwoTexts ns → NoTwoTexts (ns ++ [c])
  | [], _ => by cases c <;> simp_all [NoTwoTexts, Node.isText]
  | [a], _ => by cases a <;> cases c <;> simp_all [NoTwoTexts, Node.isText]
  | a :: b :: ns, h => by
    have ih := noTwo_append hc (b :: ns)
    cases a <;> cases b <;> simp_all [NoTwoTexts]

theorem noTwo_set {d r : Node} (hr : r.isText = d.isText) : ∀ (ns : List Node) (i : ℕ), ns[i]? = some d → NoTwoTexts ns → NoTwoTexts (ns.set i r)
  | [], i, h, _ => by simp at h
  | [a], 0, h, _ => by cases r <;> simp [NoTwoTexts]
  | [a], i + 1, h, _ => by simp at h
  | a :: b :: ns, 0, h, hn => by
    simp only [List.getElem?_cons_zero, Option.some.injEq] at h
    subst h
    cases a <;> cases r <;> cases b <;> simp_all [NoTwoTexts, Node.isText]
  | a :: b :: ns, i + 1, h, hn => by
    have h : (b :: ns)[i]? = some d := by simpa using h
    have hn' : NoTwoTexts (b :: ns) := by cases a <;> cases b <;> simp_all [NoTwoTexts]
    have ih := noTwo_set hr (b :: ns) i h hn'
    cases i with
    | zero =>
      simp only [List.getElem?_cons_zero, Option.some.injEq] at h
      subst h
      simp only [List.set_cons_succ, List.set_cons_zero] at ih ⊢
      cases a <;> cases b <;> cases r <;> simp_all [NoTwoTexts, Node.isText]
    | succ i =>
      simp only [List.set_cons_succ] at ih ⊢
      cases a <;> cases b <;> simp_all [NoTwoTexts]

theorem attrValue_none : ∀ {as : List (Text × Text)} {n : Text}, attrValue as n = none → n ∉ as.map Prod.fst
  | [], n, _ => by simp
  | (m, w) :: as, n, h => by
    rw [attrValue] at h
    split_ifs at h with hm
    rw [List.map_cons, List.mem_cons, not_or]
    exact ⟨fun e => hm e.symm, attrValue_none h⟩

theorem mergeAttribute_survives {Q : Text × Text → Prop} : ∀ (as das : List (Text × Text)), (∀ a ∈ as, Q a) → (∀ a ∈ das, Q a) →
    (das.map Prod.fst).Nodup → (∀ a ∈ mergeAttribute as das, Q a) ∧ ((mergeAttribute as das).map Prod.fst).Nodup
  | [], das, _, h2, h3 => ⟨h2, h3⟩
  | a :: as, das, h1, h2, h3 => by
    rw [mergeAttribute]
    by_cases h : (attrValue das a.1).isNone
    · rw [if_pos h]
      have h : attrValue das a.1 = none := by simpa using h
      rw [setAttribute_new _ _ _ h]
      refine mergeAttribute_survives as _ (fun b hb => h1 b (by simp [hb])) ?_ ?_
      · intro b hb
        rcases List.mem_append.1 hb with hb | hb
        · exact h2 b hb
        · rw [List.mem_singleton] at hb
          subst hb
          exact h1 a (by simp)
      · rw [List.map_append, List.nodup_append]
        refine ⟨h3, by simp, ?_⟩
        rintro x hx y hy rfl
        simp only [List.map_cons, List.map_nil, List.mem_singleton] at hy
        subst hy
        exact attrValue_none h hx
    · rw [if_neg h]
      exact mergeAttribute_survives as das (fun b hb => h1 b (by simp [hb])) h2 h3

/-- The content of an element that can be saved. -/
def ContentOk (P : Prop) (f : Text → Prop) (ds : List Node) : Prop :=
  AllSurvive P f ds ∧ NoTwoTexts ds ∧ ∀ v, .unknown ('/' :: v) ∉ ds

theorem contentOk_append {ds : List Node} {c : Node} (h : ContentOk P f ds) (hc : Survives P f c) (ht : c.isText = false)
    (hu : ∀ v, c ≠ .unknown ('/' :: v)) : ContentOk P f (ds ++ [c]) := by
  obtain ⟨h1, h2, h3⟩ := h
  refine ⟨?_, noTwo_append ht ds h2, ?_⟩
  · rw [allSurvive_iff] at h1 ⊢
    intro n hn
    rcases List.mem_append.1 hn with hn | hn
    · exact h1 n hn
    · rw [List.mem_singleton] at hn
      subst hn
      exact hc
  · intro v hv
    rcases List.mem_append.1 hv with hv | hv
    · exact h3 v hv
    · exact hu v (List.mem_singleton.1 hv).symm

theorem contentOk_set {ds : List Node} {i : ℕ} {d r : Node} (h : ContentOk P f ds) (hd : ds[i]? = some d) (hr : Survives P f r)
    (ht : r.isText = d.isText) (hu : r = d ∨ r.isElt = true) : ContentOk P f (ds.set i r) := by
  obtain ⟨h1, h2, h3⟩ := h
  refine ⟨?_, noTwo_set ht ds i hd h2, ?_⟩
  · rw [allSurvive_iff] at h1 ⊢
    intro n hn
    rcases List.mem_or_eq_of_mem_set hn with hn | hn
    · exact h1 n hn
    · subst hn; exact hr
  · intro v hv
    rcases List.mem_or_eq_of_mem_set hv with hv | hv
    · exact h3 v hv
    · rcases hu with hu | hu
      · rw [hu] at hv
        exact h3 v (hv ▸ List.mem_of_getElem? hd)
      · rw [← hv] at hu
        simp [Node.isElt] at hu

mutual
theorem mergeChild_survives : ∀ (c d : Node) {r : Node}, mergeChild c d = .ok r → Survives P f c → TextFirst c → Survives P f d →
    Survives P f r ∧ r.isText = d.isText ∧ (r = d ∨ r.isElt = true)
  | .element n as cs, .element dn das ds, r, h, hc, ht, hd => by
    rw [Survives] at hc hd
    rw [TextFirst] at ht
    obtain ⟨c1, c2, c3, c4, c5, c6, c7⟩ := hc
    obtain ⟨d1, d2, d3, d4, d5, d6, d7⟩ := hd
    obtain ⟨m1, m2⟩ := mergeAttribute_survives as das c3 d3 d4
    rw [mergeChild] at h
    split_ifs at h with hn h0 htx
    · cases h
      refine ⟨?_, rfl, Or.inr rfl⟩
      rw [Survives]
      exact ⟨d1, d2, m1, m2, d5, d6, d7⟩
    · obtain ⟨rs, h1, h2⟩ := bind_eq_ok h
      cases h2
      refine ⟨?_, rfl, Or.inr rfl⟩
      rw [Survives]
      have := mergeLoop_survives cs cs _ _ _ h1 c5 ht.2 (ht.1.resolve_left htx) c7 ⟨d5, d6, d7⟩
      exact ⟨d1, d2, m1, m2, this⟩
    · cases h
      refine ⟨?_, rfl, Or.inr rfl⟩
      rw [Survives]
      exact ⟨d1, d2, m1, m2, d5, d6, d7⟩
  | .element n as cs, .comment _, r, h, _, _, hd => by rw [mergeChild] at h; cases h; exact ⟨hd, rfl, Or.inl rfl⟩; simp
  | .element n as cs, .unknown _, r, h, _, _, hd => by rw [mergeChild] at h; cases h; exact ⟨hd, rfl, Or.inl rfl⟩; simp
  | .element n as cs, .text _, r, h, _, _, hd => by rw [mergeChild] at h; cases h; exact ⟨hd, rfl, Or.inl rfl⟩; simp
  | .element n as cs, .declaration .., r, h, _, _, hd => by rw [mergeChild] at h; cases h; exact ⟨hd, rfl, Or.inl rfl⟩; simp
  | .comment _, d, r, h, _, _, hd => by rw [mergeChild] at h; cases h; exact ⟨hd, rfl, Or.inl rfl⟩; simp
  | .unknown _, d, r, h, _, _, hd => by rw [mergeChild] at h; cases h; exact ⟨hd, rfl, Or.inl rfl⟩; simp
  | .text _, d, r, h, _, _, hd => by rw [mergeChild] at h; cases h; exact ⟨hd, rfl, Or.inl rfl⟩; simp
  | .declaration .., d, r, h, _, _, hd => by rw [mergeChild] at h; cases h; exact ⟨hd, rfl, Or.inl rfl⟩; simp
theorem mergeLoop_survives (all : List Node) : ∀ (cs : List Node) (last : Text) (occ : ℕ) (ds : List Node) {rs : List Node},
    mergeLoop all cs last occ ds = .ok rs → AllSurvive P f cs → AllTextFirst cs → (∀ c ∈ cs, c.isText = false) →
    (∀ v, .unknown ('/' :: v) ∉ cs) → ContentOk P f ds → ContentOk P f rs
  | [], last, occ, ds, rs, h, _, _, _, _, hd => by
    rw [mergeLoop] at h
    cases h
    exact hd
  | c :: cs, last, occ, ds, rs, h, hc, ht, hx, hu, hd => by
    rw [AllSurvive] at hc
    rw [AllTextFirst] at ht
    have hx' : ∀ c ∈ cs, c.isText = false := fun b hb => hx b (by simp [hb])
    have hu' : ∀ v, .unknown ('/' :: v) ∉ cs := fun v hv => hu v (by simp [hv])
    rw [mergeLoop] at h
    split_ifs at h
    split at h
    · exact mergeLoop_survives all cs _ _ _ h hc.2 ht.2 hx' hu'
        (contentOk_append hd hc.1 (hx c (by simp)) fun v hv => hu v (by simp [hv]))
    · rename_i i hi
      cases hd' : ds[i]? with
      | none => rw [hd'] at h; cases h
      | some d =>
        rw [hd'] at h
        obtain ⟨r, h1, h2⟩ := bind_eq_ok h
        obtain ⟨k1, k2, k3⟩ := mergeChild_survives c d h1 hc.1 ht.1 (allSurvive_iff.1 hd.1 d (List.mem_of_getElem? hd'))
        exact mergeLoop_survives all cs _ _ _ h2 hc.2 ht.2 hx' hu' (contentOk_set hd hd' k1 k2 k3)
end

theorem first_mem {cs : List Node} {name : String} {n : Node} (h : first cs name = some n) : n ∈ cs := List.mem_of_find?_eq_some h

theorem setFirst_eq {name : String} (new : Node) : ∀ {cs : List Node} {n : Node}, first cs name = some n →
    ∃ i, cs[i]? = some n ∧ setFirst cs name new = cs.set i new
  | [], n, h => by simp [first] at h
  | c :: cs, n, h => by
    rw [setFirst]
    by_cases hc : c.value = name.toList
    · rw [if_pos hc]
      refine ⟨0, ?_, rfl⟩
      rw [first, List.find?_cons_of_pos (by simpa using hc)] at h
      simpa using h
    · rw [if_neg hc]
      rw [first, List.find?_cons_of_neg (by simpa using hc)] at h
      obtain ⟨i, h1, h2⟩ := setFirst_eq new (cs := cs) h
      exact ⟨i + 1, by simpa using h1, by rw [h2]; rfl⟩

theorem mergeSection_survives {name : String} {g dom r : List Node} {s : Node} (h : mergeSection name g dom = .ok r)
    (hs : first g name = some s) (hc : Survives P f s) (ht : AllTextFirst s.children) (hx : ∀ c ∈ s.children, c.isText = false)
    (hd : ContentOk P f dom) : ContentOk P f r := by
  unfold mergeSection at h
  rw [hs] at h
  dsimp only at h
  split at h
  · cases h; exact hd
  · split at h
    · cases h
    · rename_i dn das ds h2
      obtain ⟨rs, h3, h4⟩ := bind_eq_ok h
      cases h4
      cases s with
      | element sn sas scs =>
        rw [Survives] at hc
        obtain ⟨i, i1, i2⟩ := setFirst_eq (.element dn das rs) h2
        rw [i2]
        have hde := allSurvive_iff.1 hd.1 _ (first_mem h2)
        rw [Survives] at hde
        refine contentOk_set hd i1 ?_ rfl (Or.inr rfl)
        rw [Survives]
        exact ⟨hde.1, hde.2.1, hde.2.2.1, hde.2.2.2.1,
          mergeLoop_survives _ _ _ _ _ h3 hc.2.2.2.2.1 ht hx hc.2.2.2.2.2.2 ⟨hde.2.2.2.2.1, hde.2.2.2.2.2.1, hde.2.2.2.2.2.2⟩⟩
      | _ => simp_all [Node.children]
    · obtain ⟨rs, h3, h4⟩ := bind_eq_ok h
      cases h4
      exact hd

end

theorem documentSurvives_set {f : Text → Prop} {n r : Node} (hn : n.isElt = true) (hr : r.isElt = true) :
    ∀ (doc : List Node) (enc : Enc) (i : ℕ), doc[i]? = some n → (∀ e : Enc, Survives (e = .utf8) f n → Survives (e = .utf8) f r) →
    DocumentSurvives f enc doc → DocumentSurvives f enc (doc.set i r)
  | [], enc, i, h, _, _ => by simp at h
  | c :: cs, enc, 0, h, hk, hd => by
    simp only [List.getElem?_cons_zero, Option.some.injEq] at h
    subst h
    rw [DocumentSurvives] at hd
    obtain ⟨d1, d2, enc', d3, d4⟩ := hd
    rw [List.set_cons_zero, DocumentSurvives]
    refine ⟨by cases r <;> simp_all [Node.isElt, Node.isText], hk enc d2, enc', ?_, d4⟩
    cases c <;> simp [Node.isElt] at hn
    cases r <;> simp [Node.isElt] at hr
    cases d3 with
    | settled _ _ h => exact .settled _ _ h
    | other _ h => exact .other _ (by simp)
  | c :: cs, enc, i + 1, h, hk, hd => by
    rw [DocumentSurvives] at hd
    obtain ⟨d1, d2, enc', d3, d4⟩ := hd
    rw [List.set_cons_succ, DocumentSurvives]
    exact ⟨d1, d2, enc', d3, documentSurvives_set hn hr cs enc' i (by simpa using h) hk d4⟩

theorem mergeDocuments_survives {f : Text → Prop} {rec dom r : List Node} {g gl de ma g' gl' de' ma' : Node} (h : mergeDocuments rec dom = .ok (some r))
    (hs : Sections rec g gl de ma) (hs' : Sections dom g' gl' de' ma') (hg : Survives True f g)
    (ht : ∀ s ∈ [gl, de, ma], (∀ c ∈ s.children, c.isText = false) ∧ AllTextFirst s.children)
    (hd : DocumentSurvives f .unknown dom) : DocumentSurvives f .unknown r := by
  unfold mergeDocuments at h
  rw [hs.hasGear, hs'.hasGear] at h
  have hi := hs'.isElt
  have hg' := hs'.hasGear
  cases g' with
  | element dn das ds =>
    dsimp only at h
    split_ifs at h
    · obtain ⟨d1, e1, h⟩ := bind_eq_ok h
      obtain ⟨d2, e2, h⟩ := bind_eq_ok h
      obtain ⟨d3, e3, h⟩ := bind_eq_ok h
      cases h
      obtain ⟨i, i1, i2⟩ := setFirst_eq (.element dn das d3) hg'
      rw [i2]
      refine documentSurvives_set rfl rfl dom .unknown i i1 ?_ hd
      intro e he
      have part : ∀ {name : String} {s : Node}, first g.children name = some s → Survives (e = .utf8) f s := by
        intro name s hf
        refine survives_weaken _ ?_
        cases g with
        | element gn gas gcs =>
          rw [Survives] at hg
          exact allSurvive_iff.1 hg.2.2.2.2.1 s (first_mem hf)
        | _ => simp [first, Node.children] at hf
      rw [Survives] at he ⊢
      refine ⟨he.1, he.2.1, he.2.2.1, he.2.2.2.1, ?_⟩
      have k0 : ContentOk (e = .utf8) f ds := he.2.2.2.2
      have k1 := mergeSection_survives e1 hs.hasGlobal (part hs.hasGlobal) (ht gl (by simp)).2 (ht gl (by simp)).1 k0
      have k2 := mergeSection_survives e2 hs.hasDetectors (part hs.hasDetectors) (ht de (by simp)).2 (ht de (by simp)).1 k1
      exact mergeSection_survives e3 hs.hasMaterials (part hs.hasMaterials) (ht ma (by simp)).2 (ht ma (by simp)).1 k2
    · cases h
  | _ => simp [Node.isElt] at hi

/-! ### C137 -/

theorem load_some {d : Disk} {name file : Text} (h : d.content name = some file) : load d name = loadFile file := by
  unfold load
  rw [h]

theorem load_none {d : Disk} {name : Text} (h : d.content name = none) : load d name = .ok (false, []) := by
  unfold load
  rw [h]

theorem bind_ok_iff {α β : Type} {x : Run α} {k : α → Run β} {b : β} : (x >>= k) = .ok b ↔ ∃ a, x = .ok a ∧ k a = .ok b := by
  cases x with
  | ok a => exact ⟨fun h => ⟨a, rfl, h⟩, fun ⟨_, h, h'⟩ => by cases h; exact h'⟩
  | ub => exact ⟨nofun, fun ⟨_, h, _⟩ => by cases h⟩
  | assertFailed => exact ⟨nofun, fun ⟨_, h, _⟩ => by cases h⟩
  | endless => exact ⟨nofun, fun ⟨_, h, _⟩ => by cases h⟩

/-- C137: however the program is called and whatever the files contain, no file but the target is changed, and it is only changed if the
status is zero. -/
theorem mergeXML_files {args : List Text} {d d' : Disk} {status : ℕ} (h : mergeXML args d = .ok (status, d')) :
    (∀ name, args[2]? ≠ some name → d'.content name = d.content name) ∧ (status ≠ 0 → d' = d) ∧ status ≤ 2 := by
  unfold mergeXML at h
  split at h
  · rename_i s p t rest
    obtain ⟨⟨r1, doc1⟩, -, h⟩ := bind_ok_iff.1 h
    dsimp only at h
    split_ifs at h
    · obtain ⟨⟨r2, doc2⟩, -, h⟩ := bind_ok_iff.1 h
      dsimp only at h
      split_ifs at h
      · split at h
        · rename_i doc _
          unfold save at h
          split_ifs at h
          · cases h
            refine ⟨fun n hn => ?_, fun h => absurd rfl h, by omega⟩
            show (if n = t then _ else _) = _
            rw [if_neg]
            rintro rfl
            exact hn rfl
          · simp_all
          · simp_all
          · cases h; exact ⟨fun _ _ => rfl, fun _ => rfl, by omega⟩
        · cases h; exact ⟨fun _ _ => rfl, fun _ => rfl, by omega⟩
        · cases h; exact ⟨fun _ _ => rfl, fun _ => rfl, by omega⟩
        · cases h
      · cases h; exact ⟨fun _ _ => rfl, fun _ => rfl, by omega⟩
    · cases h; exact ⟨fun _ _ => rfl, fun _ => rfl, by omega⟩
  · cases h; exact ⟨fun _ _ => rfl, fun _ => rfl, by omega⟩

/-- C137, status zero: both files could be loaded, and the target contains the result of merging them, which keeps all of the primary
file; or an exception was thrown, and nothing was written (`exception_false`). -/
theorem mergeXML_zero_partial {args : List Text} {d d' : Disk} (h : mergeXML args d = .ok (0, d')) :
    ∃ s p t rest fs fp rec dom, args = s :: p :: t :: rest ∧ d.content s = some fs ∧ d.content p = some fp
      ∧ loadFile fs = .ok (true, rec) ∧ loadFile fp = .ok (true, dom)
      ∧ ((∃ r, (mergeFiles { file1 := some rec, file2 := some dom }).2 = .ok (some r) ∧ d'.content t = some (printDocument r) ∧ KeepsAll dom r)
        ∨ (∃ x, (mergeFiles { file1 := some rec, file2 := some dom }).2 = .throw x) ∧ d' = d) := by
  unfold mergeXML at h
  split at h
  · rename_i s p t rest
    obtain ⟨⟨r1, doc1⟩, h1, h⟩ := bind_ok_iff.1 h
    dsimp only at h
    split_ifs at h with hr1
    · obtain ⟨⟨r2, doc2⟩, h2, h⟩ := bind_ok_iff.1 h
      dsimp only at h
      split_ifs at h with hr2
      · subst hr1 hr2
        have get : ∀ {n : Text} {doc : List Node}, load d n = .ok (true, doc) → ∃ f, d.content n = some f ∧ loadFile f = .ok (true, doc) := by
          intro n doc hl
          cases hc : d.content n with
          | none => rw [load_none hc] at hl; cases hl
          | some f => exact ⟨f, rfl, by rw [load_some hc] at hl; exact hl⟩
        obtain ⟨fs, a1, a2⟩ := get h1
        obtain ⟨fp, b1, b2⟩ := get h2
        refine ⟨s, p, t, rest, fs, fp, doc1, doc2, rfl, a1, b1, a2, b2, ?_⟩
        split at h
        · rename_i doc hm
          unfold save at h
          split_ifs at h
          · cases h
            refine Or.inl ⟨doc, hm, ?_, (merge_keeps rfl rfl hm).1 (show (2 : ℤ) ≠ 1 by decide)⟩
            show (if t = t then _ else _) = _
            rw [if_pos rfl]
          all_goals simp_all
        · cases h
        · rename_i x hm
          cases h
          exact Or.inr ⟨⟨x, hm⟩, rfl⟩
        · cases h
      · cases h
    · cases h
  · cases h

/-- C137, the other statuses: two, if one of the files cannot be loaded; one, if there are too few arguments, or a file is not a gear
file, or the target cannot be opened. -/
theorem mergeXML_fails {args : List Text} {d d' : Disk} {status : ℕ} (h : mergeXML args d = .ok (status, d')) :
    (status = 2 → ∃ s p t rest, args = s :: p :: t :: rest ∧ ∃ name ∈ [s, p], ∀ file, d.content name = some file → ∃ nodes, loadFile file = .ok (false, nodes)) ∧
    (status = 1 → args.length < 3 ∨ ∃ s p t rest fs fp rec dom, args = s :: p :: t :: rest ∧ d.content s = some fs ∧ d.content p = some fp
      ∧ loadFile fs = .ok (true, rec) ∧ loadFile fp = .ok (true, dom)
      ∧ ((mergeFiles { file1 := some rec, file2 := some dom }).2 = .ok none ∨ d.writable t = false)) := by
  unfold mergeXML at h
  split at h
  · rename_i s p t rest
    have get : ∀ {n : Text} {doc : List Node}, load d n = .ok (true, doc) → ∃ f, d.content n = some f ∧ loadFile f = .ok (true, doc) := by
      intro n doc hl
      cases hc : d.content n with
      | none => rw [load_none hc] at hl; cases hl
      | some f => exact ⟨f, rfl, by rw [load_some hc] at hl; exact hl⟩
    have bad : ∀ {n : Text} {doc : List Node}, load d n = .ok (false, doc) → ∀ file, d.content n = some file → ∃ nodes, loadFile file = .ok (false, nodes) := by
      intro n doc hl file hc
      rw [load_some hc] at hl
      exact ⟨doc, hl⟩
    obtain ⟨⟨r1, doc1⟩, h1, h⟩ := bind_ok_iff.1 h
    dsimp only at h
    split_ifs at h with hr1
    · obtain ⟨⟨r2, doc2⟩, h2, h⟩ := bind_ok_iff.1 h
      dsimp only at h
      split_ifs at h with hr2
      · subst hr1 hr2
        obtain ⟨fs, a1, a2⟩ := get h1
        obtain ⟨fp, b1, b2⟩ := get h2
        split at h
        · rename_i doc hm
          unfold save at h
          by_cases hw : d.writable t = true
          · rw [if_pos hw] at h
            cases h
            exact ⟨nofun, nofun⟩
          · rw [if_neg hw] at h
            cases h
            exact ⟨nofun, fun _ => Or.inr ⟨s, p, t, rest, fs, fp, doc1, doc2, rfl, a1, b1, a2, b2, Or.inr (by simpa using hw)⟩⟩
        · rename_i hm
          cases h
          exact ⟨nofun, fun _ => Or.inr ⟨s, p, t, rest, fs, fp, doc1, doc2, rfl, a1, b1, a2, b2, Or.inl hm⟩⟩
        · cases h; exact ⟨nofun, nofun⟩
        · cases h
      · cases h
        rw [Bool.not_eq_true] at hr2
        subst hr2
        exact ⟨fun _ => ⟨s, p, t, rest, rfl, p, by simp, bad h2⟩, nofun⟩
    · cases h
      rw [Bool.not_eq_true] at hr1
      subst hr1
      exact ⟨fun _ => ⟨s, p, t, rest, rfl, s, by simp, bad h1⟩, nofun⟩
  · rename_i hargs
    cases h
    refine ⟨nofun, fun _ => Or.inl ?_⟩
    match args, hargs with
    | [], _ => simp
    | [_], _ => simp
    | [_, _], _ => simp
    | a :: b :: c :: r, hh => exact absurd rfl (hh a b c r)

/-- C137, the target: for two gear files whose sections are clear (as for C67), which survive saving (as for C57, the secondary one in any
encoding), and with no texts between the elements that are merged, the program ends with status zero.  The target can be loaded, all of
the primary file is in it, and all that only the secondary one has in its sections.  The target may be one of the two files. -/
theorem mergeXML_target_partial {d : Disk} {s p t fs fp : Text} {rest : List Text} {rec dom : List Node} {g gl de ma g' gl' de' ma' : Node}
    (h1 : d.content s = some fs) (h2 : d.content p = some fp) (h3 : loadFile fs = .ok (true, rec)) (h4 : loadFile fp = .ok (true, dom))
    (hw : d.writable t = true) (hs : Sections rec g gl de ma) (hs' : Sections dom g' gl' de' ma')
    (hc : ∀ x ∈ [(gl, gl'), (de, de'), (ma, ma')], ClearAll x.1.children x.2.children)
    (hg : Survives True PlainField g) (hd : DocumentSurvives PlainField .unknown dom)
    (ht : ∀ s ∈ [gl, de, ma], (∀ c ∈ s.children, c.isText = false) ∧ AllTextFirst s.children) :
    ∃ d' file r, mergeXML (s :: p :: t :: rest) d = .ok (0, d') ∧ d'.content t = some file ∧ loadFile file = .ok (true, r) ∧ KeepsAll dom r
      ∧ ∃ g'' gl'' de'' ma'', Sections r g'' gl'' de'' ma'' ∧ AddsAll gl.children gl'.children gl''.children
        ∧ AddsAll de.children de'.children de''.children ∧ AddsAll ma.children ma'.children ma''.children := by
  obtain ⟨r, m1, -, m2, m3⟩ := merge_adds_partial hs hs' (hc (gl, gl') (by simp)) (hc (de, de') (by simp)) (hc (ma, ma') (by simp))
  have hr : r ≠ [] := by
    rintro rfl
    obtain ⟨g'', _, _, _, hx, _⟩ := m3
    have := hx.hasGear
    simp [first] at this
  refine ⟨d.write t (printDocument r), printDocument r, r, ?_, ?_, save_load_partial r hr (mergeDocuments_survives m1 hs hs' hg ht hd), m2, m3⟩
  · unfold mergeXML
    dsimp only
    rw [load_some h1, load_some h2, h3, h4]
    show (if true = true then (if true = true then (match (mergeFiles { file1 := some rec, file2 := some dom }).2 with
        | .ok (some doc) => if (save d t doc).1 then .ok (0, (save d t doc).2) else .ok (1, (save d t doc).2)
        | .ok none => .ok (1, d)
        | .throw _ => .ok (0, d)
        | .ub => .ub) else _) else _ : Run (ℕ × Disk)) = _
    rw [if_pos rfl, if_pos rfl, m1]
    dsimp only
    unfold save
    rw [if_pos hw]
    rfl
  · show (if t = t then _ else _) = _
    rw [if_pos rfl]

/-! ### Exceptions and examples -/

/-- A disk with two files, "s" and "p", on which everything can be written. -/
def twoFiles (fs fp : Text) : Disk where
  content n := if n = ['s'] then some fs else if n = ['p'] then some fp else none
  writable _ := true

/-- Two files with a detector each, "a" once and twice. -/
def once : Text := "<gear><global/><detectors><a/></detectors><materials/></gear>".toList
def twice : Text := "<gear><global/><detectors><a/><a/></detectors><materials/></gear>".toList

theorem load_once : loadFile once = .ok (true, [el "gear" [] [el "global" [] [], el "detectors" [] [el "a" [] []], el "materials" [] []]]) := by
  decide +kernel

theorem load_twice : loadFile twice
    = .ok (true, [el "gear" [] [el "global" [] [], el "detectors" [] [el "a" [] [], el "a" [] []], el "materials" [] []]]) := by
  decide +kernel

/-- C137 is false if an exception is thrown: the status is zero, but the target does not exist. -/
theorem exception_false : mergeXML [['s'], ['p'], ['t']] (twoFiles twice once) = .ok (0, twoFiles twice once)
    ∧ (twoFiles twice once).content ['t'] = none := by
  refine ⟨?_, rfl⟩
  unfold mergeXML
  dsimp only
  rw [load_some (show (twoFiles twice once).content ['s'] = some twice from rfl), load_some (show (twoFiles twice once).content ['p'] = some once from rfl),
    load_twice, load_once]
  rfl

/-- Two files with a text between the detectors. -/
def withText (c : Char) : Text := "<gear><global/><detectors>".toList ++ c :: "</detectors><materials/></gear>".toList

/-- C137 is false for texts between the elements: the target is loaded with one text instead of two, and what the primary file contains
is not in it. -/
theorem text_false : ∃ d' file r dom, loadFile (withText 'y') = .ok (true, dom)
    ∧ mergeXML [['s'], ['p'], ['t']] (twoFiles (withText 'x') (withText 'y')) = .ok (0, d') ∧ d'.content ['t'] = some file
    ∧ loadFile file = .ok (true, r) ∧ ¬ KeepsAll dom r := by
  have l : ∀ c ∈ ['x', 'y'], loadFile (withText c)
      = .ok (true, [el "gear" [] [el "global" [] [], el "detectors" [] [.text [c]], el "materials" [] []]]) := by
    decide +kernel
  refine ⟨(twoFiles (withText 'x') (withText 'y')).write ['t']
      (printDocument [el "gear" [] [el "global" [] [], el "detectors" [] [.text ['y'], .text ['x']], el "materials" [] []]]), _,
    [el "gear" [] [el "global" [] [], el "detectors" [] [.text ['y', 'x']], el "materials" [] []]], _, l 'y' (by simp), ?_, rfl, by decide +kernel, ?_⟩
  · unfold mergeXML
    dsimp only
    rw [load_some (show (twoFiles (withText 'x') (withText 'y')).content ['s'] = some (withText 'x') from rfl),
      load_some (show (twoFiles (withText 'x') (withText 'y')).content ['p'] = some (withText 'y') from rfl), l 'x' (by simp), l 'y' (by simp)]
    rfl
  · simp [KeepsAll, Keeps, el]

theorem survives_el {f : Text → Prop} {nm : String} {attrs : List (String × Text)} {cs : List Node}
    (h1 : ValidName nm.toList ∧ ∀ c ∈ nm.toList, c.toNat < 0x80)
    (h2 : ∀ a ∈ attrs, (ValidName a.1.toList ∧ ∀ c ∈ a.1.toList, c.toNat < 0x80) ∧ NoReference a.2 ∧ ∀ c ∈ a.2, c.toNat < 0x80)
    (h3 : (attrs.map fun a => a.1.toList).Nodup) (h4 : ∀ c ∈ cs, Survives True f c ∧ c.isElt = true) : Survives True f (el nm attrs cs) := by
  rw [el, Survives]
  refine ⟨h1.1, fun _ => noMark_ascii h1.2, ?_, by rw [List.map_map]; exact h3, allSurvive_iff.2 fun c hc => (h4 c hc).1, ?_, ?_⟩
  · intro a ha
    obtain ⟨b, hb, rfl⟩ := List.mem_map.1 ha
    obtain ⟨k1, k2, k3⟩ := h2 b hb
    exact ⟨k1.1, fun _ => noMark_ascii k1.2, k2, fun _ => signs_ascii k3⟩
  · clear h1 h2 h3
    induction cs with
    | nil => trivial
    | cons c cs ih =>
      have hc := (h4 c (by simp)).2
      have := ih fun d hd => h4 d (by simp [hd])
      cases c with
      | element _ _ _ => simpa [NoTwoTexts] using this
      | _ => simp [Node.isElt] at hc
  · intro v hv
    have := (h4 _ hv).2
    simp [Node.isElt] at this

theorem survives_file1 {f : Text → Prop} : ∀ n ∈ file1, Survives True f n ∧ n.isElt = true := by
  intro n hn
  rw [file1, file, List.mem_singleton] at hn
  subst hn
  refine ⟨survives_el (by decide) (by decide) (by decide) ?_, rfl⟩
  intro c hc
  simp only [List.singleton_append, List.cons_append, List.nil_append, List.mem_cons, List.not_mem_nil, or_false] at hc
  rcases hc with rfl | rfl | rfl | rfl
  · exact ⟨survives_el (by decide) (by decide) (by decide) (by simp), rfl⟩
  · exact ⟨survives_el (by decide) (by decide) (by decide) (by simp), rfl⟩
  · refine ⟨survives_el (by decide) (by decide) (by decide) ?_, rfl⟩
    intro c hc
    simp only [List.mem_cons, List.not_mem_nil, or_false] at hc
    rcases hc with rfl | rfl
    · refine ⟨survives_el (by decide) (by decide) (by decide) ?_, rfl⟩
      intro c hc
      rw [List.mem_singleton] at hc
      subst hc
      refine ⟨survives_el (by decide) (by decide) (by decide) ?_, rfl⟩
      intro c hc
      rw [List.mem_singleton] at hc
      subst hc
      exact ⟨survives_el (by decide) (by decide) (by decide) (by simp), rfl⟩
    · refine ⟨survives_el (by decide) (by decide) (by decide) ?_, rfl⟩
      intro c hc
      rw [List.mem_singleton] at hc
      subst hc
      exact ⟨survives_el (by decide) (by decide) (by decide) (by simp), rfl⟩
  · refine ⟨survives_el (by decide) (by decide) (by decide) ?_, rfl⟩
    intro c hc
    rw [List.mem_singleton] at hc
    subst hc
    exact ⟨survives_el (by decide) (by decide) (by decide) (by simp), rfl⟩

theorem survives_file2 {f : Text → Prop} : ∀ n ∈ file2, Survives True f n ∧ n.isElt = true := by
  intro n hn
  rw [file2, file, List.mem_singleton] at hn
  subst hn
  refine ⟨survives_el (by decide) (by decide) (by decide) ?_, rfl⟩
  intro c hc
  simp only [List.append_nil, List.cons_append, List.nil_append, List.mem_cons, List.not_mem_nil, or_false] at hc
  rcases hc with rfl | rfl | rfl
  · exact ⟨survives_el (by decide) (by decide) (by decide) (by simp), rfl⟩
  · refine ⟨survives_el (by decide) (by decide) (by decide) ?_, rfl⟩
    intro c hc
    simp only [List.mem_cons, List.not_mem_nil, or_false] at hc
    rcases hc with rfl | rfl
    · refine ⟨survives_el (by decide) (by decide) (by decide) ?_, rfl⟩
      intro c hc
      rw [List.mem_singleton] at hc
      subst hc
      exact ⟨survives_el (by decide) (by decide) (by decide) (by simp), rfl⟩
    · refine ⟨survives_el (by decide) (by decide) (by decide) ?_, rfl⟩
      intro c hc
      simp only [List.mem_cons, List.not_mem_nil, or_false] at hc
      rcases hc with rfl | rfl <;> exact ⟨survives_el (by decide) (by decide) (by decide) (by simp), rfl⟩
  · refine ⟨survives_el (by decide) (by decide) (by decide) ?_, rfl⟩
    intro c hc
    rw [List.mem_singleton] at hc
    subst hc
    exact ⟨survives_el (by decide) (by decide) (by decide) (by simp), rfl⟩

theorem document_of {f : Text → Prop} {n : Node} (h : Survives True f n ∧ n.isElt = true) : DocumentSurvives f .unknown [n] := by
  refine ⟨?_, survives_weaken n h.1, .unknown, .other _ ?_, trivial⟩
  · cases n <;> simp_all [Node.isElt, Node.isText]
  · rintro v e s rfl
    simp [Node.isElt] at h

/-- The hypotheses of `mergeXML_target_partial` are met by two files with the detectors VXD and SIT, TPC and VXD.  The target is the primary
file. -/
example : ∃ d' file r, mergeXML [['s'], ['p'], ['p']] (twoFiles (printDocument file1) (printDocument file2)) = .ok (0, d')
    ∧ d'.content ['p'] = some file ∧ loadFile file = .ok (true, r) ∧ KeepsAll file2 r := by
  obtain ⟨g, de, ma, hs, c1, c2⟩ := sections_file1
  obtain ⟨g', de', ma', hs', c1', c2'⟩ := sections_file2
  have s1 : DocumentSurvives PlainField .unknown file1 := document_of (survives_file1 _ (by rw [file1, file]; exact List.mem_singleton_self _))
  have s2 : DocumentSurvives PlainField .unknown file2 := document_of (survives_file2 _ (by rw [file2, file]; exact List.mem_singleton_self _))
  have hc : ∀ x ∈ [((el "global" [("detectorName", "D".toList)] [], el "global" [("detectorName", "D".toList)] []) : Node × Node), (de, de'), (ma, ma')],
      ClearAll x.1.children x.2.children := by
    intro x hx
    simp only [List.mem_cons, List.not_mem_nil, or_false] at hx
    rcases hx with rfl | rfl | rfl
    · show ClearAll [] []
      rw [ClearAll]
      exact List.Pairwise.nil
    · show ClearAll de.children de'.children
      rw [c1, c1']
      exact clear_files
    · show ClearAll ma.children ma'.children
      rw [c2, c2']
      exact clear_materials
  have ht : ∀ s ∈ [el "global" [("detectorName", "D".toList)] [], de, ma], (∀ c ∈ s.children, c.isText = false) ∧ AllTextFirst s.children := by
    intro s hm
    simp only [List.mem_cons, List.not_mem_nil, or_false] at hm
    rcases hm with rfl | rfl | rfl
    · exact ⟨by simp, by rw [children_el, AllTextFirst]; exact True.intro⟩
    · rw [c1]
      simp [detector, el, AllTextFirst, TextFirst, Node.isText]
    · rw [c2]
      simp [el, AllTextFirst, TextFirst, Node.isText]
  obtain ⟨d', file, r, r1, r2, r3, r4, -⟩ := mergeXML_target_partial (d := twoFiles (printDocument file1) (printDocument file2)) (s := ['s']) (p := ['p'])
    (t := ['p']) (rest := []) rfl rfl (save_load_partial file1 (by simp [file1, file]) s1) (save_load_partial file2 (by simp [file2, file]) s2) rfl hs hs' hc
    (survives_file1 g (first_mem hs.hasGear)).1 s2 ht
  exact ⟨d', file, r, r1, r2, r3, r4⟩

/-- Too few arguments, and a file that does not exist. -/
example (d : Disk) : mergeXML [['a'], ['b']] d = .ok (1, d) := rfl

example : mergeXML [['s'], ['q'], ['t']] (twoFiles once once) = .ok (2, twoFiles once once) := by
  unfold mergeXML
  dsimp only
  rw [load_some (show (twoFiles once once).content ['s'] = some once from rfl), load_once]
  rfl

end Gear.Xml.Merge
