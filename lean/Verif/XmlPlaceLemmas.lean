/-
Lemmas on rows and columns.
-/
import Verif.XmlPlace
import Verif.XmlPlaceSpec

set_option autoImplicit false
set_option linter.unusedSectionVars false

namespace Gear.Xml.Place

open Spec

/-- Where a cursor is after a sign. -/
def after (tab : ℕ) (k : ℕ × ℕ) (s : Sign) : ℕ × ℕ :=
  (match s with
    | .lineBreak _ => k.1 + 1
    | _ => k.1, advance tab k.2 s)

/-- A cursor. -/
def cur (k : ℕ × ℕ) : Cursor := ⟨k.1, k.2⟩

theorem after_foldl (tab : ℕ) (l : List Sign) (k : ℕ × ℕ) :
    l.foldl (after tab) k = (k.1 + row l, l.foldl (advance tab) k.2) := by
  induction l generalizing k with
  | nil => rfl
  | cons s l ih =>
    rw [List.foldl_cons, ih, List.foldl_cons]
    cases s <;> simp only [after, row] <;> ext <;> simp <;> omega

theorem text_cons (s : Sign) (l : List Sign) : text (s :: l) = s.bytes ++ text l := rfl

theorem text_append (a b : List Sign) : text (a ++ b) = text a ++ text b := by
  unfold text; rw [List.map_append, List.flatten_append]

theorem utf8Width_of {b : Text} {c : Char} {r : Text} (h : Utf8Char b) (hb : b = c :: r) : utf8Width c = b.length := by
  obtain ⟨c', r', e, h⟩ := h
  rw [e] at hb
  obtain ⟨rfl, rfl⟩ := List.cons.inj hb
  rw [e, List.length_cons]
  unfold utf8Width
  split_ifs <;> omega

theorem isMark_of {a b c : Char} : isMark a b c = true ↔ Mark [a, b, c] := by
  unfold isMark Mark
  simp only [Bool.and_eq_true, Bool.or_eq_true, decide_eq_true_eq, List.map_cons, List.map_nil, List.cons.injEq, and_true]
  tauto

theorem tdiv_eq (tab w : ℕ) : ((w : ℤ).tdiv (tab : ℤ) + 1) * tab = ((w / tab + 1) * tab : ℕ) := by
  have : (w : ℤ).tdiv (tab : ℤ) = ((w / tab : ℕ) : ℤ) := by
    rw [Int.tdiv_eq_ediv_of_nonneg (by omega)]; rfl
  rw [this]; push_cast; rfl

/-- The bytes of a sign are not empty. -/
theorem bytes_ne {enc : Enc} {s : Sign} (h : s.Valid enc) : s.bytes ≠ [] := by
  cases s with
  | char b => obtain ⟨⟨c, r, e, -⟩, -⟩ := h; simp [Sign.bytes, e]
  | tab => simp [Sign.bytes]
  | mark b => rcases h.2 with h | h | h <;> (intro e; rw [Sign.bytes] at e; rw [e] at h; simp at h)
  | lineBreak b => rcases h with h | h | h | h <;> simp [Sign.bytes, h]

theorem plain_no {c : Char} (h : Plain c) : c ≠ '\r' ∧ c ≠ '\n' ∧ c ≠ '\t' := ⟨h.2.1, h.1, h.2.2⟩

theorem toNat_ne {c : Char} {n : ℕ} (h : c.toNat = n) {d : Char} (hd : d.toNat ≠ n) : c ≠ d := by
  rintro rfl; exact hd h

theorem skipIf_of {c : Char} {t : Text} (h : t.head? ≠ some c) : skipIf c t = t := by
  cases t with
  | nil => rfl
  | cons d r =>
    show (if d = c then r else d :: r) = d :: r
    exact if_neg (by rintro rfl; exact h rfl)

/-- A pass reads one sign. -/
theorem pass_sign {enc : Enc} {tab : ℕ} {s : Sign} (hv : s.Valid enc) {more : Text}
    (h1 : s.bytes = ['\n'] → more.head? ≠ some '\r') (h2 : s.bytes = ['\r'] → more.head? ≠ some '\n') (k : ℕ × ℕ) :
    ∃ c r, s.bytes = c :: r ∧ pass enc tab c (r ++ more) (cur k) = (more, cur (after tab k s)) := by
  cases s with
  | char b =>
    obtain ⟨⟨c, r, e, hp⟩, hv⟩ := hv
    obtain ⟨p1, p2, p3⟩ := plain_no hp
    refine ⟨c, r, e, ?_⟩
    unfold pass
    rw [if_neg p1, if_neg p2, if_neg p3]
    have hk : (⟨(cur k).row, (cur k).col + 1⟩ : Cursor) = cur (after tab k (.char b)) := rfl
    by_cases hu : enc = .utf8
    · rw [if_pos hu] at hv
      obtain ⟨hv, hm⟩ := hv
      have hw := utf8Width_of hv e
      by_cases hc : c.toNat = 0xef
      · rw [if_pos hc, if_pos hu]
        have hl : r.length = 2 := by
          have : utf8Width c = 3 := by unfold utf8Width; rw [hc]; decide
          rw [this, e, List.length_cons] at hw
          omega
        obtain ⟨x, y, rfl⟩ : ∃ x y, r = [x, y] := by
          match r, hl with
          | [x, y], _ => exact ⟨x, y, rfl⟩
        have hm' : isMark c x y = false := by
          rw [Bool.eq_false_iff]
          intro h
          exact hm (e ▸ isMark_of.1 h)
        show (if isMark c x y = true then _ else _) = _
        rw [hm', if_neg (by decide), hk]
        rfl
      · rw [if_neg hc, if_pos hu, hw, e, ← List.cons_append, List.drop_left, ← e, hk]
    · rw [if_neg hu] at hv
      have hr : r = [] := by
        rw [e, List.length_cons] at hv
        exact List.length_eq_zero_iff.1 (by omega)
      subst hr
      by_cases hc : c.toNat = 0xef
      · rw [if_pos hc, if_neg hu, hk]; rfl
      · rw [if_neg hc, if_neg hu, hk]; rfl
  | tab =>
    refine ⟨'\t', [], rfl, ?_⟩
    unfold pass
    rw [if_neg (by decide), if_neg (by decide), if_pos rfl]
    simp only [cur, after, advance, tdiv_eq, List.nil_append]
  | mark b =>
    obtain ⟨hu, hm⟩ := hv
    have : ∃ c x y, b = [c, x, y] ∧ c.toNat = 0xef := by
      have hl : b.length = 3 := by
        rcases hm with h | h | h <;> simpa using congrArg List.length h
      obtain ⟨c, x, y, rfl⟩ := List.length_eq_three.1 hl
      refine ⟨c, x, y, rfl, ?_⟩
      rcases hm with h | h | h <;> exact (List.cons.inj h).1
    obtain ⟨c, x, y, rfl, hc⟩ := this
    refine ⟨c, [x, y], rfl, ?_⟩
    unfold pass
    rw [if_neg (toNat_ne hc (by decide)), if_neg (toNat_ne hc (by decide)), if_neg (toNat_ne hc (by decide)), if_pos hc,
      if_pos hu]
    show (if isMark c x y = true then _ else _) = _
    rw [if_pos (isMark_of.2 hm)]
    rfl
  | lineBreak b =>
    rcases hv with rfl | rfl | rfl | rfl
    · refine ⟨'\n', [], rfl, ?_⟩
      unfold pass
      rw [if_neg (by decide), if_pos rfl]
      have := h1 rfl
      refine Prod.ext ?_ (by simp [cur, after, advance])
      exact skipIf_of this
    · refine ⟨'\r', [], rfl, ?_⟩
      unfold pass
      rw [if_pos rfl]
      have := h2 rfl
      refine Prod.ext ?_ (by simp [cur, after, advance])
      exact skipIf_of this
    · refine ⟨'\r', ['\n'], rfl, ?_⟩
      unfold pass
      rw [if_pos rfl]
      rfl
    · refine ⟨'\n', ['\r'], rfl, ?_⟩
      unfold pass
      rw [if_neg (by decide), if_pos rfl]
      rfl

/-- Whether the signs that begin in front of `now` are signs in the encoding; `rest` follows the signs. -/
def ReadUpTo (rest : Text) (now : Text) (enc : Enc) : List Sign → Prop
  | [] => True
  | s :: l => (now.length < (text (s :: l) ++ rest).length → s.Valid enc) ∧ ReadUpTo rest now enc l

/-- The loop of `Stamp` stops at the first sign that does not begin in front of the location. -/
theorem stampLoop_signs {enc : Enc} {tab : ℕ} {rest now : Text} (hn : rest.length ≤ now.length) :
    ∀ (fuel : ℕ) (l : List Sign) (k : ℕ × ℕ), (text l ++ rest).length ≤ fuel → Separated rest l → ReadUpTo rest now enc l →
      ∃ a b, l = a ++ b ∧ (text b ++ rest).length ≤ now.length ∧
        stampLoop enc tab now fuel (text l ++ rest) (cur k) = .ok (text b ++ rest, cur (a.foldl (after tab) k)) := by
  intro fuel l
  induction l generalizing fuel with
  | nil =>
    intro k hf hs hr
    refine ⟨[], [], rfl, hn, ?_⟩
    unfold stampLoop
    rw [if_neg (by simpa [text] using hn)]
    rfl
  | cons s l ih =>
    intro k hf hs hr
    by_cases hlt : now.length < (text (s :: l) ++ rest).length
    · have hv := hr.1 hlt
      obtain ⟨c, r, e, hp⟩ := pass_sign (tab := tab) hv hs.1 hs.2.1 k
      have et : text (s :: l) ++ rest = c :: (r ++ (text l ++ rest)) := by
        rw [text_cons, e]; simp
      have hlen : (text l ++ rest).length < (text (s :: l) ++ rest).length := by
        rw [et]; simp only [List.length_cons, List.length_append]; omega
      match fuel, hf with
      | 0, hf => omega
      | fuel + 1, hf =>
        obtain ⟨a, b, g1, g2, g3⟩ := ih fuel (after tab k s) (by omega) hs.2.2 hr.2
        refine ⟨s :: a, b, by rw [g1]; rfl, g2, ?_⟩
        unfold stampLoop
        rw [if_pos hlt]
        rw [et]
        show stampLoop enc tab now fuel (pass enc tab c (r ++ (text l ++ rest)) (cur k)).1
          (pass enc tab c (r ++ (text l ++ rest)) (cur k)).2 = _
        rw [hp, g3]
        rfl
    · refine ⟨[], s :: l, rfl, by omega, ?_⟩
      unfold stampLoop
      rw [if_neg hlt]
      rfl

theorem separated_right {rest : Text} {a b : List Sign} (h : Separated rest (a ++ b)) : Separated rest b := by
  induction a with
  | nil => exact h
  | cons s a ih => exact ih h.2.2

theorem readUpTo_right {rest now : Text} {enc : Enc} {a b : List Sign} (h : ReadUpTo rest now enc (a ++ b)) :
    ReadUpTo rest now enc b := by
  induction a with
  | nil => exact h
  | cons s a ih => exact ih h.2

/-- `Stamp` from where some signs have been read. -/
theorem stampAt_signs {tab : ℕ} (ht : 0 < tab) {enc : Enc} {rest now : Text} (hn : rest.length ≤ now.length) {l : List Sign}
    {k : ℕ × ℕ} (hs : Separated rest l) (hr : ReadUpTo rest now enc l) :
    ∃ a b, l = a ++ b ∧ (text b ++ rest).length ≤ now.length ∧
      (⟨cur k, text l ++ rest, tab⟩ : Data).stampAt now enc
        = .ok ⟨cur (a.foldl (after tab) k), text b ++ rest, tab⟩ := by
  obtain ⟨a, b, g1, g2, g3⟩ := stampLoop_signs (enc := enc) (tab := tab) hn _ l k le_rfl hs hr
  refine ⟨a, b, g1, g2, ?_⟩
  unfold Data.stampAt
  rw [if_neg (by push_cast; omega)]
  simp only [g3, Run.bind_ok]

theorem stamps_append (d : Data) (h h' : List (Text × Enc)) : d.stamps (h ++ h') = d.stamps h >>= fun d => d.stamps h' := by
  induction h generalizing d with
  | nil => rfl
  | cons x h ih =>
    obtain ⟨now, enc⟩ := x
    simp only [List.cons_append, Data.stamps]
    cases d.stampAt now enc with
    | ok d' => simp only [Run.bind_ok]; exact ih d'
    | ub => rfl
    | assertFailed => rfl
    | endless => rfl

/-- Earlier calls leave the cursor at a sign. -/
theorem stamps_signs {tab : ℕ} (ht : 0 < tab) {rest : Text} (h : List (Text × Enc)) :
    ∀ (l : List Sign) (k : ℕ × ℕ), Separated rest l → (∀ x ∈ h, rest.length ≤ x.1.length ∧ ReadUpTo rest x.1 x.2 l) →
      ∃ a b, l = a ++ b ∧ (⟨cur k, text l ++ rest, tab⟩ : Data).stamps h
          = .ok ⟨cur (a.foldl (after tab) k), text b ++ rest, tab⟩ ∧ (∀ x ∈ h, (text b ++ rest).length ≤ x.1.length) := by
  induction h with
  | nil => intro l k _ _; exact ⟨[], l, rfl, rfl, by simp⟩
  | cons x h ih =>
    obtain ⟨now, enc⟩ := x
    intro l k hs hx
    have hx0 := hx (now, enc) (List.mem_cons_self ..)
    obtain ⟨a, b, rfl, g2, g3⟩ := stampAt_signs (k := k) ht hx0.1 hs hx0.2
    obtain ⟨a', b', rfl, g2', g3'⟩ := ih b (a.foldl (after tab) k) (separated_right hs)
      (fun x hx' => ⟨(hx x (List.mem_cons_of_mem _ hx')).1, readUpTo_right (hx x (List.mem_cons_of_mem _ hx')).2⟩)
    refine ⟨a ++ a', b', by simp, ?_, ?_⟩
    · simp only [Data.stamps, g3, Run.bind_ok, g2', List.foldl_append]
    · intro x hx'
      rcases List.mem_cons.1 hx' with rfl | hx'
      · refine le_trans ?_ g2
        rw [text_append, List.append_assoc]
        simp only [List.length_append]; omega
      · exact g3' x hx'

/-! ### Where the loop ends -/

/-- A pass steps over a byte, or it changes nothing: at the byte `ef` in UTF-8 with less than two bytes after it. -/
theorem pass_shorter (enc : Enc) (tab : ℤ) (c : Char) (rest : Text) (k : Cursor) :
    (pass enc tab c rest k).1.length < (c :: rest).length ∨
      (pass enc tab c rest k = (c :: rest, k) ∧ enc = .utf8 ∧ c.toNat = 0xef ∧ rest.length < 2) := by
  have hskip : ∀ d (t : Text), (skipIf d t).length < t.length + 1 := by
    intro d t
    cases t with
    | nil => simp [skipIf]
    | cons a t =>
      show (if a = d then t else a :: t).length < _
      split_ifs <;> simp only [List.length_cons] <;> omega
  unfold pass
  by_cases h1 : c = '\r'
  · rw [if_pos h1]; exact .inl (hskip _ _)
  rw [if_neg h1]
  by_cases h2 : c = '\n'
  · rw [if_pos h2]; exact .inl (hskip _ _)
  rw [if_neg h2]
  by_cases h3 : c = '\t'
  · rw [if_pos h3]; exact .inl (by simp)
  rw [if_neg h3]
  by_cases h4 : c.toNat = 0xef
  · rw [if_pos h4]
    by_cases h5 : enc = .utf8
    · rw [if_pos h5]
      match rest with
      | [] => exact .inr ⟨rfl, h5, h4, by simp⟩
      | [b] => exact .inr ⟨rfl, h5, h4, by simp⟩
      | b :: d :: r =>
        left
        show (if isMark c b d = true then (r, k) else (r, (⟨k.row, k.col + 1⟩ : Cursor))).1.length < _
        split_ifs <;> simp only [List.length_cons] <;> omega
    · rw [if_neg h5]; exact .inl (by simp)
  rw [if_neg h4]
  by_cases h5 : enc = .utf8
  · rw [if_pos h5]
    left
    have : 1 ≤ utf8Width c := by unfold utf8Width; split_ifs <;> omega
    simp only [List.length_drop, List.length_cons]
    omega
  · rw [if_neg h5]; exact .inl (by simp)

/-- The texts at which a pass changes nothing do not end the loop. -/
theorem stuck {enc : Enc} {tab : ℤ} {now : Text} {c : Char} {rest : Text} {k : Cursor} (hn : now.length < (c :: rest).length)
    (h : pass enc tab c rest k = (c :: rest, k)) : ∀ fuel, stampLoop enc tab now fuel (c :: rest) k = .endless := by
  intro fuel
  induction fuel with
  | zero => unfold stampLoop; rw [if_pos hn]
  | succ n ih =>
    unfold stampLoop
    rw [if_pos hn]
    show stampLoop enc tab now n (pass enc tab c rest k).1 (pass enc tab c rest k).2 = _
    rw [h]
    exact ih

/-- If the length of the text is not enough then nothing is. -/
theorem stampLoop_endless {enc : Enc} {tab : ℤ} {now : Text} : ∀ (fuel : ℕ) (p : Text) (k : Cursor), p.length ≤ fuel →
    stampLoop enc tab now fuel p k = .endless → ∀ n, stampLoop enc tab now n p k = .endless := by
  intro fuel
  induction fuel with
  | zero =>
    intro p k hf h
    rw [List.length_eq_zero_iff.1 (Nat.le_zero.1 hf)] at h
    unfold stampLoop at h
    rw [if_neg (by simp)] at h
    cases h
  | succ fuel ih =>
    intro p k hf h
    by_cases hn : now.length < p.length
    · match p, hf, h, hn with
      | c :: rest, hf, h, hn =>
        rcases pass_shorter enc tab c rest k with hp | hp
        · have h' : stampLoop enc tab now fuel (pass enc tab c rest k).1 (pass enc tab c rest k).2 = .endless := by
            unfold stampLoop at h
            rw [if_pos hn] at h
            exact h
          have := ih _ _ (by simp only [List.length_cons] at hp hf; omega) h'
          intro n
          cases n with
          | zero => unfold stampLoop; rw [if_pos hn]
          | succ n => unfold stampLoop; rw [if_pos hn]; exact this n
        · exact stuck hn hp.1
    · unfold stampLoop at h
      rw [if_neg hn] at h
      cases h

/-- Whether one of the last two bytes is `ef`. -/
def Cut (p : Text) : Prop := ∃ a c r, p = a ++ c :: r ∧ c.toNat = 0xef ∧ r.length < 2

theorem cut_drop {p : Text} (n : ℕ) (h : Cut (p.drop n)) : Cut p := by
  obtain ⟨a, c, r, e, h⟩ := h
  exact ⟨p.take n ++ a, c, r, by rw [List.append_assoc, ← e, List.take_append_drop], h⟩

theorem pass_drop (enc : Enc) (tab : ℤ) (c : Char) (rest : Text) (k : Cursor) :
    ∃ n, (pass enc tab c rest k).1 = (c :: rest).drop n := by
  have hskip : ∀ d (t : Text), ∃ n, skipIf d t = (c :: t).drop n := by
    intro d t
    cases t with
    | nil => exact ⟨1, rfl⟩
    | cons a t =>
      by_cases h : a = d
      · exact ⟨2, if_pos h⟩
      · exact ⟨1, if_neg h⟩
  unfold pass
  split_ifs
  · exact hskip _ _
  · exact hskip _ _
  · exact ⟨1, rfl⟩
  · match rest with
    | [] => exact ⟨0, rfl⟩
    | [b] => exact ⟨0, rfl⟩
    | b :: d :: r =>
      refine ⟨3, ?_⟩
      show (if isMark c b d = true then (r, k) else (r, (⟨k.row, k.col + 1⟩ : Cursor))).1 = r
      split_ifs <;> rfl
  · exact ⟨1, rfl⟩
  · exact ⟨_, rfl⟩
  · exact ⟨1, rfl⟩

theorem stampLoop_ends {enc : Enc} {tab : ℤ} {now : Text} : ∀ (fuel : ℕ) (p : Text) (k : Cursor), p.length ≤ fuel →
    (enc = .utf8 → ¬ Cut p) → ∃ r, stampLoop enc tab now fuel p k = .ok r := by
  intro fuel
  induction fuel with
  | zero =>
    intro p k hf h
    rw [List.length_eq_zero_iff.1 (Nat.le_zero.1 hf)]
    unfold stampLoop
    rw [if_neg (by simp)]
    exact ⟨_, rfl⟩
  | succ fuel ih =>
    intro p k hf h
    by_cases hn : now.length < p.length
    · match p, hf, h, hn with
      | c :: rest, hf, h, hn =>
        rcases pass_shorter enc tab c rest k with hp | hp
        · obtain ⟨n, hd⟩ := pass_drop enc tab c rest k
          obtain ⟨r, hr⟩ := ih (pass enc tab c rest k).1 (pass enc tab c rest k).2
            (by simp only [List.length_cons] at hp hf; omega) (fun hu hc => h hu (cut_drop n (hd ▸ hc)))
          refine ⟨r, ?_⟩
          unfold stampLoop
          rw [if_pos hn]
          exact hr
        · exact absurd ⟨[], c, rest, rfl, hp.2.2.1, hp.2.2.2⟩ (h hp.2.1)
    · unfold stampLoop
      rw [if_neg hn]
      exact ⟨_, rfl⟩

end Gear.Xml.Place
