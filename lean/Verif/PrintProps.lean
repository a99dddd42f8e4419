/-
C107 and C108: the buffers of the printed tables, and the format of the stream.
-/
import Verif.Print
import Verif.XmlNumProps
import Verif.FtdProps

set_option autoImplicit false
set_option linter.unusedSectionVars false

namespace Gear.Print

open Xml (Text natText printInt digitsOf roundEven)

/-! ### Lengths -/

theorem width_le : ∀ (fuel n k : ℕ), 0 < k → n < 10 ^ k → Xml.width fuel n ≤ k := by
  intro fuel
  induction fuel with
  | zero => intro n k hk _; exact hk
  | succ fuel ih =>
    intro n k hk hn
    rw [Xml.width]
    split
    · exact hk
    · rename_i h10
      obtain ⟨k', rfl⟩ : ∃ k', k = k' + 1 := ⟨k - 1, by omega⟩
      have hk' : 0 < k' := by
        rcases Nat.eq_zero_or_pos k' with h | h
        · subst h; simp at hn; omega
        · exact h
      have := ih (n / 10) k' hk' (by rw [pow_succ] at hn; omega)
      omega

theorem natText_length_le {n k : ℕ} (hk : 0 < k) (hn : n < 10 ^ k) : (natText n).length ≤ k := by
  rw [natText, Xml.length_digitsOf]; exact width_le n n k hk hn

theorem pad_length (w : ℕ) (t : Text) : (pad w t).length = max w t.length := by
  unfold pad; rw [List.length_append, List.length_replicate]; omega

theorem fixed_length_le {w p k : ℕ} {v : ℚ} (hv : |v| < 10 ^ k) (hw : w ≤ k + p + 3) :
    (fixed w p v).length ≤ k + p + 3 := by
  unfold fixed
  rw [pad_length]
  refine max_le hw ?_
  have hp : (0 : ℚ) < 10 ^ p := by positivity
  have h1 : |v| * 10 ^ p < 10 ^ (k + p) := by
    rw [pow_add]; exact mul_lt_mul_of_pos_right hv hp
  have h2 := (Xml.roundEven_near (|v| * 10 ^ p)).2.2
  have h3 : ⌊|v| * 10 ^ p⌋ < 10 ^ (k + p) := by
    rw [Int.floor_lt]; push_cast; exact h1
  have h4 : (roundEven (|v| * 10 ^ p)).toNat ≤ 10 ^ (k + p) := by
    rw [Int.toNat_le]
    push_cast
    omega
  have h5 : (roundEven (|v| * 10 ^ p)).toNat / 10 ^ p < 10 ^ (k + 1) := by
    rw [Nat.div_lt_iff_lt_mul (by positivity), ← pow_add]
    exact lt_of_le_of_lt h4 (Nat.pow_lt_pow_right (by norm_num) (by omega))
  have h6 := natText_length_le (Nat.succ_pos k) h5
  have h7 := Xml.length_digitsOf p (roundEven (|v| * 10 ^ p)).toNat
  have h8 : (if v < 0 then ['-'] else [] : Text).length ≤ 1 := by split <;> simp
  simp only [List.length_append, List.length_cons, h7]
  omega

theorem int_length_le {w : ℕ} {n : ℤ} (hn : |n| < 2 ^ 32) (hw : w ≤ 11) : (int w n).length ≤ 11 := by
  unfold int
  rw [pad_length]
  refine max_le hw ?_
  have h1 : n.natAbs < 10 ^ 10 := by
    have : (n.natAbs : ℤ) < 2 ^ 32 := by rw [Int.natCast_natAbs]; exact hn
    omega
  have h2 := natText_length_le (by norm_num) h1
  unfold printInt
  split
  · simp only [List.length_cons]; omega
  · omega

/-- The values of a part are within the bounds. -/
def Small (k : ℕ) : Piece → Prop
  | .lit _ => True
  | .d w n => |n| < 2 ^ 32 ∧ w ≤ 11
  | .f w p v => |v| < 10 ^ k ∧ w ≤ k + p + 3

/-- The greatest length of a part. -/
def bound (k : ℕ) : Piece → ℕ
  | .lit t => t.toList.length
  | .d _ _ => 11
  | .f _ p _ => k + p + 3

theorem format_length_le {k : ℕ} : ∀ {l : List Piece}, (∀ x ∈ l, Small k x) →
    (format l).length ≤ (l.map (bound k)).sum := by
  intro l
  induction l with
  | nil => intro _; simp [format]
  | cons x l ih =>
    intro h
    have h1 := ih (fun y hy => h y (by simp [hy]))
    have h2 : x.text.length ≤ bound k x := by
      have := h x (by simp)
      cases x with
      | lit t => exact le_rfl
      | d w n => exact int_length_le this.1 this.2
      | f w p v => exact fixed_length_le this.1 this.2
    simp only [format, List.map_cons, List.flatten_cons, List.length_append, List.sum_cons] at h1 ⊢
    omega

theorem table_ok {α : Type} (row : ℤ → Res Text) (text : α → Text) (l : List α)
    (h : ∀ (i : ℕ) (hi : i < l.length), row i = .ok (text l[i])) :
    ∀ n, n ≤ l.length → table row n = .ok ((l.take n).flatMap text) := by
  intro n
  induction n with
  | zero => intro _; simp [table]
  | succ n ih =>
    intro hn
    rw [table, ih (by omega)]
    have := h n (by omega)
    rw [Res.bind_ok, this, Res.bind_ok, List.take_succ_eq_append_getElem (by omega), List.flatMap_append]
    simp [Res.pure_eq]

theorem table_all {α : Type} (row : ℤ → Res Text) (text : α → Text) (l : List α)
    (h : ∀ (i : ℕ) (hi : i < l.length), row i = .ok (text l[i])) :
    table row l.length = .ok (l.flatMap text) := by
  rw [table_ok row text l h _ le_rfl, List.take_length]

theorem zplanar_bound (l s : ZPlanar.Layer ℚ) : ((zplanarPieces l s).map (bound 115)).sum ≤ 1023 := by
  simp [zplanarPieces, bound]

theorem ftd_bound (l s : Ftd.Layer ℚ) : ((ftdPieces l s).map (bound 115)).sum ≤ 1023 := by
  simp [ftdPieces, bound]

theorem si_bound (l : Telescope.Layer ℚ) (s : Telescope.SensLayer ℚ) :
    ((siPieces l s).map (bound 37)).sum ≤ 1023 := by
  simp [siPieces, bound]

theorem dut_bound (l : Telescope.Layer ℚ) (s : Telescope.SensLayer ℚ) :
    ((dutPieces l s).map (bound 37)).sum ≤ 1023 := by
  simp [dutPieces, bound]

/-! ### C107 -/

/-- The values of a layer that are printed, each less than `10 ^ 115`. -/
def ZSmall (l : ZPlanar.Layer ℚ) : Prop :=
  |l.NLadders| < 2 ^ 32 ∧ |l.Distance| < 10 ^ 115 ∧ |l.Width| < 10 ^ 115 ∧ |l.Length| < 10 ^ 115 ∧
    |l.Thickness| < 10 ^ 115

/-- C107, for vertex detectors: printing stays within its buffer and writes one row for every layer, if every value
is less than `10 ^ 115`.  Missing: greater values, for which it is false (`zplanar_false`). -/
theorem zplanar_partial (L : ZPlanar.Layout ℚ) (h : ∀ x ∈ L, ZSmall x.1 ∧ ZSmall x.2) :
    zplanarRows L = .ok (L.flatMap fun x => format (zplanarPieces x.1 x.2)) := by
  apply table_all
  intro i hi
  have h1 : ∀ b, ZPlanar.layerAt L (i : ℤ) b = .ok (if b then L[i].2 else L[i].1) := by
    intro b
    unfold ZPlanar.layerAt
    rw [if_neg (by omega), Int.toNat_natCast, List.getElem?_eq_getElem hi]
  rw [h1, Res.bind_ok, h1, Res.bind_ok]
  simp only [Bool.false_eq_true, if_false, if_true]
  unfold sprintf
  rw [if_pos]
  obtain ⟨⟨n1, a1, a2, a3, a4⟩, ⟨_, b1, b2, b3, b4⟩⟩ := h L[i] (List.getElem_mem hi)
  have hb := @format_length_le 115 (zplanarPieces L[i].1 L[i].2) (by
    unfold zplanarPieces
    simp only [List.forall_mem_cons]
    refine ⟨True.intro, ⟨n1, by norm_num⟩, True.intro, ⟨a1, by norm_num⟩, True.intro, ⟨a2, by norm_num⟩, True.intro,
      ⟨a3, by norm_num⟩, True.intro, ⟨a4, by norm_num⟩, True.intro, ⟨b1, by norm_num⟩, True.intro, ⟨b2, by norm_num⟩,
      True.intro, ⟨b3, by norm_num⟩, True.intro, ⟨b4, by norm_num⟩, True.intro, by simp⟩)
  exact Nat.succ_le_succ (hb.trans (zplanar_bound L[i].1 L[i].2))

/-- The values of a layer that are printed, each less than `10 ^ 115`. -/
def FtdSmall (l : Ftd.Layer ℚ) : Prop :=
  |l.nPetals| < 2 ^ 32 ∧ |l.lengthMin| < 10 ^ 115 ∧ |l.lengthMax| < 10 ^ 115 ∧ |l.width| < 10 ^ 115 ∧
    |l.thickness| < 10 ^ 115

/-- C107, for forward tracking discs with at most seven layers.  Missing: greater values and more layers, for which
it is false (`ftd_false`, `ftd_false_layers`). -/
theorem ftd_partial (L : Ftd.Layout ℚ) (h7 : L.length ≤ 7) (h : ∀ x ∈ L, FtdSmall x.1 ∧ FtdSmall x.2) :
    ftdRows L = .ok (L.flatMap fun x => format (ftdPieces x.1 x.2)) := by
  apply table_all
  intro i hi
  have h0 : Ftd.at' L (Ftd.getEquivLayer L i) = .ok L[i] := by
    unfold Ftd.getEquivLayer Ftd.at'
    rw [if_neg (by omega), if_neg (by omega), Int.toNat_natCast, List.getElem?_eq_getElem hi]
  unfold Ftd.sup Ftd.sen
  rw [h0]
  simp only [Res.bind_ok, Res.pure_eq]
  unfold sprintf
  rw [if_pos]
  obtain ⟨⟨n1, a1, a2, a3, a4⟩, ⟨_, b1, b2, b3, b4⟩⟩ := h L[i] (List.getElem_mem hi)
  have hb := @format_length_le 115 (ftdPieces L[i].1 L[i].2) (by
    unfold ftdPieces
    simp only [List.forall_mem_cons]
    refine ⟨True.intro, ⟨n1, by norm_num⟩, True.intro, ⟨a1, by norm_num⟩, True.intro, ⟨a2, by norm_num⟩, True.intro,
      ⟨a3, by norm_num⟩, True.intro, ⟨a4, by norm_num⟩, True.intro, ⟨b1, by norm_num⟩, True.intro, ⟨b2, by norm_num⟩,
      True.intro, ⟨b3, by norm_num⟩, True.intro, ⟨b4, by norm_num⟩, True.intro, by simp⟩)
  exact Nat.succ_le_succ (hb.trans (ftd_bound L[i].1 L[i].2))

/-- The values of a layer that are printed, each less than `10 ^ 37`. -/
def SiSmall (l : Telescope.Layer ℚ) : Prop :=
  |l.id| < 2 ^ 32 ∧ |l.positionX| < 10 ^ 37 ∧ |l.positionY| < 10 ^ 37 ∧ |l.positionZ| < 10 ^ 37 ∧
    |l.rotationXY| < 10 ^ 37 ∧ |l.rotationZX| < 10 ^ 37 ∧ |l.rotationZY| < 10 ^ 37 ∧ |l.sizeX| < 10 ^ 37 ∧
    |l.sizeY| < 10 ^ 37 ∧ |l.thickness| < 10 ^ 37

/-- The same for a sensitive layer. -/
def SensSmall (s : Telescope.SensLayer ℚ) : Prop :=
  |s.id| < 2 ^ 32 ∧ |s.positionX| < 10 ^ 37 ∧ |s.positionY| < 10 ^ 37 ∧ |s.positionZ| < 10 ^ 37 ∧
    |s.sizeX| < 10 ^ 37 ∧ |s.sizeY| < 10 ^ 37 ∧ |s.thickness| < 10 ^ 37 ∧ |s.npixelX| < 2 ^ 32 ∧
    |s.npixelY| < 2 ^ 32 ∧ |s.pitchX| < 10 ^ 37 ∧ |s.pitchY| < 10 ^ 37 ∧ |s.resolution| < 10 ^ 37 ∧
    |s.rotation1| < 10 ^ 37 ∧ |s.rotation2| < 10 ^ 37 ∧ |s.rotation3| < 10 ^ 37 ∧ |s.rotation4| < 10 ^ 37

/-- C107, for telescopes, with as many sensitive layers as layers, which `addLayer` guarantees (C44).  Missing:
greater values, for which it is false (`si_false`). -/
theorem si_partial (s : Telescope.Si ℚ) (hl : s.lVec.length = s.sVec.length) (h : ∀ l ∈ s.lVec, SiSmall l)
    (h' : ∀ l ∈ s.sVec, SensSmall l) :
    siRows s = .ok ((s.lVec.zip s.sVec).flatMap fun x => format (siPieces x.1 x.2)) := by
  have hz : (s.lVec.zip s.sVec).length = s.lVec.length := by rw [List.length_zip]; omega
  unfold siRows
  rw [← hz]
  apply table_all
  intro i hi
  have hi1 : i < s.lVec.length := by omega
  have hi2 : i < s.sVec.length := by omega
  have e1 : Telescope.at' s.lVec (i : ℤ) = .ok s.lVec[i] := by
    unfold Telescope.at'
    rw [if_neg (by omega), Int.toNat_natCast, List.getElem?_eq_getElem hi1]
  have e2 : Telescope.at' s.sVec (i : ℤ) = .ok s.sVec[i] := by
    unfold Telescope.at'
    rw [if_neg (by omega), Int.toNat_natCast, List.getElem?_eq_getElem hi2]
  rw [e1, Res.bind_ok, e2, Res.bind_ok, List.getElem_zip]
  dsimp only
  unfold sprintf
  rw [if_pos]
  obtain ⟨n1, a1, a2, a3, a4, a5, a6, a7, a8, a9⟩ := h s.lVec[i] (List.getElem_mem hi1)
  obtain ⟨n2, b1, b2, b3, b4, b5, b6, n3, n4, b7, b8, b9, b10, b11, b12, b13⟩ := h' s.sVec[i] (List.getElem_mem hi2)
  have hb := @format_length_le 37 (siPieces s.lVec[i] s.sVec[i]) (by
    unfold siPieces
    simp only [List.forall_mem_cons]
    refine ⟨True.intro, ⟨n1, by norm_num⟩, True.intro, ⟨a1, by norm_num⟩, True.intro, ⟨a2, by norm_num⟩, True.intro,
      ⟨a3, by norm_num⟩, True.intro, ⟨a4, by norm_num⟩, True.intro, ⟨a5, by norm_num⟩, True.intro, ⟨a6, by norm_num⟩,
      True.intro, ⟨a7, by norm_num⟩, True.intro, ⟨a8, by norm_num⟩, True.intro, ⟨a9, by norm_num⟩, True.intro,
      ⟨n2, by norm_num⟩, True.intro, ⟨b1, by norm_num⟩, True.intro, ⟨b2, by norm_num⟩, True.intro, ⟨b3, by norm_num⟩,
      True.intro, ⟨b4, by norm_num⟩, True.intro, ⟨b5, by norm_num⟩, True.intro, ⟨b6, by norm_num⟩, True.intro,
      ⟨n3, by norm_num⟩, True.intro, ⟨n4, by norm_num⟩, True.intro, ⟨b7, by norm_num⟩, True.intro, ⟨b8, by norm_num⟩,
      True.intro, ⟨b9, by norm_num⟩, True.intro, ⟨b10, by norm_num⟩, True.intro, ⟨b11, by norm_num⟩, True.intro,
      ⟨b12, by norm_num⟩, True.intro, ⟨b13, by norm_num⟩, True.intro, by simp⟩)
  exact Nat.succ_le_succ (hb.trans (si_bound s.lVec[i] s.sVec[i]))

/-- C107, for the device under test. -/
theorem dut_partial (s : Telescope.Si ℚ) (h : SiSmall s.lDut) (h' : SensSmall s.sDut) :
    dutRow s = .ok (format (dutPieces s.lDut s.sDut)) := by
  unfold dutRow sprintf
  rw [if_pos]
  obtain ⟨n1, a1, a2, a3, a4, a5, a6, a7, a8, a9⟩ := h
  obtain ⟨n2, b1, b2, b3, b4, b5, b6, n3, n4, b7, b8, b9, b10, b11, b12, b13⟩ := h'
  have hb := @format_length_le 37 (dutPieces s.lDut s.sDut) (by
    unfold dutPieces
    simp only [List.forall_mem_cons]
    refine ⟨True.intro, ⟨n1, by norm_num⟩, True.intro, ⟨a1, by norm_num⟩, True.intro, ⟨a2, by norm_num⟩, True.intro,
      ⟨a3, by norm_num⟩, True.intro, ⟨a7, by norm_num⟩, True.intro, ⟨a8, by norm_num⟩, True.intro, ⟨a9, by norm_num⟩,
      True.intro,
      ⟨n2, by norm_num⟩, True.intro, ⟨b1, by norm_num⟩, True.intro, ⟨b2, by norm_num⟩, True.intro, ⟨b3, by norm_num⟩,
      True.intro, ⟨b4, by norm_num⟩, True.intro, ⟨b5, by norm_num⟩, True.intro, ⟨b6, by norm_num⟩, True.intro,
      ⟨n3, by norm_num⟩, True.intro, ⟨n4, by norm_num⟩, True.intro, ⟨b7, by norm_num⟩, True.intro, ⟨b8, by norm_num⟩,
      True.intro, ⟨b10, by norm_num⟩, True.intro, ⟨b11, by norm_num⟩, True.intro,
      ⟨b12, by norm_num⟩, True.intro, ⟨b13, by norm_num⟩, True.intro, by simp⟩)
  exact Nat.succ_le_succ (hb.trans (dut_bound s.lDut s.sDut))

theorem fixed_length_ge {w p k : ℕ} {v : ℚ} (hv : 10 ^ k ≤ |v|) : k + p + 2 ≤ (fixed w p v).length := by
  unfold fixed
  rw [pad_length]
  refine le_trans ?_ (le_max_right _ _)
  have hp : (0 : ℚ) < 10 ^ p := by positivity
  have h1 : (10 : ℚ) ^ (k + p) ≤ |v| * 10 ^ p := by rw [pow_add]; exact mul_le_mul_of_nonneg_right hv hp.le
  have h2 := (Xml.roundEven_near (|v| * 10 ^ p)).2.1
  have h3 : (10 : ℤ) ^ (k + p) ≤ ⌊|v| * 10 ^ p⌋ := by
    rw [Int.le_floor]; push_cast; exact h1
  have h4 : 10 ^ (k + p) ≤ (roundEven (|v| * 10 ^ p)).toNat := by
    rw [Int.le_toNat (by have : (0 : ℤ) ≤ 10 ^ (k + p) := by positivity
                         omega)]
    push_cast
    omega
  have h5 : 10 ^ k ≤ (roundEven (|v| * 10 ^ p)).toNat / 10 ^ p := by
    rw [Nat.le_div_iff_mul_le (by positivity), ← pow_add]; exact h4
  have h6 : k < (natText ((roundEven (|v| * 10 ^ p)).toNat / 10 ^ p)).length := by
    rw [natText, Xml.length_digitsOf]
    have := (Xml.width_spec _ _ (le_refl ((roundEven (|v| * 10 ^ p)).toNat / 10 ^ p))).1
    exact (Nat.pow_lt_pow_iff_right (by norm_num)).1 (lt_of_le_of_lt h5 this)
  have h7 := Xml.length_digitsOf p (roundEven (|v| * 10 ^ p)).toNat
  simp only [List.length_append, List.length_cons, h7]
  omega

theorem format_length (l : List Piece) : (format l).length = (l.map (fun x => x.text.length)).sum := by
  unfold format
  rw [List.length_flatten, List.map_map]
  rfl

/-- C107 is false for great values: a vertex detector with one layer whose sizes are all at least `10 ^ 125` overflows
the buffer, whatever the number of ladders and the other values are. -/
theorem zplanar_false (F : ZPlanar.PlanarFns ℚ) (n : ℤ) (phi0 : ℚ) (l s : ZPlanar.Size ℚ)
    (h1 : 10 ^ 125 ≤ l.distance) (h2 : 10 ^ 125 ≤ l.width) (h3 : 10 ^ 125 ≤ l.length) (h4 : 10 ^ 125 ≤ l.thickness)
    (h5 : 10 ^ 125 ≤ s.distance) (h6 : 10 ^ 125 ≤ s.width) (h7 : 10 ^ 125 ≤ s.length) (h8 : 10 ^ 125 ≤ s.thickness) :
    zplanarRows (ZPlanar.addLayer F [] n phi0 l s) = .ub := by
  have h : ¬ ((format (zplanarPieces (ZPlanar.mkLayer F n phi0 l) (ZPlanar.mkLayer F n phi0 s))).length + 1 ≤ 1024) := by
    have g : ∀ {v : ℚ}, 10 ^ 125 ≤ v → 129 ≤ (fixed 4 2 v).length :=
      fun hv => @fixed_length_ge 4 2 125 _ (hv.trans (le_abs_self _))
    have g1 := g h1
    have g2 := g h2
    have g3 := g h3
    have g4 := g h4
    have g5 := g h5
    have g6 := g h6
    have g7 := g h7
    have g8 := g h8
    clear h1 h2 h3 h4 h5 h6 h7 h8
    rw [format_length]
    simp only [zplanarPieces, ZPlanar.mkLayer, List.map_cons, List.sum_cons, Piece.text]
    omega
  show (do
    let a ← Res.ok []
    let b ← sprintf 1024 (zplanarPieces (ZPlanar.mkLayer F n phi0 l) (ZPlanar.mkLayer F n phi0 s))
    pure (a ++ b)) = .ub
  unfold sprintf
  rw [if_neg h]
  rfl

/-- C107 is false for great values of forward tracking discs. -/
theorem ftd_false (c : Ftd.Common ℚ) (l s : Ftd.Shape ℚ)
    (h1 : 10 ^ 125 ≤ l.lengthMin) (h2 : 10 ^ 125 ≤ l.lengthMax) (h3 : 10 ^ 125 ≤ l.width) (h4 : 10 ^ 125 ≤ l.thickness)
    (h5 : 10 ^ 125 ≤ s.lengthMin) (h6 : 10 ^ 125 ≤ s.lengthMax) (h7 : 10 ^ 125 ≤ s.width) (h8 : 10 ^ 125 ≤ s.thickness) :
    ftdRows (Ftd.addLayer [] c l s) = .ub := by
  have h : ¬ ((format (ftdPieces (Ftd.mkLayer c l) (Ftd.mkLayer c s))).length + 1 ≤ 1024) := by
    have g : ∀ {v : ℚ}, 10 ^ 125 ≤ v → 129 ≤ (fixed 4 2 v).length :=
      fun hv => @fixed_length_ge 4 2 125 _ (hv.trans (le_abs_self _))
    have g1 := g h1
    have g2 := g h2
    have g3 := g h3
    have g4 := g h4
    have g5 := g h5
    have g6 := g h6
    have g7 := g h7
    have g8 := g h8
    clear h1 h2 h3 h4 h5 h6 h7 h8
    rw [format_length]
    simp only [ftdPieces, Ftd.mkLayer, List.map_cons, List.sum_cons, Piece.text]
    omega
  show (do
    let a ← Res.ok []
    let b ← sprintf 1024 (ftdPieces (Ftd.mkLayer c l) (Ftd.mkLayer c s))
    pure (a ++ b)) = .ub
  unfold sprintf
  rw [if_neg h]
  rfl

/-- C107 is false for forward tracking discs with more than seven layers: printing throws, whatever the values. -/
theorem ftd_false_layers (L : Ftd.Layout ℚ) (h7 : 7 < L.length) : ∀ t, ftdRows L ≠ .ok t := by
  have key : ∀ n, 8 ≤ n → ∀ t, table (fun i => do
      let l ← Ftd.sup L i
      let s ← Ftd.sen L i
      sprintf 1024 (ftdPieces l s)) n ≠ .ok t := by
    intro n hn
    induction n, hn using Nat.le_induction with
    | base =>
      intro t
      rw [table]
      have : Ftd.sup L ((7 : ℕ) : ℤ) = .throw .outOfRange := by
        unfold Ftd.sup Ftd.getEquivLayer Ftd.at' Ftd.getNLayers
        rw [if_pos]
        · rfl
        · rw [if_pos (by norm_num)]; push_cast; omega
      rw [this]
      cases table (fun i => do
        let l ← Ftd.sup L i
        let s ← Ftd.sen L i
        sprintf 1024 (ftdPieces l s)) 7 <;> simp
    | succ n _ ih =>
      intro t
      rw [table]
      cases ht : table (fun i => do
        let l ← Ftd.sup L i
        let s ← Ftd.sen L i
        sprintf 1024 (ftdPieces l s)) n with
      | ok a => exact absurd ht (ih a)
      | throw e => simp
      | ub => simp
  exact key L.length (by omega)

/-- C107 is false for great values in telescopes: a layer with all lengths at least `10 ^ 45`. -/
theorem si_false (l : Telescope.Layer ℚ) (s : Telescope.SensLayer ℚ)
    (h : 10 ^ 45 ≤ l.positionX ∧ 10 ^ 45 ≤ l.positionY ∧ 10 ^ 45 ≤ l.positionZ ∧ 10 ^ 45 ≤ l.rotationXY ∧
      10 ^ 45 ≤ l.rotationZX ∧ 10 ^ 45 ≤ l.rotationZY ∧ 10 ^ 45 ≤ l.sizeX ∧ 10 ^ 45 ≤ l.sizeY ∧ 10 ^ 45 ≤ l.thickness)
    (h' : 10 ^ 45 ≤ s.positionX ∧ 10 ^ 45 ≤ s.positionY ∧ 10 ^ 45 ≤ s.positionZ ∧ 10 ^ 45 ≤ s.sizeX ∧
      10 ^ 45 ≤ s.sizeY ∧ 10 ^ 45 ≤ s.thickness ∧ 10 ^ 45 ≤ s.pitchX ∧ 10 ^ 45 ≤ s.pitchY ∧ 10 ^ 45 ≤ s.resolution ∧
      10 ^ 45 ≤ s.rotation1 ∧ 10 ^ 45 ≤ s.rotation2 ∧ 10 ^ 45 ≤ s.rotation3 ∧ 10 ^ 45 ≤ s.rotation4)
    (a : Telescope.Layer ℚ) (b : Telescope.SensLayer ℚ) : siRows ⟨[l], [s], a, b⟩ = .ub := by
  have hf : ¬ ((format (siPieces l s)).length + 1 ≤ 1024) := by
    have g : ∀ {v : ℚ} (w p : ℕ), 10 ^ 45 ≤ v → 45 + p + 2 ≤ (fixed w p v).length :=
      fun w p hv => fixed_length_ge (hv.trans (le_abs_self _))
    obtain ⟨a1, a2, a3, a4, a5, a6, a7, a8, a9⟩ := h
    obtain ⟨b1, b2, b3, b4, b5, b6, b7, b8, b9, b10, b11, b12, b13⟩ := h'
    have g1 := g 5 2 a1
    have g2 := g 5 2 a2
    have g3 := g 7 2 a3
    have g4 := g 5 2 a4
    have g5 := g 5 2 a5
    have g6 := g 5 2 a6
    have g7 := g 6 2 a7
    have g8 := g 6 2 a8
    have g9 := g 6 3 a9
    have k1 := g 5 2 b1
    have k2 := g 5 2 b2
    have k3 := g 7 2 b3
    have k4 := g 5 2 b4
    have k5 := g 5 2 b5
    have k6 := g 6 3 b6
    have k7 := g 6 2 b7
    have k8 := g 6 2 b8
    have k9 := g 6 4 b9
    have k10 := g 5 2 b10
    have k11 := g 5 2 b11
    have k12 := g 5 2 b12
    have k13 := g 5 2 b13
    clear a1 a2 a3 a4 a5 a6 a7 a8 a9 b1 b2 b3 b4 b5 b6 b7 b8 b9 b10 b11 b12 b13
    rw [format_length]
    simp only [siPieces, List.map_cons, List.sum_cons, Piece.text]
    omega
  show (do
    let a ← Res.ok []
    let b ← sprintf 1024 (siPieces l s)
    pure (a ++ b)) = .ub
  unfold sprintf
  rw [if_neg hf]
  rfl

/-- A layer of a vertex detector. -/
def exampleLayer : ZPlanar.Layer ℚ := ⟨10, 0, 15.5, -1.44, 0.074, 65, 13, 94⟩

example : ZSmall exampleLayer := by
  refine ⟨?_, ?_, ?_, ?_, ?_⟩ <;> norm_num [exampleLayer]

example : zplanarRows [(exampleLayer, exampleLayer)] = .ok
    "  |  10  |  15.50  |  13.00  |  65.00  |  0.07  |  15.50  |  13.00  |  65.00  |  0.07  |\n".toList := by
  decide +kernel

example : fixed 4 2 (-5 / 1000) = "-0.00".toList ∧ fixed 7 2 3 = "   3.00".toList ∧ int 5 (-12) = "  -12".toList := by
  decide +kernel

example : FtdSmall (Ftd.mkLayer ⟨16, 1, false, 1, 1, 0, 0, 220, 1, 1⟩ ⟨29, 1, 20, 60, 100, 94⟩) := by
  refine ⟨?_, ?_, ?_, ?_, ?_⟩ <;> norm_num [Ftd.mkLayer]

example : SiSmall (⟨1, 0, 0, 100, 0, 0, 0, 10, 10, 0.3, 94⟩ : Telescope.Layer ℚ) ∧
    SensSmall (⟨1, 0, 0, 100, 0, 0, 0, 10, 10, 0.3, 94, 256, 256, 0.03, 0.03, 0.01, 0.01, 0.01, 1, 0, 0, 1⟩ :
      Telescope.SensLayer ℚ) := by
  constructor
  · refine ⟨?_, ?_, ?_, ?_, ?_, ?_, ?_, ?_, ?_, ?_⟩ <;> norm_num
  · refine ⟨?_, ?_, ?_, ?_, ?_, ?_, ?_, ?_, ?_, ?_, ?_, ?_, ?_, ?_, ?_, ?_⟩ <;> norm_num

/-! ### C108 -/

/-- C108: printing a material keeps the format of the stream exactly if that is fixed, without plus signs and
decimal. -/
theorem afterMaterial_iff (f : Format) :
    afterMaterial f = f ↔ f.float = .fixed ∧ f.showpos = false ∧ f.base = .dec := by
  obtain ⟨a, b, c, d⟩ := f
  simp only [afterMaterial, materialManips, List.foldl_cons, List.foldl_nil, Manip.apply, Format.mk.injEq]
  constructor
  · rintro ⟨h1, h2, -, h4⟩; exact ⟨h1.symm, h2.symm, h4.symm⟩
  · rintro ⟨h1, h2, h4⟩; exact ⟨h1.symm, h2.symm, trivial, h4.symm⟩

theorem afterManager_fixed (f : Format) (h : afterMaterial f = f) : ∀ n, afterManager f n = f := by
  intro n
  induction n with
  | zero => rfl
  | succ n ih => rw [afterManager, h, ih]

/-- C108, the provable part: printing a manager leaves the format of the stream as it was, if the manager has no
materials or the format is the one printing leaves behind.  Missing: all other formats, for which it is false
(`manager_format_false`). -/
theorem manager_format_partial (f : Format) (n : ℕ) :
    afterManager f n = f ↔ n = 0 ∨ f.float = .fixed ∧ f.showpos = false ∧ f.base = .dec := by
  rw [← afterMaterial_iff]
  constructor
  · intro h
    rcases Nat.eq_zero_or_pos n with h0 | h0
    · exact Or.inl h0
    · right
      obtain ⟨m, rfl⟩ : ∃ m, n = m + 1 := ⟨n - 1, by omega⟩
      rw [afterManager] at h
      have hf : afterMaterial (afterMaterial f) = afterMaterial f := by
        rw [afterMaterial_iff]; exact ⟨rfl, rfl, rfl⟩
      rwa [afterManager_fixed _ hf] at h
  · rintro (rfl | h)
    · rfl
    · exact afterManager_fixed f h n

/-- C108 is false: with the format every stream has at first, numbers are printed differently after a manager with
a material. -/
theorem manager_format_false : afterManager ⟨.default, false, 6, .dec⟩ 1 = ⟨.fixed, false, 6, .dec⟩ ∧
    afterManager ⟨.default, false, 6, .dec⟩ 1 ≠ ⟨.default, false, 6, .dec⟩ := by decide

example : afterManager ⟨.fixed, false, 3, .dec⟩ 5 = ⟨.fixed, false, 3, .dec⟩ := by decide

end Gear.Print
