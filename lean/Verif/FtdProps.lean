/-
Properties of the forward tracking disks (C44-C46, C93, C94, C126, C127).
-/
import Verif.Ftd
import Verif.ZPlanarSpec

set_option autoImplicit false
set_option linter.unusedSectionVars false

namespace Gear.Ftd

open Vector3D (V3)

/-! ### Specification -/

namespace Spec

/-- The arguments of one call of `addLayer`. -/
structure Call (K : Type) where
  common : Common K
  support : Shape K
  sensitive : Shape K

/-- The disks after the given calls of `addLayer`. -/
def disks {K : Type} [Field K] [LinearOrder K] [IsStrictOrderedRing K] [FloorRing K] (calls : List (Call K)) : Layout K :=
  calls.foldl (fun L c => addLayer L c.common c.support c.sensitive) []

/-- The points of a support petal: a trapezoid of the given thickness, its axis in the direction `phi`, at `z`. -/
def petal (s : Shape ℝ) (phi z : ℝ) : Set (V3 ℝ) :=
  {p | ∃ h v w, p = ⟨(s.rInner + h) * Real.cos phi - v * Real.sin phi, (s.rInner + h) * Real.sin phi + v * Real.cos phi, z + w⟩
    ∧ 0 ≤ h ∧ h ≤ s.width ∧ 2 * s.width * |v| ≤ s.lengthMin * (s.width - h) + s.lengthMax * h ∧ |w| ≤ s.thickness / 2}

end Spec

open Spec

variable {K : Type} [Field K] [LinearOrder K] [IsStrictOrderedRing K] [FloorRing K]

theorem disks_eq (calls : List (Call K)) :
    disks calls = calls.map fun c => (mkLayer c.common c.support, mkLayer c.common c.sensitive) := by
  have : ∀ (L : Layout K), calls.foldl (fun L c => addLayer L c.common c.support c.sensitive) L
      = L ++ calls.map fun c => (mkLayer c.common c.support, mkLayer c.common c.sensitive) := by
    induction calls with
    | nil => intro L; simp
    | cons c cs ih => intro L; rw [List.foldl_cons, ih]; simp [addLayer]
  simpa [disks] using this []

theorem disks_length (calls : List (Call K)) : getNLayers (disks calls) = calls.length := by
  simp [getNLayers, disks_eq]

theorem at'_ok {calls : List (Call K)} {j : ℕ} {c : Call K} (h : calls[j]? = some c) :
    at' (disks calls) j = .ok (mkLayer c.common c.support, mkLayer c.common c.sensitive) := by
  unfold at'
  rw [if_neg (by omega), disks_eq]
  simp [h]

theorem at'_throws {calls : List (Call K)} {i : ℤ} (h : i < 0 ∨ (calls.length : ℤ) ≤ i) :
    at' (disks calls) i = .throw .outOfRange := by
  unfold at'
  by_cases h0 : i < 0
  · rw [if_pos h0]
  · rw [if_neg h0, disks_eq, List.getElem?_eq_none (by simp; omega)]

/-- The index of the disk `j` added is `i`: its own one, or that of its mirror image. -/
def Denotes (n : ℕ) (j : ℕ) (i : ℤ) : Prop := (i = j ∧ j ≤ 6) ∨ (i = j + n ∧ 7 ≤ j + n)

theorem equiv_of_denotes {calls : List (Call K)} {j : ℕ} {i : ℤ} (hi : Denotes calls.length j i) :
    getEquivLayer (disks calls) i = j := by
  unfold getEquivLayer
  rw [disks_length]
  rcases hi with ⟨h1, h2⟩ | ⟨h1, h2⟩
  · rw [if_neg (by omega)]; exact h1
  · rw [if_pos (by omega)]; omega

theorem equiv_cases (calls : List (Call K)) (i : ℤ) :
    (∃ j, j < calls.length ∧ Denotes calls.length j i)
    ∨ (getEquivLayer (disks calls) i < 0 ∨ (calls.length : ℤ) ≤ getEquivLayer (disks calls) i) := by
  unfold getEquivLayer
  rw [disks_length]
  by_cases h : i > 6
  · rw [if_pos h]
    by_cases h' : i - calls.length < 0 ∨ (calls.length : ℤ) ≤ i - calls.length
    · exact Or.inr h'
    · exact Or.inl ⟨(i - calls.length).toNat, by omega, Or.inr (by omega)⟩
  · rw [if_neg h]
    by_cases h' : i < 0 ∨ (calls.length : ℤ) ≤ i
    · exact Or.inr h'
    · exact Or.inl ⟨i.toNat, by omega, Or.inl (by omega)⟩

/-! ### C94: the getters -/

/-- All getters of the layer with index `i` return the arguments of call number `j`, where `i` is `j` for `j <= 6`, or
`j + N` if that is greater than 6, with `N` the number of calls. -/
theorem getters_return_partial (calls : List (Call K)) {j : ℕ} {c : Call K} (hj : calls[j]? = some c) {i : ℤ}
    (hi : (i = j ∧ j ≤ 6) ∨ (i = j + calls.length ∧ 7 ≤ j + calls.length)) :
    getNPetals (disks calls) i = .ok c.common.nPetals
      ∧ getNSensors (disks calls) i = .ok c.common.nSensors
      ∧ isDoubleSided (disks calls) i = .ok c.common.isDoubleSided
      ∧ getSensorType (disks calls) i = .ok c.common.sensorType
      ∧ getPhiHalfDistance (disks calls) i = .ok c.common.petalOpAngle
      ∧ getPhi0 (disks calls) i = .ok c.common.phi0
      ∧ getAlpha (disks calls) i = .ok c.common.alpha
      ∧ getZposition (disks calls) i = .ok c.common.zposition
      ∧ getZoffset (disks calls) i = .ok c.common.zoffset
      ∧ getZoffsetSign0 (disks calls) i = .ok c.common.zsignpetal0
      ∧ getSupportRinner (disks calls) i = .ok c.support.rInner
      ∧ getSupportThickness (disks calls) i = .ok c.support.thickness
      ∧ getSupportLengthMin (disks calls) i = .ok c.support.lengthMin
      ∧ getSupportLengthMax (disks calls) i = .ok c.support.lengthMax
      ∧ getSupportWidth (disks calls) i = .ok c.support.width
      ∧ getSupportRadLength (disks calls) i = .ok c.support.radLength
      ∧ getSensitiveRinner (disks calls) i = .ok c.sensitive.rInner
      ∧ getSensitiveThickness (disks calls) i = .ok c.sensitive.thickness
      ∧ getSensitiveLengthMin (disks calls) i = .ok c.sensitive.lengthMin
      ∧ getSensitiveLengthMax (disks calls) i = .ok c.sensitive.lengthMax
      ∧ getSensitiveWidth (disks calls) i = .ok c.sensitive.width
      ∧ getSensitiveRadLength (disks calls) i = .ok c.sensitive.radLength := by
  have h := at'_ok hj
  rw [← equiv_of_denotes (calls := calls) (show Denotes calls.length j i from hi)] at h
  simp [getNPetals, getNSensors, isDoubleSided, getSensorType, getPhiHalfDistance, getPhi0, getAlpha, getZposition,
    getZoffset, getZoffsetSign0, getSupportRinner, getSupportThickness, getSupportLengthMin, getSupportLengthMax,
    getSupportWidth, getSupportRadLength, getSensitiveRinner, getSensitiveThickness, getSensitiveLengthMin,
    getSensitiveLengthMax, getSensitiveWidth, getSensitiveRadLength, sup, sen, h, mkLayer]

/-- For every other index all of them throw `std::out_of_range`. -/
theorem getters_throw (calls : List (Call K)) {i : ℤ}
    (hi : ¬ ∃ j : ℕ, j < calls.length ∧ ((i = j ∧ j ≤ 6) ∨ (i = j + calls.length ∧ 7 ≤ j + calls.length))) (p s : ℤ) :
    getNPetals (disks calls) i = .throw .outOfRange
      ∧ getNSensors (disks calls) i = .throw .outOfRange
      ∧ isDoubleSided (disks calls) i = .throw .outOfRange
      ∧ getSensorType (disks calls) i = .throw .outOfRange
      ∧ getPhiHalfDistance (disks calls) i = .throw .outOfRange
      ∧ getPhi0 (disks calls) i = .throw .outOfRange
      ∧ getAlpha (disks calls) i = .throw .outOfRange
      ∧ getZposition (disks calls) i = .throw .outOfRange
      ∧ getZoffset (disks calls) i = .throw .outOfRange
      ∧ getZoffsetSign0 (disks calls) i = .throw .outOfRange
      ∧ getSupportRinner (disks calls) i = .throw .outOfRange
      ∧ getSupportThickness (disks calls) i = .throw .outOfRange
      ∧ getSupportLengthMin (disks calls) i = .throw .outOfRange
      ∧ getSupportLengthMax (disks calls) i = .throw .outOfRange
      ∧ getSupportWidth (disks calls) i = .throw .outOfRange
      ∧ getSupportRadLength (disks calls) i = .throw .outOfRange
      ∧ getSensitiveRinner (disks calls) i = .throw .outOfRange
      ∧ getSensitiveThickness (disks calls) i = .throw .outOfRange
      ∧ getSensitiveLengthMin (disks calls) i = .throw .outOfRange
      ∧ getSensitiveLengthMax (disks calls) i = .throw .outOfRange
      ∧ getSensitiveWidth (disks calls) i = .throw .outOfRange
      ∧ getSensitiveRadLength (disks calls) i = .throw .outOfRange
      ∧ getSupportZposition (disks calls) i p = .throw .outOfRange
      ∧ getSensitiveZposition (disks calls) i p s = .throw .outOfRange
      ∧ getPhiPetalCd (disks calls) i p = .throw .outOfRange := by
  have h : at' (disks calls) (getEquivLayer (disks calls) i) = .throw .outOfRange :=
    at'_throws ((equiv_cases calls i).resolve_left hi)
  simp [getNPetals, getNSensors, isDoubleSided, getSensorType, getPhiHalfDistance, getPhi0, getAlpha, getZposition,
    getZoffset, getZoffsetSign0, getSupportRinner, getSupportThickness, getSupportLengthMin, getSupportLengthMax,
    getSupportWidth, getSupportRadLength, getSensitiveRinner, getSensitiveThickness, getSensitiveLengthMin,
    getSensitiveLengthMax, getSensitiveWidth, getSensitiveRadLength, getSupportZposition, getSensitiveZposition,
    getPhiPetalCd, sup, sen, h]

/-- The number of layers is that of the calls. -/
theorem getNLayers_eq (calls : List (Call K)) : getNLayers (disks calls) = calls.length := disks_length calls

/-- The largest radius of a layer, for which mirror images have no index. -/
theorem getMaxRadius_eq (calls : List (Call K)) {j : ℕ} {c : Call K} (hj : calls[j]? = some c) :
    getMaxRadius (disks calls) j false = .ok (c.support.rInner + c.support.width)
      ∧ getMaxRadius (disks calls) j true = .ok (c.sensitive.rInner + c.sensitive.width) := by
  simp [getMaxRadius, sel, at'_ok hj, mkLayer]

/-- A disk of 16 petals with 4 sensors on each, on both sides. -/
def exampleDisk : Call ℚ where
  common := ⟨16, 4, true, 1, 1 / 5, 0, 0, 220, 2, 1⟩
  support := ⟨39, 1, 10, 60, 120, 94⟩
  sensitive := ⟨40, 1 / 10, 9, 58, 118, 94⟩

/-- Seven disks: the getter of index 8 is that of disk 1. -/
example : getSupportWidth (disks (List.replicate 7 exampleDisk)) 8 = .ok 120 :=
  (getters_return_partial (List.replicate 7 exampleDisk) (j := 1) (c := exampleDisk) rfl (i := 8)
    (Or.inr (by simp))).2.2.2.2.2.2.2.2.2.2.2.2.2.2.1

/-! ### C44: mirrored disks -/

/-- The z position of petals of a disk and of its mirror image. -/
theorem support_z (calls : List (Call K)) {j : ℕ} {c : Call K} (hj : calls[j]? = some c) (p : ℤ) :
    (j ≤ 6 → getSupportZposition (disks calls) j p = .ok (c.common.zposition
      + truncInt (c.common.zsignpetal0 * (powSign p : K)) * c.common.zoffset)) ∧
    (7 ≤ j + calls.length → getSupportZposition (disks calls) (j + calls.length) p = .ok (-(c.common.zposition
      + truncInt (c.common.zsignpetal0 * (powSign p : K)) * c.common.zoffset))) := by
  have hlen : 0 < calls.length := by
    have := (List.getElem?_eq_some_iff.mp hj).1; omega
  constructor
  · intro h
    have e := equiv_of_denotes (calls := calls) (j := j) (i := j) (Or.inl ⟨rfl, h⟩)
    simp [getSupportZposition, e, at'_ok hj, mkLayer]
  · intro h
    have e := equiv_of_denotes (calls := calls) (j := j) (i := j + calls.length) (Or.inr ⟨rfl, h⟩)
    have hne : ((j : ℤ) ≠ j + calls.length) := by omega
    simp only [getSupportZposition, e, at'_ok hj, mkLayer, Res.bind_ok, Res.pure_eq, if_pos hne]
    simp

theorem truncSign {z : K} (hz : z ≠ 0) : (0 < z → truncInt (z / |z|) = 1) ∧ (z < 0 → truncInt (z / |z|) = -1) := by
  constructor
  · intro hp; rw [abs_of_pos hp, div_self hz]; simp [truncInt]
  · intro hn
    rw [abs_of_neg hn, div_neg, div_self hz]
    unfold truncInt
    rw [if_neg (by linarith [zero_lt_one (α := K)]), show (-1 : K) = ((-1 : ℤ) : K) by simp,
      Int.ceil_intCast]

theorem truncSign_neg {z : K} (hz : z ≠ 0) : truncInt (-z / |(-z)|) = -truncInt (z / |z|) := by
  rcases lt_or_gt_of_ne hz with hn | hp
  · rw [(truncSign hz).2 hn, (truncSign (neg_ne_zero.mpr hz)).1 (by linarith)]; rfl
  · rw [(truncSign hz).1 hp, (truncSign (neg_ne_zero.mpr hz)).2 (by linarith)]

/-- With seven layers, the indices `j` and `j + 7` denote a disk and its mirror image: the z positions of the petals
are opposite and all getters agree (`getters_return_partial`). -/
theorem mirrored_partial (calls : List (Call K)) (hN : calls.length = 7) {j : ℕ} (hj : j < 7) (p : ℤ) :
    ∃ z, getSupportZposition (disks calls) j p = .ok z ∧ getSupportZposition (disks calls) (j + 7) p = .ok (-z) := by
  obtain ⟨c, hc⟩ : ∃ c, calls[j]? = some c := by
    rw [← hN] at hj; exact ⟨calls[j], List.getElem?_eq_getElem hj⟩
  obtain ⟨h1, h2⟩ := support_z calls hc p
  rw [hN] at h2
  exact ⟨_, h1 (by omega), h2 (by omega)⟩

/-- Sensors of mirrored petals are mirrored too. -/
theorem mirrored_sensors_partial (calls : List (Call K)) (hN : calls.length = 7) {j : ℕ} (hj : j < 7) (p s : ℤ) {z : K}
    (h : getSensitiveZposition (disks calls) j p s = .ok z) :
    getSensitiveZposition (disks calls) (j + 7) p s = .ok (-z) := by
  obtain ⟨c, hc⟩ : ∃ c, calls[j]? = some c := by
    rw [← hN] at hj; exact ⟨calls[j], List.getElem?_eq_getElem hj⟩
  obtain ⟨z0, h1, h2⟩ := mirrored_partial calls hN hj p
  have e1 := equiv_of_denotes (calls := calls) (j := j) (i := j) (Or.inl ⟨rfl, by omega⟩)
  have e2 := equiv_of_denotes (calls := calls) (j := j) (i := j + 7) (Or.inr ⟨by rw [hN]; rfl, by omega⟩)
  unfold getSensitiveZposition at h ⊢
  simp only [h1, h2, e1, e2, Res.bind_ok, at'_ok hc, mkLayer, Res.pure_eq, neg_eq_zero] at h ⊢
  by_cases hz : z0 = 0
  · rw [if_pos hz] at h; exact absurd h (by simp)
  · rw [if_neg hz] at h ⊢
    split_ifs at h ⊢ with hs hd
    · rw [← Res.ok.inj h]
      congr 1
      rw [truncSign_neg hz]; push_cast; ring
    · rw [← Res.ok.inj h]
      congr 1
      rw [truncSign_neg hz]; push_cast; ring

/-- Seven is the only number of layers for which all the indices below twice that number can be used. -/
theorem mirrored_iff (calls : List (Call K)) (hne : calls ≠ []) :
    (∀ i : ℤ, 0 ≤ i → i < 2 * calls.length → ∀ p, ∃ z, getSupportZposition (disks calls) i p = .ok z)
      ↔ calls.length = 7 := by
  have hpos : 0 < calls.length := List.length_pos_iff.mpr hne
  constructor
  · intro h
    by_contra hN
    have hthrow : ∀ i : ℤ, (¬ ∃ j : ℕ, j < calls.length ∧ ((i = j ∧ j ≤ 6) ∨ (i = j + calls.length ∧ 7 ≤ j + calls.length))) →
        ¬ (0 ≤ i ∧ i < 2 * calls.length) := by
      rintro i hi ⟨h0, h1⟩
      obtain ⟨z, hz⟩ := h i h0 h1 0
      have := (getters_throw calls hi 0 0).2.2.2.2.2.2.2.2.2.2.2.2.2.2.2.2.2.2.2.2.2.2.1
      rw [this] at hz
      exact absurd hz (by simp)
    rcases lt_or_gt_of_ne hN with hlt | hgt
    · refine hthrow calls.length ?_ ⟨by omega, by omega⟩
      rintro ⟨j, hj, (⟨a, b⟩ | ⟨a, b⟩)⟩ <;> omega
    · refine hthrow 7 ?_ ⟨by omega, by omega⟩
      rintro ⟨j, hj, (⟨a, b⟩ | ⟨a, b⟩)⟩ <;> omega
  · intro hN i h0 h1 p
    by_cases hi : i < 7
    · obtain ⟨z, hz, -⟩ := mirrored_partial calls hN (j := i.toNat) (by omega) p
      exact ⟨z, by rw [← hz]; congr 1; omega⟩
    · obtain ⟨z, -, hz⟩ := mirrored_partial calls hN (j := (i - 7).toNat) (by omega) p
      exact ⟨-z, by rw [← hz]; congr 1; omega⟩

/-- So with five layers the mirror image of the first disk cannot be asked for. -/
theorem mirrored_false : ∃ calls : List (Call ℚ), calls.length = 5 ∧
    getSupportZposition (disks calls) (0 + 5) 0 = .throw .outOfRange ∧
    getNPetals (disks calls) (0 + 5) = .throw .outOfRange :=
  ⟨List.replicate 5 exampleDisk, by simp, by decide +kernel, by decide +kernel⟩

/-- And with eight layers the last disk. -/
theorem mirrored_false_many : ∃ calls : List (Call ℚ), calls.length = 8 ∧
    getSupportZposition (disks calls) 7 0 = .throw .outOfRange ∧
    getNPetals (disks calls) 7 = .throw .outOfRange :=
  ⟨List.replicate 8 exampleDisk, by simp, by decide +kernel, by decide +kernel⟩

example : getSupportZposition (disks (List.replicate 7 exampleDisk)) 3 1 = .ok 218 ∧
    getSupportZposition (disks (List.replicate 7 exampleDisk)) 10 1 = .ok (-218) := by
  constructor <;> decide +kernel

/-! ### C93: staggered petals -/

/-- The documented z position of the petals: `getZposition + getZoffsetSign0 * getZoffset` for even petals and
`getZposition - getZoffsetSign0 * getZoffset` for odd ones, on the side of positive z and for a whole sign. -/
theorem staggered_partial (calls : List (Call K)) {j : ℕ} {c : Call K} (hj : calls[j]? = some c) (hj6 : j ≤ 6) {k : ℤ}
    (hk : c.common.zsignpetal0 = k) (p : ℤ) {zp s zo : K} (h1 : getZposition (disks calls) j = .ok zp)
    (h2 : getZoffsetSign0 (disks calls) j = .ok s) (h3 : getZoffset (disks calls) j = .ok zo) :
    getSupportZposition (disks calls) j p = .ok (if p % 2 = 0 then zp + s * zo else zp - s * zo) := by
  obtain ⟨-, -, -, -, -, -, -, g1, g2, g3, -⟩ := getters_return_partial calls hj (i := j) (Or.inl ⟨rfl, hj6⟩)
  rw [g1] at h1; rw [g3] at h2; rw [g2] at h3
  rw [← Res.ok.inj h1, ← Res.ok.inj h2, ← Res.ok.inj h3, (support_z calls hj p).1 hj6, hk]
  have ht : ∀ m : ℤ, truncInt ((m : ℤ) : K) = m := by intro m; unfold truncInt; split_ifs <;> simp
  congr 1
  unfold powSign
  split_ifs with h
  · have : ((k : K) * ((1 : ℤ) : K)) = ((k : ℤ) : K) := by simp
    rw [this, ht]
  · have : ((k : K) * ((-1 : ℤ) : K)) = ((-k : ℤ) : K) := by simp
    rw [this, ht]; push_cast; ring

/-- The sign is truncated: with a sign of 1/2 nothing is added. -/
theorem staggered_false : ∃ c : Call ℚ, getZposition (disks [c]) 0 = .ok 220 ∧ getZoffsetSign0 (disks [c]) 0 = .ok (1 / 2) ∧
    getZoffset (disks [c]) 0 = .ok 2 ∧ getSupportZposition (disks [c]) 0 0 = .ok 220 :=
  ⟨{ exampleDisk with common := ⟨16, 4, true, 1, 1 / 5, 0, 0, 220, 2, 1 / 2⟩ }, by decide +kernel, by decide +kernel,
    by decide +kernel, by decide +kernel⟩

/-- Nor does the formula hold for the mirrored disks, whose `getZposition` is positive. -/
theorem staggered_false_mirrored : ∃ calls : List (Call ℚ), getZposition (disks calls) 7 = .ok 220 ∧
    getZoffsetSign0 (disks calls) 7 = .ok 1 ∧ getZoffset (disks calls) 7 = .ok 2 ∧
    getSupportZposition (disks calls) 7 0 = .ok (-222) :=
  ⟨List.replicate 7 exampleDisk, by decide +kernel, by decide +kernel, by decide +kernel, by decide +kernel⟩

/-- Petals are at equal angles: twice the half width apart. -/
theorem petal_angles (calls : List (Call K)) {j : ℕ} {c : Call K} (hj : calls[j]? = some c) {i : ℤ}
    (hi : (i = j ∧ j ≤ 6) ∨ (i = j + calls.length ∧ 7 ≤ j + calls.length)) (p : ℤ) :
    getPhiPetalCd (disks calls) i p = .ok (c.common.phi0 + p * (2 * c.common.petalOpAngle)) := by
  have h := at'_ok hj
  rw [← equiv_of_denotes (calls := calls) (show Denotes calls.length j i from hi)] at h
  simp [getPhiPetalCd, h, mkLayer, mul_assoc]

example : getPhiPetalCd (disks [exampleDisk]) 0 3 = .ok (6 / 5) := by decide +kernel

/-! ### C45: sensors on the surface of their petal -/

/-- The outcome for each sensor index.  Valid ones are at half the sum of the thicknesses from the centre of the petal,
towards the interaction point if they are in front and away from it if they are on the back. -/
theorem sensor_z (calls : List (Call K)) {j : ℕ} {c : Call K} (hj : calls[j]? = some c) {i : ℤ}
    (hi : (i = j ∧ j ≤ 6) ∨ (i = j + calls.length ∧ 7 ≤ j + calls.length)) {p s : ℤ} {z : K}
    (hz : getSupportZposition (disks calls) i p = .ok z) (hz0 : z ≠ 0) :
    if 1 ≤ s ∧ s ≤ c.common.nSensors then
      ∃ zs, getSensitiveZposition (disks calls) i p s = .ok zs ∧
        let half := (c.support.thickness + c.sensitive.thickness) / 2
        let back := c.common.isDoubleSided = true ∧ c.common.nSensors < 2 * s
        (back → 0 < z → zs = z + half) ∧ (back → z < 0 → zs = z - half)
          ∧ (¬ back → 0 < z → zs = z - half) ∧ (¬ back → z < 0 → zs = z + half)
    else getSensitiveZposition (disks calls) i p s = .throw .gear := by
  have h := at'_ok hj
  have e := equiv_of_denotes (calls := calls) (show Denotes calls.length j i from hi)
  rw [← e] at h
  have hsign := truncSign hz0
  have hback : (c.common.isDoubleSided && decide (s > c.common.nSensors.tdiv 2)) = true ↔
      c.common.isDoubleSided = true ∧ c.common.nSensors.tdiv 2 < s := by simp
  unfold getSensitiveZposition
  simp only [hz, Res.bind_ok, h, mkLayer, Res.pure_eq, if_neg hz0]
  by_cases hv : 1 ≤ s ∧ s ≤ c.common.nSensors
  · rw [if_pos hv, if_neg (show ¬ (s > c.common.nSensors ∨ s < 1) by omega)]
    refine ⟨_, rfl, ?_⟩
    have hiff : c.common.nSensors.tdiv 2 < s ↔ c.common.nSensors < 2 * s := by
      rw [Int.tdiv_eq_ediv_of_nonneg (by omega)]; omega
    rw [hiff] at hback
    refine ⟨?_, ?_, ?_, ?_⟩
    · intro hb hp
      rw [if_pos (hback.mpr hb), hsign.1 hp]; push_cast; ring
    · intro hb hn
      rw [if_pos (hback.mpr hb), hsign.2 hn]; push_cast; ring
    · intro hb hp
      rw [if_neg (fun hh => hb (hback.mp hh)), hsign.1 hp]; push_cast; ring
    · intro hb hn
      rw [if_neg (fun hh => hb (hback.mp hh)), hsign.2 hn]; push_cast; ring
  · rw [if_neg hv, if_pos (show s > c.common.nSensors ∨ s < 1 by omega)]

/-- For a petal whose centre is at z = 0 there is no defined outcome. -/
theorem sensor_z_false : ∃ c : Call ℚ, getSupportZposition (disks [c]) 0 0 = .ok 0 ∧
    getSensitiveZposition (disks [c]) 0 0 1 = .ub :=
  ⟨{ exampleDisk with common := ⟨16, 4, true, 1, 1 / 5, 0, 0, 2, -2, 1⟩ }, by decide +kernel, by decide +kernel⟩

/-- The four sensors of the example's petal 0 at z = 222, and of its petal 1 at z = 218. -/
example : (getSensitiveZposition (disks [exampleDisk]) 0 0 2 = .ok (222 - 11 / 20)) ∧
    getSensitiveZposition (disks [exampleDisk]) 0 1 3 = .ok (218 + 11 / 20) ∧
    getSensitiveZposition (disks [exampleDisk]) 0 1 5 = .throw .gear := by
  refine ⟨?_, ?_, ?_⟩ <;> decide +kernel

/-! ### C46: point queries -/

/-- No point is ever reported to be in a petal or sensor. -/
theorem never_reported (F : TpcModule.TrigFns K) (calls : List (Call K)) (p : V3 K) (sensitive : Bool) :
    isPointInFTD F (disks calls) p sensitive = .ok false ∧ getLayerIndex (disks calls) p = -1
      ∧ getSensitiveIndex (disks calls) p = -1 ∧ getPetalIndex F (disks calls) p sensitive = .ok (-1) := by
  cases sensitive <;> simp [isPointInFTD, getLayerIndex, getSensitiveIndex, getPetalIndex]

/-- So a point in a petal is not found. -/
theorem point_query_false : ∃ (c : Call ℝ) (p : V3 ℝ), p ∈ petal c.support c.common.phi0 c.common.zposition ∧
    getPhiPetalCd (disks [c]) 0 0 = .ok c.common.phi0 ∧ getSupportZposition (disks [c]) 0 0 = .ok c.common.zposition ∧
    isPointInFTD ZPlanar.realPlanar.toTrigFns (disks [c]) p false = .ok false := by
  refine ⟨⟨⟨16, 4, true, 1, 1 / 5, 0, 0, 220, 0, 1⟩, ⟨39, 1, 10, 60, 120, 94⟩, ⟨40, 1 / 10, 9, 58, 118, 94⟩⟩, ⟨100, 0, 220⟩,
    ?_, ?_, ?_, (never_reported _ _ _ _).1⟩
  · refine ⟨61, 0, 0, ?_, by norm_num, by norm_num, by norm_num, by norm_num⟩
    ext <;> simp; norm_num
  · have := petal_angles [⟨⟨16, 4, true, 1, 1 / 5, 0, 0, 220, 0, 1⟩, ⟨39, 1, 10, 60, 120, 94⟩, ⟨40, 1 / 10, 9, 58, 118, 94⟩⟩]
      (j := 0) rfl (i := 0) (Or.inl (by simp)) (0 : ℤ) (K := ℝ)
    simpa using this
  · have := (support_z [⟨⟨16, 4, true, 1, 1 / 5, 0, 0, 220, 0, 1⟩, ⟨39, 1, 10, 60, 120, 94⟩, ⟨40, 1 / 10, 9, 58, 118, 94⟩⟩]
      (j := 0) rfl (0 : ℤ) (K := ℝ)).1 (by omega)
    simpa using this

/-! ### C126: the thickness seen under an angle -/

namespace Spec

/-- The line from `p` to `q` meets a petal, which is perpendicular to the z axis, under the incidence angles `theta`
and `phi`: seen along y its angle to the z axis is `phi`, seen along x its angle to the petal is `theta`. -/
def Incident (p q : V3 ℝ) (theta phi : ℝ) : Prop :=
  (q.x - p.x) * Real.cos phi = (q.z - p.z) * Real.sin phi ∧
    (q.y - p.y) * Real.sin theta = (q.z - p.z) * Real.cos theta

/-- The distance of two points. -/
noncomputable def distance (p q : V3 ℝ) : ℝ :=
  Real.sqrt ((q.x - p.x) ^ 2 + (q.y - p.y) ^ 2 + (q.z - p.z) ^ 2)

end Spec

/-- `getThicknessForAngle` returns the length of the line between the two faces of the petal or sensor. -/
theorem getThicknessForAngle_eq (calls : List (Call ℝ)) {j : ℕ} {c : Call ℝ} (hj : calls[j]? = some c)
    (sensitive : Bool) {theta phi : ℝ} (ht : Real.sin theta ≠ 0) (hp : Real.cos phi ≠ 0) {z : ℝ} {p q : V3 ℝ}
    (h0 : 0 ≤ (if sensitive then c.sensitive else c.support).thickness) (hpz : p.z = z)
    (hqz : q.z = z + (if sensitive then c.sensitive else c.support).thickness) (hi : Incident p q theta phi) :
    getThicknessForAngle ZPlanar.realPlanar (disks calls) j theta phi sensitive = .ok (distance p q) := by
  have hv : q.z - p.z = (if sensitive then c.sensitive else c.support).thickness := by rw [hqz, hpz]; ring
  obtain ⟨h1, h2⟩ := hi
  have e : getThicknessForAngle ZPlanar.realPlanar (disks calls) j theta phi sensitive =
      .ok ((if sensitive then c.sensitive else c.support).thickness *
        Real.sqrt (1 / (Real.sin theta * Real.sin theta) + Real.tan phi * Real.tan phi)) := by
    cases sensitive
    · simp only [getThicknessForAngle, sel, at'_ok hj]
      rfl
    · simp only [getThicknessForAngle, sel, at'_ok hj]
      rfl
  rw [e]
  congr 1
  rw [← hv] at h0 ⊢
  unfold distance
  have ex : q.x - p.x = (q.z - p.z) * Real.tan phi := by
    rw [Real.tan_eq_sin_div_cos]
    field_simp
    linarith
  have ey : q.y - p.y = (q.z - p.z) * (Real.cos theta / Real.sin theta) := by
    field_simp
    linarith
  have S := Real.sin_sq_add_cos_sq theta
  have : (q.x - p.x) ^ 2 + (q.y - p.y) ^ 2 + (q.z - p.z) ^ 2 =
      (q.z - p.z) ^ 2 * (1 / (Real.sin theta * Real.sin theta) + Real.tan phi * Real.tan phi) := by
    rw [ex, ey]
    field_simp
    linear_combination (q.z - p.z) ^ 2 * S
  rw [this, Real.sqrt_mul (sq_nonneg _), Real.sqrt_sq h0]

/-- Any other index throws; mirrored disks have no index here. -/
theorem getThicknessForAngle_throws (F : ZPlanar.PlanarFns K) (calls : List (Call K)) {i : ℤ}
    (h : i < 0 ∨ (calls.length : ℤ) ≤ i) (theta phi : K) (sensitive : Bool) :
    getThicknessForAngle F (disks calls) i theta phi sensitive = .throw .outOfRange := by
  simp [getThicknessForAngle, sel, at'_throws h]

/-- A line that runs 3 along x and 4 along z through a support of thickness 4 passes through 5 of it. -/
example : ∃ theta phi, Real.sin theta ≠ 0 ∧ Real.cos phi ≠ 0 ∧ Incident ⟨0, 0, 220⟩ ⟨3, 0, 224⟩ theta phi
    ∧ distance ⟨0, 0, 220⟩ ⟨3, 0, 224⟩ = 5 := by
  refine ⟨Real.pi / 2, Real.arctan (3 / 4), by simp, (Real.cos_arctan_pos _).ne', ⟨?_, ?_⟩, ?_⟩
  · have := Real.tan_mul_cos (Real.cos_arctan_pos (3 / 4)).ne'
    rw [Real.tan_arctan] at this
    rw [← this]
    ring
  · simp
  · unfold distance
    norm_num
    rw [show (25 : ℝ) = 5 ^ 2 by norm_num, Real.sqrt_sq (by norm_num)]

/-! ### C127: the first petal -/

/-- The angles of the start and the end of the first petal do not depend on its size: the end is 0 and the start is
minus twice the angle of its axis. -/
theorem start_end_phi (calls : List (Call K)) {j : ℕ} {c : Call K} (hj : calls[j]? = some c) (p : ℤ) (sensitive : Bool) :
    getStartPhi (disks calls) j p sensitive = .ok (-(2 * c.common.phi0)) ∧
      getEndPhi (disks calls) j p sensitive = .ok 0 := by
  cases sensitive <;> simp [getStartPhi, getEndPhi, sel, at'_ok hj, mkLayer]

/-- So a petal that is centred at the x axis starts and ends there, whatever its opening angle and its points. -/
theorem start_end_phi_false : ∃ (c : Call ℝ) (p : V3 ℝ), p ∈ petal c.support c.common.phi0 c.common.zposition ∧
    0 < c.common.petalOpAngle ∧ getPhiPetalCd (disks [c]) 0 0 = .ok c.common.phi0 ∧
    ∃ lo hi, getStartPhi (disks [c]) 0 0 false = .ok lo ∧ getEndPhi (disks [c]) 0 0 false = .ok hi ∧
      ∀ r phi, 0 < r → lo ≤ phi → phi ≤ hi → ¬ (p.x = r * Real.cos phi ∧ p.y = r * Real.sin phi) := by
  set c : Call ℝ := ⟨⟨16, 4, true, 1, 1 / 5, 0, 0, 220, 0, 1⟩, ⟨39, 1, 10, 60, 120, 94⟩, ⟨40, 1 / 10, 9, 58, 118, 94⟩⟩ with hc
  have hj : [c][0]? = some c := rfl
  refine ⟨c, ⟨100, 1, 220⟩, ?_, by norm_num [hc], ?_, _, _, (start_end_phi [c] hj 0 false).1,
    (start_end_phi [c] hj 0 false).2, ?_⟩
  · refine ⟨61, 1, 0, ?_, by norm_num [hc], by norm_num [hc], by norm_num [hc], by norm_num [hc]⟩
    ext <;> simp [hc]
    norm_num
  · have := petal_angles [c] hj (i := 0) (Or.inl (by simp)) (0 : ℤ)
    simpa using this
  · rintro r phi hr h1 h2 ⟨-, h3⟩
    have : phi = 0 := le_antisymm h2 (by simpa [hc] using h1)
    rw [this, Real.sin_zero] at h3
    norm_num at h3

end Gear.Ftd
