/-
Arithmetic of the pad index encoding.
-/
import Mathlib.Tactic.NormNum
import Verif.PadIndex

set_option autoImplicit false
set_option linter.unusedSectionVars false

namespace Gear.PadIndex

theorem ofInt_toNat_of_range {r : ℤ} (h0 : 0 ≤ r) (h1 : r < 65536) :
    (BitVec.ofInt 32 r).toNat = r.toNat := by
  rw [BitVec.toNat_ofInt]
  have : r % ((2 ^ 32 : ℕ) : ℤ) = r := Int.emod_eq_of_lt h0 (by norm_num; omega)
  rw [this]

theorem mask_toNat (b : BitVec 32) : (0x0000ffff#32 &&& b).toNat = b.toNat % 65536 := by
  rw [BitVec.toNat_and, BitVec.toNat_ofNat, Nat.and_comm]
  exact Nat.and_two_pow_sub_one_eq_mod b.toNat 16

theorem low_toNat (p : ℤ) :
    (0x0000ffff#32 &&& BitVec.ofInt 32 p).toNat = (p % 65536).toNat := by
  rw [mask_toNat, BitVec.toNat_ofInt]
  have : ((2 ^ 32 : ℕ) : ℤ) = 4294967296 := by norm_num
  rw [this]; omega

theorem encode_ok {row pad : ℤ} (h0 : 0 ≤ row) (h1 : row < 65536) :
    encode row pad =
      .ok (((BitVec.ofInt 32 row) <<< 16 ||| (0x0000ffff#32 &&& BitVec.ofInt 32 pad)).toInt) := by
  simp [encode, h0, h1]

theorem word_toNat {row : ℤ} (pad : ℤ) (h0 : 0 ≤ row) (h1 : row < 65536) :
    ((BitVec.ofInt 32 row) <<< 16 ||| (0x0000ffff#32 &&& BitVec.ofInt 32 pad)).toNat
      = row.toNat * 65536 + (pad % 65536).toNat := by
  rw [BitVec.toNat_or, low_toNat, BitVec.toNat_shiftLeft, ofInt_toNat_of_range h0 h1]
  have hlt : (pad % 65536).toNat < 2 ^ 16 := by norm_num; omega
  have hr : row.toNat <<< 16 % 2 ^ 32 = row.toNat <<< 16 := by
    rw [Nat.shiftLeft_eq]; apply Nat.mod_eq_of_lt; norm_num; omega
  rw [hr, ← Nat.shiftLeft_add_eq_or_of_lt hlt, Nat.shiftLeft_eq]

theorem padBits_eq (i : ℤ) : padBits i = i % 65536 := by
  have h := low_toNat i
  unfold padBits
  rw [BitVec.toInt_eq_toNat_of_lt]
  · rw [h]; omega
  · rw [h]; omega

theorem high_toNat (b : BitVec 32) : ((0xffff0000#32 &&& b) >>> 16).toNat = b.toNat / 65536 := by
  rw [BitVec.toNat_ushiftRight, BitVec.toNat_and, Nat.shiftRight_and_distrib]
  have h1 : (BitVec.toNat 0xffff0000#32) >>> 16 = 65535 := by decide
  rw [h1, Nat.and_comm]
  have := Nat.and_two_pow_sub_one_eq_mod (b.toNat >>> 16) 16
  norm_num at this
  rw [this, Nat.shiftRight_eq_div_pow]
  have := b.isLt
  omega

theorem rowBits_eq (i : ℤ) : rowBits i = (i % 4294967296) / 65536 := by
  unfold rowBits
  rw [high_toNat, BitVec.toNat_ofInt]
  have : ((2 ^ 32 : ℕ) : ℤ) = 4294967296 := by norm_num
  rw [this]; omega

theorem padBits_range (i : ℤ) : 0 ≤ padBits i ∧ padBits i < 65536 := by
  rw [padBits_eq]; omega

theorem rowBits_range (i : ℤ) : 0 ≤ rowBits i ∧ rowBits i < 65536 := by
  rw [rowBits_eq]; omega

/-- The encoded index as a number modulo 2^32. -/
theorem encode_emod {row pad i : ℤ} (h : encode row pad = .ok i) :
    0 ≤ row ∧ row < 65536 ∧ i % 4294967296 = row * 65536 + pad % 65536 := by
  unfold encode at h
  split_ifs at h with hr
  refine ⟨hr.1, hr.2, ?_⟩
  have h2 := word_toNat pad hr.1 hr.2
  simp only [Res.ok.injEq] at h
  rw [BitVec.toInt_eq_toNat_cond, h2] at h
  have : (2 : ℕ) ^ 32 = 4294967296 := by norm_num
  rw [this] at h
  split_ifs at h with hc <;> omega

theorem rowBits_encode {row pad i : ℤ} (h : encode row pad = .ok i) : rowBits i = row := by
  obtain ⟨h0, h1, h2⟩ := encode_emod h
  rw [rowBits_eq]; omega

theorem padBits_encode {row pad i : ℤ} (h : encode row pad = .ok i) : padBits i = pad % 65536 := by
  obtain ⟨h0, h1, h2⟩ := encode_emod h
  rw [padBits_eq]; omega

theorem padBits_encode' {row pad i : ℤ} (h : encode row pad = .ok i) (h0 : 0 ≤ pad)
    (h1 : pad < 65536) : padBits i = pad := by
  rw [padBits_encode h]; omega

theorem encode_isOk {row : ℤ} (pad : ℤ) (h0 : 0 ≤ row) (h1 : row < 65536) :
    ∃ i, encode row pad = .ok i := ⟨_, encode_ok h0 h1⟩

/-- Re-encoding the parts of a 32-bit index gives the index back. -/
theorem encode_parts {i : ℤ} (h0 : -2147483648 ≤ i) (h1 : i < 2147483648) :
    encode (rowBits i) (padBits i) = .ok i := by
  obtain ⟨hr0, hr1⟩ := rowBits_range i
  have hw := word_toNat (padBits i) hr0 hr1
  rw [encode_ok hr0 hr1, Res.ok.injEq, BitVec.toInt_eq_toNat_cond, hw]
  have : (2 : ℕ) ^ 32 = 4294967296 := by norm_num
  rw [this]
  rw [rowBits_eq, padBits_eq]
  split_ifs with hc <;> omega

theorem encode_inj {r p r' p' i : ℤ} (h : encode r p = .ok i) (h' : encode r' p' = .ok i)
    (hp : 0 ≤ p ∧ p < 65536) (hp' : 0 ≤ p' ∧ p' < 65536) : r = r' ∧ p = p' :=
  ⟨by rw [← rowBits_encode h, rowBits_encode h'],
   by rw [← padBits_encode' h hp.1 hp.2, padBits_encode' h' hp'.1 hp'.2]⟩

/-- A pad index is a value of the C++ type `int`. -/
theorem encode_isInt {row pad i : ℤ} (h : encode row pad = .ok i) :
    -2147483648 ≤ i ∧ i < 2147483648 := by
  unfold encode at h
  split_ifs at h
  simp only [Res.ok.injEq] at h
  rw [← h]
  generalize (BitVec.ofInt 32 row <<< 16 ||| _) = b
  exact ⟨BitVec.le_toInt b, BitVec.toInt_lt⟩

end Gear.PadIndex
