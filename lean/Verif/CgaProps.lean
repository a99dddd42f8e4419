/-
C112 to C114: cell IDs, the geometry the objects answer for, and the lists along a path.
-/
import Verif.Cga
import Verif.PrintProps
import Mathlib.Tactic.IntervalCases

set_option autoImplicit false
set_option linter.unusedSectionVars false

namespace Gear.Cga

open Vector3D (V3)
open Xml (Text)

/-! ### C112 -/

theorem pack_bits (a b : BitVec 64) :
    ((a <<< 0) &&& 0x00000000FFFFFFFF#64) ||| ((b <<< 32) &&& 0xFFFFFFFF00000000#64) =
      (b.setWidth 32 ++ a.setWidth 32 : BitVec 64) := by
  ext i hi
  rw [BitVec.getElem_append]
  simp only [BitVec.getElem_or, BitVec.getElem_and, BitVec.getElem_shiftLeft, BitVec.getElem_setWidth]
  interval_cases i <;> simp

/-- C112: the words of a cell are the two halves of its ID. -/
theorem pack_eq (id0 id1 : ℤ) (h0 : 0 ≤ id0) (h0' : id0 < 2 ^ 32) (h1 : -2 ^ 31 ≤ id1) (h1' : id1 < 2 ^ 31) :
    pack id0 id1 = id1 * 2 ^ 32 + id0 := by
  unfold pack
  rw [pack_bits, BitVec.toInt_append]
  have e1 : (BitVec.setWidth 32 (BitVec.ofInt 64 id1)).toInt = id1 := by
    rw [BitVec.toInt_setWidth, BitVec.toNat_ofInt]
    simp only [Int.bmod_def]
    norm_num at *
    omega
  have e0 : ((BitVec.setWidth 32 (BitVec.ofInt 64 id0)).toNat : ℤ) = id0 := by
    rw [BitVec.toNat_setWidth, BitVec.toNat_ofInt]
    norm_num at *
    omega
  rw [e1, e0]
  norm_num
  ring

/-- C112: `getCellID` of a point with reasonable coordinates (all doubles are less than `10 ^ 309`) gives the ID of
the cell there, from which both words can be read; outside of the world or of the sensitive volumes it throws.
Distinct cells have distinct IDs. -/
theorem getCellID_spec (cellAt : V3 ℚ → Cell) (pos : V3 ℚ)
    (hx : |pos.x| < 10 ^ 309) (hy : |pos.y| < 10 ^ 309) (hz : |pos.z| < 10 ^ 309)
    (h0 : (cellAt pos).id0 < 2 ^ 31) (h1 : -2 ^ 31 ≤ (cellAt pos).id1) (h1' : (cellAt pos).id1 < 2 ^ 31) :
    getCellID cellAt pos =
      if (cellAt pos).id0 < 0 ∨ (cellAt pos).flag = -1 then .throw .gear
      else .ok ((cellAt pos).id1 * 2 ^ 32 + (cellAt pos).id0) := by
  unfold getCellID message Print.sprintf
  rw [if_pos]
  · simp only [Res.bind_ok]
    by_cases ha : (cellAt pos).id0 < 0
    · rw [if_pos ha, if_pos (Or.inl ha)]
    · rw [if_neg ha]
      by_cases hb : (cellAt pos).flag = -1
      · rw [if_pos hb, if_pos (Or.inr hb)]
      · rw [if_neg hb, if_neg (by rintro (h | h) <;> contradiction),
          pack_eq _ _ (not_lt.1 ha) (lt_trans h0 (by norm_num)) h1 h1']
        rfl
  · have hb := @Print.format_length_le 309 [.lit "CGAGearPointProperties::getCellID: Point (", .f 0 6 pos.x, .lit ", ",
      .f 0 6 pos.y, .lit ", ", .f 0 6 pos.z, .lit ") "] (by
        simp only [List.forall_mem_cons]
        exact ⟨True.intro, ⟨hx, by norm_num⟩, True.intro, ⟨hy, by norm_num⟩, True.intro, ⟨hz, by norm_num⟩, True.intro,
          by simp⟩)
    refine Nat.succ_le_succ (hb.trans ?_)
    simp [Print.bound]

/-- C112: the words of a cell can be read from its ID. -/
theorem pack_injective (a b c d : ℤ) (ha : 0 ≤ a) (ha' : a < 2 ^ 31) (hb : -2 ^ 31 ≤ b) (hb' : b < 2 ^ 31)
    (hc : 0 ≤ c) (hc' : c < 2 ^ 31) (hd : -2 ^ 31 ≤ d) (hd' : d < 2 ^ 31) (h : pack a b = pack c d) :
    a = c ∧ b = d := by
  rw [pack_eq a b ha (by omega) hb hb', pack_eq c d hc (by omega) hd hd'] at h
  omega

example : getCellID (fun p => if p.x < 1000 then ⟨77, -3, 1⟩ else ⟨-1, 0, 0⟩) ⟨1.5, 2, -3⟩ = .ok (-3 * 2 ^ 32 + 77) := by
  decide +kernel
example : getCellID (fun p => if p.x < 1000 then ⟨77, -3, 1⟩ else ⟨-1, 0, 0⟩) ⟨1500, 2, -3⟩ = .throw .gear := by
  decide +kernel
example : getCellID (fun _ => ⟨77, 0, -1⟩) ⟨1, 2, -3⟩ = .throw .gear := by decide +kernel

/-! ### C113 -/

/-- What a user expects: an object answers for the setup it was made with. -/
def Own (l : List Setup) (a : Setup) : Prop := run (l ++ [a]) = some a

theorem run_cons (a : Setup) (l : List Setup) : run (a :: l) = some a := by
  have : ∀ l : List Setup, l.foldl construct (some a) = some a := by
    intro l
    induction l with
    | nil => rfl
    | cons b l ih => exact ih
  exact this l

/-- C113, the provable part: an object answers for its setup exactly if no object was made before, or the first one
was made with the same setup.  Missing: other setups, which are ignored (`own_false`). -/
theorem own_partial (l : List Setup) (a : Setup) : Own l a ↔ l = [] ∨ l.head? = some a := by
  unfold Own
  cases l with
  | nil => exact ⟨fun _ => Or.inl rfl, fun _ => rfl⟩
  | cons b l =>
    rw [List.cons_append, run_cons]
    simp

def ild : Setup := ⟨"", "ILD_00", "", "localhost", "user", "secret"⟩
def sid : Setup := ⟨"", "SID_00", "", "localhost", "user", "secret"⟩

/-- C113 is false: the second object answers for the model of the first. -/
theorem own_false : run [ild, sid] = some ild ∧ ¬ Own [ild] sid := by
  constructor
  · decide
  · unfold Own; decide

example : Own [] sid ∧ Own [ild, sid] ild := by unfold Own; constructor <;> decide

/-! ### C114 -/

variable {K : Type} [Field K]

/-- The beam of a query, in cm: from p0 to p1, along their difference. -/
theorem beamOn_spec [CharZero K] (p0 p1 : V3 K) :
    (beamOn p0 p1).1 = ⟨p0.x / 10, p0.y / 10, p0.z / 10⟩ ∧ (beamOn p0 p1).2.1 = ⟨p1.x / 10, p1.y / 10, p1.z / 10⟩ ∧
      (beamOn p0 p1).2.2 = ⟨(p1.x - p0.x) / 10, (p1.y - p0.y) / 10, (p1.z - p0.z) / 10⟩ := by
  refine ⟨?_, ?_, ?_⟩
  · simp only [beamOn]; congr 1 <;> ring
  · simp only [beamOn]; congr 1 <;> ring
  · simp only [beamOn]; congr 1 <;> ring

/-- The contents of the static list after some queries, the oldest first. -/
def listAfter {α : Type} (fill : List α → List α → List α) (steps : V3 K × V3 K × V3 K → List α)
    (h : List (V3 K × V3 K)) : List α := h.foldl (fun old x => queryList fill steps old x.1 x.2) []

/-- C114: the lists do not depend on earlier queries if Mokka replaces their contents; if it appends instead, the
list of a query follows all earlier ones. -/
theorem list_history {α : Type} (fill : List α → List α → List α) (steps : V3 K × V3 K × V3 K → List α)
    (h : List (V3 K × V3 K)) (p0 p1 : V3 K) :
    ((∀ old new, fill old new = new) → queryList fill steps (listAfter fill steps h) p0 p1 = steps (beamOn p0 p1)) ∧
    ((∀ old new, fill old new = old ++ new) → queryList fill steps (listAfter fill steps h) p0 p1 =
      (h.map (fun x => steps (beamOn x.1 x.2))).flatten ++ steps (beamOn p0 p1)) := by
  constructor
  · intro hf; unfold queryList; rw [hf]
  · intro hf
    have key : ∀ (h : List (V3 K × V3 K)) (old : List α), h.foldl (fun old x => queryList fill steps old x.1 x.2) old =
        old ++ (h.map (fun x => steps (beamOn x.1 x.2))).flatten := by
      intro h
      induction h with
      | nil => intro old; simp
      | cons x h ih =>
        intro old
        rw [List.foldl_cons, ih, queryList, hf]
        simp
    unfold queryList listAfter
    rw [hf, key]
    simp

/-- C114: the numbers of radiation and interaction lengths are the sums over the steps of the beam, in both cases and
after any history. -/
theorem number_spec (fill : List K → List K → List K) (steps : V3 K × V3 K × V3 K → List K)
    (hf : (∀ old new, fill old new = new) ∨ (∀ old new, fill old new = old ++ new)) (p0 p1 : V3 K) :
    queryNumber fill steps p0 p1 = (steps (beamOn p0 p1)).sum := by
  have h1 : fill [] (steps (beamOn p0 p1)) = steps (beamOn p0 p1) := by
    rcases hf with h | h
    · exact h _ _
    · rw [h, List.nil_append]
  unfold queryNumber
  rw [h1]
  exact List.sum_eq_foldl.symm

example : queryNumber (fun old new => old ++ new) (fun b => [b.2.2.x, b.2.2.x]) (⟨0, 0, 0⟩ : V3 ℚ) ⟨10, 0, 0⟩ = 2 := by
  decide +kernel

end Gear.Cga
