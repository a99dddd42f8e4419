/-
Properties of the beam telescopes (C48, C96).
-/
import Verif.Telescope

set_option autoImplicit false
set_option linter.unusedSectionVars false

namespace Gear.Telescope

variable {K : Type} [Field K] [LinearOrder K] [IsStrictOrderedRing K] [FloorRing K]

/-! ### Specification -/

namespace Spec

/-- What can be asked of a plane. -/
inductive LField where
  | id
  | positionX
  | positionY
  | positionZ
  | rotationXY
  | rotationZX
  | rotationZY
  | sizeX
  | sizeY
  | thickness
  | radLength
deriving DecidableEq

/-- Its C++ type. -/
def LField.ty (K : Type) : LField → Type
  | .id => ℤ
  | _ => K

/-- The value in the arguments of a call. -/
def LField.val {K : Type} (l : Layer K) : (f : LField) → f.ty K
  | .id => l.id
  | .positionX => l.positionX
  | .positionY => l.positionY
  | .positionZ => l.positionZ
  | .rotationXY => l.rotationXY
  | .rotationZX => l.rotationZX
  | .rotationZY => l.rotationZY
  | .sizeX => l.sizeX
  | .sizeY => l.sizeY
  | .thickness => l.thickness
  | .radLength => l.radLength

/-- The call of the getter. -/
def LField.get (s : Si K) : (f : LField) → ℤ → Res (f.ty K)
  | .id => s.getID
  | .positionX => s.getLayerPositionX
  | .positionY => s.getLayerPositionY
  | .positionZ => s.getLayerPositionZ
  | .rotationXY => s.getLayerRotationXY
  | .rotationZX => s.getLayerRotationZX
  | .rotationZY => s.getLayerRotationZY
  | .sizeX => s.getLayerSizeX
  | .sizeY => s.getLayerSizeY
  | .thickness => s.getLayerThickness
  | .radLength => s.getLayerRadLength

/-- The call of the setter. -/
def LField.set (s : Si K) : (f : LField) → ℤ → f.ty K → Res (Si K)
  | .id => s.setID
  | .positionX => s.setLayerPositionX
  | .positionY => s.setLayerPositionY
  | .positionZ => s.setLayerPositionZ
  | .rotationXY => s.setLayerRotationXY
  | .rotationZX => s.setLayerRotationZX
  | .rotationZY => s.setLayerRotationZY
  | .sizeX => s.setLayerSizeX
  | .sizeY => s.setLayerSizeY
  | .thickness => s.setLayerThickness
  | .radLength => s.setLayerRadLength

/-- What can be asked of a sensor. -/
inductive SField where
  | id
  | positionX
  | positionY
  | positionZ
  | rotationXY
  | rotationZX
  | rotationZY
  | sizeX
  | sizeY
  | thickness
  | radLength
  | npixelX
  | npixelY
  | pitchX
  | pitchY
  | resolution
  | resolutionX
  | resolutionY
  | rotation1
  | rotation2
  | rotation3
  | rotation4
deriving DecidableEq

/-- Its C++ type. -/
def SField.ty (K : Type) : SField → Type
  | .id => ℤ
  | .npixelX => ℤ
  | .npixelY => ℤ
  | _ => K

/-- The value in the arguments of a call. -/
def SField.val {K : Type} (l : SensLayer K) : (f : SField) → f.ty K
  | .id => l.id
  | .positionX => l.positionX
  | .positionY => l.positionY
  | .positionZ => l.positionZ
  | .rotationXY => l.rotationXY
  | .rotationZX => l.rotationZX
  | .rotationZY => l.rotationZY
  | .sizeX => l.sizeX
  | .sizeY => l.sizeY
  | .thickness => l.thickness
  | .radLength => l.radLength
  | .npixelX => l.npixelX
  | .npixelY => l.npixelY
  | .pitchX => l.pitchX
  | .pitchY => l.pitchY
  | .resolution => l.resolution
  | .resolutionX => l.resolutionX
  | .resolutionY => l.resolutionY
  | .rotation1 => l.rotation1
  | .rotation2 => l.rotation2
  | .rotation3 => l.rotation3
  | .rotation4 => l.rotation4

/-- The call of the getter. -/
def SField.get (s : Si K) : (f : SField) → ℤ → Res (f.ty K)
  | .id => s.getSensitiveID
  | .positionX => s.getSensitivePositionX
  | .positionY => s.getSensitivePositionY
  | .positionZ => s.getSensitivePositionZ
  | .rotationXY => s.getSensitiveRotationXY
  | .rotationZX => s.getSensitiveRotationZX
  | .rotationZY => s.getSensitiveRotationZY
  | .sizeX => s.getSensitiveSizeX
  | .sizeY => s.getSensitiveSizeY
  | .thickness => s.getSensitiveThickness
  | .radLength => s.getSensitiveRadLength
  | .npixelX => s.getSensitiveNpixelX
  | .npixelY => s.getSensitiveNpixelY
  | .pitchX => s.getSensitivePitchX
  | .pitchY => s.getSensitivePitchY
  | .resolution => s.getSensitiveResolution
  | .resolutionX => s.getSensitiveResolutionX
  | .resolutionY => s.getSensitiveResolutionY
  | .rotation1 => s.getSensitiveRotation1
  | .rotation2 => s.getSensitiveRotation2
  | .rotation3 => s.getSensitiveRotation3
  | .rotation4 => s.getSensitiveRotation4

/-- The call of the setter. -/
def SField.set (s : Si K) : (f : SField) → ℤ → f.ty K → Res (Si K)
  | .id => s.setSensitiveID
  | .positionX => s.setSensitivePositionX
  | .positionY => s.setSensitivePositionY
  | .positionZ => s.setSensitivePositionZ
  | .rotationXY => s.setSensitiveRotationXY
  | .rotationZX => s.setSensitiveRotationZX
  | .rotationZY => s.setSensitiveRotationZY
  | .sizeX => s.setSensitiveSizeX
  | .sizeY => s.setSensitiveSizeY
  | .thickness => s.setSensitiveThickness
  | .radLength => s.setSensitiveRadLength
  | .npixelX => s.setSensitiveNpixelX
  | .npixelY => s.setSensitiveNpixelY
  | .pitchX => s.setSensitivePitchX
  | .pitchY => s.setSensitivePitchY
  | .resolution => s.setSensitiveResolution
  | .resolutionX => s.setSensitiveResolutionX
  | .resolutionY => s.setSensitiveResolutionY
  | .rotation1 => s.setSensitiveRotation1
  | .rotation2 => s.setSensitiveRotation2
  | .rotation3 => s.setSensitiveRotation3
  | .rotation4 => s.setSensitiveRotation4

/-- A call on a layout.  The arguments of the calls that add are those fields of `l` and `s` that they have. -/
inductive Op (K : Type) where
  | add (l : Layer K) (s : SensLayer K)
  | addShort (l : Layer K) (s : SensLayer K)
  | addShortParams (l : Layer K) (s : SensLayer K)
  | addDUT (l : Layer K) (s : SensLayer K)
  | setL (f : LField) (i : ℤ) (v : f.ty K)
  | setS (f : SField) (i : ℤ) (v : f.ty K)

/-- The effect of a call; one that throws has none. -/
def step (x : Si K) : Op K → Si K
  | .add l s => x.addLayer l.id l.positionX l.positionY l.positionZ l.rotationXY l.rotationZX l.rotationZY l.sizeX l.sizeY
      l.thickness l.radLength s.id s.positionX s.positionY s.positionZ s.rotationXY s.rotationZX s.rotationZY s.sizeX s.sizeY
      s.thickness s.npixelX s.npixelY s.pitchX s.pitchY s.resolution s.resolutionX s.resolutionY s.rotation1 s.rotation2
      s.rotation3 s.rotation4 s.radLength
  | .addShort l s => x.addLayerShort l.id l.positionX l.positionY l.positionZ l.sizeX l.sizeY
      l.thickness l.radLength s.id s.positionX s.positionY s.positionZ s.sizeX s.sizeY
      s.thickness s.npixelX s.npixelY s.pitchX s.pitchY s.resolution s.rotation1 s.rotation2
      s.rotation3 s.rotation4 s.radLength
  | .addShortParams l s => x.addLayerShortParams l.id l.positionX l.positionY l.positionZ l.sizeX l.sizeY
      l.thickness l.radLength s.id s.positionX s.positionY s.positionZ s.sizeX s.sizeY
      s.thickness s.npixelX s.npixelY s.pitchX s.pitchY s.resolution s.rotation1 s.rotation2
      s.rotation3 s.rotation4 s.radLength
  | .addDUT l s => x.addDUT l.id l.positionX l.positionY l.positionZ l.sizeX l.sizeY
      l.thickness l.radLength s.id s.positionX s.positionY s.positionZ s.sizeX s.sizeY
      s.thickness s.npixelX s.npixelY s.pitchX s.pitchY s.resolution s.rotation1 s.rotation2
      s.rotation3 s.rotation4 s.radLength
  | .setL f i v => match f.set x i v with
    | .ok x' => x'
    | _ => x
  | .setS f i v => match f.set x i v with
    | .ok x' => x'
    | _ => x

/-- The layout after a history: a list of calls, the latest one first. -/
def run : List (Op K) → Si K
  | [] => .new
  | op :: past => step (run past) op

/-- What the plane of a call that adds one is meant to be. -/
def Op.plane? {K : Type} [Zero K] : Op K → Option (Layer K × SensLayer K)
  | .add l s => some (l, s)
  | .addShort l s => some ({ l with rotationXY := 0, rotationZX := 0, rotationZY := 0 },
      { s with rotationXY := 0, rotationZX := 0, rotationZY := 0, resolutionX := 0, resolutionY := 0 })
  | .addShortParams l s => some ({ l with rotationXY := 0, rotationZX := 0, rotationZY := 0 },
      { s with rotationXY := 0, rotationZX := 0, rotationZY := 0, resolutionX := s.resolution, resolutionY := s.resolution })
  | _ => none

/-- The number of planes added. -/
def count {K : Type} [Zero K] : List (Op K) → ℕ
  | [] => 0
  | op :: past => count past + if op.plane?.isSome then 1 else 0

/-- What a history says about a field of plane `i`: the value last set, or that of the call that added it. -/
def expectL {K : Type} [Zero K] (f : LField) (i : ℕ) : List (Op K) → Option (f.ty K)
  | [] => none
  | .setL g j v :: past =>
    if h : g = f ∧ j = i ∧ i < count past then some (h.1 ▸ v) else expectL f i past
  | op :: past => match op.plane? with
    | some p => if i = count past then some (f.val p.1) else expectL f i past
    | none => expectL f i past

/-- The same for sensor `i`. -/
def expectS {K : Type} [Zero K] (f : SField) (i : ℕ) : List (Op K) → Option (f.ty K)
  | [] => none
  | .setS g j v :: past =>
    if h : g = f ∧ j = i ∧ i < count past then some (h.1 ▸ v) else expectS f i past
  | op :: past => match op.plane? with
    | some p => if i = count past then some (f.val p.2) else expectS f i past
    | none => expectS f i past

/-- The arguments of the last `addDUT`. -/
def lastDUT {K : Type} : List (Op K) → Option (Layer K × SensLayer K)
  | [] => none
  | .addDUT l s :: _ => some (l, s)
  | _ :: past => lastDUT past

/-- The value of a getter: what is expected, or an exception if nothing is. -/
def expected {α : Type} : Option α → Res α
  | some v => .ok v
  | none => .throw .outOfRange

end Spec

open Spec

/-! ### Lemmas -/

namespace Spec

def LField.upd (l : Layer K) : (f : LField) → f.ty K → Layer K
  | .id => fun v => { l with id := v }
  | .positionX => fun v => { l with positionX := v }
  | .positionY => fun v => { l with positionY := v }
  | .positionZ => fun v => { l with positionZ := v }
  | .rotationXY => fun v => { l with rotationXY := v }
  | .rotationZX => fun v => { l with rotationZX := v }
  | .rotationZY => fun v => { l with rotationZY := v }
  | .sizeX => fun v => { l with sizeX := v }
  | .sizeY => fun v => { l with sizeY := v }
  | .thickness => fun v => { l with thickness := v }
  | .radLength => fun v => { l with radLength := v }

theorem LField.get_eq (x : Si K) (f : LField) (i : ℤ) : f.get x i = (do let l ← at' x.lVec i; pure (f.val l)) := by
  cases f <;> rfl

theorem LField.set_eq (x : Si K) (f : LField) (i : ℤ) (v : f.ty K) :
    f.set x i v = (do let l ← update x.lVec i (fun l => f.upd l v); pure { x with lVec := l }) := by
  cases f <;> rfl

theorem LField.val_upd (l : Layer K) (f : LField) (v : f.ty K) : f.val (f.upd l v) = v := by
  cases f <;> rfl

theorem LField.val_upd_ne (l : Layer K) (f g : LField) (v : f.ty K) (h : f ≠ g) : g.val (f.upd l v) = g.val l := by
  cases f <;> cases g <;> first | rfl | exact absurd rfl h

def SField.upd (l : SensLayer K) : (f : SField) → f.ty K → SensLayer K
  | .id => fun v => { l with id := v }
  | .positionX => fun v => { l with positionX := v }
  | .positionY => fun v => { l with positionY := v }
  | .positionZ => fun v => { l with positionZ := v }
  | .rotationXY => fun v => { l with rotationXY := v }
  | .rotationZX => fun v => { l with rotationZX := v }
  | .rotationZY => fun v => { l with rotationZY := v }
  | .sizeX => fun v => { l with sizeX := v }
  | .sizeY => fun v => { l with sizeY := v }
  | .thickness => fun v => { l with thickness := v }
  | .radLength => fun v => { l with radLength := v }
  | .npixelX => fun v => { l with npixelX := v }
  | .npixelY => fun v => { l with npixelY := v }
  | .pitchX => fun v => { l with pitchX := v }
  | .pitchY => fun v => { l with pitchY := v }
  | .resolution => fun v => { l with resolution := v }
  | .resolutionX => fun v => { l with resolutionX := v }
  | .resolutionY => fun v => { l with resolutionY := v }
  | .rotation1 => fun v => { l with rotation1 := v }
  | .rotation2 => fun v => { l with rotation2 := v }
  | .rotation3 => fun v => { l with rotation3 := v }
  | .rotation4 => fun v => { l with rotation4 := v }

theorem SField.get_eq (x : Si K) (f : SField) (i : ℤ) : f.get x i = (do let l ← at' x.sVec i; pure (f.val l)) := by
  cases f <;> rfl

theorem SField.set_eq (x : Si K) (f : SField) (i : ℤ) (v : f.ty K) :
    f.set x i v = (do let l ← update x.sVec i (fun l => f.upd l v); pure { x with sVec := l }) := by
  cases f <;> rfl

theorem SField.val_upd (l : SensLayer K) (f : SField) (v : f.ty K) : f.val (f.upd l v) = v := by
  cases f <;> rfl

theorem SField.val_upd_ne (l : SensLayer K) (f g : SField) (v : f.ty K) (h : f ≠ g) : g.val (f.upd l v) = g.val l := by
  cases f <;> cases g <;> first | rfl | exact absurd rfl h

end Spec

theorem at'_nat {α : Type} (l : List α) (i : ℕ) : at' l i = expected l[i]? := by
  rw [at', if_neg (by omega), Int.toNat_natCast]; cases l[i]? <;> rfl

theorem at'_throws {α : Type} (l : List α) {i : ℤ} (h : i < 0 ∨ (l.length : ℤ) ≤ i) : at' l i = .throw .outOfRange := by
  unfold at'
  by_cases h0 : i < 0
  · rw [if_pos h0]
  · rw [if_neg h0, List.getElem?_eq_none (by omega)]

theorem update_nat {α : Type} (l : List α) {i : ℕ} {a : α} (h : l[i]? = some a) (f : α → α) :
    update l i f = .ok (l.set i (f a)) := by
  simp [update, at'_nat, h, expected]

theorem update_throws {α : Type} (l : List α) {i : ℤ} (h : i < 0 ∨ (l.length : ℤ) ≤ i) (f : α → α) :
    update l i f = .throw .outOfRange := by
  simp [update, at'_throws l h]

/-- What a call does to the vectors. -/
theorem step_cases (x : Si K) (op : Op K) :
    (∃ p, op.plane? = some p ∧ (step x op).lVec = x.lVec ++ [p.1] ∧ (step x op).sVec = x.sVec ++ [p.2])
    ∨ (op.plane? = none ∧ (∃ l s, op = .addDUT l s) ∧ (step x op).lVec = x.lVec ∧ (step x op).sVec = x.sVec)
    ∨ (op.plane? = none ∧ ∃ f i v, op = .setL f i v ∧ (step x op).sVec = x.sVec
        ∧ (((i < 0 ∨ (x.lVec.length : ℤ) ≤ i) ∧ f.set x i v = .throw .outOfRange ∧ (step x op).lVec = x.lVec)
          ∨ ∃ (j : ℕ) (l : Layer K), i = j ∧ x.lVec[j]? = some l ∧ f.set x i v = .ok (step x op)
            ∧ (step x op).lVec = x.lVec.set j (LField.upd l f v)))
    ∨ (op.plane? = none ∧ ∃ f i v, op = .setS f i v ∧ (step x op).lVec = x.lVec
        ∧ (((i < 0 ∨ (x.sVec.length : ℤ) ≤ i) ∧ f.set x i v = .throw .outOfRange ∧ (step x op).sVec = x.sVec)
          ∨ ∃ (j : ℕ) (l : SensLayer K), i = j ∧ x.sVec[j]? = some l ∧ f.set x i v = .ok (step x op)
            ∧ (step x op).sVec = x.sVec.set j (SField.upd l f v))) := by
  cases op with
  | add l s => exact Or.inl ⟨_, rfl, rfl, rfl⟩
  | addShort l s => exact Or.inl ⟨_, rfl, rfl, rfl⟩
  | addShortParams l s => exact Or.inl ⟨_, rfl, rfl, rfl⟩
  | addDUT l s => exact Or.inr (Or.inl ⟨rfl, ⟨l, s, rfl⟩, rfl, rfl⟩)
  | setL f i v =>
    refine Or.inr (Or.inr (Or.inl ⟨rfl, f, i, v, rfl, ?_⟩))
    by_cases h : i < 0 ∨ (x.lVec.length : ℤ) ≤ i
    · have : f.set x i v = .throw .outOfRange := by rw [LField.set_eq, update_throws _ h]; rfl
      simp [step, this, h]
    · obtain ⟨j, rfl⟩ : ∃ j : ℕ, i = j := ⟨i.toNat, by omega⟩
      obtain ⟨l, hl⟩ : ∃ l, x.lVec[j]? = some l := ⟨_, List.getElem?_eq_getElem (by omega)⟩
      have : f.set x j v = .ok { x with lVec := x.lVec.set j (LField.upd l f v) } := by
        rw [LField.set_eq, update_nat _ hl]; rfl
      have e : step x (.setL f j v) = { x with lVec := x.lVec.set j (LField.upd l f v) } := by simp [step, this]
      rw [e]
      exact ⟨rfl, Or.inr ⟨j, l, rfl, hl, this, rfl⟩⟩
  | setS f i v =>
    refine Or.inr (Or.inr (Or.inr ⟨rfl, f, i, v, rfl, ?_⟩))
    by_cases h : i < 0 ∨ (x.sVec.length : ℤ) ≤ i
    · have : f.set x i v = .throw .outOfRange := by rw [SField.set_eq, update_throws _ h]; rfl
      simp [step, this, h]
    · obtain ⟨j, rfl⟩ : ∃ j : ℕ, i = j := ⟨i.toNat, by omega⟩
      obtain ⟨l, hl⟩ : ∃ l, x.sVec[j]? = some l := ⟨_, List.getElem?_eq_getElem (by omega)⟩
      have : f.set x j v = .ok { x with sVec := x.sVec.set j (SField.upd l f v) } := by
        rw [SField.set_eq, update_nat _ hl]; rfl
      have e : step x (.setS f j v) = { x with sVec := x.sVec.set j (SField.upd l f v) } := by simp [step, this]
      rw [e]
      exact ⟨rfl, Or.inr ⟨j, l, rfl, hl, this, rfl⟩⟩

theorem lengths (past : List (Op K)) : (run past).lVec.length = count past ∧ (run past).sVec.length = count past := by
  induction past with
  | nil => exact ⟨rfl, rfl⟩
  | cons op past ih =>
    have e : run (op :: past) = step (run past) op := rfl
    rw [e, count]
    rcases step_cases (run past) op with ⟨p, hp, h1, h2⟩ | ⟨hp, -, h1, h2⟩ | ⟨hp, f, i, v, -, h2, h⟩ | ⟨hp, f, i, v, -, h1, h⟩
    · simp [hp, h1, h2, ih]
    · simp [hp, h1, h2, ih]
    · rcases h with ⟨-, -, h1⟩ | ⟨j, l, -, -, -, h1⟩ <;> simp [hp, h1, h2, ih]
    · rcases h with ⟨-, -, h2⟩ | ⟨j, l, -, -, -, h2⟩ <;> simp [hp, h1, h2, ih]

theorem expectL_eq (f : LField) (i : ℕ) (past : List (Op K)) :
    expectL f i past = ((run past).lVec[i]?).map f.val := by
  induction past with
  | nil => simp [expectL, run, Si.new]
  | cons op past ih =>
    have e : run (op :: past) = step (run past) op := rfl
    rw [e]
    have hlen := (lengths past).1
    rcases step_cases (run past) op with ⟨p, hp, h1, -⟩ | ⟨hp, ⟨l, s, rfl⟩, h1, -⟩ | ⟨hp, g, k, v, rfl, -, h⟩ | ⟨hp, g, k, v, rfl, h1, -⟩
    · have : expectL f i (op :: past) = if i = count past then some (f.val p.1) else expectL f i past := by
        cases op with
        | setL => cases hp
        | setS => cases hp
        | addDUT => cases hp
        | _ => cases hp; rfl
      rw [this, h1, ih]
      by_cases hi : i = count past
      · rw [if_pos hi, hi, ← hlen]; simp
      · rw [if_neg hi]
        by_cases hi' : i < count past
        · rw [List.getElem?_append_left (by omega)]
        · rw [List.getElem?_eq_none (by omega), List.getElem?_eq_none (by simp; omega)]
    · rw [h1, ← ih]; rfl
    · rcases h with ⟨hk, -, h1⟩ | ⟨j, l, rfl, hl, -, h1⟩
      · rw [expectL, dif_neg (by omega), h1, ih]
      · have hj : j < count past := by
          rw [← hlen]; exact (List.getElem?_eq_some_iff.1 hl).1
        rw [h1, expectL]
        by_cases hji : j = i
        · subst hji
          rw [List.getElem?_set_self (by omega)]
          by_cases hgf : g = f
          · subst hgf
            rw [dif_pos ⟨rfl, rfl, hj⟩]
            simp [LField.val_upd]
          · rw [dif_neg (fun h => hgf h.1), ih, hl]
            simp [LField.val_upd_ne _ _ _ _ hgf]
        · rw [dif_neg (by omega), ih, List.getElem?_set_ne hji]
    · rw [h1, ← ih]; rfl

theorem expectS_eq (f : SField) (i : ℕ) (past : List (Op K)) :
    expectS f i past = ((run past).sVec[i]?).map f.val := by
  induction past with
  | nil => simp [expectS, run, Si.new]
  | cons op past ih =>
    have e : run (op :: past) = step (run past) op := rfl
    rw [e]
    have hlen := (lengths past).2
    rcases step_cases (run past) op with ⟨p, hp, -, h1⟩ | ⟨hp, ⟨l, s, rfl⟩, -, h1⟩ | ⟨hp, g, k, v, rfl, h1, -⟩ | ⟨hp, g, k, v, rfl, -, h⟩
    · have : expectS f i (op :: past) = if i = count past then some (f.val p.2) else expectS f i past := by
        cases op with
        | setL => cases hp
        | setS => cases hp
        | addDUT => cases hp
        | _ => cases hp; rfl
      rw [this, h1, ih]
      by_cases hi : i = count past
      · rw [if_pos hi, hi, ← hlen]; simp
      · rw [if_neg hi]
        by_cases hi' : i < count past
        · rw [List.getElem?_append_left (by omega)]
        · rw [List.getElem?_eq_none (by omega), List.getElem?_eq_none (by simp; omega)]
    · rw [h1, ← ih]; rfl
    · rw [h1, ← ih]; rfl
    · rcases h with ⟨hk, -, h1⟩ | ⟨j, l, rfl, hl, -, h1⟩
      · rw [expectS, dif_neg (by omega), h1, ih]
      · have hj : j < count past := by
          rw [← hlen]; exact (List.getElem?_eq_some_iff.1 hl).1
        rw [h1, expectS]
        by_cases hji : j = i
        · subst hji
          rw [List.getElem?_set_self (by omega)]
          by_cases hgf : g = f
          · subst hgf
            rw [dif_pos ⟨rfl, rfl, hj⟩]
            simp [SField.val_upd]
          · rw [dif_neg (fun h => hgf h.1), ih, hl]
            simp [SField.val_upd_ne _ _ _ _ hgf]
        · rw [dif_neg (by omega), ih, List.getElem?_set_ne hji]

/-! ### C48: the SiPlanes layout -/

/-- After any history of calls the getters of plane and sensor `i` return what the history says: the value last set, or
the argument of the call that added it, and throw if there is none. -/
theorem getters_return (past : List (Op K)) (i : ℕ) :
    (∀ f : LField, f.get (run past) i = expected (expectL f i past))
    ∧ (∀ f : SField, f.get (run past) i = expected (expectS f i past)) := by
  constructor <;> intro f
  · rw [LField.get_eq, at'_nat, expectL_eq]; cases (run past).lVec[i]? <;> rfl
  · rw [SField.get_eq, at'_nat, expectS_eq]; cases (run past).sVec[i]? <;> rfl

/-- They have a value exactly for the planes added, whose number is `getNLayers`; getters and setters throw for negative and
too large indices, and setters for no other. -/
theorem getters_range (past : List (Op K)) :
    (run past).getNLayers = count past
    ∧ (∀ (f : LField) (i : ℕ), (expectL f i past).isSome ↔ i < count past)
    ∧ (∀ (f : SField) (i : ℕ), (expectS f i past).isSome ↔ i < count past)
    ∧ (∀ (f : LField) (i : ℤ), i < 0 → f.get (run past) i = .throw .outOfRange)
    ∧ (∀ (f : SField) (i : ℤ), i < 0 → f.get (run past) i = .throw .outOfRange)
    ∧ (∀ (f : LField) (i : ℤ) v, (0 ≤ i ∧ i < count past ∧ f.set (run past) i v = .ok (run (.setL f i v :: past)))
        ∨ ((i < 0 ∨ count past ≤ i) ∧ f.set (run past) i v = .throw .outOfRange ∧ run (.setL f i v :: past) = run past))
    ∧ (∀ (f : SField) (i : ℤ) v, (0 ≤ i ∧ i < count past ∧ f.set (run past) i v = .ok (run (.setS f i v :: past)))
        ∨ ((i < 0 ∨ count past ≤ i) ∧ f.set (run past) i v = .throw .outOfRange ∧ run (.setS f i v :: past) = run past)) := by
  obtain ⟨h1, h2⟩ := lengths past
  refine ⟨by simp [Si.getNLayers, h1], ?_, ?_, ?_, ?_, ?_, ?_⟩
  · intro f i; rw [expectL_eq, ← h1]; simp
  · intro f i; rw [expectS_eq, ← h2]; simp
  · intro f i hi; rw [LField.get_eq, at'_throws _ (Or.inl hi)]; rfl
  · intro f i hi; rw [SField.get_eq, at'_throws _ (Or.inl hi)]; rfl
  · intro f i v
    by_cases h : i < 0 ∨ (count past : ℤ) ≤ i
    · have : f.set (run past) i v = .throw .outOfRange := by rw [LField.set_eq, update_throws _ (by omega)]; rfl
      exact Or.inr ⟨h, this, by simp [run, step, this]⟩
    · obtain ⟨j, rfl⟩ : ∃ j : ℕ, i = j := ⟨i.toNat, by omega⟩
      obtain ⟨l, hl⟩ : ∃ l, (run past).lVec[j]? = some l := ⟨_, List.getElem?_eq_getElem (by omega)⟩
      refine Or.inl ⟨by omega, by omega, ?_⟩
      have : f.set (run past) j v = .ok { run past with lVec := (run past).lVec.set j (LField.upd l f v) } := by
        rw [LField.set_eq, update_nat _ hl]; rfl
      simp [run, step, this]
  · intro f i v
    by_cases h : i < 0 ∨ (count past : ℤ) ≤ i
    · have : f.set (run past) i v = .throw .outOfRange := by rw [SField.set_eq, update_throws _ (by omega)]; rfl
      exact Or.inr ⟨h, this, by simp [run, step, this]⟩
    · obtain ⟨j, rfl⟩ : ∃ j : ℕ, i = j := ⟨i.toNat, by omega⟩
      obtain ⟨l, hl⟩ : ∃ l, (run past).sVec[j]? = some l := ⟨_, List.getElem?_eq_getElem (by omega)⟩
      refine Or.inl ⟨by omega, by omega, ?_⟩
      have : f.set (run past) j v = .ok { run past with sVec := (run past).sVec.set j (SField.upd l f v) } := by
        rw [SField.set_eq, update_nat _ hl]; rfl
      simp [run, step, this]

/-- The getters of the device under test return the arguments of the last `addDUT`, whatever else was called, and zeros
before the first. -/
theorem dut_getters (past : List (Op K)) :
    (∀ l s, lastDUT past = some (l, s) →
      (run past).getDUTID = l.id
      ∧ (run past).getDUTPositionX = l.positionX
      ∧ (run past).getDUTPositionY = l.positionY
      ∧ (run past).getDUTPositionZ = l.positionZ
      ∧ (run past).getDUTSizeX = l.sizeX
      ∧ (run past).getDUTSizeY = l.sizeY
      ∧ (run past).getDUTThickness = l.thickness
      ∧ (run past).getDUTRadLength = l.radLength
      ∧ (run past).getDUTSensitiveID = s.id
      ∧ (run past).getDUTSensitivePositionX = s.positionX
      ∧ (run past).getDUTSensitivePositionY = s.positionY
      ∧ (run past).getDUTSensitivePositionZ = s.positionZ
      ∧ (run past).getDUTSensitiveSizeX = s.sizeX
      ∧ (run past).getDUTSensitiveSizeY = s.sizeY
      ∧ (run past).getDUTSensitiveThickness = s.thickness
      ∧ (run past).getDUTSensitiveRadLength = s.radLength
      ∧ (run past).getDUTSensitiveNpixelX = s.npixelX
      ∧ (run past).getDUTSensitiveNpixelY = s.npixelY
      ∧ (run past).getDUTSensitivePitchX = s.pitchX
      ∧ (run past).getDUTSensitivePitchY = s.pitchY
      ∧ (run past).getDUTSensitiveResolution = s.resolution
      ∧ (run past).getDUTSensitiveRotation1 = s.rotation1
      ∧ (run past).getDUTSensitiveRotation2 = s.rotation2
      ∧ (run past).getDUTSensitiveRotation3 = s.rotation3
      ∧ (run past).getDUTSensitiveRotation4 = s.rotation4)
    ∧ (lastDUT past = none →
      (run past).getDUTID = 0
      ∧ (run past).getDUTPositionX = 0
      ∧ (run past).getDUTPositionY = 0
      ∧ (run past).getDUTPositionZ = 0
      ∧ (run past).getDUTSizeX = 0
      ∧ (run past).getDUTSizeY = 0
      ∧ (run past).getDUTThickness = 0
      ∧ (run past).getDUTRadLength = 0
      ∧ (run past).getDUTSensitiveID = 0
      ∧ (run past).getDUTSensitivePositionX = 0
      ∧ (run past).getDUTSensitivePositionY = 0
      ∧ (run past).getDUTSensitivePositionZ = 0
      ∧ (run past).getDUTSensitiveSizeX = 0
      ∧ (run past).getDUTSensitiveSizeY = 0
      ∧ (run past).getDUTSensitiveThickness = 0
      ∧ (run past).getDUTSensitiveRadLength = 0
      ∧ (run past).getDUTSensitiveNpixelX = 0
      ∧ (run past).getDUTSensitiveNpixelY = 0
      ∧ (run past).getDUTSensitivePitchX = 0
      ∧ (run past).getDUTSensitivePitchY = 0
      ∧ (run past).getDUTSensitiveResolution = 0
      ∧ (run past).getDUTSensitiveRotation1 = 0
      ∧ (run past).getDUTSensitiveRotation2 = 0
      ∧ (run past).getDUTSensitiveRotation3 = 0
      ∧ (run past).getDUTSensitiveRotation4 = 0) := by
  have key : (∀ l s, lastDUT past = some (l, s) → ∀ x : Si K,
      (run past).lDut = (step x (.addDUT l s)).lDut ∧ (run past).sDut = (step x (.addDUT l s)).sDut)
      ∧ (lastDUT past = none → (run past).lDut = .zero ∧ (run past).sDut = .zero) := by
    induction past with
    | nil => exact ⟨fun _ _ h => by simp [lastDUT] at h, fun _ => ⟨rfl, rfl⟩⟩
    | cons op past ih =>
      have e : run (op :: past) = step (run past) op := rfl
      rw [e]
      cases op with
      | addDUT l s =>
        refine ⟨fun l' s' h x => ?_, fun h => by simp [lastDUT] at h⟩
        simp only [lastDUT, Option.some.injEq, Prod.mk.injEq] at h
        obtain ⟨rfl, rfl⟩ := h
        exact ⟨rfl, rfl⟩
      | setL f i v =>
        have : (step (run past) (.setL f i v)).lDut = (run past).lDut ∧ (step (run past) (.setL f i v)).sDut = (run past).sDut := by
          simp only [step, LField.set_eq]
          cases update (run past).lVec i (fun l => LField.upd l f v) <;> exact ⟨rfl, rfl⟩
        rw [this.1, this.2]; exact ih
      | setS f i v =>
        have : (step (run past) (.setS f i v)).lDut = (run past).lDut ∧ (step (run past) (.setS f i v)).sDut = (run past).sDut := by
          simp only [step, SField.set_eq]
          cases update (run past).sVec i (fun l => SField.upd l f v) <;> exact ⟨rfl, rfl⟩
        rw [this.1, this.2]; exact ih
      | add l s => exact ih
      | addShort l s => exact ih
      | addShortParams l s => exact ih
  constructor
  · intro l s h
    obtain ⟨h1, h2⟩ := key.1 l s h .new
    simp only [Si.getDUTID, Si.getDUTPositionX, Si.getDUTPositionY, Si.getDUTPositionZ, Si.getDUTSizeX, Si.getDUTSizeY, Si.getDUTThickness, Si.getDUTRadLength, Si.getDUTSensitiveID, Si.getDUTSensitivePositionX, Si.getDUTSensitivePositionY, Si.getDUTSensitivePositionZ, Si.getDUTSensitiveSizeX, Si.getDUTSensitiveSizeY, Si.getDUTSensitiveThickness, Si.getDUTSensitiveRadLength, Si.getDUTSensitiveNpixelX, Si.getDUTSensitiveNpixelY, Si.getDUTSensitivePitchX, Si.getDUTSensitivePitchY, Si.getDUTSensitiveResolution, Si.getDUTSensitiveRotation1, Si.getDUTSensitiveRotation2, Si.getDUTSensitiveRotation3, Si.getDUTSensitiveRotation4, h1, h2, step, Si.addDUT, and_self]
  · intro h
    obtain ⟨h1, h2⟩ := key.2 h
    simp only [Si.getDUTID, Si.getDUTPositionX, Si.getDUTPositionY, Si.getDUTPositionZ, Si.getDUTSizeX, Si.getDUTSizeY, Si.getDUTThickness, Si.getDUTRadLength, Si.getDUTSensitiveID, Si.getDUTSensitivePositionX, Si.getDUTSensitivePositionY, Si.getDUTSensitivePositionZ, Si.getDUTSensitiveSizeX, Si.getDUTSensitiveSizeY, Si.getDUTSensitiveThickness, Si.getDUTSensitiveRadLength, Si.getDUTSensitiveNpixelX, Si.getDUTSensitiveNpixelY, Si.getDUTSensitivePitchX, Si.getDUTSensitivePitchY, Si.getDUTSensitiveResolution, Si.getDUTSensitiveRotation1, Si.getDUTSensitiveRotation2, Si.getDUTSensitiveRotation3, Si.getDUTSensitiveRotation4, h1, h2, Layer.zero, SensLayer.zero, and_self]

/-- The short `addLayer` of the layout is the full one with zero rotations and zero resolutions in x and y; that of the
parameters takes the resolution for both. -/
theorem short_is_full (past : List (Op K)) (l : Layer K) (s : SensLayer K) :
    run (.addShort l s :: past)
      = run (.add { l with rotationXY := 0, rotationZX := 0, rotationZY := 0 }
          { s with rotationXY := 0, rotationZX := 0, rotationZY := 0, resolutionX := 0, resolutionY := 0 } :: past)
    ∧ run (.addShortParams l s :: past)
      = run (.add { l with rotationXY := 0, rotationZX := 0, rotationZY := 0 }
          { s with rotationXY := 0, rotationZX := 0, rotationZY := 0, resolutionX := s.resolution, resolutionY := s.resolution }
          :: past) := ⟨rfl, rfl⟩

/-- A plane and its sensor. -/
def examplePlane : Layer ℚ := ⟨0, 1, 2, 3, 1 / 10, 0, 0, 20, 10, 1, 93⟩
def exampleSensor : SensLayer ℚ := ⟨10, 1, 2, 4, 0, 1 / 20, 0, 18, 9, 1 / 50, 93, 1152, 576, 1 / 50, 1 / 50, 3 / 1000, 1 / 1000,
  2 / 1000, 1, 0, 0, 1⟩

/-- Two planes, the z of the first one moved, and a setter that throws. -/
def exampleHistory : List (Op ℚ) :=
  [.setL .sizeX 7 (0 : ℚ), .addDUT examplePlane exampleSensor, .setL .positionZ 0 (150 : ℚ), .addShort examplePlane exampleSensor,
    .add examplePlane exampleSensor]

example : (run exampleHistory).getLayerPositionZ 0 = .ok 150 ∧ (run exampleHistory).getLayerPositionZ 1 = .ok 3
    ∧ (run exampleHistory).getLayerRotationXY 0 = .ok (1 / 10) ∧ (run exampleHistory).getLayerRotationXY 1 = .ok 0
    ∧ (run exampleHistory).getLayerSizeX 7 = .throw .outOfRange ∧ (run exampleHistory).getDUTSensitivePitchY = 1 / 50 := by
  decide +kernel

example : expectL .positionZ 0 exampleHistory = some (150 : ℚ) := rfl

/-! ### C96: the TrackerPlanes layout -/

namespace Spec

/-- A call in a program that builds a TrackerPlanes layout from layer objects, which are numbered. -/
inductive TOp (K : Type) where
  | new (o : ℕ)
  | setID (o : ℕ) (v : ℤ)
  | setInfo (o : ℕ) (v : String)
  | addMaterial (o : ℕ) (m : Material K)
  | addSensor (o : ℕ) (s : Sensor K)
  | addLayer (o : ℕ)
  | layoutSetID (v : ℤ)
  | layoutSetInfo (v : String)

/-- The layer objects and the layout. -/
structure World (K : Type) where
  objs : ℕ → TLayer K
  layout : TLayout K

/-- Change one object. -/
def World.modify {K : Type} (w : World K) (o : ℕ) (f : TLayer K → TLayer K) : World K :=
  { w with objs := fun k => if o = k then f (w.objs k) else w.objs k }

/-- The effect of a call. -/
def tstep (w : World K) : TOp K → World K
  | .new o => w.modify o fun _ => .new
  | .setID o v => w.modify o fun l => l.setID v
  | .setInfo o v => w.modify o fun l => l.setInfo v
  | .addMaterial o m => w.modify o fun l => l.addMaterialLayer m.id m.info m.positionX m.positionY m.positionZ
      m.rotationXY m.rotationZX m.rotationZY m.sizeX m.sizeY m.thickness m.radLength
  | .addSensor o s => w.modify o fun l => l.addSensitiveLayer s.id s.info s.positionX s.positionY s.positionZ
      s.rotationXY s.rotationZX s.rotationZY s.sizeX s.sizeY s.thickness s.radLength s.npixelX s.npixelY s.pitchX s.pitchY
      s.resolutionX s.resolutionY
  | .addLayer o => { w with layout := w.layout.addLayer (w.objs o) }
  | .layoutSetID v => { w with layout := w.layout.setID v }
  | .layoutSetInfo v => { w with layout := w.layout.setInfo v }

/-- The state after a history, the latest call first. -/
def trun : List (TOp K) → World K
  | [] => ⟨fun _ => .new, .new⟩
  | op :: past => tstep (trun past) op

/-- What a history says about the object `o`. -/
def expID {K : Type} (o : ℕ) : List (TOp K) → ℤ
  | [] => 0
  | .new o' :: past => if o' = o then 0 else expID o past
  | .setID o' v :: past => if o' = o then v else expID o past
  | _ :: past => expID o past

def expInfo {K : Type} (o : ℕ) : List (TOp K) → String
  | [] => ""
  | .new o' :: past => if o' = o then "" else expInfo o past
  | .setInfo o' v :: past => if o' = o then v else expInfo o past
  | _ :: past => expInfo o past

def expMaterials {K : Type} (o : ℕ) : List (TOp K) → List (Material K)
  | [] => []
  | .new o' :: past => if o' = o then [] else expMaterials o past
  | .addMaterial o' m :: past => if o' = o then expMaterials o past ++ [m] else expMaterials o past
  | _ :: past => expMaterials o past

def expSensors {K : Type} (o : ℕ) : List (TOp K) → List (Sensor K)
  | [] => []
  | .new o' :: past => if o' = o then [] else expSensors o past
  | .addSensor o' s :: past => if o' = o then expSensors o past ++ [s] else expSensors o past
  | _ :: past => expSensors o past

/-- The layers in the layout: each as its object was when it was added. -/
def expLayers {K : Type} : List (TOp K) → List (TLayer K)
  | [] => []
  | .addLayer o :: past => expLayers past ++ [⟨expID o past, expInfo o past, expMaterials o past, expSensors o past⟩]
  | _ :: past => expLayers past

end Spec

theorem truncInt_intCast (n : ℤ) : truncInt ((n : ℤ) : K) = n := by
  unfold truncInt; split <;> simp

theorem trun_eq (past : List (TOp K)) :
    (∀ o, (trun past).objs o = ⟨expID o past, expInfo o past, expMaterials o past, expSensors o past⟩)
    ∧ (trun past).layout.layers = expLayers past := by
  induction past with
  | nil => exact ⟨fun _ => rfl, rfl⟩
  | cons op past ih =>
    have e : trun (op :: past) = tstep (trun past) op := rfl
    rw [e]
    obtain ⟨h1, h2⟩ := ih
    cases op with
    | addLayer o =>
      refine ⟨h1, ?_⟩
      simp [tstep, TLayout.addLayer, expLayers, h1, h2]
    | layoutSetID v => exact ⟨h1, h2⟩
    | layoutSetInfo v => exact ⟨h1, h2⟩
    | _ =>
      refine ⟨fun o => ?_, h2⟩
      simp only [tstep, World.modify, h1, expID, expInfo, expMaterials, expSensors, TLayer.new, TLayer.setID, TLayer.setInfo,
        TLayer.addMaterialLayer, TLayer.addSensitiveLayer, truncInt_intCast]
      split_ifs <;> rfl

/-- After any history `getLayer` returns the layers added, each as its object was at that time (later changes of the
object do not show), with every material and sensitive layer added to it in order; otherwise a null pointer. -/
theorem tracker_layers (past : List (TOp K)) (i : ℕ) :
    (trun past).layout.getLayer i = (expLayers past)[i]?
    ∧ (trun past).layout.getNLayers = (expLayers past).length := by
  simp [TLayout.getLayer, TLayout.getNLayers, (trun_eq past).2]

/-- A layer object holds what was added to it. -/
theorem tracker_object (past : List (TOp K)) (o : ℕ) :
    ((trun past).objs o).id = expID o past ∧ ((trun past).objs o).info = expInfo o past
    ∧ ((trun past).objs o).materials = expMaterials o past ∧ ((trun past).objs o).sensors = expSensors o past := by
  rw [(trun_eq past).1 o]; exact ⟨rfl, rfl, rfl, rfl⟩

/-- `getLayerByID` returns the first layer with the ID, a null pointer if and only if there is none. -/
theorem tracker_by_id (past : List (TOp K)) (id : ℤ) :
    (∀ l, (trun past).layout.getLayerByID id = some l ↔
      ∃ i : ℕ, (trun past).layout.getLayer i = some l ∧ l.id = id
        ∧ ∀ j < i, ∀ l', (trun past).layout.getLayer j = some l' → l'.id ≠ id)
    ∧ ((trun past).layout.getLayerByID id = none ↔ ∀ i l, (trun past).layout.getLayer i = some l → l.id ≠ id) := by
  simp only [TLayout.getLayerByID, TLayout.getLayer]
  generalize (trun past).layout.layers = ls
  have hnone : findByID id ls = none ↔ ∀ (i : ℕ) (l : TLayer K), ls[i]? = some l → l.id ≠ id := by
    induction ls with
    | nil => simp [findByID]
    | cons a ls ih =>
      unfold findByID
      by_cases h : a.id = id
      · simp only [h, if_true]
        constructor
        · intro h'; cases h'
        · intro h'; exact absurd h (h' 0 a rfl)
      · rw [if_neg h, ih]
        constructor
        · intro h' i l hl
          cases i with
          | zero => simp at hl; subst hl; exact h
          | succ i => exact h' i l (by simpa using hl)
        · intro h' i l hl
          exact h' (i + 1) l (by simpa using hl)
  refine ⟨fun l => ?_, hnone⟩
  clear hnone
  induction ls with
  | nil => simp [findByID]
  | cons a ls ih =>
    unfold findByID
    by_cases h : a.id = id
    · rw [if_pos h]
      constructor
      · intro h'; cases h'; exact ⟨0, rfl, h, fun j hj => by omega⟩
      · rintro ⟨i, h1, h2, h3⟩
        cases i with
        | zero => simpa using h1
        | succ i => exact absurd h (h3 0 (by omega) a rfl)
    · rw [if_neg h, ih]
      constructor
      · rintro ⟨i, h1, h2, h3⟩
        refine ⟨i + 1, by simpa using h1, h2, fun j hj l' hl' => ?_⟩
        cases j with
        | zero => simp at hl'; subst hl'; exact h
        | succ j => exact h3 j (by omega) l' (by simpa using hl')
      · rintro ⟨i, h1, h2, h3⟩
        cases i with
        | zero => simp at h1; subst h1; exact absurd h2 h
        | succ i => exact ⟨i, by simpa using h1, h2, fun j hj l' hl' => h3 (j + 1) (by omega) l' (by simpa using hl')⟩

/-- What one expects of the layout's own ID: the value last set. -/
def Spec.expLayoutID : List (TOp K) → ℤ
  | [] => 0
  | .layoutSetID v :: _ => v
  | _ :: past => expLayoutID past

/-- The info of the layout is the one last set. -/
theorem tracker_layout_info (past : List (TOp K)) (v : String) :
    (trun (.layoutSetInfo v :: past)).layout.getInfo = v
    ∧ ∀ op : TOp K, (∀ v, op ≠ .layoutSetInfo v) → (trun (op :: past)).layout.getInfo = (trun past).layout.getInfo := by
  refine ⟨rfl, fun op h => ?_⟩
  cases op with
  | layoutSetInfo v => exact absurd rfl (h v)
  | _ => rfl

/-- The layout's ID is read as the one last set exactly if that is zero. -/
theorem tracker_layout_id_partial (past : List (TOp K)) :
    (trun past).layout.getID = expLayoutID past ↔ expLayoutID past = 0 := by
  simp only [TLayout.getID]; exact eq_comm

/-- So `setID` has no effect that can be seen. -/
theorem tracker_layout_id_false : ∃ past : List (TOp ℚ), expLayoutID past = 3 ∧ (trun past).layout.getID = 0 :=
  ⟨[.layoutSetID 3], rfl, rfl⟩

/-- A layer that is changed after it was added. -/
example : ((trun (K := ℚ) [.setID 5 8, .addLayer 5, .setID 5 7, .addMaterial 5 ⟨1, "kapton", 0, 0, 0, 0, 0, 0, 10, 10, 1, 280⟩,
    .new 5]).layout.getLayer 0).map TLayer.id = some 7 := by decide +kernel

end Gear.Telescope
