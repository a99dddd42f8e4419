/-
Model of the beam telescopes: `gear::SiPlanesLayerLayoutImpl`, `gear::SiPlanesParametersImpl`,
`gear::TrackerPlanesLayerImpl`, `gear::TrackerPlanesLayerLayoutImpl`.

Sources: src/gearimpl/SiPlanesLayerLayout.cc ("si"), include/gear/gearimpl/SiPlanesLayerLayoutImpl.h ("si header"),
include/gear/gearimpl/SiPlanesParametersImpl.h ("si params"), src/gearimpl/TrackerPlanesLayerLayout.cc ("tracker"),
include/gear/gearimpl/TrackerPlanesLayerLayoutImpl.h ("tracker header").

The functions that print (tracker header lines 424 onwards) are in PrintTracker.lean.
-/
import Verif.Basic
import Verif.Num

set_option autoImplicit false
set_option linter.unusedSectionVars false

namespace Gear.Telescope

variable {K : Type} [Field K] [LinearOrder K] [IsStrictOrderedRing K] [FloorRing K]

/-- `_lVec.at( i )`, `_sVec.at( i )`: the index is converted to `size_t`, so that negative ones are out of range. -/
def at' {α : Type} (l : List α) (i : ℤ) : Res α :=
  if i < 0 then .throw .outOfRange
  else match l[i.toNat]? with
    | some a => .ok a
    | none => .throw .outOfRange

/-- The vector after an assignment to a member of `vec.at( i )`. -/
def update {α : Type} (l : List α) (i : ℤ) (f : α → α) : Res (List α) := do
  let a ← at' l i
  pure (l.set i.toNat (f a))

/-- `SiPlanesLayerLayoutImpl::Layer`, si header lines 23-39. -/
structure Layer (K : Type) where
  id : ℤ
  positionX : K
  positionY : K
  positionZ : K
  rotationXY : K
  rotationZX : K
  rotationZY : K
  sizeX : K
  sizeY : K
  thickness : K
  radLength : K
deriving DecidableEq

/-- `SiPlanesLayerLayoutImpl::SensLayer`, si header lines 41-70. -/
structure SensLayer (K : Type) where
  id : ℤ
  positionX : K
  positionY : K
  positionZ : K
  rotationXY : K
  rotationZX : K
  rotationZY : K
  sizeX : K
  sizeY : K
  thickness : K
  radLength : K
  npixelX : ℤ
  npixelY : ℤ
  pitchX : K
  pitchY : K
  resolution : K
  resolutionX : K
  resolutionY : K
  rotation1 : K
  rotation2 : K
  rotation3 : K
  rotation4 : K
deriving DecidableEq

/-- The default constructor of `Layer`, si header line 37. -/
def Layer.zero : Layer K := ⟨0, 0, 0, 0, 0, 0, 0, 0, 0, 0, 0⟩

/-- The default constructor of `SensLayer`, si header lines 66-69; the pitches have no entry in its list and get the zero of
lines 56-57. -/
def SensLayer.zero : SensLayer K := ⟨0, 0, 0, 0, 0, 0, 0, 0, 0, 0, 0, 0, 0, 0, 0, 0, 0, 0, 0, 0, 0, 0⟩

/-- `SiPlanesLayerLayoutImpl`: `_lVec`, `_sVec`, `_lDut`, `_sDut` (si header lines 276-283). -/
structure Si (K : Type) where
  lVec : List (Layer K)
  sVec : List (SensLayer K)
  lDut : Layer K
  sDut : SensLayer K
deriving DecidableEq

/-- A new layout. -/
def Si.new : Si K := ⟨[], [], .zero, .zero⟩

/-- `addLayer`, si lines 58-122. -/
def Si.addLayer (s : Si K) (layerID : ℤ)
    (layerPositionX layerPositionY layerPositionZ layerRotationXY layerRotationZX layerRotationZY : K)
    (layerSizeX layerSizeY layerThickness layerRadLength : K) (sensitiveID : ℤ)
    (sensitivePositionX sensitivePositionY sensitivePositionZ : K)
    (sensitiveRotationXY sensitiveRotationZX sensitiveRotationZY : K)
    (sensitiveSizeX sensitiveSizeY sensitiveThickness : K) (sensitiveNpixelX sensitiveNpixelY : ℤ)
    (sensitivePitchX sensitivePitchY sensitiveResolution sensitiveResolutionX sensitiveResolutionY : K)
    (sensitiveRotation1 sensitiveRotation2 sensitiveRotation3 sensitiveRotation4 sensitiveRadLength : K) : Si K :=
  let lL : Layer K :=
    { id := layerID, positionX := layerPositionX, positionY := layerPositionY, positionZ := layerPositionZ
      rotationXY := layerRotationXY, rotationZX := layerRotationZX, rotationZY := layerRotationZY
      sizeX := layerSizeX, sizeY := layerSizeY, thickness := layerThickness, radLength := layerRadLength }
  let sL : SensLayer K :=
    { id := sensitiveID, positionX := sensitivePositionX, positionY := sensitivePositionY, positionZ := sensitivePositionZ
      rotationXY := sensitiveRotationXY, rotationZX := sensitiveRotationZX, rotationZY := sensitiveRotationZY
      sizeX := sensitiveSizeX, sizeY := sensitiveSizeY, thickness := sensitiveThickness
      npixelX := sensitiveNpixelX, npixelY := sensitiveNpixelY, pitchX := sensitivePitchX, pitchY := sensitivePitchY
      resolution := sensitiveResolution, resolutionX := sensitiveResolutionX, resolutionY := sensitiveResolutionY
      rotation1 := sensitiveRotation1, rotation2 := sensitiveRotation2, rotation3 := sensitiveRotation3
      rotation4 := sensitiveRotation4, radLength := sensitiveRadLength }
  { s with lVec := s.lVec ++ [lL], sVec := s.sVec ++ [sL] }

/-- The short `addLayer` of the layout, si lines 13-56. -/
def Si.addLayerShort (s : Si K) (layerID : ℤ) (layerPositionX layerPositionY layerPositionZ : K)
    (layerSizeX layerSizeY layerThickness layerRadLength : K) (sensitiveID : ℤ)
    (sensitivePositionX sensitivePositionY sensitivePositionZ : K)
    (sensitiveSizeX sensitiveSizeY sensitiveThickness : K) (sensitiveNpixelX sensitiveNpixelY : ℤ)
    (sensitivePitchX sensitivePitchY sensitiveResolution : K)
    (sensitiveRotation1 sensitiveRotation2 sensitiveRotation3 sensitiveRotation4 sensitiveRadLength : K) : Si K :=
  s.addLayer layerID layerPositionX layerPositionY layerPositionZ 0 0 0 layerSizeX layerSizeY layerThickness layerRadLength
    sensitiveID sensitivePositionX sensitivePositionY sensitivePositionZ 0 0 0 sensitiveSizeX sensitiveSizeY
    sensitiveThickness sensitiveNpixelX sensitiveNpixelY sensitivePitchX sensitivePitchY sensitiveResolution 0 0
    sensitiveRotation1 sensitiveRotation2 sensitiveRotation3 sensitiveRotation4 sensitiveRadLength

/-- The short `addLayer` of the parameters, si params lines 107-130.  (The full one and `addDUT`, lines 66-103 and 163-196,
pass their arguments on unchanged.) -/
def Si.addLayerShortParams (s : Si K) (layerID : ℤ) (layerPositionX layerPositionY layerPositionZ : K)
    (layerSizeX layerSizeY layerThickness layerRadLength : K) (sensitiveID : ℤ)
    (sensitivePositionX sensitivePositionY sensitivePositionZ : K)
    (sensitiveSizeX sensitiveSizeY sensitiveThickness : K) (sensitiveNpixelX sensitiveNpixelY : ℤ)
    (sensitivePitchX sensitivePitchY sensitiveResolution : K)
    (sensitiveRotation1 sensitiveRotation2 sensitiveRotation3 sensitiveRotation4 sensitiveRadLength : K) : Si K :=
  s.addLayer layerID layerPositionX layerPositionY layerPositionZ 0 0 0 layerSizeX layerSizeY layerThickness layerRadLength
    sensitiveID sensitivePositionX sensitivePositionY sensitivePositionZ 0 0 0 sensitiveSizeX sensitiveSizeY
    sensitiveThickness sensitiveNpixelX sensitiveNpixelY sensitivePitchX sensitivePitchY sensitiveResolution
    sensitiveResolution sensitiveResolution
    sensitiveRotation1 sensitiveRotation2 sensitiveRotation3 sensitiveRotation4 sensitiveRadLength

/-- `addDUT`, si lines 124-176. -/
def Si.addDUT (s : Si K) (dutID : ℤ) (dutPositionX dutPositionY dutPositionZ dutSizeX dutSizeY dutThickness dutRadLength : K)
    (dutsensitiveID : ℤ) (dutsensitivePositionX dutsensitivePositionY dutsensitivePositionZ : K)
    (dutsensitiveSizeX dutsensitiveSizeY dutsensitiveThickness : K) (dutsensitiveNpixelX dutsensitiveNpixelY : ℤ)
    (dutsensitivePitchX dutsensitivePitchY dutsensitiveResolution : K)
    (dutsensitiveRotation1 dutsensitiveRotation2 dutsensitiveRotation3 dutsensitiveRotation4 dutsensitiveRadLength : K) :
    Si K :=
  let lDUT : Layer K :=
    { (Layer.zero : Layer K) with
      id := dutID, positionX := dutPositionX, positionY := dutPositionY, positionZ := dutPositionZ
      sizeX := dutSizeX, sizeY := dutSizeY, thickness := dutThickness, radLength := dutRadLength }
  let sDUT : SensLayer K :=
    { (SensLayer.zero : SensLayer K) with
      id := dutsensitiveID, positionX := dutsensitivePositionX, positionY := dutsensitivePositionY
      positionZ := dutsensitivePositionZ, sizeX := dutsensitiveSizeX, sizeY := dutsensitiveSizeY
      thickness := dutsensitiveThickness, npixelX := dutsensitiveNpixelX, npixelY := dutsensitiveNpixelY
      pitchX := dutsensitivePitchX, pitchY := dutsensitivePitchY, resolution := dutsensitiveResolution
      rotation1 := dutsensitiveRotation1, rotation2 := dutsensitiveRotation2, rotation3 := dutsensitiveRotation3
      rotation4 := dutsensitiveRotation4, radLength := dutsensitiveRadLength }
  { s with lDut := lDUT, sDut := sDUT }

/-- `getNLayers`, si header line 80. -/
def Si.getNLayers (s : Si K) : ℤ := s.lVec.length

/-- Si header line 82. -/
def Si.getID (s : Si K) (i : ℤ) : Res ℤ := do let l ← at' s.lVec i; pure l.id
/-- Si header line 99. -/
def Si.setID (s : Si K) (i : ℤ) (value : ℤ) : Res (Si K) := do
  let v ← update s.lVec i fun l => { l with id := value }
  pure { s with lVec := v }
/-- Si header line 86. -/
def Si.getLayerPositionX (s : Si K) (i : ℤ) : Res K := do let l ← at' s.lVec i; pure l.positionX
/-- Si header line 100. -/
def Si.setLayerPositionX (s : Si K) (i : ℤ) (value : K) : Res (Si K) := do
  let v ← update s.lVec i fun l => { l with positionX := value }
  pure { s with lVec := v }
/-- Si header line 87. -/
def Si.getLayerPositionY (s : Si K) (i : ℤ) : Res K := do let l ← at' s.lVec i; pure l.positionY
/-- Si header line 101. -/
def Si.setLayerPositionY (s : Si K) (i : ℤ) (value : K) : Res (Si K) := do
  let v ← update s.lVec i fun l => { l with positionY := value }
  pure { s with lVec := v }
/-- Si header line 88. -/
def Si.getLayerPositionZ (s : Si K) (i : ℤ) : Res K := do let l ← at' s.lVec i; pure l.positionZ
/-- Si header line 102. -/
def Si.setLayerPositionZ (s : Si K) (i : ℤ) (value : K) : Res (Si K) := do
  let v ← update s.lVec i fun l => { l with positionZ := value }
  pure { s with lVec := v }
/-- Si header line 90. -/
def Si.getLayerRotationXY (s : Si K) (i : ℤ) : Res K := do let l ← at' s.lVec i; pure l.rotationXY
/-- Si header line 103. -/
def Si.setLayerRotationXY (s : Si K) (i : ℤ) (value : K) : Res (Si K) := do
  let v ← update s.lVec i fun l => { l with rotationXY := value }
  pure { s with lVec := v }
/-- Si header line 91. -/
def Si.getLayerRotationZX (s : Si K) (i : ℤ) : Res K := do let l ← at' s.lVec i; pure l.rotationZX
/-- Si header line 104. -/
def Si.setLayerRotationZX (s : Si K) (i : ℤ) (value : K) : Res (Si K) := do
  let v ← update s.lVec i fun l => { l with rotationZX := value }
  pure { s with lVec := v }
/-- Si header line 92. -/
def Si.getLayerRotationZY (s : Si K) (i : ℤ) : Res K := do let l ← at' s.lVec i; pure l.rotationZY
/-- Si header line 105. -/
def Si.setLayerRotationZY (s : Si K) (i : ℤ) (value : K) : Res (Si K) := do
  let v ← update s.lVec i fun l => { l with rotationZY := value }
  pure { s with lVec := v }
/-- Si header line 94. -/
def Si.getLayerSizeX (s : Si K) (i : ℤ) : Res K := do let l ← at' s.lVec i; pure l.sizeX
/-- Si header line 106. -/
def Si.setLayerSizeX (s : Si K) (i : ℤ) (value : K) : Res (Si K) := do
  let v ← update s.lVec i fun l => { l with sizeX := value }
  pure { s with lVec := v }
/-- Si header line 95. -/
def Si.getLayerSizeY (s : Si K) (i : ℤ) : Res K := do let l ← at' s.lVec i; pure l.sizeY
/-- Si header line 107. -/
def Si.setLayerSizeY (s : Si K) (i : ℤ) (value : K) : Res (Si K) := do
  let v ← update s.lVec i fun l => { l with sizeY := value }
  pure { s with lVec := v }
/-- Si header line 96. -/
def Si.getLayerThickness (s : Si K) (i : ℤ) : Res K := do let l ← at' s.lVec i; pure l.thickness
/-- Si header line 108. -/
def Si.setLayerThickness (s : Si K) (i : ℤ) (value : K) : Res (Si K) := do
  let v ← update s.lVec i fun l => { l with thickness := value }
  pure { s with lVec := v }
/-- Si header line 84. -/
def Si.getLayerRadLength (s : Si K) (i : ℤ) : Res K := do let l ← at' s.lVec i; pure l.radLength
/-- Si header line 109. -/
def Si.setLayerRadLength (s : Si K) (i : ℤ) (value : K) : Res (Si K) := do
  let v ← update s.lVec i fun l => { l with radLength := value }
  pure { s with lVec := v }
/-- Si header line 112. -/
def Si.getSensitiveID (s : Si K) (i : ℤ) : Res ℤ := do let l ← at' s.sVec i; pure l.id
/-- Si header line 127. -/
def Si.setSensitiveID (s : Si K) (i : ℤ) (value : ℤ) : Res (Si K) := do
  let v ← update s.sVec i fun l => { l with id := value }
  pure { s with sVec := v }
/-- Si header line 114. -/
def Si.getSensitivePositionX (s : Si K) (i : ℤ) : Res K := do let l ← at' s.sVec i; pure l.positionX
/-- Si header line 129. -/
def Si.setSensitivePositionX (s : Si K) (i : ℤ) (value : K) : Res (Si K) := do
  let v ← update s.sVec i fun l => { l with positionX := value }
  pure { s with sVec := v }
/-- Si header line 115. -/
def Si.getSensitivePositionY (s : Si K) (i : ℤ) : Res K := do let l ← at' s.sVec i; pure l.positionY
/-- Si header line 130. -/
def Si.setSensitivePositionY (s : Si K) (i : ℤ) (value : K) : Res (Si K) := do
  let v ← update s.sVec i fun l => { l with positionY := value }
  pure { s with sVec := v }
/-- Si header line 116. -/
def Si.getSensitivePositionZ (s : Si K) (i : ℤ) : Res K := do let l ← at' s.sVec i; pure l.positionZ
/-- Si header line 131. -/
def Si.setSensitivePositionZ (s : Si K) (i : ℤ) (value : K) : Res (Si K) := do
  let v ← update s.sVec i fun l => { l with positionZ := value }
  pure { s with sVec := v }
/-- Si header line 118. -/
def Si.getSensitiveRotationXY (s : Si K) (i : ℤ) : Res K := do let l ← at' s.sVec i; pure l.rotationXY
/-- Si header line 132. -/
def Si.setSensitiveRotationXY (s : Si K) (i : ℤ) (value : K) : Res (Si K) := do
  let v ← update s.sVec i fun l => { l with rotationXY := value }
  pure { s with sVec := v }
/-- Si header line 119. -/
def Si.getSensitiveRotationZX (s : Si K) (i : ℤ) : Res K := do let l ← at' s.sVec i; pure l.rotationZX
/-- Si header line 133. -/
def Si.setSensitiveRotationZX (s : Si K) (i : ℤ) (value : K) : Res (Si K) := do
  let v ← update s.sVec i fun l => { l with rotationZX := value }
  pure { s with sVec := v }
/-- Si header line 120. -/
def Si.getSensitiveRotationZY (s : Si K) (i : ℤ) : Res K := do let l ← at' s.sVec i; pure l.rotationZY
/-- Si header line 134. -/
def Si.setSensitiveRotationZY (s : Si K) (i : ℤ) (value : K) : Res (Si K) := do
  let v ← update s.sVec i fun l => { l with rotationZY := value }
  pure { s with sVec := v }
/-- Si header line 122. -/
def Si.getSensitiveSizeX (s : Si K) (i : ℤ) : Res K := do let l ← at' s.sVec i; pure l.sizeX
/-- Si header line 135. -/
def Si.setSensitiveSizeX (s : Si K) (i : ℤ) (value : K) : Res (Si K) := do
  let v ← update s.sVec i fun l => { l with sizeX := value }
  pure { s with sVec := v }
/-- Si header line 123. -/
def Si.getSensitiveSizeY (s : Si K) (i : ℤ) : Res K := do let l ← at' s.sVec i; pure l.sizeY
/-- Si header line 136. -/
def Si.setSensitiveSizeY (s : Si K) (i : ℤ) (value : K) : Res (Si K) := do
  let v ← update s.sVec i fun l => { l with sizeY := value }
  pure { s with sVec := v }
/-- Si header line 124. -/
def Si.getSensitiveThickness (s : Si K) (i : ℤ) : Res K := do let l ← at' s.sVec i; pure l.thickness
/-- Si header line 137. -/
def Si.setSensitiveThickness (s : Si K) (i : ℤ) (value : K) : Res (Si K) := do
  let v ← update s.sVec i fun l => { l with thickness := value }
  pure { s with sVec := v }
/-- Si header line 125. -/
def Si.getSensitiveRadLength (s : Si K) (i : ℤ) : Res K := do let l ← at' s.sVec i; pure l.radLength
/-- Si header line 138. -/
def Si.setSensitiveRadLength (s : Si K) (i : ℤ) (value : K) : Res (Si K) := do
  let v ← update s.sVec i fun l => { l with radLength := value }
  pure { s with sVec := v }
/-- Si header line 141. -/
def Si.getSensitiveNpixelX (s : Si K) (i : ℤ) : Res ℤ := do let l ← at' s.sVec i; pure l.npixelX
/-- Si header line 154. -/
def Si.setSensitiveNpixelX (s : Si K) (i : ℤ) (value : ℤ) : Res (Si K) := do
  let v ← update s.sVec i fun l => { l with npixelX := value }
  pure { s with sVec := v }
/-- Si header line 142. -/
def Si.getSensitiveNpixelY (s : Si K) (i : ℤ) : Res ℤ := do let l ← at' s.sVec i; pure l.npixelY
/-- Si header line 155. -/
def Si.setSensitiveNpixelY (s : Si K) (i : ℤ) (value : ℤ) : Res (Si K) := do
  let v ← update s.sVec i fun l => { l with npixelY := value }
  pure { s with sVec := v }
/-- Si header line 147. -/
def Si.getSensitivePitchX (s : Si K) (i : ℤ) : Res K := do let l ← at' s.sVec i; pure l.pitchX
/-- Si header line 160. -/
def Si.setSensitivePitchX (s : Si K) (i : ℤ) (value : K) : Res (Si K) := do
  let v ← update s.sVec i fun l => { l with pitchX := value }
  pure { s with sVec := v }
/-- Si header line 148. -/
def Si.getSensitivePitchY (s : Si K) (i : ℤ) : Res K := do let l ← at' s.sVec i; pure l.pitchY
/-- Si header line 161. -/
def Si.setSensitivePitchY (s : Si K) (i : ℤ) (value : K) : Res (Si K) := do
  let v ← update s.sVec i fun l => { l with pitchY := value }
  pure { s with sVec := v }
/-- Si header line 144. -/
def Si.getSensitiveResolution (s : Si K) (i : ℤ) : Res K := do let l ← at' s.sVec i; pure l.resolution
/-- Si header line 157. -/
def Si.setSensitiveResolution (s : Si K) (i : ℤ) (value : K) : Res (Si K) := do
  let v ← update s.sVec i fun l => { l with resolution := value }
  pure { s with sVec := v }
/-- Si header line 145. -/
def Si.getSensitiveResolutionX (s : Si K) (i : ℤ) : Res K := do let l ← at' s.sVec i; pure l.resolutionX
/-- Si header line 158. -/
def Si.setSensitiveResolutionX (s : Si K) (i : ℤ) (value : K) : Res (Si K) := do
  let v ← update s.sVec i fun l => { l with resolutionX := value }
  pure { s with sVec := v }
/-- Si header line 146. -/
def Si.getSensitiveResolutionY (s : Si K) (i : ℤ) : Res K := do let l ← at' s.sVec i; pure l.resolutionY
/-- Si header line 159. -/
def Si.setSensitiveResolutionY (s : Si K) (i : ℤ) (value : K) : Res (Si K) := do
  let v ← update s.sVec i fun l => { l with resolutionY := value }
  pure { s with sVec := v }
/-- Si header line 149. -/
def Si.getSensitiveRotation1 (s : Si K) (i : ℤ) : Res K := do let l ← at' s.sVec i; pure l.rotation1
/-- Si header line 162. -/
def Si.setSensitiveRotation1 (s : Si K) (i : ℤ) (value : K) : Res (Si K) := do
  let v ← update s.sVec i fun l => { l with rotation1 := value }
  pure { s with sVec := v }
/-- Si header line 150. -/
def Si.getSensitiveRotation2 (s : Si K) (i : ℤ) : Res K := do let l ← at' s.sVec i; pure l.rotation2
/-- Si header line 163. -/
def Si.setSensitiveRotation2 (s : Si K) (i : ℤ) (value : K) : Res (Si K) := do
  let v ← update s.sVec i fun l => { l with rotation2 := value }
  pure { s with sVec := v }
/-- Si header line 151. -/
def Si.getSensitiveRotation3 (s : Si K) (i : ℤ) : Res K := do let l ← at' s.sVec i; pure l.rotation3
/-- Si header line 164. -/
def Si.setSensitiveRotation3 (s : Si K) (i : ℤ) (value : K) : Res (Si K) := do
  let v ← update s.sVec i fun l => { l with rotation3 := value }
  pure { s with sVec := v }
/-- Si header line 152. -/
def Si.getSensitiveRotation4 (s : Si K) (i : ℤ) : Res K := do let l ← at' s.sVec i; pure l.rotation4
/-- Si header line 165. -/
def Si.setSensitiveRotation4 (s : Si K) (i : ℤ) (value : K) : Res (Si K) := do
  let v ← update s.sVec i fun l => { l with rotation4 := value }
  pure { s with sVec := v }
/-- Si header line 214. -/
def Si.getDUTID (s : Si K) : ℤ := s.lDut.id
/-- Si header line 218. -/
def Si.getDUTPositionX (s : Si K) : K := s.lDut.positionX
/-- Si header line 219. -/
def Si.getDUTPositionY (s : Si K) : K := s.lDut.positionY
/-- Si header line 220. -/
def Si.getDUTPositionZ (s : Si K) : K := s.lDut.positionZ
/-- Si header line 222. -/
def Si.getDUTSizeX (s : Si K) : K := s.lDut.sizeX
/-- Si header line 223. -/
def Si.getDUTSizeY (s : Si K) : K := s.lDut.sizeY
/-- Si header line 224. -/
def Si.getDUTThickness (s : Si K) : K := s.lDut.thickness
/-- Si header line 216. -/
def Si.getDUTRadLength (s : Si K) : K := s.lDut.radLength
/-- Si header line 226. -/
def Si.getDUTSensitiveID (s : Si K) : ℤ := s.sDut.id
/-- Si header line 230. -/
def Si.getDUTSensitivePositionX (s : Si K) : K := s.sDut.positionX
/-- Si header line 231. -/
def Si.getDUTSensitivePositionY (s : Si K) : K := s.sDut.positionY
/-- Si header line 232. -/
def Si.getDUTSensitivePositionZ (s : Si K) : K := s.sDut.positionZ
/-- Si header line 234. -/
def Si.getDUTSensitiveSizeX (s : Si K) : K := s.sDut.sizeX
/-- Si header line 235. -/
def Si.getDUTSensitiveSizeY (s : Si K) : K := s.sDut.sizeY
/-- Si header line 236. -/
def Si.getDUTSensitiveThickness (s : Si K) : K := s.sDut.thickness
/-- Si header line 228. -/
def Si.getDUTSensitiveRadLength (s : Si K) : K := s.sDut.radLength
/-- Si header line 238. -/
def Si.getDUTSensitiveNpixelX (s : Si K) : ℤ := s.sDut.npixelX
/-- Si header line 239. -/
def Si.getDUTSensitiveNpixelY (s : Si K) : ℤ := s.sDut.npixelY
/-- Si header line 241. -/
def Si.getDUTSensitivePitchX (s : Si K) : K := s.sDut.pitchX
/-- Si header line 242. -/
def Si.getDUTSensitivePitchY (s : Si K) : K := s.sDut.pitchY
/-- Si header line 244. -/
def Si.getDUTSensitiveResolution (s : Si K) : K := s.sDut.resolution
/-- Si header line 246. -/
def Si.getDUTSensitiveRotation1 (s : Si K) : K := s.sDut.rotation1
/-- Si header line 247. -/
def Si.getDUTSensitiveRotation2 (s : Si K) : K := s.sDut.rotation2
/-- Si header line 248. -/
def Si.getDUTSensitiveRotation3 (s : Si K) : K := s.sDut.rotation3
/-- Si header line 249. -/
def Si.getDUTSensitiveRotation4 (s : Si K) : K := s.sDut.rotation4

/-! ### TrackerPlanes -/

/-- `TrackerPlanesMaterialLayerImpl`, tracker header lines 20-110.  The getters and setters of lines 58-107 read and write
one member each; they are the projections and updates of this structure. -/
structure Material (K : Type) where
  id : ℤ
  info : String
  positionX : K
  positionY : K
  positionZ : K
  rotationXY : K
  rotationZX : K
  rotationZY : K
  sizeX : K
  sizeY : K
  thickness : K
  radLength : K
deriving DecidableEq

/-- `TrackerPlanesSensitiveLayerImpl`, tracker header lines 113-244. -/
structure Sensor (K : Type) where
  id : ℤ
  info : String
  positionX : K
  positionY : K
  positionZ : K
  rotationXY : K
  rotationZX : K
  rotationZY : K
  sizeX : K
  sizeY : K
  thickness : K
  radLength : K
  npixelX : ℤ
  npixelY : ℤ
  pitchX : K
  pitchY : K
  resolutionX : K
  resolutionY : K
deriving DecidableEq

/-- `TrackerPlanesLayerImpl`, tracker header lines 251-347. -/
structure TLayer (K : Type) where
  id : ℤ
  info : String
  materials : List (Material K)
  sensors : List (Sensor K)
deriving DecidableEq

/-- The default constructor, tracker header lines 270-271. -/
def TLayer.new : TLayer K := ⟨0, "", [], []⟩

/-- The constructor from vectors, tracker header lines 274-287. -/
def TLayer.ofVecs (materials : List (Material K)) (sensors : List (Sensor K)) : TLayer K := ⟨0, "", materials, sensors⟩

/-- Tracker header line 306. -/
def TLayer.setID (l : TLayer K) (value : ℤ) : TLayer K := { l with id := value }
/-- Tracker header line 310. -/
def TLayer.setInfo (l : TLayer K) (value : String) : TLayer K := { l with info := value }

/-- `addMaterialLayer`, tracker lines 12-36. -/
def TLayer.addMaterialLayer (l : TLayer K) (id : ℤ) (infostr : String)
    (positionX positionY positionZ rotationXY rotationZX rotationZY sizeX sizeY thickness radLength : K) : TLayer K :=
  { l with materials := l.materials ++ [⟨id, infostr, positionX, positionY, positionZ, rotationXY, rotationZX, rotationZY,
      sizeX, sizeY, thickness, radLength⟩] }

/-- `addSensitiveLayer`, tracker lines 38-70.  `setNpixelY` (tracker header line 234) takes a `double` and truncates it. -/
def TLayer.addSensitiveLayer (l : TLayer K) (id : ℤ) (infostr : String)
    (positionX positionY positionZ rotationXY rotationZX rotationZY sizeX sizeY thickness radLength : K)
    (npixelX npixelY : ℤ) (pitchX pitchY resolutionX resolutionY : K) : TLayer K :=
  { l with sensors := l.sensors ++ [⟨id, infostr, positionX, positionY, positionZ, rotationXY, rotationZX, rotationZY,
      sizeX, sizeY, thickness, radLength, npixelX, truncInt ((npixelY : ℤ) : K), pitchX, pitchY, resolutionX, resolutionY⟩] }

/-- `TrackerPlanesLayerLayoutImpl`, tracker header lines 353-423. -/
structure TLayout (K : Type) where
  id : ℤ
  info : String
  layers : List (TLayer K)

/-- The constructor, tracker header lines 374-376. -/
def TLayout.new : TLayout K := ⟨0, "", []⟩

/-- `addLayer`, tracker header lines 379-381 (a copy of the object pointed to is stored). -/
def TLayout.addLayer (L : TLayout K) (layer : TLayer K) : TLayout K := { L with layers := L.layers ++ [layer] }

/-- `getID`, tracker header line 387. -/
def TLayout.getID (_ : TLayout K) : ℤ := 0
/-- `setID`, tracker header line 390. -/
def TLayout.setID (L : TLayout K) (value : ℤ) : TLayout K := { L with id := value }
/-- `getInfo`, tracker header line 393. -/
def TLayout.getInfo (L : TLayout K) : String := L.info
/-- `setInfo`, tracker header line 396. -/
def TLayout.setInfo (L : TLayout K) (value : String) : TLayout K := { L with info := value }
/-- `getNLayers`, tracker header lines 399-401. -/
def TLayout.getNLayers (L : TLayout K) : ℤ := L.layers.length

/-- `getLayer`, tracker header lines 404-411: `none` is the null pointer.  Simplification: the index is a natural number,
not one below 2^32. -/
def TLayout.getLayer (L : TLayout K) (id : ℕ) : Option (TLayer K) := L.layers[id]?

/-- The loop of `getLayerByID`, tracker header lines 416-418. -/
def findByID (id : ℤ) : List (TLayer K) → Option (TLayer K)
  | [] => none
  | l :: rest => if l.id = id then some l else findByID id rest

/-- `getLayerByID`, tracker header lines 414-421. -/
def TLayout.getLayerByID (L : TLayout K) (id : ℤ) : Option (TLayer K) := findByID id L.layers

end Gear.Telescope
