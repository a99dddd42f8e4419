/-
Model of `gear::FTDLayerLayoutImpl` and `gear::FTDParametersImpl`, the forward tracking disks.

Sources: src/gearimpl/FTDLayerLayoutImpl.cc ("layout"), include/gear/gearimpl/FTDLayerLayoutImpl.h ("header"),
src/gearimpl/FTDParametersImpl.cc ("params").

Not modelled: the frames `_eL`, `_eS` (layout lines 69-70 and 249-269), which nothing reads.  Their
computation assigns to elements of a vector that has only reserved memory, which is undefined behaviour; the
model treats it as having no effect.
-/
import Verif.Basic
import Verif.Num
import Verif.TpcModule
import Verif.Vector3D
import Verif.ZPlanar

set_option autoImplicit false
set_option linter.unusedSectionVars false

namespace Gear.Ftd

open Vector3D (V3)

variable {K : Type} [Field K] [LinearOrder K] [IsStrictOrderedRing K] [FloorRing K]

/-- `Layer`, header lines 41-65. -/
structure Layer (K : Type) where
  nPetals : ℤ
  nSensors : ℤ
  isDoubleSided : Bool
  sensorType : ℤ
  petalOpenningAngle : K
  phi0 : K
  alpha : K
  zposition : K
  zoffset : K
  zsign0 : K
  rInner : K
  thickness : K
  lengthMin : K
  lengthMax : K
  width : K
  radLength : K

/-- `_lVec` and `_sVec`, header lines 283-286.  Simplification: the two vectors are one list of pairs, as
`addLayer`, the only function that changes them, appends to both. -/
abbrev Layout (K : Type) := List (Layer K × Layer K)

/-- The arguments of `addLayer` that support and sensitive volumes share, layout lines 10-12. -/
structure Common (K : Type) where
  nPetals : ℤ
  nSensors : ℤ
  isDoubleSided : Bool
  sensorType : ℤ
  petalOpAngle : K
  phi0 : K
  alpha : K
  zposition : K
  zoffset : K
  zsignpetal0 : K

/-- The arguments of `addLayer` that describe one of the two, layout lines 15-18 and 21-24. -/
structure Shape (K : Type) where
  rInner : K
  thickness : K
  lengthMin : K
  lengthMax : K
  width : K
  radLength : K

/-- Layout lines 28-44 and 46-62. -/
def mkLayer (c : Common K) (s : Shape K) : Layer K where
  nPetals := c.nPetals
  nSensors := c.nSensors
  isDoubleSided := c.isDoubleSided
  sensorType := c.sensorType
  petalOpenningAngle := c.petalOpAngle
  phi0 := c.phi0
  alpha := c.alpha
  zposition := c.zposition
  zoffset := c.zoffset
  zsign0 := c.zsignpetal0
  rInner := s.rInner
  thickness := s.thickness
  lengthMin := s.lengthMin
  lengthMax := s.lengthMax
  width := s.width
  radLength := s.radLength

/-- `addLayer`, layout lines 10-71. -/
def addLayer (L : Layout K) (c : Common K) (support sensitive : Shape K) : Layout K :=
  L ++ [(mkLayer c support, mkLayer c sensitive)]

/-- `getNLayers`, header line 74. -/
def getNLayers (L : Layout K) : ℤ := L.length

/-- `getEquivLayer`, layout lines 76-99 (the message for negative results is not modelled). -/
def getEquivLayer (L : Layout K) (layerIndex : ℤ) : ℤ :=
  if layerIndex > 6 then layerIndex - getNLayers L else layerIndex

/-- `_lVec.at( i )` and `_sVec.at( i )`: the index is converted to `size_t`, so that negative ones are out of range. -/
def at' (L : Layout K) (i : ℤ) : Res (Layer K × Layer K) :=
  if i < 0 then .throw .outOfRange
  else match L[i.toNat]? with
    | some l => .ok l
    | none => .throw .outOfRange

/-- `_lVec.at( getEquivLayer( i ) )`. -/
def sup (L : Layout K) (i : ℤ) : Res (Layer K) := do let l ← at' L (getEquivLayer L i); pure l.1
/-- `_sVec.at( getEquivLayer( i ) )`. -/
def sen (L : Layout K) (i : ℤ) : Res (Layer K) := do let l ← at' L (getEquivLayer L i); pure l.2

/-- Header line 78. -/
def getNPetals (L : Layout K) (i : ℤ) : Res ℤ := do let l ← sup L i; pure l.nPetals
/-- Header line 93. -/
def getNSensors (L : Layout K) (i : ℤ) : Res ℤ := do let l ← sup L i; pure l.nSensors
/-- Header line 97. -/
def isDoubleSided (L : Layout K) (i : ℤ) : Res Bool := do let l ← sup L i; pure l.isDoubleSided
/-- Header line 104. -/
def getSensorType (L : Layout K) (i : ℤ) : Res ℤ := do let l ← sup L i; pure l.sensorType
/-- Header lines 109-110. -/
def getPhiHalfDistance (L : Layout K) (i : ℤ) : Res K := do let l ← sup L i; pure l.petalOpenningAngle
/-- Header line 114. -/
def getPhi0 (L : Layout K) (i : ℤ) : Res K := do let l ← sup L i; pure l.phi0
/-- Header line 118. -/
def getAlpha (L : Layout K) (i : ℤ) : Res K := do let l ← sup L i; pure l.alpha
/-- Header lines 125-126. -/
def getZposition (L : Layout K) (i : ℤ) : Res K := do let l ← sup L i; pure l.zposition
/-- Header lines 134-135. -/
def getZoffset (L : Layout K) (i : ℤ) : Res K := do let l ← sup L i; pure l.zoffset
/-- Header lines 139-140. -/
def getZoffsetSign0 (L : Layout K) (i : ℤ) : Res K := do let l ← sup L i; pure l.zsign0
/-- Header lines 152-153. -/
def getSupportRinner (L : Layout K) (i : ℤ) : Res K := do let l ← sup L i; pure l.rInner
/-- Header lines 158-159. -/
def getSupportRadLength (L : Layout K) (i : ℤ) : Res K := do let l ← sup L i; pure l.radLength
/-- Header lines 164-165. -/
def getSupportThickness (L : Layout K) (i : ℤ) : Res K := do let l ← sup L i; pure l.thickness
/-- Header line 171. -/
def getSupportLengthMin (L : Layout K) (i : ℤ) : Res K := do let l ← sup L i; pure l.lengthMin
/-- Header line 177. -/
def getSupportLengthMax (L : Layout K) (i : ℤ) : Res K := do let l ← sup L i; pure l.lengthMax
/-- Header line 183. -/
def getSupportWidth (L : Layout K) (i : ℤ) : Res K := do let l ← sup L i; pure l.width
/-- Header lines 203-204. -/
def getSensitiveRinner (L : Layout K) (i : ℤ) : Res K := do let l ← sen L i; pure l.rInner
/-- Header line 209. -/
def getSensitiveRadLength (L : Layout K) (i : ℤ) : Res K := do let l ← sen L i; pure l.radLength
/-- Header line 213. -/
def getSensitiveThickness (L : Layout K) (i : ℤ) : Res K := do let l ← sen L i; pure l.thickness
/-- Header line 218. -/
def getSensitiveLengthMin (L : Layout K) (i : ℤ) : Res K := do let l ← sen L i; pure l.lengthMin
/-- Header line 224. -/
def getSensitiveLengthMax (L : Layout K) (i : ℤ) : Res K := do let l ← sen L i; pure l.lengthMax
/-- Header line 229. -/
def getSensitiveWidth (L : Layout K) (i : ℤ) : Res K := do let l ← sen L i; pure l.width

/-- `(int) pow( (double)-1, (double)petalIndex )`, layout line 108. -/
def powSign (petalIndex : ℤ) : ℤ := if petalIndex % 2 = 0 then 1 else -1

/-- `getSupportZposition`, layout lines 102-121.  The product of line 108 is a `double` that is converted to
`int`. -/
def getSupportZposition (L : Layout K) (layerIndex petalIndex : ℤ) : Res K := do
  let layerId := getEquivLayer L layerIndex
  let l ← at' L layerId
  let offsetsign : ℤ := truncInt (l.1.zsign0 * (powSign petalIndex : K))
  let zpos := l.1.zposition + offsetsign * l.1.zoffset
  let finalsign : ℤ := if layerId ≠ layerIndex then -1 else 1
  pure (finalsign * zpos)

/-- `getSensitiveZposition`, layout lines 124-155.  For a support at z = 0 line 131 converts NaN to `int`, which is
undefined behaviour. -/
def getSensitiveZposition (L : Layout K) (layerIndex petalIndex sensorIndex : ℤ) : Res K := do
  let zsupport ← getSupportZposition L layerIndex petalIndex
  let layerId := getEquivLayer L layerIndex
  if zsupport = 0 then .ub
  else do
    let zdisksign : ℤ := truncInt (zsupport / |zsupport|)
    let l ← at' L layerId
    let sign : ℤ := if l.1.isDoubleSided && decide (sensorIndex > l.1.nSensors.tdiv 2) then zdisksign else -zdisksign
    if sensorIndex > l.1.nSensors ∨ sensorIndex < 1 then .throw .gear
    else pure (zsupport + sign * (l.1.thickness + l.2.thickness) / 2)

/-- `getPhiPetalCd`, layout lines 160-166. -/
def getPhiPetalCd (L : Layout K) (layerIndex petalIndex : ℤ) : Res K := do
  let l ← at' L (getEquivLayer L layerIndex)
  pure (l.1.phi0 + petalIndex * 2 * l.1.petalOpenningAngle)

/-- The choice of layout lines 171-179, 188-195 and 215-221, without `getEquivLayer`. -/
def sel (L : Layout K) (layerIndex : ℤ) (sensitive : Bool) : Res (Layer K) := do
  let l ← at' L layerIndex
  pure (if sensitive then l.2 else l.1)

/-- `getMaxRadius`, layout lines 169-182. -/
def getMaxRadius (L : Layout K) (layerIndex : ℤ) (sensitive : Bool) : Res K := do
  let l ← sel L layerIndex sensitive
  pure (l.rInner + l.width)

/-- `getStartPhi`, layout lines 186-200. -/
def getStartPhi (L : Layout K) (layerIndex _petalIndex : ℤ) (sensitive : Bool) : Res K := do
  let l ← sel L layerIndex sensitive
  let endphi : K := 0
  pure (endphi - 2 * l.phi0)

/-- `getEndPhi`, layout lines 204-208. -/
def getEndPhi (_L : Layout K) (_layerIndex _petalIndex : ℤ) (_sensitive : Bool) : Res K := pure 0

/-- `getThicknessForAngle`, layout lines 212-237.  Simplification: the quotient by `sin( theta )` squared is that of
the field, where infinities do not exist. -/
def getThicknessForAngle (F : ZPlanar.PlanarFns K) (L : Layout K) (layerIndex : ℤ) (theta phi : K) (sensitive : Bool) :
    Res K := do
  let l ← sel L layerIndex sensitive
  pure (l.thickness * F.sqrt (1 / (F.sin theta * F.sin theta) + F.tan phi * F.tan phi))

/-- `getLayerIndex`, params lines 22-65: all of its body but the last statement is a comment. -/
def getLayerIndex (_L : Layout K) (_p : V3 K) : ℤ := -1

/-- `getSensitiveIndex`, params lines 68-123. -/
def getSensitiveIndex (_L : Layout K) (_p : V3 K) : ℤ := -1

/-- `getPetalIndex`, params lines 127-176. -/
def getPetalIndex (F : TpcModule.TrigFns K) (L : Layout K) (p : V3 K) (sensitive : Bool) : Res ℤ := do
  let layer := getLayerIndex L p
  if layer = -1 then pure (-1)
  else do
    let pRadius := F.sqrt (p.x * p.x + p.y * p.y)
    let pPhi := F.atan2 p.y p.x
    let n ← getNPetals L layer
    let low ← getStartPhi L layer 0 sensitive
    let high ← getEndPhi L layer 0 sensitive
    -- neither angle depends on the petal, so that the loop finds the first petal or none
    if n ≤ 0 ∨ ¬ (pPhi ≤ high ∧ pPhi ≥ low) then pure (-1)
    else do
      let rMax ← getMaxRadius L layer sensitive
      let rMin ← if sensitive then getSensitiveRinner L layer else getSupportRinner L layer
      if pRadius < rMin ∨ pRadius > rMax then pure (-1) else pure 0

/-- `isPointInFTD`, params lines 181-201. -/
def isPointInFTD (F : TpcModule.TrigFns K) (L : Layout K) (p : V3 K) (sensitive : Bool) : Res Bool := do
  let index ← if sensitive then pure (getSensitiveIndex L p) else getPetalIndex F L p false
  pure (decide (index ≠ -1))

end Gear.Ftd
