/-
Model of `gear::LayerLayoutImpl` and `gear::CalorimeterParametersImpl`.

Sources: src/gearimpl/LayerLayoutImpl.cc ("layout"), include/gear/gearimpl/LayerLayoutImpl.h ("layout header"),
src/gearimpl/CalorimeterParametersImpl.cc ("params"), include/gear/gearimpl/CalorimeterParametersImpl.h
("params header").
-/
import Verif.Basic
import Verif.Num

set_option autoImplicit false
set_option linter.unusedSectionVars false

namespace Gear.Calo

variable {K : Type} [Field K] [LinearOrder K] [IsStrictOrderedRing K] [FloorRing K]

/-- `LayerLayoutImpl::Layer`, layout header lines 29-35. -/
structure Layer (K : Type) where
  distance : K
  thickness : K
  absorberThickness : K
  cellSize0 : K
  cellSize1 : K
deriving DecidableEq

/-- `_vec`, layout header line 86. -/
abbrev Layout (K : Type) := List (Layer K)

/-- `addLayer`, layout lines 8-27. -/
def addLayer (L : Layout K) (thickness cellSize0 cellSize1 absorberThickness : K) : Layout K :=
  let distance := match L.getLast? with
    | none => 0
    | some l => l.distance + l.thickness
  L ++ [⟨distance, thickness, absorberThickness, cellSize0, cellSize1⟩]

/-- `positionLayer`, layout lines 30-41. -/
def positionLayer (L : Layout K) (distance thickness cellSize0 cellSize1 absorberThickness : K) : Layout K :=
  L ++ [⟨distance, thickness, absorberThickness, cellSize0, cellSize1⟩]

/-- `_vec.at( layerIndex )`: the index is converted to `size_t`, so that negative ones are out of range. -/
def at' (L : Layout K) (i : ℤ) : Res (Layer K) :=
  if i < 0 then .throw .outOfRange
  else match L[i.toNat]? with
    | some l => .ok l
    | none => .throw .outOfRange

/-- Layout header line 44. -/
def getNLayers (L : Layout K) : ℤ := L.length
/-- Layout header line 49. -/
def getDistance (L : Layout K) (i : ℤ) : Res K := do let l ← at' L i; pure l.distance
/-- Layout header line 54. -/
def getThickness (L : Layout K) (i : ℤ) : Res K := do let l ← at' L i; pure l.thickness
/-- Layout header lines 59-61. -/
def getAbsorberThickness (L : Layout K) (i : ℤ) : Res K := do let l ← at' L i; pure l.absorberThickness
/-- Layout header lines 66-68. -/
def getCellSize0 (L : Layout K) (i : ℤ) : Res K := do let l ← at' L i; pure l.cellSize0
/-- Layout header lines 72-74. -/
def getCellSize1 (L : Layout K) (i : ℤ) : Res K := do let l ← at' L i; pure l.cellSize1

/-- `CalorimeterParameters::BARREL` and `ENDCAP`. -/
inductive Kind where
  | barrel
  | endcap
deriving DecidableEq

/-- `CalorimeterParametersImpl`, params header lines 68-72.  The vector `_extent` of length four is four fields. -/
structure Calo (K : Type) where
  type : Kind
  sym : ℤ
  phi : K
  layout : Layout K
  extent0 : K
  extent1 : K
  extent2 : K
  extent3 : K
deriving DecidableEq

/-- The constructor for barrels, params lines 6-17. -/
def mkBarrel (rMin zMax : K) (symOrder : ℤ) (phi0 : K) : Calo K :=
  ⟨.barrel, symOrder, phi0, [], rMin, rMin, 0, zMax⟩

/-- The constructor for endcaps, params lines 21-32. -/
def mkEndcap (rMin rMax zMin : K) (symOrder : ℤ) (phi0 : K) : Calo K :=
  ⟨.endcap, symOrder, phi0, [], rMin, rMax, zMin, zMin⟩

/-- `getExtent`, params lines 34-54, which is const but changes the mutable `_extent`: the object afterwards and the
returned vector. -/
def getExtent (c : Calo K) : Res (Calo K × List K) := do
  let nLayer := getNLayers c.layout
  if nLayer > 0 then
    let d ← getDistance c.layout (nLayer - 1)
    let t ← getThickness c.layout (nLayer - 1)
    match c.type with
    | .barrel => pure ({ c with extent1 := d + t }, [c.extent0, d + t, c.extent2, c.extent3])
    | .endcap => pure ({ c with extent3 := d + t }, [c.extent0, c.extent1, c.extent2, d + t])
  else pure (c, [c.extent0, c.extent1, c.extent2, c.extent3])

end Gear.Calo
