/-
Model of `gear::LayerLayoutImpl` and `gear::CalorimeterParametersImpl` with the rounding of `double` arithmetic: the
functions of `Calo.lean` that compute, with `rnd` applied to the result of every addition.  Those that do not compute
(the constructors, `positionLayer` and the getters of the layers) are taken from `Calo.lean`.

Sources: src/gearimpl/LayerLayoutImpl.cc ("layout"), src/gearimpl/CalorimeterParametersImpl.cc ("params").
Simplification: no overflow and no underflow.
-/
import Verif.Calo

set_option autoImplicit false
set_option linter.unusedSectionVars false

namespace Gear.Calo.Double

variable {K : Type} [Field K] [LinearOrder K] [IsStrictOrderedRing K] [FloorRing K]

/-- `addLayer`, layout lines 8-27, with the addition of line 18 rounded. -/
def addLayer (rnd : K → K) (L : Layout K) (thickness cellSize0 cellSize1 absorberThickness : K) : Layout K :=
  let distance := match L.getLast? with
    | none => 0
    | some l => rnd (l.distance + l.thickness)
  L ++ [⟨distance, thickness, absorberThickness, cellSize0, cellSize1⟩]

/-- `getExtent`, params lines 34-54, with the additions of lines 45 and 49 rounded: the object afterwards and the
returned vector. -/
def getExtent (rnd : K → K) (c : Calo K) : Res (Calo K × List K) := do
  let nLayer := getNLayers c.layout
  if nLayer > 0 then
    let d ← getDistance c.layout (nLayer - 1)
    let t ← getThickness c.layout (nLayer - 1)
    match c.type with
    | .barrel => pure ({ c with extent1 := rnd (d + t) }, [c.extent0, rnd (d + t), c.extent2, c.extent3])
    | .endcap => pure ({ c with extent3 := rnd (d + t) }, [c.extent0, c.extent1, c.extent2, rnd (d + t)])
  else pure (c, [c.extent0, c.extent1, c.extent2, c.extent3])

end Gear.Calo.Double
