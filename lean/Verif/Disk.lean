/-
What the polar pad layouts share (`src/gearimpl/FixedDiskLayoutBase.cc`,
`include/gear/gearimpl/FixedDiskLayoutBase.h`).
-/
import Verif.Num
import Verif.PadIndex
import Verif.RectLayout

set_option autoImplicit false
set_option linter.unusedSectionVars false

namespace Gear.Disk

variable {K : Type} [Field K] [LinearOrder K] [IsStrictOrderedRing K] [FloorRing K]

/-- The constant `M_PI` and the functions of `<cmath>` the layouts use.  They are parameters of the model:
`M_PI` is a rational number close to pi.  `realFns` gives the mathematical functions. -/
structure Fns (K : Type) where
  pi : K
  cos : K → K
  sin : K → K
  sqrt : K → K

/-- The loop `while( phi < lo ) { phi += 2. * M_PI ; }` with a bound on the number of passes,
e.g. `FixedPadAngleDiskLayout.cc` line 220. -/
def loopUp (pi lo : K) : ℕ → K → Option K
  | 0, _ => none
  | n + 1, phi => if phi < lo then loopUp pi lo n (phi + 2 * pi) else some phi

/-- The loop `while( phi > hi ) { phi -= 2. * M_PI ; }` with a bound on the number of passes,
e.g. `FixedPadAngleDiskLayout.cc` line 221. -/
def loopDown (pi hi : K) : ℕ → K → Option K
  | 0, _ => none
  | n + 1, phi => if phi > hi then loopDown pi hi n (phi - 2 * pi) else some phi

/-- The value with which `while( phi < lo ) { phi += 2. * M_PI ; }` ends; see `loopUp_wrapUp`. -/
def wrapUp (pi lo phi : K) : K := if phi < lo then phi + ⌈(lo - phi) / (2 * pi)⌉ * (2 * pi) else phi

/-- The value with which `while( phi > hi ) { phi -= 2. * M_PI ; }` ends; see `loopDown_wrapDown`. -/
def wrapDown (pi hi phi : K) : K := if phi > hi then phi - ⌈(phi - hi) / (2 * pi)⌉ * (2 * pi) else phi

/-- The distance to one radial edge of the pad at angle `phiE`, `FixedDiskLayoutBase.cc` lines 54-69 and
73-88. -/
def edgeDistance (F : Fns K) (r phi rMin rMax phiE : K) : K :=
  let rIntersect := r * (F.cos phi * F.cos phiE + F.sin phi * F.sin phiE)
  let m := r * (F.cos phi * F.sin phiE - F.sin phi * F.cos phiE)
  if rIntersect < rMin then F.sqrt (r * r + rMin * rMin - 2 * rMin * rIntersect)
  else if rIntersect > rMax then F.sqrt (r * r + rMax * rMax - 2 * rMax * rIntersect)
  else |m|

/-- `FixedDiskLayoutBase::getDistanceToPad`, lines 20-96, as a function of the pad's limits (lines 25-28). -/
def keystoneDistance (F : Fns K) (r phi rMin rMax phiMin phiMax : K) : K :=
  if phi ≥ phiMin ∧ phi ≤ phiMax then
    if r ≥ rMin ∧ r ≤ rMax then 0
    else if r < rMin then rMin - r
    else r - rMax
  else
    let distancePhiMin := edgeDistance F r phi rMin rMax phiMin
    let distancePhiMax := edgeDistance F r phi rMin rMax phiMax
    if distancePhiMin < distancePhiMax then distancePhiMin else distancePhiMax

/-- `FixedDiskLayoutBase::getRowNumber`, header line 46. -/
def getRowNumber (padIndex : ℤ) : ℤ := PadIndex.rowBits padIndex

/-- `FixedDiskLayoutBase::getPadNumber`, header line 51. -/
def getPadNumber (padIndex : ℤ) : ℤ := PadIndex.padBits padIndex

/-- The list built by `getPadsInRow` with the given `getPadIndex`, e.g. `FixedPadAngleDiskLayout.cc` lines
170-173. -/
def buildPads (getPadIndex : ℤ → ℤ → Res ℤ) (rowNumber : ℤ) : ℕ → Res (List ℤ)
  | 0 => .ok []
  | n + 1 => do
    let l ← buildPads getPadIndex rowNumber n
    let i ← getPadIndex rowNumber n
    return l ++ [i]

end Gear.Disk
