/-
Model of `getNRadlen` and `getNIntlen` of `gear::TGeoGearDistanceProperties`
(`src/geartgeo/TGeoGearDistanceProperties.cc`) with the rounding of `double` arithmetic.  The other functions of the class do
not compute with the lengths and are those of `TGeoDistance.lean`.
-/
import Verif.TGeoDistance

set_option autoImplicit false
set_option linter.unusedSectionVars false

namespace Gear.TGeoDistance.Double

open Vector3D (V3)

variable {K : Type} [Field K] [LinearOrder K] [IsStrictOrderedRing K]

/-- The loops of lines 181-184 and 200-204, with a rounding after the division and after the addition: `d[i]` is undefined if
there is no such element. -/
def sumLengths (rnd : K → K) : List K → List K → K → Res K
  | [], _, s => .ok s
  | r :: rs, d, s =>
    if r ≠ 0 then
      match d with
      | [] => .ub
      | x :: d' => sumLengths rnd rs d' (rnd (s + rnd (x / r)))
    else sumLengths rnd rs d.tail s

/-- `getNRadlen`, lines 172-186: the answer, and the members afterwards. -/
def getNRadlen (rnd : K → K) (tr : V3 K → V3 K → Res (List (Seg K))) (c : Cache K) (p0 p1 : V3 K) : Res K × Cache K :=
  if Vector3D.equal p0 p1 then (.ok 0, c)
  else let r := beamOn tr c p0 p1; (r.1 >>= fun _ => sumLengths rnd r.2.rad r.2.dist 0, r.2)

/-- `getNIntlen`, lines 191-206. -/
def getNIntlen (rnd : K → K) (tr : V3 K → V3 K → Res (List (Seg K))) (c : Cache K) (p0 p1 : V3 K) : Res K × Cache K :=
  if Vector3D.equal p0 p1 then (.ok 0, c)
  else let r := beamOn tr c p0 p1; (r.1 >>= fun _ => sumLengths rnd r.2.int r.2.dist 0, r.2)

end Gear.TGeoDistance.Double
