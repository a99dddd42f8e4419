/-
Model of `gear::TGeoGearDistanceProperties` (`src/geartgeo/TGeoGearDistanceProperties.cc`).  ROOT's navigator
(`TGeoManager`) is a parameter.
-/
import Verif.Vector3D

set_option autoImplicit false
set_option linter.unusedSectionVars false

namespace Gear.TGeoDistance

open Vector3D (V3)
open Disk (Fns)

variable {K : Type} [Field K] [LinearOrder K] [IsStrictOrderedRing K]

/-- What the code reads of a `TGeoNode`: its name and the name, the interaction length and the radiation length of
its material (lines 106-111). -/
structure Node (K : Type) where
  name : String
  material : String
  intLen : K
  radLen : K
deriving DecidableEq

/-- The calls of `TGeoManager` in `beamOn`, with the state of the navigator.  `none` is the null pointer.
Simplification: the tracks that are kept for drawing (lines 52, 70, 104, 115, 126, 127) are left out, and the state
at the start of a query does not depend on earlier queries. -/
structure Nav (K : Type) where
  S : Type
  initTrack : V3 K → V3 K → S × Option (Node K)
  isOutside : S → Bool
  /-- `FindNextBoundaryAndStep(500, 1)` -/
  findNext : S → S × Option (Node K)
  currentPoint : S → V3 K
  lastPoint : S → V3 K
  getStep : S → K
  setCurrentPoint : S → V3 K → S

/-- One element of the vectors `_distance`, `_volNames`, `_matNames`, `_intLen` and `_radLen`, which always get
their elements together (lines 105-111 and 116-122). -/
structure Seg (K : Type) where
  length : K
  node : Node K
deriving DecidableEq

/-- `MINSTEP`, line 10. -/
def minStep : K := 1 / 100000

/-- The direction and its normalisation, lines 38-50.  The two points differ, so that the length is not zero
(lines 135, 148, 162, 175, 194). -/
def pathLength (F : Fns K) (p0 p1 : V3 K) : K :=
  let d := Vector3D.sub p1 p0
  F.sqrt (d.x * d.x + d.y * d.y + d.z * d.z)

/-- The direction, lines 43 and 49-50. -/
def direction (F : Fns K) (p0 p1 : V3 K) : V3 K :=
  let d := Vector3D.sub p1 p0
  ⟨d.x / pathLength F p0 p1, d.y / pathLength F p0 p1, d.z / pathLength F p0 p1⟩

/-- The step of lines 62-85: the navigator's state, the node reached (`node2`) and the length recorded, after the
correction for short steps; `none` if the loop is left in line 65. -/
def advance (N : Nav K) (dir : V3 K) (s : N.S) : Option (N.S × Option (Node K) × K) :=
  let r := N.findNext s
  if r.2 = none ∨ N.isOutside r.1 = true then none
  else if N.getStep r.1 < minStep then
    let pos := N.currentPoint r.1
    let s' := N.setCurrentPoint r.1
      ⟨pos.x + minStep * dir.x, pos.y + minStep * dir.y, pos.z + minStep * dir.z⟩
    let r' := N.findNext s'
    some (r'.1, r'.2, N.getStep s')
  else some (r.1, r.2, N.getStep r.1)

/-- The loop of lines 58-125 with a bound on the number of passes; `none` if it is still running then.  `node1` may
be null only after the correction of a short step; using it is undefined (lines 106, 117). -/
def beamLoop (F : Fns K) (N : Nav K) (p0 p1 : V3 K) :
    ℕ → N.S → Option (Node K) → List (Seg K) → Option (Res (List (Seg K)))
  | 0, _, _, _ => none
  | fuel + 1, s, node1, acc =>
    if N.isOutside s = true then some (.ok acc)
    else
      match advance N (direction F p0 p1) s with
      | none => some (.ok acc)
      | some (s', node2, len) =>
        match node1 with
        | none => some .ub
        | some nd =>
          if pathLength F p0 (N.currentPoint s') > pathLength F p0 p1 then
            some (.ok (acc ++ [⟨pathLength F (N.lastPoint s') p1, nd⟩]))
          else beamLoop F N p0 p1 fuel s' node2 (acc ++ [⟨len, nd⟩])

/-- `beamOn` without its cache, lines 38-127: the contents of the vectors. -/
def trace (F : Fns K) (N : Nav K) (fuel : ℕ) (p0 p1 : V3 K) : Option (Res (List (Seg K))) :=
  let r := N.initTrack p0 (direction F p0 p1)
  match r.2 with
  | none => some (.throw .outsideGeometry)
  | some nd => beamLoop F N p0 p1 fuel r.1 (some nd) []

/-! ### The cache -/

/-- The mutable members, `TGeoGearDistanceProperties.h` lines 73-83. -/
structure Cache (K : Type) where
  p0 : V3 K
  p1 : V3 K
  vol : List String
  mat : List String
  dist : List K
  int : List K
  rad : List K
deriving DecidableEq

/-- The constructor, lines 14-16, and the initialisers of the members. -/
def init : Cache K := ⟨⟨0, 0, 0⟩, ⟨0, 0, 0⟩, [], [], [], [], []⟩

/-- `beamOn`, lines 19-128.  `tr` is the outcome of lines 38-127 (see `trace`; a loop that does not end is counted
as undefined).  After an exception the points are set and the vectors empty (lines 25-31). -/
def beamOn (tr : V3 K → V3 K → Res (List (Seg K))) (c : Cache K) (p0 p1 : V3 K) : Res Unit × Cache K :=
  if Vector3D.equal p0 c.p0 ∧ Vector3D.equal p1 c.p1 then (.ok (), c)
  else
    match tr p0 p1 with
    | .ok l => (.ok (), ⟨p0, p1, l.map (·.node.name), l.map (·.node.material), l.map (·.length),
        l.map (·.node.intLen), l.map (·.node.radLen)⟩)
    | .throw e => (.throw e, ⟨p0, p1, [], [], [], [], []⟩)
    | .ub => (.ub, ⟨p0, p1, [], [], [], [], []⟩)

/-- The public functions. -/
inductive Query where
  | materialNames
  | volumeNames
  | thicknesses
  | nRadlen
  | nIntlen
  | bdl
  | edl
deriving DecidableEq

/-- Their answers. -/
inductive Answer (K : Type) where
  | names (l : List String)
  | numbers (l : List K)
  | number (v : K)
deriving DecidableEq

/-- The loops of lines 181-184 and 200-204: `d[i]` is undefined if there is no such element. -/
def sumLengths : List K → List K → K → Res K
  | [], _, s => .ok s
  | r :: rs, d, s =>
    if r ≠ 0 then
      match d with
      | [] => .ub
      | x :: d' => sumLengths rs d' (s + x / r)
    else sumLengths rs d.tail s

/-- `getMaterialNames` (lines 132-141), `getVolumeNames` (145-154), `getMaterialThicknesses` (159-168), `getNRadlen`
(172-186), `getNIntlen` (191-206), `getBdL` (211-215), `getEdL` (221-225). -/
def query (tr : V3 K → V3 K → Res (List (Seg K))) (c : Cache K) (q : Query) (p0 p1 : V3 K) :
    Res (Answer K) × Cache K :=
  match q with
  | .materialNames =>
    if Vector3D.equal p0 p1 then (.ok (.names []), { c with mat := [] })
    else let r := beamOn tr c p0 p1; (r.1 >>= fun _ => .ok (.names r.2.mat), r.2)
  | .volumeNames =>
    if Vector3D.equal p0 p1 then (.ok (.names []), { c with vol := [] })
    else let r := beamOn tr c p0 p1; (r.1 >>= fun _ => .ok (.names r.2.vol), r.2)
  | .thicknesses =>
    if Vector3D.equal p0 p1 then (.ok (.numbers []), { c with dist := [] })
    else let r := beamOn tr c p0 p1; (r.1 >>= fun _ => .ok (.numbers r.2.dist), r.2)
  | .nRadlen =>
    if Vector3D.equal p0 p1 then (.ok (.number 0), c)
    else let r := beamOn tr c p0 p1; (r.1 >>= fun _ => sumLengths r.2.rad r.2.dist 0 >>= fun v => .ok (.number v), r.2)
  | .nIntlen =>
    if Vector3D.equal p0 p1 then (.ok (.number 0), c)
    else let r := beamOn tr c p0 p1; (r.1 >>= fun _ => sumLengths r.2.int r.2.dist 0 >>= fun v => .ok (.number v), r.2)
  | .bdl => (.throw .notImplemented, c)
  | .edl => (.throw .notImplemented, c)

/-- The state after a list of queries, the oldest first. -/
def run (tr : V3 K → V3 K → Res (List (Seg K))) (h : List (Query × V3 K × V3 K)) : Cache K :=
  h.foldl (fun c q => (query tr c q.1 q.2.1 q.2.2).2) init

end Gear.TGeoDistance
