/-
Model of `gear::XMLHandlerMgr` (src/gearxml/XMLHandlerMgr.cc): the registry of handlers and its ownership.
-/
import Verif.Basic

set_option autoImplicit false
set_option linter.unusedSectionVars false

namespace Gear.Xml

/-- A handler object. -/
abbrev HandlerPtr := Nat

/-- The registry: `_map`, whose values may be null, and the log of the handlers deleted. -/
structure Registry where
  map : SMap String (Option HandlerPtr) := []
  deleted : List HandlerPtr := []
deriving DecidableEq

namespace Registry

/-- The names under which the constructor registers handlers, include/gear/GEAR.h lines 159-165, src/gearimpl/GEAR.cc lines 5-11 and XMLHandlerMgr.cc lines 48-54, in
this order. -/
def standard : List String :=
  ["GearParameters", "TPCParameters", "CalorimeterParameters", "ZPlanarParameters", "FTDParameters", "TrackerPlanesParameters",
    "SiPlanesParameters"]

/-- The constructor, XMLHandlerMgr.cc lines 46-56; the new handlers are the objects 0 to 6. -/
def new : Registry :=
  { map := (standard.zipIdx).foldl (fun m e => SMap.set e.1 (some e.2) m) [] }

/-- `getHandler`, XMLHandlerMgr.cc lines 59-62: the pointer and the registry afterwards, in which a missing entry has been added. -/
def getHandler (r : Registry) (type : String) : Option HandlerPtr × Registry :=
  match r.map.find? type with
  | some h => (h, r)
  | none => (none, { r with map := r.map.set type none })

/-- `delete` for a pointer that may be null; deleting twice is undefined behaviour. -/
def delete (r : Registry) : Option HandlerPtr → Res Registry
  | none => .ok r
  | some h => if h ∈ r.deleted then .ub else .ok { r with deleted := r.deleted ++ [h] }

/-- `setHandler`, XMLHandlerMgr.cc lines 65-83. -/
def setHandler (r : Registry) (type : String) (handler : Option HandlerPtr) : Res Registry :=
  match handler with
  | none => .ok r
  | some h =>
    match r.map.find? type with
    | some old => do
      let r ← r.delete old
      .ok { r with map := r.map.set type (some h) }
    | none => .ok { r with map := r.map.set type (some h) }

/-- The destructor, XMLHandlerMgr.cc lines 35-43. -/
def destroy (r : Registry) : Res Registry := r.map.foldlM (fun r e => r.delete e.2) r

/-- A call. -/
inductive Op where
  | get (type : String)
  | set (type : String) (handler : Option HandlerPtr)
deriving DecidableEq

/-- One call. -/
def step (r : Registry) : Op → Res Registry
  | .get t => .ok (r.getHandler t).2
  | .set t h => r.setHandler t h

/-- A history of calls, oldest first, on the registry made by the constructor. -/
def run (h : List Op) : Res Registry := h.foldlM step new

end Registry
end Gear.Xml
