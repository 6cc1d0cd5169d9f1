import Verif.Model.Containers
import Mathlib.Data.String.Basic

/-!
Resource managers and claims:
hardware_interface/include/hardware_interface/internal/resource_manager.h,
.../internal/hardware_resource_manager.h, .../hardware_interface.h.
-/

namespace Verif

/-- A resource handle. Only `getName()` is used by the managers
(resource_manager.h 62-66); everything else a handle carries is represented by `data`. -/
structure Handle where
  name : String
  data : Nat
deriving DecidableEq, Repr

/-- One hardware interface object. `handles` is `resource_map_`
(resource_manager.h 147-148, a `std::map`), `claims` is `claims_`
(hardware_interface.h 66, a `std::set`), `claiming` says whether the class was instantiated
with `ClaimResources` or with `DontClaimResources` (hardware_resource_manager.h 117-125).
Interfaces that are not resource managers never have handles. -/
structure Iface where
  handles : List (String × Handle) := []
  claims : List String := []
  claiming : Bool := true
deriving DecidableEq, Repr

namespace Iface

/-- resource_manager.h 77-86: `getNames`. -/
def getNames (o : Iface) : List String := smapKeys o.handles

/-- resource_manager.h 93-106: `registerHandle`. Both branches of the C++ code leave the
map with `handle` under its own name. -/
def registerHandle (o : Iface) (h : Handle) : Iface :=
  match smapFind h.name o.handles with
  | none => { o with handles := smapInsert h.name h o.handles }
  | some _ => { o with handles := smapInsert h.name h o.handles }

/-- resource_manager.h 113-124: `ResourceManager::getHandle`; `none` is the thrown
`std::logic_error`. -/
def rmGetHandle (o : Iface) (name : String) : Option Handle := smapFind name o.handles

/-- hardware_interface.h 55: `claim`. -/
def claim (o : Iface) (name : String) : Iface := { o with claims := ssetInsert name o.claims }

/-- hardware_interface.h 58: `clearClaims`. -/
def clearClaims (o : Iface) : Iface := { o with claims := [] }

/-- hardware_interface.h 61: `getClaims`. -/
def getClaims (o : Iface) : List String := o.claims

/-- hardware_resource_manager.h 117-125: the two claim policies. -/
def applyPolicy (o : Iface) (name : String) : Iface :=
  if o.claiming then o.claim name else o

/-- hardware_resource_manager.h 96-111: `HardwareResourceManager::getHandle`; `none` is the
thrown `HardwareInterfaceException`. -/
def getHandle (o : Iface) (name : String) : Option Handle × Iface :=
  match o.rmGetHandle name with
  | none => (none, o)
  | some h => (some h, o.applyPolicy name)

/-- resource_manager.h 134-142: `concatManagers`. The managers are accessed through pointers
to the base class, so the non-claiming `getHandle` is used. A name listed by `getNames` is
always found, so the exception of `getHandle` cannot occur; the model skips it. -/
def concatManagers (managers : List Iface) (result : Iface) : Iface :=
  managers.foldl (fun res m =>
    m.getNames.foldl (fun res n =>
      match m.rmGetHandle n with
      | some h => res.registerHandle h
      | none => res) res) result

end Iface

/-- Calls a client can make on one hardware interface object. -/
inductive IfaceOp
  | registerHandle (h : Handle)
  | getHandle (name : String)
  | clearClaims
deriving DecidableEq, Repr

/-- Effect of one call (dispatch to the functions above). -/
def Iface.step (o : Iface) : IfaceOp → Iface
  | .registerHandle h => o.registerHandle h
  | .getHandle n => (o.getHandle n).2
  | .clearClaims => o.clearClaims

/-- Effect of a sequence of calls. -/
def Iface.run (o : Iface) (ops : List IfaceOp) : Iface := ops.foldl Iface.step o

end Verif
