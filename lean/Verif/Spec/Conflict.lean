import Verif.Model.Basic

/-!
Specification of resource conflicts.
-/

namespace Verif.Spec

/-- Every resource name claimed by one controller, once per interface claiming it. -/
def claimsOf (ci : ControllerInfo) : List String := ci.claimed.flatMap (·.resources)

/-- Every resource name claimed by a group of controllers, once per (controller, interface)
pair claiming it. -/
def claimsOfAll (info : List ControllerInfo) : List String := info.flatMap claimsOf

/-- A group of controllers may run together: no resource is claimed twice. -/
def ConflictFree (info : List ControllerInfo) : Prop := (claimsOfAll info).Nodup

end Verif.Spec
