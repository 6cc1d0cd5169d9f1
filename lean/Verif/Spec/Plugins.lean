import Verif.Model.Plugins
import Verif.Spec.Manager

/-!
Vocabulary for the loaders of controller classes.
-/

namespace Verif.Plug

open Mgr

/-- ROS is not shutting down during the operation. -/
def PlugOp.rosUp : PlugOp → Prop
  | .poll ok _ _ => ok.cond = true ∧ ok.body = true
  | _ => True

/-- A state reached from a fresh manager, whose first loader has found some classes, while ROS is up. -/
def Reachable (conf : List ControllerInfo → Bool) (s : St) : Prop :=
  ∃ found ops, (∀ op ∈ ops, PlugOp.rosUp op) ∧ s = (init found).run conf ops

/-- The controller object exists: one of the two lists of the manager holds it. -/
def Alive (m : Mgr) (c : CId) : Prop := ∃ sp, (sp ∈ m.cur ∨ sp ∈ m.oth) ∧ sp.c = c

/-- The operation ends a reload successfully: the manager answers true. -/
def Reloads (conf : List ControllerInfo → Bool) (s : St) (op : PlugOp) : Prop :=
  .reloadRet true ∈ ((s.step conf op).mgr.trace.drop s.mgr.trace.length)

end Verif.Plug
