import Verif.Model.Resources

/-!
Specification of a resource registry: everything is read off the sequence of calls.
-/

namespace Verif.Spec

/-- The handle most recently registered under `name`. -/
def lastRegistered (name : String) (ops : List IfaceOp) : Option Handle :=
  ops.reverse.findSome? fun
    | .registerHandle h => if h.name = name then some h else none
    | _ => none

/-- The calls made after the last `clearClaims`. `before` are the calls up to there. -/
def SinceClear (ops before since : List IfaceOp) : Prop :=
  ops = before ++ since ∧ IfaceOp.clearClaims ∉ since ∧
    (before = [] ∨ before.getLast? = some .clearClaims)

end Verif.Spec
