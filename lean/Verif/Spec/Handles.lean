import Verif.Model.Handles

/-!
Vocabulary for the properties of joint and actuator handles.
-/

namespace Verif.Handles

variable {V : Type}

/-- The handle has position, velocity and effort. -/
def StateHandle.Complete (h : StateHandle) : Prop := h.pos ≠ none ∧ h.vel ≠ none ∧ h.eff ≠ none

/-- What a call stores where, in order: the pointers of the handle with the arguments. -/
def SetCall.stores : SetCall V → List (Ptr × V)
  | .command h v => [(h.cmd, v)]
  | .position h v => [(h.cmdPos, v)]
  | .velocity h v => [(h.cmdVel, v)]
  | .posVel h p v => [(h.cmdPos, p), (h.cmdVel, v)]
  | .acceleration h v => [(h.cmdAcc, v)]
  | .posVelAcc h p v a => [(h.cmdPos, p), (h.cmdVel, v), (h.cmdAcc, a)]
  | .effort h v => [(h.cmdEff, v)]
  | .kp h v => [(h.cmdKp, v)]
  | .kd h v => [(h.cmdKd, v)]
  | .gains h p v e g d => [(h.cmdPos, p), (h.cmdVel, v), (h.cmdEff, e), (h.cmdKp, g), (h.cmdKd, d)]
  | .mode h v => [(h.mode, v)]

/-- The value stored last in the variable at address `a`, or the one given. -/
def lastStore (stores : List (Ptr × V)) (a : Nat) (init : V) : V :=
  ((stores.filter fun s => s.1 == some a).map (·.2)).getLastD init

end Verif.Handles
