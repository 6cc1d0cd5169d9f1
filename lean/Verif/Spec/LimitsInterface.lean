import Verif.Model.LimitsInterface
import Verif.Spec.JointLimits

/-!
Vocabulary for the properties of the joint limit interfaces.
-/

namespace Verif.Limits

variable {K : Type}

/-- The two limits say the same: the same limits are specified, and these have the same values. Values
whose flag is not set may differ. -/
structure Agree {F : Type} (L L' : JointLimits F) : Prop where
  hasPosition : L.hasPosition = L'.hasPosition
  hasVelocity : L.hasVelocity = L'.hasVelocity
  hasAcceleration : L.hasAcceleration = L'.hasAcceleration
  hasEffort : L.hasEffort = L'.hasEffort
  minPosition : L.hasPosition = true → L.minPosition = L'.minPosition
  maxPosition : L.hasPosition = true → L.maxPosition = L'.maxPosition
  maxVelocity : L.hasVelocity = true → L.maxVelocity = L'.maxVelocity
  maxAcceleration : L.hasAcceleration = true → L.maxAcceleration = L'.maxAcceleration
  maxEffort : L.hasEffort = true → L.maxEffort = L'.maxEffort

/-- The handle `h'` does not write to the variables of `h`. -/
def Leaves (h' h : Limiter K) : Prop :=
  h'.joint.cmd ≠ h.joint.cmd ∧ h'.joint.cmd ≠ h.joint.pos ∧ h'.joint.cmd ≠ h.joint.vel

/-- No other handle of the interface writes to the variables of `h`, the one registered under `n`. -/
def Undisturbed (n : String) (h : Limiter K) (s : LimitsIface K) : Prop :=
  ∀ n' h', (n', h') ∈ s → n' ≠ n → Leaves h' h

/-- No handle registered in the history replaces the one named `n` or writes to the variables of `h`. -/
def NoIntruder (n : String) (h : Limiter K) (cs : List (IfCall K)) : Prop :=
  ∀ h', IfCall.register h' ∈ cs → h'.joint.name ≠ n ∧ Leaves h' h

/-- A history of an interface as seen by one joint: resets, and enforcements with what the variables
of the joint contained. -/
def calls (j : Joint) (es : List (IfEvent K)) : List (Call (Dbl K)) :=
  es.map fun
    | .reset => .reset
    | .enforced dt m _ => .enforce ⟨m j.cmd, m j.pos, m j.vel, dt⟩

/-- What the variables of the joint contained before each enforcement, and the command after it. -/
def seen (j : Joint) (es : List (IfEvent K)) : List (Input (Dbl K) × Dbl K) :=
  es.filterMap fun
    | .reset => none
    | .enforced dt m m' => some (⟨m j.cmd, m j.pos, m j.vel, dt⟩, m' j.cmd)

end Verif.Limits
