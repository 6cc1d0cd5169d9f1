import Verif.Model.LimitsConfig
import Mathlib.Data.List.Forall2

/-!
Vocabulary for the properties of limits configuration.
-/

namespace Verif.Limits

/-- The groups of limits. -/
inductive Group
  | position | velocity | acceleration | jerk | effort
  deriving DecidableEq, Repr

/-- The parameter that says whether there are limits. -/
def Group.flag : Group → String
  | .position => "has_position_limits"
  | .velocity => "has_velocity_limits"
  | .acceleration => "has_acceleration_limits"
  | .jerk => "has_jerk_limits"
  | .effort => "has_effort_limits"

/-- The parameters with the limits. -/
def Group.keys : Group → List String
  | .position => ["min_position", "max_position"]
  | .velocity => ["max_velocity"]
  | .acceleration => ["max_acceleration"]
  | .jerk => ["max_jerk"]
  | .effort => ["max_effort"]

variable {F : Type}

/-- There are limits of this group. -/
def FullLimits.has (L : FullLimits F) : Group → Bool
  | .position => L.hasPosition
  | .velocity => L.hasVelocity
  | .acceleration => L.hasAcceleration
  | .jerk => L.hasJerk
  | .effort => L.hasEffort

/-- The limits of this group. -/
def FullLimits.values (L : FullLimits F) : Group → List F
  | .position => [L.minPosition, L.maxPosition]
  | .velocity => [L.maxVelocity]
  | .acceleration => [L.maxAcceleration]
  | .jerk => [L.maxJerk]
  | .effort => [L.maxEffort]

/-- The parameter is this number. -/
def IsNumber (ofInt : Int → F) (p : Params F) (key : String) (x : F) : Prop :=
  p key = some (.double x) ∨ ∃ n, p key = some (.int n) ∧ x = ofInt n

/-- The parameters specify these limits completely. -/
def Specifies (ofInt : Int → F) (p : Params F) (g : Group) (xs : List F) : Prop :=
  p g.flag = some (.bool true) ∧ List.Forall₂ (IsNumber ofInt p) g.keys xs

/-- The parameters say that there are no limits. -/
def Disables (p : Params F) (g : Group) : Prop := p g.flag = some (.bool false)

end Verif.Limits
