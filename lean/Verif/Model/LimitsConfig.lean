import Verif.Model.JointLimits

/-!
Where joint limits come from: joint_limits_rosparam.h and joint_limits_urdf.h.
-/

namespace Verif.Limits

/-- joint_limits.h 36-51: all members of `JointLimits`. -/
structure FullLimits (F : Type) extends JointLimits F where
  maxJerk : F
  hasJerk : Bool
  angleWraparound : Bool
  deriving DecidableEq, Repr

/-- The value of a parameter. `other`: strings, lists and so on. -/
inductive Value (F : Type)
  | bool (b : Bool)
  | int (n : Int)
  | double (x : F)
  | other
  deriving DecidableEq, Repr

/-- The parameters in the namespace of a joint. They do not change during a call (simplified: the calls of
`getParam` and `hasParam` are separate requests to the parameter server). -/
abbrev Params (F : Type) := String → Option (Value F)

section

variable {F : Type} (ofInt : Int → F)

/-- `NodeHandle::getParam` for `bool` (roscpp, not in the repository): false unless the parameter exists and
is a boolean. -/
def getBool (p : Params F) (key : String) : Option Bool :=
  match p key with
  | some (.bool b) => some b
  | _ => none

/-- `NodeHandle::getParam` for `double` (roscpp): integers are converted, other types refused. -/
def getDouble (p : Params F) (key : String) : Option F :=
  match p key with
  | some (.double x) => some x
  | some (.int n) => some (ofInt n)
  | _ => none

/-- joint_limits_rosparam.h 96-114. -/
def readPosition (p : Params F) (L : FullLimits F) : FullLimits F :=
  match getBool p "has_position_limits" with
  | none => L
  | some has =>
    -- 100
    let L := if !has then { L with hasPosition := false } else L
    -- 101-107
    let L := if has then
        match getDouble ofInt p "min_position" with
        | none => L
        | some lo =>
          match getDouble ofInt p "max_position" with
          | none => L
          | some hi => { L with hasPosition := true, minPosition := lo, maxPosition := hi }
      else L
    -- 109-113
    if !has then
      match getBool p "angle_wraparound" with
      | none => L
      | some w => { L with angleWraparound := w }
    else L

/-- joint_limits_rosparam.h 116-127. -/
def readVelocity (p : Params F) (L : FullLimits F) : FullLimits F :=
  match getBool p "has_velocity_limits" with
  | none => L
  | some false => { L with hasVelocity := false }
  | some true =>
    match getDouble ofInt p "max_velocity" with
    | none => L
    | some x => { L with hasVelocity := true, maxVelocity := x }

/-- joint_limits_rosparam.h 129-140. -/
def readAcceleration (p : Params F) (L : FullLimits F) : FullLimits F :=
  match getBool p "has_acceleration_limits" with
  | none => L
  | some false => { L with hasAcceleration := false }
  | some true =>
    match getDouble ofInt p "max_acceleration" with
    | none => L
    | some x => { L with hasAcceleration := true, maxAcceleration := x }

/-- joint_limits_rosparam.h 142-153. -/
def readJerk (p : Params F) (L : FullLimits F) : FullLimits F :=
  match getBool p "has_jerk_limits" with
  | none => L
  | some false => { L with hasJerk := false }
  | some true =>
    match getDouble ofInt p "max_jerk" with
    | none => L
    | some x => { L with hasJerk := true, maxJerk := x }

/-- joint_limits_rosparam.h 155-166. -/
def readEffort (p : Params F) (L : FullLimits F) : FullLimits F :=
  match getBool p "has_effort_limits" with
  | none => L
  | some false => { L with hasEffort := false }
  | some true =>
    match getDouble ofInt p "max_effort" with
    | none => L
    | some x => { L with hasEffort := true, maxEffort := x }

/-- joint_limits_rosparam.h 75-169: `getJointLimits`. `none`: there is no parameter `joint_limits/<joint>`,
or the name is invalid (77-94). -/
def paramLimits (p : Option (Params F)) (L : FullLimits F) : Bool × FullLimits F :=
  match p with
  | none => (false, L)
  | some p =>
    (true, readEffort ofInt p (readJerk ofInt p (readAcceleration ofInt p (readVelocity ofInt p
      (readPosition ofInt p L)))))

/-- joint_limits_rosparam.h 194-230: `getSoftJointLimits`. The results of `getParam` in 221-224 are not
looked at; a value that is refused stays. -/
def paramSoftLimits (p : Option (Params F)) (S : SoftLimits F) : Bool × SoftLimits F :=
  match p with
  | none => (false, S)
  | some p =>
    match getBool p "has_soft_limits" with
    | none => (false, S)
    | some has =>
      -- 219
      if has && (p "k_position").isSome && (p "k_velocity").isSome && (p "soft_lower_limit").isSome &&
          (p "soft_upper_limit").isSome then
        (true, {
          kPosition := (getDouble ofInt p "k_position").getD S.kPosition
          kVelocity := (getDouble ofInt p "k_velocity").getD S.kVelocity
          minPosition := (getDouble ofInt p "soft_lower_limit").getD S.minPosition
          maxPosition := (getDouble ofInt p "soft_upper_limit").getD S.maxPosition })
      else (false, S)

/-- `urdf::Joint::type` (urdfdom, not in the repository). -/
inductive JointType
  | unknown | revolute | continuous | prismatic | floating | planar | fixed
  deriving DecidableEq, Repr

/-- `urdf::JointLimits` (urdfdom). -/
structure UrdfLimits (F : Type) where
  lower : F
  upper : F
  effort : F
  velocity : F

/-- `urdf::JointSafety` (urdfdom). -/
structure UrdfSafety (F : Type) where
  softLower : F
  softUpper : F
  kPosition : F
  kVelocity : F

/-- The parts of `urdf::Joint` (urdfdom) that matter here. -/
structure UrdfJoint (F : Type) where
  type : JointType
  limits : Option (UrdfLimits F)
  safety : Option (UrdfSafety F)

/-- joint_limits_urdf.h 48-76: `getJointLimits`. `none`: a null pointer. -/
def urdfLimits (j : Option (UrdfJoint F)) (L : FullLimits F) : Bool × FullLimits F :=
  match j with
  | none => (false, L)
  | some j =>
    match j.limits with
    | none => (false, L)
    | some u =>
      -- 55-60
      let L : FullLimits F := { L with hasPosition := j.type == JointType.revolute || j.type == JointType.prismatic }
      let L := if L.hasPosition then { L with minPosition := u.lower, maxPosition := u.upper } else L
      -- 62-65
      let L := if !L.hasPosition && j.type == JointType.continuous then { L with angleWraparound := true } else L
      -- 67-73
      (true, { L with
        hasVelocity := true, maxVelocity := u.velocity
        hasAcceleration := false
        hasEffort := true, maxEffort := u.effort })

/-- joint_limits_urdf.h 84-97: `getSoftJointLimits`. -/
def urdfSoftLimits (j : Option (UrdfJoint F)) (S : SoftLimits F) : Bool × SoftLimits F :=
  match j with
  | none => (false, S)
  | some j =>
    match j.safety with
    | none => (false, S)
    | some s => (true, ⟨s.softLower, s.softUpper, s.kPosition, s.kVelocity⟩)

end

end Verif.Limits
