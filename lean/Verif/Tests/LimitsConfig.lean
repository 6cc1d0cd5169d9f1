import Verif.Model.LimitsConfig
import Mathlib.Algebra.Field.Rat

/-!
joint_limits_interface/test/joint_limits_rosparam_test.cpp (with joint_limits_rosparam.yaml) and joint_limits_urdf_test.cpp
against the model, with exact rationals for doubles.
-/

namespace Verif.Tests.LimitsConfig

open Limits

/-- joint_limits.h 37-51: the limits a default constructor makes. -/
def fresh : FullLimits ℚ where
  minPosition := 0
  maxPosition := 0
  maxVelocity := 0
  maxAcceleration := 0
  maxEffort := 0
  hasPosition := false
  hasVelocity := false
  hasAcceleration := false
  hasEffort := false
  maxJerk := 0
  hasJerk := false
  angleWraparound := false

/-- joint_limits.h 53-59: the soft limits a default constructor makes. -/
def freshSoft : SoftLimits ℚ := ⟨0, 0, 0, 0⟩

/-- joint_limits_rosparam.yaml 2-19. -/
def foo : List (String × Value ℚ) :=
  [("has_position_limits", .bool true), ("min_position", .double 0), ("max_position", .double 1),
    ("has_velocity_limits", .bool true), ("max_velocity", .double 2), ("has_acceleration_limits", .bool true),
    ("max_acceleration", .double 5), ("has_jerk_limits", .bool true), ("max_jerk", .double 100),
    ("has_effort_limits", .bool true), ("max_effort", .double 20), ("angle_wraparound", .bool true),
    ("has_soft_limits", .bool true), ("k_position", .double 10), ("k_velocity", .double 20),
    ("soft_lower_limit", .double (1/10)), ("soft_upper_limit", .double (9/10))]

/-- joint_limits_rosparam.yaml 21-26. -/
def yinfoo : List (String × Value ℚ) :=
  ["has_position_limits", "has_velocity_limits", "has_acceleration_limits", "has_jerk_limits",
    "has_effort_limits"].map fun k => (k, .bool true)

/-- joint_limits_rosparam.yaml 28-34. -/
def yangfoo : List (String × Value ℚ) :=
  [("min_position", .double 0), ("max_position", .double 1), ("max_velocity", .double 2),
    ("max_acceleration", .double 5), ("max_jerk", .double 100), ("max_effort", .double 20)]

/-- joint_limits_rosparam.yaml 36-42. -/
def antifoo : List (String × Value ℚ) :=
  ["has_position_limits", "has_velocity_limits", "has_acceleration_limits", "has_jerk_limits",
    "has_effort_limits"].map (fun k => (k, Value.bool false)) ++ [("angle_wraparound", .bool true)]

/-- joint_limits_rosparam.yaml 44-46. -/
def bar : List (String × Value ℚ) := [("has_velocity_limits", .bool true), ("max_velocity", .double 2)]

/-- joint_limits_rosparam.yaml 48-51. -/
def baz : List (String × Value ℚ) := [("has_position_limits", .bool true), ("max_position", .double 1)]

/-- joint_limits_rosparam.yaml 53-58. -/
def foobar : List (String × Value ℚ) :=
  [("has_soft_limits", .bool false), ("k_velocity", .double 20), ("k_position", .double 10),
    ("soft_lower_limit", .double (1/10)), ("soft_upper_limit", .double (9/10))]

/-- joint_limits_rosparam.yaml 60-64. -/
def barbaz : List (String × Value ℚ) :=
  [("has_soft_limits", .bool false), ("k_position", .double 10), ("soft_lower_limit", .double (1/10)),
    ("soft_upper_limit", .double (9/10))]

/-- A call of `getJointLimits` for a joint with these parameters. -/
def get (ps : List (String × Value ℚ)) (L : FullLimits ℚ := fresh) : Bool × FullLimits ℚ :=
  paramLimits (fun n => (n : ℚ)) (some fun k => ps.lookup k) L

/-- A call of `getSoftJointLimits` for a joint with these parameters. -/
def getSoft (ps : List (String × Value ℚ)) : Bool × SoftLimits ℚ :=
  paramSoftLimits (fun n => (n : ℚ)) (some fun k => ps.lookup k) freshSoft

/-- The five flags. -/
def flags (L : FullLimits ℚ) : List Bool :=
  [L.hasPosition, L.hasVelocity, L.hasAcceleration, L.hasJerk, L.hasEffort]

/-- joint_limits_rosparam_test.cpp 43-54: no such joint, or an invalid name. -/
example : paramLimits (fun n => (n : ℚ)) none fresh = (false, fresh) := by decide +kernel

/-- joint_limits_rosparam_test.cpp 56-78: everything; the wraparound flag is not looked at. -/
example : get foo = (true, {
    minPosition := 0, maxPosition := 1, maxVelocity := 2, maxAcceleration := 5, maxEffort := 20, hasPosition := true,
    hasVelocity := true, hasAcceleration := true, hasEffort := true, maxJerk := 100, hasJerk := true,
    angleWraparound := false }) := by decide +kernel

/-- joint_limits_rosparam_test.cpp 80-102: flags without values, values without flags. -/
example : (get yinfoo).1 = true ∧ flags (get yinfoo).2 = List.replicate 5 false ∧
    (get yangfoo).1 = true ∧ flags (get yangfoo).2 = List.replicate 5 false := by decide +kernel

/-- joint_limits_rosparam_test.cpp 104-121: limits that were set are taken back. -/
example : let r := get antifoo (get foo).2
    r.1 = true ∧ flags r.2 = List.replicate 5 false ∧ r.2.angleWraparound = true := by decide +kernel

/-- joint_limits_rosparam_test.cpp 123-129: a position limit is missing. -/
example : (get baz).1 = true ∧ (get baz).2.hasPosition = false := by decide +kernel

/-- joint_limits_rosparam_test.cpp 131-154: one limit, the others stay. -/
example : get bar = (true, { fresh with hasVelocity := true, maxVelocity := 2 }) := by decide +kernel

/-- joint_limits_rosparam_test.cpp 157-200 `GetSoftJointLimits`. -/
example : paramSoftLimits (fun n => (n : ℚ)) none freshSoft = (false, freshSoft) ∧
    getSoft foo = (true, ⟨1/10, 9/10, 10, 20⟩) ∧ getSoft foobar = (false, freshSoft) ∧
    getSoft barbaz = (false, freshSoft) := by decide +kernel

/-- joint_limits_urdf_test.cpp 39-58: the joint of the fixture. -/
def joint (t : JointType) : UrdfJoint ℚ := ⟨t, some ⟨-1, 1, 8, 2⟩, some ⟨-4/5, 4/5, 20, 40⟩⟩

/-- joint_limits_urdf_test.cpp 66-154 `GetJointLimits`. -/
example : (urdfLimits none fresh).1 = false ∧ (urdfLimits (some ⟨.unknown, none, none⟩) fresh).1 = false ∧
    urdfLimits (some (joint .continuous)) fresh =
      (true, { fresh with angleWraparound := true, hasVelocity := true, maxVelocity := 2, hasEffort := true, maxEffort := 8 }) ∧
    ∀ t ∈ [JointType.revolute, .prismatic], urdfLimits (some (joint t)) fresh =
      (true, { fresh with
        hasPosition := true, minPosition := -1, maxPosition := 1, hasVelocity := true, maxVelocity := 2
        hasEffort := true, maxEffort := 8 }) := by decide +kernel

/-- joint_limits_urdf_test.cpp 156-185 `GetSoftJointLimits`. -/
example : (urdfSoftLimits none freshSoft).1 = false ∧ (urdfSoftLimits (some ⟨.unknown, none, none⟩) freshSoft).1 = false ∧
    urdfSoftLimits (some (joint .unknown)) freshSoft = (true, ⟨-4/5, 4/5, 20, 40⟩) := by decide +kernel

end Verif.Tests.LimitsConfig
