import Verif.Model.JointLimits
import Mathlib.Algebra.Field.Rat
import Mathlib.Algebra.Order.Ring.Unbundled.Rat

/-!
joint_limits_interface/test/joint_limits_interface_test.cpp against the model, with exact arithmetic on rationals (the test
compares with a tolerance).
-/

namespace Verif.Tests.JointLimits

open Limits

/-- Exact arithmetic. -/
def A : Arith ℚ := Arith.exact (10 ^ 300)

/-- joint_limits_interface_test.cpp 42-66 `Saturate`. -/
example : let sat := fun v : ℚ => saturate (some v) (some (-1)) (some 2)
    [-1/2, 1/2, -1, -2, 2, 3].map sat = [some (-1/2), some (1/2), some (-1), some (-1), some 2, some 2] := by
  decide +kernel

/-- joint_limits_interface_test.cpp 73-82: `limits`. -/
def L : Limits.JointLimits (Dbl ℚ) :=
  ⟨some (-1), some 1, some 2, none, some 8, true, true, false, true⟩

/-- joint_limits_interface_test.cpp 84-87: `soft_limits`. -/
def S : SoftLimits (Dbl ℚ) := ⟨some (-4/5), some (4/5), some 20, some 40⟩

/-- joint_limits_interface_test.cpp 93: `period`. -/
def period : ℚ := 1/10

/-- A call of `enforceLimits` with a command and a position; the velocity is zero. -/
def call (cmd pos : ℚ) (dt : ℚ := period) : Input (Dbl ℚ) := ⟨some cmd, some pos, some 0, some dt⟩

/-- No limits at all (the default constructor, joint_limits.h 37-51). -/
def none' : Limits.JointLimits (Dbl ℚ) := ⟨some 0, some 0, some 0, some 0, some 0, false, false, false, false⟩

/-- 102-114 `AssertionTriggering`: a negative period (handles without data, built by the default constructors, are not modelled). -/
example : posSoft A L S none (call 0 0 (-1/10)) = none ∧
    velSat A { L with hasAcceleration := true } (some 0) (call 0 0 (-1/10)) = none := by decide +kernel

/-- 117-160 `HandleConstruction`. -/
example : posSoftOk none' = false ∧ effortOk { none' with hasEffort := true } = false ∧
    effortOk { none' with hasVelocity := true } = false ∧ velSatOk none' = false ∧
    posSoftOk L = true ∧ effortOk L = true ∧ velSatOk L = true := by decide +kernel

/-- The commands a new soft limits handle for positions gives. -/
def soft (S : SoftLimits (Dbl ℚ)) (cs : List (Call (Dbl ℚ))) : List (Dbl ℚ) := (posSoftRun A L S none cs).map (·.out)

/-- 164-219 `EnforceVelocityBounds`: `max_increment` is 0.2. -/
example : [1/10, -1/10, 1/5, -1/5, 2/5, -2/5].map (fun c => soft S [.enforce (call c 0)]) =
    [[some (1/10)], [some (-1/10)], [some (1/5)], [some (-1/5)], [some (1/5)], [some (-1/5)]] := by decide +kernel

/-- 223-257 `EnforcePositionBounds`: at the soft limits. -/
example : (∃ x : ℚ, soft S [.enforce (call 1 (4/5)), .enforce (call 0 (4/5))] = [some (4/5), some x] ∧ x < 4/5) ∧
    (∃ x : ℚ, soft S [.enforce (call (-1) (-4/5)), .enforce (call 0 (-4/5))] = [some (-4/5), some x] ∧ -4/5 < x) :=
  ⟨⟨3/5, by decide +kernel⟩, ⟨-3/5, by decide +kernel⟩⟩

/-- 259-290 (`EnforcePositionBounds`): between the soft and the hard limits. -/
example : (∃ x y : ℚ, soft S [.enforce (call 1 (9/10)), .enforce (call 0 (9/10))] = [some x, some y] ∧ x < 9/10 ∧
      y < 9/10) ∧
    (∃ x y : ℚ, soft S [.enforce (call (-1) (-9/10)), .enforce (call 0 (-9/10))] = [some x, some y] ∧ -9/10 < x ∧
      -9/10 < y) :=
  ⟨⟨7/10, 1/2, by decide +kernel⟩, ⟨-7/10, -1/2, by decide +kernel⟩⟩

/-- 293-320 `PathologicalSoftBounds`: soft limits outside the hard ones. -/
example : let S' : SoftLimits (Dbl ℚ) := ⟨some (-3/2), some (3/2), some 20, some 40⟩
    soft S' [.enforce (call 2 1)] = [some 1] ∧ soft S' [.enforce (call (-2) (-1))] = [some (-1)] := by decide +kernel

/-- The commands a new saturation handle for velocities gives. -/
def vel (L : Limits.JointLimits (Dbl ℚ)) (is : List (Input (Dbl ℚ))) : List (Dbl ℚ) :=
  (velSatRun A L (some 0) is).map (·.out)

/-- 324-364 `EnforceVelocityBounds`. -/
example : vel L ([1, -1, 2, -2, 4, -4].map fun c => call c 0) =
    [some 1, some (-1), some 2, some (-2), some 2, some (-2)] := by decide +kernel

/-- 366-414 `EnforceAccelerationBounds`. -/
example : vel { L with hasAcceleration := true, maxAcceleration := some 20 }
      [call 1 0 1000, call 4 0, call 1 0 1000, call (-4) 0, call (-1) 0 1000, call 4 0, call (-1) 0 1000, call (-4) 0] =
    [some 1, some 2, some 1, some (-1), some (-1), some 1, some (-1), some (-2)] := by decide +kernel

/-- 424-456 `InterfaceRegistration`: the command for a joint between the limits. -/
example : ∃ x : ℚ, soft S [.enforce (call 1 (9/10))] = [some x] ∧ x < 9/10 := ⟨7/10, by decide +kernel⟩

/-- 458-482 `ResetSaturationInterface`. -/
example : (posSatRun A L none [.enforce (call 0 0), .enforce (call 1 0), .reset, .enforce (call 1 1)]).map (·.out) =
    [some 0, some (1/5), some 1] := by decide +kernel

/-- 485-509 `ResetSoftLimitsInterface`. -/
example : soft S [.enforce (call 0 0), .enforce (call 1 0), .reset, .enforce (call (4/5) 1)] =
    [some 0, some (1/5), some (4/5)] := by decide +kernel

end Verif.Tests.JointLimits
