import Verif.Model.DescribedRobot
import Verif.Model.RobotCycleDouble

/-!
The robot of DescribedRobot.lean on a machine that computes with doubles: the variables hold doubles, NaN and infinities
included, the numbers of the description are read as doubles (`stod`), the transmissions compute as in
TransmissionDouble.lean, and the joint limits as in Double.lean.
-/

namespace Verif.Described

open Verif.Limits (Machine Flt Fl binary64)

/-- Doubles: a limit handle sees in a variable what the variable holds, and a variable can hold everything the handle
stores, joint_limits_interface.h 80-90. -/
@[reducible] def Setting.double (A : Machine binary64) : Setting (Flt A) (Fl binary64) :=
  ⟨Cycle.limitsArith A, fun x => x, fun y => some y⟩

end Verif.Described
