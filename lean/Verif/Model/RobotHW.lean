import Verif.Model.Basic
import Verif.Model.Containers
import Mathlib.Data.String.Basic

/-!
`RobotHW::checkForConflict`, hardware_interface/include/hardware_interface/robot_hw.h 113-146.
-/

namespace Verif

/-- `resource_map[iface_resource].push_back(controller_info)`, robot_hw.h 126. -/
def pushClaim (m : List (String × List ControllerInfo)) (r : String) (ci : ControllerInfo) :
    List (String × List ControllerInfo) :=
  smapInsert r (((smapFind r m).getD []) ++ [ci]) m

/-- The triple loop that fills `resource_map`, robot_hw.h 120-129. -/
def conflictMap (info : List ControllerInfo) : List (String × List ControllerInfo) :=
  info.foldl (fun m ci =>
    ci.claimed.foldl (fun m cr =>
      cr.resources.foldl (fun m r => pushClaim m r ci) m) m) []

/-- robot_hw.h 113-146: the default `checkForConflict` (warnings dropped). -/
def checkForConflict (info : List ControllerInfo) : Bool :=
  (conflictMap info).foldl (fun acc e => if e.2.length > 1 then true else acc) false

end Verif
