/-!
Plain data passed between controllers, controller manager and hardware.
-/

namespace Verif

/-- hardware_interface/include/hardware_interface/interface_resources.h 42-57:
`InterfaceResources`. `resources` is a `std::set<std::string>`, given by its iteration
order. -/
structure InterfaceResources where
  hardwareInterface : String
  resources : List String
deriving DecidableEq, Repr

/-- hardware_interface/include/hardware_interface/controller_info.h 44-54: `ControllerInfo`. -/
structure ControllerInfo where
  name : String
  type : String
  claimed : List InterfaceResources
deriving DecidableEq, Repr

/-- hardware_interface/include/hardware_interface/robot_hw.h 167-172: `SwitchState`. -/
inductive SwitchState
  | done
  | ongoing
  | error
deriving DecidableEq, Repr

end Verif
