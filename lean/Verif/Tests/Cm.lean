import Verif.Model.System
import Verif.Model.CombinedHW
import Verif.Model.RobotHW

/-!
controller_manager_tests/test/cm_test.cpp and combined_robot_hw_tests/test/cm_test.cpp against the model: the
manager, the interfaces of the robot, and the controllers of controller_manager_tests.
-/

namespace Verif.Tests.Cm

open Mgr

/-- The names of the interfaces. -/
def js : String := "hardware_interface::JointStateInterface"
/-- The names of the interfaces. -/
def ej : String := "hardware_interface::EffortJointInterface"
/-- The names of the interfaces. -/
def vj : String := "hardware_interface::VelocityJointInterface"
/-- The names of the interfaces. -/
def pj : String := "hardware_interface::PositionJointInterface"

/-- The interfaces of the tests: those of hardware_interface; `MyDummyInterface` (my_dummy_controller.h 40) and the
plain `HardwareInterface` of my_robot_hw_4.h are no resource managers. -/
abbrev tyenv : TypeEnv := stdEnv

/-- An interface with a handle for each joint; data 0, 1, ... are the joints' variables. -/
def withJoints (claiming : Bool) (names : List String) : Iface :=
  names.zipIdx.foldl (fun o n => o.registerHandle ⟨n.1, n.2⟩) { claiming }

/-- my_robot_hw.cpp 50-64: the joints of `MyRobotHW`. -/
def joints : List String := ["hiDOF_joint1", "hiDOF_joint2", "hiDOF_joint3"]

/-- my_robot_hw.cpp 72-82: objects 0, 1, 2 are `js_interface_`, `ej_interface_`, `vj_interface_`. -/
def myHeap : Heap :=
  { objs := fun o => withJoints (decide (o ≠ 0)) joints
    next := 3 }

/-- my_robot_hw.cpp 84-86. -/
def myRobot : IMan :=
  ((IMan.empty.registerInterface tyenv js 0 myHeap).registerInterface tyenv ej 1 myHeap).registerInterface
    tyenv vj 2 myHeap

/-- User code that gets a handle for each of the names and lets exceptions through. -/
def getAll (o : ObjId) : List String → InitProg → InitProg
  | [], k => k
  | n :: ns, k => .getHandle o n fun r => if r.isSome then getAll o ns k else .throws

/-- The same for a pointer to an interface; a null pointer is not expected here. -/
def getAll? (o : Option ObjId) (ns : List String) (k : InitProg) : InitProg :=
  match o with
  | some o => getAll o ns k
  | none => .throws

/-- effort_test_controller.cpp 33-51 (there is no parameter "joints"). -/
def effortTest : CtrlClass :=
  .single ej (fun o => getAll o ["hiDOF_joint1", "hiDOF_joint2"] (.done true)) fun _ => .done true

/-- vel_eff_controller.cpp 32-59. -/
def velEff (vs es : List String) : CtrlClass :=
  .multi [vj, ej] false (fun get => getAll? (get vj) vs (getAll? (get ej) es (.done true))) fun _ => .done true

/-- pos_eff_controller.cpp 32-59. -/
def posEff (ps es : List String) : CtrlClass :=
  .multi [pj, ej] false (fun get => getAll? (get pj) ps (getAll? (get ej) es (.done true))) fun _ => .done true

/-- pos_eff_opt_controller.cpp 32-76. -/
def posEffOpt (ps es : List String) : CtrlClass :=
  .multi [pj, ej] true
    (fun get =>
      let eff := match get ej with
        | some o => getAll o es (.done true)
        | none => .done false
      match get pj with
      | some o => getAll o ps eff
      | none => eff) fun _ => .done true

/-- extensible_controllers.cpp 33-42. -/
def extensible (v : String) : CtrlClass :=
  .multi [vj] false (fun _ => .done true) fun get => getAll? (get vj) [v] (.done true)

/-- extensible_controllers.cpp 56-78. -/
def derived (v e : String) : CtrlClass :=
  .multi [vj, ej] false (fun _ => .done true) fun get => getAll? (get vj) [v] (getAll? (get ej) [e] (.done true))

/-- my_dummy_controller.h 42-46: a controller for `MyDummyInterface`. -/
def myDummy : CtrlClass :=
  .single "controller_manager_tests::MyDummyInterface" (fun _ => .done true) fun _ => .done true

/-- A controller in the parameters: its name, type and class. -/
abbrev Params := List (String × String × CtrlClass)

/-- cm_test.test 2-51 of controller_manager_tests. -/
def params : Params :=
  [("my_controller", "EffortTestController", effortTest),
   ("my_controller2", "EffortTestController", effortTest),
   ("non_existent_interface_controller", "MyDummyController", myDummy),
   ("vel_eff_controller", "VelEffController", velEff ["hiDOF_joint1", "hiDOF_joint2"] ["hiDOF_joint3"]),
   ("non_existent_resource_controller", "VelEffController",
     velEff ["hiDOF_joint1", "hiDOF_joint2"] ["nonexistent_resource"]),
   ("self_conflict_controller", "VelEffController", velEff ["hiDOF_joint1", "hiDOF_joint2"] ["hiDOF_joint1"]),
   ("optional_interfaces_controller", "PosEffOptController",
     posEffOpt ["hiDOF_joint1", "hiDOF_joint2"] ["hiDOF_joint1"]),
   ("non_existing_multi_interface_controller", "PosEffController",
     posEff ["hiDOF_joint1", "hiDOF_joint2"] ["hiDOF_joint1"]),
   ("extensible_controller", "ExtensibleController", extensible "hiDOF_joint1"),
   ("derived_controller", "DerivedController", derived "hiDOF_joint1" "hiDOF_joint2")]

/-- test_controllers_plugin.xml of controller_manager_tests: the declared classes. -/
def loader : Loader :=
  ⟨["EffortTestController", "MyDummyController", "VelEffController", "PosEffController", "PosEffOptController",
    "ExtensibleController", "DerivedController"].map ("controller_manager_tests/" ++ ·), fun _ => .object⟩

/-- What `loadController` finds for a name. -/
def req (ps : Params) (name : String) : LoadReq :=
  match ps.lookup name with
  | some (t, c) => ⟨true, some ("controller_manager_tests/" ++ t), [loader], c⟩
  | none => ⟨true, none, [loader], myDummy⟩

/-- The calls of the test. -/
inductive Call
  | load (name : String)
  | unload (name : String)
  | switch (start stop : List String) (strictness : Int)

/-- The default answer of the hardware (robot_hw.h 175-184). -/
def done : HwReply := ⟨.done, .done, fun _ _ => (.done, .done)⟩

/-- The answer among some events. -/
def answer (es : List Event) : Bool :=
  es.any fun e => match e with
    | .loadRet _ true => true
    | .unloadRet _ true => true
    | .switchRet true => true
    | _ => false

/-- One call; while it waits there is an update. `prep` is `prepareSwitch` of the robot. -/
def call (ps : Params) (prep : List ControllerInfo → List ControllerInfo → Bool) (s : Sys) (c : Call) : Sys × Bool :=
  let op : SysOp := match c with
    | .load n => .load n (req ps n)
    | .unload n => .unload n
    | .switch start stop k =>
      let r : SwitchReq := ⟨start, stop, k, false, 0⟩
      let m := s.mgr.switch checkForConflict r 0 true
      .switch r 0 (prep m.swStart m.swStop)
  let s' := s.run tyenv checkForConflict [op, .update 0 false done, .poll {} 0]
  (s', answer (s'.mgr.trace.drop s.mgr.trace.length))

/-- A sequence of calls with the answers. -/
def calls (ps : Params) (prep : List ControllerInfo → List ControllerInfo → Bool) : Sys → List Call → Sys × List Bool
  | s, [] => (s, [])
  | s, c :: cs =>
    let (s, a) := call ps prep s c
    let (s, as) := calls ps prep s cs
    (s, a :: as)

/-- A strict switch. -/
def strict (start stop : List String) : Call := .switch start stop 2
/-- A switch by best effort. -/
def best (start stop : List String) : Call := .switch start stop 1

/-- cm_test.cpp 43-102 `loadUnloadOk`, 104-155 `loadUnloadKo`. -/
def loadUnload : List Call :=
  [.load "my_controller", .load "vel_eff_controller", .load "optional_interfaces_controller",
   .unload "my_controller", .unload "vel_eff_controller", .unload "optional_interfaces_controller",
   .load "nonexistent_controller", .load "non_existent_interface_controller",
   .load "non_existent_resource_controller", .load "non_existing_multi_interface_controller",
   .unload "my_controller"]

/-- Their answers. -/
def loadUnloadAnswers : List Bool :=
  [true, true, true, true, true, true, false, false, false, false, false]

/-- cm_test.cpp 157-345 `switchController` (combined_robot_hw_tests also loads and unloads "self_conflict_controller",
174-175 and 348-349). -/
def switches (self : List String) : List Call :=
  self.map .load ++
  [.load "my_controller", .load "my_controller2", .load "vel_eff_controller",
   strict ["my_controller"] [], strict [] ["my_controller"], strict ["vel_eff_controller"] [],
   strict ["my_controller"] ["vel_eff_controller"], strict [] ["my_controller"],
   strict ["non_existent_controller"] [], strict [] ["non_existent_controller"],
   strict ["my_controller"] ["non_existent_controller"], strict ["non_existent_controller"] ["my_controller"],
   strict ["self_conflict_controller"] [], strict ["my_controller", "my_controller2"] [],
   best ["non_existent_controller"] ["non_existent_controller"],
   best ["my_controller2", "non_existent_controller"] ["non_existent_controller", "my_controller"],
   best ["my_controller", "non_existent_controller"] ["non_existent_controller", "my_controller2"],
   strict [] ["my_controller"],
   .unload "my_controller", .unload "my_controller2", .unload "vel_eff_controller"] ++ self.map .unload

/-- Their answers. -/
def switchesAnswers (self : List String) : List Bool :=
  self.map (fun _ => true) ++
  [true, true, true, true, true, true, true, true, false, false, false, false, false, false, true, true, true, true,
   true, true, true] ++ self.map fun _ => true

/-- cm_test.cpp 347-400 `stopBeforeUnload`. -/
def stopBeforeUnload : List Call :=
  [.load "my_controller", strict ["my_controller"] [], .unload "my_controller", strict [] ["my_controller"],
   .unload "my_controller"]

/-- Their answers. -/
def stopBeforeUnloadAnswers : List Bool := [true, true, false, true, true]

/-- cm_test.cpp 415-438 `listControllers`: the calls before the listing. -/
def listed : List Call := [.load "my_controller", .load "vel_eff_controller", strict ["my_controller"] []]

/-- cm_test.cpp 499-523 `extensibleControllers`: the calls before each listing. -/
def extensible1 : List Call :=
  [.load "extensible_controller", .load "derived_controller", strict ["extensible_controller"] []]
/-- cm_test.cpp 537-545: the calls between the two listings. -/
def extensible2 : List Call := [strict ["derived_controller"] ["extensible_controller"]]

/-- The system of controller_manager_tests; `MyRobotHW` does not override `prepareSwitch` (robot_hw.h 157-158). -/
def mine (cs : List Call) : Sys × List Bool :=
  calls params (fun _ _ => true) { robot := myRobot, heap := myHeap } cs

example : (mine loadUnload).2 = loadUnloadAnswers := by decide +kernel

example : (mine (switches [])).2 = switchesAnswers [] := by decide +kernel

example : (mine stopBeforeUnload).2 = stopBeforeUnloadAnswers := by decide +kernel

/-- All in a row, as the test program does. -/
example : (mine (loadUnload ++ switches [] ++ stopBeforeUnload)).2 =
    loadUnloadAnswers ++ switchesAnswers [] ++ stopBeforeUnloadAnswers := by decide +kernel

/-- cm_test.cpp 440-479: the listing. -/
example : (mine listed).1.mgr.listControllers.map (fun e => (e.name, e.state, e.type, e.claimed)) =
    [("my_controller", "running", "controller_manager_tests/EffortTestController",
        [⟨ej, ["hiDOF_joint1", "hiDOF_joint2"]⟩]),
     ("vel_eff_controller", "initialized", "controller_manager_tests/VelEffController",
        [⟨vj, ["hiDOF_joint1", "hiDOF_joint2"]⟩, ⟨ej, ["hiDOF_joint3"]⟩])] := by decide +kernel

/-- cm_test.cpp 525-535: the base controller is running with one resource. -/
example : (mine extensible1).2 = [true, true, true] ∧
    (mine extensible1).1.mgr.listControllers.map (fun e => (e.name, e.state, e.claimed.length)) =
      [("extensible_controller", "running", 1), ("derived_controller", "initialized", 2)] := by decide +kernel

/-- cm_test.cpp 537-557: the derived one takes over. -/
example : (mine (extensible1 ++ extensible2)).2 = [true, true, true, true] ∧
    (mine (extensible1 ++ extensible2)).1.mgr.listControllers.map (fun e => (e.name, e.state, e.claimed.length)) =
      [("extensible_controller", "stopped", 1), ("derived_controller", "running", 2)] := by decide +kernel

/-! ### The combined robot -/

/-- my_robot_hw_1.cpp 47-61, cm_test.test 12-16 of combined_robot_hw_tests, my_robot_hw_3.cpp 45: the joints of the
first three robots. -/
def subJoints (i : Nat) : List String :=
  [["test_joint1", "test_joint2", "test_joint3"], ["test_joint4", "test_joint5", "hiDOF_joint1", "hiDOF_joint2"],
   ["right_arm_joint_1"]].getD i []

/-- Robot i has objects 3 i, 3 i + 1 and 3 i + 2 for `js_interface_`, `ej_interface_` and `vj_interface_`; objects
9 and 10 are `ft_sensor_interface_` and `a_plain_hw_interface_` of the fourth robot (my_robot_hw_4.cpp 47-50). -/
def comboHeap : Heap :=
  { objs := fun o =>
      if o < 9 then withJoints (decide (o % 3 ≠ 0)) (subJoints (o / 3))
      else if o = 9 then withJoints false ["ft_sensor_1"]
      else {}
    next := 11 }

/-- my_robot_hw_1.cpp 81-83 and the same for the second and third robot. -/
def sub (i : Nat) : IMan :=
  ((IMan.empty.registerInterface tyenv js (3 * i) comboHeap).registerInterface tyenv ej (3 * i + 1) comboHeap
    ).registerInterface tyenv vj (3 * i + 2) comboHeap

/-- my_robot_hw_4.cpp 49-50. -/
def sub4 : IMan :=
  (IMan.empty.registerInterface tyenv "hardware_interface::ForceTorqueSensorInterface" 9 comboHeap
    ).registerInterface tyenv "hardware_interface::HardwareInterface" 10 comboHeap

/-- What `loadRobotHW` finds, cm_test.test 3-22. -/
def subEnv (name : String) : Combined.SubEnv :=
  let tys := ["MyRobotHW1", "MyRobotHW2", "MyRobotHW3", "MyRobotHW4"].map ("combined_robot_hw_tests/" ++ ·)
  match [("my_robot_hw_1", tys[0]?, sub 0), ("my_robot_hw_2", tys[1]?, sub 1), ("my_robot_hw_3", tys[2]?, sub 2),
    ("my_robot_hw_4", tys[3]?, sub4)].lookup name with
  | some (t, m) => ⟨true, t, tys, fun _ => true, .ok m⟩
  | none => ⟨true, none, tys, fun _ => true, .failed⟩

/-- `init` of the combined robot. -/
def comboInit : Bool × Combined.St :=
  Combined.init {} (some ["my_robot_hw_1", "my_robot_hw_2", "my_robot_hw_3", "my_robot_hw_4"]) subEnv

/-- my_robot_hw_1.cpp 100-135 (and 102-128 of my_robot_hw_2.cpp): every claim is for something registered. -/
def registered (m : IMan) (start : List ControllerInfo) : Bool :=
  start.all fun (i : ControllerInfo) => i.claimed.all fun r => m.getNames.contains r.hardwareInterface &&
    r.resources.all fun x => (m.getInterfaceResources r.hardwareInterface).contains x

/-- my_robot_hw_2.cpp 82-130: two controllers of the test must have been filtered. -/
def filtered (start : List ControllerInfo) : Bool :=
  start.all fun (i : ControllerInfo) => decide (i.name ≠ "ctrl_without_my_robot_hw_2_resources") &&
    (decide (i.name ≠ "ctrl_without_my_robot_hw_2_resources_in_one_of_two_ifaces") || decide (i.claimed.length ≤ 1))

/-- The answers of the four robots; MyRobotHW3 does not override `prepareSwitch`; my_robot_hw_4.cpp 65-84 refuses
every controller with a claim. The conditions are those under which `doSwitch` throws, too
(my_robot_hw_1.cpp 137-167, my_robot_hw_2.cpp 132-175, my_robot_hw_4.cpp 86-104). -/
def reply (i : Nat) (start _stop : List ControllerInfo) : Bool :=
  match i with
  | 0 => registered (sub 0) start
  | 1 => filtered start && registered (sub 1) start
  | 3 => start.all fun (c : ControllerInfo) => c.claimed.isEmpty
  | _ => true

/-- `prepareSwitch` of the combined robot. -/
def comboPrep (start stop : List ControllerInfo) : Bool :=
  (Combined.prepareSwitch comboInit.2.hws reply start stop).1

/-- cm_test.test 23-63 of combined_robot_hw_tests. -/
def comboParams : Params :=
  [("my_controller", "EffortTestController", effortTest),
   ("my_controller2", "EffortTestController", effortTest),
   ("non_existent_interface_controller", "MyDummyController", myDummy),
   ("vel_eff_controller", "VelEffController", velEff ["test_joint1", "test_joint2"] ["test_joint4"]),
   ("non_existent_resource_controller", "VelEffController",
     velEff ["test_joint1", "test_joint2"] ["nonexistent_resource"]),
   ("self_conflict_controller", "VelEffController", velEff ["test_joint1", "test_joint2"] ["test_joint1"]),
   ("optional_interfaces_controller", "PosEffOptController",
     posEffOpt ["test_joint1", "test_joint2"] ["test_joint1"]),
   ("non_existing_multi_interface_controller", "PosEffController",
     posEff ["test_joint1", "test_joint2"] ["test_joint1"])]

/-- The system of combined_robot_hw_tests. -/
def combo (cs : List Call) : Sys × List Bool :=
  calls comboParams comboPrep { robot := comboInit.2.man, heap := comboHeap } cs

example : comboInit.1 = true := by decide +kernel

example : (combo loadUnload).2 = loadUnloadAnswers := by decide +kernel

example : (combo (switches ["self_conflict_controller"])).2 = switchesAnswers ["self_conflict_controller"] := by
  decide +kernel

example : (combo stopBeforeUnload).2 = stopBeforeUnloadAnswers := by decide +kernel

/-- combined_robot_hw_tests/test/cm_test.cpp 446-485: the listing. -/
example : (combo listed).1.mgr.listControllers.map (fun e => (e.name, e.state, e.type, e.claimed)) =
    [("my_controller", "running", "controller_manager_tests/EffortTestController",
        [⟨ej, ["hiDOF_joint1", "hiDOF_joint2"]⟩]),
     ("vel_eff_controller", "initialized", "controller_manager_tests/VelEffController",
        [⟨vj, ["test_joint1", "test_joint2"]⟩, ⟨ej, ["test_joint4"]⟩])] := by decide +kernel

/-- combined_robot_hw_test.cpp 38-97 `combinationOk`: the interfaces that are found, and some handles. -/
def found (T : String) : Option ObjId := (comboInit.2.man.get tyenv T comboHeap).1

example : [js, ej, vj, "hardware_interface::ForceTorqueSensorInterface", "hardware_interface::HardwareInterface",
    pj].map (fun T => (found T).isSome) = [true, true, true, true, true, false] := by decide +kernel

/-- The handle `getHandle` of an interface of the combined robot gives. -/
def handle (T n : String) : Option Handle :=
  let r := comboInit.2.man.get tyenv T comboHeap
  r.1.bind fun o => ((r.2.2.objs o).getHandle n).1

/-- combined_robot_hw_test.cpp 62-83: handles of the first, the third and the fourth robot are found, another is not. -/
example : [js, ej, vj].map (fun T => (handle T "test_joint1").isSome && (handle T "right_arm_joint_1").isSome) =
    [true, true, true] ∧ (handle "hardware_interface::ForceTorqueSensorInterface" "ft_sensor_1").isSome ∧
    handle ej "non_existent_joint" = none := by decide +kernel

/-- `switchOk` of combined_robot_hw_test.cpp 99-232: `prepareSwitch` is true; the conditions of `doSwitch` are the same, but
every robot is called. -/
def switchOk (start : List ControllerInfo) : Bool × Bool :=
  (comboPrep start [],
   (Combined.doSwitch comboInit.2.hws start []).all fun e => match e with
    | .doSwitch i a b => reply i a b
    | _ => true)

/-- combined_robot_hw_test.cpp 107-129: an empty list, and a claim of the fourth robot. -/
example : switchOk [] = (true, true) ∧
    switchOk [⟨"ctrl_1", "some_type", [⟨"hardware_interface::ForceTorqueSensorInterface", ["ft_sensor_1"]⟩]⟩] =
      (false, false) := by decide +kernel

/-- combined_robot_hw_test.cpp 131-161: existing interfaces and resources (the test pushes the first claim twice). -/
example : switchOk
    [⟨"ctrl_1", "some_type", [⟨ej, ["test_joint1", "test_joint2", "test_joint3", "test_joint4"]⟩,
        ⟨ej, ["test_joint1", "test_joint2", "test_joint3", "test_joint4"]⟩]⟩,
     ⟨"", "", [⟨vj, ["test_joint3", "test_joint5"]⟩]⟩] = (true, true) := by decide +kernel

/-- combined_robot_hw_test.cpp 163-194: interfaces and resources nobody has registered. -/
example : switchOk
    [⟨"ctrl_1", "some_type", [⟨"hardware_interface::NonRegisteredInterface", ["test_joint1"]⟩,
        ⟨vj, ["non_registered_joint1", "test_joint1"]⟩]⟩,
     ⟨"", "", [⟨vj, ["non_registered_joint2", "test_joint3"]⟩]⟩] = (true, true) := by decide +kernel

/-- combined_robot_hw_test.cpp 196-231: controllers and claims that are filtered. -/
example : switchOk
    [⟨"ctrl_without_my_robot_hw_2_resources_in_one_of_two_ifaces", "some_type",
        [⟨ej, ["test_joint1", "test_joint2", "test_joint3"]⟩, ⟨vj, ["test_joint1", "test_joint4"]⟩]⟩,
     ⟨"ctrl_without_my_robot_hw_2_resources", "some_type", [⟨vj, ["test_joint1", "test_joint2"]⟩]⟩] =
    (true, true) := by decide +kernel

end Verif.Tests.Cm
