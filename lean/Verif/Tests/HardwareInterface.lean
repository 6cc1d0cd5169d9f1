import Verif.Model.InterfaceManager
import Verif.Model.Handles
import Verif.Model.RobotHW
import Verif.Model.System

/-!
The tests of hardware_interface/test against the model: hardware_resource_manager_test.cpp, interface_manager_test.cpp,
robot_hw_test.cpp and those of the handles. The tests of the two sensors are left out: their handles are not modelled.
-/

namespace Verif.Tests.HardwareInterface

/-! ### hardware_resource_manager_test.cpp -/

/-- hardware_resource_manager_test.cpp 60-61. -/
def h1 : Handle := ⟨"resource1", 1⟩
/-- hardware_resource_manager_test.cpp 60-61. -/
def h2 : Handle := ⟨"resource2", 2⟩

/-- An interface with both handles. -/
def both (claiming : Bool) : Iface := (({ claiming } : Iface).registerHandle h1).registerHandle h2

/-- `ExcerciseApi`, 64-93. -/
example : ({ claiming := false } : Iface).getNames = [] ∧ (both false).getNames = ["resource1", "resource2"] ∧
    ((both false).getHandle "resource1").1 = some h1 ∧ ((both false).getHandle "resource2").1 = some h2 ∧
    ((both false).getHandle "no_resource").1 = none := by decide

/-- `HandleRewriting`, 95-124. -/
example : let m := ({ claiming := false } : Iface).registerHandle h1
    let m' := m.registerHandle ⟨"resource1", 2⟩
    (m.getHandle "resource1").1 = some h1 ∧ m'.getNames = ["resource1"] ∧
    (m'.getHandle "resource1").1 = some ⟨"resource1", 2⟩ := by decide

/-- `ResourceClaims`, 126-176: three handles are taken. -/
def taken (claiming : Bool) : Iface :=
  ((((both claiming).getHandle "resource1").2.getHandle "resource2").2.getHandle "resource2").2

example : (both false).getClaims = [] ∧ (taken false).getClaims = [] ∧ (both true).getClaims = [] ∧
    (taken true).getClaims = ["resource1", "resource2"] := by decide

/-! ### interface_manager_test.cpp -/

/-- interface_manager_test.cpp 35-65: `TestCombinationInterface` is a resource manager, the other types are not. -/
def testEnv : TypeEnv := ⟨fun T => T = "TestCombinationInterface", fun _ => false⟩

/-- The interfaces of the tests: objects 0-2 are plain, 3 and 4 have a handle each. -/
def testHeap : Heap where
  objs o :=
    if o = 3 then ({ claiming := false } : Iface).registerHandle ⟨"combi_root_handle", 0⟩
    else if o = 4 then ({ claiming := false } : Iface).registerHandle ⟨"combi_leaf_handle", 1⟩
    else { claiming := false }
  next := 5

/-- `registerInterface` (abbreviation). -/
def reg (T : String) (o : ObjId) (m : IMan) : IMan := m.registerInterface testEnv T o testHeap

/-- `InterfaceRegistration` 67-81, `InterfaceRewriting` 83-101. -/
example : let m := reg "BarInterface" 1 (reg "FooInterface" 0 .empty)
    (m.get testEnv "FooInterface" testHeap).1 = some 0 ∧ (m.get testEnv "BarInterface" testHeap).1 = some 1 ∧
    (m.get testEnv "BazInterface" testHeap).1 = none ∧
    ((reg "FooInterface" 2 m).get testEnv "FooInterface" testHeap).1 = some 2 := by decide

/-- `InterfaceCombination`, 103-131: the leaf. -/
def leaf : IMan := reg "TestCombinationInterface" 4 (reg "BazInterface" 2 (reg "FooInterface" 1 .empty))
/-- The root, with the leaf registered. -/
def root : IMan := 
  IMan.registerInterfaceManager leaf (reg "TestCombinationInterface" 3 (reg "FooInterface" 0 .empty))

/-- 133-177 of `InterfaceCombination`. -/
example : (root.get testEnv "FooInterface" testHeap).1 = none ∧
    (root.get testEnv "BazInterface" testHeap).1 = some 2 ∧
    (let r := root.get testEnv "TestCombinationInterface" testHeap
     r.1.map (fun o => (r.2.2.objs o).getNames) = some ["combi_leaf_handle", "combi_root_handle"]) ∧
    root.getNames = ["FooInterface", "TestCombinationInterface", "BazInterface"] ∧
    root.getInterfaceResources "FooInterface" = [] ∧ root.getInterfaceResources "BazInterface" = [] ∧
    root.getInterfaceResources "TestCombinationInterface" = ["combi_root_handle", "combi_leaf_handle"] := by decide

/-! ### robot_hw_test.cpp -/

/-- The interfaces. -/
def js : String := "hardware_interface::JointStateInterface"
/-- The interfaces. -/
def ej : String := "hardware_interface::EffortJointInterface"
/-- The interfaces. -/
def pj : String := "hardware_interface::PositionJointInterface"
/-- The interfaces. -/
def vj : String := "hardware_interface::VelocityJointInterface"

/-- robot_hw_test.cpp 40-52: `hs1`, `hs2` (data 1 and 2), `hc1`, `hc2` (3 and 4). -/
def handles (claiming : Bool) (l : List Nat) : Iface :=
  l.foldl (fun o d => o.registerHandle ⟨if d % 2 = 1 then "name_1" else "name_2", d⟩) { claiming }

/-- Objects 0, 1, 2: the three interfaces with both joints. 3 and 4: state of the first, of the second joint.
5 and 6: effort of the first, of the second. -/
def hwHeap : Heap where
  objs o := [handles false [1, 2], handles true [3, 4], handles true [3, 4], handles false [1], handles false [2],
    handles true [3], handles true [4]].getD o {}
  next := 7

/-- `registerInterface` (abbreviation). -/
def hreg (T : String) (o : ObjId) (m : IMan) : IMan := m.registerInterface stdEnv T o hwHeap
/-- `get` (abbreviation). -/
def hget (m : IMan) (T : String) : Option ObjId := (m.get stdEnv T hwHeap).1

/-- `InterfaceRegistration` 54-80. -/
example : let hw := hreg pj 2 (hreg ej 1 (hreg js 0 .empty))
    hget hw js = some 0 ∧ hget hw ej = some 1 ∧ hget hw pj = some 2 ∧ hget hw vj = none := by decide +kernel

/-- `InterfaceRewriting` 82-103. -/
example : let hw := hreg js 3 .empty
    (hget hw js).map (fun o => (hwHeap.objs o).getNames.length) = some 1 ∧
    (hget (hreg js 0 hw) js).map (fun o => (hwHeap.objs o).getNames.length) = some 2 := by decide +kernel

/-- `ConflictChecking` 105-216: the claims. -/
def ir1 : InterfaceResources := ⟨"interface_1", ["resource_1"]⟩
/-- Same. -/
def ir2 : InterfaceResources := ⟨"interface_2", ["resource_2"]⟩
/-- Same. -/
def ir12 : InterfaceResources := ⟨"interface_1", ["resource_1", "resource_2"]⟩
/-- The controllers. -/
def info (n : String) (c : List InterfaceResources) : ControllerInfo := ⟨"controller_" ++ n, "type_" ++ n, c⟩

/-- 148-215 of `ConflictChecking`. -/
example : let i1 := info "1" [ir1]
    let i2 := info "2" [ir2]
    let i12 := info "12" [ir12]
    let multi := info "12_multi_iface" [ir1, ir2]
    let dup := info "12_multi_iface_dup" [ir1, ir12]
    checkForConflict [i1, i2] = false ∧ checkForConflict [multi] = false ∧ checkForConflict [i1, i12] = true ∧
    checkForConflict [i2, i12] = true ∧ checkForConflict [i1, multi] = true ∧ checkForConflict [i2, multi] = true ∧
    checkForConflict [dup] = true := by decide +kernel

/-- `CombineDifferentInterfaces` 218-248. -/
def different : IMan :=
  IMan.registerInterfaceManager (hreg ej 1 .empty) (IMan.registerInterfaceManager (hreg js 0 .empty) (hreg pj 2 .empty))

example : hget different js = some 0 ∧ hget different ej = some 1 ∧ hget different pj = some 2 ∧
    hget different vj = none := by decide +kernel

/-- `CombineSameInterfaces` 250-310: the two robots. -/
def hw1 : IMan := hreg ej 5 (hreg js 3 .empty)
/-- Same. -/
def hw2 : IMan := hreg ej 6 (hreg js 4 .empty)
/-- The group. -/
def grp : IMan := IMan.registerInterfaceManager hw2 (IMan.registerInterfaceManager hw1 .empty)

/-- 273-310: the combined interfaces are new objects and remain the same ones; their handles are copies. -/
example : let r := grp.get stdEnv js hwHeap
    let r2 := r.2.1.get stdEnv ej r.2.2
    let r3 := r2.2.1.get stdEnv js r2.2.2
    let r4 := r3.2.1.get stdEnv ej r3.2.2
    r.1 = some 7 ∧ r2.1 = some 8 ∧ (r2.2.1.get stdEnv vj r2.2.2).1 = none ∧ r3.1 = r.1 ∧ r4.1 = r2.1 ∧
    ((r4.2.2.objs 7).getHandle "name_1").1 = some ⟨"name_1", 1⟩ ∧
    ((r4.2.2.objs 7).getHandle "name_2").1 = some ⟨"name_2", 2⟩ ∧
    ((r4.2.2.objs 8).getHandle "name_1").1 = some ⟨"name_1", 3⟩ ∧
    ((r4.2.2.objs 8).getHandle "name_2").1 = some ⟨"name_2", 4⟩ := by decide +kernel

example : hget hw1 js = some 3 ∧ hget hw2 js = some 4 ∧ hget hw1 ej = some 5 ∧ hget hw2 ej = some 6 := by
  decide +kernel

/-- `IncrementalSameInterfaces` 312-345. -/
example : let g1 := IMan.registerInterfaceManager hw1 .empty
    let r1 := g1.get stdEnv js hwHeap
    let r2 := (IMan.registerInterfaceManager hw2 r1.2.1).get stdEnv js r1.2.2
    r1.1 = some 3 ∧ ((r1.2.2.objs 3).getHandle "name_1").1 = some ⟨"name_1", 1⟩ ∧ r2.1 = some 7 ∧
    ((r2.2.2.objs 7).getHandle "name_1").1 = some ⟨"name_1", 1⟩ ∧
    ((r2.2.2.objs 7).getHandle "name_2").1 = some ⟨"name_2", 2⟩ := by decide +kernel

/-! ### The handles -/

open Handles

/-- The variables `pos1`, `vel1`, `eff1`, `pos2`, `vel2`, `eff2` have addresses 1 to 6; the commands, from 7 on, are 0
(joint_command_interface_test.cpp 69-70 and the same in the other tests). -/
def mem : Mem Int := fun a => if a ≤ 6 then a else 0

/-- joint_state_interface_test.cpp 38-69, actuator_state_interface_test.cpp 38-68: construction; the default handle. -/
example : (mkState "name1" (some 1) (some 2) (some 3)).isSome ∧ mkState "name1" none (some 2) (some 3) = none ∧
    mkState "name1" (some 1) none (some 3) = none ∧ mkState "name1" (some 1) (some 2) none = none ∧
    ({} : StateHandle).getPosition mem = .assertion ∧ ({} : StateHandle).getVelocity mem = .assertion ∧
    ({} : StateHandle).getEffort mem = .assertion := by decide

/-- joint_state_interface_test.cpp 83-106: the values. -/
example : (mkState "name_2" (some 4) (some 5) (some 6)).map
    (fun h => (h.name, h.getPosition mem, h.getVelocity mem, h.getEffort mem)) =
    some ("name_2", .ok 4, .ok 5, .ok 6) := by decide

/-- The state of joint 1. -/
def s1 : StateHandle := ⟨"name_1", some 1, some 2, some 3, none, none⟩

/-- joint_command_interface_test.cpp 38-110, actuator_command_interface_test.cpp 38-115. -/
example : (mkCommand s1 (some 7)).isSome ∧ mkCommand s1 none = none ∧
    ({} : CommandHandle).getCommand mem = .assertion ∧
    (∀ h ∈ mkCommand s1 (some 7), h.getPosition mem = .ok 1 ∧ h.getVelocity mem = .ok 2 ∧ h.getEffort mem = .ok 3 ∧
      h.getCommand mem = .ok 0 ∧ (h.setCommand (-1) mem).andThen h.getCommand = .ok (-1)) := by decide

/-- posvel_command_interface_test.cpp 38-116. -/
example : (mkPosVel s1 (some 7) (some 8)).isSome ∧ mkPosVel s1 none (some 8) = none ∧ mkPosVel s1 (some 7) none = none ∧
    ({} : PosVelHandle).getCommandPosition mem = .assertion ∧ ({} : PosVelHandle).getCommandVelocity mem = .assertion ∧
    (∀ h ∈ mkPosVel s1 (some 7) (some 8), h.getCommandPosition mem = .ok 0 ∧ h.getCommandVelocity mem = .ok 0 ∧
      (h.setCommand (-1) (-2) mem).andThen h.getCommandPosition = .ok (-1) ∧
      (h.setCommand (-1) (-2) mem).andThen h.getCommandVelocity = .ok (-2)) := by decide

/-- posvelacc_command_interface_test.cpp 38-122. -/
example : (mkPosVelAcc s1 (some 7) (some 8) (some 9)).isSome ∧ mkPosVelAcc s1 none (some 8) (some 9) = none ∧
    mkPosVelAcc s1 (some 7) none (some 9) = none ∧ mkPosVelAcc s1 (some 7) (some 8) none = none ∧
    ({} : PosVelAccHandle).getCommandAcceleration mem = .assertion ∧
    (∀ h ∈ mkPosVelAcc s1 (some 7) (some 8) (some 9), h.getCommandAcceleration mem = .ok 0 ∧
      (h.setCommand3 (-1) (-2) (-3) mem).andThen h.getCommandPosition = .ok (-1) ∧
      (h.setCommand3 (-1) (-2) (-3) mem).andThen h.getCommandVelocity = .ok (-2) ∧
      (h.setCommand3 (-1) (-2) (-3) mem).andThen h.getCommandAcceleration = .ok (-3)) := by decide

/-- The claims at the end of each test: joint_command_interface_test.cpp 110, posvel_command_interface_test.cpp 119,
posvelacc_command_interface_test.cpp 125 against joint_state_interface_test.cpp 106, actuator_state_interface_test.cpp
111, actuator_command_interface_test.cpp 115, force_torque_sensor_interface_test.cpp 104, imu_sensor_interface_test.cpp
196. -/
example : (["JointCommandInterface", "PosVelJointInterface", "PosVelAccJointInterface"].all fun T =>
      stdEnv.claiming ("hardware_interface::" ++ T)) = true ∧
    (["JointStateInterface", "ActuatorStateInterface", "ActuatorCommandInterface", "ForceTorqueSensorInterface",
      "ImuSensorInterface"].any fun T => stdEnv.claiming ("hardware_interface::" ++ T)) = false := by decide +kernel

end Verif.Tests.HardwareInterface
