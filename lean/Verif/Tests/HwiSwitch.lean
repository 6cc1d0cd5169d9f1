import Verif.Model.Manager

/-!
controller_manager/test/hwi_switch_test.cpp against the model: a robot that decides in `prepareSwitch`
which joints can be switched to which interface.
-/

namespace Verif.Tests.HwiSwitch

open Mgr

/-- The name of an interface, hwi_switch_test.cpp 266. -/
def iface (t : String) : String := "hardware_interface::" ++ t

/-- hwi_switch_test.cpp 65-112: `SwitchBot`: the interface each joint is in (`current_`, in the order of the
map), and the lists kept by `doSwitch`. -/
structure Bot where
  joints : List (String × String) := [("j_pe", ""), ("j_pv", ""), ("j_ve", "")]
  started : List String := []
  stopped : List String := []
deriving DecidableEq, Repr

/-- hwi_switch_test.cpp 114-138: the interfaces a joint can be switched to. -/
def can (j t : String) : Bool :=
  (j, t) ∈ [("j_pv", iface "PositionJointInterface"), ("j_pv", iface "VelocityJointInterface"),
    ("j_pe", iface "PositionJointInterface"), ("j_pe", iface "EffortJointInterface"),
    ("j_ve", iface "VelocityJointInterface"), ("j_ve", iface "EffortJointInterface")]

/-- The order of the strings a joint can be in (`n >= current_`, hwi_switch_test.cpp 92). -/
def rank (t : String) : Nat :=
  if t = "" then 0
  else if t = iface "EffortJointInterface" then 1
  else if t = iface "PositionJointInterface" then 2
  else 3

/-- hwi_switch_test.cpp 89-93: `Joint::prepareSwitch`. -/
def Bot.joint (b : Bot) (j t : String) : Bool :=
  can j t && match b.joints.lookup j with
    | some cur => rank cur ≤ rank t
    | none => false

/-- hwi_switch_test.cpp 140-190: `prepareSwitch`. -/
def Bot.prepare (b : Bot) (start stop : List ControllerInfo) : Bool :=
  if start.any (fun i => stop.any fun j => i.name = j.name) then false
  else
    let uses := start.flatMap fun (i : ControllerInfo) => i.claimed.flatMap fun r => r.resources.map fun j => (j, r.hardwareInterface)
    start.all (fun i => i.claimed.length = 1) && uses.all (fun u => b.joint u.1 u.2) &&
      !(decide (("j_pe", iface "EffortJointInterface") ∈ uses) &&
        decide (("j_ve", iface "VelocityJointInterface") ∈ uses))

/-- hwi_switch_test.cpp 216-219: `Joint::doSwitch` for some joints. -/
def setMode (js : List (String × String)) (rs : List String) (t : String) : List (String × String) :=
  js.map fun e => if e.1 ∈ rs then (e.1, t) else e

/-- hwi_switch_test.cpp 191-220: `doSwitch`. -/
def Bot.switch (b : Bot) (start stop : List ControllerInfo) : Bot :=
  let names := fun (l : List ControllerInfo) => l.map (·.name)
  let b := { b with
    started := b.started.filter fun n => !decide (n ∈ names stop)
    stopped := b.stopped ++ names stop
    joints := stop.foldl (fun js (i : ControllerInfo) => i.claimed.foldl (fun js (r : InterfaceResources) => setMode js r.resources "") js) b.joints }
  { b with
    stopped := b.stopped.filter fun n => !decide (n ∈ names start)
    started := b.started ++ names start
    joints := start.foldl (fun js (i : ControllerInfo) => i.claimed.foldl (fun js (r : InterfaceResources) => setMode js r.resources r.hardwareInterface) js) b.joints }

/-- The manager and the robot. -/
structure World where
  m : Mgr := .init
  bot : Bot := {}

/-- hwi_switch_test.cpp 269-278: the loader. -/
def loader : Loader :=
  ⟨["DummyEffortJointInterfaceController", "DummyPositionJointInterfaceController",
    "DummyVelocityJointInterfaceController"], fun _ => .object⟩

/-- hwi_switch_test.yaml, and hwi_switch_test.cpp 240-256: `initRequest` claims the joints of the
parameter. -/
def params (name : String) : Option (String × List String) :=
  [("group_pos", "PositionJointInterface", ["j_pe", "j_pv"]),
   ("another_group_pos", "PositionJointInterface", ["j_pe", "j_pv"]),
   ("group_vel", "VelocityJointInterface", ["j_pv", "j_ve"]),
   ("group_eff", "EffortJointInterface", ["j_pe", "j_ve"]),
   ("single_eff", "EffortJointInterface", ["j_pe"]),
   ("single_pos", "PositionJointInterface", ["j_pe"]),
   ("invalid_group_pos", "PositionJointInterface", ["j_pe", "j_ve"])].lookup name

/-- What `loadController` finds for a name. -/
def env (name : String) : LoadEnv :=
  ⟨true, (params name).map fun p => "Dummy" ++ p.1 ++ "Controller", [loader],
    (params name).map fun p => [⟨iface p.1, p.2⟩]⟩

/-- The default answer of the hardware (robot_hw.h 175-184). -/
def done : HwReply := ⟨.done, .done, fun _ _ => (.done, .done)⟩

/-- An update by the timer (hwi_switch_test.cpp 291-294); the robot is told of a switch. -/
def World.tick (w : World) : World :=
  let m := w.m.update 0 false done
  ⟨m, (m.trace.drop w.m.trace.length).foldl (fun b e =>
    match e with
    | .doSwitch start stop => b.switch start stop
    | _ => b) w.bot⟩

/-- The calls of the test. -/
inductive Call
  | load (name : String)
  | switch (start stop : List String) (strictness : Int)

/-- One call: while it waits there is an update; the answer. -/
def World.call (w : World) : Call → World × Bool
  | .load n =>
    let w1 := World.tick ⟨w.m.load n (env n), w.bot⟩
    let m := w1.m.poll {} 0
    (⟨m, w1.bot⟩, m.trace.any fun e => e = .loadRet n true)
  | .switch start stop s =>
    let r : SwitchReq := ⟨start, stop, s, false, 0⟩
    -- `prepareSwitch` is asked about the lists the manager has made
    let lists := (w.m.switch checkForConflict r 0 true)
    let w1 := World.tick ⟨w.m.switch checkForConflict r 0 (w.bot.prepare lists.swStart lists.swStop), w.bot⟩
    let m := w1.m.poll {} 0
    (⟨m, w1.bot⟩, (m.trace.drop w.m.trace.length).any fun e => e = .switchRet true)

/-- A sequence of calls with the answers. -/
def World.run : World → List Call → World × List Bool
  | w, [] => (w, [])
  | w, c :: cs =>
    let (w, a) := w.call c
    let (w, as) := w.run cs
    (w, a :: as)

/-- A strict switch. -/
def strict (start stop : List String) : Call := .switch start stop 2
/-- A switch by best effort. -/
def best (start stop : List String) : Call := .switch start stop 1

/-- hwi_switch_test.cpp 319-326: the controllers are loaded. -/
def loads : List Call :=
  ["group_pos", "another_group_pos", "group_vel", "group_eff", "single_pos", "single_eff", "invalid_group_pos",
    "totally_random_name"].map .load

/-- The state after the controllers are loaded. -/
def loaded : World := (World.run {} loads).1

example : (World.run {} loads).2 = [true, true, true, true, true, true, true, false] := by decide +kernel

/-- hwi_switch_test.cpp 328-344: conflicts, the group in position mode. -/
def part1 : List Call :=
  [strict ["invalid_group_pos"] [], strict ["group_pos", "group_vel"] [],
   strict ["group_pos"] [], strict [] ["group_pos"]]

example : (loaded.run part1).2 = [false, false, true, true] := by decide +kernel

/-- hwi_switch_test.cpp 355-396: another controller of the same interface, the velocity and the effort group,
upgrade and downgrade, a single joint. -/
def part2 : List Call :=
  [strict ["group_pos"] [], strict ["another_group_pos"] ["group_pos"], strict [] ["another_group_pos"],
   strict ["group_vel"] [], strict [] ["group_vel"],
   strict ["group_eff"] [], strict [] ["group_eff"],
   strict ["group_eff"] [], strict ["group_vel"] ["group_eff"], strict ["group_eff"] ["group_vel"],
   strict [] ["group_vel"],
   strict ["single_pos"] [], strict [] ["single_pos"]]

example : (loaded.run part2).2 =
    [true, true, true, true, true, true, true, true, true, false, true, true, true] := by decide +kernel

/-- hwi_switch_test.cpp 403-432: conflicts of resources and of interfaces, unknown names. -/
def part3 : List Call :=
  [strict ["single_pos", "group_eff"] [], strict ["single_eff", "group_vel"] [],
   strict ["single_pos", "group_vel"] [], strict [] ["single_pos", "group_vel"],
   strict ["single_pos", "group_vel", "totally_random_name"] [],
   strict [] ["single_pos", "group_vel", "totally_random_name"],
   best ["single_pos", "group_vel", "totally_random_name"] [],
   best [] ["single_pos", "group_vel", "totally_random_name"]]

example : (loaded.run part3).2 = [false, false, true, true, false, false, true, true] := by decide +kernel

/-- hwi_switch_test.cpp 443-456: controllers that are not running are stopped, running ones started. -/
def part4 : List Call :=
  [strict [] ["single_pos"], best [] ["single_pos"],
   strict ["single_pos"] [], strict ["single_pos"] [], best ["single_pos"] [], strict [] ["single_pos"]]

example : (loaded.run part4).2 = [false, true, true, false, true, true] := by decide +kernel

/-- hwi_switch_test.cpp 457: in the end nothing is running. -/
example : (loaded.run (part1 ++ part2 ++ part3 ++ part4)).1.bot.started = [] := by decide +kernel

/-- hwi_switch_test.cpp 345-354: a request that stops a running controller and starts it again. The test
expects the answer true; the code (controller_manager.cpp 564-569) refuses it. -/
example : (loaded.run [strict ["group_pos"] [], strict ["group_pos"] ["group_pos"], strict [] ["group_pos"]]).2 =
    [true, false, true] := by decide +kernel

/-- hwi_switch_test.cpp 433-442: the same for the restart of "single_pos". -/
example : (loaded.run [strict ["single_pos"] [], strict ["single_pos"] ["single_pos"], strict [] ["single_pos"]]).2 =
    [true, false, true] := by decide +kernel

end Verif.Tests.HwiSwitch
