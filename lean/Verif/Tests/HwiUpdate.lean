import Verif.Model.Manager

/-!
controller_manager/test/hwi_update_test.cpp against the model: switches with mocks that expect certain calls. The
robot's `checkForConflict` always answers that there is none; the answers of `switchResult` are taken from a list, in
the order in which the manager asks.
-/

namespace Verif.Tests.HwiUpdate

open Mgr

/-- hwi_update_test.cpp 190, 210, ...: the mock never reports a conflict. -/
def noConflict (_ : List ControllerInfo) : Bool := false

/-- hwi_update_test.cpp 125-149 and hwi_update_test.yaml: the loader gives a `ControllerMock`, which claims nothing. -/
def env : LoadEnv := ⟨true, some "ControllerMock", [⟨["ControllerMock"], fun _ => .object⟩], some []⟩

/-- Every answer to `switchResult` is `s`. -/
def all (s : SwitchState) : HwReply := ⟨s, s, fun _ _ => (s, s)⟩

/-- hwi_update_test.cpp 147-148: both controllers are loaded; object 0 is `ctrl_1_mock_`, object 1 `ctrl_2_mock_`. -/
def fixture : Mgr := Mgr.init.run noConflict
  [.load "mock_ctrl_1" env, .update 0 false (all .done), .poll {} 0,
   .load "mock_ctrl_2" env, .update 0 false (all .done), .poll {} 0]

example : fixture.trace = [.loadRet "mock_ctrl_1" true, .loadRet "mock_ctrl_2" true] := by decide

/-- The events after the fixture. -/
def seen (ops : List Op) : List Event := (fixture.run noConflict ops).trace.drop 2

/-- How often an event occurred. -/
def count (e : Event) (ops : List Op) : Nat := (seen ops).count e

/-- How often the hardware was switched. -/
def switches (ops : List Op) : Nat := (seen ops).countP fun | .doSwitch .. => true | _ => false

/-- How often `prepareSwitch` was called. -/
def prepares (ops : List Op) : Nat := (seen ops).countP fun | .prepareSwitch .. => true | _ => false

/-- Lifecycle state of a controller at the end. -/
def state (c : CId) (ops : List Op) : CState := (fixture.run noConflict ops).state c

/-- A STRICT switch of the test. -/
def strict (start stop : List String) (asap : Bool := false) (timeout : Int := 0) : Op :=
  .switch ⟨start, stop, 2, asap, timeout⟩ 0 true

/-- An update, and a look at the switch parameters by the waiting call. -/
def tick (hw : HwReply) (time : Int := 0) : List Op := [.update time false hw, .poll {} 0]

/-- hwi_update_test.cpp 173-180: `NoSwitchTest`. -/
example : switches [.update 0 false (all .done)] = 0 := by decide

/-- hwi_update_test.cpp 182-199: `SwitchOnlyTest`. -/
example : seen (strict [] [] :: tick (all .done)) =
    [.prepareSwitch [] [] true, .accepted [] [], .doSwitch [] [], .switchRet true] := by decide

/-- hwi_update_test.cpp 201-239: `SwitchControllersTest`. -/
example : let first := strict ["mock_ctrl_1"] [] :: tick (all .done)
    let ops := first ++ tick (all .done) ++ strict ["mock_ctrl_2"] ["mock_ctrl_1"] :: tick (all .done)
    state 0 first = .running ∧ state 0 ops = .stopped ∧ state 1 ops = .running ∧
    prepares ops = 2 ∧ switches ops = 2 ∧ count (.switchRet true) ops = 2 ∧
    count (.cb 0 .starting) ops = 1 ∧ count (.cb 0 .stopping) ops = 1 ∧ count (.cb 1 .starting) ops = 1 ∧
    1 ≤ count (.cb 0 .update) ops := by decide

/-- hwi_update_test.cpp 241-270: `SwitchControllersAbortTest`. `switchResult` is called twice, with the answer
`ERROR`. -/
example : let ops := strict ["mock_ctrl_1", "mock_ctrl_2"] [] :: tick (all .error)
    state 0 ops = .aborted ∧ state 1 ops = .aborted ∧ prepares ops = 1 ∧ switches ops = 1 ∧
    count (.switchRet true) ops = 1 ∧ count (.cb 0 .aborting) ops = 1 ∧ count (.cb 1 .aborting) ops = 1 ∧
    count (.cb 0 .update) ops = 0 ∧ count (.cb 1 .update) ops = 0 ∧
    count (.cb 0 .starting) ops = 0 ∧ count (.cb 1 .starting) ops = 0 := by decide

/-- hwi_update_test.cpp 272-305: `SwitchControllersTimeoutTest`, with updates after half a second, a second, and a
little later. -/
example : let ops := strict ["mock_ctrl_1", "mock_ctrl_2"] [] false 1000000000 ::
      (tick (all .ongoing) 500000000 ++ tick (all .ongoing) 1000000000 ++ tick (all .ongoing) 1010000000)
    state 0 ops = .aborted ∧ state 1 ops = .aborted ∧ prepares ops = 1 ∧ switches ops = 1 ∧
    count (.switchRet true) ops = 1 ∧ count (.cb 0 .aborting) ops = 1 ∧ count (.cb 1 .aborting) ops = 1 ∧
    count (.cb 0 .waiting) ops = 2 ∧ count (.cb 1 .waiting) ops = 2 ∧
    count (.cb 0 .update) ops = 0 ∧ count (.cb 1 .update) ops = 0 := by decide

/-- hwi_update_test.cpp 307-356: `ControllerUpdatesTest`. Ten answers `ONGOING` are two in each of five updates; then
`DONE`; then five updates. -/
example : let busy := (List.replicate 5 (tick (all .ongoing))).flatten
    let ops := strict ["mock_ctrl_1"] [] :: (busy ++ tick (all .done) ++
      (List.replicate 5 (tick (all .done))).flatten)
    state 0 ops = .running ∧ switches ops = 1 ∧ count (.switchRet true) ops = 1 ∧
    count (.cb 0 .waiting) ops = 5 ∧ count (.cb 0 .starting) ops = 1 ∧ count (.cb 0 .update) ops = 5 ∧
    count (.cb 1 .update) ops = 0 := by decide +kernel

/-- Answers for "switch as soon as possible": the first controller is done, the second gives `a` and then `b`. -/
def second (a b : SwitchState) : HwReply :=
  ⟨.ongoing, .ongoing, fun n _ => if n = 0 then (.done, .done) else (a, b)⟩

/-- hwi_update_test.cpp 358-404: `SwitchControllersAsapTest`. The answers are `DONE` for the first controller, ten
`ONGOING` in five updates and `DONE` for the second. -/
example : let busy := (List.replicate 5 (tick (second .ongoing .ongoing))).flatten
    let ops := strict ["mock_ctrl_1", "mock_ctrl_2"] [] true :: (busy ++ tick (second .done .done))
    state 0 ops = .running ∧ state 1 ops = .running ∧ switches ops = 1 ∧ count (.switchRet true) ops = 1 ∧
    count (.cb 0 .starting) ops = 1 ∧ count (.cb 1 .starting) ops = 1 ∧ count (.cb 1 .waiting) ops = 5 ∧
    count (.cb 0 .waiting) ops = 0 ∧ 5 ≤ count (.cb 0 .update) ops := by decide +kernel

/-- hwi_update_test.cpp 406-453: `SwitchControllersAsapAbortTest`: in the end `ERROR`. -/
example : let busy := (List.replicate 5 (tick (second .ongoing .ongoing))).flatten
    let ops := strict ["mock_ctrl_1", "mock_ctrl_2"] [] true :: (busy ++ tick (second .error .error))
    state 0 ops = .running ∧ state 1 ops = .aborted ∧ switches ops = 1 ∧ count (.switchRet true) ops = 1 ∧
    count (.cb 0 .starting) ops = 1 ∧ count (.cb 1 .starting) ops = 0 ∧ count (.cb 1 .aborting) ops = 1 ∧
    count (.cb 1 .waiting) ops = 5 ∧ 5 ≤ count (.cb 0 .update) ops := by decide +kernel

/-- hwi_update_test.cpp 455-489: `SwitchControllersAsapTimeoutTest`. -/
example : let ops := strict ["mock_ctrl_1", "mock_ctrl_2"] [] true 1000000000 ::
      (tick (second .ongoing .ongoing) 500000000 ++ tick (second .ongoing .ongoing) 1010000000)
    state 0 ops = .running ∧ state 1 ops = .aborted ∧ switches ops = 1 ∧ count (.switchRet true) ops = 1 ∧
    count (.cb 0 .starting) ops = 1 ∧ count (.cb 1 .aborting) ops = 1 ∧ count (.cb 1 .waiting) ops = 1 ∧
    count (.cb 0 .update) ops = 1 := by decide +kernel

end Verif.Tests.HwiUpdate
