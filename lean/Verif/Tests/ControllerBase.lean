import Verif.Model.ControllerBase

/-!
controller_interface/test/controller_base_test.cpp against the model. The mock's `initRequest` sets the
state to `INITIALIZED` and returns true: `Request.init true`.
-/

namespace Verif.Tests

/-- The values returned by a history of requests. -/
def rets (rs : List Request) : List Bool := (Ctrl.run rs).log.map fun e => e.2.1

/-- controller_base_test.cpp 61-70: `DefaultStateTest`. -/
example : (Ctrl.run []).state.isInitialized = false ∧ (Ctrl.run []).state.isRunning = false ∧
    (Ctrl.run []).state.isStopped = false ∧ (Ctrl.run []).state.isWaiting = false ∧
    (Ctrl.run []).state.isAborted = false := by decide

/-- controller_base_test.cpp 72-91: `IsInitializedTest`. -/
example : rets [.init true] = [true] ∧ (Ctrl.run [.init true]).state.isInitialized := by decide

/-- controller_base_test.cpp 93-118: `IsRunningTest`. -/
example : rets [.init true, .start, .stop] = [true, true, true] ∧
    (Ctrl.run [.init true, .start]).state.isRunning ∧
    (Ctrl.run [.init true, .start, .stop]).state.isRunning = false ∧
    (Ctrl.run [.init true, .start, .stop]).callbacks = [.starting, .stopping] := by decide

/-- controller_base_test.cpp 120-145: `IsStoppedTest`. -/
example : rets [.init true, .stop, .start] = [true, true, true] ∧
    (Ctrl.run [.init true, .stop]).state.isStopped ∧
    (Ctrl.run [.init true, .stop, .start]).state.isStopped = false ∧
    (Ctrl.run [.init true, .stop, .start]).callbacks = [.stopping, .starting] := by decide

/-- controller_base_test.cpp 147-172: `IsWaitingTest`. -/
example : rets [.init true, .wait, .start] = [true, true, true] ∧
    (Ctrl.run [.init true, .wait]).state.isWaiting ∧
    (Ctrl.run [.init true, .wait, .start]).state.isWaiting = false ∧
    (Ctrl.run [.init true, .wait, .start]).callbacks = [.waiting, .starting] := by decide

/-- controller_base_test.cpp 174-197: `StartRequestTest`. -/
example : rets [.start, .init true, .start, .start] = [false, true, true, true] ∧
    (Ctrl.run [.start, .init true, .start, .start]).callbacks = [.starting, .starting] := by decide

/-- controller_base_test.cpp 199-222: `StopRequestTest`. -/
example : rets [.stop, .init true, .stop, .stop] = [false, true, true, true] ∧
    (Ctrl.run [.stop, .init true, .stop, .stop]).callbacks = [.stopping, .stopping] := by decide

/-- controller_base_test.cpp 224-247: `WaitRequestTest`. -/
example : rets [.wait, .init true, .wait, .wait] = [false, true, true, true] ∧
    (Ctrl.run [.wait, .init true, .wait, .wait]).callbacks = [.waiting, .waiting] := by decide

/-- controller_base_test.cpp 249-272: `AbortRequestTest`. -/
example : rets [.abort, .init true, .abort, .abort] = [false, true, true, true] ∧
    (Ctrl.run [.abort, .init true, .abort, .abort]).callbacks = [.aborting, .aborting] := by decide

/-- controller_base_test.cpp 274-298: `UpdateRequestTest`. -/
example : (Ctrl.run [.update, .init true, .start, .update]).callbacks = [.starting, .update] := by decide

end Verif.Tests
