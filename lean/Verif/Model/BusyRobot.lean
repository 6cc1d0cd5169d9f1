import Verif.Model.WholeRobot
import Verif.Model.Interleaved

/-!
A whole robot as in `Verif.Model.WholeRobot`, whose services are called also in the middle of its cycles: the loop of
controller_manager_tests/src/dummy_app.cpp 46-54 runs in one thread, the services are handled in another one
(dummy_app.cpp 36-37, controller_manager.cpp 45-62), and `update` is the sequence of steps of `Verif.Model.Interleaved`
(with the simplifications stated there).

Simplifications. `read` and `write` of the robot are one step each; services do not touch the variables they work on
(controllers write commands in their callbacks, not in `init`). A callback of a controller is one step.
-/

namespace Verif.Whole

open Verif.Transmission (Mem)
open Verif.Cycle (Halt Record)
open Verif.Described (Robot Setting)

variable {T K : Type}

/-- Where the loop is: outside of a cycle, or between `read` and `write` of a cycle (dummy_app.cpp 49-51), with what
comes from outside in this cycle and the variables before and after `read`. -/
inductive Stage (T : Type)
  | outside
  | inside (i : Input T) (start measured : Mem T)

/-- The manager with its controllers, the position of the loop in `update`, the robot hardware, the variables, and the
position of the loop. -/
structure Busy (T K : Type) where
  sys : Sys
  rt : Inter.Rt := .idle
  robot : Robot T K
  mem : Mem T
  stage : Stage T := .outside

/-- The start: the hardware is there, no controller is loaded (dummy_app.cpp 41-44). -/
def Busy.start (r : Robot T K) (m : Mem T) : Busy T K :=
  { sys := { robot := registered r.loader, heap := interfaces r.loader }, robot := r, mem := m }

/-- What can happen: a cycle begins, the cycle goes on by one step, or the service thread does an operation. -/
inductive Move (T : Type)
  | begin (i : Input T)
  | go
  | service (op : SysOp)

/-- A completed cycle: the variables before it, what came from outside, and the variables in the course of it. -/
structure Past (T : Type) where
  start : Mem T
  input : Input T
  record : Record T

/-- The arguments of `update` (dummy_app.cpp 50) and the answers of the hardware in it. -/
def Input.args (i : Input T) : Inter.Args := ⟨i.time, i.restart, i.hw⟩

section

variable [Add T] [Sub T] [Mul T] [Div T] [OfNat T 2] [LinearOrder K] (S : Setting T K) (nd : Bool)

/-- dummy_app.cpp 49 and the beginning of 50: `read`, and `update` is called. -/
def Busy.enter (b : Busy T K) (i : Input T) : Except Halt (Busy T K) :=
  match b.robot.read nd i.sense b.mem with
  | .error h => .error h
  | .ok m =>
    let s := Inter.rtStep ⟨b.sys.mgr, b.rt⟩ i.args
    .ok { b with sys := { b.sys with mgr := s.m }, rt := s.rt, mem := m, stage := .inside i b.mem m }

/-- dummy_app.cpp 50: one step of `update`; the callbacks made in it act on the variables. -/
def Busy.advance (b : Busy T K) (i : Input T) : Busy T K :=
  let s := Inter.rtStep ⟨b.sys.mgr, b.rt⟩ i.args
  { b with
    sys := { b.sys with mgr := s.m }
    rt := s.rt
    mem := replay i.act (s.m.trace.drop b.sys.mgr.trace.length) b.mem }

/-- dummy_app.cpp 51: `write`, possibly after a `reset` of the limits interfaces. -/
def Busy.leave (b : Busy T K) (i : Input T) (start measured : Mem T) : Except Halt (Busy T K × Past T) :=
  let r := if i.reset then { b.robot with limits := fun c => Limits.resetAll (b.robot.kind c) (b.robot.limits c) } else b.robot
  match r.write S nd i.period b.mem with
  | .error h => .error h
  | .ok (r, m3, m4) => .ok ({ b with robot := r, mem := m4, stage := .outside }, ⟨start, i, ⟨measured, b.mem, m3, m4⟩⟩)

/-- What happens in one step: the new state, and the cycle that is completed with it, if there is one. A cycle begins only outside of
one, and the loop does not call `update` from the service thread. -/
def Busy.step (b : Busy T K) : Move T → Except Halt (Busy T K × Option (Past T))
  | .begin i =>
    match b.stage with
    | .outside => (b.enter nd i).map fun b' => (b', none)
    | .inside .. => .ok (b, none)
  | .go =>
    match b.stage with
    | .outside => .ok (b, none)
    | .inside i start measured =>
      match b.rt with
      | .idle => (b.leave S nd i start measured).map fun (b', p) => (b', some p)
      | _ => .ok (b.advance i, none)
  | .service (.update ..) => .ok (b, none)
  | .service op => .ok ({ b with sys := b.sys.step stdEnv checkForConflict op }, none)

/-- The robot in operation: the completed cycles, the state in the end, and why it halted, if it did. -/
def Busy.run : List (Move T) → Busy T K → List (Past T) × Busy T K × Option Halt
  | [], b => ([], b, none)
  | mv :: ms, b =>
    match b.step S nd mv with
    | .error h => ([], b, some h)
    | .ok (b', p) =>
      let (l, b'', h) := Busy.run ms b'
      (p.toList ++ l, b'', h)

end

end Verif.Whole
