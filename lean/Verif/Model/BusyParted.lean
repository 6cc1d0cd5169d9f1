import Verif.Model.BusyRobot
import Verif.Model.PartedRobot

/-!
A whole robot with a combined hardware as in `Verif.Model.PartedRobot`, whose services are called also in the middle of its cycles, as
in `Verif.Model.BusyRobot`.

Simplifications. As in these two. `read` and `write` of the combined hardware are one step each, for all parts together; services do
not touch the variables of any part.
-/

namespace Verif.Parted

open Verif.Transmission (Mem)
open Verif.Cycle (Halt Record)
open Verif.Described (Robot Setting)
open Verif.Whole (Input Stage Move Past)

variable {T K : Type}

/-- The manager with its controllers, the position of the loop in `update`, the parts of the hardware, the variables, and the
position of the loop (controller_manager_tests/src/dummy_app.cpp 41-54 with a combined hardware). -/
structure Team (T K : Type) where
  sys : Sys
  rt : Inter.Rt := .idle
  robots : List (Robot T K)
  mem : Mem T
  stage : Stage T := .outside

/-- The start: the combined hardware is there, no controller is loaded (dummy_app.cpp 41-44). -/
def Team.start (rs : List (Robot T K)) (m : Mem T) : Team T K :=
  { sys := { robot := combined (rs.map (·.loader)), heap := interfaces (rs.map (·.loader)) }, robots := rs, mem := m }

section

variable [Add T] [Sub T] [Mul T] [Div T] [OfNat T 2] [LinearOrder K] (S : Setting T K) (nd : Bool)

/-- dummy_app.cpp 49 (combined_robot_hw.cpp 179-186) and the beginning of 50: `read`, and `update` is called. -/
def Team.enter (b : Team T K) (i : Input T) : Except Halt (Team T K) :=
  match readAll nd b.robots.length i.sense 0 b.robots b.mem with
  | .error h => .error h
  | .ok m =>
    let s := Inter.rtStep ⟨b.sys.mgr, b.rt⟩ i.args
    .ok { b with sys := { b.sys with mgr := s.m }, rt := s.rt, mem := m, stage := .inside i b.mem m }

/-- dummy_app.cpp 50: one step of `update`; the callbacks made in it act on the variables. -/
def Team.advance (b : Team T K) (i : Input T) : Team T K :=
  let s := Inter.rtStep ⟨b.sys.mgr, b.rt⟩ i.args
  { b with
    sys := { b.sys with mgr := s.m }
    rt := s.rt
    mem := replay i.act (s.m.trace.drop b.sys.mgr.trace.length) b.mem }

/-- dummy_app.cpp 51 (combined_robot_hw.cpp 189-196): `write`, possibly after a `reset` of the limits interfaces. -/
def Team.leave (b : Team T K) (i : Input T) (start measured : Mem T) : Except Halt (Team T K × Past T) :=
  match writeAll S nd b.robots.length i.reset i.period 0 b.robots b.mem b.mem with
  | .error h => .error h
  | .ok (rs, m3, m4) => .ok ({ b with robots := rs, mem := m4, stage := .outside }, ⟨start, i, ⟨measured, b.mem, m3, m4⟩⟩)

/-- What happens in one step (dummy_app.cpp 46-54 and the service thread of 36-37): the new state, and the cycle that is completed with
it, if there is one. A cycle begins only outside of one, and the loop does not call `update` from the service thread. -/
def Team.step (b : Team T K) : Move T → Except Halt (Team T K × Option (Past T))
  | .begin i =>
    match b.stage with
    | .outside => (b.enter nd i).map fun b' => (b', none)
    | .inside .. => .ok (b, none)
  | .go =>
    match b.stage with
    | .outside => .ok (b, none)
    | .inside i start measured =>
      match b.rt with
      | .idle => (b.leave S nd i start measured).map fun (b', p) => (b', some p)
      | _ => .ok (b.advance i, none)
  | .service (.update ..) => .ok (b, none)
  | .service op => .ok ({ b with sys := b.sys.step stdEnv checkForConflict op }, none)

/-- The robot in operation (dummy_app.cpp 46-54): the completed cycles, the state in the end, and why it halted, if it did. -/
def Team.run : List (Move T) → Team T K → List (Past T) × Team T K × Option Halt
  | [], b => ([], b, none)
  | mv :: ms, b =>
    match b.step S nd mv with
    | .error h => ([], b, some h)
    | .ok (b', p) =>
      let (l, b'', h) := Team.run ms b'
      (p.toList ++ l, b'', h)

end

end Verif.Parted
