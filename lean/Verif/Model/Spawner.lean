import Verif.Model.Basic

/-!
The program `controller_manager/scripts/spawner` up to the moment when it waits for its end: options, names of the
services, waiting for the services and for a topic, and the requests it makes then. What the requests do is the
subject of `Verif.Model.Clients`.

The program is a state machine. A step `run` of the main thread is one attempt to contact a service inside
`rospy.wait_for_service`, one iteration of a loop, or one request. In between messages arrive and ROS may be shut
down.

What is written out from the documentation of rospy: `wait_for_service` returns when the service can be contacted,
raises a `ROSException` when its time is over, and a `ROSInterruptException`, which is a `ROSException`, when ROS is
shut down. Simplifications: times are integers; a request succeeds at once with the given answer and does not
fail; the YAML files of 182-193 are those of `Clients.expand`; Python is version 3 (with version 2 the comparison
of line 170 with `None` is true). The shutdown hook (52-72) is `Clients.Shutdown`, and log messages are left out.
-/

namespace Verif.Spawner

/-- scripts/spawner 74-90: the options, after parsing. `timeout` has the default 30 (seconds). -/
structure Args where
  controllers : List String
  stopped : Bool := false
  waitFor : Option String := none
  ns : Option String := none
  timeout : Int := 30
  noTimeout : Bool := false

/-- scripts/spawner 100-103: the time to wait for each service; `none` is `None`. -/
def Args.limit (a : Args) : Option Int := if a.noTimeout || decide (a.timeout ≤ 0) then none else some a.timeout

/-- scripts/spawner 149: `if wait_for_topic`; an empty name counts as none. -/
def Args.waits (a : Args) : Bool :=
  match a.waitFor with
  | none => false
  | some t => !t.isEmpty

/-- scripts/spawner 99, 110-112: the namespace, with a slash added if needed. -/
def robotNamespace (ns : Option String) : String :=
  let r := ns.getD ""
  if !r.isEmpty && r.toList.getLast? ≠ some '/' then r ++ "/" else r

/-- The three services of scripts/spawner 115-117. -/
inductive Service
  | load
  | unload
  | switch
deriving DecidableEq, Repr

/-- scripts/spawner 115-117. -/
def Args.serviceName (a : Args) : Service → String
  | .load => robotNamespace a.ns ++ "controller_manager/load_controller"
  | .unload => robotNamespace a.ns ++ "controller_manager/unload_controller"
  | .switch => robotNamespace a.ns ++ "controller_manager/switch_controller"

/-- Where the main thread is. -/
inductive Phase
  /-- 124, 129, 137: in `wait_for_service` since the given time -/
  | service (s : Service) (since : Int)
  /-- 165-173 -/
  | topic (started : Int) (warned : Bool)
  /-- 174-177 -/
  | data
  /-- 196-203, with the names still to be loaded -/
  | loading (rest : List String)
  /-- 207-216 -/
  | starting
  /-- 218: `rospy.spin()` -/
  | spinning
  /-- `main` has returned -/
  | gone
  /-- `main` was left by an exception nobody catches -/
  | crashed
deriving DecidableEq, Repr

/-- The requests to the manager, a request to load with the answer. -/
inductive Request
  | load (service name : String) (ok : Bool)
  | switch (service : String) (start : List String)
deriving DecidableEq, Repr

/-- The program: where it is, the last message on the topic (155-159), whether ROS has been shut down, the list
`loaded` (45), and the requests so far. -/
structure St where
  phase : Phase
  heard : Option Bool := none
  down : Bool := false
  loaded : List String := []
  requests : List Request := []
deriving DecidableEq, Repr

/-- What the main thread finds during a step: the time, the services that can be contacted, whether the parameter
`/use_sim_time` is set, whether the clock shows zero, and the answer to a request to load. -/
structure World where
  now : Int
  available : String → Bool
  simTime : Bool := false
  clockZero : Bool := false
  answer : Bool := true

/-- What can happen. -/
inductive In
  | run (w : World)
  | message (data : Bool)
  | shutdown

/-- scripts/spawner 119-124: the program begins at the time `now`. -/
def init (now : Int) : St := { phase := .service .load now }

/-- scripts/spawner 180-196. -/
def St.work (s : St) (controllers : List String) : St := { s with phase := .loading controllers }

/-- scripts/spawner 138-144: the handler for exceptions of the three waits. -/
def St.handle (s : St) (w : World) : St :=
  if w.simTime && w.clockZero then { s with phase := .service .load w.now } else { s with phase := .gone }

/-- scripts/spawner 124-137, 145-161: a wait is over. The subscription (160) comes after the waits, so nothing has been
heard before. -/
def St.found (s : St) (a : Args) (controllers : List String) (w : World) : Service → St
  | .load => { s with phase := .service .switch w.now }
  | .switch => { s with phase := .service .unload w.now }
  | .unload => if a.waits then { s with phase := .topic w.now false, heard := none } else s.work controllers

/-- The time of a wait that began at the time `since` is over (`wait_for_service` with `timeout`). -/
def Args.expired (a : Args) (w : World) (since : Int) : Bool :=
  match a.limit with
  | none => false
  | some t => decide (w.now - since ≥ t)

/-- A step of the main thread. `controllers` are the names of 182-193. -/
def St.go (a : Args) (controllers : List String) (s : St) (w : World) : St :=
  match s.phase with
  -- 121-146
  | .service v since =>
    if s.down then s.handle w
    else if a.expired w since then s.handle w
    else if w.available (a.serviceName v) then s.found a controllers w v
    else s
  -- 165-173
  | .topic started warned =>
    if s.heard.isSome then { s with phase := .data }
    else if s.down then { s with phase := .gone }
    else if warned then s
    else
      match a.limit with
      -- 170: `float > None`
      | none => { s with phase := .crashed }
      | some t => if w.now - started > t then { s with phase := .topic started true } else s
  -- 174-177
  | .data =>
    if s.heard = some true then s.work controllers
    else if s.down then { s with phase := .gone }
    else s
  -- 196-203
  | .loading [] => { s with phase := if s.down then .gone else if a.stopped then .spinning else .starting }
  | .loading (n :: ns) =>
    { s with
      phase := .loading ns
      requests := s.requests ++ [.load (a.serviceName .load) n w.answer]
      loaded := if w.answer then s.loaded ++ [n] else s.loaded }
  -- 211-216
  | .starting =>
    { s with phase := .spinning, requests := s.requests ++ [.switch (a.serviceName .switch) s.loaded] }
  -- 218
  | .spinning => if s.down then { s with phase := .gone } else s
  | .gone => s
  | .crashed => s

/-- One event. A message only counts once the program has subscribed (160). -/
def St.step (a : Args) (controllers : List String) (s : St) : In → St
  | .run w => s.go a controllers w
  | .message b =>
    match s.phase with
    | .service _ _ => s
    | _ => if a.waits then { s with heard := some b } else s
  | .shutdown => { s with down := true }

/-- A sequence of events. -/
def St.steps (a : Args) (controllers : List String) (s : St) (is : List In) : St := is.foldl (St.step a controllers) s

end Verif.Spawner
