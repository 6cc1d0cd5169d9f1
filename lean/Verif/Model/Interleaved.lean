import Verif.Model.Manager

/-!
`update` interleaved with service calls at the granularity of single accesses to the data shared
with the service thread and of single requests on controllers
(controller_manager/src/controller_manager.cpp 66-90, 115-227).

In `Verif.Mgr` an update is one operation. Here it is a sequence of steps, and between any two of
them the service thread may do any of its operations (a whole `loadController`, an iteration of a
wait loop, ...). Simplifications: the operations of the service thread are not cut further (for
the inside of `switchController` see `Verif.Model.SwitchRace`, for the accesses to the two lists
`Verif.Model.DoubleBuffer`); accesses are sequentially consistent; a loop of the realtime thread
goes through the list as it was when the loop began (in C++ a change of the list during the loop
is undefined behaviour; `Verif.Inter.Careful` excludes it for the request lists, and that it does
not happen to `controllers_lists_` is proved).
-/

namespace Verif.Inter

open Mgr

/-- Arguments of `update` (controller_manager.cpp 66) and the answers the hardware will give
during this update. -/
structure Args where
  time : Int
  reset : Bool
  hw : HwReply

/-- Position of the realtime thread. The lists are what is left of the loop. -/
inductive Rt
  /-- outside `update` -/
  | idle
  /-- 68: `current_controllers_list_` has been read, `used_by_realtime_` not yet written -/
  | read (u : Args) (r : Bool)
  /-- 72-77: restart of the running controllers -/
  | resetting (u : Args) (todo : List CtrlSpec)
  /-- between 74 and 75: stopped, not yet started again -/
  | restarting (u : Args) (c : CId) (todo : List CtrlSpec)
  /-- 82-83 -/
  | updating (u : Args) (todo : List CtrlSpec)
  /-- before 86 -/
  | looking (u : Args)
  /-- 141-147 -/
  | stopping (u : Args) (todo : List CId)
  /-- before 129 -/
  | choosing (u : Args)
  /-- 155-158 -/
  | starting (u : Args) (todo : List CId)
  /-- 167-170 -/
  | aborting (u : Args) (todo : List CId)
  /-- 177-180 -/
  | waiting (u : Args) (todo : List CId)
  /-- 187-217, `n` is the position in the loop -/
  | asap (u : Args) (n : Nat) (todo : List CId)

/-- The manager and the position of the realtime thread. -/
structure St where
  m : Mgr
  rt : Rt := .idle

/-- `controllers_lists_[r]`. -/
def list (m : Mgr) (r : Bool) : List CtrlSpec := if r = m.current then m.cur else m.oth

/-- `controllers_lists_[used_by_realtime_]` (72, 82); nothing before the first update. -/
def usedList (m : Mgr) : List CtrlSpec :=
  match m.used with
  | none => []
  | some r => list m r

/-- The next step of the realtime thread (controller_manager.cpp 66-90, 115-227). -/
def rtStep (s : St) (u : Args) : St :=
  match s.rt with
  -- 68, right hand side
  | .idle => { s with rt := .read u s.m.current }
  -- 68, assignment; 71
  | .read u r =>
    let m := { s.m with used := some r }
    ⟨m, if u.reset then .resetting u (usedList m) else .updating u (usedList m)⟩
  -- 72-74
  | .resetting u [] => { s with rt := .updating u (usedList s.m) }
  | .resetting u (c :: cs) =>
    if s.m.isRunning c.c then { m := s.m.req .stop c.c, rt := .restarting u c.c cs }
    else { s with rt := .resetting u cs }
  -- 75
  | .restarting u c cs => { m := s.m.req .start c, rt := .resetting u cs }
  -- 82-83
  | .updating u [] => { s with rt := .looking u }
  | .updating u (c :: cs) => { m := s.m.req .update c.c, rt := .updating u cs }
  -- 86, 118-124
  | .looking u =>
    if s.m.params.doSwitch then
      let m :=
        if !s.m.params.started then
          { s.m.emit [.doSwitch s.m.swStart s.m.swStop] with
            params := { s.m.params with started := true } }
        else s.m
      { m := m, rt := .stopping u m.stopReq }
    else { s with rt := .idle }
  -- 141-147
  | .stopping u [] => { s with rt := .choosing u }
  | .stopping u (c :: cs) =>
    { m := if s.m.isRunning c then s.m.req .stop c else s.m, rt := .stopping u cs }
  -- 127, 153, 163-165
  | .choosing u =>
    if s.m.params.asap then { s with rt := .asap u 0 s.m.startReq }
    else if u.hw.first = .done then { s with rt := .starting u s.m.startReq }
    else if u.hw.second = .error || timedOut s.m.params u.time then
      { s with rt := .aborting u s.m.startReq }
    else { s with rt := .waiting u s.m.startReq }
  -- 155-160
  | .starting _ [] =>
    { m := { s.m with params := { s.m.params with doSwitch := false } }, rt := .idle }
  | .starting u (c :: cs) => { m := s.m.req .start c, rt := .starting u cs }
  -- 167-172
  | .aborting _ [] =>
    { m := { s.m with params := { s.m.params with doSwitch := false } }, rt := .idle }
  | .aborting u (c :: cs) => { m := s.m.req .abort c, rt := .aborting u cs }
  -- 177-180
  | .waiting _ [] => { s with rt := .idle }
  | .waiting u (c :: cs) => { m := s.m.req .wait c, rt := .waiting u cs }
  -- 219-226
  | .asap _ _ [] =>
    if s.m.startReq.all fun c => (s.m.state c).isRunning || (s.m.state c).isAborted then
      { m := { s.m with params := { s.m.params with doSwitch := false } }, rt := .idle }
    else { s with rt := .idle }
  -- 187-217
  | .asap u n (c :: cs) =>
    { m := if !s.m.isRunning c then s.m.cur.foldl (asapEntry n c u.time u.hw) s.m else s.m
      rt := .asap u (n + 1) cs }

/-- One step of one of the threads. -/
inductive Step
  /-- the realtime thread; the arguments are used if a new update begins -/
  | rt (u : Args)
  /-- an operation of the service thread -/
  | svc (op : Op)

/-- One step. An update is not an operation of the service thread. -/
def step (conf : List ControllerInfo → Bool) (s : St) : Step → St
  | .rt u => rtStep s u
  | .svc (.update ..) => s
  | .svc op => { s with m := s.m.step conf op }

/-- An execution. -/
def run (conf : List ControllerInfo → Bool) (s : St) (ops : List Step) : St :=
  ops.foldl (step conf) s

/-- The realtime thread is outside `update`. -/
def start (m : Mgr) : St := { m := m }

end Verif.Inter
