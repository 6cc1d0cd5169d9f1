import Verif.Model.Basic
import Verif.Model.ControllerBase
import Verif.Model.RobotHW

/-!
The controller manager: controller_manager/src/controller_manager.cpp and
controller_manager/include/controller_manager/controller_manager.h.

Granularity. One realtime `update` is one atomic step. A service call runs atomically up to the
loop in which it waits for the realtime thread; each iteration of such a loop is one `poll`
step, so any number of updates can happen in between. Service calls exclude each other
(`services_lock_`, `controllers_lock_`): a call made while another one is in progress is not
executed (it would wait for the lock), the model skips it. Finer interleavings are the subject
of `Verif.Model.DoubleBuffer` and `Verif.Model.SwitchRace`.

Oracles. Hardware replies, clocks, `ros::ok()`, the parameter server, the controller loaders
and the outcome of controller initialisation are arguments of the operations. Times and
timeouts are integers (nanoseconds) instead of `ros::Time`/`double` seconds.
-/

namespace Verif

/-- Identity of a controller object (its address). Identities are never reused. -/
abbrev CId := Nat

/-- controller_spec.h 51-55: one entry of a controllers list. -/
structure CtrlSpec where
  info : ControllerInfo
  c : CId
deriving DecidableEq, Repr

/-- controller_manager.h 191-201: `SwitchParams` with its default values. `initTime` is
`ros::TIME_MAX` by default; it is never read before it is assigned (only read while
`do_switch`). -/
structure SwitchParams where
  doSwitch : Bool := false
  started : Bool := false
  initTime : Int := 0
  strictness : Int := 0
  asap : Bool := false
  timeout : Int := 0
deriving DecidableEq, Repr

/-- What a service call that is waiting in a loop does after the function it is in returns:
return to the client, or continue `reload_controller_libraries` by unloading `rest`
(controller_manager.cpp 664-676). -/
inductive Kont
  | ret
  | reload (rest : List String)
deriving DecidableEq, Repr

/-- The function that waits until the realtime thread has left the old list. -/
inductive Releasing
  | load (name : String)
  | unload (name : String) (k : Kont)
deriving DecidableEq, Repr

/-- Where the service thread is. -/
inductive Svc
  /-- no call in progress -/
  | idle
  /-- controller_manager.cpp 616-630, waiting for the realtime thread to do the switch -/
  | switching (k : Kont) (timeout : Int)
  /-- controller_manager.cpp 352-359 and 419-426, waiting for the list `former` -/
  | releasing (former : Bool) (r : Releasing)
  /-- controller_manager.cpp 669-676, about to unload the next controller of a reload -/
  | unloading (rest : List String)
deriving DecidableEq, Repr

/-- Observable events, oldest first in `Mgr.trace`. -/
inductive Event
  /-- a virtual callback of a controller object -/
  | cb (c : CId) (k : Callback)
  /-- `RobotHW::prepareSwitch(start, stop)` and its answer -/
  | prepareSwitch (start stop : List ControllerInfo) (ok : Bool)
  /-- a switch was accepted with these hardware lists -/
  | accepted (start stop : List ControllerInfo)
  /-- `RobotHW::doSwitch(start, stop)` -/
  | doSwitch (start stop : List ControllerInfo)
  /-- the last reference of the manager to a controller object was dropped -/
  | destroyed (c : CId)
  /-- function returns -/
  | loadRet (name : String) (ok : Bool)
  | unloadRet (name : String) (ok : Bool)
  | switchRet (ok : Bool)
  | reloadRet (ok : Bool)
deriving DecidableEq, Repr

/-- State of the manager, controller_manager.h 176-218. `cur` is
`controllers_lists_[current_controllers_list_]`, `oth` is the other list, `current` is
`current_controllers_list_` (0/1 as a Bool), `used` is `used_by_realtime_` (`none` = -1),
`state` is `state_` of every controller object, `fault` records that a pointer to a destroyed
controller was dereferenced (undefined behaviour in C++). -/
structure Mgr where
  cur : List CtrlSpec := []
  oth : List CtrlSpec := []
  current : Bool := false
  used : Option Bool := none
  state : CId → CState := fun _ => .constructed
  nextId : CId := 0
  startReq : List CId := []
  stopReq : List CId := []
  swStart : List ControllerInfo := []
  swStop : List ControllerInfo := []
  params : SwitchParams := {}
  svc : Svc := .idle
  trace : List Event := []
  fault : Bool := false

namespace Mgr

/-- A controller object exists as long as a list holds a shared pointer to it. -/
def alive (m : Mgr) (c : CId) : Bool := (m.cur ++ m.oth).any fun s => s.c = c

/-- A lifecycle request on the controller object `c` (controller_base.h 137-213). -/
def req (m : Mgr) (r : Request) (c : CId) : Mgr :=
  if m.alive c then
    let o := r.run (m.state c)
    { m with
      state := fun x => if x = c then o.state else m.state x
      trace := m.trace ++ o.calls.map (.cb c) }
  else { m with fault := true }

/-- `isRunning()` of the controller object `c`. -/
def isRunning (m : Mgr) (c : CId) : Bool := (m.state c).isRunning

/-- Append events (plumbing). -/
def emit (m : Mgr) (es : List Event) : Mgr := { m with trace := m.trace ++ es }

/-! ### Realtime side -/

/-- Answers of the hardware during one update. `switchResult()` is called up to twice
(controller_manager.cpp 153, 163); `switchResult(info)` up to twice per started controller
(197, 202), `n` is the position in `start_request_`. -/
structure HwReply where
  first : SwitchState
  second : SwitchState
  per : Nat → ControllerInfo → SwitchState × SwitchState

/-- controller_manager.cpp 164-165 and 203-204: the configured timeout has elapsed. -/
def timedOut (p : SwitchParams) (time : Int) : Bool :=
  p.timeout > 0 && time - p.initTime > p.timeout

/-- controller_manager.cpp 138-148: `stopControllers`. -/
def stopControllers (m : Mgr) : Mgr :=
  m.stopReq.foldl (fun m c => if m.isRunning c then m.req .stop c else m) m

/-- controller_manager.cpp 150-182: `startControllers`. -/
def startControllers (m : Mgr) (time : Int) (hw : HwReply) : Mgr :=
  if hw.first = .done then
    let m := m.startReq.foldl (fun m c => m.req .start c) m
    { m with params := { m.params with doSwitch := false } }
  else if hw.second = .error || timedOut m.params time then
    let m := m.startReq.foldl (fun m c => m.req .abort c) m
    { m with params := { m.params with doSwitch := false } }
  else
    m.startReq.foldl (fun m c => m.req .wait c) m

/-- controller_manager.cpp 194-213: the body of the inner loop of `startControllersAsap` for the
list entry `s`. -/
def asapEntry (n : Nat) (c : CId) (time : Int) (hw : HwReply) (m : Mgr) (s : CtrlSpec) : Mgr :=
  if c = s.c then
    if (hw.per n s.info).1 = .done then m.req .start c
    else if (hw.per n s.info).2 = .error || timedOut m.params time then m.req .abort c
    else m.req .wait c
  else m

/-- controller_manager.cpp 187-217: the outer loop of `startControllersAsap`, from position `n`
of `start_request_`. -/
def asapLoop (time : Int) (hw : HwReply) : Nat → List CId → Mgr → Mgr
  | _, [], m => m
  | n, c :: cs, m =>
    asapLoop time hw (n + 1) cs
      (if !m.isRunning c then m.cur.foldl (asapEntry n c time hw) m else m)

/-- controller_manager.cpp 184-227: `startControllersAsap`. -/
def startControllersAsap (m : Mgr) (time : Int) (hw : HwReply) : Mgr :=
  let m := asapLoop time hw 0 m.startReq m
  if m.startReq.all fun c => (m.state c).isRunning || (m.state c).isAborted then
    { m with params := { m.params with doSwitch := false } }
  else m

/-- controller_manager.cpp 115-136: `manageSwitch`. -/
def manageSwitch (m : Mgr) (time : Int) (hw : HwReply) : Mgr :=
  let m :=
    if !m.params.started then
      { m.emit [.doSwitch m.swStart m.swStop] with params := { m.params with started := true } }
    else m
  let m := m.stopControllers
  if !m.params.asap then m.startControllers time hw else m.startControllersAsap time hw

/-- controller_manager.cpp 71-78: restart of the running controllers. -/
def resetControllers (m : Mgr) : Mgr :=
  m.cur.foldl (fun m s => if m.isRunning s.c then (m.req .stop s.c).req .start s.c else m) m

/-- controller_manager.cpp 82-83: update of all controllers. -/
def updateControllers (m : Mgr) : Mgr :=
  m.cur.foldl (fun m s => m.req .update s.c) m

/-- controller_manager.cpp 66-90: `update`. The model iterates over `cur` because
`used_by_realtime_` has just been set to `current_controllers_list_`. -/
def update (m : Mgr) (time : Int) (reset : Bool) (hw : HwReply) : Mgr :=
  let m := { m with used := some m.current }
  let m := if reset then m.resetControllers else m
  let m := m.updateControllers
  if m.params.doSwitch then m.manageSwitch time hw else m

/-! ### Service side -/

/-- controller_manager.cpp 92-103: `getControllerByName`. -/
def getControllerByName (m : Mgr) (name : String) : Option CId :=
  (m.cur.find? fun s => s.info.name = name).map (·.c)

/-- controller_manager.cpp 105-113: `getControllerNames`. -/
def getControllerNames (m : Mgr) : List String := m.cur.map (·.info.name)

/-- One loader: the classes it declares and the outcome of `createInstance`. -/
inductive CreateResult
  | object
  | null
  | throws
deriving DecidableEq, Repr

/-- controller_loader_interface.h 45-58. -/
structure Loader where
  declared : List String
  create : String → CreateResult

/-- controller_manager.cpp 290-294: the loop over the classes one loader declares. `got` is
whether `c` is non-null so far; `none` is the `std::runtime_error` (leaving `c` as it was,
given in the second component). -/
def tryClasses (l : Loader) (type : String) : List String → Bool → Option Bool × Bool
  | [], got => (some got, got)
  | t :: ts, got =>
    if type = t then
      match l.create type with
      | .object => tryClasses l type ts true
      | .null => tryClasses l type ts false
      | .throws => (none, got)
    else tryClasses l type ts got

/-- controller_manager.cpp 284-301: the loop over the loaders and its handler. The result is the
position of the loader whose object is used, if any. -/
def instantiate (type : String) : Nat → List Loader → Option Nat
  | _, [] => none
  | i, l :: ls =>
    match tryClasses l type l.declared false with
    | (some true, _) => some i
    | (some false, _) => instantiate type (i + 1) ls
    | (none, true) => some i
    | (none, false) => none

/-- What `loadController` finds outside the manager: whether the node handle can be
constructed, the parameter `type`, the registered loaders, and the result of `initRequest`
(`none` = returned false or threw; see `Verif.Model.ControllerInit`). -/
structure LoadEnv where
  nodeHandleOk : Bool
  type : Option String
  loaders : List Loader
  init : Option (List InterfaceResources)

/-- controller_manager.cpp 229-364: `loadController`, up to the loop waiting for the realtime
thread. If the free list is still used by the realtime thread the call waits in 238-245; the
model does not start it (for a shutdown of ROS during that wait see `Verif.Model.Shutdown`). The object of a failed
load is destroyed before anything can refer to it, so it gets no identity. -/
def load (m : Mgr) (name : String) (env : LoadEnv) : Mgr :=
  if m.svc ≠ .idle then m
  else if m.used = some (!m.current) then m
  else
    -- 249-253: copy the current list
    let m := { m with oth := m.cur }
    -- 256-264
    if m.oth.any (fun s => s.info.name = name) then
      { m with oth := [] }.emit [.loadRet name false]
    -- 266-278
    else if !env.nodeHandleOk then m.emit [.loadRet name false]
    else
      match env.type with
      -- 303-308
      | none => { m with oth := [] }.emit [.loadRet name false]
      | some type =>
        match instantiate type 0 env.loaders with
        -- 311-317
        | none => { m with oth := [] }.emit [.loadRet name false]
        | some _ =>
          match env.init with
          -- 334-339
          | none => { m with oth := [] }.emit [.loadRet name false]
          | some claimed =>
            -- 342-351: append, publish
            let c := m.nextId
            let spec : CtrlSpec := ⟨⟨name, type, claimed⟩, c⟩
            { m with
              cur := m.oth ++ [spec]
              oth := m.cur
              current := !m.current
              state := fun x => if x = c then (initRequest true .constructed).state else m.state x
              nextId := c + 1
              svc := .releasing m.current (.load name) }

/-- controller_manager.cpp 389-404: transfer of the controllers that stay. `none` = the
controller is still running. -/
def transfer (m : Mgr) (name : String) : List CtrlSpec → List CtrlSpec → Bool → Option (List CtrlSpec × Bool)
  | [], out, removed => some (out, removed)
  | s :: ss, out, removed =>
    if s.info.name = name then
      if m.isRunning s.c then none else transfer m name ss out true
    else transfer m name ss (out ++ [s]) removed

/-- controller_manager.cpp 367-433: `unloadController` up to the loop waiting for the realtime
thread; `onFail` is what happens in the caller when it returns false at once. As in `load`, the wait for
the free list (376-383) is not modelled, and objects left in that list by a call that gave up during a
shutdown of ROS disappear without an event. -/
def unloadCore (m : Mgr) (name : String) (k : Kont) (onFail : Mgr → Mgr) : Mgr :=
  if m.used = some (!m.current) then m
  else
    match m.transfer name m.cur [] false with
    | none => onFail ({ m with oth := [] }.emit [.unloadRet name false])
    | some (out, removed) =>
      if !removed then onFail ({ m with oth := [] }.emit [.unloadRet name false])
      else
        { m with
          cur := out
          oth := m.cur
          current := !m.current
          svc := .releasing m.current (.unload name k) }

/-- `unloadController` called by a client. -/
def unload (m : Mgr) (name : String) : Mgr :=
  if m.svc ≠ .idle then m else m.unloadCore name .ret id

/-- controller_manager_msgs/srv/SwitchController.srv 25-26. -/
def strictnessBestEffort : Int := 1
/-- controller_manager_msgs/srv/SwitchController.srv 25-26. -/
def strictnessStrict : Int := 2

/-- Arguments of `switchController`. -/
structure SwitchReq where
  start : List String
  stop : List String
  strictness : Int
  asap : Bool
  timeout : Int

/-- controller_manager.cpp 463-483 and 487-508: names to objects. `none` = a name is unknown
under STRICT. -/
def resolve (m : Mgr) (strict : Bool) : List String → List CId → Option (List CId)
  | [], acc => some acc
  | n :: ns, acc =>
    match m.getControllerByName n with
    | none => if strict then none else resolve m strict ns acc
    | some c => resolve m strict ns (acc ++ [c])

/-- Lists built while scanning the loaded controllers. -/
structure Scan where
  swStart : List ControllerInfo := []
  swStop : List ControllerInfo := []
  infos : List ControllerInfo := []
deriving DecidableEq, Repr

/-- controller_manager.cpp 516-586: the scan over the loaded controllers. The Boolean is false
if the request is refused; the lists are then as far as they were built. -/
def scan (m : Mgr) (strict : Bool) (startReq stopReq : List CId) : List CtrlSpec → Scan → Bool × Scan
  | [], acc => (true, acc)
  | s :: ss, acc =>
    let inStop := stopReq.any (fun c => c = s.c)
    let inStart := startReq.any (fun c => c = s.c)
    let running := m.isRunning s.c
    -- 542-551
    if !running && inStop && strict then (false, acc)
    else
      let inStop := if !running && inStop then false else inStop
      -- 553-562
      if running && !inStop && inStart && strict then (false, acc)
      else
        let inStart := if running && !inStop && inStart then false else inStart
        -- 564-569
        if inStop && inStart then (false, acc)
        else
          -- 571-576
          let acc :=
            if running && inStop && !inStart then { acc with swStop := acc.swStop ++ [s.info] }
            else if !running && !inStop && inStart then
              { acc with swStart := acc.swStart ++ [s.info] }
            else acc
          -- 578-585
          let add := running
          let add := if inStop then false else add
          let add := if inStart then true else add
          let acc := if add then { acc with infos := acc.infos ++ [s.info] } else acc
          scan m strict startReq stopReq ss acc

/-- Requests cleared and `false` returned. -/
def refuse (m : Mgr) : Mgr := { m with startReq := [], stopReq := [] }.emit [.switchRet false]

/-- controller_manager.cpp 436-616: `switchController` up to the loop waiting for the realtime
thread. `conf` is `RobotHW::checkForConflict`, `prepOk` the answer of `prepareSwitch`, `now` the
value of `ros::Time::now()`. Returns whether the switch was accepted. -/
def switchCore (conf : List ControllerInfo → Bool) (m : Mgr) (r : SwitchReq) (now : Int) (prepOk : Bool)
    (k : Kont) : Bool × Mgr :=
  -- 440
  let m := { m with params := {} }
  -- 445-450
  let strictness := if r.strictness = 0 then strictnessBestEffort else r.strictness
  let strict : Bool := strictness = strictnessStrict
  -- 463-483
  match m.resolve strict r.stop m.stopReq with
  | none => (false, { m with stopReq := [] }.emit [.switchRet false])
  | some stopReq =>
    -- 487-508
    match m.resolve strict r.start m.startReq with
    | none => (false, m.refuse)
    | some startReq =>
      let m := { m with startReq := startReq, stopReq := stopReq }
      -- 512-586
      let (ok, sc) := m.scan strict startReq stopReq m.cur {}
      let m := { m with swStart := sc.swStart, swStop := sc.swStop }
      if !ok then (false, m.refuse)
      -- 588-595
      else if conf sc.infos then (false, m.refuse)
      -- 597-603
      else if !prepOk then
        (false, (m.emit [.prepareSwitch sc.swStart sc.swStop false]).refuse)
      else
        -- 606-610
        (true, { m.emit [.prepareSwitch sc.swStart sc.swStop true, .accepted sc.swStart sc.swStop] with
          params :=
            { doSwitch := true, started := false, initTime := now, strictness := strictness,
              asap := r.asap, timeout := r.timeout }
          svc := .switching k r.timeout })

/-- `switchController` called by a client. -/
def switch (conf : List ControllerInfo → Bool) (m : Mgr) (r : SwitchReq) (now : Int) (prepOk : Bool) :
    Mgr :=
  if m.svc ≠ .idle then m else (m.switchCore conf r now prepOk .ret).2

/-- controller_manager.cpp 642-692: `reloadControllerLibrariesSrv` up to the first wait. The
reload of the plugin loaders itself (682-687) has no effect on the modelled state. -/
def reload (conf : List ControllerInfo → Bool) (m : Mgr) (force : Bool) (now : Int) (prepOk : Bool) :
    Mgr :=
  if m.svc ≠ .idle then m
  else
    let names := m.getControllerNames
    if !names.isEmpty && !force then m.emit [.reloadRet false]
    else if !names.isEmpty then
      -- 664-668 (start_asap and timeout have their default values, controller_manager.h 67-68, 145-146)
      match m.switchCore conf ⟨[], names, strictnessBestEffort, false, 0⟩ now prepOk (.reload names) with
      | (false, m) => m.emit [.reloadRet false]
      | (true, m) => m
    else m.emit [.reloadRet true]

/-- `ros::ok()` as seen by one iteration of a wait loop: by its condition and, if the loop is
entered, by its body. -/
structure RosOk where
  cond : Bool := true
  body : Bool := true
deriving DecidableEq, Repr

/-- One second in the time unit of the model. -/
def second : Int := 1000000000

/-- Objects that are in the list about to be dropped and not in the current list. -/
def dropped (m : Mgr) : List CId := (m.oth.filter fun s => !m.cur.any fun t => t.c = s.c).map (·.c)

/-- controller_manager.cpp 360, 428: the old list is cleared, objects only it refers to are
destroyed. -/
def clearOld (m : Mgr) : Mgr := { m.emit (m.dropped.map .destroyed) with oth := [] }

/-- What happens when the function a service call is waiting in returns `ok`. -/
def finish (m : Mgr) (k : Kont) (ok : Bool) : Mgr :=
  match k with
  | .ret => { m with svc := .idle }
  -- 664-668, 670-675
  | .reload rest => if ok then { m with svc := .unloading rest } else
      { m with svc := .idle }.emit [.reloadRet false]

/-- One iteration of the loop the service thread is in. `elapsed` is the wall-clock time since
the loop was entered (controller_manager.cpp 616-638 for a switch, 352-363 and 419-432 for load
and unload, 669-688 for the reload). -/
def poll (m : Mgr) (ok : RosOk) (elapsed : Int) : Mgr :=
  match m.svc with
  | .idle => m
  | .switching k timeout =>
    if ok.cond && m.params.doSwitch then
      -- 618-621: the request lists are not cleared on this path
      if !ok.body then (m.emit [.switchRet false]).finish k false
      -- 623-624
      else if elapsed < timeout + second || timeout = 0 then m
      -- 625-635
      else ({ m with startReq := [], stopReq := [] }.emit [.switchRet false]).finish k false
    -- 631-632, 637-638
    else ({ m with startReq := [], stopReq := [] }.emit [.switchRet true]).finish k true
  | .releasing former r =>
    if ok.cond && m.used = some former then
      if !ok.body then
        match r with
        | .load name => { m.emit [.loadRet name false] with svc := .idle }
        | .unload name k => (m.emit [.unloadRet name false]).finish k false
      else m
    else
      let m := m.clearOld
      match r with
      | .load name => { m.emit [.loadRet name true] with svc := .idle }
      | .unload name k => (m.emit [.unloadRet name true]).finish k true
  | .unloading [] => { m with svc := .idle }.emit [.reloadRet true]
  | .unloading (n :: ns) =>
    m.unloadCore n (.reload ns) fun m => { m with svc := .idle }.emit [.reloadRet false]

/-- One entry of the answer of `list_controllers`. -/
structure Entry where
  name : String
  type : String
  state : String
  claimed : List InterfaceResources
deriving DecidableEq, Repr

/-- controller_manager.cpp 757-781. -/
def stateName (s : CState) : String :=
  if s.isInitialized then "initialized"
  else if s.isRunning then "running"
  else if s.isStopped then "stopped"
  else if s.isWaiting then "waiting"
  else if s.isAborted then "aborted"
  else "unknown"

/-- controller_manager.cpp 722-786: `listControllersSrv`. It has no effect on the state. -/
def listControllers (m : Mgr) : List Entry :=
  m.cur.map fun s => ⟨s.info.name, s.info.type, stateName (m.state s.c), s.info.claimed⟩

end Mgr

/-- Operations of the environment on a manager. -/
inductive Op
  | update (time : Int) (reset : Bool) (hw : Mgr.HwReply)
  | load (name : String) (env : Mgr.LoadEnv)
  | unload (name : String)
  | switch (r : Mgr.SwitchReq) (now : Int) (prepOk : Bool)
  | reload (force : Bool) (now : Int) (prepOk : Bool)
  | poll (ok : Mgr.RosOk) (elapsed : Int)

/-- One operation (dispatch). -/
def Mgr.step (conf : List ControllerInfo → Bool) (m : Mgr) : Op → Mgr
  | .update t r hw => m.update t r hw
  | .load n e => m.load n e
  | .unload n => m.unload n
  | .switch r now p => m.switch conf r now p
  | .reload f now p => m.reload conf f now p
  | .poll ok e => m.poll ok e

/-- A history of operations. -/
def Mgr.run (conf : List ControllerInfo → Bool) (m : Mgr) (ops : List Op) : Mgr :=
  ops.foldl (Mgr.step conf) m

/-- A freshly constructed manager (controller_manager.cpp 45-62). -/
def Mgr.init : Mgr := {}

end Verif
