import Verif.Model.Manager

/-!
`switchController` and `update` interleaved at the granularity of single requests on
controllers (controller_manager/src/controller_manager.cpp 66-90, 115-227, 436-639).

The state of `Verif.Mgr` is extended with the positions of the realtime thread and of the
service thread. Simplifications: no controller is loaded or unloaded meanwhile; looking up the
requested names is one step (it reads nothing the realtime thread writes); the update callbacks
of line 82 change no controller state and are left out; accesses are sequentially consistent;
`ros::ok()` is true.
-/

namespace Verif.Race

open Mgr

/-- Position of the realtime thread. The lists are what is left of the loop. -/
inductive Rt
  /-- outside `update` -/
  | idle
  /-- 72-77: restart of the running controllers -/
  | resetting (todo : List CtrlSpec)
  /-- between 74 and 75: stopped, not yet started again -/
  | restarting (c : CId) (todo : List CtrlSpec)
  /-- before 86 -/
  | looking
  /-- 141-147 -/
  | stopping (todo : List CId)
  /-- before 129 -/
  | choosing
  /-- 155-158 -/
  | starting (todo : List CId)
  /-- 167-170 -/
  | aborting (todo : List CId)
  /-- 177-180 -/
  | waiting (todo : List CId)
  /-- 187-217, `n` is the position in the loop -/
  | asap (n : Nat) (todo : List CId)
deriving DecidableEq

/-- The realtime thread holds iterators into `stop_request_` or `start_request_`. -/
def Rt.holds : Rt → Bool
  | .stopping _ => true
  | .starting _ => true
  | .aborting _ => true
  | .waiting _ => true
  | .asap _ _ => true
  | _ => false

/-- Position of the service thread. -/
inductive SvcAt
  | idle
  /-- 516-586: validation, with what is left of the loop over the loaded controllers -/
  | scanning (r : SwitchReq) (now : Int) (prepOk : Bool) (todo : List CtrlSpec) (acc : Scan)
  /-- 616-629: waiting for the realtime thread -/
  | waiting

/-- The state. `ub` records that a request vector was changed while the realtime thread was
going through it. -/
structure St where
  m : Mgr
  rt : Rt := .idle
  at_ : SvcAt := .idle
  ub : Bool := false

/-- One step of one of the threads. -/
inductive Op
  /-- the realtime thread; `reset` and the rest are used where the step needs them -/
  | rt (reset : Bool) (time : Int) (hw : HwReply)
  /-- a call of `switchController` that gets the lock -/
  | call (r : SwitchReq) (now : Int) (prepOk : Bool)
  /-- the next step of the call -/
  | svc
  /-- the wall-clock limit of the wait loop is reached (621-628) -/
  | giveUp
  /-- a second direct call of `switchController` executes line 440 and then waits for the lock -/
  | intrude

/-- One step of the realtime thread. -/
def rtStep (s : St) (reset : Bool) (time : Int) (hw : HwReply) : St :=
  match s.rt with
  -- 68-72
  | .idle => if reset then { s with rt := .resetting s.m.cur } else { s with rt := .looking }
  -- 72-74
  | .resetting [] => { s with rt := .looking }
  | .resetting (c :: cs) =>
    if s.m.isRunning c.c then { s with m := s.m.req .stop c.c, rt := .restarting c.c cs }
    else { s with rt := .resetting cs }
  -- 75
  | .restarting c cs => { s with m := s.m.req .start c, rt := .resetting cs }
  -- 86, 118-124
  | .looking =>
    if s.m.params.doSwitch then
      let m :=
        if !s.m.params.started then
          { s.m.emit [.doSwitch s.m.swStart s.m.swStop] with
            params := { s.m.params with started := true } }
        else s.m
      { s with m := m, rt := .stopping m.stopReq }
    else { s with rt := .idle }
  -- 141-147
  | .stopping [] => { s with rt := .choosing }
  | .stopping (c :: cs) =>
    { s with m := if s.m.isRunning c then s.m.req .stop c else s.m, rt := .stopping cs }
  -- 127, 153, 163-165
  | .choosing =>
    if s.m.params.asap then { s with rt := .asap 0 s.m.startReq }
    else if hw.first = .done then { s with rt := .starting s.m.startReq }
    else if hw.second = .error || timedOut s.m.params time then
      { s with rt := .aborting s.m.startReq }
    else { s with rt := .waiting s.m.startReq }
  -- 155-160
  | .starting [] =>
    { s with m := { s.m with params := { s.m.params with doSwitch := false } }, rt := .idle }
  | .starting (c :: cs) => { s with m := s.m.req .start c, rt := .starting cs }
  -- 167-172
  | .aborting [] =>
    { s with m := { s.m with params := { s.m.params with doSwitch := false } }, rt := .idle }
  | .aborting (c :: cs) => { s with m := s.m.req .abort c, rt := .aborting cs }
  -- 177-180
  | .waiting [] => { s with rt := .idle }
  | .waiting (c :: cs) => { s with m := s.m.req .wait c, rt := .waiting cs }
  -- 219-226
  | .asap _ [] =>
    if s.m.startReq.all fun c => (s.m.state c).isRunning || (s.m.state c).isAborted then
      { s with m := { s.m with params := { s.m.params with doSwitch := false } }, rt := .idle }
    else { s with rt := .idle }
  -- 187-217
  | .asap n (c :: cs) =>
    { s with
      m := if !s.m.isRunning c then s.m.cur.foldl (asapEntry n c time hw) s.m else s.m
      rt := .asap (n + 1) cs }

/-- The request vectors are changed. -/
def touch (s : St) : St := { s with ub := s.ub || s.rt.holds }

/-- Requests cleared and `false` returned. -/
def refuse (s : St) : St := { touch s with m := s.m.refuse, at_ := .idle }

/-- controller_manager.cpp 445-450 and the tests for STRICT: a strictness of 0 counts as best
effort. -/
def isStrict (r : SwitchReq) : Bool := r.strictness = strictnessStrict

/-- controller_manager.cpp 440-508: from the call to the end of the name lookup. -/
def callStep (s : St) (r : SwitchReq) (now : Int) (prepOk : Bool) : St :=
  match s.at_ with
  | .idle =>
    let m := { s.m with params := {} }
    let strict := isStrict r
    match m.resolve strict r.stop m.stopReq with
    | none => refuse { s with m := m }
    | some stopReq =>
      match m.resolve strict r.start m.startReq with
      | none => refuse { s with m := m }
      | some startReq =>
        { touch s with
          m := { m with startReq := startReq, stopReq := stopReq }
          at_ := .scanning r now prepOk m.cur {} }
  | _ => s

/-- controller_manager.cpp 512-639: the next step of the call. -/
def svcStep (conf : List ControllerInfo → Bool) (s : St) : St :=
  match s.at_ with
  | .idle => s
  -- 516-586, one iteration
  | .scanning r now prepOk (c :: cs) acc =>
    let (ok, acc) := s.m.scan (isStrict r) s.m.startReq s.m.stopReq [c] acc
    if ok then { s with at_ := .scanning r now prepOk cs acc } else refuse s
  -- 588-610
  | .scanning r now prepOk [] acc =>
    if conf acc.infos || !prepOk then refuse s
    else
      { s with
        m := { s.m with
          swStart := acc.swStart
          swStop := acc.swStop
          params :=
            { doSwitch := true, started := false, initTime := now, strictness := r.strictness,
              asap := r.asap, timeout := r.timeout } }
        at_ := .waiting }
  -- 616, 630-638
  | .waiting =>
    if s.m.params.doSwitch then s
    else
      { touch s with
        m := { s.m with startReq := [], stopReq := [] }.emit [.switchRet true], at_ := .idle }

/-- controller_manager.cpp 625-635. -/
def giveUpStep (s : St) : St :=
  match s.at_ with
  | .waiting => refuse s
  | _ => s

/-- One step. -/
def step (conf : List ControllerInfo → Bool) (s : St) : Op → St
  | .rt reset time hw => rtStep s reset time hw
  | .call r now prepOk => callStep s r now prepOk
  | .svc => svcStep conf s
  | .giveUp => giveUpStep s
  -- 440
  | .intrude => { s with m := { s.m with params := {} } }

/-- An execution. -/
def run (conf : List ControllerInfo → Bool) (s : St) (ops : List Op) : St :=
  ops.foldl (step conf) s

/-- Both threads are outside `update` and `switchController`. -/
def start (m : Mgr) : St := { m := m }

end Verif.Race
