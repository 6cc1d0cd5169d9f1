import Verif.Model.Manager

/-!
Vocabulary for the properties of the controller manager.
-/

namespace Verif

/-- ROS is not shutting down during the history. -/
def Op.rosUp : Op → Prop
  | .poll ok _ => ok.cond = true ∧ ok.body = true
  | _ => True

/-- The operation starts no switch (a reload may start one). -/
def Op.noSwitch : Op → Prop
  | .switch _ _ _ => False
  | .reload _ _ _ => False
  | _ => True

/-- The operation is not an update with `reset_controllers`. -/
def Op.noReset : Op → Prop
  | .update _ reset _ => reset = false
  | _ => True

/-- A manager state reached from a fresh manager by service calls, iterations of their wait
loops and realtime updates, in any order, while ROS is up. `conf` is the conflict check of the
hardware. -/
def Reachable (conf : List ControllerInfo → Bool) (m : Mgr) : Prop :=
  ∃ ops : List Op, (∀ op ∈ ops, op.rosUp) ∧ m = Mgr.init.run conf ops

namespace Mgr

/-- The loaded controllers that are running, in load order. -/
def running (m : Mgr) : List CtrlSpec := m.cur.filter fun s => m.state s.c = .running

/-- The service thread is waiting for the realtime thread to do a switch. -/
def Switching (m : Mgr) : Prop := ∃ k t, m.svc = .switching k t

/-- The service thread is waiting for the realtime thread to release the previous list. -/
def ReleasingList (m : Mgr) : Prop := ∃ f r, m.svc = .releasing f r

/-- The regular callbacks of one update: `update()` on the controllers of `l`, preceded by a
restart of each of them if controllers are reset. -/
def Driven (es : List Event) : Prop :=
  ∃ l : List CId, es = l.map (fun c => Event.cb c .update) ∨
    es = l.flatMap (fun c => [Event.cb c .stopping, .cb c .starting]) ++
      l.map (fun c => Event.cb c .update)

/-- The two managers cannot be told apart from now on: after any further operations they have
produced the same new events and have the same listing and controller states. -/
def SameFuture (conf : List ControllerInfo → Bool) (m m' : Mgr) : Prop :=
  ∀ ops : List Op, (∀ op ∈ ops, op.rosUp) → ∃ es,
    (m.run conf ops).trace = m.trace ++ es ∧ (m'.run conf ops).trace = m'.trace ++ es ∧
    (m'.run conf ops).listControllers = (m.run conf ops).listControllers ∧
    (m'.run conf ops).state = (m.run conf ops).state

end Mgr

namespace Spec

open Mgr

/-- The controller with this name is loaded. -/
def Loaded (m : Mgr) (n : String) : Prop := n ∈ m.cur.map (·.info.name)

/-- The controller with this name is loaded and running. -/
def Runs (m : Mgr) (n : String) : Prop := n ∈ m.running.map (·.info.name)

/-- The loaded controllers that would run after the switch, in load order. -/
def target (m : Mgr) (start stop : List String) : List ControllerInfo :=
  (m.cur.filter fun s =>
    (m.state s.c = .running ∧ s.info.name ∉ stop) ∨ s.info.name ∈ start).map (·.info)

/-- The loaded controllers of `names` that are running (`b = true`) or not, in load order. -/
def named (m : Mgr) (b : Bool) (names : List String) : List ControllerInfo :=
  (m.cur.filter fun s => decide (m.state s.c = .running) = b ∧ s.info.name ∈ names).map (·.info)

/-- The loader provides a controller of this type. -/
def Gives (l : Loader) (type : String) : Prop := type ∈ l.declared ∧ l.create type = .object

/-- The loader does not know this type, or knows it but creates no object (and does not throw). -/
def Passes (l : Loader) (type : String) : Prop := type ∈ l.declared → l.create type = .null

/-- The loader at position `i` is the first that has something to say, and provides an object. -/
def Provides (ls : List Loader) (type : String) (i : Nat) : Prop :=
  (∃ l, ls[i]? = some l ∧ Gives l type) ∧ ∀ j < i, ∀ l, ls[j]? = some l → Passes l type

/-- A controller with this name, type and these claims can be loaded. -/
def Loadable (m : Mgr) (name : String) (env : LoadEnv) (type : String)
    (claimed : List InterfaceResources) : Prop :=
  ¬ Loaded m name ∧ env.nodeHandleOk = true ∧ env.type = some type ∧
  (∃ i, Provides env.loaders type i) ∧ env.init = some claimed

/-- The lifecycle state that a callback puts a controller into. -/
def afterCallback : Callback → CState
  | .starting => .running
  | .update => .running
  | .stopping => .stopped
  | .waiting => .waiting
  | .aborting => .aborted

/-- The state of the controller object `c` in the eyes of someone who only sees the events: the
one its last callback put it into, or initialized if there was none. -/
def observed (c : CId) (t : List Event) : CState :=
  t.foldl (fun s e => match e with
    | .cb c' k => if c' = c then afterCallback k else s
    | _ => s) .initialized

/-- C13 in full: whenever a switch call returns true, every requested loaded controller to start
is running, and every one to stop (and not to start) is not. `m` is the manager before the call,
`ops` what happens (including realtime updates) until the last iteration of its wait loop. -/
def TrueReplyMeansSwitched (conf : List ControllerInfo → Bool) : Prop :=
  ∀ (m : Mgr), Reachable conf m → m.svc = .idle → ∀ (r : SwitchReq) (now : Int) (prepOk : Bool)
    (ops : List Op), (∀ op ∈ ops, op.rosUp) → (∀ op ∈ ops, op.noSwitch) → ∀ (elapsed : Int),
    ∀ m2, m2 = (m.switch conf r now prepOk).run conf ops →
    (m2.poll {} elapsed).trace = m2.trace ++ [.switchRet true] →
    ∀ n, Loaded m n → (n ∈ r.start → Runs (m2.poll {} elapsed) n) ∧
      (n ∈ r.stop → n ∉ r.start → ¬ Runs (m2.poll {} elapsed) n)

/-- C14 in full: after a switch call has returned false, and until the next switch or reload
request, the hardware is not switched and no controller is switched. -/
def FalseReplyMeansNothingLater (conf : List ControllerInfo → Bool) : Prop :=
  ∀ (m : Mgr), Reachable conf m → m.svc = .idle → ∀ (r : SwitchReq) (now : Int) (prepOk : Bool)
    (ops : List Op), (∀ op ∈ ops, op.rosUp) → (∀ op ∈ ops, op.noSwitch) → ∀ (elapsed : Int),
    ∀ m2, m2 = (m.switch conf r now prepOk).run conf ops →
    (m2.poll {} elapsed).trace = m2.trace ++ [.switchRet false] →
    ∀ (later : List Op), (∀ op ∈ later, op.rosUp) → (∀ op ∈ later, op.noSwitch) →
    (∀ c < m2.nextId, ((m2.poll {} elapsed).run conf later).state c = m2.state c) ∧
    ∃ es, ((m2.poll {} elapsed).run conf later).trace = (m2.poll {} elapsed).trace ++ es ∧
      (∀ c, .cb c .waiting ∉ es ∧ .cb c .aborting ∉ es) ∧
      ((∀ op ∈ later, op.noReset) → ∀ c, .cb c .starting ∉ es ∧ .cb c .stopping ∉ es) ∧
      (∀ a b, .doSwitch a b ∉ es)

end Spec

end Verif
