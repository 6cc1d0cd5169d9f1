import Verif.Model.Manager
import Verif.Spec.Manager

/-!
Calls of the controller manager by several threads: controller_manager/src/controller_manager.cpp 92-113, 229-692,
721-835, with the two locks `services_lock_` (services only) and `controllers_lock_` (everything), and with the
public functions that can be called without a service (controller_manager.h 104-156).

Granularity. As in `Verif.Model.Manager`, a call runs atomically from the moment it gets `controllers_lock_` to
the loop in which it waits for the realtime thread, and each iteration of the loop is one step. What happens
before the lock is taken, and between two calls inside a reload, are steps of their own. `update` takes no lock.

Simplifications. All loaders count as one; a reload increases its generation (`Verif.Model.Plugins` tells them
apart). `registerControllerLoader` is left out. A recursive lock that its owner takes again (463-508: lookups of
names inside `switchController`) is no step.
-/

namespace Verif

namespace Thr

open Mgr

abbrev Tid := Nat

/-- Functions of the manager that clients call: controller_manager.cpp 229, 367, 436, 642, and 92-113 and 721-787
(reading the list). -/
inductive Call
  | load (name : String) (env : LoadEnv)
  | unload (name : String)
  | switch (r : SwitchReq) (now : Int) (prepOk : Bool)
  | reload (force : Bool) (now : Int) (prepOk : Bool)
  | names

/-- Where a thread is. `srv`: it is in a service, and holds `services_lock_`. `k`: the function is called by a
reload, which then goes on to unload these controllers. -/
inductive Pos
  | idle
  /-- 648, 704, 730, 795, 811, 827 (waiting for `services_lock_`) -/
  | atServices (c : Call)
  /-- about to take `controllers_lock_` (95, 107, 234, 372, 734; for a reload 653) -/
  | entered (srv : Bool) (c : Call)
  /-- at 440 -/
  | beforeSwitch (srv : Bool) (r : SwitchReq) (now : Int) (prepOk : Bool) (k : Option (List String))
  /-- at 459 -/
  | atSwitch (srv : Bool) (r : SwitchReq) (now : Int) (prepOk : Bool) (k : Option (List String))
  /-- 670, at 372 -/
  | atUnload (name : String) (rest : List String)
  /-- at 677 -/
  | atEnd
  /-- at 682; `killed`: there were controllers to unload -/
  | atLoaders (killed : Bool)
  /-- waiting for the realtime thread, holding `controllers_lock_` -/
  | inside (srv : Bool) (k : Option (List String))

/-- What a call returns. -/
inductive Answer
  | ret (e : Event)
  | names (ns : List String)
deriving DecidableEq, Repr

/-- The manager, the owners of the locks, the threads, the answers so far, the number of times that the loaders
have been reloaded, for each object this number when it was created, and whether 679 (`assert`) has failed. -/
structure St where
  mgr : Mgr := .init
  services : Option Tid := none
  controllers : Option Tid := none
  pos : Tid → Pos := fun _ => .idle
  answers : List (Tid × Answer) := []
  generation : Nat := 0
  made : CId → Nat := fun _ => 0
  assertFailed : Bool := false

/-- A thread moves (plumbing). -/
def St.at (s : St) (t : Tid) (p : Pos) : St := { s with pos := fun t' => if t' = t then p else s.pos t' }

/-- A call returns; a service releases `services_lock_` (destructor of the guard). -/
def St.answer (s : St) (t : Tid) (srv : Bool) (a : Answer) : St :=
  { (s.at t .idle) with
    services := if srv then none else s.services
    answers := s.answers ++ [(t, a)] }

/-- `reloadControllerLibrariesSrv` returns. -/
def St.endReload (s : St) (t : Tid) (ok : Bool) : St :=
  { s with mgr := s.mgr.emit [.reloadRet ok] }.answer t true (.ret (.reloadRet ok))

/-- controller_manager.cpp 669-677: the next controller to unload. -/
def next : List String → Pos
  | [] => .atEnd
  | n :: ns => .atUnload n ns

/-- The result that a function has just returned. -/
def okOf : Event → Bool
  | .loadRet _ ok => ok
  | .unloadRet _ ok => ok
  | .switchRet ok => ok
  | _ => false

/-- A function of the manager returns: `e` is its result. Inside a reload, 664-676. -/
def St.back (s : St) (t : Tid) (srv : Bool) (k : Option (List String)) (e : Event) : St :=
  match k with
  | none => s.answer t srv (.ret e)
  | some rest => if okOf e then s.at t (next rest) else s.endReload t false

/-- The event that has just been added (plumbing). -/
def last (m : Mgr) : Event := m.trace.getLast?.getD (.switchRet false)

/-- controller_manager.cpp 459-616: `switchController` from the moment it has the lock. It is the function of
`Verif.Model.Manager` without 440: `started` keeps the value it has, and a refused request leaves the parameters. -/
def switchLocked (conf : List ControllerInfo → Bool) (m : Mgr) (r : SwitchReq) (now : Int) (prepOk : Bool) : Bool × Mgr :=
  match m.switchCore conf r now prepOk .ret with
  | (true, m') => (true, { m' with params := { m'.params with started := m.params.started } })
  | (false, m') => (false, { m' with params := m.params })

/-- A thread has got `controllers_lock_` and executed a function up to its loop or its end, which has led to `m`. -/
def St.locked (s : St) (t : Tid) (srv : Bool) (k : Option (List String)) (m : Mgr) : St :=
  if m.svc = .idle then { s with mgr := m }.back t srv k (last m)
  else { (s.at t (.inside srv k)) with mgr := m, controllers := some t }

/-- One step of a thread; `none` if it is idle or waits for a lock. As in `Verif.Model.Manager`, a call that finds the
free list in use by the realtime thread (238-245, 376-383) is not started. -/
def St.go (conf : List ControllerInfo → Bool) (s : St) (t : Tid) (ok : RosOk) (elapsed : Int) : Option St :=
  match s.pos t with
  | .idle => none
  | .atServices c => if s.services = none then some { (s.at t (.entered true c)) with services := some t } else none
  | .entered srv (.load n env) =>
    if s.controllers ≠ none then none
    else if s.mgr.used = some (!s.mgr.current) then some s
    else some ({ s with made := fun c => if c = s.mgr.nextId then s.generation else s.made c }.locked t srv none
      (s.mgr.load n env))
  | .entered srv (.unload n) =>
    if s.controllers ≠ none then none
    else if s.mgr.used = some (!s.mgr.current) then some s
    else some (s.locked t srv none (s.mgr.unload n))
  | .entered srv .names => if s.controllers ≠ none then none else some (s.answer t srv (.names s.mgr.getControllerNames))
  | .entered srv (.switch r now p) => some (s.at t (.beforeSwitch srv r now p none))
  | .entered srv (.reload f now p) =>
    if s.controllers ≠ none then none
    -- 653-661
    else if !s.mgr.getControllerNames.isEmpty && !f then some (s.endReload t false)
    -- 664-665
    else if !s.mgr.getControllerNames.isEmpty then
      some (s.at t (.beforeSwitch srv ⟨[], s.mgr.getControllerNames, strictnessBestEffort, false, 0⟩ now p
        (some s.mgr.getControllerNames)))
    else some (s.at t (.atLoaders false))
  -- 440
  | .beforeSwitch srv r now p k => some ({ s with mgr := { s.mgr with params := {} } }.at t (.atSwitch srv r now p k))
  | .atSwitch srv r now p k =>
    if s.controllers ≠ none then none else some (s.locked t srv k (switchLocked conf s.mgr r now p).2)
  | .atUnload n ns =>
    if s.controllers ≠ none then none
    else if s.mgr.used = some (!s.mgr.current) then some s
    else some (s.locked t true (some ns) (s.mgr.unload n))
  -- 677-679
  | .atEnd =>
    if s.controllers ≠ none then none
    else some { (s.at t (.atLoaders true)) with
      assertFailed := s.assertFailed || !s.mgr.getControllerNames.isEmpty }
  -- 682-688
  | .atLoaders _ => some ({ s with generation := s.generation + 1 }.endReload t true)
  | .inside srv k =>
    let m := s.mgr.poll ok elapsed
    if m.svc = .idle then some ({ s with mgr := m, controllers := none }.back t srv k (last m))
    else some { s with mgr := m }

/-- Operations: a thread makes a call, as a client of the services or directly; a thread makes a step; the realtime
thread updates. -/
inductive ThrOp
  | call (t : Tid) (srv : Bool) (c : Call)
  | go (t : Tid) (ok : RosOk) (elapsed : Int)
  | update (time : Int) (reset : Bool) (hw : HwReply)

/-- A thread makes a call. Only services reload the libraries (`reloadControllerLibrariesSrv` is private); a busy
thread makes no call. -/
def St.call (s : St) (t : Tid) (srv : Bool) (c : Call) : St :=
  match s.pos t, srv, c with
  | .idle, true, c => s.at t (.atServices c)
  | .idle, false, .reload _ _ _ => s
  | .idle, false, c => s.at t (.entered false c)
  | _, _, _ => s

/-- One operation (dispatch). -/
def St.step (conf : List ControllerInfo → Bool) (s : St) : ThrOp → St
  | .call t srv c => s.call t srv c
  | .go t ok el => (s.go conf t ok el).getD s
  | .update time reset hw => { s with mgr := s.mgr.update time reset hw }

/-- A history of operations. -/
def St.run (conf : List ControllerInfo → Bool) (s : St) (ops : List ThrOp) : St := ops.foldl (St.step conf) s

end Thr

end Verif
