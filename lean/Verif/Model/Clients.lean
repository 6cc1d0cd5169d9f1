import Verif.Spec.Manager

/-!
Model of the client programs of the controller manager: `controller_manager/scripts/spawner`,
`scripts/unspawner`, `scripts/controller_group` and
`src/controller_manager/controller_manager_interface.py`.

A client is a sequence of blocking service calls. What the manager does until it answers depends
on the realtime thread, so a client is modelled by a relation between the manager states before
and after it. Simplifications: the transport does not fail (the `ServiceException` branches of the
clients are not modelled), waiting for services, logging and printing have no effect, and unless a
definition says otherwise no other client calls the manager between two calls of the program.
-/

namespace Verif

open Mgr

/-- What goes on in the background of a service call: realtime updates and iterations of the wait
loop the service thread is in, while ROS is up. `errors` tells whether the hardware may report an
error during a switch. -/
def Op.background (errors : Bool) : Op → Prop
  | .update _ _ hw => errors = false → hw.second ≠ .error ∧ ∀ i info, (hw.per i info).2 ≠ .error
  | .poll ok _ => ok.cond = true ∧ ok.body = true
  | _ => False

namespace Clients

/-- The service calls that change something (controller_manager.cpp 642-692, 789-835). `env`,
`now` and `prepOk` are what the manager meets while it serves the call. -/
inductive Call
  | load (name : String) (env : LoadEnv)
  | unload (name : String)
  | switch (r : SwitchReq) (now : Int) (prepOk : Bool)
  | reload (force : Bool) (now : Int) (prepOk : Bool)

/-- The call as an operation on the manager. -/
def Call.op : Call → Op
  | .load n e => .load n e
  | .unload n => .unload n
  | .switch r now p => .switch r now p
  | .reload f now p => .reload f now p

/-- The event by which the manager answers `ok` (controller_manager.cpp 649-691, 789-835: the
field `ok` of the response is the value the function returns). -/
def Call.answer (ok : Bool) : Call → Event
  | .load n _ => .loadRet n ok
  | .unload n => .unloadRet n ok
  | .switch _ _ _ => .switchRet ok
  | .reload _ _ _ => .reloadRet ok

/-- `s.call(...)`: the client calls a service of the manager `m`, possibly some time later, and the
manager answers `ok`; it is `m'` then. Only the realtime thread and the service thread have run. -/
def Served (conf : List ControllerInfo → Bool) (errors : Bool) (m : Mgr) (c : Call) (ok : Bool) (m' : Mgr) : Prop :=
  m.svc = .idle ∧ ∃ before during : List Op,
    (∀ op ∈ before, op.background errors) ∧ (∀ op ∈ during, op.background errors) ∧
    m' = ((m.run conf before).step conf c.op).run conf during ∧
    m'.svc = .idle ∧ m'.trace.getLast? = some (c.answer ok)

/-! ### spawner -/

/-- scripts/spawner 182-193: the controllers to load. `file name` is the list of the keys of the
YAML file of that name, if there is one (`yaml.load` and the upload of the parameters are not
modelled). -/
def expand (file : String → Option (List String)) (args : List String) : List String :=
  args.foldl (fun controllers name =>
    match file name with
    | some keys => keys.foldl (fun cs c => cs ++ [c]) controllers
    | none => controllers ++ [name]) []

/-- scripts/spawner 195-203: load controllers; `loaded` are those the manager answered true for.
`env` says what the manager meets when it loads a controller. -/
inductive Loads (conf : List ControllerInfo → Bool) (errors : Bool) (env : String → LoadEnv) :
    List String → Mgr → List String → Mgr → Prop
  | nil (m) : Loads conf errors env [] m [] m
  | ok {n ns m m1 l m2} : Served conf errors m (.load n (env n)) true m1 → Loads conf errors env ns m1 l m2 →
      Loads conf errors env (n :: ns) m (n :: l) m2
  | failed {n ns m m1 l m2} : Served conf errors m (.load n (env n)) false m1 → Loads conf errors env ns m1 l m2 →
      Loads conf errors env (n :: ns) m l m2

/-- scripts/spawner 195-216: load, then start all loaded ones unless `--stopped`. The answer of
the switch is only logged. `prepOk` is the answer of the hardware to the start. -/
def Spawns (conf : List ControllerInfo → Bool) (errors : Bool) (env : String → LoadEnv) (stopped prepOk : Bool)
    (controllers : List String) (m : Mgr) (loaded : List String) (m' : Mgr) : Prop :=
  ∃ m1, Loads conf errors env controllers m loaded m1 ∧
    if stopped then m' = m1
    else ∃ now ok,
      Served conf errors m1 (.switch ⟨loaded, [], strictnessStrict, false, 0⟩ now prepOk) ok m'

/-- scripts/spawner 179-180, 195-200: the shutdown begins (in the main thread, where Python runs signal
handlers) while a request to load is under way: the manager serves it, but its answer is not taken, so
that the name is not added to `loaded`. -/
def SpawnsInterrupted (conf : List ControllerInfo → Bool) (errors : Bool) (env : String → LoadEnv)
    (controllers : List String) (m : Mgr) (loaded : List String) (m' : Mgr) : Prop :=
  ∃ pre n post, controllers = pre ++ n :: post ∧ ∃ m1 ok, Loads conf errors env pre m loaded m1 ∧
    Served conf errors m1 (.load n (env n)) ok m'

/-- scripts/spawner 67-70: unload the controllers one by one; the answers are ignored. -/
inductive Unloads (conf : List ControllerInfo → Bool) (errors : Bool) : List String → Mgr → Mgr → Prop
  | nil (m) : Unloads conf errors [] m m
  | cons {n ns m ok m1 m2} : Served conf errors m (.unload n) ok m1 → Unloads conf errors ns m1 m2 →
      Unloads conf errors (n :: ns) m m2

/-- scripts/spawner 52-72: `shutdown`. `prepOk` is the answer of the hardware to the stop. The
answer of the switch is ignored. -/
def Shutdown (conf : List ControllerInfo → Bool) (errors : Bool) (loaded : List String) (prepOk : Bool)
    (m m' : Mgr) : Prop :=
  ∃ now ok m1, Served conf errors m (.switch ⟨[], loaded, strictnessStrict, false, 0⟩ now prepOk) ok m1 ∧
    Unloads conf errors loaded.reverse m1 m'

/-! ### unspawner -/

/-- scripts/unspawner 51-58: `stop_controllers`. `inhibited` and `inhibited'` are the lists of the
elements of the Python set before and after; `toStop` is the set intersection as a list, in any
order. The list of controllers is fetched some time before the call (`before`). -/
def StopRound (conf : List ControllerInfo → Bool) (errors : Bool) (toInhibit : List String) (prepOk : Bool)
    (inhibited : List String) (m : Mgr) (inhibited' : List String) (m' : Mgr) : Prop :=
  ∃ before : List Op, (∀ op ∈ before, op.background errors) ∧ ∃ toStop : List String, toStop.Nodup ∧
    (∀ n, n ∈ toStop ↔ n ∈ toInhibit ∧ ∃ e ∈ (m.run conf before).listControllers,
      e.name = n ∧ e.state = "running") ∧
    if toStop = [] then inhibited' = inhibited ∧ m' = m.run conf before
    else (∀ n, n ∈ inhibited' ↔ n ∈ inhibited ∨ n ∈ toStop) ∧ inhibited'.Nodup ∧
      ∃ now ok, Served conf errors (m.run conf before)
        (.switch ⟨[], toStop, strictnessBestEffort, false, 0⟩ now prepOk) ok m'

/-- scripts/unspawner 63-67: `restart_controllers`, with the elements of the set `inhibited` in any
order. -/
def Restart (conf : List ControllerInfo → Bool) (errors : Bool) (inhibited : List String) (prepOk : Bool)
    (m m' : Mgr) : Prop :=
  ∃ now ok, Served conf errors m (.switch ⟨inhibited, [], strictnessBestEffort, false, 0⟩ now prepOk) ok m'

/-! ### controller_manager_interface.py -/

/-- controller_manager_interface.py 98-111: `start_stop_controllers`; `ok` is the value
returned. `start_controller(s)` and `stop_controller(s)` (82-95) are special cases. -/
def StartStop (conf : List ControllerInfo → Bool) (errors : Bool) (start stop : List String) (prepOk : Bool)
    (m : Mgr) (ok : Bool) (m' : Mgr) : Prop :=
  ∃ now, Served conf errors m (.switch ⟨start, stop, strictnessStrict, false, 0⟩ now prepOk) ok m'

/-- controller_manager_interface.py 36-37: load controllers one after the other, ignoring the
answers. -/
inductive LoadAll (conf : List ControllerInfo → Bool) (errors : Bool) (env : String → LoadEnv) :
    List String → Mgr → Mgr → Prop
  | nil (m) : LoadAll conf errors env [] m m
  | cons {n ns m ok m1 m2} : Served conf errors m (.load n (env n)) ok m1 → LoadAll conf errors env ns m1 m2 →
      LoadAll conf errors env (n :: ns) m m2

/-- controller_manager_interface.py 15-43: `reload_libraries(force_kill, restore)`; `result` is
the value returned. `prepOk` and `prepOk'` are the answers of the hardware to the stop of all
controllers and to the start. -/
def ReloadLibraries (conf : List ControllerInfo → Bool) (errors : Bool) (env : String → LoadEnv)
    (force restore prepOk prepOk' : Bool) (m : Mgr) (result : Bool) (m' : Mgr) : Prop :=
  ∃ before : List Op, (∀ op ∈ before, op.background errors) ∧
    ∃ originally, originally = (m.run conf before).listControllers ∧
    ∃ now m1, Served conf errors (m.run conf before) (.reload force now prepOk) result m1 ∧
    if restore then
      ∃ m2, LoadAll conf errors env (originally.map (·.name)) m1 m2 ∧
      ∃ now' ok', Served conf errors m2 (.switch ⟨(originally.filter (·.state = "running")).map (·.name), [],
        strictnessBestEffort, false, 0⟩ now' prepOk') ok' m'
    else m' = m1

/-! ### controller_group -/

/-- scripts/controller_group 41-55: `_read_group`, with the parameter `controller_groups` as a list
of pairs. The answer `none` is the pair of `None`s. Sets are lists without repetitions in any
order. -/
def ReadsGroup (groups : List (String × List String)) (group : String)
    (desired others : List String) : Prop :=
  desired.Nodup ∧ others.Nodup ∧
  (∀ n, n ∈ desired ↔ n ∈ (groups.lookup group).getD []) ∧
  ∀ n, n ∈ others ↔ (∃ g ∈ groups, n ∈ g.2) ∧ n ∉ desired

/-- The loads of scripts/controller_group 102-108: `known` are the controllers listed before; the
result is false if one cannot be loaded. -/
inductive LoadMissing (conf : List ControllerInfo → Bool) (errors : Bool) (env : String → LoadEnv)
    (known : List String) : List String → Mgr → Bool → Mgr → Prop
  | nil (m) : LoadMissing conf errors env known [] m true m
  | known {n ns m ok m2} : n ∈ known → LoadMissing conf errors env known ns m ok m2 →
      LoadMissing conf errors env known (n :: ns) m ok m2
  | loaded {n ns m m1 ok m2} : n ∉ known → Served conf errors m (.load n (env n)) true m1 →
      LoadMissing conf errors env known ns m1 ok m2 → LoadMissing conf errors env known (n :: ns) m ok m2
  | cancel {n ns m m1} : n ∉ known → Served conf errors m (.load n (env n)) false m1 →
      LoadMissing conf errors env known (n :: ns) m false m1

/-- scripts/controller_group 58-67: the dictionary from the names in the listing to whether the
controller is running; later entries overwrite earlier ones (names are unique, see C04). -/
def loadedControllers (l : List Entry) (n : String) : Option Bool :=
  (l.reverse.find? (·.name = n)).map (·.state = "running")

/-- scripts/controller_group 89-112: `_switch_group` for a group with controllers. -/
def SwitchGroup (conf : List ControllerInfo → Bool) (errors : Bool) (env : String → LoadEnv)
    (desired others : List String) (prepOk : Bool) (m : Mgr) (ok : Bool) (m' : Mgr) : Prop :=
  ∃ before : List Op, (∀ op ∈ before, op.background errors) ∧
  ∃ listing, listing = (m.run conf before).listControllers ∧
  ∃ loadsOk m1, LoadMissing conf errors env (listing.map (·.name)) desired (m.run conf before) loadsOk m1 ∧
    if loadsOk then
      StartStop conf errors (desired.filter fun n => !((loadedControllers listing n).getD false))
        (others.filter fun n => (loadedControllers listing n).getD false) prepOk m1 ok m'
    else ok = false ∧ m' = m1

/-- scripts/controller_group 85-86: start controllers one by one, ignoring the answers. -/
inductive StartEach (conf : List ControllerInfo → Bool) (errors : Bool) : List String → Mgr → Mgr → Prop
  | nil (m) : StartEach conf errors [] m m
  | cons {n ns m prepOk ok m1 m2} : StartStop conf errors [n] [] prepOk m ok m1 → StartEach conf errors ns m1 m2 →
      StartEach conf errors (n :: ns) m m2

/-- scripts/controller_group 79-86: `_spawn_group` for a group with controllers. -/
def SpawnGroup (conf : List ControllerInfo → Bool) (errors : Bool) (env : String → LoadEnv) (desired : List String)
    (m m' : Mgr) : Prop :=
  ∃ m1, LoadAll conf errors env desired m m1 ∧ StartEach conf errors desired m1 m'

end Clients

end Verif
