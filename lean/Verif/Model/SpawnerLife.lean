import Verif.Model.Spawner
import Verif.Model.Clients

/-!
The program `controller_manager/scripts/spawner` together with its shutdown hook and the manager, from its start to its
end. The main thread is `Spawner.St`; the hook runs in another thread if the program is ended by `rosnode kill`, and in the
main thread, which waits for it, if it is ended by a signal. Both are interleavings of the steps below.

What is written out from rospy: `signal_shutdown` calls the functions registered with `on_shutdown` first and then lets
`is_shutdown()` become true; further calls of it do nothing; a function registered after that is called at once. After the
handler of SIGINT, Python raises `KeyboardInterrupt` in the main thread; after that of SIGTERM the main thread goes on.
When `is_shutdown()` is true, a request is still sent but its answer may not be waited for (`ServiceException`).

A request of one thread is served by the manager as a whole (`Clients.Served`), but between that and the moment when the
main thread goes on, anything may happen. Simplification: a hook that is called at once (the list `loaded` is empty then)
is a single step.
-/

namespace Verif.Spawner

open Mgr Clients

/-- scripts/spawner 52-72: where the hook is. -/
inductive Hook
  /-- not called yet -/
  | waiting
  /-- 65: before the request to stop -/
  | stopping
  /-- 66: it has been answered -/
  | stopped
  /-- 67-70: controllers still to be unloaded -/
  | unloading (rest : List String)
  | done
deriving DecidableEq, Repr

/-- The main thread, the hook, the manager, and the answer to the request of the main thread if the main thread has not
taken it yet. -/
structure Life where
  s : St
  hook : Hook := .waiting
  m : Mgr
  pending : Option Bool := none

/-- scripts/spawner 180: the hook has been registered. -/
def Phase.registered : Phase → Bool
  | .loading _ => true
  | .starting => true
  | .spinning => true
  | _ => false

/-- scripts/spawner 198, 212: the main thread is about to make a request. -/
def Phase.asks : Phase → Bool
  | .loading (_ :: _) => true
  | .starting => true
  | _ => false

/-- A step is a request of the main thread, the beginning of the hook, or another one. -/
inductive Label
  | ask
  | kill
  | other
deriving DecidableEq, Repr

/-- The steps. `prepOk` are the answers of the hardware to the switch that starts the controllers, and to the one that
stops them. -/
inductive Life.Step (conf : List ControllerInfo → Bool) (errors : Bool) (env : String → LoadEnv) (a : Args)
    (cs : List String) (prepOk prepOk' : Bool) : Label → Life → Life → Prop
  /-- 198: a request to load is served -/
  | load {s h m n ns ok m'} : s.phase = .loading (n :: ns) → Served conf errors m (.load n (env n)) ok m' →
      Step conf errors env a cs prepOk prepOk' .ask ⟨s, h, m, none⟩ ⟨s, h, m', some ok⟩
  /-- 212: the request to start is served -/
  | start {s h m now ok m'} : s.phase = .starting →
      Served conf errors m (.switch ⟨s.loaded, [], strictnessStrict, false, 0⟩ now prepOk) ok m' →
      Step conf errors env a cs prepOk prepOk' .ask ⟨s, h, m, none⟩ ⟨s, h, m', some ok⟩
  /-- 198-203, 212-216: the main thread goes on with the answer -/
  | answer {s h m w} : Step conf errors env a cs prepOk prepOk' .other ⟨s, h, m, some w.answer⟩
      ⟨s.step a cs (.run w), h, m, none⟩
  /-- the main thread makes a step without a request -/
  | main {s h m w} : s.phase.asks = false →
      ((s.step a cs (.run w)).phase.registered = true → s.phase.registered = false → s.down = false) →
      Step conf errors env a cs prepOk prepOk' .other ⟨s, h, m, none⟩ ⟨s.step a cs (.run w), h, m, none⟩
  /-- 180: the hook is registered too late and called at once; it requests to stop nothing -/
  | late {s h m w now ok m'} : s.phase.asks = false → (s.step a cs (.run w)).phase.registered = true →
      s.phase.registered = false → s.down = true →
      Served conf errors m (.switch ⟨[], [], strictnessStrict, false, 0⟩ now prepOk') ok m' →
      Step conf errors env a cs prepOk prepOk' .other ⟨s, h, m, none⟩ ⟨s.step a cs (.run w), .done, m', none⟩
  /-- a message on the topic -/
  | message {s h m p b} : Step conf errors env a cs prepOk prepOk' .other ⟨s, h, m, p⟩
      ⟨s.step a cs (.message b), h, m, p⟩
  /-- ROS is shut down before the hook is registered -/
  | shutdown {s m p} : s.phase.registered = false →
      Step conf errors env a cs prepOk prepOk' .other ⟨s, .waiting, m, p⟩ ⟨s.step a cs .shutdown, .waiting, m, p⟩
  /-- ROS is shut down: the hook begins -/
  | kill {s m p} : s.phase.registered = true → s.down = false →
      Step conf errors env a cs prepOk prepOk' .kill ⟨s, .waiting, m, p⟩ ⟨s, .stopping, m, p⟩
  /-- 65: the request to stop is served -/
  | stop {s m p now ok m'} :
      Served conf errors m (.switch ⟨[], s.loaded, strictnessStrict, false, 0⟩ now prepOk') ok m' →
      Step conf errors env a cs prepOk prepOk' .other ⟨s, .stopping, m, p⟩ ⟨s, .stopped, m', p⟩
  /-- 67: `reversed(loaded)` -/
  | reversed {s m p} : Step conf errors env a cs prepOk prepOk' .other ⟨s, .stopped, m, p⟩
      ⟨s, .unloading s.loaded.reverse, m, p⟩
  /-- 69: a request to unload is served -/
  | unload {s m p n ns ok m'} : Served conf errors m (.unload n) ok m' →
      Step conf errors env a cs prepOk prepOk' .other ⟨s, .unloading (n :: ns), m, p⟩ ⟨s, .unloading ns, m', p⟩
  /-- the hook returns, and `is_shutdown()` becomes true -/
  | done {s m p} : Step conf errors env a cs prepOk prepOk' .other ⟨s, .unloading [], m, p⟩
      ⟨s.step a cs .shutdown, .done, m, p⟩
  /-- the main thread is ended by `KeyboardInterrupt` or `ServiceException` -/
  | interrupt {s h m p} : s.down = true → Step conf errors env a cs prepOk prepOk' .other ⟨s, h, m, p⟩
      ⟨{ s with phase := .crashed }, h, m, none⟩

/-- Steps one after the other. -/
inductive Life.Run (conf : List ControllerInfo → Bool) (errors : Bool) (env : String → LoadEnv) (a : Args)
    (cs : List String) (prepOk prepOk' : Bool) : List Label → Life → Life → Prop
  | nil (l) : Run conf errors env a cs prepOk prepOk' [] l l
  | snoc {ls x l l1 l2} : Run conf errors env a cs prepOk prepOk' ls l l1 →
      Step conf errors env a cs prepOk prepOk' x l1 l2 → Run conf errors env a cs prepOk prepOk' (ls ++ [x]) l l2

/-- The program begins at the time `now`. -/
def Life.init (now : Int) (m : Mgr) : Life := { s := Spawner.init now, m := m }

end Verif.Spawner
