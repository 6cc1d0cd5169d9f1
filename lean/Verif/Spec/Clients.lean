import Verif.Model.Clients
import Mathlib.Data.List.Forall2

/-!
Vocabulary for the properties of service calls as clients see them: the answer of
`list_controllers` before and after a call.
-/

namespace Verif.Spec

open Mgr Clients

/-- The answer of `list_controllers`. -/
abbrev Listing := List Entry

/-- The controller with this name is in the listing. -/
def Listed (l : Listing) (n : String) : Prop := ∃ e ∈ l, e.name = n

/-- The controller with this name is in the listing and running. -/
def ListedRunning (l : Listing) (n : String) : Prop := ∃ e ∈ l, e.name = n ∧ e.state = "running"

/-- The controllers that would run after a switch, in the order of the listing. -/
def listedTarget (l : Listing) (start stop : List String) : List ControllerInfo :=
  (l.filter fun e => (e.state = "running" ∧ e.name ∉ stop) ∨ e.name ∈ start).map
    fun e => ⟨e.name, e.type, e.claimed⟩

/-- A switch request that a manager with this listing accepts. -/
def Acceptable (conf : List ControllerInfo → Bool) (l : Listing) (r : SwitchReq) (prepOk : Bool) :
    Prop :=
  (if r.strictness = strictnessStrict then
    (∀ n ∈ r.stop, ListedRunning l n) ∧ (∀ n ∈ r.start, Listed l n ∧ ¬ ListedRunning l n) ∧
      ∀ n ∈ r.start, n ∉ r.stop
   else ∀ n, ListedRunning l n → n ∈ r.stop → n ∉ r.start) ∧
  conf (listedTarget l r.start r.stop) = false ∧ prepOk = true

/-- The entry of a controller after a finished switch. `out` tells which of the started
controllers really run; the others were aborted. -/
def switchedEntry (r : SwitchReq) (out : String → Bool) (e : Entry) : Entry :=
  if e.name ∈ r.start then { e with state := if out e.name then "running" else "aborted" }
  else if e.name ∈ r.stop ∧ e.state = "running" then { e with state := "stopped" }
  else e

/-- How the entry of a controller may have changed if a switch was given up: only controllers to
be started, or running ones to be stopped, can be affected, and only their state. -/
def GivenUp (r : SwitchReq) (e e' : Entry) : Prop :=
  (∃ s, e' = { e with state := s }) ∧
  (e.name ∉ r.start → e' = e ∨ e.name ∈ r.stop ∧ e.state = "running" ∧ e'.state = "stopped")

/-- A controller can be loaded into a manager with this listing. -/
def ListedLoadable (l : Listing) (name : String) (env : LoadEnv) (type : String)
    (claimed : List InterfaceResources) : Prop :=
  ¬ Listed l name ∧ env.nodeHandleOk = true ∧ env.type = some type ∧
  (∃ i, Provides env.loaders type i) ∧ env.init = some claimed

/-- The sequential specification of the manager: what the answers of its services are, and how
they change the listing. `errors` tells whether the hardware may report an error during a
switch. -/
inductive Serves (conf : List ControllerInfo → Bool) (errors : Bool) :
    Listing → Call → Bool → Listing → Prop
  | load {l name env type claimed} : ListedLoadable l name env type claimed →
      Serves conf errors l (.load name env) true (l ++ [⟨name, type, "initialized", claimed⟩])
  | notLoaded {l name env} : (∀ type claimed, ¬ ListedLoadable l name env type claimed) →
      Serves conf errors l (.load name env) false l
  | unload {l name} : Listed l name → ¬ ListedRunning l name →
      Serves conf errors l (.unload name) true (l.filter (·.name ≠ name))
  | notUnloaded {l name} : (Listed l name → ListedRunning l name) →
      Serves conf errors l (.unload name) false l
  | refused {l r now prepOk} : ¬ Acceptable conf l r prepOk →
      Serves conf errors l (.switch r now prepOk) false l
  | switched {l r now prepOk} (out : String → Bool) : Acceptable conf l r prepOk →
      (r.asap = false → (∀ n, out n = true) ∨ ∀ n, out n = false) →
      (errors = false → r.timeout = 0 → ∀ n, out n = true) →
      Serves conf errors l (.switch r now prepOk) true (l.map (switchedEntry r out))
  | gaveUp {l r now prepOk l'} : Acceptable conf l r prepOk → r.timeout ≠ 0 →
      List.Forall₂ (GivenUp r) l l' → Serves conf errors l (.switch r now prepOk) false l'
  | reload {l force now prepOk} :
      l = [] ∨ force = true ∧ prepOk = true ∧ conf [] = false →
      Serves conf errors l (.reload force now prepOk) true []
  | notReloaded {l force now prepOk} :
      l ≠ [] → force = false ∨ prepOk = false ∨ conf [] = true →
      Serves conf errors l (.reload force now prepOk) false l

/-- A set of controllers without conflict stays without conflict if some are removed. -/
def Hereditary (conf : List ControllerInfo → Bool) : Prop :=
  conf [] = false ∧ ∀ a b : List ControllerInfo, a.Sublist b → conf b = false → conf a = false

/-- A history of calls by any clients, with their answers, one after the other. -/
inductive History (conf : List ControllerInfo → Bool) (errors : Bool) :
    List (Call × Bool) → Mgr → Mgr → Prop
  | nil (m) : History conf errors [] m m
  | cons {c ok cs m m1 m2} : Served conf errors m c ok m1 → History conf errors cs m1 m2 →
      History conf errors ((c, ok) :: cs) m m2

/-- The same history in the sequential specification. -/
inductive SpecHistory (conf : List ControllerInfo → Bool) (errors : Bool) :
    List (Call × Bool) → Listing → Listing → Prop
  | nil (l) : SpecHistory conf errors [] l l
  | cons {c ok cs l l1 l2} : Serves conf errors l c ok l1 → SpecHistory conf errors cs l1 l2 →
      SpecHistory conf errors ((c, ok) :: cs) l l2

/-- C54 in full: whatever happens between the start and the shutdown of the spawner, afterwards
no controller it loaded is listed. -/
def SpawnerCleansUp (conf : List ControllerInfo → Bool) : Prop :=
  ∀ (env : String → LoadEnv) (stopped prepOk : Bool) (controllers : List String) (m0 : Mgr)
    (loaded : List String) (m1 : Mgr) (ops : List Op) (m3 : Mgr), Reachable conf m0 →
    Spawns conf true env stopped prepOk controllers m0 loaded m1 → (∀ op ∈ ops, op.rosUp) →
    Shutdown conf true loaded true (m1.run conf ops) m3 →
    ∀ n ∈ loaded, ¬ Listed m3.listControllers n

/-- A restarted controller that conflicts with no running controller runs afterwards. -/
def RestartsWithoutConflict (conf : List ControllerInfo → Bool) : Prop :=
  ∀ m, Reachable conf m → m.svc = .idle → ∀ (inhibited : List String) (m' : Mgr),
    Restart conf false inhibited true m m' → ∀ n ∈ inhibited, Listed m.listControllers n →
    conf (listedTarget m.listControllers [n] []) = false → ListedRunning m'.listControllers n

/-- A reload of the libraries with restore calls `starting()` of no controller that runs. -/
def RestoreStartsOnlyStopped (conf : List ControllerInfo → Bool) : Prop :=
  ∀ m, Reachable conf m → m.svc = .idle → ∀ (env : String → LoadEnv) (force prepOk prepOk' result : Bool)
    (m' : Mgr), ReloadLibraries conf false env force true prepOk prepOk' m result m' →
    ∀ s ∈ m.running, ∀ es, m'.trace = m.trace ++ es → .cb s.c .stopping ∉ es → .cb s.c .starting ∉ es

/-- The help text of `controller_group spawn` (scripts/controller_group 122-123): all controllers
in all groups are loaded. -/
def SpawnLoadsAllGroups (conf : List ControllerInfo → Bool) : Prop :=
  ∀ m, Reachable conf m → m.svc = .idle → ∀ (groups : List (String × List String)) (group : String)
    (desired others : List String), ReadsGroup groups group desired others →
    ∀ (env : String → LoadEnv) (m' : Mgr), SpawnGroup conf false env desired m m' →
    ∀ g ∈ groups, ∀ n ∈ g.2, (∃ type claimed, ListedLoadable m.listControllers n (env n) type claimed) →
    Listed m'.listControllers n

/-! ### Progress -/

/-- The hardware has come to a result for every controller of the switch: done, or an error. -/
def Settled (hw : HwReply) : Prop :=
  (hw.first = .done ∨ hw.second = .error) ∧
    ∀ i info, (hw.per i info).1 = .done ∨ (hw.per i info).2 = .error

/-- In this stretch of the background the realtime thread runs an update in which the hardware has
come to a result, and the service thread looks at its condition some time after. -/
def Round (errors : Bool) (ops : List Op) : Prop :=
  (∀ op ∈ ops, op.background errors) ∧ ∃ a t reset hw b ok el c, Settled hw ∧
    ops = a ++ .update t reset hw :: b ++ .poll ok el :: c

/-- How many rounds a call takes at most: the forced reload of the libraries stops all controllers
and unloads them one by one; any other call waits once. -/
def roundsFor (l : Listing) : Call → Nat
  | .reload _ _ _ => 2 + 2 * l.length
  | _ => 1

end Verif.Spec
