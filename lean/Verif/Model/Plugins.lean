import Verif.Model.Manager

/-!
The loaders of controller classes (controller_manager/include/controller_manager/controller_loader.h) and what
the manager does with them: controller_manager/src/controller_manager.cpp 284-301 (creation of objects), 682-686
(reload) and 695-719 (`list_controller_types`).

Simplifications. A loader knows the classes that it found when it was constructed or reloaded, as a
`pluginlib::ClassLoader` does. Which classes there are at such a moment, and which objects can be created, is
up to the environment. `registerControllerLoader` takes no lock; here it happens between two operations.
-/

namespace Verif

namespace Plug

open Mgr

/-- controller_loader.h 47-78: the name given to the constructor, the classes found, and how often the
`ClassLoader` has been constructed (an observation: objects belong to the `ClassLoader` that created them). -/
structure PluginLoader where
  name : String
  declared : List String
  generation : Nat
deriving DecidableEq, Repr

/-- controller_loader.h 69-72: `reload`, which finds the classes `found`. -/
def PluginLoader.reload (l : PluginLoader) (found : List String) : PluginLoader :=
  { l with declared := found, generation := l.generation + 1 }

/-- controller_manager.cpp 682-686: the loop over the loaders from position `i`. -/
def reloadAll (found : Nat → List String) : Nat → List PluginLoader → List PluginLoader
  | _, [] => []
  | i, l :: ls => l.reload (found i) :: reloadAll found (i + 1) ls

/-- controller_manager_msgs/srv/ListControllerTypes.srv: the answer. -/
structure Types where
  types : List String := []
  baseClasses : List String := []
deriving DecidableEq, Repr

/-- controller_manager.cpp 695-719: `listControllerTypesSrv`. -/
def listTypes (ls : List PluginLoader) : Types :=
  ls.foldl (fun r l => l.declared.foldl (fun r t =>
    { types := r.types ++ [t], baseClasses := r.baseClasses ++ [l.name] }) r) {}

/-- The loaders as `loadController` sees them (controller_manager.cpp 286-295), from position `i`; `create` tells
what `createInstance` of the loader at a position does. -/
def view (create : Nat → String → CreateResult) : Nat → List PluginLoader → List Loader
  | _, [] => []
  | i, l :: ls => ⟨l.declared, create i⟩ :: view create (i + 1) ls

/-- The manager, its loaders, and for each controller object the position and the generation of the loader that
created it. -/
structure St where
  mgr : Mgr := .init
  loaders : List PluginLoader
  maker : CId → Option (Nat × Nat) := fun _ => none

/-- controller_manager.cpp 45-53: the constructor makes one loader, which finds the classes `found`. -/
def init (found : List String) : St where
  loaders := [⟨"controller_interface::ControllerBase", found, 0⟩]

/-- What `loadController` finds outside the manager and its loaders. -/
structure LoadReq where
  nodeHandleOk : Bool
  type : Option String
  create : Nat → String → CreateResult
  init : Option (List InterfaceResources)

/-- The same with the loaders. -/
def LoadReq.env (r : LoadReq) (ls : List PluginLoader) : LoadEnv :=
  ⟨r.nodeHandleOk, r.type, view r.create 0 ls, r.init⟩

/-- controller_manager.cpp 229-364: `loadController`. -/
def St.load (s : St) (name : String) (r : LoadReq) : St :=
  { s with
    mgr := s.mgr.load name (r.env s.loaders)
    maker := fun c =>
      if c = s.mgr.nextId then
        (r.type.bind fun t => instantiate t 0 (view r.create 0 s.loaders)).bind fun i =>
          s.loaders[i]?.map fun l => (i, l.generation)
      else s.maker c }

/-- An operation of the manager that does not load a controller has led to `m`. If a reload has come to its end,
its last act was 682-686, and the loader at position `i` has found the classes `found i`. -/
def St.goOn (s : St) (m : Mgr) (found : Nat → List String) : St :=
  if .reloadRet true ∈ m.trace.drop s.mgr.trace.length then
    { s with mgr := m, loaders := reloadAll found 0 s.loaders }
  else { s with mgr := m }

/-- Operations. -/
inductive PlugOp
  | register (name : String) (found : List String)
  | update (time : Int) (reset : Bool) (hw : HwReply)
  | load (name : String) (r : LoadReq)
  | unload (name : String)
  | switch (r : SwitchReq) (now : Int) (prepOk : Bool)
  | reload (force : Bool) (now : Int) (prepOk : Bool) (found : Nat → List String)
  | poll (ok : RosOk) (elapsed : Int) (found : Nat → List String)

/-- One operation (dispatch); controller_manager.cpp 837-840 for `register`. -/
def St.step (conf : List ControllerInfo → Bool) (s : St) : PlugOp → St
  | .register n found => { s with loaders := s.loaders ++ [⟨n, found, 0⟩] }
  | .update t r hw => { s with mgr := s.mgr.update t r hw }
  | .load n r => s.load n r
  | .unload n => { s with mgr := s.mgr.unload n }
  | .switch r now p => { s with mgr := s.mgr.switch conf r now p }
  | .reload f now p found => s.goOn (s.mgr.reload conf f now p) found
  | .poll ok e found => s.goOn (s.mgr.poll ok e) found

/-- A history of operations. -/
def St.run (conf : List ControllerInfo → Bool) (s : St) (ops : List PlugOp) : St :=
  ops.foldl (St.step conf) s

end Plug

end Verif
