import Verif.Model.Clients

/-!
Model of the command line tool `controller_manager/scripts/controller_manager`, in the manner of
`Clients`: a relation between the manager before and after the program, and its exit code.

Simplifications: as in `Clients`; what is printed is not modelled; `ROSInterruptException`
(line 71) is not raised.
-/

namespace Verif.Clients

open Mgr

/-- scripts/controller_manager 53-55, 62-63 with controller_manager_interface.py 82-83: start controllers
one by one, ignoring the answers. `prep` are the answers of the hardware. -/
inductive Starts (conf : List ControllerInfo → Bool) (errors : Bool) (prep : String → Bool) :
    List String → Mgr → Mgr → Prop
  | nil (m) : Starts conf errors prep [] m m
  | cons {n ns m ok m1 m2} : StartStop conf errors [n] [] (prep n) m ok m1 →
      Starts conf errors prep ns m1 m2 → Starts conf errors prep (n :: ns) m m2

/-- scripts/controller_manager 56-58, 65-66 with controller_manager_interface.py 90-91: stop controllers
one by one, ignoring the answers. -/
inductive Stops (conf : List ControllerInfo → Bool) (errors : Bool) (prep : String → Bool) :
    List String → Mgr → Mgr → Prop
  | nil (m) : Stops conf errors prep [] m m
  | cons {n ns m ok m1 m2} : StartStop conf errors [] [n] (prep n) m ok m1 →
      Stops conf errors prep ns m1 m2 → Stops conf errors prep (n :: ns) m m2

/-- scripts/controller_manager 59-63: load all, then start all. -/
def SpawnNames (conf : List ControllerInfo → Bool) (errors : Bool) (env : String → LoadEnv)
    (prep : String → Bool) (names : List String) (m m' : Mgr) : Prop :=
  ∃ m1, LoadAll conf errors env names m m1 ∧ Starts conf errors prep names m1 m'

/-- scripts/controller_manager 64-68: stop all, then unload all. -/
def KillNames (conf : List ControllerInfo → Bool) (errors : Bool) (prep : String → Bool)
    (names : List String) (m m' : Mgr) : Prop :=
  ∃ m1, Stops conf errors prep names m m1 ∧ Unloads conf errors names m1 m'

/-- scripts/controller_manager 32-72: the program with the arguments `args` (the first is its name) changes
the manager `m` into `m'` and ends with the exit code `code`. `prep` is the answer of the hardware to the
switch of a single controller, `prepOk` and `prepOk'` those to the stop of all and the start of all in a
reload. -/
def Tool (conf : List ControllerInfo → Bool) (errors : Bool) (env : String → LoadEnv)
    (prep : String → Bool) (prepOk prepOk' : Bool) (args : List String) (m : Mgr) (code : Nat) (m' : Mgr) : Prop :=
  match args with
  | _ :: cmd :: rest =>
    if cmd = "lt" ∨ cmd = "list-types" ∨ cmd = "lc" ∨ cmd = "list" then
      code = 0 ∧ ∃ before : List Op, (∀ op ∈ before, op.background errors) ∧ m' = m.run conf before
    else if cmd = "reload-libraries" then
      code = 0 ∧ ∃ result,
        ReloadLibraries conf errors env true (decide ("--restore" ∈ rest)) prepOk prepOk' m result m'
    else if cmd = "load" then code = 0 ∧ LoadAll conf errors env rest m m'
    else if cmd = "unload" then code = 0 ∧ Unloads conf errors rest m m'
    else if cmd = "start" then code = 0 ∧ Starts conf errors prep rest m m'
    else if cmd = "stop" then code = 0 ∧ Stops conf errors prep rest m m'
    else if cmd = "sp" ∨ cmd = "spawn" then code = 0 ∧ SpawnNames conf errors env prep rest m m'
    else if cmd = "kl" ∨ cmd = "kill" then code = 0 ∧ KillNames conf errors prep rest m m'
    else code = 1 ∧ m' = m
  | _ => code = 0 ∧ m' = m

end Verif.Clients
