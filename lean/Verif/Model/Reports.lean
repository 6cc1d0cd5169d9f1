import Verif.Model.CommandLine

/-!
What `scripts/controller_manager` and `controller_manager_interface.py` print, what `scripts/controller_group switch`
prints, and what the shutdown hook of `scripts/spawner` logs. The effects on the manager are those of `Clients` and
`CommandLine`; here the programs are described a second time, with their output (`c104_same_program` shows that the
effects are the same).

The lines are represented by what they say; `Line.text` is the text.
-/

namespace Verif.Clients

open Mgr

/-- The lines. -/
inductive Line
  /-- `Loaded 'n'` -/
  | loaded (n : String)
  /-- `Error when loading 'n'` -/
  | loadError (n : String)
  /-- `Unloaded 'n' successfully` -/
  | unloaded (n : String)
  /-- `Error when unloading 'n'` -/
  | unloadError (n : String)
  /-- `Started ['n', ...] successfully` -/
  | started (ns : List String)
  /-- `Stopped ['n', ...] successfully` -/
  | stopped (ns : List String)
  /-- `Error when starting [...] and stopping [...]` -/
  | switchError (start stop : List String)
  /-- `Restore: True` or `Restore: False` -/
  | restore (b : Bool)
  /-- `Successfully reloaded libraries` -/
  | reloaded
  /-- `Failed to reload libraries. Do you still have controllers loaded?` -/
  | notReloaded
  /-- `Controllers restored to original state` -/
  | restored
  /-- `'name' - 'hwi+...' ( state )` -/
  | entry (name : String) (interfaces : List String) (state : String)
  /-- `No controllers are loaded in mechanism control` -/
  | noControllers
  /-- a controller type -/
  | type (t : String)
  /-- `Commands: ...` -/
  | usage
  /-- `Cancel group switching` -/
  | cancel
  /-- `Number of groups: n` -/
  | groups (n : Nat)
  /-- `  g` -/
  | group (g : String)
  /-- `      c` -/
  | member (c : String)
  /-- `Trying to unload n` -/
  | trying (n : String)
  /-- `Succeeded in unloading n` -/
  | succeeded (n : String)
deriving DecidableEq, Repr

/-- `str(names)` for a list of strings without quotes and special characters. -/
def pyList (names : List String) : String :=
  "[" ++ ", ".intercalate (names.map fun n => "'" ++ n ++ "'") ++ "]"

/-- controller_manager_interface.py 12, 23, 29, 32, 42, 51, 55, 63, 66, 75, 78, 105, 107, 110, scripts/controller_group
72-76, 107, scripts/spawner 68, 70: the text of a line. The help (scripts/controller_manager 18-28) is cut. -/
def Line.text : Line → String
  | .loaded n => "Loaded '" ++ n ++ "'"
  | .loadError n => "Error when loading '" ++ n ++ "'"
  | .unloaded n => "Unloaded '" ++ n ++ "' successfully"
  | .unloadError n => "Error when unloading '" ++ n ++ "'"
  | .started ns => "Started " ++ pyList ns ++ " successfully"
  | .stopped ns => "Stopped " ++ pyList ns ++ " successfully"
  | .switchError a b => "Error when starting " ++ pyList a ++ " and stopping " ++ pyList b
  | .restore b => "Restore: " ++ if b then "True" else "False"
  | .reloaded => "Successfully reloaded libraries"
  | .notReloaded => "Failed to reload libraries. Do you still have controllers loaded?"
  | .restored => "Controllers restored to original state"
  | .entry n is s => "'" ++ n ++ "' - '" ++ "+".intercalate is ++ "' ( " ++ s ++ " )"
  | .noControllers => "No controllers are loaded in mechanism control"
  | .type t => t
  | .usage => "Commands:"
  | .cancel => "Cancel group switching"
  | .groups n => "Number of groups: " ++ toString n
  | .group g => "  " ++ g
  | .member c => "      " ++ c
  | .trying n => "Trying to unload " ++ n
  | .succeeded n => "Succeeded in unloading " ++ n

/-- What a program writes to its standard output. -/
def output (lines : List Line) : String := String.join (lines.map fun l => l.text ++ "\n")

/-- The functions of controller_manager_interface.py for a single controller. -/
inductive Act
  | load (n : String)
  | unload (n : String)
  | start (n : String)
  | stop (n : String)
deriving DecidableEq, Repr

/-- controller_manager_interface.py 103-111: what `start_stop_controllers` prints. -/
def startStopLines (start stop : List String) (ok : Bool) : List Line :=
  if ok then
    (if start.isEmpty then [] else [.started start]) ++ (if stop.isEmpty then [] else [.stopped stop])
  else [.switchError start stop]

/-- controller_manager_interface.py 62-67, 74-79, 82-83, 90-91, 103-111: what is printed, `ok` being the answer. -/
def Act.lines : Act → Bool → List Line
  | .load n, ok => [if ok then .loaded n else .loadError n]
  | .unload n, ok => [if ok then .unloaded n else .unloadError n]
  | .start n, ok => startStopLines [n] [] ok
  | .stop n, ok => startStopLines [] [n] ok

/-- controller_manager_interface.py 58-111: the request, and the answer. -/
def Does (conf : List ControllerInfo → Bool) (errors : Bool) (env : String → LoadEnv) (prep : String → Bool)
    (a : Act) (m : Mgr) (ok : Bool) (m' : Mgr) : Prop :=
  match a with
  | .load n => Served conf errors m (.load n (env n)) ok m'
  | .unload n => Served conf errors m (.unload n) ok m'
  | .start n => StartStop conf errors [n] [] (prep n) m ok m'
  | .stop n => StartStop conf errors [] [n] (prep n) m ok m'

/-- Such requests one after the other, with the output. -/
inductive Performs (conf : List ControllerInfo → Bool) (errors : Bool) (env : String → LoadEnv) (prep : String → Bool) :
    List Act → Mgr → List Line → Mgr → Prop
  | nil (m) : Performs conf errors env prep [] m [] m
  | cons {a as m ok m1 ls m2} : Does conf errors env prep a m ok m1 → Performs conf errors env prep as m1 ls m2 →
      Performs conf errors env prep (a :: as) m (a.lines ok ++ ls) m2

/-- scripts/controller_manager 47-68: the requests of a command. -/
def toolActs (cmd : String) (names : List String) : Option (List Act) :=
  if cmd = "load" then some (names.map .load)
  else if cmd = "unload" then some (names.map .unload)
  else if cmd = "start" then some (names.map .start)
  else if cmd = "stop" then some (names.map .stop)
  else if cmd = "sp" ∨ cmd = "spawn" then some (names.map .load ++ names.map .start)
  else if cmd = "kl" ∨ cmd = "kill" then some (names.map .stop ++ names.map .unload)
  else none

/-- controller_manager_interface.py 46-55: what `list_controllers` prints. The interfaces are a Python set: without
repetitions, in any order. -/
def ListLines (l : List Entry) (lines : List Line) : Prop :=
  if l.isEmpty then lines = [.noControllers]
  else ∃ his : List (List String), his.length = l.length ∧
    lines = List.zipWith (fun (e : Entry) (hi : List String) => Line.entry e.name hi e.state) l his ∧
    ∀ p ∈ l.zip his, p.2.Nodup ∧ ∀ i, i ∈ p.2 ↔ ∃ r ∈ p.1.claimed, r.hardwareInterface = i

/-- scripts/controller_manager 32-72 with controller_manager_interface.py 7-55: the program, with the lines it prints.
`types` are the types the manager answers with (see C49). -/
def ToolPrints (conf : List ControllerInfo → Bool) (errors : Bool) (env : String → LoadEnv) (types : List String)
    (prep : String → Bool) (prepOk prepOk' : Bool) (args : List String) (m : Mgr) (code : Nat) (lines : List Line)
    (m' : Mgr) : Prop :=
  match args with
  | _ :: cmd :: rest =>
    if cmd = "lt" ∨ cmd = "list-types" then
      code = 0 ∧ (∃ before : List Op, (∀ op ∈ before, op.background errors) ∧ m' = m.run conf before) ∧
        lines = types.map .type
    else if cmd = "lc" ∨ cmd = "list" then
      code = 0 ∧ (∃ before : List Op, (∀ op ∈ before, op.background errors) ∧ m' = m.run conf before) ∧
        ListLines m'.listControllers lines
    else if cmd = "reload-libraries" then
      code = 0 ∧ ∃ result,
        ReloadLibraries conf errors env true (decide ("--restore" ∈ rest)) prepOk prepOk' m result m' ∧
        lines = [.restore (decide ("--restore" ∈ rest)), if result then .reloaded else .notReloaded] ++
          (if "--restore" ∈ rest then [.restored] else [])
    else
      match toolActs cmd rest with
      | some acts => code = 0 ∧ Performs conf errors env prep acts m lines m'
      | none => code = 1 ∧ m' = m ∧ lines = [.usage]
  | _ => code = 0 ∧ m' = m ∧ lines = [.usage]

/-- The loads of scripts/controller_group 102-108, with the output; the first result is false if one cannot be loaded. -/
inductive LoadMissingPrints (conf : List ControllerInfo → Bool) (errors : Bool) (env : String → LoadEnv)
    (known : List String) : List String → Mgr → Bool → List Line → Mgr → Prop
  | nil (m) : LoadMissingPrints conf errors env known [] m true [] m
  | known {n ns m ok ls m2} : n ∈ known → LoadMissingPrints conf errors env known ns m ok ls m2 →
      LoadMissingPrints conf errors env known (n :: ns) m ok ls m2
  | loaded {n ns m m1 ok ls m2} : n ∉ known → Served conf errors m (.load n (env n)) true m1 →
      LoadMissingPrints conf errors env known ns m1 ok ls m2 →
      LoadMissingPrints conf errors env known (n :: ns) m ok (.loaded n :: ls) m2
  | cancel {n ns m m1} : n ∉ known → Served conf errors m (.load n (env n)) false m1 →
      LoadMissingPrints conf errors env known (n :: ns) m false [.loadError n, .cancel] m1

/-- scripts/controller_group 89-112: `_switch_group`, with the output. -/
def SwitchGroupPrints (conf : List ControllerInfo → Bool) (errors : Bool) (env : String → LoadEnv)
    (desired others : List String) (prepOk : Bool) (m : Mgr) (ok : Bool) (lines : List Line) (m' : Mgr) : Prop :=
  ∃ before : List Op, (∀ op ∈ before, op.background errors) ∧
  ∃ listing, listing = (m.run conf before).listControllers ∧
  ∃ loadsOk ls m1, LoadMissingPrints conf errors env (listing.map (·.name)) desired (m.run conf before) loadsOk ls m1 ∧
    if loadsOk then
      StartStop conf errors (desired.filter fun n => !((loadedControllers listing n).getD false))
        (others.filter fun n => (loadedControllers listing n).getD false) prepOk m1 ok m' ∧
      lines = ls ++ startStopLines (desired.filter fun n => !((loadedControllers listing n).getD false))
        (others.filter fun n => (loadedControllers listing n).getD false) ok
    else ok = false ∧ m' = m1 ∧ lines = ls

/-- scripts/controller_group 70-76: `_list_group`. A dictionary is a list of pairs with different first components; they
are sorted by it. -/
def groupLines (groups : List (String × List String)) : List Line :=
  .groups groups.length ::
    (groups.mergeSort fun a b => a.1 ≤ b.1).flatMap fun g => .group g.1 :: g.2.map .member

/-- scripts/controller_group 41-112, 115-133: the program `controller_group` with these arguments (`rospy.myargv()[1:]`).
`groups` is the parameter `controller_groups`, `prep` are the answers of the hardware to the starts of `spawn`,
`prepOk` that to the switch. Other arguments are refused by the parser (not modelled). -/
def GroupTool (conf : List ControllerInfo → Bool) (errors : Bool) (env : String → LoadEnv)
    (groups : List (String × List String)) (prep : String → Bool) (prepOk : Bool) (args : List String)
    (m : Mgr) (lines : List Line) (m' : Mgr) : Prop :=
  match args with
  | ["list"] => m' = m ∧ lines = groupLines groups
  | ["spawn", g] => ∃ desired others, ReadsGroup groups g desired others ∧
      if desired.isEmpty then m' = m ∧ lines = []
      else Performs conf errors env prep (desired.map .load ++ desired.map .start) m lines m'
  | ["switch", g] => ∃ desired others, ReadsGroup groups g desired others ∧
      if desired.isEmpty then m' = m ∧ lines = []
      else ∃ ok, SwitchGroupPrints conf errors env desired others prepOk m ok lines m'
  | _ => False

/-- scripts/spawner 67-70: what the shutdown hook logs while it unloads. -/
def shutdownLog (loaded : List String) : List Line := loaded.reverse.flatMap fun n => [.trying n, .succeeded n]

end Verif.Clients
