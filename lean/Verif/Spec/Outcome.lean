import Verif.Spec.Reports

/-!
What the services of the manager answer, and the listing afterwards, as functions of the listing before; and what the
tools print, as functions of the same (C104). It is assumed that the hardware reports no error and that requests have no
timeout.

`loads n` is the type and the claims of the controller `n` if it can be loaded.
-/

namespace Verif.Spec

open Clients Mgr

instance (l : Listing) (n : String) : Decidable (Listed l n) := by unfold Listed; infer_instance

instance (l : Listing) (n : String) : Decidable (ListedRunning l n) := by unfold ListedRunning; infer_instance

/-- The controllers that can be loaded, and what they claim. -/
abbrev Loads' := String → Option (String × List InterfaceResources)

/-- `loads` tells what the manager meets when it loads controllers. -/
def Tells (env : String → LoadEnv) (loads : Loads') : Prop :=
  ∀ n type claimed, loads n = some (type, claimed) ↔ ListedLoadable [] n (env n) type claimed

/-- A request to load. -/
def afterLoad (loads : Loads') (l : Listing) (n : String) : Bool × Listing :=
  match loads n with
  | some (type, claimed) => if Listed l n then (false, l) else (true, l ++ [⟨n, type, "initialized", claimed⟩])
  | none => (false, l)

/-- A request to unload. -/
def afterUnload (l : Listing) (n : String) : Bool × Listing :=
  if Listed l n ∧ ¬ ListedRunning l n then (true, l.filter (·.name ≠ n)) else (false, l)

/-- A STRICT request to switch. -/
def afterSwitch (conf : List ControllerInfo → Bool) (prepOk : Bool) (l : Listing) (start stop : List String) :
    Bool × Listing :=
  if (∀ n ∈ stop, ListedRunning l n) ∧ (∀ n ∈ start, Listed l n ∧ ¬ ListedRunning l n ∧ n ∉ stop) ∧
      conf (listedTarget l start stop) = false ∧ prepOk = true then
    (true, l.map fun e => if e.name ∈ start then { e with state := "running" }
      else if e.name ∈ stop then { e with state := "stopped" } else e)
  else (false, l)

/-- The line of a single request, and the listing afterwards. -/
def outcome (conf : List ControllerInfo → Bool) (loads : Loads') (prep : String → Bool) (l : Listing) :
    Act → Line × Listing
  | .load n => ((if (afterLoad loads l n).1 then .loaded n else .loadError n), (afterLoad loads l n).2)
  | .unload n => ((if (afterUnload l n).1 then .unloaded n else .unloadError n), (afterUnload l n).2)
  | .start n => ((if (afterSwitch conf (prep n) l [n] []).1 then .started [n] else .switchError [n] []),
      (afterSwitch conf (prep n) l [n] []).2)
  | .stop n => ((if (afterSwitch conf (prep n) l [] [n]).1 then .stopped [n] else .switchError [] [n]),
      (afterSwitch conf (prep n) l [] [n]).2)

/-- The lines of several requests, and the listing afterwards. -/
def outcomes (conf : List ControllerInfo → Bool) (loads : Loads') (prep : String → Bool) :
    List Act → Listing → List Line × Listing
  | [], l => ([], l)
  | a :: as, l => ((outcome conf loads prep l a).1 :: (outcomes conf loads prep as (outcome conf loads prep l a).2).1,
      (outcomes conf loads prep as (outcome conf loads prep l a).2).2)

/-- The requests of a command. -/
def requestsOf (cmd : String) (names : List String) : List Act :=
  match cmd with
  | "load" => names.map .load
  | "unload" => names.map .unload
  | "start" => names.map .start
  | "stop" => names.map .stop
  | "sp" => names.map .load ++ names.map .start
  | "spawn" => names.map .load ++ names.map .start
  | "kl" => names.map .stop ++ names.map .unload
  | "kill" => names.map .stop ++ names.map .unload
  | _ => []

/-- The loads of a switch of groups: whether all could be made, the lines, and the listing afterwards. -/
def groupLoads (loads : Loads') (known : List String) : List String → Listing → Bool × List Line × Listing
  | [], l => (true, [], l)
  | n :: ns, l =>
    if n ∈ known then groupLoads loads known ns l
    else if (afterLoad loads l n).1 then
      let r := groupLoads loads known ns (afterLoad loads l n).2
      (r.1, .loaded n :: r.2.1, r.2.2)
    else (false, [.loadError n, .cancel], l)

/-- A switch of groups: the lines, and the listing afterwards. -/
def groupSwitch (conf : List ControllerInfo → Bool) (loads : Loads') (prepOk : Bool) (desired others : List String)
    (l : Listing) : List Line × Listing :=
  let r := groupLoads loads (l.map (·.name)) desired l
  if r.1 then
    let start := desired.filter fun n => ¬ ListedRunning l n
    let stop := others.filter fun n => ListedRunning l n
    let s := afterSwitch conf prepOk r.2.2 start stop
    (r.2.1 ++ (if s.1 then (if start = [] then [] else [.started start]) ++ (if stop = [] then [] else [.stopped stop])
      else [.switchError start stop]), s.2)
  else (r.2.1, r.2.2)

end Verif.Spec
