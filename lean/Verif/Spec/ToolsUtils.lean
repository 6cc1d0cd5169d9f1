import Verif.Model.ToolsUtils

/-!
Vocabulary for the properties of the Python helpers.
-/

namespace Verif.Tools

open Mgr

/-- The text is the value, or contains it if substrings are allowed. -/
def Matches (val : String) (sub : Bool) (text : String) : Prop :=
  if sub then val.toList <:+: text.toList else text = val

/-- The controller claims, in one interface (the given one, if one is given), all of the resources, or at least
one of them. -/
def Claims (e : Entry) (resources : List String) (iface : Option String) (any : Bool) : Prop :=
  ∃ s ∈ e.claimed, (∀ i, iface = some i → s.hardwareInterface = i) ∧
    (if any then ∃ r ∈ resources, r ∈ s.resources else ∀ r ∈ resources, r ∈ s.resources)

/-- A list sorted by code points. -/
def Sorted (l : List (List Char)) : Prop := l.Pairwise (· ≤ ·)

/-- The name of something in a namespace: with a slash in front and exactly one in between. -/
def inNamespace (ns x : List Char) : List Char :=
  (if ns.head? = some '/' then [] else ['/']) ++ ns ++
    (if ns = [] ∨ ns.getLast? = some '/' then [] else ['/']) ++ x

/-- The namespace offers all services of a controller manager. -/
def Offers (typeOf : List Char → Option (List Char)) (ns : List Char) : Prop :=
  let srv (x : String) := ns ++ (if ns.getLast? = some '/' then [] else ['/']) ++ x.toList
  typeOf (srv "list_controllers") = some "controller_manager_msgs/ListControllers".toList ∧
  typeOf (srv "list_controller_types") = some "controller_manager_msgs/ListControllerTypes".toList ∧
  typeOf (srv "load_controller") = some "controller_manager_msgs/LoadController".toList ∧
  typeOf (srv "unload_controller") = some "controller_manager_msgs/UnloadController".toList ∧
  typeOf (srv "switch_controller") = some "controller_manager_msgs/SwitchController".toList ∧
  typeOf (srv "reload_controller_libraries") =
    some "controller_manager_msgs/ReloadControllerLibraries".toList

/-- A namespace without a slash at the end, or the root. -/
def IsNamespace (ns : List Char) : Prop := ns = ['/'] ∨ (ns ≠ [] ∧ ns.getLast? ≠ some '/')

end Verif.Tools
