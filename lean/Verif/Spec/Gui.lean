import Verif.Model.Gui
import Verif.Spec.ToolsUtils
import Verif.Spec.Clients

/-!
Vocabulary for the properties of the graphical front end.
-/

namespace Verif.Gui

open Mgr Tools

/-- A namespace with a slash at its end. -/
def slashed (ns : List Char) : List Char := ns ++ (if ns.getLast? = some '/' then [] else ['/'])

/-- The ROS system an event meets. -/
def Ev.world : Ev → Option World
  | .managers w | .controllers w | .select _ w | .restore _ w | .choose _ w => some w
  | .openMenu _ => none

/-- Service names are global, and the services of a manager in the directory `d` (a text ending with a slash)
are advertised only by processes at home there. -/
structure World.Ordered (home : Nat → List Char) (w : World) : Prop where
  global : ∀ l, w.services = some l → ∀ s ∈ l, s.head? = some '/'
  homes : ∀ d i, d.getLast? = some '/' → ∀ srv ∈ ["load_controller", "unload_controller", "switch_controller", "list_controllers"],
    w.server (d ++ srv.toList) = some i → home i = d

/-- All events happen in such a system. -/
def Ordered (home : Nat → List Char) (evs : List Ev) : Prop := ∀ e ∈ evs, ∀ w, e.world = some w → w.Ordered home

/-- The table `t` is right for the manager in the namespace `ns`: first come the controllers that the manager
lists (none, if no process answers); then, sorted, those that have a configuration in the parent namespace `p`
and are not listed. -/
def Right (home : Nat → List Char) (w : World) (ns p : List Char) (t : List Entry) : Prop :=
  ∃ (l : List Entry) (names : List (List Char)) (type : List Char → String),
    t = l ++ names.map (fun n => ⟨String.ofList n, type n, "uninitialized", []⟩) ∧
    ((∃ i, home i = slashed ns ∧ w.alive i = true ∧ l = w.listing i) ∨
      l = [] ∧ ∀ i, w.server (slashed ns ++ "list_controllers".toList) = some i → w.alive i = false) ∧
    Sorted names ∧ names.Nodup ∧
    (∀ n ∈ names, (inNamespace p (n ++ "/type".toList), type n) ∈ w.params) ∧
    ∀ n, n ∈ names ↔ '/' ∉ n ∧ inNamespace p (n ++ "/type".toList) ∈ w.params.map (·.1) ∧
      ∀ e ∈ l, e.name ≠ String.ofList n

/-- The front end can be used: whatever happened before, if the services of the selected manager are
advertised by a running process, a choice from the context menu is sent to a running process. -/
def Works (home : Nat → List Char) : Prop :=
  ∀ (evs : List Ev) (w : World) (a : Action), Ordered home evs → w.Ordered home →
    ∀ c, (run {} evs).menu = some c → a ∈ menuOf c.state → (run {} evs).combo.text ≠ [] →
    (∃ i, w.alive i = true ∧ ∀ srv ∈ ["load_controller", "unload_controller", "switch_controller", "list_controllers"],
      w.server (slashed (run {} evs).combo.text ++ srv.toList) = some i) →
    ∃ i r, .sent i r ∈ (step (run {} evs) (.choose (some a) w)).2

end Verif.Gui
