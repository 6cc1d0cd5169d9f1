import Verif.Spec.Clients
import Verif.Model.Reports

/-!
Vocabulary for C104: what the lines printed by the tools say about the listing.
-/

namespace Verif.Spec

open Clients Mgr

/-- What a line says about the controllers that are listed afterwards. -/
def Says (l : Listing) : Line → Prop
  | .loaded n => Listed l n
  | .unloaded n => ¬ Listed l n
  | .succeeded n => ¬ Listed l n
  | .started ns => ∀ n ∈ ns, ListedRunning l n
  | .stopped ns => ∀ n ∈ ns, ¬ ListedRunning l n
  | .entry n is s => ∃ e ∈ l, e.name = n ∧ e.state = s ∧ is.Nodup ∧
      ∀ i, i ∈ is ↔ ∃ r ∈ e.claimed, r.hardwareInterface = i
  | .noControllers => l = []
  | _ => True

/-- A line that says that something failed. -/
def IsError : Line → Prop
  | .loadError _ => True
  | .unloadError _ => True
  | .switchError _ _ => True
  | _ => False

/-- The tool, when it says that the controllers are restored to their original state, has done that: the listing is as
before. -/
def RestoredIsTrue (conf : List ControllerInfo → Bool) : Prop :=
  ∀ (env : String → LoadEnv) (types : List String) (prep : String → Bool) (prepOk prepOk' : Bool) (args : List String)
    (m : Mgr) (code : Nat) (lines : List Line) (m' : Mgr), Reachable conf m → m.svc = .idle →
    ToolPrints conf false env types prep prepOk prepOk' args m code lines m' → .restored ∈ lines →
    m'.listControllers = m.listControllers

/-- What the tool says is true even if the hardware reports errors. -/
def TrueWithErrors (conf : List ControllerInfo → Bool) : Prop :=
  ∀ (env : String → LoadEnv) (types : List String) (prep : String → Bool) (prepOk prepOk' : Bool) (args : List String)
    (m : Mgr) (code : Nat) (lines : List Line) (m' : Mgr), Reachable conf m → m.svc = .idle →
    ToolPrints conf true env types prep prepOk prepOk' args m code lines m' → ∀ l ∈ lines, Says m'.listControllers l

/-- The exit code tells whether something failed. -/
def CodeTells (conf : List ControllerInfo → Bool) : Prop :=
  ∀ (env : String → LoadEnv) (types : List String) (prep : String → Bool) (prepOk prepOk' : Bool) (args : List String)
    (m : Mgr) (code : Nat) (lines : List Line) (m' : Mgr), Reachable conf m → m.svc = .idle →
    ToolPrints conf false env types prep prepOk prepOk' args m code lines m' → (∃ l ∈ lines, IsError l) → code ≠ 0

/-- What the spawner logs when it ends is true. -/
def LogIsTrue (conf : List ControllerInfo → Bool) : Prop :=
  ∀ (loaded : List String) (m m' : Mgr), Reachable conf m → Shutdown conf true loaded true m m' →
    ∀ l ∈ shutdownLog loaded, Says m'.listControllers l

end Verif.Spec
