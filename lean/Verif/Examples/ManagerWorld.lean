import Verif.Lemmas.ManagerInv

/-!
Concrete histories of a controller manager, used in the examples beside the theorems. They
model no code of their own.
-/

namespace Verif.Ex

open Mgr

/-- A loader that creates every object of type "T". -/
def loader : Loader := ⟨["T"], fun _ => .object⟩

/-- Loading succeeds and the controller claims `rs` of the interface "Pos". -/
def env (rs : List String) : LoadEnv := ⟨true, some "T", [loader], some [⟨"Pos", rs⟩]⟩

/-- The hardware always gives the answer `s`. -/
def hw (s : SwitchState) : HwReply := ⟨s, s, fun _ _ => (s, s)⟩

/-- An update in which the hardware reports that the switch is done. -/
def tick : Op := .update 0 false (hw .done)

/-- One iteration of a wait loop. -/
def wait : Op := .poll {} 0

/-- A complete successful load. -/
def loadOf (name : String) (rs : List String) : List Op := [.load name (env rs), tick, wait]

/-- Controllers "a" and "b" claim the joint "j1", controller "c" claims "j2". -/
def three : List Op := loadOf "a" ["j1"] ++ loadOf "b" ["j1"] ++ loadOf "c" ["j2"]

/-- A complete successful strict switch. -/
def switchOf (start stop : List String) : List Op :=
  [.switch ⟨start, stop, 2, false, 0⟩ 0 true, tick, wait]

/-- "a" and "c" are running. -/
def running : List Op := three ++ switchOf ["a", "c"] []

/-- The state after a history of a fresh manager with the default conflict check. -/
def after (ops : List Op) : Mgr := Mgr.init.run checkForConflict ops

theorem reachable_after {ops : List Op} (h : ∀ op ∈ ops, op.rosUp) :
    Reachable checkForConflict (after ops) := ⟨ops, h, rfl⟩

theorem rosUp_three : ∀ op ∈ three, op.rosUp := by
  simp [three, loadOf, Op.rosUp, tick, wait]

theorem rosUp_running : ∀ op ∈ running, op.rosUp := by
  simp [running, switchOf, three, loadOf, Op.rosUp, tick, wait]

end Verif.Ex
