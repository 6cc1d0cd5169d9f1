import Verif.Lemmas.Uncombinable
import Verif.Props.InterfaceManager

/-!
Property C108: looking up an interface that is no resource manager.
-/

namespace Verif

open Spec

/-- What interface_manager.h 162-182 says about interfaces that are no resource managers: if one is registered in the manager and its
sub-managers it is returned, in all other cases null is. -/
def OnlyIfAlone (env : TypeEnv) (root : IMan) (T : String) (answer : Option ObjId) : Prop :=
  env.isRM T = false → ∀ o, answer = some o ↔ registered T root = [o]

/-- The sub-managers of a manager. -/
def IMan.children : IMan → List IMan
  | .node _ _ _ _ s => s

/-- **C108, what holds.** After any history of registrations and lookups: if each sub-manager of the manager asked has at most one
interface of the type (with its own sub-managers), the lookup is answered as documented. Missing for the full statement (`OnlyIfAlone`):
sub-managers that have several. -/
theorem c108_only_if_alone_partial (env : TypeEnv) (ops : List IOp) (T : String) :
    let w := IWorld.init.run env ops
    (∀ m ∈ w.root.children, (registered T m).length ≤ 1) →
    OnlyIfAlone env w.root T (w.root.get env T w.heap).1 := by
  intro w hc hT o
  rw [IMan.get_alone env T hT _ _ (IWorld.onlyRM_run ops _ (IWorld.onlyRM_init env))]
  show IMan.alone T w.root = some o ↔ _
  generalize w.root = m at hc
  obtain ⟨i, c, n, r, s⟩ := m
  have e := IMan.aloneSubs_each T s hc
  simp only [IMan.alone, registered, e]
  rcases (smapFind T i).toList ++ registeredSubs T s with _ | ⟨a, _ | ⟨b, t⟩⟩ <;> simp

/-- **C108, one way always.** Whatever was registered and looked up before, and however the managers are nested: an interface that is the
only one is found, and what is found is registered. Nothing is changed by the lookup. -/
theorem c108_one_is_found (env : TypeEnv) (ops : List IOp) (T : String) (hT : env.isRM T = false) :
    let w := IWorld.init.run env ops
    (∀ o, registered T w.root = [o] → (w.root.get env T w.heap).1 = some o) ∧
    (∀ o, (w.root.get env T w.heap).1 = some o → o ∈ registered T w.root) ∧
    w.step env (.get T) = w := by
  intro w
  have e := IMan.get_alone env T hT w.root w.heap (IWorld.onlyRM_run ops _ (IWorld.onlyRM_init env))
  refine ⟨fun o ho => ?_, fun o ho => ?_, ?_⟩
  · rw [e]; exact IMan.alone_single T w.root o ho
  · rw [e] at ho; exact IMan.alone_mem T w.root o ho
  · simp only [IWorld.step, e]

/-- The history used in `c108_only_if_alone_negation`: the manager has one interface "Misc"; its sub-manager has one, and the sub-manager
of that has another one. -/
def hiddenMisc : List IOp :=
  [.registerManager [], .registerManager [0], .newIface "Misc", .newIface "Misc", .newIface "Misc",
    .registerInterface [] "Misc" 0, .registerInterface [0] "Misc" 1, .registerInterface [0, 0] "Misc" 2]

/-- **C108 does not hold in full.** A sub-manager with two answers null, which is the answer of one that has none: of three interfaces the
first is returned as if it were the only one. -/
theorem c108_only_if_alone_negation :
    ¬ ∀ (env : TypeEnv) (ops : List IOp) (T : String),
      let w := IWorld.init.run env ops
      OnlyIfAlone env w.root T (w.root.get env T w.heap).1 := by
  intro h
  have := (h exEnv hiddenMisc "Misc" (by decide) 0).1 (by decide)
  revert this
  decide

/-- Two sub-managers with an interface each, asked for again after another one has been registered and looked up. -/
example :
    let w := IWorld.init.run exEnv (exRegs ++ [.newIface "Misc", .newIface "Misc", .registerInterface [0] "Misc" 2, .get "Misc", .get "Eff",
      .registerInterface [1] "Misc" 3])
    registered "Misc" w.root = [2, 3] ∧ (∀ m ∈ w.root.children, (registered "Misc" m).length ≤ 1) ∧
    (w.root.get exEnv "Misc" w.heap).1 = none := by decide

/-- Before the second one is registered, the first is found. -/
example :
    let w := IWorld.init.run exEnv (exRegs ++ [.newIface "Misc", .registerInterface [0] "Misc" 2, .get "Eff"])
    registered "Misc" w.root = [2] ∧ (w.root.get exEnv "Misc" w.heap).1 = some 2 := by decide

end Verif
