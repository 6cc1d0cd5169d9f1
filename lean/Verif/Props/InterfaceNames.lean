import Verif.Lemmas.InterfaceNames

/-!
Property C61: the names of the registered interfaces.
-/

namespace Verif

open Spec

/-- **C61.** After any history of registrations and lookups, `getNames` lists every interface type
exactly once that is registered in the manager or in a nested one, and no other. -/
theorem c61_interface_names (env : TypeEnv) (ops : List IOp) :
    let w := IWorld.init.run env ops
    w.root.getNames.Nodup ∧ ∀ T, T ∈ w.root.getNames ↔ ∃ o, o ∈ registered T w.root :=
  ⟨IMan.nodup_getNames (IMan.topSorted_run env ops _ List.Pairwise.nil), fun T => by
    rw [IMan.mem_getNames]; exact ⟨List.exists_mem_of_ne_nil _, fun ⟨_, h⟩ => List.ne_nil_of_mem h⟩⟩

/-- Both managers have an "Eff" interface, the nested one also "Pos". -/
example : (IWorld.init.run ⟨fun _ => true, fun _ => true⟩
    [.registerManager [], .newIface "Eff", .newIface "Eff", .newIface "Pos", .registerInterface [0] "Eff" 0,
      .registerInterface [] "Eff" 1, .registerInterface [0] "Pos" 2]).root.getNames = ["Eff", "Pos"] := by decide

end Verif
