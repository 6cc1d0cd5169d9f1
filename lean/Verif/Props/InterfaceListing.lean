import Verif.Lemmas.ListingSound

/-!
Property C55: the resource names an interface manager reports.
-/

namespace Verif

open Spec

/-- **C55.** If interfaces are registered when they are complete, then after any history
`getInterfaceResources` returns the names of the resources which the registered interfaces of the
type have now: own interface first, then those of the sub-managers. It returns nothing for a type
that is no resource manager or was not registered. -/
theorem c55_listing_partial (env : TypeEnv) (ops : List IOp)
    (hops : completeFirst env IWorld.init ops = true) (T : String) :
    let w := IWorld.init.run env ops
    w.root.getInterfaceResources T =
      if env.isRM T then namesOf w.heap.objs (registered T w.root) else [] :=
  IMan.listing_eq T _ (IWorld.listing_run ops (IWorld.listing_init env) hops).list

/-- **C55, iff.** Under the same condition a name is listed iff a registered interface of the type
has a resource of that name. -/
theorem c55_listed_iff_partial (env : TypeEnv) (ops : List IOp)
    (hops : completeFirst env IWorld.init ops = true) (T : String) (hT : env.isRM T = true) (name : String) :
    let w := IWorld.init.run env ops
    name ∈ w.root.getInterfaceResources T ↔
      ∃ o ∈ registered T w.root, (w.heap.objs o).rmGetHandle name ≠ none := by
  intro w
  rw [c55_listing_partial env ops hops T, if_pos hT, namesOf, List.mem_flatMap]
  refine exists_congr fun o => and_congr_right fun _ => ?_
  show name ∈ smapKeys (w.heap.objs o).handles ↔ smapFind name (w.heap.objs o).handles ≠ none
  rw [← Option.isSome_iff_ne_none]
  exact (smapFind_isSome name _).symm

/-- **C55, nothing is invented.** After any history whatever, with resources added to registered interfaces too, each listed name is that of
a resource which a registered interface of the type has now; nothing is listed for a type that is no resource manager. -/
theorem c55_sound (env : TypeEnv) (ops : List IOp) (T : String) :
    let w := IWorld.init.run env ops
    ∀ name ∈ w.root.getInterfaceResources T,
      env.isRM T = true ∧ ∃ o ∈ registered T w.root, (w.heap.objs o).rmGetHandle name ≠ none :=
  IMan.Sound.listed T _ (IWorld.sound_run ops (IWorld.sound_init env)).sound

/-- A resource is added late, and the interface of the sub-manager is registered in the root as well: two lists of different age. -/
example : (IWorld.init.run ⟨fun _ => true, fun _ => true⟩
    [.registerManager [], .newIface "Eff", .registerHandle 0 ⟨"j1", 1⟩, .registerInterface [0] "Eff" 0, .registerHandle 0 ⟨"j2", 2⟩,
      .registerInterface [] "Eff" 0, .registerHandle 0 ⟨"j3", 3⟩]).root.getInterfaceResources "Eff" = ["j1", "j2", "j1"] := by decide

/-- **C55 does not hold in full.** The names are copied when the interface is registered: a
resource added to the interface later can be looked up but is not listed. -/
theorem c55_late_resource_negation :
    ∃ (env : TypeEnv) (ops : List IOp) (T name : String) (o : ObjId),
      let w := IWorld.init.run env ops
      (w.root.get env T w.heap).1 = some o ∧ ((w.heap.objs o).getHandle name).1 ≠ none ∧
      name ∉ w.root.getInterfaceResources T :=
  ⟨⟨fun _ => true, fun _ => true⟩,
    [.newIface "Eff", .registerInterface [] "Eff" 0, .registerHandle 0 ⟨"j1", 1⟩], "Eff", "j1", 0,
    by decide⟩

/-- A history that registers complete interfaces, with a replaced one: the handle added to the
replaced interface afterwards does not matter. -/
def listingOps : List IOp :=
  [.registerManager [], .newIface "Eff", .newIface "Eff", .registerHandle 0 ⟨"j1", 1⟩,
    .registerHandle 1 ⟨"j2", 2⟩, .registerInterface [0] "Eff" 0, .get "Eff", .registerInterface [] "Eff" 1,
    .newIface "Eff", .registerHandle 2 ⟨"j3", 3⟩, .registerInterface [] "Eff" 2,
    .registerHandle 1 ⟨"j4", 4⟩]

example : completeFirst ⟨fun _ => true, fun _ => true⟩ IWorld.init listingOps = true := by decide

example : (IWorld.init.run ⟨fun _ => true, fun _ => true⟩ listingOps).root.getInterfaceResources "Eff" =
    ["j3", "j1"] := by decide

end Verif
