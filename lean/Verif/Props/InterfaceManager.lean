import Verif.Lemmas.InterfaceManager
import Verif.Lemmas.InterfaceGrowth

/-!
Properties C31 and C32: interface lookup in (combined) interface managers.
-/

namespace Verif

open Spec

/-- An operation that is not a lookup. -/
def Spec.IsRegistration (op : IOp) : Prop := ∀ T, op ≠ .get T

theorem isReg_of (op : IOp) (h : IsRegistration op) : IWorld.IsReg op := by
  cases op <;> simp_all [IWorld.IsReg, IsRegistration]

/-- **C31, resource managers.** After any history of registrations (any manager tree, any
order, replacements included) `get<T>()` for a resource manager type `T`: is null iff nothing
of type `T` is registered in the tree; with one registration it is that very object; in every
case the returned interface offers under each name exactly the handle of the last registered
provider having that name. No object that existed before is modified. -/
theorem c31_get_resource_manager (env : TypeEnv) (ops : List IOp)
    (hops : ∀ op ∈ ops, IsRegistration op) (T : String) (hT : env.isRM T = true) :
    let w := IWorld.init.run env ops
    let res := w.root.get env T w.heap
    (res.1 = none ↔ registered T w.root = []) ∧
    (∀ o, registered T w.root = [o] → res.1 = some o) ∧
    (∀ o, res.1 = some o → ∀ name,
      ((res.2.2.objs o).getHandle name).1 = offered w.heap.objs (registered T w.root) name) ∧
    (∀ o, o < w.heap.next → res.2.2.objs o = w.heap.objs o) := by
  intro w res
  obtain ⟨hok, hnc⟩ := IWorld.run_reg (env := env) ops (fun op h => isReg_of op (hops op h))
    IWorld.init IWorld.init_ok (by simp [IWorld.init, IMan.empty, NoCache, NoCacheSubs])
  have sp := IMan.get_spec env T w.root w.heap hok.heap hok.reg (IMan.comboOK_of_noCache env _ _ hnc)
  refine ⟨sp.none_iff hT, sp.single, ?_, sp.ext.objs⟩
  intro o ho name
  have hg : ∀ i : Iface, (i.getHandle name).1 = smapFind name i.handles := by
    intro i; unfold Iface.getHandle Iface.rmGetHandle; split <;> simp_all
  rw [hg, sp.content hT o ho]
  exact offered_congr (fun x hx => sp.ext.objs x (IMan.registered_lt T _ hok.reg x hx)) name

/-- **C31, other interfaces.** For a type that is not a resource manager: null if nothing is
registered, the object itself if there is exactly one registration, and never an object that
was not registered. -/
theorem c31_get_other (env : TypeEnv) (ops : List IOp)
    (hops : ∀ op ∈ ops, IsRegistration op) (T : String) (hT : env.isRM T = false) :
    let w := IWorld.init.run env ops
    let res := w.root.get env T w.heap
    (registered T w.root = [] → res.1 = none) ∧
    (∀ o, registered T w.root = [o] → res.1 = some o) ∧
    (∀ o, res.1 = some o → o ∈ registered T w.root) ∧
    (∀ o, o < w.heap.next → res.2.2.objs o = w.heap.objs o) := by
  intro w res
  obtain ⟨hok, hnc⟩ := IWorld.run_reg (env := env) ops (fun op h => isReg_of op (hops op h))
    IWorld.init IWorld.init_ok (by simp [IWorld.init, IMan.empty, NoCache, NoCacheSubs])
  have sp := IMan.get_spec env T w.root w.heap hok.heap hok.reg (IMan.comboOK_of_noCache env _ _ hnc)
  refine ⟨fun h => ?_, sp.single, sp.nonRM hT, sp.ext.objs⟩
  cases hr : res.1 with
  | none => rfl
  | some o => have := sp.nonRM hT o hr; rw [h] at this; simp at this

/-- **C31, registration.** On a manager without sub-managers, `registered` is what was
registered last under each type, and `get` returns it. -/
theorem c31_single_manager (env : TypeEnv) (h : Heap) (regs : List (String × ObjId)) (T : String) :
    let m := regs.foldl (fun m r => IMan.registerInterface env r.1 r.2 h m) .empty
    (m.get env T h).1 = (regs.reverse.find? (fun r => r.1 = T)).map (·.2) := by
  have gen : ∀ regs : List (String × ObjId), ∃ i r,
      regs.foldl (fun m r => IMan.registerInterface env r.1 r.2 h m) .empty = .node i [] [] r [] ∧
      smapFind T i = (regs.reverse.find? (fun r => r.1 = T)).map (·.2) := by
    intro regs
    induction regs using List.reverseRecOn with
    | nil => exact ⟨[], [], rfl, by simp [smapFind]⟩
    | append_singleton regs x ih =>
      obtain ⟨i, r, h1, h2⟩ := ih
      rw [List.foldl_append, h1]
      refine ⟨_, _, rfl, ?_⟩
      rw [smapFind_insert, h2]
      by_cases hx : x.1 = T
      · simp [hx]
      · simp [hx, Ne.symm hx]
  obtain ⟨i, r, h1, h2⟩ := gen regs
  rw [h1, ← h2]
  simp only [IMan.get, IMan.getSubs, List.append_nil]
  cases smapFind T i <;> rfl

/-- Type environment of the examples: `"Eff"` is an exclusive resource manager, `"Misc"` is no
resource manager. -/
def exEnv : TypeEnv := ⟨fun T => T = "Eff", fun _ => true⟩

/-- Two sub-managers, each with its own `"Eff"` interface; the second overrides `j1`. -/
def exRegs : List IOp :=
  [.registerManager [], .registerManager [], .newIface "Eff", .newIface "Eff",
   .registerHandle 0 ⟨"j1", 10⟩, .registerHandle 0 ⟨"j0", 11⟩, .registerHandle 1 ⟨"j1", 12⟩,
   .registerInterface [0] "Eff" 0, .registerInterface [1] "Eff" 1]

example :
    let w := IWorld.init.run exEnv exRegs
    let res := w.root.get exEnv "Eff" w.heap
    registered "Eff" w.root = [0, 1] ∧ res.1 = some 2 ∧
    ((res.2.2.objs 2).getHandle "j1").1 = some ⟨"j1", 12⟩ ∧
    ((res.2.2.objs 2).getHandle "j0").1 = some ⟨"j0", 11⟩ ∧
    ((res.2.2.objs 2).getHandle "j2").1 = none := by decide

example : ∀ op ∈ exRegs, IsRegistration op := by
  intro op hop T h; subst h; simp [exRegs] at hop

/-- Three registrations of an interface that is no resource manager, two of them below a common
sub-manager: the lookup answers with the remaining one, it does not report the ambiguity. -/
example :
    let w := IWorld.init.run exEnv [.registerManager [], .registerManager [0], .newIface "Misc",
      .newIface "Misc", .newIface "Misc", .registerInterface [] "Misc" 0,
      .registerInterface [0] "Misc" 1, .registerInterface [0, 0] "Misc" 2]
    registered "Misc" w.root = [0, 1, 2] ∧ (w.root.get exEnv "Misc" w.heap).1 = some 0 := by decide

/-- **C32, disagreement (handles).** A handle registered after a combination was first looked
up is not offered by later lookups. -/
theorem c32_not_current_new_handle :
    ∃ (env : TypeEnv) (ops : List IOp) (T : String) (name : String) (o : ObjId),
      env.isRM T = true ∧
      let w := IWorld.init.run env ops
      let res := w.root.get env T w.heap
      res.1 = some o ∧ (offered w.heap.objs (registered T w.root) name).isSome = true ∧
      ((res.2.2.objs o).getHandle name).1 = none :=
  ⟨exEnv, exRegs ++ [.get "Eff", .registerHandle 1 ⟨"j9", 13⟩], "Eff", "j9", 2, by decide⟩

/-- **C32, disagreement (replacement).** After an interface of a sub-manager is replaced, a
combination looked up before still answers with the handles of the replaced object. -/
theorem c32_not_current_replaced_interface :
    ∃ (env : TypeEnv) (ops : List IOp) (T : String) (name : String) (o : ObjId),
      env.isRM T = true ∧
      let w := IWorld.init.run env ops
      let res := w.root.get env T w.heap
      res.1 = some o ∧ offered w.heap.objs (registered T w.root) name = none ∧
      ((res.2.2.objs o).getHandle name).1.isSome = true :=
  ⟨exEnv, exRegs ++ [.get "Eff", .newIface "Eff", .registerInterface [0] "Eff" 3], "Eff", "j0", 2,
    by decide⟩

/-- **C32, disagreement (nesting).** Even registering a further sub-manager is missed when it
is registered below a sub-manager that was a combination already: the number of direct
providers, which guards the cache, does not change. -/
theorem c32_not_current_nested_manager :
    ∃ (env : TypeEnv) (ops : List IOp) (T : String) (name : String) (o : ObjId),
      env.isRM T = true ∧
      let w := IWorld.init.run env ops
      let res := w.root.get env T w.heap
      res.1 = some o ∧ (offered w.heap.objs (registered T w.root) name).isSome = true ∧
      ((res.2.2.objs o).getHandle name).1 = none :=
  ⟨exEnv, exRegs ++ [.registerManager [0], .newIface "Eff", .registerInterface [0, 0] "Eff" 2,
      .get "Eff", .registerManager [0], .newIface "Eff", .registerHandle 5 ⟨"j9", 13⟩,
      .registerInterface [0, 1] "Eff" 5], "Eff", "j9", 4, by decide⟩

/-- **C32, what holds.** If all registrations precede the first lookup, every lookup answers
with what is registered, whatever lookups of whatever types were made before.
Missing for the full property: registrations after a lookup (see the three disagreements). -/
theorem c32_current_if_registered_first_partial (env : TypeEnv) (ops : List IOp)
    (hops : ∀ op ∈ ops, IsRegistration op) (Ts : List String) (T : String)
    (hT : env.isRM T = true) :
    let w := IWorld.init.run env (ops ++ Ts.map .get)
    let res := w.root.get env T w.heap
    (res.1 = none ↔ registered T w.root = []) ∧
    (∀ o, res.1 = some o → ∀ name,
      ((res.2.2.objs o).getHandle name).1 = offered w.heap.objs (registered T w.root) name) ∧
    registered T w.root = registered T (IWorld.init.run env ops).root := by
  intro w res
  obtain ⟨hok, hnc⟩ := IWorld.run_reg (env := env) ops (fun op h => isReg_of op (hops op h))
    IWorld.init IWorld.init_ok (by simp [IWorld.init, IMan.empty, NoCache, NoCacheSubs])
  obtain ⟨h1, h2, h3, h4⟩ := IWorld.run_gets (env := env) Ts _ hok (IMan.comboOK_of_noCache env _ _ hnc)
  have hw : w = (IWorld.init.run env ops).run env (Ts.map .get) := by
    simp [w, IWorld.run, List.foldl_append]
  rw [← hw] at h1 h2 h3 h4
  have sp := IMan.get_spec env T w.root w.heap h1.heap h1.reg h2
  refine ⟨sp.none_iff hT, ?_, h4 T⟩
  intro o ho name
  have hg : ∀ i : Iface, (i.getHandle name).1 = smapFind name i.handles := by
    intro i; unfold Iface.getHandle Iface.rmGetHandle; split <;> simp_all
  rw [hg, sp.content hT o ho]
  exact offered_congr (fun x hx => sp.ext.objs x (IMan.registered_lt T _ h1.reg x hx)) name

example :
    let w := IWorld.init.run exEnv (exRegs ++ ["Misc", "Eff", "Eff"].map .get)
    let res := w.root.get exEnv "Eff" w.heap
    res.1 = some 2 ∧ ((res.2.2.objs 2).getHandle "j1").1 = some ⟨"j1", 12⟩ := by decide

/-- **C32, growing.** Lookups may be interleaved with registrations: after any registrations, followed by any history of lookups
and registrations in which new interfaces are further providers (`growing`: nothing is replaced, and an interface is not added below a
sub-manager whose interfaces have been combined with others), every lookup answers with what is registered. In particular, hardware
can be added to a combined robot at any time.
Missing for the full property: exactly the registrations that are excluded (the three disagreements above, and
`c32_not_current_combination`). -/
theorem c32_current_while_growing_partial (env : TypeEnv) (ops more : List IOp)
    (hops : ∀ op ∈ ops, IsRegistration op) (hmore : growing env (IWorld.init.run env ops) more = true) (T : String)
    (hT : env.isRM T = true) :
    let w := IWorld.init.run env (ops ++ more)
    let res := w.root.get env T w.heap
    (res.1 = none ↔ registered T w.root = []) ∧
    (∀ o, registered T w.root = [o] → res.1 = some o) ∧
    (∀ o, res.1 = some o → ∀ name,
      ((res.2.2.objs o).getHandle name).1 = offered w.heap.objs (registered T w.root) name) ∧
    (∀ o, o < w.heap.next → res.2.2.objs o = w.heap.objs o) := by
  intro w res
  obtain ⟨hok, hnc⟩ := IWorld.run_reg (env := env) ops (fun op h => isReg_of op (hops op h))
    IWorld.init IWorld.init_ok (by simp [IWorld.init, IMan.empty, NoCache, NoCacheSubs])
  obtain ⟨h1, h2⟩ := IWorld.run_growing (env := env) more _ hmore hok (IMan.comboOK_of_noCache env _ _ hnc)
  have hw : w = (IWorld.init.run env ops).run env more := by simp [w, IWorld.run, List.foldl_append]
  rw [← hw] at h1 h2
  have sp := IMan.get_spec env T w.root w.heap h1.heap h1.reg h2
  refine ⟨sp.none_iff hT, sp.single, ?_, sp.ext.objs⟩
  intro o ho name
  have hg : ∀ i : Iface, (i.getHandle name).1 = smapFind name i.handles := by
    intro i; unfold Iface.getHandle Iface.rmGetHandle; split <;> simp_all
  rw [hg, sp.content hT o ho]
  exact offered_congr (fun x hx => sp.ext.objs x (IMan.registered_lt T _ h1.reg x hx)) name

/-- A third hardware is added after the combination of the first two has been looked up, and then an interface of the combined
hardware itself, and one below a sub-manager that had none; each lookup shows the new resources. -/
def exGrowth : List IOp :=
  [.get "Eff", .registerManager [], .newIface "Eff", .registerHandle 3 ⟨"j9", 13⟩, .registerInterface [2] "Eff" 3, .get "Eff",
    .newIface "Eff", .registerHandle 5 ⟨"j8", 14⟩, .registerInterface [] "Eff" 5, .get "Eff", .registerManager [], .registerManager [3],
    .newIface "Eff", .registerHandle 7 ⟨"j9", 15⟩, .registerInterface [3, 0] "Eff" 7]

example : growing exEnv (IWorld.init.run exEnv exRegs) exGrowth = true ∧
    let w := IWorld.init.run exEnv (exRegs ++ exGrowth)
    let res := w.root.get exEnv "Eff" w.heap
    registered "Eff" w.root = [5, 0, 1, 3, 7] ∧ res.1 = some 8 ∧ ((res.2.2.objs 8).getHandle "j9").1 = some ⟨"j9", 15⟩ ∧
    ((res.2.2.objs 8).getHandle "j8").1 = some ⟨"j8", 14⟩ ∧ ((res.2.2.objs 8).getHandle "j0").1 = some ⟨"j0", 11⟩ := by
  decide +kernel

/-- **C32, disagreement (combinations).** A handle that is registered on a combination that was looked up is offered by later lookups,
although none of the registered interfaces has it. -/
theorem c32_not_current_combination :
    ∃ (env : TypeEnv) (ops : List IOp) (T : String) (name : String) (o : ObjId),
      env.isRM T = true ∧
      let w := IWorld.init.run env ops
      let res := w.root.get env T w.heap
      res.1 = some o ∧ offered w.heap.objs (registered T w.root) name = none ∧
      ((res.2.2.objs o).getHandle name).1.isSome = true :=
  ⟨exEnv, exRegs ++ [.get "Eff", .registerHandle 2 ⟨"j9", 13⟩], "Eff", "j9", 2, by decide⟩

/-- **C32, repeated lookups agree.** In any state whatsoever, looking the same type up again
returns the same object and leaves managers and memory untouched. -/
theorem c32_repeated_lookup_same (env : TypeEnv) (w : IWorld) (T : String) :
    let w1 := w.step env (.get T)
    (w1.root.get env T w1.heap).1 = (w.root.get env T w.heap).1 ∧ w1.step env (.get T) = w1 := by
  intro w1
  have h := IMan.get_settled env T w.root w.heap (w.root.get env T w.heap).2.2
  have hw1 : w1 = ⟨(w.root.get env T w.heap).2.1, (w.root.get env T w.heap).2.2⟩ := rfl
  constructor
  · rw [hw1]; simp only [h]
  · rw [hw1]; simp only [IWorld.step, h]

end Verif
