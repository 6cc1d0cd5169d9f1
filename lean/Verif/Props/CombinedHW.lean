import Verif.Lemmas.CombinedHW
import Verif.Props.InterfaceListing
import Verif.Examples.ManagerWorld

/-!
Properties C33-C37: combined hardware.
-/

namespace Verif.Combined

open Spec

/-- **C33, what is handed over.** For controller lists whose claims are sets, a sub-hardware
receives the controllers in order, each with the claims cut down to the resources the hardware
reports for that interface. Claims of which nothing is left disappear, and so do controllers all of
whose claims disappeared. Controllers without claims are handed to every sub-hardware. -/
theorem c33_filter_exact_partial (hw : IMan) (list : List ControllerInfo) (h : SetClaims list) :
    filterControllerList hw list = share hw list :=
  filter_eq_share hw h

/-- **C33, iff.** A sub-hardware is told that a controller claims a resource iff the controller
claims it and the hardware reports it in that interface. -/
theorem c33_reaches_iff_partial (hw : IMan) (list : List ControllerInfo) (n T r : String) :
    Mentions (filterControllerList hw list) n T r ↔ Mentions list n T r ∧ Owns hw T r := by
  rw [filterControllerList_eq]
  constructor
  · rintro ⟨c, hc, rfl, cl, hcl, rfl, hr⟩
    obtain ⟨c', hc', e⟩ := List.mem_filterMap.1 hc
    unfold ctrlStep at e
    split at e
    · cases e; cases hcl
    · split at e
      · cases e
        obtain ⟨⟨d, hd, e1, e2⟩, ho⟩ := (mem_filterClaims hw c'.claimed _ _).1 ⟨cl, hcl, rfl, hr⟩
        exact ⟨⟨c', hc', rfl, d, hd, e1, e2⟩, ho⟩
      · cases e
  · rintro ⟨⟨c, hc, rfl, cl, hcl, rfl, hr⟩, ho⟩
    obtain ⟨d, hd, e1, e2⟩ := (mem_filterClaims hw c.claimed _ _).2 ⟨⟨cl, hcl, rfl, hr⟩, ho⟩
    refine ⟨⟨c.name, c.type, filterClaims hw c.claimed⟩, List.mem_filterMap.2 ⟨c, hc, ?_⟩, rfl, d, hd, e1, e2⟩
    have h1 : c.claimed ≠ [] := List.ne_nil_of_mem hcl
    have h2 : filterClaims hw c.claimed ≠ [] := List.ne_nil_of_mem hd
    unfold ctrlStep
    rw [if_neg (by simpa using h1), if_pos (by simpa using h2)]

/-- **C33, in terms of the registered interfaces.** If the sub-hardware registered its interfaces
when they were complete, it is told of a claimed resource iff one of its interfaces of that type has
the resource. -/
theorem c33_owner_iff_partial (env : TypeEnv) (ops : List IOp)
    (hops : completeFirst env IWorld.init ops = true) (list : List ControllerInfo) (n T r : String)
    (hT : env.isRM T = true) :
    let w := IWorld.init.run env ops
    Mentions (filterControllerList w.root list) n T r ↔
      Mentions list n T r ∧ ∃ o ∈ registered T w.root, (w.heap.objs o).rmGetHandle r ≠ none := by
  intro w
  rw [c33_reaches_iff_partial]
  refine and_congr_right fun _ => ?_
  have hl := c55_listed_iff_partial env ops hops T hT r
  refine ⟨fun h => hl.1 h.2, fun h => ⟨?_, hl.2 h⟩⟩
  rw [mem_getNames_iff]
  obtain ⟨o, ho, _⟩ := h
  exact List.ne_nil_of_mem ho

/-- **C33, a sub-hardware is never told of foreign resources.** Whatever the sub-hardware has registered, and whenever, it is told only of
claims that are made, and only of resources which one of its interfaces of that type has. -/
theorem c33_only_owned (env : TypeEnv) (ops : List IOp) (list : List ControllerInfo) (n T r : String) :
    let w := IWorld.init.run env ops
    Mentions (filterControllerList w.root list) n T r →
      Mentions list n T r ∧ env.isRM T = true ∧ ∃ o ∈ registered T w.root, (w.heap.objs o).rmGetHandle r ≠ none := by
  intro w h
  obtain ⟨h1, h2⟩ := (c33_reaches_iff_partial w.root list n T r).1 h
  exact ⟨h1, c55_sound env ops T r h2.2⟩

/-- An interface that got its second joint late: of the two joints claimed the sub-hardware is told of the first. -/
example : filterControllerList (IWorld.init.run ⟨fun _ => true, fun _ => true⟩
    [.newIface "Eff", .registerHandle 0 ⟨"j1", 1⟩, .registerInterface [] "Eff" 0, .registerHandle 0 ⟨"j2", 2⟩]).root
    [⟨"arm", "t", [⟨"Eff", ["j1", "j2", "j3"]⟩]⟩] = [⟨"arm", "t", [⟨"Eff", ["j1"]⟩]⟩] := by decide

/-- **C33 does not hold in full.** A resource that the sub-hardware added to its interface after
registering the interface can be claimed, but the sub-hardware is not told. -/
theorem c33_late_resource_negation :
    ∃ (env : TypeEnv) (ops : List IOp) (list : List ControllerInfo) (n T r : String) (o : ObjId),
      let w := IWorld.init.run env ops
      (w.root.get env T w.heap).1 = some o ∧ ((w.heap.objs o).getHandle r).1 ≠ none ∧
      Mentions list n T r ∧ filterControllerList w.root list = [] :=
  ⟨⟨fun _ => true, fun _ => true⟩,
    [.newIface "Eff", .registerInterface [] "Eff" 0, .registerHandle 0 ⟨"j1", 1⟩],
    [⟨"arm", "t", [⟨"Eff", ["j1"]⟩]⟩], "arm", "Eff", "j1", 0,
    by decide, by decide, ⟨⟨"arm", "t", [⟨"Eff", ["j1"]⟩]⟩, by simp⟩, by decide⟩

/-- Two sub-hardwares: one with joints a and b under effort, one with joint b under effort and c
under position. -/
def exHw1 : IMan := .node [("Eff", 0)] [] [] [("Eff", ["a", "b"])] []

/-- See `exHw1`. -/
def exHw2 : IMan := .node [("Eff", 1), ("Pos", 2)] [] [] [("Eff", ["b"]), ("Pos", ["c"])] []

/-- Controllers: claims over both hardwares, only over the second, and none at all. -/
def exList : List ControllerInfo :=
  [⟨"x", "X", [⟨"Eff", ["a", "b"]⟩, ⟨"Pos", ["c"]⟩]⟩, ⟨"y", "Y", [⟨"Pos", ["c"]⟩]⟩, ⟨"z", "Z", []⟩]

example : SetClaims exList := by unfold SetClaims; decide

example : filterControllerList exHw1 exList = [⟨"x", "X", [⟨"Eff", ["a", "b"]⟩]⟩, ⟨"z", "Z", []⟩] ∧
    filterControllerList exHw2 exList =
      [⟨"x", "X", [⟨"Eff", ["b"]⟩, ⟨"Pos", ["c"]⟩]⟩, ⟨"y", "Y", [⟨"Pos", ["c"]⟩]⟩, ⟨"z", "Z", []⟩] := by
  decide

example : completeFirst ⟨fun _ => true, fun _ => true⟩ IWorld.init listingOps = true ∧
    filterControllerList (IWorld.init.run ⟨fun _ => true, fun _ => true⟩ listingOps).root
      [⟨"arm", "t", [⟨"Eff", ["j1", "j2", "j3"]⟩]⟩] = [⟨"arm", "t", [⟨"Eff", ["j1", "j3"]⟩]⟩] := by decide

/-- **C34, answer.** `prepareSwitch` succeeds iff every sub-hardware accepts its share. -/
theorem c34_conjunction (hws : List IMan) (reply : Nat → List ControllerInfo → List ControllerInfo → Bool)
    (start stop : List ControllerInfo) (h1 : SetClaims start) (h2 : SetClaims stop) :
    (prepareSwitch hws reply start stop).1 = true ↔
      ∀ (i : Nat) (hw : IMan), hws[i]? = some hw → reply i (share hw start) (share hw stop) = true := by
  rw [prepareSwitch, prepareFrom_eq reply h1 h2, List.all_eq_true]
  constructor
  · intro h i hw hi
    have := h _ (List.mem_of_getElem? (by rw [getElem?_asks, hi]; rfl : (asks reply start stop 0 hws)[i]? = some _))
    simpa [Event.accepted] using this
  · intro h e he
    obtain ⟨i, hi⟩ := List.mem_iff_getElem?.1 he
    rw [getElem?_asks] at hi
    cases hk : hws[i]? with
    | none => rw [hk] at hi; cases hi
    | some hw =>
      rw [hk] at hi
      cases hi
      simpa [Event.accepted] using h i hw hk

/-- **C34, questions.** The calls made are the questions in order, up to and including the first
that is refused; nothing is called afterwards, in particular the sub-hardwares that had accepted are
not told of the refusal. -/
theorem c34_asked (hws : List IMan) (reply : Nat → List ControllerInfo → List ControllerInfo → Bool)
    (start stop : List ControllerInfo) (h1 : SetClaims start) (h2 : SetClaims stop) :
    (prepareSwitch hws reply start stop).2 =
      (asks reply start stop 0 hws).takeWhile (·.accepted) ++
        ((asks reply start stop 0 hws).dropWhile (·.accepted)).take 1 := by
  rw [prepareSwitch, prepareFrom_eq reply h1 h2]

example : (prepareSwitch [exHw2, exHw1, exHw1] (fun i _ _ => i != 1) exList []) =
    (false,
      [.prepareSwitch 0 (share exHw2 exList) [] true, .prepareSwitch 1 (share exHw1 exList) [] false]) := by
  decide

example : (prepareSwitch [exHw2, exHw1] (fun _ a _ => a.length ≥ 2) exList []).1 = true := by decide

/-- **C35, `doSwitch`** is called once on every sub-hardware, in order, with its shares. -/
theorem c35_doSwitch (hws : List IMan) (start stop : List ControllerInfo) (h1 : SetClaims start)
    (h2 : SetClaims stop) :
    doSwitch hws start stop = hws.mapIdx fun i hw => .doSwitch i (share hw start) (share hw stop) := by
  rw [doSwitch, doSwitchFrom_eq h1 h2]
  simp

/-- **C35, `read` and `write`** are called once on every sub-hardware, in order. -/
theorem c35_read_write (hws : List IMan) :
    read hws = (List.range hws.length).map .read ∧ write hws = (List.range hws.length).map .write := by
  simp [read, write, eachFrom_eq]

example : doSwitch [exHw1, exHw2] [] exList =
    [.doSwitch 0 [] (share exHw1 exList), .doSwitch 1 [] (share exHw2 exList)] ∧
    read [exHw1, exHw2] = [.read 0, .read 1] := by decide

/-- **C34/C35.** The questions of a successful `prepareSwitch` and the calls of the following
`doSwitch` carry the same lists to the same sub-hardwares. -/
theorem c35_same_as_prepared (hws : List IMan)
    (reply : Nat → List ControllerInfo → List ControllerInfo → Bool) (start stop : List ControllerInfo)
    (h : (prepareSwitch hws reply start stop).1 = true) :
    ((prepareSwitch hws reply start stop).2.map fun
      | .prepareSwitch i a b _ => Event.doSwitch i a b
      | e => e) = doSwitch hws start stop := by
  unfold prepareSwitch doSwitch at *
  generalize 0 = i at *
  induction hws generalizing i with
  | nil => rfl
  | cons hw hws ih =>
    simp only [prepareFrom, doSwitchFrom] at h ⊢
    cases hr : reply i (filterControllerList hw start) (filterControllerList hw stop)
    · simp [hr] at h
    · simp only [hr, Bool.not_true, Bool.false_eq_true, if_false] at h ⊢
      simp [ih (i + 1) h]

/-- **C36 does not hold.** The combined hardware reports done whatever the parts report. -/
theorem c36_switch_result_negation : ¬ ReflectsParts switchResult ∧
    ∀ info, ¬ ReflectsParts (switchResultFor info) :=
  ⟨fun h => absurd (h [.ongoing] rfl .ongoing (by simp)) (by decide),
    fun info h => absurd (h [.ongoing] rfl .ongoing (by simp)) (by decide)⟩

/-- The answers a controller manager gets in one update from a combined hardware whose parts would
answer `parts`. -/
def managerReply (parts : List SwitchState) : Mgr.HwReply :=
  ⟨switchResult parts, switchResult parts, fun _ info => (switchResultFor info parts, switchResultFor info parts)⟩

/-- **C36, consequence for the manager.** Although a part of the hardware is still switching, or
has failed to switch, the first update starts the controller and the switch call returns true. -/
theorem c36_started_early_negation (part : SwitchState) :
    let ops := Ex.three ++ [.switch ⟨["a"], [], 2, false, 0⟩ 0 true, .update 0 false (managerReply [part]), Ex.wait]
    let m := Ex.after ops
    Reachable checkForConflict m ∧ m.running.map (·.info.name) = ["a"] ∧ _root_.Verif.Event.switchRet true ∈ m.trace := by
  refine ⟨Ex.reachable_after ?_, ?_⟩
  · simp [Ex.three, Ex.loadOf, Op.rosUp, Ex.tick, Ex.wait]
  · cases part <;> decide

/-- **C36, what remains.** When all parts are done, done is reported. -/
theorem c36_done_partial (parts : List SwitchState) (info : ControllerInfo) (_h : ∀ p ∈ parts, p = .done) :
    switchResult parts = .done ∧ switchResultFor info parts = .done := ⟨rfl, rfl⟩

/-- **C37, result.** Initialisation succeeds iff the list of sub-hardwares is configured and every
one of them loads and initialises. -/
theorem c37_result (s : St) (robots : Option (List String)) (envs : String → SubEnv) :
    (init s robots envs).1 = true ↔ ∃ rs, robots = some rs ∧ ∀ r ∈ rs, (envs r).loads ≠ none := by
  cases robots with
  | none => simp [init]
  | some rs => simp [init, loadAll_eq, List.all_eq_true, Option.isSome_iff_ne_none]

/-- **C37, effect.** In any case the sub-hardwares configured before the first failing one are
kept, in order, and no others are added. -/
theorem c37_kept (s : St) (rs : List String) (envs : String → SubEnv) :
    (init s (some rs) envs).2.hws =
      s.hws ++ ((rs.map fun r => (envs r).loads).takeWhile (·.isSome)).filterMap id := by
  simp [init, loadAll_eq]

/-- **C37, interfaces.** Starting from nothing, the combined hardware reports the interfaces and
resources of exactly the sub-hardwares it keeps. -/
theorem c37_interfaces (robots : Option (List String)) (envs : String → SubEnv) (T : String) :
    let s := (init {} robots envs).2
    (T ∈ s.man.getNames ↔ ∃ hw ∈ s.hws, T ∈ hw.getNames) ∧
    s.man.getInterfaceResources T = s.hws.flatMap (IMan.getInterfaceResources T) := by
  cases robots with
  | none => simp [init, IMan.empty, IMan.getNames, IMan.getNamesSubs, smapKeys,
      IMan.getInterfaceResources, IMan.getInterfaceResourcesSubs, smapFind]
  | some rs =>
    simp only [init, loadAll_eq, mem_getNames_registerAll, resources_registerAll]
    simp [IMan.empty, IMan.getNames, IMan.getNamesSubs, smapKeys,
      IMan.getInterfaceResources, IMan.getInterfaceResourcesSubs, smapFind]

/-- A configuration: two entries load, one throws while initialising. -/
def exEnvs (r : String) : SubEnv :=
  ⟨true, some "T", ["S", "T"], fun _ => true,
    if r = "arm" then .ok exHw1 else if r = "hand" then .ok exHw2 else .threw⟩

example : (init {} (some ["arm", "hand"]) exEnvs).1 = true ∧
    (init {} (some ["arm", "base", "hand"]) exEnvs).1 = false ∧
    (init {} (some ["arm", "base", "hand"]) exEnvs).2.hws.length = 1 ∧
    (init {} (some ["arm", "hand"]) exEnvs).2.man.getInterfaceResources "Eff" = ["a", "b", "b"] := by decide

end Verif.Combined
