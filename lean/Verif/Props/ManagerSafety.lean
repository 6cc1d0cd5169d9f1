import Verif.Lemmas.ManagerHistory
import Verif.Lemmas.Lists
import Verif.Examples.ManagerWorld
import Verif.Props.Conflict

/-!
Properties of the controller manager that hold in every reachable state.
-/

namespace Verif

open Spec Mgr

/-! ### C05 -/

theorem checkOk_checkForConflict : CheckOk checkForConflict ConflictFree where
  sound l h := by
    by_contra hc
    rw [(c27_conflict_iff l).2 hc] at h; cases h
  mono _ _ hs h := h.sublist (hs.flatMap _)
  nil := List.nodup_nil

/-- **C05.** In every reachable state no resource is claimed twice by the running controllers. -/
theorem c05_running_conflict_free {m : Mgr} (h : Reachable checkForConflict m) :
    ConflictFree (m.running.map (·.info)) := by
  have := (inv_reachable checkOk_checkForConflict h).free
  have e : m.runningInfos = m.running.map (·.info) := by
    unfold runningInfos Mgr.running
    congr 1
  rwa [e] at this

/-- **C05, pairwise.** Two different running controllers never claim the same resource, whatever
the interfaces they claim it through. -/
theorem c05_no_shared_resource {m : Mgr} (h : Reachable checkForConflict m) {s t : CtrlSpec}
    (hs : s ∈ m.running) (ht : t ∈ m.running) (hne : s.info.name ≠ t.info.name) (r : String)
    (h1 : r ∈ claimsOf s.info) : r ∉ claimsOf t.info :=
  nodup_flatMap_disjoint (c05_running_conflict_free h) (List.mem_map_of_mem hs)
    (List.mem_map_of_mem ht) (fun e => hne (by rw [e])) h1

/-- **C05, own conflict check.** A hardware class may override the check. Whatever property `P`
of groups of controllers it establishes holds of the running controllers in every reachable
state, provided `P` passes to sub-groups. -/
theorem c05_any_hereditary_check (conf : List ControllerInfo → Bool) (P : List ControllerInfo → Prop)
    (sound : ∀ l, conf l = false → P l) (mono : ∀ l l', List.Sublist l' l → P l → P l') (nil : P [])
    {m : Mgr} (h : Reachable conf m) : P (m.running.map (·.info)) := by
  have := (inv_reachable ⟨sound, mono, nil⟩ h).free
  have e : m.runningInfos = m.running.map (·.info) := by
    unfold runningInfos Mgr.running
    congr 1
  rwa [e] at this

/-- Two controllers run at the same time in a reachable state; a third, which shares a joint with
the first, is loaded. -/
example : Reachable checkForConflict (Ex.after Ex.running) ∧
    (Ex.after Ex.running).running.map (·.info.name) = ["a", "c"] ∧
    (Ex.after Ex.running).cur.map (fun s => claimsOf s.info) = [["j1"], ["j1"], ["j2"]] :=
  ⟨Ex.reachable_after Ex.rosUp_running, by decide, by decide⟩

/-! ### C15 -/

/-- **C15.** The listed controllers have pairwise different names. -/
theorem c15_names_unique {conf} {m : Mgr} (h : Reachable conf m) :
    (m.listControllers.map (·.name)).Nodup := by
  have := (inv_of_reachable h).names
  simpa [listControllers, List.map_map, Function.comp_def] using this

/-- **C15.** Different names are different controller objects. -/
theorem c15_objects_unique {conf} {m : Mgr} (h : Reachable conf m) {n n' : String} {c : CId}
    (h1 : m.getControllerByName n = some c) (h2 : m.getControllerByName n' = some c) : n = n' := by
  obtain ⟨s, hs, e1, e2⟩ := getControllerByName_mem h1
  obtain ⟨t, ht, e3, e4⟩ := getControllerByName_mem h2
  have : s = t := List.inj_on_of_nodup_map (inv_of_reachable h).objs hs ht (e2.trans e4.symm)
  rw [← e1, ← e3, this]

/-- **C15.** No listed state is "unknown". -/
theorem c15_state_known {conf} {m : Mgr} (h : Reachable conf m) {e : Entry}
    (he : e ∈ m.listControllers) :
    e.state ∈ ["initialized", "running", "stopped", "waiting", "aborted"] := by
  obtain ⟨s, hs, rfl⟩ := List.mem_map.1 he
  have := (inv_of_reachable h).inited s (Or.inl hs)
  show stateName (m.state s.c) ∈ _
  cases hh : m.state s.c
  · exact absurd hh this
  all_goals decide

example : (Ex.after Ex.running).listControllers.map (fun e => (e.name, e.state)) =
    [("a", "running"), ("b", "initialized"), ("c", "running")] := by decide

/-! ### C18 -/

/-- **C18, general form.** A controller object that was created and is not loaded any more
receives no callback in any continuation. -/
theorem c18_not_listed_never_called {conf} {m : Mgr} (h : Reachable conf m) {c : CId}
    (hc : c < m.nextId) (hn : ∀ n, m.getControllerByName n ≠ some c)
    (ops : List Op) (hops : ∀ op ∈ ops, op.rosUp) :
    ∃ es, (m.run conf ops).trace = m.trace ++ es ∧ ∀ k, Event.cb c k ∉ es := by
  have hv := inv_of_reachable h
  have hnc : c ∉ m.cur.map (·.c) := by
    intro hh
    obtain ⟨s, hs, rfl⟩ := List.mem_map.1 hh
    exact hn _ (getControllerByName_of_mem hv.names hs)
  obtain ⟨es, e, h1, _⟩ := run_not_called (conf := conf) hv hc hnc ops hops
  exact ⟨es, e, h1⟩

/-- **C18.** From the moment `unloadController` has published the new list, and in particular
after it has returned true, the unloaded controller object receives no callback: whatever is
called afterwards, including loading a controller with the same name again. -/
theorem c18_unloaded_never_called {conf} {m : Mgr} (h : Reachable conf m) (hi : m.svc = .idle)
    {name : String} {c : CId} (hc : m.getControllerByName name = some c)
    (hok : (m.unload name).svc ≠ .idle) (ops : List Op) (hops : ∀ op ∈ ops, op.rosUp) :
    ∃ es, ((m.unload name).run conf ops).trace = m.trace ++ es ∧ ∀ k, Event.cb c k ∉ es := by
  have hv := inv_of_reachable h
  obtain ⟨s, hs, e1, e2⟩ := getControllerByName_mem hc
  have hv' : Inv (fun _ => True) (m.unload name) :=
    inv_step (checkOk_true conf) hv (.unload name) trivial
  have e : m.unload name = m.unloadCore name .ret id := by simp [unload, hi]
  rcases unloadCore_cases m name .ret id (hv.used (not_releasing_of_idle hi)) with ⟨_, h2, e'⟩ | ⟨_, e'⟩
  · rw [e, e'] at hv' ⊢
    have hnc : c ∉ (m.unloaded name .ret).cur.map (·.c) := by
      intro hh
      obtain ⟨t, ht, e3⟩ := List.mem_map.1 hh
      obtain ⟨ht1, ht2⟩ := List.mem_filter.1 ht
      have : t = s := List.inj_on_of_nodup_map hv.objs ht1 hs (e3.trans e2.symm)
      subst this
      simp [e1] at ht2
    obtain ⟨es, e3, h3, _⟩ := run_not_called (conf := conf) hv'
      (show c < m.nextId from e2 ▸ hv.fresh s (Or.inl hs)) hnc ops hops
    exact ⟨es, e3, h3⟩
  · exfalso; apply hok; rw [e, e']; exact hi

/-- "b" can be unloaded while "a" and "c" run, and afterwards a new controller "b" is started:
the callbacks go to the new object 3, not to the old object 1. -/
example : (Ex.after Ex.running).getControllerByName "b" = some 1 ∧
    ((Ex.after Ex.running).unload "b").svc ≠ .idle ∧
    (((Ex.after Ex.running).unload "b").run checkForConflict
      ([Ex.tick, Ex.wait] ++ Ex.loadOf "b" ["j3"] ++ Ex.switchOf ["b"] ["a"])).trace.contains
        (.cb 3 .starting) = true := by decide

/-! ### C22 -/

/-- **C22.** A name can be looked up iff it is listed. -/
theorem c22_lookup_iff_listed (m : Mgr) (n : String) :
    (m.getControllerByName n).isSome ↔ n ∈ m.listControllers.map (·.name) := by
  rw [← Option.ne_none_iff_isSome, Ne, getControllerByName_none]
  simp [listControllers]

/-- **C22.** The object found under a name is the one created when this name was last loaded:
some `loadController` call of the history created it (the name was free before, the object did
not exist), and it has been found under this name after every operation since. -/
theorem c22_object_of_last_load {conf} (ops : List Op) (hops : ∀ op ∈ ops, op.rosUp) {n : String}
    {c : CId} (hc : (Mgr.init.run conf ops).getControllerByName n = some c) :
    ∃ ops1 env ops2, ops = ops1 ++ .load n env :: ops2 ∧
      (Mgr.init.run conf ops1).getControllerByName n = none ∧
      c = (Mgr.init.run conf ops1).nextId ∧
      ∀ pre, pre <+: ops2 →
        (Mgr.init.run conf (ops1 ++ .load n env :: pre)).getControllerByName n = some c := by
  obtain ⟨s, hs, rfl, rfl⟩ := getControllerByName_mem hc
  obtain ⟨ops1, env, ops2, h1, _, _, h4, h5, h6⟩ := loaded_since ops hops hs
  refine ⟨ops1, env, ops2, h1, getControllerByName_none.2 h5, h4, ?_⟩
  intro pre hpre
  have hpre' : ∀ op ∈ ops1 ++ .load s.info.name env :: pre, op.rosUp := by
    intro op hop
    apply hops
    rw [h1]
    rcases List.mem_append.1 hop with hop | hop
    · simp [hop]
    · rcases List.mem_cons.1 hop with hop | hop
      · simp [hop]
      · simp [hpre.subset hop]
  exact getControllerByName_of_mem (inv_of_reachable ⟨_, hpre', rfl⟩ : Inv (fun _ => True) _).names
    (h6 pre hpre)

example : (Ex.after (Ex.running ++ [.unload "b", Ex.tick, Ex.wait] ++ Ex.loadOf "b" ["j3"])
    ).getControllerByName "b" = some 3 := by decide

/-! ### C56 -/

/-- **C56.** While ROS is up, no callback or request is ever made through a pointer to a
destroyed controller object. -/
theorem c56_no_dangling_pointer {conf} {m : Mgr} (h : Reachable conf m) : m.fault = false :=
  (inv_of_reachable h).fault

/-- **C56.** The pointers that the request lists hold between updates, through which the realtime thread
asks `isRunning()` before it makes requests, point to loaded controllers, whose objects exist. -/
theorem c56_requests_loaded {conf} {m : Mgr} (h : Reachable conf m) :
    ∀ c ∈ m.startReq ++ m.stopReq, c ∈ m.cur.map (·.c) ∧ m.alive c = true := by
  intro c hc
  have hi := inv_of_reachable h
  have : c ∈ m.cur.map (·.c) := by
    rcases List.mem_append.1 hc with hc | hc
    · exact hi.start c hc
    · exact hi.stop c hc
  refine ⟨this, ?_⟩
  obtain ⟨s, hs, rfl⟩ := List.mem_map.1 this
  simp only [Mgr.alive, List.any_append, List.any_eq_true, Bool.or_eq_true]
  exact Or.inl ⟨s, hs, by simp⟩

/-- History of `c56_dangling_during_shutdown`: ROS shuts down between the check of the loop
condition and the check in the loop body of a waiting switch; the call returns false but leaves
the controller pointer in the request list. The controller is then unloaded and the realtime
thread runs once more. -/
def c56History : List Op :=
  Ex.loadOf "a" ["j1"] ++
  [.switch ⟨["a"], [], 2, false, 0⟩ 0 true, .poll ⟨true, false⟩ 0, .unload "a",
   .update 0 false (Ex.hw .ongoing), .poll ⟨false, false⟩ 0, .update 0 false (Ex.hw .done)]

/-- **C56, limit.** The hypothesis that ROS is up is needed: during shutdown the realtime thread
can call a destroyed controller. -/
theorem c56_dangling_during_shutdown :
    (Mgr.init.run checkForConflict c56History).fault = true := by decide

/-- The reachable states include ones with running controllers and a pending switch. -/
example : (Ex.after (Ex.running ++ [.switch ⟨["b"], ["a"], 2, false, 0⟩ 0 true])).startReq = [1] ∧
    (Ex.after (Ex.running ++ [.switch ⟨["b"], ["a"], 2, false, 0⟩ 0 true])).fault = false := by decide

end Verif
