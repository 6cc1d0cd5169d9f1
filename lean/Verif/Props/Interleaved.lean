import Verif.Lemmas.InterleavedCalls
import Verif.Examples.Interleaved
import Verif.Props.ManagerSafety

/-!
Properties of updates that are interleaved with service operations, request by request.
-/

namespace Verif.Inter

open Spec Mgr

/-- **C90.** Let at least one update have taken place. Whenever the realtime thread is between two
updates, the manager is in a state, and has shown the transitions of controllers and the answers to
clients, of an execution with the same service operations in which no update was interrupted;
provided the service operations did not interfere with an update doing a switch or restarting a
controller (see `c90_restart_negation`; for the time limit of a switch see `c58_give_up_negation`,
for the very first update `c25_race_during_first_update_negation`). -/
theorem c90_atomic_partial {conf : List ControllerInfo → Bool} {m : Mgr} (h : Reachable conf m)
    (hu : m.used ≠ none) (ops : List Step) (hc : CarefulRun conf (start m) ops)
    (hi : (run conf (start m) ops).rt = .idle) :
    ∃ l : List Op, (∀ op ∈ l, op.rosUp) ∧ l.filter Op.isService = services ops ∧
      (run conf (start m) ops).m.Agrees (m.run conf l) := by
  obtain ⟨l, h1, h2, h3, _, _⟩ := rel_run (checkOk_true conf) (inv_of_reachable h) hu
    (s := start m) (Same.refl m) hc
  refine ⟨l, h1, h2, Same.agrees ?_⟩
  unfold Rel at h3
  rw [hi] at h3
  exact h3

/-- **C90, patient executions.** The condition holds by itself if the time limits of switches are
not exceeded and controllers are not reset. -/
theorem c90_patient {conf : List ControllerInfo → Bool} {m : Mgr} (h : Reachable conf m)
    (hu : m.used ≠ none) (hs : m.params.doSwitch = true → m.Switching) (ops : List Step)
    (hc : PatientRun conf (start m) ops) (hi : (run conf (start m) ops).rt = .idle) :
    ∃ l : List Op, (∀ op ∈ l, op.rosUp) ∧ l.filter Op.isService = services ops ∧
      (run conf (start m) ops).m.Agrees (m.run conf l) :=
  c90_atomic_partial h hu ops (patient_careful (inv_of_reachable h) hu (s := start m) (Same.refl m)
    ⟨fun _ _ e => (by cases e), fun _ _ e => (by cases e), fun _ _ _ e => (by cases e), hs⟩ hc) hi

/-- **C90, at every moment.** In such an execution, also in the middle of an update, no destroyed
controller has been touched, and the running controllers claim no resource twice. -/
theorem c90_exclusive {m : Mgr} (h : Reachable checkForConflict m) (hu : m.used ≠ none)
    (ops : List Step) (hc : CarefulRun checkForConflict (start m) ops) :
    (run checkForConflict (start m) ops).m.fault = false ∧
    ConflictFree ((run checkForConflict (start m) ops).m.running.map (·.info)) := by
  obtain ⟨l, _, _, h3, h4, _⟩ := rel_run checkOk_checkForConflict
    (inv_reachable checkOk_checkForConflict h) hu (s := start m) (Same.refl m) hc
  refine ⟨rel_fault checkOk_checkForConflict.mono h4 h3, ?_⟩
  have := rel_free checkOk_checkForConflict.mono h4 h3
  unfold runningInfos at this
  unfold Mgr.running
  simpa [Mgr.isRunning, CState.isRunning] using this

/-- **C90, calls.** Whatever the service thread does during an update, the update calls `update()`
once on each controller that was running when it began, in the order of the list, and on no other
controller. -/
theorem c90_calls {conf : List ControllerInfo → Bool} {m : Mgr} (h : Reachable conf m)
    (hu : m.used ≠ none) (pre : List Step) (hi : (run conf (start m) pre).rt = .idle) (u : Args)
    (ops : List Step) (hc : CarefulRun conf (start m) (pre ++ .rt u :: ops))
    (he : Ends conf (step conf (run conf (start m) pre) (.rt u)) ops) :
    updateCalls (run conf (start m) (pre ++ .rt u :: ops)).m.trace =
      updateCalls (run conf (start m) pre).m.trace ++
        (run conf (start m) pre).m.running.map fun s => .cb s.c .update := by
  have split : ∀ (a b : List Step) (s : St), CarefulRun conf s (a ++ b) →
      CarefulRun conf s a ∧ CarefulRun conf (run conf s a) b := by
    intro a b
    induction a with
    | nil => exact fun s h => ⟨trivial, h⟩
    | cons o a ih => exact fun s h => ⟨⟨h.1, (ih _ h.2).1⟩, (ih _ h.2).2⟩
  obtain ⟨c1, c2⟩ := split pre (.rt u :: ops) _ hc
  obtain ⟨l, _, _, h3, h4, h5⟩ := rel_run (checkOk_true conf) (inv_of_reachable h) hu
    (s := start m) (Same.refl m) c1
  obtain ⟨l', _, _, g3, g4, g5⟩ := rel_run (checkOk_true conf) h4 h5 h3 (ops := [.rt u]) ⟨c2.1, trivial⟩
  have er : run conf (start m) (pre ++ .rt u :: ops) =
      run conf (step conf (run conf (start m) pre) (.rt u)) ops := by
    simp [run, List.foldl_append]
  rw [er]
  generalize hs : run conf (start m) pre = s at *
  have pr : Progress s.m.cur s.m.isRunning (updateCalls s.m.trace) (step conf s (.rt u)) := by
    obtain ⟨m', rt'⟩ := s
    simp only at hi
    subst hi
    exact ⟨rfl, by simp [list, step, rtStep], fun _ _ => rfl⟩
  have g3' : Rel (step conf s (.rt u)) _ := g3
  rw [progress_run (checkOk_true conf) g4 g5 g3' pr c2.2 he]
  congr 1

/-- The execution in the middle of which "d" is loaded and "a" is exchanged for "b" meets the
conditions; the realtime thread is between two updates at its end, "b" and "c" are running then,
and after 26 steps it is in the middle of the switch: "a" is stopped and "b" not yet started. -/
example : Reachable checkForConflict demo ∧ demo.used ≠ none ∧
    (demo.params.doSwitch = true → demo.Switching) ∧
    CarefulRun checkForConflict (start demo) busy ∧ PatientRun checkForConflict (start demo) busy ∧
    (run checkForConflict (start demo) busy).rt = .idle ∧
    (run checkForConflict (start demo) busy).m.running.map (·.info.name) = ["b", "c"] ∧
    (run checkForConflict (start demo) (busy.take 26)).m.running.map (·.info.name) = ["c"] ∧
    ∃ u l, (run checkForConflict (start demo) (busy.take 26)).rt = .starting u l :=
  ⟨Ex.reachable_after Ex.rosUp_running, by decide, fun h => absurd h (by decide), by decide,
    by decide, by decide, by decide, by decide, _, _, rfl⟩

/-- The second update of this execution: "d" has just been loaded, and during the calls the switch is
requested. -/
example : (run checkForConflict (start demo) (busy.take 10)).rt = .idle ∧
    Ends checkForConflict (step checkForConflict (run checkForConflict (start demo) (busy.take 10)) rt)
      ((busy.drop 11).take 18) ∧
    CarefulRun checkForConflict (start demo) (busy.take 10 ++ rt :: (busy.drop 11).take 18) ∧
    (run checkForConflict (start demo) (busy.take 10)).m.running.map (·.info.name) = ["a", "c"] := by
  decide

/-- The execution used in `c90_restart_negation`: an update that restarts the controllers has
stopped "a" and not yet started it again when "a" is unloaded; then come the rest of this update,
the beginning of the next one, the end of the unloading, and the end of the update. -/
def unloadDuringRestart : List Step :=
  [rtReset, rt, rt, .svc (.unload "a")] ++ List.replicate 12 rt ++ [.svc Ex.wait] ++
    List.replicate 4 rt

/-- **C90 does not hold in full.** If a controller is unloaded while an update has stopped it in
order to start it again, the unloading succeeds, the controller is started after that, and it is
destroyed while it is running, without having been stopped. No execution without interruption of
updates ends like this. -/
theorem c90_restart_negation :
    Reachable checkForConflict demo ∧ demo.used ≠ none ∧
    (run checkForConflict (start demo) unloadDuringRestart).rt = .idle ∧
    (run checkForConflict (start demo) unloadDuringRestart).m.state 0 = .running ∧
    ((run checkForConflict (start demo) unloadDuringRestart).m.trace.filter fun e =>
      e = .cb 0 .starting ∨ e = .cb 0 .stopping ∨ e = .destroyed 0 ∨ e = .unloadRet "a" true) =
      [.cb 0 .starting, .cb 0 .stopping, .cb 0 .starting, .destroyed 0, .unloadRet "a" true] ∧
    ¬ ∃ l : List Op, (∀ op ∈ l, op.rosUp) ∧
      (run checkForConflict (start demo) unloadDuringRestart).m.Agrees (demo.run checkForConflict l) := by
  refine ⟨Ex.reachable_after Ex.rosUp_running, by decide, by decide, by decide, by decide, ?_⟩
  rintro ⟨l, h1, h2⟩
  have i := inv_run (checkOk_true checkForConflict)
    (inv_of_reachable (Ex.reachable_after Ex.rosUp_running)) l h1
  have hr := i.running 0 (by rw [show Ex.after Ex.running = demo from rfl, h2.state]; decide)
  rw [show Ex.after Ex.running = demo from rfl, h2.cur] at hr
  revert hr
  decide

end Verif.Inter
