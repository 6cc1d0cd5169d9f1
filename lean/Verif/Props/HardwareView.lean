import Verif.Lemmas.HardwareView
import Verif.Props.CombinedHW
import Verif.Props.ManagerSafety

/-!
Property C100: a hardware that follows the calls of `doSwitch` knows which controllers are active.
-/

namespace Verif

open Mgr Spec

/-- **C100, running controllers are known.** If no switch call gives up waiting, every running controller has been
announced to the hardware as starting and not as stopping since, whatever the hardware answers. Missing for the full
statement (`Spec.HardwareFollows`): switch calls that time out, see `c100_timeout_negation`. -/
theorem c100_running_known_partial (conf : List ControllerInfo → Bool) (ops : List Op) (hops : ∀ op ∈ ops, op.rosUp)
    (hin : Along InTime conf Mgr.init ops) :
    ∀ s ∈ (Mgr.init.run conf ops).running, s.info ∈ told (Mgr.init.run conf ops).trace := by
  intro s hs
  have h := hvInv_run (E := False) (conf := conf) (inv_init trivial) hvInv_init ops hops hin False.elim
  obtain ⟨h1, h2⟩ := List.mem_filter.1 hs
  exact h.run s h1 (by simpa using h2)

/-- **C100, exactly the running controllers.** If moreover the hardware reports no error and no timeout elapses, then
whenever no switch is in progress the controllers the hardware regards as active are the running ones, each once.
Missing for the full statement: errors, see `c100_error_negation`. -/
theorem c100_exact_partial (conf : List ControllerInfo → Bool) (ops : List Op) (hops : ∀ op ∈ ops, op.rosUp)
    (hin : Along InTime conf Mgr.init ops) (hne : Along NoError conf Mgr.init ops)
    (hs : ¬ (Mgr.init.run conf ops).Switching) :
    (told (Mgr.init.run conf ops).trace).Perm ((Mgr.init.run conf ops).running.map (·.info)) := by
  have hv : Inv (fun _ => True) (Mgr.init.run conf ops) := inv_run (checkOk_true conf) (inv_init trivial) ops hops
  have h := hvInv_run (E := True) (conf := conf) (inv_init trivial) hvInv_init ops hops hin fun _ => hne
  refine (List.perm_ext_iff_of_nodup (List.Nodup.of_map _ (h.nodup trivial)) (running_nodup hv)).2 ?_
  intro i
  rw [List.mem_map]
  constructor
  · intro hi
    obtain ⟨s, hs', rfl, hr⟩ := h.back trivial i hi
    refine ⟨s, List.mem_filter.2 ⟨hs', ?_⟩, rfl⟩
    rcases hr with hr | hr
    · simpa using hr
    · exact absurd (h.wait hr.1) hs
  · rintro ⟨s, hs', rfl⟩
    obtain ⟨h1, h2⟩ := List.mem_filter.1 hs'
    exact h.run s h1 (by simpa using h2)

/-- **C100, compatible controllers.** Under the same conditions, at any time (also in the middle of a switch) no two
controllers that the hardware regards as active claim the same resource. -/
theorem c100_compatible_partial (ops : List Op) (hops : ∀ op ∈ ops, op.rosUp)
    (hin : Along InTime checkForConflict Mgr.init ops) (hne : Along NoError checkForConflict Mgr.init ops) :
    ConflictFree (told (Mgr.init.run checkForConflict ops).trace) := by
  have hv := inv_run checkOk_checkForConflict (inv_init checkOk_checkForConflict.nil) ops hops (D := True)
  have h := hvInv_run (E := True) (conf := checkForConflict) (inv_init trivial) hvInv_init ops hops hin fun _ => hne
  generalize Mgr.init.run checkForConflict ops = m at hv h
  have hnd : (told m.trace).Nodup := List.Nodup.of_map _ (h.nodup trivial)
  have sub : ∀ l, ConflictFree l → told m.trace ⊆ l → ConflictFree (told m.trace) := by
    intro l hl hsub
    obtain ⟨l', hp, hl'⟩ := List.subperm_of_subset hnd hsub
    have h1 : ConflictFree l' := List.Nodup.sublist (List.Sublist.flatMap hl' _) hl
    exact (List.Perm.nodup_iff (List.Perm.flatMap_right _ hp)).1 h1
  by_cases hpend : m.params.doSwitch = true ∧ m.params.started = true
  · refine sub _ (hv.target hpend.1) ?_
    intro i hi
    obtain ⟨s, hs, rfl, hr⟩ := h.back trivial i hi
    refine List.mem_map.2 ⟨s, List.mem_filter.2 ⟨hs, ?_⟩, rfl⟩
    by_cases hst : s.c ∈ m.startReq
    · simp [hst]
    · have hr : m.state s.c = .running := by
        rcases hr with hr | hr
        · exact hr
        · exact absurd hr.2.2 hst
      have hsp : s.c ∉ m.stopReq := fun hx => h.stopped hpend.1 hpend.2 s.c hx hst hr
      simp [isRunning_iff.2 hr, hsp]
  · refine sub _ hv.free ?_
    intro i hi
    obtain ⟨s, hs, rfl, hr⟩ := h.back trivial i hi
    refine List.mem_map.2 ⟨s, List.mem_filter.2 ⟨hs, ?_⟩, rfl⟩
    rcases hr with hr | hr
    · exact isRunning_iff.2 hr
    · exact absurd ⟨hr.1, hr.2.1⟩ hpend

/-- **C100, the calls alternate.** Under the same conditions, `doSwitch` starts only controllers that were not active
and stops only controllers that were, with the claims they were started with. -/
theorem c100_calls_fit_partial (conf : List ControllerInfo → Bool) (ops : List Op) (hops : ∀ op ∈ ops, op.rosUp)
    (hin : Along InTime conf Mgr.init ops) (hne : Along NoError conf Mgr.init ops)
    {pre post : List Event} {start stop : List ControllerInfo}
    (ht : (Mgr.init.run conf ops).trace = pre ++ .doSwitch start stop :: post) :
    (∀ i ∈ start, i.name ∉ (told pre).map (·.name)) ∧ ∀ i ∈ stop, i ∈ told pre :=
  (callsFit_run (conf := conf) (inv_init trivial) hvInv_init (by simp [CallsFit, Mgr.init]) ops hops hin hne pre start
    stop post ht).2

/-- **C100, combined hardware.** Under the same conditions each sub-hardware of a combined hardware, which sees only its
part of the calls, knows its part of the running controllers: when no switch is in progress it regards `n` as an active
controller with resource `r` of interface `T` iff `n` is running, claims the resource, and the sub-hardware has it. -/
theorem c100_part_partial (conf : List ControllerInfo → Bool) (ops : List Op) (hops : ∀ op ∈ ops, op.rosUp)
    (hin : Along InTime conf Mgr.init ops) (hne : Along NoError conf Mgr.init ops)
    (hs : ¬ (Mgr.init.run conf ops).Switching) (hw : IMan) (n T r : String) :
    Combined.Mentions (told ((Mgr.init.run conf ops).trace.map (partOfEvent hw))) n T r ↔
      Combined.Mentions ((Mgr.init.run conf ops).running.map (·.info)) n T r ∧ Combined.Owns hw T r := by
  have hf := callsFit_run (conf := conf) (inv_init trivial) hvInv_init (by simp [CallsFit, Mgr.init]) ops hops hin hne
  rw [told_part hw _ hf, Combined.c33_reaches_iff_partial]
  have hp := c100_exact_partial conf ops hops hin hne hs
  refine and_congr_left fun _ => ?_
  unfold Combined.Mentions
  constructor
  · rintro ⟨c, hc, h⟩; exact ⟨c, hp.mem_iff.1 hc, h⟩
  · rintro ⟨c, hc, h⟩; exact ⟨c, hp.mem_iff.2 hc, h⟩

/-- A history with two switches (the second takes two updates), in time and without errors. -/
def viewOps : List Op :=
  Ex.running ++ [.switch ⟨["b"], ["a"], 2, false, 0⟩ 0 true, .update 0 false (Ex.hw .ongoing), .poll {} 5, Ex.tick, Ex.wait]

example : (∀ op ∈ viewOps, op.rosUp) ∧ Along InTime checkForConflict Mgr.init viewOps ∧
    Along NoError checkForConflict Mgr.init viewOps := by
  refine ⟨by simp [viewOps, Ex.running, Ex.three, Ex.loadOf, Ex.switchOf, Ex.tick, Ex.wait, Op.rosUp], ?_, ?_⟩
  · simp only [viewOps, Ex.running, Ex.three, Ex.loadOf, Ex.switchOf, Ex.tick, Ex.wait, List.cons_append, List.nil_append,
      Along, InTime, true_and, and_true]
    refine ⟨?_, ?_, ?_, ?_, ?_, ?_⟩ <;> intro k t h1 h2 <;> first | exact absurd h2 (by decide) | (cases h1; right; rfl)
  · simp only [viewOps, Ex.running, Ex.three, Ex.loadOf, Ex.switchOf, Ex.tick, Ex.wait, List.cons_append, List.nil_append,
      Along, NoError, true_and, and_true, Ex.hw]
    refine ⟨?_, ?_, ?_, ?_, ?_, ?_⟩ <;> refine ⟨by decide, by intro _ _; decide, by decide⟩

example : (told (Ex.after viewOps).trace).map (·.name) = ["c", "b"] ∧
    (Ex.after viewOps).running.map (·.info.name) = ["b", "c"] ∧ ¬ (Ex.after viewOps).Switching ∧
    (told ((Ex.after viewOps).trace.map (partOfEvent (.node [("Pos", 0)] [] [] [("Pos", ["j2"])] [])))).map (·.name) = ["c"] := by
  refine ⟨by decide, by decide, ?_, by decide⟩
  rintro ⟨k, t, h⟩
  exact absurd h (by simp [show (Ex.after viewOps).svc = .idle by decide])

/-! ### What does not hold -/

/-- "a" and "c" run; a request to stop "a" and start "b" is accepted, but the call gives up before the realtime thread
runs. -/
def viewLateOps : List Op :=
  Ex.running ++ [.switch ⟨["b"], ["a"], 2, false, 1⟩ 0 true, .poll {} (second + 1), Ex.tick]

/-- **C100 does not hold after a timeout.** The call has returned false, the controllers are as before, but the hardware
has been told that "a" stops and "b" starts: it regards a controller as active that is not, and one as inactive that
runs and writes commands. -/
theorem c100_timeout_negation :
    (∀ op ∈ viewLateOps, op.rosUp) ∧ Event.switchRet false ∈ (Ex.after viewLateOps).trace ∧
    (Ex.after viewLateOps).running.map (·.info.name) = ["a", "c"] ∧
    (told (Ex.after viewLateOps).trace).map (·.name) = ["c", "b"] ∧ ¬ (Ex.after viewLateOps).Switching := by
  refine ⟨by simp [viewLateOps, Ex.running, Ex.three, Ex.loadOf, Ex.switchOf, Ex.tick, Ex.wait, Op.rosUp], by decide, by decide,
    by decide, ?_⟩
  rintro ⟨k, t, h⟩
  exact absurd h (by simp [show (Ex.after viewLateOps).svc = .idle by decide])

/-- Starting "a" fails because the hardware reports an error. Then "b", which claims the same joint, is started. -/
def viewErrorOps : List Op :=
  Ex.three ++ [.switch ⟨["a"], [], 2, false, 0⟩ 0 true, .update 0 false (Ex.hw .error), Ex.wait] ++ Ex.switchOf ["b"] []

/-- **C100 does not hold after an error.** The controller is aborted and the hardware is not told; later it regards two
controllers with the same joint as active. -/
theorem c100_error_negation :
    (∀ op ∈ viewErrorOps, op.rosUp) ∧ Along InTime checkForConflict Mgr.init viewErrorOps ∧
    (Ex.after viewErrorOps).running.map (·.info.name) = ["b"] ∧
    (told (Ex.after viewErrorOps).trace).map (·.name) = ["a", "b"] ∧
    checkForConflict (told (Ex.after viewErrorOps).trace) = true := by
  refine ⟨by simp [viewErrorOps, Ex.three, Ex.loadOf, Ex.switchOf, Ex.tick, Ex.wait, Op.rosUp], ?_, by decide, by decide, by decide⟩
  simp only [viewErrorOps, Ex.three, Ex.loadOf, Ex.switchOf, Ex.tick, Ex.wait, List.cons_append, List.nil_append,
    Along, InTime, true_and, and_true]
  refine ⟨?_, ?_, ?_, ?_, ?_⟩ <;> intro k t h1 h2 <;> exact absurd h2 (by decide)

/-- **C100 does not hold in full.** -/
theorem c100_negation : ¬ HardwareFollows checkForConflict := by
  intro h
  have := (h _ (Ex.reachable_after c100_error_negation.1)).2
  rw [c100_error_negation.2.2.2.2] at this
  cases this

end Verif
