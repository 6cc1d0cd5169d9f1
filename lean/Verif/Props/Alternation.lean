import Verif.Lemmas.Alternation
import Verif.Examples.ManagerWorld

/-!
Properties of the controller manager: `starting()` and `stopping()` alternate.
-/

namespace Verif

open Mgr

/-- **C92.** If no request asks to start a controller twice or one that is running (or it asks to start
as soon as possible), the callbacks of every controller object follow its life: `starting()`, `waiting()`
and `aborting()` only come while it does not run, `update()` and `stopping()` only while it runs, it is
destroyed at most once and only while it does not run, and no callback comes after that. And what the
callbacks say about it is what its state says. -/
theorem c92_alternation_partial (conf : List ControllerInfo → Bool) (ops : List Op) (hops : ∀ op ∈ ops, op.rosUp)
    (hc : CarefulRun conf .init ops) (c : CId) :
    ∃ p, life false c (Mgr.init.run conf ops).trace = some p ∧
      (p = .running ↔ (Mgr.init.run conf ops).state c = .running) := by
  obtain ⟨p, h1, h2, _⟩ := (alt_run ops hops (alt_init false) (Or.inr hc)).track c
  exact ⟨p, h1, h2⟩

/-- **C92, without conditions.** Whatever the requests, `stopping()` and `update()` only come while the
controller runs, it is destroyed at most once and only while it does not run, and no callback comes after
that. -/
theorem c92_stopping (conf : List ControllerInfo → Bool) (ops : List Op) (hops : ∀ op ∈ ops, op.rosUp) (c : CId) :
    ∃ p, life true c (Mgr.init.run conf ops).trace = some p ∧
      (p = .running ↔ (Mgr.init.run conf ops).state c = .running) := by
  obtain ⟨p, h1, h2, _⟩ := (alt_run ops hops (alt_init true) (Or.inl rfl)).track c
  exact ⟨p, h1, h2⟩

/-- Histories in which all switch requests are STRICT and name no controller to start twice are careful. -/
theorem careful_strict (conf : List ControllerInfo → Bool) (ops : List Op) (m : Mgr)
    (h : ∀ op ∈ ops, ∀ r now p, op = .switch r now p → r.strictness = strictnessStrict ∧ r.start.Nodup) :
    CarefulRun conf m ops := by
  induction ops generalizing m with
  | nil => trivial
  | cons op ops ih =>
    refine ⟨fun r now p e _ => ?_, ih _ fun o ho => h o (List.mem_cons_of_mem _ ho)⟩
    obtain ⟨h1, h2⟩ := h op List.mem_cons_self r now p e
    exact Or.inr ⟨h2, Or.inl h1⟩

theorem careful_running : CarefulRun checkForConflict .init Ex.running := by
  refine careful_strict _ _ _ fun op ho r now p e => ?_
  subst e
  simp [Ex.running, Ex.three, Ex.loadOf, Ex.switchOf, Ex.tick, Ex.wait] at ho
  obtain ⟨rfl, -, -⟩ := ho
  decide

/-- Controllers "a" and "c" run, "b" does not; then "b" takes over from "a" in two updates and "a" is unloaded. -/
example : life false 0 (Ex.after Ex.running).trace = some .running ∧ life false 1 (Ex.after Ex.running).trace = some .idle ∧
    life false 0 (Ex.after (Ex.running ++ [.switch ⟨["b"], ["a"], 2, false, 0⟩ 0 true, .update 0 true (Ex.hw .ongoing), Ex.tick,
      Ex.wait, .unload "a", Ex.tick, Ex.wait])).trace = some .destroyed := by decide

/-- The full claim for one history. -/
def Alternates (conf : List ControllerInfo → Bool) (ops : List Op) : Prop :=
  ∀ c, life false c (Mgr.init.run conf ops).trace ≠ none

/-- **C92 does not hold in full.** A BEST_EFFORT request to start a controller that is running is
accepted, and `starting()` is called although the controller runs; if the hardware is not ready, the
running controller gets `waiting()`, and if it reports an error `aborting()`: it is not updated any more
but `stopping()` is never called. And a STRICT request that names a controller twice starts it twice. -/
theorem c92_running_negation :
    ∃ pre : List Op, (∀ op ∈ pre, op.rosUp) ∧ CarefulRun checkForConflict .init pre ∧
      (∀ s, ¬ Alternates checkForConflict (pre ++ [.switch ⟨["a"], [], 1, false, 0⟩ 0 true, .update 0 false (Ex.hw s)])) ∧
      ¬ Alternates checkForConflict (pre ++ [.switch ⟨["b", "b"], ["a"], 2, false, 0⟩ 0 true, Ex.tick]) ∧
      (∀ s, s ≠ .done → ∃ es, (Ex.after (pre ++ [.switch ⟨["a"], [], 1, false, 0⟩ 0 true, .update 0 false (Ex.hw s)])).trace =
          (Ex.after pre).trace ++ es ∧ .cb 0 .stopping ∉ es ∧
        (Ex.after pre).state 0 = .running ∧
        (Ex.after (pre ++ [.switch ⟨["a"], [], 1, false, 0⟩ 0 true, .update 0 false (Ex.hw s)])).state 0 ≠ .running) := by
  refine ⟨Ex.running, Ex.rosUp_running, ?_, ?_, ?_, ?_⟩
  · exact careful_running
  · intro s h
    refine h 0 ?_
    clear h
    cases s <;> decide
  · intro h
    exact h 1 (by decide)
  · intro s hs
    cases s with
    | done => exact absurd rfl hs
    | ongoing =>
      refine ⟨(Ex.after (Ex.running ++ [.switch ⟨["a"], [], 1, false, 0⟩ 0 true, .update 0 false (Ex.hw .ongoing)])).trace.drop
        (Ex.after Ex.running).trace.length, ?_, ?_, ?_, ?_⟩ <;> decide
    | error =>
      refine ⟨(Ex.after (Ex.running ++ [.switch ⟨["a"], [], 1, false, 0⟩ 0 true, .update 0 false (Ex.hw .error)])).trace.drop
        (Ex.after Ex.running).trace.length, ?_, ?_, ?_, ?_⟩ <;> decide

end Verif
