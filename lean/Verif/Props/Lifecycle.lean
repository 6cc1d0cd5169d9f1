import Verif.Lemmas.Lifecycle

/-!
Properties C01, C02, C03: lifecycle of one controller.
-/

namespace Verif

open Spec Lifecycle

/-- **C01.** Whatever the requests made on a controller and whatever their order, each
`update()` the user code sees comes after a `starting()` with nothing but `update()`s in
between. -/
theorem c01_update_only_while_started (rs : List Request) (pre post : List Callback)
    (h : (Ctrl.run rs).callbacks = pre ++ Callback.update :: post) :
    ∃ pre₁ pre₂, pre = pre₁ ++ Callback.starting :: pre₂ ∧ ∀ x ∈ pre₂, x = Callback.update := by
  induction rs using List.reverseRecOn generalizing pre post with
  | nil => simp [Ctrl.run, Ctrl.callbacks] at h
  | append_singleton rs r ih =>
    rw [run_append, callbacks_step] at h
    rcases List.append_eq_append_iff.1 h with ⟨a, h1, h2⟩ | ⟨c, h1, h2⟩
    · -- the update is among the new callbacks
      have hlen : (r.run (Ctrl.run rs).state).calls.length ≤ 1 := by
        cases r <;> simp only [Request.run, initRequest, updateRequest, startRequest, stopRequest,
          waitRequest, abortRequest] <;> split <;> (try split) <;> simp
      have ha : a = [] := by
        rw [h2] at hlen
        cases a with
        | nil => rfl
        | cons x t => simp at hlen
      subst ha
      have hs := running_of_update_call (post := post) (by simpa using h2)
      obtain ⟨p1, p2, hp, hq⟩ := running_lastIsStarting rs hs
      refine ⟨p1, p2, ?_, hq⟩
      have : pre = (Ctrl.run rs).callbacks := by simpa using h1
      rw [this, hp]; simp
    · cases c with
      | nil =>
        have hs := running_of_update_call (post := post) (by simpa using h2.symm)
        obtain ⟨p1, p2, hp, hq⟩ := running_lastIsStarting rs hs
        refine ⟨p1, p2, ?_, hq⟩
        have : pre = (Ctrl.run rs).callbacks := by simpa using h1.symm
        rw [this, hp]; simp
      | cons x t =>
        have hx : x = Callback.update := by simp at h2; exact h2.1.symm
        subst hx
        exact ih pre t h1

/-- A history in which `update()` does reach the user code twice, with a stop in between. -/
example : (Ctrl.run [.update, .init true, .update, .start, .update, .stop, .update, .start,
    .update]).callbacks = [.starting, .update, .stopping] ++ .starting :: .update :: [] := by decide

/-- **C02, before initialisation.** As long as no init request has succeeded, no callback
has been made, every start/stop/wait/abort request returned false, and the controller reports
none of its states. -/
theorem c02_inert_until_initialised (rs : List Request)
    (h : ∀ e ∈ (Ctrl.run rs).log, ¬ IsInitSuccess e) :
    (∀ e ∈ (Ctrl.run rs).log, e.2.2 = [] ∧ (IsLifecycle e.1 → e.2.1 = false)) ∧
    (Ctrl.run rs).state.isInitialized = false ∧ (Ctrl.run rs).state.isRunning = false ∧
    (Ctrl.run rs).state.isStopped = false ∧ (Ctrl.run rs).state.isWaiting = false ∧
    (Ctrl.run rs).state.isAborted = false := by
  obtain ⟨hs, hl⟩ := state_constructed_iff rs h
  refine ⟨hl, ?_⟩
  simp [hs, CState.isInitialized, CState.isRunning, CState.isStopped, CState.isWaiting,
    CState.isAborted]

example : ∀ e ∈ (Ctrl.run [.start, .init false, .stop, .update, .wait]).log, ¬ IsInitSuccess e := by
  simp [Ctrl.run, Ctrl.step, Request.run, startRequest, initRequest, stopRequest, updateRequest,
    waitRequest, IsInitSuccess]

/-- **C02, after initialisation.** Once an init request has succeeded, every later
start/stop/wait/abort request returns true and reaches the user code, and no later init
request succeeds, however the history continues. -/
theorem c02_responsive_once_initialised (rs rs' : List Request)
    (h : ∃ e ∈ (Ctrl.run rs).log, IsInitSuccess e) :
    ∃ later, (Ctrl.run (rs ++ rs')).log = (Ctrl.run rs).log ++ later ∧
      (∀ e ∈ later, IsLifecycle e.1 → e.2.1 = true ∧ e.2.2 ≠ []) ∧
      (∀ e ∈ later, (∃ ok, e.1 = .init ok) → e.2.1 = false ∧ e.2.2 = []) := by
  have := foldl_later rs' (Ctrl.run rs) (init_success_not_constructed rs h)
  simpa [Ctrl.run, List.foldl_append] using this

example : ∃ e ∈ (Ctrl.run [.init false, .start, .init true, .stop]).log, IsInitSuccess e :=
  ⟨(.init true, true, []), by decide, true, rfl, rfl⟩

/-- **C03, last transition.** The state is always the one named by the last successful
request in the record. -/
theorem c03_state_is_last_transition (rs : List Request) :
    (Ctrl.run rs).state = expectedState (Ctrl.run rs).log := by
  induction rs using List.reverseRecOn with
  | nil => rfl
  | append_singleton rs r ih =>
    rw [run_append]
    simp only [Ctrl.step, expectedState, List.foldl_append, List.foldl_cons, List.foldl_nil]
    rw [expectedState] at ih
    rw [← ih]
    cases r <;> simp only [Request.run, initRequest, updateRequest, startRequest, stopRequest,
      waitRequest, abortRequest] <;> split <;> (try split) <;> simp_all [afterEntry]

open Classical in
/-- **C03, exclusive.** At most one of the five predicates holds at any time, and one does
iff some init request has succeeded. -/
theorem c03_predicates_exclusive (rs : List Request) :
    ([(Ctrl.run rs).state.isInitialized, (Ctrl.run rs).state.isRunning,
      (Ctrl.run rs).state.isStopped, (Ctrl.run rs).state.isWaiting,
      (Ctrl.run rs).state.isAborted].count true =
        if ∃ e ∈ (Ctrl.run rs).log, IsInitSuccess e then 1 else 0) := by
  by_cases h : ∃ e ∈ (Ctrl.run rs).log, IsInitSuccess e
  · rw [if_pos h]
    have := init_success_not_constructed rs h
    cases hs : (Ctrl.run rs).state <;> simp_all [CState.isInitialized, CState.isRunning,
      CState.isStopped, CState.isWaiting, CState.isAborted]
  · rw [if_neg h]
    have h' : ∀ e ∈ (Ctrl.run rs).log, ¬ IsInitSuccess e := fun e he hi => h ⟨e, he, hi⟩
    simp [(state_constructed_iff rs h').1, CState.isInitialized, CState.isRunning,
      CState.isStopped, CState.isWaiting, CState.isAborted]

example : (Ctrl.run [.init true, .start, .stop, .init true, .update]).state.isStopped = true := by
  decide

end Verif
