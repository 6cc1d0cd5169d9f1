import Verif.Model.ControllerBase
import Verif.Spec.Lifecycle
import Mathlib.Data.List.Induction

/-!
Helper lemmas for the lifecycle properties.
-/

namespace Verif

open Spec

namespace Lifecycle

theorem run_append (rs : List Request) (r : Request) :
    Ctrl.run (rs ++ [r]) = (Ctrl.run rs).step r := by
  simp [Ctrl.run]

theorem running_of_update_call {r : Request} {s : CState} {post : List Callback}
    (h : (r.run s).calls = Callback.update :: post) : s = .running := by
  cases r <;> simp only [Request.run, initRequest, updateRequest, startRequest, stopRequest,
    waitRequest, abortRequest] at h <;> split at h <;> (try split at h) <;> simp_all

theorem callbacks_step (c : Ctrl) (r : Request) :
    (c.step r).callbacks = c.callbacks ++ (r.run c.state).calls := by
  simp [Ctrl.callbacks, Ctrl.step]

/-- The last lifecycle callback is `starting` exactly in state RUNNING. -/
def LastIsStarting (cb : List Callback) : Prop :=
  ∃ pre post, cb = pre ++ [Callback.starting] ++ post ∧ ∀ x ∈ post, x = Callback.update

theorem running_lastIsStarting (rs : List Request) :
    (Ctrl.run rs).state = .running → LastIsStarting (Ctrl.run rs).callbacks := by
  induction rs using List.reverseRecOn with
  | nil => intro h; cases h
  | append_singleton rs r ih =>
    rw [run_append, callbacks_step]
    intro h
    cases r with
    | init ok =>
      have : (Ctrl.run rs).state = .running := by
        simp only [Ctrl.step, Request.run, initRequest] at h
        split at h
        · exact h
        · split at h <;> simp_all
      simpa [Request.run, initRequest, this] using ih this
    | update =>
      have hs : (Ctrl.run rs).state = .running := by
        simp only [Ctrl.step, Request.run, updateRequest] at h
        split at h <;> simp_all
      obtain ⟨pre, post, hp, hq⟩ := ih hs
      refine ⟨pre, post ++ [.update], ?_, ?_⟩
      · simp [Request.run, updateRequest, hs, hp]
      · intro x hx
        rcases List.mem_append.1 hx with hx | hx
        · exact hq x hx
        · simpa using hx
    | start =>
      have hs : (Ctrl.run rs).state ≠ .constructed := by
        intro hc
        simp [Ctrl.step, Request.run, startRequest, hc] at h
      exact ⟨(Ctrl.run rs).callbacks, [], by simp [Request.run, startRequest, hs], by simp⟩
    | stop => simp only [Ctrl.step, Request.run, stopRequest] at h; split at h <;> simp_all
    | wait => simp only [Ctrl.step, Request.run, waitRequest] at h; split at h <;> simp_all
    | abort => simp only [Ctrl.step, Request.run, abortRequest] at h; split at h <;> simp_all

theorem state_constructed_iff (rs : List Request) :
    (∀ e ∈ (Ctrl.run rs).log, ¬ IsInitSuccess e) → (Ctrl.run rs).state = .constructed ∧
      ∀ e ∈ (Ctrl.run rs).log, e.2.2 = [] ∧ (IsLifecycle e.1 → e.2.1 = false) := by
  induction rs using List.reverseRecOn with
  | nil => intro _; simp [Ctrl.run]
  | append_singleton rs r ih =>
    rw [run_append]
    intro h
    have hprev : ∀ e ∈ (Ctrl.run rs).log, ¬ IsInitSuccess e := fun e he =>
      h e (by simp [Ctrl.step, he])
    obtain ⟨hs, hl⟩ := ih hprev
    have hlast := h (r, (r.run (Ctrl.run rs).state).ret, (r.run (Ctrl.run rs).state).calls)
      (by simp [Ctrl.step])
    rw [hs] at hlast
    constructor
    · cases r with
      | init ok =>
        cases ok with
        | true => exact absurd ⟨true, rfl, rfl⟩ hlast
        | false => simp [Ctrl.step, Request.run, initRequest, hs]
      | _ => simp [Ctrl.step, Request.run, updateRequest, startRequest, stopRequest, waitRequest,
          abortRequest, hs]
    · intro e he
      simp only [Ctrl.step, List.mem_append, List.mem_singleton] at he
      rcases he with he | he
      · exact hl e he
      · subst he
        rw [hs]
        cases r with
        | init ok =>
          cases ok with
          | true => exact absurd ⟨true, rfl, rfl⟩ hlast
          | false => simp [Request.run, initRequest, IsLifecycle]
        | _ => simp [Request.run, updateRequest, startRequest, stopRequest, waitRequest,
            abortRequest, IsLifecycle]

theorem not_constructed_step {c : Ctrl} (r : Request) (h : c.state ≠ .constructed) :
    (c.step r).state ≠ .constructed ∧
    (IsLifecycle r → (r.run c.state).ret = true ∧ (r.run c.state).calls ≠ []) ∧
    ((∃ ok, r = .init ok) → (r.run c.state).ret = false ∧ (r.run c.state).calls = []) := by
  cases r <;> simp [Ctrl.step, Request.run, updateRequest, startRequest, stopRequest, waitRequest,
    abortRequest, initRequest, IsLifecycle, h] ; split <;> simp_all

theorem init_success_not_constructed (rs : List Request) :
    (∃ e ∈ (Ctrl.run rs).log, IsInitSuccess e) → (Ctrl.run rs).state ≠ .constructed := by
  induction rs using List.reverseRecOn with
  | nil => rintro ⟨e, he, _⟩; simp [Ctrl.run] at he
  | append_singleton rs r ih =>
    rw [run_append]
    rintro ⟨e, he, hi⟩
    simp only [Ctrl.step, List.mem_append, List.mem_singleton] at he
    rcases he with he | he
    · exact (not_constructed_step r (ih ⟨e, he, hi⟩)).1
    · subst he
      obtain ⟨ok, h1, h2⟩ := hi
      simp only at h1 h2
      subst h1
      simp only [Ctrl.step, Request.run, initRequest] at h2 ⊢
      split at h2
      · simp at h2
      · split at h2 <;> simp_all

theorem foldl_log_prefix (rs : List Request) (c : Ctrl) :
    ∃ l, (rs.foldl Ctrl.step c).log = c.log ++ l := by
  induction rs generalizing c with
  | nil => exact ⟨[], by simp⟩
  | cons r rs ih =>
    obtain ⟨l, hl⟩ := ih (c.step r)
    refine ⟨(r, (r.run c.state).ret, (r.run c.state).calls) :: l, ?_⟩
    rw [List.foldl_cons, hl]; simp [Ctrl.step]

theorem foldl_later (rs : List Request) (c : Ctrl) (h : c.state ≠ .constructed) :
    ∃ l, (rs.foldl Ctrl.step c).log = c.log ++ l ∧
      (∀ e ∈ l, IsLifecycle e.1 → e.2.1 = true ∧ e.2.2 ≠ []) ∧
      (∀ e ∈ l, (∃ ok, e.1 = .init ok) → e.2.1 = false ∧ e.2.2 = []) := by
  induction rs generalizing c with
  | nil => exact ⟨[], by simp⟩
  | cons r rs ih =>
    obtain ⟨h1, h2, h3⟩ := not_constructed_step r h
    obtain ⟨l, hl, ha, hb⟩ := ih (c.step r) h1
    refine ⟨(r, (r.run c.state).ret, (r.run c.state).calls) :: l, ?_, ?_, ?_⟩
    · rw [List.foldl_cons, hl]; simp [Ctrl.step]
    · intro e he; rcases List.mem_cons.1 he with rfl | he
      · exact h2
      · exact ha e he
    · intro e he; rcases List.mem_cons.1 he with rfl | he
      · exact h3
      · exact hb e he

end Lifecycle

end Verif
