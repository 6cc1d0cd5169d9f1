import Verif.Lemmas.ManagerReload
import Verif.Lemmas.ManagerSwitchLists
import Verif.Examples.ManagerWorld

/-!
Properties of `reload_controller_libraries`.
-/

namespace Verif

open Mgr Spec

/-- **C23, refusal.** While controllers are loaded, a reload that is not forced, or whose stop of
all controllers the hardware refuses, returns false and leaves no trace in the future behaviour
of the manager. -/
theorem c23_reload_refused {conf} {m : Mgr} (h : Reachable conf m) (hi : m.svc = .idle)
    (hne : m.listControllers ≠ []) (force : Bool) (now : Int) (prepOk : Bool)
    (hf : force = false ∨ prepOk = false) :
    (∃ es, (m.reload conf force now prepOk).trace = m.trace ++ es ++ [.reloadRet false] ∧
      (∀ c k, .cb c k ∉ es) ∧ (∀ c, .destroyed c ∉ es) ∧ (∀ a b, .doSwitch a b ∉ es)) ∧
    (m.reload conf force now prepOk).listControllers = m.listControllers ∧
    (m.reload conf force now prepOk).svc = .idle ∧
    (m.params.doSwitch = false → SameFuture conf m (m.reload conf force now prepOk)) := by
  have hv := inv_of_reachable h
  have hv1 : Inv (fun _ => True) (m.reload conf force now prepOk) :=
    inv_step (checkOk_true conf) hv (.reload force now prepOk) trivial
  obtain ⟨c1, c2⟩ := hv.reqs (not_switching_of_idle hi)
  have hne' : m.getControllerNames.isEmpty = false := by
    unfold getControllerNames
    unfold listControllers at hne
    cases hc : m.cur
    · rw [hc] at hne; simp at hne
    · simp
  have key : ∃ a b es q, m.reload conf force now prepOk =
      { m with params := q, swStart := a, swStop := b, trace := m.trace ++ es ++ [.reloadRet false] } ∧
      (q = m.params ∨ q.doSwitch = false) ∧ (q = m.params → a = m.swStart ∧ b = m.swStop ∨ q.doSwitch = false) ∧
      (∀ c k, .cb c k ∉ es) ∧ (∀ c, .destroyed c ∉ es) ∧ (∀ a b, .doSwitch a b ∉ es) := by
    unfold reload
    rw [if_neg (by simp [hi])]
    simp only [hne', Bool.not_false, Bool.true_and]
    cases force
    · refine ⟨m.swStart, m.swStop, [], m.params, ?_, Or.inl rfl, fun _ => Or.inl ⟨rfl, rfl⟩, by simp, by simp, by simp⟩
      simp [emit]
    · have hp : prepOk = false := by simpa using hf
      have hno : ¬ m.okRequest conf ⟨[], m.getControllerNames, strictnessBestEffort, false, 0⟩ prepOk := by
        intro hh; rw [hp] at hh; exact absurd hh.2.2.2 (by simp)
      obtain ⟨a, b, es, e, he⟩ := switchCore_refuse conf m _ now prepOk
        (.reload m.getControllerNames) c1 c2 hno
      rw [e]
      refine ⟨a, b, es ++ [.switchRet false], {}, ?_, Or.inr rfl, fun _ => Or.inr rfl, ?_, ?_, ?_⟩
      · simp [emit]
      all_goals rcases he with rfl | ⟨_, rfl⟩ <;> simp
  obtain ⟨a, b, es, q, e, hq, hq', k1, k2, k3⟩ := key
  refine ⟨⟨es, by rw [e], k1, k2, k3⟩, by rw [e]; rfl, by rw [e]; exact hi, ?_⟩
  intro hd
  apply sameFuture_of_sim hv hv1
  refine ⟨m.oth, q, a, b, [], by rw [e]; simp, by simp, fun _ => rfl, ?_, ?_⟩
  · rcases hq with rfl | hq
    · rfl
    · rw [hq, hd]
  · intro hd'; rw [hd] at hd'; cases hd'

/-- **C23, nothing loaded.** Without loaded controllers a reload succeeds at once. -/
theorem c23_reload_empty {conf} {m : Mgr} (hi : m.svc = .idle) (hne : m.listControllers = [])
    (force : Bool) (now : Int) (prepOk : Bool) :
    (m.reload conf force now prepOk).trace = m.trace ++ [.reloadRet true] := by
  have hne' : m.getControllerNames = [] := by
    unfold getControllerNames
    unfold listControllers at hne
    rw [List.map_eq_nil_iff] at hne
    rw [hne]; rfl
  unfold reload
  rw [if_neg (by simp [hi])]
  simp [hne', emit]

/-- **C23, forced.** A forced reload which the hardware lets stop all controllers either is still
in progress, or it has returned true. When it returns no controller is loaded; each controller
loaded before has been destroyed, and if it was running it has received `stopping()` before;
nothing was put to wait or aborted. `conf [] = false` says that the hardware sees no conflict
among no controllers. -/
theorem c23_forced_reload_empties {conf} (hconf : conf [] = false) {m : Mgr} (h : Reachable conf m)
    (hi : m.svc = .idle) (hne : m.listControllers ≠ []) (now : Int) (ops : List Op)
    (hops : ∀ op ∈ ops, op.rosUp) :
    (((m.reload conf true now true).run conf ops).svc ≠ .idle ∧
      ∃ es, ((m.reload conf true now true).run conf ops).trace = m.trace ++ es ∧
        ∀ ok, .reloadRet ok ∉ es) ∨
    ∃ ops1 el ops2 m1 es, ops = ops1 ++ .poll {} el :: ops2 ∧
      m1 = (m.reload conf true now true).run conf (ops1 ++ [.poll {} el]) ∧
      m1.svc = .idle ∧ m1.trace = m.trace ++ es ++ [.reloadRet true] ∧
      (∀ ok, .reloadRet ok ∉ es) ∧
      m1.listControllers = [] ∧
      (∀ c, .cb c .waiting ∉ es ∧ .cb c .aborting ∉ es) ∧
      ∀ s ∈ m.cur, ∃ x y, es = x ++ .destroyed s.c :: y ∧
        (m.state s.c = .running → .cb s.c .stopping ∈ x) := by
  have hv := inv_of_reachable h
  have hv1 : Inv (fun _ => True) (m.reload conf true now true) :=
    inv_step (checkOk_true conf) hv (.reload true now true) trivial
  have h1 : Reachable conf (m.reload conf true now true) :=
    reachable_step h (op := .reload true now true) trivial
  obtain ⟨c1, c2⟩ := hv.reqs (not_switching_of_idle hi)
  have hne' : m.getControllerNames.isEmpty = false := by
    unfold getControllerNames
    unfold listControllers at hne
    cases hc : m.cur
    · rw [hc] at hne; simp at hne
    · simp
  have hall : ∀ s ∈ m.cur, s.c ∈ m.getControllerNames.filterMap m.getControllerByName := by
    intro s hs
    exact (mem_resolved hv.names hv.objs hs _).2 (List.mem_map.2 ⟨s, hs, rfl⟩)
  have hscan : (m.scanLists [] (m.getControllerNames.filterMap m.getControllerByName) m.cur).infos = [] := by
    show List.map _ _ = _
    rw [List.map_eq_nil_iff, List.filter_eq_nil_iff]
    intro s hs
    simp [hall s hs]
  have hok : m.okRequest conf ⟨[], m.getControllerNames, strictnessBestEffort, false, 0⟩ true := by
    refine ⟨by simp [strictOf, strictnessBestEffort, strictnessStrict], ?_, ?_, rfl⟩
    · intro s _ hb
      simp [badEntry, strictOf, strictnessBestEffort, strictnessStrict] at hb
    · simp only [List.filterMap_nil]
      rw [hscan]; exact hconf
  have hR : Reloading m (m.reload conf true now true) := by
    unfold reload
    rw [if_neg (by simp [hi])]
    simp only [hne', Bool.not_false, Bool.true_and, Bool.not_true, Bool.false_eq_true, if_false, if_true]
    rw [switchCore_accept conf m _ now true _ c1 c2 hok]
    refine ⟨rfl, Or.inl ⟨⟨0, rfl, rfl⟩, rfl, hall⟩, _, rfl, ?_, fun s hs => Or.inl hs⟩
    simp [ReloadEvents]
  rcases reloading_run (conf := conf) hv1 hR ops hops with k | ⟨o1, el, o2, k1, k2, k3, k4⟩
  · left
    obtain ⟨es, e1, e2, _⟩ := k.trace
    refine ⟨?_, es, e1, e2.1⟩
    rcases k.phase with ⟨⟨t, _, p⟩, _⟩ | ⟨⟨f, n, p⟩, _⟩ | ⟨p, _⟩ <;> rw [p] <;> simp
  · right
    obtain ⟨es, e1, e2, e3⟩ := k2.trace
    have ho1 : ∀ op ∈ o1, op.rosUp := fun op ho => hops op (by rw [k1]; simp [ho])
    have hp : (m.reload conf true now true).run conf (o1 ++ [.poll {} el]) =
        { (m.reload conf true now true).run conf o1 with
          svc := .idle
          trace := ((m.reload conf true now true).run conf o1).trace ++ [.reloadRet true] } := by
      rw [run_append]
      show ((m.reload conf true now true).run conf o1).poll {} el = _
      unfold poll; rw [k3]; rfl
    refine ⟨o1, el, o2, _, es, k1, rfl, ?_, ?_, e2.1, ?_, e2.2, ?_⟩
    · rw [hp]
    · rw [hp]; show _ ++ _ = _; rw [e1]
    · rw [hp]; unfold listControllers; simp [k4]
    · intro s hs
      rcases e3 s hs with q | ⟨⟨f, r, q⟩, _⟩ | q
      · rw [k4] at q; cases q
      · rw [k3] at q; cases q
      · obtain ⟨x, y, rfl⟩ := List.append_of_mem q
        refine ⟨x, y, rfl, ?_⟩
        intro hr
        have hreach : Reachable conf ((m.reload conf true now true).run conf o1) := reachable_run h1 ho1
        have o1' : observed s.c m.trace = .running := by
          rw [← (stInv_reachable h).state s.c (hv.fresh s (Or.inl hs))]; exact hr
        have o2' := (stInv_reachable hreach).destroyed (m.trace ++ x) y s.c (by rw [e1]; simp)
        rcases observed_stopped o1' o2' with q | q | q
        · exact q
        · exact absurd (by simp [q]) (e2.2 s.c).1
        · exact absurd (by simp [q]) (e2.2 s.c).2

/-- A forced reload with two running and one initialized controller. -/
example : let m := Ex.after Ex.running
    let m1 := m.run checkForConflict
      ([.reload true 0 true, Ex.tick, Ex.wait] ++ [Ex.wait, Ex.tick, Ex.wait] ++
       [Ex.wait, Ex.tick, Ex.wait] ++ [Ex.wait, Ex.tick, Ex.wait] ++ [Ex.wait])
    m1.svc = .idle ∧ m1.cur = [] ∧ m1.trace.getLast? = some (.reloadRet true) ∧
    m1.trace.contains (.destroyed 1) = true ∧ m1.trace.contains (.cb 2 .stopping) = true := by decide

example : checkForConflict [] = false := by decide

end Verif
