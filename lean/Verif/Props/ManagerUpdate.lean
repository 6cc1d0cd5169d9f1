import Verif.Lemmas.ManagerTraceState
import Verif.Lemmas.ManagerSwitchLists
import Verif.Lemmas.ManagerUpdates
import Verif.Examples.ManagerWorld

/-!
Properties of one realtime update and of the listing.
-/

namespace Verif

open Mgr Spec

/-! ### C19 -/

/-- **C19.** In every realtime update, `update()` is called exactly once on every running
controller, in load order, and on no other controller; before any work on a pending switch. -/
theorem c19_each_running_once_in_order {conf} {m : Mgr} (h : Reachable conf m) (time : Int)
    (reset : Bool) (hw : HwReply) :
    ∃ restart switching,
      (m.update time reset hw).trace =
        m.trace ++ (restart ++ m.running.map (fun s => .cb s.c .update) ++ switching) ∧
      (∀ c, .cb c .update ∉ restart ++ switching) ∧
      (reset = false → restart = []) ∧ (m.params.doSwitch = false → switching = []) ∧
      (m.running.map (·.c)).Nodup := by
  obtain ⟨sw, h1, _, h2, h3⟩ := update_events (inv_of_reachable h) time hw
  refine ⟨if reset then m.running.flatMap fun s => [.cb s.c .stopping, .cb s.c .starting] else [],
    sw, ?_, ?_, ?_, h3, ?_⟩
  · exact h1 reset
  · intro c hc
    rcases List.mem_append.1 hc with hc | hc
    · cases reset <;> simp at hc
    · exact h2 c hc
  · rintro rfl; rfl
  · exact (inv_of_reachable h).objs.sublist (List.Sublist.map _ List.filter_sublist)

/-- Two running controllers and one that is only loaded. -/
example : let m := Ex.after Ex.running
    m.cur.map (·.c) = [0, 1, 2] ∧ (m.update 0 false (Ex.hw .done)).trace =
      m.trace ++ [.cb 0 .update, .cb 2 .update] := by decide

/-! ### C20 -/

/-- **C20.** An update with `reset_controllers` restarts every running controller (stopping, then
starting, in load order) before the updates, and is otherwise the same as an update without: the
same further callbacks and hardware calls, and the same resulting state of the manager. -/
theorem c20_reset_restarts_running {conf} {m : Mgr} (h : Reachable conf m) (time : Int)
    (hw : HwReply) :
    ∃ es, (m.update time false hw).trace = m.trace ++ es ∧
      (m.update time true hw).trace =
        m.trace ++ m.running.flatMap (fun s => [.cb s.c .stopping, .cb s.c .starting]) ++ es ∧
      { m.update time true hw with trace := [] } = { m.update time false hw with trace := [] } := by
  obtain ⟨sw, h1, h2, _⟩ := update_events (inv_of_reachable h) time hw
  refine ⟨m.running.map (fun s => .cb s.c .update) ++ sw, ?_, ?_, h2⟩
  · rw [h1 false]; simp
  · rw [h1 true]; simp

example : let m := Ex.after Ex.running
    (m.update 0 true (Ex.hw .done)).trace =
      m.trace ++ [.cb 0 .stopping, .cb 0 .starting, .cb 2 .stopping, .cb 2 .starting,
        .cb 0 .update, .cb 2 .update] := by decide

/-! ### C21 -/

/-- **C21, states.** The state in the listing is what an observer of the callbacks would say: the
state the last callback of the controller put it into, initialized if there was none. -/
theorem c21_listed_state_observed {conf} {m : Mgr} (h : Reachable conf m) :
    m.listControllers.map (fun e => (e.name, e.state)) =
      m.cur.map fun s => (s.info.name,
        match observed s.c m.trace with
        | .constructed => "unknown"
        | .initialized => "initialized"
        | .running => "running"
        | .stopped => "stopped"
        | .waiting => "waiting"
        | .aborted => "aborted") := by
  unfold listControllers
  rw [List.map_map]
  apply List.map_congr_left
  intro s hs
  simp only [Function.comp_apply, Prod.mk.injEq, true_and]
  rw [(stInv_reachable h).state s.c ((inv_of_reachable h).fresh s (Or.inl hs))]
  cases observed s.c m.trace <;> rfl

/-- **C21, running.** The controllers listed as running are, in this order, those whose `update()`
is called by the next realtime update. -/
theorem c21_listed_running_updated {conf} {m : Mgr} (h : Reachable conf m) (time : Int)
    (hw : HwReply) :
    ∃ switching, (m.update time false hw).trace = m.trace ++
        ((m.listControllers.filter (fun e => e.state = "running")).filterMap
          (fun e => m.getControllerByName e.name)).map (.cb · .update) ++ switching ∧
      ∀ c, .cb c .update ∉ switching := by
  have hv := inv_of_reachable h
  obtain ⟨sw, h1, _, h2, _⟩ := update_events hv time hw
  refine ⟨sw, ?_, h2⟩
  rw [h1 false]
  simp only [Bool.false_eq_true, if_false, List.nil_append]
  rw [List.append_assoc, List.append_cancel_left_eq, List.append_cancel_right_eq]
  unfold listControllers Mgr.running
  rw [List.filter_map, List.filterMap_map]
  have e1 : m.cur.filter ((fun e : Entry => decide (e.state = "running")) ∘ fun s =>
      ⟨s.info.name, s.info.type, stateName (m.state s.c), s.info.claimed⟩) =
      m.cur.filter fun s => decide (m.state s.c = .running) := by
    apply List.filter_congr
    intro s _
    have : ∀ x : CState, decide (stateName x = "running") = decide (x = .running) := by
      intro x; cases x <;> decide
    exact this _
  rw [e1]
  have e2 : ∀ l : List CtrlSpec, (∀ s ∈ l, s ∈ m.cur) →
      (l.filterMap ((fun e : Entry => m.getControllerByName e.name) ∘ fun s =>
        ⟨s.info.name, s.info.type, stateName (m.state s.c), s.info.claimed⟩)) = l.map (·.c) := by
    intro l hl
    induction l with
    | nil => rfl
    | cons s l ih =>
      have e3 := getControllerByName_of_mem hv.names (hl s (by simp))
      rw [List.filterMap_cons]
      simp only [Function.comp_apply, e3]
      exact congrArg _ (ih fun t ht => hl t (by simp [ht]))
  rw [e2 _ fun s hs => (List.mem_filter.1 hs).1, List.map_map]
  rfl

/-- **C21, type and claims.** Every listed controller was created by a load request for its name
in the history, with the listed type, and the listed claims are those of its initialisation; the
name has been listed, with the same type and claims, at every moment since. -/
theorem c21_listed_as_loaded {conf} (ops : List Op) (hops : ∀ op ∈ ops, op.rosUp) {e : Entry}
    (he : e ∈ (Mgr.init.run conf ops).listControllers) :
    ∃ ops1 env ops2, ops = ops1 ++ .load e.name env :: ops2 ∧
      env.type = some e.type ∧ env.init = some e.claimed ∧
      ∀ pre, pre <+: ops2 → ∃ st, ⟨e.name, e.type, st, e.claimed⟩ ∈
        (Mgr.init.run conf (ops1 ++ .load e.name env :: pre)).listControllers := by
  obtain ⟨s, hs, rfl⟩ := List.mem_map.1 he
  obtain ⟨ops1, env, ops2, h1, h2, h3, _, _, h6⟩ := loaded_since ops hops hs
  refine ⟨ops1, env, ops2, h1, h2, h3, ?_⟩
  intro pre hpre
  exact ⟨_, List.mem_map.2 ⟨s, h6 pre hpre, rfl⟩⟩

/-- A listing with controllers in five different states. -/
example :
    let m := Ex.after (Ex.three ++ Ex.loadOf "d" ["j4"] ++ Ex.loadOf "e" ["j5"] ++
      [.switch ⟨["a", "c", "d"], [], 2, true, 0⟩ 0 true,
       .update 0 false ⟨.done, .done, fun i _ => if i = 0 then (.done, .done) else
         if i = 1 then (.ongoing, .ongoing) else (.error, .error)⟩])
    m.listControllers = [⟨"a", "T", "running", [⟨"Pos", ["j1"]⟩]⟩,
      ⟨"b", "T", "initialized", [⟨"Pos", ["j1"]⟩]⟩, ⟨"c", "T", "waiting", [⟨"Pos", ["j2"]⟩]⟩,
      ⟨"d", "T", "aborted", [⟨"Pos", ["j4"]⟩]⟩, ⟨"e", "T", "initialized", [⟨"Pos", ["j5"]⟩]⟩] := by
  decide

end Verif
