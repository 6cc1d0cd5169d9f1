import Verif.Lemmas.ManagerRelease
import Verif.Lemmas.ManagerSwitchLists
import Verif.Lemmas.ManagerLoaders
import Verif.Examples.ManagerWorld

/-!
Properties of loading and unloading controllers.
-/

namespace Verif

open Mgr Spec

/-! ### C24 -/

/-- **C24.** The controller object comes from the first registered loader that provides its type;
loaders before it either do not declare the type or create nothing. If a loader throws before
one provides an object, none is created. -/
theorem c24_first_loader (type : String) (ls : List Loader) (i : Nat) :
    instantiate type 0 ls = some i ↔ Provides ls type i := by
  rw [instantiate_iff]; simp [Provides]

/-- **C24, failure.** -/
theorem c24_no_loader (type : String) (ls : List Loader) :
    instantiate type 0 ls = none ↔ ∀ i, ¬ Provides ls type i := by
  rw [Option.eq_none_iff_forall_ne_some]
  exact forall_congr' fun i => not_congr (c24_first_loader type ls i)

/-- The second of three loaders is used; nothing is loaded if the first one throws. -/
example : instantiate "T" 0 [⟨["U"], fun _ => .object⟩, ⟨["U", "T"], fun _ => .object⟩,
      ⟨["T"], fun _ => .object⟩] = some 1 ∧
    instantiate "T" 0 [⟨["T"], fun _ => .throws⟩, ⟨["U", "T"], fun _ => .object⟩] = none := by decide

/-! ### C16 -/

/-- **C16, success.** If the name is new, the parameter server is usable, a loader provides the
type and the initialisation succeeds, then whatever happens afterwards, either the call is still
waiting for the realtime thread (which it is not after a realtime update), or it has returned
true. When it returns, the listing is the former listing with one entry added at the end, which
is the new controller, initialized and with the claims of its initialisation; all other
controllers are in the state in which they were, and no controller has been destroyed. -/
theorem c16_load_succeeds {conf} {m : Mgr} (h : Reachable conf m) (hi : m.svc = .idle)
    (name : String) (env : LoadEnv) {type : String} {claimed : List InterfaceResources}
    (hl : Loadable m name env type claimed) (ops : List Op) (hops : ∀ op ∈ ops, op.rosUp) :
    (((m.load name env).run conf ops).svc ≠ .idle ∧
      (∀ t r hw, .update t r hw ∈ ops → ∀ el, (((m.load name env).run conf ops).poll {} el).trace =
        ((m.load name env).run conf ops).trace ++ [.loadRet name true])) ∨
    ∃ ops1 el ops2 m1 es, ops = ops1 ++ .poll {} el :: ops2 ∧
      m1 = (m.load name env).run conf (ops1 ++ [.poll {} el]) ∧
      m1.svc = .idle ∧
      m1.trace = m.trace ++ es ++ [.loadRet name true] ∧
      (∀ ok, .loadRet name ok ∉ es) ∧ (∀ c, .destroyed c ∉ es) ∧
      m1.listControllers = m.listControllers ++ [⟨name, type, "initialized", claimed⟩] ∧
      m1.running = m.running := by
  have hv := inv_of_reachable h
  obtain ⟨l1, l2, l3, ⟨i, l4⟩, l5⟩ := hl
  have e : m.load name env = m.loaded name type claimed := by
    rcases load_cases m name env hi (hv.used (not_releasing_of_idle hi)) with
      ⟨ty, j, cl, _, _, h3, _, h5, e⟩ | ⟨hn, _⟩
    · rw [l3] at h3; cases h3
      rw [l5] at h5; cases h5
      exact e
    · exfalso
      refine hn ⟨?_, l2, type, i, claimed, l3, (c24_first_loader type _ i).2 l4, l5⟩
      intro s hs hh
      exact l1 (List.mem_map.2 ⟨s, hs, hh⟩)
  have hv1 : Inv (fun _ => True) (m.load name env) :=
    inv_step (checkOk_true conf) hv (.load name env) trivial
  have hs1 : (m.load name env).svc = .releasing m.current (.load name) := by rw [e]; rfl
  have hret : ∀ m1 : Mgr, Held (m.load name env) m1 → m1.used ≠ some m.current → ∀ el,
      m1.poll {} el = { m1 with oth := [], svc := .idle
                                trace := m1.trace ++ [.loadRet name true] } := by
    intro m1 hh hu el
    have hd : m1.dropped = [] := dropped_loaded (hh.cur.trans (by rw [e])) (hh.oth.trans (by rw [e]))
    rw [poll_load (by rw [hh.svc, hs1]) hu el, hd]
    simp
  rcases run_releasing (conf := conf) hv1 hs1 ops hops with ⟨hh, hu'⟩ | ⟨o1, el, o2, h1, hh, hu⟩
  · left
    refine ⟨by rw [hh.svc, hs1]; simp, ?_⟩
    intro t r hw hmem el
    have hu : ((m.load name env).run conf ops).used ≠ some m.current := by
      rw [hu' (Or.inr ⟨t, r, hw, hmem⟩), e]
      simp [loaded]
    rw [hret _ hh hu el]
  · right
    obtain ⟨es, ht, hes⟩ := hh.trace
    have k1 : ((m.load name env).run conf o1).cur =
      m.cur ++ [⟨⟨name, type, claimed⟩, m.nextId⟩] := by rw [hh.cur, e]; rfl
    have k2 : ((m.load name env).run conf o1).state =
      fun x => if x = m.nextId then .initialized else m.state x := by rw [hh.state, e]; rfl
    refine ⟨o1, el, o2, _, es, h1, rfl, ?_, ?_, ?_, ?_, ?_, ?_⟩
    · rw [run_append]; show (((m.load name env).run conf o1).poll {} el).svc = _
      rw [hret _ hh hu el]
    · rw [run_append]; show (((m.load name env).run conf o1).poll {} el).trace = _
      rw [hret _ hh hu el]
      show _ ++ _ = _
      rw [ht, e]; rfl
    · intro ok hc
      rcases hes _ hc with ⟨_, _, e⟩ | ⟨_, _, e⟩ <;> cases e
    · intro c hc
      rcases hes _ hc with ⟨_, _, e⟩ | ⟨_, _, e⟩ <;> cases e
    · rw [run_append]; show (((m.load name env).run conf o1).poll {} el).listControllers = _
      rw [hret _ hh hu el]
      unfold listControllers
      simp only [k1, k2]
      simp only [List.map_append, List.map_cons, List.map_nil, if_true]
      congr 1
      apply List.map_congr_left
      intro s hs
      have := hv.fresh s (Or.inl hs)
      rw [if_neg (Nat.ne_of_lt this)]
    · rw [run_append]; show (((m.load name env).run conf o1).poll {} el).running = _
      rw [hret _ hh hu el]
      unfold Mgr.running
      simp only [k1, k2]
      simp only [List.filter_append]
      have : List.filter (fun s : CtrlSpec => decide ((if s.c = m.nextId then CState.initialized
          else m.state s.c) = .running)) [⟨⟨name, type, claimed⟩, m.nextId⟩] = [] := by simp
      rw [this, List.append_nil]
      apply List.filter_congr
      intro s hs
      have := hv.fresh s (Or.inl hs)
      rw [if_neg (Nat.ne_of_lt this)]

/-- **C16, failure.** Otherwise the call returns false at once, and the manager behaves from then
on as if it had not been made. -/
theorem c16_load_fails {conf} {m : Mgr} (h : Reachable conf m) (hi : m.svc = .idle)
    (name : String) (env : LoadEnv) (hl : ∀ type claimed, ¬ Loadable m name env type claimed) :
    (m.load name env).trace = m.trace ++ [.loadRet name false] ∧
    (m.load name env).listControllers = m.listControllers ∧
    (m.load name env).svc = .idle ∧ SameFuture conf m (m.load name env) := by
  have hv := inv_of_reachable h
  have hv1 : Inv (fun _ => True) (m.load name env) :=
    inv_step (checkOk_true conf) hv (.load name env) trivial
  rcases load_cases m name env hi (hv.used (not_releasing_of_idle hi)) with
    ⟨ty, j, cl, h1, h2, h3, h4, h5, _⟩ | ⟨_, o, _, e⟩
  · exfalso
    refine hl ty cl ⟨?_, h2, h3, ⟨j, (c24_first_loader ty _ j).1 h4⟩, h5⟩
    intro hh
    obtain ⟨s, hs, e⟩ := List.mem_map.1 hh
    exact h1 s hs e
  · refine ⟨by rw [e], by rw [e]; rfl, by rw [e]; exact hi, ?_⟩
    apply sameFuture_of_sim hv hv1
    refine ⟨o, m.params, m.swStart, m.swStop, [], by rw [e]; simp, by simp, ?_, rfl, ?_⟩
    · intro hr; exact absurd hr (not_releasing_of_idle hi)
    · intro _; exact ⟨rfl, rfl, rfl⟩

/-- A load that succeeds and one that fails, in a manager with a running controller. -/
example : let m := Ex.after (Ex.loadOf "a" ["j1"] ++ Ex.switchOf ["a"] [])
    Loadable m "b" (Ex.env ["j1"]) "T" [⟨"Pos", ["j1"]⟩] ∧
    (∀ type claimed, ¬ Loadable m "a" (Ex.env ["j1"]) type claimed) ∧
    (m.run checkForConflict (Ex.loadOf "b" ["j1"])).listControllers.map (fun e => (e.name, e.state)) =
      [("a", "running"), ("b", "initialized")] := by
  refine ⟨⟨by unfold Loaded; decide, rfl, rfl, ⟨0, ⟨⟨Ex.loader, rfl, by simp [Gives, Ex.loader]⟩,
    by simp⟩⟩, rfl⟩, ?_, by decide⟩
  intro type claimed hh
  exact hh.1 (by unfold Loaded; decide)

/-! ### C17 -/

/-- **C17, success.** If the named controller is loaded and not running, then whatever happens
after the call, either it is still waiting for the realtime thread (which it is not after a
realtime update), or it has returned true. When it returns, the listing is the former one without
the entry of this name, the other controllers are in the state in which they were, and exactly
the one object has been destroyed. -/
theorem c17_unload_succeeds {conf} {m : Mgr} (h : Reachable conf m) (hi : m.svc = .idle)
    {name : String} {c : CId} (hc : m.getControllerByName name = some c) (hr : ¬ Runs m name)
    (ops : List Op) (hops : ∀ op ∈ ops, op.rosUp) :
    (((m.unload name).run conf ops).svc ≠ .idle ∧
      (∀ t r hw, .update t r hw ∈ ops → ∀ el, (((m.unload name).run conf ops).poll {} el).trace =
        ((m.unload name).run conf ops).trace ++ [.destroyed c, .unloadRet name true])) ∨
    ∃ ops1 el ops2 m1 es, ops = ops1 ++ .poll {} el :: ops2 ∧
      m1 = (m.unload name).run conf (ops1 ++ [.poll {} el]) ∧
      m1.svc = .idle ∧
      m1.trace = m.trace ++ es ++ [.destroyed c, .unloadRet name true] ∧
      (∀ ok, .unloadRet name ok ∉ es) ∧ (∀ c, .destroyed c ∉ es) ∧
      m1.listControllers = m.listControllers.filter (fun e => e.name ≠ name) ∧
      m1.running = m.running := by
  have hv := inv_of_reachable h
  obtain ⟨s, hs, rfl, rfl⟩ := getControllerByName_mem hc
  have hnr : m.state s.c ≠ .running := fun hh => hr ((runs_iff hv.names hs).2 hh)
  have e : m.unload s.info.name = m.unloaded s.info.name .ret := by
    unfold unload
    rw [if_neg (by simp [hi])]
    rcases unloadCore_cases m s.info.name .ret id (hv.used (not_releasing_of_idle hi)) with
      ⟨_, _, e⟩ | ⟨hn, _⟩
    · exact e
    · exfalso
      refine hn ⟨⟨s, hs, rfl⟩, ?_⟩
      intro t ht hh
      have : t = s := List.inj_on_of_nodup_map hv.names ht hs hh
      subst this
      cases hb : m.isRunning t.c
      · rfl
      · exact absurd (isRunning_iff.1 hb) hnr
  have hv1 : Inv (fun _ => True) (m.unload s.info.name) :=
    inv_step (checkOk_true conf) hv (.unload s.info.name) trivial
  have hs1 : (m.unload s.info.name).svc = .releasing m.current (.unload s.info.name .ret) := by
    rw [e]; rfl
  have hret : ∀ m1 : Mgr, Held (m.unload s.info.name) m1 → m1.used ≠ some m.current → ∀ el,
      m1.poll {} el = { m1 with
        oth := [], svc := .idle
        trace := m1.trace ++ [.destroyed s.c, .unloadRet s.info.name true] } := by
    intro m1 hh hu el
    have hd : m1.dropped = [s.c] :=
      dropped_unloaded hv hs rfl (hh.cur.trans (by rw [e])) (hh.oth.trans (by rw [e]))
    rw [poll_unload (by rw [hh.svc, hs1]) hu el, hd]
    simp [finish]
  rcases run_releasing (conf := conf) hv1 hs1 ops hops with ⟨hh, hu'⟩ | ⟨o1, el, o2, h1, hh, hu⟩
  · left
    refine ⟨by rw [hh.svc, hs1]; simp, ?_⟩
    intro t r hw hmem el
    have hu : ((m.unload s.info.name).run conf ops).used ≠ some m.current := by
      rw [hu' (Or.inr ⟨t, r, hw, hmem⟩), e]
      simp [unloaded]
    rw [hret _ hh hu el]
  · right
    obtain ⟨es, ht, hes⟩ := hh.trace
    have k1 : ((m.unload s.info.name).run conf o1).cur =
      m.cur.filter fun t => !decide (t.info.name = s.info.name) := by rw [hh.cur, e]; rfl
    have k2 : ((m.unload s.info.name).run conf o1).state = m.state := by rw [hh.state, e]; rfl
    refine ⟨o1, el, o2, _, es, h1, rfl, ?_, ?_, ?_, ?_, ?_, ?_⟩
    · rw [run_append]; show (((m.unload s.info.name).run conf o1).poll {} el).svc = _
      rw [hret _ hh hu el]
    · rw [run_append]; show (((m.unload s.info.name).run conf o1).poll {} el).trace = _
      rw [hret _ hh hu el]
      show _ ++ _ = _
      rw [ht, e]; rfl
    · intro ok hc
      rcases hes _ hc with ⟨_, _, e⟩ | ⟨_, _, e⟩ <;> cases e
    · intro c hc
      rcases hes _ hc with ⟨_, _, e⟩ | ⟨_, _, e⟩ <;> cases e
    · rw [run_append]; show (((m.unload s.info.name).run conf o1).poll {} el).listControllers = _
      rw [hret _ hh hu el]
      unfold listControllers
      simp only [k1, k2]
      simp only [List.filter_map]
      congr 1
      apply List.filter_congr
      intro t _
      simp
    · rw [run_append]; show (((m.unload s.info.name).run conf o1).poll {} el).running = _
      rw [hret _ hh hu el]
      unfold Mgr.running
      simp only [k1, k2]
      simp only [List.filter_filter]
      apply List.filter_congr
      intro t ht
      by_cases hh : t.info.name = s.info.name
      · have : t = s := List.inj_on_of_nodup_map hv.names ht hs hh
        subst this
        simp [hnr]
      · simp [hh]

/-- **C17, failure.** If the named controller is not loaded, or is running, the call returns
false at once, and the manager behaves from then on as if it had not been made. -/
theorem c17_unload_fails {conf} {m : Mgr} (h : Reachable conf m) (hi : m.svc = .idle)
    {name : String} (hc : ¬ Loaded m name ∨ Runs m name) :
    (m.unload name).trace = m.trace ++ [.unloadRet name false] ∧
    (m.unload name).listControllers = m.listControllers ∧
    (m.unload name).svc = .idle ∧ SameFuture conf m (m.unload name) := by
  have hv := inv_of_reachable h
  have hv1 : Inv (fun _ => True) (m.unload name) :=
    inv_step (checkOk_true conf) hv (.unload name) trivial
  have e : m.unload name = { m with oth := [], trace := m.trace ++ [.unloadRet name false] } := by
    unfold unload
    rw [if_neg (by simp [hi])]
    rcases unloadCore_cases m name .ret id (hv.used (not_releasing_of_idle hi)) with
      ⟨⟨s, hs, e⟩, h2, _⟩ | ⟨_, e⟩
    · exfalso
      rcases hc with hc | hc
      · exact hc (List.mem_map.2 ⟨s, hs, e⟩)
      · obtain ⟨t, ht, e'⟩ := List.mem_map.1 hc
        obtain ⟨t1, t2⟩ := List.mem_filter.1 ht
        have := h2 t t1 e'
        rw [isRunning_iff.2 (by simpa using t2)] at this
        cases this
    · exact e
  refine ⟨by rw [e], by rw [e]; rfl, by rw [e]; exact hi, ?_⟩
  apply sameFuture_of_sim hv hv1
  refine ⟨[], m.params, m.swStart, m.swStop, [], by rw [e]; simp, by simp, ?_, rfl, ?_⟩
  · intro hr; exact absurd hr (not_releasing_of_idle hi)
  · intro _; exact ⟨rfl, rfl, rfl⟩

/-- **C17, no destruction while running.** Whenever a controller object is destroyed, the last
thing it has seen (if anything) is not a start or an update: it has been stopped, put to wait, or
aborted since it was last started. -/
theorem c17_destroyed_not_running {conf} {m : Mgr} (h : Reachable conf m) {pre post : List Event}
    {c : CId} (ht : m.trace = pre ++ .destroyed c :: post) : observed c pre ≠ .running :=
  (stInv_reachable h).destroyed pre post c ht

/-- "b" is not running and can be unloaded, "a" is running and cannot. -/
example : let m := Ex.after Ex.running
    m.getControllerByName "b" = some 1 ∧ ¬ Runs m "b" ∧ Runs m "a" ∧ ¬ Loaded m "x" ∧
    (m.run checkForConflict [.unload "b", Ex.tick, Ex.wait]).listControllers.map
      (fun e => (e.name, e.state)) = [("a", "running"), ("c", "running")] := by
  refine ⟨by decide, by unfold Runs; decide, by unfold Runs; decide, by unfold Loaded; decide,
    by decide⟩

end Verif
