import Verif.Lemmas.ManagerSwitchLists
import Verif.Examples.ManagerWorld

/-!
Properties of `switchController`: which requests are accepted and what a refused one does.

In the statements `m.svc = .idle` says that no other service call is in progress, and
`(m.switch ...).Switching` that the call has reached the loop in which it waits for the realtime
thread, i.e. that the request was accepted.
-/

namespace Verif

open Mgr Spec


/-! ### C07 -/

/-- **C07.** A STRICT request is accepted iff every named controller is loaded, those to stop
are running, those to start are not, no controller is in both lists, the controllers that would
run afterwards have no conflict, and the hardware agrees. -/
theorem c07_strict_accept_iff {conf} {m : Mgr} (h : Reachable conf m) (hi : m.svc = .idle)
    (r : SwitchReq) (hr : r.strictness = strictnessStrict) (now : Int) (prepOk : Bool) :
    (m.switch conf r now prepOk).Switching ↔
      (∀ n ∈ r.stop, Runs m n) ∧ (∀ n ∈ r.start, Loaded m n ∧ ¬ Runs m n) ∧
      (∀ n ∈ r.start, n ∉ r.stop) ∧ conf (target m r.start r.stop) = false ∧ prepOk = true := by
  have hv := inv_of_reachable h
  rw [switch_switching_iff hv hi]
  unfold okRequest
  rw [filter_resolved hv]
  have hst : strictOf r = true := by simp [strictOf, hr]
  have hmem : ∀ s ∈ m.cur, ∀ ns : List String,
      (s.c ∈ ns.filterMap m.getControllerByName ↔ s.info.name ∈ ns) :=
    fun s hs ns => mem_resolved hv.names hv.objs hs ns
  have hrun : ∀ s ∈ m.cur, (m.isRunning s.c = true ↔ Runs m s.info.name) := by
    intro s hs; rw [runs_iff hv.names hs, isRunning_iff]
  constructor
  · rintro ⟨h1, h2, h3, h4⟩
    have hl : ∀ n, n ∈ r.stop ++ r.start → ∃ s ∈ m.cur, s.info.name = n := by
      intro n hn
      have := h1 hst n hn
      cases hg : m.getControllerByName n with
      | none => exact absurd hg this
      | some c => obtain ⟨s, hs, e, _⟩ := getControllerByName_mem hg; exact ⟨s, hs, e⟩
    have hstop : ∀ n ∈ r.stop, Runs m n := by
      intro n hn
      obtain ⟨s, hs, rfl⟩ := hl n (by simp [hn])
      by_contra hc
      exact h2 s hs (Or.inl ⟨hst, by rw [← Bool.not_eq_true, hrun s hs]; exact hc, (hmem s hs _).2 hn⟩)
    refine ⟨hstop, ?_, ?_, h3, h4⟩
    · intro n hn
      obtain ⟨s, hs, rfl⟩ := hl n (by simp [hn])
      refine ⟨List.mem_map_of_mem hs, ?_⟩
      intro hc
      by_cases hin : s.info.name ∈ r.stop
      · exact h2 s hs (Or.inr (Or.inr ⟨(hrun s hs).2 hc, (hmem s hs _).2 hin, (hmem s hs _).2 hn⟩))
      · exact h2 s hs (Or.inr (Or.inl ⟨hst, (hrun s hs).2 hc, fun hh => hin ((hmem s hs _).1 hh),
          (hmem s hs _).2 hn⟩))
    · intro n hn hn'
      obtain ⟨s, hs, rfl⟩ := hl n (by simp [hn])
      exact h2 s hs (Or.inr (Or.inr ⟨(hrun s hs).2 (hstop _ hn'), (hmem s hs _).2 hn', (hmem s hs _).2 hn⟩))
  · rintro ⟨h1, h2, h3, h4, h5⟩
    refine ⟨?_, ?_, h4, h5⟩
    · intro _ n hn
      rw [← loaded_iff]
      rcases List.mem_append.1 hn with hn | hn
      · have := h1 n hn
        obtain ⟨s, hs, e⟩ := List.mem_map.1 this
        exact e ▸ List.mem_map_of_mem (List.mem_filter.1 hs).1
      · exact (h2 n hn).1
    · rintro s hs (⟨_, hb1, hb2⟩ | ⟨_, hb1, hb2, hb3⟩ | ⟨hb1, hb2, hb3⟩)
      · have := h1 _ ((hmem s hs _).1 hb2)
        rw [← hrun s hs, hb1] at this; cases this
      · exact (h2 _ ((hmem s hs _).1 hb3)).2 ((hrun s hs).1 hb1)
      · exact h3 _ ((hmem s hs _).1 hb3) ((hmem s hs _).1 hb2)

/-- **C07, without STRICT.** Any other request is accepted iff no running controller is in both
lists, the controllers that would run afterwards have no conflict, and the hardware agrees. -/
theorem c07_best_effort_accept_iff {conf} {m : Mgr} (h : Reachable conf m) (hi : m.svc = .idle)
    (r : SwitchReq) (hr : r.strictness ≠ strictnessStrict) (now : Int) (prepOk : Bool) :
    (m.switch conf r now prepOk).Switching ↔
      (∀ n, Runs m n → n ∈ r.stop → n ∉ r.start) ∧
      conf (target m r.start r.stop) = false ∧ prepOk = true := by
  have hv := inv_of_reachable h
  rw [switch_switching_iff hv hi]
  unfold okRequest
  rw [filter_resolved hv]
  have hst : strictOf r = false := by simp [strictOf, hr]
  have hmem : ∀ s ∈ m.cur, ∀ ns : List String,
      (s.c ∈ ns.filterMap m.getControllerByName ↔ s.info.name ∈ ns) :=
    fun s hs ns => mem_resolved hv.names hv.objs hs ns
  have hrun : ∀ s ∈ m.cur, (m.isRunning s.c = true ↔ Runs m s.info.name) := by
    intro s hs; rw [runs_iff hv.names hs, isRunning_iff]
  constructor
  · rintro ⟨_, h2, h3, h4⟩
    refine ⟨?_, h3, h4⟩
    intro n hn h1 h1'
    obtain ⟨s, hs, rfl⟩ := List.mem_map.1 hn
    have hs' := (List.mem_filter.1 hs).1
    exact h2 s hs' (Or.inr (Or.inr ⟨(hrun s hs').2 hn, (hmem s hs' _).2 h1, (hmem s hs' _).2 h1'⟩))
  · rintro ⟨h2, h3, h4⟩
    refine ⟨fun hh => (by rw [hst] at hh; cases hh), ?_, h3, h4⟩
    rintro s hs (⟨hh, _⟩ | ⟨hh, _⟩ | ⟨hb1, hb2, hb3⟩)
    · rw [hst] at hh; cases hh
    · rw [hst] at hh; cases hh
    · exact h2 _ ((hrun s hs).1 hb1) ((hmem s hs _).1 hb2) ((hmem s hs _).1 hb3)

/-- Both outcomes occur: "b" can replace "a" but cannot be started beside it. -/
example : let m := Ex.after Ex.running
    m.svc = .idle ∧
    (m.switch checkForConflict ⟨["b"], ["a"], 2, false, 0⟩ 0 true).svc = .switching .ret 0 ∧
    (m.switch checkForConflict ⟨["b"], [], 2, false, 0⟩ 0 true).svc = .idle ∧
    (m.switch checkForConflict ⟨["b"], ["a", "x"], 2, false, 0⟩ 0 true).svc = .idle ∧
    (m.switch checkForConflict ⟨["b"], ["a", "x"], 1, false, 0⟩ 0 true).svc = .switching .ret 0 := by
  decide

/-! ### C08 -/

/-- **C08.** Without STRICT, leaving out the names that are not loaded changes nothing: the
same answer, the same calls of the hardware, the same resulting state. -/
theorem c08_unknown_names_ignored {conf} {m : Mgr} (h : Reachable conf m) (r : SwitchReq)
    (hr : r.strictness ≠ strictnessStrict) (now : Int) (prepOk : Bool) :
    m.switch conf { r with start := r.start.filter (fun n => n ∈ m.cur.map (·.info.name))
                           stop := r.stop.filter (fun n => n ∈ m.cur.map (·.info.name)) } now prepOk
      = m.switch conf r now prepOk := by
  have hv := inv_of_reachable h
  by_cases hi : m.svc = .idle
  swap
  · simp [switch, hi]
  obtain ⟨c1, c2⟩ := hv.reqs (not_switching_of_idle hi)
  have hf : ∀ ns : List String,
      (ns.filter (fun n => decide (n ∈ m.cur.map (·.info.name)))).filterMap m.getControllerByName =
        ns.filterMap m.getControllerByName := by
    intro ns
    induction ns with
    | nil => rfl
    | cons n ns ih =>
      by_cases hn : n ∈ m.cur.map (·.info.name)
      · rw [List.filter_cons_of_pos (by simpa using hn), List.filterMap_cons, List.filterMap_cons, ih]
      · rw [List.filter_cons_of_neg (by simpa using hn), ih, List.filterMap_cons]
        have : m.getControllerByName n = none := by
          rw [getControllerByName_none]
          intro s hs e; exact hn (e ▸ List.mem_map_of_mem hs)
        rw [this]
  have hs1 : strictOf r = false := by simp [strictOf, hr]
  have hs2 : ∀ a b : List String, strictOf { r with start := a, stop := b } = false := fun _ _ => hs1
  unfold switch
  rw [if_neg (by simp [hi]), if_neg (by simp [hi]), switchCore_eq _ _ _ _ _ _ c1 c2,
    switchCore_eq _ _ _ _ _ _ c1 c2]
  rw [hs2, hs1]
  simp only [hf]
  simp

/-- **C08.** Strictness 0 is BEST_EFFORT. -/
theorem c08_zero_is_best_effort {conf} (m : Mgr) (r : SwitchReq) (now : Int) (prepOk : Bool) :
    m.switch conf { r with strictness := 0 } now prepOk =
      m.switch conf { r with strictness := strictnessBestEffort } now prepOk := by
  unfold switch switchCore
  simp [strictnessBestEffort]

/-- The two requests differ and are accepted. -/
example : (Ex.after Ex.running).switch checkForConflict ⟨["x", "b"], ["a", "y"], 1, false, 0⟩ 0 true
    = (Ex.after Ex.running).switch checkForConflict ⟨["b"], ["a"], 1, false, 0⟩ 0 true ∧
    ((Ex.after Ex.running).switch checkForConflict ⟨["b"], ["a"], 1, false, 0⟩ 0 true).startReq = [1] :=
  ⟨(c08_unknown_names_ignored (Ex.reachable_after Ex.rosUp_running)
      ⟨["x", "b"], ["a", "y"], 1, false, 0⟩ (by decide) 0 true).symm, by decide⟩

/-! ### C09 -/

/-- **C09.** Whenever `switchController` asks the hardware, the start list is exactly the loaded
controllers named in the start request that are not running, the stop list exactly those named
in the stop request that are running, both in load order and without repetitions; whether the
hardware then agrees does not matter. -/
theorem c09_hardware_lists_exact {conf} {m : Mgr} (h : Reachable conf m) (hi : m.svc = .idle)
    (r : SwitchReq) (now : Int) (prepOk : Bool) {es : List Event}
    (he : (m.switch conf r now prepOk).trace = m.trace ++ es) {a b : List ControllerInfo} {ok : Bool}
    (hev : .prepareSwitch a b ok ∈ es) :
    a = named m false r.start ∧ b = named m true r.stop ∧
    List.Sublist a (m.cur.map (·.info)) ∧ List.Sublist b (m.cur.map (·.info)) ∧
    (∀ x, x ∈ a → x ∉ b) ∧ (a.map (·.name)).Nodup ∧ (b.map (·.name)).Nodup := by
  have hv := inv_of_reachable h
  obtain ⟨rfl, rfl, _⟩ := (switch_prepare hv hi r now prepOk he).1 a b ok hev
  have hsub : ∀ p, List.Sublist ((m.cur.filter p).map (·.info)) (m.cur.map (·.info)) :=
    fun p => List.filter_sublist.map _
  have hnames : (m.cur.map (·.info)).map (·.name) = m.cur.map (·.info.name) := by
    simp [List.map_map, Function.comp_def]
  refine ⟨rfl, rfl, hsub _, hsub _, ?_, ?_, ?_⟩
  · intro x hx hx'
    obtain ⟨s, hs, rfl⟩ := List.mem_map.1 hx
    obtain ⟨t, ht, e⟩ := List.mem_map.1 hx'
    obtain ⟨hs1, hs2⟩ := List.mem_filter.1 hs
    obtain ⟨ht1, ht2⟩ := List.mem_filter.1 ht
    have : t = s := List.inj_on_of_nodup_map hv.names ht1 hs1 (by rw [e])
    subst this
    simp only [decide_eq_true_eq] at hs2 ht2
    simp [ht2.1] at hs2
  · exact (hnames ▸ hv.names).sublist ((hsub _).map _)
  · exact (hnames ▸ hv.names).sublist ((hsub _).map _)

/-- The request repeats names, is in another order than the load order and names controllers in
the wrong state; the hardware lists are clean. -/
example : let m := Ex.after (Ex.running ++ Ex.loadOf "d" ["j4"])
    (m.switch checkForConflict ⟨["d", "b", "b", "c"], ["a", "d", "a"], 1, false, 0⟩ 0 true).swStart.map
      (·.name) = ["b", "d"] ∧
    (m.switch checkForConflict ⟨["d", "b", "b", "c"], ["a", "d", "a"], 1, false, 0⟩ 0 true).swStop.map
      (·.name) = ["a"] := by decide

/-! ### C06 -/

/-- **C06.** A refused request: the call makes no callback and no `doSwitch`, changes no
controller state and not the list; the only traces are its reply and, if it was the hardware
that refused, the question to the hardware. -/
theorem c06_refused_no_effect {conf} {m : Mgr} (h : Reachable conf m) (hi : m.svc = .idle)
    (r : SwitchReq) (now : Int) (prepOk : Bool)
    (hr : ¬ (m.switch conf r now prepOk).Switching) :
    (m.switch conf r now prepOk).svc = .idle ∧
    (m.switch conf r now prepOk).state = m.state ∧
    (m.switch conf r now prepOk).listControllers = m.listControllers ∧
    ∃ es, (m.switch conf r now prepOk).trace = m.trace ++ es ++ [.switchRet false] ∧
      (es = [] ∨ (prepOk = false ∧ ∃ a b, es = [.prepareSwitch a b false])) := by
  have hv := inv_of_reachable h
  obtain ⟨c1, c2⟩ := hv.reqs (not_switching_of_idle hi)
  rw [switch_switching_iff hv hi] at hr
  obtain ⟨a, b, es, e, hes⟩ := switchCore_refuse conf m r now prepOk .ret c1 c2 hr
  have e' : m.switch conf r now prepOk = (m.switchCore conf r now prepOk .ret).2 := by
    simp [switch, hi]
  rw [e', e]
  refine ⟨hi, rfl, rfl, es, rfl, ?_⟩
  rcases hes with rfl | ⟨h1, rfl⟩
  · exact Or.inl rfl
  · exact Or.inr ⟨h1, a, b, rfl⟩

/-- **C06, later behaviour.** If no earlier switch was abandoned, nothing that happens later
depends on whether the refused request was made. -/
theorem c06_refused_same_future {conf} {m : Mgr} (h : Reachable conf m) (hi : m.svc = .idle)
    (hd : m.params.doSwitch = false) (r : SwitchReq) (now : Int) (prepOk : Bool)
    (hr : ¬ (m.switch conf r now prepOk).Switching) :
    SameFuture conf m (m.switch conf r now prepOk) := by
  have hv := inv_of_reachable h
  have hv' : Inv (fun _ => True) (m.switch conf r now prepOk) :=
    inv_step (checkOk_true conf) hv (.switch r now prepOk) trivial
  obtain ⟨c1, c2⟩ := hv.reqs (not_switching_of_idle hi)
  rw [switch_switching_iff hv hi] at hr
  obtain ⟨a, b, es, e, hes⟩ := switchCore_refuse conf m r now prepOk .ret c1 c2 hr
  have e' : m.switch conf r now prepOk = (m.switchCore conf r now prepOk .ret).2 := by
    simp [switch, hi]
  refine sameFuture_of_sim hv hv' ?_
  rw [e', e]
  exact ⟨m.oth, {}, a, b, [], by simp, by simp, fun _ => rfl, hd.symm,
    fun hh => by rw [hd] at hh; cases hh⟩

/-- **C06, nothing happens later.** In every case, after a refused request and until the next
switch or reload request, the hardware is not switched and no controller changes its state, is
aborted or is told to wait, and none is started or stopped except by an update with
`reset_controllers`. -/
theorem c06_refused_nothing_later {conf} {m : Mgr} (h : Reachable conf m) (hi : m.svc = .idle)
    (r : SwitchReq) (now : Int) (prepOk : Bool)
    (hr : ¬ (m.switch conf r now prepOk).Switching) (ops : List Op)
    (hops : ∀ op ∈ ops, op.rosUp) (hns : ∀ op ∈ ops, op.noSwitch) :
    (∀ c < m.nextId, ((m.switch conf r now prepOk).run conf ops).state c = m.state c) ∧
    ∃ es, ((m.switch conf r now prepOk).run conf ops).trace =
        (m.switch conf r now prepOk).trace ++ es ∧
      (∀ a b, .doSwitch a b ∉ es) ∧ (∀ c, .cb c .waiting ∉ es ∧ .cb c .aborting ∉ es) ∧
      ((∀ op ∈ ops, op.noReset) → ∀ c, .cb c .starting ∉ es ∧ .cb c .stopping ∉ es) := by
  have hv := inv_of_reachable h
  have hv' : Inv (fun _ => True) (m.switch conf r now prepOk) :=
    inv_step (checkOk_true conf) hv (.switch r now prepOk) trivial
  obtain ⟨c1, c2⟩ := hv.reqs (not_switching_of_idle hi)
  have hok := hr
  rw [switch_switching_iff hv hi] at hok
  obtain ⟨a, b, es, e, hes⟩ := switchCore_refuse conf m r now prepOk .ret c1 c2 hok
  have e' : m.switch conf r now prepOk = (m.switchCore conf r now prepOk .ret).2 := by
    simp [switch, hi]
  have hdo : (m.switch conf r now prepOk).params.doSwitch = false := by rw [e', e]
  have hst : (m.switch conf r now prepOk).state = m.state := by rw [e', e]
  have hnx : (m.switch conf r now prepOk).nextId = m.nextId := by rw [e', e]
  classical
  obtain ⟨h1, es', h2, h3⟩ := quiet_run (conf := conf) hv' hr ops hops hns
    (reset := !decide (∀ op ∈ ops, op.noReset)) (by simp)
  refine ⟨?_, es', h2, ?_, fun c => ⟨h3.waiting c, h3.aborting c⟩, ?_⟩
  · intro c hc
    rw [h1 c (by rw [hnx]; exact hc), hst]
  · exact h3.hw (by rw [hdo]; rfl)
  · intro hh; exact h3.restart (by simpa using hh)

/-- A request refused for a conflict, while "a" and "c" keep running. -/
example : let m := Ex.after Ex.running
    m.svc = .idle ∧ m.params.doSwitch = false ∧
    (m.switch checkForConflict ⟨["b"], [], 1, false, 0⟩ 0 true).svc = .idle ∧
    (m.switch checkForConflict ⟨["b"], [], 1, false, 0⟩ 0 true).running.map (·.info.name) = ["a", "c"] := by
  decide

end Verif
