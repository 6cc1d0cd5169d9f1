import Verif.Lemmas.ManagerSwitchLists
import Verif.Examples.ManagerWorld

/-!
Properties of an accepted switch, from its acceptance to its reply.
-/

namespace Verif

open Mgr Spec

/-! ### C10 -/

/-- **C10.** A switch that waits for all resources, with any updates after its acceptance, and
then an update in which the hardware reports that the switch is done. In this update first the
running controllers are updated as usual, then (unless an earlier update did it) the hardware
is switched, then exactly the controllers to stop that still run are stopped, and then all
controllers to start are started, in the order of the request. Afterwards exactly those run that
ran before the request and were not to be stopped, or were to be started; and the call returns
true. -/
theorem c10_atomic_switch {conf} {m : Mgr} (h : Reachable conf m) (hi : m.svc = .idle)
    (r : SwitchReq) (hra : r.asap = false) (now : Int) (prepOk : Bool)
    (hacc : (m.switch conf r now prepOk).Switching) (ops : List Op)
    (hops : ∀ op ∈ ops, op.rosUp) (hns : ∀ op ∈ ops, op.noSwitch)
    {m2 : Mgr} (hm2 : m2 = (m.switch conf r now prepOk).run conf ops)
    (hsw : m2.Switching) (hpend : m2.params.doSwitch = true)
    (time : Int) (reset : Bool) (hw : HwReply) (hdone : hw.first = .done) (elapsed : Int) :
    (∃ dr hwe stops starts,
      (m2.update time reset hw).trace = m2.trace ++ (dr ++ hwe ++ stops ++ starts) ∧
      Driven dr ∧
      (hwe = [] ∨ hwe = [.doSwitch (named m false r.start) (named m true r.stop)]) ∧
      (∀ e, e ∈ stops ↔ ∃ s ∈ m2.running, s.info.name ∈ r.stop ∧ e = .cb s.c .stopping) ∧
      stops.Nodup ∧
      starts = (r.start.filterMap m.getControllerByName).map (.cb · .starting)) ∧
    (m2.update time reset hw).running.map (·.info) = target m r.start r.stop ∧
    ((m2.update time reset hw).poll {} elapsed).trace =
      (m2.update time reset hw).trace ++ [.switchRet true] := by
  have hv := inv_of_reachable h
  have hv1 : Inv (fun _ => True) (m.switch conf r now prepOk) :=
    inv_step (checkOk_true conf) hv (.switch r now prepOk) trivial
  obtain ⟨hok, _⟩ := switch_accepted hv hi hacc
  have e1 := switch_accepted_eq (now := now) hv hi hok
  have hv2 : Inv (fun _ => True) m2 := by rw [hm2]; exact inv_run (checkOk_true conf) hv1 ops hops
  have hwin := run_window (conf := conf) (OnlyStopped m.state) hv1
    (by rw [e1]; intro c _; exact Or.inl rfl) ops
    (fun m' a b c _ hi' _ _ hR => onlyStopped_update m' a b c hi' hR) hops hns (hm2 ▸ hsw)
  rw [← hm2] at hwin
  obtain ⟨hR, hS⟩ := hwin
  have hstart : m2.startReq = r.start.filterMap m.getControllerByName := by rw [hS.startReq, e1]
  have hstop : m2.stopReq = r.stop.filterMap m.getControllerByName := by rw [hS.stopReq, e1]
  have hcur : m2.cur = m.cur := by rw [hS.cur, e1]
  have hasap : m2.params.asap = false := by rw [hS.asap, e1]; exact hra
  have hsws : m2.swStart = named m false r.start ∧ m2.swStop = named m true r.stop := by
    rw [hS.swStart, hS.swStop, e1]
    simp only [filter_resolved hv]
    exact ⟨trivial, trivial⟩
  have hmem : ∀ s ∈ m.cur, ∀ ns : List String,
      (s.c ∈ ns.filterMap m.getControllerByName ↔ s.info.name ∈ ns) :=
    fun s hs ns => mem_resolved hv.names hv.objs hs ns
  obtain ⟨st, es, d, _, he, ho⟩ := update_switch m2 hv2.sane hpend time reset hw
  obtain ⟨hd, hes, hrun⟩ := ho.allDone hasap hdone
  refine ⟨⟨m2.drivenEvents reset, m2.hwEvents, stopEvents m2.isRunning m2.stopReq, es, ?_, ?_, ?_,
    ?_, ?_, ?_⟩, ?_, ?_⟩
  · rw [he]; rfl
  · exact m2.driven_drivenEvents reset
  · unfold hwEvents
    rw [hsws.1, hsws.2]
    split
    · exact Or.inl rfl
    · exact Or.inr rfl
  · intro e
    rw [mem_stopEvents]
    constructor
    · rintro ⟨c, hc, hr, rfl⟩
      obtain ⟨s, hs, rfl⟩ := List.mem_map.1 (hv2.stop c hc)
      refine ⟨s, List.mem_filter.2 ⟨hs, by simpa [isRunning, CState.isRunning] using hr⟩, ?_, rfl⟩
      rw [hstop] at hc
      exact (hmem s (hcur ▸ hs) _).1 hc
    · rintro ⟨s, hs, hn, rfl⟩
      obtain ⟨hs1, hs2⟩ := List.mem_filter.1 hs
      refine ⟨s.c, ?_, by simpa [isRunning, CState.isRunning] using hs2, rfl⟩
      rw [hstop]; exact (hmem s (hcur ▸ hs1) _).2 hn
  · exact nodup_stopEvents _ _
  · rw [hes]
    show m2.startReq.map _ = _
    rw [hstart]
  · have hc3 : (m2.update time reset hw).cur = m.cur := by
      rw [(update_cur hv2 time reset hw).1, hcur]
    have hs3 : (m2.update time reset hw).state = st := by rw [he]; rfl
    unfold Mgr.running target
    rw [hc3, hs3]
    congr 1
    apply List.filter_congr
    intro s hs
    apply decide_eq_decide.2
    rw [← hmem s hs r.start, ← hmem s hs r.stop, ← hstart, ← hstop]
    by_cases hin : s.c ∈ m2.startReq
    · simp [hin, hrun s.c hin]
    · have h1 : st s.c = m2.stopState s.c := ho.outside s.c hin
      rw [h1, stopState]
      rcases hR s.c hin with h2 | ⟨h2, h3, h4⟩
      · rw [h2]
        by_cases h3 : s.c ∈ m2.stopReq
        · by_cases h4 : m.state s.c = .running <;> simp [hin, h3, h4]
        · simp [hin, h3]
      · simp [hin, h2, h4]
  · obtain ⟨k, t, hk⟩ := hsw
    have hs3 : (m2.update time reset hw).svc = .switching k t := by
      rw [(update_cur hv2 time reset hw).2.2.1, hk]
    have hd3 : (m2.update time reset hw).params.doSwitch = false := by rw [he]; exact hd
    unfold poll
    rw [hs3]
    simp only [hd3, Bool.and_false, Bool.false_eq_true, if_false]
    cases k <;> rfl

/-- "b" replaces "a" after the hardware has been busy for one update; "c" keeps running. -/
example : let m := Ex.after Ex.running
    let m2 := (m.switch checkForConflict ⟨["b"], ["a"], 2, false, 0⟩ 0 true).run checkForConflict
      [.update 0 false (Ex.hw .ongoing), Ex.wait]
    m2.svc = .switching .ret 0 ∧ m2.params.doSwitch = true ∧
    m2.running.map (·.info.name) = ["c"] ∧
    (m2.update 0 false (Ex.hw .done)).running.map (·.info.name) = ["b", "c"] ∧
    (target m ["b"] ["a"]).map (·.name) = ["b", "c"] := by decide

/-! ### C11 -/

/-- **C11.** Every call of the hardware's `doSwitch` is preceded by the acceptance of a switch
whose `prepareSwitch` was called with, and agreed to, the very same lists. Between the
acceptance and this call no controller receives any callback apart from the regular callbacks
of the update that makes the call; there is no other acceptance and no other `doSwitch` in
between, so `doSwitch` is called at most once per accepted switch. -/
theorem c11_doSwitch_once_and_first {conf} {m : Mgr} (h : Reachable conf m)
    {pre post : List Event} {a b : List ControllerInfo}
    (ht : m.trace = pre ++ .doSwitch a b :: post) :
    ∃ before between regular,
      pre = before ++ .prepareSwitch a b true :: .accepted a b :: (between ++ regular) ∧
      (∀ c k, .cb c k ∉ between) ∧ Driven regular ∧
      (∀ a' b', .accepted a' b' ∉ between ++ regular ∧ .doSwitch a' b' ∉ between ++ regular) := by
  have hl := (trInv_reachable h).legal
  rw [ht, legalFrom_append] at hl
  obtain ⟨p, q, dr, e, h1, h2, h3⟩ := hl.2.1
  exact ⟨p, q, dr, by simpa using e, h1, h3, h2.append (noSwitchEvent_of_driven h3)⟩

/-- **C11, finished switches.** When a switch call returns true, `doSwitch` has been called
exactly once since its acceptance, with the accepted lists. -/
theorem c11_true_reply_after_doSwitch {conf} {m : Mgr} (h : Reachable conf m)
    {pre post : List Event} (ht : m.trace = pre ++ .switchRet true :: post) :
    ∃ before x y a b, pre = before ++ .accepted a b :: (x ++ .doSwitch a b :: y) ∧
      ∀ a' b', .accepted a' b' ∉ x ++ y ∧ .doSwitch a' b' ∉ x ++ y := by
  have hl := (trInv_reachable h).legal
  rw [ht, legalFrom_append] at hl
  obtain ⟨a, b, hp⟩ := hl.2.1
  obtain ⟨p, q, r, e, h1, h2⟩ := phase_done hl.1 (by simpa using hp)
  exact ⟨p, q, r, a, b, e, h1.append h2⟩

/-- The history of a switch in which both theorems have something to say. -/
example : let t := (Ex.after Ex.running).trace
    t.count (.switchRet true) = 1 ∧
    (t.filter fun e => match e with | .doSwitch _ _ => true | _ => false).length = 1 := by decide

/-! ### C12 -/

/-- **C12.** After a switch request, until the next one, a realtime update aborts a controller
only if the request has a positive timeout and more than this time has passed since the request
was accepted (both in ROS time), or the hardware, asked for the result in this very update,
reported an error: for the whole switch, or for this controller at its place in the start
list. -/
theorem c12_abort_has_cause {conf} {m : Mgr} (h : Reachable conf m) (hi : m.svc = .idle)
    (r : SwitchReq) (now : Int) (prepOk : Bool) (ops : List Op)
    (hops : ∀ op ∈ ops, op.rosUp) (hns : ∀ op ∈ ops, op.noSwitch)
    {m2 : Mgr} (hm2 : m2 = (m.switch conf r now prepOk).run conf ops)
    (time : Int) (reset : Bool) (hw : HwReply) {es : List Event}
    (he : (m2.update time reset hw).trace = m2.trace ++ es) {c : CId} (hc : .cb c .aborting ∈ es) :
    (0 < r.timeout ∧ r.timeout < time - now) ∨
    (r.asap = false ∧ hw.first ≠ .done ∧ hw.second = .error) ∨
    (r.asap = true ∧ ∃ i s, (r.start.filterMap m.getControllerByName)[i]? = some c ∧ s ∈ m.cur ∧
      s.c = c ∧ (hw.per i s.info).1 ≠ .done ∧ (hw.per i s.info).2 = .error) := by
  have hv := inv_of_reachable h
  have hv1 : Inv (fun _ => True) (m.switch conf r now prepOk) :=
    inv_step (checkOk_true conf) hv (.switch r now prepOk) trivial
  have hv2 : Inv (fun _ => True) m2 := by rw [hm2]; exact inv_run (checkOk_true conf) hv1 ops hops
  have hq : m2.Switching := by
    by_contra hq
    obtain ⟨_, h2⟩ := update_quiet hv2 hq time reset hw
    rw [he] at h2
    rw [List.append_cancel_left h2] at hc
    rcases List.mem_append.1 hc with hc | hc
    · exact (quiet_driven m2 reset true).aborting c hc
    · split at hc
      · cases (mem_hwEvents hc).1
      · cases hc
  by_cases hacc : (m.switch conf r now prepOk).Switching
  swap
  · exact absurd hq (by rw [hm2]; exact run_notSwitching hv1 hacc ops hops hns)
  obtain ⟨hok, _⟩ := switch_accepted hv hi hacc
  have e1 := switch_accepted_eq (now := now) hv hi hok
  have hS := (run_window (conf := conf) (fun _ => True) hv1 trivial ops
    (fun _ _ _ _ _ _ _ _ _ => trivial) hops hns (hm2 ▸ hq)).2
  rw [← hm2] at hS
  have hstart : m2.startReq = r.start.filterMap m.getControllerByName := by rw [hS.startReq, e1]
  have hcur : m2.cur = m.cur := by rw [hS.cur, e1]
  have hasap : m2.params.asap = r.asap := by rw [hS.asap, e1]
  have hto : m2.params.timeout = r.timeout := by rw [hS.timeout, e1]
  have hin : m2.params.initTime = now := by rw [hS.initTime, e1]
  cases hd : m2.params.doSwitch
  · rw [update_idle m2 hd] at he
    have := List.append_cancel_left (he : m2.trace ++ m2.drivenEvents reset = _)
    rw [← this] at hc
    exact absurd hc ((quiet_driven m2 reset true).aborting c)
  · obtain ⟨st, es', d, _, he', ho⟩ := update_switch m2 hv2.sane hd time reset hw
    rw [he'] at he
    have := List.append_cancel_left (he : m2.trace ++ _ = _)
    rw [← this] at hc
    have hc' : .cb c .aborting ∈ es' := by
      simp only [List.mem_append] at hc
      rcases hc with ((hc | hc) | hc) | hc
      · exact absurd hc ((quiet_driven m2 reset true).aborting c)
      · cases (mem_hwEvents hc).1
      · obtain ⟨x, _, _, e⟩ := mem_stopEvents.1 hc; cases e
      · exact hc
    obtain ⟨x, hx, hh⟩ := ho.events _ hc'
    rcases hh with ⟨e, _⟩ | ⟨e, hcause⟩ | e
    · cases e
    · cases e
      rcases hcause with hcause | ⟨h1, h2⟩ | ⟨h1, i, s, h2, h3, h4, h5⟩
      · left
        have : timedOut m2.params time = true := hcause
        rw [timedOut, hto, hin] at this
        simpa using this
      · right; left
        exact ⟨hasap ▸ h1, h2⟩
      · right; right
        refine ⟨hasap ▸ h1, i, s, ?_, hcur ▸ h3, h4, ?_⟩
        · rw [← hstart]; exact h2
        · simpa using h5
    · cases e

/-- **C12, timeout zero.** Without a timeout and without an error of the hardware no controller
is aborted. -/
theorem c12_zero_timeout_waits {conf} {m : Mgr} (h : Reachable conf m) (hi : m.svc = .idle)
    (r : SwitchReq) (hr : r.timeout = 0) (now : Int) (prepOk : Bool) (ops : List Op)
    (hops : ∀ op ∈ ops, op.rosUp) (hns : ∀ op ∈ ops, op.noSwitch)
    {m2 : Mgr} (hm2 : m2 = (m.switch conf r now prepOk).run conf ops)
    (time : Int) (reset : Bool) (hw : HwReply) (h1 : hw.second ≠ .error)
    (h2 : ∀ i info, (hw.per i info).2 ≠ .error) {es : List Event}
    (he : (m2.update time reset hw).trace = m2.trace ++ es) (c : CId) : .cb c .aborting ∉ es := by
  intro hc
  rcases c12_abort_has_cause h hi r now prepOk ops hops hns hm2 time reset hw he hc with
    ⟨h3, _⟩ | ⟨_, _, h3⟩ | ⟨_, i, s, _, _, _, _, h3⟩
  · rw [hr] at h3; exact absurd h3 (lt_irrefl _)
  · exact h1 h3
  · exact h2 i s.info h3

/-- Aborts do occur: after a timeout of 5, at time 6 but not at time 5. -/
example : let m1 := (Ex.after Ex.three).switch checkForConflict ⟨["a"], [], 2, true, 5⟩ 0 true
    (m1.update 5 false (Ex.hw .ongoing)).state 0 = .waiting ∧
    (m1.update 6 false (Ex.hw .ongoing)).state 0 = .aborted := by decide

/-! ### C13 -/

/-- **C13 does not hold.** A switch whose controllers were aborted because of a hardware error
still returns true. -/
theorem c13_true_reply_negation : ¬ TrueReplyMeansSwitched checkForConflict := by
  intro h
  have := h (Ex.after Ex.three) (Ex.reachable_after Ex.rosUp_three) (by decide)
    ⟨["a"], [], 2, false, 0⟩ 0 true [.update 0 false (Ex.hw .error)]
    (by simp [Op.rosUp]) (by simp [Op.noSwitch]) 0 _ rfl (by decide) "a" (by unfold Loaded; decide)
  exact absurd (this.1 (by decide)) (by unfold Runs; decide)

/-- **C13, what holds.** When a switch call returns true, every requested loaded controller to
stop that was not also to be started is not running, and every requested loaded controller to
start is running, or was aborted by this switch. Missing for the full statement
(`Spec.TrueReplyMeansSwitched`): the aborted ones. -/
theorem c13_true_reply_partial {conf} {m : Mgr} (h : Reachable conf m) (hi : m.svc = .idle)
    (r : SwitchReq) (now : Int) (prepOk : Bool) (ops : List Op)
    (hops : ∀ op ∈ ops, op.rosUp) (hns : ∀ op ∈ ops, op.noSwitch) (elapsed : Int)
    {m2 : Mgr} (hm2 : m2 = (m.switch conf r now prepOk).run conf ops)
    (hret : (m2.poll {} elapsed).trace = m2.trace ++ [.switchRet true])
    {n : String} {c : CId} (hn : m.getControllerByName n = some c) :
    (n ∈ r.start → Runs (m2.poll {} elapsed) n ∨
      ((m2.poll {} elapsed).state c = .aborted ∧
        ∃ es, m2.trace = (m.switch conf r now prepOk).trace ++ es ∧ .cb c .aborting ∈ es)) ∧
    (n ∈ r.stop → n ∉ r.start → ¬ Runs (m2.poll {} elapsed) n) := by
  have hv := inv_of_reachable h
  have hv1 : Inv (fun _ => True) (m.switch conf r now prepOk) :=
    inv_step (checkOk_true conf) hv (.switch r now prepOk) trivial
  obtain ⟨hacc, hsw, hd, hv2⟩ := true_reply h r now prepOk ops hops hns elapsed hm2 hret
  obtain ⟨hok, _⟩ := switch_accepted hv hi hacc
  have e1 := switch_accepted_eq (now := now) hv hi hok
  have hwin := run_window (conf := conf) (Finished (m.switch conf r now prepOk).trace) hv1
    ⟨⟨[], by simp⟩, by rw [e1]; intro hh; cases hh⟩ ops
    (fun m' a b c _ hi' _ _ hR => finished_update m' a b c hi' hR) hops hns (hm2 ▸ hsw)
  rw [← hm2] at hwin
  obtain ⟨hR, hS⟩ := hwin
  have hstart : m2.startReq = r.start.filterMap m.getControllerByName := by rw [hS.startReq, e1]
  have hstop : m2.stopReq = r.stop.filterMap m.getControllerByName := by rw [hS.stopReq, e1]
  have hcur : m2.cur = m.cur := by rw [hS.cur, e1]
  have hst := (poll_cur hv2 {} elapsed).2.2
  obtain ⟨s, hs, rfl, rfl⟩ := getControllerByName_mem hn
  have hmem : ∀ ns : List String,
      (s.c ∈ ns.filterMap m.getControllerByName ↔ s.info.name ∈ ns) :=
    fun ns => mem_resolved hv.names hv.objs hs ns
  have hcur3 : (m2.poll {} elapsed).cur = m.cur := by
    obtain ⟨k, t, hk⟩ := hsw
    unfold poll
    rw [hk]
    simp only [hd, Bool.and_false, Bool.false_eq_true, if_false]
    cases k <;> exact hcur
  have hruns : Runs (m2.poll {} elapsed) s.info.name ↔ m2.state s.c = .running := by
    rw [runs_iff (by rw [hcur3]; exact hv.names) (by rw [hcur3]; exact hs), hst]
  refine ⟨?_, ?_⟩
  · intro h1
    rcases hR.2 hd s.c (by rw [hstart]; exact (hmem _).2 h1) with h2 | ⟨h2, h3⟩
    · exact Or.inl (hruns.2 h2)
    · exact Or.inr ⟨by rw [hst]; exact h2, h3⟩
  · intro h1 h2 h3
    exact (hv2.done hsw hd trivial).2.2 s.c (by rw [hstop]; exact (hmem _).2 h1)
      (by rw [hstart]; exact fun hh => h2 ((hmem _).1 hh)) (hruns.1 h3)

/-- **C13, without errors.** If the request has no timeout and the hardware reports no error
during the switch, then when the call returns true exactly what was requested has happened. -/
theorem c13_true_reply_without_error {conf} {m : Mgr} (h : Reachable conf m) (hi : m.svc = .idle)
    (r : SwitchReq) (hr : r.timeout = 0) (now : Int) (prepOk : Bool) (ops : List Op)
    (hops : ∀ op ∈ ops, op.rosUp) (hns : ∀ op ∈ ops, op.noSwitch)
    (hhw : ∀ time reset hw, .update time reset hw ∈ ops →
      hw.second ≠ .error ∧ ∀ i info, (hw.per i info).2 ≠ .error) (elapsed : Int)
    {m2 : Mgr} (hm2 : m2 = (m.switch conf r now prepOk).run conf ops)
    (hret : (m2.poll {} elapsed).trace = m2.trace ++ [.switchRet true])
    {n : String} (hn : Loaded m n) :
    (n ∈ r.start → Runs (m2.poll {} elapsed) n) ∧
    (n ∈ r.stop → n ∉ r.start → ¬ Runs (m2.poll {} elapsed) n) := by
  have hv := inv_of_reachable h
  have hv1 : Inv (fun _ => True) (m.switch conf r now prepOk) :=
    inv_step (checkOk_true conf) hv (.switch r now prepOk) trivial
  obtain ⟨hacc, hsw, hd, hv2⟩ := true_reply h r now prepOk ops hops hns elapsed hm2 hret
  obtain ⟨hok, _⟩ := switch_accepted hv hi hacc
  have e1 := switch_accepted_eq (now := now) hv hi hok
  obtain ⟨c, hc⟩ : ∃ c, m.getControllerByName n = some c := by
    have := loaded_iff.1 hn
    exact Option.ne_none_iff_exists'.1 this
  obtain ⟨p1, p2⟩ := c13_true_reply_partial h hi r now prepOk ops hops hns elapsed hm2 hret hc
  refine ⟨fun hs => ?_, p2⟩
  rcases p1 hs with p1 | ⟨p1, p3⟩
  · exact p1
  · exfalso
    have hwin := run_window (conf := conf)
      (fun m' => m'.params.doSwitch = false → ∀ c ∈ m'.startReq, m'.state c = .running) hv1
      (by rw [e1]; intro hh; cases hh) ops
      (by
        intro m' t re hw hmem hi' _ hS hR
        cases hd' : m'.params.doSwitch
        · rw [update_idle m' hd']
          intro _; exact hR hd'
        · obtain ⟨st, es', d, _, he', ho⟩ := update_switch m' hi'.sane hd' t re hw
          rw [he']
          intro hd2 c hc
          rcases ho.finished hd2 c hc with h1 | h1
          · exact h1
          · exfalso
            rcases (ho.aborted c hc h1).1 with h2 | ⟨_, _, h2⟩ | ⟨_, i, s, _, _, _, _, h2⟩
            · have h2' : timedOut m'.params t = true := h2
              have : m'.params.timeout = 0 := by rw [hS.timeout, e1]; exact hr
              simp [timedOut, this] at h2'
            · exact (hhw t re hw hmem).1 h2
            · exact (hhw t re hw hmem).2 _ _ h2)
      hops hns (hm2 ▸ hsw)
    rw [← hm2] at hwin
    obtain ⟨hR, hS⟩ := hwin
    have hstart : m2.startReq = r.start.filterMap m.getControllerByName := by rw [hS.startReq, e1]
    have := hR hd c (by rw [hstart]; exact List.mem_filterMap.2 ⟨n, hs, hc⟩)
    rw [(poll_cur hv2 {} elapsed).2.2, this] at p1
    cases p1

/-- A switch without errors and one with an aborted controller, both answered with true. -/
example : let m1 := (Ex.after Ex.three).switch checkForConflict ⟨["a", "c"], [], 2, true, 0⟩ 0 true
    let m2 := m1.run checkForConflict [.update 0 false (Ex.hw .ongoing), .update 1 false (Ex.hw .done)]
    let m3 := m1.run checkForConflict
      [.update 0 false ⟨.done, .done, fun i _ => if i = 0 then (.done, .done) else (.error, .error)⟩]
    (m2.poll {} 0).trace = m2.trace ++ [.switchRet true] ∧
    (m2.poll {} 0).running.map (·.info.name) = ["a", "c"] ∧
    (m3.poll {} 0).trace = m3.trace ++ [.switchRet true] ∧
    (m3.poll {} 0).running.map (·.info.name) = ["a"] ∧ (m3.poll {} 0).state 2 = .aborted := by decide

/-! ### C14 -/

/-- **C14 does not hold.** If the realtime thread does not run before the wall-clock timeout,
the call returns false; the first update afterwards still calls the hardware's `doSwitch`. -/
theorem c14_false_reply_negation : ¬ FalseReplyMeansNothingLater checkForConflict := by
  intro h
  obtain ⟨_, es, he, _, _, hes⟩ := h (Ex.after Ex.three) (Ex.reachable_after Ex.rosUp_three) (by decide)
    ⟨["a"], [], 2, false, 1⟩ 0 true [] (by simp) (by simp) (second + 1) _ rfl (by decide)
    [Ex.tick] (by simp [Ex.tick, Op.rosUp]) (by simp [Ex.tick, Op.noSwitch])
  have e2 : ((((Ex.after Ex.three).switch checkForConflict ⟨["a"], [], 2, false, 1⟩ 0 true).poll {}
      (second + 1)).run checkForConflict [Ex.tick]).trace =
      (((Ex.after Ex.three).switch checkForConflict ⟨["a"], [], 2, false, 1⟩ 0 true).poll {}
      (second + 1)).trace ++ [.doSwitch [⟨"a", "T", [⟨"Pos", ["j1"]⟩]⟩] []] := by decide
  have e3 := List.append_cancel_left (he.symm.trans e2)
  rw [e3] at hes
  exact hes _ _ (List.mem_singleton.2 rfl)

/-- **C14, what holds.** After a switch call has returned false, and until the next switch or
reload request, no controller changes its state, waits or is aborted, and none is started or
stopped except by an update with `reset_controllers`. Missing for the full statement
(`Spec.FalseReplyMeansNothingLater`): the hardware's `doSwitch` may still be called. -/
theorem c14_false_reply_partial {conf} {m : Mgr} (h : Reachable conf m)
    (r : SwitchReq) (now : Int) (prepOk : Bool) (ops : List Op)
    (hops : ∀ op ∈ ops, op.rosUp) (elapsed : Int)
    {m2 : Mgr} (hm2 : m2 = (m.switch conf r now prepOk).run conf ops)
    (hret : (m2.poll {} elapsed).trace = m2.trace ++ [.switchRet false])
    (later : List Op) (hl : ∀ op ∈ later, op.rosUp) (hln : ∀ op ∈ later, op.noSwitch) :
    (∀ c < m2.nextId, ((m2.poll {} elapsed).run conf later).state c = m2.state c) ∧
    ∃ es, ((m2.poll {} elapsed).run conf later).trace = (m2.poll {} elapsed).trace ++ es ∧
      (∀ c, .cb c .waiting ∉ es ∧ .cb c .aborting ∉ es) ∧
      ((∀ op ∈ later, op.noReset) → ∀ c, .cb c .starting ∉ es ∧ .cb c .stopping ∉ es) := by
  have hv := inv_of_reachable h
  have hv1 : Inv (fun _ => True) (m.switch conf r now prepOk) :=
    inv_step (checkOk_true conf) hv (.switch r now prepOk) trivial
  have hv2 : Inv (fun _ => True) m2 := by rw [hm2]; exact inv_run (checkOk_true conf) hv1 ops hops
  have hv3 : Inv (fun _ => True) (m2.poll {} elapsed) :=
    inv_step (checkOk_true conf) hv2 (.poll {} elapsed) ⟨rfl, rfl⟩
  have hns3 : ¬ (m2.poll {} elapsed).Switching := by
    by_cases hs : m2.Switching
    · obtain ⟨k, t, hk⟩ := hs
      rcases poll_switching hk {} ⟨rfl, rfl⟩ elapsed with ⟨_, e⟩ | hn
      · rw [e] at hret; simp at hret
      · exact hn
    · exact step_notSwitching (conf := conf) hv2 hs (.poll {} elapsed) ⟨rfl, rfl⟩ trivial
  obtain ⟨_, hnx, hst⟩ := poll_cur hv2 {} elapsed
  classical
  obtain ⟨h1, es', h2, h3⟩ := quiet_run (conf := conf) hv3 hns3 later hl hln
    (reset := !decide (∀ op ∈ later, op.noReset)) (by simp)
  refine ⟨?_, es', h2, fun c => ⟨h3.waiting c, h3.aborting c⟩, ?_⟩
  · intro c hc
    rw [h1 c (by rw [hnx]; exact hc), hst]
  · intro hh; exact h3.restart (by simpa using hh)

/-- A switch that times out while the hardware is busy: "a" has been stopped, "b" is left
waiting and stays so, although the hardware finishes later. -/
example :
    let m1 := (Ex.after Ex.running).switch checkForConflict ⟨["b"], ["a"], 2, false, 5⟩ 0 true
    let m2 := m1.run checkForConflict [.update 1 false (Ex.hw .ongoing)]
    (m2.poll {} (second + 5)).trace = m2.trace ++ [.switchRet false] ∧
    ((m2.poll {} (second + 5)).run checkForConflict [Ex.tick, Ex.tick]).listControllers.map (·.state) =
      ["stopped", "waiting", "running"] := by decide

end Verif
