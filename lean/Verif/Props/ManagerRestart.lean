import Verif.Props.ManagerSwitch
import Verif.Props.ManagerSwitchRun
import Verif.Props.ManagerSafety

/-!
Property C99: requests that name a running controller both to stop and to start.
controller_manager/test/hwi_switch_test.cpp 345-354 and 433-442 expect such a request to be accepted as a restart of the
controller.
-/

namespace Verif

open Mgr Spec

/-- C99 in full, as the tests of the repository have it: a STRICT request is accepted if all controllers to
stop are running, those to start are loaded and not running or also to be stopped, the controllers that would run
afterwards have no conflict, and the hardware agrees. -/
def RestartsOnRequest (conf : List ControllerInfo → Bool) : Prop :=
  ∀ m : Mgr, Reachable conf m → m.svc = .idle → ∀ r : SwitchReq, r.strictness = strictnessStrict →
    (∀ n ∈ r.stop, Runs m n) → (∀ n ∈ r.start, Loaded m n ∧ (Runs m n → n ∈ r.stop)) →
    conf (target m r.start r.stop) = false → ∀ now, (m.switch conf r now true).Switching

/-- **C99 fails.** "a" is running; a request to stop it and to start it again is refused, though there is no conflict
and the hardware would agree. -/
theorem c99_restart_negation : ¬ RestartsOnRequest checkForConflict := by
  intro hf
  have h1 := hf (Ex.after Ex.running) (Ex.reachable_after Ex.rosUp_running) (by decide)
    ⟨["a"], ["a"], 2, false, 0⟩ (by decide) (by unfold Runs; decide) (by unfold Runs Loaded; decide)
    (by decide) 0
  obtain ⟨k, t, e⟩ := h1
  have : ((Ex.after Ex.running).switch checkForConflict ⟨["a"], ["a"], 2, false, 0⟩ 0 true).svc = .idle := by decide
  rw [e] at this; cases this

/-- **C99, what happens instead.** Whatever the strictness and the rest of the request, if a running controller is to be
stopped and to be started the answer is false at once. The hardware is not asked to switch anything, no controller
changes its state, and the listing stays as it is. -/
theorem c99_both_lists_refused {conf} {m : Mgr} (h : Reachable conf m) (hi : m.svc = .idle) (r : SwitchReq)
    {n : String} (hn : Runs m n) (h1 : n ∈ r.start) (h2 : n ∈ r.stop) (now : Int) (prepOk : Bool) :
    (m.switch conf r now prepOk).svc = .idle ∧
    (m.switch conf r now prepOk).state = m.state ∧
    (m.switch conf r now prepOk).listControllers = m.listControllers ∧
    (m.switch conf r now prepOk).params.doSwitch = false ∧
    ∃ es, (m.switch conf r now prepOk).trace = m.trace ++ es ++ [.switchRet false] ∧
      ∀ e ∈ es, ∃ a b, e = .prepareSwitch a b false := by
  have hv := inv_of_reachable h
  obtain ⟨c1, c2⟩ := hv.reqs (not_switching_of_idle hi)
  have hno : ¬ m.okRequest conf r prepOk := by
    rintro ⟨_, hb, _⟩
    obtain ⟨s, hs, rfl⟩ := List.mem_map.1 hn
    have hs' := (List.mem_filter.1 hs).1
    refine hb s hs' (Or.inr (Or.inr ⟨?_, ?_, ?_⟩))
    · rw [isRunning_iff]; exact (runs_iff hv.names hs').1 hn
    · exact (mem_resolved hv.names hv.objs hs' _).2 h2
    · exact (mem_resolved hv.names hv.objs hs' _).2 h1
  obtain ⟨a, b, es, e, hes⟩ := switchCore_refuse conf m r now prepOk .ret c1 c2 hno
  have e' : m.switch conf r now prepOk = (m.switchCore conf r now prepOk .ret).2 := by simp [switch, hi]
  rw [e', e]
  refine ⟨hi, rfl, rfl, rfl, es, rfl, fun x hx => ?_⟩
  rcases hes with rfl | ⟨_, rfl⟩
  · cases hx
  · exact ⟨a, b, by simpa using hx⟩

/-- The request of the negation, by best effort and with another controller to start. -/
example : Runs (Ex.after Ex.running) "a" ∧
    ((Ex.after Ex.running).switch checkForConflict ⟨["a"], ["a"], 1, false, 0⟩ 0 true).trace =
      (Ex.after Ex.running).trace ++ [.switchRet false] := by
  unfold Runs; decide

/-- A client stops "n" and starts it again by two STRICT requests; while each of them waits there is an update. -/
def restartByTwo (n : String) (t1 t2 now1 now2 : Int) (hw1 hw2 : HwReply) : List Op :=
  [.switch ⟨[], [n], strictnessStrict, false, 0⟩ now1 true, .update t1 false hw1, .poll {} 0,
   .switch ⟨[n], [], strictnessStrict, false, 0⟩ now2 true, .update t2 false hw2, .poll {} 0]

/-- One accepted request, an update in which the hardware is done, and the answer. -/
theorem switch_round {conf} {m : Mgr} (h : Reachable conf m) (hi : m.svc = .idle) (r : SwitchReq) (hra : r.asap = false)
    (now : Int) (hacc : (m.switch conf r now true).Switching) (t : Int) (hw : HwReply) (hd : hw.first = .done)
    {m' : Mgr} (hm' : m' = ((m.switch conf r now true).update t false hw).poll {} 0) :
    Reachable conf m' ∧ m'.svc = .idle ∧ m'.cur = m.cur ∧
    m'.running.map (·.info) = target m r.start r.stop ∧
    ∃ es, m'.trace = m.trace ++ es ++ [.switchRet true] ∧
      (∀ s ∈ m.running, s.info.name ∈ r.stop → .cb s.c .stopping ∈ es) ∧
      ∀ s ∈ m.cur, s.info.name ∈ r.start → .cb s.c .starting ∈ es := by
  have hv := inv_of_reachable h
  have hr1 : Reachable conf (m.switch conf r now true) := reachable_step h (op := .switch r now true) trivial
  have hv1 := inv_of_reachable hr1
  have hr2 : Reachable conf ((m.switch conf r now true).update t false hw) :=
    reachable_step hr1 (op := .update t false hw) trivial
  have hv2 := inv_of_reachable hr2
  obtain ⟨hok, _⟩ := switch_accepted hv hi hacc
  have e1 := switch_accepted_eq (now := now) hv hi hok
  have hpend : (m.switch conf r now true).params.doSwitch = true := by rw [e1]
  obtain ⟨⟨dr, hwe, stops, starts, ht, _, _, hstops, _, hstarts⟩, hrun, htr⟩ := c10_atomic_switch h hi r hra now true hacc []
    (by simp) (by simp) (m2 := m.switch conf r now true) rfl hacc hpend t false hw hd 0
  have hs3 : ((m.switch conf r now true).update t false hw).svc = .switching .ret r.timeout := by
    rw [(update_cur hv1 t false hw).2.2.1, e1]
  have hc3 : ((m.switch conf r now true).update t false hw).cur = m.cur := by
    rw [(update_cur hv1 t false hw).1, e1]
  have hpoll : (((m.switch conf r now true).update t false hw).poll {} 0).svc = .idle ∧
      (((m.switch conf r now true).update t false hw).poll {} 0).cur =
        ((m.switch conf r now true).update t false hw).cur := by
    have hlen := congrArg List.length htr
    revert hlen
    unfold poll
    rw [hs3]
    simp only [Bool.true_and, Bool.not_true, Bool.false_eq_true, if_false]
    split
    · split
      · intro hlen; simp at hlen
      · intro _; exact ⟨rfl, rfl⟩
    · intro _; exact ⟨rfl, rfl⟩
  have hst := (poll_cur hv2 {} 0).2.2
  subst hm'
  refine ⟨reachable_step hr2 (op := .poll {} 0) ⟨rfl, rfl⟩, hpoll.1, by rw [hpoll.2, hc3], ?_, ?_⟩
  · rw [← hrun]
    unfold Mgr.running
    rw [hpoll.2, hst]
  · have htr1 : ∃ e0, (m.switch conf r now true).trace = m.trace ++ e0 := by rw [e1]; exact ⟨_, rfl⟩
    obtain ⟨e0, htr1⟩ := htr1
    refine ⟨e0 ++ (dr ++ hwe ++ stops ++ starts), by rw [htr, ht, htr1]; simp only [List.append_assoc], ?_, ?_⟩
    · intro s hs hn
      have : Event.cb s.c .stopping ∈ stops := (hstops _).2 ⟨s, by
        have : (m.switch conf r now true).running = m.running := by
          unfold Mgr.running; rw [e1]
        rw [this]; exact hs, hn, rfl⟩
      simp [this]
    · intro s hs hn
      have : Event.cb s.c .starting ∈ starts := by
        rw [hstarts]
        exact List.mem_map_of_mem ((mem_resolved hv.names hv.objs hs _).2 hn)
      simp [this]

/-- **C99, restart by two requests** (missing: restart by one request, see the negation). With the default check
for conflicts, a client can always restart a running controller by stopping and starting it, provided the
hardware agrees and gets done: both requests are answered with true, during the first the controller is
stopped, during the second it is started, and afterwards the same controllers are
running as before. -/
theorem c99_two_requests_partial {m : Mgr} (h : Reachable checkForConflict m) (hi : m.svc = .idle) {n : String}
    (hn : Runs m n) (t1 t2 now1 now2 : Int) (hw1 hw2 : HwReply) (hd1 : hw1.first = .done) (hd2 : hw2.first = .done)
    {m' : Mgr} (hm' : m' = m.run checkForConflict (restartByTwo n t1 t2 now1 now2 hw1 hw2)) :
    m'.svc = .idle ∧ m'.running.map (·.info) = m.running.map (·.info) ∧
    ∃ es1 es2, m'.trace = m.trace ++ es1 ++ [.switchRet true] ++ es2 ++ [.switchRet true] ∧
      ∃ c, m.getControllerByName n = some c ∧ .cb c .stopping ∈ es1 ∧ .cb c .starting ∈ es2 := by
  have hv := inv_of_reachable h
  have hfree := c05_running_conflict_free h
  have nofind : ∀ l : List ControllerInfo, ConflictFree l → checkForConflict l = false := by
    intro l hl
    by_contra hc
    exact (c27_conflict_iff l).1 (by simpa using hc) hl
  have acc1 : (m.switch checkForConflict ⟨[], [n], strictnessStrict, false, 0⟩ now1 true).Switching := by
    rw [c07_strict_accept_iff h hi _ rfl]
    refine ⟨by simpa using hn, by simp, by simp, nofind _ ?_, rfl⟩
    refine List.Nodup.sublist (List.Sublist.flatMap ?_ _) hfree
    refine List.Sublist.map _ ?_
    unfold Mgr.running
    refine List.monotone_filter_right _ ?_
    intro s; simp +contextual
  obtain ⟨r1, i1, cu1, ru1, es1, tr1, stp, _⟩ := switch_round h hi ⟨[], [n], strictnessStrict, false, 0⟩ rfl now1 acc1 t1 hw1 hd1 rfl
  generalize hm1 : ((m.switch checkForConflict ⟨[], [n], strictnessStrict, false, 0⟩ now1 true).update t1 false hw1).poll {} 0 = m1 at *
  have hv1 := inv_of_reachable r1
  have run1 : ∀ s ∈ m.cur, (m1.state s.c = .running ↔ m.state s.c = .running ∧ s.info.name ≠ n) := by
    intro s hs
    rw [← runs_iff hv1.names (cu1 ▸ hs : s ∈ m1.cur)]
    have : Runs m1 s.info.name ↔ s.info.name ∈ (target m [] [n]).map (·.name) := by
      unfold Runs
      rw [← ru1]; simp
    rw [this]
    unfold target
    simp only [List.map_map, List.mem_map, List.mem_filter, Function.comp]
    constructor
    · rintro ⟨s', ⟨hs', hp⟩, e⟩
      have : s' = s := List.inj_on_of_nodup_map hv.names hs' hs e
      subst this
      simpa using hp
    · rintro ⟨ha, hb⟩
      exact ⟨s, ⟨hs, by simp [ha, hb]⟩, rfl⟩
  obtain ⟨s, hs, rfl⟩ := List.mem_map.1 hn
  obtain ⟨hs1, hs2⟩ := List.mem_filter.1 hs
  have tgt : target m1 [s.info.name] [] = m.running.map (·.info) := by
    unfold target Mgr.running
    rw [cu1]
    congr 1
    apply List.filter_congr
    intro x hx
    apply decide_eq_decide.2
    rw [run1 x hx]
    constructor
    · rintro (⟨⟨ha, _⟩, _⟩ | hb)
      · exact ha
      · have : x = s := List.inj_on_of_nodup_map hv.names hx hs1 (by simpa using hb)
        subst this; simpa using hs2
    · intro ha
      by_cases hx' : x.info.name = s.info.name
      · right; simp [hx']
      · left; exact ⟨⟨ha, hx'⟩, by simp⟩
  have acc2 : (m1.switch checkForConflict ⟨[s.info.name], [], strictnessStrict, false, 0⟩ now2 true).Switching := by
    rw [c07_strict_accept_iff r1 i1 _ rfl]
    refine ⟨by simp, ?_, by simp, nofind _ (by rw [tgt]; exact hfree), rfl⟩
    intro x hx
    simp only [List.mem_singleton] at hx
    subst hx
    refine ⟨?_, ?_⟩
    · unfold Loaded; rw [cu1]; exact List.mem_map_of_mem hs1
    · rw [runs_iff hv1.names (cu1 ▸ hs1 : s ∈ m1.cur), run1 s hs1]; simp
  obtain ⟨r2, i2, cu2, ru2, es2, tr2, _, sta⟩ :=
    switch_round r1 i1 ⟨[s.info.name], [], strictnessStrict, false, 0⟩ rfl now2 acc2 t2 hw2 hd2 rfl
  have e : m' = ((m1.switch checkForConflict ⟨[s.info.name], [], strictnessStrict, false, 0⟩ now2 true).update
      t2 false hw2).poll {} 0 := by
    rw [hm', ← hm1]; rfl
  rw [e]
  exact ⟨i2, by rw [ru2]; exact tgt, es1, es2, by rw [tr2, tr1], s.c, getControllerByName_of_mem hv.names hs1,
    stp s hs (by simp), sta s (cu1 ▸ hs1) (by simp)⟩

/-- "a" is restarted while "c" goes on. -/
example : Runs (Ex.after Ex.running) "a" ∧
    (((Ex.after Ex.running).run checkForConflict
      (restartByTwo "a" 0 0 0 0 (Ex.hw .done) (Ex.hw .done))).running.map (·.info.name)) = ["a", "c"] := by
  unfold Runs; decide

end Verif
