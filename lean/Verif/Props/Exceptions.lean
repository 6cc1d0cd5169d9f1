import Verif.Lemmas.ExceptionsRun
import Verif.Examples.ManagerWorld

/-!
# C97: user code throws exceptions
-/

namespace Verif

open Mgr Spec

/-- **C97, safety.** Whatever callbacks of controllers and functions of the hardware called by `update` throw, and whenever they
do: no pointer is used after its object is gone, controllers have different names, and running controllers do not
conflict. Missing: exceptions of `prepareSwitch` (`c97_prepare_negation`). -/
theorem c97_safety_partial {m : Mgr} (h : UReachable checkForConflict m) :
    m.fault = false ∧ (m.cur.map (·.info.name)).Nodup ∧ ConflictFree (m.running.map (·.info)) :=
  safe_of_inv (inv_uReachable checkOk_checkForConflict h)

/-- **C97, a switch goes on.** Exceptions in updates do not lose a switch that is pending: however often callbacks and the hardware have
thrown, the next update that is not left by an exception, with the hardware reporting that the switch is done, completes it,
and the call returns true. -/
theorem c97_switch_goes_on {conf} {m : Mgr} (h : UReachable conf m) (hi : m.svc = .idle) (r : SwitchReq) (hra : r.asap = false)
    (now : Int) (prepOk : Bool) (hacc : (m.switch conf r now prepOk).Switching) (ops : List XOp)
    (hops : ∀ op ∈ ops, op.isUpdate = true) {m2 : Mgr} (hm2 : m2 = (m.switch conf r now prepOk).xrun conf ops)
    (hpend : m2.params.doSwitch = true) (time : Int) (reset : Bool) (hw : HwReply) (hdone : hw.first = .done) (elapsed : Int) :
    let m3 := m2.update time reset hw
    (∀ s ∈ m.cur, s.info.name ∈ r.start → s ∈ m3.running) ∧
    (∀ s ∈ m.cur, s.info.name ∈ r.stop → s.info.name ∉ r.start → s ∉ m3.running) ∧
    (m3.poll {} elapsed).svc = .idle ∧ (m3.poll {} elapsed).trace = m3.trace ++ [.switchRet true] := by
  intro m3
  have hv : InvD False (fun _ => True) m := inv_uReachable (checkOk_true conf) h
  have hv1 : InvD False (fun _ => True) (m.switch conf r now prepOk) := inv_step (checkOk_true conf) hv (.switch r now prepOk) trivial
  obtain ⟨hok, _⟩ := switch_accepted hv hi hacc
  have e1 := switch_accepted_eq (now := now) hv hi hok
  have hS := sameCall_xrun (checkOk_true conf) ops hv1 hops False.elim
  have hv2 := inv_xrun (checkOk_true conf) ops hv1 (fun op ho => XOp.rosUp_of_isUpdate (hops op ho)) False.elim
  rw [← hm2] at hS hv2
  have hstart : m2.startReq = r.start.filterMap m.getControllerByName := by rw [hS.startReq, e1]
  have hstop : m2.stopReq = r.stop.filterMap m.getControllerByName := by rw [hS.stopReq, e1]
  have hcur : m2.cur = m.cur := by rw [hS.cur, e1]
  have hasap : m2.params.asap = false := by rw [hS.asap, e1]; exact hra
  have hsvc : m2.svc = .switching .ret r.timeout := by rw [hS.svc, e1]
  obtain ⟨st, es, d, _, he, ho⟩ := update_switch m2 hv2.sane hpend time reset hw
  obtain ⟨hd, hes, hrun⟩ := ho.allDone hasap hdone
  have hmem : ∀ s ∈ m.cur, ∀ ns : List String, (s.c ∈ ns.filterMap m.getControllerByName ↔ s.info.name ∈ ns) :=
    fun s hs ns => mem_resolved hv.names hv.objs hs ns
  have hc3 : m3.cur = m.cur := by rw [(update_cur hv2 time reset hw).1, hcur]
  have hs3 : m3.state = st := by show (m2.update time reset hw).state = st; rw [he]; rfl
  refine ⟨fun s hs hn => ?_, fun s hs hn hn' hmem3 => ?_, ?_⟩
  · refine List.mem_filter.2 ⟨hc3 ▸ hs, ?_⟩
    rw [hs3, hrun s.c (hstart ▸ (hmem s hs _).2 hn)]
    rfl
  · have h1 := (List.mem_filter.1 hmem3).2
    have hin : s.c ∉ m2.startReq := fun hc => hn' ((hmem s hs _).1 (hstart ▸ hc))
    have hst : s.c ∈ m2.stopReq := hstop ▸ (hmem s hs _).2 hn
    rw [hs3, show st s.c = m2.stopState s.c from ho.outside s.c hin, stopState] at h1
    by_cases h4 : m2.state s.c = .running <;> simp [hst, h4] at h1
  · have hsv3 : m3.svc = .switching .ret r.timeout := by rw [(update_cur hv2 time reset hw).2.2.1, hsvc]
    have hd3 : m3.params.doSwitch = false := by show (m2.update time reset hw).params.doSwitch = false; rw [he]; exact hd
    unfold poll
    rw [hsv3]
    simp only [hd3, Bool.and_false, Bool.false_eq_true, if_false]
    exact ⟨rfl, rfl⟩

/-- **C97, answers.** If a switch returns true after updates that may have been left by exceptions, but not while restarting
controllers, then it has been done: every controller to start runs or has been aborted, and no controller to stop runs. -/
theorem c97_answers {conf} {m : Mgr} (h : UReachable conf m) (hi : m.svc = .idle) (r : SwitchReq)
    (now : Int) (prepOk : Bool) (hacc : (m.switch conf r now prepOk).Switching) (ops : List XOp)
    (hops : ∀ op ∈ ops, op.isUpdate = true ∧ op.noRestart = true) {m2 : Mgr} (hm2 : m2 = (m.switch conf r now prepOk).xrun conf ops)
    (elapsed : Int) (hret : (m2.poll {} elapsed).trace = m2.trace ++ [.switchRet true]) :
    (∀ s ∈ m2.cur, s.info.name ∈ r.start → m2.state s.c = .running ∨ m2.state s.c = .aborted) ∧
    (∀ s ∈ m2.cur, s.info.name ∈ r.stop → s.info.name ∉ r.start → m2.state s.c ≠ .running) := by
  have hv : InvD True (fun _ => True) m := inv_idle (inv_uReachable (checkOk_true conf) h) hi
  have hv1 : InvD True (fun _ => True) (m.switch conf r now prepOk) := inv_step (checkOk_true conf) hv (.switch r now prepOk) trivial
  obtain ⟨hok, _⟩ := switch_accepted hv hi hacc
  have e1 := switch_accepted_eq (now := now) hv hi hok
  have hS := sameCall_xrun (checkOk_true conf) ops hv1 (fun op ho => (hops op ho).1) (fun _ op ho => (hops op ho).2)
  have hv2 := inv_xrun (checkOk_true conf) ops hv1 (fun op ho => XOp.rosUp_of_isUpdate (hops op ho).1)
    (fun _ op ho => (hops op ho).2)
  rw [← hm2] at hS hv2
  have hstart : m2.startReq = r.start.filterMap m.getControllerByName := by rw [hS.startReq, e1]
  have hstop : m2.stopReq = r.stop.filterMap m.getControllerByName := by rw [hS.stopReq, e1]
  have hcur : m2.cur = m.cur := by rw [hS.cur, e1]
  have hsvc : m2.svc = .switching .ret r.timeout := by rw [hS.svc, e1]
  have hmem : ∀ s ∈ m.cur, ∀ ns : List String, (s.c ∈ ns.filterMap m.getControllerByName ↔ s.info.name ∈ ns) :=
    fun s hs ns => mem_resolved hv.names hv.objs hs ns
  have hd : m2.params.doSwitch = false := by
    by_contra hne
    have hne : m2.params.doSwitch = true := by simpa using hne
    unfold poll at hret
    rw [hsvc] at hret
    simp only [hne, Bool.and_self, if_true, Bool.not_true, Bool.false_eq_true, if_false] at hret
    split at hret
    · have := congrArg List.length hret; simp at this
    · simp [emit, finish] at hret
  obtain ⟨_, h1, h2⟩ := hv2.done ⟨_, _, hsvc⟩ hd trivial
  rw [hcur]
  refine ⟨fun s hs hn => h1 s.c (hstart ▸ (hmem s hs _).2 hn), fun s hs hn hn' => h2 s.c (hstop ▸ (hmem s hs _).2 hn) ?_⟩
  exact fun hc => hn' ((hmem s hs _).1 (hstart ▸ hc))

/-- **C97, nothing else happens.** If no switch is pending and controllers are not restarted, an update that is left by an exception changes no
controller, no call and no request. -/
theorem c97_update_only {conf} {m : Mgr} (h : UReachable conf m) (u : Inter.Args) (k : Nat) (hd : m.params.doSwitch = false)
    (hr : u.reset = false) :
    let m' := m.updateThrows u k
    m'.state = m.state ∧ m'.cur = m.cur ∧ m'.svc = m.svc ∧ m'.startReq = m.startReq ∧ m'.stopReq = m.stopReq := by
  intro m'
  have hv : InvD False (fun _ => True) m := inv_uReachable (checkOk_true conf) h
  have hS := sameCall_throws hv u k
  refine ⟨?_, hS.cur, hS.svc, hS.startReq, hS.stopReq⟩
  show (m.updateThrows u k).state = _
  unfold updateThrows
  cases hi : Inter.into m u k with
  | none => rfl
  | some s =>
    dsimp only
    split
    · have hmid := Inter.mid_into hv u hi
      refine hmid.kept ?_ (Inter.not_restarting hr hi).2.1
      cases hq : Inter.inSwitch s.rt with
      | false => rfl
      | true => rw [hmid.sw hq] at hd; cases hd
    · rfl

/-- **C97, up to the exception.** What an update does before it is left by an exception is what the update would have done without it:
its callbacks and calls of the hardware are the first ones of those, and after the exception there are none. -/
theorem c97_prefix (m : Mgr) (u : Inter.Args) (k : Nat) :
    m.trace <+: (m.updateThrows u k).trace ∧ (m.updateThrows u k).trace <+: (m.update u.time u.reset u.hw).trace := by
  have h0 : m.trace <+: (m.update u.time u.reset u.hw).trace := by
    rw [← Inter.complete_read m u]; exact ext_complete _ m
  unfold updateThrows
  cases h : Inter.into m u k with
  | none => exact ⟨List.prefix_rfl, h0⟩
  | some s =>
    dsimp only
    split
    · obtain ⟨h1, h2⟩ := into_complete h
      refine ⟨(ext_into h).trans (ext_rtStep s u), ?_⟩
      show (Inter.rtStep s u).m.trace <+: _
      rw [← h2, ← Inter.complete_step s u h1]
      exact ext_complete _ _
    · exact ⟨List.prefix_rfl, h0⟩

/-- **C97, recovery.** After a switch that was left by an exception of `prepareSwitch` or `checkForConflict`, a switch that stops nothing
and is refused at once forgets what is left of the failed one: from then on everything is safe again. -/
theorem c97_recovery {m : Mgr} (h : UReachable checkForConflict m) (r : SwitchReq) (now : Int) (r2 : SwitchReq)
    (hstop : r2.stop = []) (now2 : Int) (prepOk : Bool) (ops : List XOp) (hops : ∀ op ∈ ops, op.rosUp ∧ op.inUpdates = true) :
    let m2 := (m.switchThrows checkForConflict r now).switch checkForConflict r2 now2 prepOk
    m2.svc = .idle →
    let m3 := m2.xrun checkForConflict ops
    m3.fault = false ∧ (m3.cur.map (·.info.name)).Nodup ∧ ConflictFree (m3.running.map (·.info)) := by
  intro m2 hi2 m3
  have hv : InvD False ConflictFree m := inv_uReachable checkOk_checkForConflict h
  suffices hv2 : InvD False ConflictFree m2 from safe_of_inv (inv_xrun checkOk_checkForConflict ops hv2 hops False.elim)
  by_cases hi : m.svc = .idle
  · have e1 : m.switchThrows checkForConflict r now = m.switchCoreThrows checkForConflict r now .ret := by
      simp [switchThrows, hi]
    cases hq : (m.switchCore checkForConflict r now true .ret).1 with
    | false =>
      have e2 : m.switchThrows checkForConflict r now = m.switch checkForConflict r now true := by
        rw [e1]
        unfold switchCoreThrows
        have : m.switchCore checkForConflict r now true .ret = (false, m.switch checkForConflict r now true) := by
          rw [← hq]; simp [switch, hi]
        rw [this]
      show InvD False ConflictFree ((m.switchThrows checkForConflict r now).switch checkForConflict r2 now2 prepOk)
      rw [e2]
      exact inv_step checkOk_checkForConflict (inv_step checkOk_checkForConflict hv (.switch r now true) trivial) (.switch r2 now2 prepOk) trivial
    | true =>
      obtain ⟨a, b, c, d, t, e2⟩ : ∃ a b c d t, m.switchThrows checkForConflict r now =
          { m with params := {}, startReq := a, stopReq := b, swStart := c, swStop := d, trace := t } := by
        rw [e1]
        unfold switchCoreThrows
        cases hx : m.switchCore checkForConflict r now true .ret with
        | mk x y =>
          rw [hx] at hq
          dsimp only at hq
          subst hq
          exact ⟨_, _, _, _, _, rfl⟩
      have e3 : m2 = ((m.switchThrows checkForConflict r now).switchCore checkForConflict r2 now2 prepOk .ret).2 := by
        show (m.switchThrows checkForConflict r now).switch checkForConflict r2 now2 prepOk = _
        rw [e2]; simp [switch, hi]
      have hfalse : ((m.switchThrows checkForConflict r now).switchCore checkForConflict r2 now2 prepOk .ret).1 = false := by
        by_contra hne
        have := switchCore_switches (by simpa using hne)
        rw [← e3] at this
        exact not_switching_of_idle hi2 this
      obtain ⟨a', b', t', e4⟩ := switchCore_clears hstop hfalse
      rw [e3, e4, e2]
      exact inv_cleared hv hi a' b' t'
  · have e1 : m.switchThrows checkForConflict r now = m := by simp [switchThrows, hi]
    have e2 : m2 = m := by
      show (m.switchThrows checkForConflict r now).switch checkForConflict r2 now2 prepOk = m
      rw [e1]; simp [switch, hi]
    rw [e2]; exact hv

/-- **C97, what a failed switch leaves behind.** A switch that is left by an exception of `prepareSwitch` changes no controller; but the next
switch that is accepted also does what the failed one asked for: after it runs exactly what one of the two was to start, and what ran
before and neither was to stop. -/
theorem c97_left_behind {conf} {m : Mgr} (h : UReachable conf m) (hi : m.svc = .idle) (r : SwitchReq) (now : Int)
    (hok : (m.switch conf r now true).Switching) :
    let m1 := m.switchThrows conf r now
    m1.listControllers = m.listControllers ∧ m1.svc = .idle ∧ m1.params.doSwitch = false ∧
    ∀ (r2 : SwitchReq) (now2 : Int) (prepOk : Bool), r2.asap = false → (m1.switch conf r2 now2 prepOk).Switching →
      ∀ (time : Int) (reset : Bool) (hw : HwReply), hw.first = .done →
      let m3 := (m1.switch conf r2 now2 prepOk).update time reset hw
      ∀ s ∈ m.cur, (s ∈ m3.running ↔
        s.info.name ∈ r.start ++ r2.start ∨ (s ∈ m.running ∧ s.info.name ∉ r.stop ++ r2.stop)) := by
  intro m1
  have hv : InvD False (fun _ => True) m := inv_uReachable (checkOk_true conf) h
  obtain ⟨c1, c2⟩ := hv.reqs (not_switching_of_idle hi)
  have hf : (m.switchCore conf r now true .ret).1 = true := by
    by_contra hne
    have hne : (m.switchCore conf r now true .ret).1 = false := by simpa using hne
    have e : m.switch conf r now true = (m.switchCore conf r now true .ret).2 := by simp [switch, hi]
    have := switchCore_false_svc hne
    rw [← e, hi] at this
    exact not_switching_of_idle this hok
  have e1 : m1 = m.switchCoreThrows conf r now .ret := by simp [m1, switchThrows, hi]
  obtain ⟨a1, a2, a3, a4, a5, a6⟩ := switchCoreThrows_sets c1 c2 hf
  rw [← e1] at a1 a2 a3 a4 a5 a6
  refine ⟨by unfold listControllers; rw [a3, a4], by rw [a5, hi], by rw [a6], ?_⟩
  intro r2 now2 prepOk hra hacc time reset hw hd
  exact left_behind hv a1 a2 a3 a4 (a5.trans hi) r2 hra now2 prepOk hacc time reset hw hd

/-- **C97, what a failed reload leaves behind.** A reload that kills controllers and is left by an exception of `prepareSwitch` has asked the
hardware to prepare stopping exactly the running controllers, and has changed no controller; but the next switch that is accepted
stops all controllers it does not start. Without controllers there is no such call, and nothing happens. -/
theorem c97_reload_left_behind {m : Mgr} (h : UReachable checkForConflict m) (hi : m.svc = .idle) (now : Int) :
    let m1 := m.reloadThrows checkForConflict now
    (m.cur = [] → m1 = m) ∧
    (m.cur ≠ [] → m1.trace = m.trace ++ [.prepareSwitch [] (m.running.map (·.info)) false] ∧
      m1.listControllers = m.listControllers ∧ m1.svc = .idle ∧ m1.params.doSwitch = false ∧
      ∀ (r2 : SwitchReq) (now2 : Int) (prepOk : Bool), r2.asap = false → (m1.switch checkForConflict r2 now2 prepOk).Switching →
        ∀ (time : Int) (reset : Bool) (hw : HwReply), hw.first = .done →
        let m3 := (m1.switch checkForConflict r2 now2 prepOk).update time reset hw
        ∀ s ∈ m.cur, (s ∈ m3.running ↔ s.info.name ∈ r2.start)) := by
  intro m1
  have hv : InvD False (fun _ => True) m := inv_uReachable (checkOk_true _) h
  obtain ⟨c1, c2⟩ := hv.reqs (not_switching_of_idle hi)
  refine ⟨fun hc => by simp [m1, reloadThrows, hi, getControllerNames, hc], fun hc => ?_⟩
  have e1 : m1 = m.switchCoreThrows checkForConflict ⟨[], m.getControllerNames, strictnessBestEffort, false, 0⟩ now
      (.reload m.getControllerNames) := by
    simp [m1, reloadThrows, hi, getControllerNames, hc]
  have hall : ∀ s ∈ m.cur, s.c ∈ m.getControllerNames.filterMap m.getControllerByName := fun s hs =>
    (mem_resolved hv.names hv.objs hs _).2 (List.mem_map_of_mem hs)
  have hinfos : (m.scanLists [] (m.getControllerNames.filterMap m.getControllerByName) m.cur) = ⟨[], m.running.map (·.info), []⟩ := by
    unfold scanLists Mgr.running
    congr 1
    · simp
    · congr 1
      apply List.filter_congr
      intro s hs
      simp [hall s hs, isRunning, CState.isRunning]
    · rw [List.map_eq_nil_iff, List.filter_eq_nil_iff]
      intro s hs
      simp [hall s hs]
  have hreq : m.okRequest checkForConflict ⟨[], m.getControllerNames, strictnessBestEffort, false, 0⟩ true := by
    refine ⟨fun hs => by simp [strictOf, strictnessBestEffort, strictnessStrict] at hs, ?_, ?_, rfl⟩
    · intro s _ hb
      simp [badEntry, strictOf, strictnessBestEffort, strictnessStrict] at hb
    · show checkForConflict (m.scanLists [] (m.getControllerNames.filterMap m.getControllerByName) m.cur).infos = false
      rw [hinfos]; rfl
  have hcore := switchCore_accept checkForConflict m _ now true (.reload m.getControllerNames) c1 c2 hreq
  have hf := congrArg Prod.fst hcore
  have htr : m1.trace = m.trace ++ [.prepareSwitch [] (m.running.map (·.info)) false] := by
    rw [e1]
    unfold switchCoreThrows
    rw [hcore]
    dsimp only
    rw [List.filterMap_nil, hinfos]
  obtain ⟨a1, a2, a3, a4, a5, a6⟩ := switchCoreThrows_sets c1 c2 hf
  rw [← e1] at a1 a2 a3 a4 a5 a6
  refine ⟨htr, by unfold listControllers; rw [a3, a4], by rw [a5, hi], by rw [a6], ?_⟩
  intro r2 now2 prepOk hra hacc time reset hw hd m3 s hs
  rw [left_behind hv a1 a2 a3 a4 (a5.trans hi) r2 hra now2 prepOk hacc time reset hw hd s hs]
  simp [getControllerNames, List.mem_map_of_mem (f := fun s : CtrlSpec => s.info.name) hs]

namespace Ex

/-- A history of a fresh manager with exceptions. -/
def afterX (ops : List XOp) : Mgr := Mgr.init.xrun checkForConflict ops

/-- "a" runs; a switch that stops it and starts "b" and "c" is accepted. -/
def starting2 : List XOp := (three ++ switchOf ["a"] [] ++ [Op.switch ⟨["b", "c"], ["a"], 2, false, 0⟩ 0 true]).map .op

/-- An update, hardware done. -/
def args : Inter.Args := ⟨0, false, hw .done⟩

/-- An update in which controllers are restarted. -/
def resetArgs : Inter.Args := ⟨0, true, hw .done⟩

/-- `prepareSwitch` throws when asked to start "b". -/
def failed : List XOp := three.map .op ++ [.switchThrows ⟨["b"], [], 2, false, 0⟩ 0]

theorem rosUp_starting2 : ∀ op ∈ starting2, op.rosUp ∧ op.inUpdates = true := by
  simp [starting2, switchOf, three, loadOf, Op.rosUp, tick, wait, XOp.rosUp, XOp.inUpdates]

theorem ureachable_afterX {ops : List XOp} (h : ∀ op ∈ ops, op.rosUp ∧ op.inUpdates = true) : UReachable checkForConflict (afterX ops) :=
  ⟨ops, h, rfl⟩

end Ex

/-- `starting()` of "c" throws: "b" runs already, "a" is stopped, the switch is still pending. The hypotheses of `c97_safety_partial`,
`c97_switch_goes_on` and `c97_answers` hold. -/
example : let m := Ex.afterX (Ex.starting2 ++ [.updateThrows Ex.args 10])
    UReachable checkForConflict m ∧ m.running.map (·.info.name) = ["b"] ∧ m.params.doSwitch = true ∧ m.svc = .switching .ret 0 ∧
    (m.update 0 false (Ex.hw .done)).running.map (·.info.name) = ["b", "c"] ∧
    ((m.update 0 false (Ex.hw .done)).poll {} 0).trace = (m.update 0 false (Ex.hw .done)).trace ++ [.switchRet true] := by
  refine ⟨Ex.ureachable_afterX ?_, by decide⟩
  intro op ho
  rcases List.mem_append.1 ho with ho | ho
  · exact Ex.rosUp_starting2 op ho
  · simp at ho; subst ho; exact ⟨trivial, rfl⟩

/-- `update()` of the first running controller throws: the second one misses this update (`c97_prefix`, `c97_update_only`). -/
example : let m := Ex.after Ex.running
    (m.updateThrows Ex.args 1).trace = m.trace ++ [.cb 0 .update] ∧
    (m.update 0 false (Ex.hw .done)).trace = m.trace ++ [.cb 0 .update, .cb 2 .update] ∧
    (m.updateThrows Ex.args 1).running = m.running := by decide

/-- After `prepareSwitch` has thrown, a request to start an unknown controller is refused and clears what was left (`c97_recovery`). -/
example : (Ex.afterX Ex.failed).startReq = [1] ∧
    (let m2 := (Ex.afterX Ex.failed).switch checkForConflict ⟨["nobody"], [], 2, false, 0⟩ 0 true
     m2.svc = .idle ∧ m2.startReq = []) := by decide

/-- "a" and "c" run; a reload that kills controllers is left by an exception. Then "b" is started, and "a" and "c" are stopped, though nobody
asked for that after the reload had failed (`c97_reload_left_behind`). -/
example : let m := Ex.after Ex.running
    let m1 := m.reloadThrows checkForConflict 0
    m.running.map (·.info.name) = ["a", "c"] ∧ m1.running = m.running ∧ m1.trace.length = m.trace.length + 1 ∧
    ((m1.switch checkForConflict ⟨["b"], [], 1, false, 0⟩ 0 true).update 0 false (Ex.hw .done)).running.map (·.info.name) = ["b"] := by
  decide

/-- "b" is to be started, which is left by an exception; then "c" is started, and "b" too (`c97_left_behind`). -/
example : let m := Ex.after Ex.three
    let m1 := m.switchThrows checkForConflict ⟨["b"], [], 2, false, 0⟩ 0
    (m.switch checkForConflict ⟨["b"], [], 2, false, 0⟩ 0 true).svc ≠ .idle ∧
    ((m1.switch checkForConflict ⟨["c"], [], 2, false, 0⟩ 0 true).update 0 false (Ex.hw .done)).running.map (·.info.name) = ["b", "c"] := by
  decide

/-! ### What exceptions break -/

/-- **C97 fails: twice.** If `starting()` of one controller throws, the controllers before it are started again by the next update though
they are running; if `doSwitch` throws, it is called again. -/
theorem c97_twice_negation :
    (∃ (m : Mgr) (c : CId) (pre post : List Event), UReachable checkForConflict m ∧
      m.trace = pre ++ [.cb c .starting] ++ post ∧ .cb c .starting ∈ post ∧ .cb c .stopping ∉ post) ∧
    (∃ (m : Mgr) (a b : List ControllerInfo) (pre post : List Event), UReachable checkForConflict m ∧
      m.trace = pre ++ [.doSwitch a b] ++ post ∧ .doSwitch a b ∈ post ∧ ∀ a' b', .accepted a' b' ∉ post) := by
  have hr : ∀ k, ∀ op ∈ Ex.starting2 ++ [.updateThrows Ex.args k, .op Ex.tick], op.rosUp ∧ op.inUpdates = true := by
    intro k op ho
    rcases List.mem_append.1 ho with ho | ho
    · exact Ex.rosUp_starting2 op ho
    · simp at ho; rcases ho with rfl | rfl <;> exact ⟨trivial, rfl⟩
  refine ⟨⟨Ex.afterX (Ex.starting2 ++ [.updateThrows Ex.args 10, .op Ex.tick]), 1,
      (Ex.afterX (Ex.starting2 ++ [.updateThrows Ex.args 10, .op Ex.tick])).trace.take 13,
      (Ex.afterX (Ex.starting2 ++ [.updateThrows Ex.args 10, .op Ex.tick])).trace.drop 14, Ex.ureachable_afterX (hr 10), by decide,
      by decide, by decide⟩,
    ⟨Ex.afterX (Ex.starting2 ++ [.updateThrows Ex.args 5, .op Ex.tick]), [⟨"b", "T", [⟨"Pos", ["j1"]⟩]⟩, ⟨"c", "T", [⟨"Pos", ["j2"]⟩]⟩],
      [⟨"a", "T", [⟨"Pos", ["j1"]⟩]⟩],
      (Ex.afterX (Ex.starting2 ++ [.updateThrows Ex.args 5, .op Ex.tick])).trace.take 11,
      (Ex.afterX (Ex.starting2 ++ [.updateThrows Ex.args 5, .op Ex.tick])).trace.drop 12, Ex.ureachable_afterX (hr 5), by decide,
      by decide, ?_⟩⟩
  intro a' b' hm
  have hall : ((Ex.afterX (Ex.starting2 ++ [.updateThrows Ex.args 5, .op Ex.tick])).trace.drop 12).all
      (fun e => match e with | .accepted _ _ => false | _ => true) = true := by decide
  exact absurd (List.all_eq_true.1 hall _ hm) (by simp)

/-- Updates without restarts and without a pending switch keep all states. -/
theorem updates_keep {m : Mgr} (hd : m.params.doSwitch = false) : ∀ n : Nat,
    ((List.replicate n Ex.tick).foldl (Mgr.step checkForConflict) m).state = m.state ∧
    ((List.replicate n Ex.tick).foldl (Mgr.step checkForConflict) m).cur = m.cur ∧
    ((List.replicate n Ex.tick).foldl (Mgr.step checkForConflict) m).params = m.params
  | 0 => ⟨rfl, rfl, rfl⟩
  | n + 1 => by
    rw [List.replicate_succ', List.foldl_append]
    obtain ⟨h1, h2, h3⟩ := updates_keep hd n
    generalize (List.replicate n Ex.tick).foldl (Mgr.step checkForConflict) m = m' at *
    show (m'.update 0 false (Ex.hw .done)).state = _ ∧ (m'.update 0 false (Ex.hw .done)).cur = _ ∧
      (m'.update 0 false (Ex.hw .done)).params = _
    rw [update_idle m' (h3 ▸ hd)]
    exact ⟨h1, h2, h3⟩

/-- **C97 fails: restarts.** If `starting()` throws while controllers are restarted, the controller is stopped though nobody asked for that,
and stays stopped however many updates follow; and a switch that was to start it may nevertheless be answered with true. -/
theorem c97_restart_negation :
    (∃ m : Mgr, UReachable checkForConflict m ∧ "a" ∈ m.running.map (·.info.name) ∧ m.svc = .idle ∧ ∀ n : Nat,
      "a" ∉ ((List.replicate n Ex.tick).foldl (Mgr.step checkForConflict) (m.updateThrows Ex.resetArgs 2)).running.map (·.info.name)) ∧
    (∃ m : Mgr, UReachable checkForConflict m ∧ m.svc = .idle ∧
      let m1 := m.switch checkForConflict ⟨["a"], [], 2, false, 0⟩ 0 true
      let m2 := (m1.update 0 false (Ex.hw .done)).updateThrows Ex.resetArgs 2
      (m2.poll {} 0).trace = m2.trace ++ [.switchRet true] ∧ m2.state 0 = .stopped ∧ m.getControllerByName "a" = some 0) := by
  refine ⟨⟨Ex.after Ex.running, ureachable_of_reachable (Ex.reachable_after Ex.rosUp_running), by decide, by decide, fun n => ?_⟩,
    ⟨Ex.after Ex.three, ureachable_of_reachable (Ex.reachable_after Ex.rosUp_three), by decide⟩⟩
  obtain ⟨h1, h2, _⟩ := updates_keep (m := (Ex.after Ex.running).updateThrows Ex.resetArgs 2) (by decide) n
  unfold Mgr.running
  rw [h1, h2]
  decide

/-- **C97 fails: `prepareSwitch`.** If `prepareSwitch` throws, the next switch also does what the failed one asked for; and if the
controller is unloaded in between, it is used after it is gone. -/
theorem c97_prepare_negation :
    (∃ m : Mgr, XReachable checkForConflict m ∧ m.svc = .idle ∧
      ((m.switch checkForConflict ⟨["c"], [], 2, false, 0⟩ 0 true).update 0 false (Ex.hw .done)).running.map (·.info.name) = ["b", "c"] ∧
      m.running = []) ∧
    ¬ SafeWithExceptions checkForConflict := by
  have hr : ∀ op ∈ Ex.failed, op.rosUp := by
    simp [Ex.failed, Ex.three, Ex.loadOf, Op.rosUp, Ex.tick, Ex.wait, XOp.rosUp]
  refine ⟨⟨Ex.afterX Ex.failed, ⟨Ex.failed, hr, rfl⟩, by decide⟩, fun h => ?_⟩
  have := h (Ex.afterX (Ex.failed ++ ([.unload "b", Ex.tick, Ex.wait, .switch ⟨["c"], [], 2, false, 0⟩ 0 true, Ex.tick] : List Op).map .op))
    ⟨_, by
      intro op ho
      rcases List.mem_append.1 ho with ho | ho
      · exact hr op ho
      · simp at ho; rcases ho with rfl | rfl | rfl | rfl | rfl <;> simp [XOp.rosUp, Op.rosUp, Ex.tick, Ex.wait], rfl⟩
  revert this
  decide

end Verif
