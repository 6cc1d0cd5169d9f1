import Verif.Lemmas.ThreadsInterleavedCalls
import Verif.Props.Threads
import Verif.Props.Interleaved

/-!
# C107: several threads call the controller manager while the realtime thread is in the middle of an update
-/

namespace Verif.ThrInt

open Mgr Thr Spec

/-- The execution is linked to one in which updates are not interrupted. -/
theorem linked {conf : List ControllerInfo → Bool} {pre : List ThrOp} {steps : List Step} (h : Allowed pre steps)
    (hu : (after conf pre).mgr.used ≠ none) : ∃ (D : Bool) (ops : List ThrOp), ops.filter ThrOp.ofThread = threadOps steps ∧
      (∀ op ∈ pre ++ ops, Fine D op) ∧ Link ((start (after conf pre)).run conf steps) (after conf (pre ++ ops)) ∧
      (∀ t, Thr.calls conf t (after conf pre) ops = calls conf t (start (after conf pre)) steps) ∧
      (∀ op ∈ pre, Fine D op) ∧ ∀ op ∈ threadOps steps, Fine D op := by
  obtain ⟨D, hD⟩ : ∃ D : Bool, ∀ op ∈ pre ++ threadOps steps, Fine D op := by
    rcases h.services with hs | hs
    · exact ⟨false, fun op ho => ⟨h.ros op ho, h.patient op ho, hs op ho⟩⟩
    · exact ⟨true, fun op ho => ⟨h.ros op ho, h.patient op ho, hs op ho⟩⟩
  have hp : ∀ op ∈ pre, Fine D op := fun op ho => hD op (List.mem_append_left _ ho)
  have ht : ∀ op ∈ threadOps steps, Fine D op := fun op ho => hD op (List.mem_append_right _ ho)
  obtain ⟨ops, h1, h2, h3, h4⟩ := link_run hp (link_start hp hu) steps ht h.resets
  exact ⟨D, ops, h1, fun op ho => (List.mem_append.1 ho).elim (hp op) (h2 op), h3, h4, hp, ht⟩

/-- **C107.** However the steps of threads that use the services and those of updates are interleaved: when no update is in
progress, everything is as in a history in which the threads make the same steps in the same order and no update is
interrupted. The threads are in the same places, hold the same locks and have got the same answers; the manager is in the
same state, and the same transitions and the same answers have been seen, each in the same order. -/
theorem c107_atomic {conf : List ControllerInfo → Bool} {pre : List ThrOp} {steps : List Step} (h : Allowed pre steps)
    (hu : (after conf pre).mgr.used ≠ none) (hi : ((start (after conf pre)).run conf steps).rt = .idle) :
    ∃ ops : List ThrOp, ops.filter ThrOp.ofThread = threadOps steps ∧
      Agree ((start (after conf pre)).run conf steps).s (after conf (pre ++ ops)) := by
  obtain ⟨D, ops, h1, _, h3, _⟩ := linked h hu
  exact ⟨ops, h1, link_agree h3 hi⟩

/-- **C107, one thread.** And it is as if one thread had made all calls, one after the other, between updates: same
controllers in the same order, same states, same transitions and same answers, each in the same order. -/
theorem c107_one_thread {conf : List ControllerInfo → Bool} {pre : List ThrOp} {steps : List Step} (h : Allowed pre steps)
    (hu : (after conf pre).mgr.used ≠ none) (hi : ((start (after conf pre)).run conf steps).rt = .idle) :
    let s := ((start (after conf pre)).run conf steps).s
    ∃ m, Reachable conf m ∧ m.cur = s.mgr.cur ∧ m.state = s.mgr.state ∧
      transitions m.trace = transitions s.mgr.trace ∧ answers m.trace = answers s.mgr.trace := by
  intro s
  obtain ⟨D, ops, h1, h2, h3, _⟩ := linked h hu
  have g := link_agree h3 hi
  have hs : (∀ op ∈ pre ++ ops, op.service) ∨ ∀ op ∈ pre ++ ops, op.mild := by
    cases D
    · exact Or.inl fun op ho => (h2 op ho).2.2
    · exact Or.inr fun op ho => (h2 op ho).2.2
  obtain ⟨m, k1, k2, k3, k4⟩ := c94_services_partial conf (pre ++ ops) (fun op ho => (h2 op ho).1)
    (fun op ho => (h2 op ho).2.1) hs
  exact ⟨m, k1, k3.trans g.mgr.cur, k4.trans g.mgr.state, by rw [k2]; exact g.mgr.transitions, by rw [k2]; exact g.mgr.answers⟩

/-- **C107, at every moment.** Also in the middle of an update: no destroyed controller has been touched, the running controllers
claim no resource twice, at most one thread is in a service, at most one waits for the realtime thread, and the
assertion before reloading the libraries has not failed. -/
theorem c107_safety {pre : List ThrOp} {steps : List Step} (h : Allowed pre steps)
    (hu : (after checkForConflict pre).mgr.used ≠ none) :
    let s := ((start (after checkForConflict pre)).run checkForConflict steps).s
    s.mgr.fault = false ∧ ConflictFree (s.mgr.running.map (·.info)) ∧
      (∀ t t', InService (s.pos t) = true → InService (s.pos t') = true → t = t') ∧
      (∀ t t', Inside (s.pos t) = true → Inside (s.pos t') = true → t = t') ∧ s.assertFailed = false := by
  intro s
  obtain ⟨D, ops, h1, h2, h3, _⟩ := linked h hu
  have g := good_fine (conf := checkForConflict) h2
  have i := good_inv checkOk_checkForConflict g
  have hl : Locks s := locks_link g.locks h3
  refine ⟨Inter.rel_fault checkOk_checkForConflict.mono i h3.rel, ?_, fun t t' e e' => ?_, fun t t' e e' => ?_, ?_⟩
  · have := Inter.rel_free checkOk_checkForConflict.mono i h3.rel
    unfold runningInfos at this
    unfold Mgr.running
    simpa [Mgr.isRunning, CState.isRunning] using this
  · have e1 := (hl.srv t).2 e
    rw [(hl.srv t').2 e'] at e1
    cases e1; rfl
  · have e1 := (hl.ctrl t).2 e
    rw [(hl.ctrl t').2 e'] at e1
    cases e1; rfl
  · have : s.assertFailed = (after checkForConflict (pre ++ ops)).assertFailed := by
      show ((start (after checkForConflict pre)).run checkForConflict steps).s.assertFailed = _
      rw [h3.eq]
    rw [this]
    exact g.noAssert

/-- **C107, libraries.** When no update is in progress, every loaded controller has been created since the libraries were last
reloaded. -/
theorem c107_libraries {conf : List ControllerInfo → Bool} {pre : List ThrOp} {steps : List Step} (h : Allowed pre steps)
    (hu : (after conf pre).mgr.used ≠ none) (hi : ((start (after conf pre)).run conf steps).rt = .idle) :
    let s := ((start (after conf pre)).run conf steps).s
    ∀ x ∈ s.mgr.cur, s.made x.c = s.generation := by
  intro s
  obtain ⟨D, ops, h1, h2, h3, _⟩ := linked h hu
  have g := link_agree h3 hi
  have hs : (∀ op ∈ pre ++ ops, op.service) ∨ ∀ op ∈ pre ++ ops, op.mild := by
    cases D
    · exact Or.inl fun op ho => (h2 op ho).2.2
    · exact Or.inr fun op ho => (h2 op ho).2.2
  intro x hx
  have := (c94_libraries_partial conf (pre ++ ops) (fun op ho => (h2 op ho).1) hs).2 x (by rw [g.mgr.cur]; exact hx)
  rw [g.made, g.generation] at this
  exact this

/-- **C107, answers.** At every moment each thread has got the answers to its own calls, in order: one that is not busy has
got one to each, a busy one has got one to each but the last. -/
theorem c107_answers {conf : List ControllerInfo → Bool} {pre : List ThrOp} {steps : List Step} (h : Allowed pre steps)
    (hu : (after conf pre).mgr.used ≠ none) (t : Tid) :
    let s := ((start (after conf pre)).run conf steps).s
    let cs := Thr.calls conf t {} pre ++ calls conf t (start (after conf pre)) steps
    (¬ Busy s t → List.Forall₂ (fun c a => Fits c a = true) cs (answersOf s t)) ∧
    (Busy s t → ∃ don c, cs = don ++ [c] ∧ List.Forall₂ (fun c a => Fits c a = true) don (answersOf s t)) := by
  intro s cs
  obtain ⟨D, ops, h1, h2, h3, h4, _⟩ := linked h hu
  have e : s = { after conf (pre ++ ops) with mgr := s.mgr } := h3.eq
  have e1 : Thr.calls conf t {} (pre ++ ops) = cs := by
    rw [calls_append]
    exact congrArg _ (h4 t)
  have e2 : answersOf s t = answersOf (after conf (pre ++ ops)) t := by rw [e]; rfl
  have e3 : Busy s t ↔ Busy (after conf (pre ++ ops)) t := by
    unfold Busy
    rw [e]
  have := c94_answers conf (pre ++ ops) t
  rw [e1, ← e2, ← e3] at this
  exact this

/-- **C107, calls.** Whatever the threads do during an update, the update calls `update()` once on each controller that was
running when it began, in the order of the list, and on no other controller. -/
theorem c107_calls {conf : List ControllerInfo → Bool} {pre : List ThrOp} {steps more : List Step} {u : Inter.Args}
    (h : Allowed pre (steps ++ .rt u :: more)) (hu : (after conf pre).mgr.used ≠ none)
    (hi : ((start (after conf pre)).run conf steps).rt = .idle)
    (he : Ends conf (((start (after conf pre)).run conf steps).step conf (.rt u)) more) :
    Inter.updateCalls ((start (after conf pre)).run conf (steps ++ .rt u :: more)).s.mgr.trace =
      Inter.updateCalls ((start (after conf pre)).run conf steps).s.mgr.trace ++
        ((start (after conf pre)).run conf steps).s.mgr.running.map fun s => .cb s.c .update := by
  obtain ⟨D, _, _, _, _, _, hp, ht⟩ := linked h hu
  have hsplit : threadOps (steps ++ .rt u :: more) = threadOps (steps ++ [.rt u]) ++ threadOps more := by
    unfold threadOps
    rw [← List.filterMap_append]
    simp
  rw [hsplit] at ht
  obtain ⟨ops, _, k2, k3, _⟩ := link_run hp (link_start hp hu) (steps ++ [.rt u])
    (fun op ho => ht op (List.mem_append_left _ ho)) (fun o ho => h.resets o (by
      rcases List.mem_append.1 ho with ho | ho
      · exact List.mem_append_left _ ho
      · simp at ho; simp [ho]))
  rw [run_steps_append] at k3 ⊢
  generalize (start (after conf pre)).run conf steps = x at *
  have pr : Inter.Progress x.s.mgr.cur x.s.mgr.isRunning (Inter.updateCalls x.s.mgr.trace)
      ⟨(x.step conf (.rt u)).s.mgr, (x.step conf (.rt u)).rt⟩ := by
    obtain ⟨s, rt⟩ := x
    simp only at hi
    subst hi
    exact ⟨rfl, by simp [Inter.list, St.step, Inter.rtStep], fun _ _ => rfl⟩
  have k3' : Link (x.step conf (.rt u)) _ := k3
  show Inter.updateCalls ((x.step conf (.rt u)).run conf more).s.mgr.trace = _
  rw [progress_steps (fun op ho => (List.mem_append.1 ho).elim (hp op) (k2 op)) k3' pr more
    (fun op ho => ht op (List.mem_append_right _ ho)) (fun o ho => h.resets o (by simp [ho])) he]
  rfl

/-- **C107, progress.** At every moment, also in the middle of an update, all calls can be brought to an end by going on: by
steps of the threads and steps of the realtime thread (with hardware that comes to a result). -/
theorem c107_progress {conf : List ControllerInfo → Bool} {pre : List ThrOp} {steps : List Step} (h : Allowed pre steps)
    (hu : (after conf pre).mgr.used ≠ none) {hw : HwReply} (hs : Settled hw) :
    ∃ more : List Step, (∀ o ∈ more, (∃ t, o = .go t {} 0) ∨ o = .rt ⟨0, false, hw⟩) ∧
      ((start (after conf pre)).run conf (steps ++ more)).rt = .idle ∧
      ∀ t, ¬ Busy ((start (after conf pre)).run conf (steps ++ more)).s t := by
  obtain ⟨D, ops, _, h2, h3, _⟩ := linked h hu
  obtain ⟨more, k1, k2, k3⟩ := fin_all h2 h3 hs
  exact ⟨more, k1, by rw [run_steps_append]; exact k2, by rw [run_steps_append]; exact k3⟩

/-! ### Executions -/

/-- A step of the realtime thread; the hardware reports that switches are done. -/
def rt : Step := .rt ⟨0, false, Ex.hw .done⟩

/-- A step of a thread. -/
def go (t : Tid) : Step := .go t {} 0

/-- Before: thread 0 has loaded "a" and "c". -/
def before : List ThrOp := exLoads true

/-- Thread 0 switches "a" on while thread 1 loads "d" and thread 2 asks for the names. The realtime thread is in the middle
of an update when the switch is requested and when "d" gets into the list. -/
def busy : List Step :=
  [.call 0 true (exStart "a"), rt, go 0, go 0, rt, .call 1 true (.load "d" (Ex.env ["j3"])), go 0, rt, go 1, go 0, rt, rt, go 0, rt] ++
    List.replicate 4 rt ++ [go 1, .call 2 true .names, rt, go 0, go 1, rt, rt, go 1, rt, go 1, rt, rt, rt, rt, rt, rt, go 1, go 2, go 2] ++
    List.replicate 3 rt

theorem busy_allowed : Allowed before busy := by
  refine ⟨?_, ?_, Or.inl ?_, ?_⟩
  · simp [before, busy, threadOps, Step.op, exLoads, exGo, exTick, ThrOp.rosUp, rt, go, or_imp, forall_and]
  · simp [before, busy, threadOps, Step.op, exLoads, exGo, exTick, exStart, ThrOp.noTimeout, rt, go, or_imp, forall_and]
  · simp [before, busy, threadOps, Step.op, exLoads, exGo, exTick, ThrOp.service, rt, go, or_imp, forall_and]
  · simp [busy, Step.noReset, rt, go]

/-- Thread 1 reloads the libraries; the realtime thread is in the middle of updates all the time. Then thread 0 loads "e". -/
def reloading : List Step :=
  [.call 1 true (.reload true 0 true), rt, go 1, go 1, go 1, rt, go 1] ++ List.replicate 9 rt ++ [go 1, rt, go 1] ++
    List.replicate 9 rt ++ [go 1, rt, go 1] ++ List.replicate 9 rt ++ [go 1, go 1, rt, go 1,
    .call 0 true (.load "e" (Ex.env ["j1"])), go 0, go 0] ++ List.replicate 9 rt ++ [go 0] ++ List.replicate 3 rt

/-- Two threads switch directly. The second clears the parameters of the first (440) while the realtime thread is about to
start the controller of the first. -/
def direct : List Step :=
  [.call 0 false (exStart "a"), go 0, go 0, go 0] ++ List.replicate 8 rt ++ [.call 1 false (exStart "c"), go 1, go 1, go 0]

theorem reloading_allowed : Allowed before reloading := by
  refine ⟨?_, ?_, Or.inl ?_, ?_⟩
  · simp [before, reloading, threadOps, Step.op, exLoads, exGo, exTick, ThrOp.rosUp, rt, go, or_imp, forall_and]
  · simp [before, reloading, threadOps, Step.op, exLoads, exGo, exTick, ThrOp.noTimeout, rt, go, or_imp, forall_and]
  · simp [before, reloading, threadOps, Step.op, exLoads, exGo, exTick, ThrOp.service, rt, go, or_imp, forall_and]
  · simp [reloading, Step.noReset, rt, go]

/-- The first execution meets the conditions of the theorems. In its middle thread 0 waits for the realtime thread, thread 1
waits for the lock of the services, and the realtime thread is about to start "a". -/
example : Allowed before busy ∧ (after checkForConflict before).mgr.used ≠ none ∧
    ((start (after checkForConflict before)).run checkForConflict busy).rt = .idle ∧
    ((start (after checkForConflict before)).run checkForConflict busy).s.answers =
      [(0, .ret (.loadRet "a" true)), (0, .ret (.loadRet "c" true)), (0, .ret (.switchRet true)), (1, .ret (.loadRet "d" true)),
        (2, .names ["a", "c", "d"])] ∧
    ((start (after checkForConflict before)).run checkForConflict busy).s.mgr.running.map (·.info.name) = ["a"] :=
  ⟨busy_allowed, by decide, by decide +kernel, by decide +kernel, by decide +kernel⟩

example : let x := (start (after checkForConflict before)).run checkForConflict (busy.take 16)
    Inside (x.s.pos 0) = true ∧ (∃ c, x.s.pos 1 = .atServices c) ∧ (∃ u l, x.rt = .starting u l) ∧ x.s.mgr.running = [] :=
  ⟨by decide +kernel, ⟨_, rfl⟩, ⟨_, _, rfl⟩, by decide +kernel⟩

/-- In this execution an update begins with step 20 and ends with step 29. Only "a" is running when it begins; thread 0
gets its answer and thread 1 loads "d" in the middle. -/
example : let x := (start (after checkForConflict before)).run checkForConflict (busy.take 20)
    busy.take 30 = busy.take 20 ++ rt :: (busy.drop 21).take 9 ∧ x.rt = .idle ∧
    Ends checkForConflict (x.step checkForConflict rt) ((busy.drop 21).take 9) ∧
    x.s.mgr.running.map (·.info.name) = ["a"] := by
  refine ⟨rfl, by decide +kernel, ?_, by decide +kernel⟩
  simp only [busy, List.take, List.drop, List.cons_append, List.nil_append, List.replicate, Ends]
  refine ⟨?_, ?_, ?_, ?_, ?_, ?_, ?_, ?_, ?_, ?_⟩ <;> decide +kernel

/-- The second execution meets the conditions; the libraries have been reloaded, and "e" is from the new ones. -/
example : Allowed before reloading ∧
    ((start (after checkForConflict before)).run checkForConflict reloading).rt = .idle ∧
    ((start (after checkForConflict before)).run checkForConflict reloading).s.generation = 1 ∧
    ((start (after checkForConflict before)).run checkForConflict reloading).s.mgr.cur.map (·.info.name) = ["e"] ∧
    ((start (after checkForConflict before)).run checkForConflict reloading).s.mgr.cur.map
      (fun x => ((start (after checkForConflict before)).run checkForConflict reloading).s.made x.c) = [1] :=
  ⟨reloading_allowed, by decide +kernel, by decide +kernel, by decide +kernel, by decide +kernel⟩

/-- **C107 needs the services.** If two threads switch directly, the first is told that "a" has been started while the realtime
thread has not yet started it. Here this takes no more than the realtime thread being interrupted between two steps. -/
theorem c107_direct_negation :
    let x := (start (after checkForConflict before)).run checkForConflict direct
    (∀ op ∈ threadOps direct, op.rosUp) ∧ (∀ op ∈ threadOps direct, op.noTimeout) ∧ (∀ o ∈ direct, o.noReset) ∧
    x.s.answers.getLast? = some (0, .ret (.switchRet true)) ∧ x.s.mgr.running = [] ∧
    (x.step checkForConflict rt).s.mgr.running.map (·.info.name) = ["a"] := by
  refine ⟨?_, ?_, ?_, by decide +kernel, by decide +kernel, by decide +kernel⟩
  · simp [direct, threadOps, Step.op, ThrOp.rosUp, rt, go, or_imp, forall_and]
  · simp [direct, threadOps, Step.op, exStart, ThrOp.noTimeout, rt, go, or_imp, forall_and]
  · simp [direct, Step.noReset, rt, go]

end Verif.ThrInt
