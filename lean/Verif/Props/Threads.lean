import Verif.Lemmas.ThreadsCalls
import Verif.Props.ManagerSafety
import Verif.Props.ManagerSwitchRun
import Verif.Examples.ManagerWorld

/-!
# C94: calls of the controller manager by several threads
-/

namespace Verif

namespace Thr

open Mgr Spec

/-! ### In any history -/

/-- **C94, exclusion.** Whatever threads call and however: at most one of them is in a service, and at most one waits for the
realtime thread. -/
theorem c94_exclusion (conf : List ControllerInfo → Bool) (ops : List ThrOp) {t t' : Tid} :
    (InService ((after conf ops).pos t) = true → InService ((after conf ops).pos t') = true → t = t') ∧
    (Inside ((after conf ops).pos t) = true → Inside ((after conf ops).pos t') = true → t = t') := by
  have h := locks_after conf ops
  refine ⟨fun h1 h2 => ?_, fun h1 h2 => ?_⟩
  · have e1 := (h.srv t).2 h1
    rw [(h.srv t').2 h2] at e1
    cases e1; rfl
  · have e1 := (h.ctrl t).2 h1
    rw [(h.ctrl t').2 h2] at e1
    cases e1; rfl

/-- **C94, the lock protects.** While a thread waits for the realtime thread, the steps of other threads change neither the
list of controllers nor their states nor the requests. -/
theorem c94_protected {conf : List ControllerInfo → Bool} {ops : List ThrOp} {t t' : Tid} (hne : t' ≠ t)
    (hi : Inside ((after conf ops).pos t) = true) (ok : RosOk) (el : Int) :
    let s := after conf ops
    let s' := after conf (ops ++ [.go t' ok el])
    s'.mgr.cur = s.mgr.cur ∧ s'.mgr.oth = s.mgr.oth ∧ s'.mgr.state = s.mgr.state ∧ s'.mgr.startReq = s.mgr.startReq ∧
      s'.mgr.stopReq = s.mgr.stopReq ∧ s'.mgr.svc = s.mgr.svc := by
  intro s s'
  have hl := locks_after conf ops
  have hc : s.controllers = some t := (hl.ctrl t).2 hi
  have hin : Inside (s.pos t') = false := by
    by_contra hh
    have := (hl.ctrl t').2 (by simpa using hh)
    rw [show (after conf ops).controllers = some t from hc] at this
    cases this
    exact hne rfl
  have e : s' = (s.go conf t' ok el).getD s := run_concat conf {} ops (.go t' ok el)
  rw [e]
  generalize s = s at hc hin
  cases hg : s.go conf t' ok el with
  | none => exact ⟨rfl, rfl, rfl, rfl, rfl, rfl⟩
  | some s2 =>
    show s2.mgr.cur = _ ∧ _
    unfold St.go at hg
    rw [hc] at hg
    simp only [ne_eq, reduceCtorEq, not_false_eq_true, if_true] at hg
    split at hg <;> (try cases hg) <;> (try exact ⟨rfl, rfl, rfl, rfl, rfl, rfl⟩)
    · split at hg <;> cases hg
      exact ⟨rfl, rfl, rfl, rfl, rfl, rfl⟩
    · rename_i hpos
      rw [hpos] at hin
      cases hin

/-- **C94, progress.** Whatever threads have called and however, all calls can be brought to an end: the threads that wait
for a lock get it, and the realtime thread answers (with hardware that comes to a result). In particular there is no
deadlock between the two locks. -/
theorem c94_progress (conf : List ControllerInfo → Bool) (ops : List ThrOp) (hup : ∀ op ∈ ops, op.rosUp) {hw : HwReply}
    (hs : Settled hw) : ∃ more : List ThrOp, (∀ op ∈ more, (∃ t, op = .go t {} 0) ∨ op = .update 0 false hw) ∧
      ∀ t, ¬ Busy (after conf (ops ++ more)) t := by
  obtain ⟨L, hL⟩ := finite_after conf ops
  obtain ⟨more, h1, h2⟩ := finAll (conf := conf) hs L (sound_after conf ops hup) hL
  refine ⟨more, h1, fun t ht => ht ?_⟩
  have := h2 t
  rwa [show (after conf ops).run conf more = after conf (ops ++ more) by simp [after, St.run, List.foldl_append]] at this

/-- **C94, answers.** Each thread gets the answers to its own calls, in order: one that is not busy has got one to each,
a busy one has got one to each but the last. -/
theorem c94_answers (conf : List ControllerInfo → Bool) (ops : List ThrOp) (t : Tid) :
    (¬ Busy (after conf ops) t →
      List.Forall₂ (fun c a => Fits c a = true) (calls conf t {} ops) (answersOf (after conf ops) t)) ∧
    (Busy (after conf ops) t → ∃ don c, calls conf t {} ops = don ++ [c] ∧
      List.Forall₂ (fun c a => Fits c a = true) don (answersOf (after conf ops) t)) := by
  rcases mine_after conf ops t with ⟨h1, h2⟩ | ⟨don, c, h1, h2, h3⟩
  · exact ⟨fun _ => h2, fun hb => absurd h1 hb⟩
  · refine ⟨fun hb => ?_, fun _ => ⟨don, c, h1, h2⟩⟩
    have h4 : (after conf ops).pos t = .idle := by simpa [Busy] using hb
    rw [h4] at h3
    exact h3.elim

/-- **C94, results.** The results that threads get are among the events, in the same order. -/
theorem c94_results (conf : List ControllerInfo → Bool) (ops : List ThrOp) (hup : ∀ op ∈ ops, op.rosUp) :
    List.Sublist (results (after conf ops)) (after conf ops).mgr.trace :=
  answers_after conf ops hup

/-- **C94, names.** A thread that asks for the names of the controllers gets those that are loaded when it is answered. -/
theorem c94_names {conf : List ControllerInfo → Bool} {ops : List ThrOp} {t : Tid} {ok : RosOk} {el : Int} {ns : List String}
    (h : (after conf (ops ++ [.go t ok el])).answers = (after conf ops).answers ++ [(t, .names ns)]) :
    ns = (after conf ops).mgr.cur.map (·.info.name) := by
  have e : after conf (ops ++ [.go t ok el]) = ((after conf ops).go conf t ok el).getD (after conf ops) :=
    run_concat conf {} ops (.go t ok el)
  rw [e] at h
  have hl := locks_after conf ops
  cases hg : (after conf ops).go conf t ok el with
  | none => rw [hg] at h; simp at h
  | some s' =>
    rw [hg] at h
    have h : s'.answers = _ := h
    rcases (go_stepOf hl t ok el hg).answers with h1 | ⟨es, e', _, h1⟩ | ⟨_, h1⟩
    · rw [h1] at h; simp at h
    · rw [h1] at h; simp at h
    · rw [h1] at h
      simp only [List.append_cancel_left_eq, List.cons.injEq, Prod.mk.injEq, Answer.names.injEq, true_and, and_true] at h
      exact h.symm

/-- **C94, safety.** Whatever threads call and however: no pointer is used after its object is gone, controllers have
different names, and running controllers do not conflict. -/
theorem c94_safety (ops : List ThrOp) (hup : ∀ op ∈ ops, op.rosUp) :
    let m := (after checkForConflict ops).mgr
    m.fault = false ∧ (m.cur.map (·.info.name)).Nodup ∧ ConflictFree (m.running.map (·.info)) := by
  intro m
  have e : ∀ m : Mgr, m.runningInfos = m.running.map (·.info) := fun m => by
    unfold runningInfos Mgr.running
    congr 1
  rcases safe_after checkOk_checkForConflict ops hup with h | ⟨_, _, h⟩
  · exact ⟨h.fault, h.names, e _ ▸ h.free⟩
  · refine ⟨h.fault, h.names, ?_⟩
    have := h.free
    rw [e] at this
    exact this

/-! ### In histories without direct switches or reloads next to direct calls -/

/-- **C94, services.** If all threads use the services, or if nobody reloads the libraries and controllers are switched through
the service (while loading, unloading and asking for names may be called directly), then the manager looks as if one
thread had made all calls, one after the other. Missing: switches called directly, and direct calls during a reload
(`c94_negation`, `c94_negation_hardware`, `c94_negation_library`); requests with a timeout are in `c94_timeouts_partial`. -/
theorem c94_services_partial (conf : List ControllerInfo → Bool) (ops : List ThrOp) (hup : ∀ op ∈ ops, op.rosUp)
    (hn : ∀ op ∈ ops, op.noTimeout) (hs : (∀ op ∈ ops, op.service) ∨ ∀ op ∈ ops, op.mild) :
    LikeOneThread conf (after conf ops) := by
  have key : ∀ D, Good conf true D (after conf ops) → LikeOneThread conf (after conf ops) := by
    intro D h
    obtain ⟨m', hr, o, q, a, b, es, e, ht, _⟩ := reachable_of_serial h.serial
    obtain ⟨x, ex⟩ : ∃ x, seqOf (after conf ops) = withSvc (after conf ops).mgr x := by
      unfold seqOf
      split
      · exact ⟨(after conf ops).mgr.svc, rfl⟩
      · exact ⟨_, rfl⟩
    rw [ex] at e
    refine ⟨m', hr, ?_, ?_, ?_⟩
    · rw [ht]
      exact (congrArg Mgr.trace e).symm
    · exact (congrArg Mgr.cur e).symm
    · exact (congrArg Mgr.state e).symm
  rcases hs with hs | hs
  · exact key false (good_after conf true false ops hup (fun _ => hn) hs)
  · exact key true (good_after conf true true ops hup (fun _ => hn) hs)

/-- **C94, timeouts.** The same if requests have timeouts, except that parameters of an abandoned switch (C59) can be forgotten
some time before the next switch gets its turn. -/
theorem c94_timeouts_partial (conf : List ControllerInfo → Bool) (ops : List ThrOp) (hup : ∀ op ∈ ops, op.rosUp)
    (hs : (∀ op ∈ ops, op.service) ∨ ∀ op ∈ ops, op.mild) : LikeSerial conf (after conf ops) := by
  have key : ∀ D, Good conf false D (after conf ops) → LikeSerial conf (after conf ops) := by
    intro D h
    refine ⟨_, h.serial, ?_⟩
    unfold seqOf
    split <;> exact ⟨rfl, rfl, rfl⟩
  rcases hs with hs | hs
  · exact key false (good_after conf false false ops hup (fun e => by cases e) hs)
  · exact key true (good_after conf false true ops hup (fun e => by cases e) hs)

/-- **C94, libraries.** In such histories no controller is loaded when the libraries are reloaded: the assertion before the
reload holds, and every loaded controller has been created since. -/
theorem c94_libraries_partial (conf : List ControllerInfo → Bool) (ops : List ThrOp) (hup : ∀ op ∈ ops, op.rosUp)
    (hs : (∀ op ∈ ops, op.service) ∨ ∀ op ∈ ops, op.mild) :
    (after conf ops).assertFailed = false ∧
      ∀ x ∈ (after conf ops).mgr.cur, (after conf ops).made x.c = (after conf ops).generation := by
  refine ⟨?_, lib_after conf ops hup hs⟩
  rcases hs with hs | hs
  · exact (good_after conf false false ops hup (fun e => by cases e) hs).noAssert
  · exact (good_after conf false true ops hup (fun e => by cases e) hs).noAssert

/-! ### Histories -/

/-- A step of a thread. -/
def exGo (t : Tid) : ThrOp := .go t {} 0

/-- An update in which the hardware reports that the switch is done. -/
def exTick : ThrOp := .update 0 false (Ex.hw .done)

/-- Thread 0 loads two controllers. -/
def exLoads (srv : Bool) : List ThrOp :=
  let more := if srv then [exGo 0] else []
  [.call 0 srv (.load "a" (Ex.env ["j1"])), exGo 0] ++ more ++ [exTick, exGo 0,
    .call 0 srv (.load "c" (Ex.env ["j2"])), exGo 0] ++ more ++ [exTick, exGo 0]

/-- A strict request to start one controller. -/
def exStart (n : String) : Call := .switch ⟨[n], [], 2, false, 0⟩ 0 true

/-- Two threads use the services: the second waits while the first switches, then it reloads the libraries. A third
asks for the names. -/
def exServices : List ThrOp :=
  exLoads true ++ [.call 0 true (exStart "a"), exGo 0, .call 1 true (.reload true 0 true), exGo 1, exGo 0, exGo 0, exGo 0,
    .call 2 true .names, exGo 2, exTick, exGo 0, exGo 1, exGo 2, exGo 1, exGo 1, exGo 1, exTick, exGo 1, exGo 1, exTick, exGo 1,
    exGo 1, exTick, exGo 1, exGo 1, exGo 1, exGo 2, exGo 2]

/-- The history meets the conditions; at the end nobody is busy, and the answers are as expected. -/
example : (∀ op ∈ exServices, op.rosUp) ∧ (∀ op ∈ exServices, op.noTimeout) ∧ (∀ op ∈ exServices, op.service) ∧
    (after checkForConflict exServices).answers = [(0, .ret (.loadRet "a" true)), (0, .ret (.loadRet "c" true)),
      (0, .ret (.switchRet true)), (1, .ret (.reloadRet true)), (2, .names [])] ∧
    (after checkForConflict exServices).generation = 1 ∧
    (after checkForConflict exServices).mgr.listControllers = [] := by
  refine ⟨?_, ?_, ?_, by decide, by decide, by decide⟩
  · simp [exServices, exLoads, exGo, exTick, ThrOp.rosUp]
  · simp [exServices, exLoads, exGo, exTick, exStart, ThrOp.noTimeout]
  · simp [exServices, exLoads, exGo, exTick, ThrOp.service]

/-- In the middle of this history one thread waits for the realtime thread and two wait for the lock of the services. -/
example : let s := after checkForConflict (exServices.take 19)
    Inside (s.pos 0) = true ∧ InService (s.pos 0) = true ∧ s.services = some 0 ∧ s.controllers = some 0 ∧
    (∃ c, s.pos 1 = .atServices c) ∧ ∃ c, s.pos 2 = .atServices c :=
  ⟨by decide, by decide, by decide, by decide, ⟨_, rfl⟩, ⟨_, rfl⟩⟩

/-- A thread uses a service while another loads directly. -/
def exMild : List ThrOp :=
  exLoads false ++ [.call 0 true (exStart "a"), exGo 0, exGo 0, .call 1 false (.load "b" (Ex.env ["j1"])), exGo 1, exGo 0, exGo 0,
    exTick, exGo 1, exGo 0, exTick, exGo 0]

example : (∀ op ∈ exMild, op.rosUp) ∧ (∀ op ∈ exMild, op.noTimeout) ∧ (∀ op ∈ exMild, op.mild) ∧ ¬ (∀ op ∈ exMild, op.service) ∧
    (after checkForConflict exMild).answers = [(0, .ret (.loadRet "a" true)), (0, .ret (.loadRet "c" true)),
      (1, .ret (.loadRet "b" true)), (0, .ret (.switchRet true))] := by
  refine ⟨?_, ?_, ?_, ?_, by decide⟩
  · simp [exMild, exLoads, exGo, exTick, ThrOp.rosUp]
  · simp [exMild, exLoads, exGo, exTick, exStart, ThrOp.noTimeout]
  · simp [exMild, exLoads, exGo, exTick, exStart, ThrOp.mild]
  · simp [exMild, exLoads, exGo, exTick, exStart, ThrOp.service]

/-- Two threads switch directly. While the first waits, the second clears the parameters of the switch (440) before it
waits for the lock. -/
def exLost : List ThrOp :=
  exLoads false ++ [.call 0 false (exStart "a"), exGo 0, exGo 0, exGo 0, .call 1 false (exStart "c"), exGo 1, exGo 1, exTick, exGo 0]

/-- **C94, the full statement does not hold: a switch is lost.** Thread 0 is told that controller `a` has been started,
but it has not, and the hardware has not been asked to switch. No single thread can see this. -/
theorem c94_negation : ¬ ThreadSafe checkForConflict ∧
    (0, .ret (.switchRet true)) ∈ (after checkForConflict exLost).answers ∧
    (after checkForConflict exLost).mgr.running = [] ∧
    ∀ a b, .doSwitch a b ∉ (after checkForConflict exLost).mgr.trace := by
  have hno : ∀ a b, .doSwitch a b ∉ (after checkForConflict exLost).mgr.trace := by
    have h : ((after checkForConflict exLost).mgr.trace.all fun e => match e with | .doSwitch _ _ => false | _ => true) = true := by
      decide
    intro a b hm
    have := List.all_eq_true.1 h _ hm
    cases this
  refine ⟨fun hall => ?_, by decide, by decide, hno⟩
  obtain ⟨m, hr, ht, _⟩ := hall exLost (by simp [exLost, exLoads, exGo, exTick, ThrOp.rosUp])
    (by simp [exLost, exLoads, exGo, exTick, exStart, ThrOp.noTimeout])
  have hmem : .switchRet true ∈ m.trace := by
    rw [ht]
    decide
  obtain ⟨pre, post, e⟩ := List.append_of_mem hmem
  obtain ⟨before, x, y, a, b, e2, _⟩ := c11_true_reply_after_doSwitch hr e
  apply hno a b
  rw [← ht, e, e2]
  simp

/-- Thread 1 clears the parameters, then thread 0 switches, then thread 1 gets the lock and goes on with what thread 0
has left. -/
def exHardware : List ThrOp :=
  exLoads false ++ [.call 1 false (exStart "c"), exGo 1, exGo 1, .call 0 false (exStart "a"), exGo 0, exGo 0, exGo 0, exTick, exGo 0,
    exGo 1, exTick, exGo 1]

/-- **C94, the full statement does not hold: the hardware is not told.** Both switches are accepted and answered with true,
and both controllers run; but the hardware has been asked to switch only once, without controller `c`. -/
theorem c94_negation_hardware :
    let s := after checkForConflict exHardware
    (0, .ret (.switchRet true)) ∈ s.answers ∧ (1, .ret (.switchRet true)) ∈ s.answers ∧
    s.mgr.running.map (·.info.name) = ["a", "c"] ∧
    s.mgr.trace.filterMap (fun e => match e with | .doSwitch a _ => some (a.map (·.name)) | _ => none) = [["a"]] ∧
    s.mgr.trace.filterMap (fun e => match e with | .accepted a _ => some (a.map (·.name)) | _ => none) = [["a"], ["c"]] := by
  decide

/-- A thread reloads the libraries through the service. When all controllers are unloaded, another loads one directly. -/
def exLibrary : List ThrOp :=
  exLoads false ++ [.call 0 true (.reload true 0 true), exGo 0, exGo 0, exGo 0, exGo 0, exTick, exGo 0, exGo 0, exTick, exGo 0,
    exGo 0, exTick, exGo 0, .call 1 false (.load "d" (Ex.env ["j1"])), exGo 1, exTick, exGo 1, exGo 0, exGo 0]

/-- **C94, the full statement does not hold: an object outlives its library.** The assertion that no controller is loaded
fails; without it the libraries are reloaded although a controller of them is loaded. -/
theorem c94_negation_library :
    let s := after checkForConflict exLibrary
    (∀ op ∈ exLibrary, op.rosUp) ∧ s.assertFailed = true ∧ s.generation = 1 ∧
    ∃ x ∈ s.mgr.cur, x.info.name = "d" ∧ s.made x.c = 0 := by
  refine ⟨by simp [exLibrary, exLoads, exGo, exTick, ThrOp.rosUp], by decide, by decide, ?_⟩
  decide

/-- Thread 0 has made three calls and got three answers. -/
example : (calls checkForConflict 0 {} exServices).length = 3 ∧
    answersOf (after checkForConflict exServices) 0 = [.ret (.loadRet "a" true), .ret (.loadRet "c" true), .ret (.switchRet true)] ∧
    ¬ Busy (after checkForConflict exServices) 0 := by
  refine ⟨by decide, by decide, fun h => h rfl⟩

/-- A hardware interface that comes to a result. -/
example : Settled (Ex.hw .done) := ⟨Or.inl rfl, fun _ _ => Or.inl rfl⟩

/-- In the middle of the first history three threads are busy. -/
example : let s := after checkForConflict (exServices.take 19)
    Busy s 0 ∧ Busy s 1 ∧ Busy s 2 := by
  refine ⟨?_, ?_, ?_⟩ <;> exact fun h => by cases h

end Thr

end Verif
