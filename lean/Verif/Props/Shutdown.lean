import Verif.Lemmas.Shutdown
import Verif.Props.ManagerSafety
import Verif.Examples.ManagerWorld

/-!
# C96: ROS shuts down
-/

namespace Verif

namespace Mgr

open Spec

theorem looksLeft_notice {P} {m : Mgr} (h : Inv P m) (el : Int) : looksLeft (m.noticeInLoop el).svc ≤ looksLeft m.svc := by
  unfold noticeInLoop
  cases hs : m.svc with
  | idle => unfold poll; rw [hs]; simp [hs]
  | switching k t =>
    unfold poll
    rw [hs]
    cases m.params.doSwitch <;> cases k <;> simp [finish, emit, looksLeft]
  | releasing f r =>
    unfold poll
    rw [hs]
    by_cases hu : m.used = some f
    · cases r with
      | load n => simp [hu, emit, looksLeft]
      | unload n k => cases k <;> simp [hu, finish, emit, looksLeft]
    · cases r with
      | load n => simp [hu, emit, looksLeft]
      | unload n k => cases k <;> simp [hu, finish, emit, looksLeft]
  | unloading l =>
    unfold poll
    rw [hs]
    cases l with
    | nil => simp [emit, looksLeft]
    | cons n ns =>
      simp only
      rcases unloadCore_cases m n (.reload ns) (fun m => { m with svc := .idle }.emit [.reloadRet false])
        (h.used (by rintro ⟨f, r, e⟩; rw [hs] at e; cases e)) with ⟨_, _, e⟩ | ⟨_, e⟩ <;> rw [e]
      · simp [unloaded, looksLeft]; omega
      · simp [emit, looksLeft]

/-- **C96, calls return.** When ROS shuts down, the call in progress returns after it has looked at most `2 n + 2` times, where `n`
is the number of loaded controllers; whether the realtime thread still updates, and wherever the call notices the
shutdown. -/
theorem c96_calls_return {conf : List ControllerInfo → Bool} {m : Mgr} (h : Reachable conf m) (inLoop : Option Int) (ops : List Op)
    (hn : ∀ op ∈ ops, op.noCall = true) (hl : 2 * m.cur.length + 2 ≤ (ops.filter Op.isLook).length) :
    (ShutDown conf m inLoop ops).svc = .idle := by
  have h1 := looksLeft_le (reloadNames_of_reachable h)
  have h2 : looksLeft (inLoop.elim m m.noticeInLoop).svc ≤ looksLeft m.svc := by
    cases inLoop with
    | none => exact le_refl _
    | some el => exact looksLeft_notice (inv_of_reachable h) el
  have h3 := looks_run (conf := conf) ops (inLoop.elim m m.noticeInLoop) hn
  refine looksLeft_zero ?_
  show looksLeft ((inLoop.elim m m.noticeInLoop).downRun conf ops).svc = 0
  omega

/-- **C96, answers.** While ROS shuts down, a load that is answered with true has loaded its controller, and an unload that is
answered with true has removed it. (For a switch see `c96_switch_negation`.) -/
theorem c96_answers_partial {conf : List ControllerInfo → Bool} {m : Mgr} (h : Reachable conf m) (ops : List Op) (ok : RosOk) (el : Int)
    {n : String} :
    let m1 := m.downRun conf ops
    let m2 := m1.downStep conf (.poll ok el)
    (.loadRet n true ∈ m2.trace.drop m1.trace.length → n ∈ m2.cur.map (·.info.name)) ∧
    (.unloadRet n true ∈ m2.trace.drop m1.trace.length → n ∉ m2.cur.map (·.info.name)) := by
  intro m1 m2
  have hi : Inv (fun _ => True) m1.released := inv_downRun (checkOk_true conf) ops (inv_released_used (inv_of_reachable h))
  have hw : Waits m1 := waits_downRun ops (inv_released_used (inv_of_reachable h)) (waits_reachable h)
  have e : m2 = { m1.released.poll ⟨false, false⟩ el with used := m1.used } := rfl
  clear_value m1 m2
  subst e
  show (_ ∈ (m1.released.poll ⟨false, false⟩ el).trace.drop _ → _ ∈ (m1.released.poll ⟨false, false⟩ el).cur.map _) ∧
    (_ ∈ (m1.released.poll ⟨false, false⟩ el).trace.drop _ → _ ∉ (m1.released.poll ⟨false, false⟩ el).cur.map _)
  cases hs : m1.svc with
  | idle =>
    have e : m1.released.poll ⟨false, false⟩ el = m1.released := by unfold poll; rw [show m1.released.svc = _ from hs]
    rw [e]
    simp [released]
  | switching k t =>
    unfold poll
    rw [show m1.released.svc = _ from hs]
    cases k <;> simp [released, finish, emit]
  | releasing f r =>
    unfold poll
    rw [show m1.released.svc = _ from hs]
    have hno : ∀ ev : Event, (∀ c, ev ≠ .destroyed c) → ev ∉ m1.dropped.map Event.destroyed := by
      intro ev hev hm
      obtain ⟨c, _, rfl⟩ := List.mem_map.1 hm
      exact hev c rfl
    cases r with
    | load x =>
      have := hw.load f x hs
      refine ⟨fun hm => ?_, fun hm => ?_⟩
      · have hm : Event.loadRet n true ∈ ((m1.trace ++ m1.dropped.map Event.destroyed) ++ [Event.loadRet x true]).drop m1.trace.length := hm
        rw [List.append_assoc, List.drop_left, List.mem_append] at hm
        rcases hm with hm | hm
        · exact absurd hm (hno _ (fun c e => by cases e))
        · simp only [List.mem_singleton, Event.loadRet.injEq, and_true] at hm
          subst hm; exact this
      · have hm : Event.unloadRet n true ∈ ((m1.trace ++ m1.dropped.map Event.destroyed) ++ [Event.loadRet x true]).drop m1.trace.length := hm
        rw [List.append_assoc, List.drop_left, List.mem_append] at hm
        rcases hm with hm | hm
        · exact absurd hm (hno _ (fun c e => by cases e))
        · simp at hm
    | unload x k =>
      have := hw.unload f x k hs
      have key : (m1.released.poll ⟨false, false⟩ el).trace = (m1.trace ++ m1.dropped.map Event.destroyed) ++ [Event.unloadRet x true] ∧
          (m1.released.poll ⟨false, false⟩ el).cur = m1.cur := by
        unfold poll
        rw [show m1.released.svc = _ from hs]
        cases k <;> exact ⟨rfl, rfl⟩
      have key' := key
      unfold poll at key'
      rw [show m1.released.svc = _ from hs] at key'
      rw [key'.1, key'.2, List.append_assoc, List.drop_left]
      refine ⟨fun hm => ?_, fun hm => ?_⟩
      · rcases List.mem_append.1 hm with hm | hm
        · exact absurd hm (hno _ (fun c e => by cases e))
        · simp at hm
      · rcases List.mem_append.1 hm with hm | hm
        · exact absurd hm (hno _ (fun c e => by cases e))
        · simp only [List.mem_singleton, Event.unloadRet.injEq, and_true] at hm
          subst hm; exact this
  | unloading l =>
    unfold poll
    rw [show m1.released.svc = _ from hs]
    cases l with
    | nil => simp [released, emit]
    | cons x xs =>
      dsimp only
      rcases unloadCore_cases m1.released x (.reload xs) (fun m => { m with svc := .idle }.emit [.reloadRet false])
        (by simp [released]) with ⟨_, _, e⟩ | ⟨_, e⟩ <;> rw [e]
      · simp [released, unloaded]
      · simp [released, emit]

/-- **C96, safety.** Whatever happens while ROS shuts down, with calls that notice it when they look at the condition of their
loop, and updates that are not interrupted: no pointer is used after its object is gone, controllers have different
names, and running controllers do not conflict. Missing: a call that notices the shutdown inside its loop
(`c96_stale_negation`), and a call that goes on in the middle of an update (`c96_list_negation`). -/
theorem c96_safety_partial {m : Mgr} (h : Reachable checkForConflict m) (ops : List Op) :
    let m' := ShutDown checkForConflict m none ops
    m'.fault = false ∧ (m'.cur.map (·.info.name)).Nodup ∧ ConflictFree (m'.running.map (·.info)) := by
  intro m'
  have hi : Inv _ m'.released :=
    inv_downRun checkOk_checkForConflict ops (inv_released_used (inv_reachable checkOk_checkForConflict h))
  refine ⟨hi.fault, hi.names, ?_⟩
  have e : m'.released.runningInfos = m'.running.map (·.info) := by
    show m'.runningInfos = _
    unfold runningInfos Mgr.running
    congr 1
  have := hi.free
  rw [e] at this
  exact this

/-! ### Where the code and the property disagree -/

/-- Controllers "a", "b" and "c" are loaded, "a" and "c" run. -/
def up : Mgr := Ex.after Ex.running

theorem reachable_up : Reachable checkForConflict up := Ex.reachable_after Ex.rosUp_running

/-- A switch from "a" to "b" is waiting for the realtime thread. -/
def upSwitching : Mgr := Ex.after (Ex.running ++ [.switch ⟨["b"], ["a"], 2, false, 0⟩ 0 true])

theorem reachable_upSwitching : Reachable checkForConflict upSwitching := by
  refine Ex.reachable_after ?_
  intro op hop
  rcases List.mem_append.1 hop with h | h
  · exact Ex.rosUp_running op h
  · simp only [List.mem_singleton] at h
    subst h
    trivial

/-- **C96, a switch is answered with true although it has not been done.** ROS shuts down while the switch waits: it returns true,
but "a" is still running, "b" is not, and the hardware has not been told. The next update tells the hardware that "b"
replaces "a", but stops and starts nothing. -/
theorem c96_switch_negation : ¬ SafeShutdown checkForConflict ∧
    (let m1 := upSwitching.downStep checkForConflict (.poll {} 0)
     m1.trace = upSwitching.trace ++ [.switchRet true] ∧ m1.running.map (·.info.name) = ["a", "c"] ∧
     (let m2 := m1.downStep checkForConflict Ex.tick
      (m2.trace.drop m1.trace.length).filterMap (fun e => match e with
        | .doSwitch a b => some (a.map (·.name), b.map (·.name)) | _ => none) = [(["b"], ["a"])] ∧
      m2.running.map (·.info.name) = ["a", "c"])) := by
  refine ⟨fun hall => ?_, by decide, by decide, by decide, by decide⟩
  have hm := (hall up reachable_up none []).2 ⟨["b"], ["a"], 2, false, 0⟩ 0 0 (by decide) (by decide) (by decide)
  obtain ⟨a, b, h⟩ := hm
  have : ((((up.switch checkForConflict ⟨["b"], ["a"], 2, false, 0⟩ 0 true).downStep checkForConflict (.poll {} 0)).trace.drop
      up.trace.length).all fun e => match e with | .doSwitch _ _ => false | _ => true) = true := by decide
  have := List.all_eq_true.1 this _ h
  cases this

/-- **C96, a controller that is gone is started.** The switch notices the shutdown inside its loop and returns false, but leaves the
request. Controller "b" is then unloaded by a call that was waiting for the lock; the next update starts it. -/
theorem c96_stale_negation :
    let m' := ShutDown checkForConflict upSwitching (some 0) [.unload "b", .poll {} 0, Ex.tick]
    .switchRet false ∈ m'.trace ∧ .unloadRet "b" true ∈ m'.trace ∧ m'.fault = true := by
  decide

/-- The realtime thread begins an update, and has called the first controller. -/
def rtInUpdate : Inter.St :=
  let u : Inter.Args := ⟨0, false, Ex.hw .done⟩
  Inter.run checkForConflict (Inter.start up) [.rt u, .rt u, .rt u]

/-- **C96, a list is cleared while the realtime thread goes through it.** In the middle of an update a controller is loaded or
unloaded. The call notices the shutdown at the condition of its loop and clears the list that the realtime thread uses;
if "b" is unloaded, the update then calls it although it is gone. -/
theorem c96_list_negation :
    let u : Inter.Args := ⟨0, false, Ex.hw .done⟩
    let down : Inter.Step := .svc (.poll ⟨false, false⟩ 0)
    let loading := Inter.run checkForConflict rtInUpdate [.svc (.load "d" (Ex.env ["j4"]))]
    let s := Inter.step checkForConflict loading down
    (Inter.InLoop loading.rt = true ∧ (Inter.usedList loading.m).map (·.info.name) = ["a", "b", "c"] ∧
      Inter.InLoop s.rt = true ∧ s.m.used = loading.m.used ∧ Inter.usedList s.m = []) ∧
    (Inter.run checkForConflict rtInUpdate [.svc (.unload "b"), down, .rt u]).m.fault = true := by
  decide

/-! ### Examples -/

/-- A forced reload is in progress when ROS shuts down: it returns after two looks, with false because "a" still runs. -/
example : let m := Ex.after (Ex.running ++ [.reload true 0 true])
    m.svc ≠ .idle ∧ (m.downRun checkForConflict [.poll {} 0]).svc ≠ .idle ∧
    (m.downRun checkForConflict [.poll {} 0, .poll {} 0]).svc = .idle ∧
    (m.downRun checkForConflict [.poll {} 0, .poll {} 0]).trace.getLast? = some (.reloadRet false) := by decide

/-- A load and an unload are in progress when ROS shuts down; both are answered with true. -/
example : let m := Ex.after (Ex.running ++ [.load "d" (Ex.env ["j4"])])
    let m1 := m.downStep checkForConflict (.poll {} 0)
    let m2 := (m1.downStep checkForConflict (.unload "b")).downStep checkForConflict (.poll {} 0)
    .loadRet "d" true ∈ m1.trace ∧ .unloadRet "b" true ∈ m2.trace ∧ m2.cur.map (·.info.name) = ["a", "c", "d"] := by
  decide

end Mgr

end Verif
