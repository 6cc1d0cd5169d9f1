import Verif.Lemmas.SwitchRacePass
import Verif.Props.ManagerSafety

/-!
Properties of `switchController` interleaved with `update`, request by request.
-/

namespace Verif.Race

open Spec Mgr

/-! ### C57 -/

/-- **C57.** However the steps of calls of `switchController` and of updates are interleaved, no
resource is claimed twice by the controllers running at any moment, provided a validation does
not overlap the restart of a controller, the wall-clock limit is not reached and the calls do not
overlap each other. -/
theorem c57_running_conflict_free_partial {m : Mgr} (h : Reachable checkForConflict m)
    (hi : m.svc = .idle) (hd : m.params.doSwitch = false) (ops : List Op)
    (hc : carefulRun checkForConflict (start m) ops = true) :
    ConflictFree ((run checkForConflict (start m) ops).running.map (·.info)) := by
  have h0 := inv_start (inv_reachable checkOk_checkForConflict h) hi hd
  have hv := inv_run checkOk_checkForConflict h0 ops hc
  have hf := hv.free
  refine infos_mono checkOk_checkForConflict.mono ?_ hf
  intro s _ hr
  exact isRunning_iff.2 (vstate_running (isRunning_iff.1 hr))

/-- **C57, without restarts.** In particular for every interleaving of calls that follow one
another with updates that do not restart controllers. -/
theorem c57_plain {m : Mgr} (h : Reachable checkForConflict m)
    (hi : m.svc = .idle) (hd : m.params.doSwitch = false) (ops : List Op) (hp : ∀ op ∈ ops, op.plain) :
    ConflictFree ((run checkForConflict (start m) ops).running.map (·.info)) :=
  c57_running_conflict_free_partial h hi hd ops
    (careful_of_plain ops hp ⟨(by intro l e; cases e), (by intro c l e; cases e)⟩)

/-- A controller manager in which "a" and "c" run and "b", which needs the joint of "a", is
loaded. -/
def demo : Mgr := Ex.after Ex.running

/-- A step of the realtime thread; the hardware reports that the switch is done. -/
def rt : Op := .rt false 0 (Ex.hw .done)

/-- A step of the realtime thread in an update that restarts the controllers. -/
def rtReset : Op := .rt true 0 (Ex.hw .done)

/-- The execution used in `c57_restart_race_negation`. -/
def restartRace : List Op :=
  [rtReset, rtReset, .call ⟨["b"], [], 2, false, 0⟩ 0 true, .svc, .svc, .svc, .svc] ++
    List.replicate 15 rt

/-- **C57 does not hold in full.** While an update with restart has stopped "a" and not yet
started it again, a strict request to start "b" is validated as if "a" were stopped. It is
accepted, and then both run although both claim "j1". -/
theorem c57_restart_race_negation :
    Reachable checkForConflict demo ∧ demo.svc = .idle ∧ demo.params.doSwitch = false ∧
    ¬ ConflictFree ((run checkForConflict (start demo) restartRace).running.map (·.info)) :=
  ⟨Ex.reachable_after Ex.rosUp_running, by decide, by decide, by unfold ConflictFree; decide⟩

/-- A strict switch from "a" to "b" interleaved with updates, also with one that restarts
controllers before the validation starts. -/
def goodRace : List Op :=
  [rtReset, rtReset, rt, .call ⟨["b"], ["a"], 2, false, 0⟩ 0 true, .svc, rt, .svc, rt, rt, .svc, rt, .svc] ++
    List.replicate 15 rt ++ [.svc]

example : carefulRun checkForConflict (start demo) goodRace = true ∧
    (run checkForConflict (start demo) goodRace).running.map (·.info.name) = ["b", "c"] := by decide

/-! ### C58 -/

/-- **C58.** Under the same conditions a request vector is never changed while the realtime thread
is going through it. -/
theorem c58_request_lists_not_shared_partial {m : Mgr} (h : Reachable checkForConflict m)
    (hi : m.svc = .idle) (hd : m.params.doSwitch = false) (ops : List Op)
    (hc : carefulRun checkForConflict (start m) ops = true) :
    (run checkForConflict (start m) ops).ub = false :=
  (inv_run checkOk_checkForConflict
    (inv_start (inv_reachable checkOk_checkForConflict h) hi hd) ops hc).ub

/-- **C58 does not hold in full.** If the wall-clock limit is reached while the realtime thread is
starting the controllers, `switchController` clears the vector the realtime thread is going
through. -/
theorem c58_give_up_negation :
    Reachable checkForConflict demo ∧ demo.svc = .idle ∧ demo.params.doSwitch = false ∧
    (run checkForConflict (start demo)
      [.call ⟨["b"], ["a"], 2, false, 1⟩ 0 true, .svc, .svc, .svc, .svc, rt, rt, rt, rt, rt, .giveUp]).ub =
        true :=
  ⟨Ex.reachable_after Ex.rosUp_running, by decide, by decide, by decide⟩

/-! ### C59 -/

/-- **C59.** Under the same conditions, when a call sees that its switch is finished and returns
true, the hardware switch has been triggered, every requested controller found is running (or in
the middle of a restart) or aborted, and every controller to stop that is not also to start is
not running. -/
theorem c59_true_reply_partial {m : Mgr} (h : Reachable checkForConflict m)
    (hi : m.svc = .idle) (hd : m.params.doSwitch = false) (ops : List Op)
    (hc : carefulRun checkForConflict (start m) ops = true) {s : St}
    (hs : s = run checkForConflict (start m) ops) (hw : s.at_ = .waiting)
    (hret : (step checkForConflict s .svc).at_ = .idle) :
    (step checkForConflict s .svc).m.trace = s.m.trace ++ [.switchRet true] ∧
    s.m.params.started = true ∧
    (∀ c ∈ s.m.startReq, s.m.state c = .running ∨ s.m.state c = .aborted ∨ ∃ l, s.rt = .restarting c l) ∧
    (∀ c ∈ s.m.stopReq, c ∉ s.m.startReq → s.m.state c ≠ .running) := by
  have hm := inv_reachable checkOk_checkForConflict h
  have h1 := inv_run checkOk_checkForConflict (inv_start hm hi hd) ops hc
  have h2 := inv2_run checkOk_checkForConflict (inv_start hm hi hd) (inv2_start hm hi) ops hc
  rw [← hs] at h1 h2
  have hf : s.m.params.doSwitch = false := by
    by_contra hf
    have hf : s.m.params.doSwitch = true := by simpa using hf
    simp only [step, svcStep, hw, hf, if_true] at hret
    cases hret
  obtain ⟨k1, k2, k3⟩ := h2.done hw hf
  refine ⟨?_, k1, ?_, ?_⟩
  · simp only [step, svcStep, hw, hf]; rfl
  · intro c hc'
    have := k2 c hc'
    rcases vstate_cases s c with e | ⟨_, e⟩
    · rw [e] at this
      exact this.imp id Or.inl
    · exact Or.inr (Or.inr e)
  · exact fun c hc' hn hr => k3 c hc' hn (vstate_running hr)

/-- **C59, names.** A strict call with a name that no loaded controller has is answered with false at once. Any other call
goes on, to switch the loaded controllers with the given names; without strictness the other names are ignored. -/
theorem c59_names {m : Mgr} (h : Reachable checkForConflict m) (hi : m.svc = .idle) (hd : m.params.doSwitch = false)
    (ops : List Op) (hc : carefulRun checkForConflict (start m) ops = true) {s : St}
    (hs : s = run checkForConflict (start m) ops) (hw : s.at_ = .idle) (r : SwitchReq) (now : Int) (prepOk : Bool) :
    let s' := step checkForConflict s (.call r now prepOk)
    let unknown := ∃ n ∈ r.start ++ r.stop, ∀ t ∈ s.m.cur, t.info.name ≠ n
    (r.strictness = 2 ∧ unknown → s'.at_ = .idle ∧ s'.m.trace = s.m.trace ++ [.switchRet false]) ∧
    (¬(r.strictness = 2 ∧ unknown) → (∃ acc, s'.at_ = .scanning r now prepOk s.m.cur acc) ∧ s'.m.trace = s.m.trace ∧
      (∀ c ∈ s'.m.startReq, ∃ t ∈ s.m.cur, t.c = c ∧ t.info.name ∈ r.start) ∧
      (∀ c ∈ s'.m.stopReq, ∃ t ∈ s.m.cur, t.c = c ∧ t.info.name ∈ r.stop) ∧
      (∀ n ∈ r.start, (∃ t ∈ s.m.cur, t.info.name = n) → ∃ t ∈ s.m.cur, t.info.name = n ∧ t.c ∈ s'.m.startReq) ∧
      (∀ n ∈ r.stop, (∃ t ∈ s.m.cur, t.info.name = n) → ∃ t ∈ s.m.cur, t.info.name = n ∧ t.c ∈ s'.m.stopReq)) := by
  have h1 := inv_run checkOk_checkForConflict (inv_start (inv_reachable checkOk_checkForConflict h) hi hd) ops hc
  rw [← hs] at h1
  obtain ⟨q1, q2⟩ := h1.reqs hw
  have es : isStrict r = true ↔ r.strictness = 2 := decide_eq_true_iff
  have eun : ∀ ns : List String, (∃ n ∈ ns, s.m.getControllerByName n = none) ↔ ∃ n ∈ ns, ∀ t ∈ s.m.cur, t.info.name ≠ n := fun ns => by
    simp only [getControllerByName_none]
  have found : ∀ ns : List String, ∀ c ∈ ns.filterMap s.m.getControllerByName, ∃ t ∈ s.m.cur, t.c = c ∧ t.info.name ∈ ns := by
    intro ns c hc
    obtain ⟨n, hn, e⟩ := List.mem_filterMap.1 hc
    obtain ⟨t, ht, rfl, rfl⟩ := getControllerByName_mem e
    exact ⟨t, ht, rfl, hn⟩
  have all : ∀ ns : List String, ∀ n ∈ ns, (∃ t ∈ s.m.cur, t.info.name = n) →
      ∃ t ∈ s.m.cur, t.info.name = n ∧ t.c ∈ ns.filterMap s.m.getControllerByName := by
    rintro ns n hn ⟨t, ht, e⟩
    cases hg : s.m.getControllerByName n with
    | none => exact absurd e (getControllerByName_none.1 hg t ht)
    | some c =>
      obtain ⟨t, ht, e, rfl⟩ := getControllerByName_mem hg
      exact ⟨t, ht, e, List.mem_filterMap.2 ⟨n, hn, hg⟩⟩
  have e0 : ∀ ns acc, acc = [] → resolve { s.m with params := {} } (isStrict r) ns acc =
      if r.strictness = 2 ∧ ∃ n ∈ ns, ∀ t ∈ s.m.cur, t.info.name ≠ n then none
      else some (ns.filterMap s.m.getControllerByName) := by
    rintro ns _ rfl
    rw [resolve_eq, List.nil_append]
    refine if_congr ?_ rfl rfl
    rw [es]
    exact and_congr_right fun _ => eun ns
  have e1 := e0 r.stop s.m.stopReq q2
  have e2 := e0 r.start s.m.startReq q1
  simp only [step, callStep, hw]
  simp only [e1]
  constructor
  · rintro ⟨hst, n, hn, hno⟩
    by_cases h2 : ∃ n ∈ r.stop, ∀ t ∈ s.m.cur, t.info.name ≠ n
    · rw [if_pos ⟨hst, h2⟩]
      exact ⟨rfl, rfl⟩
    · have h3 : ∃ n ∈ r.start, ∀ t ∈ s.m.cur, t.info.name ≠ n := by
        rcases List.mem_append.1 hn with hn | hn
        · exact ⟨n, hn, hno⟩
        · exact absurd ⟨n, hn, hno⟩ h2
      rw [if_neg (fun h => h2 h.2)]
      simp only [e2, if_pos (show _ ∧ _ from ⟨hst, h3⟩)]
      exact ⟨rfl, rfl⟩
  · intro hno
    rw [if_neg (fun ⟨a, n, hn, b⟩ => hno ⟨a, n, List.mem_append_right _ hn, b⟩)]
    simp only [e2]
    rw [if_neg (fun ⟨a, n, hn, b⟩ => hno ⟨a, n, List.mem_append_left _ hn, b⟩)]
    exact ⟨⟨_, rfl⟩, rfl, found _, found _, all _, all _⟩

/-- A strict call with an unknown name, and the same with best effort. -/
example : (step checkForConflict (start demo) (.call ⟨["b", "x"], ["a"], 2, false, 0⟩ 0 true)).at_ matches .idle ∧
    (step checkForConflict (start demo) (.call ⟨["b", "x"], ["a"], 1, false, 0⟩ 0 true)).m.startReq.length = 1 := by decide

/-- **C59, whoever answers.** A reply of true is given only by a call that sees that its switch is finished; a call that is refused or
reaches the wall-clock limit does not give it. So `c59_true_reply_partial` is about every reply of true. -/
theorem c59_only_finished (conf : List ControllerInfo → Bool) (s : St) (op : Op)
    (h : .switchRet true ∈ (step conf s op).m.trace) (hn : .switchRet true ∉ s.m.trace) :
    op = .svc ∧ s.at_ = .waiting ∧ s.m.params.doSwitch = false ∧ (step conf s op).at_ = .idle := by
  cases op with
  | rt reset time hw => exact absurd (rt_noRet s reset time hw h) hn
  | call r now prepOk => exact absurd (call_noRet s r now prepOk h) hn
  | giveUp =>
    exfalso
    simp only [step, giveUpStep] at h
    split at h
    · exact hn (by simpa [refuse, touch, Mgr.refuse, emit] using h)
    · exact hn h
  | intrude => exact absurd h hn
  | svc =>
    obtain ⟨m, rt, at_, ub⟩ := s
    cases at_ with
    | idle => exact absurd h hn
    | scanning r now prepOk l acc =>
      exfalso
      cases l with
      | nil =>
        simp only [step, svcStep] at h
        split at h
        · exact hn (by simpa [refuse, touch, Mgr.refuse, emit] using h)
        · exact hn h
      | cons c l =>
        simp only [step, svcStep] at h
        split at h
        · exact hn h
        · exact hn (by simpa [refuse, touch, Mgr.refuse, emit] using h)
    | waiting =>
      simp only [step, svcStep] at h ⊢
      split at h
      · exact absurd h hn
      · rename_i hd
        exact ⟨trivial, trivial, by simpa using hd, by simp [hd]⟩

/-- A call that gives up is answered with false. -/
example : let s := run checkForConflict (start demo) [.call ⟨["b"], ["a"], 2, false, 1⟩ 0 true, .svc, .svc, .svc, .svc]
    s.at_ matches .waiting ∧ (step checkForConflict s .giveUp).m.trace = s.m.trace ++ [.switchRet false] := by decide

/-- **C59 does not hold in full.** A second direct call clears the parameters of the pending switch
before it waits for the lock. The first call then returns true although nothing was switched. -/
theorem c59_concurrent_call_negation :
    Reachable checkForConflict demo ∧ demo.svc = .idle ∧ demo.params.doSwitch = false ∧
    let s := run checkForConflict (start demo)
      [.call ⟨["b"], ["a"], 2, false, 0⟩ 0 true, .svc, .svc, .svc, .svc, .intrude, .svc]
    s.m.trace.getLast? = some (.switchRet true) ∧ s.running.map (·.info.name) = ["a", "c"] :=
  ⟨Ex.reachable_after Ex.rosUp_running, by decide, by decide, by decide, by decide⟩

/-- **C59, steps and whole updates.** An update that nobody interrupts does, step by step, what it does as a whole: it restarts the
running controllers if it is told to, and manages the switch if there is one. The call and everything else is left alone. -/
theorem c59_whole_update (conf : List ControllerInfo → Bool) (s : St) (h : s.rt = .idle) (reset : Bool) (time : Int) (hw : HwReply) :
    ∃ n, 0 < n ∧ run conf s (List.replicate n (.rt reset time hw)) =
      { s with
        m := let m := if reset then s.m.resetControllers else s.m
          if m.params.doSwitch then m.manageSwitch time hw else m } := by
  obtain ⟨n, h0, e⟩ := gets_update (reset := reset) (time := time) (hw := hw) s h
  exact ⟨n, h0, by rw [one_run, e]⟩

/-- **C59, every call is answered.** Under the conditions of C59 a call that waits for the realtime thread is answered with true as soon
as the updates go on and the hardware reports "done" or "error" for what is to be started. -/
theorem c59_answered {m : Mgr} (h : Reachable checkForConflict m) (hi : m.svc = .idle) (hd : m.params.doSwitch = false) (ops : List Op)
    (hc : carefulRun checkForConflict (start m) ops = true) {s : St} (hs : s = run checkForConflict (start m) ops)
    (hw : s.at_ = .waiting) (time : Int) (r : HwReply) (h1 : r.first = .done ∨ r.second = .error)
    (hp : ∀ n i, (r.per n i).1 = .done ∨ (r.per n i).2 = .error) :
    ∃ n, let s' := run checkForConflict s (List.replicate n (.rt false time r) ++ [.svc])
      s'.at_ = .idle ∧ s'.m.trace.getLast? = some (.switchRet true) := by
  have hm := inv_reachable checkOk_checkForConflict h
  have i1 := inv_run checkOk_checkForConflict (inv_start hm hi hd) ops hc
  have i2 := inv2_run checkOk_checkForConflict (inv_start hm hi hd) (inv2_start hm hi) ops hc
  have hcur : s.m.cur = m.cur := by rw [hs]; exact cur_run _ _ _
  rw [← hs] at i1 i2
  have fin : ∀ s : St, s.at_ = .waiting → s.m.params.doSwitch = false →
      (step checkForConflict s .svc).at_ = .idle ∧ (step checkForConflict s .svc).m.trace.getLast? = some (.switchRet true) := by
    intro s h1 h2
    simp [step, svcStep, h1, h2, emit, touch]
  have wrap : ∀ n s', (one false time r)^[n] s = s' → s'.at_ = .waiting → s'.m.params.doSwitch = false →
      ∃ n, let s' := run checkForConflict s (List.replicate n (.rt false time r) ++ [.svc])
        s'.at_ = .idle ∧ s'.m.trace.getLast? = some (.switchRet true) := by
    intro n s' e h1 h2
    refine ⟨n, ?_⟩
    have : run checkForConflict s (List.replicate n (.rt false time r) ++ [.svc]) = step checkForConflict s' .svc := by
      rw [← e, ← one_run (conf := checkForConflict), run, List.foldl_append]; rfl
    simp only [this]
    exact fin s' h1 h2
  obtain ⟨m', n, hn⟩ := gets_any (reset := false) (time := time) (hw := r) s
  obtain ⟨j1, j2⟩ := one_inv (reset := false) (time := time) (hw := r) checkOk_checkForConflict.mono n i1 i2
  have hc' : ((one false time r)^[n] s).m.cur = m.cur := by
    rw [← one_run (conf := checkForConflict), cur_run, hcur]
  rw [hn] at j1 j2 hc'
  cases hd' : m'.params.doSwitch with
  | false => exact wrap n _ hn hw hd'
  | true =>
    obtain ⟨k, _, ek⟩ := gets_update (reset := false) (time := time) (hw := r) { s with m := m', rt := .idle } rfl
    simp only [Bool.false_eq_true, if_false, hd', if_true] at ek
    have sane : Sane m' := by
      refine ⟨by rw [show m'.cur = m.cur from hc']; exact hm.objs, j2.start, j1.stop, fun c hc => ?_⟩
      exact j2.inited c.c (List.mem_map_of_mem hc)
    exact wrap (k + n) { s with m := m'.manageSwitch time r, rt := .idle } (by rw [Function.iterate_add_apply, hn, ek]) hw
      (manageSwitch_ends sane hd' h1 hp)

/-- The call of `goodRace` waits after eleven steps. -/
example : (run checkForConflict (start demo) (goodRace.take 12)).at_ matches .waiting := by decide

/-- The call in `goodRace` returns true and its parameters say that the hardware was switched. -/
example : (run checkForConflict (start demo) goodRace).m.trace.getLast? = some (.switchRet true) ∧
    (run checkForConflict (start demo) goodRace).m.params.started = true := by decide

end Verif.Race
