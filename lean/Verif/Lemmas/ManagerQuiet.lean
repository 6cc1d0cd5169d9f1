import Verif.Lemmas.ManagerHistory

/-!
Helper lemmas for the manager: what can happen while no switch is in progress.
-/

namespace Verif

namespace Mgr

/-- Events that may occur when no switch is in progress. -/
structure QuietEvents (reset hwDone : Bool) (es : List Event) : Prop where
  waiting : ∀ c, .cb c .waiting ∉ es
  aborting : ∀ c, .cb c .aborting ∉ es
  restart : reset = false → ∀ c, .cb c .starting ∉ es ∧ .cb c .stopping ∉ es
  hw : hwDone = true → ∀ a b, .doSwitch a b ∉ es

theorem QuietEvents.append {r h : Bool} {x y : List Event} (h1 : QuietEvents r h x)
    (h2 : QuietEvents r h y) : QuietEvents r h (x ++ y) := by
  refine ⟨?_, ?_, ?_, ?_⟩
  · intro c hc
    rcases List.mem_append.1 hc with hc | hc
    exacts [h1.waiting c hc, h2.waiting c hc]
  · intro c hc
    rcases List.mem_append.1 hc with hc | hc
    exacts [h1.aborting c hc, h2.aborting c hc]
  · intro hr c
    refine ⟨fun hc => ?_, fun hc => ?_⟩
    · rcases List.mem_append.1 hc with hc | hc
      exacts [(h1.restart hr c).1 hc, (h2.restart hr c).1 hc]
    · rcases List.mem_append.1 hc with hc | hc
      exacts [(h1.restart hr c).2 hc, (h2.restart hr c).2 hc]
  · intro hh a b hc
    rcases List.mem_append.1 hc with hc | hc
    exacts [h1.hw hh a b hc, h2.hw hh a b hc]

theorem quiet_of_noCb {r h : Bool} {es : List Event} (h1 : NoCb es) (h2 : ∀ e ∈ es, Neutral e) :
    QuietEvents r h es :=
  ⟨fun c => h1 c _, fun c => h1 c _, fun _ c => ⟨h1 c _, h1 c _⟩,
    fun _ _ _ hh => h2 _ hh⟩

theorem quiet_driven (m : Mgr) (reset h : Bool) : QuietEvents reset h (m.drivenEvents reset) := by
  refine ⟨?_, ?_, ?_, ?_⟩
  · intro c hc
    obtain ⟨s, _, _, hh⟩ := mem_drivenEvents hc
    rcases hh with e | ⟨_, e | e⟩ <;> cases e
  · intro c hc
    obtain ⟨s, _, _, hh⟩ := mem_drivenEvents hc
    rcases hh with e | ⟨_, e | e⟩ <;> cases e
  · intro hr c
    refine ⟨fun hc => ?_, fun hc => ?_⟩
    all_goals
      obtain ⟨s, _, _, hh⟩ := mem_drivenEvents hc
      rcases hh with e | ⟨hr', e | e⟩
      · cases e
      all_goals rw [hr] at hr'; cases hr'
  · intro _ a b hc
    obtain ⟨s, _, _, hh⟩ := mem_drivenEvents hc
    rcases hh with e | ⟨_, e | e⟩ <;> cases e

/-- An update while no switch is in progress: no controller changes its state; at most a
hardware switch left over from an abandoned call is done. -/
theorem update_quiet {P} {m : Mgr} (h : Inv P m) (hs : ¬ m.Switching) (time : Int) (reset : Bool)
    (hw : HwReply) :
    (m.update time reset hw).state = m.state ∧
    (m.update time reset hw).trace = m.trace ++ (m.drivenEvents reset ++
      if m.params.doSwitch = true then m.hwEvents else []) := by
  obtain ⟨c1, c2⟩ := h.reqs hs
  cases hd : m.params.doSwitch
  · rw [update_idle m hd]; simp [upd]
  · obtain ⟨st, es, d, _, he, ho⟩ := update_switch m h.sane hd time reset hw
    have hst : st = m.state := by
      funext x
      have := ho.outside x (by show x ∉ m.startReq; rw [c1]; simp)
      rw [this]
      show m.stopState x = _
      simp [stopState, c2]
    have hes : es = [] := by
      cases es with
      | nil => rfl
      | cons e es =>
        obtain ⟨c, hc, _⟩ := ho.events e (by simp)
        change c ∈ m.startReq at hc
        rw [c1] at hc; cases hc
    rw [he, hst, hes, c2]
    simp [upd, stopEvents]

theorem quiet_step {conf P} {m : Mgr} (h : Inv P m) (hs : ¬ m.Switching) (op : Op)
    (hop : op.rosUp) (hns : op.noSwitch) {reset : Bool} (hr : reset = false → op.noReset) :
    (∀ c < m.nextId, (m.step conf op).state c = m.state c) ∧
    (m.params.doSwitch = false → (m.step conf op).params.doSwitch = false) ∧
    ∃ es, (m.step conf op).trace = m.trace ++ es ∧ QuietEvents reset (!m.params.doSwitch) es := by
  cases op with
  | update t r hw =>
    obtain ⟨h1, h2⟩ := update_quiet h hs t r hw
    refine ⟨fun c _ => congrFun h1 c, ?_, _, h2, ?_⟩
    · intro hd; show (m.update t r hw).params.doSwitch = false
      rw [update_idle m hd]; exact hd
    · have hq : QuietEvents reset (!m.params.doSwitch) (m.drivenEvents r) := by
        have := quiet_driven m r (!m.params.doSwitch)
        refine ⟨this.waiting, this.aborting, ?_, this.hw⟩
        intro hh
        exact this.restart (hr hh)
      refine hq.append ?_
      split
      · rename_i hd
        refine ⟨?_, ?_, ?_, ?_⟩
        · intro c hc; cases (mem_hwEvents hc).1
        · intro c hc; cases (mem_hwEvents hc).1
        · intro _ c
          constructor
          · intro hc; cases (mem_hwEvents hc).1
          · intro hc; cases (mem_hwEvents hc).1
        · intro hh; rw [hd] at hh; cases hh
      · exact ⟨by simp, by simp, by simp, by simp⟩
  | load n e =>
    obtain ⟨es, h1, h2, h3⟩ := load_trace m n e
    refine ⟨?_, ?_, es, h1, quiet_of_noCb h2 h3⟩
    · intro c hc
      show (m.load n e).state c = _
      by_cases hi : m.svc = .idle
      swap
      · simp [load, hi]
      by_cases hu : m.used = some (!m.current)
      · simp [load, hi, hu]
      rcases load_cases m n e hi hu with ⟨ty, i, cl, _, _, _, _, _, e⟩ | ⟨_, o, _, e⟩
      · rw [e]; simp [loaded, ne_of_lt hc]
      · rw [e]
    · intro hd; show (m.load n e).params.doSwitch = false
      rw [(load_params m n e).1]; exact hd
  | unload n =>
    obtain ⟨es, h1, h2, h3⟩ := unload_trace h n
    refine ⟨?_, ?_, es, h1, quiet_of_noCb h2 h3⟩
    · intro c hc
      show (m.unload n).state c = _
      unfold unload
      split
      · rfl
      · rename_i hi
        have hi : m.svc = .idle := by simpa using hi
        rcases unloadCore_cases m n .ret id (h.used (not_releasing_of_idle hi)) with ⟨_, h2, e⟩ | ⟨_, e⟩
        · rw [e]; rfl
        · rw [e]; rfl
    · intro hd; show (m.unload n).params.doSwitch = false
      rw [(unload_params h n).1]; exact hd
  | switch r now p => cases hns
  | reload f now p => cases hns
  | poll ok e =>
    obtain ⟨es, h1, h2, h3⟩ := poll_trace h ok hop e
    refine ⟨fun c _ => congrFun (poll_cur h ok e).2.2 c, ?_, es, h1, ?_⟩
    · intro hd; show (m.poll ok e).params.doSwitch = false
      rw [(poll_params h ok e).1]; exact hd
    · rcases h3 with h3 | ⟨h3, _⟩
      · exact quiet_of_noCb h2 h3
      · exact absurd h3 hs

theorem quiet_run {conf} {m : Mgr} (h : Inv (fun _ => True) m) (hs : ¬ m.Switching) (ops : List Op)
    (hops : ∀ op ∈ ops, op.rosUp) (hns : ∀ op ∈ ops, op.noSwitch) {reset : Bool}
    (hr : reset = false → ∀ op ∈ ops, op.noReset) :
    (∀ c < m.nextId, (m.run conf ops).state c = m.state c) ∧
    ∃ es, (m.run conf ops).trace = m.trace ++ es ∧ QuietEvents reset (!m.params.doSwitch) es := by
  induction ops generalizing m with
  | nil => exact ⟨fun _ _ => rfl, [], by simp [run], by constructor <;> simp⟩
  | cons op ops ih =>
    have hop := hops op (by simp)
    obtain ⟨h1, h2, es1, e1, q1⟩ := quiet_step (conf := conf) (reset := reset) h hs op hop
      (hns op (by simp)) (fun hh => hr hh op (by simp))
    obtain ⟨h3, es2, e2, q2⟩ := ih (inv_step (checkOk_true conf) h op hop)
      (step_notSwitching h hs op hop (hns op (by simp)))
      (fun o ho => hops o (by simp [ho])) (fun o ho => hns o (by simp [ho]))
      (fun hh o ho => hr hh o (by simp [ho]))
    refine ⟨?_, es1 ++ es2, by rw [run_cons, e2, e1, List.append_assoc], q1.append ?_⟩
    · intro c hc
      rw [run_cons, h3 c (lt_of_lt_of_le hc (step_cur (conf := conf) h op).1), h1 c hc]
    · refine ⟨q2.waiting, q2.aborting, q2.restart, ?_⟩
      intro hh
      apply q2.hw
      have : m.params.doSwitch = false := by simpa using hh
      rw [h2 this]; rfl

theorem sameFuture_of_sim {conf} {m m' : Mgr} (h : Inv (fun _ => True) m)
    (h' : Inv (fun _ => True) m') (hs : Sim m.trace m'.trace m m') : SameFuture conf m m' := by
  intro ops hops
  obtain ⟨o, q, a, b, es, e, ht, _⟩ := sim_run (conf := conf) h h' hs ops hops
  refine ⟨es, ht, by rw [e], by rw [e]; rfl, by rw [e]⟩

end Mgr

end Verif
