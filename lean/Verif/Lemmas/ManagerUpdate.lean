import Verif.Lemmas.ManagerPhases

/-!
Helper lemmas for the manager: a complete realtime update in closed form.
-/

namespace Verif

namespace Mgr

/-- Assumptions on a state under which an update dereferences no dangling pointer. -/
structure Sane (m : Mgr) : Prop where
  objs : (m.cur.map (·.c)).Nodup
  start : ∀ c ∈ m.startReq, c ∈ m.cur.map (·.c)
  stop : ∀ c ∈ m.stopReq, c ∈ m.cur.map (·.c)
  inited : ∀ s ∈ m.cur, m.state s.c ≠ .constructed

theorem Sane.alive {m : Mgr} {c : CId} (h : c ∈ m.cur.map (·.c)) : m.alive c = true := by
  obtain ⟨s, hs, rfl⟩ := List.mem_map.1 h
  exact alive_of_mem hs

theorem Sane.state {m : Mgr} (hm : Sane m) {c : CId} (h : c ∈ m.cur.map (·.c)) :
    m.state c ≠ .constructed := by
  obtain ⟨s, hs, rfl⟩ := List.mem_map.1 h
  exact hm.inited s hs

/-- Why a controller may be aborted in an update. -/
def AbortCause (m : Mgr) (time : Int) (hw : HwReply) (c : CId) : Prop :=
  timedOut m.params time = true ∨
    (m.params.asap = false ∧ hw.first ≠ .done ∧ hw.second = .error) ∨
    (m.params.asap = true ∧ AsapCause m 0 m.startReq hw c fun a => a.1 ≠ .done ∧ a.2 = .error)

/-- The hardware reported that `c` may start. -/
def StartCause (m : Mgr) (hw : HwReply) (c : CId) : Prop :=
  (m.params.asap = false ∧ hw.first = .done) ∨
    (m.params.asap = true ∧ AsapCause m 0 m.startReq hw c fun a => a.1 = .done)

/-- Effect of the starting phase: final states, events, new value of `do_switch`. -/
structure StartOut (m : Mgr) (time : Int) (hw : HwReply) (st : CId → CState) (es : List Event)
    (d : Bool) : Prop where
  outside : ∀ x, x ∉ m.startReq → st x = m.state x
  inside : ∀ x ∈ m.startReq, st x = .running ∨ st x = .aborted ∨ st x = .waiting
  finished : d = false → ∀ x ∈ m.startReq, st x = .running ∨ st x = .aborted
  pending : d = true →
    (m.params.asap = false ∧ hw.first ≠ .done ∧ hw.second ≠ .error ∧
      timedOut m.params time = false) ∨
    (m.params.asap = true ∧ ∃ x ∈ m.startReq, st x = .waiting)
  aborted : ∀ x ∈ m.startReq, st x = .aborted → AbortCause m time hw x ∧ .cb x .aborting ∈ es
  events : ∀ e ∈ es, ∃ c ∈ m.startReq,
    (e = .cb c .starting ∧ StartCause m hw c) ∨
    (e = .cb c .aborting ∧ AbortCause m time hw c) ∨ e = .cb c .waiting
  started : ∀ x ∈ m.startReq, st x = .running → m.state x = .running ∨ .cb x .starting ∈ es
  allDone : m.params.asap = false → hw.first = .done →
    d = false ∧ es = m.startReq.map (.cb · .starting) ∧ ∀ x ∈ m.startReq, st x = .running
  asapRunning : m.params.asap = true → ∀ e ∈ es, ∀ c k, e = .cb c k → m.state c ≠ .running

/-- The starting phase on controller states only: final states, events, new `do_switch`. -/
def startPure (m : Mgr) (time : Int) (hw : HwReply) : (CId → CState) × List Event × Bool :=
  if m.params.asap then
    let r := asapPure m time hw 0 m.startReq m.state
    (r.1, r.2, !(m.startReq.all fun c => (r.1 c).isRunning || (r.1 c).isAborted))
  else if hw.first = .done then
    (fun x => if x ∈ m.startReq then .running else m.state x, m.startReq.map (.cb · .starting), false)
  else if hw.second = .error || timedOut m.params time then
    (fun x => if x ∈ m.startReq then .aborted else m.state x, m.startReq.map (.cb · .aborting), false)
  else
    (fun x => if x ∈ m.startReq then .waiting else m.state x, m.startReq.map (.cb · .waiting), true)

theorem setDoSwitch_eq (m : Mgr) (hd : m.params.doSwitch = true) (st : CId → CState)
    (es : List Event) :
    m.upd st es = { m.upd st es with params := { m.params with doSwitch := true } } := by
  have : { m.params with doSwitch := true } = m.params := by
    cases h : m.params; simp_all
  rw [this]; rfl

theorem startControllers_out (m : Mgr) (hm : Sane m) (hd : m.params.doSwitch = true)
    (ha : m.params.asap = false) (time : Int) (hw : HwReply) :
    ∃ st es d, m.startPure time hw = (st, es, d) ∧ m.startControllers time hw =
        { m.upd st es with params := { m.params with doSwitch := d } } ∧
      StartOut m time hw st es d := by
  have hal : ∀ c ∈ m.startReq, m.alive c = true := fun c hc => Sane.alive (hm.start c hc)
  have hst : ∀ c ∈ m.startReq, m.state c ≠ .constructed := fun c hc => hm.state (hm.start c hc)
  unfold startControllers
  split
  · rename_i h
    rw [foldl_oneShot oneShot_start _ _ hal hst]
    refine ⟨_, _, false, by simp [startPure, ha, h], rfl, ?_⟩
    constructor <;> simp +contextual [ha, StartCause, h]
  · rename_i h
    split
    · rename_i h2
      rw [foldl_oneShot oneShot_abort _ _ hal hst]
      have h2' := h2
      have hc : ∀ c, AbortCause m time hw c := by
        intro c
        simp only [Bool.or_eq_true, decide_eq_true_eq] at h2
        rcases h2 with h2 | h2
        · exact Or.inr (Or.inl ⟨ha, h, h2⟩)
        · exact Or.inl h2
      refine ⟨_, _, false, ?_, rfl, ?_⟩
      · unfold startPure
        rw [if_neg (by simp [ha]), if_neg h, if_pos h2']
      constructor <;> simp +contextual [ha, hc, h]
    · rename_i h2
      rw [foldl_oneShot oneShot_wait _ _ hal hst]
      have h2' := h2
      simp only [Bool.or_eq_true, decide_eq_true_eq, not_or, Bool.not_eq_true] at h2
      refine ⟨_, _, true, ?_, setDoSwitch_eq m hd _ _, ?_⟩
      · unfold startPure
        rw [if_neg (by simp [ha]), if_neg h, if_neg h2']
      · constructor <;> simp +contextual [ha, h, h2]

theorem startControllersAsap_out (m : Mgr) (hm : Sane m) (hd : m.params.doSwitch = true)
    (ha : m.params.asap = true) (time : Int) (hw : HwReply) :
    ∃ st es d, m.startPure time hw = (st, es, d) ∧ m.startControllersAsap time hw =
        { m.upd st es with params := { m.params with doSwitch := d } } ∧
      StartOut m time hw st es d := by
  have hst : ∀ c ∈ m.startReq, m.state c ≠ .constructed := fun c hc => hm.state (hm.start c hc)
  obtain ⟨st, es, h0, h1, h2⟩ := asapLoop_out time hw 0 m.startReq m hm.objs hm.start hst
  have cause : ∀ x, AsapCause m 0 m.startReq hw x (m.abortReply time) → AbortCause m time hw x := by
    rintro x ⟨n, s, hi, hs, hx, h0, h | h⟩
    · exact Or.inr (Or.inr ⟨ha, n, s, hi, hs, hx, h0, h⟩)
    · exact Or.inl h
  refine ⟨st, es, !(m.startReq.all fun c => (st c).isRunning || (st c).isAborted), ?_, ?_, ?_⟩
  · simp [startPure, ha, h0]
  · unfold startControllersAsap
    rw [h1]
    by_cases h : (m.startReq.all fun c => (st c).isRunning || (st c).isAborted) = true
    · refine (if_pos h).trans ?_
      rw [h]; rfl
    · refine (if_neg h).trans ?_
      rw [(Bool.not_eq_true _).mp h]
      exact setDoSwitch_eq m hd _ _
  · constructor
    · exact h2.outside
    · intro x hx
      by_cases hr : m.state x = .running
      · exact Or.inl (h2.running x hr)
      · exact h2.inside x hx hr
    · intro hd x hx
      simp only [Bool.not_eq_false', List.all_eq_true] at hd
      have := hd x hx
      simpa [CState.isRunning, CState.isAborted] using this
    · intro hd
      right
      refine ⟨ha, ?_⟩
      simp only [Bool.not_eq_true', List.all_eq_false] at hd
      obtain ⟨x, hx, hn⟩ := hd
      refine ⟨x, hx, ?_⟩
      simp only [CState.isRunning, CState.isAborted, Bool.or_eq_true, decide_eq_true_eq, not_or] at hn
      have : m.state x ≠ .running := fun h => hn.1 (h2.running x h)
      rcases h2.inside x hx this with h | h | h
      · exact absurd h hn.1
      · exact absurd h hn.2
      · exact h
    · intro x hx hab
      have : m.state x ≠ .running := by
        intro h; rw [h2.running x h] at hab; cases hab
      exact ⟨cause x (h2.aborted x hx this hab).1, (h2.aborted x hx this hab).2⟩
    · intro e he
      obtain ⟨c, hc, _, h⟩ := h2.events e he
      refine ⟨c, hc, ?_⟩
      rcases h with ⟨h, h'⟩ | ⟨h, h'⟩ | h
      · exact Or.inl ⟨h, Or.inr ⟨ha, h'⟩⟩
      · exact Or.inr (Or.inl ⟨h, cause c h'⟩)
      · exact Or.inr (Or.inr h)
    · intro x hx hrun
      by_cases hr : m.state x = .running
      · exact Or.inl hr
      · exact Or.inr (h2.started x hx hr hrun)
    · intro h; rw [ha] at h; cases h
    · rintro _ e he c k rfl
      obtain ⟨x, _, hx, h⟩ := h2.events _ he
      rcases h with ⟨h, _⟩ | ⟨h, _⟩ | h <;> (cases h; exact hx)

/-- States after the stopping phase. -/
def stopState (m : Mgr) : CId → CState :=
  fun x => if x ∈ m.stopReq ∧ m.state x = .running then .stopped else m.state x

/-- The state in which the starting phase of a switch begins. -/
def atStart (m : Mgr) : Mgr :=
  { m with state := m.stopState, params := { m.params with started := true } }

/-- Events of the first phases of a switch. -/
def hwEvents (m : Mgr) : List Event :=
  if m.params.started then [] else [.doSwitch m.swStart m.swStop]

theorem manageSwitch_out (m : Mgr) (hm : Sane m) (hd : m.params.doSwitch = true)
    (time : Int) (hw : HwReply) :
    ∃ st es d, m.atStart.startPure time hw = (st, es, d) ∧ m.manageSwitch time hw =
        { m.upd st (m.hwEvents ++ stopEvents m.isRunning m.stopReq ++ es) with
          params := { m.params with started := true, doSwitch := d } } ∧
      StartOut m.atStart time hw st es d := by
  -- state after the hardware call
  set m1 : Mgr := { m.upd m.state m.hwEvents with params := { m.params with started := true } } with hm1
  have e1 : (if !m.params.started then
      { m.emit [.doSwitch m.swStart m.swStop] with params := { m.params with started := true } }
      else m) = m1 := by
    rw [hm1]
    by_cases h : m.params.started = true
    · simp only [h, hwEvents, Bool.not_true, Bool.false_eq_true, if_false, if_true, upd]
      cases m; rename_i p _ _ _; cases p; simp_all
    · simp only [Bool.not_eq_true] at h
      simp [h, hwEvents, upd, emit]
  have hal : ∀ c ∈ m1.stopReq, m1.alive c = true := fun c hc => Sane.alive (m := m) (hm.stop c hc)
  have e2 : m1.stopControllers =
      m1.upd m.stopState (stopEvents m.isRunning m.stopReq) := stopControllers_eq m1 hal
  set m2 : Mgr := m1.upd m.stopState (stopEvents m.isRunning m.stopReq) with hm2
  have hs2 : Sane m2 := by
    refine ⟨hm.objs, hm.start, hm.stop, ?_⟩
    intro s hs
    show m.stopState s.c ≠ _
    unfold stopState
    split
    · simp
    · exact hm.inited s hs
  have hd2 : m2.params.doSwitch = true := hd
  have key : ∃ st es d, m2.startPure time hw = (st, es, d) ∧ (if !m2.params.asap then m2.startControllers time hw
        else m2.startControllersAsap time hw) =
        { m2.upd st es with params := { m2.params with doSwitch := d } } ∧
      StartOut m2 time hw st es d := by
    cases ha : m2.params.asap
    · simpa [ha] using startControllers_out m2 hs2 hd2 ha time hw
    · simpa [ha] using startControllersAsap_out m2 hs2 hd2 ha time hw
  obtain ⟨st, es, d, h0, h1, h2⟩ := key
  refine ⟨st, es, d, ?_, ?_, ?_⟩
  · rw [← h0]
    unfold startPure
    have : ∀ n cs st, asapPure m.atStart time hw n cs st = asapPure m2 time hw n cs st := by
      intro n cs
      induction cs generalizing n with
      | nil => intro st; rfl
      | cons c cs ih => intro st; simp only [asapPure, ih]; rfl
    rw [this]; rfl
  · have : m.manageSwitch time hw = (if !m2.params.asap then m2.startControllers time hw
        else m2.startControllersAsap time hw) := by
      unfold manageSwitch
      simp only [e1, e2]
    rw [this, h1]
    simp [hm2, hm1, upd]
  · exact ⟨h2.outside, h2.inside, h2.finished, h2.pending, h2.aborted, h2.events, h2.started,
      h2.allDone, h2.asapRunning⟩

/-- Events of an update before any switch. -/
def drivenEvents (m : Mgr) (reset : Bool) : List Event :=
  (if reset then m.resetEvents else []) ++ m.updateEvents

theorem update_prefix (m : Mgr) (reset : Bool) :
    (let m := { m with used := some m.current }
     let m := if reset then m.resetControllers else m
     m.updateControllers) =
      { m.upd m.state (m.drivenEvents reset) with used := some m.current } := by
  cases reset
  · simp only [updateControllers_eq, drivenEvents, Bool.false_eq_true, if_false, List.nil_append]
    rfl
  · simp only [if_true, resetControllers_eq, updateControllers_eq, drivenEvents, upd_upd]
    rfl

/-- A realtime update when no switch is pending. -/
theorem update_idle (m : Mgr) (hd : m.params.doSwitch = false) (time : Int) (reset : Bool)
    (hw : HwReply) :
    m.update time reset hw =
      { m.upd m.state (m.drivenEvents reset) with used := some m.current } := by
  have h := update_prefix m reset
  simp only at h
  unfold update
  simp only [h]
  rw [if_neg]
  show ¬ (m.params.doSwitch = true)
  simp [hd]

/-- A realtime update when a switch is pending. -/
theorem update_switch (m : Mgr) (hm : Sane m) (hd : m.params.doSwitch = true) (time : Int)
    (reset : Bool) (hw : HwReply) :
    ∃ st es d, m.atStart.startPure time hw = (st, es, d) ∧ m.update time reset hw =
        { m.upd st (m.drivenEvents reset ++ m.hwEvents ++ stopEvents m.isRunning m.stopReq ++ es) with
          params := { m.params with started := true, doSwitch := d }
          used := some m.current } ∧
      StartOut m.atStart time hw st es d := by
  have h := update_prefix m reset
  simp only at h
  have hs : Sane { m.upd m.state (m.drivenEvents reset) with used := some m.current } :=
    ⟨hm.objs, hm.start, hm.stop, hm.inited⟩
  obtain ⟨st, es, d, h0, h1, h2⟩ := manageSwitch_out _ hs hd time hw
  refine ⟨st, es, d, ?_, ?_, ?_⟩
  · rw [← h0]
    unfold startPure
    have : ∀ n cs st, asapPure m.atStart time hw n cs st =
        asapPure (atStart { m.upd m.state (m.drivenEvents reset) with used := some m.current })
          time hw n cs st := by
      intro n cs
      induction cs generalizing n with
      | nil => intro st; rfl
      | cons c cs ih => intro st; simp only [asapPure, ih]; rfl
    rw [this]; rfl
  · unfold update
    simp only [h]
    rw [if_pos (show (m.upd m.state (m.drivenEvents reset)).params.doSwitch = true from hd), h1]
    simp only [upd, List.append_assoc]
    rfl
  · exact ⟨h2.outside, h2.inside, h2.finished, h2.pending, h2.aborted, h2.events, h2.started,
      h2.allDone, h2.asapRunning⟩

end Mgr

end Verif
