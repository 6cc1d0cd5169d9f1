import Verif.Lemmas.ManagerInv

/-!
Helper lemmas for the manager: the content of the spare list, stale switch parameters and stale
hardware lists do not influence later behaviour.
-/

namespace Verif

namespace Mgr

/-- `m2` behaves like `m1`: the two differ at most in the spare list, in switch parameters and
hardware lists nobody will read, and in the events before `p1`/`p2`. -/
def Sim (p1 p2 : List Event) (m1 m2 : Mgr) : Prop :=
  ∃ (o : List CtrlSpec) (q : SwitchParams) (a b : List ControllerInfo) (es : List Event),
    m2 = { m1 with oth := o, params := q, swStart := a, swStop := b, trace := p2 ++ es } ∧
    m1.trace = p1 ++ es ∧ (m1.ReleasingList → o = m1.oth) ∧ q.doSwitch = m1.params.doSwitch ∧
    (m1.params.doSwitch = true → q = m1.params ∧ a = m1.swStart ∧ b = m1.swStop)

theorem asapPure_congr {m m' : Mgr} (h1 : m'.params = m.params) (h2 : m'.cur = m.cur) (time : Int)
    (hw : HwReply) (n : Nat) (cs : List CId) (st : CId → CState) :
    asapPure m' time hw n cs st = asapPure m time hw n cs st := by
  induction cs generalizing n st with
  | nil => rfl
  | cons c cs ih => simp only [asapPure, ih, asapDecision, h1, h2]

theorem startPure_congr {m m' : Mgr} (h1 : m'.params = m.params) (h2 : m'.cur = m.cur)
    (h3 : m'.startReq = m.startReq) (h4 : m'.state = m.state) (time : Int) (hw : HwReply) :
    m'.startPure time hw = m.startPure time hw := by
  unfold startPure
  rw [asapPure_congr h1 h2, h1, h3, h4]

theorem sim_update {p1 p2 : List Event} {m1 m2 : Mgr} {P Q} (i1 : Inv P m1) (i2 : Inv Q m2)
    (h : Sim p1 p2 m1 m2) (time : Int) (reset : Bool) (hw : HwReply) :
    Sim p1 p2 (m1.update time reset hw) (m2.update time reset hw) := by
  obtain ⟨o, q, a, b, es, e, ht, ho, hq, hp⟩ := h
  cases hd : m1.params.doSwitch
  · have hd2 : m2.params.doSwitch = false := by rw [e]; exact hq.trans hd
    rw [update_idle m1 hd, update_idle m2 hd2, e]
    refine ⟨o, q, a, b, es ++ m1.drivenEvents reset, ?_, ?_, ho, hq, hp⟩
    · simp [upd, drivenEvents, resetEvents, updateEvents, isRunning]
    · simp [upd, ht]
  · obtain ⟨rfl, rfl, rfl⟩ := hp hd
    have hd2 : m2.params.doSwitch = true := by rw [e]; exact hd
    obtain ⟨st, es1, d, hs1, h1, _⟩ := update_switch m1 i1.sane hd time reset hw
    obtain ⟨st2, es2, d2, hs2, h2, _⟩ := update_switch m2 i2.sane hd2 time reset hw
    have : m2.atStart.startPure time hw = m1.atStart.startPure time hw := by
      exact startPure_congr (by rw [e]; rfl) (by rw [e]; rfl) (by rw [e]; rfl) (by rw [e]; rfl) time hw
    rw [this, hs1] at hs2
    cases hs2
    rw [h1, h2, e]
    refine ⟨o, { m1.params with started := true, doSwitch := d }, m1.swStart, m1.swStop,
      es ++ (m1.drivenEvents reset ++ m1.hwEvents ++ stopEvents m1.isRunning m1.stopReq ++ es1),
      ?_, ?_, ho, rfl, fun _ => ⟨rfl, rfl, rfl⟩⟩
    · have e1 : ∀ (o : List CtrlSpec) (t : List Event), drivenEvents { m1 with oth := o, trace := t } reset = m1.drivenEvents reset :=
        fun _ _ => rfl
      have e2 : ∀ (o : List CtrlSpec) (t : List Event), hwEvents { m1 with oth := o, trace := t } = m1.hwEvents :=
        fun _ _ => rfl
      have e3 : ∀ (o : List CtrlSpec) (t : List Event), isRunning { m1 with oth := o, trace := t } = m1.isRunning :=
        fun _ _ => rfl
      simp only [e1, e2, e3, upd, List.append_assoc]
    · simp [upd, ht]

theorem not_releasing_of_idle {m : Mgr} (h : m.svc = .idle) : ¬ m.ReleasingList := by
  rintro ⟨k, t, e⟩; rw [h] at e; cases e

theorem not_switching_of_idle {m : Mgr} (h : m.svc = .idle) : ¬ m.Switching := by
  rintro ⟨k, t, e⟩; rw [h] at e; cases e

theorem sim_load {p1 p2 : List Event} {m1 m2 : Mgr}
    (h : Sim p1 p2 m1 m2) (name : String) (env : LoadEnv) :
    Sim p1 p2 (m1.load name env) (m2.load name env) := by
  have h' := h
  obtain ⟨o, q, a, b, es, e, ht, ho, hq, hp⟩ := h
  by_cases hi : m1.svc = .idle
  swap
  · have hi2 : m2.svc ≠ .idle := by rw [e]; exact hi
    simpa [load, hi, hi2] using h'
  have hi2 : m2.svc = .idle := by rw [e]; exact hi
  by_cases hu : m1.used = some (!m1.current)
  · have hu2 : m2.used = some (!m2.current) := by rw [e]; exact hu
    simpa [load, hi, hu, hi2, hu2] using h'
  have hu2 : m2.used ≠ some (!m2.current) := by rw [e]; exact hu
  have hc : m2.cur = m1.cur := by rw [e]
  rcases load_cases m1 name env hi hu with ⟨ty, i, cl, a1, a2, a3, a4, a5, e1⟩ | ⟨a1, o1, _, e1⟩ <;>
    rcases load_cases m2 name env hi2 hu2 with ⟨ty', i', cl', b1, b2, b3, b4, b5, e2⟩ | ⟨b1, o2, _, e2⟩
  · rw [a3] at b3; cases b3
    rw [a5] at b5; cases b5
    rw [e1, e2, e]
    refine ⟨m1.cur, q, a, b, es, rfl, ht, fun _ => rfl, hq, hp⟩
  · exact absurd ⟨by rw [hc]; exact a1, a2, ty, i, cl, a3, a4, a5⟩ b1
  · exact absurd ⟨by rw [← hc]; exact b1, b2, ty', i', cl', b3, b4, b5⟩ a1
  · rw [e1, e2, e]
    refine ⟨o2, q, a, b, es ++ [.loadRet name false], by simp, by simp [ht], ?_, hq, hp⟩
    rintro ⟨f, r, hf⟩
    have hf' : m1.svc = .releasing f r := hf
    rw [hi] at hf'; cases hf'

theorem sim_unloadCore {p1 p2 : List Event} {m1 m2 : Mgr} {P Q} (i1 : Inv P m1) (i2 : Inv Q m2)
    (h : Sim p1 p2 m1 m2) (hnr : ¬ m1.ReleasingList) (name : String) (k : Kont)
    (f : Mgr → Mgr) (hf : ∀ n1 n2, Sim p1 p2 n1 n2 → Sim p1 p2 (f n1) (f n2)) :
    Sim p1 p2 (m1.unloadCore name k f) (m2.unloadCore name k f) := by
  obtain ⟨o, q, a, b, es, e, ht, ho, hq, hp⟩ := h
  have hnr2 : ¬ m2.ReleasingList := by rw [e]; exact hnr
  have hc : m2.cur = m1.cur := by rw [e]
  have hr : m2.isRunning = m1.isRunning := by rw [e]; rfl
  rcases unloadCore_cases m1 name k f (i1.used hnr) with ⟨a1, a2, e1⟩ | ⟨a1, e1⟩ <;>
    rcases unloadCore_cases m2 name k f (i2.used hnr2) with ⟨b1, b2, e2⟩ | ⟨b1, e2⟩
  · rw [e1, e2, e]
    exact ⟨m1.cur, q, a, b, es, rfl, ht, fun _ => rfl, hq, hp⟩
  · exact absurd ⟨by rw [hc]; exact a1, by rw [hc, hr]; exact a2⟩ b1
  · exact absurd ⟨by rw [← hc]; exact b1, by rw [← hc, ← hr]; exact b2⟩ a1
  · rw [e1, e2]
    apply hf
    rw [e]
    exact ⟨[], q, a, b, es ++ [.unloadRet name false], by simp, by simp [ht], fun h => rfl, hq, hp⟩

theorem sim_switchCore {conf} {p1 p2 : List Event} {m1 m2 : Mgr} {P Q} (i1 : Inv P m1)
    (i2 : Inv Q m2) (h : Sim p1 p2 m1 m2) (hi : m1.svc = .idle) (r : SwitchReq) (now : Int)
    (prepOk : Bool) (k : Kont) :
    (m1.switchCore conf r now prepOk k).1 = (m2.switchCore conf r now prepOk k).1 ∧
    Sim p1 p2 (m1.switchCore conf r now prepOk k).2 (m2.switchCore conf r now prepOk k).2 := by
  obtain ⟨o, q, a, b, es, e, ht, ho, hq, hp⟩ := h
  have hi2 : m2.svc = .idle := by rw [e]; exact hi
  obtain ⟨c1, c2⟩ := i1.reqs (not_switching_of_idle hi)
  obtain ⟨d1, d2⟩ := i2.reqs (not_switching_of_idle hi2)
  have hnr := not_releasing_of_idle hi
  rw [switchCore_eq conf m1 r now prepOk k c1 c2, switchCore_eq conf m2 r now prepOk k d1 d2]
  have hg : m2.getControllerByName = m1.getControllerByName := by rw [e]; rfl
  have hs : ∀ x y l acc, m2.scan (strictOf r) x y l acc = m1.scan (strictOf r) x y l acc := by
    intro x y l
    induction l with
    | nil => intro acc; rfl
    | cons t l ih =>
      intro acc
      have hr : m2.isRunning = m1.isRunning := by rw [e]; rfl
      simp only [scan, ih, hr]
  have hc : m2.cur = m1.cur := by rw [e]
  simp only [hg, hs, hc]
  generalize m1.scan (strictOf r) (r.start.filterMap m1.getControllerByName)
    (r.stop.filterMap m1.getControllerByName) m1.cur {} = sc
  split
  · refine ⟨rfl, ?_⟩
    rw [e]
    exact ⟨o, {}, a, b, es ++ [.switchRet false], by simp, by simp [ht], fun h => absurd h hnr, rfl,
      fun h => by cases h⟩
  · split
    · refine ⟨rfl, ?_⟩
      rw [e]
      exact ⟨o, {}, sc.2.swStart, sc.2.swStop, es ++ [.switchRet false], by simp, by simp [ht],
        fun h => absurd h hnr, rfl, fun h => by cases h⟩
    · split
      · refine ⟨rfl, ?_⟩
        rw [e]
        exact ⟨o, {}, sc.2.swStart, sc.2.swStop,
          es ++ ([.prepareSwitch sc.2.swStart sc.2.swStop false] ++ [.switchRet false]),
          by simp only [List.append_assoc], by simp only [List.append_assoc, ht],
          fun h => absurd h hnr, rfl, fun h => by cases h⟩
      · refine ⟨rfl, ?_⟩
        rw [e]
        refine ⟨o, ⟨true, false, now,
            if r.strictness = 0 then strictnessBestEffort else r.strictness,
            r.asap, r.timeout⟩, sc.2.swStart, sc.2.swStop,
          es ++ [.prepareSwitch sc.2.swStart sc.2.swStop true, .accepted sc.2.swStart sc.2.swStop],
          by simp only [List.append_assoc], by simp only [List.append_assoc, ht], ?_, rfl,
          fun h => ⟨rfl, rfl, rfl⟩⟩
        rintro ⟨f, r, h⟩; cases h

/-- Emitting and moving the service thread. -/
theorem sim_emit {p1 p2 : List Event} {m1 m2 : Mgr} (h : Sim p1 p2 m1 m2) (es' : List Event) :
    Sim p1 p2 (m1.emit es') (m2.emit es') := by
  obtain ⟨o, q, a, b, es, e, ht, ho, hq, hp⟩ := h
  rw [e]
  exact ⟨o, q, a, b, es ++ es', by simp [emit], by simp [emit, ht], ho, hq, hp⟩

theorem sim_svc {p1 p2 : List Event} {m1 m2 : Mgr} (h : Sim p1 p2 m1 m2) (s : Svc)
    (hs : ∀ f r, s ≠ .releasing f r) :
    Sim p1 p2 { m1 with svc := s } { m2 with svc := s } := by
  obtain ⟨o, q, a, b, es, e, ht, ho, hq, hp⟩ := h
  rw [e]
  refine ⟨o, q, a, b, es, rfl, ht, ?_, hq, hp⟩
  rintro ⟨f, r, h⟩; exact absurd h (hs f r)

theorem sim_clear {p1 p2 : List Event} {m1 m2 : Mgr} (h : Sim p1 p2 m1 m2) :
    Sim p1 p2 { m1 with startReq := [], stopReq := [] } { m2 with startReq := [], stopReq := [] } := by
  obtain ⟨o, q, a, b, es, e, ht, ho, hq, hp⟩ := h
  rw [e]
  exact ⟨o, q, a, b, es, rfl, ht, ho, hq, hp⟩

theorem sim_finish {p1 p2 : List Event} {m1 m2 : Mgr} (h : Sim p1 p2 m1 m2) (k : Kont) (ok : Bool) :
    Sim p1 p2 (m1.finish k ok) (m2.finish k ok) := by
  cases k with
  | ret => exact sim_svc h .idle (by simp)
  | reload rest =>
    cases ok
    · exact sim_emit (sim_svc h .idle (by simp)) _
    · exact sim_svc h (.unloading rest) (by simp)

theorem sim_clearOld {p1 p2 : List Event} {m1 m2 : Mgr} (h : Sim p1 p2 m1 m2) (hr : m1.ReleasingList) :
    Sim p1 p2 m1.clearOld m2.clearOld := by
  obtain ⟨o, q, a, b, es, e, ht, ho, hq, hp⟩ := h
  have := ho hr
  subst this
  have hd : m2.dropped = m1.dropped := by rw [e]; rfl
  unfold clearOld
  rw [hd, e]
  exact ⟨[], q, a, b, es ++ m1.dropped.map .destroyed, by simp [emit], by simp [emit, ht],
    fun _ => rfl, hq, hp⟩

theorem sim_poll {p1 p2 : List Event} {m1 m2 : Mgr} {P Q} (i1 : Inv P m1) (i2 : Inv Q m2)
    (h : Sim p1 p2 m1 m2) (ok : RosOk) (elapsed : Int) :
    Sim p1 p2 (m1.poll ok elapsed) (m2.poll ok elapsed) := by
  have hsvc : m2.svc = m1.svc := by obtain ⟨o, q, a, b, es, e, _⟩ := h; rw [e]
  have hds : m2.params.doSwitch = m1.params.doSwitch := by
    obtain ⟨o, q, a, b, es, e, _, _, hq, _⟩ := h; rw [e]; exact hq
  have hus : m2.used = m1.used := by obtain ⟨o, q, a, b, es, e, _⟩ := h; rw [e]
  unfold poll
  rw [hsvc]
  cases hv : m1.svc with
  | idle => exact h
  | switching k timeout =>
    simp only [hds]
    split
    · split
      · exact sim_finish (sim_emit h _) _ _
      · split
        · exact h
        · exact sim_finish (sim_emit (sim_clear h) _) _ _
    · exact sim_finish (sim_emit (sim_clear h) _) _ _
  | releasing former r =>
    simp only [hus]
    have hr : m1.ReleasingList := ⟨_, _, hv⟩
    split
    · split
      · cases r with
        | load name => exact sim_svc (sim_emit h _) .idle (by simp)
        | unload name k => exact sim_finish (sim_emit h _) _ _
      · exact h
    · cases r with
      | load name => exact sim_svc (sim_emit (sim_clearOld h hr) _) .idle (by simp)
      | unload name k => exact sim_finish (sim_emit (sim_clearOld h hr) _) _ _
  | unloading rest =>
    cases rest with
    | nil => exact sim_emit (sim_svc h .idle (by simp)) _
    | cons n ns =>
      refine sim_unloadCore i1 i2 h ?_ n _ _ ?_
      · rintro ⟨f, r, e⟩; rw [hv] at e; cases e
      · intro n1 n2 hn; exact sim_emit (sim_svc hn .idle (by simp)) _

theorem sim_step {conf} {p1 p2 : List Event} {m1 m2 : Mgr} {P Q} (i1 : Inv P m1) (i2 : Inv Q m2)
    (h : Sim p1 p2 m1 m2) (op : Op) : Sim p1 p2 (m1.step conf op) (m2.step conf op) := by
  have hsvc : m2.svc = m1.svc := by obtain ⟨o, q, a, b, es, e, _⟩ := h; rw [e]
  cases op with
  | update t r hw => exact sim_update i1 i2 h t r hw
  | load n e => exact sim_load h n e
  | unload n =>
    show Sim p1 p2 (m1.unload n) (m2.unload n)
    unfold unload
    rw [hsvc]
    split
    · exact h
    · rename_i hi
      have hi : m1.svc = .idle := by simpa using hi
      exact sim_unloadCore i1 i2 h (not_releasing_of_idle hi) n _ _ fun _ _ h => h
  | switch r now p =>
    show Sim p1 p2 (m1.switch conf r now p) (m2.switch conf r now p)
    unfold switch
    rw [hsvc]
    split
    · exact h
    · rename_i hi
      have hi : m1.svc = .idle := by simpa using hi
      exact (sim_switchCore i1 i2 h hi r now p .ret).2
  | reload f now p =>
    show Sim p1 p2 (m1.reload conf f now p) (m2.reload conf f now p)
    unfold reload
    rw [hsvc]
    split
    · exact h
    · rename_i hi
      have hi : m1.svc = .idle := by simpa using hi
      have hn : m2.getControllerNames = m1.getControllerNames := by
        obtain ⟨o, q, a, b, es, e, _⟩ := h; rw [e]; rfl
      simp only [hn]
      split
      · exact sim_emit h _
      · split
        · have := sim_switchCore (conf := conf) i1 i2 h hi ⟨[], m1.getControllerNames, strictnessBestEffort, false, 0⟩
            now p (.reload m1.getControllerNames)
          revert this
          generalize m1.switchCore conf ⟨[], m1.getControllerNames, strictnessBestEffort, false, 0⟩
            now p (.reload m1.getControllerNames) = x1
          generalize m2.switchCore conf ⟨[], m1.getControllerNames, strictnessBestEffort, false, 0⟩
            now p (.reload m1.getControllerNames) = x2
          obtain ⟨b1, n1⟩ := x1
          obtain ⟨b2, n2⟩ := x2
          rintro ⟨h1, h2⟩
          simp only at h1 h2
          subst h1
          cases b1
          · exact sim_emit h2 _
          · exact h2
        · exact sim_emit h _
  | poll ok e => exact sim_poll i1 i2 h ok e

theorem sim_run {conf} {p1 p2 : List Event} {m1 m2 : Mgr} (i1 : Inv (fun _ => True) m1)
    (i2 : Inv (fun _ => True) m2) (h : Sim p1 p2 m1 m2) (ops : List Op)
    (hops : ∀ op ∈ ops, op.rosUp) : Sim p1 p2 (m1.run conf ops) (m2.run conf ops) := by
  induction ops generalizing m1 m2 with
  | nil => exact h
  | cons op ops ih =>
    have hop := hops op (by simp)
    exact ih (inv_step (checkOk_true conf) i1 op hop) (inv_step (checkOk_true conf) i2 op hop)
      (sim_step i1 i2 h op) fun o ho => hops o (by simp [ho])

end Mgr

end Verif
