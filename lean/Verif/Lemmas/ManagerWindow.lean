import Verif.Lemmas.ManagerHwOrder

/-!
Helper lemmas for the manager: what happens between the acceptance of a switch and its end.
-/

namespace Verif

namespace Mgr

/-- `m'` is still in the switch `m` is in. -/
structure SameSwitch (m m' : Mgr) : Prop where
  svc : m'.svc = m.svc
  cur : m'.cur = m.cur
  nextId : m'.nextId = m.nextId
  startReq : m'.startReq = m.startReq
  stopReq : m'.stopReq = m.stopReq
  swStart : m'.swStart = m.swStart
  swStop : m'.swStop = m.swStop
  asap : m'.params.asap = m.params.asap
  timeout : m'.params.timeout = m.params.timeout
  initTime : m'.params.initTime = m.params.initTime

theorem SameSwitch.refl (m : Mgr) : SameSwitch m m := ⟨rfl, rfl, rfl, rfl, rfl, rfl, rfl, rfl, rfl, rfl⟩

theorem SameSwitch.trans {a b c : Mgr} (h1 : SameSwitch a b) (h2 : SameSwitch b c) : SameSwitch a c :=
  ⟨h2.svc.trans h1.svc, h2.cur.trans h1.cur, h2.nextId.trans h1.nextId,
    h2.startReq.trans h1.startReq, h2.stopReq.trans h1.stopReq, h2.swStart.trans h1.swStart,
    h2.swStop.trans h1.swStop, h2.asap.trans h1.asap, h2.timeout.trans h1.timeout,
    h2.initTime.trans h1.initTime⟩

theorem sameSwitch_update {P} {m : Mgr} (h : Inv P m) (time : Int) (reset : Bool) (hw : HwReply) :
    SameSwitch m (m.update time reset hw) := by
  cases hd : m.params.doSwitch
  · rw [update_idle m hd]; exact ⟨rfl, rfl, rfl, rfl, rfl, rfl, rfl, rfl, rfl, rfl⟩
  · obtain ⟨st, es, d, _, he, ho⟩ := update_switch m h.sane hd time reset hw
    rw [he]; exact ⟨rfl, rfl, rfl, rfl, rfl, rfl, rfl, rfl, rfl, rfl⟩

theorem poll_switching {m : Mgr} {k : Kont} {t : Int} (hs : m.svc = .switching k t) (ok : RosOk)
    (hok : ok.cond = true ∧ ok.body = true) (elapsed : Int) :
    (m.params.doSwitch = true ∧ m.poll ok elapsed = m) ∨ ¬ (m.poll ok elapsed).Switching := by
  have hfin : ∀ (n : Mgr) (b : Bool), ¬ (n.finish k b).Switching := by
    rintro n b ⟨k', t', e⟩
    cases k <;> cases b <;> cases e
  unfold poll
  rw [hs]
  simp only [hok.1, hok.2, Bool.true_and, Bool.not_true, Bool.false_eq_true, if_false]
  split
  · rename_i hd
    split
    · exact Or.inl ⟨hd, rfl⟩
    · exact Or.inr (hfin _ _)
  · exact Or.inr (hfin _ _)

/-- While a switch is in progress other service calls wait. -/
theorem step_switching {conf} {m : Mgr} {k : Kont} {t : Int}
    (hs : m.svc = .switching k t) (op : Op) (hop : op.rosUp) :
    (∃ time reset hw, op = .update time reset hw) ∨ m.step conf op = m ∨
      ¬ (m.step conf op).Switching := by
  have hni : m.svc ≠ .idle := by rw [hs]; simp
  cases op with
  | update t r hw => exact Or.inl ⟨_, _, _, rfl⟩
  | load n e => right; left; show m.load n e = m; simp [load, hni]
  | unload n => right; left; show m.unload n = m; simp [unload, hni]
  | switch r now p => right; left; show m.switch conf r now p = m; simp [switch, hni]
  | reload f now p => right; left; show m.reload conf f now p = m; simp [reload, hni]
  | poll ok e =>
    right
    rcases poll_switching hs ok hop e with ⟨_, h⟩ | h
    · exact Or.inl h
    · exact Or.inr h

theorem step_notSwitching {conf P} {m : Mgr} (h : Inv P m) (hs : ¬ m.Switching) (op : Op)
    (hop : op.rosUp) (hns : op.noSwitch) : ¬ (m.step conf op).Switching := by
  have keep : ∀ m' : Mgr, m'.svc = m.svc → ¬ m'.Switching := by
    rintro m' e ⟨k, t, e'⟩; exact hs ⟨k, t, e ▸ e'⟩
  have hrel : ∀ m' : Mgr, ∀ f r, m'.svc = .releasing f r → ¬ m'.Switching := by
    rintro m' f r e ⟨k, t, e'⟩; rw [e] at e'; cases e'
  have hid : ∀ m' : Mgr, m'.svc = .idle → ¬ m'.Switching := by
    rintro m' e ⟨k, t, e'⟩; rw [e] at e'; cases e'
  cases op with
  | update t r hw => exact keep _ (update_cur h t r hw).2.2.1
  | load n e =>
    show ¬ (m.load n e).Switching
    by_cases hi : m.svc = .idle
    swap
    · exact keep _ (by simp [load, hi])
    by_cases hu : m.used = some (!m.current)
    · exact keep _ (by simp [load, hi, hu])
    rcases load_cases m n e hi hu with ⟨ty, i, cl, _, _, _, _, _, e⟩ | ⟨_, o, _, e⟩
    · rw [e]; exact hrel _ _ _ rfl
    · rw [e]; exact keep _ rfl
  | unload n =>
    show ¬ (m.unload n).Switching
    unfold unload
    split
    · exact hs
    · rename_i hi
      have hi : m.svc = .idle := by simpa using hi
      rcases unloadCore_cases m n .ret id (h.used (not_releasing_of_idle hi)) with ⟨_, h2, e⟩ | ⟨_, e⟩
      · rw [e]; exact hrel _ _ _ rfl
      · rw [e]; exact keep _ rfl
  | switch r now p => cases hns
  | reload f now p => cases hns
  | poll ok e =>
    show ¬ (m.poll ok e).Switching
    have hfin : ∀ (n : Mgr) (k : Kont) (b : Bool), ¬ (n.finish k b).Switching := by
      rintro n k b ⟨k', t', e⟩
      cases k <;> cases b <;> cases e
    unfold poll
    split
    · exact hs
    · rename_i k t e; exact absurd ⟨k, t, e⟩ hs
    · rename_i f r hsvc
      simp only [hop.1, hop.2, Bool.true_and, Bool.not_true, Bool.false_eq_true, if_false]
      split
      · exact hs
      · cases r with
        | load name => exact hid _ rfl
        | unload name k => exact hfin _ _ _
    · exact hid _ rfl
    · rename_i n ns hsvc
      have hnr : ¬ m.ReleasingList := by rintro ⟨f, r, e⟩; rw [hsvc] at e; cases e
      rcases unloadCore_cases m n (.reload ns)
        (fun m => { m with svc := .idle }.emit [.reloadRet false]) (h.used hnr) with ⟨_, h2, e⟩ | ⟨_, e⟩
      · rw [e]; exact hrel _ _ _ rfl
      · rw [e]; exact hid _ rfl

theorem run_cons (conf : List ControllerInfo → Bool) (m : Mgr) (op : Op) (ops : List Op) :
    m.run conf (op :: ops) = (m.step conf op).run conf ops := rfl

theorem run_append (conf : List ControllerInfo → Bool) (m : Mgr) (a b : List Op) :
    m.run conf (a ++ b) = (m.run conf a).run conf b := List.foldl_append

theorem run_notSwitching {conf} {m : Mgr} (h : Inv (fun _ => True) m) (hs : ¬ m.Switching)
    (ops : List Op) (hops : ∀ op ∈ ops, op.rosUp) (hns : ∀ op ∈ ops, op.noSwitch) :
    ¬ (m.run conf ops).Switching := by
  induction ops generalizing m with
  | nil => exact hs
  | cons op ops ih =>
    exact ih (inv_step (checkOk_true conf) h op (hops op (by simp)))
      (step_notSwitching h hs op (hops op (by simp)) (hns op (by simp)))
      (fun o ho => hops o (by simp [ho])) (fun o ho => hns o (by simp [ho]))

/-- A run that starts in a switch and never calls a new one: if it ends in a switch, it is the
same one, and every property preserved by its updates holds at the end. -/
theorem run_window {conf} (R : Mgr → Prop)
    {m : Mgr} (h : Inv (fun _ => True) m) (hR : R m) (ops : List Op)
    (hupd : ∀ m' time reset hw, .update time reset hw ∈ ops → Inv (fun _ => True) m' → m'.Switching →
      SameSwitch m m' → R m' → R (m'.update time reset hw))
    (hops : ∀ op ∈ ops, op.rosUp) (hns : ∀ op ∈ ops, op.noSwitch)
    (he : (m.run conf ops).Switching) : R (m.run conf ops) ∧ SameSwitch m (m.run conf ops) := by
  induction ops generalizing m with
  | nil => exact ⟨hR, SameSwitch.refl m⟩
  | cons op ops ih =>
    rw [run_cons] at he ⊢
    have h' := inv_step (checkOk_true conf) h op (hops op (by simp))
    have ho' : ∀ o ∈ ops, o.rosUp := fun o ho => hops o (by simp [ho])
    have hn' : ∀ o ∈ ops, o.noSwitch := fun o ho => hns o (by simp [ho])
    by_cases hs : m.Switching
    · obtain ⟨k, t, hs'⟩ := hs
      rcases step_switching (conf := conf) hs' op (hops op (by simp)) with ⟨t', r, hw, rfl⟩ | e | hn
      · have hss := sameSwitch_update h t' r hw
        obtain ⟨h1, h2⟩ := ih (m := m.update t' r hw) h'
          (hupd m t' r hw (by simp) h ⟨k, t, hs'⟩ (SameSwitch.refl m) hR)
          (fun m' a b c hm hi hsw hss' => hupd m' a b c (by simp [hm]) hi hsw (hss.trans hss')) ho' hn' he
        exact ⟨h1, hss.trans h2⟩
      · rw [e] at he h' ⊢
        exact ih h hR (fun m' a b c hm => hupd m' a b c (by simp [hm])) ho' hn' he
      · exact absurd he (run_notSwitching h' hn ops ho' hn')
    · exact absurd he (run_notSwitching h' (step_notSwitching h hs op (hops op (by simp))
        (hns op (by simp))) ops ho' hn')

theorem run_trace {conf} {m : Mgr} (h : Inv (fun _ => True) m) (ops : List Op)
    (hops : ∀ op ∈ ops, op.rosUp) : ∃ es, (m.run conf ops).trace = m.trace ++ es := by
  induction ops generalizing m with
  | nil => exact ⟨[], by simp [run]⟩
  | cons op ops ih =>
    obtain ⟨es1, e1, _⟩ := step_trace (conf := conf) h op (hops op (by simp))
    obtain ⟨es2, e2⟩ := ih (inv_step (checkOk_true conf) h op (hops op (by simp)))
      (fun o ho => hops o (by simp [ho]))
    exact ⟨es1 ++ es2, by rw [run_cons, e2, e1, List.append_assoc]⟩

/-! ### Relations preserved during a switch -/

/-- When the switch has finished, every started controller runs or was aborted by it. -/
def Finished (p : List Event) (m : Mgr) : Prop :=
  (∃ es, m.trace = p ++ es) ∧ (m.params.doSwitch = false → ∀ c ∈ m.startReq,
    m.state c = .running ∨ (m.state c = .aborted ∧ ∃ es, m.trace = p ++ es ∧ .cb c .aborting ∈ es))

theorem finished_update {p : List Event} (m : Mgr) (time : Int) (reset : Bool) (hw : HwReply)
    (h : Inv (fun _ => True) m) (hf : Finished p m) : Finished p (m.update time reset hw) := by
  obtain ⟨⟨es0, e0⟩, hf⟩ := hf
  cases hd : m.params.doSwitch
  · rw [update_idle m hd]
    refine ⟨⟨es0 ++ m.drivenEvents reset, by simp [upd, e0]⟩, ?_⟩
    intro _ c hc
    rcases hf hd c hc with h1 | ⟨h1, es, e, he⟩
    · exact Or.inl h1
    · exact Or.inr ⟨h1, es ++ m.drivenEvents reset, by simp [upd, e], by simp [he]⟩
  · obtain ⟨st, es, d, _, he, ho⟩ := update_switch m h.sane hd time reset hw
    rw [he]
    refine ⟨⟨_, by simp only [upd, e0, List.append_assoc]; rfl⟩, ?_⟩
    intro hd' c hc
    rcases ho.finished hd' c hc with h1 | h1
    · exact Or.inl h1
    · refine Or.inr ⟨h1, _, by simp only [upd, e0, List.append_assoc]; rfl, ?_⟩
      have := (ho.aborted c hc h1).2
      simp [this]

/-- Controllers not to be started keep their state, except that those to be stopped may have
been stopped. -/
def OnlyStopped (st0 : CId → CState) (m : Mgr) : Prop :=
  ∀ c, c ∉ m.startReq → m.state c = st0 c ∨
    (c ∈ m.stopReq ∧ st0 c = .running ∧ m.state c = .stopped)

theorem onlyStopped_update {st0 : CId → CState} (m : Mgr) (time : Int) (reset : Bool) (hw : HwReply)
    (h : Inv (fun _ => True) m) (hf : OnlyStopped st0 m) : OnlyStopped st0 (m.update time reset hw) := by
  cases hd : m.params.doSwitch
  · rw [update_idle m hd]; exact hf
  · obtain ⟨st, es, d, _, he, ho⟩ := update_switch m h.sane hd time reset hw
    rw [he]
    intro c hc
    have e : st c = m.stopState c := ho.outside c hc
    show st c = st0 c ∨ c ∈ m.stopReq ∧ st0 c = .running ∧ st c = .stopped
    rw [e, stopState]
    have := hf c hc
    split
    · rename_i hh
      right
      rcases this with h1 | ⟨_, _, h1⟩
      · exact ⟨hh.1, h1 ▸ hh.2, rfl⟩
      · rw [h1] at hh; cases hh.2
    · exact this

/-- After an accepted switch. -/
theorem switch_accepted {D conf P} {m : Mgr} (h : InvD D P m) (hi : m.svc = .idle) {r : SwitchReq}
    {now : Int} {prepOk : Bool} (hs : (m.switch conf r now prepOk).Switching) :
    m.okRequest conf r prepOk ∧
    (m.switch conf r now prepOk) = (m.switchCore conf r now prepOk .ret).2 := by
  obtain ⟨c1, c2⟩ := h.reqs (not_switching_of_idle hi)
  have e : m.switch conf r now prepOk = (m.switchCore conf r now prepOk .ret).2 := by
    simp [switch, hi]
  refine ⟨?_, e⟩
  by_contra ha
  obtain ⟨a, b, es, e', hes⟩ := switchCore_refuse conf m r now prepOk .ret c1 c2 ha
  rw [e, e'] at hs
  obtain ⟨k, t, hk⟩ := hs
  have : m.svc = .switching k t := hk
  rw [hi] at this; cases this

theorem switch_accepted_eq {D conf P} {m : Mgr} (h : InvD D P m) (hi : m.svc = .idle) {r : SwitchReq}
    {now : Int} {prepOk : Bool} (ha : m.okRequest conf r prepOk) :
    m.switch conf r now prepOk =
      (let startReq := r.start.filterMap m.getControllerByName
       let stopReq := r.stop.filterMap m.getControllerByName
       let sc := m.scanLists startReq stopReq m.cur
       { m with
          startReq := startReq
          stopReq := stopReq
          swStart := sc.swStart
          swStop := sc.swStop
          params :=
            { doSwitch := true, started := false, initTime := now,
              strictness := if r.strictness = 0 then strictnessBestEffort else r.strictness,
              asap := r.asap, timeout := r.timeout }
          trace := m.trace ++ [.prepareSwitch sc.swStart sc.swStop true, .accepted sc.swStart sc.swStop]
          svc := .switching .ret r.timeout }) := by
  obtain ⟨c1, c2⟩ := h.reqs (not_switching_of_idle hi)
  have e : m.switch conf r now prepOk = (m.switchCore conf r now prepOk .ret).2 := by
    simp [switch, hi]
  rw [e, switchCore_accept conf m r now prepOk .ret c1 c2 ha]

/-- A switch call that returns true was accepted, and its switch is finished. -/
theorem true_reply {conf} {m : Mgr} (h : Reachable conf m) (r : SwitchReq) (now : Int) (prepOk : Bool) (ops : List Op)
    (hops : ∀ op ∈ ops, op.rosUp) (hns : ∀ op ∈ ops, op.noSwitch) (elapsed : Int)
    {m2 : Mgr} (hm2 : m2 = (m.switch conf r now prepOk).run conf ops)
    (hret : (m2.poll {} elapsed).trace = m2.trace ++ [.switchRet true]) :
    (m.switch conf r now prepOk).Switching ∧ m2.Switching ∧ m2.params.doSwitch = false ∧
    Inv (fun _ => True) m2 := by
  have hv := inv_of_reachable h
  have hv1 : Inv (fun _ => True) (m.switch conf r now prepOk) :=
    inv_step (checkOk_true conf) hv (.switch r now prepOk) trivial
  have hv2 : Inv (fun _ => True) m2 := by rw [hm2]; exact inv_run (checkOk_true conf) hv1 ops hops
  obtain ⟨es, e, _, hh⟩ := poll_trace hv2 {} ⟨rfl, rfl⟩ elapsed
  rw [hret] at e
  have := List.append_cancel_left e
  subst this
  rcases hh with hh | ⟨h1, h2, _⟩
  · have := hh (.switchRet true) (by simp)
    cases this
  · refine ⟨?_, h1, h2, hv2⟩
    by_contra hn
    exact absurd h1 (by rw [hm2]; exact run_notSwitching hv1 hn ops hops hns)

end Mgr

end Verif
