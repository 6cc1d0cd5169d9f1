import Verif.Lemmas.Clients

/-!
Helper lemmas for the progress of service calls: every wait loop is left once the realtime thread
has run.
-/

namespace Verif

open Mgr Clients Spec

namespace Mgr

/-- The loop the service thread is in is left in the next iteration. -/
def Leaves (m : Mgr) : Prop :=
  (∀ k t, m.svc = .switching k t → m.params.doSwitch = false) ∧
    ∀ f r, m.svc = .releasing f r → m.used ≠ some f

theorem leaves_settled {P} {m : Mgr} (h : Inv P m) (time : Int) (reset : Bool) {hw : HwReply}
    (hs : Settled hw) : (m.update time reset hw).Leaves := by
  have key : (m.update time reset hw).used = some m.current ∧
      (m.update time reset hw).params.doSwitch = false := by
    cases hd : m.params.doSwitch
    · rw [update_idle m hd]; exact ⟨rfl, hd⟩
    · obtain ⟨st, es, d, h0, he, ho⟩ := update_switch m h.sane hd time reset hw
      rw [he]
      refine ⟨rfl, ?_⟩
      show d = false
      rcases hd' : d with _ | _
      · rfl
      · exfalso
        rcases ho.pending hd' with ⟨_, h1, h2, _⟩ | ⟨ha, x, hx, hw'⟩
        · exact hs.1.elim h1 h2
        · have hs' : Sane m.atStart := by
            refine ⟨h.sane.objs, h.sane.start, h.sane.stop, ?_⟩
            intro s hs
            show m.stopState s.c ≠ _
            unfold stopState
            split
            · simp
            · exact h.sane.inited s hs
          have hst : ∀ c ∈ m.atStart.startReq, m.atStart.state c ≠ .constructed :=
            fun c hc => hs'.state (hs'.start c hc)
          obtain ⟨st', es', h0', _, h2⟩ :=
            asapLoop_out time hw 0 m.atStart.startReq m.atStart hs'.objs hs'.start hst
          have : st = st' := by
            simp only [startPure] at h0
            rw [if_pos ha, h0'] at h0
            exact (Prod.ext_iff.1 h0).1.symm
          subst this
          have hnr : m.atStart.state x ≠ .running := by
            intro hr; rw [h2.running x hr] at hw'; cases hw'
          obtain ⟨n, s, _, _, _, h3, h4, _⟩ := h2.waiting x hx hnr hw'
          exact (hs.2 _ _).elim h3 h4
  have hc := (update_cur h time reset hw).2.2.1
  refine ⟨fun _ _ _ => key.2, fun f r e => ?_⟩
  rw [hc] at e
  rw [key.1, h.former f r e]
  simp

theorem leaves_update {P} {m : Mgr} (h : Inv P m) (time : Int) (reset : Bool) (hw : HwReply)
    (hr : m.Leaves) : (m.update time reset hw).Leaves := by
  have hc := (update_cur h time reset hw).2.2.1
  have key : (m.update time reset hw).used = some m.current ∧
      (m.params.doSwitch = false → (m.update time reset hw).params.doSwitch = false) := by
    cases hd : m.params.doSwitch
    · rw [update_idle m hd]; exact ⟨rfl, fun _ => hd⟩
    · obtain ⟨st, es, d, h0, he, ho⟩ := update_switch m h.sane hd time reset hw
      rw [he]
      exact ⟨rfl, fun e => by cases e⟩
  refine ⟨fun k t e => ?_, fun f r e => ?_⟩
  · rw [hc] at e; exact key.2 (hr.1 k t e)
  · rw [hc] at e
    rw [key.1, h.former f r e]
    simp

/-- How many more loops the service thread has to leave. -/
def _root_.Verif.Svc.left : Svc → Nat
  | .idle => 0
  | .switching .ret _ => 1
  | .switching (.reload names) _ => 2 + 2 * names.length
  | .releasing _ (.load _) => 1
  | .releasing _ (.unload _ .ret) => 1
  | .releasing _ (.unload _ (.reload rest)) => 2 + 2 * rest.length
  | .unloading rest => 1 + 2 * rest.length

/-- The service thread serves the call `c`. -/
inductive _root_.Verif.Svc.serves : Svc → Call → Prop
  | switch (t r now p) : serves (.switching .ret t) (.switch r now p)
  | reloadSwitch (names t f now p) : serves (.switching (.reload names) t) (.reload f now p)
  | load (f n env) : serves (.releasing f (.load n)) (.load n env)
  | unload (f n) : serves (.releasing f (.unload n .ret)) (.unload n)
  | reloadUnload (g n rest f now p) : serves (.releasing g (.unload n (.reload rest))) (.reload f now p)
  | reload (rest f now p) : serves (.unloading rest) (.reload f now p)

/-- The call `c` has just been answered. -/
def Answered (m : Mgr) (c : Call) : Prop :=
  m.svc = .idle ∧ ∃ ok, m.trace.getLast? = some (c.answer ok)

theorem poll_progress {P} {m : Mgr} (h : Inv P m) {c : Call} (hs : m.svc.serves c) {ok : RosOk}
    (hok : ok.cond = true ∧ ok.body = true) (el : Int) :
    (m.poll ok el).Answered c ∨
      ((m.poll ok el).svc.serves c ∧
        ((m.poll ok el = m ∧ ¬ m.Leaves) ∨ (m.poll ok el).svc.left < m.svc.left)) := by
  have hu : ¬ m.ReleasingList → m.used ≠ some (!m.current) := h.used
  obtain ⟨ok1, ok2⟩ := hok
  unfold poll
  generalize e : m.svc = svc at hs
  cases hs with
  | switch t r now p =>
    simp only [ok1, ok2, Bool.true_and, Bool.not_true, Bool.false_eq_true, if_false]
    split
    · rename_i hd
      split
      · exact Or.inr ⟨by rw [e]; constructor, Or.inl ⟨rfl, fun hr => by rw [hr.1 _ _ e] at hd; cases hd⟩⟩
      · exact Or.inl ⟨rfl, false, by simp [finish, emit, Call.answer]⟩
    · exact Or.inl ⟨rfl, true, by simp [finish, emit, Call.answer]⟩
  | reloadSwitch names t f now p =>
    simp only [ok1, ok2, Bool.true_and, Bool.not_true, Bool.false_eq_true, if_false]
    split
    · rename_i hd
      split
      · exact Or.inr ⟨by rw [e]; constructor, Or.inl ⟨rfl, fun hr => by rw [hr.1 _ _ e] at hd; cases hd⟩⟩
      · exact Or.inl ⟨rfl, false, by simp [finish, emit, Call.answer]⟩
    · refine Or.inr ⟨.reload _ _ _ _, Or.inr ?_⟩
      simp [finish, Svc.left]
  | load f n env =>
    simp only [ok1, ok2, Bool.true_and, Bool.not_true, Bool.false_eq_true, if_false]
    split
    · rename_i hd
      exact Or.inr ⟨by rw [e]; constructor, Or.inl ⟨rfl, fun hr => hr.2 _ _ e (by simpa using hd)⟩⟩
    · exact Or.inl ⟨rfl, true, by simp [emit, Call.answer]⟩
  | unload f n =>
    simp only [ok1, ok2, Bool.true_and, Bool.not_true, Bool.false_eq_true, if_false]
    split
    · rename_i hd
      exact Or.inr ⟨by rw [e]; constructor, Or.inl ⟨rfl, fun hr => hr.2 _ _ e (by simpa using hd)⟩⟩
    · exact Or.inl ⟨rfl, true, by simp [finish, emit, Call.answer]⟩
  | reloadUnload f n rest _ _ _ =>
    simp only [ok1, ok2, Bool.true_and, Bool.not_true, Bool.false_eq_true, if_false]
    split
    · rename_i hd
      exact Or.inr ⟨by rw [e]; constructor, Or.inl ⟨rfl, fun hr => hr.2 _ _ e (by simpa using hd)⟩⟩
    · refine Or.inr ⟨.reload _ _ _ _, Or.inr ?_⟩
      simp [finish, Svc.left]
  | reload rest _ _ _ =>
    have hu' := hu (by rintro ⟨f, r, e'⟩; rw [e] at e'; cases e')
    cases rest with
    | nil => exact Or.inl ⟨rfl, true, by simp [emit, Call.answer]⟩
    | cons n ns =>
      simp only [unloadCore, if_neg hu']
      split
      · exact Or.inl ⟨rfl, false, by simp [emit, Call.answer]⟩
      · split
        · exact Or.inl ⟨rfl, false, by simp [emit, Call.answer]⟩
        · refine Or.inr ⟨.reloadUnload _ _ _ _ _ _, Or.inr ?_⟩
          simp [Svc.left]; omega

/-- After some operations of the background the call is answered, or it still waits and, if nothing
was gained, then a loop that was about to be left still is. -/
theorem run_progress {conf errors} {m : Mgr} (h : Inv (fun _ => True) m) {c : Call} (hs : m.svc.serves c)
    (ops : List Op) (hops : ∀ op ∈ ops, op.background errors) :
    (∃ pre post, ops = pre ++ post ∧ (m.run conf pre).Answered c) ∨
      ((m.run conf ops).svc.serves c ∧ (m.run conf ops).svc.left ≤ m.svc.left ∧
        ((m.run conf ops).svc.left < m.svc.left ∨ (m.Leaves → (m.run conf ops).Leaves))) := by
  induction ops generalizing m with
  | nil => exact Or.inr ⟨hs, le_refl _, Or.inr id⟩
  | cons op ops ih =>
    have hb := hops op (by simp)
    have hi := inv_step (checkOk_true conf) h op (Op.rosUp_of_background hb)
    have hops' : ∀ o ∈ ops, o.background errors := fun o ho => hops o (by simp [ho])
    have step : (m.step conf op).Answered c ∨ ((m.step conf op).svc.serves c ∧
        (m.step conf op).svc.left ≤ m.svc.left ∧
        ((m.step conf op).svc.left < m.svc.left ∨ (m.Leaves → (m.step conf op).Leaves))) := by
      cases op with
      | update t r hw =>
        have hc := (update_cur h t r hw).2.2.1
        refine Or.inr ⟨?_, ?_, Or.inr (leaves_update h t r hw)⟩
        · show (m.update t r hw).svc.serves c
          rw [hc]; exact hs
        · show (m.update t r hw).svc.left ≤ _
          rw [hc]
      | poll ok el =>
        rcases poll_progress h hs hb el with h1 | ⟨h1, ⟨h2, h3⟩ | h2⟩
        · exact Or.inl h1
        · refine Or.inr ⟨h1, ?_, Or.inr fun hr => absurd hr h3⟩
          show (m.poll ok el).svc.left ≤ _
          rw [h2]
        · exact Or.inr ⟨h1, h2.le, Or.inl h2⟩
      | load n e => cases hb
      | unload n => cases hb
      | switch r now p => cases hb
      | reload f now p => cases hb
    rcases step with hA | ⟨h1, h2, h3⟩
    · exact Or.inl ⟨[op], ops, rfl, hA⟩
    · rcases ih hi h1 hops' with ⟨pre, post, e, hA⟩ | ⟨h4, h5, h6⟩
      · exact Or.inl ⟨op :: pre, post, by rw [e]; rfl, hA⟩
      · refine Or.inr ⟨h4, h5.trans h2, ?_⟩
        rw [run_cons]
        rcases h3 with h3 | h3
        · exact Or.inl (lt_of_le_of_lt h5 h3)
        · rcases h6 with h6 | h6
          · exact Or.inl (lt_of_lt_of_le h6 h2)
          · exact Or.inr fun hr => h6 (h3 hr)

/-- A call that has just been made is answered at once or waits. -/
theorem call_starts {conf} {m : Mgr} (h : Inv (fun _ => True) m) (hi : m.svc = .idle) (c : Call) :
    (m.step conf c.op).Answered c ∨ ((m.step conf c.op).svc.serves c ∧
      (m.step conf c.op).svc.left ≤ match c with
        | .reload _ _ _ => 2 + 2 * m.cur.length
        | _ => 1) := by
  have hu : m.used ≠ some (!m.current) := h.used (by rintro ⟨f, r, e⟩; rw [hi] at e; cases e)
  have core : ∀ r now p k, (∃ m', m.switchCore conf r now p k = (false, m') ∧ m'.svc = .idle ∧
        m'.trace.getLast? = some (.switchRet false)) ∨
      ∃ m', m.switchCore conf r now p k = (true, m') ∧ m'.svc = .switching k r.timeout := by
    intro r now p k
    unfold switchCore
    simp only
    generalize (if r.strictness = 0 then strictnessBestEffort else r.strictness) = q
    split
    · exact Or.inl ⟨_, rfl, hi, by simp [emit]⟩
    · split
      · exact Or.inl ⟨_, rfl, hi, by simp [emit, refuse]⟩
      · split
        · exact Or.inl ⟨_, rfl, hi, by simp [emit, refuse]⟩
        · split
          · exact Or.inl ⟨_, rfl, hi, by simp [emit, refuse]⟩
          · split
            · exact Or.inl ⟨_, rfl, hi, by simp [emit, refuse]⟩
            · exact Or.inr ⟨_, rfl, rfl⟩
  cases c with
  | load n env =>
    show (m.load n env).Answered _ ∨ (m.load n env).svc.serves _ ∧ (m.load n env).svc.left ≤ 1
    unfold load
    rw [if_neg (by simp [hi]), if_neg hu]
    simp only
    split
    · exact Or.inl ⟨hi, false, by simp [emit, Call.answer]⟩
    · split
      · exact Or.inl ⟨hi, false, by simp [emit, Call.answer]⟩
      · split
        · exact Or.inl ⟨hi, false, by simp [emit, Call.answer]⟩
        · split
          · exact Or.inl ⟨hi, false, by simp [emit, Call.answer]⟩
          · split
            · exact Or.inl ⟨hi, false, by simp [emit, Call.answer]⟩
            · exact Or.inr ⟨by constructor, le_refl _⟩
  | unload n =>
    show (m.unload n).Answered _ ∨ (m.unload n).svc.serves _ ∧ (m.unload n).svc.left ≤ 1
    unfold unload
    rw [if_neg (by simp [hi])]
    simp only [unloadCore, if_neg hu]
    split
    · exact Or.inl ⟨hi, false, by simp [emit, Call.answer]⟩
    · split
      · exact Or.inl ⟨hi, false, by simp [emit, Call.answer]⟩
      · exact Or.inr ⟨by constructor, le_refl _⟩
  | switch r now p =>
    show (m.switch conf r now p).Answered _ ∨ (m.switch conf r now p).svc.serves _ ∧
      (m.switch conf r now p).svc.left ≤ 1
    unfold switch
    rw [if_neg (by simp [hi])]
    rcases core r now p .ret with ⟨m', e, h1, h2⟩ | ⟨m', e, h1⟩
    · rw [e]; exact Or.inl ⟨h1, false, h2⟩
    · rw [e]; exact Or.inr ⟨by rw [h1]; constructor, by rw [h1]; exact le_refl _⟩
  | reload f now p =>
    show (m.reload conf f now p).Answered _ ∨ (m.reload conf f now p).svc.serves _ ∧
      (m.reload conf f now p).svc.left ≤ 2 + 2 * m.cur.length
    unfold reload
    rw [if_neg (by simp [hi])]
    simp only
    split
    · exact Or.inl ⟨hi, false, by simp [emit, Call.answer]⟩
    · split
      · rcases core ⟨[], m.getControllerNames, strictnessBestEffort, false, 0⟩ now p
            (.reload m.getControllerNames) with ⟨m', e, h1, h2⟩ | ⟨m', e, h1⟩
        · rw [e]; exact Or.inl ⟨h1, false, by simp [emit, Call.answer]⟩
        · rw [e]
          refine Or.inr ⟨by rw [h1]; constructor, ?_⟩
          show m'.svc.left ≤ _
          rw [h1]; simp [Svc.left, getControllerNames]
      · exact Or.inl ⟨hi, true, by simp [emit, Call.answer]⟩

end Mgr

end Verif
