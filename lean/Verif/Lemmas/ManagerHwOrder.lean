import Verif.Lemmas.ManagerTrace

/-!
Helper lemmas for the manager: the order of acceptances, hardware switches and replies.
-/

namespace Verif

namespace Mgr

/-- Where the most recent accepted switch is. -/
inductive Phase
  | none
  | accepted (a b : List ControllerInfo)
  | done (a b : List ControllerInfo)
deriving DecidableEq

/-- Effect of an event on the phase. -/
def Phase.next (p : Phase) : Event → Phase
  | .accepted a b => .accepted a b
  | .doSwitch a b => .done a b
  | _ => p

/-- Phase after a trace. -/
def phase (t : List Event) : Phase := t.foldl Phase.next .none

/-- Neither an acceptance nor a hardware switch. -/
def NoSwitchEvent (es : List Event) : Prop := ∀ a b, .accepted a b ∉ es ∧ .doSwitch a b ∉ es

/-- The trace ends with an accepted switch that no callback and no hardware call has followed. -/
def Pending (t : List Event) (a b : List ControllerInfo) : Prop :=
  ∃ p q, t = p ++ .prepareSwitch a b true :: .accepted a b :: q ∧ NoCb q ∧ NoSwitchEvent q

/-- As `Pending`, followed by the regular callbacks of one update. -/
def Ready (t : List Event) (a b : List ControllerInfo) : Prop :=
  ∃ p q dr, t = p ++ .prepareSwitch a b true :: .accepted a b :: (q ++ dr) ∧ NoCb q ∧
    NoSwitchEvent q ∧ Driven dr

/-- An event allowed after the trace `pre`. -/
def Allowed (pre : List Event) : Event → Prop
  | .accepted a b => ∃ p, pre = p ++ [.prepareSwitch a b true]
  | .doSwitch a b => Ready pre a b
  | .switchRet true => ∃ a b, phase pre = .done a b
  | _ => True

/-- All events of the list are allowed where they are, after the trace `pre`. -/
def LegalFrom : List Event → List Event → Prop
  | _, [] => True
  | pre, e :: es => Allowed pre e ∧ LegalFrom (pre ++ [e]) es

theorem legalFrom_append {pre a b : List Event} :
    LegalFrom pre (a ++ b) ↔ LegalFrom pre a ∧ LegalFrom (pre ++ a) b := by
  induction a generalizing pre with
  | nil => simp [LegalFrom]
  | cons e a ih => simp [LegalFrom, ih, and_assoc]

theorem phase_append (a b : List Event) : phase (a ++ b) = b.foldl Phase.next (phase a) :=
  List.foldl_append

theorem neutral_legal {es : List Event} (h : ∀ e ∈ es, Neutral e) (pre : List Event) :
    LegalFrom pre es ∧ phase (pre ++ es) = phase pre := by
  induction es generalizing pre with
  | nil => simp [LegalFrom]
  | cons e es ih =>
    obtain ⟨h1, h2⟩ := ih (fun x hx => h x (by simp [hx])) (pre ++ [e])
    have he := h e (by simp)
    have h3 : Allowed pre e ∧ phase (pre ++ [e]) = phase pre := by
      rw [phase_append]
      cases e with
      | switchRet ok =>
        cases ok
        · exact ⟨trivial, rfl⟩
        · cases he
      | accepted a b => cases he
      | doSwitch a b => cases he
      | _ => exact ⟨trivial, rfl⟩
    refine ⟨⟨h3.1, h1⟩, ?_⟩
    rw [← h3.2, ← h2]; simp

/-- The invariant relating the switch parameters to the trace. -/
structure TrInv (m : Mgr) : Prop where
  legal : LegalFrom [] m.trace
  pending : m.params.doSwitch = true → m.params.started = false →
    Pending m.trace m.swStart m.swStop
  started : m.params.started = true → phase m.trace = .done m.swStart m.swStop

theorem trInv_init : TrInv Mgr.init := ⟨trivial, by simp [Mgr.init], by simp [Mgr.init]⟩

theorem noSwitchEvent_of_neutral {es : List Event} (h : ∀ e ∈ es, Neutral e) : NoSwitchEvent es :=
  fun _ _ => ⟨fun he => h _ he, fun he => h _ he⟩

theorem NoSwitchEvent.append {x y : List Event} (h1 : NoSwitchEvent x) (h2 : NoSwitchEvent y) :
    NoSwitchEvent (x ++ y) := by
  intro a b
  have := h1 a b
  have := h2 a b
  simp_all

theorem NoCb.append {x y : List Event} (h1 : NoCb x) (h2 : NoCb y) : NoCb (x ++ y) := by
  intro c k
  have := h1 c k
  have := h2 c k
  simp_all

theorem driven_drivenEvents (m : Mgr) (reset : Bool) : Driven (m.drivenEvents reset) := by
  refine ⟨(m.cur.filter fun s => m.isRunning s.c).map (·.c), ?_⟩
  cases reset
  · left; simp [drivenEvents, updateEvents, List.map_map, Function.comp_def]
  · right; simp [drivenEvents, updateEvents, resetEvents, List.map_map, Function.comp_def, List.flatMap_map]

/-- Neutral events with unchanged switch parameters. -/
theorem trInv_neutral {m m' : Mgr} (h : TrInv m) {es : List Event} (hes : ∀ e ∈ es, Neutral e)
    (hcb : NoCb es)
    (ht : m'.trace = m.trace ++ es) (hp : m'.params = m.params ∧ m'.swStart = m.swStart ∧
      m'.swStop = m.swStop ∨ m'.params = {}) : TrInv m' := by
  obtain ⟨h1, h2⟩ := neutral_legal hes m.trace
  refine ⟨?_, ?_, ?_⟩
  · rw [ht, legalFrom_append]; exact ⟨h.legal, by simpa using h1⟩
  · intro hd hs
    rcases hp with ⟨e1, e2, e3⟩ | e
    · rw [ht, e2, e3]; rw [e1] at hd hs
      obtain ⟨p, q, e, hq1, hq2⟩ := h.pending hd hs
      exact ⟨p, q ++ es, by rw [e]; simp, hq1.append hcb,
        hq2.append (noSwitchEvent_of_neutral hes)⟩
    · rw [e] at hd; cases hd
  · intro hs
    rcases hp with ⟨e1, e2, e3⟩ | e
    · rw [ht, h2, e2, e3]; rw [e1] at hs; exact h.started hs
    · rw [e] at hs; cases hs

theorem neutral_of_cb {es : List Event} (h : ∀ e ∈ es, ∃ c k, e = .cb c k) : ∀ e ∈ es, Neutral e := by
  intro e he
  obtain ⟨c, k, rfl⟩ := h e he; trivial

theorem driven_cb {m : Mgr} {reset : Bool} : ∀ e ∈ m.drivenEvents reset, ∃ c k, e = Event.cb c k := by
  intro e he
  obtain ⟨s, _, _, h⟩ := mem_drivenEvents he
  rcases h with rfl | ⟨_, rfl | rfl⟩ <;> exact ⟨_, _, rfl⟩

theorem trInv_update {P} {m : Mgr} (hi : Inv P m) (h : TrInv m) (time : Int) (reset : Bool)
    (hw : HwReply) : TrInv (m.update time reset hw) := by
  cases hd : m.params.doSwitch
  · rw [update_idle m hd]
    obtain ⟨a1, a2⟩ := neutral_legal (neutral_of_cb (m.driven_cb (reset := reset))) m.trace
    refine ⟨?_, ?_, ?_⟩
    · show LegalFrom [] (m.trace ++ m.drivenEvents reset)
      rw [legalFrom_append]; exact ⟨h.legal, by simpa using a1⟩
    · intro hd'; change m.params.doSwitch = true at hd'; rw [hd] at hd'; cases hd'
    · intro hs; exact a2.trans (h.started hs)
  · obtain ⟨st, es, d, _, he, ho⟩ := update_switch m hi.sane hd time reset hw
    rw [he]
    have hes : ∀ e ∈ stopEvents m.isRunning m.stopReq ++ es, Neutral e := by
      apply neutral_of_cb
      intro e hh
      rcases List.mem_append.1 hh with hh | hh
      · obtain ⟨x, hx, _, e⟩ := mem_stopEvents.1 hh; exact ⟨_, _, e⟩
      · obtain ⟨x, hx, hh⟩ := ho.events _ hh
        rcases hh with ⟨e, _⟩ | ⟨e, _⟩ | e <;> exact ⟨_, _, e⟩
    obtain ⟨a1, a2⟩ := neutral_legal (neutral_of_cb (m.driven_cb (reset := reset))) m.trace
    have hmid : LegalFrom (m.trace ++ m.drivenEvents reset) m.hwEvents ∧
        phase (m.trace ++ m.drivenEvents reset ++ m.hwEvents) = .done m.swStart m.swStop := by
      unfold hwEvents
      cases hs : m.params.started
      · simp only [Bool.false_eq_true, if_false]
        obtain ⟨p, q, e, hq1, hq2⟩ := h.pending hd hs
        refine ⟨⟨?_, trivial⟩, ?_⟩
        · exact ⟨p, q, m.drivenEvents reset, by rw [e]; simp, hq1, hq2, m.driven_drivenEvents reset⟩
        · rw [phase_append]; rfl
      · simp only [if_true]
        exact ⟨trivial, by rw [List.append_nil, a2, h.started hs]⟩
    obtain ⟨b1, b2⟩ := neutral_legal hes (m.trace ++ m.drivenEvents reset ++ m.hwEvents)
    refine ⟨?_, ?_, ?_⟩
    · show LegalFrom [] (m.trace ++ (m.drivenEvents reset ++ m.hwEvents ++ stopEvents m.isRunning m.stopReq ++ es))
      rw [List.append_assoc (m.drivenEvents reset ++ m.hwEvents), legalFrom_append, legalFrom_append,
        legalFrom_append]
      simp only [List.nil_append]
      exact ⟨h.legal, ⟨a1, hmid.1⟩, by rw [← List.append_assoc]; exact b1⟩
    · intro _ hs; cases hs
    · intro _
      show phase (m.trace ++ (m.drivenEvents reset ++ m.hwEvents ++ stopEvents m.isRunning m.stopReq ++ es))
        = .done m.swStart m.swStop
      have hh := b2.trans hmid.2
      simp only [List.append_assoc] at hh ⊢
      exact hh

theorem trInv_switchCore {conf P} {m : Mgr} (hv : Inv P m) (h : TrInv m) (hi : m.svc = .idle)
    (r : SwitchReq) (now : Int) (prepOk : Bool) (k : Kont) :
    TrInv (m.switchCore conf r now prepOk k).2 := by
  obtain ⟨es, e, hcb, hh⟩ := switchCore_trace (conf := conf) hv hi r now prepOk k
  rcases hh with ⟨_, hn, hp⟩ | ⟨_, a, b, ha, hb, hd, hs, rfl⟩
  · exact trInv_neutral h hn hcb e (Or.inr hp)
  · refine ⟨?_, ?_, ?_⟩
    · rw [e, legalFrom_append]
      exact ⟨h.legal, trivial, ⟨_, rfl⟩, trivial⟩
    · intro _ _; rw [e, ha, hb]
      exact ⟨m.trace, [], rfl, by simp [NoCb], by simp [NoSwitchEvent]⟩
    · intro hs'; rw [hs] at hs'; cases hs'

theorem poll_params {P} {m : Mgr} (h : Inv P m) (ok : RosOk) (elapsed : Int) :
    (m.poll ok elapsed).params = m.params ∧ (m.poll ok elapsed).swStart = m.swStart ∧
    (m.poll ok elapsed).swStop = m.swStop := by
  have hfin : ∀ (n : Mgr) (k : Kont) (b : Bool),
      (n.finish k b).params = n.params ∧ (n.finish k b).swStart = n.swStart ∧
      (n.finish k b).swStop = n.swStop := by
    intro n k b; cases k <;> cases b <;> exact ⟨rfl, rfl, rfl⟩
  unfold poll
  split
  · exact ⟨rfl, rfl, rfl⟩
  · split
    · split
      · rw [(hfin _ _ _).1, (hfin _ _ _).2.1, (hfin _ _ _).2.2]; exact ⟨rfl, rfl, rfl⟩
      · split
        · exact ⟨rfl, rfl, rfl⟩
        · rw [(hfin _ _ _).1, (hfin _ _ _).2.1, (hfin _ _ _).2.2]; exact ⟨rfl, rfl, rfl⟩
    · rw [(hfin _ _ _).1, (hfin _ _ _).2.1, (hfin _ _ _).2.2]; exact ⟨rfl, rfl, rfl⟩
  · split
    · split
      · split
        · exact ⟨rfl, rfl, rfl⟩
        · rw [(hfin _ _ _).1, (hfin _ _ _).2.1, (hfin _ _ _).2.2]; exact ⟨rfl, rfl, rfl⟩
      · exact ⟨rfl, rfl, rfl⟩
    · simp only
      split
      · exact ⟨rfl, rfl, rfl⟩
      · rw [(hfin _ _ _).1, (hfin _ _ _).2.1, (hfin _ _ _).2.2]; exact ⟨rfl, rfl, rfl⟩
  · exact ⟨rfl, rfl, rfl⟩
  · rename_i n ns hsvc
    have hnr : ¬ m.ReleasingList := by rintro ⟨f, r, e⟩; rw [hsvc] at e; cases e
    rcases unloadCore_cases m n (.reload ns)
      (fun m => { m with svc := .idle }.emit [.reloadRet false]) (h.used hnr) with ⟨_, h2, e⟩ | ⟨_, e⟩
    · rw [e]; exact ⟨rfl, rfl, rfl⟩
    · rw [e]; exact ⟨rfl, rfl, rfl⟩

theorem trInv_poll {P} {m : Mgr} (hv : Inv P m) (h : TrInv m) (ok : RosOk)
    (hok : ok.cond = true ∧ ok.body = true) (elapsed : Int) : TrInv (m.poll ok elapsed) := by
  obtain ⟨es, e, hcb, hh⟩ := poll_trace hv ok hok elapsed
  have hp := poll_params hv ok elapsed
  rcases hh with hn | ⟨hsw, hd, rfl⟩
  · exact trInv_neutral h hn hcb e (Or.inl hp)
  · have hs := (hv.done hsw hd trivial).1
    have hph := h.started hs
    refine ⟨?_, ?_, ?_⟩
    · rw [e, legalFrom_append]
      exact ⟨h.legal, ⟨_, _, hph⟩, trivial⟩
    · intro hd'; rw [hp.1, hd] at hd'; cases hd'
    · intro _; rw [e, hp.2.1, hp.2.2, phase_append, hph]; rfl

theorem load_params (m : Mgr) (name : String) (env : LoadEnv) :
    (m.load name env).params = m.params ∧ (m.load name env).swStart = m.swStart ∧
    (m.load name env).swStop = m.swStop := by
  by_cases hi : m.svc = .idle
  swap
  · simp [load, hi]
  by_cases hu : m.used = some (!m.current)
  · simp [load, hi, hu]
  rcases load_cases m name env hi hu with ⟨ty, i, cl, _, _, _, _, _, e⟩ | ⟨_, o, _, e⟩
  · rw [e]; exact ⟨rfl, rfl, rfl⟩
  · rw [e]; exact ⟨rfl, rfl, rfl⟩

theorem unload_params {P} {m : Mgr} (h : Inv P m) (name : String) :
    (m.unload name).params = m.params ∧ (m.unload name).swStart = m.swStart ∧
    (m.unload name).swStop = m.swStop := by
  unfold unload
  split
  · exact ⟨rfl, rfl, rfl⟩
  · rename_i hi
    have hi : m.svc = .idle := by simpa using hi
    rcases unloadCore_cases m name .ret id (h.used (not_releasing_of_idle hi)) with ⟨_, h2, e⟩ | ⟨_, e⟩
    · rw [e]; exact ⟨rfl, rfl, rfl⟩
    · rw [e]; exact ⟨rfl, rfl, rfl⟩

theorem trInv_step {conf P} {m : Mgr} (hv : Inv P m) (h : TrInv m) (op : Op) (hop : op.rosUp) :
    TrInv (m.step conf op) := by
  cases op with
  | update t r hw => exact trInv_update hv h t r hw
  | load n e =>
    obtain ⟨es, e1, hcb, hn⟩ := load_trace m n e
    exact trInv_neutral h hn hcb e1 (Or.inl (load_params m n e))
  | unload n =>
    obtain ⟨es, e1, hcb, hn⟩ := unload_trace hv n
    exact trInv_neutral h hn hcb e1 (Or.inl (unload_params hv n))
  | switch r now p =>
    show TrInv (m.switch conf r now p)
    unfold switch
    split
    · exact h
    · rename_i hi
      exact trInv_switchCore hv h (by simpa using hi) r now p .ret
  | reload f now p =>
    show TrInv (m.reload conf f now p)
    unfold reload
    split
    · exact h
    rename_i hi
    simp only
    split
    · exact trInv_neutral h (es := [.reloadRet false]) (by simp [Neutral]) (by simp [NoCb]) rfl (Or.inl ⟨rfl, rfl, rfl⟩)
    split
    · have := trInv_switchCore (conf := conf) hv h (by simpa using hi)
        ⟨[], m.getControllerNames, strictnessBestEffort, false, 0⟩ now p (.reload m.getControllerNames)
      revert this
      generalize m.switchCore conf ⟨[], m.getControllerNames, strictnessBestEffort, false, 0⟩ now p
        (.reload m.getControllerNames) = x
      obtain ⟨b, n⟩ := x
      intro h1
      cases b
      · exact trInv_neutral h1 (es := [.reloadRet false]) (by simp [Neutral]) (by simp [NoCb]) rfl
          (Or.inl ⟨rfl, rfl, rfl⟩)
      · exact h1
    · exact trInv_neutral h (es := [.reloadRet true]) (by simp [Neutral]) (by simp [NoCb]) rfl (Or.inl ⟨rfl, rfl, rfl⟩)
  | poll ok e => exact trInv_poll hv h ok hop e

theorem trInv_run {conf} {m : Mgr} (hv : Inv (fun _ => True) m) (h : TrInv m) (ops : List Op)
    (hops : ∀ op ∈ ops, op.rosUp) : TrInv (m.run conf ops) := by
  induction ops generalizing m with
  | nil => exact h
  | cons op ops ih =>
    have hop := hops op (by simp)
    exact ih (inv_step (checkOk_true conf) hv op hop) (trInv_step hv h op hop)
      fun o ho => hops o (by simp [ho])

theorem trInv_reachable {conf} {m : Mgr} (h : Reachable conf m) : TrInv m := by
  obtain ⟨ops, hops, rfl⟩ := h
  exact trInv_run (inv_init trivial) trInv_init ops hops

/-! ### Reading off the order from the phase -/

theorem noSwitchEvent_of_driven {es : List Event} (h : Driven es) : NoSwitchEvent es := by
  obtain ⟨l, rfl | rfl⟩ := h <;> intro a b <;> simp

theorem phase_done {t : List Event} (hl : LegalFrom [] t) {a b : List ControllerInfo}
    (h : phase t = .done a b) :
    ∃ p q r, t = p ++ .accepted a b :: (q ++ .doSwitch a b :: r) ∧ NoSwitchEvent q ∧
      NoSwitchEvent r := by
  induction t using List.reverseRecOn with
  | nil => cases h
  | append_singleton t e ih =>
    rw [phase_append] at h
    rw [legalFrom_append] at hl
    cases e with
    | accepted a' b' => cases h
    | doSwitch a' b' =>
      have : (Phase.done a' b') = .done a b := h
      cases this
      obtain ⟨p, q, dr, e, _, hq, hdr⟩ := (show Ready t a b from hl.2.1)
      exact ⟨p ++ [.prepareSwitch a b true], q ++ dr, [], by rw [e]; simp,
        hq.append (noSwitchEvent_of_driven hdr), by simp [NoSwitchEvent]⟩
    | _ =>
      obtain ⟨p, q, r, rfl, hq, hr⟩ := ih hl.1 h
      refine ⟨p, q, r ++ [_], by simp only [List.append_assoc, List.cons_append]; rfl, hq, ?_⟩
      intro a' b'
      have := hr a' b'
      simp_all

end Mgr

end Verif
