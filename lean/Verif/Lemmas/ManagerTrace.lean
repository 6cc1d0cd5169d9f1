import Verif.Lemmas.ManagerSim

/-!
Helper lemmas for the manager: what the events of one operation can be, and the order of
hardware calls in a history.
-/

namespace Verif

namespace Mgr

/-! ### Events of one operation -/

theorem mem_resetEvents {m : Mgr} {e : Event} :
    e ∈ m.resetEvents ↔ ∃ s ∈ m.cur, m.state s.c = .running ∧
      (e = .cb s.c .stopping ∨ e = .cb s.c .starting) := by
  simp only [resetEvents, List.mem_flatMap, List.mem_filter, isRunning_iff, List.mem_cons,
    List.not_mem_nil, or_false, and_assoc]

theorem mem_updateEvents {m : Mgr} {e : Event} :
    e ∈ m.updateEvents ↔ ∃ s ∈ m.cur, m.state s.c = .running ∧ e = .cb s.c .update := by
  simp only [updateEvents, List.mem_map, List.mem_filter, isRunning_iff]
  constructor
  · rintro ⟨s, ⟨h1, h2⟩, rfl⟩; exact ⟨s, h1, h2, rfl⟩
  · rintro ⟨s, h1, h2, rfl⟩; exact ⟨s, ⟨h1, h2⟩, rfl⟩

theorem mem_drivenEvents {m : Mgr} {reset : Bool} {e : Event} (h : e ∈ m.drivenEvents reset) :
    ∃ s ∈ m.cur, m.state s.c = .running ∧
      (e = .cb s.c .update ∨ (reset = true ∧ (e = .cb s.c .stopping ∨ e = .cb s.c .starting))) := by
  unfold drivenEvents at h
  rcases List.mem_append.1 h with h | h
  · cases reset
    · simp at h
    · obtain ⟨s, h1, h2, h3⟩ := mem_resetEvents.1 (by simpa using h)
      exact ⟨s, h1, h2, Or.inr ⟨rfl, h3⟩⟩
  · obtain ⟨s, h1, h2, h3⟩ := mem_updateEvents.1 h
    exact ⟨s, h1, h2, Or.inl h3⟩

/-- Events that are no hardware switch, no acceptance and no report of a finished switch. -/
def Neutral : Event → Prop
  | .accepted _ _ => False
  | .doSwitch _ _ => False
  | .switchRet ok => ok = false
  | _ => True

/-- No controller callback. -/
def NoCb (es : List Event) : Prop := ∀ c k, .cb c k ∉ es

/-- What a service call or one iteration of its wait loop (while ROS is up) appends to the
trace. -/
theorem poll_trace {P} {m : Mgr} (h : Inv P m) (ok : RosOk)
    (hok : ok.cond = true ∧ ok.body = true) (elapsed : Int) :
    ∃ es, (m.poll ok elapsed).trace = m.trace ++ es ∧ NoCb es ∧
      ((∀ e ∈ es, Neutral e) ∨
        (m.Switching ∧ m.params.doSwitch = false ∧ es = [.switchRet true])) := by
  unfold poll
  split
  · exact ⟨[], by simp, by simp [NoCb], Or.inl (by simp)⟩
  · rename_i k timeout hsvc
    simp only [hok.1, hok.2, Bool.true_and, Bool.not_true, Bool.false_eq_true, if_false]
    split
    · split
      · exact ⟨[], by simp, by simp [NoCb], Or.inl (by simp)⟩
      · cases k with
        | ret => exact ⟨[.switchRet false], rfl, by simp [NoCb], Or.inl (by simp [Neutral])⟩
        | reload rest =>
          exact ⟨[.switchRet false, .reloadRet false], by simp [finish, emit], by simp [NoCb],
            Or.inl (by simp [Neutral])⟩
    · rename_i hd
      refine ⟨[.switchRet true], ?_, by simp [NoCb], Or.inr ⟨⟨_, _, hsvc⟩, by simpa using hd, rfl⟩⟩
      cases k <;> rfl
  · rename_i former r hsvc
    simp only [hok.1, hok.2, Bool.true_and, Bool.not_true, Bool.false_eq_true, if_false]
    split
    · exact ⟨[], by simp, by simp [NoCb], Or.inl (by simp)⟩
    · cases r with
      | load name =>
        refine ⟨m.dropped.map .destroyed ++ [.loadRet name true], ?_, ?_, Or.inl ?_⟩
        · simp [clearOld, emit]
        · simp [NoCb]
        · intro e he
          rcases List.mem_append.1 he with he | he
          · obtain ⟨c, _, rfl⟩ := List.mem_map.1 he; trivial
          · rw [List.mem_singleton.1 he]; trivial
      | unload name k =>
        refine ⟨m.dropped.map .destroyed ++ [.unloadRet name true], ?_, ?_, Or.inl ?_⟩
        · cases k <;> simp [clearOld, emit, finish]
        · simp [NoCb]
        · intro e he
          rcases List.mem_append.1 he with he | he
          · obtain ⟨c, _, rfl⟩ := List.mem_map.1 he; trivial
          · rw [List.mem_singleton.1 he]; trivial
  · exact ⟨[.reloadRet true], rfl, by simp [NoCb], Or.inl (by simp [Neutral])⟩
  · rename_i n ns hsvc
    have hnr : ¬ m.ReleasingList := by rintro ⟨f, r, e⟩; rw [hsvc] at e; cases e
    rcases unloadCore_cases m n (.reload ns)
      (fun m => { m with svc := .idle }.emit [.reloadRet false]) (h.used hnr) with ⟨_, h2, e⟩ | ⟨_, e⟩
    · rw [e]; exact ⟨[], by simp [unloaded], by simp [NoCb], Or.inl (by simp)⟩
    · rw [e]
      exact ⟨[.unloadRet n false, .reloadRet false], by simp [emit], by simp [NoCb],
        Or.inl (by simp [Neutral])⟩

theorem load_trace (m : Mgr) (name : String) (env : LoadEnv) :
    ∃ es, (m.load name env).trace = m.trace ++ es ∧ NoCb es ∧ ∀ e ∈ es, Neutral e := by
  by_cases hi : m.svc = .idle
  swap
  · exact ⟨[], by simp [load, hi], by simp [NoCb], by simp⟩
  by_cases hu : m.used = some (!m.current)
  · exact ⟨[], by simp [load, hi, hu], by simp [NoCb], by simp⟩
  rcases load_cases m name env hi hu with ⟨ty, i, cl, _, _, _, _, _, e⟩ | ⟨_, o, _, e⟩
  · exact ⟨[], by rw [e]; simp [loaded], by simp [NoCb], by simp⟩
  · exact ⟨[.loadRet name false], by rw [e], by simp [NoCb], by simp [Neutral]⟩

theorem unload_trace {P} {m : Mgr} (h : Inv P m) (name : String) :
    ∃ es, (m.unload name).trace = m.trace ++ es ∧ NoCb es ∧ ∀ e ∈ es, Neutral e := by
  unfold unload
  split
  · exact ⟨[], by simp, by simp [NoCb], by simp⟩
  · rename_i hi
    have hi : m.svc = .idle := by simpa using hi
    rcases unloadCore_cases m name .ret id (h.used (not_releasing_of_idle hi)) with ⟨_, h2, e⟩ | ⟨_, e⟩
    · exact ⟨[], by rw [e]; simp [unloaded], by simp [NoCb], by simp⟩
    · exact ⟨[.unloadRet name false], by rw [e]; rfl, by simp [NoCb], by simp [Neutral]⟩

theorem switchCore_trace {conf P} {m : Mgr} (h : Inv P m) (hi : m.svc = .idle) (r : SwitchReq)
    (now : Int) (prepOk : Bool) (k : Kont) :
    ∃ es, (m.switchCore conf r now prepOk k).2.trace = m.trace ++ es ∧ NoCb es ∧
      (((m.switchCore conf r now prepOk k).1 = false ∧ (∀ e ∈ es, Neutral e) ∧
        (m.switchCore conf r now prepOk k).2.params = {}) ∨
      ((m.switchCore conf r now prepOk k).1 = true ∧ ∃ a b,
        (m.switchCore conf r now prepOk k).2.swStart = a ∧
        (m.switchCore conf r now prepOk k).2.swStop = b ∧
        (m.switchCore conf r now prepOk k).2.params.doSwitch = true ∧
        (m.switchCore conf r now prepOk k).2.params.started = false ∧
        es = [.prepareSwitch a b true, .accepted a b])) := by
  obtain ⟨c1, c2⟩ := h.reqs (not_switching_of_idle hi)
  by_cases ha : m.okRequest conf r prepOk
  · rw [switchCore_accept conf m r now prepOk k c1 c2 ha]
    exact ⟨_, rfl, by simp [NoCb], Or.inr ⟨rfl, _, _, rfl, rfl, rfl, rfl, rfl⟩⟩
  · obtain ⟨a, b, es, e, hes⟩ := switchCore_refuse conf m r now prepOk k c1 c2 ha
    rw [e]
    refine ⟨es ++ [.switchRet false], by simp, ?_, Or.inl ⟨rfl, ?_, rfl⟩⟩
    · rcases hes with rfl | ⟨_, rfl⟩ <;> simp [NoCb]
    · rcases hes with rfl | ⟨_, rfl⟩ <;> simp [Neutral]

/-- The trace after `switchController` starts with the trace before. -/
theorem switch_trace {conf P} {m : Mgr} (h : Inv P m) (r : SwitchReq) (now : Int) (prepOk : Bool) :
    ∃ es, (m.switch conf r now prepOk).trace = m.trace ++ es ∧ NoCb es := by
  unfold switch
  split
  · exact ⟨[], by simp, by simp [NoCb]⟩
  · rename_i hi
    obtain ⟨es, h1, h2, _⟩ := switchCore_trace (conf := conf) h (by simpa using hi) r now prepOk .ret
    exact ⟨es, h1, h2⟩

theorem reload_trace {conf P} {m : Mgr} (h : Inv P m) (force : Bool) (now : Int) (prepOk : Bool) :
    ∃ es, (m.reload conf force now prepOk).trace = m.trace ++ es ∧ NoCb es := by
  unfold reload
  split
  · exact ⟨[], by simp, by simp [NoCb]⟩
  rename_i hi
  simp only
  split
  · exact ⟨_, rfl, by simp [NoCb]⟩
  split
  · obtain ⟨es, h1, h2, _⟩ := switchCore_trace (conf := conf) h (by simpa using hi)
      ⟨[], m.getControllerNames, strictnessBestEffort, false, 0⟩ now prepOk (.reload m.getControllerNames)
    revert h1
    generalize m.switchCore conf ⟨[], m.getControllerNames, strictnessBestEffort, false, 0⟩ now prepOk
      (.reload m.getControllerNames) = x
    obtain ⟨b, n⟩ := x
    intro h1
    simp only at h1
    cases b
    · refine ⟨es ++ [.reloadRet false], by simp [emit, h1], ?_⟩
      intro c k hck
      rcases List.mem_append.1 hck with hck | hck
      · exact h2 c k hck
      · simp at hck
    · exact ⟨es, h1, h2⟩
  · exact ⟨_, rfl, by simp [NoCb]⟩

theorem mem_hwEvents {m : Mgr} {e : Event} (h : e ∈ m.hwEvents) :
    e = .doSwitch m.swStart m.swStop ∧ m.params.started = false := by
  unfold hwEvents at h
  split at h
  · simp at h
  · rename_i hs; exact ⟨by simpa using h, by simpa using hs⟩

/-- Every controller an update calls is in the current list. -/
theorem update_trace {P} {m : Mgr} (h : Inv P m) (time : Int) (reset : Bool) (hw : HwReply) :
    ∃ es, (m.update time reset hw).trace = m.trace ++ es ∧
      ∀ c k, .cb c k ∈ es → c ∈ m.cur.map (·.c) := by
  have hdr : ∀ c k, .cb c k ∈ m.drivenEvents reset → c ∈ m.cur.map (·.c) := by
    intro c k hck
    obtain ⟨s, hs, _, hh⟩ := mem_drivenEvents hck
    have : c = s.c := by
      rcases hh with e | ⟨_, e | e⟩ <;> cases e <;> rfl
    rw [this]; exact List.mem_map_of_mem hs
  cases hd : m.params.doSwitch
  · exact ⟨m.drivenEvents reset, by rw [update_idle m hd]; rfl, hdr⟩
  · obtain ⟨st, es, d, _, he, ho⟩ := update_switch m h.sane hd time reset hw
    refine ⟨_, by rw [he]; rfl, ?_⟩
    intro c k hck
    simp only [List.mem_append] at hck
    rcases hck with ((hck | hck) | hck) | hck
    · exact hdr c k hck
    · have := (mem_hwEvents hck).1; cases this
    · obtain ⟨x, hx, _, e⟩ := mem_stopEvents.1 hck
      cases e; exact h.stop c hx
    · obtain ⟨x, hx, hh⟩ := ho.events _ hck
      rcases hh with ⟨e, _⟩ | ⟨e, _⟩ | e <;> cases e <;> exact h.start c hx

/-- Every operation extends the trace, and calls only controllers of the current list. -/
theorem step_trace {conf P} {m : Mgr} (h : Inv P m) (op : Op) (hop : op.rosUp) :
    ∃ es, (m.step conf op).trace = m.trace ++ es ∧ ∀ c k, .cb c k ∈ es → c ∈ m.cur.map (·.c) := by
  cases op with
  | update t r hw => exact update_trace h t r hw
  | load n e =>
    obtain ⟨es, h1, h2, _⟩ := load_trace m n e
    exact ⟨es, h1, fun c k hck => absurd hck (h2 c k)⟩
  | unload n =>
    obtain ⟨es, h1, h2, _⟩ := unload_trace h n
    exact ⟨es, h1, fun c k hck => absurd hck (h2 c k)⟩
  | switch r now p =>
    obtain ⟨es, h1, h2⟩ := switch_trace (conf := conf) h r now p
    exact ⟨es, h1, fun c k hck => absurd hck (h2 c k)⟩
  | reload f now p =>
    obtain ⟨es, h1, h2⟩ := reload_trace (conf := conf) h f now p
    exact ⟨es, h1, fun c k hck => absurd hck (h2 c k)⟩
  | poll ok e =>
    obtain ⟨es, h1, h2, _⟩ := poll_trace h ok hop e
    exact ⟨es, h1, fun c k hck => absurd hck (h2 c k)⟩

/-! ### Which controllers are loaded -/

theorem update_cur {D P} {m : Mgr} (h : InvD D P m) (time : Int) (reset : Bool) (hw : HwReply) :
    (m.update time reset hw).cur = m.cur ∧ (m.update time reset hw).nextId = m.nextId ∧
    (m.update time reset hw).svc = m.svc ∧ (m.update time reset hw).startReq = m.startReq ∧
    (m.update time reset hw).stopReq = m.stopReq := by
  cases hd : m.params.doSwitch
  · rw [update_idle m hd]; exact ⟨rfl, rfl, rfl, rfl, rfl⟩
  · obtain ⟨st, es, d, _, he, ho⟩ := update_switch m h.sane hd time reset hw
    rw [he]; exact ⟨rfl, rfl, rfl, rfl, rfl⟩

theorem switchCore_cur {conf P} {m : Mgr} (h : Inv P m) (hi : m.svc = .idle) (r : SwitchReq)
    (now : Int) (prepOk : Bool) (k : Kont) :
    (m.switchCore conf r now prepOk k).2.cur = m.cur ∧
    (m.switchCore conf r now prepOk k).2.nextId = m.nextId ∧
    (m.switchCore conf r now prepOk k).2.state = m.state := by
  obtain ⟨c1, c2⟩ := h.reqs (not_switching_of_idle hi)
  by_cases ha : m.okRequest conf r prepOk
  · rw [switchCore_accept conf m r now prepOk k c1 c2 ha]; exact ⟨rfl, rfl, rfl⟩
  · obtain ⟨a, b, es, e, hes⟩ := switchCore_refuse conf m r now prepOk k c1 c2 ha
    rw [e]; exact ⟨rfl, rfl, rfl⟩

theorem reload_cur {conf P} {m : Mgr} (h : Inv P m) (force : Bool) (now : Int) (prepOk : Bool) :
    (m.reload conf force now prepOk).cur = m.cur ∧
    (m.reload conf force now prepOk).nextId = m.nextId ∧
    (m.reload conf force now prepOk).state = m.state := by
  unfold reload
  split
  · exact ⟨rfl, rfl, rfl⟩
  rename_i hi
  simp only
  split
  · exact ⟨rfl, rfl, rfl⟩
  split
  · have := switchCore_cur (conf := conf) h (by simpa using hi)
      ⟨[], m.getControllerNames, strictnessBestEffort, false, 0⟩ now prepOk (.reload m.getControllerNames)
    revert this
    generalize m.switchCore conf ⟨[], m.getControllerNames, strictnessBestEffort, false, 0⟩ now prepOk
      (.reload m.getControllerNames) = x
    obtain ⟨b, n⟩ := x
    cases b <;> exact id
  · exact ⟨rfl, rfl, rfl⟩

theorem poll_cur {P} {m : Mgr} (h : Inv P m) (ok : RosOk) (elapsed : Int) :
    List.Sublist (m.poll ok elapsed).cur m.cur ∧ (m.poll ok elapsed).nextId = m.nextId ∧
    (m.poll ok elapsed).state = m.state := by
  have hfin : ∀ (n : Mgr) (k : Kont) (b : Bool),
      (n.finish k b).cur = n.cur ∧ (n.finish k b).nextId = n.nextId ∧
      (n.finish k b).state = n.state := by
    intro n k b; cases k <;> cases b <;> exact ⟨rfl, rfl, rfl⟩
  unfold poll
  split
  · exact ⟨List.Sublist.refl _, rfl, rfl⟩
  · split
    · split
      · rw [(hfin _ _ _).1, (hfin _ _ _).2.1, (hfin _ _ _).2.2]; exact ⟨List.Sublist.refl _, rfl, rfl⟩
      · split
        · exact ⟨List.Sublist.refl _, rfl, rfl⟩
        · rw [(hfin _ _ _).1, (hfin _ _ _).2.1, (hfin _ _ _).2.2]; exact ⟨List.Sublist.refl _, rfl, rfl⟩
    · rw [(hfin _ _ _).1, (hfin _ _ _).2.1, (hfin _ _ _).2.2]; exact ⟨List.Sublist.refl _, rfl, rfl⟩
  · split
    · split
      · split
        · exact ⟨List.Sublist.refl _, rfl, rfl⟩
        · rw [(hfin _ _ _).1, (hfin _ _ _).2.1, (hfin _ _ _).2.2]; exact ⟨List.Sublist.refl _, rfl, rfl⟩
      · exact ⟨List.Sublist.refl _, rfl, rfl⟩
    · simp only
      split
      · exact ⟨List.Sublist.refl _, rfl, rfl⟩
      · rw [(hfin _ _ _).1, (hfin _ _ _).2.1, (hfin _ _ _).2.2]; exact ⟨List.Sublist.refl _, rfl, rfl⟩
  · exact ⟨List.Sublist.refl _, rfl, rfl⟩
  · rename_i n ns hsvc
    have hnr : ¬ m.ReleasingList := by rintro ⟨f, r, e⟩; rw [hsvc] at e; cases e
    rcases unloadCore_cases m n (.reload ns)
      (fun m => { m with svc := .idle }.emit [.reloadRet false]) (h.used hnr) with ⟨_, h2, e⟩ | ⟨_, e⟩
    · rw [e]; exact ⟨List.filter_sublist, rfl, rfl⟩
    · rw [e]; exact ⟨List.Sublist.refl _, rfl, rfl⟩

/-- Controllers only enter the list with a fresh identity, and identities are not reused. -/
theorem step_cur {conf P} {m : Mgr} (h : Inv P m) (op : Op) :
    m.nextId ≤ (m.step conf op).nextId ∧
    ∀ s ∈ (m.step conf op).cur, s ∈ m.cur ∨ s.c = m.nextId := by
  have keep : ∀ m' : Mgr, List.Sublist m'.cur m.cur → m'.nextId = m.nextId →
      m.nextId ≤ m'.nextId ∧ ∀ s ∈ m'.cur, s ∈ m.cur ∨ s.c = m.nextId := by
    intro m' h1 h2
    exact ⟨le_of_eq h2.symm, fun s hs => Or.inl (h1.subset hs)⟩
  cases op with
  | update t r hw =>
    obtain ⟨h1, h2, _⟩ := update_cur h t r hw
    exact keep _ (by show List.Sublist (m.update t r hw).cur _; rw [h1]) h2
  | load n e =>
    show m.nextId ≤ (m.load n e).nextId ∧ ∀ s ∈ (m.load n e).cur, _
    by_cases hi : m.svc = .idle
    swap
    · exact keep _ (by simp [load, hi]) (by simp [load, hi])
    by_cases hu : m.used = some (!m.current)
    · exact keep _ (by simp [load, hi, hu]) (by simp [load, hi, hu])
    rcases load_cases m n e hi hu with ⟨ty, i, cl, _, _, _, _, _, e⟩ | ⟨_, o, _, e⟩
    · rw [e]
      refine ⟨Nat.le_succ _, ?_⟩
      intro s hs
      rcases List.mem_append.1 hs with hs | hs
      · exact Or.inl hs
      · rw [List.mem_singleton.1 hs]; exact Or.inr rfl
    · exact keep _ (by rw [e]) (by rw [e])
  | unload n =>
    show m.nextId ≤ (m.unload n).nextId ∧ ∀ s ∈ (m.unload n).cur, _
    unfold unload
    split
    · exact keep _ (List.Sublist.refl _) rfl
    · rename_i hi
      have hi : m.svc = .idle := by simpa using hi
      rcases unloadCore_cases m n .ret id (h.used (not_releasing_of_idle hi)) with ⟨_, h2, e⟩ | ⟨_, e⟩
      · rw [e]; exact keep _ List.filter_sublist rfl
      · rw [e]; exact keep _ (List.Sublist.refl _) rfl
  | switch r now p =>
    show m.nextId ≤ (m.switch conf r now p).nextId ∧ ∀ s ∈ (m.switch conf r now p).cur, _
    unfold switch
    split
    · exact keep _ (List.Sublist.refl _) rfl
    · rename_i hi
      obtain ⟨h1, h2, _⟩ := switchCore_cur (conf := conf) h (by simpa using hi) r now p .ret
      exact keep _ (by rw [h1]) h2
  | reload f now p =>
    obtain ⟨h1, h2, _⟩ := reload_cur (conf := conf) h f now p
    exact keep _ (by show List.Sublist (m.reload conf f now p).cur _; rw [h1]) h2
  | poll ok e =>
    obtain ⟨h1, h2, _⟩ := poll_cur h ok e
    exact keep _ h1 h2

/-- A controller object that exists but is not loaded is never called again. -/
theorem run_not_called {conf} {m : Mgr} (h : Inv (fun _ => True) m) {c : CId} (hc : c < m.nextId)
    (hnc : c ∉ m.cur.map (·.c)) (ops : List Op) (hops : ∀ op ∈ ops, op.rosUp) :
    ∃ es, (m.run conf ops).trace = m.trace ++ es ∧ (∀ k, .cb c k ∉ es) ∧
      c ∉ (m.run conf ops).cur.map (·.c) := by
  induction ops generalizing m with
  | nil => exact ⟨[], by simp [run], by simp, hnc⟩
  | cons op ops ih =>
    have hop := hops op (by simp)
    obtain ⟨es1, e1, h1⟩ := step_trace (conf := conf) h op hop
    obtain ⟨hn, hcur⟩ := step_cur (conf := conf) h op
    have hnc' : c ∉ (m.step conf op).cur.map (·.c) := by
      intro hh
      obtain ⟨s, hs, rfl⟩ := List.mem_map.1 hh
      rcases hcur s hs with hs' | hs'
      · exact hnc (List.mem_map_of_mem hs')
      · rw [hs'] at hc; exact absurd hc (lt_irrefl _)
    obtain ⟨es2, e2, h2, h3⟩ := ih (inv_step (checkOk_true conf) h op hop) (lt_of_lt_of_le hc hn) hnc'
      fun o ho => hops o (by simp [ho])
    refine ⟨es1 ++ es2, ?_, ?_, h3⟩
    · show ((m.step conf op).run conf ops).trace = _
      rw [e2, e1, List.append_assoc]
    · intro k hk
      rcases List.mem_append.1 hk with hk | hk
      · exact hnc (h1 c k hk)
      · exact h2 k hk

end Mgr

end Verif
