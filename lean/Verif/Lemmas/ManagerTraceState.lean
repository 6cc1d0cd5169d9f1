import Verif.Lemmas.ManagerQuiet

/-!
Helper lemmas for the manager: the states of the controllers can be read off the trace.
-/

namespace Verif

namespace Mgr

open Spec

/-- Effect of one event on the observed state of `c`. -/
def stepState (c : CId) (s : CState) (e : Event) : CState :=
  match e with
  | .cb c' k => if c' = c then afterCallback k else s
  | _ => s

theorem observed_eq (c : CId) (t : List Event) : observed c t = t.foldl (stepState c) .initialized := rfl

theorem observed_append (c : CId) (t es : List Event) :
    observed c (t ++ es) = es.foldl (stepState c) (observed c t) := by
  simp [observed_eq, List.foldl_append]

theorem foldl_noCb {c : CId} {es : List Event} (h : ∀ k, .cb c k ∉ es) (s : CState) :
    es.foldl (stepState c) s = s := by
  induction es generalizing s with
  | nil => rfl
  | cons e es ih =>
    rw [List.foldl_cons, ih (fun k hk => h k (by simp [hk]))]
    cases e with
    | cb c' k =>
      show (if c' = c then afterCallback k else s) = s
      rw [if_neg]
      rintro rfl
      exact h k (by simp)
    | _ => rfl

/-- The new events account for the new states. -/
def Tracks (m m' : Mgr) : Prop :=
  m'.nextId = m.nextId ∧ ∃ es, m'.trace = m.trace ++ es ∧ (∀ c, .destroyed c ∉ es) ∧
    ∀ c, m'.state c = es.foldl (stepState c) (m.state c)

theorem Tracks.refl (m : Mgr) : Tracks m m := ⟨rfl, [], by simp, by simp, fun _ => rfl⟩

theorem Tracks.trans {a b c : Mgr} (h1 : Tracks a b) (h2 : Tracks b c) : Tracks a c := by
  obtain ⟨n1, e1, t1, d1, s1⟩ := h1
  obtain ⟨n2, e2, t2, d2, s2⟩ := h2
  refine ⟨n2.trans n1, e1 ++ e2, by rw [t2, t1]; simp, ?_, ?_⟩
  · intro x hx
    rcases List.mem_append.1 hx with hx | hx
    exacts [d1 x hx, d2 x hx]
  · intro x
    rw [List.foldl_append, s2, s1]

theorem tracks_of_eq {m m' : Mgr} (h1 : m'.nextId = m.nextId) (h2 : m'.trace = m.trace)
    (h3 : m'.state = m.state) : Tracks m m' :=
  ⟨h1, [], by simp [h2], by simp, fun c => by rw [h3]; rfl⟩

theorem tracks_foldl {α : Type} (f : Mgr → α → Mgr) (hf : ∀ m a, Tracks m (f m a)) (l : List α)
    (m : Mgr) : Tracks m (l.foldl f m) := by
  induction l generalizing m with
  | nil => exact Tracks.refl m
  | cons a l ih => exact (hf m a).trans (ih _)

theorem tracks_req (m : Mgr) (r : Request) (hr : ∀ ok, r ≠ .init ok) (c : CId) :
    Tracks m (m.req r c) := by
  unfold req
  split
  swap
  · exact tracks_of_eq rfl rfl rfl
  refine ⟨rfl, _, rfl, ?_, ?_⟩
  · intro x hx
    obtain ⟨_, _, e⟩ := List.mem_map.1 hx
    cases e
  · intro x
    show (if x = c then _ else _) = _
    by_cases hx : x = c
    · subst hx
      rw [if_pos rfl]
      cases r with
      | init ok => exact absurd rfl (hr ok)
      | update =>
        simp only [Request.run, updateRequest]
        split
        · rename_i h; simp [stepState, afterCallback, h]
        · rfl
      | start =>
        simp only [Request.run, startRequest]
        split
        · simp [stepState, afterCallback]
        · rfl
      | stop =>
        simp only [Request.run, stopRequest]
        split
        · simp [stepState, afterCallback]
        · rfl
      | wait =>
        simp only [Request.run, waitRequest]
        split
        · simp [stepState, afterCallback]
        · rfl
      | abort =>
        simp only [Request.run, abortRequest]
        split
        · simp [stepState, afterCallback]
        · rfl
    · rw [if_neg hx, foldl_noCb]
      intro k hk
      obtain ⟨_, _, e⟩ := List.mem_map.1 hk
      cases e; exact hx rfl

theorem tracks_emit (m : Mgr) (es : List Event) (h1 : ∀ c k, .cb c k ∉ es)
    (h2 : ∀ c, .destroyed c ∉ es) : Tracks m (m.emit es) :=
  ⟨rfl, es, rfl, h2, fun c => (foldl_noCb (h1 c) _).symm⟩

theorem tracks_asapLoop (time : Int) (hw : HwReply) (n : Nat) (l : List CId) (m : Mgr) :
    Tracks m (asapLoop time hw n l m) := by
  induction l generalizing n m with
  | nil => exact Tracks.refl m
  | cons c cs ih =>
    refine Tracks.trans ?_ (ih (n + 1) _)
    split
    · refine tracks_foldl _ ?_ _ m
      intro m s
      unfold asapEntry
      split
      · split
        · exact tracks_req _ _ (by simp) _
        · split
          · exact tracks_req _ _ (by simp) _
          · exact tracks_req _ _ (by simp) _
      · exact Tracks.refl m
    · exact Tracks.refl m

theorem tracks_update (m : Mgr) (time : Int) (reset : Bool) (hw : HwReply) :
    Tracks m (m.update time reset hw) := by
  have hreq : ∀ (r : Request), (∀ ok, r ≠ .init ok) → ∀ (l : List CId) (m : Mgr),
      Tracks m (l.foldl (fun m c => m.req r c) m) :=
    fun r hr l m => tracks_foldl _ (fun m c => tracks_req m r hr c) l m
  have hp : ∀ (m : Mgr) (p : SwitchParams), Tracks m { m with params := p } :=
    fun m p => tracks_of_eq rfl rfl rfl
  have hms : ∀ m : Mgr, Tracks m (m.manageSwitch time hw) := by
    intro m
    unfold manageSwitch
    simp only
    have h1 : Tracks m (if !m.params.started then
      { m.emit [.doSwitch m.swStart m.swStop] with params := { m.params with started := true } }
      else m) := by
      split
      · exact (tracks_emit m _ (by simp) (by simp)).trans (hp _ _)
      · exact Tracks.refl m
    refine h1.trans ?_
    generalize (if !m.params.started then
      { m.emit [.doSwitch m.swStart m.swStop] with params := { m.params with started := true } }
      else m) = m1
    have h2 : Tracks m1 m1.stopControllers := by
      unfold stopControllers
      refine tracks_foldl _ ?_ _ _
      intro m c
      split
      · exact tracks_req _ _ (by simp) _
      · exact Tracks.refl m
    refine h2.trans ?_
    generalize m1.stopControllers = m2
    split
    · unfold startControllers
      split
      · exact (hreq .start (by simp) _ _).trans (hp _ _)
      · split
        · exact (hreq .abort (by simp) _ _).trans (hp _ _)
        · exact hreq .wait (by simp) _ _
    · unfold startControllersAsap
      simp only
      split
      · exact (tracks_asapLoop _ _ _ _ _).trans (hp _ _)
      · exact tracks_asapLoop _ _ _ _ _
  unfold update
  simp only
  have h0 : Tracks m { m with used := some m.current } := tracks_of_eq rfl rfl rfl
  refine h0.trans ?_
  generalize ({ m with used := some m.current } : Mgr) = m0
  have h1 : Tracks m0 (if reset then m0.resetControllers else m0) := by
    split
    · unfold resetControllers
      refine tracks_foldl _ ?_ _ _
      intro m s
      split
      · exact (tracks_req m _ (by simp) _).trans (tracks_req _ _ (by simp) _)
      · exact Tracks.refl m
    · exact Tracks.refl m0
  refine h1.trans ?_
  generalize (if reset then m0.resetControllers else m0) = m1
  have h2 : Tracks m1 m1.updateControllers := by
    unfold updateControllers
    exact tracks_foldl _ (fun m s => tracks_req m _ (by simp) _) _ _
  refine h2.trans ?_
  split
  · exact hms _
  · exact Tracks.refl _

/-- Events of a step that destroys controllers or makes no callbacks. -/
theorem poll_destroyed (m : Mgr) (ok : RosOk) (elapsed : Int) :
    ∃ es, (m.poll ok elapsed).trace = m.trace ++ es ∧
      ∀ c, .destroyed c ∈ es → c ∈ m.dropped := by
  have hfin : ∀ (n : Mgr) (k : Kont) (b : Bool), ∃ es, (n.finish k b).trace = n.trace ++ es ∧
      ∀ c, .destroyed c ∉ es := by
    intro n k b
    cases k <;> cases b
    · exact ⟨[], by simp [finish], by simp⟩
    · exact ⟨[], by simp [finish], by simp⟩
    · exact ⟨[.reloadRet false], by simp [finish, emit], by simp⟩
    · exact ⟨[], by simp [finish], by simp⟩
  have hemit : ∀ (n : Mgr) (es0 : List Event) (k : Kont) (b : Bool), (∀ c, .destroyed c ∉ es0) →
      n.trace = m.trace → ∃ es, ((n.emit es0).finish k b).trace = m.trace ++ es ∧
        ∀ c, .destroyed c ∈ es → c ∈ m.dropped := by
    intro n es0 k b h0 ht
    obtain ⟨es, h1, h2⟩ := hfin (n.emit es0) k b
    refine ⟨es0 ++ es, by rw [h1]; simp [emit, ht], ?_⟩
    intro c hc
    rcases List.mem_append.1 hc with hc | hc
    · exact absurd hc (h0 c)
    · exact absurd hc (h2 c)
  unfold poll
  split
  · exact ⟨[], by simp, by simp⟩
  · split
    · split
      · exact hemit m _ _ _ (by simp) rfl
      · split
        · exact ⟨[], by simp, by simp⟩
        · exact hemit _ _ _ _ (by simp) rfl
    · exact hemit _ _ _ _ (by simp) rfl
  · split
    · split
      · split
        · exact ⟨[_], rfl, by simp⟩
        · exact hemit _ _ _ _ (by simp) rfl
      · exact ⟨[], by simp, by simp⟩
    · simp only
      have hd : ∀ c, Event.destroyed c ∈ m.dropped.map Event.destroyed → c ∈ m.dropped := by
        intro c hc
        obtain ⟨x, hx, e⟩ := List.mem_map.1 hc
        cases e; exact hx
      split
      · rename_i name _
        refine ⟨m.dropped.map .destroyed ++ [.loadRet name true], by simp [emit, clearOld], ?_⟩
        intro c hc
        rcases List.mem_append.1 hc with hc | hc
        · exact hd c hc
        · simp at hc
      · rename_i name k _
        obtain ⟨es, h1, h2⟩ := hfin (m.clearOld.emit [.unloadRet name true]) k true
        refine ⟨m.dropped.map .destroyed ++ ([.unloadRet name true] ++ es),
          by rw [h1]; simp [emit, clearOld], ?_⟩
        intro c hc
        rcases List.mem_append.1 hc with hc | hc
        · exact hd c hc
        · rcases List.mem_append.1 hc with hc | hc
          · simp at hc
          · exact absurd hc (h2 c)
  · exact ⟨[_], rfl, by simp⟩
  · unfold unloadCore
    split
    · exact ⟨[], by simp, by simp⟩
    · split
      · exact ⟨[_, _], by simp [emit]; exact ⟨rfl, rfl⟩, by simp⟩
      · split
        · exact ⟨[_, _], by simp [emit]; exact ⟨rfl, rfl⟩, by simp⟩
        · exact ⟨[], by simp, by simp⟩

/-- States can be read off the trace, and no controller is destroyed while running. -/
structure StInv (m : Mgr) : Prop where
  state : ∀ c < m.nextId, m.state c = observed c m.trace
  unborn : ∀ c, m.nextId ≤ c → ∀ k, .cb c k ∉ m.trace
  destroyed : ∀ pre post c, m.trace = pre ++ .destroyed c :: post → observed c pre ≠ .running

theorem stInv_step {conf} {m : Mgr} (h : Inv (fun _ => True) m) (hs : StInv m) (op : Op)
    (hop : op.rosUp) : StInv (m.step conf op) := by
  -- general step: new events call only loaded controllers, destroy only dropped ones
  have key : ∀ m' es, m'.trace = m.trace ++ es → m.nextId ≤ m'.nextId →
      (∀ c k, .cb c k ∈ es → c ∈ m.cur.map (·.c)) →
      (∀ c < m.nextId, m'.state c = es.foldl (stepState c) (m.state c)) →
      (∀ c, m.nextId ≤ c → c < m'.nextId → m'.state c = .initialized) →
      ((∀ c, .destroyed c ∉ es) ∨ (NoCb es ∧ ∀ c, .destroyed c ∈ es → c ∈ m.dropped)) →
      StInv m' := by
    intro m' es ht hn hcb hst hnew hdes
    have hub : ∀ c, m.nextId ≤ c → ∀ k, .cb c k ∉ es := by
      intro c hc k hk
      obtain ⟨s, hs', rfl⟩ := List.mem_map.1 (hcb c k hk)
      exact absurd (h.fresh s (Or.inl hs')) (Nat.not_lt.2 hc)
    refine ⟨?_, ?_, ?_⟩
    · intro c hc
      rw [ht, observed_append]
      by_cases hc' : c < m.nextId
      · rw [hst c hc', hs.state c hc']
      · have hc' := Nat.le_of_not_lt hc'
        rw [hnew c hc' hc, foldl_noCb (hub c hc'), observed_eq, foldl_noCb (hs.unborn c hc')]
    · intro c hc k hk
      rw [ht] at hk
      rcases List.mem_append.1 hk with hk | hk
      · exact hs.unborn c (Nat.le_trans hn hc) k hk
      · exact hub c (Nat.le_trans hn hc) k hk
    · intro pre post c e
      rw [ht] at e
      rcases List.append_eq_append_iff.1 e with ⟨as, e1, e2⟩ | ⟨bs, e1, e2⟩
      · -- the event is new
        rcases hdes with hdes | ⟨hno, hdes⟩
        · exact absurd (by rw [e2]; simp) (hdes c)
        · have hd := hdes c (by rw [e2]; simp)
          obtain ⟨s, hs1, rfl⟩ := List.mem_map.1 hd
          obtain ⟨hs2, hs3⟩ := List.mem_filter.1 hs1
          rw [e1, observed_append, foldl_noCb (fun k hk => hno s.c k (by rw [e2]; simp [hk])),
            ← hs.state _ (h.fresh s (Or.inr hs2))]
          intro hr
          obtain ⟨t, ht1, ht2⟩ := List.mem_map.1 (h.running _ hr)
          simp only [Bool.not_eq_true', List.any_eq_false, decide_eq_true_eq] at hs3
          exact hs3 t ht1 ht2
      · cases bs with
        | nil =>
          rw [List.nil_append] at e2
          rw [List.append_nil] at e1
          rcases hdes with hdes | ⟨hno, hdes⟩
          · exact absurd (by rw [← e2]; simp) (hdes c)
          · have hd := hdes c (by rw [← e2]; simp)
            obtain ⟨s, hs1, rfl⟩ := List.mem_map.1 hd
            obtain ⟨hs2, hs3⟩ := List.mem_filter.1 hs1
            rw [← e1, ← hs.state _ (h.fresh s (Or.inr hs2))]
            intro hr
            obtain ⟨t, ht1, ht2⟩ := List.mem_map.1 (h.running _ hr)
            simp only [Bool.not_eq_true', List.any_eq_false, decide_eq_true_eq] at hs3
            exact hs3 t ht1 ht2
        | cons b bs =>
          rw [List.cons_append] at e2
          injection e2 with e3 e4
          subst e3
          exact hs.destroyed pre bs c e1
  have hquiet : ∀ m' es, m'.trace = m.trace ++ es → m'.nextId = m.nextId → m'.state = m.state →
      NoCb es → (∀ c, .destroyed c ∈ es → c ∈ m.dropped) → StInv m' := by
    intro m' es h1 h2 h3 h4 h5
    refine key m' es h1 (by rw [h2]) (fun c k hk => absurd hk (h4 c k)) ?_ ?_ (Or.inr ⟨h4, h5⟩)
    · intro c _; rw [h3, foldl_noCb (h4 c)]
    · intro c h6 h7; rw [h2] at h7; exact absurd h7 (Nat.not_lt.2 h6)
  cases op with
  | update t r hw =>
    change StInv (m.update t r hw)
    obtain ⟨h1, es, h2, h3, h4⟩ := tracks_update m t r hw
    obtain ⟨es', h5, h6⟩ := update_trace h t r hw
    rw [h2] at h5
    have := List.append_cancel_left h5
    subst this
    refine key _ es h2 (by rw [h1]) h6 (fun c _ => h4 c) ?_ (Or.inl h3)
    intro c h6 h7; rw [h1] at h7; exact absurd h7 (Nat.not_lt.2 h6)
  | load n e =>
    change StInv (m.load n e)
    by_cases hi : m.svc = .idle
    swap
    · have : m.load n e = m := by simp [load, hi]
      rw [this]; exact hs
    rcases load_cases m n e hi (h.used (not_releasing_of_idle hi)) with
      ⟨ty, i, cl, _, _, _, _, _, e'⟩ | ⟨_, o, _, e'⟩
    · rw [e']
      refine key _ [] (by simp [loaded]) (by simp [loaded]) (by simp) ?_ ?_ (Or.inl (by simp))
      · intro c hc
        simp [loaded, Nat.ne_of_lt hc]
      · intro c h6 h7
        have : c = m.nextId := Nat.le_antisymm (Nat.lt_succ_iff.1 h7) h6
        simp [loaded, this]
    · rw [e']
      exact hquiet _ [.loadRet n false] rfl rfl rfl (by simp [NoCb]) (by simp)
  | unload n =>
    change StInv (m.unload n)
    unfold unload
    split
    · exact hs
    · rename_i hi
      have hi : m.svc = .idle := by simpa using hi
      rcases unloadCore_cases m n .ret id (h.used (not_releasing_of_idle hi)) with ⟨_, h2, e⟩ | ⟨_, e⟩
      · rw [e]; exact hquiet _ [] (by simp [unloaded]) rfl rfl (by simp [NoCb]) (by simp)
      · rw [e]; exact hquiet _ [.unloadRet n false] rfl rfl rfl (by simp [NoCb]) (by simp)
  | switch r now p =>
    change StInv (m.switch conf r now p)
    unfold switch
    split
    · exact hs
    · rename_i hi
      have hi : m.svc = .idle := by simpa using hi
      obtain ⟨_, h2, h3⟩ := switchCore_cur (conf := conf) h hi r now p .ret
      obtain ⟨es, h4, h5, h6⟩ := switchCore_trace (conf := conf) h hi r now p .ret
      refine hquiet _ es h4 h2 h3 h5 ?_
      intro c hc
      obtain ⟨c1, c2⟩ := h.reqs (not_switching_of_idle hi)
      exfalso
      by_cases ha : m.okRequest conf r p
      · rw [switchCore_accept conf m r now p .ret c1 c2 ha] at h4
        rw [← List.append_cancel_left h4] at hc; simp at hc
      · obtain ⟨a, b, es', e, he⟩ := switchCore_refuse conf m r now p .ret c1 c2 ha
        rw [e] at h4
        rw [← List.append_cancel_left ((List.append_assoc _ _ _).symm.trans h4)] at hc
        rcases he with rfl | ⟨_, rfl⟩ <;> simp at hc
  | reload f now p =>
    change StInv (m.reload conf f now p)
    obtain ⟨_, h2, h3⟩ := reload_cur (conf := conf) h f now p
    obtain ⟨es, h4, h5⟩ := reload_trace (conf := conf) h f now p
    refine hquiet _ es h4 h2 h3 h5 ?_
    intro c hc
    exfalso
    unfold reload at h4
    split at h4
    · simp at h4; subst h4; simp at hc
    rename_i hi
    have hi : m.svc = .idle := by simpa using hi
    obtain ⟨c1, c2⟩ := h.reqs (not_switching_of_idle hi)
    simp only at h4
    split at h4
    · rw [← List.append_cancel_left h4] at hc; simp at hc
    · split at h4
      · by_cases ha : m.okRequest conf ⟨[], m.getControllerNames, strictnessBestEffort, false, 0⟩ p
        · rw [switchCore_accept conf m _ now p _ c1 c2 ha] at h4
          simp only at h4
          rw [← List.append_cancel_left h4] at hc; simp at hc
        · obtain ⟨a, b, es', e, he⟩ := switchCore_refuse conf m _ now p
            (.reload m.getControllerNames) c1 c2 ha
          rw [e] at h4
          simp only [emit, List.append_assoc] at h4
          rw [← List.append_cancel_left h4] at hc
          rcases he with rfl | ⟨_, rfl⟩ <;> simp at hc
      · rw [← List.append_cancel_left h4] at hc; simp at hc
  | poll ok el =>
    change StInv (m.poll ok el)
    obtain ⟨_, h2, h3⟩ := poll_cur h ok el
    obtain ⟨es, h4, h5, _⟩ := poll_trace h ok hop el
    obtain ⟨es', h6, h7⟩ := poll_destroyed m ok el
    rw [h4] at h6
    have := List.append_cancel_left h6
    subst this
    exact hquiet _ es h4 h2 h3 h5 h7

theorem stInv_reachable {conf} {m : Mgr} (h : Reachable conf m) : StInv m := by
  obtain ⟨ops, hops, rfl⟩ := h
  induction ops using List.reverseRecOn with
  | nil => refine ⟨?_, ?_, ?_⟩ <;> simp [run, Mgr.init]
  | append_singleton ops op ih =>
    have hops' : ∀ o ∈ ops, o.rosUp := fun o ho => hops o (by simp [ho])
    rw [run_append]
    exact stInv_step (inv_run (checkOk_true conf) (inv_init trivial) ops hops') (ih hops') op
      (hops op (by simp))

end Mgr

end Verif
