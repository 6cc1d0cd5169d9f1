import Verif.Lemmas.Refinement

/-!
Helper lemmas: whole executions with interleaved updates, and what holds in the middle of them.
-/

namespace Verif

open Mgr

namespace Inter

theorem used_step {conf : List ControllerInfo → Bool} {P} {m : Mgr} (i : Inv P m) (hu : m.used ≠ none)
    {op : Op} (hop : op.rosUp) : (m.step conf op).used ≠ none := by
  cases hs : op.isService with
  | true => rw [(svcOut_step conf i hs hop).used]; exact hu
  | false =>
    cases op with
    | update t r hw =>
      show (m.update t r hw).used ≠ none
      cases hd : m.params.doSwitch
      · rw [update_idle m hd]; simp
      · obtain ⟨st, es, d, _, he, _⟩ := update_switch m i.sane hd t r hw
        rw [he]; simp
    | _ => simp [Op.isService] at hs

/-- Every careful execution is matched by one in which updates are not interrupted. -/
theorem rel_run {conf : List ControllerInfo → Bool} {P} (hp : CheckOk conf P) {s : St} {a : Mgr} (i : Inv P a)
    (hu : a.used ≠ none) (h : Rel s a) {ops : List Step} (hc : CarefulRun conf s ops) :
    ∃ l : List Op, (∀ op ∈ l, op.rosUp) ∧ l.filter Op.isService = services ops ∧
      Rel (run conf s ops) (a.run conf l) ∧ Inv P (a.run conf l) ∧ (a.run conf l).used ≠ none := by
  induction ops generalizing s a with
  | nil => exact ⟨[], by simp, rfl, h, i, hu⟩
  | cons o os ih =>
    obtain ⟨h1, h2⟩ := hc
    have lift : ∀ (pre : List Op), (∀ op ∈ pre, op.rosUp) → Inv P (a.run conf pre) →
        (a.run conf pre).used ≠ none → Rel (step conf s o) (a.run conf pre) →
        pre.filter Op.isService ++ services os = services (o :: os) →
        ∃ l : List Op, (∀ op ∈ l, op.rosUp) ∧ l.filter Op.isService = services (o :: os) ∧
          Rel (run conf s (o :: os)) (a.run conf l) ∧ Inv P (a.run conf l) ∧
          (a.run conf l).used ≠ none := by
      intro pre p1 p2 p3 p4 p5
      obtain ⟨l, g1, g2, g3, g4, g5⟩ := ih p2 p3 p4 h2
      refine ⟨pre ++ l, ?_, ?_, ?_⟩
      · intro op ho
        rcases List.mem_append.1 ho with ho | ho
        · exact p1 op ho
        · exact g1 op ho
      · rw [List.filter_append, g2, p5]
      · have e : a.run conf (pre ++ l) = (a.run conf pre).run conf l := by
          simp [Mgr.run, List.foldl_append]
        rw [e]
        exact ⟨g3, g4, g5⟩
    have iu : ∀ t r hw, Inv P (a.update t r hw) := fun t r hw =>
      inv_step hp i (.update t r hw) trivial
    have uu : ∀ t r hw, (a.update t r hw).used ≠ none := fun t r hw =>
      used_step (conf := conf) i hu (op := .update t r hw) trivial
    cases o with
    | rt u =>
      rcases rel_rt i h u with h | ⟨t, r, hw, h⟩
      · exact lift [] (by simp) i hu h rfl
      · exact lift [.update t r hw] (by simp [Op.rosUp]) (iu t r hw) (uu t r hw) h rfl
    | svc op =>
      cases hop : op.isService with
      | false =>
        cases op with
        | update => exact lift [] (by simp) i hu h (by simp [services, hop])
        | _ => simp [Op.isService] at hop
      | true =>
        have e : step conf s (.svc op) = { s with m := s.m.step conf op } := by
          cases op <;> first | rfl | (simp [Op.isService] at hop)
        obtain ⟨hr, hc⟩ := h1
        have it : ∀ {m}, Inv P m → Inv (fun _ => True) m := fun h =>
          ⟨h.names, h.objs, h.fresh, h.inited, h.unborn, h.running, h.reqs, h.start, h.stop, trivial,
            fun _ => trivial, h.done, h.used, h.former, h.old, h.fault⟩
        rcases rel_svc (conf := conf) (it i) hu h hop ⟨hr, hc⟩ with h | ⟨t, r, hw, h⟩
        · exact lift [op] (by simpa using hr) (inv_step hp i op hr) (used_step i hu hr)
            (by rw [e]; exact h) (by simp [services, hop])
        · exact lift [.update t r hw, op] (by simp only [List.mem_cons, List.not_mem_nil, or_false]; rintro o (rfl | rfl); exacts [trivial, hr])
            (inv_step hp (iu t r hw) op hr) (used_step (iu t r hw) (uu t r hw) hr)
            (by rw [e]; exact h) (by simp [services, hop, show (Op.update t r hw).isService = false from rfl])

/-! ### In the middle of an update -/

theorem fault_req (m : Mgr) (r : Request) (c : CId) (h : m.fault = true) : (m.req r c).fault = true := by
  unfold req; split <;> simp [h]

theorem fault_foldl {α : Type} (f : Mgr → α → Mgr) (hf : ∀ m x, m.fault = true → (f m x).fault = true)
    (l : List α) (m : Mgr) (h : m.fault = true) : (l.foldl f m).fault = true := by
  induction l generalizing m with
  | nil => exact h
  | cons x l ih => exact ih _ (hf m x h)

theorem fault_asapEntry (n : Nat) (c : CId) (time : Int) (hw : HwReply) (m : Mgr) (s : CtrlSpec)
    (h : m.fault = true) : (asapEntry n c time hw m s).fault = true := by
  unfold asapEntry
  split
  · split
    · exact fault_req _ _ _ h
    · split <;> exact fault_req _ _ _ h
  · exact h

theorem fault_asapLoop (time : Int) (hw : HwReply) (n : Nat) (l : List CId) (m : Mgr)
    (h : m.fault = true) : (asapLoop time hw n l m).fault = true := by
  induction l generalizing n m with
  | nil => exact h
  | cons c l ih =>
    apply ih
    split
    · exact fault_foldl _ (fault_asapEntry _ _ _ _) _ _ h
    · exact h

theorem fault_launch (u : Args) (m : Mgr) (h : m.fault = true) : (launch u m).fault = true := by
  have h1 : ∀ r : Request, (m.startReq.foldl (fun m c => m.req r c) m).fault = true := fun r =>
    fault_foldl _ (fun m c => fault_req m r c) _ _ h
  unfold launch
  split
  · unfold startControllers
    split
    · exact h1 .start
    · split
      · exact h1 .abort
      · exact h1 .wait
  · unfold startControllersAsap
    simp only
    split <;> exact fault_asapLoop _ _ _ _ _ h

theorem fault_stopping (l : List CId) (m : Mgr) (h : m.fault = true) :
    (l.foldl (fun m c => if m.isRunning c then m.req .stop c else m) m).fault = true := by
  apply fault_foldl _ _ _ _ h
  intro m c h
  split
  · exact fault_req _ _ _ h
  · exact h

theorem fault_look (u : Args) (m : Mgr) (h : m.fault = true) : (look u m).fault = true := by
  unfold look
  split
  · show (launch u (stopControllers _)).fault = true
    apply fault_launch
    apply fault_stopping
    split <;> exact h
  · exact h

theorem fault_resetting (l : List CtrlSpec) (m : Mgr) (h : m.fault = true) :
    (l.foldl (fun m s => if m.isRunning s.c then (m.req .stop s.c).req .start s.c else m) m).fault = true := by
  apply fault_foldl _ _ _ _ h
  intro m c h
  split
  · exact fault_req _ _ _ (fault_req _ _ _ h)
  · exact h

/-- A fault does not go away. -/
theorem fault_complete (m : Mgr) (rt : Rt) (h : m.fault = true) : (complete m rt).fault = true := by
  cases rt with
  | idle => exact h
  | read u r =>
    simp only [complete]
    apply fault_look
    apply fault_foldl _ (fun m (s : CtrlSpec) => fault_req m .update s.c)
    split
    · exact fault_resetting _ _ h
    · exact h
  | resetting u l =>
    exact fault_look _ _ (fault_foldl _ (fun m (s : CtrlSpec) => fault_req m .update s.c) _ _ (fault_resetting _ _ h))
  | restarting u c l =>
    exact fault_look _ _ (fault_foldl _ (fun m (s : CtrlSpec) => fault_req m .update s.c) _ _
      (fault_resetting _ _ (fault_req _ _ _ h)))
  | updating u l => exact fault_look _ _ (fault_foldl _ (fun m (s : CtrlSpec) => fault_req m .update s.c) _ _ h)
  | looking u => exact fault_look _ _ h
  | stopping u l => exact fault_launch _ _ (fault_stopping _ _ h)
  | choosing u => exact fault_launch _ _ h
  | starting u l => exact fault_foldl _ (fun m c => fault_req m .start c) _ _ h
  | aborting u l => exact fault_foldl _ (fun m c => fault_req m .abort c) _ _ h
  | waiting u l => exact fault_foldl _ (fun m c => fault_req m .wait c) _ _ h
  | asap u n l =>
    simp only [complete]
    split <;> exact fault_asapLoop _ _ _ _ _ h

theorem fault_same {p : List Event} {m a : Mgr} (h : Same p m a) : a.fault = m.fault := by
  rw [h.eq]; rfl

/-- No destroyed controller has been touched. -/
theorem rel_fault {P} {s : St} {a : Mgr} (mono : ∀ l l', List.Sublist l' l → P l → P l') (i : Inv P a)
    (h : Rel s a) : s.m.fault = false := by
  have same : ∀ {p : List Event} {m : Mgr}, Same p m a → m.fault = false := fun h => by
    rw [← fault_same h]; exact i.fault
  have pend : ∀ {u}, Pending s u a → s.m.fault = false := by
    intro u hp
    obtain ⟨r, hs⟩ := hp.same
    have h1 := fault_same hs
    rw [(inv_update mono i u.time r u.hw).fault] at h1
    cases hf : s.m.fault with
    | false => rfl
    | true => rw [fault_complete _ _ hf] at h1; cases h1
  obtain ⟨m, rt⟩ := s
  cases rt with
  | idle => exact same h
  | read u r =>
    rcases h with ⟨_, h⟩ | ⟨_, _, _, _, h⟩
    · exact same h
    · exact same h
  | resetting u l =>
    rcases h with h | h
    · exact same h.same
    · exact pend h
  | restarting u c l =>
    rcases h with ⟨_, _, h⟩ | h
    · exact same (m := restored m c) h.same
    · exact pend h
  | updating u l =>
    rcases h with h | h
    · exact same h.same
    · exact pend h
  | looking u =>
    rcases h with h | h
    · exact same h.same
    · exact pend h
  | stopping u l => exact pend h
  | choosing u => exact pend h
  | starting u l => exact pend h
  | aborting u l => exact pend h
  | waiting u l => exact pend h
  | asap u n l => exact pend h

theorem start_running (m : Mgr) (c x : CId) (h : m.state x = .running) :
    (m.req .start c).state x = .running := by
  unfold req
  split
  · simp only
    split
    · rename_i e; subst e; simp [Request.run, startRequest, h]
    · exact h
  · exact h

theorem starts_running (l : List CId) (m : Mgr) (x : CId) (h : m.state x = .running) :
    (l.foldl (fun m c => m.req .start c) m).state x = .running := by
  induction l generalizing m with
  | nil => exact h
  | cons c l ih => exact ih _ (start_running m c x h)

theorem req_other (m : Mgr) (r : Request) (c x : CId) (h : x ≠ c) : (m.req r c).state x = m.state x := by
  unfold req
  split
  · simp [h]
  · rfl

theorem asapEntry_other (n : Nat) (c : CId) (time : Int) (hw : HwReply) (x : CId) (h : x ≠ c)
    (l : List CtrlSpec) (m : Mgr) : (l.foldl (asapEntry n c time hw) m).state x = m.state x := by
  induction l generalizing m with
  | nil => rfl
  | cons s l ih =>
    rw [List.foldl_cons, ih]
    unfold asapEntry
    split
    · split
      · exact req_other _ _ _ _ h
      · split <;> exact req_other _ _ _ _ h
    · rfl

theorem asapLoop_running (time : Int) (hw : HwReply) (n : Nat) (l : List CId) (m : Mgr) (x : CId)
    (h : m.state x = .running) : (asapLoop time hw n l m).state x = .running := by
  induction l generalizing n m with
  | nil => exact h
  | cons c l ih =>
    apply ih
    split
    · rename_i hr
      rw [asapEntry_other]
      · exact h
      · rintro rfl
        simp [isRunning, CState.isRunning, h] at hr
    · exact h

theorem keep_asapLoop (time : Int) (hw : HwReply) (n : Nat) (l : List CId) (m : Mgr) :
    Keep m (asapLoop time hw n l m) := by
  induction l generalizing n m with
  | nil => exact Keep.refl m
  | cons c l ih =>
    refine Keep.trans ?_ (ih _ _)
    split
    · exact keep_foldl _ (keep_asapEntry n c time hw) _ _
    · exact Keep.refl m

/-- What runs while controllers are being started runs at the end of the update. -/
theorem late_complete {m : Mgr} {rt : Rt} (hl : late rt = true) :
    (complete m rt).cur = m.cur ∧ ∀ x, m.state x = .running → (complete m rt).state x = .running := by
  cases rt with
  | starting u l =>
    exact ⟨(keep_foldl _ (fun m c => keep_req m .start c) l m).cur, fun x => starts_running l m x⟩
  | asap u n l =>
    simp only [complete]
    split
    · exact ⟨(keep_asapLoop _ _ _ _ _).cur, fun x => asapLoop_running _ _ _ _ _ x⟩
    · exact ⟨(keep_asapLoop _ _ _ _ _).cur, fun x => asapLoop_running _ _ _ _ _ x⟩
  | _ => cases hl

/-- The controllers running at any moment are as good as those running between updates. -/
theorem rel_free {P} {s : St} {a : Mgr} (mono : ∀ l l', List.Sublist l' l → P l → P l') (i : Inv P a)
    (h : Rel s a) : P s.m.runningInfos := by
  have sub : ∀ {b : Mgr}, Inv P b → b.cur = s.m.cur →
      (∀ x, s.m.state x = .running → b.state x = .running) → P s.m.runningInfos := by
    intro b ib hc hst
    have := ib.free
    unfold runningInfos at this ⊢
    rw [hc] at this
    refine infos_mono mono (fun t _ ht => ?_) this
    rw [isRunning_iff] at ht ⊢
    exact hst _ ht
  have same : ∀ {p : List Event}, Same p s.m a → P s.m.runningInfos := fun h =>
    sub i (same_dec h).2.2.2.2.2.1 fun x hx => by rw [(same_dec h).2.2.2.2.1]; exact hx
  have pend : ∀ {u}, s.rt ≠ .idle → Pending s u a → P s.m.runningInfos := by
    intro u hr hp
    cases hl : late s.rt with
    | false => exact sub i hp.cur fun x hx => hp.early hr hl x (Or.inl hx)
    | true =>
      obtain ⟨r, hs⟩ := hp.same
      obtain ⟨g1, g2⟩ := late_complete (m := s.m) hl
      exact sub (inv_update mono i u.time r u.hw) ((same_dec hs).2.2.2.2.2.1.trans g1)
        fun x hx => by rw [(same_dec hs).2.2.2.2.1]; exact g2 x hx
  obtain ⟨m, rt⟩ := s
  cases rt with
  | idle => exact same h
  | read u r =>
    rcases h with ⟨_, h⟩ | ⟨_, _, _, _, h⟩
    · exact same h
    · exact same h
  | resetting u l =>
    rcases h with h | h
    · exact same h.same
    · exact pend (by simp) h
  | restarting u c l =>
    rcases h with ⟨_, _, h⟩ | h
    · have hs := same_dec h.same
      refine sub i hs.2.2.2.2.2.1 fun x hx => ?_
      rw [hs.2.2.2.2.1]
      simp only [restored]
      split
      · rfl
      · exact hx
    · exact pend (by simp) h
  | updating u l =>
    rcases h with h | h
    · exact same h.same
    · exact pend (by simp) h
  | looking u =>
    rcases h with h | h
    · exact same h.same
    · exact pend (by simp) h
  | stopping u l => exact pend (by simp) h
  | choosing u => exact pend (by simp) h
  | starting u l => exact pend (by simp) h
  | aborting u l => exact pend (by simp) h
  | waiting u l => exact pend (by simp) h
  | asap u n l => exact pend (by simp) h

/-! ### Patient executions are careful -/

/-- The controllers are not being reset, and a pending switch is waited for. -/
structure Calm (s : St) : Prop where
  reset : ∀ u r, s.rt = .read u r → u.reset = false
  resetting : ∀ u l, s.rt ≠ .resetting u l
  restarting : ∀ u c l, s.rt ≠ .restarting u c l
  switch : s.m.params.doSwitch = true → s.m.Switching

theorem svc_rtStep (s : St) (u : Args) : (rtStep s u).m.svc = s.m.svc ∧
    ((rtStep s u).m.params.doSwitch = true → s.m.params.doSwitch = true) := by
  obtain ⟨m, rt⟩ := s
  have rq : ∀ r c, (m.req r c).svc = m.svc ∧
      ((m.req r c).params.doSwitch = true → m.params.doSwitch = true) := fun r c =>
    ⟨(keep_req m r c).svc, fun h => by rw [(keep_req m r c).params] at h; exact h⟩
  cases rt with
  | idle => exact ⟨rfl, id⟩
  | read u r => exact ⟨rfl, id⟩
  | resetting u l =>
    cases l with
    | nil => exact ⟨rfl, id⟩
    | cons c l =>
      simp only [rtStep]
      split
      · exact rq _ _
      · exact ⟨rfl, id⟩
  | restarting u c l => exact rq _ _
  | updating u l =>
    cases l with
    | nil => exact ⟨rfl, id⟩
    | cons c l => exact rq _ _
  | looking u =>
    by_cases h : m.params.doSwitch = true
    · refine ⟨?_, fun _ => h⟩
      simp only [rtStep, h, if_true]
      split <;> rfl
    · have e : rtStep { m := m, rt := .looking u } u = { m := m, rt := .idle } := if_neg h
      simp only [rtStep, h, if_false, Bool.false_eq_true]
      exact ⟨trivial, fun h' => h'.elim⟩
  | stopping u l =>
    cases l with
    | nil => exact ⟨rfl, id⟩
    | cons c l =>
      simp only [rtStep]
      split
      · exact rq _ _
      · exact ⟨rfl, id⟩
  | choosing u =>
    simp only [rtStep]
    split
    · exact ⟨rfl, id⟩
    · split
      · exact ⟨rfl, id⟩
      · split <;> exact ⟨rfl, id⟩
  | starting u l =>
    cases l with
    | nil => exact ⟨rfl, fun h => by cases h⟩
    | cons c l => exact rq _ _
  | aborting u l =>
    cases l with
    | nil => exact ⟨rfl, fun h => by cases h⟩
    | cons c l => exact rq _ _
  | waiting u l =>
    cases l with
    | nil => exact ⟨rfl, id⟩
    | cons c l => exact rq _ _
  | asap u n l =>
    cases l with
    | nil =>
      simp only [rtStep]
      split
      · exact ⟨rfl, fun h => by cases h⟩
      · exact ⟨rfl, id⟩
    | cons c l =>
      have k := keep_foldl _ (keep_asapEntry n c u.time u.hw) m.cur m
      simp only [rtStep]
      split
      · exact ⟨k.svc, fun h => by rw [k.params] at h; exact h⟩
      · exact ⟨rfl, id⟩

theorem calm_rt {s : St} (h : Calm s) {u : Args} (hu : u.reset = false) : Calm (rtStep s u) := by
  obtain ⟨h1, h2⟩ := svc_rtStep s u
  have hs : (rtStep s u).m.params.doSwitch = true → (rtStep s u).m.Switching := by
    intro hd
    obtain ⟨k, t, e⟩ := h.switch (h2 hd)
    exact ⟨k, t, h1.trans e⟩
  obtain ⟨m, rt⟩ := s
  have main : ∀ rt', (rtStep ⟨m, rt⟩ u).rt = rt' → (∀ u r, rt' ≠ .read u r) →
      (∀ u l, rt' ≠ .resetting u l) → (∀ u c l, rt' ≠ .restarting u c l) → Calm (rtStep ⟨m, rt⟩ u) := by
    rintro rt' rfl g1 g2 g3
    exact ⟨fun u r e => absurd e (g1 u r), g2, g3, hs⟩
  cases rt with
  | idle =>
    exact ⟨fun v r e => (by cases e; exact hu), fun _ _ e => (by cases e), fun _ _ _ e => (by cases e), hs⟩
  | read v r =>
    have hv := h.reset v r rfl
    refine main (.updating v (usedList { m with used := some r })) ?_ (by simp) (by simp) (by simp)
    simp [rtStep, hv]
  | resetting v l => exact absurd rfl (h.resetting v l)
  | restarting v c l => exact absurd rfl (h.restarting v c l)
  | updating v l => cases l <;> exact main _ rfl (by simp [rtStep]) (by simp [rtStep]) (by simp [rtStep])
  | looking v =>
    refine main _ rfl ?_ ?_ ?_ <;> intros <;> simp only [rtStep] <;> split <;> simp
  | stopping v l => cases l <;> exact main _ rfl (by simp [rtStep]) (by simp [rtStep]) (by simp [rtStep])
  | choosing v =>
    refine main _ rfl ?_ ?_ ?_ <;> intros <;> simp only [rtStep] <;>
      (split; simp; split; simp; split <;> simp)
  | starting v l => cases l <;> exact main _ rfl (by simp [rtStep]) (by simp [rtStep]) (by simp [rtStep])
  | aborting v l => cases l <;> exact main _ rfl (by simp [rtStep]) (by simp [rtStep]) (by simp [rtStep])
  | waiting v l => cases l <;> exact main _ rfl (by simp [rtStep]) (by simp [rtStep]) (by simp [rtStep])
  | asap v n l =>
    cases l with
    | nil => refine main _ rfl ?_ ?_ ?_ <;> intros <;> simp only [rtStep] <;> split <;> simp
    | cons c l => exact main _ rfl (by simp [rtStep]) (by simp [rtStep]) (by simp [rtStep])

/-- Without a pending switch and outside a restart, the state is one between operations. -/
theorem rel_inv {P} {s : St} {a : Mgr} (i : Inv P a) (h : Rel s a) (hd : s.m.params.doSwitch = false)
    (hr : ∀ u c l, s.rt ≠ .restarting u c l) : Inv P s.m := by
  have pend : ∀ {u}, ¬ Pending s u a := fun h => by rw [h.doSwitch] at hd; cases hd
  obtain ⟨m, rt⟩ := s
  cases rt with
  | idle => exact Same.inv i h
  | read u r =>
    rcases h with ⟨_, h⟩ | ⟨_, _, _, _, h⟩
    · exact Same.inv i h
    · exact Same.inv i h
  | resetting u l => exact h.elim (fun h => h.same.inv i) fun h => absurd h pend
  | restarting u c l => exact absurd rfl (hr u c l)
  | updating u l => exact h.elim (fun h => h.same.inv i) fun h => absurd h pend
  | looking u => exact h.elim (fun h => h.same.inv i) fun h => absurd h pend
  | stopping u l => exact absurd h pend
  | choosing u => exact absurd h pend
  | starting u l => exact absurd h pend
  | aborting u l => exact absurd h pend
  | waiting u l => exact absurd h pend
  | asap u n l => exact absurd h pend

theorem patient_blocked {s : St} (h : Calm s) {op : Op} (hp : Patient s (.svc op))
    (hd : s.m.params.doSwitch = true) : Blocked s.m op := by
  obtain ⟨k, t, e⟩ := h.switch hd
  have hne : s.m.svc ≠ .idle := by rw [e]; simp
  cases op with
  | poll ok el => exact Or.inr ⟨k, t, e, hd, hp.2 ok el rfl k t e⟩
  | _ => exact hne

theorem calm_svc {conf : List ControllerInfo → Bool} {P} {s : St} {a : Mgr} (i : Inv P a) (h : Rel s a)
    (hc : Calm s) {op : Op} (hop : op.isService = true) (hp : Patient s (.svc op)) :
    Calm { s with m := s.m.step conf op } := by
  refine ⟨hc.reset, hc.resetting, hc.restarting, ?_⟩
  intro hd'
  simp only at hd' ⊢
  cases hd : s.m.params.doSwitch with
  | true =>
    rw [blocked_step (patient_blocked hc hp hd) hop hp.1]
    exact hc.switch hd
  | false =>
    have out := svcOut_step conf (rel_inv i h hd hc.restarting) hop hp.1
    exact (out.switch hd hd').1

/-- Patient executions are careful. -/
theorem patient_careful {conf : List ControllerInfo → Bool} {s : St} {a : Mgr}
    (i : Inv (fun _ => True) a) (hu : a.used ≠ none) (h : Rel s a) (hs : Calm s) {ops : List Step}
    (hp : PatientRun conf s ops) : CarefulRun conf s ops := by
  induction ops generalizing s a with
  | nil => trivial
  | cons o os ih =>
    obtain ⟨h1, h2⟩ := hp
    have iu : ∀ t r hw, Inv (fun _ => True) (a.update t r hw) := fun t r hw =>
      inv_step (checkOk_true conf) i (.update t r hw) trivial
    have uu : ∀ t r hw, (a.update t r hw).used ≠ none := fun t r hw =>
      used_step (conf := conf) i hu (op := .update t r hw) trivial
    cases o with
    | rt u =>
      refine ⟨trivial, ?_⟩
      rcases rel_rt i h u with g | ⟨t, r, hw, g⟩
      · exact ih i hu g (calm_rt hs h1) h2
      · exact ih (iu t r hw) (uu t r hw) g (calm_rt hs h1) h2
    | svc op =>
      have care : Careful s (.svc op) :=
        ⟨h1.1, fun _ hd => patient_blocked hs h1 hd, fun ⟨u, c, l, e⟩ => absurd e (hs.restarting u c l)⟩
      refine ⟨care, ?_⟩
      cases hop : op.isService with
      | false =>
        cases op with
        | update => exact ih i hu h hs h2
        | _ => simp [Op.isService] at hop
      | true =>
        have e : step conf s (.svc op) = { s with m := s.m.step conf op } := by
          cases op <;> first | rfl | (simp [Op.isService] at hop)
        rw [e] at h2 ⊢
        have hc := calm_svc (conf := conf) i h hs hop h1
        rcases rel_svc (conf := conf) i hu h hop care with g | ⟨t, r, hw, g⟩
        · exact ih (inv_step (checkOk_true conf) i op h1.1) (used_step i hu h1.1) g hc h2
        · exact ih (inv_step (checkOk_true conf) (iu t r hw) op h1.1)
            (used_step (iu t r hw) (uu t r hw) h1.1) g hc h2

end Inter

end Verif
