import Verif.Spec.Clients
import Verif.Props.ManagerLoad
import Verif.Props.ManagerSwitch
import Verif.Props.ManagerSwitchRun
import Verif.Props.ManagerReload

/-!
Helper lemmas for the service calls as clients see them.
-/

namespace Verif

open Mgr Spec Clients

theorem Op.rosUp_of_background {errors : Bool} {op : Op} (h : op.background errors) : op.rosUp := by
  cases op <;> first | trivial | exact h

theorem Op.noSwitch_of_background {errors : Bool} {op : Op} (h : op.background errors) :
    op.noSwitch := by
  cases op <;> first | trivial | exact h

namespace Mgr

theorem listControllers_eq {m m' : Mgr} (h1 : m'.cur = m.cur)
    (h2 : ∀ s ∈ m.cur, m'.state s.c = m.state s.c) : m'.listControllers = m.listControllers := by
  unfold listControllers
  rw [h1]
  apply List.map_congr_left
  intro s hs
  rw [h2 s hs]

theorem Held.listControllers {m m' : Mgr} (h : Held m m') : m'.listControllers = m.listControllers :=
  listControllers_eq h.cur fun _ _ => by rw [h.state]

/-- Nothing but updates happens in the background of an idle manager. -/
theorem idle_run {conf errors} {m : Mgr} (h : Inv (fun _ => True) m) (hi : m.svc = .idle) (ops : List Op)
    (hops : ∀ op ∈ ops, op.background errors) : Held m (m.run conf ops) := by
  induction ops generalizing m with
  | nil => exact Held.refl m
  | cons op ops ih =>
    rw [run_cons]
    have hb := hops op (by simp)
    have hh : Held m (m.step conf op) := by
      cases op with
      | update t r hw => exact held_update h (not_switching_of_idle hi) t r hw
      | poll ok e =>
        have : m.step conf (.poll ok e) = m := by
          show m.poll ok e = m
          simp [poll, hi]
        rw [this]; exact Held.refl m
      | load _ _ => cases hb
      | unload _ => cases hb
      | switch _ _ _ => cases hb
      | reload _ _ _ => cases hb
    exact hh.trans (ih (inv_step (checkOk_true conf) h op (Op.rosUp_of_background hb))
      (hh.svc.trans hi) (fun o ho => hops o (by simp [ho])))

/-- The last event, if it is an answer, is the answer that was given before only callbacks. -/
theorem last_answer {t es : List Event} {r : Event} {c : Call} {ok : Bool}
    (hes : ∀ e ∈ es, (∃ c k, e = .cb c k) ∨ ∃ a b, e = .doSwitch a b)
    (hl : (t ++ [r] ++ es).getLast? = some (c.answer ok)) : r = c.answer ok := by
  rcases List.eq_nil_or_concat es with rfl | ⟨es', e, rfl⟩
  · simpa using hl
  · exfalso
    have e1 : e = c.answer ok := by
      have : (t ++ [r] ++ es'.concat e).getLast? = some e := by
        rw [List.concat_eq_append, ← List.append_assoc, List.getLast?_concat]
      rw [this] at hl
      exact Option.some.inj hl
    rcases hes e (by simp) with ⟨_, _, h⟩ | ⟨_, _, h⟩ <;> rw [h] at e1 <;> cases c <;> cases e1

/-- A run that starts in a switch and ends outside: the iteration that ended the switch. -/
theorem run_window_end {conf errors} {m : Mgr} (h : Inv (fun _ => True) m) (hs : m.Switching)
    (ops : List Op) (hops : ∀ op ∈ ops, op.background errors) (he : ¬ (m.run conf ops).Switching) :
    ∃ ops1 ok el ops2, ops = ops1 ++ .poll ok el :: ops2 ∧ (ok.cond = true ∧ ok.body = true) ∧
      (m.run conf ops1).Switching ∧ ¬ ((m.run conf ops1).poll ok el).Switching := by
  induction ops generalizing m with
  | nil => exact absurd hs he
  | cons op ops ih =>
    have hb := hops op (by simp)
    rw [run_cons] at he
    by_cases hs' : (m.step conf op).Switching
    · obtain ⟨o1, ok, el, o2, h1, h2, h3, h4⟩ :=
        ih (inv_step (checkOk_true conf) h op (Op.rosUp_of_background hb)) hs' (fun o ho => hops o (by simp [ho])) he
      exact ⟨op :: o1, ok, el, o2, by rw [h1]; rfl, h2, h3, h4⟩
    · cases op with
      | update t r hw =>
        exfalso
        obtain ⟨k, t', hk⟩ := hs
        apply hs'
        refine ⟨k, t', ?_⟩
        show (m.update t r hw).svc = _
        rw [← hk]
        exact (update_cur h t r hw).2.2.1
      | poll ok e => exact ⟨[], ok, e, ops, rfl, hb, hs, hs'⟩
      | load _ _ => cases hb
      | unload _ => cases hb
      | switch _ _ _ => cases hb
      | reload _ _ _ => cases hb

/-! ### The listing -/

theorem stateName_running (s : CState) : stateName s = "running" ↔ s = .running := by
  cases s <;> decide

theorem listed_iff {m : Mgr} {n : String} : Listed m.listControllers n ↔ Loaded m n := by
  unfold Listed Loaded listControllers
  simp

theorem listedRunning_iff {m : Mgr} {n : String} :
    ListedRunning m.listControllers n ↔ Runs m n := by
  unfold ListedRunning Runs listControllers Mgr.running
  simp only [List.mem_map, List.mem_filter, decide_eq_true_eq]
  constructor
  · rintro ⟨_, ⟨s, hs, rfl⟩, h1, h2⟩
    exact ⟨s, ⟨hs, (stateName_running _).1 h2⟩, h1⟩
  · rintro ⟨s, ⟨hs, h2⟩, h1⟩
    exact ⟨_, ⟨s, hs, rfl⟩, h1, (stateName_running _).2 h2⟩

theorem listedLoadable_iff {m : Mgr} {name env type claimed} :
    ListedLoadable m.listControllers name env type claimed ↔ Loadable m name env type claimed := by
  unfold ListedLoadable Loadable
  rw [listed_iff]

theorem listedTarget_eq (m : Mgr) (start stop : List String) :
    listedTarget m.listControllers start stop = target m start stop := by
  unfold listedTarget target listControllers
  rw [List.filter_map, List.map_map]
  have : ((fun e : Entry => decide ((e.state = "running" ∧ e.name ∉ stop) ∨ e.name ∈ start)) ∘
      fun s : CtrlSpec => (⟨s.info.name, s.info.type, stateName (m.state s.c), s.info.claimed⟩ : Entry)) =
      fun s => decide ((m.state s.c = .running ∧ s.info.name ∉ stop) ∨ s.info.name ∈ start) := by
    funext s
    simp only [Function.comp, stateName_running]
  rw [this]
  rfl

theorem acceptable_iff {conf} {m : Mgr} (h : Reachable conf m) (hi : m.svc = .idle) (r : SwitchReq)
    (now : Int) (prepOk : Bool) :
    Acceptable conf m.listControllers r prepOk ↔ (m.switch conf r now prepOk).Switching := by
  unfold Acceptable
  rw [listedTarget_eq]
  by_cases hr : r.strictness = strictnessStrict
  · rw [if_pos hr, c07_strict_accept_iff h hi r hr]
    simp only [listed_iff, listedRunning_iff, and_assoc]
  · rw [if_neg hr, c07_best_effort_accept_iff h hi r hr]
    simp only [listedRunning_iff]

/-! ### The calls -/

theorem load_served {conf errors} {m : Mgr} (h : Reachable conf m) (hi : m.svc = .idle) {name env ok}
    {ops : List Op} (hops : ∀ op ∈ ops, op.background errors)
    (he : ((m.load name env).run conf ops).svc = .idle)
    (hl : ((m.load name env).run conf ops).trace.getLast? = some (.loadRet name ok)) :
    Serves conf errors m.listControllers (.load name env) ok
      ((m.load name env).run conf ops).listControllers := by
  have h1 : Reachable conf (m.load name env) := reachable_step h (op := .load name env) trivial
  have hup : ∀ op ∈ ops, op.rosUp := fun op ho => Op.rosUp_of_background (hops op ho)
  by_cases hL : ∃ type claimed, Loadable m name env type claimed
  · obtain ⟨type, claimed, hL⟩ := hL
    rcases c16_load_succeeds h hi name env hL ops hup with ⟨hh, _⟩ | ⟨o1, el, o2, m1, es, e, rfl, hi1, ht, _, _, hli, _⟩
    · exact absurd he hh
    · subst e
      have hh := idle_run (conf := conf) (errors := errors) (inv_of_reachable (reachable_run h1
        (ops := o1 ++ [.poll {} el]) (fun op ho => hup op (by
          simp only [List.mem_append, List.mem_cons, List.not_mem_nil, or_false] at ho ⊢; tauto))))
        hi1 o2 (fun op ho => hops op (by simp [ho]))
      rw [← run_append, List.append_assoc] at hh
      obtain ⟨es', ht', hes'⟩ := hh.trace
      simp only [List.cons_append, List.nil_append] at ht' hh
      rw [ht', ht] at hl
      have := last_answer (c := .load name env) hes' hl
      cases this
      rw [hh.listControllers, hli]
      exact Serves.load (listedLoadable_iff.2 hL)
  · have hL' : ∀ type claimed, ¬ Loadable m name env type claimed := fun a b hh => hL ⟨a, b, hh⟩
    obtain ⟨ht, hli, hi1, _⟩ := c16_load_fails h hi name env hL'
    have hh := idle_run (conf := conf) (inv_of_reachable h1) hi1 ops hops
    obtain ⟨es', ht', hes'⟩ := hh.trace
    rw [ht', ht] at hl
    have := last_answer (c := .load name env) hes' hl
    cases this
    rw [hh.listControllers, hli]
    exact Serves.notLoaded fun a b hh => hL' a b (listedLoadable_iff.1 hh)

theorem unload_served {conf errors} {m : Mgr} (h : Reachable conf m) (hi : m.svc = .idle) {name ok}
    {ops : List Op} (hops : ∀ op ∈ ops, op.background errors)
    (he : ((m.unload name).run conf ops).svc = .idle)
    (hl : ((m.unload name).run conf ops).trace.getLast? = some (.unloadRet name ok)) :
    Serves conf errors m.listControllers (.unload name) ok
      ((m.unload name).run conf ops).listControllers := by
  have h1 : Reachable conf (m.unload name) := reachable_step h (op := .unload name) trivial
  have hup : ∀ op ∈ ops, op.rosUp := fun op ho => Op.rosUp_of_background (hops op ho)
  by_cases hL : Loaded m name ∧ ¬ Runs m name
  · obtain ⟨hL, hR⟩ := hL
    obtain ⟨c, hc⟩ := Option.ne_none_iff_exists'.1 (loaded_iff.1 hL)
    rcases c17_unload_succeeds h hi hc hR ops hup with ⟨hh, _⟩ | ⟨o1, el, o2, m1, es, e, rfl, hi1, ht, _, _, hli, _⟩
    · exact absurd he hh
    · subst e
      have hh := idle_run (conf := conf) (errors := errors) (inv_of_reachable (reachable_run h1
        (ops := o1 ++ [.poll {} el]) (fun op ho => hup op (by
          simp only [List.mem_append, List.mem_cons, List.not_mem_nil, or_false] at ho ⊢; tauto))))
        hi1 o2 (fun op ho => hops op (by simp [ho]))
      rw [← run_append, List.append_assoc] at hh
      obtain ⟨es', ht', hes'⟩ := hh.trace
      simp only [List.cons_append, List.nil_append] at ht' hh
      have e2 : ∀ t : List Event, t ++ [.destroyed c, .unloadRet name true] =
          (t ++ [.destroyed c]) ++ [.unloadRet name true] := by intro t; simp
      rw [ht', ht, e2] at hl
      have := last_answer (c := .unload name) hes' hl
      cases this
      rw [hh.listControllers, hli]
      exact Serves.unload (listed_iff.2 hL) (fun hh => hR (listedRunning_iff.1 hh))
  · have hL' : ¬ Loaded m name ∨ Runs m name := by tauto
    obtain ⟨ht, hli, hi1, _⟩ := c17_unload_fails h hi hL'
    have hh := idle_run (conf := conf) (inv_of_reachable h1) hi1 ops hops
    obtain ⟨es', ht', hes'⟩ := hh.trace
    rw [ht', ht] at hl
    have := last_answer (c := .unload name) hes' hl
    cases this
    rw [hh.listControllers, hli]
    exact Serves.notUnloaded fun hh => by
      rw [listedRunning_iff]
      rw [listed_iff] at hh
      tauto

/-! ### Switch -/

/-- Without `start_asap`, a finished switch has started all or aborted all. -/
def Uniform (m : Mgr) : Prop :=
  m.params.asap = false → m.params.doSwitch = false →
    (∀ c ∈ m.startReq, m.state c = .running) ∨ ∀ c ∈ m.startReq, m.state c = .aborted

theorem uniform_update (m : Mgr) (time : Int) (reset : Bool) (hw : HwReply)
    (h : Inv (fun _ => True) m) (hf : Uniform m) : Uniform (m.update time reset hw) := by
  cases hd : m.params.doSwitch
  · rw [update_idle m hd]; exact hf
  · obtain ⟨st, es, d, hp, he, ho⟩ := update_switch m h.sane hd time reset hw
    rw [he]
    intro ha hd'
    have ha' : m.params.asap = false := ha
    have hd'' : d = false := hd'
    show (∀ c ∈ m.startReq, st c = .running) ∨ ∀ c ∈ m.startReq, st c = .aborted
    unfold startPure at hp
    have hA : m.atStart.params.asap = false := ha'
    have hS : m.atStart.startReq = m.startReq := rfl
    simp only [hA, Bool.false_eq_true, if_false, hS] at hp
    split at hp
    · cases hp; left; intro c hc; simp [hc]
    · split at hp
      · cases hp; right; intro c hc; simp [hc]
      · cases hp; cases hd''

/-- Without errors of the hardware and without timeout, a finished switch has started all. -/
def AllStarted (m : Mgr) : Prop :=
  m.params.doSwitch = false → ∀ c ∈ m.startReq, m.state c = .running

theorem allStarted_update (m : Mgr) (time : Int) (reset : Bool) (hw : HwReply)
    (h : Inv (fun _ => True) m) (ht : m.params.timeout = 0)
    (hhw : hw.second ≠ .error ∧ ∀ i info, (hw.per i info).2 ≠ .error)
    (hf : AllStarted m) : AllStarted (m.update time reset hw) := by
  cases hd : m.params.doSwitch
  · rw [update_idle m hd]; exact hf
  · obtain ⟨st, es, d, hp, he, ho⟩ := update_switch m h.sane hd time reset hw
    rw [he]
    intro hd2 c hc
    rcases ho.finished hd2 c hc with h1 | h1
    · exact h1
    · exfalso
      rcases (ho.aborted c hc h1).1 with h2 | ⟨_, _, h2⟩ | ⟨_, i, s, _, _, _, _, h2⟩
      · have h2' : timedOut m.params time = true := h2
        simp [timedOut, ht] at h2'
      · exact hhw.1 h2
      · exact hhw.2 _ _ h2

theorem stateName_aborted : stateName .aborted = "aborted" := by decide

theorem stateName_stopped : stateName .stopped = "stopped" := by decide

theorem switch_served {conf errors} {m : Mgr} (h : Reachable conf m) (hi : m.svc = .idle) {r now prepOk ok}
    {ops : List Op} (hops : ∀ op ∈ ops, op.background errors)
    (he : ((m.switch conf r now prepOk).run conf ops).svc = .idle)
    (hl : ((m.switch conf r now prepOk).run conf ops).trace.getLast? = some (.switchRet ok)) :
    Serves conf errors m.listControllers (.switch r now prepOk) ok
      ((m.switch conf r now prepOk).run conf ops).listControllers := by
  have hv := inv_of_reachable h
  have h1 : Reachable conf (m.switch conf r now prepOk) :=
    reachable_step h (op := .switch r now prepOk) trivial
  have hv1 := inv_of_reachable h1
  have hacc := acceptable_iff h hi r now prepOk
  by_cases hsw : (m.switch conf r now prepOk).Switching
  swap
  · obtain ⟨hi1, _, hli, es, ht, _⟩ := c06_refused_no_effect h hi r now prepOk hsw
    have hh := idle_run (conf := conf) hv1 hi1 ops hops
    obtain ⟨es', ht', hes'⟩ := hh.trace
    rw [ht', ht] at hl
    have := last_answer (c := .switch r now prepOk) hes' hl
    cases this
    rw [hh.listControllers, hli]
    exact Serves.refused fun hh => hsw (hacc.1 hh)
  have hA := hacc.2 hsw
  obtain ⟨hok, _⟩ := switch_accepted hv hi hsw
  have e1 := switch_accepted_eq (now := now) hv hi hok
  obtain ⟨o1, rok, el, o2, rfl, hrok, hs2, hns2⟩ :=
    run_window_end (conf := conf) (errors := errors) hv1 hsw ops hops (not_switching_of_idle he)
  have hb1 : ∀ op ∈ o1, op.background errors := fun op ho => hops op (by simp [ho])
  have hup1 : ∀ op ∈ o1, op.rosUp := fun op ho => Op.rosUp_of_background (hb1 op ho)
  have hns1 : ∀ op ∈ o1, op.noSwitch := fun op ho => Op.noSwitch_of_background (hb1 op ho)
  obtain ⟨⟨hF, hO, hU, hN⟩, hS⟩ := run_window (conf := conf)
    (fun m' => Finished (m.switch conf r now prepOk).trace m' ∧ OnlyStopped m.state m' ∧ Uniform m' ∧
      (errors = false → r.timeout = 0 → AllStarted m')) hv1
    (by
      rw [e1]
      exact ⟨⟨⟨[], by simp⟩, (by intro hh; cases hh)⟩, fun c _ => Or.inl rfl, (by intro _ hh; cases hh),
        (by intro _ _ hh; cases hh)⟩) o1
    (by
      rintro m' t re hw hmem hi' _ hS ⟨r1, r2, r3, r4⟩
      refine ⟨finished_update m' t re hw hi' r1, onlyStopped_update m' t re hw hi' r2,
        uniform_update m' t re hw hi' r3, fun x1 x2 => ?_⟩
      refine allStarted_update m' t re hw hi' ?_ (hb1 _ hmem x1) (r4 x1 x2)
      rw [hS.timeout, e1]; exact x2) hup1 hns1 hs2
  have h2 : Reachable conf ((m.switch conf r now prepOk).run conf o1) := reachable_run h1 hup1
  rw [run_append, run_cons] at he hl ⊢
  revert he hl
  generalize (m.switch conf r now prepOk).run conf o1 = m2 at *
  intro he hl
  have hv2 := inv_of_reachable h2
  have hstart : m2.startReq = r.start.filterMap m.getControllerByName := by rw [hS.startReq, e1]
  have hstop : m2.stopReq = r.stop.filterMap m.getControllerByName := by rw [hS.stopReq, e1]
  have hcur : m2.cur = m.cur := by rw [hS.cur, e1]
  have hasap : m2.params.asap = r.asap := by rw [hS.asap, e1]
  have hsvc : m2.svc = .switching .ret r.timeout := by rw [hS.svc, e1]
  have hmem : ∀ s ∈ m.cur, ∀ ns : List String,
      (s.c ∈ ns.filterMap m.getControllerByName ↔ s.info.name ∈ ns) :=
    fun s hs ns => mem_resolved hv.names hv.objs hs ns
  have h3 : Reachable conf (m2.poll rok el) := reachable_step h2 (op := .poll rok el) hrok
  have hv3 := inv_of_reachable h3
  -- the end of the switch
  have hend : ∃ b m3, m2.poll rok el = m3 ∧ m3.svc = .idle ∧ m3.cur = m2.cur ∧ m3.state = m2.state ∧
      m3.trace = m2.trace ++ [.switchRet b] ∧ (b = true ∧ m2.params.doSwitch = false ∨
        b = false ∧ r.timeout ≠ 0) := by
    cases hd : m2.params.doSwitch
    · refine ⟨true, _, rfl, ?_⟩
      unfold poll
      rw [hsvc]
      simp [hd, finish, emit]
    · rcases poll_switching hsvc rok hrok el with ⟨_, hh⟩ | _
      · rw [hh] at hns2; exact absurd hs2 hns2
      · refine ⟨false, _, rfl, ?_⟩
        unfold poll at hns2 ⊢
        rw [hsvc] at hns2 ⊢
        simp only [hrok.1, hrok.2, hd, Bool.and_self, if_true, Bool.not_true, Bool.false_eq_true,
          if_false] at hns2 ⊢
        split at hns2
        · exact absurd hs2 hns2
        · rename_i hx
          rw [if_neg hx]
          simp only [Bool.or_eq_true, decide_eq_true_eq, not_or] at hx
          simp [finish, emit, hx.2]
  obtain ⟨b, m3, e3, k1, k2, k3, k4, k5⟩ := hend
  have e3' : m2.step conf (.poll rok el) = m3 := e3
  rw [e3] at hv3
  rw [e3'] at hl he ⊢
  have hh := idle_run (conf := conf) (errors := errors) hv3 k1 o2 (fun op ho => hops op (by simp [ho]))
  obtain ⟨es', ht', hes'⟩ := hh.trace
  rw [ht', k4] at hl
  have hb := last_answer (c := .switch r now prepOk) hes' hl
  cases hb
  rw [hh.listControllers]
  have hlist : m3.listControllers = m.cur.map fun s =>
      (⟨s.info.name, s.info.type, stateName (m2.state s.c), s.info.claimed⟩ : Entry) := by
    unfold listControllers; rw [k2, k3, hcur]
  rw [hlist]
  rcases k5 with ⟨rfl, hd⟩ | ⟨rfl, hto⟩
  swap
  · refine Serves.gaveUp hA hto ?_
    unfold listControllers
    rw [List.forall₂_map_left_iff, List.forall₂_map_right_iff, List.forall₂_same]
    intro s hs
    refine ⟨⟨_, rfl⟩, ?_⟩
    intro hn
    have hn' : s.info.name ∉ r.start := hn
    rcases hO s.c (by rw [hstart]; exact fun hh => hn' ((hmem s hs _).1 hh)) with h | ⟨h1, h2, h3⟩
    · left; rw [h]
    · right
      refine ⟨?_, (stateName_running _).2 h2, ?_⟩
      · rw [hstop] at h1; exact (hmem s hs _).1 h1
      · show stateName (m2.state s.c) = _
        rw [h3]; rfl
  -- the switch is finished
  have hout : ∀ s ∈ m.cur, s.info.name ∉ r.start →
      stateName (m2.state s.c) = (switchedEntry r (fun _ => true)
        ⟨s.info.name, s.info.type, stateName (m.state s.c), s.info.claimed⟩).state := by
    intro s hs hn
    have hns : s.c ∉ m2.startReq := by rw [hstart]; exact fun hh => hn ((hmem s hs _).1 hh)
    unfold switchedEntry
    rw [if_neg hn]
    by_cases hst : s.info.name ∈ r.stop
    · have hnr := (hv2.done hs2 hd trivial).2.2 s.c (by rw [hstop]; exact (hmem s hs _).2 hst) hns
      rcases hO s.c hns with h | ⟨h1, h2, h3⟩
      · rw [if_neg, h]
        rw [h] at hnr
        rintro ⟨_, h⟩
        exact hnr ((stateName_running _).1 h)
      · rw [if_pos ⟨hst, (stateName_running _).2 h2⟩, h3]; rfl
    · rw [if_neg (fun hh => hst hh.1)]
      rcases hO s.c hns with h | ⟨h1, _⟩
      · rw [h]
      · exfalso; rw [hstop] at h1; exact hst ((hmem s hs _).1 h1)
  have hfin : ∀ s ∈ m.cur, s.info.name ∈ r.start →
      m2.state s.c = .running ∨ m2.state s.c = .aborted := by
    intro s hs hn
    rcases hF.2 hd s.c (by rw [hstart]; exact (hmem s hs _).2 hn) with h | ⟨h, _⟩
    exacts [Or.inl h, Or.inr h]
  have key : ∀ out : String → Bool, (∀ s ∈ m.cur, s.info.name ∈ r.start →
        (out s.info.name = true ↔ m2.state s.c = .running)) →
      m.cur.map (fun s => (⟨s.info.name, s.info.type, stateName (m2.state s.c), s.info.claimed⟩ : Entry)) =
        m.listControllers.map (switchedEntry r out) := by
    intro out hout'
    unfold listControllers
    rw [List.map_map]
    apply List.map_congr_left
    intro s hs
    simp only [Function.comp]
    by_cases hn : s.info.name ∈ r.start
    · unfold switchedEntry
      rw [if_pos hn]
      have := hout' s hs hn
      rcases hfin s hs hn with h | h
      · rw [h, this.2 h]; rfl
      · have : out s.info.name = false := by
          rw [← Bool.not_eq_true, this, h]; simp
        rw [h, this]; rfl
    · have := hout s hs hn
      unfold switchedEntry at this ⊢
      rw [if_neg hn] at this ⊢
      rw [this]
      split <;> rfl
  by_cases hall : ∀ c ∈ m2.startReq, m2.state c = .running
  · have := Serves.switched (conf := conf) (errors := errors) (now := now) (fun _ => true) hA
      (fun _ => Or.inl fun _ => rfl) (fun _ _ _ => rfl)
    rw [← key _ (fun s hs hn => ⟨fun _ => hall s.c (by rw [hstart]; exact (hmem s hs _).2 hn),
      fun _ => rfl⟩)] at this
    exact this
  · have hne : errors = false → r.timeout = 0 → False := fun x1 x2 => hall (hN x1 x2 hd)
    cases hra : r.asap
    · rcases hU (hasap.trans hra) hd with h | h
      · exact absurd h hall
      · have := Serves.switched (conf := conf) (errors := errors) (now := now) (fun _ => false) hA
          (fun _ => Or.inr fun _ => rfl) (fun x1 x2 => (hne x1 x2).elim)
        rw [← key _ (fun s hs hn => by
          rw [h s.c (by rw [hstart]; exact (hmem s hs _).2 hn)]; simp)] at this
        exact this
    · have := Serves.switched (conf := conf) (errors := errors) (now := now)
          (fun n => decide (∃ s ∈ m.cur, s.info.name = n ∧ m2.state s.c = .running)) hA
          (fun x => by rw [hra] at x; cases x) (fun x1 x2 => (hne x1 x2).elim)
      rw [← key _ (fun s hs hn => by
        rw [decide_eq_true_eq]
        constructor
        · rintro ⟨t, ht, e, h⟩
          have : t = s := List.inj_on_of_nodup_map hv.names ht hs e
          rw [← this]; exact h
        · intro h; exact ⟨s, hs, rfl, h⟩)] at this
      exact this

theorem listControllers_nil {m : Mgr} : m.listControllers = [] ↔ m.cur = [] := by
  unfold listControllers; exact List.map_eq_nil_iff

theorem reload_served {conf errors} {m : Mgr} (h : Reachable conf m) (hi : m.svc = .idle)
    {force now prepOk ok} {ops : List Op} (hops : ∀ op ∈ ops, op.background errors)
    (he : ((m.reload conf force now prepOk).run conf ops).svc = .idle)
    (hl : ((m.reload conf force now prepOk).run conf ops).trace.getLast? = some (.reloadRet ok)) :
    Serves conf errors m.listControllers (.reload force now prepOk) ok
      ((m.reload conf force now prepOk).run conf ops).listControllers := by
  have hv := inv_of_reachable h
  have h1 : Reachable conf (m.reload conf force now prepOk) :=
    reachable_step h (op := .reload force now prepOk) trivial
  have hup : ∀ op ∈ ops, op.rosUp := fun op ho => Op.rosUp_of_background (hops op ho)
  have fin : ∀ b : Bool, ∀ es : List Event, (m.reload conf force now prepOk).svc = .idle →
      (m.reload conf force now prepOk).trace = m.trace ++ es ++ [.reloadRet b] →
      (m.reload conf force now prepOk).listControllers = m.listControllers →
      ok = b ∧ ((m.reload conf force now prepOk).run conf ops).listControllers = m.listControllers := by
    intro b es hi1 ht hli
    have hh := idle_run (conf := conf) (inv_of_reachable h1) hi1 ops hops
    obtain ⟨es', ht', hes'⟩ := hh.trace
    rw [ht', ht] at hl
    have := last_answer (c := .reload force now prepOk) hes' hl
    cases this
    exact ⟨rfl, by rw [hh.listControllers, hli]⟩
  by_cases hne : m.listControllers = []
  · have ht := c23_reload_empty (conf := conf) hi hne force now prepOk
    have hnames : m.getControllerNames = [] := by
      unfold getControllerNames; rw [listControllers_nil.1 hne]; rfl
    have e : m.reload conf force now prepOk = m.emit [.reloadRet true] := by
      unfold reload
      rw [if_neg (by simp [hi])]
      simp [hnames]
    obtain ⟨rfl, e2⟩ := fin true [] (by rw [e]; exact hi) (by rw [ht]; simp) (by rw [e]; rfl)
    rw [e2, hne]
    exact Serves.reload (Or.inl rfl)
  by_cases hf : force = false ∨ prepOk = false
  · obtain ⟨⟨es, ht, _⟩, hli, hi1, _⟩ := c23_reload_refused h hi hne force now prepOk hf
    obtain ⟨rfl, e2⟩ := fin false es hi1 ht hli
    rw [e2]
    exact Serves.notReloaded hne (by tauto)
  have hf1 : force = true := by cases force <;> simp_all
  have hf2 : prepOk = true := by cases prepOk <;> simp_all
  subst hf1 hf2
  by_cases hc : conf [] = false
  · rcases c23_forced_reload_empties hc h hi hne now ops hup with ⟨hh, _⟩ |
      ⟨o1, el, o2, m1, es, e, rfl, hi1, ht, _, hli, _⟩
    · exact absurd he hh
    · subst e
      have hh := idle_run (conf := conf) (errors := errors) (inv_of_reachable (reachable_run h1
        (ops := o1 ++ [.poll {} el]) (fun op ho => hup op (by
          simp only [List.mem_append, List.mem_cons, List.not_mem_nil, or_false] at ho ⊢; tauto))))
        hi1 o2 (fun op ho => hops op (by simp [ho]))
      rw [← run_append, List.append_assoc] at hh
      obtain ⟨es', ht', hes'⟩ := hh.trace
      simp only [List.cons_append, List.nil_append] at ht' hh
      rw [ht', ht] at hl
      have := last_answer (c := .reload true now true) hes' hl
      cases this
      rw [hh.listControllers, hli]
      exact Serves.reload (Or.inr ⟨rfl, rfl, hc⟩)
  · have hc' : conf [] = true := by simpa using hc
    obtain ⟨c1, c2⟩ := hv.reqs (not_switching_of_idle hi)
    have hnot : ¬ m.okRequest conf ⟨[], m.getControllerNames, strictnessBestEffort, false, 0⟩ true := by
      intro hok
      have hsw := (switch_switching_iff (conf := conf) hv hi
        ⟨[], m.getControllerNames, strictnessBestEffort, false, 0⟩ now true).2 hok
      have := ((c07_best_effort_accept_iff h hi _ (by show strictnessBestEffort ≠ strictnessStrict; decide) now true).1 hsw).2.1
      have ht : target m [] m.getControllerNames = [] := by
        unfold target
        rw [List.map_eq_nil_iff, List.filter_eq_nil_iff]
        intro s hs
        simp only [decide_eq_true_eq, not_or, not_and, not_not]
        exact ⟨fun _ => List.mem_map_of_mem (f := fun s : CtrlSpec => s.info.name) hs, by simp⟩
      rw [ht] at this
      rw [hc'] at this; cases this
    obtain ⟨a, b, es, e, _⟩ := switchCore_refuse conf m
      ⟨[], m.getControllerNames, strictnessBestEffort, false, 0⟩ now true
      (.reload m.getControllerNames) c1 c2 hnot
    have hne' : m.getControllerNames.isEmpty = false := by
      unfold getControllerNames
      cases hcur : m.cur
      · exact absurd (listControllers_nil.2 hcur) hne
      · simp
    have e' : m.reload conf true now true = { m with
        params := {}, swStart := a, swStop := b
        trace := m.trace ++ es ++ [.switchRet false] ++ [.reloadRet false] } := by
      unfold reload
      rw [if_neg (by simp [hi])]
      simp only [hne', Bool.not_false, Bool.not_true, Bool.and_false, Bool.false_eq_true, if_false,
        if_true, e]
      rfl
    obtain ⟨rfl, e2⟩ := fin false (es ++ [.switchRet false]) (by rw [e']; exact hi)
      (by rw [e']; simp) (by rw [e']; rfl)
    rw [e2]
    exact Serves.notReloaded hne (Or.inr (Or.inr hc'))

end Mgr

namespace Clients

theorem Served.reachable {conf errors} {m m' : Mgr} {c : Call} {ok : Bool}
    (hs : Served conf errors m c ok m') (h : Reachable conf m) : Reachable conf m' := by
  obtain ⟨_, before, during, hb, hd, rfl, _⟩ := hs
  have h1 := reachable_run h (ops := before) (fun op ho => Op.rosUp_of_background (hb op ho))
  have h2 : Reachable conf ((m.run conf before).step conf c.op) :=
    reachable_step h1 (by cases c <;> trivial)
  exact reachable_run h2 (fun op ho => Op.rosUp_of_background (hd op ho))

theorem background_listing {conf errors} {m : Mgr} (h : Reachable conf m) (hi : m.svc = .idle)
    {ops : List Op} (hops : ∀ op ∈ ops, op.background errors) :
    Reachable conf (m.run conf ops) ∧ (m.run conf ops).svc = .idle ∧
      (m.run conf ops).listControllers = m.listControllers := by
  have hh := idle_run (conf := conf) (inv_of_reachable h) hi ops hops
  exact ⟨reachable_run h (fun op ho => Op.rosUp_of_background (hops op ho)), hh.svc.trans hi,
    hh.listControllers⟩

/-- Every completed call is one of the sequential specification. -/
theorem Served.serves {conf errors} {m m' : Mgr} {c : Call} {ok : Bool}
    (hs : Served conf errors m c ok m') (h : Reachable conf m) :
    Serves conf errors m.listControllers c ok m'.listControllers := by
  obtain ⟨hi, before, during, hb, hd, rfl, he, hl⟩ := hs
  obtain ⟨h1, hi1, hl1⟩ := background_listing h hi hb
  rw [← hl1]
  cases c with
  | load n e => exact load_served h1 hi1 hd he hl
  | unload n => exact unload_served h1 hi1 hd he hl
  | switch r now p => exact switch_served h1 hi1 hd he hl
  | reload f now p => exact reload_served h1 hi1 hd he hl

end Clients

end Verif
