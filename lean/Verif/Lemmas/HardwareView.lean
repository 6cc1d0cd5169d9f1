import Verif.Spec.HardwareView
import Verif.Lemmas.ManagerHistory
import Verif.Lemmas.ManagerHwOrder
import Verif.Lemmas.CombinedHW

/-!
Helper lemmas for C100: what a hardware is told.
-/

namespace Verif

open Mgr Spec

/-- One event. -/
def toldStep (l : List ControllerInfo) : Event → List ControllerInfo
  | .doSwitch start stop => l.filter (fun i => i.name ∉ stop.map (·.name)) ++ start
  | _ => l

theorem told_eq (t : List Event) : told t = t.foldl toldStep [] := by
  unfold told
  congr 1

theorem told_append (t es : List Event) : told (t ++ es) = es.foldl toldStep (told t) := by
  rw [told_eq, told_eq, List.foldl_append]

theorem foldl_toldStep {es : List Event} (h : ∀ a b, .doSwitch a b ∉ es) (l : List ControllerInfo) :
    es.foldl toldStep l = l := by
  induction es generalizing l with
  | nil => rfl
  | cons e es ih =>
    have h1 : toldStep l e = l := by
      cases e with
      | doSwitch a b => exact absurd (List.mem_cons_self) (h a b)
      | _ => rfl
    rw [List.foldl_cons, h1]
    exact ih (fun a b hh => h a b (List.mem_cons_of_mem _ hh)) l

theorem told_quiet {t es : List Event} (h : ∀ a b, .doSwitch a b ∉ es) : told (t ++ es) = told t := by
  rw [told_append, foldl_toldStep h]

theorem noDoSwitch_of_neutral {es : List Event} (h : ∀ e ∈ es, Neutral e) : ∀ a b, .doSwitch a b ∉ es :=
  fun _ _ hh => h _ hh

/-- What the hardware is told and what is the case. `E`: no errors so far. -/
structure HvInv (E : Prop) (m : Mgr) : Prop where
  run : ∀ s ∈ m.cur, m.state s.c = .running → s.info ∈ told m.trace
  req : m.params.doSwitch = true → m.params.started = true → ∀ s ∈ m.cur, s.c ∈ m.startReq → s.info ∈ told m.trace
  stopped : m.params.doSwitch = true → m.params.started = true →
    ∀ c ∈ m.stopReq, c ∉ m.startReq → m.state c ≠ .running
  lists : m.params.doSwitch = true → m.params.started = false →
    m.swStart = (m.scanLists m.startReq m.stopReq m.cur).swStart ∧
    m.swStop = (m.scanLists m.startReq m.stopReq m.cur).swStop ∧
    ∀ s ∈ m.cur, m.state s.c = .running → s.c ∈ m.stopReq → s.c ∉ m.startReq
  wait : m.params.doSwitch = true → m.Switching
  back : E → ∀ i ∈ told m.trace, ∃ s ∈ m.cur, s.info = i ∧
    (m.state s.c = .running ∨ (m.params.doSwitch = true ∧ m.params.started = true ∧ s.c ∈ m.startReq))
  nodup : E → ((told m.trace).map (·.name)).Nodup

theorem hvInv_init {E : Prop} : HvInv E Mgr.init := by
  constructor <;> simp [Mgr.init, told]

theorem mem_swStart {m : Mgr} {i : ControllerInfo} :
    i ∈ (m.scanLists m.startReq m.stopReq m.cur).swStart ↔
      ∃ s ∈ m.cur, s.info = i ∧ m.state s.c ≠ .running ∧ s.c ∈ m.startReq := by
  have hb : ∀ c, m.isRunning c = false ↔ m.state c ≠ .running := by
    intro c; rw [Ne, ← isRunning_iff]; simp
  simp only [scanLists, List.mem_map, List.mem_filter, Bool.and_eq_true, Bool.not_eq_true', decide_eq_true_eq, hb]
  constructor
  · rintro ⟨s, ⟨h1, h2, h3⟩, rfl⟩; exact ⟨s, h1, rfl, h2, h3⟩
  · rintro ⟨s, h1, rfl, h2, h3⟩; exact ⟨s, ⟨h1, h2, h3⟩, rfl⟩

theorem mem_swStop {m : Mgr} {i : ControllerInfo} :
    i ∈ (m.scanLists m.startReq m.stopReq m.cur).swStop ↔
      ∃ s ∈ m.cur, s.info = i ∧ m.state s.c = .running ∧ s.c ∈ m.stopReq := by
  simp only [scanLists, List.mem_map, List.mem_filter, Bool.and_eq_true, decide_eq_true_eq, isRunning_iff]
  constructor
  · rintro ⟨s, ⟨h1, h2, h3⟩, rfl⟩; exact ⟨s, h1, rfl, h2, h3⟩
  · rintro ⟨s, h1, rfl, h2, h3⟩; exact ⟨s, ⟨h1, h2, h3⟩, rfl⟩

theorem no_abort {m : Mgr} {time : Int} {reset : Bool} {hw : HwReply} (hn : NoError m (.update time reset hw)) (c : CId) :
    ¬ AbortCause m.atStart time hw c := by
  obtain ⟨h1, h2, h3⟩ := hn
  rintro (h | h | ⟨_, h⟩)
  · rw [show timedOut m.atStart.params time = timedOut m.params time from rfl, h3] at h; cases h
  · exact h1 h.2.2
  · unfold AsapCause at h
    obtain ⟨j, s, h⟩ := h
    simp_all

theorem hvInv_update {E E' : Prop} {m : Mgr} (hv : Inv (fun _ => True) m) (h : HvInv E m) (time : Int) (reset : Bool)
    (hw : HwReply) (hE : E' → E ∧ NoError m (.update time reset hw)) : HvInv E' (m.update time reset hw) := by
  have hdr : ∀ a b, Event.doSwitch a b ∉ m.drivenEvents reset := by
    intro a b hh
    obtain ⟨s, _, _, hh⟩ := mem_drivenEvents hh
    rcases hh with e | ⟨_, e | e⟩ <;> cases e
  cases hd : m.params.doSwitch
  · rw [update_idle m hd]
    have ht : told (m.trace ++ m.drivenEvents reset) = told m.trace := told_quiet hdr
    refine ⟨?_, ?_, ?_, ?_, ?_, ?_, ?_⟩
    · intro s hs hr; show s.info ∈ told (m.trace ++ _); rw [ht]; exact h.run s hs hr
    · intro hd'; exact absurd (hd'.symm.trans hd) (by decide)
    · intro hd'; exact absurd (hd'.symm.trans hd) (by decide)
    · intro hd'; exact absurd (hd'.symm.trans hd) (by decide)
    · intro hd'; exact absurd (hd'.symm.trans hd) (by decide)
    · intro e i hi
      have hi' : i ∈ told (m.trace ++ m.drivenEvents reset) := hi
      rw [ht] at hi'
      exact h.back (hE e).1 i hi'
    · intro e; show ((told (m.trace ++ _)).map _).Nodup; rw [ht]; exact h.nodup (hE e).1
  · obtain ⟨st, es, d, _, he, ho⟩ := update_switch m hv.sane hd time reset hw
    have hes : ∀ a b, Event.doSwitch a b ∉ stopEvents m.isRunning m.stopReq ++ es := by
      intro a b hh
      rcases List.mem_append.1 hh with hh | hh
      · obtain ⟨_, _, _, e⟩ := mem_stopEvents.1 hh; cases e
      · obtain ⟨_, _, e⟩ := ho.events _ hh
        rcases e with ⟨e, _⟩ | ⟨e, _⟩ | e <;> cases e
    -- what the hardware knows afterwards
    have ht : told (m.trace ++ (m.drivenEvents reset ++ m.hwEvents ++ stopEvents m.isRunning m.stopReq ++ es)) =
        m.hwEvents.foldl toldStep (told m.trace) := by
      rw [List.append_assoc, ← List.append_assoc, told_quiet hes, ← List.append_assoc, told_append, told_quiet hdr]
    have hout : ∀ x, x ∉ m.startReq → st x = m.stopState x := ho.outside
    have hrun : ∀ x, st x = .running → x ∈ m.startReq ∨ (m.state x = .running ∧ x ∉ m.stopReq) := by
      intro x hx
      by_cases hxs : x ∈ m.startReq
      · exact Or.inl hxs
      · right
        rw [hout x hxs] at hx
        unfold stopState at hx
        split at hx
        · cases hx
        · rename_i hn
          exact ⟨hx, fun hs => hn ⟨hs, hx⟩⟩
    have hsw : m.Switching := h.wait hd
    -- everything that is to run is known
    have key : ∀ s ∈ m.cur, (s.c ∈ m.startReq ∨ (m.state s.c = .running ∧ s.c ∉ m.stopReq)) →
        s.info ∈ m.hwEvents.foldl toldStep (told m.trace) := by
      intro s hs hh
      cases hst : m.params.started
      · obtain ⟨l1, l2, l3⟩ := h.lists hd hst
        have e1 : m.hwEvents.foldl toldStep (told m.trace) =
            (told m.trace).filter (fun i => i.name ∉ m.swStop.map (·.name)) ++ m.swStart := by
          simp [hwEvents, hst, toldStep]
        rw [e1]
        by_cases hr : m.state s.c = .running
        · have hns : s.c ∉ m.stopReq := by
            rcases hh with hh | hh
            · exact fun hx => l3 s hs hr hx hh
            · exact hh.2
          refine List.mem_append_left _ (List.mem_filter.2 ⟨h.run s hs hr, ?_⟩)
          simp only [decide_eq_true_eq]
          intro hx
          obtain ⟨j, hj, hjn⟩ := List.mem_map.1 hx
          rw [l2] at hj
          obtain ⟨s', hs', rfl, hr', hst'⟩ := mem_swStop.1 hj
          have : s' = s := List.inj_on_of_nodup_map hv.names hs' hs hjn
          subst this
          exact hns hst'
        · refine List.mem_append_right _ ?_
          rw [l1]
          refine mem_swStart.2 ⟨s, hs, rfl, hr, ?_⟩
          rcases hh with hh | hh
          · exact hh
          · exact absurd hh.1 hr
      · have e1 : m.hwEvents.foldl toldStep (told m.trace) = told m.trace := by simp [hwEvents, hst]
        rw [e1]
        rcases hh with hh | hh
        · exact h.req hd hst s hs hh
        · exact h.run s hs hh.1
    rw [he]
    refine ⟨?_, ?_, ?_, ?_, ?_, ?_, ?_⟩
    · intro s hs hr
      show s.info ∈ told (m.trace ++ _)
      rw [ht]
      exact key s hs (hrun _ hr)
    · intro _ _ s hs hh
      show s.info ∈ told (m.trace ++ _)
      rw [ht]
      exact key s hs (Or.inl hh)
    · intro _ _ c hc hnc hr
      rcases hrun c hr with hx | hx
      · exact hnc hx
      · exact hx.2 hc
    · intro _ hst; cases hst
    · intro _; exact hsw
    · intro e i hi
      obtain ⟨e0, hne⟩ := hE e
      have hi' : i ∈ told (m.trace ++ (m.drivenEvents reset ++ m.hwEvents ++ stopEvents m.isRunning m.stopReq ++ es)) := hi
      rw [ht] at hi'
      -- what becomes of a controller to start
      have hstart : ∀ s : CtrlSpec, s.c ∈ m.startReq → st s.c = .running ∨ (d = true ∧ s.c ∈ m.startReq) := by
        intro s hs
        have hna : st s.c ≠ .aborted := fun hx => no_abort hne s.c (ho.aborted s.c hs hx).1
        cases hdd : d
        · rcases ho.finished hdd s.c hs with hx | hx
          · exact Or.inl hx
          · exact absurd hx hna
        · exact Or.inr ⟨rfl, hs⟩
      have hkeep : ∀ s : CtrlSpec, m.state s.c = .running → s.c ∉ m.stopReq →
          st s.c = .running ∨ (d = true ∧ s.c ∈ m.startReq) := by
        intro s hr hns
        by_cases hxs : s.c ∈ m.startReq
        · exact hstart s hxs
        · left
          rw [hout _ hxs]
          unfold stopState
          rw [if_neg (fun hx => hns hx.1)]
          exact hr
      have fin : ∀ s ∈ m.cur, s.info = i → (st s.c = .running ∨ (d = true ∧ s.c ∈ m.startReq)) →
          ∃ s ∈ m.cur, s.info = i ∧ (st s.c = .running ∨ (d = true ∧ true = true ∧ s.c ∈ m.startReq)) := by
        rintro s hs hsi (hx | hx)
        · exact ⟨s, hs, hsi, Or.inl hx⟩
        · exact ⟨s, hs, hsi, Or.inr ⟨hx.1, rfl, hx.2⟩⟩
      cases hst : m.params.started
      · obtain ⟨l1, l2, l3⟩ := h.lists hd hst
        have e1 : m.hwEvents.foldl toldStep (told m.trace) =
            (told m.trace).filter (fun i => i.name ∉ m.swStop.map (·.name)) ++ m.swStart := by
          simp [hwEvents, hst, toldStep]
        rw [e1] at hi'
        rcases List.mem_append.1 hi' with hi' | hi'
        · obtain ⟨hi1, hi2⟩ := List.mem_filter.1 hi'
          obtain ⟨s, hs, rfl, hr⟩ := h.back e0 i hi1
          have hr : m.state s.c = .running := by
            rcases hr with hr | hr
            · exact hr
            · rw [hst] at hr; cases hr.2.1
          refine fin s hs rfl (hkeep s hr ?_)
          intro hx
          simp only [decide_eq_true_eq] at hi2
          refine hi2 (List.mem_map.2 ⟨s.info, ?_, rfl⟩)
          rw [l2]; exact mem_swStop.2 ⟨s, hs, rfl, hr, hx⟩
        · rw [l1] at hi'
          obtain ⟨s, hs, rfl, _, hx⟩ := mem_swStart.1 hi'
          exact fin s hs rfl (hstart s hx)
      · have e1 : m.hwEvents.foldl toldStep (told m.trace) = told m.trace := by simp [hwEvents, hst]
        rw [e1] at hi'
        obtain ⟨s, hs, rfl, hr⟩ := h.back e0 i hi'
        by_cases hxs : s.c ∈ m.startReq
        · exact fin s hs rfl (hstart s hxs)
        · have hr : m.state s.c = .running := by
            rcases hr with hr | hr
            · exact hr
            · exact absurd hr.2.2 hxs
          exact fin s hs rfl (hkeep s hr fun hx => h.stopped hd hst s.c hx hxs hr)
    · intro e
      obtain ⟨e0, hne⟩ := hE e
      show ((told (m.trace ++ _)).map _).Nodup
      rw [ht]
      cases hst : m.params.started
      · obtain ⟨l1, l2, l3⟩ := h.lists hd hst
        have e1 : m.hwEvents.foldl toldStep (told m.trace) =
            (told m.trace).filter (fun i => i.name ∉ m.swStop.map (·.name)) ++ m.swStart := by
          simp [hwEvents, hst, toldStep]
        rw [e1, List.map_append, List.nodup_append]
        refine ⟨(h.nodup e0).sublist (List.filter_sublist.map _), ?_, ?_⟩
        · rw [l1]
          have : (m.scanLists m.startReq m.stopReq m.cur).swStart.map (·.name) =
              (m.cur.filter fun s => !m.isRunning s.c && decide (s.c ∈ m.startReq)).map (·.info.name) := by
            simp [scanLists]
          rw [this]
          exact hv.names.sublist (List.filter_sublist.map _)
        · intro a ha b hb hab
          obtain ⟨i, hi, rfl⟩ := List.mem_map.1 ha
          obtain ⟨j, hj, rfl⟩ := List.mem_map.1 hb
          obtain ⟨s, hs, rfl, hr⟩ := h.back e0 i (List.mem_filter.1 hi).1
          rw [l1] at hj
          obtain ⟨s', hs', rfl, hr', _⟩ := mem_swStart.1 hj
          have : s = s' := List.inj_on_of_nodup_map hv.names hs hs' hab
          subst this
          rcases hr with hr | hr
          · exact hr' hr
          · rw [hst] at hr; cases hr.2.1
      · have e1 : m.hwEvents.foldl toldStep (told m.trace) = told m.trace := by simp [hwEvents, hst]
        rw [e1]; exact h.nodup e0

/-- Service calls other than an accepted switch, when no switch is in progress. -/
theorem hvInv_quiet {E : Prop} {m m' : Mgr} (hv : Inv (fun _ => True) m) (hv' : Inv (fun _ => True) m') (h : HvInv E m)
    (hd : m.params.doSwitch = false) (hd' : m'.params.doSwitch = false) {es : List Event} (ht : m'.trace = m.trace ++ es)
    (hes : ∀ a b, .doSwitch a b ∉ es) (hcur : ∀ s ∈ m'.cur, s ∈ m.cur ∨ m'.state s.c ≠ .running)
    (hst : ∀ c, m'.state c = .running ↔ m.state c = .running) : HvInv E m' := by
  have ht' : told m'.trace = told m.trace := by rw [ht, told_quiet hes]
  refine ⟨?_, ?_, ?_, ?_, ?_, ?_, ?_⟩
  · intro s hs hr
    rw [ht']
    rcases hcur s hs with hc | hc
    · exact h.run s hc ((hst _).1 hr)
    · exact absurd hr hc
  · intro hx; rw [hd'] at hx; cases hx
  · intro hx; rw [hd'] at hx; cases hx
  · intro hx; rw [hd'] at hx; cases hx
  · intro hx; rw [hd'] at hx; cases hx
  · intro e i hi
    rw [ht'] at hi
    obtain ⟨s, hs, rfl, hr⟩ := h.back e i hi
    have hr : m.state s.c = .running := by
      rcases hr with hr | hr
      · exact hr
      · rw [hd] at hr; cases hr.1
    have hr' := (hst _).2 hr
    obtain ⟨s', hs', e'⟩ := List.mem_map.1 (hv'.running s.c hr')
    rcases hcur s' hs' with hc | hc
    · have : s' = s := List.inj_on_of_nodup_map hv.objs hc hs e'
      subst this
      exact ⟨s', hs', rfl, Or.inl hr'⟩
    · exact absurd (e' ▸ hr') hc
  · intro e; rw [ht']; exact h.nodup e

theorem hvInv_switchCore {conf} {E : Prop} {m : Mgr} (hv : Inv (fun _ => True) m) (h : HvInv E m) (hi : m.svc = .idle)
    (r : SwitchReq) (now : Int) (prepOk : Bool) (k : Kont) : HvInv E (m.switchCore conf r now prepOk k).2 := by
  have hns := not_switching_of_idle hi
  have hd : m.params.doSwitch = false := by
    by_contra hx; exact hns (h.wait (by simpa using hx))
  have hv' := inv_switchCore (checkOk_true conf) hv hns (not_releasing_of_idle hi) r now prepOk k
  obtain ⟨c1, c2⟩ := hv.reqs hns
  by_cases ha : m.okRequest conf r prepOk
  · rw [switchCore_accept conf m r now prepOk k c1 c2 ha]
    have ht : told (m.trace ++ [Event.prepareSwitch (m.scanLists (r.start.filterMap m.getControllerByName)
        (r.stop.filterMap m.getControllerByName) m.cur).swStart (m.scanLists (r.start.filterMap m.getControllerByName)
        (r.stop.filterMap m.getControllerByName) m.cur).swStop true,
        Event.accepted (m.scanLists (r.start.filterMap m.getControllerByName)
        (r.stop.filterMap m.getControllerByName) m.cur).swStart (m.scanLists (r.start.filterMap m.getControllerByName)
        (r.stop.filterMap m.getControllerByName) m.cur).swStop]) = told m.trace := told_quiet (by simp)
    refine ⟨?_, ?_, ?_, ?_, ?_, ?_, ?_⟩
    · intro s hs hr; show s.info ∈ told (m.trace ++ _); rw [ht]; exact h.run s hs hr
    · intro _ hx; cases hx
    · intro _ hx; cases hx
    · intro _ _
      refine ⟨rfl, rfl, ?_⟩
      intro s hs hr h1 h2
      exact ha.2.1 s hs (Or.inr (Or.inr ⟨isRunning_iff.2 hr, h1, h2⟩))
    · intro _; exact ⟨_, _, rfl⟩
    · intro e i hi
      have hi' : i ∈ told (m.trace ++ _) := hi
      rw [ht] at hi'
      obtain ⟨s, hs, hsi, hr⟩ := h.back e i hi'
      refine ⟨s, hs, hsi, Or.inl ?_⟩
      rcases hr with hr | hr
      · exact hr
      · rw [hd] at hr; cases hr.1
    · intro e; show ((told (m.trace ++ _)).map _).Nodup; rw [ht]; exact h.nodup e
  · obtain ⟨a, b, es, e, hes⟩ := switchCore_refuse conf m r now prepOk k c1 c2 ha
    rw [e] at hv' ⊢
    refine hvInv_quiet hv hv' h hd rfl (es := es ++ [.switchRet false]) (by simp) ?_ (fun s hs => Or.inl hs) fun _ => Iff.rfl
    rcases hes with rfl | ⟨_, rfl⟩ <;> simp

/-- While a switch is in progress nothing but the service thread changes. -/
theorem hvInv_step {conf} {E E' : Prop} {m : Mgr} (hv : Inv (fun _ => True) m) (h : HvInv E m) (op : Op) (hop : op.rosUp)
    (hin : InTime m op) (hE : E' → E ∧ NoError m op) : HvInv E' (m.step conf op) := by
  have hv' := inv_step (checkOk_true conf) hv op hop
  have hE0 : E' → E := fun e => (hE e).1
  have weak : ∀ {m' : Mgr}, HvInv E m' → HvInv E' m' := fun h =>
    ⟨h.run, h.req, h.stopped, h.lists, h.wait, fun e => h.back (hE0 e), fun e => h.nodup (hE0 e)⟩
  have idle : m.svc = .idle → m.params.doSwitch = false := by
    intro hi
    by_contra hx
    exact not_switching_of_idle hi (h.wait (by simpa using hx))
  cases op with
  | update t r hw => exact hvInv_update hv h t r hw hE
  | load n e =>
    by_cases hi : m.svc = .idle
    swap
    · show HvInv E' (m.load n e)
      rw [show m.load n e = m by simp [load, hi]]; exact weak h
    obtain ⟨es, e1, _, hn⟩ := load_trace m n e
    have hp := (load_params m n e).1
    refine weak (hvInv_quiet hv hv' h (idle hi) (by show (m.load n e).params.doSwitch = false; rw [hp]; exact idle hi) e1
      (noDoSwitch_of_neutral hn) ?_ ?_)
    · intro s hs
      by_cases hc : s ∈ m.cur
      · exact Or.inl hc
      · obtain ⟨_, _, _, _, _, _, _, hst⟩ := step_new (conf := conf) hv (.load n e) hs hc
        exact Or.inr (by rw [hst]; simp)
    · intro c
      show (m.load n e).state c = .running ↔ _
      by_cases hu : m.used = some (!m.current)
      · simp [load, hi, hu]
      rcases load_cases m n e hi hu with ⟨ty, i, cl, _, _, _, _, _, e'⟩ | ⟨_, o, _, e'⟩
      · rw [e']
        by_cases hc : c = m.nextId
        · subst hc; simp [loaded, hv.unborn m.nextId (le_refl _)]
        · simp [loaded, hc]
      · rw [e']
  | unload n =>
    by_cases hi : m.svc = .idle
    swap
    · show HvInv E' (m.unload n)
      rw [show m.unload n = m by simp [unload, hi]]; exact weak h
    obtain ⟨es, e1, _, hn⟩ := unload_trace hv n
    have hp := (unload_params hv n).1
    refine weak (hvInv_quiet hv hv' h (idle hi) (by show (m.unload n).params.doSwitch = false; rw [hp]; exact idle hi) e1
      (noDoSwitch_of_neutral hn) ?_ ?_)
    · intro s hs
      left
      by_contra hc
      obtain ⟨_, e', _⟩ := step_new (conf := conf) hv (.unload n) hs hc
      cases e'
    · intro c
      show (m.unload n).state c = .running ↔ _
      rw [show m.unload n = m.unloadCore n .ret id by simp [unload, hi]]
      rcases unloadCore_cases m n .ret id (hv.used (not_releasing_of_idle hi)) with ⟨_, _, e'⟩ | ⟨_, e'⟩ <;> rw [e'] <;> rfl
  | switch r now p =>
    show HvInv E' (m.switch conf r now p)
    unfold switch
    split
    · exact weak h
    · rename_i hi
      exact weak (hvInv_switchCore hv h (by simpa using hi) r now p .ret)
  | reload f now p =>
    show HvInv E' (m.reload conf f now p)
    have emit' : ∀ {m' : Mgr} (b : Bool), HvInv E m' → HvInv E (m'.emit [.reloadRet b]) := by
      intro m' b h'
      have ht : told (m'.trace ++ [.reloadRet b]) = told m'.trace := told_quiet (by simp)
      refine ⟨?_, ?_, h'.stopped, h'.lists, h'.wait, ?_, ?_⟩
      · intro s hs hr; show s.info ∈ told (m'.trace ++ _); rw [ht]; exact h'.run s hs hr
      · intro a b s hs hr; show s.info ∈ told (m'.trace ++ _); rw [ht]; exact h'.req a b s hs hr
      · intro e i hi
        have hi' : i ∈ told (m'.trace ++ [.reloadRet b]) := hi
        rw [ht] at hi'; exact h'.back e i hi'
      · intro e; show ((told (m'.trace ++ _)).map _).Nodup; rw [ht]; exact h'.nodup e
    refine weak ?_
    unfold reload
    split
    · exact h
    rename_i hi
    simp only
    split
    · exact emit' _ h
    split
    · have := hvInv_switchCore (conf := conf) hv h (by simpa using hi)
        ⟨[], m.getControllerNames, strictnessBestEffort, false, 0⟩ now p (.reload m.getControllerNames)
      revert this
      generalize m.switchCore conf ⟨[], m.getControllerNames, strictnessBestEffort, false, 0⟩ now p
        (.reload m.getControllerNames) = x
      obtain ⟨b, n⟩ := x
      intro h1
      cases b
      · exact emit' _ h1
      · exact h1
    · exact emit' _ h
  | poll ok el =>
    cases hd : m.params.doSwitch
    · obtain ⟨es, e1, _, hh⟩ := poll_trace hv ok hop el
      obtain ⟨hc, _, hst⟩ := poll_cur hv ok el
      refine weak (hvInv_quiet hv hv' h hd (by show (m.poll ok el).params.doSwitch = false; rw [(poll_params hv ok el).1]; exact hd)
        e1 ?_ (fun s hs => Or.inl (hc.subset hs)) (fun c => by show (m.poll ok el).state c = _ ↔ _; rw [hst]))
      rcases hh with hn | ⟨_, _, rfl⟩
      · exact noDoSwitch_of_neutral hn
      · simp
    · obtain ⟨k, t, hk⟩ := h.wait hd
      have : m.poll ok el = m := by
        unfold poll
        rw [hk]
        simp only [hop.1, hop.2, hd, Bool.true_and, Bool.not_true, Bool.false_eq_true, if_false, if_true]
        rw [if_pos]
        simpa using hin k t hk hd
      show HvInv E' (m.poll ok el)
      rw [this]; exact weak h

theorem hvInv_run {conf} {E : Prop} {m : Mgr} (hv : Inv (fun _ => True) m) (h : HvInv E m) (ops : List Op)
    (hops : ∀ op ∈ ops, op.rosUp) (hin : Along InTime conf m ops) (hE : E → Along NoError conf m ops) :
    HvInv E (m.run conf ops) := by
  induction ops generalizing m with
  | nil => exact h
  | cons op ops ih =>
    have hop := hops op (by simp)
    exact ih (inv_step (checkOk_true conf) hv op hop)
      (hvInv_step hv h op hop hin.1 fun e => ⟨e, (hE e).1⟩) (fun o ho => hops o (by simp [ho])) hin.2 fun e => (hE e).2

/-- Every call of `doSwitch` fits what was told before: it starts what is not active and stops what is. -/
def CallsFit (t : List Event) : Prop :=
  ∀ pre a b post, t = pre ++ Event.doSwitch a b :: post → ((told pre).map (·.name)).Nodup ∧
    (∀ i ∈ a, i.name ∉ (told pre).map (·.name)) ∧ ∀ i ∈ b, i ∈ told pre

theorem callsFit_quiet {t es : List Event} (h : CallsFit t) (hes : ∀ a b, .doSwitch a b ∉ es) : CallsFit (t ++ es) := by
  intro pre a b post e
  rcases List.append_eq_append_iff.1 e with ⟨x, rfl, e2⟩ | ⟨x, rfl, e2⟩
  · exfalso
    exact hes a b (by rw [e2]; simp)
  · cases x with
    | nil =>
      exfalso
      exact hes a b (by rw [List.nil_append] at e2; rw [← e2]; simp)
    | cons y ys =>
      injection e2 with e3 e4
      subst e3
      exact h pre a b ys rfl

theorem callsFit_snoc {t : List Event} {a b : List ControllerInfo} (h : CallsFit t)
    (hn : ((told t).map (·.name)).Nodup) (ha : ∀ i ∈ a, i.name ∉ (told t).map (·.name)) (hb : ∀ i ∈ b, i ∈ told t) :
    CallsFit (t ++ [.doSwitch a b]) := by
  intro pre a' b' post e
  rcases List.append_eq_append_iff.1 e with ⟨x, rfl, e2⟩ | ⟨x, rfl, e2⟩
  · cases x with
    | nil =>
      injection e2 with e3 e4
      cases e3
      rw [List.append_nil]
      exact ⟨hn, ha, hb⟩
    | cons y ys =>
      injection e2 with e3 e4
      simp at e4
  · cases x with
    | nil =>
      injection e2 with e3 e4
      cases e3
      rw [List.append_nil] at hn ha hb
      exact ⟨hn, ha, hb⟩
    | cons y ys =>
      injection e2 with e3 e4
      subst e3
      exact h pre a' b' ys rfl

theorem callsFit_step {conf} {E : Prop} {m : Mgr} (he : E) (hv : Inv (fun _ => True) m) (h : HvInv E m)
    (hf : CallsFit m.trace) (op : Op) (hop : op.rosUp) : CallsFit (m.step conf op).trace := by
  cases op with
  | update t r hw =>
    show CallsFit (m.update t r hw).trace
    have hdr : ∀ a b, Event.doSwitch a b ∉ m.drivenEvents r := by
      intro a b hh
      obtain ⟨s, _, _, hh⟩ := mem_drivenEvents hh
      rcases hh with e | ⟨_, e | e⟩ <;> cases e
    cases hd : m.params.doSwitch
    · rw [update_idle m hd]; exact callsFit_quiet hf hdr
    · obtain ⟨st, es, d, _, e, ho⟩ := update_switch m hv.sane hd t r hw
      have hes : ∀ a b, Event.doSwitch a b ∉ stopEvents m.isRunning m.stopReq ++ es := by
        intro a b hh
        rcases List.mem_append.1 hh with hh | hh
        · obtain ⟨_, _, _, e⟩ := mem_stopEvents.1 hh; cases e
        · obtain ⟨_, _, e⟩ := ho.events _ hh
          rcases e with ⟨e, _⟩ | ⟨e, _⟩ | e <;> cases e
      rw [e]
      show CallsFit (m.trace ++ (m.drivenEvents r ++ m.hwEvents ++ stopEvents m.isRunning m.stopReq ++ es))
      rw [show m.trace ++ (m.drivenEvents r ++ m.hwEvents ++ stopEvents m.isRunning m.stopReq ++ es) =
        m.trace ++ m.drivenEvents r ++ m.hwEvents ++ (stopEvents m.isRunning m.stopReq ++ es) by simp]
      refine callsFit_quiet ?_ hes
      have h1 := callsFit_quiet hf hdr
      cases hst : m.params.started
      · obtain ⟨l1, l2, l3⟩ := h.lists hd hst
        have ht : told (m.trace ++ m.drivenEvents r) = told m.trace := told_quiet hdr
        simp only [hwEvents, hst, Bool.false_eq_true, if_false]
        refine callsFit_snoc h1 ?_ ?_ ?_
        · rw [ht]; exact h.nodup he
        · intro i hi hx
          rw [ht] at hx
          obtain ⟨j, hj, hji⟩ := List.mem_map.1 hx
          obtain ⟨s, hs, rfl, hr⟩ := h.back he j hj
          rw [l1] at hi
          obtain ⟨s', hs', rfl, hr', _⟩ := mem_swStart.1 hi
          have : s = s' := List.inj_on_of_nodup_map hv.names hs hs' hji
          subst this
          rcases hr with hr | hr
          · exact hr' hr
          · rw [hst] at hr; cases hr.2.1
        · intro i hi
          rw [ht]
          rw [l2] at hi
          obtain ⟨s, hs, rfl, hr, _⟩ := mem_swStop.1 hi
          exact h.run s hs hr
      · simpa [hwEvents, hst] using h1
  | load n e =>
    obtain ⟨es, e1, _, hn⟩ := load_trace m n e
    show CallsFit (m.load n e).trace
    rw [e1]; exact callsFit_quiet hf (noDoSwitch_of_neutral hn)
  | unload n =>
    obtain ⟨es, e1, _, hn⟩ := unload_trace hv n
    show CallsFit (m.unload n).trace
    rw [e1]; exact callsFit_quiet hf (noDoSwitch_of_neutral hn)
  | switch r now p =>
    show CallsFit (m.switch conf r now p).trace
    unfold switch
    split
    · exact hf
    · rename_i hi
      obtain ⟨es, e1, _, hh⟩ := switchCore_trace (conf := conf) hv (by simpa using hi) r now p .ret
      rw [e1]
      refine callsFit_quiet hf ?_
      rcases hh with ⟨_, hn, _⟩ | ⟨_, a, b, _, _, _, _, rfl⟩
      · exact noDoSwitch_of_neutral hn
      · simp
  | reload f now p =>
    show CallsFit (m.reload conf f now p).trace
    unfold reload
    split
    · exact hf
    rename_i hi
    simp only
    split
    · exact callsFit_quiet hf (by simp)
    split
    · obtain ⟨es, e1, _, hh⟩ := switchCore_trace (conf := conf) hv (by simpa using hi)
        ⟨[], m.getControllerNames, strictnessBestEffort, false, 0⟩ now p (.reload m.getControllerNames)
      have h1 : CallsFit (m.switchCore conf ⟨[], m.getControllerNames, strictnessBestEffort, false, 0⟩ now p
          (.reload m.getControllerNames)).2.trace := by
        rw [e1]
        refine callsFit_quiet hf ?_
        rcases hh with ⟨_, hn, _⟩ | ⟨_, a, b, _, _, _, _, rfl⟩
        · exact noDoSwitch_of_neutral hn
        · simp
      revert h1
      generalize m.switchCore conf ⟨[], m.getControllerNames, strictnessBestEffort, false, 0⟩ now p
        (.reload m.getControllerNames) = x
      obtain ⟨b, n⟩ := x
      intro h1
      cases b
      · exact callsFit_quiet h1 (by simp)
      · exact h1
    · exact callsFit_quiet hf (by simp)
  | poll ok el =>
    obtain ⟨es, e1, _, hh⟩ := poll_trace hv ok hop el
    show CallsFit (m.poll ok el).trace
    rw [e1]
    refine callsFit_quiet hf ?_
    rcases hh with hn | ⟨_, _, rfl⟩
    · exact noDoSwitch_of_neutral hn
    · simp

theorem callsFit_run {conf} {m : Mgr} (hv : Inv (fun _ => True) m) (h : HvInv True m) (hf : CallsFit m.trace)
    (ops : List Op) (hops : ∀ op ∈ ops, op.rosUp) (hin : Along InTime conf m ops) (hE : Along NoError conf m ops) :
    CallsFit (m.run conf ops).trace := by
  induction ops generalizing m with
  | nil => exact hf
  | cons op ops ih =>
    have hop := hops op (by simp)
    exact ih (inv_step (checkOk_true conf) hv op hop)
      (hvInv_step hv h op hop hin.1 fun e => ⟨e, hE.1⟩) (callsFit_step trivial hv h hf op hop)
      (fun o ho => hops o (by simp [ho])) hin.2 hE.2

theorem running_nodup {m : Mgr} (hv : Inv (fun _ => True) m) : (m.running.map (·.info)).Nodup := by
  have : ((m.running.map (·.info)).map (·.name)).Nodup := by
    rw [List.map_map]
    exact hv.names.sublist (List.filter_sublist.map _)
  exact List.Nodup.of_map _ this

/-! ### Sub-hardwares -/

theorem ctrlStep_name {hw : IMan} {c c' : ControllerInfo} (h : Combined.ctrlStep hw c = some c') : c'.name = c.name := by
  unfold Combined.ctrlStep at h
  split at h
  · cases h; rfl
  · split at h
    · cases h; rfl
    · cases h

theorem told_part (hw : IMan) (t : List Event) (hf : CallsFit t) :
    told (t.map (partOfEvent hw)) = Combined.filterControllerList hw (told t) := by
  induction t using List.reverseRecOn with
  | nil => simp [told, Combined.filterControllerList]
  | append_singleton t e ih =>
    have ht : CallsFit t := fun pre a b post hh => hf pre a b (post ++ [e]) (by rw [hh]; simp)
    have ih := ih ht
    rw [List.map_append, told_append, told_append, ih]
    cases e with
    | doSwitch a b =>
      obtain ⟨hn, _, hb⟩ := hf t a b [] rfl
      simp only [List.map_cons, List.map_nil, List.foldl_cons, List.foldl_nil, partOfEvent, toldStep,
        Combined.filterControllerList_eq, List.filterMap_append]
      congr 1
      have key : ∀ l : List ControllerInfo, (∀ i ∈ l, i ∈ told t) →
          (l.filterMap (Combined.ctrlStep hw)).filter
            (fun i => decide (i.name ∉ (b.filterMap (Combined.ctrlStep hw)).map (·.name))) =
          (l.filter fun i => decide (i.name ∉ b.map (·.name))).filterMap (Combined.ctrlStep hw) := by
        intro l
        induction l with
        | nil => intro _; rfl
        | cons i l ihl =>
          intro hl
          have ihl := ihl fun j hj => hl j (List.mem_cons_of_mem _ hj)
          have hi := hl i List.mem_cons_self
          cases hc : Combined.ctrlStep hw i with
          | none =>
            rw [List.filterMap_cons_none hc, ihl]
            by_cases hx : i.name ∈ b.map (·.name)
            · rw [List.filter_cons_of_neg (by simpa using hx)]
            · rw [List.filter_cons_of_pos (by simpa using hx), List.filterMap_cons_none hc]
          | some i' =>
            have hnm := ctrlStep_name hc
            have hiff : i'.name ∈ (b.filterMap (Combined.ctrlStep hw)).map (·.name) ↔ i.name ∈ b.map (·.name) := by
              rw [hnm]
              constructor
              · intro hx
                obtain ⟨j', hj', e1⟩ := List.mem_map.1 hx
                obtain ⟨j, hj, e2⟩ := List.mem_filterMap.1 hj'
                exact List.mem_map.2 ⟨j, hj, (ctrlStep_name e2).symm.trans e1⟩
              · intro hx
                obtain ⟨j, hj, e1⟩ := List.mem_map.1 hx
                have : j = i := List.inj_on_of_nodup_map hn (hb j hj) hi e1
                subst this
                exact List.mem_map.2 ⟨i', List.mem_filterMap.2 ⟨j, hj, hc⟩, hnm⟩
            rw [List.filterMap_cons_some hc]
            by_cases hx : i.name ∈ b.map (·.name)
            · rw [List.filter_cons_of_neg (by rw [decide_eq_true_eq, not_not]; exact hiff.2 hx), List.filter_cons_of_neg (by simpa using hx), ihl]
            · rw [List.filter_cons_of_pos (by rw [decide_eq_true_eq]; exact fun h => hx (hiff.1 h)),
                List.filter_cons_of_pos (by simpa using hx),
                List.filterMap_cons_some hc, ihl]
      exact key _ fun _ h => h
    | _ => rfl

end Verif
