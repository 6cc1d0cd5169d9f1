import Verif.Lemmas.RefinementRun

/-!
Helper lemmas: the `update()` calls of an update interleaved with service operations.
-/

namespace Verif

open Mgr

namespace Inter

@[simp] theorem updateCalls_append (a b : List Event) :
    updateCalls (a ++ b) = updateCalls a ++ updateCalls b := List.filter_append ..

theorem updateCalls_service {es : List Event} (h : ∀ e ∈ es, e.realtime = false) :
    updateCalls es = [] := by
  unfold updateCalls
  rw [List.filter_eq_nil_iff]
  intro e he
  have := h e he
  cases e <;> simp_all [Event.realtime, Event.isUpdate]

/-- What an operation of the service thread leaves alone in the middle of an update. -/
structure Undisturbed (m m' : Mgr) : Prop where
  calls : updateCalls m'.trace = updateCalls m.trace
  list : usedList m' = usedList m
  state : ∀ t ∈ usedList m, m'.state t.c = m.state t.c
  used : m'.used = m.used

theorem undisturbed_refl (m : Mgr) : Undisturbed m m := ⟨rfl, rfl, fun _ _ => rfl, rfl⟩

theorem undisturbed_step {conf : List ControllerInfo → Bool} {P} {m : Mgr} (i : Inv P m) {op : Op}
    (hop : op.isService = true) (hr : op.rosUp) : Undisturbed m (m.step conf op) := by
  have out := svcOut_step conf i hop hr
  obtain ⟨es, h1, h2⟩ := blind_step conf m i op hop
  refine ⟨?_, out.usedList, ?_, out.used⟩
  · have := h2 m.trace
    simp only [withTrace_self] at this
    rw [this]
    simp [withTrace, updateCalls_service h1]
  · intro t ht
    exact out.state (i.fresh t (usedList_mem ht))

theorem undisturbed {conf : List ControllerInfo → Bool} {P} {s : St} {a : Mgr} (i : Inv P a)
    (h : Rel s a) (hi : s.rt ≠ .idle) {op : Op} (hop : op.isService = true)
    (hc : Careful s (.svc op)) : Undisturbed s.m (s.m.step conf op) := by
  obtain ⟨hr, hb, hrs⟩ := hc
  cases hd : s.m.params.doSwitch with
  | true => rw [blocked_step (hb hi hd) hop hr]; exact undisturbed_refl _
  | false =>
    by_cases hrt : ∃ u c l, s.rt = .restarting u c l
    · rcases hrs hrt with hw | hbl
      · obtain ⟨u, c, l, e⟩ := hrt
        obtain ⟨m, rt⟩ := s
        simp only at e hw hd
        subst e
        rcases h with ⟨_, _, h⟩ | h
        · have ir := h.same.inv i
          have hs := waits_state (conf := conf) hw hop hr (fun x => if x = c then .running else m.state x)
          have hstate : (m.step conf op).state = m.state := by
            have := waits_state (conf := conf) hw hop hr m.state
            have e : ({ m with state := m.state } : Mgr) = m := rfl
            rw [e] at this
            rw [this]
          have un := undisturbed_step (conf := conf) ir hop hr
          have e : (restored m c).step conf op =
              { m.step conf op with state := fun x => if x = c then .running else m.state x } := hs
          rw [e] at un
          exact ⟨un.calls, un.list, fun t _ => by rw [hstate], un.used⟩
        · rw [show m.params.doSwitch = true from h.doSwitch] at hd; cases hd
      · rw [blocked_step hbl hop hr]; exact undisturbed_refl _
    · exact undisturbed_step (rel_inv i h hd fun u c l e => hrt ⟨u, c, l, e⟩) hop hr

/-- The list read at the beginning of an update is not touched either. -/
theorem undisturbed_read {conf : List ControllerInfo → Bool} {P} {s : St} {a : Mgr} (i : Inv P a)
    (hu : a.used ≠ none) (h : Rel s a) {u : Args} {r : Bool} (hrt : s.rt = .read u r) {op : Op}
    (hop : op.isService = true) (hc : Careful s (.svc op)) :
    list (s.m.step conf op) r = list s.m r ∧
      ∀ t ∈ list s.m r, (s.m.step conf op).state t.c = s.m.state t.c := by
  have un := undisturbed (conf := conf) i h (by rw [hrt]; simp) hop hc
  obtain ⟨hr, hb, _⟩ := hc
  obtain ⟨m, rt⟩ := s
  simp only at hrt un hb ⊢
  subst hrt
  have key : m.used = some r ∨ m.step conf op = m := by
    rcases h with ⟨e, h⟩ | ⟨_, h, _⟩
    · simp only at e h
      subst e
      have im := h.inv i
      have hu' : m.used ≠ none := by rw [← (same_dec h).2.2.1]; exact hu
      by_cases hl : m.ReleasingList
      · by_cases hq : m.used = some m.current
        · exact Or.inl hq
        · right
          have hq' : m.used = some (!m.current) := by
            cases hx : m.used with
            | none => exact absurd hx hu'
            | some b => rw [hx] at hq; cases b <;> cases hcc : m.current <;> simp_all
          exact releasing_step hl (fun f k e => im.former f k e) hq' hop hr
      · exact Or.inl (used_current im hu' hl)
    · exact Or.inl h
  rcases key with hused | e
  · have e1 : usedList m = list m r := by simp [usedList, hused]
    have e2 : usedList (m.step conf op) = list (m.step conf op) r := by
      simp [usedList, un.used, hused]
    rw [← e1, ← e2]
    exact ⟨un.list, un.state⟩
  · rw [e]; exact ⟨rfl, fun _ _ => rfl⟩

theorem calls_req (m : Mgr) (r : Request) (c : CId) (h : r ≠ .update) :
    updateCalls (m.req r c).trace = updateCalls m.trace := by
  unfold req
  split
  · simp only [updateCalls_append]
    have : updateCalls ((r.run (m.state c)).calls.map (.cb c)) = [] := by
      unfold updateCalls
      rw [List.filter_eq_nil_iff]
      intro e he
      obtain ⟨b, hb, rfl⟩ := List.mem_map.1 he
      cases r with
      | update => exact absurd rfl h
      | init ok =>
        simp only [Request.run, initRequest] at hb
        split at hb
        · simp at hb
        · split at hb <;> simp at hb
      | start =>
        simp only [Request.run, startRequest] at hb
        split at hb <;> simp at hb
        subst hb; simp [Event.isUpdate]
      | stop =>
        simp only [Request.run, stopRequest] at hb
        split at hb <;> simp at hb
        subst hb; simp [Event.isUpdate]
      | wait =>
        simp only [Request.run, waitRequest] at hb
        split at hb <;> simp at hb
        subst hb; simp [Event.isUpdate]
      | abort =>
        simp only [Request.run, abortRequest] at hb
        split at hb <;> simp at hb
        subst hb; simp [Event.isUpdate]
    rw [this, List.append_nil]
  · rfl

theorem calls_asapEntry (n : Nat) (c : CId) (time : Int) (hw : HwReply) (l : List CtrlSpec) (m : Mgr) :
    updateCalls (l.foldl (asapEntry n c time hw) m).trace = updateCalls m.trace := by
  induction l generalizing m with
  | nil => rfl
  | cons s l ih =>
    rw [List.foldl_cons, ih]
    unfold asapEntry
    split
    · split
      · exact calls_req _ _ _ (by simp)
      · split <;> exact calls_req _ _ _ (by simp)
    · rfl

/-- The update is past its `update()` calls. -/
def past : Rt → Bool
  | .idle | .read _ _ | .resetting _ _ | .restarting _ _ _ | .updating _ _ => false
  | _ => true

theorem past_rt (s : St) (u : Args) (h : past s.rt = true) :
    updateCalls (rtStep s u).m.trace = updateCalls s.m.trace ∧
      ((rtStep s u).rt = .idle ∨ past (rtStep s u).rt = true) := by
  obtain ⟨m, rt⟩ := s
  cases rt with
  | idle => cases h
  | read u r => cases h
  | resetting u l => cases h
  | restarting u c l => cases h
  | updating u l => cases h
  | looking v =>
    by_cases h : m.params.doSwitch = true
    · have e : rtStep { m := m, rt := .looking v } u =
          (let m := if !m.params.started then
              { m.emit [.doSwitch m.swStart m.swStop] with params := { m.params with started := true } }
            else m
           { m := m, rt := .stopping v m.stopReq }) := if_pos h
      rw [e]
      refine ⟨?_, Or.inr rfl⟩
      simp only
      split
      · simp [emit, updateCalls, Event.isUpdate]
      · rfl
    · have e : rtStep { m := m, rt := .looking v } u = { m := m, rt := .idle } := if_neg h
      rw [e]
      exact ⟨rfl, Or.inl rfl⟩
  | stopping v l =>
    cases l with
    | nil => exact ⟨rfl, Or.inr rfl⟩
    | cons c l =>
      refine ⟨?_, Or.inr rfl⟩
      simp only [rtStep]
      split
      · exact calls_req _ _ _ (by simp)
      · rfl
  | choosing v =>
    simp only [rtStep]
    split
    · exact ⟨rfl, Or.inr rfl⟩
    · split
      · exact ⟨rfl, Or.inr rfl⟩
      · split <;> exact ⟨rfl, Or.inr rfl⟩
  | starting v l =>
    cases l with
    | nil => exact ⟨rfl, Or.inl rfl⟩
    | cons c l => exact ⟨calls_req _ _ _ (by simp), Or.inr rfl⟩
  | aborting v l =>
    cases l with
    | nil => exact ⟨rfl, Or.inl rfl⟩
    | cons c l => exact ⟨calls_req _ _ _ (by simp), Or.inr rfl⟩
  | waiting v l =>
    cases l with
    | nil => exact ⟨rfl, Or.inl rfl⟩
    | cons c l => exact ⟨calls_req _ _ _ (by simp), Or.inr rfl⟩
  | asap v n l =>
    cases l with
    | nil =>
      simp only [rtStep]
      split <;> exact ⟨rfl, Or.inl rfl⟩
    | cons c l =>
      refine ⟨?_, Or.inr rfl⟩
      simp only [rtStep]
      split
      · exact calls_asapEntry _ _ _ _ _ _
      · rfl

/-- The calls on the running controllers of a list. -/
def owed (on : CId → Bool) (l : List CtrlSpec) : List Event :=
  (l.filter fun t => on t.c).map fun t => .cb t.c .update

/-- How far the calls of an update have got. `l` is the list at its beginning, `on` tells which
controllers were running, `t` is the calls before. -/
def Progress (l : List CtrlSpec) (on : CId → Bool) (t : List Event) (s : St) : Prop :=
  match s.rt with
  | .idle => updateCalls s.m.trace = t ++ owed on l
  | .read _ r => updateCalls s.m.trace = t ∧ list s.m r = l ∧ ∀ x ∈ l, s.m.isRunning x.c = on x.c
  | .resetting _ todo => updateCalls s.m.trace = t ∧ usedList s.m = l ∧ (∀ x ∈ todo, x ∈ l) ∧
      ∀ x ∈ l, s.m.isRunning x.c = on x.c
  | .restarting _ c todo => updateCalls s.m.trace = t ∧ usedList s.m = l ∧ (∀ x ∈ todo, x ∈ l) ∧
      s.m.state c = .stopped ∧ (∃ x ∈ l, x.c = c) ∧ on c = true ∧
      ∀ x ∈ l, x.c ≠ c → s.m.isRunning x.c = on x.c
  | .updating _ todo => ∃ before, l = before ++ todo ∧ usedList s.m = l ∧
      updateCalls s.m.trace = t ++ owed on before ∧ ∀ x ∈ l, s.m.isRunning x.c = on x.c
  | _ => updateCalls s.m.trace = t ++ owed on l

theorem progress_past {l : List CtrlSpec} {on : CId → Bool} {t : List Event} {s : St}
    (h : past s.rt = true ∨ s.rt = .idle) : Progress l on t s ↔ updateCalls s.m.trace = t ++ owed on l := by
  obtain ⟨m, rt⟩ := s
  cases rt <;> first | exact Iff.rfl | (simp [past] at h)

theorem usedList_req (m : Mgr) (r : Request) (c : CId) : usedList (m.req r c) = usedList m := by
  have k := keep_req m r c
  unfold usedList list
  rw [k.used, k.current, k.cur, k.oth]

theorem progress_rt {l : List CtrlSpec} {on : CId → Bool} {t : List Event} {s : St}
    (hi : s.rt ≠ .idle) (h : Progress l on t s) (u : Args) : Progress l on t (rtStep s u) := by
  cases hp : past s.rt with
  | true =>
    obtain ⟨h1, h2⟩ := past_rt s u hp
    rw [progress_past h2.symm, h1]
    exact (progress_past (Or.inl hp)).1 h
  | false =>
    obtain ⟨m, rt⟩ := s
    cases rt with
    | idle => exact absurd rfl hi
    | read v r =>
      obtain ⟨h1, h2, h3⟩ := h
      have e : usedList { m with used := some r } = l := h2
      simp only [rtStep, e]
      cases hv : v.reset
      · exact ⟨[], rfl, e, by simpa [owed] using h1, h3⟩
      · exact ⟨h1, e, fun x hx => hx, h3⟩
    | resetting v todo =>
      obtain ⟨h1, h2, h3, h4⟩ := h
      cases todo with
      | nil => exact ⟨[], (h2 : usedList m = l).symm ▸ rfl, h2, by simpa [owed, rtStep] using h1, h4⟩
      | cons x todo =>
        have hx := h3 x (by simp)
        by_cases hr : m.isRunning x.c = true
        · have e : rtStep { m := m, rt := .resetting v (x :: todo) } u =
              { m := m.req .stop x.c, rt := .restarting v x.c todo } := if_pos hr
          rw [e]
          refine ⟨(calls_req _ _ _ (by simp)).trans h1, (usedList_req _ _ _).trans h2,
            fun y hy => h3 y (by simp [hy]), ?_, ⟨x, hx, rfl⟩, ?_, ?_⟩
          · have ha : m.alive x.c = true := alive_used (by rw [show usedList m = l from h2]; exact hx)
            have hs := isRunning_iff.1 hr
            simp [req, ha, Request.run, stopRequest, hs]
          · rw [← h4 x hx]; exact hr
          · intro y hy hne
            have := h4 y hy
            simp only [isRunning] at this ⊢
            rw [req_other _ _ _ _ hne]
            exact this
        · have e : rtStep { m := m, rt := .resetting v (x :: todo) } u =
              { m := m, rt := .resetting v todo } := if_neg hr
          rw [e]
          exact ⟨h1, h2, fun y hy => h3 y (by simp [hy]), h4⟩
    | restarting v c todo =>
      obtain ⟨h1, h2, h3, h4, ⟨x, hx, hxc⟩, h5, h6⟩ := h
      refine ⟨(calls_req _ _ _ (by simp)).trans h1, (usedList_req _ _ _).trans h2, h3, ?_⟩
      intro y hy
      by_cases hy' : y.c = c
      · have ha : m.alive c = true := by
          rw [← hxc]; exact alive_used (by rw [show usedList m = l from h2]; exact hx)
        have h4' : m.state c = .stopped := h4
        rw [hy', h5]
        simp [rtStep, isRunning, req, ha, Request.run, startRequest, h4', CState.isRunning]
      · have := h6 y hy hy'
        simp only [isRunning, rtStep] at this ⊢
        rw [req_other _ _ _ _ hy']
        exact this
    | updating v todo =>
      obtain ⟨before, h1, h2, h3, h4⟩ := h
      cases todo with
      | nil =>
        rw [List.append_nil] at h1
        subst h1
        exact h3
      | cons x todo =>
        have hx : x ∈ l := by rw [h1]; simp
        have ha : m.alive x.c = true := alive_used (by rw [show usedList m = l from h2]; exact hx)
        refine ⟨before ++ [x], by simp [h1], (usedList_req _ _ _).trans h2, ?_, ?_⟩
        · simp only at h3
          have hon := h4 x hx
          simp only [rtStep, req, ha, if_true, updateCalls_append, h3]
          by_cases hr : m.state x.c = .running
          · have : on x.c = true := by rw [← hon]; exact isRunning_iff.2 hr
            simp [Request.run, updateRequest, hr, owed, this, updateCalls, Event.isUpdate]
          · have : on x.c = false := by
              rw [← hon]; rw [Bool.eq_false_iff, Ne, isRunning_iff]; exact hr
            simp [Request.run, updateRequest, hr, owed, this, updateCalls]
        · intro y hy
          rw [← h4 y hy]
          simp only [rtStep, isRunning, req, ha, if_true]
          by_cases hyx : y.c = x.c
          · rw [if_pos hyx, hyx]
            simp only [Request.run, updateRequest]
            split <;> rfl
          · rw [if_neg hyx]
    | _ => cases hp

theorem progress_svc {conf : List ControllerInfo → Bool} {P} {l : List CtrlSpec} {on : CId → Bool}
    {t : List Event} {s : St} {a : Mgr} (i : Inv P a) (hu : a.used ≠ none) (hr : Rel s a)
    (hi : s.rt ≠ .idle) (h : Progress l on t s) {op : Op} (hop : op.isService = true)
    (hc : Careful s (.svc op)) : Progress l on t { s with m := s.m.step conf op } := by
  have un := undisturbed (conf := conf) i hr hi hop hc
  cases hp : past s.rt with
  | true =>
    rw [progress_past (s := { s with m := s.m.step conf op }) (Or.inl hp)]
    exact un.calls.trans ((progress_past (Or.inl hp)).1 h)
  | false =>
    have rd := fun u r (e : s.rt = .read u r) => undisturbed_read (conf := conf) i hu hr e hop hc
    obtain ⟨m, rt⟩ := s
    simp only at un rd ⊢
    have st : usedList m = l → ∀ x ∈ l, (m.step conf op).state x.c = m.state x.c := by
      intro e x hx
      exact un.state x (by rw [e]; exact hx)
    cases rt with
    | idle => exact absurd rfl hi
    | read v r =>
      obtain ⟨h1, h2, h3⟩ := h
      obtain ⟨g1, g2⟩ := rd v r rfl
      refine ⟨un.calls.trans h1, g1.trans h2, fun x hx => ?_⟩
      rw [← h3 x hx]
      simp only [isRunning]
      rw [g2 x (by rw [show list m r = l from h2]; exact hx)]
    | resetting v todo =>
      obtain ⟨h1, h2, h3, h4⟩ := h
      refine ⟨un.calls.trans h1, un.list.trans h2, h3, fun x hx => ?_⟩
      rw [← h4 x hx]
      simp only [isRunning]
      rw [st h2 x hx]
    | restarting v c todo =>
      obtain ⟨h1, h2, h3, h4, ⟨x, hx, hxc⟩, h5, h6⟩ := h
      refine ⟨un.calls.trans h1, un.list.trans h2, h3, ?_, ⟨x, hx, hxc⟩, h5, fun y hy hne => ?_⟩
      · rw [← hxc, st h2 x hx, hxc]; exact h4
      · rw [← h6 y hy hne]
        simp only [isRunning]
        rw [st h2 y hy]
    | updating v todo =>
      obtain ⟨before, h1, h2, h3, h4⟩ := h
      refine ⟨before, h1, un.list.trans h2, un.calls.trans h3, fun x hx => ?_⟩
      rw [← h4 x hx]
      simp only [isRunning]
      rw [st h2 x hx]
    | _ => cases hp

/-- The calls at the end of the update. -/
theorem progress_run {conf : List ControllerInfo → Bool} {P} (hp : CheckOk conf P)
    {l : List CtrlSpec} {on : CId → Bool} {t : List Event} {s : St} {a : Mgr} (i : Inv P a)
    (hu : a.used ≠ none) (hr : Rel s a) (h : Progress l on t s) {ops : List Step}
    (hc : CarefulRun conf s ops) (he : Ends conf s ops) :
    updateCalls (run conf s ops).m.trace = t ++ owed on l := by
  induction ops generalizing s a with
  | nil => exact he.elim
  | cons o os ih =>
    have hi : s.rt ≠ .idle := by cases os <;> exact he.1
    -- one step
    have one : Progress l on t (step conf s o) ∧ ∃ a', Inv P a' ∧ a'.used ≠ none ∧ Rel (step conf s o) a' := by
      constructor
      · cases o with
        | rt u => exact progress_rt hi h u
        | svc op =>
          cases hop : op.isService with
          | false =>
            cases op with
            | update => exact h
            | _ => simp [Op.isService] at hop
          | true =>
            have e : step conf s (.svc op) = { s with m := s.m.step conf op } := by
              cases op <;> first | rfl | (simp [Op.isService] at hop)
            rw [e]
            exact progress_svc i hu hr hi h hop hc.1
      · obtain ⟨l', _, _, g1, g2, g3⟩ := rel_run (ops := [o]) hp i hu hr ⟨hc.1, trivial⟩
        exact ⟨_, g2, g3, g1⟩
    obtain ⟨h1, a', i', hu', hr'⟩ := one
    cases os with
    | nil =>
      have := he.2
      exact (progress_past (Or.inr this)).1 h1
    | cons o' os' => exact ih i' hu' hr' h1 hc.2 he.2

end Inter

end Verif
