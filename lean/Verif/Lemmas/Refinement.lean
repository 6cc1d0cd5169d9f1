import Verif.Lemmas.Interleaved

/-!
Helper lemmas: an update interleaved with service operations behaves like updates that are not
interrupted.
-/

namespace Verif

open Mgr

namespace Inter

/-! ### What requests on controllers leave alone -/

/-- Everything except controller states, events and the fault flag. -/
structure Keep (m m' : Mgr) : Prop where
  cur : m'.cur = m.cur
  oth : m'.oth = m.oth
  current : m'.current = m.current
  used : m'.used = m.used
  params : m'.params = m.params
  svc : m'.svc = m.svc
  startReq : m'.startReq = m.startReq
  stopReq : m'.stopReq = m.stopReq

theorem Keep.refl (m : Mgr) : Keep m m := ⟨rfl, rfl, rfl, rfl, rfl, rfl, rfl, rfl⟩

theorem Keep.trans {a b c : Mgr} (h : Keep a b) (g : Keep b c) : Keep a c :=
  ⟨g.cur.trans h.cur, g.oth.trans h.oth, g.current.trans h.current, g.used.trans h.used,
    g.params.trans h.params, g.svc.trans h.svc, g.startReq.trans h.startReq,
    g.stopReq.trans h.stopReq⟩

theorem keep_req (m : Mgr) (r : Request) (c : CId) : Keep m (m.req r c) := by
  unfold req
  split <;> exact ⟨rfl, rfl, rfl, rfl, rfl, rfl, rfl, rfl⟩

theorem keep_foldl {α : Type} (f : Mgr → α → Mgr) (hf : ∀ m x, Keep m (f m x)) (l : List α) (m : Mgr) :
    Keep m (l.foldl f m) := by
  induction l generalizing m with
  | nil => exact Keep.refl m
  | cons x l ih => exact (hf m x).trans (ih _)

theorem keep_asapEntry (n : Nat) (c : CId) (time : Int) (hw : HwReply) (m : Mgr) (s : CtrlSpec) :
    Keep m (asapEntry n c time hw m s) := by
  unfold asapEntry
  split
  · split
    · exact keep_req _ _ _
    · split <;> exact keep_req _ _ _
  · exact Keep.refl m

/-! ### A switch does not depend on past events -/

theorem blind_manageSwitch {m : Mgr} (hm : Sane m) (hd : m.params.doSwitch = true) (time : Int)
    (hw : HwReply) : ∃ es, ∀ t,
      (m.withTrace t).manageSwitch time hw = (m.manageSwitch time hw).withTrace (t ++ es) := by
  obtain ⟨st, es, d, hs, he, _⟩ := manageSwitch_out m hm hd time hw
  refine ⟨m.hwEvents ++ stopEvents m.isRunning m.stopReq ++ es, fun t => ?_⟩
  obtain ⟨st', es', d', hs', he', _⟩ := manageSwitch_out (m.withTrace t)
    ⟨hm.objs, hm.start, hm.stop, hm.inited⟩ hd time hw
  have : (m.withTrace t).atStart.startPure time hw = m.atStart.startPure time hw :=
    startPure_congr (m := m.atStart) (m' := (m.withTrace t).atStart) rfl rfl rfl rfl time hw
  rw [this, hs] at hs'
  cases hs'
  rw [he, he']
  rfl

theorem answers_nil_of_cb {es : List Event} (h : ∀ e ∈ es, e.realtime = true) : answers es = [] :=
  answers_realtime h

/-- Restart of the running controllers of a list. -/
def restarts (st : CId → CState) (l : List CtrlSpec) : List Event :=
  (l.filter fun s => (st s.c).isRunning).flatMap fun s => [.cb s.c .stopping, .cb s.c .starting]

theorem transitions_restarts (st : CId → CState) (l : List CtrlSpec) :
    transitions (restarts st l) = restarts st l := by
  unfold transitions
  rw [List.filter_eq_self]
  intro e he
  simp only [restarts, List.mem_flatMap, List.mem_cons, List.not_mem_nil, or_false] at he
  obtain ⟨s, _, rfl | rfl⟩ := he <;> rfl

theorem answers_restarts (st : CId → CState) (l : List CtrlSpec) : answers (restarts st l) = [] := by
  apply answers_realtime
  intro e he
  simp only [restarts, List.mem_flatMap, List.mem_cons, List.not_mem_nil, or_false] at he
  obtain ⟨s, _, rfl | rfl⟩ := he <;> rfl

theorem restarts_congr {st st' : CId → CState} {l : List CtrlSpec}
    (h : ∀ s ∈ l, st' s.c = st s.c) : restarts st' l = restarts st l := by
  unfold restarts
  rw [List.filter_congr fun s hs => by rw [h s hs]]

theorem transitions_updates (l : List CtrlSpec) (p : CtrlSpec → Bool) :
    transitions ((l.filter p).map fun s => .cb s.c .update) = [] := by
  unfold transitions
  rw [List.filter_eq_nil_iff]
  intro e he
  simp only [List.mem_map] at he
  obtain ⟨s, _, rfl⟩ := he
  simp [Event.realtime, Event.isUpdate]

theorem answers_updates (l : List CtrlSpec) (p : CtrlSpec → Bool) :
    answers ((l.filter p).map fun s => .cb s.c .update) = [] := by
  apply answers_realtime
  intro e he
  simp only [List.mem_map] at he
  obtain ⟨s, _, rfl⟩ := he
  rfl

/-- The transitions of an update that finds no switch pending. -/
def driven (reset : Bool) (m : Mgr) : List Event := if reset then restarts m.state m.cur else []

theorem transitions_driven (m : Mgr) (reset : Bool) :
    transitions (m.drivenEvents reset) = driven reset m := by
  unfold drivenEvents driven
  rw [transitions_append, updateEvents, transitions_updates, List.append_nil]
  cases reset
  · rfl
  · exact transitions_restarts m.state m.cur

theorem answers_driven (m : Mgr) (reset : Bool) : answers (m.drivenEvents reset) = [] := by
  unfold drivenEvents
  rw [answers_append, updateEvents, answers_updates, List.append_nil]
  cases reset
  · rfl
  · exact answers_restarts m.state m.cur

/-- An update of `a` that finds no switch pending and changes no list. -/
theorem same_update_idle {p : List Event} {m a : Mgr} (h : Same p m a)
    (hd : a.params.doSwitch = false) (time : Int) (reset : Bool) (hw : HwReply) :
    Same (p ++ driven reset a) { m with used := some m.current } (a.update time reset hw) := by
  have e : a.update time reset hw =
      { a.upd a.state (a.drivenEvents reset) with used := some a.current } :=
    update_idle a hd time reset hw
  rw [e]
  refine ⟨?_, ?_, ?_⟩
  · have := h.eq
    generalize hat : a.trace = t at this
    subst this
    simp [upd, withTrace]
  · simp [upd, transitions_driven, h.trans]
  · simp [upd, answers_driven, h.ans]

/-- An update of `a` that finds the switch `m` is about to do. -/
theorem same_update_switch {P} {p : List Event} {m a : Mgr} (i : Inv P a) (h : Same p m a)
    (hd : a.params.doSwitch = true) (time : Int) (reset : Bool) (hw : HwReply) :
    ∃ es, (a.update time reset hw) =
      (({ m with used := some m.current } : Mgr).manageSwitch time hw).withTrace
        (a.trace ++ a.drivenEvents reset ++ es) ∧
      (∀ t, (({ m with used := some m.current } : Mgr).withTrace t).manageSwitch time hw =
        (({ m with used := some m.current } : Mgr).manageSwitch time hw).withTrace (t ++ es)) := by
  have im := h.inv i
  have e0 := update_prefix a reset
  simp only at e0
  have hsane : Sane ({ m with used := some m.current } : Mgr) :=
    ⟨im.sane.objs, im.sane.start, im.sane.stop, im.sane.inited⟩
  have hdm : m.params.doSwitch = true := by
    have := hd; rw [h.eq] at this; exact this
  obtain ⟨es, hes⟩ := blind_manageSwitch hsane hdm time hw
  refine ⟨es, ?_, hes⟩
  unfold update
  simp only [e0]
  rw [if_pos (show (a.upd a.state (a.drivenEvents reset)).params.doSwitch = true from hd)]
  rw [← hes]
  congr 1
  have := h.eq
  generalize hat : a.trace = t at this
  subst this
  simp [upd, withTrace]

/-! ### The simulation relation -/

/-- The update in progress counts as done: `a` has the transitions `p` that are still to come, and
`todo` are controllers of the list in use. -/
structure Done (m : Mgr) (todo : List CtrlSpec) (p : List Event) (a : Mgr) : Prop where
  todo : ∀ s ∈ todo, s ∈ usedList m
  switch : m.params.doSwitch = true → m.used = some m.current
  same : Same p m a

/-- Controllers are being started. -/
def late : Rt → Bool
  | .starting _ _ => true
  | .asap _ _ _ => true
  | _ => false

/-- The update in progress does not count yet: it is doing a switch, the service thread waits, and
`a` will catch up by one update. -/
structure Pending (s : St) (u : Args) (a : Mgr) : Prop where
  doSwitch : s.m.params.doSwitch = true
  doSwitch' : a.params.doSwitch = true
  svc : a.svc = s.m.svc
  used : s.m.used = some s.m.current
  early : s.rt ≠ .idle → late s.rt = false → ∀ c, s.m.state c = .running ∨ (∃ v l, s.rt = .restarting v c l) →
    a.state c = .running
  cur : a.cur = s.m.cur
  same : ∃ reset, Same [] (complete s.m s.rt) (a.update u.time reset u.hw)

/-- The state of `m` with the controller between stop and start counted as running. -/
def restored (m : Mgr) (c : CId) : Mgr :=
  { m with state := fun x => if x = c then .running else m.state x }

/-- `a` is where `s` would be if updates were not interrupted. -/
def Rel (s : St) (a : Mgr) : Prop :=
  match s.rt with
  | .idle => Same [] s.m a
  | .read u r => (r = s.m.current ∧ Same [] s.m a) ∨
      (r ≠ s.m.current ∧ s.m.used = some r ∧ s.m.ReleasingList ∧ s.m.params.doSwitch = false ∧
        Same (if u.reset then restarts s.m.state s.m.oth else []) s.m a)
  | .resetting u l => Done s.m l (restarts s.m.state l) a ∨ Pending s u a
  | .restarting u c l => (s.m.state c = .stopped ∧ (∃ t ∈ usedList s.m, t.c = c) ∧
      Done (restored s.m c) l (.cb c .starting :: restarts (restored s.m c).state l) a) ∨ Pending s u a
  | .updating u l => Done s.m l [] a ∨ Pending s u a
  | .looking u => Done s.m [] [] a ∨ Pending s u a
  | .stopping u _ => Pending s u a
  | .choosing u => Pending s u a
  | .starting u _ => Pending s u a
  | .aborting u _ => Pending s u a
  | .waiting u _ => Pending s u a
  | .asap u _ _ => Pending s u a

theorem used_current {P} {m : Mgr} (i : Inv P m) (hu : m.used ≠ none) (hr : ¬ m.ReleasingList) :
    m.used = some m.current := by
  have := i.used hr
  cases h : m.used with
  | none => exact absurd h hu
  | some r =>
    rw [h] at this
    cases r <;> cases hc : m.current <;> simp_all

theorem usedList_of_current {m : Mgr} (h : m.used = some m.current) : usedList m = m.cur := by
  simp [usedList, h, list]

theorem usedList_mem {m : Mgr} {s : CtrlSpec} (h : s ∈ usedList m) : s ∈ m.cur ∨ s ∈ m.oth := by
  unfold usedList at h
  cases hu : m.used with
  | none => simp [hu] at h
  | some r =>
    simp only [hu, list] at h
    split at h
    · exact Or.inl h
    · exact Or.inr h

theorem alive_used {m : Mgr} {s : CtrlSpec} (h : s ∈ usedList m) : m.alive s.c = true := by
  simp only [alive, List.any_eq_true]
  exact ⟨s, List.mem_append.2 (usedList_mem h), by simp⟩

theorem same_dec {p : List Event} {m a : Mgr} (h : Same p m a) :
    a.params = m.params ∧ a.svc = m.svc ∧ a.used = m.used ∧ a.current = m.current ∧
      a.state = m.state ∧ a.cur = m.cur ∧ a.oth = m.oth := by
  have e := h.eq
  rw [e]
  exact ⟨rfl, rfl, rfl, rfl, rfl, rfl, rfl⟩

/-- A request that only adds events to `m`. -/
theorem Same.emit {p q es : List Event} {m a : Mgr} (h : Same p m a)
    (ht : p = transitions es ++ q) (ha : answers es = []) :
    Same q (m.withTrace (m.trace ++ es)) a := by
  refine ⟨h.eq, ?_, ?_⟩
  · rw [h.trans, ht]; simp [withTrace]
  · rw [h.ans]; simp [withTrace, ha]

/-- Only a start request makes a controller run. -/
theorem req_running {m : Mgr} {r : Request} {c x : CId} (h : (m.req r c).state x = .running) :
    m.state x = .running ∨ (r = .start ∧ x = c) := by
  unfold req at h
  split at h
  · simp only at h
    split at h
    · rename_i hx
      subst hx
      cases r with
      | start => exact Or.inr ⟨rfl, rfl⟩
      | init b =>
        left
        simp only [Request.run, initRequest] at h
        split at h <;> (try split at h) <;> simp_all
      | update => left; simp only [Request.run, updateRequest] at h; split at h <;> simp_all
      | stop => left; simp only [Request.run, stopRequest] at h; split at h <;> simp_all
      | wait => left; simp only [Request.run, waitRequest] at h; split at h <;> simp_all
      | abort => left; simp only [Request.run, abortRequest] at h; split at h <;> simp_all
    · exact Or.inl h
  · exact Or.inl h

/-- Before controllers are started, nothing new runs. -/
theorem early_step (s : St) (u' : Args) (hr : s.rt ≠ .idle) (hi : (rtStep s u').rt ≠ .idle)
    (hl : late (rtStep s u').rt = false) (c : CId)
    (hc : (rtStep s u').m.state c = .running ∨ ∃ v l, (rtStep s u').rt = .restarting v c l) :
    late s.rt = false ∧ (s.m.state c = .running ∨ ∃ v l, s.rt = .restarting v c l) := by
  obtain ⟨m, rt⟩ := s
  cases rt with
  | idle => exact absurd rfl hr
  | read u r =>
    refine ⟨rfl, Or.inl ?_⟩
    rcases hc with hc | ⟨v, l, hc⟩
    · exact hc
    · simp only [rtStep] at hc; split at hc <;> cases hc
  | resetting u l =>
    refine ⟨rfl, Or.inl ?_⟩
    cases l with
    | nil =>
      rcases hc with hc | ⟨v, l, hc⟩
      · exact hc
      · cases hc
    | cons d l =>
      simp only [rtStep] at hc
      by_cases h : m.isRunning d.c = true
      · simp only [h, if_true] at hc
        rcases hc with hc | ⟨v, l, hc⟩
        · rcases req_running hc with h | ⟨h, _⟩
          · exact h
          · cases h
        · cases hc; exact isRunning_iff.1 h
      · simp only [h, if_false, Bool.false_eq_true] at hc
        rcases hc with hc | ⟨v, l, hc⟩
        · exact hc
        · cases hc
  | restarting u d l =>
    refine ⟨rfl, ?_⟩
    rcases hc with hc | ⟨v, l, hc⟩
    · rcases req_running hc with h | ⟨_, rfl⟩
      · exact Or.inl h
      · exact Or.inr ⟨u, l, rfl⟩
    · cases hc
  | updating u l =>
    refine ⟨rfl, Or.inl ?_⟩
    cases l with
    | nil =>
      rcases hc with hc | ⟨v, l, hc⟩
      · exact hc
      · cases hc
    | cons d l =>
      rcases hc with hc | ⟨v, l, hc⟩
      · rcases req_running hc with h | ⟨h, _⟩
        · exact h
        · cases h
      · cases hc
  | looking u =>
    refine ⟨rfl, Or.inl ?_⟩
    by_cases h : m.params.doSwitch = true
    · have e : rtStep { m := m, rt := .looking u } u' =
          (let m := if !m.params.started then
              { m.emit [.doSwitch m.swStart m.swStop] with params := { m.params with started := true } }
            else m
           { m := m, rt := .stopping u m.stopReq }) := if_pos h
      rw [e] at hc
      rcases hc with hc | ⟨v, l, hc⟩
      · simp only at hc
        split at hc <;> exact hc
      · cases hc
    · have e : rtStep { m := m, rt := .looking u } u' = { m := m, rt := .idle } := if_neg h
      rw [e] at hi
      exact absurd rfl hi
  | stopping u l =>
    refine ⟨rfl, Or.inl ?_⟩
    cases l with
    | nil =>
      rcases hc with hc | ⟨v, l, hc⟩
      · exact hc
      · cases hc
    | cons d l =>
      rcases hc with hc | ⟨v, l, hc⟩
      · simp only [rtStep] at hc
        split at hc
        · rcases req_running hc with h | ⟨h, _⟩
          · exact h
          · cases h
        · exact hc
      · cases hc
  | choosing u =>
    refine ⟨rfl, Or.inl ?_⟩
    rcases hc with hc | ⟨v, l, hc⟩
    · simp only [rtStep] at hc
      split at hc
      · exact hc
      · split at hc
        · exact hc
        · split at hc <;> exact hc
    · simp only [rtStep] at hc
      split at hc
      · cases hc
      · split at hc
        · cases hc
        · split at hc <;> cases hc
  | starting u l =>
    cases l with
    | nil => exact absurd rfl hi
    | cons d l => cases hl
  | aborting u l =>
    refine ⟨rfl, Or.inl ?_⟩
    cases l with
    | nil => exact absurd rfl hi
    | cons d l =>
      rcases hc with hc | ⟨v, l, hc⟩
      · rcases req_running hc with h | ⟨h, _⟩
        · exact h
        · cases h
      · cases hc
  | waiting u l =>
    refine ⟨rfl, Or.inl ?_⟩
    cases l with
    | nil => exact absurd rfl hi
    | cons d l =>
      rcases hc with hc | ⟨v, l, hc⟩
      · rcases req_running hc with h | ⟨h, _⟩
        · exact h
        · cases h
      · cases hc
  | asap u n l =>
    cases l with
    | nil =>
      exfalso; apply hi
      simp only [rtStep]; split <;> rfl
    | cons d l => cases hl

/-- The step of a pending update. -/
theorem pending_step {s : St} {u u' : Args} {a : Mgr} (h : Pending s u a) (hr : s.rt ≠ .idle)
    (hk : (rtStep s u').m.params.doSwitch = true ∧ (rtStep s u').m.svc = s.m.svc ∧
      (rtStep s u').m.used = s.m.used ∧ (rtStep s u').m.current = s.m.current ∧
      (rtStep s u').m.cur = s.m.cur) :
    Pending (rtStep s u') u a := by
  obtain ⟨k1, k2, k3, k4, k5⟩ := hk
  obtain ⟨r, hs⟩ := h.same
  refine ⟨k1, h.doSwitch', h.svc.trans k2.symm, by rw [k3, k4]; exact h.used, ?_,
    h.cur.trans k5.symm, r, ?_⟩
  · intro hi hl c hc
    obtain ⟨g1, g2⟩ := early_step s u' hr hi hl c hc
    exact h.early hr g1 c g2
  rw [complete_step s u' hr]; exact hs

theorem pending_keep {s : St} {u u' : Args} {a : Mgr} (h : Pending s u a) (hr : s.rt ≠ .idle)
    (hk : Keep s.m (rtStep s u').m) : Pending (rtStep s u') u a :=
  pending_step h hr ⟨by rw [hk.params]; exact h.doSwitch, hk.svc, hk.used, hk.current, hk.cur⟩

theorem pending_end {s : St} {u u' : Args} {a : Mgr} (h : Pending s u a) (hr : s.rt ≠ .idle)
    (hi : (rtStep s u').rt = .idle) :
    ∃ reset, Same [] (rtStep s u').m (a.update u.time reset u.hw) := by
  obtain ⟨r, hs⟩ := h.same
  refine ⟨r, ?_⟩
  have := complete_step s u' hr
  rw [hi] at this
  rw [show (rtStep s u').m = complete (rtStep s u').m .idle from rfl, this]
  exact hs

/-- The whole of an update is an update. -/
theorem complete_read (m : Mgr) (u : Args) :
    complete m (.read u m.current) = m.update u.time u.reset u.hw := by
  have hl : usedList { m with used := some m.current } = m.cur := usedList_of_current rfl
  cases hre : u.reset
  · simp only [complete, update, hre, Bool.false_eq_true, if_false, hl]; rfl
  · simp only [complete, update, hre, if_true, hl]
    have hk : Keep ({ m with used := some m.current } : Mgr)
        (m.cur.foldl (fun m s => if m.isRunning s.c then (m.req .stop s.c).req .start s.c else m)
          { m with used := some m.current }) := by
      apply keep_foldl
      intro m s
      split
      · exact (keep_req _ _ _).trans (keep_req _ _ _)
      · exact Keep.refl _
    have hl' := usedList_of_current (m := m.cur.foldl (fun m s => if m.isRunning s.c then (m.req .stop s.c).req .start s.c else m)
          { m with used := some m.current }) (by rw [hk.used, hk.current])
    rw [hl', hk.cur.symm]
    rfl

/-- A step of the realtime thread: `a` does nothing or one update. -/
theorem rel_rt {P} {s : St} {a : Mgr} (i : Inv P a) (h : Rel s a) (u' : Args) :
    Rel (rtStep s u') a ∨ ∃ t r hw, Rel (rtStep s u') (a.update t r hw) := by
  obtain ⟨m, rt⟩ := s
  cases rt with
  | idle => left; exact Or.inl ⟨rfl, h⟩
  | read u r =>
    rcases h with ⟨hr, h⟩ | ⟨hr, hused, hrel, hd, h⟩
    · simp only at hr h
      subst hr
      have hl : usedList { m with used := some m.current } = m.cur := usedList_of_current rfl
      cases hd : m.params.doSwitch
      · right
        refine ⟨u.time, u.reset, u.hw, ?_⟩
        have hda : a.params.doSwitch = false := by rw [(same_dec h).1]; exact hd
        have key := same_update_idle h hda u.time u.reset u.hw
        rw [List.nil_append] at key
        have hst := (same_dec h).2.2.2.2.1
        have hcu := (same_dec h).2.2.2.2.2.1
        cases hre : u.reset
        · have : rtStep ⟨m, .read u m.current⟩ u' =
              ⟨{ m with used := some m.current }, .updating u m.cur⟩ := by
            simp only [rtStep, hre, hl]; rfl
          rw [this]
          left
          rw [hre] at key
          refine ⟨?_, fun _ => rfl, key⟩
          intro s hs; simp only; rw [hl]; exact hs
        · have : rtStep ⟨m, .read u m.current⟩ u' =
              ⟨{ m with used := some m.current }, .resetting u m.cur⟩ := by
            simp only [rtStep, hre, hl]; rfl
          rw [this]
          left
          rw [hre] at key
          refine ⟨?_, fun _ => rfl, ?_⟩
          · intro s hs; simp only; rw [hl]; exact hs
          · simp only [driven, hst, hcu, if_true] at key
            exact key
      · left
        have hda : a.params.doSwitch = true := by rw [(same_dec h).1]; exact hd
        have key : Pending (rtStep ⟨m, .read u m.current⟩ u') u a := by
          refine ⟨hd, hda, (same_dec h).2.1, rfl, ?_, (same_dec h).2.2.2.2.2.1, u.reset, ?_⟩
          · intro _ _ c hc
            rw [(same_dec h).2.2.2.2.1]
            rcases hc with hc | ⟨v, l, hc⟩
            · exact hc
            · simp only [rtStep] at hc; split at hc <;> cases hc
          rw [complete_step _ _ (by simp)]
          -- the rest of the update is an update of `m`
          have e := complete_read m u
          show Same [] (complete m (.read u m.current)) _
          rw [e]
          have im := h.inv i
          obtain ⟨es, e1, _⟩ := same_update_switch i h hda u.time u.reset u.hw
          obtain ⟨es', e2, e3⟩ := same_update_switch im (Same.refl m) hd u.time u.reset u.hw
          have hes : es' = es := by
            have h1 := congrArg Mgr.trace e1
            obtain ⟨es2, e4, e5⟩ := same_update_switch i h hda u.time u.reset u.hw
            have h2 := congrArg Mgr.trace (e3 [])
            have h3 := congrArg Mgr.trace (e5 [])
            rw [h2] at h3
            have h4 := congrArg Mgr.trace e4
            rw [h1] at h4
            simp only [withTrace, List.nil_append, List.append_cancel_left_eq] at h3 h4
            rw [h3, h4]
          subst hes
          have hdr : a.drivenEvents u.reset = m.drivenEvents u.reset := by rw [h.eq]; rfl
          refine ⟨?_, ?_, ?_⟩
          · rw [e1, e2]; rfl
          · rw [e1, e2]
            simp only [withTrace, transitions_append, h.trans, hdr, List.append_nil]
          · rw [e1, e2]
            simp only [withTrace, answers_append, h.ans, hdr]
        cases hre : u.reset
        · have : rtStep ⟨m, .read u m.current⟩ u' =
              ⟨{ m with used := some m.current }, .updating u m.cur⟩ := by
            simp only [rtStep, hre, hl]; rfl
          rw [this] at key ⊢
          exact Or.inr key
        · have : rtStep ⟨m, .read u m.current⟩ u' =
              ⟨{ m with used := some m.current }, .resetting u m.cur⟩ := by
            simp only [rtStep, hre, hl]; rfl
          rw [this] at key ⊢
          exact Or.inr key
    · left
      simp only at hr hused hrel hd h
      have em : ({ m with used := some r } : Mgr) = m := by rw [← hused]
      have hl : usedList m = m.oth := by simp [usedList, hused, list, hr]
      cases hre : u.reset
      · have : rtStep ⟨m, .read u r⟩ u' = ⟨m, .updating u m.oth⟩ := by
          simp only [rtStep, hre, em, hl]; rfl
        rw [this]
        left
        rw [hre] at h
        exact ⟨fun s hs => by simp only; rw [hl]; exact hs, fun h => by (rw [hd] at h; exact absurd h (by simp)), h⟩
      · have : rtStep ⟨m, .read u r⟩ u' = ⟨m, .resetting u m.oth⟩ := by
          simp only [rtStep, hre, em, hl]; rfl
        rw [this]
        left
        rw [hre] at h
        exact ⟨fun s hs => by simp only; rw [hl]; exact hs, fun h => by (rw [hd] at h; exact absurd h (by simp)), h⟩
  | resetting u l =>
    left
    rcases h with h | h
    · cases l with
      | nil => exact Or.inl ⟨fun s hs => hs, h.switch, h.same⟩
      | cons c l =>
        have hal := alive_used (h.todo c (by simp))
        simp only at hal
        by_cases hr : m.isRunning c.c = true
        · have hrun : m.state c.c = .running := isRunning_iff.1 hr
          have e : rtStep ⟨m, .resetting u (c :: l)⟩ u' = ⟨m.req .stop c.c, .restarting u c.c l⟩ := by
            simp [rtStep, hr]
          rw [e, req_oneShot oneShot_stop hal (by simp [hrun])]
          left
          have hres : restored (m.upd (fun x => if x = c.c then .stopped else m.state x)
              [.cb c.c .stopping]) c.c = m.withTrace (m.trace ++ [.cb c.c .stopping]) := by
            unfold restored
            simp only [upd, withTrace]
            congr 1
            funext x
            by_cases hx : x = c.c
            · subst hx; simp [hrun]
            · simp [hx]
          refine ⟨by simp, ⟨c, h.todo c (by simp), rfl⟩, ?_⟩
          simp only
          rw [hres]
          refine ⟨fun s hs => h.todo s (by simp [hs]), h.switch, ?_⟩
          apply h.same.emit
          · have : restarts m.state (c :: l) =
                .cb c.c .stopping :: .cb c.c .starting :: restarts m.state l := by
              simp [restarts, hrun, CState.isRunning]
            simp only
            rw [this]; rfl
          · rfl
        · have e : rtStep ⟨m, .resetting u (c :: l)⟩ u' = ⟨m, .resetting u l⟩ := by
            simp [rtStep, hr]
          rw [e]
          left
          refine ⟨fun s hs => h.todo s (by simp [hs]), h.switch, ?_⟩
          have : restarts m.state (c :: l) = restarts m.state l := by
            have hr' : (m.state c.c).isRunning = false := by simpa [isRunning] using hr
            simp [restarts, hr']
          simp only
          rw [← this]; exact h.same
    · cases l with
      | nil => exact Or.inr (pending_keep (u' := u') h (by simp) (Keep.refl _))
      | cons c l =>
        by_cases hr : m.isRunning c.c = true
        · have e : rtStep ⟨m, .resetting u (c :: l)⟩ u' = ⟨m.req .stop c.c, .restarting u c.c l⟩ := by
            simp [rtStep, hr]
          have := pending_keep (u' := u') h (by simp) (by rw [e]; exact keep_req _ _ _)
          rw [e] at this ⊢
          exact Or.inr this
        · have e : rtStep ⟨m, .resetting u (c :: l)⟩ u' = ⟨m, .resetting u l⟩ := by
            simp [rtStep, hr]
          have := pending_keep (u' := u') h (by simp) (by rw [e]; exact Keep.refl _)
          rw [e] at this ⊢
          exact Or.inr this
  | restarting u c l =>
    left
    rcases h with ⟨hst, ⟨t, ht, rfl⟩, h⟩ | h
    · simp only at hst ht h
      have e : rtStep ⟨m, .restarting u t.c l⟩ u' = ⟨m.req .start t.c, .resetting u l⟩ := rfl
      rw [e, req_oneShot oneShot_start (alive_used ht) (by simp [hst])]
      left
      have hres : m.upd (fun x => if x = t.c then .running else m.state x) [.cb t.c .starting] =
          (restored m t.c).withTrace ((restored m t.c).trace ++ [.cb t.c .starting]) := rfl
      simp only
      rw [hres]
      refine ⟨h.todo, h.switch, ?_⟩
      exact h.same.emit rfl rfl
    · exact Or.inr (pending_keep (u' := u') h (by simp) (keep_req _ _ _))
  | updating u l =>
    left
    rcases h with h | h
    · cases l with
      | nil => exact Or.inl ⟨by simp, h.switch, h.same⟩
      | cons c l =>
        have hal := alive_used (h.todo c (by simp))
        simp only at hal
        have e : rtStep ⟨m, .updating u (c :: l)⟩ u' = ⟨m.req .update c.c, .updating u l⟩ := rfl
        have hf := foldl_update [c] m (by simpa using hal)
        simp only [List.foldl_cons, List.foldl_nil] at hf
        rw [e, hf]
        left
        refine ⟨fun s hs => h.todo s (by simp [hs]), h.switch, ?_⟩
        apply h.same.emit
        · rw [transitions_updates]; rfl
        · exact answers_updates _ _
    · cases l with
      | nil => exact Or.inr (pending_keep (u' := u') h (by simp) (Keep.refl _))
      | cons c l => exact Or.inr (pending_keep (u' := u') h (by simp) (keep_req _ _ _))
  | looking u =>
    by_cases hd : m.params.doSwitch = true
    · -- the update does the switch
      have hp : Pending ⟨m, .looking u⟩ u a := by
        rcases h with h | h
        · have hs := same_dec h.same
          have hda : a.params.doSwitch = true := by rw [hs.1]; exact hd
          refine ⟨hd, hda, hs.2.1, h.switch hd, ?_, hs.2.2.2.2.2.1, false, ?_⟩
          · intro _ _ c hc
            rw [hs.2.2.2.2.1]
            rcases hc with hc | ⟨v, l, hc⟩
            · exact hc
            · cases hc
          have e : complete m (.looking u) = m.manageSwitch u.time u.hw := if_pos hd
          show Same [] (complete m (.looking u)) _
          rw [e]
          have em : ({ m with used := some m.current } : Mgr) = m := by
            have := h.switch hd
            simp only at this
            rw [← this]
          obtain ⟨es, e1, e2⟩ := same_update_switch i h.same hda u.time false u.hw
          simp only [em] at e1 e2
          have e3 := e2 m.trace
          rw [withTrace_self] at e3
          have ht := h.same.trans
          have hans := h.same.ans
          refine ⟨?_, ?_, ?_⟩
          · rw [e1]; rfl
          · rw [e1]
            have e4 := congrArg Mgr.trace e3
            simp only [withTrace] at e4 ⊢
            rw [e4]
            simp only [transitions_append, ht, transitions_driven, driven]
            simp
          · rw [e1]
            have e4 := congrArg Mgr.trace e3
            simp only [withTrace] at e4 ⊢
            rw [e4]
            simp only [answers_append, hans, answers_driven]
            simp
        · exact h
      left
      have e : rtStep ⟨m, .looking u⟩ u' =
          (let m := if !m.params.started then
              { m.emit [.doSwitch m.swStart m.swStop] with params := { m.params with started := true } }
            else m
           { m := m, rt := .stopping u m.stopReq }) := if_pos hd
      have := pending_step (u' := u') hp (by simp) (by
        rw [e]
        simp only
        split
        · exact ⟨hd, rfl, rfl, rfl, rfl⟩
        · exact ⟨hd, rfl, rfl, rfl, rfl⟩)
      rw [e] at this ⊢
      exact this
    · have e : rtStep ⟨m, .looking u⟩ u' = ⟨m, .idle⟩ := if_neg hd
      rcases h with h | h
      · left; rw [e]; exact h.same
      · exact absurd h.doSwitch hd
  | stopping u l =>
    left
    cases l with
    | nil => exact pending_keep (u' := u') h (by simp) (Keep.refl _)
    | cons c l =>
      refine pending_keep (u' := u') h (by simp) ?_
      show Keep m (if m.isRunning c then m.req .stop c else m)
      split
      · exact keep_req _ _ _
      · exact Keep.refl _
  | choosing u =>
    left
    have hk : (rtStep ⟨m, .choosing u⟩ u').m = m := by
      simp only [rtStep]
      split
      · rfl
      · split
        · rfl
        · split <;> rfl
    have := pending_keep (u' := u') h (by simp) (by rw [hk]; exact Keep.refl _)
    revert this
    simp only [rtStep]
    split
    · exact fun h => h
    · split
      · exact fun h => h
      · split <;> exact fun h => h
  | starting u l =>
    cases l with
    | nil =>
      right
      obtain ⟨r, hs⟩ := pending_end (u' := u') h (by simp) rfl
      exact ⟨_, r, _, hs⟩
    | cons c l => left; exact pending_keep (u' := u') h (by simp) (keep_req _ _ _)
  | aborting u l =>
    cases l with
    | nil =>
      right
      obtain ⟨r, hs⟩ := pending_end (u' := u') h (by simp) rfl
      exact ⟨_, r, _, hs⟩
    | cons c l => left; exact pending_keep (u' := u') h (by simp) (keep_req _ _ _)
  | waiting u l =>
    cases l with
    | nil =>
      right
      obtain ⟨r, hs⟩ := pending_end (u' := u') h (by simp) rfl
      exact ⟨_, r, _, hs⟩
    | cons c l => left; exact pending_keep (u' := u') h (by simp) (keep_req _ _ _)
  | asap u n l =>
    cases l with
    | nil =>
      right
      have hi : (rtStep ⟨m, .asap u n []⟩ u').rt = .idle := by
        simp only [rtStep]; split <;> rfl
      obtain ⟨r, hs⟩ := pending_end (u' := u') h (by simp) hi
      refine ⟨u.time, r, u.hw, ?_⟩
      unfold Rel
      rw [hi]
      exact hs
    | cons c l =>
      left
      refine pending_keep (u' := u') h (by simp) ?_
      show Keep m (if !m.isRunning c then m.cur.foldl (asapEntry n c u.time u.hw) m else m)
      split
      · exact keep_foldl _ (keep_asapEntry n c u.time u.hw) _ _
      · exact Keep.refl _

/-! ### A step of the service thread -/

theorem blocked_step {conf : List ControllerInfo → Bool} {m : Mgr} {op : Op} (h : Blocked m op)
    (hop : op.isService = true) (hr : op.rosUp) : m.step conf op = m := by
  cases op with
  | update => simp [Op.isService] at hop
  | load n e => exact if_pos h
  | unload n => exact if_pos h
  | switch r now p => exact if_pos h
  | reload f now p => exact if_pos h
  | poll ok el =>
    obtain ⟨h1, h2⟩ := hr
    rcases h with h | ⟨k, t, h, hd, he⟩
    · simp [Mgr.step, poll, h]
    · have : (decide (el < t + second) || decide (t = 0)) = true := by simpa using he
      simp [Mgr.step, poll, h, h1, h2, hd, this]

theorem blocked_congr {m a : Mgr} {op : Op} (h : Blocked m op) (hs : a.svc = m.svc)
    (hd : a.params.doSwitch = m.params.doSwitch) : Blocked a op := by
  cases op with
  | poll ok el =>
    rcases h with h | ⟨k, t, h, hd', he⟩
    · exact Or.inl (hs.trans h)
    · exact Or.inr ⟨k, t, hs.trans h, hd.trans hd', he⟩
  | update => exact fun e => h (hs.symm.trans e)
  | load => exact fun e => h (hs.symm.trans e)
  | unload => exact fun e => h (hs.symm.trans e)
  | switch => exact fun e => h (hs.symm.trans e)
  | reload => exact fun e => h (hs.symm.trans e)

/-- Nothing happens until the realtime thread has left the former list. -/
theorem releasing_step {conf : List ControllerInfo → Bool} {m : Mgr} {op : Op} {r : Bool}
    (hl : m.ReleasingList) (hf : ∀ f k, m.svc = .releasing f k → f = r) (hu : m.used = some r)
    (hop : op.isService = true) (hr : op.rosUp) : m.step conf op = m := by
  obtain ⟨f, k, hl⟩ := hl
  have := hf f k hl
  subst this
  have hne : m.svc ≠ .idle := by rw [hl]; simp
  cases op with
  | update => simp [Op.isService] at hop
  | load n e => exact if_pos hne
  | unload n => exact if_pos hne
  | switch r now p => exact if_pos hne
  | reload f now p => exact if_pos hne
  | poll ok el =>
    obtain ⟨h1, h2⟩ := hr
    simp [Mgr.step, poll, hl, h1, h2, hu]

/-- The wait loops do not look at controller states. -/
theorem waits_state {conf : List ControllerInfo → Bool} {m : Mgr} (h : waits m) {op : Op}
    (hop : op.isService = true) (hr : op.rosUp) (st : CId → CState) :
    ({ m with state := st } : Mgr).step conf op = { m.step conf op with state := st } := by
  have hne : m.svc ≠ .idle := by
    rcases h with ⟨k, t, h⟩ | ⟨k, t, h⟩ <;> rw [h] <;> simp
  have hc : ∀ op : Op, (∀ o e, op ≠ .poll o e) → op.isService = true →
      ({ m with state := st } : Mgr).step conf op = { m.step conf op with state := st } := by
    intro op hp hs
    have hb : Blocked m op := by
      cases op with
      | poll o e => exact absurd rfl (hp o e)
      | update => exact hne
      | load => exact hne
      | unload => exact hne
      | switch => exact hne
      | reload => exact hne
    have hru : op.rosUp := by
      cases op with
      | poll o e => exact absurd rfl (hp o e)
      | _ => trivial
    rw [blocked_step hb hs hru,
      blocked_step (m := { m with state := st }) (blocked_congr hb rfl rfl) hs hru]
  cases op with
  | update => simp [Op.isService] at hop
  | load n e => exact hc _ (by simp) rfl
  | unload n => exact hc _ (by simp) rfl
  | switch r now p => exact hc _ (by simp) rfl
  | reload f now p => exact hc _ (by simp) rfl
  | poll ok el =>
    obtain ⟨h1, h2⟩ := hr
    rcases h with ⟨k, t, h⟩ | ⟨f, r, h⟩
    · cases hd : m.params.doSwitch
      · cases k <;> simp [Mgr.step, poll, h, h1, hd, finish, emit]
      · cases he : (decide (el < t + second) || decide (t = 0))
        · cases k <;> simp [Mgr.step, poll, h, h1, h2, hd, he, finish, emit]
        · cases k <;> simp [Mgr.step, poll, h, h1, h2, hd, he]
    · by_cases hu : m.used = some f
      · simp [Mgr.step, poll, h, h1, h2, hu]
      · cases r with
        | load n =>
          have hu' : (ok.cond && decide (m.used = some f)) = false := by simp [hu]
          simp only [Mgr.step, poll, h, clearOld, emit, hu', Bool.false_eq_true, if_false]
          rfl
        | unload n k =>
          have hu' : (ok.cond && decide (m.used = some f)) = false := by simp [hu]
          simp only [Mgr.step, poll, h, clearOld, emit, hu', Bool.false_eq_true, if_false]
          cases k <;> rfl

/-- An operation of the service thread while the update in progress counts as done. -/
theorem done_svc {conf : List ControllerInfo → Bool} {m a : Mgr} {l : List CtrlSpec}
    {p : List Event} (i : Inv (fun _ => True) a) (hu : a.used ≠ none) (h : Done m l p a) {op : Op}
    (hop : op.isService = true) (hr : op.rosUp)
    (hc : m.params.doSwitch = true → Blocked m op) :
    Done (m.step conf op) l p (a.step conf op) ∧
      ∀ s ∈ l, (m.step conf op).state s.c = m.state s.c := by
  have im := h.same.inv i
  have out := svcOut_step conf im hop hr
  have him := inv_step (checkOk_true conf) im op hr
  refine ⟨⟨?_, ?_, h.same.svc i hop⟩, ?_⟩
  · intro s hs
    rw [out.usedList]; exact h.todo s hs
  · intro hd
    cases hd0 : m.params.doSwitch
    · obtain ⟨⟨k, t, hs⟩, _⟩ := out.switch hd0 hd
      apply used_current him
      · rw [out.used, ← (same_dec h.same).2.2.1]; exact hu
      · rintro ⟨f, r, e⟩; rw [hs] at e; cases e
    · rw [blocked_step (hc hd0) hop hr]; exact h.switch hd0
  · intro s hs
    apply out.state
    exact im.fresh s (usedList_mem (h.todo s hs))

/-- An operation of the service thread: `a` does it too, possibly after an update. -/
theorem rel_svc {conf : List ControllerInfo → Bool} {s : St} {a : Mgr} (i : Inv (fun _ => True) a)
    (hu : a.used ≠ none) (h : Rel s a) {op : Op} (hop : op.isService = true)
    (hc : Careful s (.svc op)) :
    Rel { s with m := s.m.step conf op } (a.step conf op) ∨
      ∃ t r hw, Rel { s with m := s.m.step conf op } ((a.update t r hw).step conf op) := by
  obtain ⟨hr, hb, hrs⟩ := hc
  obtain ⟨m, rt⟩ := s
  -- a pending update
  have hpend : ∀ u, rt ≠ .idle → Pending ⟨m, rt⟩ u a →
      m.step conf op = m ∧ a.step conf op = a := by
    intro u hrt hp
    have hb' := hb hrt hp.doSwitch
    refine ⟨blocked_step hb' hop hr, blocked_step (blocked_congr hb' hp.svc ?_) hop hr⟩
    rw [hp.doSwitch', hp.doSwitch]
  have hpend' : ∀ u, rt ≠ .idle → Pending ⟨m, rt⟩ u a →
      Pending ⟨m.step conf op, rt⟩ u (a.step conf op) := by
    intro u hrt hp
    obtain ⟨e1, e2⟩ := hpend u hrt hp
    rw [e1, e2]; exact hp
  cases rt with
  | idle => left; exact Same.svc i h hop
  | read u r =>
    rcases h with ⟨hr', h⟩ | ⟨hr', hused, hrel, hd, h⟩
    · simp only at hr' h
      subst hr'
      have im := h.inv i
      have out := svcOut_step conf im hop hr
      by_cases hcur : (m.step conf op).current = m.current
      · left; exact Or.inl ⟨hcur.symm, h.svc i hop⟩
      · right
        have hd : m.params.doSwitch = false := by
          cases hd : m.params.doSwitch
          · rfl
          · exfalso; apply hcur
            rw [blocked_step (hb (by simp) hd) hop hr]
        have hda : a.params.doSwitch = false := by rw [(same_dec h).1]; exact hd
        refine ⟨u.time, u.reset, u.hw, Or.inr ?_⟩
        have hum : m.used ≠ none := by rw [← (same_dec h).2.2.1]; exact hu
        have hfl : ∀ m' : Mgr, SvcOut m m' → m'.current ≠ m.current →
            m.used ≠ some (!m.current) ∧ m'.current = (!m.current) ∧ m'.ReleasingList ∧
              m'.params = m.params ∧ m'.oth = m.cur ∧
              restarts m'.state m.cur = restarts m.state m.cur := by
          intro m' ho hne
          cases ho with
          | quiet _ _ h2 => exact absurd h2 hne
          | loaded n t cl hi h1 =>
            refine ⟨h1, rfl, ⟨_, _, rfl⟩, rfl, rfl, restarts_congr ?_⟩
            intro s hs
            have := im.fresh s (Or.inl hs)
            simp [Mgr.loaded, Nat.ne_of_lt this]
          | unloaded n k hi h1 => exact ⟨h1, rfl, ⟨_, _, rfl⟩, rfl, rfl, rfl⟩
        obtain ⟨f1, f2, f3, f4, f5, f6⟩ := hfl _ out hcur
        have hmu : m.used = some m.current := by
          cases hq : m.used with
          | none => exact absurd hq hum
          | some r =>
            rw [hq] at f1
            cases r <;> cases hcc : m.current <;> simp_all
        have em : ({ m with used := some m.current } : Mgr) = m := by rw [← hmu]
        have key := same_update_idle h hda u.time u.reset u.hw
        rw [em, List.nil_append] at key
        have ia := inv_step (checkOk_true conf) i (.update u.time u.reset u.hw) trivial
        have key2 := key.svc (conf := conf) ia hop
        refine ⟨?_, ?_, f3, ?_, ?_⟩
        · simp only; rw [f2]; cases m.current <;> simp
        · simp only; rw [out.used]; exact hmu
        · simp only; rw [f4]; exact hd
        · have e : driven u.reset a = if u.reset then restarts m.state m.cur else [] := by
            unfold driven
            rw [(same_dec h).2.2.2.2.1, (same_dec h).2.2.2.2.2.1]
          rw [e] at key2
          simp only
          rw [f5, f6]
          exact key2
    · left
      have im := h.inv i
      simp only at hr' hused hrel hd h im
      have hnot : r = !m.current := by
        cases r <;> cases hcc : m.current <;> simp_all
      have e1 : m.step conf op = m :=
        releasing_step hrel (fun f k e => (im.former f k e).trans hnot.symm) hused hop hr
      have hs := same_dec h
      have e2 : a.step conf op = a := by
        refine releasing_step (r := r) ?_ ?_ (hs.2.2.1.trans hused) hop hr
        · obtain ⟨f, k, e⟩ := hrel; exact ⟨f, k, hs.2.1.trans e⟩
        · intro f k e
          exact (im.former f k (hs.2.1.symm.trans e)).trans hnot.symm
      rw [e1, e2]
      exact Or.inr ⟨hr', hused, hrel, hd, h⟩
  | resetting u l =>
    left
    rcases h with h | h
    · left
      obtain ⟨h1, h2⟩ := done_svc (conf := conf) i hu h hop hr (hb (by simp))
      simp only
      rw [restarts_congr h2]
      exact h1
    · exact Or.inr (hpend' u (by simp) h)
  | restarting u c l =>
    left
    rcases h with ⟨hst, ⟨t, ht, rfl⟩, h⟩ | h
    · simp only at hst ht h
      left
      rcases hrs ⟨u, t.c, l, rfl⟩ with hw | hbl
      · simp only at hw
        have hs := waits_state (conf := conf) hw hop hr (fun x => if x = t.c then .running else m.state x)
        have hww : waits (restored m t.c) := hw
        have himr := h.same.inv i
        have out := svcOut_step conf himr hop hr
        have hstate : (m.step conf op).state = m.state := by
          have := waits_state (conf := conf) hw hop hr m.state
          have e : ({ m with state := m.state } : Mgr) = m := rfl
          rw [e] at this
          rw [this]
        have hres : restored (m.step conf op) t.c = (restored m t.c).step conf op := by
          unfold restored
          rw [hs, hstate]
        obtain ⟨h1, h2⟩ := done_svc (conf := conf) i hu h hop hr (hb (by simp))
        have hst' : ((restored m t.c).step conf op).state = (restored m t.c).state := by
          rw [← hres]
          simp only [restored, hstate]
        refine ⟨?_, ?_, ?_⟩
        · simp only; rw [hstate]; exact hst
        · refine ⟨t, ?_, rfl⟩
          have e1 : usedList (restored (m.step conf op) t.c) = usedList (m.step conf op) := rfl
          simp only
          rw [← e1, hres, out.usedList]
          exact ht
        · simp only
          rw [hres, hst']
          exact h1
      · have e1 := blocked_step (conf := conf) hbl hop hr
        simp only at e1
        have hs := same_dec h.same
        have e2 : a.step conf op = a := by
          refine blocked_step (blocked_congr hbl hs.2.1 ?_) hop hr
          rw [hs.1]; rfl
        simp only
        rw [e1, e2]
        exact ⟨hst, ⟨t, ht, rfl⟩, h⟩
    · exact Or.inr (hpend' u (by simp) h)
  | updating u l =>
    left
    rcases h with h | h
    · exact Or.inl (done_svc (conf := conf) i hu h hop hr (hb (by simp))).1
    · exact Or.inr (hpend' u (by simp) h)
  | looking u =>
    left
    rcases h with h | h
    · exact Or.inl (done_svc (conf := conf) i hu h hop hr (hb (by simp))).1
    · exact Or.inr (hpend' u (by simp) h)
  | stopping u l => left; exact hpend' u (by simp) h
  | choosing u => left; exact hpend' u (by simp) h
  | starting u l => left; exact hpend' u (by simp) h
  | aborting u l => left; exact hpend' u (by simp) h
  | waiting u l => left; exact hpend' u (by simp) h
  | asap u n l => left; exact hpend' u (by simp) h

end Inter

end Verif
