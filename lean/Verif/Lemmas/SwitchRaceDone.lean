import Verif.Lemmas.SwitchRace

/-!
What the realtime thread has done when `switchController` sees the end of the switch.
-/

namespace Verif.Race

open Mgr

/-- Second part of the invariant. -/
structure Inv2 (s : St) : Prop where
  inited : ∀ c ∈ s.m.cur.map (·.c), s.m.state c ≠ .constructed
  start : ∀ c ∈ s.m.startReq, c ∈ s.m.cur.map (·.c)
  starting : ∀ todo, s.rt = .starting todo → ∀ c ∈ s.m.startReq, c ∉ todo → s.m.state c = .running
  aborting : ∀ todo, s.rt = .aborting todo → ∀ c ∈ s.m.startReq, c ∉ todo → s.m.state c = .aborted
  started : s.rt.holds = true ∨ s.rt.late = true → s.m.params.started = true
  done : s.at_ = .waiting → s.m.params.doSwitch = false → s.m.params.started = true ∧
    (∀ c ∈ s.m.startReq, vstate s c = .running ∨ vstate s c = .aborted) ∧
    ∀ c ∈ s.m.stopReq, c ∉ s.m.startReq → vstate s c ≠ .running

theorem req_inited {m : Mgr} (r : Request) (c x : CId) (h : m.state x ≠ .constructed) :
    (m.req r c).state x ≠ .constructed := by
  by_cases hx : x = c
  · subst hx
    unfold req
    split
    · simp only [if_true]
      cases r <;> simp only [Request.run, initRequest, updateRequest, startRequest, stopRequest,
        waitRequest, abortRequest] <;> split <;> simp_all
    · exact h
  · rw [req_other m r hx]; exact h

theorem start_starts {m : Mgr} {c : CId} (h : c ∈ m.cur.map (·.c)) (hi : m.state c ≠ .constructed) :
    (m.req .start c).state c = .running := by
  rw [req, if_pos (alive_of_mem h)]
  simp [Request.run, startRequest, hi]

theorem abort_aborts {m : Mgr} {c : CId} (h : c ∈ m.cur.map (·.c)) (hi : m.state c ≠ .constructed) :
    (m.req .abort c).state c = .aborted := by
  rw [req, if_pos (alive_of_mem h)]
  simp [Request.run, abortRequest, hi]

theorem asapFold_inited (n c time hw) (l : List CtrlSpec) (m : Mgr) (x : CId)
    (h : m.state x ≠ .constructed) : (l.foldl (asapEntry n c time hw) m).state x ≠ .constructed := by
  induction l generalizing m with
  | nil => exact h
  | cons s l ih =>
    refine ih _ ?_
    unfold asapEntry
    split
    · split
      · exact req_inited _ _ _ h
      · split
        · exact req_inited _ _ _ h
        · exact req_inited _ _ _ h
    · exact h

variable {P : List ControllerInfo → Prop}

/-- A step outside the loops of a switch that keeps the completed states. -/
theorem inv2_quiet {s s' : St} (h : Inv2 s) (hm : Same s.m s'.m) (hv : vstate s' = vstate s)
    (hi : ∀ c, s.m.state c ≠ .constructed → s'.m.state c ≠ .constructed)
    (ha : s'.at_ = s.at_) (hh : s'.rt.holds = false ∧ s'.rt.late = false) : Inv2 s' := by
  constructor
  · rw [hm.cur]; exact fun c hc => hi c (h.inited c hc)
  · rw [hm.start, hm.cur]; exact h.start
  · intro todo e; rw [e] at hh; cases hh.1
  · intro todo e; rw [e] at hh; cases hh.1
  · rw [hh.1, hh.2]; simp
  · rw [ha, hm.params, hm.start, hm.stop, hv]; exact h.done

/-- A step inside a switch after which the switch is still requested. -/
theorem inv2_busy {s s' : St} (h : Inv2 s)
    (hcur : s'.m.cur = s.m.cur) (hstart : s'.m.startReq = s.m.startReq)
    (hi : ∀ c, s.m.state c ≠ .constructed → s'.m.state c ≠ .constructed)
    (h1 : ∀ todo, s'.rt = .starting todo → ∀ c ∈ s.m.startReq, c ∉ todo → s'.m.state c = .running)
    (h2 : ∀ todo, s'.rt = .aborting todo → ∀ c ∈ s.m.startReq, c ∉ todo → s'.m.state c = .aborted)
    (h3 : s'.rt.holds = true ∨ s'.rt.late = true → s'.m.params.started = true)
    (hd : s'.m.params.doSwitch = true) : Inv2 s' := by
  constructor
  · rw [hcur]; exact fun c hc => hi c (h.inited c hc)
  · rw [hstart, hcur]; exact h.start
  · rw [hstart]; exact h1
  · rw [hstart]; exact h2
  · exact h3
  · rw [hd]; simp

theorem inv2_rt {s : St} (h1 : Inv P s) (h : Inv2 s) (reset : Bool) (time : Int) (hw : HwReply) :
    Inv2 (rtStep s reset time hw) := by
  have hrt : ∀ rt, rt = s.rt → Inv2 (rtStep s reset time hw) := by
    intro rt e
    cases rt with
    | idle =>
      have hv : vstate s = s.m.state := vstate_eq (by rw [← e]; simp)
      simp only [rtStep, ← e]
      split
      · exact inv2_quiet h (Same.refl _) (by rw [hv]; rfl) (fun _ hc => hc) rfl ⟨rfl, rfl⟩
      · exact inv2_quiet h (Same.refl _) (by rw [hv]; rfl) (fun _ hc => hc) rfl ⟨rfl, rfl⟩
    | resetting todo =>
      have hv : vstate s = s.m.state := vstate_eq (by rw [← e]; simp)
      cases todo with
      | nil =>
        simp only [rtStep, ← e]
        exact inv2_quiet h (Same.refl _) (by rw [hv]; rfl) (fun _ hc => hc) rfl ⟨rfl, rfl⟩
      | cons c cs =>
        simp only [rtStep, ← e]
        split
        · rename_i hr
          have hr := isRunning_iff.1 hr
          refine inv2_quiet h (same_req _ _ _) ?_ (fun x hx => req_inited _ _ _ hx) rfl ⟨rfl, rfl⟩
          rw [hv]
          funext x
          show (if x = c.c then CState.running else (s.m.req .stop c.c).state x) = _
          by_cases hx : x = c.c
          · rw [if_pos hx, hx, hr]
          · rw [if_neg hx, req_other _ _ hx]
        · exact inv2_quiet h (Same.refl _) (by rw [hv]; rfl) (fun _ hc => hc) rfl ⟨rfl, rfl⟩
    | restarting c cs =>
      obtain ⟨k1, k2, k3⟩ := h1.restarting c cs e.symm
      simp only [rtStep, ← e]
      refine inv2_quiet h (same_req _ _ _) ?_ (fun x hx => req_inited _ _ _ hx) rfl ⟨rfl, rfl⟩
      have : vstate s = fun x => if x = c then .running else s.m.state x := by
        simp only [vstate, ← e]
      rw [this]
      funext x
      show (s.m.req .start c).state x = _
      by_cases hx : x = c
      · rw [if_pos hx, hx, start_starts k2 (by rw [k1]; simp)]
      · rw [if_neg hx, req_other _ _ hx]
    | looking =>
      have hv : vstate s = s.m.state := vstate_eq (by rw [← e]; simp)
      simp only [rtStep, ← e]
      split
      · rename_i hd
        split
        · exact inv2_busy h rfl rfl (fun _ hc => hc) (by simp) (by simp) (fun _ => rfl) hd
        · rename_i hs
          exact inv2_busy h rfl rfl (fun _ hc => hc) (by simp) (by simp)
            (fun _ => by simpa using hs) hd
      · exact inv2_quiet h (Same.refl _) (by rw [hv]; rfl) (fun _ hc => hc) rfl ⟨rfl, rfl⟩
    | stopping todo =>
      have hd := h1.busy (by rw [← e]; exact Or.inl rfl)
      have hs := h.started (by rw [← e]; exact Or.inl rfl)
      cases todo with
      | nil =>
        simp only [rtStep, ← e]
        exact inv2_busy h rfl rfl (fun _ hc => hc) (by simp) (by simp) (fun _ => hs) hd
      | cons c cs =>
        simp only [rtStep, ← e]
        have hm := same_req s.m .stop c
        split
        · exact inv2_busy h hm.cur hm.start (fun x hx => req_inited _ _ _ hx) (by simp) (by simp)
            (fun _ => by rw [hm.params]; exact hs) (by rw [hm.params]; exact hd)
        · exact inv2_busy h rfl rfl (fun _ hc => hc) (by simp) (by simp) (fun _ => hs) hd
    | choosing =>
      have hd := h1.busy (by rw [← e]; exact Or.inr rfl)
      have hs := h.started (by rw [← e]; exact Or.inr rfl)
      simp only [rtStep, ← e]
      split
      · exact inv2_busy h rfl rfl (fun _ hc => hc) (by simp) (by simp) (fun _ => hs) hd
      · split
        · refine inv2_busy h rfl rfl (fun _ hc => hc) ?_ (by simp) (fun _ => hs) hd
          intro todo e' c hc hn; cases e'; exact absurd hc hn
        · split
          · refine inv2_busy h rfl rfl (fun _ hc => hc) (by simp) ?_ (fun _ => hs) hd
            intro todo e' c hc hn; cases e'; exact absurd hc hn
          · exact inv2_busy h rfl rfl (fun _ hc => hc) (by simp) (by simp) (fun _ => hs) hd
    | starting todo =>
      have hd := h1.busy (by rw [← e]; exact Or.inl rfl)
      have hs := h.started (by rw [← e]; exact Or.inl rfl)
      have hst := h.starting todo e.symm
      have hl := h1.late (by rw [← e]; rfl)
      cases todo with
      | nil =>
        simp only [rtStep, ← e]
        refine ⟨h.inited, h.start, by simp, by simp, by simp [Rt.holds, Rt.late], ?_⟩
        intro _ _
        exact ⟨hs, fun c hc => Or.inl (hst c hc (by simp)), fun c hc hn hr => hn (hl c hc hr)⟩
      | cons c cs =>
        simp only [rtStep, ← e]
        have hm := same_req s.m .start c
        refine inv2_busy h hm.cur hm.start (fun x hx => req_inited _ _ _ hx) ?_ (by simp)
          (fun _ => by rw [hm.params]; exact hs) (by rw [hm.params]; exact hd)
        intro todo e' d hd' hn
        cases e'
        by_cases hx : d = c
        · subst hx
          exact start_starts (h.start _ hd') (h.inited _ (h.start _ hd'))
        · rw [show ({ s with m := s.m.req .start c, rt := .starting cs } : St).m.state d = _ from
            req_other _ _ hx]
          exact hst d hd' (by simp [hx, hn])
    | aborting todo =>
      have hd := h1.busy (by rw [← e]; exact Or.inl rfl)
      have hs := h.started (by rw [← e]; exact Or.inl rfl)
      have hst := h.aborting todo e.symm
      have hl := h1.late (by rw [← e]; rfl)
      cases todo with
      | nil =>
        simp only [rtStep, ← e]
        refine ⟨h.inited, h.start, by simp, by simp, by simp [Rt.holds, Rt.late], ?_⟩
        intro _ _
        exact ⟨hs, fun c hc => Or.inr (hst c hc (by simp)), fun c hc hn hr => hn (hl c hc hr)⟩
      | cons c cs =>
        simp only [rtStep, ← e]
        have hm := same_req s.m .abort c
        refine inv2_busy h hm.cur hm.start (fun x hx => req_inited _ _ _ hx) (by simp) ?_
          (fun _ => by rw [hm.params]; exact hs) (by rw [hm.params]; exact hd)
        intro todo e' d hd' hn
        cases e'
        by_cases hx : d = c
        · subst hx
          exact abort_aborts (h.start _ hd') (h.inited _ (h.start _ hd'))
        · rw [show ({ s with m := s.m.req .abort c, rt := .aborting cs } : St).m.state d = _ from
            req_other _ _ hx]
          exact hst d hd' (by simp [hx, hn])
    | waiting todo =>
      have hd := h1.busy (by rw [← e]; exact Or.inl rfl)
      have hs := h.started (by rw [← e]; exact Or.inl rfl)
      cases todo with
      | nil =>
        simp only [rtStep, ← e]
        exact inv2_busy h rfl rfl (fun _ hc => hc) (by simp) (by simp) (fun _ => hs) hd
      | cons c cs =>
        simp only [rtStep, ← e]
        have hm := same_req s.m .wait c
        exact inv2_busy h hm.cur hm.start (fun x hx => req_inited _ _ _ hx) (by simp) (by simp)
          (fun _ => by rw [hm.params]; exact hs) (by rw [hm.params]; exact hd)
    | asap n todo =>
      have hd := h1.busy (by rw [← e]; exact Or.inl rfl)
      have hs := h.started (by rw [← e]; exact Or.inl rfl)
      have hl := h1.late (by rw [← e]; rfl)
      cases todo with
      | nil =>
        simp only [rtStep, ← e]
        split
        · rename_i hall
          refine ⟨h.inited, h.start, by simp, by simp, by simp [Rt.holds, Rt.late], ?_⟩
          intro _ _
          refine ⟨hs, fun c hc => ?_, fun c hc hn hr => hn (hl c hc hr)⟩
          have := List.all_eq_true.1 hall c hc
          have this : s.m.state c = .running ∨ s.m.state c = .aborted := by
            simpa [CState.isRunning, CState.isAborted] using this
          exact this
        · exact inv2_busy h rfl rfl (fun _ hc => hc) (by simp) (by simp) (fun _ => hs) hd
      | cons c cs =>
        simp only [rtStep, ← e]
        have key : Same s.m (if !s.m.isRunning c then s.m.cur.foldl (asapEntry n c time hw) s.m else s.m) ∧
            ∀ x, s.m.state x ≠ .constructed →
              (if !s.m.isRunning c then s.m.cur.foldl (asapEntry n c time hw) s.m
              else s.m).state x ≠ .constructed := by
          split
          · exact ⟨(asapFold n c time hw _ _).1, fun x hx => asapFold_inited n c time hw _ _ x hx⟩
          · exact ⟨Same.refl _, fun _ hx => hx⟩
        obtain ⟨hm, hx⟩ := key
        exact inv2_busy h hm.cur hm.start hx (by simp) (by simp)
          (fun _ => by rw [hm.params]; exact hs) (by rw [hm.params]; exact hd)
  exact hrt s.rt rfl

/-- A service step with no switch requested before it. -/
theorem inv2_service {s s' : St} (h1 : Inv P s) (h : Inv2 s) (hd : s.m.params.doSwitch = false)
    (hc : s'.m.cur = s.m.cur) (hst : s'.m.state = s.m.state) (hrt : s'.rt = s.rt)
    (hs : ∀ c ∈ s'.m.startReq, c ∈ s.m.cur.map (·.c))
    (hw : s'.at_ = .waiting → s'.m.params.doSwitch = true) : Inv2 s' := by
  obtain ⟨k1, k2⟩ := h1.outside hd
  constructor
  · rw [hc, hst]; exact h.inited
  · rw [hc]; exact hs
  · intro todo e; rw [hrt] at e; rw [e] at k1; cases k1
  · intro todo e; rw [hrt] at e; rw [e] at k1; cases k1
  · rw [hrt, k1, k2]; simp
  · intro e e'; rw [hw e] at e'; cases e'

theorem inv2_call {s : St} (h1 : Inv P s) (h : Inv2 s) (r : SwitchReq) (now : Int) (prepOk : Bool) :
    Inv2 (callStep s r now prepOk) := by
  unfold callStep
  split
  swap
  · exact h
  rename_i hi
  have hd := h1.quiet (by rw [hi]; simp)
  obtain ⟨q1, q2⟩ := h1.reqs hi
  have e0 : ∀ ns, resolve { s.m with params := {} } (isStrict r) ns s.m.startReq =
      if isStrict r = true ∧ ∃ n ∈ ns, s.m.getControllerByName n = none then none
      else some (ns.filterMap s.m.getControllerByName) := by
    intro ns; rw [resolve_eq, q1, List.nil_append]; rfl
  simp only
  split
  · exact inv2_service h1 h hd rfl rfl rfl (by simp [refuse, Mgr.refuse, emit]) (by simp [refuse])
  · split
    · exact inv2_service h1 h hd rfl rfl rfl (by simp [refuse, Mgr.refuse, emit]) (by simp [refuse])
    · rename_i startReq hs'
      refine inv2_service h1 h hd rfl rfl rfl ?_ (by simp)
      intro c hc
      rw [e0] at hs'
      split at hs'
      · cases hs'
      · cases hs'
        exact resolved_loaded (m := s.m) hc

theorem inv2_svc {conf} {s : St} (h1 : Inv P s) (h : Inv2 s) : Inv2 (svcStep conf s) := by
  unfold svcStep
  split
  · exact h
  · rename_i r now ok c cs acc hat
    have hd := h1.quiet (by rw [hat]; simp)
    simp only
    split
    · exact inv2_service h1 h hd rfl rfl rfl h.start (by simp)
    · exact inv2_service h1 h hd rfl rfl rfl (by simp [refuse, Mgr.refuse, emit]) (by simp [refuse])
  · rename_i r now ok acc hat
    have hd := h1.quiet (by rw [hat]; simp)
    split
    · exact inv2_service h1 h hd rfl rfl rfl (by simp [refuse, Mgr.refuse, emit]) (by simp [refuse])
    · exact inv2_service h1 h hd rfl rfl rfl h.start (by simp)
  · split
    · exact h
    · rename_i hd
      exact inv2_service h1 h (by simpa using hd) rfl rfl rfl (by simp [emit]) (by simp)

theorem inv2_run {conf} (hc : CheckOk conf P) {s : St} (h1 : Inv P s) (h : Inv2 s) (ops : List Op)
    (hcare : carefulRun conf s ops = true) : Inv2 (run conf s ops) := by
  induction ops generalizing s with
  | nil => exact h
  | cons op ops ih =>
    simp only [carefulRun, Bool.and_eq_true] at hcare
    refine ih (inv_step hc h1 op hcare.1) ?_ hcare.2
    cases op with
    | rt reset time hw => exact inv2_rt h1 h reset time hw
    | call r now prepOk => exact inv2_call h1 h r now prepOk
    | svc => exact inv2_svc h1 h
    | giveUp => cases hcare.1
    | intrude => cases hcare.1

theorem inv2_start {m : Mgr} (h : Mgr.Inv P m) (hi : m.svc = .idle) : Inv2 (start m) := by
  have hns : ¬ m.Switching := by rintro ⟨k, t, e⟩; rw [hi] at e; cases e
  have hq := h.reqs hns
  constructor
  · intro c hc
    obtain ⟨s, hs, rfl⟩ := List.mem_map.1 hc
    exact h.inited s (Or.inl hs)
  · intro c hc
    have hc : c ∈ m.startReq := hc
    rw [hq.1] at hc; cases hc
  · intro _ e; cases e
  · intro _ e; cases e
  · rintro (e | e) <;> cases e
  · intro e; cases e

theorem req_noRet {m : Mgr} {r : Request} {c : CId} (h : Event.switchRet true ∈ (m.req r c).trace) : Event.switchRet true ∈ m.trace := by
  unfold req at h
  split at h
  · simpa using h
  · exact h

theorem asap_noRet (n : Nat) (c : CId) (time : Int) (hw : HwReply) : ∀ (l : List CtrlSpec) (m : Mgr),
    Event.switchRet true ∈ (l.foldl (asapEntry n c time hw) m).trace → Event.switchRet true ∈ m.trace
  | [], _, h => h
  | s :: l, m, h => by
    have := asap_noRet n c time hw l _ h
    unfold asapEntry at this
    split at this
    · split at this
      · exact req_noRet this
      · split at this <;> exact req_noRet this
    · exact this

theorem rt_noRet (s : St) (reset : Bool) (time : Int) (hw : HwReply) (h : Event.switchRet true ∈ (rtStep s reset time hw).m.trace) :
    Event.switchRet true ∈ s.m.trace := by
  obtain ⟨m, rt, at_, ub⟩ := s
  cases rt with
  | idle => simp only [rtStep] at h; split at h <;> exact h
  | resetting l =>
    cases l with
    | nil => exact h
    | cons c l =>
      simp only [rtStep] at h
      split at h
      · exact req_noRet h
      · exact h
  | restarting c l => exact req_noRet h
  | looking =>
    simp only [rtStep] at h
    split at h
    · dsimp only at h
      split at h
      · simpa [emit] using h
      · exact h
    · exact h
  | stopping l =>
    cases l with
    | nil => exact h
    | cons c l =>
      simp only [rtStep] at h
      split at h
      · exact req_noRet h
      · exact h
  | choosing =>
    simp only [rtStep] at h
    split at h
    · exact h
    · split at h
      · exact h
      · split at h <;> exact h
  | starting l => cases l with
    | nil => exact h
    | cons c l => exact req_noRet h
  | aborting l => cases l with
    | nil => exact h
    | cons c l => exact req_noRet h
  | waiting l => cases l with
    | nil => exact h
    | cons c l => exact req_noRet h
  | asap n l => cases l with
    | nil => simp only [rtStep] at h; split at h <;> exact h
    | cons c l =>
      simp only [rtStep] at h
      split at h
      · exact asap_noRet _ _ _ _ _ _ h
      · exact h

theorem call_noRet (s : St) (r : SwitchReq) (now : Int) (prepOk : Bool) (h : Event.switchRet true ∈ (callStep s r now prepOk).m.trace) :
    Event.switchRet true ∈ s.m.trace := by
  obtain ⟨m, rt, at_, ub⟩ := s
  cases at_ with
  | idle =>
    simp only [callStep] at h
    split at h
    · simpa [refuse, touch, Mgr.refuse, emit] using h
    · split at h
      · simpa [refuse, touch, Mgr.refuse, emit] using h
      · exact h
  | scanning _ _ _ _ _ => exact h
  | waiting => exact h

end Verif.Race
