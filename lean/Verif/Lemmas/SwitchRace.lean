import Verif.Spec.SwitchRace
import Verif.Lemmas.ManagerInv

/-!
Invariant of the interleaving of `switchController` with `update`.
-/

namespace Verif.Race

open Mgr

/-- Same lists and parameters. -/
structure Same (m m' : Mgr) : Prop where
  cur : m'.cur = m.cur
  start : m'.startReq = m.startReq
  stop : m'.stopReq = m.stopReq
  params : m'.params = m.params

theorem Same.refl (m : Mgr) : Same m m := ⟨rfl, rfl, rfl, rfl⟩

theorem Same.trans {a b c : Mgr} (h : Same a b) (h' : Same b c) : Same a c :=
  ⟨h'.cur.trans h.cur, h'.start.trans h.start, h'.stop.trans h.stop, h'.params.trans h.params⟩

theorem same_req (m : Mgr) (r : Request) (c : CId) : Same m (m.req r c) := by
  unfold req; split <;> exact ⟨rfl, rfl, rfl, rfl⟩

theorem req_other (m : Mgr) (r : Request) {c x : CId} (h : x ≠ c) :
    (m.req r c).state x = m.state x := by
  unfold req; split
  · simp [h]
  · rfl

theorem start_running {m : Mgr} {c x : CId} (h : (m.req .start c).state x = .running) :
    x = c ∨ m.state x = .running := by
  by_cases hx : x = c
  · exact Or.inl hx
  · rw [req_other m _ hx] at h; exact Or.inr h

theorem other_running {m : Mgr} {r : Request} (hr : r = .stop ∨ r = .wait ∨ r = .abort) {c x : CId}
    (h : (m.req r c).state x = .running) : m.state x = .running := by
  by_cases hx : x = c
  · subst hx
    unfold req at h
    split at h
    · simp only [if_true] at h
      rcases hr with rfl | rfl | rfl <;>
        simp only [Request.run, stopRequest, waitRequest, abortRequest] at h <;> split at h <;>
        first | exact h | cases h
    · exact h
  · rwa [req_other m _ hx] at h

theorem alive_of_mem {m : Mgr} {c : CId} (h : c ∈ m.cur.map (·.c)) : m.alive c = true := by
  obtain ⟨s, hs, rfl⟩ := List.mem_map.1 h
  simp only [alive, List.any_eq_true, List.mem_append, decide_eq_true_eq]
  exact ⟨s, Or.inl hs, rfl⟩

theorem stop_stops {m : Mgr} {c : CId} (h : c ∈ m.cur.map (·.c)) :
    (m.req .stop c).state c ≠ .running := by
  unfold req
  rw [if_pos (alive_of_mem h)]
  simp only [if_true, Request.run, stopRequest]
  split
  · simp
  · rename_i hh; simp at hh; simp [hh]

theorem restart_running {m : Mgr} {c : CId} (h : c ∈ m.cur.map (·.c)) (hr : m.state c = .running) :
    ((m.req .stop c).req .start c).state c = .running ∧ (m.req .stop c).state c = .stopped := by
  have ha := alive_of_mem h
  have e : (m.req .stop c).state c = .stopped := by
    unfold req
    rw [if_pos ha]
    simp [Request.run, stopRequest, hr]
  have ha' : (m.req .stop c).alive c = true := alive_of_mem (by rw [(same_req m .stop c).cur]; exact h)
  refine ⟨?_, e⟩
  rw [req, if_pos ha']
  simp [Request.run, startRequest, e]

theorem asapEntry_running {m : Mgr} {n c time hw} {s : CtrlSpec} {x : CId}
    (h : (asapEntry n c time hw m s).state x = .running) : x = c ∨ m.state x = .running := by
  unfold asapEntry at h
  split at h
  · split at h
    · exact start_running h
    · split at h
      · exact Or.inr (other_running (by simp) h)
      · exact Or.inr (other_running (by simp) h)
  · exact Or.inr h

theorem asapEntry_same (n c time hw) (m : Mgr) (s : CtrlSpec) : Same m (asapEntry n c time hw m s) := by
  unfold asapEntry
  split
  · split
    · exact same_req _ _ _
    · split <;> exact same_req _ _ _
  · exact Same.refl m

theorem asapFold (n c time hw) (l : List CtrlSpec) (m : Mgr) :
    Same m (l.foldl (asapEntry n c time hw) m) ∧
    ∀ x, (l.foldl (asapEntry n c time hw) m).state x = .running → x = c ∨ m.state x = .running := by
  induction l generalizing m with
  | nil => exact ⟨Same.refl m, fun _ h => Or.inr h⟩
  | cons s l ih =>
    obtain ⟨h1, h2⟩ := ih (asapEntry n c time hw m s)
    refine ⟨(asapEntry_same n c time hw m s).trans h1, fun x hx => ?_⟩
    rcases h2 x hx with h | h
    · exact Or.inl h
    · exact asapEntry_running h

theorem scan_append (m : Mgr) (strict : Bool) (a b : List CId) (l l' : List CtrlSpec) (acc : Scan) :
    m.scan strict a b (l ++ l') acc =
      if (m.scan strict a b l acc).1 = true then m.scan strict a b l' (m.scan strict a b l acc).2
      else m.scan strict a b l acc := by
  induction l generalizing acc with
  | nil => simp [scan]
  | cons s l ih =>
    simp only [List.cons_append, scan, any_eq_mem]
    by_cases h1 : m.isRunning s.c = true <;> by_cases h2 : s.c ∈ b <;>
      by_cases h3 : s.c ∈ a <;> cases strict <;> simp [h1, h2, h3, ih]

theorem scan_congr (m m' : Mgr) (strict : Bool) (a b : List CId) (l : List CtrlSpec) (acc : Scan)
    (h : ∀ s ∈ l, m'.isRunning s.c = m.isRunning s.c) :
    m'.scan strict a b l acc = m.scan strict a b l acc := by
  induction l generalizing acc with
  | nil => rfl
  | cons s l ih =>
    simp only [scan, h s (by simp)]
    simp only [ih _ (fun t ht => h t (by simp [ht]))]

/-- The controller states with a pending restart completed. -/
def vstate (s : St) : CId → CState :=
  match s.rt with
  | .restarting c _ => fun x => if x = c then .running else s.m.state x
  | _ => s.m.state

/-- The manager with a pending restart completed. -/
def vm (s : St) : Mgr := { s.m with state := vstate s }

/-- The realtime thread is in the part of a switch after the stops. -/
def Rt.late : Rt → Bool
  | .choosing => true
  | .starting _ => true
  | .aborting _ => true
  | .waiting _ => true
  | .asap _ _ => true
  | _ => false

/-- What is left of a loop over the start requests. -/
def Rt.startTodo : Rt → List CId
  | .starting l => l
  | .aborting l => l
  | .waiting l => l
  | .asap _ l => l
  | _ => []

/-- The invariant. -/
structure Inv (P : List ControllerInfo → Prop) (s : St) : Prop where
  free : P (vm s).runningInfos
  quiet : s.at_ ≠ .waiting → s.m.params.doSwitch = false
  busy : s.rt.holds = true ∨ s.rt.late = true → s.m.params.doSwitch = true
  reqs : s.at_ = .idle → s.m.startReq = [] ∧ s.m.stopReq = []
  stop : ∀ c ∈ s.m.stopReq, c ∈ s.m.cur.map (·.c)
  target : s.m.params.doSwitch = true → P (vm s).targetInfos
  scanning : ∀ r now ok todo acc, s.at_ = .scanning r now ok todo acc →
    ∃ pre, s.m.cur = pre ++ todo ∧
      (vm s).scan (isStrict r) s.m.startReq s.m.stopReq pre {} = (true, acc)
  stopping : ∀ todo, s.rt = .stopping todo → ∀ c ∈ s.m.stopReq, s.m.state c = .running → c ∈ todo
  late : s.rt.late = true → ∀ c ∈ s.m.stopReq, s.m.state c = .running → c ∈ s.m.startReq
  todo : ∀ c ∈ s.rt.startTodo, c ∈ s.m.startReq
  resetting : ∀ l, s.rt = .resetting l → ∀ c ∈ l, c.c ∈ s.m.cur.map (·.c)
  restarting : ∀ c l, s.rt = .restarting c l → s.m.state c = .stopped ∧ c ∈ s.m.cur.map (·.c) ∧
    ∀ c ∈ l, c.c ∈ s.m.cur.map (·.c)
  ub : s.ub = false

variable {P : List ControllerInfo → Prop}

theorem vstate_eq {s : St} (h : ∀ c l, s.rt ≠ .restarting c l) : vstate s = s.m.state := by
  unfold vstate
  split
  · rename_i c l e; exact absurd e (h c l)
  · rfl

theorem vstate_cases (s : St) (c : CId) :
    vstate s c = s.m.state c ∨ (vstate s c = .running ∧ ∃ l, s.rt = .restarting c l) := by
  cases e : s.rt with
  | restarting c' l =>
    have : vstate s = fun x => if x = c' then .running else s.m.state x := by simp only [vstate, e]
    rw [this]
    by_cases hx : c = c'
    · subst hx; exact Or.inr ⟨by simp, l, rfl⟩
    · exact Or.inl (by simp [hx])
  | _ => exact Or.inl (by rw [vstate_eq (by rw [e]; simp)])

theorem vstate_running {s : St} {c : CId} (h : s.m.state c = .running) : vstate s c = .running := by
  rcases vstate_cases s c with e | ⟨e, _⟩
  · rw [e, h]
  · exact e

theorem vm_eq {s : St} (h : ∀ c l, s.rt ≠ .restarting c l) : vm s = s.m := by
  rw [vm, vstate_eq h]

theorem runningInfos_congr {m m' : Mgr} (hc : m'.cur = m.cur)
    (h : ∀ x, m'.isRunning x = m.isRunning x) : m'.runningInfos = m.runningInfos := by
  unfold runningInfos; rw [hc]; congr 2; funext s; exact h s.c

theorem targetInfos_congr {m m' : Mgr} (hc : m'.cur = m.cur) (ha : m'.startReq = m.startReq)
    (ho : m'.stopReq = m.stopReq)
    (h : ∀ x, m'.isRunning x = m.isRunning x) : m'.targetInfos = m.targetInfos := by
  unfold targetInfos; rw [hc, ha, ho]; congr 2; funext s; rw [h s.c]

/-- A realtime step outside a switch that keeps the completed states. -/
theorem inv_reset {s s' : St} (h : Inv P s) (hm : Same s.m s'.m)
    (hv : vstate s' = vstate s) (ha : s'.at_ = s.at_) (hu : s'.ub = s.ub)
    (hh : s'.rt.holds = false ∧ s'.rt.late = false)
    (h1 : ∀ l, s'.rt = .resetting l → ∀ c ∈ l, c.c ∈ s.m.cur.map (·.c))
    (h2 : ∀ c l, s'.rt = .restarting c l → s'.m.state c = .stopped ∧ c ∈ s.m.cur.map (·.c) ∧
      ∀ c ∈ l, c.c ∈ s.m.cur.map (·.c)) : Inv P s' := by
  have hr : ∀ x, (vm s').isRunning x = (vm s).isRunning x := by
    intro x; unfold Mgr.isRunning vm; simp only [hv]
  constructor
  · rw [runningInfos_congr (m := vm s) (m' := vm s') hm.cur hr]; exact h.free
  · rw [ha, hm.params]; exact h.quiet
  · rintro (e | e)
    · rw [hh.1] at e; cases e
    · rw [hh.2] at e; cases e
  · rw [ha, hm.start, hm.stop]; exact h.reqs
  · rw [hm.stop, hm.cur]; exact h.stop
  · rw [hm.params, targetInfos_congr (m := vm s) (m' := vm s') hm.cur hm.start hm.stop hr]; exact h.target
  · rw [ha, hm.start, hm.stop, hm.cur]
    intro r now ok todo acc e
    obtain ⟨pre, e1, e2⟩ := h.scanning r now ok todo acc e
    exact ⟨pre, e1, by rw [scan_congr (vm s) (vm s') _ _ _ _ _ (fun t _ => hr t.c)]; exact e2⟩
  · intro todo e
    rw [e] at hh; cases hh.1
  · intro e; rw [hh.2] at e; cases e
  · intro c hc
    cases e : s'.rt <;> rw [e] at hc hh <;> simp [Rt.startTodo, Rt.late] at hc hh
  · rw [hm.cur]; exact h1
  · rw [hm.cur]; exact h2
  · rw [hu]; exact h.ub

/-- A realtime step inside a switch. -/
theorem inv_switching {s s' : St} (hmono : ∀ l l', List.Sublist l' l → P l → P l') (h : Inv P s)
    (hd : s.m.params.doSwitch = true) (hn : ∀ c l, s.rt ≠ .restarting c l)
    (hcur : s'.m.cur = s.m.cur) (hstart : s'.m.startReq = s.m.startReq)
    (hstop : s'.m.stopReq = s.m.stopReq) (ha : s'.at_ = s.at_) (hu : s'.ub = s.ub)
    (hrun : ∀ x, s'.m.state x = .running → (x ∈ s.m.startReq ∧ s.rt.late = true) ∨
      s.m.state x = .running)
    (hb : s'.rt.holds = true ∨ s'.rt.late = true → s'.m.params.doSwitch = true)
    (h1 : ∀ todo, s'.rt = .stopping todo → ∀ c ∈ s.m.stopReq, s'.m.state c = .running → c ∈ todo)
    (h2 : s'.rt.late = true → ∀ c ∈ s.m.stopReq, s'.m.state c = .running → c ∈ s.m.startReq)
    (h3 : ∀ c ∈ s'.rt.startTodo, c ∈ s.m.startReq)
    (h4 : ∀ l, s'.rt ≠ .resetting l) (h5 : ∀ c l, s'.rt ≠ .restarting c l) : Inv P s' := by
  have hw : s.at_ = .waiting := by
    by_contra hw
    rw [h.quiet hw] at hd; cases hd
  have ht := h.target hd
  have hf := h.free
  rw [vm_eq hn] at ht hf
  constructor
  · rw [vm_eq h5]
    by_cases hl : s.rt.late = true
    · unfold runningInfos
      rw [hcur]
      refine infos_mono hmono ?_ ht
      intro c hc hr
      rcases hrun _ (isRunning_iff.1 hr) with e | e
      · simp [e.1]
      · by_cases hs : c.c ∈ s.m.stopReq
        · simp [h.late hl _ hs e]
        · simp [isRunning_iff.2 e, hs]
    · unfold runningInfos
      rw [hcur]
      refine infos_mono hmono ?_ hf
      intro c hc hr
      rcases hrun _ (isRunning_iff.1 hr) with e | e
      · exact absurd e.2 hl
      · exact isRunning_iff.2 e
  · intro hw'; rw [ha] at hw'; exact absurd hw hw'
  · exact hb
  · intro e; rw [ha, hw] at e; cases e
  · rw [hstop, hcur]; exact h.stop
  · intro _
    rw [vm_eq h5]
    unfold targetInfos
    rw [hcur, hstart, hstop]
    refine infos_mono hmono ?_ ht
    intro c hc hr
    simp only [Bool.or_eq_true, Bool.and_eq_true, decide_eq_true_eq, Bool.not_eq_true',
      decide_eq_false_iff_not] at hr ⊢
    rcases hr with ⟨hr, hr'⟩ | hr
    · rcases hrun _ (isRunning_iff.1 hr) with e | e
      · exact Or.inr e.1
      · exact Or.inl ⟨isRunning_iff.2 e, hr'⟩
    · exact Or.inr hr
  · intro r now ok todo acc e; rw [ha, hw] at e; cases e
  · rw [hstop]; exact h1
  · rw [hstop, hstart]; exact h2
  · rw [hstart]; exact h3
  · intro l e; exact absurd e (h4 l)
  · intro c l e; exact absurd e (h5 c l)
  · rw [hu]; exact h.ub

theorem inv_rt (hmono : ∀ l l', List.Sublist l' l → P l → P l') {s : St} (h : Inv P s)
    (reset : Bool) (time : Int) (hw : HwReply) : Inv P (rtStep s reset time hw) := by
  have hrt : ∀ rt, rt = s.rt → Inv P (rtStep s reset time hw) := by
    intro rt e
    cases rt with
    | idle =>
      have hv : vstate s = s.m.state := vstate_eq (by rw [← e]; simp)
      simp only [rtStep, ← e]
      split
      · refine inv_reset h (Same.refl _) ?_ rfl rfl ⟨rfl, rfl⟩ ?_ (by simp)
        · rw [hv]; rfl
        · intro l e'; cases e'; exact fun c hc => List.mem_map_of_mem hc
      · exact inv_reset h (Same.refl _) (by rw [hv]; rfl) rfl rfl ⟨rfl, rfl⟩ (by simp) (by simp)
    | resetting todo =>
      have hv : vstate s = s.m.state := vstate_eq (by rw [← e]; simp)
      have hl := h.resetting todo e.symm
      cases todo with
      | nil =>
        simp only [rtStep, ← e]
        exact inv_reset h (Same.refl _) (by rw [hv]; rfl) rfl rfl ⟨rfl, rfl⟩ (by simp) (by simp)
      | cons c cs =>
        simp only [rtStep, ← e]
        split
        · rename_i hr
          have hr := isRunning_iff.1 hr
          have hc := hl c (by simp)
          obtain ⟨_, k2⟩ := restart_running hc hr
          refine inv_reset h (same_req _ _ _) ?_ rfl rfl ⟨rfl, rfl⟩ (by simp) ?_
          · rw [hv]
            funext x
            show (if x = c.c then CState.running else (s.m.req .stop c.c).state x) = _
            by_cases hx : x = c.c
            · rw [if_pos hx, hx, hr]
            · rw [if_neg hx, req_other _ _ hx]
          · intro c' l e'
            cases e'
            exact ⟨k2, hc, fun d hd => hl d (by simp [hd])⟩
        · refine inv_reset h (Same.refl _) (by rw [hv]; rfl) rfl rfl ⟨rfl, rfl⟩ ?_ (by simp)
          intro l e'; cases e'; exact fun d hd => hl d (by simp [hd])
    | restarting c cs =>
      obtain ⟨k1, k2, k3⟩ := h.restarting c cs e.symm
      simp only [rtStep, ← e]
      refine inv_reset h (same_req _ _ _) ?_ rfl rfl ⟨rfl, rfl⟩ ?_ (by simp)
      · have : vstate s = fun x => if x = c then .running else s.m.state x := by
          simp only [vstate, ← e]
        rw [this]
        funext x
        show (s.m.req .start c).state x = _
        by_cases hx : x = c
        · rw [if_pos hx, hx, req, if_pos (alive_of_mem k2)]
          simp [Request.run, startRequest, k1]
        · rw [if_neg hx, req_other _ _ hx]
      · intro l e'; cases e'; exact k3
    | looking =>
      have hv : vstate s = s.m.state := vstate_eq (by rw [← e]; simp)
      have hn : ∀ c l, s.rt ≠ .restarting c l := by rw [← e]; simp
      simp only [rtStep, ← e]
      split
      · rename_i hd
        have key : ∀ m' : Mgr, m'.cur = s.m.cur → m'.startReq = s.m.startReq →
            m'.stopReq = s.m.stopReq → m'.state = s.m.state → m'.params.doSwitch = true →
            Inv P { s with m := m', rt := .stopping m'.stopReq } := by
          intro m' e1 e2 e3 e4 e5
          refine inv_switching hmono h hd hn e1 e2 e3 rfl rfl ?_ (fun _ => e5) ?_ (by simp [Rt.late])
            (by simp [Rt.startTodo]) (by simp) (by simp)
          · intro x hx; exact Or.inr (by rw [← e4]; exact hx)
          · intro todo e' c hc _; cases e'; rw [e3]; exact hc
        split
        · exact key _ rfl rfl rfl rfl hd
        · exact key _ rfl rfl rfl rfl hd
      · exact inv_reset h (Same.refl _) (by rw [hv]; rfl) rfl rfl ⟨rfl, rfl⟩ (by simp) (by simp)
    | stopping todo =>
      have hn : ∀ c l, s.rt ≠ .restarting c l := by rw [← e]; simp
      have hd := h.busy (by rw [← e]; exact Or.inl rfl)
      have hs := h.stopping todo e.symm
      cases todo with
      | nil =>
        simp only [rtStep, ← e]
        refine inv_switching hmono h hd hn rfl rfl rfl rfl rfl (fun x hx => Or.inr hx) (fun _ => hd)
          (by simp) ?_ (by simp [Rt.startTodo]) (by simp) (by simp)
        intro _ c hc hr
        exact absurd (hs c hc hr) (by simp)
      | cons c cs =>
        simp only [rtStep, ← e]
        split
        · rename_i hr
          have hm := same_req s.m .stop c
          refine inv_switching hmono h hd hn hm.cur hm.start hm.stop rfl rfl
            (fun x hx => Or.inr (other_running (by simp) hx))
            (fun _ => by rw [hm.params]; exact hd) ?_ (by simp [Rt.late]) (by simp [Rt.startTodo])
            (by simp) (by simp)
          intro todo e' d hd' hr'
          cases e'
          have := hs d hd' (other_running (by simp) hr')
          rcases List.mem_cons.1 this with rfl | hm'
          · exact absurd hr' (stop_stops (h.stop _ hd'))
          · exact hm'
        · rename_i hr
          refine inv_switching hmono h hd hn rfl rfl rfl rfl rfl (fun x hx => Or.inr hx)
            (fun _ => hd) ?_ (by simp [Rt.late]) (by simp [Rt.startTodo]) (by simp) (by simp)
          intro todo e' d hd' hr'
          cases e'
          have := hs d hd' hr'
          rcases List.mem_cons.1 this with rfl | hm'
          · exact absurd (isRunning_iff.2 hr') hr
          · exact hm'
    | choosing =>
      have hn : ∀ c l, s.rt ≠ .restarting c l := by rw [← e]; simp
      have hd := h.busy (by rw [← e]; exact Or.inr rfl)
      have hl := h.late (by rw [← e]; rfl)
      simp only [rtStep, ← e]
      split
      · exact inv_switching hmono h hd hn rfl rfl rfl rfl rfl (fun x hx => Or.inr hx) (fun _ => hd)
          (by simp) (fun _ => hl) (fun _ hc => hc) (by simp) (by simp)
      · split
        · exact inv_switching hmono h hd hn rfl rfl rfl rfl rfl (fun x hx => Or.inr hx) (fun _ => hd)
            (by simp) (fun _ => hl) (fun _ hc => hc) (by simp) (by simp)
        · split
          · exact inv_switching hmono h hd hn rfl rfl rfl rfl rfl (fun x hx => Or.inr hx) (fun _ => hd)
              (by simp) (fun _ => hl) (fun _ hc => hc) (by simp) (by simp)
          · exact inv_switching hmono h hd hn rfl rfl rfl rfl rfl (fun x hx => Or.inr hx) (fun _ => hd)
              (by simp) (fun _ => hl) (fun _ hc => hc) (by simp) (by simp)
    | starting todo =>
      have hn : ∀ c l, s.rt ≠ .restarting c l := by rw [← e]; simp
      have hd := h.busy (by rw [← e]; exact Or.inl rfl)
      have hla : s.rt.late = true := by rw [← e]; rfl
      have hl := h.late hla
      have htd := h.todo
      rw [← e] at htd
      cases todo with
      | nil =>
        simp only [rtStep, ← e]
        exact inv_switching hmono h hd hn rfl rfl rfl rfl rfl (fun x hx => Or.inr hx)
          (by simp [Rt.holds, Rt.late]) (by simp) (by simp [Rt.late]) (by simp [Rt.startTodo])
          (by simp) (by simp)
      | cons c cs =>
        simp only [rtStep, ← e]
        have hm := same_req s.m .start c
        have hc : c ∈ s.m.startReq := htd c (by simp [Rt.startTodo])
        refine inv_switching hmono h hd hn hm.cur hm.start hm.stop rfl rfl ?_
          (fun _ => by rw [hm.params]; exact hd) (by simp) ?_
          (fun d hd' => htd d (by simp only [Rt.startTodo] at hd' ⊢; simp [hd'])) (by simp) (by simp)
        · intro x hx
          rcases start_running hx with rfl | hx
          · exact Or.inl ⟨hc, hla⟩
          · exact Or.inr hx
        · intro _ x hx hr
          rcases start_running hr with rfl | hr
          · exact hc
          · exact hl x hx hr
    | aborting todo =>
      have hn : ∀ c l, s.rt ≠ .restarting c l := by rw [← e]; simp
      have hd := h.busy (by rw [← e]; exact Or.inl rfl)
      have hl := h.late (by rw [← e]; rfl)
      have htd := h.todo
      rw [← e] at htd
      cases todo with
      | nil =>
        simp only [rtStep, ← e]
        exact inv_switching hmono h hd hn rfl rfl rfl rfl rfl (fun x hx => Or.inr hx)
          (by simp [Rt.holds, Rt.late]) (by simp) (by simp [Rt.late]) (by simp [Rt.startTodo])
          (by simp) (by simp)
      | cons c cs =>
        simp only [rtStep, ← e]
        have hm := same_req s.m .abort c
        exact inv_switching hmono h hd hn hm.cur hm.start hm.stop rfl rfl
          (fun x hx => Or.inr (other_running (by simp) hx))
          (fun _ => by rw [hm.params]; exact hd) (by simp)
          (fun _ x hx hr => hl x hx (other_running (by simp) hr))
          (fun d hd' => htd d (by simp only [Rt.startTodo] at hd' ⊢; simp [hd'])) (by simp) (by simp)
    | waiting todo =>
      have hn : ∀ c l, s.rt ≠ .restarting c l := by rw [← e]; simp
      have hd := h.busy (by rw [← e]; exact Or.inl rfl)
      have hl := h.late (by rw [← e]; rfl)
      have htd := h.todo
      rw [← e] at htd
      cases todo with
      | nil =>
        simp only [rtStep, ← e]
        exact inv_switching hmono h hd hn rfl rfl rfl rfl rfl (fun x hx => Or.inr hx)
          (by simp [Rt.holds, Rt.late]) (by simp) (by simp [Rt.late]) (by simp [Rt.startTodo])
          (by simp) (by simp)
      | cons c cs =>
        simp only [rtStep, ← e]
        have hm := same_req s.m .wait c
        exact inv_switching hmono h hd hn hm.cur hm.start hm.stop rfl rfl
          (fun x hx => Or.inr (other_running (by simp) hx))
          (fun _ => by rw [hm.params]; exact hd) (by simp)
          (fun _ x hx hr => hl x hx (other_running (by simp) hr))
          (fun d hd' => htd d (by simp only [Rt.startTodo] at hd' ⊢; simp [hd'])) (by simp) (by simp)
    | asap n todo =>
      have hn : ∀ c l, s.rt ≠ .restarting c l := by rw [← e]; simp
      have hd := h.busy (by rw [← e]; exact Or.inl rfl)
      have hla : s.rt.late = true := by rw [← e]; rfl
      have hl := h.late hla
      have htd := h.todo
      rw [← e] at htd
      cases todo with
      | nil =>
        simp only [rtStep, ← e]
        split
        · exact inv_switching hmono h hd hn rfl rfl rfl rfl rfl (fun x hx => Or.inr hx)
            (by simp [Rt.holds, Rt.late]) (by simp) (by simp [Rt.late]) (by simp [Rt.startTodo])
            (by simp) (by simp)
        · exact inv_switching hmono h hd hn rfl rfl rfl rfl rfl (fun x hx => Or.inr hx)
            (by simp [Rt.holds, Rt.late]) (by simp) (by simp [Rt.late]) (by simp [Rt.startTodo])
            (by simp) (by simp)
      | cons c cs =>
        simp only [rtStep, ← e]
        have hc : c ∈ s.m.startReq := htd c (by simp [Rt.startTodo])
        have key : Same s.m (if !s.m.isRunning c then s.m.cur.foldl (asapEntry n c time hw) s.m else s.m) ∧
            ∀ x, (if !s.m.isRunning c then s.m.cur.foldl (asapEntry n c time hw) s.m
              else s.m).state x = .running → x = c ∨ s.m.state x = .running := by
          split
          · exact asapFold n c time hw _ _
          · exact ⟨Same.refl _, fun _ hx => Or.inr hx⟩
        obtain ⟨hm, hx⟩ := key
        refine inv_switching hmono h hd hn hm.cur hm.start hm.stop rfl rfl ?_
          (fun _ => by rw [hm.params]; exact hd) (by simp) ?_
          (fun d hd' => htd d (by simp only [Rt.startTodo] at hd' ⊢; simp [hd'])) (by simp) (by simp)
        · intro x hr
          rcases hx x hr with rfl | hr
          · exact Or.inl ⟨hc, hla⟩
          · exact Or.inr hr
        · intro _ x hx' hr
          rcases hx x hr with rfl | hr
          · exact hc
          · exact hl x hx' hr
  exact hrt s.rt rfl

/-- The realtime thread is outside a switch if none is requested. -/
theorem Inv.outside {s : St} (h : Inv P s) (hd : s.m.params.doSwitch = false) :
    s.rt.holds = false ∧ s.rt.late = false := by
  constructor
  · by_contra hh
    rw [h.busy (Or.inl (by simpa using hh))] at hd; cases hd
  · by_contra hh
    rw [h.busy (Or.inr (by simpa using hh))] at hd; cases hd

/-- A service step with no switch requested before or after it, which keeps the states. -/
theorem inv_service {s s' : St} (h : Inv P s) (hd : s.m.params.doSwitch = false)
    (hd' : s'.m.params.doSwitch = false) (hc : s'.m.cur = s.m.cur) (hst : s'.m.state = s.m.state)
    (hrt : s'.rt = s.rt) (hu : s'.ub = s.ub)
    (h1 : s'.at_ = .idle → s'.m.startReq = [] ∧ s'.m.stopReq = [])
    (h2 : ∀ c ∈ s'.m.stopReq, c ∈ s.m.cur.map (·.c))
    (h3 : ∀ r now ok todo acc, s'.at_ = .scanning r now ok todo acc →
      ∃ pre, s.m.cur = pre ++ todo ∧
        (vm s').scan (isStrict r) s'.m.startReq s'.m.stopReq pre {} = (true, acc)) : Inv P s' := by
  obtain ⟨k1, k2⟩ := h.outside hd
  have hv : vstate s' = vstate s := by unfold vstate; rw [hrt, hst]
  have hr : ∀ x, (vm s').isRunning x = (vm s).isRunning x := by
    intro x; unfold Mgr.isRunning vm; simp only [hv]
  constructor
  · rw [runningInfos_congr (m := vm s) (m' := vm s') hc hr]; exact h.free
  · exact fun _ => hd'
  · rw [hrt, k1, k2]; simp
  · exact h1
  · rw [hc]; exact h2
  · rw [hd']; simp
  · rw [hc]; exact h3
  · intro todo e; rw [hrt] at e; rw [e] at k1; cases k1
  · rw [hrt, k2]; simp
  · intro c hc'
    rw [hrt] at hc'
    cases e : s.rt <;> rw [e] at hc' k2 <;> simp [Rt.startTodo, Rt.late] at hc' k2
  · rw [hrt, hc]; exact h.resetting
  · rw [hrt, hc, hst]; exact h.restarting
  · rw [hu]; exact h.ub

theorem touch_ub {s : St} (h : s.rt.holds = false) : (touch s).ub = s.ub := by
  simp [touch, h]

theorem inv_refuse {s : St} (h : Inv P s) (hd : s.m.params.doSwitch = false) : Inv P (refuse s) :=
  inv_service h hd hd rfl rfl rfl (touch_ub (h.outside hd).1) (fun _ => ⟨rfl, rfl⟩)
    (by simp [refuse, Mgr.refuse, emit]) (by simp [refuse])

theorem inv_call {s : St} (h : Inv P s) (r : SwitchReq) (now : Int) (prepOk : Bool) :
    Inv P (callStep s r now prepOk) := by
  unfold callStep
  split
  swap
  · exact h
  rename_i hi
  have hd := h.quiet (by rw [hi]; simp)
  obtain ⟨q1, q2⟩ := h.reqs hi
  have hp : Inv P { s with m := { s.m with params := {} } } :=
    inv_service h hd rfl rfl rfl rfl rfl h.reqs h.stop (by rw [hi]; simp)
  have e0 : ∀ ns, resolve { s.m with params := {} } (isStrict r) ns s.m.stopReq =
      if isStrict r = true ∧ ∃ n ∈ ns, s.m.getControllerByName n = none then none
      else some (ns.filterMap s.m.getControllerByName) := by
    intro ns; rw [resolve_eq, q2, List.nil_append]; rfl
  simp only
  split
  · exact inv_refuse hp rfl
  · rename_i stopReq hs
    split
    · exact inv_refuse hp rfl
    · rename_i startReq hs'
      refine inv_service h hd rfl rfl rfl rfl (touch_ub (h.outside hd).1) (by simp) ?_ ?_
      · intro c hc
        rw [e0] at hs
        split at hs
        · cases hs
        · cases hs
          exact resolved_loaded (m := s.m) hc
      · intro r' now' ok' todo acc e
        cases e
        exact ⟨[], rfl, rfl⟩

theorem no_mid {s : St} (hcare : careful s .svc = true) (hv : s.at_.validating = true) :
    ∀ c l, s.rt ≠ .restarting c l := by
  intro c l e
  simp [careful, hv, e, Rt.midRestart] at hcare

theorem inv_svc {conf} (hc : CheckOk conf P) {s : St} (h : Inv P s) (hcare : careful s .svc = true) :
    Inv P (svcStep conf s) := by
  unfold svcStep
  split
  · exact h
  · rename_i r now ok c cs acc hat
    have hn := no_mid hcare (by rw [hat]; rfl)
    have hd := h.quiet (by rw [hat]; simp)
    obtain ⟨pre, e1, e2⟩ := h.scanning _ _ _ _ _ hat
    rw [vm_eq hn] at e2
    generalize hsc : s.m.scan (isStrict r) s.m.startReq s.m.stopReq [c] acc = res
    obtain ⟨okk, acc'⟩ := res
    simp only
    split
    · rename_i hok
      refine inv_service h hd hd rfl rfl rfl rfl (by simp) h.stop ?_
      intro r' now' ok' todo acc'' e
      cases e
      refine ⟨pre ++ [c], by rw [e1]; simp, ?_⟩
      have : vm { s with at_ := .scanning r now ok cs acc' } = vm s := rfl
      rw [this, vm_eq hn, scan_append, e2]
      simp only [if_true]
      rw [hsc, hok]
    · exact inv_refuse h hd
  · rename_i r now ok acc hat
    have hn := no_mid hcare (by rw [hat]; rfl)
    have hd := h.quiet (by rw [hat]; simp)
    obtain ⟨k1, k2⟩ := h.outside hd
    obtain ⟨pre, e1, e2⟩ := h.scanning _ _ _ _ _ hat
    rw [vm_eq hn] at e2
    split
    · exact inv_refuse h hd
    · rename_i hg
      have hg1 : conf acc.infos = false := by
        simp only [Bool.or_eq_true, not_or, Bool.not_eq_true] at hg; exact hg.1
      rw [List.append_nil] at e1
      rw [← e1] at e2
      have hbad : ∀ t ∈ s.m.cur, ¬ s.m.badEntry (isStrict r) s.m.startReq s.m.stopReq t := by
        intro t ht hb
        have := scan_refuse s.m (isStrict r) s.m.startReq s.m.stopReq s.m.cur {} ⟨t, ht, hb⟩
        rw [e2] at this; cases this
      have he := scan_ok s.m (isStrict r) s.m.startReq s.m.stopReq s.m.cur {} hbad
      rw [e2] at he
      have hinf : acc.infos = s.m.targetInfos := by
        have : acc = _ := congrArg Prod.snd he
        rw [this]
        simp [Scan.append, scanLists, targetInfos]
      have hf := h.free
      constructor
      · exact hf
      · simp
      · simp
      · simp
      · exact h.stop
      · intro _
        have : P (vm s).targetInfos := by rw [vm_eq hn, ← hinf]; exact hc.sound _ hg1
        exact this
      · simp
      · intro todo e; have e : s.rt = _ := e; rw [e] at k1; cases k1
      · intro e; have e : s.rt.late = _ := e; rw [k2] at e; cases e
      · exact h.todo
      · exact h.resetting
      · exact h.restarting
      · exact h.ub
  · rename_i hat
    split
    · exact h
    · rename_i hd
      have hd : s.m.params.doSwitch = false := by simpa using hd
      exact inv_service h hd hd rfl rfl rfl (touch_ub (h.outside hd).1) (fun _ => ⟨rfl, rfl⟩)
        (by simp [emit]) (by simp)

theorem inv_step {conf} (hc : CheckOk conf P) {s : St} (h : Inv P s) (op : Op) (hcare : careful s op = true) :
    Inv P (step conf s op) := by
  cases op with
  | rt reset time hw => exact inv_rt hc.mono h reset time hw
  | call r now prepOk => exact inv_call h r now prepOk
  | svc => exact inv_svc hc h hcare
  | giveUp => cases hcare
  | intrude => cases hcare

theorem inv_run {conf} (hc : CheckOk conf P) {s : St} (h : Inv P s) (ops : List Op)
    (hcare : carefulRun conf s ops = true) : Inv P (run conf s ops) := by
  induction ops generalizing s with
  | nil => exact h
  | cons op ops ih =>
    simp only [carefulRun, Bool.and_eq_true] at hcare
    exact ih (inv_step hc h op hcare.1) hcare.2

theorem inv_start {m : Mgr} (h : Mgr.Inv P m) (hi : m.svc = .idle) (hd : m.params.doSwitch = false) :
    Inv P (start m) := by
  have hns : ¬ m.Switching := by rintro ⟨k, t, e⟩; rw [hi] at e; cases e
  have hq := h.reqs hns
  constructor
  · exact h.free
  · exact fun _ => hd
  · rintro (e | e) <;> cases e
  · exact fun _ => hq
  · intro c hc
    have hc : c ∈ m.stopReq := hc
    rw [hq.2] at hc; cases hc
  · intro e; have e : m.params.doSwitch = _ := e; rw [hd] at e; cases e
  · intro _ _ _ _ _ e; cases e
  · intro _ e; cases e
  · intro e; cases e
  · intro _ e; cases e
  · intro _ e; cases e
  · intro _ _ e; cases e
  · rfl

/-- The realtime thread never restarts controllers. -/
theorem no_restart {conf} {s : St} (op : Op) (hp : op.plain)
    (h : (∀ l, s.rt ≠ .resetting l) ∧ ∀ c l, s.rt ≠ .restarting c l) :
    (∀ l, (step conf s op).rt ≠ .resetting l) ∧ ∀ c l, (step conf s op).rt ≠ .restarting c l := by
  cases op with
  | rt reset time hw =>
    have hp : reset = false := hp
    subst hp
    simp only [step]
    unfold rtStep
    split
    all_goals first
      | (rename_i e; exact absurd e (h.1 _))
      | (rename_i e; exact absurd e (h.2 _ _))
      | skip
    all_goals (try split)
    all_goals (try split)
    all_goals (try split)
    all_goals first | (simp; done) | cases ‹false = true›
  | call r now prepOk =>
    have : (step conf s (.call r now prepOk)).rt = s.rt := by
      simp only [step]
      unfold callStep
      split
      · simp only; split
        · rfl
        · split <;> rfl
      · rfl
    rw [this]; exact h
  | svc =>
    have : (step conf s .svc).rt = s.rt := by
      simp only [step]
      unfold svcStep
      split
      · rfl
      · simp only; split <;> rfl
      · split <;> rfl
      · split <;> rfl
    rw [this]; exact h
  | giveUp => exact hp.elim
  | intrude => exact hp.elim

theorem careful_of_plain {conf} {s : St} (ops : List Op) (hp : ∀ op ∈ ops, op.plain)
    (h : (∀ l, s.rt ≠ .resetting l) ∧ ∀ c l, s.rt ≠ .restarting c l) : carefulRun conf s ops = true := by
  induction ops generalizing s with
  | nil => rfl
  | cons op ops ih =>
    have hop := hp op (by simp)
    simp only [carefulRun, Bool.and_eq_true]
    refine ⟨?_, ih (fun o ho => hp o (by simp [ho])) (no_restart op hop h)⟩
    cases op with
    | svc =>
      have : s.rt.midRestart = false := by
        cases e : s.rt with
        | restarting c l => exact absurd e (h.2 c l)
        | _ => rfl
      simp [careful, this]
    | giveUp => exact hop.elim
    | intrude => exact hop.elim
    | _ => rfl

end Verif.Race
