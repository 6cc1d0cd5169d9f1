import Verif.Spec.Manager
import Verif.Lemmas.ManagerUpdate
import Verif.Lemmas.ManagerService
import Mathlib.Data.List.Induction

/-!
The invariant of the controller manager.
-/

namespace Verif

namespace Mgr

/-- Infos of the running controllers. -/
def runningInfos (m : Mgr) : List ControllerInfo :=
  (m.cur.filter fun s => m.isRunning s.c).map (·.info)

/-- Infos of the controllers that run or may run at the end of the pending switch. -/
def targetInfos (m : Mgr) : List ControllerInfo :=
  (m.cur.filter fun s => (m.isRunning s.c && !decide (s.c ∈ m.stopReq)) ||
    decide (s.c ∈ m.startReq)).map (·.info)

/-- The invariant; `P` is what the conflict check establishes. If callbacks throw exceptions, the field `done` does
not hold; it is conditional on `D`. -/
structure InvD (D : Prop) (P : List ControllerInfo → Prop) (m : Mgr) : Prop where
  names : (m.cur.map (·.info.name)).Nodup
  objs : (m.cur.map (·.c)).Nodup
  fresh : ∀ s, s ∈ m.cur ∨ s ∈ m.oth → s.c < m.nextId
  inited : ∀ s, s ∈ m.cur ∨ s ∈ m.oth → m.state s.c ≠ .constructed
  unborn : ∀ c, m.nextId ≤ c → m.state c = .constructed
  running : ∀ c, m.state c = .running → c ∈ m.cur.map (·.c)
  reqs : ¬ m.Switching → m.startReq = [] ∧ m.stopReq = []
  start : ∀ c ∈ m.startReq, c ∈ m.cur.map (·.c)
  stop : ∀ c ∈ m.stopReq, c ∈ m.cur.map (·.c)
  free : P m.runningInfos
  target : m.params.doSwitch = true → P m.targetInfos
  done : m.Switching → m.params.doSwitch = false → D → m.params.started = true ∧
    (∀ c ∈ m.startReq, m.state c = .running ∨ m.state c = .aborted) ∧
    (∀ c ∈ m.stopReq, c ∉ m.startReq → m.state c ≠ .running)
  used : ¬ m.ReleasingList → m.used ≠ some (!m.current)
  former : ∀ f r, m.svc = .releasing f r → f = !m.current
  old : ¬ m.ReleasingList → ∀ s ∈ m.oth, s ∈ m.cur
  fault : m.fault = false

/-- The invariant of executions without exceptions. -/
abbrev Inv (P : List ControllerInfo → Prop) (m : Mgr) : Prop := InvD True P m

variable {D : Prop}

theorem InvD.sane {P} {m : Mgr} (h : InvD D P m) : Sane m :=
  ⟨h.objs, h.start, h.stop, fun s hs => h.inited s (Or.inl hs)⟩

/-- What is needed of the conflict check. -/
structure CheckOk (conf : List ControllerInfo → Bool) (P : List ControllerInfo → Prop) : Prop where
  sound : ∀ l, conf l = false → P l
  mono : ∀ l l', List.Sublist l' l → P l → P l'
  nil : P []

theorem infos_mono {P : List ControllerInfo → Prop}
    (mono : ∀ l l', List.Sublist l' l → P l → P l') {l : List CtrlSpec} {p q : CtrlSpec → Bool}
    (h : ∀ s ∈ l, p s = true → q s = true) (hq : P ((l.filter q).map (·.info))) :
    P ((l.filter p).map (·.info)) := by
  refine mono _ _ ?_ hq
  apply List.Sublist.map
  have : l.filter p = (l.filter q).filter p := by
    rw [List.filter_filter]
    apply List.filter_congr
    intro s hs
    cases hp : p s
    · simp
    · simp [h s hs hp]
  rw [this]
  exact List.filter_sublist

theorem inv_init {P} (hP : P []) : InvD D P Mgr.init := by
  constructor <;> simp [Mgr.init, runningInfos, targetInfos, hP, Switching]

theorem isRunning_iff {m : Mgr} {c : CId} : m.isRunning c = true ↔ m.state c = .running := by
  simp [isRunning, CState.isRunning]

theorem inv_update {P} (mono : ∀ l l', List.Sublist l' l → P l → P l') {m : Mgr} (h : InvD D P m)
    (time : Int) (reset : Bool) (hw : HwReply) : InvD D P (m.update time reset hw) := by
  cases hd : m.params.doSwitch
  · rw [update_idle m hd]
    exact ⟨h.names, h.objs, h.fresh, h.inited, h.unborn, h.running, h.reqs, h.start, h.stop, h.free,
      h.target, h.done, fun _ => by simp [upd], h.former, h.old, h.fault⟩
  · obtain ⟨st, es, d, _, he, ho⟩ := update_switch m h.sane hd time reset hw
    rw [he]
    -- facts about the new states
    have hout : ∀ x, x ∉ m.startReq → st x = m.stopState x := ho.outside
    have hcon : ∀ x, m.state x ≠ .constructed → st x ≠ .constructed := by
      intro x hx
      by_cases hxs : x ∈ m.startReq
      · rcases ho.inside x hxs with e | e | e <;> simp [e]
      · rw [hout x hxs]; unfold stopState; split
        · simp
        · exact hx
    have hrun : ∀ x, st x = .running → x ∈ m.startReq ∨ (m.state x = .running ∧ x ∉ m.stopReq) := by
      intro x hx
      by_cases hxs : x ∈ m.startReq
      · exact Or.inl hxs
      · right
        rw [hout x hxs] at hx
        unfold stopState at hx
        split at hx
        · cases hx
        · rename_i hn
          exact ⟨hx, fun hs => hn ⟨hs, hx⟩⟩
    have hrunLoaded : ∀ x, st x = .running → x ∈ m.cur.map (·.c) := by
      intro x hx
      rcases hrun x hx with hx | hx
      · exact h.start x hx
      · exact h.running x hx.1
    have ht := h.target hd
    constructor
    · exact h.names
    · exact h.objs
    · exact h.fresh
    · intro s hs; exact hcon _ (h.inited s hs)
    · intro c hc
      have hc' := h.unborn c hc
      have hns : c ∉ m.startReq := by
        intro hcs
        obtain ⟨s, hs, rfl⟩ := List.mem_map.1 (h.start c hcs)
        exact h.inited s (Or.inl hs) hc'
      show st c = _
      rw [hout c hns]; unfold stopState; simp [hc']
    · exact hrunLoaded
    · exact h.reqs
    · exact h.start
    · exact h.stop
    · refine infos_mono mono ?_ ht
      intro s hs hr
      have hr' : st s.c = .running := isRunning_iff.1 hr
      rcases hrun _ hr' with hx | ⟨hx, hx'⟩
      · simp [hx]
      · simp [isRunning_iff.2 hx, hx']
    · intro _
      refine infos_mono mono ?_ ht
      intro s hs hr
      simp only [Bool.or_eq_true, Bool.and_eq_true, decide_eq_true_eq, Bool.not_eq_true',
        decide_eq_false_iff_not] at hr ⊢
      rcases hr with ⟨hr, hr'⟩ | hr
      · rcases hrun _ (isRunning_iff.1 hr) with hx | ⟨hx, hx'⟩
        · exact Or.inr hx
        · exact Or.inl ⟨isRunning_iff.2 hx, hx'⟩
      · exact Or.inr hr
    · intro _ hd' _
      refine ⟨rfl, ho.finished hd', ?_⟩
      intro c hc hns hr
      rcases hrun c hr with hx | hx
      · exact hns hx
      · exact hx.2 hc
    · intro _; simp [upd]
    · exact h.former
    · exact h.old
    · exact h.fault

theorem runningInfos_eq {m m' : Mgr} (hc : m'.cur = m.cur) (hs : m'.state = m.state) :
    m'.runningInfos = m.runningInfos := by
  simp [runningInfos, isRunning, hc, hs]

theorem filter_concat {l : List CtrlSpec} {t : CtrlSpec} {p q : CtrlSpec → Bool}
    (h : ∀ s ∈ l, p s = q s) (ht : p t = false) : (l ++ [t]).filter p = l.filter q := by
  rw [List.filter_append, List.filter_congr h]
  simp [ht]

/-- Recording events and replacing the spare list by a part of the current one. -/
theorem inv_fail {P} {m : Mgr} (h : InvD D P m) (o : List CtrlSpec)
    (ho : ∀ s ∈ o, s ∈ m.cur) (es : List Event) :
    InvD D P { m with oth := o, trace := es } := by
  refine ⟨h.names, h.objs, ?_, ?_, h.unborn, h.running, h.reqs, h.start, h.stop, h.free,
    h.target, h.done, h.used, h.former, fun _ => ho, h.fault⟩
  · rintro s (hs | hs)
    · exact h.fresh s (Or.inl hs)
    · exact h.fresh s (Or.inl (ho s hs))
  · rintro s (hs | hs)
    · exact h.inited s (Or.inl hs)
    · exact h.inited s (Or.inl (ho s hs))

theorem inv_loaded {P} {m : Mgr} (h : InvD D P m) (hns : ¬ m.Switching)
    {name : String} (hname : ∀ s ∈ m.cur, s.info.name ≠ name) (type : String)
    (claimed : List InterfaceResources) : InvD D P (m.loaded name type claimed) := by
  obtain ⟨hq1, hq2⟩ := h.reqs hns
  have hlt : ∀ s ∈ m.cur, s.c ≠ m.nextId := fun s hs => ne_of_lt (h.fresh s (Or.inl hs))
  constructor
  · show ((m.cur ++ [_]).map _).Nodup
    rw [List.map_append, List.nodup_append]
    refine ⟨h.names, by simp, ?_⟩
    intro a ha b hb
    obtain ⟨s, hs, rfl⟩ := List.mem_map.1 ha
    simp only [List.map_cons, List.map_nil, List.mem_singleton] at hb
    subst hb
    exact hname s hs
  · show ((m.cur ++ [_]).map _).Nodup
    rw [List.map_append, List.nodup_append]
    refine ⟨h.objs, by simp, ?_⟩
    intro a ha b hb
    obtain ⟨s, hs, rfl⟩ := List.mem_map.1 ha
    simp only [List.map_cons, List.map_nil, List.mem_singleton] at hb
    subst hb
    exact hlt s hs
  · rintro s (hs | hs)
    · rcases List.mem_append.1 hs with hs | hs
      · exact Nat.lt_succ_of_lt (h.fresh s (Or.inl hs))
      · simp only [List.mem_singleton] at hs
        subst hs; exact Nat.lt_succ_self _
    · exact Nat.lt_succ_of_lt (h.fresh s (Or.inl hs))
  · rintro s hs
    show (if s.c = m.nextId then CState.initialized else m.state s.c) ≠ _
    split
    · simp
    · rename_i hne
      rcases hs with hs | hs
      · rcases List.mem_append.1 hs with hs | hs
        · exact h.inited s (Or.inl hs)
        · simp only [List.mem_singleton] at hs
          subst hs; exact absurd rfl hne
      · exact h.inited s (Or.inl hs)
  · intro c hc
    have hc' : m.nextId + 1 ≤ c := hc
    show (if c = m.nextId then CState.initialized else m.state c) = _
    rw [if_neg (by rintro rfl; exact absurd hc' (Nat.not_succ_le_self _))]
    exact h.unborn c (Nat.le_of_succ_le hc')
  · intro c hc
    have hc' : (if c = m.nextId then CState.initialized else m.state c) = .running := hc
    split at hc'
    · cases hc'
    · have := h.running c hc'
      show c ∈ (m.cur ++ [_]).map _
      rw [List.map_append]
      exact List.mem_append_left _ this
  · intro _; exact ⟨hq1, hq2⟩
  · intro c hc; have hc' : c ∈ m.startReq := hc; simp [hq1] at hc'
  · intro c hc; have hc' : c ∈ m.stopReq := hc; simp [hq2] at hc'
  · have : (m.loaded name type claimed).runningInfos = m.runningInfos := by
      unfold runningInfos
      congr 1
      apply filter_concat
      · intro s hs; simp [isRunning, loaded, hlt s hs]
      · simp [isRunning, loaded, CState.isRunning]
    rw [this]; exact h.free
  · intro hd
    have : (m.loaded name type claimed).targetInfos = m.targetInfos := by
      unfold targetInfos
      congr 1
      apply filter_concat
      · intro s hs
        have e : (m.loaded name type claimed).isRunning s.c = m.isRunning s.c := by
          simp [isRunning, loaded, hlt s hs]
        rw [e]; rfl
      · simp [isRunning, loaded, CState.isRunning, hq1]
    rw [this]; exact h.target hd
  · intro hsw; simp [Switching, loaded] at hsw
  · intro hrl; exact absurd ⟨_, _, rfl⟩ hrl
  · intro f r hf
    simp only [loaded, Svc.releasing.injEq] at hf
    simp [loaded, ← hf.1]
  · intro hrl; exact absurd ⟨_, _, rfl⟩ hrl
  · exact h.fault

theorem inv_load {P} {m : Mgr} (h : InvD D P m)
    (name : String) (env : LoadEnv) : InvD D P (m.load name env) := by
  by_cases hi : m.svc = .idle
  swap
  · simpa [load, hi] using h
  by_cases hu : m.used = some (!m.current)
  · simpa [load, hi, hu] using h
  have hns : ¬ m.Switching := by rintro ⟨k, t, e⟩; rw [hi] at e; cases e
  have hnr : ¬ m.ReleasingList := by rintro ⟨k, t, e⟩; rw [hi] at e; cases e
  rcases load_cases m name env hi hu with ⟨type, i, claimed, h1, _, _, _, _, e⟩ | ⟨_, o, ho, e⟩
  · rw [e]; exact inv_loaded h hns h1 type claimed
  · rw [e]
    refine inv_fail h o ?_ _
    rcases ho with rfl | rfl <;> simp

theorem inv_unloaded {P} (mono : ∀ l l', List.Sublist l' l → P l → P l') {m : Mgr} (h : InvD D P m)
    (hns : ¬ m.Switching) {name : String}
    (hrun : ∀ s ∈ m.cur, s.info.name = name → m.isRunning s.c = false) (k : Kont) :
    InvD D P (m.unloaded name k) := by
  obtain ⟨hq1, hq2⟩ := h.reqs hns
  have hsub : List.Sublist (m.unloaded name k).cur m.cur := List.filter_sublist
  constructor
  · exact h.names.sublist (hsub.map _)
  · exact h.objs.sublist (hsub.map _)
  · rintro s (hs | hs)
    · exact h.fresh s (Or.inl (hsub.subset hs))
    · exact h.fresh s (Or.inl hs)
  · rintro s (hs | hs)
    · exact h.inited s (Or.inl (hsub.subset hs))
    · exact h.inited s (Or.inl hs)
  · exact h.unborn
  · intro c hc
    obtain ⟨s, hs, rfl⟩ := List.mem_map.1 (h.running c hc)
    refine List.mem_map_of_mem (List.mem_filter.2 ⟨hs, ?_⟩)
    simp only [Bool.not_eq_true', decide_eq_false_iff_not]
    intro hn
    have := hrun s hs hn
    rw [(isRunning_iff (m := m)).2 hc] at this; cases this
  · intro _; exact ⟨hq1, hq2⟩
  · intro c hc; have hc' : c ∈ m.startReq := hc; simp [hq1] at hc'
  · intro c hc; have hc' : c ∈ m.stopReq := hc; simp [hq2] at hc'
  · exact mono _ _ ((hsub.filter _).map _) h.free
  · intro hd; exact mono _ _ ((hsub.filter _).map _) (h.target hd)
  · intro hsw; simp [Switching, unloaded] at hsw
  · intro hrl; exact absurd ⟨_, _, rfl⟩ hrl
  · intro f r hf
    simp only [unloaded, Svc.releasing.injEq] at hf
    simp [unloaded, ← hf.1]
  · intro hrl; exact absurd ⟨_, _, rfl⟩ hrl
  · exact h.fault

/-- Moving the service thread to a state in which it waits neither for a switch nor for a list. -/
theorem inv_svc {P} {m : Mgr} (h : InvD D P m) (hnr : ¬ m.ReleasingList) (s : Svc)
    (h1 : ∀ k t, s ≠ .switching k t) (h2 : ∀ f r, s ≠ .releasing f r) (es : List Event) :
    InvD D P { m with startReq := [], stopReq := [], svc := s, trace := es } := by
  have hst : P (m.runningInfos) := h.free
  refine ⟨h.names, h.objs, h.fresh, h.inited, h.unborn, h.running, ?_, ?_, ?_, h.free,
    ?_, ?_, ?_, ?_, ?_, h.fault⟩
  · intro _; exact ⟨rfl, rfl⟩
  · simp
  · simp
  · intro _
    have : targetInfos { m with startReq := [], stopReq := [], svc := s, trace := es } =
        m.runningInfos := by
      simp [targetInfos, runningInfos, isRunning]
    rw [this]; exact h.free
  · rintro ⟨k, t, e⟩; exact absurd e (h1 k t)
  · intro _; exact h.used hnr
  · intro f r e; exact absurd e (h2 f r)
  · intro _; exact h.old hnr

theorem inv_svc' {P} {m : Mgr} (h : InvD D P m) (hnr : ¬ m.ReleasingList) (hns : ¬ m.Switching) (s : Svc)
    (h1 : ∀ k t, s ≠ .switching k t) (h2 : ∀ f r, s ≠ .releasing f r) (es : List Event) :
    InvD D P { m with svc := s, trace := es } := by
  have := inv_svc h hnr s h1 h2 es
  obtain ⟨hq1, hq2⟩ := h.reqs hns
  have e : ({ m with svc := s, trace := es } : Mgr) =
      { m with startReq := [], stopReq := [], svc := s, trace := es } := by
    simp [hq1, hq2]
  rw [e]; exact this

theorem inv_unload {P} (mono : ∀ l l', List.Sublist l' l → P l → P l') {m : Mgr} (h : InvD D P m)
    (name : String) : InvD D P (m.unload name) := by
  unfold unload
  split
  · exact h
  rename_i hi
  have hi : m.svc = .idle := by simpa using hi
  have hns : ¬ m.Switching := by rintro ⟨k, t, e⟩; rw [hi] at e; cases e
  have hnr : ¬ m.ReleasingList := by rintro ⟨k, t, e⟩; rw [hi] at e; cases e
  rcases unloadCore_cases m name .ret id (h.used hnr) with ⟨_, h2, e⟩ | ⟨_, e⟩
  · rw [e]; exact inv_unloaded mono h hns h2 _
  · rw [e]; exact inv_fail h [] (by simp) _

/-- A refused or accepted switch. -/
theorem inv_switchCore {conf P} (hc : CheckOk conf P) {m : Mgr} (h : InvD D P m)
    (hns : ¬ m.Switching) (hnr : ¬ m.ReleasingList) (r : SwitchReq) (now : Int) (prepOk : Bool)
    (k : Kont) : InvD D P (m.switchCore conf r now prepOk k).2 := by
  obtain ⟨hq1, hq2⟩ := h.reqs hns
  by_cases ha : m.okRequest conf r prepOk
  · rw [switchCore_accept conf m r now prepOk k hq1 hq2 ha]
    refine ⟨h.names, h.objs, h.fresh, h.inited, h.unborn, h.running, ?_, ?_, ?_, h.free,
      ?_, ?_, ?_, ?_, ?_, h.fault⟩
    · intro hn; exact absurd ⟨_, _, rfl⟩ hn
    · intro c hc; exact resolved_loaded hc
    · intro c hc; exact resolved_loaded hc
    · intro _; exact hc.sound _ ha.2.2.1
    · intro _ hd; cases hd
    · intro _; exact h.used hnr
    · intro f r e; cases e
    · intro _; exact h.old hnr
  · obtain ⟨a, b, es, e, _⟩ := switchCore_refuse conf m r now prepOk k hq1 hq2 ha
    rw [e]
    refine ⟨h.names, h.objs, h.fresh, h.inited, h.unborn, h.running, h.reqs, h.start, h.stop, h.free,
      ?_, ?_, h.used, h.former, h.old, h.fault⟩
    · intro hd; cases hd
    · intro hs; exact absurd hs hns

theorem switchCore_fst_false {conf} {m : Mgr} {r : SwitchReq} {now : Int} {prepOk : Bool} {k : Kont}
    (hq1 : m.startReq = []) (hq2 : m.stopReq = [])
    (hf : (m.switchCore conf r now prepOk k).1 = false) : ¬ m.okRequest conf r prepOk := by
  intro ha
  rw [switchCore_accept conf m r now prepOk k hq1 hq2 ha] at hf
  cases hf

theorem inv_emit {P} {m : Mgr} (h : InvD D P m) (es : List Event) : InvD D P { m with trace := es } :=
  ⟨h.names, h.objs, h.fresh, h.inited, h.unborn, h.running, h.reqs, h.start, h.stop, h.free,
    h.target, h.done, h.used, h.former, h.old, h.fault⟩

theorem inv_reload {conf P} (hc : CheckOk conf P) {m : Mgr} (h : InvD D P m) (force : Bool) (now : Int)
    (prepOk : Bool) : InvD D P (m.reload conf force now prepOk) := by
  unfold reload
  split
  · exact h
  rename_i hi
  have hi : m.svc = .idle := by simpa using hi
  have hns : ¬ m.Switching := by rintro ⟨k, t, e⟩; rw [hi] at e; cases e
  have hnr : ¬ m.ReleasingList := by rintro ⟨k, t, e⟩; rw [hi] at e; cases e
  simp only
  split
  · exact inv_emit h _
  split
  · have := inv_switchCore hc h hns hnr ⟨[], m.getControllerNames, strictnessBestEffort, false, 0⟩ now
      prepOk (.reload m.getControllerNames)
    split
    · rename_i m' e
      rw [e] at this
      exact inv_emit this _
    · rename_i m' e
      rw [e] at this
      exact this
  · exact inv_emit h _

/-- The old list is released. -/
theorem inv_released {P} {m : Mgr} (h : InvD D P m) (hns : ¬ m.Switching)
    (hu : m.used ≠ some (!m.current)) (s : Svc)
    (h1 : ∀ k t, s ≠ .switching k t) (h2 : ∀ f r, s ≠ .releasing f r) (es : List Event) :
    InvD D P { m with oth := [], svc := s, trace := es } := by
  refine ⟨h.names, h.objs, ?_, ?_, h.unborn, h.running, ?_, h.start, h.stop, h.free,
    h.target, ?_, ?_, ?_, ?_, h.fault⟩
  · rintro s (hs | hs)
    · exact h.fresh s (Or.inl hs)
    · cases hs
  · rintro s (hs | hs)
    · exact h.inited s (Or.inl hs)
    · cases hs
  · intro _; exact h.reqs hns
  · rintro ⟨k, t, e⟩; exact absurd e (h1 k t)
  · intro _; exact hu
  · intro f r e; exact absurd e (h2 f r)
  · intro _ s hs; cases hs

theorem inv_poll {P} (mono : ∀ l l', List.Sublist l' l → P l → P l') {m : Mgr} (h : InvD D P m)
    (ok : RosOk) (hok : ok.cond = true ∧ ok.body = true) (elapsed : Int) :
    InvD D P (m.poll ok elapsed) := by
  unfold poll
  split
  · exact h
  · rename_i k timeout hsvc
    have hnr : ¬ m.ReleasingList := by rintro ⟨f, r, e⟩; rw [hsvc] at e; cases e
    simp only [hok.1, hok.2, Bool.true_and, Bool.not_true, Bool.false_eq_true, if_false]
    split
    · split
      · exact h
      · cases k with
        | ret => exact inv_svc h hnr .idle (by simp) (by simp) _
        | reload rest => exact inv_svc h hnr .idle (by simp) (by simp) _
    · cases k with
      | ret => exact inv_svc h hnr .idle (by simp) (by simp) _
      | reload rest => exact inv_svc h hnr (.unloading rest) (by simp) (by simp) _
  · rename_i former r hsvc
    have hns : ¬ m.Switching := by rintro ⟨f, r, e⟩; rw [hsvc] at e; cases e
    have hf := h.former _ _ hsvc
    simp only [hok.1, hok.2, Bool.true_and, Bool.not_true, Bool.false_eq_true, if_false]
    split
    · exact h
    · rename_i hu
      have hu' : m.used ≠ some (!m.current) := by rw [← hf]; simpa using hu
      cases r with
      | load name => exact inv_released h hns hu' .idle (by simp) (by simp) _
      | unload name k =>
        cases k with
        | ret => exact inv_released h hns hu' .idle (by simp) (by simp) _
        | reload rest => exact inv_released h hns hu' (.unloading rest) (by simp) (by simp) _
  · rename_i hsvc
    have hns : ¬ m.Switching := by rintro ⟨f, r, e⟩; rw [hsvc] at e; cases e
    have hnr : ¬ m.ReleasingList := by rintro ⟨f, r, e⟩; rw [hsvc] at e; cases e
    exact inv_svc' h hnr hns .idle (by simp) (by simp) _
  · rename_i n ns hsvc
    have hns : ¬ m.Switching := by rintro ⟨f, r, e⟩; rw [hsvc] at e; cases e
    have hnr : ¬ m.ReleasingList := by rintro ⟨f, r, e⟩; rw [hsvc] at e; cases e
    rcases unloadCore_cases m n (.reload ns)
      (fun m => { m with svc := .idle }.emit [.reloadRet false]) (h.used hnr) with ⟨_, h2, e⟩ | ⟨_, e⟩
    · rw [e]; exact inv_unloaded mono h hns h2 _
    · rw [e]
      exact inv_svc' (inv_fail h [] (by simp) []) hnr hns .idle (by simp) (by simp) _

theorem inv_step {conf P} (hc : CheckOk conf P) {m : Mgr} (h : InvD D P m) (op : Op) (hop : op.rosUp) :
    InvD D P (m.step conf op) := by
  cases op with
  | update t r hw => exact inv_update hc.mono h t r hw
  | load n e => exact inv_load h n e
  | unload n => exact inv_unload hc.mono h n
  | switch r now p =>
    show InvD D P (m.switch conf r now p)
    unfold switch
    split
    · exact h
    · rename_i hi
      have hi : m.svc = .idle := by simpa using hi
      exact inv_switchCore hc h (by rintro ⟨k, t, e⟩; rw [hi] at e; cases e)
        (by rintro ⟨k, t, e⟩; rw [hi] at e; cases e) r now p .ret
  | reload f now p => exact inv_reload hc h f now p
  | poll ok e => exact inv_poll hc.mono h ok hop e

theorem inv_run {conf P} (hc : CheckOk conf P) {m : Mgr} (h : InvD D P m) (ops : List Op)
    (hops : ∀ op ∈ ops, op.rosUp) : InvD D P (m.run conf ops) := by
  induction ops using List.reverseRecOn with
  | nil => exact h
  | append_singleton ops op ih =>
    rw [run, List.foldl_append]
    exact inv_step hc (ih fun o ho => hops o (by simp [ho])) op (hops op (by simp))

/-- The trivial instance, for properties that do not depend on the conflict check. -/
theorem checkOk_true (conf : List ControllerInfo → Bool) : CheckOk conf fun _ => True :=
  ⟨fun _ _ => trivial, fun _ _ _ _ => trivial, trivial⟩

theorem inv_reachable {conf P} (hc : CheckOk conf P) {m : Mgr} (h : Reachable conf m) : Inv P m := by
  obtain ⟨ops, hops, rfl⟩ := h
  exact inv_run hc (inv_init hc.nil) ops hops

theorem inv_of_reachable {conf} {m : Mgr} (h : Reachable conf m) : Inv (fun _ => True) m :=
  inv_reachable (checkOk_true conf) h

end Mgr

theorem reachable_step {conf} {m : Mgr} (h : Reachable conf m) {op : Op} (hop : op.rosUp) :
    Reachable conf (m.step conf op) := by
  obtain ⟨ops, hops, rfl⟩ := h
  refine ⟨ops ++ [op], ?_, ?_⟩
  · intro o ho
    rcases List.mem_append.1 ho with ho | ho
    · exact hops o ho
    · rw [List.mem_singleton.1 ho]; exact hop
  · rw [Mgr.run, Mgr.run, List.foldl_append]; rfl

theorem reachable_run {conf} {m : Mgr} (h : Reachable conf m) {ops : List Op}
    (hops : ∀ op ∈ ops, op.rosUp) : Reachable conf (m.run conf ops) := by
  induction ops using List.reverseRecOn with
  | nil => exact h
  | append_singleton ops op ih =>
    rw [Mgr.run, List.foldl_append]
    exact reachable_step (ih fun o ho => hops o (by simp [ho])) (hops op (by simp))

end Verif
