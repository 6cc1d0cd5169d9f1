import Verif.Lemmas.RefinementRun
import Verif.Lemmas.ManagerHandover
import Verif.Lemmas.ManagerHistory

/-!
Helper lemmas: what holds in the middle of updates that are interleaved with service operations, also if no
update has been completed before.
-/

namespace Verif

open Mgr

namespace Inter

/-- Either `a` has the lists and the running controllers of `s`, or the update in progress is doing a switch. -/
theorem rel_cases {s : St} {a : Mgr} (h : Rel s a) :
    (∃ p st, Same p { s.m with state := st } a ∧ (∀ x, s.m.state x = .running → st x = .running) ∧
      (st = s.m.state ∨ ∃ u c l, s.rt = .restarting u c l)) ∨
    ∃ u, s.rt ≠ .idle ∧ Pending s u a := by
  obtain ⟨m, rt⟩ := s
  have plain : ∀ {p}, Same p m a → (∃ p st, Same p { m with state := st } a ∧
      (∀ x, m.state x = .running → st x = .running) ∧ (st = m.state ∨ ∃ u c l, rt = .restarting u c l)) :=
    fun h => ⟨_, m.state, h, fun _ h => h, Or.inl rfl⟩
  cases rt with
  | idle => exact Or.inl (plain h)
  | read u r =>
    rcases h with ⟨_, h⟩ | ⟨_, _, _, _, h⟩
    · exact Or.inl (plain h)
    · exact Or.inl (plain h)
  | resetting u l =>
    rcases h with h | h
    · exact Or.inl (plain h.same)
    · exact Or.inr ⟨u, by simp, h⟩
  | restarting u c l =>
    rcases h with ⟨_, _, h⟩ | h
    · refine Or.inl ⟨_, _, h.same, fun x hx => ?_, Or.inr ⟨u, c, l, rfl⟩⟩
      dsimp only
      split
      · rfl
      · exact hx
    · exact Or.inr ⟨u, by simp, h⟩
  | updating u l =>
    rcases h with h | h
    · exact Or.inl (plain h.same)
    · exact Or.inr ⟨u, by simp, h⟩
  | looking u =>
    rcases h with h | h
    · exact Or.inl (plain h.same)
    · exact Or.inr ⟨u, by simp, h⟩
  | stopping u l => exact Or.inr ⟨u, by simp, h⟩
  | choosing u => exact Or.inr ⟨u, by simp, h⟩
  | starting u l => exact Or.inr ⟨u, by simp, h⟩
  | aborting u l => exact Or.inr ⟨u, by simp, h⟩
  | waiting u l => exact Or.inr ⟨u, by simp, h⟩
  | asap u n l => exact Or.inr ⟨u, by simp, h⟩

/-- What runs at any moment runs in a state between two updates. -/
theorem rel_running {P} {s : St} {a : Mgr} (mono : ∀ l l', List.Sublist l' l → P l → P l') (i : Inv P a)
    (h : Rel s a) : ∃ b, Inv P b ∧ b.cur = s.m.cur ∧ ∀ x, s.m.state x = .running → b.state x = .running := by
  rcases rel_cases h with ⟨p, st, hs, hr, -⟩ | ⟨u, hi, hp⟩
  · have := same_dec hs
    exact ⟨a, i, this.2.2.2.2.2.1, fun x hx => by rw [this.2.2.2.2.1]; exact hr x hx⟩
  · cases hl : late s.rt with
    | false => exact ⟨a, i, hp.cur, fun x hx => hp.early hi hl x (Or.inl hx)⟩
    | true =>
      obtain ⟨r, hs⟩ := hp.same
      obtain ⟨g1, g2⟩ := late_complete (m := s.m) hl
      exact ⟨_, inv_update mono i u.time r u.hw, (same_dec hs).2.2.2.2.2.1.trans g1,
        fun x hx => by rw [(same_dec hs).2.2.2.2.1]; exact g2 x hx⟩

/-- An operation of the service thread does not stop in the middle of the very first update. -/
def Settled (s : St) : Prop := s.rt ≠ .idle → s.m.used ≠ none

/-- A step of the service thread, also before the first update. -/
theorem rel_svc' {conf : List ControllerInfo → Bool} {s : St} {a : Mgr} (i : Inv (fun _ => True) a)
    (hu : Settled s) (h : Rel s a) {op : Op} (hop : op.isService = true) (hc : Careful s (.svc op)) :
    Rel { s with m := s.m.step conf op } (a.step conf op) ∨
      ∃ t r hw, Rel { s with m := s.m.step conf op } ((a.update t r hw).step conf op) := by
  by_cases ha : a.used ≠ none
  · exact rel_svc i ha h hop hc
  by_cases hi : s.rt = .idle
  · left
    obtain ⟨m, rt⟩ := s
    simp only at hi
    subst hi
    exact Same.svc i h hop
  rcases rel_cases h with ⟨p, st, hs, -, -⟩ | ⟨u, -, hp⟩
  · have e : a.used = s.m.used := (same_dec hs).2.2.1
    exact absurd (e ▸ hu hi) ha
  · left
    obtain ⟨hr, hb, -⟩ := hc
    have hb' := hb hi hp.doSwitch
    have e1 : s.m.step conf op = s.m := blocked_step hb' hop hr
    have e2 : a.step conf op = a := by
      refine blocked_step (blocked_congr hb' hp.svc ?_) hop hr
      rw [hp.doSwitch', hp.doSwitch]
    rw [e1, e2]
    exact h

/-- What an operation of the service thread that loads no controller does to the list. -/
theorem svc_plain {conf : List ControllerInfo → Bool} {P} {s : St} {a : Mgr} (i : Inv P a) (h : Rel s a) {op : Op}
    (hop : op.isService = true) (hc : Careful s (.svc op)) (hn : ∀ n e, op = .load n e → e.init = none) :
    (∀ sp ∈ (s.m.step conf op).cur, sp ∈ s.m.cur) ∧ s.m.nextId ≤ (s.m.step conf op).nextId := by
  obtain ⟨hr, hb, hw⟩ := hc
  have still : s.m.step conf op = s.m →
      (∀ sp ∈ (s.m.step conf op).cur, sp ∈ s.m.cur) ∧ s.m.nextId ≤ (s.m.step conf op).nextId := fun e => by
    rw [e]
    exact ⟨fun _ h => h, le_refl _⟩
  rcases rel_cases h with ⟨p, st, hs, -, hst⟩ | ⟨u, hi, hp⟩
  · have im := hs.inv i
    have key : (∀ sp ∈ (({ s.m with state := st } : Mgr).step conf op).cur, sp ∈ s.m.cur) ∧
        s.m.nextId ≤ (({ s.m with state := st } : Mgr).step conf op).nextId := by
      refine ⟨fun sp hsp => ?_, (step_cur im op).1⟩
      by_contra hno
      obtain ⟨e, h1, -, -, h2, -⟩ := step_new im op hsp hno
      rw [hn _ _ h1] at h2
      cases h2
    rcases hst with rfl | hre
    · exact key
    · rcases hw hre with hw | hw
      · rw [waits_state hw hop hr st] at key
        exact key
      · exact still (blocked_step hw hop hr)
  · exact still (blocked_step (hb hi hp.doSwitch) hop hr)

/-! ### The calls of one step -/

theorem req_next (m : Mgr) (r : Request) (c : CId) : (m.req r c).nextId = m.nextId := by
  unfold req
  split <;> rfl

theorem req_events (m : Mgr) (r : Request) (c : CId) : ∃ es, (m.req r c).trace = m.trace ++ es ∧
    ∀ e ∈ es, ∃ k, e = .cb c k := by
  unfold req
  split
  · exact ⟨_, rfl, fun e he => by
      obtain ⟨k, -, rfl⟩ := List.mem_map.1 he
      exact ⟨k, rfl⟩⟩
  · exact ⟨[], (List.append_nil _).symm, by simp⟩

theorem asapEntries (n : Nat) (c : CId) (time : Int) (hw : HwReply) (l : List CtrlSpec) (m : Mgr) :
    (l.foldl (asapEntry n c time hw) m).nextId = m.nextId ∧
    ∃ es, (l.foldl (asapEntry n c time hw) m).trace = m.trace ++ es ∧ ∀ e ∈ es, ∃ k, e = .cb c k := by
  induction l generalizing m with
  | nil => exact ⟨rfl, [], (List.append_nil _).symm, by simp⟩
  | cons sp l ih =>
    obtain ⟨h1, es, h2, h3⟩ := ih (asapEntry n c time hw m sp)
    rw [List.foldl_cons, h1, h2]
    have one : (asapEntry n c time hw m sp).nextId = m.nextId ∧
        ∃ es, (asapEntry n c time hw m sp).trace = m.trace ++ es ∧ ∀ e ∈ es, ∃ k, e = .cb c k := by
      unfold asapEntry
      split
      · split
        · exact ⟨req_next _ _ _, req_events _ _ _⟩
        · split <;> exact ⟨req_next _ _ _, req_events _ _ _⟩
      · exact ⟨rfl, [], (List.append_nil _).symm, by simp⟩
    obtain ⟨g1, es', g2, g3⟩ := one
    refine ⟨g1, es' ++ es, by rw [g2, List.append_assoc], fun e he => ?_⟩
    rcases List.mem_append.1 he with he | he
    · exact g3 e he
    · exact h3 e he

/-- Controllers that wait to be started are next. -/
def isNext (c : CId) : Rt → Prop
  | .aborting _ l => l.head? = some c
  | .waiting _ l => l.head? = some c
  | .asap _ _ l => l.head? = some c
  | _ => False

/-- What a step of the realtime thread does: it leaves the list alone and calls at most one controller, which runs before
or after it, or is one that waits to be started. -/
theorem rt_calls (s : St) (u' : Args) :
    (rtStep s u').m.cur = s.m.cur ∧ (rtStep s u').m.nextId = s.m.nextId ∧
    ∃ es, (rtStep s u').m.trace = s.m.trace ++ es ∧ ∀ c k, .cb c k ∈ es →
      (s.m.state c = .running ∨ (rtStep s u').m.state c = .running ∨ isNext c s.rt) ∧
      (∀ x, x ≠ c → (rtStep s u').m.state x = s.m.state x) ∧ ∀ c' k', .cb c' k' ∈ es → c' = c := by
  obtain ⟨m, rt⟩ := s
  have quiet : ∀ (m' : Mgr) (es : List Event), m'.trace = m.trace ++ es → (∀ c k, .cb c k ∉ es) →
      m'.cur = m.cur → m'.nextId = m.nextId → ∀ m'' : Mgr, m'' = m' →
      m''.cur = m.cur ∧ m''.nextId = m.nextId ∧
      ∃ es, m''.trace = m.trace ++ es ∧ ∀ c k, .cb c k ∈ es →
        (m.state c = .running ∨ m''.state c = .running ∨ isNext c rt) ∧
        (∀ x, x ≠ c → m''.state x = m.state x) ∧ ∀ c' k', .cb c' k' ∈ es → c' = c := by
    rintro m' es h1 h2 h3 h4 m'' rfl
    exact ⟨h3, h4, es, h1, fun c k h => absurd h (h2 c k)⟩
  have same := quiet m [] (List.append_nil _).symm (by simp) rfl rfl
  -- a request on a controller
  have ask : ∀ (r : Request) (c : CId), (∀ k, k ∈ (r.run (m.state c)).calls → m.state c = .running ∨
        (r.run (m.state c)).state = .running ∨ isNext c rt) →
      (m.req r c).cur = m.cur ∧ (m.req r c).nextId = m.nextId ∧
      ∃ es, (m.req r c).trace = m.trace ++ es ∧ ∀ c' k, .cb c' k ∈ es →
        (m.state c' = .running ∨ (m.req r c).state c' = .running ∨ isNext c' rt) ∧
        (∀ x, x ≠ c' → (m.req r c).state x = m.state x) ∧ ∀ c'' k', .cb c'' k' ∈ es → c'' = c' := by
    intro r c hk
    refine ⟨(keep_req m r c).cur, req_next m r c, ?_⟩
    unfold req
    split
    · refine ⟨_, rfl, fun c' k h => ?_⟩
      obtain ⟨k', hk', e⟩ := List.mem_map.1 h
      cases e
      refine ⟨?_, fun x hx => by simp [hx], fun c'' k'' h'' => ?_⟩
      · simpa using hk k hk'
      · obtain ⟨_, -, e⟩ := List.mem_map.1 h''
        cases e
        rfl
    · exact ⟨[], (List.append_nil _).symm, by simp⟩
  have starts : ∀ c k, k ∈ (Request.start.run (m.state c)).calls → m.state c = .running ∨
      (Request.start.run (m.state c)).state = .running ∨ isNext c rt := by
    intro c k hk
    right; left
    simp only [Request.run, startRequest] at hk ⊢
    split
    · rfl
    · rename_i h
      rw [if_neg h] at hk
      cases hk
  cases rt with
  | idle => exact same _ rfl
  | read u r => exact quiet { m with used := some r } [] (List.append_nil _).symm (by simp) rfl rfl _ rfl
  | resetting u l =>
    cases l with
    | nil => exact same _ rfl
    | cons c l =>
      by_cases hr : m.isRunning c.c = true
      · have e : (rtStep ⟨m, .resetting u (c :: l)⟩ u') = ⟨m.req .stop c.c, .restarting u c.c l⟩ := by simp [rtStep, hr]
        rw [e]
        exact ask .stop c.c fun _ _ => Or.inl (isRunning_iff.1 hr)
      · have e : (rtStep ⟨m, .resetting u (c :: l)⟩ u') = ⟨m, .resetting u l⟩ := by simp [rtStep, hr]
        rw [e]
        exact same _ rfl
  | restarting u c l => exact ask .start c (starts c)
  | updating u l =>
    cases l with
    | nil => exact same _ rfl
    | cons c l =>
      refine ask .update c.c fun k hk => Or.inl ?_
      simp only [Request.run, updateRequest] at hk
      split at hk
      · assumption
      · cases hk
  | looking u =>
    by_cases hd : m.params.doSwitch = true
    · by_cases hs : m.params.started = true
      · exact quiet m [] (List.append_nil _).symm (by simp) rfl rfl _ (by simp [rtStep, hd, hs])
      · exact quiet { m.emit [.doSwitch m.swStart m.swStop] with params := { m.params with started := true } }
          [.doSwitch m.swStart m.swStop] rfl (by simp) rfl rfl _ (by simp [rtStep, hd, hs])
    · exact same _ (by simp [rtStep, hd])
  | stopping u l =>
    cases l with
    | nil => exact same _ rfl
    | cons c l =>
      by_cases hr : m.isRunning c = true
      · have e : (rtStep ⟨m, .stopping u (c :: l)⟩ u') = ⟨m.req .stop c, .stopping u l⟩ := by simp [rtStep, hr]
        rw [e]
        exact ask .stop c fun _ _ => Or.inl (isRunning_iff.1 hr)
      · have e : (rtStep ⟨m, .stopping u (c :: l)⟩ u') = ⟨m, .stopping u l⟩ := by simp [rtStep, hr]
        rw [e]
        exact same _ rfl
  | choosing u =>
    refine same _ ?_
    simp only [rtStep]
    split
    · rfl
    · split
      · rfl
      · split <;> rfl
  | starting u l =>
    cases l with
    | nil => exact quiet { m with params := { m.params with doSwitch := false } } [] (List.append_nil _).symm (by simp) rfl rfl _ rfl
    | cons c l => exact ask .start c (starts c)
  | aborting u l =>
    cases l with
    | nil => exact quiet { m with params := { m.params with doSwitch := false } } [] (List.append_nil _).symm (by simp) rfl rfl _ rfl
    | cons c l => exact ask .abort c fun _ _ => Or.inr (Or.inr rfl)
  | waiting u l =>
    cases l with
    | nil => exact same _ rfl
    | cons c l => exact ask .wait c fun _ _ => Or.inr (Or.inr rfl)
  | asap u n l =>
    cases l with
    | nil =>
      by_cases ha : (m.startReq.all fun c => (m.state c).isRunning || (m.state c).isAborted) = true
      · exact quiet { m with params := { m.params with doSwitch := false } } [] (List.append_nil _).symm (by simp) rfl rfl _ (by
          simp only [rtStep, ha, if_true])
      · exact same _ (by simp only [rtStep, ha, if_false, Bool.false_eq_true])
    | cons c l =>
      by_cases hr : m.isRunning c = true
      · exact same _ (by simp [rtStep, hr])
      · have e : (rtStep ⟨m, .asap u n (c :: l)⟩ u').m = m.cur.foldl (asapEntry n c u.time u.hw) m := by simp [rtStep, hr]
        rw [e]
        obtain ⟨h1, es, h2, h3⟩ := asapEntries n c u.time u.hw m.cur m
        refine ⟨(keep_foldl _ (keep_asapEntry n c u.time u.hw) _ _).cur, h1, es, h2, fun c' k h => ?_⟩
        obtain ⟨_, e'⟩ := h3 _ h
        cases e'
        refine ⟨Or.inr (Or.inr rfl), fun x hx => asapEntry_other n c u.time u.hw x hx _ _, fun c'' k'' h'' => ?_⟩
        obtain ⟨_, e'⟩ := h3 _ h''
        cases e'
        rfl

/-- The lists of the loops over the controllers to be started. -/
def todo : Rt → List CId
  | .aborting _ l => l
  | .waiting _ l => l
  | .asap _ _ l => l
  | _ => []

/-- The loops are over controllers that are to be started. -/
def Todo (s : St) : Prop := ∀ c ∈ todo s.rt, c ∈ s.m.startReq

theorem todo_rt {s : St} (h : Todo s) (u' : Args) : Todo (rtStep s u') := by
  obtain ⟨m, rt⟩ := s
  unfold Todo at h ⊢
  cases rt with
  | idle => simp [rtStep, todo]
  | read u r => simp only [rtStep]; split <;> simp [todo]
  | resetting u l =>
    cases l with
    | nil => simp [rtStep, todo]
    | cons c l => simp only [rtStep]; split <;> simp [todo]
  | restarting u c l => simp [rtStep, todo]
  | updating u l => cases l <;> simp [rtStep, todo]
  | looking u => simp only [rtStep]; split <;> simp [todo]
  | stopping u l => cases l <;> simp [rtStep, todo]
  | choosing u =>
    simp only [rtStep]
    split
    · exact fun c h => h
    · split
      · simp [todo]
      · split <;> exact fun c h => h
  | starting u l => cases l <;> simp [rtStep, todo]
  | aborting u l =>
    cases l with
    | nil => simp [rtStep, todo]
    | cons c l =>
      intro x hx
      simp only [rtStep] at hx ⊢
      rw [(keep_req m .abort c).startReq]
      exact h x (List.mem_cons_of_mem _ hx)
  | waiting u l =>
    cases l with
    | nil => simp [rtStep, todo]
    | cons c l =>
      intro x hx
      simp only [rtStep] at hx ⊢
      rw [(keep_req m .wait c).startReq]
      exact h x (List.mem_cons_of_mem _ hx)
  | asap u n l =>
    cases l with
    | nil => simp only [rtStep]; split <;> simp [todo]
    | cons c l =>
      intro x hx
      have hx : x ∈ l := hx
      have e : (rtStep ⟨m, .asap u n (c :: l)⟩ u').m.startReq = m.startReq := by
        simp only [rtStep]
        split
        · exact (keep_foldl _ (keep_asapEntry n c u.time u.hw) _ _).startReq
        · rfl
      rw [e]
      exact h x (List.mem_cons_of_mem _ hx)

theorem todo_svc {conf : List ControllerInfo → Bool} {s : St} {a : Mgr} (ht : Todo s) (h : Rel s a) {op : Op}
    (hop : op.isService = true) (hc : Careful s (.svc op)) : Todo { s with m := s.m.step conf op } := by
  by_cases hnil : todo s.rt = []
  · intro c hc
    simp only [hnil] at hc
    cases hc
  · have hi : s.rt ≠ .idle := fun e => hnil (by rw [e]; rfl)
    have hp : ∃ u, Pending s u a := by
      obtain ⟨m, rt⟩ := s
      cases rt with
      | aborting u l => exact ⟨u, h⟩
      | waiting u l => exact ⟨u, h⟩
      | asap u n l => exact ⟨u, h⟩
      | _ => exact absurd rfl hnil
    obtain ⟨u, hp⟩ := hp
    have e : s.m.step conf op = s.m := blocked_step (hc.2.1 hi hp.doSwitch) hop hc.1
    rw [e]
    exact ht

theorem isNext_todo {c : CId} {rt : Rt} (h : isNext c rt) : c ∈ todo rt := by
  cases rt with
  | aborting u l => exact List.mem_of_head? h
  | waiting u l => exact List.mem_of_head? h
  | asap u n l => exact List.mem_of_head? h
  | _ => exact h.elim

theorem foldl_req_state (r : Request) (l : List CId) (m : Mgr) (x : CId) (hx : x ∉ l) :
    (l.foldl (fun m c => m.req r c) m).state x = m.state x := by
  induction l generalizing m with
  | nil => rfl
  | cons c l ih =>
    rw [List.foldl_cons, ih _ fun h => hx (List.mem_cons_of_mem _ h)]
    exact req_other _ _ _ _ fun h => hx (by rw [h]; simp)

/-- While controllers wait to be started, what runs stays running until the end of the update. -/
theorem next_complete {m : Mgr} {rt : Rt} (hn : todo rt ≠ []) :
    (complete m rt).startReq = m.startReq ∧ (complete m rt).cur = m.cur ∧
    ∀ x, x ∉ todo rt → m.state x = .running → (complete m rt).state x = .running := by
  cases rt with
  | aborting u l =>
    exact ⟨(keep_foldl _ (fun m c => keep_req m .abort c) l m).startReq,
      (keep_foldl _ (fun m c => keep_req m .abort c) l m).cur,
      fun x hx h => (foldl_req_state .abort l m x hx).trans h⟩
  | waiting u l =>
    exact ⟨(keep_foldl _ (fun m c => keep_req m .wait c) l m).startReq,
      (keep_foldl _ (fun m c => keep_req m .wait c) l m).cur,
      fun x hx h => (foldl_req_state .wait l m x hx).trans h⟩
  | asap u n l =>
    refine ⟨?_, (late_complete (m := m) (rt := .asap u n l) rfl).1, fun x _ => (late_complete (m := m) (rt := .asap u n l) rfl).2 x⟩
    simp only [complete]
    split <;> exact (keep_asapLoop _ _ _ _ _).startReq
  | _ => exact absurd rfl hn

/-- What runs after a switch without having been started ran before and was not to be stopped. -/
theorem update_target {P} {a : Mgr} (i : Inv P a) (hd : a.params.doSwitch = true) (time : Int) (reset : Bool) (hw : HwReply) :
    (a.update time reset hw).startReq = a.startReq ∧ (a.update time reset hw).cur = a.cur ∧
    ∀ x, x ∉ a.startReq → (a.update time reset hw).state x = .running → a.state x = .running ∧ x ∉ a.stopReq := by
  obtain ⟨st, es, d, -, he, ho⟩ := update_switch a i.sane hd time reset hw
  rw [he]
  refine ⟨rfl, rfl, fun x hx hr => ?_⟩
  have : st x = a.stopState x := ho.outside x hx
  change st x = .running at hr
  rw [this] at hr
  unfold stopState at hr
  split at hr
  · cases hr
  · rename_i h
    exact ⟨hr, fun hs => h ⟨hs, hr⟩⟩

/-- Whenever a controller is called, no controller in relation `K` to it is running. -/
theorem rt_guard {P} {K : CId → CId → Prop} {s : St} {a : Mgr} (mono : ∀ l l', List.Sublist l' l → P l → P l')
    (i : Inv P a) (h : Rel s a) (ht : Todo s) (hne : ∀ c c', K c c' → c' ≠ c)
    (hK : ∀ l : List ControllerInfo, P l → ∀ x ∈ s.m.cur, ∀ y ∈ s.m.cur, x.info ∈ l → y.info ∈ l → ¬K x.c y.c)
    (u : Args) {es : List Event} (he : (rtStep s u).m.trace = s.m.trace ++ es) {c : CId} {k : Callback}
    (hck : .cb c k ∈ es) {c' : CId} (hk : K c c') : s.m.state c' ≠ .running := by
  intro hr
  obtain ⟨hcur, -, es', he', hcalls⟩ := rt_calls s u
  rw [he] at he'
  have := List.append_cancel_left he'
  subst this
  obtain ⟨hwhy, hother, -⟩ := hcalls c k hck
  have hr' : (rtStep s u).m.state c' = .running := by rw [hother c' (hne c c' hk)]; exact hr
  -- two controllers that run at the same time
  have both : ∀ b : Mgr, Inv P b → b.cur = s.m.cur → b.state c = .running → b.state c' = .running → False := by
    intro b ib hb h1 h2
    obtain ⟨x, hx, rfl⟩ := List.mem_map.1 (ib.running c h1)
    obtain ⟨y, hy, rfl⟩ := List.mem_map.1 (ib.running c' h2)
    refine hK _ ib.free x (hb ▸ hx) y (hb ▸ hy) ?_ ?_ hk
    · exact List.mem_map_of_mem (List.mem_filter.2 ⟨hx, isRunning_iff.2 h1⟩)
    · exact List.mem_map_of_mem (List.mem_filter.2 ⟨hy, isRunning_iff.2 h2⟩)
  rcases hwhy with h1 | h1 | h1
  · obtain ⟨b, ib, hb, hbr⟩ := rel_running mono i h
    exact both b ib hb (hbr _ h1) (hbr _ hr)
  · have after : ∃ a', Inv P a' ∧ Rel (rtStep s u) a' := by
      rcases rel_rt i h u with g | ⟨t, r, hw, g⟩
      · exact ⟨a, i, g⟩
      · exact ⟨_, inv_update mono i t r hw, g⟩
    obtain ⟨a', ia', h'⟩ := after
    obtain ⟨b, ib, hb, hbr⟩ := rel_running mono ia' h'
    exact both b ib (hb.trans hcur) (hbr _ h1) (hbr _ hr')
  · have hmem := isNext_todo h1
    have hnil : todo s.rt ≠ [] := by
      intro e
      rw [e] at hmem
      cases hmem
    have hp : ∃ u, Pending s u a := by
      obtain ⟨m, rt⟩ := s
      cases rt with
      | aborting u l => exact ⟨u, h⟩
      | waiting u l => exact ⟨u, h⟩
      | asap u n l => exact ⟨u, h⟩
      | _ => exact absurd rfl hnil
    obtain ⟨v, hp⟩ := hp
    obtain ⟨r, hs⟩ := hp.same
    obtain ⟨g1, g2, g3⟩ := next_complete (m := s.m) hnil
    obtain ⟨t1, t2, t3⟩ := update_target i hp.doSwitch' v.time r v.hw
    have e1 : a.startReq = s.m.startReq := by
      rw [← t1, hs.eq]
      exact g1
    have hc : c ∈ a.startReq := by rw [e1]; exact ht c hmem
    have hc' : c' ∈ a.startReq ∨ (a.state c' = .running ∧ c' ∉ a.stopReq) := by
      by_cases hq : c' ∈ a.startReq
      · exact Or.inl hq
      · refine Or.inr (t3 c' hq ?_)
        rw [(same_dec hs).2.2.2.2.1]
        exact g3 c' (fun hm => hq (by rw [e1]; exact ht c' hm)) hr
    have loaded : ∀ c, c ∈ a.startReq ∨ (a.state c = .running ∧ c ∉ a.stopReq) →
        ∃ x ∈ s.m.cur, x.c = c ∧ x.info ∈ a.targetInfos := by
      intro c hc
      have : c ∈ a.cur.map (·.c) := by
        rcases hc with hc | hc
        · exact i.start c hc
        · exact i.running c hc.1
      obtain ⟨x, hx, rfl⟩ := List.mem_map.1 this
      refine ⟨x, hp.cur ▸ hx, rfl, List.mem_map_of_mem (List.mem_filter.2 ⟨hx, ?_⟩)⟩
      rcases hc with hc | hc
      · simp [hc]
      · simp [isRunning_iff.2 hc.1, hc.2]
    obtain ⟨x, hx, rfl, hx'⟩ := loaded c (Or.inl hc)
    obtain ⟨y, hy, rfl, hy'⟩ := loaded c' hc'
    exact hK _ (i.target hp.doSwitch') x hx y hy hx' hy' hk

end Inter

end Verif
