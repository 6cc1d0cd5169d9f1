import Verif.Spec.Exceptions
import Verif.Lemmas.ManagerInv

/-!
The invariant of the manager when updates are left by exceptions.
-/

namespace Verif.Inter

open Mgr

/-- The realtime thread has stopped the controllers to be stopped. -/
def afterStop : Rt → Bool
  | .choosing _ => true
  | .starting _ _ => true
  | .aborting _ _ => true
  | .waiting _ _ => true
  | .asap _ _ _ => true
  | _ => false

/-- The realtime thread is doing a switch. -/
def inSwitch : Rt → Bool
  | .stopping _ _ => true
  | rt => afterStop rt

/-- What is left of a loop over the start requests. -/
def startTodo : Rt → List CId
  | .starting _ l => l
  | .aborting _ l => l
  | .waiting _ l => l
  | .asap _ _ l => l
  | _ => []

/-- What is left of a loop over the controllers. -/
def listTodo : Rt → List CtrlSpec
  | .resetting _ l => l
  | .restarting _ _ l => l
  | .updating _ l => l
  | _ => []

/-- The update that began in `m` is in the middle. -/
structure Mid (m : Mgr) (s : St) : Prop where
  frame : s.m = { m with state := s.m.state, trace := s.m.trace, used := s.m.used, params := s.m.params }
  params : s.m.params = { m.params with started := s.m.params.started }
  started : m.params.started = true → s.m.params.started = true
  used : s.m.used = m.used ∨ s.m.used = some m.current
  busy : s.rt ≠ .idle
  read : ∀ u r, s.rt = .read u r → r = m.current
  entered : (∀ u r, s.rt ≠ .read u r) → s.m.used = some m.current
  con : ∀ x, s.m.state x = .constructed ↔ m.state x = .constructed
  sw : inSwitch s.rt = true → m.params.doSwitch = true
  early : afterStop s.rt = false → ∀ x, s.m.state x = .running → m.state x = .running
  lateRun : afterStop s.rt = true → ∀ x, s.m.state x = .running → x ∈ m.startReq ∨ (m.state x = .running ∧ x ∉ m.stopReq)
  stopTodo : ∀ u l, s.rt = .stopping u l →
    (∀ c ∈ m.stopReq, s.m.state c = .running → c ∈ l) ∧ ∀ c ∈ l, c ∈ m.stopReq
  todo : ∀ c ∈ startTodo s.rt, c ∈ m.startReq
  list : ∀ c ∈ listTodo s.rt, c ∈ m.cur
  restarting : ∀ u c l, s.rt = .restarting u c l → m.state c = .running ∧ c ∈ m.cur.map (·.c) ∧
    ∀ x, x ≠ c → s.m.state x = m.state x
  kept : inSwitch s.rt = false → (∀ u c l, s.rt ≠ .restarting u c l) → s.m.state = m.state

theorem mid_cur {m : Mgr} {s : St} (h : Mid m s) : s.m.cur = m.cur := by rw [h.frame]
theorem mid_oth {m : Mgr} {s : St} (h : Mid m s) : s.m.oth = m.oth := by rw [h.frame]
theorem mid_start {m : Mgr} {s : St} (h : Mid m s) : s.m.startReq = m.startReq := by rw [h.frame]
theorem mid_stop {m : Mgr} {s : St} (h : Mid m s) : s.m.stopReq = m.stopReq := by rw [h.frame]

/-- A step that only makes callbacks. -/
theorem Mid.next {m : Mgr} {s : St} (h : Mid m s) (hr : ∀ u r, s.rt ≠ .read u r) {rt : Rt} {st : CId → CState}
    {es : List Event} (hb : rt ≠ .idle) (hr' : ∀ u r, rt ≠ .read u r)
    (con : ∀ x, st x = .constructed ↔ s.m.state x = .constructed)
    (sw : inSwitch rt = true → m.params.doSwitch = true)
    (early : afterStop rt = false → ∀ x, st x = .running → m.state x = .running)
    (lateRun : afterStop rt = true → ∀ x, st x = .running → x ∈ m.startReq ∨ (m.state x = .running ∧ x ∉ m.stopReq))
    (stopTodo : ∀ u l, rt = .stopping u l → (∀ c ∈ m.stopReq, st c = .running → c ∈ l) ∧ ∀ c ∈ l, c ∈ m.stopReq)
    (todo : ∀ c ∈ startTodo rt, c ∈ m.startReq) (list : ∀ c ∈ listTodo rt, c ∈ m.cur)
    (restarting : ∀ u c l, rt = .restarting u c l → m.state c = .running ∧ c ∈ m.cur.map (·.c) ∧ ∀ x, x ≠ c → st x = m.state x)
    (kept : inSwitch rt = false → (∀ u c l, rt ≠ .restarting u c l) → st = m.state) :
    Mid m { m := s.m.upd st es, rt := rt } where
  frame := by
    have := h.frame
    show s.m.upd st es = _
    simp only [upd]
    conv_lhs => rw [this]
  params := h.params
  started := h.started
  used := h.used
  busy := hb
  read u r e := absurd e (hr' u r)
  entered _ := h.entered hr
  con x := (con x).trans (h.con x)
  sw := sw
  early := early
  lateRun := lateRun
  stopTodo := stopTodo
  todo := todo
  list := list
  restarting := restarting
  kept := kept

theorem req_update (m : Mgr) {c : CId} (h : m.alive c = true) :
    ∃ es, m.req .update c = m.upd m.state es := by
  rw [req_alive h]
  refine ⟨(Request.update.run (m.state c)).calls.map (.cb c), ?_⟩
  congr 1
  funext x
  by_cases hx : x = c
  · subst hx
    simp only [if_true, Request.run, updateRequest]
    split <;> rfl
  · rw [if_neg hx]

theorem usedList_mid {m : Mgr} {s : St} (h : Mid m s) (hr : ∀ u r, s.rt ≠ .read u r) : usedList s.m = m.cur := by
  have h1 : s.m.current = m.current := by rw [h.frame]
  simp [usedList, h.entered hr, list, h1, mid_cur h]

/-- 192-216: the inner loop of `startControllersAsap` changes the state of one controller only. -/
theorem asap_entries {n : Nat} {time : Int} {hw : HwReply} {c : CId} (l : List CtrlSpec) : ∀ m : Mgr,
    (∀ s ∈ l, s.c = c → m.alive c = true) → m.state c ≠ .constructed →
    ∃ st es, l.foldl (asapEntry n c time hw) m = m.upd st es ∧ (∀ x, x ≠ c → st x = m.state x) ∧ st c ≠ .constructed := by
  induction l with
  | nil => exact fun m _ h => ⟨m.state, [], (upd_self m).symm, fun _ _ => rfl, h⟩
  | cons s l ih =>
    intro m ha hc
    have one : ∃ st es, asapEntry n c time hw m s = m.upd st es ∧ (∀ x, x ≠ c → st x = m.state x) ∧ st c ≠ .constructed := by
      unfold asapEntry
      split
      · rename_i e
        have hal := ha s (by simp) e.symm
        have key : ∀ {r k t}, OneShot r k t → ∃ st es, m.req r c = m.upd st es ∧ (∀ x, x ≠ c → st x = m.state x) ∧
            st c ≠ .constructed := by
          intro r k t o
          exact ⟨_, _, req_oneShot o hal hc, fun x hx => if_neg hx, by rw [if_pos rfl]; exact o.target⟩
        split
        · exact key oneShot_start
        · split
          · exact key oneShot_abort
          · exact key oneShot_wait
      · exact ⟨m.state, [], (upd_self m).symm, fun _ _ => rfl, hc⟩
    obtain ⟨st, es, e, h1, h2⟩ := one
    obtain ⟨st', es', e', h1', h2'⟩ := ih (m.upd st es) (fun t ht htc => ha t (by simp [ht]) htc) h2
    refine ⟨st', es ++ es', ?_, fun x hx => (h1' x hx).trans (h1 x hx), h2'⟩
    rw [List.foldl_cons, e, e', upd_upd]

theorem mid_step {D P} {m : Mgr} (hm : InvD D P m) {s : St} (h : Mid m s) (u' : Args) (hb : (rtStep s u').rt ≠ .idle) :
    Mid m (rtStep s u') := by
  have hcur := mid_cur h
  have halive : ∀ c ∈ m.cur.map (·.c), s.m.alive c = true := by
    intro c hc
    obtain ⟨t, ht, rfl⟩ := List.mem_map.1 hc
    exact alive_of_mem (hcur ▸ ht)
  have hcon : ∀ c ∈ m.cur.map (·.c), s.m.state c ≠ .constructed := by
    intro c hc e
    obtain ⟨t, ht, rfl⟩ := List.mem_map.1 hc
    exact hm.inited t (Or.inl ht) ((h.con _).1 e)
  have shot : ∀ {r k target}, OneShot r k target → ∀ c ∈ m.cur.map (·.c),
      s.m.req r c = s.m.upd (fun x => if x = c then target else s.m.state x) [.cb c k] :=
    fun o c hc => req_oneShot o (halive c hc) (hcon c hc)
  have con1 : ∀ {r k target}, OneShot r k target → ∀ c ∈ m.cur.map (·.c), ∀ x,
      (if x = c then target else s.m.state x) = CState.constructed ↔ s.m.state x = .constructed := by
    intro r k target o c hc x
    by_cases hx : x = c
    · subst hx; simp [o.target, hcon x hc]
    · rw [if_neg hx]
  have self : ∀ rt, ({ s with rt := rt } : St) = { m := s.m.upd s.m.state [], rt := rt } := by
    intro rt; rw [upd_self]
  obtain ⟨sm, rt⟩ := s
  cases rt with
  | idle => exact absurd rfl h.busy
  | read u r =>
    have e := h.read u r rfl
    subst e
    have hk := h.kept
    simp only [rtStep] at hb ⊢
    have hl : usedList { sm with used := some m.current } = m.cur := by
      have h1 : sm.current = m.current := by have := congrArg Mgr.current h.frame; exact this
      have h2 : sm.cur = m.cur := hcur
      simp [usedList, list, h1, h2]
    rw [hl]
    refine ⟨?_, h.params, h.started, Or.inr rfl, ?_, ?_, fun _ => rfl, h.con, ?_, fun _ => h.early rfl, ?_, ?_, ?_, ?_, ?_, ?_⟩
    · have := h.frame
      simp only at this ⊢
      conv_lhs => rw [this]
    · split <;> simp
    · intro u r; split <;> simp
    · split <;> simp [inSwitch, afterStop]
    · split <;> simp [afterStop]
    · intro u l; split <;> simp
    · split <;> simp [startTodo]
    · split <;> simp [listTodo]
    · intro u c l; split <;> simp
    · intro _ _; exact hk rfl (by simp)
  | resetting u l =>
    have hnr : ∀ a b, ({ m := sm, rt := .resetting u l } : St).rt ≠ .read a b := by simp
    cases l with
    | nil =>
      have e : rtStep { m := sm, rt := .resetting u [] } u' = { m := sm, rt := .updating u (usedList sm) } := rfl
      rw [e, self]
      refine h.next hnr (by simp) (by simp) (fun _ => Iff.rfl) (by simp [inSwitch, afterStop]) (fun _ => h.early rfl)
        (by simp [afterStop]) (by simp) (by simp [startTodo]) ?_ (by simp) (fun _ _ => h.kept rfl (by simp))
      rw [show usedList sm = m.cur from usedList_mid h hnr]
      exact fun c hc => hc
    | cons c l =>
      have hc : c ∈ m.cur := h.list c (by simp [listTodo])
      have hc' := List.mem_map_of_mem (f := (·.c)) hc
      simp only [rtStep]
      split
      · rename_i hrun
        have hrun := isRunning_iff.1 hrun
        rw [shot oneShot_stop _ hc']
        refine h.next hnr (by simp) (by simp) (con1 oneShot_stop _ hc') (by simp [inSwitch, afterStop]) ?_ (by simp [afterStop]) (by simp)
          (by simp [startTodo]) (fun x hx => h.list x (by simp only [listTodo] at hx ⊢; simp [hx])) ?_ ?_
        · intro _ x hx
          dsimp only at hx
          split at hx
          · cases hx
          · exact h.early rfl x hx
        · intro u' c' l' e
          cases e
          exact ⟨h.early rfl _ hrun, hc', fun x hx => by rw [if_neg hx, h.kept rfl (by simp)]⟩
        · intro _ hn; exact absurd rfl (hn u c.c l)
      · rw [self]
        exact h.next hnr (by simp) (by simp) (fun _ => Iff.rfl) (by simp [inSwitch, afterStop]) (fun _ => h.early rfl)
          (by simp [afterStop]) (by simp) (by simp [startTodo]) (fun x hx => h.list x (by simp only [listTodo] at hx ⊢; simp [hx]))
          (by simp) (fun _ _ => h.kept rfl (by simp))
  | restarting u c l =>
    have hnr : ∀ a b, ({ m := sm, rt := .restarting u c l } : St).rt ≠ .read a b := by simp
    obtain ⟨h1, h2, h3⟩ := h.restarting u c l rfl
    simp only [rtStep]
    rw [shot oneShot_start _ h2]
    refine h.next hnr (by simp) (by simp) (con1 oneShot_start _ h2) (by simp [inSwitch, afterStop]) ?_ (by simp [afterStop]) (by simp)
      (by simp [startTodo]) (fun x hx => h.list x (by simpa [listTodo] using hx)) (by simp) ?_
    · intro _ x hx
      dsimp only at hx
      split at hx
      · rename_i e; rw [e]; exact h1
      · exact h.early rfl x hx
    · intro _ _
      funext x
      by_cases hx : x = c
      · rw [if_pos hx, hx, h1]
      · rw [if_neg hx]; exact h3 x hx
  | updating u l =>
    have hnr : ∀ a b, ({ m := sm, rt := .updating u l } : St).rt ≠ .read a b := by simp
    cases l with
    | nil =>
      have e : rtStep { m := sm, rt := .updating u [] } u' = { m := sm, rt := .looking u } := rfl
      rw [e, self]
      exact h.next hnr (by simp) (by simp) (fun _ => Iff.rfl) (by simp [inSwitch, afterStop]) (fun _ => h.early rfl)
        (by simp [afterStop]) (by simp) (by simp [startTodo]) (by simp [listTodo]) (by simp) (fun _ _ => h.kept rfl (by simp))
    | cons c l =>
      have hc : c ∈ m.cur := h.list c (by simp [listTodo])
      have hc' := List.mem_map_of_mem (f := (·.c)) hc
      simp only [rtStep]
      obtain ⟨es, e⟩ := req_update sm (halive _ hc')
      rw [e]
      exact h.next hnr (by simp) (by simp) (fun _ => Iff.rfl) (by simp [inSwitch, afterStop]) (fun _ => h.early rfl)
        (by simp [afterStop]) (by simp) (by simp [startTodo]) (fun x hx => h.list x (by simp only [listTodo] at hx ⊢; simp [hx]))
        (by simp) (fun _ _ => h.kept rfl (by simp))
  | looking u =>
    have hnr : ∀ a b, ({ m := sm, rt := .looking u } : St).rt ≠ .read a b := by simp
    have hst : sm.stopReq = m.stopReq := mid_stop h
    simp only [rtStep] at hb ⊢
    split
    · rename_i hd
      have hp := h.params
      have hd' : m.params.doSwitch = true := by
        simp only at hp; rw [hp] at hd; exact hd
      refine ⟨?_, ?_, ?_, ?_, by simp, by simp, fun _ => ?_, ?_, fun _ => hd', fun _ => ?_, by simp [afterStop], ?_, by simp [startTodo],
        by simp [listTodo], by simp, ?_⟩
      · have := h.frame
        simp only at this ⊢
        split
        · exact congrArg (fun x : Mgr => ({ x.emit [.doSwitch sm.swStart sm.swStop] with
            params := { x.params with started := true } } : Mgr)) this
        · exact this
      · simp only at hp ⊢
        split
        · simp only [emit]; rw [hp]
        · exact hp
      · have := h.started; simp only at this ⊢; split
        · exact fun _ => rfl
        · exact this
      · have := h.used; simp only at this ⊢; split <;> exact this
      · have := h.entered hnr; simp only at this ⊢; split <;> exact this
      · have := h.con; simp only at this ⊢; split <;> exact this
      · have := h.early rfl; simp only at this ⊢; split <;> exact this
      · intro u l e
        simp only [Rt.stopping.injEq] at e
        have : l = m.stopReq := by
          rw [← e.2]; split
          · exact hst
          · exact hst
        subst this
        exact ⟨fun c hc _ => hc, fun c hc => hc⟩
      · intro e; cases e
    · rename_i hd
      rw [if_neg hd] at hb
      exact absurd rfl hb
  | stopping u l =>
    have hnr : ∀ a b, ({ m := sm, rt := .stopping u l } : St).rt ≠ .read a b := by simp
    have hd : m.params.doSwitch = true := h.sw rfl
    obtain ⟨h1, h2⟩ := h.stopTodo u l rfl
    cases l with
    | nil =>
      have e : rtStep { m := sm, rt := .stopping u [] } u' = { m := sm, rt := .choosing u } := rfl
      rw [e, self]
      refine h.next hnr (by simp) (by simp) (fun _ => Iff.rfl) (fun _ => hd) (by simp [afterStop]) ?_ (by simp) (by simp [startTodo])
        (by simp [listTodo]) (by simp) (by simp [inSwitch, afterStop])
      intro _ x hx
      refine Or.inr ⟨h.early rfl x hx, fun hs => ?_⟩
      have := h1 x hs hx
      cases this
    | cons c l =>
      have hc' : c ∈ m.cur.map (·.c) := hm.stop c (h2 c (by simp))
      simp only [rtStep]
      split
      · rw [shot oneShot_stop _ hc']
        refine h.next hnr (by simp) (by simp) (con1 oneShot_stop _ hc') (fun _ => hd) ?_ (by simp [afterStop]) ?_
          (by simp [startTodo]) (by simp [listTodo]) (by simp) (by simp [inSwitch, afterStop])
        · intro _ x hx
          dsimp only at hx
          split at hx
          · cases hx
          · exact h.early rfl x hx
        · intro u' l' e
          cases e
          refine ⟨fun x hx hr => ?_, fun x hx => h2 x (by simp [hx])⟩
          split at hr
          · cases hr
          · rename_i hne
            rcases List.mem_cons.1 (h1 x hx hr) with e | e
            · exact absurd e hne
            · exact e
      · rename_i hrun
        rw [self]
        refine h.next hnr (by simp) (by simp) (fun _ => Iff.rfl) (fun _ => hd) (fun _ => h.early rfl) (by simp [afterStop]) ?_
          (by simp [startTodo]) (by simp [listTodo]) (by simp) (by simp [inSwitch, afterStop])
        intro u' l' e
        cases e
        refine ⟨fun x hx hr => ?_, fun x hx => h2 x (by simp [hx])⟩
        rcases List.mem_cons.1 (h1 x hx hr) with e | e
        · subst e; exact absurd (isRunning_iff.2 hr) hrun
        · exact e
  | choosing u =>
    have hnr : ∀ a b, ({ m := sm, rt := .choosing u } : St).rt ≠ .read a b := by simp
    have hd : m.params.doSwitch = true := h.sw rfl
    have hst : sm.startReq = m.startReq := mid_start h
    simp only [rtStep]
    rw [hst]
    split
    · rw [self]
      exact h.next hnr (by simp) (by simp) (fun _ => Iff.rfl) (fun _ => hd) (by simp [afterStop]) (fun _ => h.lateRun rfl) (by simp)
        (fun c hc => hc) (by simp [listTodo]) (by simp) (by simp [inSwitch, afterStop])
    · split
      · rw [self]
        exact h.next hnr (by simp) (by simp) (fun _ => Iff.rfl) (fun _ => hd) (by simp [afterStop]) (fun _ => h.lateRun rfl) (by simp)
          (fun c hc => hc) (by simp [listTodo]) (by simp) (by simp [inSwitch, afterStop])
      · split
        · rw [self]
          exact h.next hnr (by simp) (by simp) (fun _ => Iff.rfl) (fun _ => hd) (by simp [afterStop]) (fun _ => h.lateRun rfl) (by simp)
            (fun c hc => hc) (by simp [listTodo]) (by simp) (by simp [inSwitch, afterStop])
        · rw [self]
          exact h.next hnr (by simp) (by simp) (fun _ => Iff.rfl) (fun _ => hd) (by simp [afterStop]) (fun _ => h.lateRun rfl) (by simp)
            (fun c hc => hc) (by simp [listTodo]) (by simp) (by simp [inSwitch, afterStop])
  | starting u l =>
    have hnr : ∀ a b, ({ m := sm, rt := .starting u l } : St).rt ≠ .read a b := by simp
    have hd : m.params.doSwitch = true := h.sw rfl
    cases l with
    | nil => exact absurd rfl hb
    | cons c l =>
      have hs : c ∈ m.startReq := h.todo c (by simp [startTodo])
      have hc' : c ∈ m.cur.map (·.c) := hm.start c hs
      simp only [rtStep]
      rw [shot oneShot_start _ hc']
      refine h.next hnr (by simp) (by simp) (con1 oneShot_start _ hc') (fun _ => hd) (by simp [afterStop]) ?_ (by simp)
        (fun x hx => h.todo x (by simp only [startTodo] at hx ⊢; simp [hx])) (by simp [listTodo]) (by simp) (by simp [inSwitch, afterStop])
      intro _ x hx
      dsimp only at hx
      split at hx
      · rename_i e; rw [e]; exact Or.inl hs
      · exact h.lateRun rfl x hx
  | aborting u l =>
    have hnr : ∀ a b, ({ m := sm, rt := .aborting u l } : St).rt ≠ .read a b := by simp
    have hd : m.params.doSwitch = true := h.sw rfl
    cases l with
    | nil => exact absurd rfl hb
    | cons c l =>
      have hs : c ∈ m.startReq := h.todo c (by simp [startTodo])
      have hc' : c ∈ m.cur.map (·.c) := hm.start c hs
      simp only [rtStep]
      rw [shot oneShot_abort _ hc']
      refine h.next hnr (by simp) (by simp) (con1 oneShot_abort _ hc') (fun _ => hd) (by simp [afterStop]) ?_ (by simp)
        (fun x hx => h.todo x (by simp only [startTodo] at hx ⊢; simp [hx])) (by simp [listTodo]) (by simp) (by simp [inSwitch, afterStop])
      intro _ x hx
      dsimp only at hx
      split at hx
      · cases hx
      · exact h.lateRun rfl x hx
  | waiting u l =>
    have hnr : ∀ a b, ({ m := sm, rt := .waiting u l } : St).rt ≠ .read a b := by simp
    have hd : m.params.doSwitch = true := h.sw rfl
    cases l with
    | nil => exact absurd rfl hb
    | cons c l =>
      have hs : c ∈ m.startReq := h.todo c (by simp [startTodo])
      have hc' : c ∈ m.cur.map (·.c) := hm.start c hs
      simp only [rtStep]
      rw [shot oneShot_wait _ hc']
      refine h.next hnr (by simp) (by simp) (con1 oneShot_wait _ hc') (fun _ => hd) (by simp [afterStop]) ?_ (by simp)
        (fun x hx => h.todo x (by simp only [startTodo] at hx ⊢; simp [hx])) (by simp [listTodo]) (by simp) (by simp [inSwitch, afterStop])
      intro _ x hx
      dsimp only at hx
      split at hx
      · cases hx
      · exact h.lateRun rfl x hx
  | asap u n l =>
    have hnr : ∀ a b, ({ m := sm, rt := .asap u n l } : St).rt ≠ .read a b := by simp
    have hd : m.params.doSwitch = true := h.sw rfl
    cases l with
    | nil =>
      simp only [rtStep] at hb
      split at hb <;> exact absurd rfl hb
    | cons c l =>
      have hs : c ∈ m.startReq := h.todo c (by simp [startTodo])
      have hc' : c ∈ m.cur.map (·.c) := hm.start c hs
      obtain ⟨st, es, e, h1, h2⟩ := asap_entries (n := n) (time := u.time) (hw := u.hw) (c := c) m.cur sm
        (fun _ _ _ => halive c hc') (fun e => hcon c hc' e)
      have e' : rtStep { m := sm, rt := .asap u n (c :: l) } u' =
          { m := sm.upd (if sm.isRunning c then sm.state else st) (if sm.isRunning c then [] else es), rt := .asap u (n + 1) l } := by
        simp only [rtStep]
        rw [show sm.cur = m.cur from hcur, e]
        cases sm.isRunning c <;> simp [upd_self]
      rw [e']
      refine h.next hnr (by simp) (by simp) ?_ (fun _ => hd) (by simp [afterStop]) ?_ (by simp)
        (fun x hx => h.todo x (by simp only [startTodo] at hx ⊢; simp [hx])) (by simp [listTodo]) (by simp) (by simp [inSwitch, afterStop])
      · intro x
        cases sm.isRunning c
        · by_cases hx : x = c
          · subst hx
            simp [h2, hcon x hc']
          · simp [h1 x hx]
        · simp
      · intro _ x hx
        cases hr : sm.isRunning c
        · rw [hr] at hx
          by_cases hxc : x = c
          · rw [hxc]; exact Or.inl hs
          · have hx : st x = .running := hx
            rw [h1 x hxc] at hx
            exact h.lateRun rfl x hx
        · rw [hr] at hx
          exact h.lateRun rfl x hx

theorem mid_into {D P} {m : Mgr} (hm : InvD D P m) (u : Args) : ∀ {k : Nat} {s : St}, into m u k = some s → Mid m s
  | 0, s, e => by
    cases e
    exact ⟨rfl, rfl, fun h => h, Or.inl rfl, by simp [rtStep, start], fun a r e => by cases e; rfl, fun hn => absurd rfl (hn u m.current), fun _ => Iff.rfl,
      by simp [rtStep, start, inSwitch, afterStop], fun _ x hx => hx, by simp [rtStep, start, afterStop], by simp [rtStep, start],
      by simp [rtStep, start, startTodo], by simp [rtStep, start, listTodo], by simp [rtStep, start], fun _ _ => rfl⟩
  | k + 1, s, e => by
    unfold into at e
    cases h : into m u k with
    | none => rw [h] at e; cases e
    | some s0 =>
      rw [h] at e
      have ih := mid_into hm u h
      dsimp only at e
      have key : (rtStep s0 u).rt ≠ .idle ∧ s = rtStep s0 u := by
        cases hr : (rtStep s0 u).rt <;> rw [hr] at e <;> simp at e <;> simp [e]
      rw [key.2]
      exact mid_step hm ih u key.1

/-- The invariant holds in the middle of an update; except that a controller that is being restarted is not running. -/
theorem inv_mid {D P} (mono : ∀ l l', List.Sublist l' l → P l → P l') {m : Mgr} (hm : InvD D P m) {s : St} (h : Mid m s)
    (hD : D → ∀ u c l, s.rt ≠ .restarting u c l) (t : List Event) : InvD D P { s.m with trace := t } := by
  have hcur := mid_cur h
  have hoth := mid_oth h
  have hstart := mid_start h
  have hstop := mid_stop h
  have hsvc : s.m.svc = m.svc := by rw [h.frame]
  have hnext : s.m.nextId = m.nextId := by rw [h.frame]
  have hcurrent : s.m.current = m.current := by rw [h.frame]
  have hfault : s.m.fault = m.fault := by rw [h.frame]
  have hdo : s.m.params.doSwitch = m.params.doSwitch := by rw [h.params]
  have hsw : Switching { s.m with trace := t } ↔ m.Switching := by unfold Switching; simp [hsvc]
  have hrl : ReleasingList { s.m with trace := t } ↔ m.ReleasingList := by unfold ReleasingList; simp [hsvc]
  have hrun : ∀ x, s.m.state x = .running → m.state x = .running ∨ (m.params.doSwitch = true ∧ x ∈ m.startReq) := by
    intro x hx
    cases hl : afterStop s.rt
    · exact Or.inl (h.early hl x hx)
    · rcases h.lateRun hl x hx with e | e
      · refine Or.inr ⟨h.sw ?_, e⟩
        cases hr : s.rt <;> rw [hr] at hl <;> simp [afterStop] at hl <;> rfl
      · exact Or.inl e.1
  have hrunLoaded : ∀ x, s.m.state x = .running → x ∈ m.cur.map (·.c) := by
    intro x hx
    rcases hrun x hx with e | e
    · exact hm.running x e
    · exact hm.start x e.2
  constructor
  · show (s.m.cur.map _).Nodup; rw [hcur]; exact hm.names
  · show (s.m.cur.map _).Nodup; rw [hcur]; exact hm.objs
  · show ∀ x, x ∈ s.m.cur ∨ x ∈ s.m.oth → x.c < s.m.nextId
    rw [hcur, hoth, hnext]; exact hm.fresh
  · show ∀ x, x ∈ s.m.cur ∨ x ∈ s.m.oth → s.m.state x.c ≠ _
    rw [hcur, hoth]
    intro x hx e
    exact hm.inited x hx ((h.con _).1 e)
  · show ∀ c, s.m.nextId ≤ c → s.m.state c = _
    rw [hnext]
    intro c hc
    exact (h.con c).2 (hm.unborn c hc)
  · show ∀ c, s.m.state c = _ → c ∈ s.m.cur.map _
    rw [hcur]; exact hrunLoaded
  · rw [hsw]
    show _ → s.m.startReq = [] ∧ s.m.stopReq = []
    rw [hstart, hstop]; exact hm.reqs
  · show ∀ c ∈ s.m.startReq, c ∈ s.m.cur.map _
    rw [hstart, hcur]; exact hm.start
  · show ∀ c ∈ s.m.stopReq, c ∈ s.m.cur.map _
    rw [hstop, hcur]; exact hm.stop
  · show P ((s.m.cur.filter fun x => s.m.isRunning x.c).map (·.info))
    rw [hcur]
    cases hl : afterStop s.rt
    · refine infos_mono mono ?_ hm.free
      intro x hx hr
      exact isRunning_iff.2 (h.early hl _ (isRunning_iff.1 hr))
    · have hd : m.params.doSwitch = true := by
        refine h.sw ?_
        cases hr : s.rt <;> rw [hr] at hl <;> simp [afterStop] at hl <;> rfl
      refine infos_mono mono ?_ (hm.target hd)
      intro x hx hr
      rcases h.lateRun hl _ (isRunning_iff.1 hr) with e | e
      · simp [e]
      · simp [isRunning_iff.2 e.1, e.2]
  · intro hd
    have hd : m.params.doSwitch = true := hdo ▸ hd
    show P ((s.m.cur.filter fun x => (s.m.isRunning x.c && !decide (x.c ∈ s.m.stopReq)) || decide (x.c ∈ s.m.startReq)).map (·.info))
    rw [hcur, hstart, hstop]
    refine infos_mono mono ?_ (hm.target hd)
    intro x hx hr
    simp only [Bool.or_eq_true, Bool.and_eq_true, decide_eq_true_eq, Bool.not_eq_true',
      decide_eq_false_iff_not] at hr ⊢
    rcases hr with ⟨hr, hr'⟩ | hr
    · rcases hrun _ (isRunning_iff.1 hr) with e | e
      · exact Or.inl ⟨isRunning_iff.2 e, hr'⟩
      · exact Or.inr e.2
    · exact Or.inr hr
  · rw [hsw]
    intro hs hd hDD
    have hd : m.params.doSwitch = false := hdo ▸ hd
    have hin : inSwitch s.rt = false := by
      cases hi : inSwitch s.rt
      · rfl
      · rw [h.sw hi] at hd; cases hd
    have hst := h.kept hin (hD hDD)
    obtain ⟨d1, d2, d3⟩ := hm.done hs hd hDD
    refine ⟨?_, ?_, ?_⟩
    · exact h.started d1
    · show ∀ c ∈ s.m.startReq, s.m.state c = _ ∨ s.m.state c = _
      rw [hstart, hst]; exact d2
    · show ∀ c ∈ s.m.stopReq, c ∉ s.m.startReq → s.m.state c ≠ _
      rw [hstart, hstop, hst]; exact d3
  · rw [hrl]
    intro hn
    show s.m.used ≠ some (!s.m.current)
    rw [hcurrent]
    rcases h.used with e | e
    · rw [e]; exact hm.used hn
    · rw [e]; simp
  · show ∀ f r, s.m.svc = _ → f = !s.m.current
    rw [hsvc, hcurrent]; exact hm.former
  · rw [hrl]
    show _ → ∀ x ∈ s.m.oth, x ∈ s.m.cur
    rw [hcur, hoth]; exact hm.old
  · show s.m.fault = false
    rw [hfault]; exact hm.fault

theorem not_restarting {m : Mgr} {u : Args} (hu : u.reset = false) : ∀ {k : Nat} {s : St}, into m u k = some s →
    (∀ a l, s.rt ≠ .resetting a l) ∧ (∀ a c l, s.rt ≠ .restarting a c l) ∧ ∀ a r, s.rt = .read a r → a = u
  | 0, s, e => by
    cases e
    exact ⟨by simp [rtStep, start], by simp [rtStep, start], fun a r e => by cases e; rfl⟩
  | k + 1, s, e => by
    unfold into at e
    cases h : into m u k with
    | none => rw [h] at e; cases e
    | some s0 =>
      rw [h] at e
      obtain ⟨h1, h2, h3⟩ := not_restarting hu h
      dsimp only at e
      have key : s = rtStep s0 u := by
        cases hr : (rtStep s0 u).rt <;> rw [hr] at e <;> simp at e <;> exact e.symm
      rw [key]
      obtain ⟨m0, rt⟩ := s0
      cases rt with
      | read a r => 
        have := h3 a r rfl
        subst this
        simp [rtStep, hu]
      | resetting a l => exact absurd rfl (h1 a l)
      | restarting a c l => exact absurd rfl (h2 a c l)
      | looking a => simp only [rtStep]; split <;> simp
      | choosing a => simp only [rtStep]; split <;> [skip; (split <;> [skip; split])] <;> simp
      | idle => simp [rtStep] at *
      | updating a l => cases l <;> simp [rtStep]
      | stopping a l => cases l <;> simp [rtStep]
      | starting a l => cases l <;> simp [rtStep]
      | aborting a l => cases l <;> simp [rtStep]
      | waiting a l => cases l <;> simp [rtStep]
      | asap a n l =>
        cases l with
        | nil => simp only [rtStep]; split <;> simp
        | cons c l => simp [rtStep]

end Verif.Inter

namespace Verif.Mgr

open _root_.Verif.Inter

theorem inv_updateThrows {D P} (mono : ∀ l l', List.Sublist l' l → P l → P l') {m : Mgr} (hm : InvD D P m) (u : Args) (k : Nat)
    (hD : D → u.reset = false) : InvD D P (m.updateThrows u k) := by
  unfold updateThrows
  cases h : into m u k with
  | none => exact hm
  | some s =>
    dsimp only
    split
    · exact inv_mid mono hm (mid_into hm u h) (fun d => (not_restarting (hD d) h).2.1) _
    · exact hm

theorem inv_xstep {D conf P} (hc : CheckOk conf P) {m : Mgr} (hm : InvD D P m) (op : XOp) (h1 : op.rosUp) (h2 : op.inUpdates = true)
    (hD : D → op.noRestart = true) : InvD D P (m.xstep conf op) := by
  cases op with
  | op o => exact inv_step hc hm o h1
  | updateThrows u k => exact inv_updateThrows hc.mono hm u k (fun d => by simpa [XOp.noRestart] using hD d)
  | switchThrows r now => cases h2
  | reloadThrows now => cases h2

theorem inv_xrun {D conf P} (hc : CheckOk conf P) (ops : List XOp) : ∀ {m : Mgr}, InvD D P m → (∀ op ∈ ops, op.rosUp ∧ op.inUpdates = true) →
    (D → ∀ op ∈ ops, op.noRestart = true) → InvD D P (m.xrun conf ops) := by
  induction ops with
  | nil => exact fun h _ _ => h
  | cons op ops ih =>
    intro m h h1 h2
    exact ih (inv_xstep hc h op (h1 op (by simp)).1 (h1 op (by simp)).2 (fun d => h2 d op (by simp)))
      (fun o ho => h1 o (by simp [ho])) (fun d o ho => h2 d o (by simp [ho]))

theorem inv_uReachable {conf P} (hc : CheckOk conf P) {m : Mgr} (h : UReachable conf m) : InvD False P m := by
  obtain ⟨ops, h1, rfl⟩ := h
  exact inv_xrun hc ops (inv_init hc.nil) h1 False.elim

end Verif.Mgr
