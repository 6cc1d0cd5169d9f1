import Verif.Spec.ThreadsInterleaved
import Verif.Lemmas.Threads
import Verif.Lemmas.RefinementRun

/-!
Helper lemmas: several threads and an update that is interrupted.
-/

namespace Verif.ThrInt

open Mgr Thr Inter

/-! ### The invariant of the manager -/

theorem inv_svc {P} {m : Mgr} {x : Svc} (h : Inv P (withSvc m x))
    (hs : m.Switching ↔ ∃ k t, x = .switching k t) (hr : (∃ f r, x = .releasing f r) → m.ReleasingList)
    (hf : ∀ f r, m.svc = .releasing f r → ∃ r', x = .releasing f r') : Inv P m := by
  have hs' : (withSvc m x).Switching ↔ m.Switching := hs.symm
  have hr' : ¬ m.ReleasingList → ¬ (withSvc m x).ReleasingList := fun h1 h2 => h1 (hr h2)
  exact ⟨h.names, h.objs, h.fresh, h.inited, h.unborn, h.running, fun hh => h.reqs (fun h2 => hh (hs'.1 h2)), h.start, h.stop,
    h.free, h.target, fun h1 => h.done (hs'.2 h1), fun h1 => h.used (hr' h1),
    fun f r e => by obtain ⟨r', e'⟩ := hf f r e; exact h.former f r' e', fun h1 => h.old (hr' h1), h.fault⟩

/-- The invariant of C01 holds of the manager that threads use. -/
theorem good_inv {conf P} (hc : CheckOk conf P) {pt D : Bool} {s : Thr.St} (h : Good conf pt D s) : Inv P s.mgr := by
  have hi := inv_of_serial hc h.serial
  unfold seqOf at hi
  split at hi
  · exact hi
  · rename_i t hsv
    unfold view at hi
    have hin : InService (s.pos t) = true := (h.locks.srv t).1 hsv
    -- nobody else is inside
    have alone : D = false → Inside (s.pos t) = false → s.mgr.svc = .idle := by
      intro hD hni
      rw [← h.locks.svc]
      cases hct : s.controllers with
      | none => rfl
      | some t' =>
        exfalso
        have h1 := (h.locks.ctrl t').1 hct
        have h2 := h.calm t'
        subst hD
        have h3 : InService (s.pos t') = true := by
          cases hp : s.pos t' <;> rw [hp] at h1 h2 <;> first | exact h2 | cases h1
        have h4 := (h.locks.srv t').2 h3
        rw [hsv] at h4
        cases h4
        rw [h1] at hni
        cases hni
    have unl : ∀ l, s.mgr.svc = .idle → Inv P (withSvc s.mgr (.unloading l)) → Inv P s.mgr := by
      intro l e h1
      refine inv_svc h1 ?_ ?_ ?_
      · constructor
        · rintro ⟨k, t, h2⟩; rw [e] at h2; cases h2
        · rintro ⟨k, t, h2⟩; cases h2
      · rintro ⟨f, r, h2⟩; cases h2
      · intro f r h2; rw [e] at h2; cases h2
    have dF : (∀ b, Calm b (s.pos t) = true → b = false) → D = false := fun hh => hh D (h.calm t)
    cases hp : s.pos t with
    | inside srv k =>
      rw [hp] at hi
      cases k with
      | none => exact hi
      | some ns =>
        change Inv P (withSvc s.mgr (addK ns s.mgr.svc)) at hi
        refine inv_svc hi ?_ ?_ ?_
        · constructor
          · rintro ⟨k, t, e⟩
            rw [e]
            cases k
            · exact ⟨_, _, rfl⟩
            · exact ⟨_, _, rfl⟩
          · rintro ⟨k, t, e⟩
            unfold addK at e
            split at e
            · rename_i e'; exact ⟨_, _, e'⟩
            · cases e
            · exact ⟨_, _, e⟩
        · rintro ⟨f, r, e⟩
          unfold addK at e
          split at e
          · cases e
          · rename_i e'; exact ⟨_, _, e'⟩
          · exact ⟨_, _, e⟩
        · intro f r e
          rw [e]
          cases r with
          | load n => exact ⟨_, rfl⟩
          | unload n k => cases k <;> exact ⟨_, rfl⟩
    | atUnload n ns =>
      rw [hp] at hi
      exact unl _ (alone (dF fun b hb => by rw [hp] at hb; cases b; rfl; cases hb) (by rw [hp]; rfl)) hi
    | atEnd =>
      rw [hp] at hi
      exact unl _ (alone (dF fun b hb => by rw [hp] at hb; cases b; rfl; cases hb) (by rw [hp]; rfl)) hi
    | atLoaders k =>
      rw [hp] at hi
      cases k with
      | false => exact hi
      | true => exact unl _ (alone (dF fun b hb => by rw [hp] at hb; cases b; rfl; cases hb) (by rw [hp]; rfl)) hi
    | idle => rw [hp] at hi; exact hi
    | atServices c => rw [hp] at hi; exact hi
    | entered srv c => rw [hp] at hi; exact hi
    | beforeSwitch srv r now p k => rw [hp] at hi; exact hi
    | atSwitch srv r now p k => rw [hp] at hi; exact hi

/-- No switch has been abandoned. -/
theorem good_kept {conf} {D : Bool} {s : Thr.St} (h : Good conf true D s) : Kept s.mgr := by
  have hk := kept_of_serial h.serial
  unfold seqOf at hk
  split at hk
  · exact hk
  · rename_i t hsv
    have key : ∀ x, x = lift (s.pos t) s.mgr.svc → (∀ k τ, x = .switching k τ → ∃ k', s.mgr.svc = .switching k' τ) ∧
        (∀ k τ, s.mgr.svc = .switching k τ → (∃ k', x = .switching k' τ) ∨ ∃ l, x = .unloading l) := by
      rintro x rfl
      unfold lift
      split
      · rename_i ns _
        constructor
        · intro k τ e
          unfold addK at e
          split at e
          · rename_i e'; cases e; exact ⟨_, e'⟩
          · cases e
          · exact ⟨_, e⟩
        · intro k τ e
          rw [e]
          cases k
          · exact Or.inl ⟨_, rfl⟩
          · exact Or.inl ⟨_, rfl⟩
      · exact ⟨fun k τ e => (by cases e), fun k τ e => Or.inr ⟨_, rfl⟩⟩
      · exact ⟨fun k τ e => (by cases e), fun k τ e => Or.inr ⟨_, rfl⟩⟩
      · exact ⟨fun k τ e => (by cases e), fun k τ e => Or.inr ⟨_, rfl⟩⟩
      · exact ⟨fun k τ e => ⟨k, e⟩, fun k τ e => Or.inl ⟨k, e⟩⟩
    obtain ⟨k1, k2⟩ := key _ rfl
    have pend : s.mgr.params.doSwitch = true → s.mgr.Switching := by
      intro hd
      obtain ⟨k, τ, e⟩ := hk.pending hd
      obtain ⟨k', e'⟩ := k1 k τ e
      exact ⟨k', τ, e'⟩
    refine ⟨pend, fun k τ e => ?_⟩
    rcases k2 k τ e with ⟨k', e'⟩ | ⟨l, e'⟩
    · exact hk.zero k' τ e'
    · -- a thread that waits is inside, and then the holder of the services is at no other place
      exfalso
      have hin : InService (s.pos t) = true := (h.locks.srv t).1 hsv
      have hct : s.controllers ≠ none := fun hh => by rw [h.locks.svc.1 hh] at e; cases e
      obtain ⟨t', ht'⟩ := Option.ne_none_iff_exists'.1 hct
      have hI := (h.locks.ctrl t').1 ht'
      obtain ⟨srv, q, hq⟩ : ∃ srv q, s.pos t' = .inside srv q := by
        cases hp : s.pos t' <;> rw [hp] at hI <;> first | exact ⟨_, _, rfl⟩ | cases hI
      have hok := h.ok t'
      rw [hq] at hok
      have hs := hok.1 ⟨k, τ, e⟩
      have h3 := (h.locks.srv t').2 (by rw [hq]; exact hs)
      rw [hsv] at h3
      cases h3
      rw [hq] at e'
      cases q with
      | none => rw [show lift (.inside srv none) s.mgr.svc = s.mgr.svc from rfl, e] at e'; cases e'
      | some ns =>
        rw [show lift (.inside srv (some ns)) s.mgr.svc = addK ns s.mgr.svc from rfl, e] at e'
        cases k <;> cases e'

/-! ### The relation to an execution in which updates are not interrupted -/

theorem rel_svc_eq {s : Inter.St} {a : Mgr} (h : Rel s a) (hr : ∀ u c l, s.rt ≠ .restarting u c l) :
    a.svc = s.m.svc ∧ a.params.doSwitch = s.m.params.doSwitch := by
  have sm : ∀ {p}, Same p s.m a → a.svc = s.m.svc ∧ a.params.doSwitch = s.m.params.doSwitch := fun h =>
    ⟨(same_dec h).2.1, by rw [(same_dec h).1]⟩
  have pend : ∀ {u}, Pending s u a → a.svc = s.m.svc ∧ a.params.doSwitch = s.m.params.doSwitch := fun h =>
    ⟨h.svc, by rw [h.doSwitch, h.doSwitch']⟩
  obtain ⟨m, rt⟩ := s
  cases rt with
  | idle => exact sm h
  | read u r =>
    rcases h with ⟨_, h⟩ | ⟨_, _, _, _, h⟩
    · exact sm h
    · exact sm h
  | restarting u c l => exact absurd rfl (hr u c l)
  | resetting u l => exact h.elim (fun h => sm h.same) pend
  | updating u l => exact h.elim (fun h => sm h.same) pend
  | looking u => exact h.elim (fun h => sm h.same) pend
  | stopping u l => exact pend h
  | choosing u => exact pend h
  | starting u l => exact pend h
  | aborting u l => exact pend h
  | waiting u l => exact pend h
  | asap u n l => exact pend h

theorem rel_same {s : Inter.St} {a : Mgr} (h : Rel s a) (hc : Inter.Calm s) (hd : s.m.params.doSwitch = false) :
    ∃ p, Same p s.m a := by
  have pend : ∀ {u}, ¬ Pending s u a := fun h => by rw [h.doSwitch] at hd; cases hd
  obtain ⟨m, rt⟩ := s
  cases rt with
  | idle => exact ⟨_, h⟩
  | read u r =>
    rcases h with ⟨_, h⟩ | ⟨_, _, _, _, h⟩
    · exact ⟨_, h⟩
    · exact ⟨_, h⟩
  | restarting u c l => exact absurd rfl (hc.restarting u c l)
  | resetting u l => exact absurd rfl (hc.resetting u l)
  | updating u l => exact h.elim (fun h => ⟨_, h.same⟩) fun h => absurd h pend
  | looking u => exact h.elim (fun h => ⟨_, h.same⟩) fun h => absurd h pend
  | stopping u l => exact absurd h pend
  | choosing u => exact absurd h pend
  | starting u l => exact absurd h pend
  | aborting u l => exact absurd h pend
  | waiting u l => exact absurd h pend
  | asap u n l => exact absurd h pend

/-- A change that does not concern the update in progress. -/
theorem rel_map {m m' a a' : Mgr} {rt : Rt} (h : Rel ⟨m, rt⟩ a) (hc : Inter.Calm ⟨m, rt⟩) (hd : m.params.doSwitch = false)
    (hs : ∀ p, Same p m a → Same p m' a') (h1 : usedList m' = usedList m) (h2 : m'.current = m.current)
    (h3 : m'.used = m.used) (h4 : m'.svc = m.svc) (h5 : m'.params.doSwitch = false) : Rel ⟨m', rt⟩ a' := by
  have pend : ∀ {u}, ¬ Pending ⟨m, rt⟩ u a := fun h => by rw [show m.params.doSwitch = true from h.doSwitch] at hd; cases hd
  have don : ∀ {l p}, Done m l p a → Done m' l p a' := fun h =>
    ⟨fun s hs => by rw [h1]; exact h.todo s hs, fun hh => by rw [h5] at hh; (cases hh), hs _ h.same⟩
  cases rt with
  | idle => exact hs _ h
  | read u r =>
    have hu := hc.reset u r rfl
    rcases h with ⟨e, h⟩ | ⟨e, g1, ⟨f, q, g2⟩, g3, h⟩
    · exact Or.inl ⟨e.trans h2.symm, hs _ h⟩
    · refine Or.inr ⟨fun hh => e (hh.trans h2), h3.trans g1, ⟨f, q, h4.trans g2⟩, h5, ?_⟩
      simp only [hu, Bool.false_eq_true, if_false] at h ⊢
      exact hs _ h
  | restarting u c l => exact absurd rfl (hc.restarting u c l)
  | resetting u l => exact absurd rfl (hc.resetting u l)
  | updating u l => exact Or.inl (h.elim don fun h => absurd h pend)
  | looking u => exact Or.inl (h.elim don fun h => absurd h pend)
  | stopping u l => exact absurd h pend
  | choosing u => exact absurd h pend
  | starting u l => exact absurd h pend
  | aborting u l => exact absurd h pend
  | waiting u l => exact absurd h pend
  | asap u n l => exact absurd h pend

theorem rel_emit {m a : Mgr} {rt : Rt} (h : Rel ⟨m, rt⟩ a) (hc : Inter.Calm ⟨m, rt⟩) (hd : m.params.doSwitch = false)
    (b : Bool) : Rel ⟨m.emit [.reloadRet b], rt⟩ (a.emit [.reloadRet b]) := by
  refine rel_map h hc hd (fun p hs => ?_) rfl rfl rfl rfl hd
  have e := hs.eq
  refine ⟨?_, ?_, ?_⟩
  · show { a with trace := a.trace ++ [Event.reloadRet b] } = _
    rw [e]
    rfl
  · show transitions (a.trace ++ [.reloadRet b]) = transitions (m.trace ++ [.reloadRet b]) ++ p
    simp only [transitions_append, hs.trans]
    simp [transitions, Event.realtime]
  · show answers (a.trace ++ [.reloadRet b]) = answers (m.trace ++ [.reloadRet b])
    simp only [answers_append, hs.ans]

theorem rel_forget {m a : Mgr} {rt : Rt} (h : Rel ⟨m, rt⟩ a) (hc : Inter.Calm ⟨m, rt⟩) (hd : m.params.doSwitch = false) :
    Rel ⟨{ m with params := {} }, rt⟩ { a with params := {} } := by
  refine rel_map h hc hd (fun p hs => ?_) rfl rfl rfl rfl rfl
  have e := hs.eq
  refine ⟨?_, hs.trans, hs.ans⟩
  rw [e]
  rfl

theorem calm_of {m m' : Mgr} {rt : Rt} (hc : Inter.Calm ⟨m, rt⟩)
    (h : m'.params.doSwitch = true → m'.Switching) : Inter.Calm ⟨m', rt⟩ :=
  ⟨hc.reset, hc.resetting, hc.restarting, h⟩

/-! ### What is returned last -/

theorem ends_service {conf P} {m : Mgr} (hm : Inv P m) {op : Op} (hop : op.isService = true)
    (hr : Returned m (m.step conf op)) : ∃ l e, (m.step conf op).trace = l ++ [e] ∧ e.realtime = false := by
  obtain ⟨es, h1, h2⟩ := blind_step conf m hm op hop
  have h3 := congrArg Mgr.trace (h2 m.trace)
  simp only [withTrace_self] at h3
  have h3 : (m.step conf op).trace = m.trace ++ es := h3
  obtain ⟨es', h4⟩ := hr
  rw [h3, List.append_assoc, List.append_cancel_left_eq] at h4
  exact ⟨m.trace ++ es', last (m.step conf op), by rw [h3, h4, List.append_assoc], h1 _ (by rw [h4]; simp)⟩

theorem last_answers {m : Mgr} {l : List Event} {e : Event} (h : m.trace = l ++ [e]) (he : e.realtime = false) :
    (answers m.trace).getLast? = some (last m) := by
  rw [last_eq h, h, answers_append]
  simp [answers, he]

theorem last_same {p : List Event} {m a : Mgr} (h : Same p m a) (hm : ∃ l e, m.trace = l ++ [e] ∧ e.realtime = false)
    (ha : ∃ l e, a.trace = l ++ [e] ∧ e.realtime = false) : last m = last a := by
  obtain ⟨l, e, h1, h2⟩ := hm
  obtain ⟨l', e', h1', h2'⟩ := ha
  have h3 := last_answers h1 h2
  rw [← h.ans, last_answers h1' h2'] at h3
  exact (Option.some.inj h3).symm

/-! ### Threads -/

/-- The state `x` of an execution with interrupted updates, and the state `a` of one in which they are not. -/
structure Link (x : St) (a : Thr.St) : Prop where
  eq : x.s = { a with mgr := x.s.mgr }
  used : a.mgr.used ≠ none
  rel : Rel ⟨x.s.mgr, x.rt⟩ a.mgr
  calm : Inter.Calm ⟨x.s.mgr, x.rt⟩

theorem link_back {s a : Thr.St} {rt : Rt} (h : Link ⟨s, rt⟩ a) (hd : s.mgr.params.doSwitch = false) (t : Tid) (srv : Bool)
    (k : Option (List String)) (e : Event) : Link ⟨s.back t srv k e, rt⟩ (a.back t srv k e) := by
  obtain ⟨h1, h2, h3, h4⟩ := h
  have endR : Link ⟨s.endReload t false, rt⟩ (a.endReload t false) := by
    refine ⟨?_, h2, rel_emit h3 h4 hd false, calm_of h4 (fun hh => ?_)⟩
    · simp only at h1 ⊢
      rw [h1]; rfl
    · exact h4.switch hh
  cases k with
  | none =>
    refine ⟨?_, h2, h3, h4⟩
    simp only at h1 ⊢
    rw [h1]; rfl
  | some rest =>
    unfold St.back
    cases okOf e
    · exact endR
    · refine ⟨?_, h2, h3, h4⟩
      simp only at h1 ⊢
      rw [h1]; rfl

theorem link_endReload {s a : Thr.St} {rt : Rt} (h : Link ⟨s, rt⟩ a) (hd : s.mgr.params.doSwitch = false) (t : Tid) (b : Bool) :
    Link ⟨s.endReload t b, rt⟩ (a.endReload t b) := by
  obtain ⟨h1, h2, h3, h4⟩ := h
  refine ⟨?_, h2, rel_emit h3 h4 hd b, calm_of h4 fun hh => h4.switch hh⟩
  simp only at h1 ⊢
  rw [h1]; rfl

theorem link_locked {s a : Thr.St} {rt : Rt} {m m' : Mgr} (h1 : s = { a with mgr := s.mgr }) (hu : m'.used ≠ none)
    (h3 : Rel ⟨m, rt⟩ m') (h4 : Inter.Calm ⟨m, rt⟩) (hl : m.svc = .idle → last m = last m') (t : Tid) (srv : Bool)
    (k : Option (List String)) : Link ⟨s.locked t srv k m, rt⟩ (a.locked t srv k m') := by
  have hs : m'.svc = m.svc := (rel_svc_eq h3 h4.restarting).1
  unfold St.locked
  rw [hs]
  split
  · rename_i hi
    rw [hl hi]
    refine link_back (s := { s with mgr := m }) (a := { a with mgr := m' }) ⟨?_, hu, h3, h4⟩ ?_ t srv k _
    · simp only at h1 ⊢
      rw [h1]
    · by_contra hd
      obtain ⟨k, τ, e⟩ := h4.switch (by simpa using hd)
      rw [show m.svc = _ from e] at hi; cases hi
  · refine ⟨?_, hu, h3, h4⟩
    simp only at h1 ⊢
    rw [h1]; rfl

/-- Only updates. -/
def Updates (l : List ThrOp) : Prop := ∀ o ∈ l, ∃ t r hw, o = .update t r hw

theorem updates_nil : Updates [] := fun _ h => absurd h (by simp)

/-- What is known after an operation of the manager that both executions make. -/
structure Exec (conf : List ControllerInfo → Bool) (m : Mgr) (rt : Rt) (a : Thr.St) (op : Op) (pre : List ThrOp) (b : Mgr) : Prop where
  ups : Updates pre
  run : a.run conf pre = { a with mgr := b }
  rel : Rel ⟨m.step conf op, rt⟩ (b.step conf op)
  calm : Inter.Calm ⟨m.step conf op, rt⟩
  inv : Inv (fun _ => True) b
  used : b.used ≠ none
  used' : (b.step conf op).used ≠ none
  svc : b.svc = m.svc
  params : m.params.doSwitch = false → b.params = m.params
  next : m.params.doSwitch = false → b.nextId = m.nextId

theorem same_next {p : List Event} {m a : Mgr} (h : Same p m a) : a.nextId = m.nextId := by
  rw [h.eq]; rfl

theorem exec {conf : List ControllerInfo → Bool} {m : Mgr} {rt : Rt} {a : Thr.St} {op : Op} (hop : op.isService = true)
    (i : Inv (fun _ => True) a.mgr) (hu : a.mgr.used ≠ none) (h : Rel ⟨m, rt⟩ a.mgr) (hc : Inter.Calm ⟨m, rt⟩)
    (hp : Patient ⟨m, rt⟩ (.svc op)) : ∃ pre b, Exec conf m rt a op pre b := by
  have care : Careful ⟨m, rt⟩ (.svc op) :=
    ⟨hp.1, fun _ hd => patient_blocked hc hp hd, fun ⟨u, c, l, e⟩ => absurd e (hc.restarting u c l)⟩
  have hcalm := calm_svc (conf := conf) i h hc hop hp
  obtain ⟨e1, e2⟩ := rel_svc_eq h hc.restarting
  have same : m.params.doSwitch = false → a.mgr.params = m.params ∧ a.mgr.nextId = m.nextId := fun hd => by
    obtain ⟨p, hs⟩ := rel_same h hc hd
    exact ⟨(same_dec hs).1, same_next hs⟩
  have here : Rel ⟨m.step conf op, rt⟩ (a.mgr.step conf op) → ∃ pre b, Exec conf m rt a op pre b := fun g =>
    ⟨[], a.mgr, updates_nil, rfl, g, hcalm, i, hu, used_step i hu hp.1, e1, fun hd => (same hd).1, fun hd => (same hd).2⟩
  cases hd : m.params.doSwitch with
  | true =>
    have hb := patient_blocked hc hp hd
    apply here
    rw [blocked_step hb hop hp.1, blocked_step (blocked_congr hb e1 e2) hop hp.1]
    exact h
  | false =>
    rcases rel_svc (conf := conf) i hu h hop care with g | ⟨t, r, hw, g⟩
    · exact here g
    · have hd' : a.mgr.params.doSwitch = false := e2.trans hd
      have iu := inv_step (checkOk_true conf) i (.update t r hw) trivial
      have uu := used_step (conf := conf) i hu (op := .update t r hw) trivial
      have eu := update_idle a.mgr hd' t r hw
      refine ⟨[.update t r hw], a.mgr.update t r hw, ?_, rfl, g, hcalm, iu, uu, used_step iu uu hp.1, ?_, fun _ => ?_, fun _ => ?_⟩
      · intro o ho
        simp only [List.mem_singleton] at ho
        exact ⟨t, r, hw, ho⟩
      · exact (svc_update _ _ _ _).trans e1
      · rw [eu]; exact (same hd).1
      · rw [eu]; exact (same hd).2

/-- Both executions return the same, if they return. -/
theorem exec_last {conf : List ControllerInfo → Bool} {m : Mgr} {rt : Rt} {a : Thr.St} {op : Op} {pre : List ThrOp} {b : Mgr}
    (h : Exec conf m rt a op pre b) (hop : op.isService = true) (hm : Inv (fun _ => True) m)
    (r1 : (m.step conf op).svc = .idle → Returned m (m.step conf op))
    (r2 : (b.step conf op).svc = .idle → Returned b (b.step conf op)) (hi : (m.step conf op).svc = .idle) :
    last (m.step conf op) = last (b.step conf op) := by
  have hs : (b.step conf op).svc = (m.step conf op).svc := (rel_svc_eq h.rel h.calm.restarting).1
  have hd : (m.step conf op).params.doSwitch = false := by
    by_contra hd
    obtain ⟨k, τ, e⟩ := h.calm.switch (by simpa using hd)
    rw [show (m.step conf op).svc = _ from e] at hi; cases hi
  obtain ⟨p, hp⟩ := rel_same h.rel h.calm hd
  exact last_same hp (ends_service hm hop (r1 hi)) (ends_service h.inv hop (r2 (hs.trans hi)))

/-- A list that is no longer in use is not in use. -/
theorem free_list {P} {m : Mgr} (i : Inv P m) (hi : m.svc = .idle) : m.used ≠ some (!m.current) := by
  exact i.used (by rintro ⟨f, r, e⟩; rw [hi] at e; cases e)

theorem not_switching {m : Mgr} (h : m.svc = .idle) : ¬ m.Switching := by
  rintro ⟨k, τ, e⟩; rw [h] at e; cases e

/-- A function called with the lock. -/
structure Called (conf : List ControllerInfo → Bool) (m : Mgr) (rt : Rt) (a : Thr.St) (op : Op) (t : Tid) (srv : Bool)
    (k : Option (List String)) (pre : List ThrOp) (b : Mgr) : Prop where
  ups : Updates pre
  run : a.run conf pre = { a with mgr := b }
  idle : m.svc = .idle ∧ b.svc = .idle
  free : m.used ≠ some (!m.current) ∧ b.used ≠ some (!b.current)
  params : m.params = a.mgr.params ∧ b.params = a.mgr.params
  next : b.nextId = m.nextId
  link : ∀ made, Link ⟨{ a with mgr := m, made := made }.locked t srv k (m.step conf op), rt⟩
    ({ a with mgr := b, made := made }.locked t srv k (b.step conf op))

theorem called {conf : List ControllerInfo → Bool} {m : Mgr} {rt : Rt} {a : Thr.St} (i : Inv (fun _ => True) a.mgr)
    (hu : a.mgr.used ≠ none) (h : Rel ⟨m, rt⟩ a.mgr) (hc : Inter.Calm ⟨m, rt⟩) (hi : a.mgr.svc = .idle) {op : Op}
    (hop : op.isService = true) (hup : op.rosUp)
    (hret : ∀ m : Mgr, m.svc = .idle → m.used ≠ some (!m.current) → m.params = a.mgr.params →
      (m.step conf op).svc = .idle → Returned m (m.step conf op)) (t : Tid) (srv : Bool) (k : Option (List String)) :
    ∃ pre b, Called conf m rt a op t srv k pre b := by
  obtain ⟨e1, e2⟩ := rel_svc_eq h hc.restarting
  have hmi : m.svc = .idle := e1.symm.trans hi
  have hd : m.params.doSwitch = false := by
    by_contra hd
    exact not_switching hmi (hc.switch (by simpa using hd))
  have im : Inv (fun _ => True) m := rel_inv i h hd hc.restarting
  have hpat : Patient ⟨m, rt⟩ (.svc op) := ⟨hup, fun ok el _ k τ e => by
    rw [show m.svc = _ from e] at hmi; cases hmi⟩
  obtain ⟨p, hs⟩ := rel_same h hc hd
  have hpm : m.params = a.mgr.params := (same_dec hs).1.symm
  obtain ⟨pre, b, x⟩ := exec hop i hu h hc hpat (conf := conf)
  have hbi : b.svc = .idle := x.svc.trans hmi
  have hbp : b.params = a.mgr.params := (x.params hd).trans hpm
  refine ⟨pre, b, x.ups, x.run, ⟨hmi, hbi⟩, ⟨free_list im hmi, free_list x.inv hbi⟩, ⟨hpm, hbp⟩, x.next hd, fun made => ?_⟩
  refine link_locked rfl x.used' x.rel x.calm (fun hh => ?_) t srv k
  exact exec_last x hop im (hret m hmi (free_list im hmi) hpm) (hret b hbi (free_list x.inv hbi) hbp) hh

theorem run_append (conf) (s : Thr.St) (l l' : List ThrOp) : s.run conf (l ++ l') = (s.run conf l).run conf l' := by
  simp [Thr.St.run]

/-- A thread makes a step. -/
theorem link_go {conf : List ControllerInfo → Bool} {D : Bool} {x : St} {a : Thr.St} (g : Good conf true D a) (h : Link x a)
    (t : Tid) {ok : RosOk} (hok : ok.cond = true ∧ ok.body = true) (el : Int) :
    ∃ pre, Updates pre ∧ Link (x.step conf (.go t ok el)) (a.run conf (pre ++ [.go t ok el])) := by
  obtain ⟨s, rt⟩ := x
  have i := good_inv (checkOk_true conf) g
  have kept := good_kept g
  obtain ⟨e1, e2⟩ := rel_svc_eq h.rel h.calm.restarting
  have heq := h.eq
  simp only at heq e1 e2
  -- nothing happens
  have stay : s.go conf t ok el = none → a.go conf t ok el = none →
      ∃ pre, Updates pre ∧ Link (St.step conf ⟨s, rt⟩ (.go t ok el)) (a.run conf (pre ++ [.go t ok el])) := by
    intro h1 h2
    refine ⟨[], updates_nil, ?_⟩
    simp only [St.step, h1, List.nil_append, Thr.St.run, List.foldl_cons, List.foldl_nil, Thr.St.step, h2, Option.getD_none]
    exact h
  -- no update is needed before
  have move : ∀ s' a', s.go conf t ok el = some s' → a.go conf t ok el = some a' → Link ⟨s', rt⟩ a' →
      ∃ pre, Updates pre ∧ Link (St.step conf ⟨s, rt⟩ (.go t ok el)) (a.run conf (pre ++ [.go t ok el])) := by
    intro s' a' h1 h2 h3
    refine ⟨[], updates_nil, ?_⟩
    simp only [St.step, h1, List.nil_append, Thr.St.run, List.foldl_cons, List.foldl_nil, Thr.St.step, h2, Option.getD_some]
    exact h3
  have fin : ∀ pre b s' a', Updates pre → a.run conf pre = { a with mgr := b } → s.go conf t ok el = some s' →
      ({ a with mgr := b } : Thr.St).go conf t ok el = some a' → Link ⟨s', rt⟩ a' →
      ∃ pre, Updates pre ∧ Link (St.step conf ⟨s, rt⟩ (.go t ok el)) (a.run conf (pre ++ [.go t ok el])) := by
    intro pre b s' a' h0 h0' h1 h2 h3
    refine ⟨pre, h0, ?_⟩
    rw [run_append, h0']
    simp only [St.step, h1, Thr.St.run, List.foldl_cons, List.foldl_nil, Thr.St.step, h2, Option.getD_some]
    exact h3
  generalize hm : s.mgr = m at *
  obtain rfl : s = { a with mgr := m } := heq
  have hpos : ({ a with mgr := m } : Thr.St).pos t = a.pos t := rfl
  have pos_link : ∀ s' a' : Thr.St, s' = { a' with mgr := m } → a'.mgr = a.mgr → Link ⟨s', rt⟩ a' := by
    rintro s' a' rfl e
    exact ⟨rfl, by rw [e]; exact h.used, by rw [e]; exact h.rel, h.calm⟩
  -- a thread in a service excludes a pending switch, unless it is its own
  have quiet : InService (a.pos t) = true → Inside (a.pos t) = false → m.params.doSwitch = false := by
    intro h1 h2
    by_contra hd
    have hsw : m.Switching := h.calm.switch (by simpa using hd)
    obtain ⟨k, τ, e⟩ := hsw
    have hne : a.mgr.svc ≠ .idle := by rw [e1, e]; simp
    have hct : a.controllers ≠ none := fun hh => hne (g.locks.svc.1 hh)
    obtain ⟨t', ht'⟩ := Option.ne_none_iff_exists'.1 hct
    have hI := (g.locks.ctrl t').1 ht'
    obtain ⟨srv, q, hq⟩ : ∃ srv q, a.pos t' = .inside srv q := by
      cases hp : a.pos t' <;> rw [hp] at hI <;> first | exact ⟨_, _, rfl⟩ | cases hI
    have hok := g.ok t'
    rw [hq] at hok
    have hs := hok.1 ⟨k, τ, e1.trans e⟩
    have h3 := (g.locks.srv t').2 (by rw [hq]; exact hs)
    have h4 := (g.locks.srv t).2 h1
    rw [h4] at h3
    cases h3
    rw [hI] at h2
    cases h2
  have idle_quiet : a.controllers = none → m.params.doSwitch = false := by
    intro h1
    by_contra hd
    exact not_switching (e1.symm.trans (g.locks.svc.1 h1)) (h.calm.switch (by simpa using hd))
  have names : m.params.doSwitch = false → m.getControllerNames = a.mgr.getControllerNames := by
    intro hd
    obtain ⟨p, hs⟩ := rel_same h.rel h.calm hd
    have := (same_dec hs).2.2.2.2.2.1
    simp only [Mgr.getControllerNames]
    rw [this]
  have hL : Link ⟨{ a with mgr := m }, rt⟩ a := h
  have nn : a.controllers = none → ¬ a.controllers ≠ none := fun h1 h2 => h2 h1
  cases hp : a.pos t with
  | idle => exact stay (by simp [St.go, hp]) (by simp [St.go, hp])
  | atServices c =>
    by_cases hsv : a.services = none
    · refine move _ _ (by simp only [St.go, hp]; rw [if_pos hsv]) (by simp only [St.go, hp]; rw [if_pos hsv]) ?_
      exact pos_link _ _ rfl rfl
    · exact stay (by simp [St.go, hp, hsv]) (by simp [St.go, hp, hsv])
  | entered srv c =>
    cases c with
    | switch r now p =>
      refine move _ _ (by simp only [St.go, hp]; rfl) (by simp only [St.go, hp]; rfl) ?_
      exact pos_link _ _ rfl rfl
    | load n env =>
      by_cases hct : a.controllers = none
      · obtain ⟨pre, b, c⟩ := called i h.used h.rel h.calm (g.locks.svc.1 hct) (conf := conf) (op := .load n env) rfl trivial
          (fun m hi hu _ hh => returned_load hi hu n env hh) t srv none
        refine fin pre b _ _ c.ups c.run (by simp only [St.go, hp]; rw [if_neg (nn hct), if_neg c.free.1])
          (by simp only [St.go, hp]; rw [if_neg (nn hct), if_neg c.free.2]) ?_
        rw [c.next]
        exact c.link (fun c => if c = m.nextId then a.generation else a.made c)
      · exact stay (by simp [St.go, hp, hct]) (by simp [St.go, hp, hct])
    | unload n =>
      by_cases hct : a.controllers = none
      · obtain ⟨pre, b, c⟩ := called i h.used h.rel h.calm (g.locks.svc.1 hct) (conf := conf) (op := .unload n) rfl trivial
          (fun m hi hu _ hh => returned_unload hi hu n hh) t srv none
        refine fin pre b _ _ c.ups c.run (by simp only [St.go, hp]; rw [if_neg (nn hct), if_neg c.free.1])
          (by simp only [St.go, hp]; rw [if_neg (nn hct), if_neg c.free.2]) ?_
        exact c.link a.made
      · exact stay (by simp [St.go, hp, hct]) (by simp [St.go, hp, hct])
    | names =>
      by_cases hct : a.controllers = none
      · refine move _ _ (by simp only [St.go, hp]; rw [if_neg (nn hct)]) (by simp only [St.go, hp]; rw [if_neg (nn hct)]) ?_
        rw [names (idle_quiet hct)]
        exact pos_link _ _ rfl rfl
      · exact stay (by simp [St.go, hp, hct]) (by simp [St.go, hp, hct])
    | reload f now p =>
      by_cases hct : a.controllers = none
      · have hn := names (idle_quiet hct)
        by_cases h1 : (!a.mgr.getControllerNames.isEmpty && !f) = true
        · refine move _ _ (by simp only [St.go, hp]; rw [if_neg (nn hct), hn, if_pos h1])
            (by simp only [St.go, hp]; rw [if_neg (nn hct), if_pos h1]) ?_
          exact link_endReload hL (idle_quiet hct) t false
        · by_cases h2 : (!a.mgr.getControllerNames.isEmpty) = true
          · refine move _ _ (by simp only [St.go, hp]; rw [if_neg (nn hct), hn, if_neg h1, if_pos h2])
              (by simp only [St.go, hp]; rw [if_neg (nn hct), if_neg h1, if_pos h2]) ?_
            exact pos_link _ _ rfl rfl
          · refine move _ _ (by simp only [St.go, hp]; rw [if_neg (nn hct), hn, if_neg h1, if_neg h2])
              (by simp only [St.go, hp]; rw [if_neg (nn hct), if_neg h1, if_neg h2]) ?_
            exact pos_link _ _ rfl rfl
      · exact stay (by simp [St.go, hp, hct]) (by simp [St.go, hp, hct])
  | beforeSwitch srv r now p k =>
    have hsrv : srv = true := by
      have := g.calm t
      rw [hp] at this
      cases D
      · exact this
      · simp only [Thr.Calm, Bool.and_eq_true] at this; exact this.1
    have hd := quiet (by rw [hp]; exact hsrv) (by rw [hp]; rfl)
    refine move _ _ (by simp only [St.go, hp]; rfl) (by simp only [St.go, hp]; rfl) ?_
    exact ⟨rfl, h.used, rel_forget h.rel h.calm hd, calm_of h.calm fun hh => by cases hh⟩
  | atSwitch srv r now p k =>
    by_cases hct : a.controllers = none
    · have hpar : a.mgr.params = {} := by
        have := g.ok t
        rw [hp] at this
        exact this.1
      have sw : ∀ m : Mgr, m.svc = .idle → m.params = {} → (switchLocked conf m r now p).2 = m.step conf (.switch r now p) := by
        intro m h1 h2
        rw [switchLocked_eq h1 h2]
        show _ = m.switch conf r now p
        simp [Mgr.switch, h1]
      obtain ⟨pre, b, c⟩ := called i h.used h.rel h.calm (g.locks.svc.1 hct) (conf := conf) (op := .switch r now p) rfl trivial
        (fun m hi hu hpm hh => by
          have e := sw m hi (hpm.trans hpar)
          rw [← e] at hh ⊢
          exact returned_switch hi r now p hh) t srv k
      have l := c.link a.made
      rw [← sw _ c.idle.1 (c.params.1.trans hpar), ← sw b c.idle.2 (c.params.2.trans hpar)] at l
      refine fin pre b _ _ c.ups c.run (by simp only [St.go, hp]; rw [if_neg (nn hct)])
        (by simp only [St.go, hp]; rw [if_neg (nn hct)]) ?_
      exact l
    · exact stay (by simp [St.go, hp, hct]) (by simp [St.go, hp, hct])
  | atUnload n ns =>
    by_cases hct : a.controllers = none
    · obtain ⟨pre, b, c⟩ := called i h.used h.rel h.calm (g.locks.svc.1 hct) (conf := conf) (op := .unload n) rfl trivial
        (fun m hi hu _ hh => returned_unload hi hu n hh) t true (some ns)
      refine fin pre b _ _ c.ups c.run (by simp only [St.go, hp]; rw [if_neg (nn hct), if_neg c.free.1])
        (by simp only [St.go, hp]; rw [if_neg (nn hct), if_neg c.free.2]) ?_
      exact c.link a.made
    · exact stay (by simp [St.go, hp, hct]) (by simp [St.go, hp, hct])
  | atEnd =>
    by_cases hct : a.controllers = none
    · refine move _ _ (by simp only [St.go, hp]; rw [if_neg (nn hct)]) (by simp only [St.go, hp]; rw [if_neg (nn hct)]) ?_
      rw [names (idle_quiet hct)]
      exact pos_link _ _ rfl rfl
    · exact stay (by simp [St.go, hp, hct]) (by simp [St.go, hp, hct])
  | atLoaders k =>
    have hd := quiet (by rw [hp]; rfl) (by rw [hp]; rfl)
    refine move _ _ (by simp only [St.go, hp]; rfl) (by simp only [St.go, hp]; rfl) ?_
    exact link_endReload (s := { a with mgr := m, generation := a.generation + 1 })
      (a := { a with generation := a.generation + 1 }) ⟨rfl, h.used, h.rel, h.calm⟩ hd t true
  | inside srv k =>
    have hct : a.controllers = some t := (g.locks.ctrl t).2 (by rw [hp]; rfl)
    have hni : a.mgr.svc ≠ .idle := fun hh => by rw [g.locks.svc.2 hh] at hct; cases hct
    have hpat : Patient ⟨m, rt⟩ (.svc (.poll ok el)) :=
      ⟨hok, fun _ _ _ k τ e => Or.inr (kept.zero k τ (e1.trans e))⟩
    obtain ⟨pre, b, x⟩ := exec (op := .poll ok el) rfl i h.used h.rel h.calm hpat (conf := conf)
    have hms : m.svc ≠ .idle := fun hh => hni (e1.trans hh)
    have hbs : b.svc ≠ .idle := fun hh => hms (x.svc.symm.trans hh)
    have hbp : Plain b.svc := by rw [x.svc, ← e1]; exact g.locks.plain
    have hmp : Plain m.svc := by rw [← e1]; exact g.locks.plain
    have hs : (b.poll ok el).svc = (m.poll ok el).svc := (rel_svc_eq x.rel x.calm.restarting).1
    by_cases hidle : (m.poll ok el).svc = .idle
    · have hd' : (m.poll ok el).params.doSwitch = false := by
        by_contra hd
        exact not_switching hidle (x.calm.switch (show (m.poll ok el).params.doSwitch = true by simpa using hd))
      have hd : m.params.doSwitch = false := by
        by_contra hd
        have hb := patient_blocked h.calm hpat (by simpa using hd)
        have : m.poll ok el = m := blocked_step (conf := conf) hb rfl hok
        rw [this] at hidle
        exact hms hidle
      have hlast : last (m.poll ok el) = last (b.poll ok el) :=
        exec_last x rfl (rel_inv i h.rel hd h.calm.restarting) (fun hh => returned_poll hmp hms ok el hh)
          (fun hh => returned_poll hbp hbs ok el hh) hidle
      refine fin pre b _ _ x.ups x.run (by simp only [St.go, hp]; rw [if_pos hidle])
        (by simp only [St.go, hp]; rw [if_pos (hs.trans hidle)]) ?_
      rw [hlast]
      exact link_back (s := { a with mgr := m.poll ok el, controllers := none })
        (a := { a with mgr := b.poll ok el, controllers := none }) ⟨rfl, x.used', x.rel, x.calm⟩ hd' t srv k _
    · refine fin pre b _ _ x.ups x.run (by simp only [St.go, hp]; rw [if_neg hidle])
        (by simp only [St.go, hp]; rw [if_neg (fun hh => hidle (hs.symm.trans hh))]) ?_
      exact ⟨rfl, x.used', x.rel, x.calm⟩

theorem link_call {conf : List ControllerInfo → Bool} {x : St} {a : Thr.St} (h : Link x a) (t : Tid) (srv : Bool) (c : Call) :
    Link (x.step conf (.call t srv c)) (a.call t srv c) := by
  obtain ⟨s, rt⟩ := x
  obtain ⟨h1, h2, h3, h4⟩ := h
  simp only at h1
  generalize s.mgr = m at *
  subst h1
  have key : ({ a with mgr := m } : Thr.St).call t srv c = { a.call t srv c with mgr := m } ∧ (a.call t srv c).mgr = a.mgr := by
    simp only [Thr.St.call]
    cases a.pos t <;> cases srv <;> cases c <;> exact ⟨rfl, rfl⟩
  refine ⟨?_, ?_, ?_, ?_⟩
  · simp only [St.step, key.1]
  · rw [key.2]; exact h2
  · simp only [St.step, key.1]; rw [key.2]; exact h3
  · simp only [St.step, key.1]; exact h4

theorem link_rt {conf : List ControllerInfo → Bool} {x : St} {a : Thr.St} (i : Inv (fun _ => True) a.mgr) (h : Link x a)
    (u : Args) (hu : u.reset = false) : ∃ pre, Updates pre ∧ Link (x.step conf (.rt u)) (a.run conf pre) := by
  obtain ⟨s, rt⟩ := x
  have hc := calm_rt h.calm hu
  have h1 := h.eq
  simp only at h1
  have e : ∀ m, ({ s with mgr := m } : Thr.St) = { a with mgr := m } := fun m => by rw [h1]
  rcases rel_rt i h.rel u with g | ⟨t, r, hw, g⟩
  · exact ⟨[], updates_nil, e _, h.used, g, hc⟩
  · refine ⟨[.update t r hw], ?_, e _, used_step (conf := conf) i h.used (op := .update t r hw) trivial, g, hc⟩
    intro o ho
    simp only [List.mem_singleton] at ho
    exact ⟨t, r, hw, ho⟩

/-- The conditions on what threads do. -/
def Fine (D : Bool) (op : ThrOp) : Prop := op.rosUp ∧ op.noTimeout ∧ if D then op.mild else op.service

theorem fine_updates {D} {l : List ThrOp} (h : Updates l) : ∀ op ∈ l, Fine D op := by
  intro op hop
  obtain ⟨t, r, hw, rfl⟩ := h op hop
  refine ⟨trivial, trivial, ?_⟩
  cases D <;> trivial

theorem good_fine {conf D} {ops : List ThrOp} (h : ∀ op ∈ ops, Fine D op) : Good conf true D (after conf ops) :=
  good_after conf true D ops (fun op ho => (h op ho).1) (fun _ op ho => (h op ho).2.1) (by
    cases D
    · exact fun op ho => (h op ho).2.2
    · exact fun op ho => (h op ho).2.2)

theorem filter_updates {l : List ThrOp} (h : Updates l) : l.filter ThrOp.ofThread = [] := by
  rw [List.filter_eq_nil_iff]
  intro op hop
  obtain ⟨t, r, hw, rfl⟩ := h op hop
  simp [ThrOp.ofThread]

theorem after_append (conf) (l l' : List ThrOp) : after conf (l ++ l') = (after conf l).run conf l' := run_append conf _ l l'

theorem begins_pos {s a : Thr.St} (h : a.pos = s.pos) (t : Tid) (op : ThrOp) : begins a t op = begins s t op := by
  unfold begins
  rw [h]

theorem calls_append (conf) (t : Tid) (s : Thr.St) (l l' : List ThrOp) :
    Thr.calls conf t s (l ++ l') = Thr.calls conf t s l ++ Thr.calls conf t (s.run conf l) l' := by
  induction l generalizing s with
  | nil => rfl
  | cons o l ih =>
    simp only [List.cons_append, Thr.calls, ih, List.append_assoc]
    rfl

theorem calls_updates (conf) (t : Tid) (s : Thr.St) {l : List ThrOp} (h : Updates l) : Thr.calls conf t s l = [] := by
  induction l generalizing s with
  | nil => rfl
  | cons o l ih =>
    obtain ⟨a, b, c, rfl⟩ := h o (by simp)
    simp only [Thr.calls]
    rw [ih _ fun o ho => h o (by simp [ho])]
    rfl

theorem link_run {conf : List ControllerInfo → Bool} {D : Bool} {x : St} {pre : List ThrOp} (hpre : ∀ op ∈ pre, Fine D op)
    (h : Link x (after conf pre)) (steps : List Step) (hs : ∀ op ∈ threadOps steps, Fine D op)
    (hr : ∀ o ∈ steps, o.noReset) :
    ∃ ops, ops.filter ThrOp.ofThread = threadOps steps ∧ (∀ op ∈ ops, Fine D op) ∧
      Link (x.run conf steps) (after conf (pre ++ ops)) ∧
      ∀ t, Thr.calls conf t (after conf pre) ops = calls conf t x steps := by
  induction steps generalizing x pre with
  | nil => exact ⟨[], rfl, by simp, by simpa [St.run] using h, fun _ => rfl⟩
  | cons o os ih =>
    have hr' : ∀ o ∈ os, o.noReset := fun o ho => hr o (List.mem_cons_of_mem _ ho)
    have g := good_fine (conf := conf) hpre
    have hpos : (after conf pre).pos = x.s.pos := by rw [h.eq]
    -- the rest of the execution
    have rest : ∀ l : List ThrOp, (∀ op ∈ l, Fine D op) → l.filter ThrOp.ofThread = (Step.op o).toList →
        (∀ op ∈ threadOps os, Fine D op) → Link (x.step conf o) (after conf (pre ++ l)) →
        (∀ t, Thr.calls conf t (after conf pre) l = (o.op.bind (begins x.s t)).toList) →
        ∃ ops, ops.filter ThrOp.ofThread = threadOps (o :: os) ∧ (∀ op ∈ ops, Fine D op) ∧
          Link (x.run conf (o :: os)) (after conf (pre ++ ops)) ∧
          ∀ t, Thr.calls conf t (after conf pre) ops = calls conf t x (o :: os) := by
      intro l h1 h2 h3 h4 h5
      obtain ⟨ops, k1, k2, k3, k4⟩ := ih (fun op hop => (List.mem_append.1 hop).elim (hpre op) (h1 op)) h4 h3 hr'
      refine ⟨l ++ ops, ?_, fun op hop => (List.mem_append.1 hop).elim (h1 op) (k2 op), by simpa [St.run] using k3,
        fun t => ?_⟩
      swap
      · rw [calls_append, h5, ← after_append, k4]; rfl
      rw [List.filter_append, h2, k1]
      unfold threadOps
      cases ho : Step.op o <;> simp [List.filterMap_cons, ho]
    cases o with
    | call t srv c =>
      have e : threadOps (.call t srv c :: os) = .call t srv c :: threadOps os := rfl
      rw [e] at hs
      refine rest [.call t srv c] (fun op hop => hs op (by simp at hop; simp [hop])) rfl
        (fun op hop => hs op (List.mem_cons_of_mem _ hop)) ?_ ?_
      · rw [after_append]
        exact link_call h t srv c
      · intro t'
        simp only [Thr.calls, Step.op, Option.bind_some, begins_pos hpos, List.append_nil]
    | go t ok el =>
      have e : threadOps (.go t ok el :: os) = .go t ok el :: threadOps os := rfl
      rw [e] at hs
      obtain ⟨l, k1, k2⟩ := link_go g h t (hs (.go t ok el) (by simp)).1 el
      refine rest (l ++ [.go t ok el]) ?_ ?_ (fun op hop => hs op (List.mem_cons_of_mem _ hop)) ?_ ?_
      · intro op hop
        rcases List.mem_append.1 hop with h1 | h1
        · exact fine_updates k1 op h1
        · exact hs op (by simp at h1; simp [h1])
      · rw [List.filter_append, filter_updates k1]; rfl
      · rw [after_append]; exact k2
      · intro t'
        rw [calls_append, calls_updates conf t' _ k1]
        rfl
    | rt u =>
      obtain ⟨l, k1, k2⟩ := link_rt (good_inv (checkOk_true conf) g) h u (hr (.rt u) (by simp)) (conf := conf)
      refine rest l (fine_updates k1) ((filter_updates k1).trans rfl) hs ?_ ?_
      · rw [after_append]; exact k2
      · exact fun t => calls_updates conf t _ k1

/-- Before the first step. -/
theorem link_start {conf : List ControllerInfo → Bool} {D : Bool} {pre : List ThrOp} (hpre : ∀ op ∈ pre, Fine D op)
    (hu : (after conf pre).mgr.used ≠ none) : Link (start (after conf pre)) (after conf pre) := by
  refine ⟨rfl, hu, ?_, ?_⟩
  · exact ⟨rfl, by simp [start], rfl⟩
  · refine ⟨?_, ?_, ?_, (good_kept (good_fine hpre)).pending⟩
    · intro u r e; cases e
    · intro u l e; cases e
    · intro u c l e; cases e

/-- After the last step, if no update is in progress. -/
theorem link_agree {x : St} {a : Thr.St} (h : Link x a) (hi : x.rt = .idle) : Agree x.s a := by
  obtain ⟨s, rt⟩ := x
  simp only at hi
  subst hi
  have h1 := h.eq
  simp only at h1
  have hr : Same [] s.mgr a.mgr := h.rel
  have hg := hr.agrees
  simp only
  generalize s.mgr = m at *
  subst h1
  exact ⟨rfl, rfl, rfl, rfl, rfl, rfl, rfl, hg⟩

end Verif.ThrInt
