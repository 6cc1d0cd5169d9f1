import Verif.Lemmas.ThreadsInterleaved
import Verif.Lemmas.ThreadsCalls
import Verif.Lemmas.ThreadsProgress
import Verif.Lemmas.InterleavedCalls

/-!
Helper lemmas: several threads and an update that is interrupted; `update()` calls, the calls of the threads, and the end of
everything.
-/

namespace Verif.ThrInt

open Mgr Thr Inter

/-! ### What updates call -/

theorem progress_congr {l : List CtrlSpec} {on : CId → Bool} {t : List Event} {m m' : Mgr} {rt : Rt}
    (h : Progress l on t ⟨m, rt⟩) (h1 : updateCalls m'.trace = updateCalls m.trace) (h2 : m'.cur = m.cur) (h3 : m'.oth = m.oth)
    (h4 : m'.current = m.current) (h5 : m'.used = m.used) (h6 : m'.state = m.state) : Progress l on t ⟨m', rt⟩ := by
  have hl : ∀ r, list m' r = list m r := fun r => by unfold list; rw [h2, h3, h4]
  have hu : usedList m' = usedList m := by
    unfold usedList
    rw [h5]
    split
    · rfl
    · exact hl _
  have hr : ∀ c, m'.isRunning c = m.isRunning c := fun c => by unfold isRunning; rw [h6]
  cases rt <;> simp only [Progress] at h ⊢ <;> simp only [h1, hl, hu, hr, h6] <;> exact h

theorem progress_go {conf : List ControllerInfo → Bool} {D : Bool} {l : List CtrlSpec} {on : CId → Bool} {tr : List Event}
    {x : St} {a : Thr.St} (g : Good conf true D a) (h : Link x a) (hi : x.rt ≠ .idle) (t : Tid) {ok : RosOk}
    (hok : ok.cond = true ∧ ok.body = true) (el : Int) (hp : Progress l on tr ⟨x.s.mgr, x.rt⟩) :
    Progress l on tr ⟨(x.step conf (.go t ok el)).s.mgr, (x.step conf (.go t ok el)).rt⟩ := by
  obtain ⟨s, rt⟩ := x
  obtain ⟨e1, e2⟩ := rel_svc_eq h.rel h.calm.restarting
  have i := good_inv (checkOk_true conf) g
  have heq := h.eq
  simp only at heq e1 e2 hp hi
  have hl : Locks s := by
    have gl := g.locks
    generalize hm : s.mgr = m at *
    subst heq
    exact ⟨gl.ctrl, gl.srv, by rw [show ({ a with mgr := m } : Thr.St).mgr.svc = a.mgr.svc from e1.symm]; exact gl.svc,
      by rw [show ({ a with mgr := m } : Thr.St).mgr.svc = a.mgr.svc from e1.symm]; exact gl.plain, gl.wf⟩
  show Progress l on tr ⟨((s.go conf t ok el).getD s).mgr, rt⟩
  cases hg : s.go conf t ok el with
  | none => exact hp
  | some s' =>
    show Progress l on tr ⟨s'.mgr, rt⟩
    obtain ⟨m, es, he, e, hes⟩ := (go_stepOf hl t ok el hg).mgr
    have key : Progress l on tr ⟨m, rt⟩ := by
      have idleCare : s.mgr.svc = .idle → ∀ op : Op, op.rosUp → Careful ⟨s.mgr, rt⟩ (.svc op) := by
        intro hs op hop
        refine ⟨hop, fun _ hd => ?_, fun ⟨u, c, l, e⟩ => absurd e (h.calm.restarting u c l)⟩
        exact absurd (h.calm.switch hd) (not_switching hs)
      cases he with
      | nothing => exact hp
      | load n env hs _ => exact progress_svc (conf := conf) i h.used h.rel hi hp (op := .load n env) rfl (idleCare hs _ trivial)
      | unload n hs _ => exact progress_svc (conf := conf) i h.used h.rel hi hp (op := .unload n) rfl (idleCare hs _ trivial)
      | switch r now p hs =>
        have k := progress_svc (conf := conf) i h.used h.rel hi hp (op := .switch r now p) rfl (idleCare hs _ trivial)
        have e0 : s.mgr.step conf (.switch r now p) = (s.mgr.switchCore conf r now p .ret).2 := by
          show s.mgr.switch conf r now p = _
          simp [Mgr.switch, hs]
        change Progress l on tr ⟨s.mgr.step conf (.switch r now p), rt⟩ at k
        rw [e0] at k
        unfold switchLocked
        split
        · rename_i m' e'
          rw [e'] at k
          exact progress_congr k rfl rfl rfl rfl rfl rfl
        · rename_i m' e'
          rw [e'] at k
          exact progress_congr k rfl rfl rfl rfl rfl rfl
      | reset => exact progress_congr hp rfl rfl rfl rfl rfl rfl
      | poll =>
        have hpat : Patient ⟨s.mgr, rt⟩ (.svc (.poll ok el)) :=
          ⟨hok, fun _ _ _ k τ e => Or.inr ((good_kept g).zero k τ (e1.trans e))⟩
        exact progress_svc (conf := conf) i h.used h.rel hi hp (op := .poll ok el) rfl
          ⟨hok, fun _ hd => patient_blocked h.calm hpat hd, fun ⟨u, c, l, e⟩ => absurd e (h.calm.restarting u c l)⟩
    rw [e]
    refine progress_congr key ?_ rfl rfl rfl rfl rfl
    rcases hes with rfl | ⟨b, rfl⟩
    · simp [Mgr.emit]
    · simp [Mgr.emit, updateCalls, Event.isUpdate]

theorem progress_steps {conf : List ControllerInfo → Bool} {D : Bool} {l : List CtrlSpec} {on : CId → Bool} {tr : List Event}
    {x : St} {pre : List ThrOp} (hpre : ∀ op ∈ pre, Fine D op) (h : Link x (after conf pre))
    (hp : Progress l on tr ⟨x.s.mgr, x.rt⟩) (steps : List Step) (hs : ∀ op ∈ threadOps steps, Fine D op)
    (hr : ∀ o ∈ steps, o.noReset) (he : Ends conf x steps) :
    updateCalls (x.run conf steps).s.mgr.trace = tr ++ owed on l := by
  induction steps generalizing x pre with
  | nil => exact he.elim
  | cons o os ih =>
    have hi : x.rt ≠ .idle := by cases os <;> exact he.1
    have hs1 : ∀ op ∈ threadOps [o], Fine D op := fun op hop => hs op (by
      unfold threadOps at hop ⊢
      rw [show o :: os = [o] ++ os from rfl, List.filterMap_append]
      exact List.mem_append_left _ hop)
    have hs2 : ∀ op ∈ threadOps os, Fine D op := fun op hop => hs op (by
      unfold threadOps at hop ⊢
      rw [show o :: os = [o] ++ os from rfl, List.filterMap_append]
      exact List.mem_append_right _ hop)
    obtain ⟨ops, _, k2, k3, _⟩ := link_run hpre h [o] hs1 (fun o' ho => hr o' (by simp at ho; simp [ho]))
    have one : Progress l on tr ⟨(x.step conf o).s.mgr, (x.step conf o).rt⟩ := by
      cases o with
      | call t srv c =>
        have e : (x.s.call t srv c).mgr = x.s.mgr := by
          simp only [Thr.St.call]
          cases x.s.pos t <;> cases srv <;> cases c <;> rfl
        show Progress l on tr ⟨(x.s.call t srv c).mgr, x.rt⟩
        rw [e]; exact hp
      | go t ok el => exact progress_go (good_fine hpre) h hi t (hs1 (.go t ok el) (by simp [threadOps, Step.op])).1 el hp
      | rt u => exact progress_rt (s := ⟨x.s.mgr, x.rt⟩) hi hp u
    cases os with
    | nil => exact (progress_past (Or.inr he.2)).1 one
    | cons o' os' =>
      exact ih (fun op hop => (List.mem_append.1 hop).elim (hpre op) (k2 op)) k3 one hs2
        (fun o ho => hr o (List.mem_cons_of_mem _ ho)) he.2

/-! ### The end of an update -/

/-- Left alone, the realtime thread completes the update. -/
def Completes (u : Args) (s : Inter.St) : Prop := ∃ n, (fun s => rtStep s u)^[n] s = ⟨complete s.m s.rt, .idle⟩

theorem completes_idle (u : Args) (m : Mgr) : Completes u ⟨m, .idle⟩ := ⟨0, rfl⟩

theorem completes_of_step {u : Args} {s : Inter.St} (hr : s.rt ≠ .idle) (h : Completes u (rtStep s u)) : Completes u s := by
  obtain ⟨n, hn⟩ := h
  refine ⟨n + 1, ?_⟩
  rw [Function.iterate_succ_apply, hn, complete_step s u hr]

theorem completes (u : Args) (s : Inter.St) : Completes u s := by
  have starting : ∀ (l : List CId) m v, Completes u ⟨m, .starting v l⟩ := by
    intro l
    induction l with
    | nil => exact fun m v => completes_of_step (by simp) (completes_idle u _)
    | cons c l ih => exact fun m v => completes_of_step (by simp) (ih _ _)
  have aborting : ∀ (l : List CId) m v, Completes u ⟨m, .aborting v l⟩ := by
    intro l
    induction l with
    | nil => exact fun m v => completes_of_step (by simp) (completes_idle u _)
    | cons c l ih => exact fun m v => completes_of_step (by simp) (ih _ _)
  have waiting : ∀ (l : List CId) m v, Completes u ⟨m, .waiting v l⟩ := by
    intro l
    induction l with
    | nil => exact fun m v => completes_of_step (by simp) (completes_idle u _)
    | cons c l ih => exact fun m v => completes_of_step (by simp) (ih _ _)
  have asap : ∀ (l : List CId) m v n, Completes u ⟨m, .asap v n l⟩ := by
    intro l
    induction l with
    | nil =>
      intro m v n
      refine completes_of_step (by simp) ?_
      simp only [rtStep]
      split <;> exact completes_idle u _
    | cons c l ih => exact fun m v n => completes_of_step (by simp) (ih _ _ _)
  have choosing : ∀ m v, Completes u ⟨m, .choosing v⟩ := by
    intro m v
    refine completes_of_step (by simp) ?_
    simp only [rtStep]
    split
    · exact asap _ _ _ _
    · split
      · exact starting _ _ _
      · split
        · exact aborting _ _ _
        · exact waiting _ _ _
  have stopping : ∀ (l : List CId) m v, Completes u ⟨m, .stopping v l⟩ := by
    intro l
    induction l with
    | nil => exact fun m v => completes_of_step (by simp) (choosing _ _)
    | cons c l ih => exact fun m v => completes_of_step (by simp) (ih _ _)
  have looking : ∀ m v, Completes u ⟨m, .looking v⟩ := by
    intro m v
    refine completes_of_step (by simp) ?_
    simp only [rtStep]
    split
    · exact stopping _ _ _
    · exact completes_idle u _
  have updating : ∀ (l : List CtrlSpec) m v, Completes u ⟨m, .updating v l⟩ := by
    intro l
    induction l with
    | nil => exact fun m v => completes_of_step (by simp) (looking _ _)
    | cons c l ih => exact fun m v => completes_of_step (by simp) (ih _ _)
  have resetting : ∀ (l : List CtrlSpec) m v, Completes u ⟨m, .resetting v l⟩ := by
    intro l
    induction l with
    | nil => exact fun m v => completes_of_step (by simp) (updating _ _ _)
    | cons c l ih =>
      intro m v
      refine completes_of_step (by simp) ?_
      simp only [rtStep]
      split
      · exact completes_of_step (by simp) (ih _ _)
      · exact ih _ _
  obtain ⟨m, rt⟩ := s
  cases rt with
  | idle => exact completes_idle u m
  | read v r =>
    refine completes_of_step (by simp) ?_
    simp only [rtStep]
    split
    · exact resetting _ _ _
    · exact updating _ _ _
  | resetting v l => exact resetting _ _ _
  | restarting v c l => exact completes_of_step (by simp) (resetting _ _ _)
  | updating v l => exact updating _ _ _
  | looking v => exact looking _ _
  | stopping v l => exact stopping _ _ _
  | choosing v => exact choosing _ _
  | starting v l => exact starting _ _ _
  | aborting v l => exact aborting _ _ _
  | waiting v l => exact waiting _ _ _
  | asap v n l => exact asap _ _ _ _

theorem run_steps_append (conf) (x : St) (l l' : List Step) : x.run conf (l ++ l') = (x.run conf l).run conf l' := by
  simp [St.run]

theorem run_rt (conf) (x : St) (u : Args) (n : Nat) : x.run conf (List.replicate n (.rt u)) =
    ⟨{ x.s with mgr := ((fun s => rtStep s u)^[n] ⟨x.s.mgr, x.rt⟩).m }, ((fun s => rtStep s u)^[n] ⟨x.s.mgr, x.rt⟩).rt⟩ := by
  induction n generalizing x with
  | zero => rfl
  | succ n ih =>
    rw [List.replicate_succ, Function.iterate_succ_apply]
    show (x.step conf (.rt u)).run conf (List.replicate n (.rt u)) = _
    rw [ih]
    rfl

/-- The rest of an update. -/
theorem finish (conf) (x : St) (u : Args) :
    ∃ n, x.run conf (List.replicate n (.rt u)) = ⟨{ x.s with mgr := complete x.s.mgr x.rt }, .idle⟩ := by
  obtain ⟨n, hn⟩ := completes u ⟨x.s.mgr, x.rt⟩
  exact ⟨n, by rw [run_rt, hn]⟩

/-- A whole update. -/
theorem pass (conf) (s : Thr.St) (u : Args) :
    ∃ n, (⟨s, .idle⟩ : St).run conf (List.replicate n (.rt u)) = ⟨s.step conf (.update u.time u.reset u.hw), .idle⟩ := by
  obtain ⟨n, hn⟩ := finish conf ⟨s, .read u s.mgr.current⟩ u
  refine ⟨n + 1, ?_⟩
  rw [List.replicate_succ]
  show (⟨s, .read u s.mgr.current⟩ : St).run conf _ = _
  rw [hn]
  show (⟨{ s with mgr := complete s.mgr (.read u s.mgr.current) }, .idle⟩ : St) = _
  rw [complete_read]
  rfl

/-- Steps of threads and whole updates. -/
theorem serve (conf) (hw : HwReply) (s : Thr.St) (ops : List ThrOp)
    (h : ∀ op ∈ ops, (∃ t, op = .go t {} 0) ∨ op = .update 0 false hw) :
    ∃ steps : List Step, (∀ o ∈ steps, (∃ t, o = .go t {} 0) ∨ o = .rt ⟨0, false, hw⟩) ∧
      (⟨s, .idle⟩ : St).run conf steps = ⟨s.run conf ops, .idle⟩ := by
  induction ops generalizing s with
  | nil => exact ⟨[], by simp, rfl⟩
  | cons op ops ih =>
    have one : ∃ steps : List Step, (∀ o ∈ steps, (∃ t, o = .go t {} 0) ∨ o = .rt ⟨0, false, hw⟩) ∧
        (⟨s, .idle⟩ : St).run conf steps = ⟨s.step conf op, .idle⟩ := by
      rcases h op (by simp) with ⟨t, rfl⟩ | rfl
      · exact ⟨[.go t {} 0], fun o ho => Or.inl ⟨t, by simpa using ho⟩, rfl⟩
      · obtain ⟨n, hn⟩ := pass conf s ⟨0, false, hw⟩
        exact ⟨_, fun o ho => Or.inr (List.eq_of_mem_replicate ho), hn⟩
    obtain ⟨l, h1, h2⟩ := one
    obtain ⟨l', g1, g2⟩ := ih (s.step conf op) fun o ho => h o (by simp [ho])
    refine ⟨l ++ l', fun o ho => (List.mem_append.1 ho).elim (h1 o) (g1 o), ?_⟩
    rw [run_steps_append, h2, g2]
    rfl

theorem locks_link {x : St} {a : Thr.St} (hl : Locks a) (h : Link x a) : Locks x.s := by
  obtain ⟨s, rt⟩ := x
  have e1 := (rel_svc_eq h.rel h.calm.restarting).1
  have heq := h.eq
  simp only at heq e1 ⊢
  generalize s.mgr = m at *
  subst heq
  exact ⟨hl.ctrl, hl.srv, by rw [show ({ a with mgr := m } : Thr.St).mgr.svc = a.mgr.svc from e1.symm]; exact hl.svc,
    by rw [show ({ a with mgr := m } : Thr.St).mgr.svc = a.mgr.svc from e1.symm]; exact hl.plain, hl.wf⟩

/-- Everything comes to an end if the threads and the realtime thread go on. -/
theorem fin_all {conf : List ControllerInfo → Bool} {D : Bool} {x : St} {pre : List ThrOp} (hpre : ∀ op ∈ pre, Fine D op)
    (h : Link x (after conf pre)) {hw : HwReply} (hs : Spec.Settled hw) :
    ∃ more : List Step, (∀ o ∈ more, (∃ t, o = .go t {} 0) ∨ o = .rt ⟨0, false, hw⟩) ∧
      (x.run conf more).rt = .idle ∧ ∀ t, ¬ Busy (x.run conf more).s t := by
  obtain ⟨n, hn⟩ := finish conf x ⟨0, false, hw⟩
  obtain ⟨ops, _, k2, k3, _⟩ := link_run hpre h (List.replicate n (.rt ⟨0, false, hw⟩))
    (by
      intro op hop
      unfold threadOps at hop
      obtain ⟨o, ho, e⟩ := List.mem_filterMap.1 hop
      rw [List.eq_of_mem_replicate ho] at e
      cases e)
    (fun o ho => by rw [List.eq_of_mem_replicate ho]; rfl)
  rw [hn] at k3
  generalize ({ x.s with mgr := complete x.s.mgr x.rt } : Thr.St) = s at *
  have g : Good conf true D (after conf (pre ++ ops)) :=
    good_fine fun op hop => (List.mem_append.1 hop).elim (hpre op) (k2 op)
  have i : Inv (fun _ => True) s.mgr := Same.inv (good_inv (checkOk_true conf) g) (show Same [] s.mgr _ from k3.rel)
  obtain ⟨L, hL⟩ := finite_after conf (pre ++ ops)
  have hp : s.pos = (after conf (pre ++ ops)).pos := by
    have := k3.eq
    simp only at this
    rw [this]
  obtain ⟨more, h1, h2⟩ := finAll (conf := conf) hs L (s := s) ⟨locks_link g.locks k3, Or.inl i⟩
    (fun t ht => by rw [hp]; exact hL t ht)
  obtain ⟨steps, g1, g2⟩ := serve conf hw s more h1
  refine ⟨List.replicate n (.rt ⟨0, false, hw⟩) ++ steps, ?_, ?_, ?_⟩
  · intro o ho
    exact (List.mem_append.1 ho).elim (fun ho => Or.inr (List.eq_of_mem_replicate ho)) (g1 o)
  · rw [run_steps_append, hn, g2]
  · intro t hb
    rw [run_steps_append, hn, g2] at hb
    exact hb (h2 t)

end Verif.ThrInt
