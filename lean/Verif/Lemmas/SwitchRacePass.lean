import Verif.Lemmas.SwitchRaceDone
import Verif.Lemmas.ManagerUpdate

/-!
Helper lemmas: an update that is not interrupted, in the model of `Verif.Race`.
-/

namespace Verif.Race

open Mgr

/-- The step of the realtime thread within one update. -/
def one (reset : Bool) (time : Int) (hw : HwReply) (s : St) : St := rtStep s reset time hw

/-- Left alone, the realtime thread gets from `s` to the end of the update, and then the manager is `m`. -/
def Gets (reset : Bool) (time : Int) (hw : HwReply) (s : St) (m : Mgr) : Prop :=
  ∃ n, (one reset time hw)^[n] s = { s with m := m, rt := .idle }

variable {reset : Bool} {time : Int} {hw : HwReply}

theorem gets_step {s : St} {m m' m'' : Mgr} {rt rt' : Rt} (e : one reset time hw { s with m := m, rt := rt } = { s with m := m', rt := rt' })
    (h : Gets reset time hw { s with m := m', rt := rt' } m'') : Gets reset time hw { s with m := m, rt := rt } m'' := by
  obtain ⟨n, hn⟩ := h
  exact ⟨n + 1, by rw [Function.iterate_succ_apply, e, hn]⟩

theorem gets_idle {s : St} {m : Mgr} : Gets reset time hw { s with m := m, rt := .idle } m := ⟨0, rfl⟩

theorem gets_starting (s : St) (l : List CId) (m : Mgr) : Gets reset time hw { s with m := m, rt := .starting l }
    (let m := l.foldl (fun m c => m.req .start c) m
    { m with params := { m.params with doSwitch := false } }) := by
  induction l generalizing m with
  | nil => exact gets_step rfl gets_idle
  | cons c l ih => exact gets_step rfl (ih _)

theorem gets_aborting (s : St) (l : List CId) (m : Mgr) : Gets reset time hw { s with m := m, rt := .aborting l }
    (let m := l.foldl (fun m c => m.req .abort c) m
    { m with params := { m.params with doSwitch := false } }) := by
  induction l generalizing m with
  | nil => exact gets_step rfl gets_idle
  | cons c l ih => exact gets_step rfl (ih _)

theorem gets_waiting (s : St) (l : List CId) (m : Mgr) : Gets reset time hw { s with m := m, rt := .waiting l }
    (l.foldl (fun m c => m.req .wait c) m) := by
  induction l generalizing m with
  | nil => exact gets_step rfl gets_idle
  | cons c l ih => exact gets_step rfl (ih _)

/-- The end of `startControllersAsap`. -/
def asapEnd (m : Mgr) : Mgr :=
  if m.startReq.all fun c => (m.state c).isRunning || (m.state c).isAborted then
    { m with params := { m.params with doSwitch := false } }
  else m

theorem gets_asap (s : St) (n : Nat) (l : List CId) (m : Mgr) : Gets reset time hw { s with m := m, rt := .asap n l }
    (asapEnd (asapLoop time hw n l m)) := by
  induction l generalizing m n with
  | nil =>
    show Gets reset time hw { s with m := m, rt := .asap n [] } (asapEnd m)
    unfold asapEnd
    by_cases h : (m.startReq.all fun c => (m.state c).isRunning || (m.state c).isAborted) = true
    · rw [if_pos h]
      exact gets_step (by simp only [one, rtStep]; rw [if_pos h]) gets_idle
    · rw [if_neg h]
      exact gets_step (by simp only [one, rtStep]; rw [if_neg h]) gets_idle
  | cons c l ih => exact gets_step rfl (ih _ _)

theorem gets_choosing (s : St) (m : Mgr) : Gets reset time hw { s with m := m, rt := .choosing }
    (if !m.params.asap then m.startControllers time hw else m.startControllersAsap time hw) := by
  by_cases ha : m.params.asap = true
  · rw [ha]
    exact gets_step (by simp only [one, rtStep]; rw [if_pos ha]) (gets_asap s 0 m.startReq m)
  · rw [show (!m.params.asap) = true by simpa using ha, if_pos rfl]
    unfold startControllers
    by_cases h1 : hw.first = .done
    · rw [if_pos h1]
      exact gets_step (by simp only [one, rtStep]; rw [if_neg ha, if_pos h1]) (gets_starting s _ _)
    · rw [if_neg h1]
      by_cases h2 : (decide (hw.second = .error) || timedOut m.params time) = true
      · rw [if_pos h2]
        exact gets_step (by simp only [one, rtStep]; rw [if_neg ha, if_neg h1, if_pos h2]) (gets_aborting s _ _)
      · rw [if_neg h2]
        exact gets_step (by simp only [one, rtStep]; rw [if_neg ha, if_neg h1, if_neg h2]) (gets_waiting s _ _)

theorem gets_stopping (s : St) (l : List CId) (m : Mgr) : Gets reset time hw { s with m := m, rt := .stopping l }
    (let m := l.foldl (fun m c => if m.isRunning c then m.req .stop c else m) m
    if !m.params.asap then m.startControllers time hw else m.startControllersAsap time hw) := by
  induction l generalizing m with
  | nil => exact gets_step rfl (gets_choosing s m)
  | cons c l ih => exact gets_step rfl (ih _)

/-- What `update` does after the controllers. -/
def look (time : Int) (hw : HwReply) (m : Mgr) : Mgr := if m.params.doSwitch then m.manageSwitch time hw else m

theorem gets_looking (s : St) (m : Mgr) : Gets reset time hw { s with m := m, rt := .looking } (look time hw m) := by
  unfold look
  by_cases hd : m.params.doSwitch = true
  · rw [if_pos hd]
    unfold manageSwitch stopControllers
    exact gets_step (by simp only [one, rtStep]; rw [if_pos hd]) (gets_stopping s _ _)
  · rw [if_neg hd]
    exact gets_step (by simp only [one, rtStep]; rw [if_neg hd]) gets_idle

theorem gets_resetting (s : St) (l : List CtrlSpec) (m : Mgr) : Gets reset time hw { s with m := m, rt := .resetting l }
    (look time hw (l.foldl (fun m s => if m.isRunning s.c then (m.req .stop s.c).req .start s.c else m) m)) := by
  induction l generalizing m with
  | nil => exact gets_step rfl (gets_looking s m)
  | cons c l ih =>
    simp only [List.foldl_cons]
    by_cases hr : m.isRunning c.c = true
    · rw [if_pos hr]
      exact gets_step (rt' := .restarting c.c l) (m' := m.req .stop c.c) (by simp only [one, rtStep]; rw [if_pos hr])
        (gets_step rfl (ih _))
    · rw [if_neg hr]
      exact gets_step (by simp only [one, rtStep]; rw [if_neg hr]) (ih _)

theorem gets_update (s : St) (h : s.rt = .idle) : ∃ n, 0 < n ∧ (one reset time hw)^[n] s =
    { s with
      m := let m := if reset then s.m.resetControllers else s.m
        if m.params.doSwitch then m.manageSwitch time hw else m } := by
  obtain ⟨m, rt, at_, ub⟩ := s
  cases h
  cases reset
  · obtain ⟨n, hn⟩ := gets_looking (reset := false) (time := time) (hw := hw) ⟨m, .idle, at_, ub⟩ m
    exact ⟨n + 1, by omega, by rw [Function.iterate_succ_apply]; exact hn⟩
  · obtain ⟨n, hn⟩ := gets_resetting (reset := true) (time := time) (hw := hw) ⟨m, .idle, at_, ub⟩ m.cur m
    exact ⟨n + 1, by omega, by rw [Function.iterate_succ_apply]; exact hn⟩

/-- Wherever it is, the realtime thread gets to the end of the update. -/
theorem gets_any (s : St) : ∃ m, Gets reset time hw s m := by
  obtain ⟨m, rt, at_, ub⟩ := s
  cases rt with
  | idle => exact ⟨_, 0, rfl⟩
  | resetting l => exact ⟨_, gets_resetting ⟨m, .idle, at_, ub⟩ l m⟩
  | restarting c l => exact ⟨_, gets_step (s := ⟨m, .idle, at_, ub⟩) (rt := .restarting c l) rfl (gets_resetting _ l (m.req .start c))⟩
  | looking => exact ⟨_, gets_looking ⟨m, .idle, at_, ub⟩ m⟩
  | stopping l => exact ⟨_, gets_stopping ⟨m, .idle, at_, ub⟩ l m⟩
  | choosing => exact ⟨_, gets_choosing ⟨m, .idle, at_, ub⟩ m⟩
  | starting l => exact ⟨_, gets_starting ⟨m, .idle, at_, ub⟩ l m⟩
  | aborting l => exact ⟨_, gets_aborting ⟨m, .idle, at_, ub⟩ l m⟩
  | waiting l => exact ⟨_, gets_waiting ⟨m, .idle, at_, ub⟩ l m⟩
  | asap n l => exact ⟨_, gets_asap ⟨m, .idle, at_, ub⟩ n l m⟩

theorem one_run {conf : List ControllerInfo → Bool} (n : Nat) (s : St) :
    run conf s (List.replicate n (.rt reset time hw)) = (one reset time hw)^[n] s := by
  induction n generalizing s with
  | zero => rfl
  | succ n ih => rw [List.replicate_succ, Function.iterate_succ_apply]; exact ih _

theorem one_inv {P : List ControllerInfo → Prop} (hmono : ∀ l l', List.Sublist l' l → P l → P l') (n : Nat) {s : St} (h1 : Inv P s)
    (h2 : Inv2 s) : Inv P ((one reset time hw)^[n] s) ∧ Inv2 ((one reset time hw)^[n] s) := by
  induction n generalizing s with
  | zero => exact ⟨h1, h2⟩
  | succ n ih => rw [Function.iterate_succ_apply]; exact ih (inv_rt hmono h1 _ _ _) (inv2_rt h1 h2 _ _ _)

theorem cur_foldl {A : Type} (f : Mgr → A → Mgr) (hf : ∀ m a, (f m a).cur = m.cur) (l : List A) (m : Mgr) :
    (l.foldl f m).cur = m.cur := by
  induction l generalizing m with
  | nil => rfl
  | cons a l ih => rw [List.foldl_cons, ih, hf]

theorem cur_step (conf : List ControllerInfo → Bool) (s : St) (op : Op) : (step conf s op).m.cur = s.m.cur := by
  obtain ⟨m, rt, at_, ub⟩ := s
  cases op with
  | rt reset time hw =>
    show (rtStep _ _ _ _).m.cur = _
    cases rt with
    | idle => simp only [rtStep]; split <;> rfl
    | resetting l =>
      cases l with
      | nil => rfl
      | cons c l =>
        simp only [rtStep]
        split
        · exact (same_req m _ _).cur
        · rfl
    | restarting c l => exact (same_req m _ _).cur
    | looking =>
      simp only [rtStep]
      split
      · dsimp only
        split <;> rfl
      · rfl
    | stopping l =>
      cases l with
      | nil => rfl
      | cons c l =>
        simp only [rtStep]
        split
        · exact (same_req m _ _).cur
        · rfl
    | choosing =>
      simp only [rtStep]
      split
      · rfl
      · split
        · rfl
        · split <;> rfl
    | starting l =>
      cases l with
      | nil => rfl
      | cons c l => exact (same_req m _ _).cur
    | aborting l =>
      cases l with
      | nil => rfl
      | cons c l => exact (same_req m _ _).cur
    | waiting l =>
      cases l with
      | nil => rfl
      | cons c l => exact (same_req m _ _).cur
    | asap n l =>
      cases l with
      | nil => simp only [rtStep]; split <;> rfl
      | cons c l =>
        simp only [rtStep]
        split
        · refine cur_foldl _ (fun m' a => ?_) _ _
          unfold asapEntry
          split
          · split
            · exact (same_req m' _ _).cur
            · split <;> exact (same_req m' _ _).cur
          · rfl
        · rfl
  | call r now prepOk =>
    simp only [step, callStep]
    split
    · split
      · rfl
      · split <;> rfl
    · rfl
  | svc =>
    cases at_ with
    | idle => rfl
    | scanning r now ok l acc =>
      cases l with
      | nil => simp only [step, svcStep]; split <;> rfl
      | cons c l => simp only [step, svcStep]; split <;> rfl
    | waiting => simp only [step, svcStep]; split <;> rfl
  | giveUp => cases at_ <;> rfl
  | intrude => rfl

theorem cur_run (conf : List ControllerInfo → Bool) (s : St) (ops : List Op) : (run conf s ops).m.cur = s.m.cur := by
  induction ops generalizing s with
  | nil => rfl
  | cons op ops ih => exact (ih _).trans (cur_step conf s op)

/-! ### The hardware decides -/

/-- Started or given up. -/
def Settled (x : CState) : Prop := x = .running ∨ x = .aborted

theorem asapPure_kept {m : Mgr} (hp : ∀ n i, (hw.per n i).1 = .done ∨ (hw.per n i).2 = .error) (n : Nat) (cs : List CId)
    (st : CId → CState) {x : CId} (h : Settled (st x)) : Settled ((asapPure m time hw n cs st).1 x) := by
  induction cs generalizing n st with
  | nil => exact h
  | cons c cs ih =>
    simp only [asapPure]
    split
    · exact ih _ _ h
    · split
      · exact ih _ _ h
      · rename_i s _
        refine ih _ _ ?_
        split
        · unfold asapDecision
          rcases hp n s.info with e | e
          · rw [if_pos e]; exact Or.inl rfl
          · split
            · exact Or.inl rfl
            · rw [if_pos (by simp [e])]; exact Or.inr rfl
        · exact h

theorem asapPure_settled {m : Mgr} (hp : ∀ n i, (hw.per n i).1 = .done ∨ (hw.per n i).2 = .error) (n : Nat) (cs : List CId)
    (hm : ∀ c ∈ cs, c ∈ m.cur.map (·.c)) (st : CId → CState) : ∀ x ∈ cs, Settled ((asapPure m time hw n cs st).1 x) := by
  induction cs generalizing n st with
  | nil => simp
  | cons c cs ih =>
    intro x hx
    have ih := fun n => ih n (fun c hc => hm c (List.mem_cons_of_mem _ hc))
    simp only [asapPure]
    split
    · rename_i hr
      rcases List.mem_cons.1 hx with rfl | hx
      · exact asapPure_kept hp _ _ _ (Or.inl (by simpa [CState.isRunning] using hr))
      · exact ih _ _ _ hx
    · split
      · rename_i hf
        exfalso
        obtain ⟨s, hs, e⟩ := List.mem_map.1 (hm c (by simp))
        exact absurd (List.find?_eq_none.1 hf s hs) (by simp [e])
      · rename_i s _
        rcases List.mem_cons.1 hx with rfl | hx
        · refine asapPure_kept hp _ _ _ ?_
          rw [if_pos rfl]
          unfold asapDecision
          rcases hp n s.info with e | e
          · rw [if_pos e]; exact Or.inl rfl
          · split
            · exact Or.inl rfl
            · rw [if_pos (by simp [e])]; exact Or.inr rfl
        · exact ih _ _ _ hx

/-- If the hardware reports "done" or "error" for everything, the switch ends in this update. -/
theorem manageSwitch_ends {m : Mgr} (hm : Sane m) (hd : m.params.doSwitch = true)
    (h1 : hw.first = .done ∨ hw.second = .error) (hp : ∀ n i, (hw.per n i).1 = .done ∨ (hw.per n i).2 = .error) :
    (m.manageSwitch time hw).params.doSwitch = false := by
  obtain ⟨st, es, d, h0, e, ho⟩ := manageSwitch_out m hm hd time hw
  rw [e]
  show d = false
  by_contra hn
  have hn : d = true := by simpa using hn
  rcases ho.pending hn with ⟨_, k1, k2, _⟩ | ⟨ha, x, hx, k⟩
  · exact h1.elim k1 k2
  · have ha' : m.atStart.params.asap = true := ha
    unfold startPure at h0
    rw [if_pos ha'] at h0
    simp only [Prod.mk.injEq] at h0
    have := asapPure_settled (time := time) (m := m.atStart) hp 0 m.atStart.startReq hm.start m.atStart.state x hx
    rw [h0.1, k] at this
    rcases this with e | e <;> cases e

end Verif.Race
