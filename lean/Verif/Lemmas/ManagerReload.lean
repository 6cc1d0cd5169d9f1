import Verif.Lemmas.ManagerRelease

/-!
Helper lemmas for the manager: a forced reload from its acceptance to its return.
-/

namespace Verif

namespace Mgr

open Spec

/-- Events that may occur during a reload. -/
def ReloadEvents (es : List Event) : Prop :=
  (∀ ok, .reloadRet ok ∉ es) ∧ ∀ c, .cb c .waiting ∉ es ∧ .cb c .aborting ∉ es

theorem ReloadEvents.append {a b : List Event} (h1 : ReloadEvents a) (h2 : ReloadEvents b) :
    ReloadEvents (a ++ b) := by
  refine ⟨?_, fun c => ⟨?_, ?_⟩⟩
  · intro ok h; rcases List.mem_append.1 h with h | h; exacts [h1.1 ok h, h2.1 ok h]
  · intro h; rcases List.mem_append.1 h with h | h; exacts [(h1.2 c).1 h, (h2.2 c).1 h]
  · intro h; rcases List.mem_append.1 h with h | h; exacts [(h1.2 c).2 h, (h2.2 c).2 h]

theorem reloadEvents_driven (m : Mgr) (reset : Bool) : ReloadEvents (m.drivenEvents reset) := by
  refine ⟨?_, fun c => ⟨?_, ?_⟩⟩
  · intro ok h
    obtain ⟨s, _, _, hh⟩ := mem_drivenEvents h
    rcases hh with e | ⟨_, e | e⟩ <;> cases e
  · exact (quiet_driven m reset true).waiting c
  · exact (quiet_driven m reset true).aborting c

theorem reloadEvents_hw (m : Mgr) : ReloadEvents m.hwEvents := by
  refine ⟨?_, fun c => ⟨?_, ?_⟩⟩
  · intro ok h; cases (mem_hwEvents h).1
  · intro h; cases (mem_hwEvents h).1
  · intro h; cases (mem_hwEvents h).1

/-- An update during a reload makes only such events. -/
theorem reloadEvents_update {P} {m : Mgr} (h : Inv P m) (hs : m.startReq = []) (time : Int)
    (reset : Bool) (hw : HwReply) :
    ∃ es, (m.update time reset hw).trace = m.trace ++ es ∧ ReloadEvents es := by
  cases hd : m.params.doSwitch
  · rw [update_idle m hd]
    exact ⟨_, rfl, reloadEvents_driven m reset⟩
  · obtain ⟨st, es, d, h1, he, ho⟩ := update_switch m h.sane hd time reset hw
    rw [he]
    refine ⟨_, rfl, ((reloadEvents_driven m reset).append (reloadEvents_hw m)).append ?_ |>.append ?_⟩
    · refine ⟨?_, fun c => ⟨?_, ?_⟩⟩
      · intro ok hh; obtain ⟨x, _, _, e⟩ := mem_stopEvents.1 hh; cases e
      · intro hh; obtain ⟨x, _, _, e⟩ := mem_stopEvents.1 hh; cases e
      · intro hh; obtain ⟨x, _, _, e⟩ := mem_stopEvents.1 hh; cases e
    · have hnone : ∀ e, e ∉ es := by
        intro e hh
        obtain ⟨x, hx, _⟩ := ho.events _ hh
        have hx' : x ∈ m.startReq := hx
        rw [hs] at hx'; cases hx'
      exact ⟨fun _ => hnone _, fun _ => ⟨hnone _, hnone _⟩⟩

/-- A forced reload in progress, begun in `m0`. -/
structure Reloading (m0 m : Mgr) : Prop where
  noStart : m.startReq = []
  phase :
    ((∃ t, t = 0 ∧ m.svc = .switching (.reload (m0.cur.map (·.info.name))) t) ∧ m.cur = m0.cur ∧
      ∀ s ∈ m0.cur, s.c ∈ m.stopReq) ∨
    ((∃ f n, m.svc = .releasing f (.unload n (.reload (m.cur.map (·.info.name))))) ∧
      ∀ s ∈ m.cur, m.state s.c ≠ .running) ∨
    (m.svc = .unloading (m.cur.map (·.info.name)) ∧ ∀ s ∈ m.cur, m.state s.c ≠ .running)
  trace : ∃ es, m.trace = m0.trace ++ es ∧ ReloadEvents es ∧
    ∀ s ∈ m0.cur, s ∈ m.cur ∨ (m.ReleasingList ∧ s ∈ m.oth ∧ s.c ∉ m.cur.map (·.c)) ∨
      .destroyed s.c ∈ es

theorem reloading_update {m0 m : Mgr} (h : Inv (fun _ => True) m) (hr : Reloading m0 m) (time : Int)
    (reset : Bool) (hw : HwReply) : Reloading m0 (m.update time reset hw) := by
  obtain ⟨u1, u2, u3, u4, u5⟩ := update_cur h time reset hw
  obtain ⟨u6, u7, _⟩ := update_lists h time reset hw
  refine ⟨u4.trans hr.noStart, ?_, ?_⟩
  · rcases hr.phase with ⟨⟨t, h0, h1⟩, h2, h3⟩ | ⟨⟨f, n, h1⟩, h2⟩ | ⟨h1, h2⟩
    · exact Or.inl ⟨⟨t, h0, u3.trans h1⟩, u1.trans h2, fun s hs => by rw [u5]; exact h3 s hs⟩
    · have hns : ¬ m.Switching := by rintro ⟨k, t, e⟩; rw [h1] at e; cases e
      have hst := (update_quiet h hns time reset hw).1
      refine Or.inr (Or.inl ⟨⟨f, n, by rw [u3, u1]; exact h1⟩, ?_⟩)
      rw [u1, hst]; exact h2
    · have hns : ¬ m.Switching := by rintro ⟨k, t, e⟩; rw [h1] at e; cases e
      have hst := (update_quiet h hns time reset hw).1
      refine Or.inr (Or.inr ⟨by rw [u3, u1]; exact h1, ?_⟩)
      rw [u1, hst]; exact h2
  · obtain ⟨es, e1, e2, e3⟩ := hr.trace
    obtain ⟨es', e4, e5⟩ := reloadEvents_update h hr.noStart time reset hw
    refine ⟨es ++ es', by rw [e4, e1]; simp, e2.append e5, ?_⟩
    intro s hs
    rcases e3 s hs with h1 | ⟨⟨f, r, h1⟩, h2, h3⟩ | h1
    · left; rw [u1]; exact h1
    · right; left
      exact ⟨⟨f, r, u3.trans h1⟩, by rw [u6]; exact h2, by rw [u1]; exact h3⟩
    · right; right; simp [h1]

theorem reloading_step {conf} {m0 m : Mgr} (h : Inv (fun _ => True) m) (hr : Reloading m0 m) (op : Op)
    (hop : op.rosUp) : Reloading m0 (m.step conf op) ∨
      (∃ el, op = .poll {} el) ∧ m.svc = .unloading [] ∧ m.cur = [] := by
  have hidle : m.svc ≠ .idle := by
    rcases hr.phase with ⟨⟨t, h0, h1⟩, _⟩ | ⟨⟨f, n, h1⟩, _⟩ | ⟨h1, _⟩ <;> rw [h1] <;> simp
  cases op with
  | update t re hw => exact Or.inl (reloading_update h hr t re hw)
  | load n e => exact Or.inl (by show Reloading m0 (m.load n e); simpa [load, hidle] using hr)
  | unload n => exact Or.inl (by show Reloading m0 (m.unload n); simpa [unload, hidle] using hr)
  | switch r now p =>
    exact Or.inl (by show Reloading m0 (m.switch conf r now p); simpa [switch, hidle] using hr)
  | reload f now p =>
    exact Or.inl (by show Reloading m0 (m.reload conf f now p); simpa [reload, hidle] using hr)
  | poll ok el =>
    have hok : ok = {} := by
      obtain ⟨c1, c2⟩ := hop
      cases ok; simp at c1 c2; simp [c1, c2]
    subst hok
    obtain ⟨es, e1, e2, e3⟩ := hr.trace
    rcases hr.phase with ⟨⟨t, h0, h1⟩, h2, h3⟩ | ⟨⟨f, n, h1⟩, h2⟩ | ⟨h1, h2⟩
    · -- waiting for the switch
      left
      show Reloading m0 (m.poll {} el)
      subst h0
      cases hd : m.params.doSwitch
      · have hp : m.poll {} el =
            { m with startReq := [], stopReq := [], trace := m.trace ++ [.switchRet true]
                     svc := .unloading (m0.cur.map (·.info.name)) } := by
          unfold poll; rw [h1]; simp [hd, finish, emit]
        rw [hp]
        refine ⟨rfl, Or.inr (Or.inr ⟨by rw [h2], ?_⟩), es ++ [.switchRet true], by rw [e1]; simp, ?_, ?_⟩
        · intro s hs
          refine (h.done ⟨_, _, h1⟩ hd trivial).2.2 s.c (h3 s (h2 ▸ hs)) ?_
          rw [hr.noStart]; simp
        · exact e2.append (by simp [ReloadEvents])
        · intro s hs
          left; show s ∈ m.cur; rw [h2]; exact hs
      · have hp : m.poll {} el = m := by
          unfold poll; rw [h1]; simp [hd]
        rw [hp]; exact hr
    · -- waiting for the old list
      left
      show Reloading m0 (m.poll {} el)
      by_cases hu : m.used = some f
      · have hp : m.poll {} el = m := by unfold poll; rw [h1]; simp [hu]
        rw [hp]; exact hr
      · rw [poll_unload h1 hu el]
        refine ⟨hr.noStart, Or.inr (Or.inr ⟨rfl, h2⟩),
          es ++ (m.dropped.map .destroyed ++ [.unloadRet n true]), ?_, ?_, ?_⟩
        · show m.trace ++ _ ++ _ = _
          rw [e1]; simp
        · refine e2.append ⟨?_, fun c => ⟨?_, ?_⟩⟩ <;> simp
        · intro s hs
          rcases e3 s hs with k1 | ⟨_, k2, k3⟩ | k1
          · exact Or.inl k1
          · right; right
            have : s.c ∈ m.dropped := by
              refine List.mem_map.2 ⟨s, List.mem_filter.2 ⟨k2, ?_⟩, rfl⟩
              simp only [Bool.not_eq_true', List.any_eq_false, decide_eq_true_eq]
              intro u hu e
              exact k3 (List.mem_map.2 ⟨u, hu, e⟩)
            simp [this]
          · right; right; simp [k1]
    · -- about to unload the next controller
      cases hc : m.cur with
      | nil =>
        right
        exact ⟨⟨el, rfl⟩, by rw [h1, hc]; rfl, rfl⟩
      | cons s rest =>
        left
        show Reloading m0 (m.poll {} el)
        have hnr : ¬ m.ReleasingList := by rintro ⟨_, _, e⟩; rw [h1] at e; cases e
        have hp : m.poll {} el = m.unloaded s.info.name (.reload (rest.map (·.info.name))) := by
          unfold poll; rw [h1, hc]
          simp only [List.map_cons]
          rcases unloadCore_cases m s.info.name (.reload (rest.map (·.info.name)))
            (fun m => { m with svc := .idle }.emit [.reloadRet false]) (h.used hnr) with
            ⟨_, _, e⟩ | ⟨hn, _⟩
          · exact e
          · exfalso
            refine hn ⟨⟨s, by simp [hc], rfl⟩, ?_⟩
            intro u hu _
            cases hb : m.isRunning u.c
            · rfl
            · exact absurd (isRunning_iff.1 hb) (h2 u hu)
        have hnames := h.names
        have hobjs := h.objs
        rw [hc] at hnames hobjs
        simp only [List.map_cons, List.nodup_cons] at hnames hobjs
        have hcur : (m.unloaded s.info.name (.reload (rest.map (·.info.name)))).cur = rest := by
          show m.cur.filter _ = _
          rw [hc]
          simp only [List.filter_cons, decide_true, Bool.not_true, Bool.false_eq_true, if_false]
          rw [List.filter_eq_self]
          intro u hu
          simp only [Bool.not_eq_true', decide_eq_false_iff_not]
          intro e
          exact hnames.1 (List.mem_map.2 ⟨u, hu, e⟩)
        rw [hp]
        refine ⟨hr.noStart, Or.inr (Or.inl ⟨⟨m.current, s.info.name, by rw [hcur]; rfl⟩, ?_⟩),
          es, e1, e2, ?_⟩
        · intro u hu
          rw [hcur] at hu
          exact h2 u (by simp [hc, hu])
        · intro u hu
          rw [hcur]
          rcases e3 u hu with k1 | ⟨k1, _⟩ | k1
          · rw [hc] at k1
            rcases List.mem_cons.1 k1 with k1 | k1
            · right; left
              subst k1
              exact ⟨⟨_, _, rfl⟩, by show u ∈ m.cur; simp [hc], hobjs.1⟩
            · exact Or.inl k1
          · exact absurd k1 hnr
          · exact Or.inr (Or.inr k1)

/-- A forced reload in progress either still is, or has come to its end. -/
theorem reloading_run {conf} {m0 m : Mgr} (h : Inv (fun _ => True) m) (hr : Reloading m0 m)
    (ops : List Op) (hops : ∀ op ∈ ops, op.rosUp) :
    Reloading m0 (m.run conf ops) ∨
    ∃ ops1 el ops2, ops = ops1 ++ .poll {} el :: ops2 ∧ Reloading m0 (m.run conf ops1) ∧
      (m.run conf ops1).svc = .unloading [] ∧ (m.run conf ops1).cur = [] := by
  induction ops generalizing m with
  | nil => exact Or.inl hr
  | cons op ops ih =>
    have h' := inv_step (checkOk_true conf) h op (hops op (by simp))
    have ho' : ∀ o ∈ ops, o.rosUp := fun o ho => hops o (by simp [ho])
    rcases reloading_step (conf := conf) h hr op (hops op (by simp)) with h1 | ⟨⟨el, rfl⟩, h2, h3⟩
    · rw [run_cons]
      rcases ih h' h1 ho' with k | ⟨o1, el, o2, k1, k2, k3, k4⟩
      · exact Or.inl k
      · refine Or.inr ⟨op :: o1, el, o2, by rw [k1]; rfl, ?_⟩
        rw [run_cons]; exact ⟨k2, k3, k4⟩
    · exact Or.inr ⟨[], el, ops, rfl, hr, h2, h3⟩

/-- A controller that was seen running and is not any more has been stopped, put to wait or
aborted. -/
theorem observed_stopped {c : CId} {t x : List Event} (h1 : observed c t = .running)
    (h2 : observed c (t ++ x) ≠ .running) :
    .cb c .stopping ∈ x ∨ .cb c .waiting ∈ x ∨ .cb c .aborting ∈ x := by
  induction x using List.reverseRecOn with
  | nil => simp at h2; exact absurd h1 h2
  | append_singleton x e ih =>
    rw [← List.append_assoc, observed_append] at h2
    by_cases hx : observed c (t ++ x) = .running
    · rw [hx] at h2
      cases e with
      | cb c' k =>
        by_cases hc : c' = c
        · subst hc
          cases k <;> simp [stepState, afterCallback] at h2 ⊢
        · simp [stepState, hc] at h2
      | _ => simp [stepState] at h2
    · rcases ih hx with h | h | h <;> simp [h]

end Mgr

end Verif
