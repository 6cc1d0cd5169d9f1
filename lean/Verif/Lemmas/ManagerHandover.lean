import Verif.Lemmas.ManagerTraceState

/-!
Helper lemmas for the manager: who is running when a controller is called.
-/

namespace Verif

namespace Mgr

open Spec

/-- Whenever one of the events calls a controller, no controller in relation `K` to it is running. -/
def Guarded (K : CId → CId → Prop) (st : CId → CState) (es : List Event) : Prop :=
  ∀ pre c k post, es = pre ++ .cb c k :: post → ∀ c', K c c' → pre.foldl (stepState c') (st c') ≠ .running

theorem foldl_running {c : CId} {es : List Event} {s : CState} (h : es.foldl (stepState c) s = .running) :
    s = .running ∨ ∃ k, .cb c k ∈ es := by
  by_cases hc : ∃ k, .cb c k ∈ es
  · exact Or.inr hc
  · left
    rw [foldl_noCb (fun k hk => hc ⟨k, hk⟩)] at h
    exact h

theorem guarded_of_set {K : CId → CId → Prop} {st : CId → CState} {es : List Event} (D : CId → Prop)
    (hcb : ∀ c k, .cb c k ∈ es → D c) (hst : ∀ c, st c = .running → D c)
    (hK : ∀ c c', D c → D c' → ¬K c c') : Guarded K st es := by
  rintro pre c k post rfl c' hk hr
  refine hK c c' (hcb c k (by simp)) ?_ hk
  rcases foldl_running hr with h | ⟨k', h⟩
  · exact hst c' h
  · exact hcb c' k' (by simp [h])

theorem Guarded.append {K : CId → CId → Prop} {st : CId → CState} {es es' : List Event} (h1 : Guarded K st es)
    (h2 : Guarded K (fun c => es.foldl (stepState c) (st c)) es') : Guarded K st (es ++ es') := by
  intro pre c k post e c' hk
  rcases List.append_eq_append_iff.1 e with ⟨as, e1, e2⟩ | ⟨bs, e1, e2⟩
  · rw [e1, List.foldl_append]
    exact h2 as c k post e2 c' hk
  · cases bs with
    | nil =>
      rw [List.append_nil] at e1
      rw [← e1]
      exact h2 [] c k post e2.symm c' hk
    | cons b bs =>
      rw [List.cons_append] at e2
      injection e2 with e3 e4
      subst e3
      exact h1 pre c k bs e1 c' hk

theorem guarded_noCb {K : CId → CId → Prop} {st : CId → CState} {es : List Event} (h : NoCb es) :
    Guarded K st es := by
  rintro pre c k post rfl
  exact absurd (by simp) (h c k)

/-- The callbacks of an update. -/
theorem guarded_update {P} {K : CId → CId → Prop} {m : Mgr} (h : Inv P m)
    (hK : ∀ l : List ControllerInfo, P l → ∀ s ∈ m.cur, ∀ t ∈ m.cur, s.info ∈ l → t.info ∈ l → ¬K s.c t.c)
    (time : Int) (reset : Bool) (hw : HwReply) :
    ∃ es, (m.update time reset hw).trace = m.trace ++ es ∧ Guarded K m.state es := by
  have hfree : ∀ c c', m.state c = .running → m.state c' = .running → ¬K c c' := by
    intro c c' hc hc'
    obtain ⟨s, hs, rfl⟩ := List.mem_map.1 (h.running c hc)
    obtain ⟨t, ht, rfl⟩ := List.mem_map.1 (h.running c' hc')
    refine hK _ h.free s hs t ht ?_ ?_
    · exact List.mem_map_of_mem (List.mem_filter.2 ⟨hs, isRunning_iff.2 hc⟩)
    · exact List.mem_map_of_mem (List.mem_filter.2 ⟨ht, isRunning_iff.2 hc'⟩)
  have hdr : ∀ c k, .cb c k ∈ m.drivenEvents reset → m.state c = .running := by
    intro c k hck
    obtain ⟨s, hs, hr, hh⟩ := mem_drivenEvents hck
    have : c = s.c := by
      rcases hh with e | ⟨_, e | e⟩ <;> cases e <;> rfl
    rw [this]
    exact hr
  cases hd : m.params.doSwitch
  · refine ⟨m.drivenEvents reset, by rw [update_idle m hd]; rfl, ?_⟩
    exact guarded_of_set (fun c => m.state c = .running) hdr (fun _ h => h) hfree
  · obtain ⟨st, es, d, _, he, ho⟩ := update_switch m h.sane hd time reset hw
    refine ⟨_, by rw [he]; rfl, ?_⟩
    have hold : ∀ c k, .cb c k ∈ m.drivenEvents reset ++ m.hwEvents ++ stopEvents m.isRunning m.stopReq →
        m.state c = .running := by
      intro c k hck
      simp only [List.mem_append] at hck
      rcases hck with (hck | hck) | hck
      · exact hdr c k hck
      · have := (mem_hwEvents hck).1; cases this
      · obtain ⟨x, hx, hr, e⟩ := mem_stopEvents.1 hck
        cases e; exact isRunning_iff.1 hr
    refine Guarded.append (guarded_of_set (fun c => m.state c = .running) hold (fun _ h => h) hfree) ?_
    refine guarded_of_set (fun c => c ∈ m.startReq ∨ (m.state c = .running ∧ c ∉ m.stopReq)) ?_ ?_ ?_
    · intro c k hck
      obtain ⟨x, hx, hh⟩ := ho.events _ hck
      left
      rcases hh with ⟨e, _⟩ | ⟨e, _⟩ | e <;> cases e <;> exact hx
    · intro c hr
      right
      have hst : m.state c = .running := by
        rcases foldl_running hr with h1 | ⟨k, h1⟩
        · exact h1
        · exact hold c k h1
      refine ⟨hst, fun hs => ?_⟩
      have hmem : Event.cb c .stopping ∈ stopEvents m.isRunning m.stopReq :=
        mem_stopEvents.2 ⟨c, hs, isRunning_iff.2 hst, rfl⟩
      obtain ⟨a, b, e⟩ := List.append_of_mem hmem
      rw [List.foldl_append, e, List.foldl_append, List.foldl_cons] at hr
      rcases foldl_running hr with h1 | ⟨k, h1⟩
      · simp [stepState, afterCallback] at h1
      · have hb : Event.cb c k ∈ stopEvents m.isRunning m.stopReq := by rw [e]; simp [h1]
        obtain ⟨x, _, _, e'⟩ := mem_stopEvents.1 hb
        cases e'
        have := nodup_stopEvents m.isRunning m.stopReq
        rw [e, List.nodup_append] at this
        exact (List.nodup_cons.1 this.2.1).1 h1
    · have ht := h.target hd
      intro c c' hc hc'
      have loaded : ∀ c, c ∈ m.startReq ∨ (m.state c = .running ∧ c ∉ m.stopReq) →
          ∃ s ∈ m.cur, s.c = c ∧ s.info ∈ m.targetInfos := by
        intro c hc
        have : c ∈ m.cur.map (·.c) := by
          rcases hc with hc | hc
          · exact h.start c hc
          · exact h.running c hc.1
        obtain ⟨s, hs, rfl⟩ := List.mem_map.1 this
        refine ⟨s, hs, rfl, List.mem_map_of_mem (List.mem_filter.2 ⟨hs, ?_⟩)⟩
        rcases hc with hc | hc
        · simp [hc]
        · simp [isRunning_iff.2 hc.1, hc.2]
      obtain ⟨s, hs, rfl, hs'⟩ := loaded c hc
      obtain ⟨t, ht', rfl, ht''⟩ := loaded c' hc'
      exact hK _ ht s hs t ht' hs' ht''

/-- The callbacks of any operation. -/
theorem guarded_step {conf P} {K : CId → CId → Prop} {m : Mgr} (h : Inv P m)
    (hK : ∀ l : List ControllerInfo, P l → ∀ s ∈ m.cur, ∀ t ∈ m.cur, s.info ∈ l → t.info ∈ l → ¬K s.c t.c)
    (op : Op) (hop : op.rosUp) :
    ∃ es, (m.step conf op).trace = m.trace ++ es ∧ Guarded K m.state es := by
  cases op with
  | update t r hw => exact guarded_update h hK t r hw
  | load n e =>
    obtain ⟨es, h1, h2, _⟩ := load_trace m n e
    exact ⟨es, h1, guarded_noCb h2⟩
  | unload n =>
    obtain ⟨es, h1, h2, _⟩ := unload_trace h n
    exact ⟨es, h1, guarded_noCb h2⟩
  | switch r now p =>
    obtain ⟨es, h1, h2⟩ := switch_trace (conf := conf) h r now p
    exact ⟨es, h1, guarded_noCb h2⟩
  | reload f now p =>
    obtain ⟨es, h1, h2⟩ := reload_trace (conf := conf) h f now p
    exact ⟨es, h1, guarded_noCb h2⟩
  | poll ok e =>
    obtain ⟨es, h1, h2, _⟩ := poll_trace h ok hop e
    exact ⟨es, h1, guarded_noCb h2⟩

/-- An operation calls only controllers that are loaded. -/
theorem step_calls {conf P} {m : Mgr} (h : Inv P m) (op : Op) (hop : op.rosUp) {es : List Event}
    (he : (m.step conf op).trace = m.trace ++ es) {c : CId} {k : Callback} (hc : .cb c k ∈ es) :
    c ∈ m.cur.map (·.c) := by
  have none : ∀ es', (m.step conf op).trace = m.trace ++ es' → NoCb es' → c ∈ m.cur.map (·.c) := by
    intro es' h1 h2
    rw [h1] at he
    rw [← List.append_cancel_left he] at hc
    exact absurd hc (h2 c k)
  cases op with
  | update t r hw =>
    obtain ⟨es', h1, h2⟩ := update_trace h t r hw
    change (m.update t r hw).trace = _ at he
    rw [h1] at he
    rw [← List.append_cancel_left he] at hc
    exact h2 c k hc
  | load n e =>
    obtain ⟨es, h1, h2, _⟩ := load_trace m n e
    exact none es h1 h2
  | unload n =>
    obtain ⟨es, h1, h2, _⟩ := unload_trace h n
    exact none es h1 h2
  | switch r now p =>
    obtain ⟨es, h1, h2⟩ := switch_trace (conf := conf) h r now p
    exact none es h1 h2
  | reload f now p =>
    obtain ⟨es, h1, h2⟩ := reload_trace (conf := conf) h f now p
    exact none es h1 h2
  | poll ok e =>
    obtain ⟨es, h1, h2, _⟩ := poll_trace h ok hop e
    exact none es h1 h2

end Mgr

end Verif
