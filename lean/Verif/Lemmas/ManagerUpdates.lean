import Verif.Lemmas.ManagerTraceState

/-!
Helper lemma for the manager: the events of an update with and without a reset.
-/

namespace Verif

namespace Mgr

theorem update_events {P} {m : Mgr} (h : Inv P m) (time : Int) (hw : HwReply) :
    ∃ sw, (∀ reset : Bool, (m.update time reset hw).trace =
        m.trace ++ ((if reset then m.running.flatMap fun s => [.cb s.c .stopping, .cb s.c .starting]
          else []) ++ m.running.map (fun s => .cb s.c .update) ++ sw)) ∧
      { m.update time true hw with trace := [] } = { m.update time false hw with trace := [] } ∧
      (∀ c, .cb c .update ∉ sw) ∧ (m.params.doSwitch = false → sw = []) := by
  have hdr : ∀ reset : Bool, m.drivenEvents reset =
      (if reset then m.running.flatMap fun s => [.cb s.c .stopping, .cb s.c .starting] else []) ++
        m.running.map (fun s => .cb s.c .update) := by
    intro reset
    have : m.running = m.cur.filter fun s => m.isRunning s.c := by
      unfold running
      apply List.filter_congr
      intro s _
      simp [isRunning, CState.isRunning]
    rw [this]
    rfl
  cases hd : m.params.doSwitch
  · refine ⟨[], ?_, ?_, by simp, fun _ => rfl⟩
    · intro reset
      rw [update_idle m hd, ← hdr]
      simp [upd]
    · rw [update_idle m hd, update_idle m hd]; rfl
  · obtain ⟨st, es, d, h1, he, ho⟩ := update_switch m h.sane hd time true hw
    obtain ⟨st', es', d', h1', he', _⟩ := update_switch m h.sane hd time false hw
    rw [h1] at h1'
    cases h1'
    refine ⟨m.hwEvents ++ stopEvents m.isRunning m.stopReq ++ es, ?_, ?_, ?_, by simp⟩
    · intro reset
      rw [← hdr]
      cases reset
      · rw [he']; simp [upd]
      · rw [he]; simp [upd]
    · rw [he, he']; rfl
    · intro c hc
      rcases List.mem_append.1 hc with hc | hc
      · rcases List.mem_append.1 hc with hc | hc
        · cases (mem_hwEvents hc).1
        · obtain ⟨x, _, _, e⟩ := mem_stopEvents.1 hc; cases e
      · obtain ⟨x, _, hh⟩ := ho.events _ hc
        rcases hh with ⟨e, _⟩ | ⟨e, _⟩ | e <;> cases e

end Mgr

end Verif
