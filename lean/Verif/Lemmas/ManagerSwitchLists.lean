import Verif.Lemmas.ManagerQuiet

/-!
Helper lemmas for the manager: the lists of a switch request in terms of names.
-/

namespace Verif

open Mgr Spec

theorem loaded_iff {m : Mgr} {n : String} : Loaded m n ↔ m.getControllerByName n ≠ none := by
  rw [Ne, getControllerByName_none]
  simp [Loaded]

theorem runs_iff {m : Mgr} (hn : (m.cur.map (·.info.name)).Nodup) {s : CtrlSpec} (hs : s ∈ m.cur) :
    Runs m s.info.name ↔ m.state s.c = .running := by
  unfold Runs Mgr.running
  rw [List.mem_map]
  constructor
  · rintro ⟨t, ht, e⟩
    obtain ⟨ht1, ht2⟩ := List.mem_filter.1 ht
    have : t = s := List.inj_on_of_nodup_map hn ht1 hs e
    subst this; simpa using ht2
  · intro h
    exact ⟨s, List.mem_filter.2 ⟨hs, by simpa using h⟩, rfl⟩

theorem filter_resolved {m : Mgr} (hv : Inv (fun _ => True) m) (start stop : List String) :
    (m.scanLists (start.filterMap m.getControllerByName) (stop.filterMap m.getControllerByName) m.cur)
      = ⟨named m false start, named m true stop, target m start stop⟩ := by
  have h : ∀ s ∈ m.cur, ∀ ns : List String,
      (s.c ∈ ns.filterMap m.getControllerByName ↔ s.info.name ∈ ns) :=
    fun s hs ns => mem_resolved hv.names hv.objs hs ns
  unfold scanLists named target
  congr 2
  · apply List.filter_congr
    intro s hs
    by_cases h1 : m.state s.c = .running <;> simp [isRunning, CState.isRunning, h1, h s hs]
  · apply List.filter_congr
    intro s hs
    by_cases h1 : m.state s.c = .running <;> simp [isRunning, CState.isRunning, h1, h s hs]
  · apply List.filter_congr
    intro s hs
    by_cases h1 : m.state s.c = .running <;> simp [isRunning, CState.isRunning, h1, h s hs]

theorem switch_switching_iff {conf} {m : Mgr} (hv : Inv (fun _ => True) m) (hi : m.svc = .idle)
    (r : SwitchReq) (now : Int) (prepOk : Bool) :
    (m.switch conf r now prepOk).Switching ↔ m.okRequest conf r prepOk := by
  constructor
  · intro h; exact (switch_accepted hv hi h).1
  · intro h; rw [switch_accepted_eq hv hi h]; exact ⟨_, _, rfl⟩

theorem switch_prepare {conf} {m : Mgr} (hv : Inv (fun _ => True) m) (hi : m.svc = .idle)
    (r : SwitchReq) (now : Int) (prepOk : Bool) {es : List Event}
    (he : (m.switch conf r now prepOk).trace = m.trace ++ es) :
    (∀ a b ok, .prepareSwitch a b ok ∈ es → a = named m false r.start ∧ b = named m true r.stop ∧
      ok = prepOk) ∧
    (∀ a b, .accepted a b ∈ es → a = named m false r.start ∧ b = named m true r.stop) := by
  obtain ⟨c1, c2⟩ := hv.reqs (not_switching_of_idle hi)
  have e : m.switch conf r now prepOk = (m.switchCore conf r now prepOk .ret).2 := by
    simp [switch, hi]
  rw [e, switchCore_eq _ _ _ _ _ _ c1 c2] at he
  split at he
  · have := List.append_cancel_left he
    subst this; simp
  · simp only at he
    by_cases hbad : ∃ s ∈ m.cur, m.badEntry (strictOf r) (r.start.filterMap m.getControllerByName)
        (r.stop.filterMap m.getControllerByName) s
    · rw [if_pos (Or.inl (scan_refuse m _ _ _ _ _ hbad))] at he
      have := List.append_cancel_left he
      subst this; simp
    · have hok := scan_ok m (strictOf r) (r.start.filterMap m.getControllerByName)
        (r.stop.filterMap m.getControllerByName) m.cur {} (fun s hs hb => hbad ⟨s, hs, hb⟩)
      rw [hok] at he
      have hl : Scan.append {} (m.scanLists (r.start.filterMap m.getControllerByName)
          (r.stop.filterMap m.getControllerByName) m.cur) =
          ⟨named m false r.start, named m true r.stop, target m r.start r.stop⟩ := by
        rw [filter_resolved hv]; simp [Scan.append]
      rw [hl] at he
      split at he
      · have := List.append_cancel_left he
        subst this; simp
      · split at he
        · rename_i hp
          have he' := he
          rw [List.append_assoc] at he'
          have := List.append_cancel_left he'
          subst this; simp [hp]
        · rename_i hp
          have := List.append_cancel_left he
          subst this
          have : prepOk = true := by simpa using hp
          simp [this]

end Verif
