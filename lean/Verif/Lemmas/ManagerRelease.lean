import Verif.Lemmas.ManagerTraceState

/-!
Helper lemmas for the manager: a load or unload from the new list to the return of the call.
-/

namespace Verif

namespace Mgr

/-- The call in progress is still the same; only realtime updates have happened. -/
structure Held (m m' : Mgr) : Prop where
  svc : m'.svc = m.svc
  cur : m'.cur = m.cur
  oth : m'.oth = m.oth
  current : m'.current = m.current
  nextId : m'.nextId = m.nextId
  state : m'.state = m.state
  trace : ∃ es, m'.trace = m.trace ++ es ∧ ∀ e ∈ es, (∃ c k, e = .cb c k) ∨ ∃ a b, e = .doSwitch a b

theorem Held.refl (m : Mgr) : Held m m := ⟨rfl, rfl, rfl, rfl, rfl, rfl, [], by simp, by simp⟩

theorem Held.trans {a b c : Mgr} (h1 : Held a b) (h2 : Held b c) : Held a c := by
  obtain ⟨e1, t1, d1⟩ := h1.trace
  obtain ⟨e2, t2, d2⟩ := h2.trace
  refine ⟨h2.svc.trans h1.svc, h2.cur.trans h1.cur, h2.oth.trans h1.oth, h2.current.trans h1.current,
    h2.nextId.trans h1.nextId, h2.state.trans h1.state, e1 ++ e2, by rw [t2, t1]; simp, ?_⟩
  intro e he
  rcases List.mem_append.1 he with he | he
  exacts [d1 e he, d2 e he]

theorem update_lists {P} {m : Mgr} (h : Inv P m) (time : Int) (reset : Bool) (hw : HwReply) :
    (m.update time reset hw).oth = m.oth ∧ (m.update time reset hw).current = m.current ∧
    (m.update time reset hw).used = some m.current := by
  cases hd : m.params.doSwitch
  · rw [update_idle m hd]; exact ⟨rfl, rfl, rfl⟩
  · obtain ⟨st, es, d, _, he, ho⟩ := update_switch m h.sane hd time reset hw
    rw [he]; exact ⟨rfl, rfl, rfl⟩

theorem held_update {P} {m : Mgr} (h : Inv P m) (hs : ¬ m.Switching) (time : Int) (reset : Bool)
    (hw : HwReply) : Held m (m.update time reset hw) := by
  obtain ⟨h1, h2, h3, _⟩ := update_cur h time reset hw
  obtain ⟨h4, h5, _⟩ := update_lists h time reset hw
  obtain ⟨h6, h7⟩ := update_quiet h hs time reset hw
  refine ⟨h3, h1, h4, h5, h2, h6, _, h7, ?_⟩
  intro e he
  rcases List.mem_append.1 he with he | he
  · obtain ⟨s, _, _, hh⟩ := mem_drivenEvents he
    rcases hh with rfl | ⟨_, rfl | rfl⟩ <;> exact Or.inl ⟨_, _, rfl⟩
  · split at he
    · exact Or.inr ⟨_, _, (mem_hwEvents he).1⟩
    · cases he

/-- A run that starts while a call waits for the realtime thread to leave the old list: either
the call still waits, or an iteration of its loop, before which only updates happened, found
the list free. -/
theorem run_releasing {conf} {m : Mgr} (h : Inv (fun _ => True) m) {f : Bool} {r : Releasing}
    (hs : m.svc = .releasing f r) (ops : List Op) (hops : ∀ op ∈ ops, op.rosUp) :
    (Held m (m.run conf ops) ∧ ((m.used = some m.current ∨ ∃ t re hw, .update t re hw ∈ ops) →
      (m.run conf ops).used = some m.current)) ∨
    ∃ ops1 el ops2, ops = ops1 ++ .poll {} el :: ops2 ∧ Held m (m.run conf ops1) ∧
      (m.run conf ops1).used ≠ some f := by
  induction ops generalizing m with
  | nil => exact Or.inl ⟨Held.refl m, by simp [run]⟩
  | cons op ops ih =>
    have h' := inv_step (checkOk_true conf) h op (hops op (by simp))
    have ho' : ∀ o ∈ ops, o.rosUp := fun o ho => hops o (by simp [ho])
    have hnsw : ¬ m.Switching := by rintro ⟨k, t, e⟩; rw [hs] at e; cases e
    have hstay : ∀ m1 : Mgr, m.step conf op = m1 → Held m m1 →
        (m1.used = some m.current ∨ (m1.used = m.used ∧ ∀ t re hw, op ≠ .update t re hw)) →
        (Held m (m.run conf (op :: ops)) ∧
          ((m.used = some m.current ∨ ∃ t re hw, .update t re hw ∈ op :: ops) →
          (m.run conf (op :: ops)).used = some m.current)) ∨
        ∃ ops1 el ops2, op :: ops = ops1 ++ .poll {} el :: ops2 ∧ Held m (m.run conf ops1) ∧
          (m.run conf ops1).used ≠ some f := by
      intro m1 e hh hu
      subst e
      rw [run_cons]
      rcases ih h' (by rw [hh.svc, hs]) ho' with ⟨h1, h2⟩ | ⟨o1, el, o2, h1, h2, h3⟩
      · refine Or.inl ⟨hh.trans h1, fun hc => ?_⟩
        rw [hh.current] at h2
        apply h2
        rcases hu with hu | ⟨hu, hu'⟩
        · exact Or.inl hu
        · rcases hc with hc | ⟨t, re, hw, hc⟩
          · exact Or.inl (hu.trans hc)
          · rcases List.mem_cons.1 hc with hc | hc
            · exact absurd hc.symm (hu' t re hw)
            · exact Or.inr ⟨t, re, hw, hc⟩
      · exact Or.inr ⟨op :: o1, el, o2, by rw [h1]; rfl, by rw [run_cons]; exact hh.trans h2,
          by rw [run_cons]; exact h3⟩
    have hidle : m.svc ≠ .idle := by rw [hs]; simp
    cases op with
    | update t re hw =>
      exact hstay _ rfl (held_update h hnsw t re hw) (Or.inl (update_lists h t re hw).2.2)
    | load n e =>
      exact hstay m (by show m.load n e = m; simp [load, hidle]) (Held.refl m) (Or.inr ⟨rfl, by simp⟩)
    | unload n =>
      exact hstay m (by show m.unload n = m; simp [unload, hidle]) (Held.refl m)
        (Or.inr ⟨rfl, by simp⟩)
    | switch r now p =>
      exact hstay m (by show m.switch conf r now p = m; simp [switch, hidle]) (Held.refl m)
        (Or.inr ⟨rfl, by simp⟩)
    | reload f now p =>
      exact hstay m (by show m.reload conf f now p = m; simp [reload, hidle]) (Held.refl m)
        (Or.inr ⟨rfl, by simp⟩)
    | poll ok el =>
      have hok : ok = {} := by
        obtain ⟨c1, c2⟩ := hops (.poll ok el) (by simp)
        cases ok; simp at c1 c2; simp [c1, c2]
      subst hok
      by_cases hu : m.used = some f
      · refine hstay m ?_ (Held.refl m) (Or.inr ⟨rfl, by simp⟩)
        show m.poll {} el = m
        unfold poll; rw [hs]; simp [hu]
      · exact Or.inr ⟨[], el, ops, rfl, Held.refl m, hu⟩

/-- The return of a load. -/
theorem poll_load {m : Mgr} {f : Bool} {name : String} (hs : m.svc = .releasing f (.load name))
    (hu : m.used ≠ some f) (el : Int) :
    m.poll {} el = { m with oth := [], svc := .idle
                            trace := m.trace ++ m.dropped.map .destroyed ++ [.loadRet name true] } := by
  unfold poll; rw [hs]
  simp [hu, clearOld, emit]

/-- The return of an unload. -/
theorem poll_unload {m : Mgr} {f : Bool} {name : String} {k : Kont}
    (hs : m.svc = .releasing f (.unload name k)) (hu : m.used ≠ some f) (el : Int) :
    m.poll {} el = ({ m with oth := []
                             trace := m.trace ++ m.dropped.map .destroyed ++
                              [.unloadRet name true] } : Mgr).finish k true := by
  unfold poll; rw [hs]
  simp [hu, clearOld, emit, hs]

theorem dropped_loaded {m m' : Mgr} {name type claimed} (h1 : m'.cur = (m.loaded name type claimed).cur)
    (h2 : m'.oth = (m.loaded name type claimed).oth) : m'.dropped = [] := by
  unfold dropped
  rw [h1, h2]
  simp only [loaded, List.map_eq_nil_iff, List.filter_eq_nil_iff]
  intro s hs
  simp only [Bool.not_eq_true', List.any_append, Bool.or_eq_false_iff, not_and_or]
  left
  simp only [Bool.not_eq_false, List.any_eq_true, decide_eq_true_eq]
  exact ⟨s, hs, rfl⟩

theorem dropped_unloaded {P} {m m' : Mgr} {name k} (h : Inv P m) {s : CtrlSpec} (hs : s ∈ m.cur)
    (hn : s.info.name = name) (h1 : m'.cur = (m.unloaded name k).cur)
    (h2 : m'.oth = (m.unloaded name k).oth) : m'.dropped = [s.c] := by
  have key : ∀ t ∈ m.cur, (!(m.unloaded name k).cur.any fun u => u.c = t.c) = decide (t = s) := by
    intro t ht
    by_cases e : t = s
    · subst e
      simp only [decide_true, Bool.not_eq_true', List.any_eq_false, decide_eq_true_eq, unloaded,
        List.mem_filter]
      rintro u ⟨hu1, hu2⟩ e
      have : u = t := List.inj_on_of_nodup_map h.objs hu1 ht e
      subst this; simp [hn] at hu2
    · simp only [e, decide_false, Bool.not_eq_false', List.any_eq_true, decide_eq_true_eq, unloaded,
        List.mem_filter]
      refine ⟨t, ⟨ht, ?_⟩, rfl⟩
      simp only [Bool.not_eq_true', decide_eq_false_iff_not]
      intro hh
      exact e (List.inj_on_of_nodup_map h.names ht hs (hh.trans hn.symm))
  unfold dropped
  rw [h1, h2]
  show ((m.cur.filter _).map _) = _
  rw [List.filter_congr key]
  have hnd : m.cur.Nodup := List.Nodup.of_map _ h.objs
  have : m.cur.filter (fun t => decide (t = s)) = [s] := by
    have h3 := List.Nodup.filter (p := fun t => decide (t = s)) hnd
    have h4 : ∀ t ∈ m.cur.filter (fun t => decide (t = s)), t = s := by
      intro t ht; simpa using (List.mem_filter.1 ht).2
    have h5 : s ∈ m.cur.filter (fun t => decide (t = s)) := List.mem_filter.2 ⟨hs, by simp⟩
    match hl : m.cur.filter (fun t => decide (t = s)), h3, h4, h5 with
    | [], _, _, h5 => cases h5
    | [a], _, h4, _ => rw [h4 a (by simp)]
    | a :: b :: l, h3, h4, _ =>
      exfalso
      have := h4 a (by simp); have := h4 b (by simp)
      simp_all
  rw [this]; rfl

end Mgr

end Verif
