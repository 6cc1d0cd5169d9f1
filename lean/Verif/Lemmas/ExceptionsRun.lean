import Verif.Lemmas.Exceptions
import Verif.Lemmas.Refinement
import Verif.Props.ManagerSafety

/-!
Histories with exceptions.
-/

namespace Verif

open Mgr Spec

namespace Mgr

theorem xreachable_of_ureachable {conf} {m : Mgr} (h : UReachable conf m) : XReachable conf m := by
  obtain ⟨ops, h1, h2⟩ := h
  exact ⟨ops, fun op ho => (h1 op ho).1, h2⟩

theorem ureachable_of_reachable {conf} {m : Mgr} (h : Reachable conf m) : UReachable conf m := by
  obtain ⟨ops, h1, rfl⟩ := h
  refine ⟨ops.map .op, by simpa [XOp.rosUp, XOp.inUpdates] using h1, ?_⟩
  unfold xrun run
  rw [List.foldl_map]
  rfl

theorem xrun_append {conf} (m : Mgr) (a b : List XOp) : m.xrun conf (a ++ b) = (m.xrun conf a).xrun conf b := List.foldl_append

/-- What the conflict check gives, read off the invariant. -/
theorem safe_of_inv {D : Prop} {m : Mgr} (hi : InvD D ConflictFree m) :
    m.fault = false ∧ (m.cur.map (·.info.name)).Nodup ∧ ConflictFree (m.running.map (·.info)) := by
  refine ⟨hi.fault, hi.names, ?_⟩
  have e : m.runningInfos = m.running.map (·.info) := by
    unfold runningInfos running
    rfl
  rw [← e]
  exact hi.free

end Mgr

/-- What an update, left by an exception or not, does not change. -/
structure SameCall (m m' : Mgr) : Prop where
  cur : m'.cur = m.cur
  svc : m'.svc = m.svc
  startReq : m'.startReq = m.startReq
  stopReq : m'.stopReq = m.stopReq
  asap : m'.params.asap = m.params.asap

theorem SameCall.trans {a b c : Mgr} (h1 : SameCall a b) (h2 : SameCall b c) : SameCall a c :=
  ⟨h2.cur.trans h1.cur, h2.svc.trans h1.svc, h2.startReq.trans h1.startReq, h2.stopReq.trans h1.stopReq, h2.asap.trans h1.asap⟩

theorem sameCall_throws {D P} {m : Mgr} (hm : InvD D P m) (u : Inter.Args) (k : Nat) : SameCall m (m.updateThrows u k) := by
  unfold updateThrows
  cases h : Inter.into m u k with
  | none => exact ⟨rfl, rfl, rfl, rfl, rfl⟩
  | some s =>
    dsimp only
    split
    · have hmid := Inter.mid_into hm u h
      refine ⟨Inter.mid_cur hmid, ?_, Inter.mid_start hmid, Inter.mid_stop hmid, ?_⟩
      · show s.m.svc = _; rw [hmid.frame]
      · show s.m.params.asap = _; rw [hmid.params]
    · exact ⟨rfl, rfl, rfl, rfl, rfl⟩

theorem sameCall_update {D P} {m : Mgr} (hm : InvD D P m) (time : Int) (reset : Bool) (hw : HwReply) :
    SameCall m (m.update time reset hw) := by
  obtain ⟨a, _, b, c, d⟩ := update_cur hm time reset hw
  refine ⟨a, b, c, d, ?_⟩
  cases hd : m.params.doSwitch
  · rw [update_idle m hd]; rfl
  · obtain ⟨st, es, d, _, he, ho⟩ := update_switch m hm.sane hd time reset hw
    rw [he]

/-- The operation is an update. -/
def Mgr.XOp.isUpdate : XOp → Bool
  | .op (.update _ _ _) => true
  | .updateThrows _ _ => true
  | _ => false

theorem Mgr.XOp.rosUp_of_isUpdate {op : XOp} (h : op.isUpdate = true) : op.rosUp ∧ op.inUpdates = true := by
  cases op with
  | op o => cases o <;> first | exact ⟨trivial, rfl⟩ | cases h
  | updateThrows u k => exact ⟨trivial, rfl⟩
  | _ => cases h

theorem sameCall_xrun {D conf P} (hc : CheckOk conf P) (ops : List XOp) : ∀ {m : Mgr}, InvD D P m → (∀ op ∈ ops, op.isUpdate = true) →
    (D → ∀ op ∈ ops, op.noRestart = true) → SameCall m (m.xrun conf ops) := by
  induction ops with
  | nil => exact fun _ _ _ => ⟨rfl, rfl, rfl, rfl, rfl⟩
  | cons op ops ih =>
    intro m h h1 h2
    have hop := h1 op (by simp)
    have hr := XOp.rosUp_of_isUpdate hop
    refine SameCall.trans ?_ (ih (inv_xstep hc h op hr.1 hr.2 (fun d => h2 d op (by simp))) (fun o ho => h1 o (by simp [ho]))
      (fun d o ho => h2 d o (by simp [ho])))
    cases op with
    | op o => cases o <;> first | exact sameCall_update h _ _ _ | cases hop
    | updateThrows u k => exact sameCall_throws h u k
    | _ => cases hop

/-- Between calls the invariant does not depend on exceptions. -/
theorem inv_idle {D D' : Prop} {P} {m : Mgr} (h : InvD D P m) (hi : m.svc = .idle) : InvD D' P m :=
  ⟨h.names, h.objs, h.fresh, h.inited, h.unborn, h.running, h.reqs, h.start, h.stop, h.free,
    h.target, fun hs => absurd hs (not_switching_of_idle hi), h.used, h.former, h.old, h.fault⟩

namespace Mgr

/-- The function appends to the trace. -/
def Ext (f : Mgr → Mgr) : Prop := ∀ m, m.trace <+: (f m).trace

theorem ext_req (r : Request) (c : CId) : Ext (fun m => m.req r c) := by
  intro m
  simp only [req]
  split
  · exact List.prefix_append _ _
  · exact List.prefix_rfl

theorem Ext.comp {f g : Mgr → Mgr} (hf : Ext f) (hg : Ext g) : Ext (fun m => g (f m)) := fun m => (hf m).trans (hg _)

theorem ext_foldl {α} {f : Mgr → α → Mgr} (hf : ∀ a, Ext (fun m => f m a)) : ∀ l : List α, Ext (fun m => l.foldl f m)
  | [], _ => List.prefix_rfl
  | a :: l, m => (hf a m).trans (ext_foldl hf l _)

theorem ext_ite {f g : Mgr → Mgr} {p : Mgr → Prop} [DecidablePred p] (hf : Ext f) (hg : Ext g) : Ext (fun m => if p m then f m else g m) := by
  intro m
  dsimp only
  split
  · exact hf m
  · exact hg m

theorem ext_id : Ext (fun m => m) := fun _ => List.prefix_rfl

theorem ext_asapEntry (n : Nat) (c : CId) (time : Int) (hw : HwReply) (s : CtrlSpec) : Ext (fun m => asapEntry n c time hw m s) := by
  intro m
  unfold asapEntry
  split
  · split
    · exact ext_req _ _ m
    · dsimp only
      split <;> exact ext_req _ _ m
  · exact List.prefix_rfl

theorem ext_asapLoop (time : Int) (hw : HwReply) : ∀ (l : List CId) (n : Nat), Ext (asapLoop time hw n l)
  | [], _, _ => List.prefix_rfl
  | c :: l, n, m => by
    unfold asapLoop
    refine List.IsPrefix.trans ?_ (ext_asapLoop time hw l (n + 1) _)
    split
    · exact ext_foldl (fun s => ext_asapEntry n c time hw s) _ m
    · exact List.prefix_rfl

theorem ext_startControllers (time : Int) (hw : HwReply) : Ext (fun m => m.startControllers time hw) := by
  intro m
  unfold startControllers
  split
  · exact ext_foldl (fun c => ext_req .start c) _ m
  · dsimp only
    split
    · exact ext_foldl (fun c => ext_req .abort c) _ m
    · exact ext_foldl (fun c => ext_req .wait c) _ m

theorem ext_startControllersAsap (time : Int) (hw : HwReply) : Ext (fun m => m.startControllersAsap time hw) := by
  intro m
  unfold startControllersAsap
  dsimp only
  split
  · exact ext_asapLoop time hw _ _ m
  · exact ext_asapLoop time hw _ _ m

theorem ext_launch (u : Inter.Args) : Ext (Inter.launch u) := by
  intro m
  unfold Inter.launch
  split
  · exact ext_startControllers _ _ m
  · exact ext_startControllersAsap _ _ m

theorem ext_stops (l : List CId) : Ext (fun m => l.foldl (fun m c => if m.isRunning c then m.req .stop c else m) m) :=
  ext_foldl (fun c => ext_ite (p := fun m => m.isRunning c = true) (ext_req .stop c) ext_id) l

theorem ext_look (u : Inter.Args) : Ext (Inter.look u) := by
  intro m
  unfold Inter.look
  split
  · unfold manageSwitch stopControllers
    dsimp only
    refine List.IsPrefix.trans ?_ (List.IsPrefix.trans (ext_stops _ _) (ext_launch u _))
    split
    · exact List.prefix_append _ _
    · exact List.prefix_rfl
  · exact List.prefix_rfl

theorem ext_complete : ∀ rt : Inter.Rt, Ext (fun m => Inter.complete m rt) := by
  have hu : ∀ l : List CtrlSpec, Ext (fun m => l.foldl (fun m s => m.req .update s.c) m) := ext_foldl (fun s => ext_req .update s.c)
  have hrs : ∀ l : List CtrlSpec, Ext (fun m => l.foldl (fun m s => if m.isRunning s.c then (m.req .stop s.c).req .start s.c else m) m) :=
    ext_foldl (fun s => ext_ite (p := fun m => m.isRunning s.c = true) ((ext_req .stop s.c).comp (ext_req .start s.c)) ext_id)
  intro rt m
  cases rt with
  | idle => exact List.prefix_rfl
  | read u r =>
    simp only [Inter.complete]
    split
    · exact ((hrs _ { m with used := some r }).trans (hu _ _)).trans (ext_look u _)
    · exact (hu _ { m with used := some r }).trans (ext_look u _)
  | resetting u l => exact ((hrs _ _).trans (hu _ _)).trans (ext_look u _)
  | restarting u c l => exact (((ext_req .start c m).trans (hrs _ _)).trans (hu _ _)).trans (ext_look u _)
  | updating u l => exact (hu _ _).trans (ext_look u _)
  | looking u => exact ext_look u _
  | stopping u l => exact (ext_stops l m).trans (ext_launch u _)
  | choosing u => exact ext_launch u _
  | starting u l => exact ext_foldl (fun c => ext_req .start c) l m
  | aborting u l => exact ext_foldl (fun c => ext_req .abort c) l m
  | waiting u l => exact ext_foldl (fun c => ext_req .wait c) l m
  | asap u n l =>
    simp only [Inter.complete]
    split <;> exact ext_asapLoop _ _ _ _ m

theorem into_complete {m : Mgr} {u : Inter.Args} : ∀ {k : Nat} {s : Inter.St}, Inter.into m u k = some s →
    s.rt ≠ .idle ∧ Inter.complete s.m s.rt = m.update u.time u.reset u.hw
  | 0, s, e => by
    cases e
    exact ⟨by simp [Inter.rtStep, Inter.start], Inter.complete_read m u⟩
  | k + 1, s, e => by
    unfold Inter.into at e
    cases h : Inter.into m u k with
    | none => rw [h] at e; cases e
    | some s0 =>
      rw [h] at e
      obtain ⟨h1, h2⟩ := into_complete h
      dsimp only at e
      have key : s = Inter.rtStep s0 u ∧ s.rt ≠ .idle := by
        cases hr : (Inter.rtStep s0 u).rt <;> rw [hr] at e <;> simp at e <;> subst e <;> simp [hr]
      refine ⟨key.2, ?_⟩
      rw [key.1, Inter.complete_step s0 u h1, h2]

theorem ext_rtStep (s : Inter.St) (u : Inter.Args) : s.m.trace <+: (Inter.rtStep s u).m.trace := by
  obtain ⟨m, rt⟩ := s
  cases rt with
  | idle => exact List.prefix_rfl
  | read a r => exact List.prefix_rfl
  | resetting a l =>
    cases l with
    | nil => exact List.prefix_rfl
    | cons c l =>
      simp only [Inter.rtStep]
      split
      · exact ext_req .stop _ m
      · exact List.prefix_rfl
  | restarting a c l => exact ext_req .start _ m
  | updating a l =>
    cases l with
    | nil => exact List.prefix_rfl
    | cons c l => exact ext_req .update _ m
  | looking a =>
    simp only [Inter.rtStep]
    split
    · dsimp only
      split
      · exact List.prefix_append _ _
      · exact List.prefix_rfl
    · exact List.prefix_rfl
  | stopping a l =>
    cases l with
    | nil => exact List.prefix_rfl
    | cons c l =>
      simp only [Inter.rtStep]
      split
      · exact ext_req .stop _ m
      · exact List.prefix_rfl
  | choosing a =>
    simp only [Inter.rtStep]
    split
    · exact List.prefix_rfl
    · split
      · exact List.prefix_rfl
      · split <;> exact List.prefix_rfl
  | starting a l =>
    cases l with
    | nil => exact List.prefix_rfl
    | cons c l => exact ext_req .start _ m
  | aborting a l =>
    cases l with
    | nil => exact List.prefix_rfl
    | cons c l => exact ext_req .abort _ m
  | waiting a l =>
    cases l with
    | nil => exact List.prefix_rfl
    | cons c l => exact ext_req .wait _ m
  | asap a n l =>
    cases l with
    | nil => simp only [Inter.rtStep]; split <;> exact List.prefix_rfl
    | cons c l =>
      simp only [Inter.rtStep]
      split
      · exact ext_foldl (fun s => ext_asapEntry n c a.time a.hw s) _ m
      · exact List.prefix_rfl

theorem ext_into {m : Mgr} {u : Inter.Args} : ∀ {k : Nat} {s : Inter.St}, Inter.into m u k = some s → m.trace <+: s.m.trace
  | 0, s, e => by cases e; exact List.prefix_rfl
  | k + 1, s, e => by
    unfold Inter.into at e
    cases h : Inter.into m u k with
    | none => rw [h] at e; cases e
    | some s0 =>
      rw [h] at e
      have h1 := ext_into h
      dsimp only at e
      have key : s = Inter.rtStep s0 u := by
        cases hr : (Inter.rtStep s0 u).rt <;> rw [hr] at e <;> simp at e <;> exact e.symm
      rw [key]
      exact h1.trans (ext_rtStep s0 u)

end Mgr

namespace Mgr

/-- A switch that stops nothing and is refused leaves no requests. -/
theorem switchCore_clears {conf} {m : Mgr} {r : SwitchReq} {now : Int} {prepOk : Bool} {k : Kont} (hstop : r.stop = [])
    (hf : (m.switchCore conf r now prepOk k).1 = false) : ∃ a b t, (m.switchCore conf r now prepOk k).2 =
      { m with params := {}, startReq := [], stopReq := [], swStart := a, swStop := b, trace := t } := by
  unfold switchCore at hf ⊢
  rw [hstop] at hf ⊢
  simp only [resolve] at hf ⊢
  generalize hq : resolve _ _ r.start m.startReq = q at hf ⊢
  cases q with
  | none => exact ⟨_, _, _, rfl⟩
  | some l =>
    simp only at hf ⊢
    generalize scan _ _ _ _ _ _ = q at hf ⊢
    obtain ⟨ok, sc⟩ := q
    simp only at hf ⊢
    split
    · exact ⟨_, _, _, rfl⟩
    · split
      · exact ⟨_, _, _, rfl⟩
      · split
        · exact ⟨_, _, _, rfl⟩
        · rename_i h1 h2 h3
          rw [if_neg h1, if_neg h2, if_neg h3] at hf
          cases hf

theorem switchCore_switches {conf} {m : Mgr} {r : SwitchReq} {now : Int} {prepOk : Bool} {k : Kont}
    (hf : (m.switchCore conf r now prepOk k).1 = true) : (m.switchCore conf r now prepOk k).2.Switching := by
  unfold switchCore at hf ⊢
  dsimp only at hf ⊢
  generalize resolve _ _ r.stop m.stopReq = q at hf ⊢
  cases q with
  | none => cases hf
  | some l1 =>
    simp only at hf ⊢
    generalize hq : resolve _ _ r.start m.startReq = q at hf ⊢
    cases q with
    | none => cases hf
    | some l =>
      simp only at hf ⊢
      generalize scan _ _ _ _ _ _ = q at hf ⊢
      obtain ⟨ok, sc⟩ := q
      simp only at hf ⊢
      split at hf
      · cases hf
      · rename_i h1
        rw [if_neg h1]
        split at hf
        · cases hf
        · rename_i h2
          rw [if_neg h2]
          split at hf
          · cases hf
          · rename_i h3
            rw [if_neg h3]
            exact ⟨_, _, rfl⟩

theorem switchCore_false_svc {conf} {m : Mgr} {r : SwitchReq} {now : Int} {prepOk : Bool} {k : Kont}
    (hf : (m.switchCore conf r now prepOk k).1 = false) : (m.switchCore conf r now prepOk k).2.svc = m.svc := by
  unfold switchCore at hf ⊢
  dsimp only at hf ⊢
  generalize resolve _ _ r.stop m.stopReq = q at hf ⊢
  cases q with
  | none => rfl
  | some l1 =>
    simp only at hf ⊢
    generalize hq : resolve _ _ r.start m.startReq = q at hf ⊢
    cases q with
    | none => rfl
    | some l =>
      simp only at hf ⊢
      generalize scan _ _ _ _ _ _ = q at hf ⊢
      obtain ⟨ok, sc⟩ := q
      simp only at hf ⊢
      split
      · rfl
      · rename_i h1
        rw [if_neg h1] at hf
        split
        · rfl
        · rename_i h2
          rw [if_neg h2] at hf
          split
          · rfl
          · rename_i h3
            rw [if_neg h3] at hf
            cases hf

/-- What an accepted request sets: the names asked for are added to what the lists contained. -/
theorem switchCore_sets {conf} {m : Mgr} {r : SwitchReq} {now : Int} {prepOk : Bool} {k : Kont}
    (hf : (m.switchCore conf r now prepOk k).1 = true) :
    let x := (m.switchCore conf r now prepOk k).2
    x.startReq = m.startReq ++ r.start.filterMap m.getControllerByName ∧
    x.stopReq = m.stopReq ++ r.stop.filterMap m.getControllerByName ∧
    x.cur = m.cur ∧ x.state = m.state ∧ x.params.asap = r.asap ∧ x.params.doSwitch = true := by
  have hres : ∀ strict ns acc l, resolve { m with params := {} } strict ns acc = some l → l = acc ++ ns.filterMap m.getControllerByName := by
    intro strict ns acc l h
    rw [resolve_eq] at h
    split at h
    · cases h
    · exact (Option.some.inj h).symm
  unfold switchCore at hf ⊢
  dsimp only at hf ⊢
  generalize hq1 : resolve _ _ r.stop m.stopReq = q at hf ⊢
  cases q with
  | none => cases hf
  | some l1 =>
    simp only at hf ⊢
    generalize hq : resolve _ _ r.start m.startReq = q at hf ⊢
    cases q with
    | none => cases hf
    | some l =>
      simp only at hf ⊢
      generalize scan _ _ _ _ _ _ = q at hf ⊢
      obtain ⟨ok, sc⟩ := q
      simp only at hf ⊢
      split at hf
      · cases hf
      · rename_i h1
        rw [if_neg h1]
        split at hf
        · cases hf
        · rename_i h2
          rw [if_neg h2]
          split at hf
          · cases hf
          · rename_i h3
            rw [if_neg h3]
            exact ⟨hres _ _ _ _ hq, hres _ _ _ _ hq1, rfl, rfl, rfl, rfl⟩

/-- What a switch that was left by an exception leaves behind. -/
theorem switchCoreThrows_sets {conf} {m : Mgr} {r : SwitchReq} {now : Int} {k : Kont} (hs : m.startReq = []) (ht : m.stopReq = [])
    (hf : (m.switchCore conf r now true k).1 = true) :
    let x := m.switchCoreThrows conf r now k
    x.startReq = r.start.filterMap m.getControllerByName ∧ x.stopReq = r.stop.filterMap m.getControllerByName ∧
    x.cur = m.cur ∧ x.state = m.state ∧ x.svc = m.svc ∧ x.params = {} := by
  have h := switchCore_sets hf
  unfold switchCoreThrows
  revert hf h
  generalize m.switchCore conf r now true k = q
  obtain ⟨b, m'⟩ := q
  intro hf h
  dsimp only at hf h
  subst hf
  rw [hs, ht] at h
  exact ⟨by simpa using h.1, by simpa using h.2.1, rfl, rfl, rfl, rfl⟩

/-- A later switch also does what a switch left by an exception was asked for. -/
theorem left_behind {conf} {m m1 : Mgr} (hv : InvD False (fun _ => True) m) {starts stops : List String}
    (h1 : m1.startReq = starts.filterMap m.getControllerByName) (h2 : m1.stopReq = stops.filterMap m.getControllerByName)
    (h3 : m1.cur = m.cur) (h4 : m1.state = m.state) (h5 : m1.svc = .idle) (r2 : SwitchReq) (hra : r2.asap = false) (now2 : Int)
    (prepOk : Bool) (hacc : (m1.switch conf r2 now2 prepOk).Switching) (time : Int) (reset : Bool) (hw : HwReply)
    (hdone : hw.first = .done) :
    let m3 := (m1.switch conf r2 now2 prepOk).update time reset hw
    ∀ s ∈ m.cur, (s ∈ m3.running ↔
      s.info.name ∈ starts ++ r2.start ∨ (s ∈ m.running ∧ s.info.name ∉ stops ++ r2.stop)) := by
  intro m3 s hs
  have hg : m1.getControllerByName = m.getControllerByName := by funext n; unfold getControllerByName; rw [h3]
  have e : m1.switch conf r2 now2 prepOk = (m1.switchCore conf r2 now2 prepOk .ret).2 := by simp [switch, h5]
  have hf : (m1.switchCore conf r2 now2 prepOk .ret).1 = true := by
    by_contra hne
    have hne : (m1.switchCore conf r2 now2 prepOk .ret).1 = false := by simpa using hne
    have := switchCore_false_svc hne
    rw [← e, h5] at this
    obtain ⟨_, _, hh⟩ := hacc
    rw [this] at hh; cases hh
  obtain ⟨a1, a2, a3, a4, a5, a6⟩ := switchCore_sets hf
  rw [← e] at a1 a2 a3 a4 a5 a6
  rw [h1, hg, ← List.filterMap_append] at a1
  rw [h2, hg, ← List.filterMap_append] at a2
  rw [h3] at a3
  rw [h4] at a4
  rw [hra] at a5
  have hsane : Sane (m1.switch conf r2 now2 prepOk) := by
    refine ⟨a3 ▸ hv.objs, ?_, ?_, ?_⟩
    · intro c hc; rw [a3]; rw [a1] at hc; exact resolved_loaded hc
    · intro c hc; rw [a3]; rw [a2] at hc; exact resolved_loaded hc
    · intro t ht; rw [a3] at ht; rw [a4]; exact hv.inited t (Or.inl ht)
  obtain ⟨st, es, d, _, he, ho⟩ := update_switch _ hsane a6 time reset hw
  obtain ⟨_, _, hrun⟩ := ho.allDone a5 hdone
  have hmem : ∀ ns : List String, (s.c ∈ ns.filterMap m.getControllerByName ↔ s.info.name ∈ ns) :=
    fun ns => mem_resolved hv.names hv.objs hs ns
  have hm3 : s ∈ m3.running ↔ st s.c = .running := by
    have hc : m3.cur = m.cur := by show (Mgr.update _ time reset hw).cur = _; rw [he]; exact a3
    have hst : m3.state = st := by show (Mgr.update _ time reset hw).state = _; rw [he]; rfl
    unfold running
    rw [List.mem_filter, hc, hst]
    simp [hs]
  have hmr : s ∈ m.running ↔ m.state s.c = .running := by
    unfold running
    rw [List.mem_filter]
    simp [hs]
  rw [hm3, hmr]
  by_cases hin : s.info.name ∈ starts ++ r2.start
  · have : s.c ∈ (m1.switch conf r2 now2 prepOk).startReq := by rw [a1]; exact (hmem _).2 hin
    exact ⟨fun _ => Or.inl hin, fun _ => hrun s.c this⟩
  · have hni : s.c ∉ (m1.switch conf r2 now2 prepOk).startReq := by rw [a1]; exact fun hh => hin ((hmem _).1 hh)
    have hout : st s.c = (m1.switch conf r2 now2 prepOk).stopState s.c := ho.outside s.c hni
    rw [hout, stopState, a2, a4]
    by_cases hst : s.info.name ∈ stops ++ r2.stop
    · have := (hmem (stops ++ r2.stop)).2 hst
      by_cases h6 : m.state s.c = .running <;> simp_all
    · have : s.c ∉ (stops ++ r2.stop).filterMap m.getControllerByName := fun hh => hst ((hmem _).1 hh)
      by_cases h6 : m.state s.c = .running <;> simp_all

/-- The invariant does not depend on what is left of a switch, between calls. -/
theorem inv_cleared {D P} {m : Mgr} (h : InvD D P m) (hi : m.svc = .idle) (a b : List ControllerInfo) (t : List Event) :
    InvD D P { m with params := {}, startReq := [], stopReq := [], swStart := a, swStop := b, trace := t } :=
  ⟨h.names, h.objs, h.fresh, h.inited, h.unborn, h.running, fun _ => ⟨rfl, rfl⟩, by simp, by simp, h.free,
    (fun hh => by cases hh), fun hs => absurd hs (not_switching_of_idle hi), h.used, h.former, h.old, h.fault⟩

end Mgr

end Verif
