import Verif.Lemmas.System

/-!
Invariant of the manager together with the hardware interfaces.
-/

namespace Verif

open Spec Mgr

/-- The operation of the manager in an operation of the system. -/
def SysOp.toOp (env : TypeEnv) (s : Sys) : SysOp → Op
  | .update t r hw => .update t r hw
  | .load n r => .load n (r.env (if s.mgr.reachesInit n r then
      match (r.cls.initRequest env s.robot s.heap).ret with
      | some true => some (r.cls.initRequest env s.robot s.heap).claimed
      | _ => none else none))
  | .unload n => .unload n
  | .switch r now p => .switch r now p
  | .reload f now p => .reload f now p
  | .poll ok e => .poll ok e

theorem Sys.step_mgr (env : TypeEnv) (conf : List ControllerInfo → Bool) (s : Sys) (op : SysOp) :
    (s.step env conf op).mgr = s.mgr.step conf (op.toOp env s) := by
  cases op <;> try rfl
  rename_i n r
  show (s.load env n r).mgr = s.mgr.load n _
  unfold Sys.load
  by_cases hr : s.mgr.reachesInit n r = true
  · simp only [hr, if_true]
    cases (r.cls.initRequest env s.robot s.heap).ret with
    | none => rfl
    | some b => cases b <;> rfl
  · simp only [hr]
    rfl

theorem SysOp.Good.rosUp {op : SysOp} (h : op.Good) (env : TypeEnv) (s : Sys) : (op.toOp env s).rosUp := by
  cases op <;> first | exact h | trivial

theorem reachesInit_loaded {m : Mgr} {name : String} {r : LoadReq} (h : m.reachesInit name r = true)
    (cl : List InterfaceResources) : ∃ t, m.load name (r.env (some cl)) = m.loaded name t cl := by
  simp only [reachesInit, Bool.and_eq_true, decide_eq_true_eq, Bool.not_eq_true', decide_eq_false_iff_not,
    List.any_eq_false] at h
  obtain ⟨⟨⟨⟨h1, h2⟩, h3⟩, h4⟩, h5⟩ := h
  cases ht : r.type with
  | none => rw [ht] at h5; cases h5
  | some t =>
    rw [ht] at h5
    obtain ⟨i, hi⟩ := Option.isSome_iff_exists.1 h5
    rcases load_cases m name (r.env (some cl)) h1 h2 with ⟨ty, j, cl', _, _, e1, _, e2, e⟩ | ⟨hn, _⟩
    · change some cl = some cl' at e2
      cases e2
      exact ⟨ty, e⟩
    · refine absurd ⟨?_, h4, t, i, cl, ht, hi, rfl⟩ hn
      intro s hs
      simpa using h3 s hs

/-- Invariant. -/
structure SysInv (env : TypeEnv) (h0 : Heap) (s : Sys) : Prop where
  reach : Reachable checkForConflict s.mgr
  typed : TypedRobot env s.heap s.robot
  named : s.heap.Named
  excl : ∀ hd, s.heap.Exclusive hd → h0.Exclusive hd
  heldExcl : ∀ c, ∀ g ∈ s.held c, g.exclusive = true → h0.Exclusive g.handle
  claims : ∀ sp ∈ s.mgr.cur, ∀ g ∈ s.held sp.c, g.exclusive = true → g.handle.name ∈ claimsOf sp.info
  unborn : ∀ c, s.mgr.nextId ≤ c → s.held c = []

theorem SysInv.keep {env : TypeEnv} {h0 : Heap} {s : Sys} (h : SysInv env h0 s) {op : Op} (hop : op.rosUp)
    (hn : ∀ n e, op = .load n e → e.init = none) {robot : IMan} {heap : Heap}
    (ht : TypedRobot env heap robot) (hm : heap.Named) (he : ∀ hd, heap.Exclusive hd → h0.Exclusive hd) :
    SysInv env h0 ⟨s.mgr.step checkForConflict op, robot, heap, s.held⟩ := by
  have hi := inv_of_reachable h.reach
  refine ⟨reachable_step h.reach hop, ht, hm, he, h.heldExcl, ?_, ?_⟩
  · intro sp hsp
    by_cases ho : sp ∈ s.mgr.cur
    · exact h.claims sp ho
    · obtain ⟨e, h1, _, _, h2, _⟩ := step_new hi op hsp ho
      rw [hn _ _ h1] at h2
      cases h2
  · intro c hc
    exact h.unborn c (le_trans (step_cur hi op).1 hc)

theorem sysInv_step {env : TypeEnv} {h0 : Heap} {s : Sys} (h : SysInv env h0 s) (op : SysOp) (hop : op.Good) :
    SysInv env h0 (s.step env checkForConflict op) := by
  have hi := inv_of_reachable h.reach
  have plain : ∀ o : Op, o.rosUp → (∀ n e, o = .load n e → e.init = none) →
      SysInv env h0 { s with mgr := s.mgr.step checkForConflict o } := fun o h1 h2 =>
    h.keep h1 h2 h.typed h.named h.excl
  cases op with
  | update t r hw => exact plain (.update t r hw) trivial (by simp)
  | unload n => exact plain (.unload n) trivial (by simp)
  | switch r now p => exact plain (.switch r now p) trivial (by simp)
  | reload f now p => exact plain (.reload f now p) trivial (by simp)
  | poll ok e => exact plain (.poll ok e) hop (by simp)
  | load n r =>
    show SysInv env h0 (s.load env n r)
    unfold Sys.load
    have hl := init_leaves env r.cls s.robot s.heap h.typed
    have hcl := init_claims env r.cls hop s.robot s.heap (hl.named h.named)
    have hnm := hl.named h.named
    have hex : ∀ hd, (r.cls.initRequest env s.robot s.heap).heap.Exclusive hd → h0.Exclusive hd :=
      fun hd hx => h.excl hd (hl.exclusive h.named hd hx)
    by_cases hr : s.mgr.reachesInit n r = true
    swap
    · simp only [hr]
      exact plain (.load n (r.env none)) trivial (by intro _ _ e; cases e; rfl)
    simp only [hr, if_true]
    generalize r.cls.initRequest env s.robot s.heap = out at *
    have failed : SysInv env h0 ⟨s.mgr.load n (r.env none), out.robot, out.heap, s.held⟩ :=
      h.keep (op := .load n (r.env none)) trivial (by intro _ _ e; cases e; rfl) hl.typed hnm hex
    match hret : out.ret with
    | none => exact failed
    | some false => exact failed
    | some true =>
      simp only
      have hgot := hcl hret
      obtain ⟨t, e⟩ := reachesInit_loaded hr out.claimed
      refine ⟨reachable_step h.reach (op := .load n (r.env (some out.claimed))) trivial, hl.typed, hnm, hex, ?_, ?_, ?_⟩
      · intro c g hg hx
        simp only at hg
        split at hg
        · exact hex _ (hgot g hg hx).2
        · exact h.heldExcl c g hg hx
      · simp only [e, loaded]
        intro sp hsp g hg hx
        rcases List.mem_append.1 hsp with hsp | hsp
        · rw [if_neg (ne_of_lt (hi.fresh sp (Or.inl hsp)))] at hg
          exact h.claims sp hsp g hg hx
        · rw [List.mem_singleton] at hsp
          subst hsp
          rw [if_pos rfl] at hg
          obtain ⟨ir, h1, h2⟩ := (hgot g hg hx).1
          exact List.mem_flatMap.2 ⟨ir, h1, h2⟩
      · simp only [e, loaded]
        intro c hc
        rw [if_neg (Nat.ne_of_gt (Nat.lt_of_succ_le hc))]
        exact h.unborn c (Nat.le_of_succ_le hc)

theorem sysInv_start {env : TypeEnv} {robot : IMan} {h0 : Heap} (ht : TypedRobot env h0 robot) (hn : h0.Named) :
    SysInv env h0 (Sys.start robot h0) :=
  ⟨⟨[], by simp, rfl⟩, ht, hn, fun _ h => h, by simp [Sys.start], by simp [Sys.start], by simp [Sys.start]⟩

theorem Sys.run_append (env : TypeEnv) (conf : List ControllerInfo → Bool) (s : Sys) (ops : List SysOp) (op : SysOp) :
    s.run env conf (ops ++ [op]) = (s.run env conf ops).step env conf op := by
  simp [Sys.run]

theorem sysInv_reached {env : TypeEnv} {robot : IMan} {h0 : Heap} {s : Sys} (ht : TypedRobot env h0 robot)
    (hn : h0.Named) (h : Sys.Reached env robot h0 s) : SysInv env h0 s := by
  obtain ⟨ops, hops, rfl⟩ := h
  induction ops using List.reverseRecOn with
  | nil => exact sysInv_start ht hn
  | append_singleton ops op ih =>
    rw [Sys.run_append]
    exact sysInv_step (ih fun o ho => hops o (by simp [ho])) op (hops op (by simp))

/-- Two controllers that may run together cannot write the same variable. -/
theorem SysInv.apart {env : TypeEnv} {h0 : Heap} {s : Sys} (h : SysInv env h0 s) {cells : Nat → List Nat}
    (ha : h0.CellsApart cells) {l : List ControllerInfo} (hl : ConflictFree l) {x y : CtrlSpec}
    (hx : x ∈ s.mgr.cur) (hy : y ∈ s.mgr.cur) (hx' : x.info ∈ l) (hy' : y.info ∈ l) (hne : x.c ≠ y.c) {a : Nat}
    (h1 : s.CanWrite cells x.c a) : ¬s.CanWrite cells y.c a := by
  rintro ⟨g', hg', e', m'⟩
  obtain ⟨g, hg, e, m⟩ := h1
  have hi := inv_of_reachable h.reach
  have hinfo : x.info ≠ y.info := by
    intro hh
    have : x = y := List.inj_on_of_nodup_map hi.names hx hy (by rw [hh])
    exact hne (by rw [this])
  have hd := nodup_flatMap_disjoint (f := claimsOf) hl hx' hy' hinfo (h.claims x hx g hg e)
  refine ha g.handle g'.handle (h.heldExcl _ g hg e) (h.heldExcl _ g' hg' e') ?_ a m m'
  intro hh
  exact hd (by rw [hh]; exact h.claims y hy g' hg' e')

/-- Different controllers that can write a common variable. -/
def Sys.Rivals (s : Sys) (cells : Nat → List Nat) (c c' : CId) : Prop :=
  c' ≠ c ∧ ∃ a, s.CanWrite cells c a ∧ s.CanWrite cells c' a

theorem step_held {env : TypeEnv} {s : Sys} (conf : List ControllerInfo → Bool) (op : SysOp) (c : CId)
    (hc : c < s.mgr.nextId) : (s.step env conf op).held c = s.held c := by
  cases op <;> try rfl
  rename_i n r
  show (s.load env n r).held c = _
  unfold Sys.load
  split
  · simp only
    split
    · exact if_neg (ne_of_lt hc)
    · rfl
  · rfl

theorem canWrite_born {env : TypeEnv} {h0 : Heap} {s : Sys} (h : SysInv env h0 s) {cells : Nat → List Nat} {c : CId}
    {a : Nat} (hc : s.CanWrite cells c a) : c < s.mgr.nextId := by
  by_contra hn
  obtain ⟨g, hg, _⟩ := hc
  rw [h.unborn c (not_lt.1 hn)] at hg
  cases hg

theorem handover {env : TypeEnv} {robot : IMan} {h0 : Heap} {s : Sys} {cells : Nat → List Nat}
    (ht : TypedRobot env h0 robot) (hn : h0.Named) (ha : h0.CellsApart cells) (h : Sys.Reached env robot h0 s) :
    ∀ pre c k post, s.mgr.trace = pre ++ .cb c k :: post → ∀ c', s.Rivals cells c c' → observed c' pre ≠ .running := by
  obtain ⟨ops, hops, rfl⟩ := h
  induction ops using List.reverseRecOn with
  | nil => intro pre c k post e; exact absurd e (by simp [Sys.run, Sys.start, Mgr.init])
  | append_singleton ops op ih =>
    have ih := ih fun o ho => hops o (by simp [ho])
    have hv := sysInv_reached ht hn ⟨ops, fun o ho => hops o (by simp [ho]), rfl⟩
    rw [Sys.run_append]
    revert ih hv
    generalize (Sys.start robot h0).run env checkForConflict ops = s
    intro ih hv pre c k post e c' hr hrun
    have hop := hops op (by simp)
    have hv' := sysInv_step hv op hop
    have hst := stInv_reachable hv.reach
    have hi := inv_reachable checkOk_checkForConflict hv.reach
    obtain ⟨es, e1, hg⟩ := guarded_step (conf := checkForConflict) (K := s.Rivals cells) hi (by
      rintro l hl x hx y hy hx' hy' ⟨hne, a, h1, h2⟩
      exact hv.apart ha hl hx hy hx' hy' (Ne.symm hne) h1 h2) (op.toOp env s) (hop.rosUp env s)
    rw [← Sys.step_mgr] at e1
    -- both controllers existed before
    have old : ∀ x j, .cb x j ∈ (s.step env checkForConflict op).mgr.trace → x < s.mgr.nextId := by
      intro x j hx
      rw [e1, List.mem_append] at hx
      by_contra hlt
      rw [not_lt] at hlt
      rcases hx with hx | hx
      · exact hst.unborn x hlt j hx
      · have := step_calls hi (op.toOp env s) (hop.rosUp env s) (es := es) (by rw [← Sys.step_mgr]; exact e1) hx
        obtain ⟨y, hy, rfl⟩ := List.mem_map.1 this
        exact absurd (hi.fresh y (Or.inl hy)) (not_lt.2 hlt)
    have hc : c < s.mgr.nextId := old c k (by rw [e]; simp)
    have hc' : c' < s.mgr.nextId := by
      rw [observed_eq] at hrun
      rcases foldl_running hrun with h1 | ⟨j, h1⟩
      · cases h1
      · exact old c' j (by rw [e]; simp [h1])
    have hk : s.Rivals cells c c' := by
      obtain ⟨hne, a, ⟨g, hg, x1, x2⟩, g', hg', y1, y2⟩ := hr
      rw [step_held checkForConflict op c hc] at hg
      rw [step_held checkForConflict op c' hc'] at hg'
      exact ⟨hne, a, ⟨g, hg, x1, x2⟩, g', hg', y1, y2⟩
    rw [e1] at e
    rcases List.append_eq_append_iff.1 e with ⟨as, f1, f2⟩ | ⟨bs, f1, f2⟩
    · rw [f1, observed_append, ← hst.state c' hc'] at hrun
      exact hg as c k post f2 c' hk hrun
    · cases bs with
      | nil =>
        rw [List.append_nil] at f1
        rw [← f1, ← hst.state c' hc'] at hrun
        exact hg [] c k post f2.symm c' hk hrun
      | cons b bs =>
        rw [List.cons_append] at f2
        injection f2 with f3 f4
        subst f3
        exact ih pre c k bs f1 c' hk hrun

end Verif
