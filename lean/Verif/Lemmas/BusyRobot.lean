import Verif.Spec.BusyRobot
import Verif.Lemmas.BusyRefinement
import Verif.Lemmas.WholeRobotRun

/-!
Lemmas about whole robots whose services are called in the middle of cycles.
-/

namespace Verif

open Spec Mgr

/-- What holds of the system also in the middle of an update. -/
structure SysMid (env : TypeEnv) (h0 : Heap) (s : Sys) : Prop where
  typed : TypedRobot env s.heap s.robot
  named : s.heap.Named
  excl : ∀ hd, s.heap.Exclusive hd → h0.Exclusive hd
  heldExcl : ∀ c, ∀ g ∈ s.held c, g.exclusive = true → h0.Exclusive g.handle
  claims : ∀ sp ∈ s.mgr.cur, ∀ g ∈ s.held sp.c, g.exclusive = true → g.handle.name ∈ claimsOf sp.info
  unborn : ∀ c, s.mgr.nextId ≤ c → s.held c = []
  born : ∀ sp ∈ s.mgr.cur, sp.c < s.mgr.nextId

theorem SysMid.keep {env : TypeEnv} {h0 : Heap} {s : Sys} (h : SysMid env h0 s) {m : Mgr} (hc : ∀ sp ∈ m.cur, sp ∈ s.mgr.cur)
    (hn : s.mgr.nextId ≤ m.nextId) {robot : IMan} {heap : Heap} (ht : TypedRobot env heap robot) (hm : heap.Named)
    (he : ∀ hd, heap.Exclusive hd → h0.Exclusive hd) : SysMid env h0 ⟨m, robot, heap, s.held⟩ :=
  ⟨ht, hm, he, h.heldExcl, fun sp hsp => h.claims sp (hc sp hsp), fun c hc => h.unborn c (le_trans hn hc),
    fun sp hsp => lt_of_lt_of_le (h.born sp (hc sp hsp)) hn⟩

theorem toOp_service {env : TypeEnv} {s : Sys} {op : SysOp} (h : ∀ t r hw, op ≠ .update t r hw) :
    (op.toOp env s).isService = true := by
  cases op with
  | update t r hw => exact absurd rfl (h t r hw)
  | _ => rfl

theorem sysMid_svc {env : TypeEnv} {h0 : Heap} {s : Sys} {rt : Inter.Rt} {a : Mgr} (h : SysMid env h0 s)
    (i : Inv (fun _ => True) a) (hr : Inter.Rel ⟨s.mgr, rt⟩ a) (op : SysOp) (hop : op.Good)
    (hs : ∀ t r hw, op ≠ .update t r hw) (hc : Inter.Careful ⟨s.mgr, rt⟩ (.svc (op.toOp env s))) :
    SysMid env h0 (s.step env checkForConflict op) := by
  have plain : ∀ o : Op, o.isService = true → Inter.Careful ⟨s.mgr, rt⟩ (.svc o) →
      (∀ n e, o = .load n e → e.init = none) → ∀ {robot : IMan} {heap : Heap}, TypedRobot env heap robot → heap.Named →
      (∀ hd, heap.Exclusive hd → h0.Exclusive hd) →
      SysMid env h0 ⟨s.mgr.step checkForConflict o, robot, heap, s.held⟩ := fun o h1 h2 h3 _ _ h4 h5 h6 => by
    obtain ⟨g1, g2⟩ := Inter.svc_plain (conf := checkForConflict) i hr h1 h2 h3
    exact h.keep g1 g2 h4 h5 h6
  cases op with
  | update t r hw => exact absurd rfl (hs t r hw)
  | unload n => exact plain (.unload n) rfl hc (by simp) h.typed h.named h.excl
  | switch r now p => exact plain (.switch r now p) rfl hc (by simp) h.typed h.named h.excl
  | reload f now p => exact plain (.reload f now p) rfl hc (by simp) h.typed h.named h.excl
  | poll ok e => exact plain (.poll ok e) rfl hc (by simp) h.typed h.named h.excl
  | load n r =>
    have hc' : ∀ e, Inter.Careful ⟨s.mgr, rt⟩ (.svc (.load n e)) := fun e => hc
    show SysMid env h0 (s.load env n r)
    unfold Sys.load
    have hl := init_leaves env r.cls s.robot s.heap h.typed
    have hcl := init_claims env r.cls hop s.robot s.heap (hl.named h.named)
    have hnm := hl.named h.named
    have hex : ∀ hd, (r.cls.initRequest env s.robot s.heap).heap.Exclusive hd → h0.Exclusive hd :=
      fun hd hx => h.excl hd (hl.exclusive h.named hd hx)
    by_cases hri : s.mgr.reachesInit n r = true
    swap
    · simp only [hri]
      exact plain (.load n (r.env none)) rfl (hc' _) (by intro _ _ e; cases e; rfl) h.typed h.named h.excl
    simp only [hri, if_true]
    clear hc
    generalize r.cls.initRequest env s.robot s.heap = out at *
    have failed : SysMid env h0 ⟨s.mgr.load n (r.env none), out.robot, out.heap, s.held⟩ :=
      plain (.load n (r.env none)) rfl (hc' _) (by intro _ _ e; cases e; rfl) hl.typed hnm hex
    match hret : out.ret with
    | none => exact failed
    | some false => exact failed
    | some true =>
      simp only
      have hgot := hcl hret
      obtain ⟨t, e⟩ := reachesInit_loaded hri out.claimed
      refine ⟨hl.typed, hnm, hex, ?_, ?_, ?_, ?_⟩
      · intro c g hg hx
        simp only at hg
        split at hg
        · exact hex _ (hgot g hg hx).2
        · exact h.heldExcl c g hg hx
      · simp only [e, loaded]
        intro sp hsp g hg hx
        rcases List.mem_append.1 hsp with hsp | hsp
        · rw [if_neg (ne_of_lt (h.born sp hsp))] at hg
          exact h.claims sp hsp g hg hx
        · rw [List.mem_singleton] at hsp
          subst hsp
          rw [if_pos rfl] at hg
          obtain ⟨ir, h1, h2⟩ := (hgot g hg hx).1
          exact List.mem_flatMap.2 ⟨ir, h1, h2⟩
      · simp only [e, loaded]
        intro c hc
        rw [if_neg (Nat.ne_of_gt (Nat.lt_of_succ_le hc))]
        exact h.unborn c (Nat.le_of_succ_le hc)
      · simp only [e, loaded]
        intro sp hsp
        rcases List.mem_append.1 hsp with hsp | hsp
        · exact Nat.lt_succ_of_lt (h.born sp hsp)
        · rw [List.mem_singleton] at hsp
          subst hsp
          exact Nat.lt_succ_self _

theorem SysMid.apart {env : TypeEnv} {h0 : Heap} {s : Sys} (h : SysMid env h0 s) (hnames : (s.mgr.cur.map (·.info.name)).Nodup)
    {cells : Nat → List Nat} (ha : h0.CellsApart cells) {l : List ControllerInfo} (hl : ConflictFree l) {x y : CtrlSpec}
    (hx : x ∈ s.mgr.cur) (hy : y ∈ s.mgr.cur) (hx' : x.info ∈ l) (hy' : y.info ∈ l) (hne : x.c ≠ y.c) {a : Nat}
    (h1 : s.CanWrite cells x.c a) : ¬s.CanWrite cells y.c a := by
  rintro ⟨g', hg', e', m'⟩
  obtain ⟨g, hg, e, m⟩ := h1
  have hinfo : x.info ≠ y.info := by
    intro hh
    have : x = y := List.inj_on_of_nodup_map hnames hx hy (by rw [hh])
    exact hne (by rw [this])
  have hd := nodup_flatMap_disjoint (f := claimsOf) hl hx' hy' hinfo (h.claims x hx g hg e)
  refine ha g.handle g'.handle (h.heldExcl _ g hg e) (h.heldExcl _ g' hg' e') ?_ a m m'
  intro hh
  exact hd (by rw [hh]; exact h.claims y hy g' hg' e')

namespace Whole

open Verif.Transmission (Mem Loader Cmd Doc TransInfo)
open Verif.Cycle (Record Halt overwrite)
open Verif.Described (Robot Setting Lawful Base Made)

variable {T K : Type}

theorem stuck_blocked {m : Mgr} {op : SysOp} (s : Sys) (hs : ∀ t r hw, op ≠ .update t r hw) (h : Stuck m op) :
    Inter.Blocked m (op.toOp stdEnv s) := by
  cases op with
  | update t r hw => exact absurd rfl (hs t r hw)
  | _ => exact h

theorem CarefulService.careful {b : Busy T K} {op : SysOp} (hg : op.Good) (hs : ∀ t r hw, op ≠ .update t r hw)
    (h : CarefulService b op) : Inter.Careful ⟨b.sys.mgr, b.rt⟩ (.svc (op.toOp stdEnv b.sys)) :=
  ⟨hg.rosUp stdEnv b.sys, fun hi hd => stuck_blocked _ hs ((h.1 hi).2 hd), fun hr => (h.2 hr).imp id (stuck_blocked _ hs)⟩

section

variable [Add T] [Sub T] [Mul T] [Div T] [OfNat T 0] [OfNat T 1] [OfNat T 2] [DecidableEq T] [LinearOrder K]
  {stod : String → Option T} {L0 L : Loader T} {d : Doc} {infos : List TransInfo} {S : Setting T K} {nd : Bool}

/-- The variables with which the cycle in progress, or the next one, begins. -/
def Busy.origin (b : Busy T K) : Mem T :=
  match b.stage with
  | .outside => b.mem
  | .inside _ start _ => start

/-- Invariant. -/
structure BusyInv (S : Setting T K) (nd : Bool) (L : Loader T) (b : Busy T K) : Prop where
  sim : ∃ a, Reachable checkForConflict a ∧ Inter.Rel ⟨b.sys.mgr, b.rt⟩ a
  todo : Inter.Todo ⟨b.sys.mgr, b.rt⟩
  mid : SysMid stdEnv (interfaces L) b.sys
  loader : b.robot.loader = L
  made : Made b.robot
  outside : b.stage = .outside → b.rt = .idle
  inside : ∀ i start measured, b.stage = .inside i start measured → b.robot.read nd i.sense start = .ok measured ∧
    overwrite b.robot.commanded b.mem measured = b.mem ∧ Described.Accepts S.toArith b.robot (S.see i.period)

theorem busyInv_start {r : Robot T K} (hr : r.loader = L) (hm : Made r) (m : Mem T) : BusyInv S nd L (Busy.start r m) := by
  subst hr
  refine ⟨⟨Mgr.init, ⟨[], by simp, rfl⟩, Inter.Same.refl _⟩, fun c hc => (List.not_mem_nil hc).elim, ?_, rfl, hm, fun _ => rfl,
    fun i s m h => by cases h⟩
  have := sysInv_start (registered_typed r.loader) (interfaces_named r.loader)
  exact ⟨this.typed, this.named, this.excl, this.heldExcl, this.claims, this.unborn, fun sp hsp => (List.not_mem_nil hsp).elim⟩

theorem canWrite_command {s : Sys} (hv : SysMid stdEnv (interfaces L) s) {c : CId} {a : Nat}
    (h : s.CanWrite (fun d => [d]) c a) : ∃ q n, L.commandCell q n = some a ∧ Holds L s c q n := by
  obtain ⟨g, hg, he, ha⟩ := h
  rw [List.mem_singleton] at ha
  subst ha
  obtain ⟨q, hq⟩ := interfaces_exclusive (hv.heldExcl c g hg he)
  exact ⟨q, g.handle.name, hq, g, hg, he, rfl, hq⟩

theorem rt_reach {s : Inter.St} {a : Mgr} (ha : Reachable checkForConflict a) (h : Inter.Rel s a) (u : Inter.Args) :
    ∃ a', Reachable checkForConflict a' ∧ Inter.Rel (Inter.rtStep s u) a' := by
  rcases Inter.rel_rt (inv_of_reachable ha) h u with g | ⟨t, r, hw, g⟩
  · exact ⟨a, ha, g⟩
  · exact ⟨_, reachable_step ha (op := .update t r hw) trivial, g⟩

theorem mid_rt {s : Sys} {rt : Inter.Rt} {h0 : Heap} (h : SysMid stdEnv h0 s) (u : Inter.Args) :
    SysMid stdEnv h0 { s with mgr := (Inter.rtStep ⟨s.mgr, rt⟩ u).m } := by
  obtain ⟨h1, h2, -⟩ := Inter.rt_calls ⟨s.mgr, rt⟩ u
  exact h.keep (by rw [h1]; exact fun _ h => h) (le_of_eq h2.symm) h.typed h.named h.excl

/-- Reading leaves the commands of the joints alone. -/
theorem read_commands (hb : Base stod L0 d infos L) {r : Robot T K} (hr : r.loader = L) {sense m m' : Mem T}
    (h : r.read nd sense m = .ok m') {q : Cmd} {n : String} {a : Nat} (ha : L.commandCell q n = some a) : m' a = m a := by
  obtain ⟨b, -, -, hge⟩ := hb.command_above ha
  obtain ⟨m1, e1, -, -, v1⟩ := Transmission.Loader.c109_reading hb.fresh hb.noOwn hb.below hb.loaded hb.parsed hb.apart nd
    (overwrite r.sensed sense m)
  have eread : r.read nd sense m = .ok m1 := by rw [Robot.read, hr, e1]
  rw [eread] at h
  cases h
  have := v1 q [n]
  simp only [Transmission.Loader.jointCommands, List.mapM_cons, List.mapM_nil, ha, Option.map_some, bind, Option.bind, pure,
    Option.some.injEq, List.cons.injEq, and_true] at this
  rw [this, overwrite, if_neg]
  intro hs
  unfold Robot.sensed at hs
  rw [hr, hb.inv.grows.acts] at hs
  obtain ⟨e, he, hs⟩ := List.mem_flatMap.1 hs
  have : a < L0.next := by
    apply hb.below
    left
    cases hl : L0.actuators.state with
    | none => rw [hl] at he; cases he
    | some l =>
      rw [hl] at he
      refine ⟨l, e.1, e.2, rfl, he, ?_⟩
      simp only [List.mem_append, List.mem_cons, List.not_mem_nil, or_false, Option.mem_toList] at hs
      unfold Transmission.StateCells.Has
      tauto
  omega

/-- A cycle can begin. -/
theorem enter_ok (hb : Base stod L0 d infos L) {b : Busy T K} (h : BusyInv S nd L b) (ho : b.stage = .outside) (i : Input T)
    (hp : Described.Accepts S.toArith b.robot (S.see i.period)) :
    ∃ b', b.enter nd i = .ok b' ∧ BusyInv S nd L b' ∧ b'.robot = b.robot ∧ (∃ m, b'.stage = .inside i b.mem m) ∧
      ∀ q n a, L.commandCell q n = some a → b'.mem a = b.mem a := by
  obtain ⟨m1, e1, -⟩ := Transmission.Loader.c109_reading hb.fresh hb.noOwn hb.below hb.loaded hb.parsed hb.apart nd
    (overwrite b.robot.sensed i.sense b.mem)
  have hread : b.robot.read nd i.sense b.mem = .ok m1 := by rw [Robot.read, h.loader, e1]
  unfold Busy.enter
  rw [hread]
  refine ⟨_, rfl, ⟨?_, ?_, ?_, h.loader, h.made, ?_, ?_⟩, rfl, ⟨_, rfl⟩, ?_⟩
  · obtain ⟨a, ha, hr⟩ := h.sim
    exact rt_reach ha hr i.args
  · exact Inter.todo_rt h.todo i.args
  · exact mid_rt h.mid i.args
  · intro e; cases e
  · rintro _ _ _ ⟨⟩
    exact ⟨hread, by funext a; unfold overwrite; split <;> rfl, hp⟩
  · exact fun q n a ha => read_commands hb h.loader hread ha

/-- What the calls of one step of `update` can change. -/
theorem replay_call {act : CId → Callback → Mem T → Mem T} {es : List Event} {m : Mem T} {a : Nat}
    (h : replay act es m a ≠ m a) : ∃ c k, .cb c k ∈ es ∧ ∃ m', act c k m' a ≠ m' a := by
  by_contra hno
  push Not at hno
  refine h ?_
  have key : ∀ (es' : List Event), (∀ e ∈ es', e ∈ es) → ∀ m, replay act es' m a = m a := by
    intro es'
    induction es' with
    | nil => exact fun _ _ => rfl
    | cons e es' ih =>
      intro hs m
      have ih := ih fun e he => hs e (List.mem_cons_of_mem _ he)
      have : replay act (e :: es') m = replay act es' (replay act [e] m) := rfl
      rw [this, ih]
      cases e with
      | cb c k => exact hno c k (hs _ (by simp)) m
      | _ => rfl
  exact key es (fun _ h => h) m

/-- What is true of a step of `update`. -/
theorem advance_ok (hb : Base stod L0 d infos L) {b : Busy T K} (h : BusyInv S nd L b) {i : Input T} {start measured : Mem T}
    (hst : b.stage = .inside i start measured)
    (hw : ∀ c k m a, ¬b.sys.CanWrite (fun d => [d]) c a → i.act c k m a = m a) :
    BusyInv S nd L (b.advance i) ∧
    ∀ q n a, L.commandCell q n = some a → (b.advance i).mem a ≠ b.mem a →
      ∃ c k es, (b.advance i).sys.mgr.trace = b.sys.mgr.trace ++ es ∧ .cb c k ∈ es ∧ (∀ c' k', .cb c' k' ∈ es → c' = c) ∧
        Holds L b.sys c q n ∧ ∀ c' q', c' ≠ c → Holds L b.sys c' q' n → b.sys.mgr.state c' ≠ .running := by
  obtain ⟨-, -, es, he, hcalls⟩ := Inter.rt_calls ⟨b.sys.mgr, b.rt⟩ i.args
  have hmem : (b.advance i).mem = replay i.act es b.mem := by
    show replay i.act (List.drop _ _) _ = _
    rw [he, List.drop_left]
  have changed : ∀ a, (b.advance i).mem a ≠ b.mem a → ∃ c k, .cb c k ∈ es ∧ b.sys.CanWrite (fun d => [d]) c a := by
    intro a hne
    rw [hmem] at hne
    obtain ⟨c, k, hck, m', hm'⟩ := replay_call hne
    refine ⟨c, k, hck, ?_⟩
    by_contra hno
    exact hm' (hw c k m' a hno)
  obtain ⟨a, ha, hr⟩ := h.sim
  refine ⟨⟨rt_reach ha hr i.args, Inter.todo_rt h.todo i.args, mid_rt h.mid i.args, h.loader, h.made, ?_, ?_⟩, ?_⟩
  · intro e
    change b.stage = _ at e
    rw [hst] at e
    cases e
  · intro i' s' m' e
    change b.stage = _ at e
    obtain ⟨h1, h2, h3⟩ := h.inside i' s' m' e
    refine ⟨h1, ?_, h3⟩
    funext x
    show overwrite b.robot.commanded (b.advance i).mem m' x = _
    unfold overwrite
    split
    · rfl
    · rename_i hn
      have hx : b.mem x = m' x := by
        have := congrFun h2 x
        unfold overwrite at this
        rw [if_neg hn] at this
        exact this.symm
      by_contra hne
      obtain ⟨c, k, -, hcw⟩ := changed x (by rw [hx]; exact fun e => hne e.symm)
      obtain ⟨q, n, hc, -⟩ := canWrite_command h.mid hcw
      rw [← h.loader] at hc
      exact hn (Described.mem_commanded hc)
  · intro q n x hx hne
    obtain ⟨c, k, hck, hcw⟩ := changed x hne
    obtain ⟨j, hj⟩ := jointOf_cell hb hx
    have hold : Holds L b.sys c q n := by
      obtain ⟨q', n', hcell', hold⟩ := canWrite_command h.mid hcw
      have hn : n' = n := joint_apart hb hcell' hx hj hj
      subst hn
      obtain ⟨b1, r1, e1, -⟩ := hb.command_above hx
      obtain ⟨b2, r2, e2, -⟩ := hb.command_above hcell'
      rw [r1] at r2
      cases r2
      rw [e1] at e2
      rw [Described.rawCommand_inj e2]
      exact hold
    refine ⟨c, k, es, he, hck, (hcalls c k hck).2.2, hold, fun c' q' hne hold' => ?_⟩
    have i := inv_reachable checkOk_checkForConflict ha
    obtain ⟨b', ib, hcur, -⟩ := Inter.rel_running checkOk_checkForConflict.mono i hr
    refine Inter.rt_guard (P := ConflictFree) (K := b.sys.Rivals (jointOf L)) checkOk_checkForConflict.mono i hr h.todo (fun _ _ h => h.1) ?_
      _ he hck ⟨hne, j, hold.canWrite hb hx hj, hold'.canWrite hb hx hj⟩
    rintro l hl x hx y hy hx' hy' ⟨hne, a, h1, h2⟩
    exact h.mid.apart (by have := ib.names; rw [hcur] at this; exact this) (interfaces_apart hb) hl hx hy hx' hy' (Ne.symm hne) h1 h2

/-- A cycle is completed. -/
theorem leave_ok (hS : Lawful S) (hb : Base stod L0 d infos L) {b : Busy T K} (h : BusyInv S nd L b) {i : Input T}
    {start measured : Mem T} (hst : b.stage = .inside i start measured) (hidle : b.rt = .idle) :
    ∃ b' p, b.leave S nd i start measured = .ok (b', p) ∧ BusyInv S nd L b' ∧ p.start = start ∧ p.input = i ∧
      b'.stage = .outside ∧ b'.sys = b.sys ∧ b'.mem = p.record.sent ∧ p.record.measured = measured ∧ p.record.wished = b.mem ∧
      b.robot.cycle S nd ⟨i.sense, p.record.wished, i.period, i.reset⟩ start = .ok (b'.robot, p.record) ∧
      ∀ dt, Described.Accepts S.toArith b'.robot dt ↔ Described.Accepts S.toArith b.robot dt := by
  obtain ⟨h1, h2, h3⟩ := h.inside i start measured hst
  obtain ⟨r', rec, hc, hcyc⟩ := Described.cycle_accepted (S := S) (nd := nd) hS hb h.loader h.made
    ⟨i.sense, b.mem, i.period, i.reset⟩ h3 start
  have hc' := hc
  unfold Robot.cycle at hc
  simp only [h1, bind, Except.bind, h2] at hc
  unfold Busy.leave
  split at hc
  · cases hc
  · rename_i p hp
    dsimp only
    rw [hp]
    simp only [pure, Except.pure, Except.ok.injEq, Prod.mk.injEq] at hc
    obtain ⟨rfl, rfl⟩ := hc
    refine ⟨_, _, rfl, ⟨h.sim, h.todo, h.mid, hcyc.loader.trans h.loader, hcyc.made, fun _ => hidle, fun _ _ _ e => by cases e⟩, rfl,
      rfl, rfl, rfl, rfl, rfl, rfl, hc', hcyc.accepts⟩

/-- An operation of the service thread. -/
theorem service_ok {b : Busy T K} (h : BusyInv S nd L b) {op : SysOp} (hs : ∀ t r hw, op ≠ .update t r hw)
    (hg : op.Good) (hc : CarefulService b op) :
    BusyInv S nd L { b with sys := b.sys.step stdEnv checkForConflict op } := by
  obtain ⟨a, ha, hr⟩ := h.sim
  have hca := hc.careful hg hs
  have hsv := toOp_service (env := stdEnv) (s := b.sys) hs
  refine ⟨?_, ?_, sysMid_svc h.mid (inv_of_reachable ha) hr op hg hs hca, h.loader, h.made, h.outside, h.inside⟩
  · rw [Sys.step_mgr]
    rcases Inter.rel_svc' (conf := checkForConflict) (inv_of_reachable ha) (fun hi => (hc.1 hi).1) hr hsv hca with g | ⟨t, r, hw, g⟩
    · exact ⟨_, reachable_step ha hca.1, g⟩
    · exact ⟨_, reachable_step (reachable_step ha (op := .update t r hw) trivial) hca.1, g⟩
  · rw [Sys.step_mgr]
    exact Inter.todo_svc (conf := checkForConflict) h.todo hr hsv hca

/-- What is true of one step. -/
structure Stepped (S : Setting T K) (nd : Bool) (L : Loader T) (b : Busy T K) (mv : Move T) (b' : Busy T K) (p : Option (Past T)) :
    Prop where
  eq : b.step S nd mv = .ok (b', p)
  inv : BusyInv S nd L b'
  same : p = none → b'.robot = b.robot ∧ b'.origin = b.origin
  past : ∀ x, p = some x → mv = .go ∧ b.stage = .inside x.input x.start x.record.measured ∧ b.rt = .idle ∧ b'.stage = .outside ∧
    b'.sys = b.sys ∧ b'.mem = x.record.sent ∧ x.record.wished = b.mem ∧
    b.robot.cycle S nd ⟨x.input.sense, x.record.wished, x.input.period, x.input.reset⟩ x.start = .ok (b'.robot, x.record)
  now : b.stage.now ++ b.stage.opens mv = (p.map (·.input)).toList ++ b'.stage.now
  calls : p = none → ∀ q n a, L.commandCell q n = some a → b'.mem a ≠ b.mem a → mv = .go ∧ (∃ i s m, b.stage = .inside i s m) ∧
    ∃ c k es, b'.sys.mgr.trace = b.sys.mgr.trace ++ es ∧ .cb c k ∈ es ∧ (∀ c' k', .cb c' k' ∈ es → c' = c) ∧
      Holds L b.sys c q n ∧ ∀ c' q', c' ≠ c → Holds L b.sys c' q' n → b.sys.mgr.state c' ≠ .running
  accepts : ∀ dt, Described.Accepts S.toArith b'.robot dt ↔ Described.Accepts S.toArith b.robot dt

theorem step_ok (hS : Lawful S) (hb : Base stod L0 d infos L) {b : Busy T K} (h : BusyInv S nd L b) (mv : Move T) (hf : Fine b mv)
    (hp : ∀ i, mv = .begin i → Described.Accepts S.toArith b.robot (S.see i.period)) : ∃ b' p, Stepped S nd L b mv b' p := by
  -- steps that change only the manager
  have fin : ∀ b' : Busy T K, b'.robot = b.robot → b'.stage = b.stage → b'.mem = b.mem → BusyInv S nd L b' →
      b.step S nd mv = .ok (b', none) → b.stage.opens mv = [] → ∃ b' p, Stepped S nd L b mv b' p := fun b' h1 h2 h3 h4 h5 h6 =>
    ⟨b', none, h5, h4, fun _ => ⟨h1, by simp [Busy.origin, h2, h3]⟩, by simp, by rw [h2, h6]; simp,
      fun _ q n a ha hne => absurd (congrFun h3 a) hne, fun _ => by rw [h1]⟩
  cases mv with
  | begin i =>
    cases hst : b.stage with
    | outside =>
      obtain ⟨b', e, hi, hr, ⟨m, hm⟩, hk⟩ := enter_ok hb h hst i (hp i rfl)
      exact ⟨b', none, by simp [Busy.step, hst, e, Except.map], hi, fun _ => ⟨hr, by simp [Busy.origin, hm, hst]⟩, by simp,
        by simp [hm, hst, Stage.now, Stage.opens], fun _ q n a ha hne => absurd (hk q n a ha) hne, fun _ => by rw [hr]⟩
    | inside i' s m => exact fin b rfl rfl rfl h (by simp [Busy.step, hst]) (by rw [hst]; rfl)
  | go =>
    cases hst : b.stage with
    | outside => exact fin b rfl rfl rfl h (by simp [Busy.step, hst]) (by rw [hst]; rfl)
    | inside i s m =>
      by_cases hidle : b.rt = .idle
      · obtain ⟨b', p, e, hi, e1, e2, e3, e4, e5, e6, e7, e8, e9⟩ := leave_ok hS hb h hst hidle
        refine ⟨b', some p, by simp [Busy.step, hst, hidle, e, Except.map], hi, by simp, ?_,
          by simp [hst, e2, e3, Stage.now, Stage.opens], by simp, e9⟩
        rintro x ⟨⟩
        subst e1 e2 e6
        exact ⟨rfl, hst, hidle, e3, e4, e5, e7, e8⟩
      · obtain ⟨hi, hch⟩ := advance_ok hb h hst (hf i s m hst)
        have e : b.step S nd .go = .ok (b.advance i, none) := by
          unfold Busy.step
          simp only [hst]
        refine ⟨b.advance i, none, e, hi, fun _ => ⟨rfl, by simp [Busy.origin, Busy.advance, hst]⟩, by simp, ?_,
          fun _ q n a ha hne => ⟨rfl, ⟨i, s, m, hst⟩, hch q n a ha hne⟩, fun _ => Iff.rfl⟩
        show b.stage.now ++ b.stage.opens .go = [] ++ b.stage.now
        rw [hst]
        simp [Stage.now, Stage.opens]
  | service op =>
    have ho : b.stage.opens (.service op) = [] := by cases b.stage <;> rfl
    by_cases hu : ∃ t r hw, op = .update t r hw
    · obtain ⟨t, r, hw, rfl⟩ := hu
      exact fin b rfl rfl rfl h rfl ho
    · push Not at hu
      refine fin { b with sys := b.sys.step stdEnv checkForConflict op } rfl rfl rfl (service_ok h hu hf.1 hf.2) ?_ ho
      cases op with
      | update t r hw => exact absurd rfl (hu t r hw)
      | _ => rfl

/-- What the hardware sees of a completed cycle. -/
def Past.hardware (x : Past T) : Cycle.Input T := ⟨x.input.sense, x.record.wished, x.input.period, x.input.reset⟩

/-- What is true of a run. -/
theorem busy_run (hS : Lawful S) (hb : Base stod L0 d infos L) (ms : List (Move T)) {b : Busy T K} (h : BusyInv S nd L b)
    (hf : AllMoves S nd Fine b ms) (hp : ∀ i, .begin i ∈ ms → Described.Accepts S.toArith b.robot (S.see i.period)) :
    (b.run S nd ms).2.2 = none ∧ BusyInv S nd L (b.run S nd ms).2.1 ∧
    b.robot.run S nd ((b.run S nd ms).1.map Past.hardware) b.origin = ((b.run S nd ms).1.map (·.record), none) ∧
    b.stage.now ++ begun S nd b ms = (b.run S nd ms).1.map (·.input) ++ (b.run S nd ms).2.1.stage.now ∧
    (∀ x, (b.run S nd ms).1[0]? = some x → x.start = b.origin) ∧
    (∀ k x y, (b.run S nd ms).1[k]? = some x → (b.run S nd ms).1[k + 1]? = some y → y.start = x.record.sent) ∧
    ∀ dt, Described.Accepts S.toArith (b.run S nd ms).2.1.robot dt ↔ Described.Accepts S.toArith b.robot dt := by
  induction ms generalizing b with
  | nil => exact ⟨rfl, h, rfl, by simp [begun, Busy.run], by simp [Busy.run], by simp [Busy.run], fun _ => Iff.rfl⟩
  | cons mv ms ih =>
    obtain ⟨b', p, e, hi, hn, hx, hnow, -, hacc⟩ := step_ok hS hb h mv hf.1 fun i hi => hp i (by simp [hi])
    obtain ⟨i1, i2, i3, i4, i5, i6, i7⟩ := ih hi (hf.2 b' p e) fun i hi => (hacc _).2 (hp i (by simp [hi]))
    replace i7 := fun dt => (i7 dt).trans (hacc dt)
    have erun : b.run S nd (mv :: ms) = (p.toList ++ (b'.run S nd ms).1, (b'.run S nd ms).2.1, (b'.run S nd ms).2.2) := by
      rw [Busy.run, e]
    have ebeg : begun S nd b (mv :: ms) = b.stage.opens mv ++ begun S nd b' ms := by
      rw [begun, e]
    rw [erun, ebeg, ← List.append_assoc, hnow, List.append_assoc, i4]
    cases p with
    | none =>
      obtain ⟨h1, h2⟩ := hn rfl
      rw [← h1, ← h2]
      exact ⟨i1, i2, i3, by simp, i5, i6, fun dt => by rw [h1]; exact i7 dt⟩
    | some x =>
      obtain ⟨-, hst, -, ho, -, hm, -, hc⟩ := hx x rfl
      have e1 : b.origin = x.start := by simp [Busy.origin, hst]
      have e2 : b'.origin = x.record.sent := by simp [Busy.origin, ho, hm]
      refine ⟨i1, i2, ?_, by simp, ?_, ?_, i7⟩
      · simp only [Option.toList_some, List.singleton_append, List.map_cons]
        rw [e2] at i3
        rw [Robot.run, e1, show b.robot.cycle S nd x.hardware x.start = _ from hc]
        simp only [i3]
      · rintro y hy
        simp only [Option.toList_some, List.singleton_append, List.getElem?_cons_zero, Option.some.injEq] at hy
        subst hy
        exact e1.symm
      · rintro (_ | k) y z hy hz
        · simp only [Option.toList_some, List.singleton_append, List.getElem?_cons_zero, Option.some.injEq, List.getElem?_cons_succ] at hy hz
          subst hy
          rw [← e2]
          exact i5 z hz
        · simp only [Option.toList_some, List.singleton_append, List.getElem?_cons_succ] at hy hz
          exact i6 k y z hy hz

end

end Whole

end Verif
