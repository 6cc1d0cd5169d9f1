import Verif.Spec.BusyParted
import Verif.Lemmas.BusyRobotRun
import Verif.Lemmas.PartedRobotRun

/-!
Lemmas about whole robots with a combined hardware whose services are called in the middle of cycles.
-/

namespace Verif.Parted

open Verif.Spec (ConflictFree)
open Verif.Mgr (inv_reachable inv_of_reachable isRunning_iff)
open Verif.Transmission (Mem Loader Cmd Doc TransInfo)
open Verif.Cycle (Record Halt overwrite)
open Verif.Described (Robot Setting Lawful Base Made)
open Verif.Whole (Input Stage Move Past Stuck)

variable {T K : Type}

theorem CarefulService.careful {b : Team T K} {op : SysOp} (hg : op.Good) (hs : ∀ t r hw, op ≠ .update t r hw)
    (h : CarefulService b op) : Inter.Careful ⟨b.sys.mgr, b.rt⟩ (.svc (op.toOp stdEnv b.sys)) :=
  ⟨hg.rosUp stdEnv b.sys, fun hi hd => Whole.stuck_blocked _ hs ((h.1 hi).2 hd), fun hr => (h.2 hr).imp id (Whole.stuck_blocked _ hs)⟩

section

variable [Add T] [Sub T] [Mul T] [Div T] [OfNat T 0] [OfNat T 1] [OfNat T 2] [DecidableEq T] [LinearOrder K]
  {stod : String → Option T} {S : Setting T K} {nd : Bool} {rs : List (Robot T K)}

/-- The variables with which the cycle in progress, or the next one, begins. -/
def Team.origin (b : Team T K) : Mem T :=
  match b.stage with
  | .outside => b.mem
  | .inside _ start _ => start

/-- Invariant. -/
structure TeamInv (stod : String → Option T) (nd : Bool) (rs : List (Robot T K)) (b : Team T K) : Prop where
  sim : ∃ a, Reachable checkForConflict a ∧ Inter.Rel ⟨b.sys.mgr, b.rt⟩ a
  todo : Inter.Todo ⟨b.sys.mgr, b.rt⟩
  mid : SysMid stdEnv (interfaces (rs.map (·.loader))) b.sys
  loaders : b.robots.map (·.loader) = rs.map (·.loader)
  fit : ∀ r ∈ b.robots, Fit stod r
  outside : b.stage = .outside → b.rt = .idle
  inside : ∀ i start measured, b.stage = .inside i start measured → ∀ (k : Nat) r, b.robots[k]? = some r →
    r.read nd (view rs.length k i.sense) (view rs.length k start) = .ok (view rs.length k measured) ∧
    overwrite r.commanded (view rs.length k b.mem) (view rs.length k measured) = view rs.length k b.mem

/-- The limits of all parts accept the period of the cycle in progress. -/
def Team.Accepted (S : Setting T K) (b : Team T K) : Prop :=
  ∀ i start measured, b.stage = .inside i start measured → ∀ r ∈ b.robots, Described.Accepts S.toArith r (S.see i.period)

theorem TeamInv.length {b : Team T K} (h : TeamInv stod nd rs b) : b.robots.length = rs.length := by
  rw [← List.length_map (f := (·.loader)), h.loaders, List.length_map]

theorem TeamInv.now {b : Team T K} (h : TeamInv stod nd rs b) {k : Nat} {r : Robot T K} (hr : rs[k]? = some r) :
    ∃ r', b.robots[k]? = some r' ∧ r'.loader = r.loader := by
  have : (b.robots.map (·.loader))[k]? = some r.loader := by rw [h.loaders, List.getElem?_map, hr]; rfl
  rw [List.getElem?_map] at this
  exact Option.map_eq_some_iff.1 this

theorem TeamInv.then {b : Team T K} (h : TeamInv stod nd rs b) {k : Nat} {r' : Robot T K} (hr : b.robots[k]? = some r') :
    ∃ r, rs[k]? = some r ∧ r.loader = r'.loader := by
  have : (rs.map (·.loader))[k]? = some r'.loader := by rw [← h.loaders, List.getElem?_map, hr]; rfl
  rw [List.getElem?_map] at this
  exact Option.map_eq_some_iff.1 this

theorem TeamInv.based {b : Team T K} (h : TeamInv stod nd rs b) : ∀ L ∈ rs.map (·.loader), Based stod L := by
  rw [← h.loaders]
  intro L hL
  obtain ⟨r, hr, rfl⟩ := List.mem_map.1 hL
  exact (h.fit r hr).1

theorem teamInv_start (hf : ∀ r ∈ rs, Fit stod r) (m : Mem T) : TeamInv stod nd rs (Team.start rs m) := by
  refine ⟨⟨Mgr.init, ⟨[], by simp, rfl⟩, Inter.Same.refl _⟩, fun c hc => (List.not_mem_nil hc).elim, ?_, rfl, hf, fun _ => rfl,
    fun i s m h => by cases h⟩
  have := sysInv_start (combined_typed (rs.map (·.loader))) (interfaces_named (rs.map (·.loader)))
  exact ⟨this.typed, this.named, this.excl, this.heldExcl, this.claims, this.unborn, fun sp hsp => (List.not_mem_nil hsp).elim⟩

omit [Add T] [Sub T] [Mul T] [Div T] [OfNat T 0] [OfNat T 1] [OfNat T 2] [DecidableEq T] [LinearOrder K] in
/-- What a controller can write is a command of a joint of a part. -/
theorem canWrite_mid {s : Sys} (hv : SysMid stdEnv (interfaces (rs.map (·.loader))) s) {c : CId} {x : Nat}
    (h : s.CanWrite (fun d => [d]) c x) :
    ∃ k r q n a, rs[k]? = some r ∧ r.loader.commandCell q n = some a ∧ x = place rs.length k a ∧ Holds rs s c k q n := by
  obtain ⟨g, hg, he, hx⟩ := h
  rw [List.mem_singleton] at hx
  subst hx
  obtain ⟨k, L, q, a, hL, hc, hd⟩ := interfaces_exclusive (hv.heldExcl c g hg he)
  rw [List.getElem?_map] at hL
  obtain ⟨r, hr, rfl⟩ := Option.map_eq_some_iff.1 hL
  rw [List.length_map] at hd
  refine ⟨k, r, q, g.handle.name, a, hr, hc, hd, r, a, hr, hc, g, hg, he, ?_⟩
  show g.handle = ⟨_, place _ _ _⟩
  rw [← hd]

/-- All parts can be read. -/
theorem readAll_fit {b : Team T K} (hf : ∀ r ∈ b.robots, Fit stod r) (sense : Mem T) :
    ∃ m', readAll nd b.robots.length sense 0 b.robots b.mem = .ok m' ∧ ∀ (k : Nat) r, b.robots[k]? = some r →
      r.read nd (view b.robots.length k sense) (view b.robots.length k b.mem) = .ok (view b.robots.length k m') := by
  obtain ⟨m1, e1, v1, -⟩ := readAll_ok (nd := nd) b.robots.length sense b.robots 0 b.mem (by omega)
    fun j r hj => (hf r (List.mem_of_getElem? hj)).read _ _
  simp only [Nat.zero_add] at v1
  exact ⟨m1, e1, v1⟩

/-- A cycle can begin. -/
theorem enter_ok {b : Team T K} (h : TeamInv stod nd rs b) (i : Input T) :
    ∃ b', b.enter nd i = .ok b' ∧ TeamInv stod nd rs b' ∧ b'.robots = b.robots ∧ (∃ m, b'.stage = .inside i b.mem m) ∧
      ∀ (k : Nat) r q n a, rs[k]? = some r → r.loader.commandCell q n = some a →
        b'.mem (place rs.length k a) = b.mem (place rs.length k a) := by
  obtain ⟨m1, e1, v1⟩ := readAll_fit (nd := nd) h.fit i.sense
  have hlen := h.length
  unfold Team.enter
  rw [e1]
  rw [hlen] at v1
  refine ⟨_, rfl, ⟨?_, ?_, ?_, h.loaders, h.fit, ?_, ?_⟩, rfl, ⟨_, rfl⟩, ?_⟩
  · obtain ⟨a, ha, hr⟩ := h.sim
    exact Whole.rt_reach ha hr i.args
  · exact Inter.todo_rt h.todo i.args
  · exact Whole.mid_rt h.mid i.args
  · intro e; cases e
  · rintro _ _ _ ⟨⟩
    exact fun k r hr => ⟨v1 k r hr, by funext a; unfold overwrite; split <;> rfl⟩
  · intro k r q n a hr hc
    obtain ⟨r', hr', hl⟩ := h.now hr
    obtain ⟨⟨L0, d, infos, hb⟩, -⟩ := h.fit r' (List.mem_of_getElem? hr')
    exact Whole.read_commands hb rfl (v1 k r' hr') (hl ▸ hc)

/-- What is true of a step of `update`. -/
theorem advance_ok {b : Team T K} (h : TeamInv stod nd rs b) {i : Input T} {start measured : Mem T}
    (hst : b.stage = .inside i start measured)
    (hw : ∀ c k m a, ¬b.sys.CanWrite (fun d => [d]) c a → i.act c k m a = m a) :
    TeamInv stod nd rs (b.advance i) ∧
    ∀ (k : Nat) r q n a, rs[k]? = some r → r.loader.commandCell q n = some a →
      (b.advance i).mem (place rs.length k a) ≠ b.mem (place rs.length k a) →
      ∃ c cb es, (b.advance i).sys.mgr.trace = b.sys.mgr.trace ++ es ∧ .cb c cb ∈ es ∧ (∀ c' cb', .cb c' cb' ∈ es → c' = c) ∧
        Holds rs b.sys c k q n ∧ ∀ c' k' q', c' ≠ c → Holds rs b.sys c' k' q' n → b.sys.mgr.state c' ≠ .running := by
  obtain ⟨-, -, es, he, hcalls⟩ := Inter.rt_calls ⟨b.sys.mgr, b.rt⟩ i.args
  have hmem : (b.advance i).mem = replay i.act es b.mem := by
    show replay i.act (List.drop _ _) _ = _
    rw [he, List.drop_left]
  have changed : ∀ a, (b.advance i).mem a ≠ b.mem a → ∃ c k, .cb c k ∈ es ∧ b.sys.CanWrite (fun d => [d]) c a := by
    intro a hne
    rw [hmem] at hne
    obtain ⟨c, k, hck, m', hm'⟩ := Whole.replay_call hne
    refine ⟨c, k, hck, ?_⟩
    by_contra hno
    exact hm' (hw c k m' a hno)
  -- the command that can be written
  have which : ∀ {c k r a}, rs[k]? = some r → b.sys.CanWrite (fun d => [d]) c (place rs.length k a) →
      ∃ q n, r.loader.commandCell q n = some a ∧ Holds rs b.sys c k q n := by
    intro c k r a hr hcw
    have hk := (List.getElem?_eq_some_iff.1 hr).1
    obtain ⟨k', r', q, n, a', hr', hc, e, hold⟩ := canWrite_mid h.mid hcw
    have hk' := (List.getElem?_eq_some_iff.1 hr').1
    have h1 : k = k' := by rw [← place_mod hk a, e, place_mod hk']
    subst h1
    have h2 : a = a' := by rw [← place_div hk a, e, place_div hk]
    subst h2
    rw [hr] at hr'
    cases hr'
    exact ⟨q, n, hc, hold⟩
  obtain ⟨a, ha, hr⟩ := h.sim
  refine ⟨⟨Whole.rt_reach ha hr i.args, Inter.todo_rt h.todo i.args, Whole.mid_rt h.mid i.args, h.loaders, h.fit, ?_, ?_⟩, ?_⟩
  · intro e
    change b.stage = _ at e
    rw [hst] at e
    cases e
  · intro i' s' m' e
    change b.stage = _ at e
    have h1 := h.inside i' s' m' e
    refine fun k r hrk => ⟨(h1 k r hrk).1, ?_⟩
    have h2 := (h1 k r hrk).2
    funext x
    show overwrite r.commanded (view rs.length k (b.advance i).mem) (view rs.length k m') x = _
    unfold overwrite
    split
    · rfl
    · rename_i hn
      have hx : b.mem (place rs.length k x) = m' (place rs.length k x) := by
        have := congrFun h2 x
        unfold overwrite at this
        rw [if_neg hn] at this
        exact this.symm
      by_contra hne
      obtain ⟨c, cb, -, hcw⟩ := changed (place rs.length k x) (by rw [hx]; exact fun e => hne e.symm)
      obtain ⟨r0, hr0, hl⟩ := h.then hrk
      obtain ⟨q, n, hc, -⟩ := which hr0 hcw
      rw [hl] at hc
      exact hn (Described.mem_commanded hc)
  · intro k r q n x hrk hx hne
    obtain ⟨c, cb, hck, hcw⟩ := changed _ hne
    have hold : Holds rs b.sys c k q n := by
      obtain ⟨q', n', hc', hold⟩ := which hrk hcw
      obtain ⟨rfl, rfl⟩ := (h.based _ (List.mem_map.2 ⟨r, List.mem_of_getElem? hrk, rfl⟩)).unique hx hc'
      exact hold
    refine ⟨c, cb, es, he, hck, (hcalls c cb hck).2.2, hold, fun c' k' q' hne hold' => ?_⟩
    obtain ⟨f, hinj⟩ := numbered
    have i := inv_reachable checkOk_checkForConflict ha
    obtain ⟨b', ib, hcur, -⟩ := Inter.rel_running checkOk_checkForConflict.mono i hr
    refine Inter.rt_guard (P := ConflictFree) (K := b.sys.Rivals fun d => (names (rs.map (·.loader)) d).map f)
      checkOk_checkForConflict.mono i hr h.todo (fun _ _ h => h.1) ?_ _ he hck
      ⟨hne, f n, hold.canWrite h.based f, hold'.canWrite h.based f⟩
    rintro l hl x hx y hy hx' hy' ⟨hne, a, h1, h2⟩
    exact h.mid.apart (by have := ib.names; rw [hcur] at this; exact this) (interfaces_apart h.based hinj) hl hx hy hx' hy'
      (Ne.symm hne) h1 h2

/-- What a part does in a cycle whose period its limits accept. -/
theorem part_turn (hS : Lawful S) {r : Robot T K} (hf : Fit stod r) {sense start m1 m2 : Mem T} {dt : T} {reset : Bool}
    (v1 : r.read nd sense start = .ok m1) (v2 : overwrite r.commanded m2 m1 = m2)
    (hp : Described.Accepts S.toArith r (S.see dt)) :
    ∃ p, (ready reset r).write S nd dt m2 = .ok p ∧
      r.cycle S nd ⟨sense, m2, dt, reset⟩ start = .ok (p.1, ⟨m1, m2, p.2.1, p.2.2⟩) ∧
      p.1.loader = r.loader ∧ Made p.1 ∧ ∀ dt, Described.Accepts S.toArith p.1 dt ↔ Described.Accepts S.toArith r dt := by
  obtain ⟨⟨L0, d, infos, hb⟩, hmade⟩ := hf
  obtain ⟨r', rec, hc, hcyc⟩ := Described.cycle_accepted (S := S) (nd := nd) hS hb rfl hmade ⟨sense, m2, dt, reset⟩ hp start
  have hc' := hc
  unfold Robot.cycle at hc
  simp only [v1, bind, Except.bind, v2] at hc
  split at hc
  · cases hc
  · rename_i p hp
    simp only [pure, Except.pure, Except.ok.injEq, Prod.mk.injEq] at hc
    obtain ⟨rfl, rfl⟩ := hc
    exact ⟨p, hp, hc', hcyc.loader, hcyc.made, hcyc.accepts⟩

/-- A cycle is completed. -/
theorem leave_ok (hS : Lawful S) {b : Team T K} (h : TeamInv stod nd rs b) (hacc : b.Accepted S) {i : Input T}
    {start measured : Mem T} (hst : b.stage = .inside i start measured) (hidle : b.rt = .idle) :
    ∃ b' p, b.leave S nd i start measured = .ok (b', p) ∧ TeamInv stod nd rs b' ∧ p.start = start ∧ p.input = i ∧
      b'.stage = .outside ∧ b'.sys = b.sys ∧ b'.mem = p.record.sent ∧ p.record.measured = measured ∧ p.record.wished = b.mem ∧
      (∀ (k : Nat) r, b.robots[k]? = some r → ∃ r', b'.robots[k]? = some r' ∧
        r.cycle S nd (ownPast rs.length k p) (own rs.length k start) = .ok (r', ownRecord rs.length k p.record)) ∧
      ∀ dt, (∀ r ∈ b'.robots, Described.Accepts S.toArith r dt) ↔ ∀ r ∈ b.robots, Described.Accepts S.toArith r dt := by
  have h1 := h.inside i start measured hst
  have h3 := hacc i start measured hst
  have hlen := h.length
  have one := fun (k : Nat) r (hr : b.robots[k]? = some r) => part_turn (nd := nd) (reset := i.reset) hS
    (h.fit r (List.mem_of_getElem? hr)) (h1 k r hr).1 (h1 k r hr).2 (h3 r (List.mem_of_getElem? hr))
  obtain ⟨ps, m3, m4, e3, hl', g3, -⟩ := writeAll_ok (S := S) (nd := nd) rs.length i.reset i.period b.robots 0 b.mem b.mem
    (by omega) fun j r hj => by
      obtain ⟨p, h, -⟩ := one j r hj
      rw [Nat.zero_add]
      exact ⟨p, h⟩
  simp only [Nat.zero_add] at g3
  have each : ∀ (k : Nat) r, b.robots[k]? = some r → ∃ r', ps[k]? = some r' ∧
      r.cycle S nd ⟨view rs.length k i.sense, view rs.length k b.mem, i.period, i.reset⟩ (view rs.length k start) =
        .ok (r', ⟨view rs.length k measured, view rs.length k b.mem, view rs.length k m3, view rs.length k m4⟩) ∧
      r'.loader = r.loader ∧ Made r' ∧ ∀ dt, Described.Accepts S.toArith r' dt ↔ Described.Accepts S.toArith r dt := by
    intro k r hr
    obtain ⟨p, h, hc, hl, hmd, hac⟩ := one k r hr
    obtain ⟨r', hr', h'⟩ := g3 k r hr
    rw [h] at h'
    cases h'
    exact ⟨r', hr', hc, hl, hmd, hac⟩
  have back : ∀ (k : Nat) r', ps[k]? = some r' → ∃ r, b.robots[k]? = some r ∧ r'.loader = r.loader ∧ Made r' ∧
      ∀ dt, Described.Accepts S.toArith r' dt ↔ Described.Accepts S.toArith r dt := by
    intro k r' hr'
    have hk := (List.getElem?_eq_some_iff.1 hr').1
    rw [hl'] at hk
    obtain ⟨r'', h1, -, h2, h3, h4⟩ := each k _ (List.getElem?_eq_getElem hk)
    rw [hr'] at h1
    cases h1
    exact ⟨_, List.getElem?_eq_getElem hk, h2, h3, h4⟩
  have hload : ps.map (·.loader) = b.robots.map (·.loader) := List.ext_getElem? fun k => by
    rw [List.getElem?_map, List.getElem?_map]
    cases hk : ps[k]? with
    | none =>
      have : b.robots[k]? = none := by
        rw [List.getElem?_eq_none_iff] at hk ⊢
        rw [← hl']
        exact hk
      rw [this]
    | some r' =>
      obtain ⟨r, hr, hl, -⟩ := back k r' hk
      rw [hr, Option.map_some, Option.map_some, hl]
  unfold Team.leave
  rw [hlen, e3]
  refine ⟨_, _, rfl, ⟨h.sim, h.todo, h.mid, hload.trans h.loaders, fun r' hr' => ?_, fun _ => hidle, fun _ _ _ e => by cases e⟩, rfl,
    rfl, rfl, rfl, rfl, rfl, rfl, fun k r hr => ?_, fun dt => ⟨fun ha r hr => ?_, fun ha r' hr' => ?_⟩⟩
  · obtain ⟨k, hk⟩ := List.getElem?_of_mem hr'
    obtain ⟨r, hr, hl, hm, -⟩ := back k r' hk
    exact ⟨hl ▸ (h.fit r (List.mem_of_getElem? hr)).1, hm⟩
  · obtain ⟨r', hr', hc, -⟩ := each k r hr
    exact ⟨r', hr', hc⟩
  · obtain ⟨k, hk⟩ := List.getElem?_of_mem hr
    obtain ⟨r', hr', -, -, -, hac⟩ := each k r hk
    exact (hac dt).1 (ha r' (List.mem_of_getElem? hr'))
  · obtain ⟨k, hk⟩ := List.getElem?_of_mem hr'
    obtain ⟨r, hr, -, -, hac⟩ := back k r' hk
    exact (hac dt).2 (ha r (List.mem_of_getElem? hr))

/-- An operation of the service thread. -/
theorem service_ok {b : Team T K} (h : TeamInv stod nd rs b) {op : SysOp} (hs : ∀ t r hw, op ≠ .update t r hw)
    (hg : op.Good) (hc : CarefulService b op) :
    TeamInv stod nd rs { b with sys := b.sys.step stdEnv checkForConflict op } := by
  obtain ⟨a, ha, hr⟩ := h.sim
  have hca := hc.careful hg hs
  have hsv := toOp_service (env := stdEnv) (s := b.sys) hs
  refine ⟨?_, ?_, sysMid_svc h.mid (inv_of_reachable ha) hr op hg hs hca, h.loaders, h.fit, h.outside, h.inside⟩
  · rw [Sys.step_mgr]
    rcases Inter.rel_svc' (conf := checkForConflict) (inv_of_reachable ha) (fun hi => (hc.1 hi).1) hr hsv hca with g | ⟨t, r, hw, g⟩
    · exact ⟨_, reachable_step ha hca.1, g⟩
    · exact ⟨_, reachable_step (reachable_step ha (op := .update t r hw) trivial) hca.1, g⟩
  · rw [Sys.step_mgr]
    exact Inter.todo_svc (conf := checkForConflict) h.todo hr hsv hca

/-- What is true of one step. -/
structure Stepped (stod : String → Option T) (S : Setting T K) (nd : Bool) (rs : List (Robot T K)) (b : Team T K) (mv : Move T)
    (b' : Team T K) (p : Option (Past T)) : Prop where
  eq : b.step S nd mv = .ok (b', p)
  inv : TeamInv stod nd rs b'
  accepted : b'.Accepted S
  same : p = none → b'.robots = b.robots ∧ b'.origin = b.origin
  past : ∀ x, p = some x → mv = .go ∧ b.stage = .inside x.input x.start x.record.measured ∧ b.rt = .idle ∧ b'.stage = .outside ∧
    b'.sys = b.sys ∧ b'.mem = x.record.sent ∧ x.record.wished = b.mem ∧
    ∀ (k : Nat) r, b.robots[k]? = some r → ∃ r', b'.robots[k]? = some r' ∧
      r.cycle S nd (ownPast rs.length k x) (own rs.length k x.start) = .ok (r', ownRecord rs.length k x.record)
  now : b.stage.now ++ b.stage.opens mv = (p.map (·.input)).toList ++ b'.stage.now
  calls : p = none → ∀ (k : Nat) r q n a, rs[k]? = some r → r.loader.commandCell q n = some a →
    b'.mem (place rs.length k a) ≠ b.mem (place rs.length k a) → mv = .go ∧
    ∃ c cb es, b'.sys.mgr.trace = b.sys.mgr.trace ++ es ∧ .cb c cb ∈ es ∧ (∀ c' cb', .cb c' cb' ∈ es → c' = c) ∧
      Holds rs b.sys c k q n ∧ ∀ c' k' q', c' ≠ c → Holds rs b.sys c' k' q' n → b.sys.mgr.state c' ≠ .running
  accepts : ∀ dt, (∀ r ∈ b'.robots, Described.Accepts S.toArith r dt) ↔ ∀ r ∈ b.robots, Described.Accepts S.toArith r dt

theorem step_ok (hS : Lawful S) {b : Team T K} (h : TeamInv stod nd rs b) (hrd : b.Accepted S) (mv : Move T) (hf : Fine b mv)
    (hp : ∀ i, mv = .begin i → ∀ r ∈ b.robots, Described.Accepts S.toArith r (S.see i.period)) :
    ∃ b' p, Stepped stod S nd rs b mv b' p := by
  -- steps that change only the manager
  have fin : ∀ b' : Team T K, b'.robots = b.robots → b'.stage = b.stage → b'.mem = b.mem → TeamInv stod nd rs b' →
      b.step S nd mv = .ok (b', none) → b.stage.opens mv = [] → ∃ b' p, Stepped stod S nd rs b mv b' p := fun b' h1 h2 h3 h4 h5 h6 =>
    ⟨b', none, h5, h4, by unfold Team.Accepted; rw [h1, h2]; exact hrd, fun _ => ⟨h1, by simp [Team.origin, h2, h3]⟩, by simp, by rw [h2, h6]; simp,
      fun _ k r q n a hr ha hne => absurd (congrFun h3 _) hne, fun _ => by rw [h1]⟩
  cases mv with
  | begin i =>
    cases hst : b.stage with
    | outside =>
      obtain ⟨b', e, hi, hr, ⟨m, hm⟩, hk⟩ := enter_ok h i
      exact ⟨b', none, by simp [Team.step, hst, e, Except.map], hi, by
        intro i' s' m' e'
        rw [hm] at e'
        cases e'
        rw [hr]
        exact hp i rfl, fun _ => ⟨hr, by simp [Team.origin, hm, hst]⟩, by simp,
        by simp [hm, hst, Stage.now, Stage.opens], fun _ k r q n a hr ha hne => absurd (hk k r q n a hr ha) hne, fun _ => by rw [hr]⟩
    | inside i' s m => exact fin b rfl rfl rfl h (by simp [Team.step, hst]) (by rw [hst]; rfl)
  | go =>
    cases hst : b.stage with
    | outside => exact fin b rfl rfl rfl h (by simp [Team.step, hst]) (by rw [hst]; rfl)
    | inside i s m =>
      by_cases hidle : b.rt = .idle
      · obtain ⟨b', p, e, hi, e1, e2, e3, e4, e5, e6, e7, e8, e9⟩ := leave_ok hS h hrd hst hidle
        refine ⟨b', some p, by simp [Team.step, hst, hidle, e, Except.map], hi, fun _ _ _ e' => (by rw [e3] at e'; cases e'), by simp, ?_,
          by simp [hst, e2, e3, Stage.now, Stage.opens], by simp, e9⟩
        rintro x ⟨⟩
        subst e1 e2 e6
        exact ⟨rfl, hst, hidle, e3, e4, e5, e7, e8⟩
      · obtain ⟨hi, hch⟩ := advance_ok h hst (hf i s m hst)
        have e : b.step S nd .go = .ok (b.advance i, none) := by
          unfold Team.step
          simp only [hst]
        refine ⟨b.advance i, none, e, hi, hrd, fun _ => ⟨rfl, by simp [Team.origin, Team.advance, hst]⟩, by simp, ?_,
          fun _ k r q n a hr ha hne => ⟨rfl, hch k r q n a hr ha hne⟩, fun _ => Iff.rfl⟩
        show b.stage.now ++ b.stage.opens .go = [] ++ b.stage.now
        rw [hst]
        simp [Stage.now, Stage.opens]
  | service op =>
    have ho : b.stage.opens (.service op) = [] := by cases b.stage <;> rfl
    by_cases hu : ∃ t r hw, op = .update t r hw
    · obtain ⟨t, r, hw, rfl⟩ := hu
      exact fin b rfl rfl rfl h rfl ho
    · push Not at hu
      refine fin { b with sys := b.sys.step stdEnv checkForConflict op } rfl rfl rfl (service_ok h hu hf.1 hf.2) ?_ ho
      cases op with
      | update t r hw => exact absurd rfl (hu t r hw)
      | _ => rfl

/-- What is true of a run. -/
theorem team_run (hS : Lawful S) (ms : List (Move T)) {b : Team T K} (h : TeamInv stod nd rs b)
    (hrd : b.Accepted S) (hf : AllMoves S nd Fine b ms)
    (hp : ∀ i, .begin i ∈ ms → ∀ r ∈ b.robots, Described.Accepts S.toArith r (S.see i.period)) :
    (b.run S nd ms).2.2 = none ∧ TeamInv stod nd rs (b.run S nd ms).2.1 ∧ (b.run S nd ms).2.1.Accepted S ∧
    (∀ (k : Nat) r, b.robots[k]? = some r →
      r.run S nd ((b.run S nd ms).1.map (ownPast rs.length k)) (own rs.length k b.origin) =
        ((b.run S nd ms).1.map fun x => ownRecord rs.length k x.record, none)) ∧
    b.stage.now ++ begun S nd b ms = (b.run S nd ms).1.map (·.input) ++ (b.run S nd ms).2.1.stage.now ∧
    (∀ x, (b.run S nd ms).1[0]? = some x → x.start = b.origin) ∧
    (∀ k x y, (b.run S nd ms).1[k]? = some x → (b.run S nd ms).1[k + 1]? = some y → y.start = x.record.sent) ∧
    ∀ dt, (∀ r ∈ (b.run S nd ms).2.1.robots, Described.Accepts S.toArith r dt) ↔ ∀ r ∈ b.robots, Described.Accepts S.toArith r dt := by
  induction ms generalizing b with
  | nil => exact ⟨rfl, h, hrd, fun _ _ _ => rfl, by simp [begun, Team.run], by simp [Team.run], by simp [Team.run], fun _ => Iff.rfl⟩
  | cons mv ms ih =>
    obtain ⟨b', p, e, hi, hrd', hn, hx, hnow, -, hacc⟩ := step_ok hS h hrd mv hf.1 fun i hi => hp i (by simp [hi])
    obtain ⟨i1, i2, i2', i3, i4, i5, i6, i7⟩ := ih hi hrd' (hf.2 b' p e) fun i hi => (hacc _).2 (hp i (by simp [hi]))
    replace i7 := fun dt => (i7 dt).trans (hacc dt)
    have erun : b.run S nd (mv :: ms) = (p.toList ++ (b'.run S nd ms).1, (b'.run S nd ms).2.1, (b'.run S nd ms).2.2) := by
      rw [Team.run, e]
    have ebeg : begun S nd b (mv :: ms) = b.stage.opens mv ++ begun S nd b' ms := by
      rw [begun, e]
    rw [erun, ebeg, ← List.append_assoc, hnow, List.append_assoc, i4]
    cases p with
    | none =>
      obtain ⟨h1, h2⟩ := hn rfl
      rw [← h1, ← h2]
      exact ⟨i1, i2, i2', i3, by simp, i5, i6, fun dt => by rw [h1]; exact i7 dt⟩
    | some x =>
      obtain ⟨-, hst, -, ho, -, hm, -, hc⟩ := hx x rfl
      have e1 : b.origin = x.start := by simp [Team.origin, hst]
      have e2 : b'.origin = x.record.sent := by simp [Team.origin, ho, hm]
      refine ⟨i1, i2, i2', ?_, by simp, ?_, ?_, i7⟩
      · intro k r hr
        obtain ⟨r', hr', hcyc⟩ := hc k r hr
        have i3 := i3 k r' hr'
        simp only [Option.toList_some, List.singleton_append, List.map_cons]
        rw [e2] at i3
        rw [Robot.run, e1, hcyc]
        have i3' : r'.run S nd ((b'.run S nd ms).1.map (ownPast rs.length k)) (ownRecord rs.length k x.record).sent = _ := i3
        simp only [i3']
      · rintro y hy
        simp only [Option.toList_some, List.singleton_append, List.getElem?_cons_zero, Option.some.injEq] at hy
        subst hy
        exact e1.symm
      · rintro (_ | k) y z hy hz
        · simp only [Option.toList_some, List.singleton_append, List.getElem?_cons_zero, Option.some.injEq, List.getElem?_cons_succ] at hy hz
          subst hy
          rw [← e2]
          exact i5 z hz
        · simp only [Option.toList_some, List.singleton_append, List.getElem?_cons_succ] at hy hz
          exact i6 k y z hy hz

end

end Verif.Parted
