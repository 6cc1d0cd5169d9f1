import Verif.Spec.WholeRobot
import Verif.Lemmas.DescribedRobotMade
import Verif.Props.System

/-!
Lemmas about whole robots: the interfaces of the loader, and the run of a whole robot as a run of its hardware.
-/

namespace Verif.Whole

open Verif.Transmission (Mem Loader Cmd Doc TransInfo rawCommand)
open Verif.Cycle (Record Halt overwrite)
open Verif.Described (Robot Setting Lawful Base Made Cycled rawCommand_bounds)

variable {T K : Type}

theorem mem_commandHandles {L : Loader T} {c : Cmd} {k : String} {hd : Handle} (h : (k, hd) ∈ commandHandles L c) :
    hd.name = k ∧ L.commandCell c k = some hd.data := by
  obtain ⟨n, -, h⟩ := List.mem_filterMap.1 h
  obtain ⟨e, he, h⟩ := Option.map_eq_some_iff.1 h
  cases h
  exact ⟨rfl, Option.map_eq_some_iff.2 ⟨e, he, rfl⟩⟩

theorem interfaces_named (L : Loader T) : (interfaces L).Named := by
  intro o k hd h
  unfold interfaces at h
  dsimp only at h
  split at h
  · exact (mem_commandHandles h).1
  · exact (mem_commandHandles h).1
  · exact (mem_commandHandles h).1
  · obtain ⟨e, -, h⟩ := List.mem_map.1 h
    cases h
    rfl
  · cases h

theorem interfaces_exclusive {L : Loader T} {hd : Handle} (h : (interfaces L).Exclusive hd) :
    ∃ c, L.commandCell c hd.name = some hd.data := by
  obtain ⟨o, h1, h2⟩ := h
  unfold interfaces at h1 h2
  dsimp only at h1 h2
  split at h2
  · exact ⟨_, (mem_commandHandles h2).2⟩
  · exact ⟨_, (mem_commandHandles h2).2⟩
  · exact ⟨_, (mem_commandHandles h2).2⟩
  · cases h1
  · cases h2

theorem registered_typed (L : Loader T) : TypedRobot stdEnv (interfaces L) (registered L) := by
  have e : ∀ T o, smapFind T [("hardware_interface::EffortJointInterface", 2),
      ("hardware_interface::JointStateInterface", 3), ("hardware_interface::PositionJointInterface", 0),
      ("hardware_interface::VelocityJointInterface", 1)] = some o →
      o < 4 ∧ ((interfaces L).objs o).claiming = stdEnv.claiming T := by
    intro T o h
    have := mem_of_smapFind h
    simp only [List.mem_cons, Prod.mk.injEq, List.not_mem_nil, or_false] at this
    rcases this with ⟨rfl, rfl⟩ | ⟨rfl, rfl⟩ | ⟨rfl, rfl⟩ | ⟨rfl, rfl⟩
    · exact ⟨by decide, by show true = _; decide⟩
    · exact ⟨by decide, by show false = _; decide⟩
    · exact ⟨by decide, by show true = _; decide⟩
    · exact ⟨by decide, by show true = _; decide⟩
  exact ⟨e, by simp [smapFind], trivial⟩

/-- The joint an address of a command belongs to, as the base of its variables. -/
def jointOf (L : Loader T) (d : Nat) : List Nat :=
  (smapKeys L.raw).filterMap fun n => (smapFind n L.raw).bind fun b => if b + 3 ≤ d ∧ d ≤ b + 5 then some b else none

theorem mem_jointOf {L : Loader T} {d b : Nat} : b ∈ jointOf L d ↔ (∃ n, smapFind n L.raw = some b) ∧ b + 3 ≤ d ∧ d ≤ b + 5 := by
  unfold jointOf
  rw [List.mem_filterMap]
  constructor
  · rintro ⟨n, -, h⟩
    obtain ⟨b', h1, h2⟩ := Option.bind_eq_some_iff.1 h
    split at h2
    · cases h2
      rename_i h3
      exact ⟨⟨n, h1⟩, h3⟩
    · cases h2
  · rintro ⟨⟨n, h1⟩, h2⟩
    exact ⟨n, List.mem_map.2 ⟨_, mem_of_smapFind h1, rfl⟩, by rw [h1, Option.bind_some, if_pos h2]⟩

section

variable [Add T] [Sub T] [Mul T] [Div T] [OfNat T 0] [OfNat T 1] [OfNat T 2] [DecidableEq T] [LinearOrder K]
  {stod : String → Option T} {L0 L : Loader T} {d : Doc} {infos : List TransInfo}

theorem joint_apart (hb : Base stod L0 d infos L) {c c' : Cmd} {n n' : String} {a a' b : Nat}
    (h : L.commandCell c n = some a) (h' : L.commandCell c' n' = some a') (hj : b ∈ jointOf L a) (hj' : b ∈ jointOf L a') :
    n = n' := by
  by_contra hne
  obtain ⟨b1, r1, rfl, -⟩ := hb.command_above h
  obtain ⟨b2, r2, rfl, -⟩ := hb.command_above h'
  obtain ⟨-, g1, g2⟩ := mem_jointOf.1 hj
  obtain ⟨-, g3, g4⟩ := mem_jointOf.1 hj'
  have w1 := rawCommand_bounds b1 c
  have w2 := rawCommand_bounds b2 c'
  have := hb.inv.rawApart n n' b1 b2 hne r1 r2
  omega

/-- Different joints have different variables, taking all commands of a joint together. -/
theorem interfaces_apart (hb : Base stod L0 d infos L) : (interfaces L).CellsApart (jointOf L) := by
  intro hd hd' h h' hne a ha ha'
  obtain ⟨c, h⟩ := interfaces_exclusive h
  obtain ⟨c', h'⟩ := interfaces_exclusive h'
  exact hne (joint_apart hb h h' ha ha')

/-- A command that a controller holds is one of its joint. -/
theorem Holds.canWrite (hb : Base stod L0 d infos L) {s : Sys} {c : CId} {q q' : Cmd} {n : String} {a : Nat}
    (h : Holds L s c q n) (ha : L.commandCell q' n = some a) {b : Nat} (hj : b ∈ jointOf L a) :
    s.CanWrite (jointOf L) c b := by
  obtain ⟨g, hg, he, hn, hc⟩ := h
  refine ⟨g, hg, he, ?_⟩
  obtain ⟨b1, r1, rfl, -⟩ := hb.command_above ha
  obtain ⟨b2, r2, e2, -⟩ := hb.command_above hc
  rw [r1] at r2
  cases r2
  have : b = b1 := by
    obtain ⟨⟨n', r'⟩, g1, g2⟩ := mem_jointOf.1 hj
    have w1 := rawCommand_bounds b1 q'
    by_cases hne : n' = n
    · subst hne
      rw [r1] at r'
      cases r'
      rfl
    · have := hb.inv.rawApart n' n b b1 hne r' r1
      omega
  subst this
  rw [e2]
  exact mem_jointOf.2 ⟨⟨n, r1⟩, rawCommand_bounds b q⟩

/-- Every command of a joint that is held gives it. -/
theorem Holds.cell {s : Sys} {c : CId} {q : Cmd} {n : String} (h : Holds L s c q n) : ∃ a, L.commandCell q n = some a := by
  obtain ⟨g, -, -, -, h⟩ := h
  exact ⟨_, h⟩

theorem jointOf_cell (hb : Base stod L0 d infos L) {q : Cmd} {n : String} {a : Nat} (h : L.commandCell q n = some a) :
    ∃ b, b ∈ jointOf L a := by
  obtain ⟨b, r, rfl, -⟩ := hb.command_above h
  exact ⟨b, mem_jointOf.2 ⟨⟨n, r⟩, rawCommand_bounds b q⟩⟩

/-- What a controller can write is a command of a joint. -/
theorem canWrite_holds {s : Sys} (hv : SysInv stdEnv (interfaces L) s) {c : CId} {a : Nat}
    (h : s.CanWrite (fun d => [d]) c a) : ∃ q n, L.commandCell q n = some a ∧ Holds L s c q n := by
  obtain ⟨g, hg, he, ha⟩ := h
  rw [List.mem_singleton] at ha
  subst ha
  obtain ⟨q, hq⟩ := interfaces_exclusive (hv.heldExcl c g hg he)
  exact ⟨q, g.handle.name, hq, g, hg, he, rfl, hq⟩

/-- The variables that are not commands of joints are left alone by the controllers. -/
theorem replay_commanded {s : Sys} (hv : SysInv stdEnv (interfaces L) s) {act : CId → Callback → Mem T → Mem T}
    (hw : ∀ c k m a, ¬s.CanWrite (fun d => [d]) c a → act c k m a = m a) (es : List Event) (m : Mem T) {r : Robot T K}
    (hr : r.loader = L) : overwrite r.commanded (replay act es m) m = replay act es m := by
  funext a
  unfold overwrite
  split
  · rfl
  · rename_i hn
    refine (replay_untouched act a (fun c => s.CanWrite (fun d => [d]) c a) (fun c k m => hw c k m a) es (fun c k _ h => ?_) m).symm
    obtain ⟨q, n, hc, -⟩ := canWrite_holds hv h
    rw [← hr] at hc
    exact hn (Described.mem_commanded hc)

variable {S : Setting T K} {nd : Bool}

/-- What the hardware sees of a completed cycle. -/
def Seen.hardware (x : Seen T) : Cycle.Input T := ⟨x.input.sense, x.record.wished, x.input.period, x.input.reset⟩

/-- A cycle of the whole robot is one of the hardware. -/
theorem cycle_eq {w : World T K} (hv : SysInv stdEnv (interfaces w.robot.loader) w.sys) (i : Input T)
    (hw : ∀ c k m a, ¬w.sys.CanWrite (fun d => [d]) c a → i.act c k m a = m a) {r' : Robot T K} {rec : Record T} {m1 : Mem T}
    (hread : w.robot.read nd i.sense w.mem = .ok m1)
    (hc : w.robot.cycle S nd ⟨i.sense, replay i.act ((w.sys.step stdEnv checkForConflict i.update).mgr.trace.drop
      w.sys.mgr.trace.length) m1, i.period, i.reset⟩ w.mem = .ok (r', rec)) :
    w.cycle S nd i = .ok (⟨w.sys.step stdEnv checkForConflict i.update, r', rec.sent⟩, rec) ∧
      rec.measured = m1 ∧ rec.wished = replay i.act ((w.sys.step stdEnv checkForConflict i.update).mgr.trace.drop
        w.sys.mgr.trace.length) m1 := by
  unfold Robot.cycle at hc
  simp only [hread, bind, Except.bind, replay_commanded hv hw _ _ rfl] at hc
  unfold World.cycle
  simp only [hread, bind, Except.bind]
  split at hc
  · cases hc
  · rename_i p hp
    rw [hp]
    simp only [pure, Except.pure, Except.ok.injEq, Prod.mk.injEq] at hc ⊢
    obtain ⟨rfl, rfl⟩ := hc
    exact ⟨⟨rfl, rfl⟩, rfl, rfl⟩

theorem enforce_loader {A : Limits.Arith K} {dt : Limits.Dbl K} (cs : List Cmd) (r : Robot T K) {m m' : Limits.Cells K} {r' : Robot T K}
    (h : r.enforce A dt cs m = some (r', m')) : r'.loader = r.loader := by
  induction cs generalizing r m with
  | nil => cases h; rfl
  | cons c cs ih =>
    unfold Robot.enforce at h
    split at h
    · cases h
    · have := ih _ h
      exact this

/-- Reading and sending leave the commands of the joints alone. -/
theorem cycle_commands (hb : Base stod L0 d infos L) {r : Robot T K} (hr : r.loader = L) {i : Cycle.Input T}
    {m : Mem T} {r' : Robot T K} {rec : Record T} (hc : r.cycle S nd i m = .ok (r', rec)) {q : Cmd} {n : String} {a : Nat}
    (ha : L.commandCell q n = some a) : rec.measured a = m a ∧ rec.sent a = rec.limited a := by
  obtain ⟨b, -, -, hge⟩ := hb.command_above ha
  obtain ⟨m1, e1, -, -, v1⟩ := Transmission.Loader.c109_reading hb.fresh hb.noOwn hb.below hb.loaded hb.parsed hb.apart nd
    (overwrite r.sensed i.sense m)
  have eread : r.read nd i.sense m = .ok m1 := by rw [Robot.read, hr, e1]
  have hm1 : m1 a = m a := by
    have := v1 q [n]
    simp only [Transmission.Loader.jointCommands, List.mapM_cons, List.mapM_nil, ha, Option.map_some, bind, Option.bind, pure,
      Option.some.injEq, List.cons.injEq, and_true] at this
    rw [this, overwrite, if_neg]
    intro hs
    unfold Robot.sensed at hs
    rw [hr, hb.inv.grows.acts] at hs
    obtain ⟨e, he, hs⟩ := List.mem_flatMap.1 hs
    have : a < L0.next := by
      apply hb.below
      left
      cases hl : L0.actuators.state with
      | none => rw [hl] at he; cases he
      | some l =>
        rw [hl] at he
        refine ⟨l, e.1, e.2, rfl, he, ?_⟩
        simp only [List.mem_append, List.mem_cons, List.not_mem_nil, or_false, Option.mem_toList] at hs
        unfold Transmission.StateCells.Has
        tauto
    omega
  unfold Robot.cycle at hc
  simp only [eread, bind, Except.bind] at hc
  split at hc
  · cases hc
  · rename_i p hp
    simp only [pure, Except.pure, Except.ok.injEq, Prod.mk.injEq] at hc
    obtain ⟨-, rfl⟩ := hc
    refine ⟨hm1, ?_⟩
    unfold Robot.write at hp
    split at hp
    · cases hp
    · rename_i r2 cells he
      split at hp
      · have hr2 : r2.loader = L := by
          rw [enforce_loader _ _ he]
          split <;> exact hr
        simp only at hp
        split at hp
        · cases hp
        · rename_i m4 h4
          simp only [Except.ok.injEq] at hp
          subst hp
          obtain ⟨m4', e4, -, f4⟩ := Described.send_run (nd := nd) hb hr2 [.position, .velocity, .effort] (by decide) _
          rw [h4] at e4
          cases e4
          refine f4 a fun c _ n h => ?_
          have := Described.actuatorCell_below hb.below h
          omega
      · cases hp

/-- What is known of a completed cycle. -/
structure Facts (L : Loader T) (x : Seen T) : Prop where
  reached : Sys.Reached stdEnv (registered L) (interfaces L) x.before
  after : x.after = x.before.step stdEnv checkForConflict x.input.update
  honest : ∀ c k m a, ¬x.before.CanWrite (fun d => [d]) c a → x.input.act c k m a = m a
  wished : x.record.wished = replay x.input.act x.events x.record.measured
  commands : ∀ q n a, L.commandCell q n = some a → x.record.measured a = x.start a ∧ x.record.sent a = x.record.limited a

theorem reached_step {s : Sys} (h : Sys.Reached stdEnv (registered L) (interfaces L) s) {op : SysOp} (hg : op.Good) :
    Sys.Reached stdEnv (registered L) (interfaces L) (s.step stdEnv checkForConflict op) := by
  obtain ⟨ops, hops, rfl⟩ := h
  refine ⟨ops ++ [op], fun o ho => ?_, (Sys.run_append _ _ _ _ _).symm⟩
  rcases List.mem_append.1 ho with ho | ho
  · exact hops o ho
  · rw [List.mem_singleton.1 ho]; exact hg

theorem Op.Good.sys {op : Op T} (h : op.Good) : op.sys.Good := by
  cases op with
  | service o => exact h.1
  | cycle i => exact trivial

theorem manager_eq : (Op.manager : Op T → SysOp) = Op.sys := by
  funext op
  cases op <;> rfl

/-- A run of a whole robot is one of its hardware. -/
theorem run_refines (hS : Lawful S) (hb : Base stod L0 d infos L) (ops : List (Op T)) (w : World T K) (hr : w.robot.loader = L)
    (hm : Made w.robot) (hs : Sys.Reached stdEnv (registered L) (interfaces L) w.sys) (hg : ∀ op ∈ ops, op.Good)
    (hh : Honest w.sys ops) (hp : ∀ i, .cycle i ∈ ops → Limits.dlt (some S.zero) (S.see i.period) = true) :
    (w.run S nd ops).2 = none ∧ (w.run S nd ops).1.map (·.input) = cycles ops ∧
    w.robot.run S nd ((w.run S nd ops).1.map Seen.hardware) w.mem = ((w.run S nd ops).1.map (·.record), none) ∧
    (∀ x ∈ (w.run S nd ops).1, Facts L x) ∧
    (∀ x, (w.run S nd ops).1[0]? = some x → x.start = w.mem) ∧
    (∀ k x y, (w.run S nd ops).1[k]? = some x → (w.run S nd ops).1[k + 1]? = some y → y.start = x.record.sent) ∧
    ∀ (k : Nat) x, (w.run S nd ops).1[k]? = some x → ∃ pre post, ops = pre ++ .cycle x.input :: post ∧
      (cycles pre).length = k ∧ x.before = w.sys.run stdEnv checkForConflict (pre.map Op.sys) := by
  induction ops generalizing w with
  | nil => simp [World.run, cycles, Robot.run]
  | cons op ops ih =>
    have hgo := hg op (by simp)
    have hs' := reached_step hs hgo.sys
    have ih := fun w' (hr' : w'.robot.loader = L) (hm' : Made w'.robot)
      (e : w'.sys = w.sys.step stdEnv checkForConflict op.sys) => ih w' hr' hm' (by rw [e]; exact hs')
        (fun o ho => hg o (by simp [ho])) (by rw [e, ← manager_eq]; exact hh.2) fun i hi => hp i (by simp [hi])
    cases op with
    | service o =>
      obtain ⟨h1, h2, h3, h4, h5, h6, h7⟩ := ih { w with sys := w.sys.step stdEnv checkForConflict o } hr hm rfl
      refine ⟨h1, h2, h3, h4, h5, h6, fun k x hx => ?_⟩
      obtain ⟨pre, post, e1, e2, e3⟩ := h7 k x hx
      exact ⟨.service o :: pre, post, by rw [e1]; rfl, e2, e3⟩
    | cycle i =>
      have hv := sysInv_reached (registered_typed L) (interfaces_named L) hs
      rw [← hr] at hv
      have hw := hh.1 i rfl
      obtain ⟨m1, e1, -⟩ := Transmission.Loader.c109_reading hb.fresh hb.noOwn hb.below hb.loaded hb.parsed hb.apart nd
        (overwrite w.robot.sensed i.sense w.mem)
      have hread : w.robot.read nd i.sense w.mem = .ok m1 := by rw [Robot.read, hr, e1]
      obtain ⟨r', rec, hc, hcyc⟩ := Described.cycle_run (S := S) (nd := nd) hS hb hr hm
        ⟨i.sense, replay i.act ((w.sys.step stdEnv checkForConflict i.update).mgr.trace.drop w.sys.mgr.trace.length) m1,
          i.period, i.reset⟩ (hp i (by simp)) w.mem
      obtain ⟨hcw, hmeas, hwish⟩ := cycle_eq hv i hw hread hc
      rw [← hwish] at hc
      obtain ⟨h1, h2, h3, h4, h5, h6, h7⟩ := ih ⟨w.sys.step stdEnv checkForConflict i.update, r', rec.sent⟩
        (hcyc.loader.trans hr) hcyc.made rfl
      have erun : w.run S nd (.cycle i :: ops) = (⟨w.sys, w.mem, i, w.sys.step stdEnv checkForConflict i.update, rec⟩ ::
          (World.run S nd ops ⟨w.sys.step stdEnv checkForConflict i.update, r', rec.sent⟩).1,
          (World.run S nd ops ⟨w.sys.step stdEnv checkForConflict i.update, r', rec.sent⟩).2) := by
        rw [World.run, hcw]
      rw [erun]
      refine ⟨h1, by simp [h2, cycles], ?_, ?_, ?_, ?_, ?_⟩
      · rw [List.map_cons, Robot.run]
        show (match w.robot.cycle S nd ⟨i.sense, rec.wished, i.period, i.reset⟩ w.mem with
          | .error h => ([], some h)
          | .ok (r', rec) => _) = _
        rw [hc]
        simp only [h3, List.map_cons]
      · intro x hx
        rcases List.mem_cons.1 hx with rfl | hx
        · exact ⟨hs, rfl, hw, by rw [hwish, hmeas]; rfl, fun q n a ha => cycle_commands hb hr hc ha⟩
        · exact h4 x hx
      · rintro x hx
        simp only [List.getElem?_cons_zero, Option.some.injEq] at hx
        subst hx
        rfl
      · rintro (_ | k) x y hx hy
        · simp only [List.getElem?_cons_zero, Option.some.injEq, List.getElem?_cons_succ] at hx hy
          subst hx
          exact h5 y hy
        · simp only [List.getElem?_cons_succ] at hx hy
          exact h6 k x y hx hy
      · rintro (_ | k) x hx
        · simp only [List.getElem?_cons_zero, Option.some.injEq] at hx
          subst hx
          exact ⟨[], ops, rfl, rfl, rfl⟩
        · simp only [List.getElem?_cons_succ] at hx
          obtain ⟨pre, post, g1, g2, g3⟩ := h7 k x hx
          exact ⟨.cycle i :: pre, post, by rw [g1]; rfl, by simp only [cycles, List.filterMap_cons, List.length_cons]; rw [← g2]; rfl, g3⟩

/-- The first cycle whose period the limits do not accept is the end of a run. -/
theorem run_halts (hS : Lawful S) (hb : Base stod L0 d infos L) (ops : List (Op T)) (w : World T K) (hr : w.robot.loader = L)
    (hm : Made w.robot) (hs : Sys.Reached stdEnv (registered L) (interfaces L) w.sys) (hg : ∀ op ∈ ops, op.Good)
    (hh : Honest w.sys ops) (hp : ∀ i, .cycle i ∈ ops → Limits.dlt (some S.zero) (S.see i.period) = true) (i : Input T)
    (hi : ¬Described.Accepts S.toArith w.robot (S.see i.period)) (rest : List (Op T)) :
    w.run S nd (ops ++ .cycle i :: rest) = ((w.run S nd ops).1, some .limits) := by
  induction ops generalizing w with
  | nil =>
    obtain ⟨m1, e1, -⟩ := Transmission.Loader.c109_reading hb.fresh hb.noOwn hb.below hb.loaded hb.parsed hb.apart nd
      (overwrite w.robot.sensed i.sense w.mem)
    have hread : w.robot.read nd i.sense w.mem = .ok m1 := by rw [Robot.read, hr, e1]
    have hc : w.cycle S nd i = .error .limits := by
      simp only [World.cycle, hread, bind, Except.bind, Described.write_halts (nd := nd) hi]
    simp only [List.nil_append, World.run, hc]
  | cons op ops ih =>
    have hgo := hg op (by simp)
    have hs' := reached_step hs hgo.sys
    have ih := fun w' (hr' : w'.robot.loader = L) (hm' : Made w'.robot)
      (e : w'.sys = w.sys.step stdEnv checkForConflict op.sys) => ih w' hr' hm' (by rw [e]; exact hs')
        (fun o ho => hg o (by simp [ho])) (by rw [e, ← manager_eq]; exact hh.2) fun i hi => hp i (by simp [hi])
    cases op with
    | service o => exact ih { w with sys := w.sys.step stdEnv checkForConflict o } hr hm rfl hi
    | cycle j =>
      have hv := sysInv_reached (registered_typed L) (interfaces_named L) hs
      rw [← hr] at hv
      have hw := hh.1 j rfl
      obtain ⟨m1, e1, -⟩ := Transmission.Loader.c109_reading hb.fresh hb.noOwn hb.below hb.loaded hb.parsed hb.apart nd
        (overwrite w.robot.sensed j.sense w.mem)
      have hread : w.robot.read nd j.sense w.mem = .ok m1 := by rw [Robot.read, hr, e1]
      obtain ⟨r', rec, hc, hcyc⟩ := Described.cycle_run (S := S) (nd := nd) hS hb hr hm
        ⟨j.sense, replay j.act ((w.sys.step stdEnv checkForConflict j.update).mgr.trace.drop w.sys.mgr.trace.length) m1,
          j.period, j.reset⟩ (hp j (by simp)) w.mem
      obtain ⟨hcw, -, -⟩ := cycle_eq hv j hw hread hc
      have := ih ⟨w.sys.step stdEnv checkForConflict j.update, r', rec.sent⟩ (hcyc.loader.trans hr) hcyc.made rfl
        ((hcyc.accepts _).not.2 hi)
      simp only [List.cons_append, World.run, hcw, this]

theorem Facts.trace {x : Seen T} (h : Facts L x) : x.after.mgr.trace = x.before.mgr.trace ++ x.events := by
  have hv := sysInv_reached (registered_typed L) (interfaces_named L) h.reached
  have hi := Mgr.inv_of_reachable hv.reach
  obtain ⟨es, he, -⟩ := Mgr.step_trace (conf := checkForConflict) hi (x.input.update.toOp stdEnv x.before)
    (SysOp.Good.rosUp (op := x.input.update) trivial stdEnv x.before)
  rw [← Sys.step_mgr, ← h.after] at he
  rw [Seen.events, he, List.drop_left]

end

end Verif.Whole
