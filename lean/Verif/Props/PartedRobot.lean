import Verif.Lemmas.PartedRobotRun
import Verif.Lemmas.PartedRobotOffers
import Verif.Props.DescribedRobotDouble
import Verif.Props.WholeRobot

/-!
Property C116: a robot whose hardware is combined from several ones, each with transmissions and joint limits from its own
description, and whose controllers are under one controller manager.
-/

namespace Verif.Parted

open Verif.Spec (observed)
open Verif.Transmission (Mem Loader Cmd Doc TransInfo loadTransmission IsNaN)
open Verif.Limits (Machine Flt Fl Arith Dbl binary64 UrdfJoint UrdfLimits UrdfSafety Within)
open Verif.Cycle (Record GoodPeriod limitsArith)
open Verif.Described (Robot Setting Lawful Assembled exact_lawful double_lawful Sends SendsWithin64 InUrdfRange Driven HasLimits
  HasSoftLimits Ranged Allowed Sane)
open Verif.Whole (Input Seen cycles)

/-- **C116, initialisation.** If all hardwares named by the parameter can be created and initialised, `init` of the
combined hardware succeeds and leaves the hardware the other theorems are about. -/
theorem c116_init {T : Type} (ls : List (Loader T)) (names : List String) (hn : names.length = ls.length)
    (envs : String → Combined.SubEnv)
    (he : ∀ (k : Nat) name, names[k]? = some name → (envs name).nodeOk = true ∧ (∃ t, (envs name).type = some t ∧
      Combined.construct t (envs name).create 0 false (envs name).declared = true) ∧
      (envs name).init = .ok (part (interfaces ls) k)) :
    Combined.init {} (some names) envs = (true, ⟨(List.range ls.length).map (part (interfaces ls)), combined ls⟩) := by
  have key : ∀ (l : List String) (j : Nat) (s : List IMan) (m : IMan),
      (∀ (k : Nat) name, l[k]? = some name → (envs name).nodeOk = true ∧ (∃ t, (envs name).type = some t ∧
        Combined.construct t (envs name).create 0 false (envs name).declared = true) ∧
        (envs name).init = .ok (part (interfaces ls) (j + k))) →
      Combined.loadAll envs l ⟨s, m⟩ = (true, ⟨s ++ (List.range' j l.length).map (part (interfaces ls)),
        (List.range' j l.length).foldl (fun m k => IMan.registerInterfaceManager (part (interfaces ls) k) m) m⟩) := by
    intro l
    induction l with
    | nil => intro j s m _; simp [Combined.loadAll]
    | cons name l ih =>
      intro j s m h
      obtain ⟨h1, ⟨t, h2, h3⟩, h4⟩ := h 0 name rfl
      rw [Nat.add_zero] at h4
      have := ih (j + 1) (s ++ [part (interfaces ls) j]) (IMan.registerInterfaceManager (part (interfaces ls) j) m)
        fun k name hk => by
          rw [show j + 1 + k = j + (k + 1) by omega]
          exact h (k + 1) name hk
      simp only [Combined.loadAll, Combined.loadRobotHW, h1, h2, h3, h4, Bool.not_true, Bool.false_eq_true, if_false, this,
        List.length_cons, List.range'_succ, List.map_cons, List.foldl_cons, List.append_assoc, List.singleton_append]
  have := key names 0 [] .empty (fun k name hk => by rw [Nat.zero_add]; exact he k name hk)
  simp only [Combined.init, this, List.nil_append, hn, ← List.range_eq_range', combined]

section

variable {T K : Type} [Add T] [Sub T] [Mul T] [Div T] [OfNat T 0] [OfNat T 1] [OfNat T 2] [DecidableEq T] [LinearOrder K]
  {stod : String → Option T} {S : Setting T K} {rs : List (Robot T K)} {m : Mem T} {ops : List (Whole.Op T)}

variable (hS : Lawful S) (nd : Bool) (hops : Proper stod S rs m ops)

include hops in
theorem fit : ∀ r ∈ rs, Fit stod r := by
  intro r hr
  obtain ⟨L0, d, infos, joints, ha⟩ := hops.assembled r hr
  exact ⟨⟨L0, d, infos, ha.toBase⟩, ha.handles.1⟩

include hS hops

theorem refines :
    ((Crew.start rs m).run S nd ops).2 = none ∧ ((Crew.start rs m).run S nd ops).1.map (·.input) = cycles ops ∧
    (∀ (k : Nat) r, rs[k]? = some r →
      r.run S nd (((Crew.start rs m).run S nd ops).1.map (ownInput rs.length k)) (own rs.length k m) =
        (((Crew.start rs m).run S nd ops).1.map fun x => ownRecord rs.length k x.record, none)) ∧
    (∀ x ∈ ((Crew.start rs m).run S nd ops).1, Facts (rs.map (·.loader)) x) ∧
    (∀ x, ((Crew.start rs m).run S nd ops).1[0]? = some x → x.start = m) ∧
    (∀ k x y, ((Crew.start rs m).run S nd ops).1[k]? = some x → ((Crew.start rs m).run S nd ops).1[k + 1]? = some y →
      y.start = x.record.sent) ∧
    ∀ (k : Nat) x, ((Crew.start rs m).run S nd ops).1[k]? = some x → ∃ pre post, ops = pre ++ .cycle x.input :: post ∧
      (cycles pre).length = k ∧ x.before = (Crew.start rs m).sys.run stdEnv checkForConflict (pre.map Whole.Op.sys) := by
  have := run_refines (nd := nd) hS ops (Crew.start rs m) (rs.map (·.loader)) rfl (fit hops) ⟨[], by simp, rfl⟩ hops.good
    hops.honest fun i hi r _ => Or.inl (hops.positive i hi)
  rw [List.length_map] at this
  exact this

/-- **C116, no cycle is lost.** Whatever services are called and whatever the controllers do, every cycle is completed,
in order, and the manager acts in it as it would without the hardware. -/
theorem c116_completes :
    let out := (Crew.start rs m).run S nd ops
    out.2 = none ∧ out.1.map (·.input) = cycles ops ∧ ∀ (k : Nat) x, out.1[k]? = some x →
      ∃ pre post, ops = pre ++ .cycle x.input :: post ∧ (cycles pre).length = k ∧
        x.before = (Sys.start (combined (rs.map (·.loader))) (interfaces (rs.map (·.loader)))).run stdEnv checkForConflict
          (pre.map Whole.Op.manager) ∧
        x.after = x.before.step stdEnv checkForConflict (.update x.input.time x.input.restart x.input.hw) := by
  obtain ⟨h1, h2, -, h4, -, -, h7⟩ := refines hS nd hops
  refine ⟨h1, h2, fun k x hx => ?_⟩
  obtain ⟨pre, post, e1, e2, e3⟩ := h7 k x hx
  rw [Whole.manager_eq]
  exact ⟨pre, post, e1, e2, e3, (h4 x (List.mem_of_getElem? hx)).after⟩

/-- **C116, periods that are not positive.** If a joint of some part is listed for soft position limits, the first cycle with a
period that is not positive ends the run, and what was before is as if it had been all. If no joint of any part is, every cycle is
completed whatever the periods are. -/
theorem c116_periods (rest : List (Whole.Op T)) (hg : ∀ op ∈ rest, op.Good)
    (hh : Whole.Honest (Crew.start rs m).sys (ops ++ rest)) :
    (∀ (L0 : Loader T) d infos joints r i rest', r ∈ rs → Assembled stod S.toArith L0 d infos joints r →
      (∃ c n u, (c, n, u) ∈ joints ∧ r.kind c = .posSoft) → rest = .cycle i :: rest' →
      Limits.dlt (some S.zero) (S.see i.period) = false →
      (Crew.start rs m).run S nd (ops ++ rest) = (((Crew.start rs m).run S nd ops).1, some .limits)) ∧
    ((∀ r ∈ rs, ∃ (L0 : Loader T) (d : Doc) (infos : List TransInfo) (joints : List (Cmd × String × UrdfJoint (Dbl K))),
      Assembled stod S.toArith L0 d infos joints r ∧ ∀ c n u, (c, n, u) ∈ joints → r.kind c ≠ .posSoft) →
      ((Crew.start rs m).run S nd (ops ++ rest)).2 = none ∧
      ((Crew.start rs m).run S nd (ops ++ rest)).1.map (·.input) = cycles (ops ++ rest)) := by
  constructor
  · rintro L0 d infos joints r i rest' hr ha ⟨c, n, u, hj, hk⟩ rfl hi
    refine run_halts (nd := nd) hS ops (Crew.start rs m) (rs.map (·.loader)) rfl (fit hops) ⟨[], by simp, rfl⟩ hops.good i rest' hh
      (fun i hi r _ => Or.inl (hops.positive i hi)) ⟨r, hr, fun hacc => ?_⟩
    rcases (ha.accepts _).1 hacc with h | h
    · have h : Limits.dlt (some S.zero) (S.see i.period) = true := h
      rw [hi] at h
      cases h
    · exact h c n u hj hk
  · intro hno
    obtain ⟨h1, h2, -⟩ := run_refines (nd := nd) hS (ops ++ rest) (Crew.start rs m) (rs.map (·.loader)) rfl (fit hops)
      ⟨[], by simp, rfl⟩ (fun op hop => by
        rcases List.mem_append.1 hop with h | h
        · exact hops.good op h
        · exact hg op h) hh
      fun i _ r hr => by
        obtain ⟨L0, d, infos, joints, ha, h⟩ := hno r hr
        exact (ha.accepts _).2 (Or.inr h)
    exact ⟨h1, h2⟩

/-- **C116, the parts are on their own.** Whatever happens to the other parts, each part does in every cycle exactly what it
would do as the only hardware, with what its own sensors report and what the controllers have left as the commands of its
joints. -/
theorem c116_alone (k : Nat) (r : Robot T K) (hr : rs[k]? = some r) :
    let out := ((Crew.start rs m).run S nd ops).1
    r.run S nd (out.map (ownInput rs.length k)) (own rs.length k m) = (out.map fun x => ownRecord rs.length k x.record, none) :=
  (refines hS nd hops).2.2.1 k r hr

/-- **C116, one commander.** Before and after every cycle, no two running controllers hold handles for commands of the
same joint of the same part, whatever the kinds of the commands; not even of joints of the same name of two parts. -/
theorem c116_one_commander (x : Seen T) (hx : x ∈ ((Crew.start rs m).run S nd ops).1) (s : Sys)
    (hs : s = x.before ∨ s = x.after) (n : String) (k k' : Nat) (q q' : Cmd) (c c' : CId) (h : Holds rs s c k q n)
    (h' : Holds rs s c' k' q' n) (hc : s.mgr.state c = .running) (hc' : s.mgr.state c' = .running) : c = c' := by
  obtain ⟨-, -, -, h4, -⟩ := refines hS nd hops
  have hf := h4 x hx
  have hr : Sys.Reached stdEnv (combined (rs.map (·.loader))) (interfaces (rs.map (·.loader))) s := by
    rcases hs with rfl | rfl
    · exact hf.reached
    · rw [hf.after]
      exact reached_step hf.reached trivial
  have hb : ∀ L ∈ rs.map (·.loader), Based stod L := by
    intro L hL
    obtain ⟨r, hr, rfl⟩ := List.mem_map.1 hL
    exact (fit hops r hr).1
  obtain ⟨f, hf⟩ := numbered
  by_contra hne
  exact c82_single_writer_partial (combined_typed _) (interfaces_named _) (interfaces_apart hb hf) hr c c' hc hc' hne (f n)
    ⟨h.canWrite hb f, h'.canWrite hb f⟩

/-- **C116, who changes a command.** What the controllers leave behind in a cycle is what their calls make of the
measured values one after the other. A call changes a command of a joint of a part only if it is one of a controller that holds
a handle for it, and at that moment no other controller with a handle for a command of a joint of that name is running. -/
theorem c116_commands (x : Seen T) (hx : x ∈ ((Crew.start rs m).run S nd ops).1) :
    x.record.wished = replay x.input.act x.events x.record.measured ∧
    ∀ pre e post, x.events = pre ++ e :: post → ∀ (k : Nat) r q n, rs[k]? = some r →
      r.jointCommand q n (own rs.length k (replay x.input.act (pre ++ [e]) x.record.measured)) ≠
        r.jointCommand q n (own rs.length k (replay x.input.act pre x.record.measured)) →
      ∃ c cb, e = .cb c cb ∧ Holds rs x.before c k q n ∧ ∀ c' k' q', c' ≠ c → Holds rs x.before c' k' q' n →
        observed c' (x.before.mgr.trace ++ pre) ≠ .running := by
  obtain ⟨-, -, -, h4, -⟩ := refines hS nd hops
  have hf := h4 x hx
  refine ⟨hf.wished, fun pre e post he k r q n hr hch => ?_⟩
  have hk := (List.getElem?_eq_some_iff.1 hr).1
  have hrep : replay x.input.act (pre ++ [e]) x.record.measured =
      replay x.input.act [e] (replay x.input.act pre x.record.measured) := by
    simp [replay, List.foldl_append]
  rw [hrep] at hch
  have hb : ∀ L ∈ rs.map (·.loader), Based stod L := by
    intro L hL
    obtain ⟨r, hr, rfl⟩ := List.mem_map.1 hL
    exact (fit hops r hr).1
  cases e with
  | cb c cb =>
    have hv := sysInv_reached (combined_typed _) (interfaces_named _) hf.reached
    obtain ⟨a, hcell⟩ : ∃ a, r.loader.commandCell q n = some a := by
      cases h : r.loader.commandCell q n with
      | none => exact absurd (by simp [Robot.jointCommand, h]) hch
      | some a => exact ⟨a, rfl⟩
    have hw : x.before.CanWrite (fun d => [d]) c (place rs.length k a) := by
      by_contra hn
      refine hch ?_
      unfold Robot.jointCommand
      rw [hcell]
      exact congrArg some (hf.honest c cb _ _ hn)
    have hold : Holds rs x.before c k q n := by
      obtain ⟨k', r', q', n', a', hr', hcell', ea, hold⟩ := canWrite_holds hv hw
      have hk' := (List.getElem?_eq_some_iff.1 hr').1
      have h1 : k = k' := by rw [← place_mod hk a, ea, place_mod hk']
      subst h1
      have h2 : a = a' := by rw [← place_div hk a, ea, place_div hk]
      subst h2
      rw [hr] at hr'
      cases hr'
      obtain ⟨rfl, rfl⟩ := (fit hops r (List.mem_of_getElem? hr)).1.unique hcell hcell'
      exact hold
    refine ⟨c, cb, rfl, hold, fun c' k' q' hne hold' => ?_⟩
    obtain ⟨f, hinj⟩ := numbered
    have hheld : x.after.held = x.before.held := by rw [hf.after]; rfl
    have up : ∀ c b, x.before.CanWrite (fun d => (names (rs.map (·.loader)) d).map f) c b →
        x.after.CanWrite (fun d => (names (rs.map (·.loader)) d).map f) c b := by
      rintro c b ⟨g, hg, h⟩
      exact ⟨g, by rw [hheld]; exact hg, h⟩
    have hra : Sys.Reached stdEnv (combined (rs.map (·.loader))) (interfaces (rs.map (·.loader))) x.after := by
      rw [hf.after]
      exact reached_step hf.reached trivial
    refine c82_handover (pre := x.before.mgr.trace ++ pre) (post := post) (k := cb) (combined_typed _) (interfaces_named _)
      (interfaces_apart hb hinj) hra ?_ hne (up c (f n) (hold.canWrite hb f)) (up c' (f n) (hold'.canWrite hb f))
    rw [hf.trace, he, List.append_assoc]
  | _ => exact absurd rfl hch

/-- **C116, commands that are not changed.** A joint of a part keeps its command unless a controller that holds it is called:
reading the sensors changes no command, a cycle begins with the commands the cycle before left after enforcing the limits,
and a command of which no called controller holds a handle is still there when the limits are enforced. -/
theorem c116_kept (k : Nat) (r : Robot T K) (hr : rs[k]? = some r) (q : Cmd) (n : String) :
    let out := ((Crew.start rs m).run S nd ops).1
    (∀ x ∈ out, (∀ c cb, .cb c cb ∈ x.events → ¬Holds rs x.before c k q n) →
      r.jointCommand q n (own rs.length k x.record.wished) = r.jointCommand q n (own rs.length k x.start)) ∧
    (∀ x, out[0]? = some x → x.start = m) ∧
    ∀ j x y, out[j]? = some x → out[j + 1]? = some y →
      r.jointCommand q n (own rs.length k y.start) = r.jointCommand q n (own rs.length k x.record.limited) := by
  obtain ⟨-, -, -, h4, h5, h6, -⟩ := refines hS nd hops
  have hL : (rs.map (·.loader))[k]? = some r.loader := by rw [List.getElem?_map, hr]; rfl
  refine ⟨fun x hx hno => ?_, h5, fun j x y hx hy => ?_⟩
  · have hf := h4 x hx
    obtain ⟨hw, hch⟩ := c116_commands hS nd hops x hx
    have key : ∀ pre post, x.events = pre ++ post →
        r.jointCommand q n (own rs.length k (replay x.input.act pre x.record.measured)) =
          r.jointCommand q n (own rs.length k x.record.measured) := by
      intro pre
      induction pre using List.reverseRecOn with
      | nil => exact fun _ _ => rfl
      | append_singleton pre e ih =>
        intro post he
        rw [List.append_assoc] at he
        rw [← ih _ he]
        by_contra hne
        obtain ⟨c, cb, rfl, hold, -⟩ := hch pre e post he k r q n hr hne
        exact hno c cb (by rw [he]; simp) hold
    rw [hw, key x.events [] (List.append_nil _).symm]
    unfold Robot.jointCommand
    cases hcell : r.loader.commandCell q n with
    | none => rfl
    | some a =>
      have := (hf.commands k r.loader q n a hL hcell).1
      rw [List.length_map] at this
      exact congrArg some this
  · rw [h6 j x y hx hy]
    unfold Robot.jointCommand
    cases hcell : r.loader.commandCell q n with
    | none => rfl
    | some a =>
      have := ((h4 x (List.mem_of_getElem? hx)).commands k r.loader q n a hL hcell).2
      rw [List.length_map] at this
      exact congrArg some this

/-- The run as one of a part. -/
theorem part_run (k : Nat) (r : Robot T K) (hr : rs[k]? = some r) :
    let out := ((Crew.start rs m).run S nd ops).1
    (∀ i ∈ out.map (ownInput rs.length k), ∃ j, .cycle j ∈ ops ∧ i.period = j.period) ∧
    (∀ (j : Nat) x, out[j]? = some x → (out.map (ownInput rs.length k))[j]? = some (ownInput rs.length k x) ∧
      (r.run S nd (out.map (ownInput rs.length k)) (own rs.length k m)).1[j]? = some (ownRecord rs.length k x.record)) ∧
    ∀ (j : Nat) rec, (r.run S nd (out.map (ownInput rs.length k)) (own rs.length k m)).1[j]? = some rec →
      ∃ x, out[j]? = some x ∧ rec = ownRecord rs.length k x.record := by
  obtain ⟨-, h2, h3, -⟩ := refines hS nd hops
  refine ⟨fun i hi => ?_, fun j x hx => ⟨?_, ?_⟩, fun j rec hrec => ?_⟩
  · obtain ⟨x, hx, rfl⟩ := List.mem_map.1 hi
    refine ⟨x.input, ?_, rfl⟩
    have : x.input ∈ cycles ops := by rw [← h2]; exact List.mem_map.2 ⟨x, hx, rfl⟩
    obtain ⟨op, hop, e⟩ := List.mem_filterMap.1 this
    cases op with
    | service o => cases e
    | cycle j => cases e; exact hop
  · rw [List.getElem?_map, hx]; rfl
  · rw [h3 k r hr, List.getElem?_map, hx]; rfl
  · rw [h3 k r hr, List.getElem?_map] at hrec
    obtain ⟨x, hx, rfl⟩ := Option.map_eq_some_iff.1 hrec
    exact ⟨x, hx, rfl⟩

end

section

variable {K : Type} [Field K] [LinearOrder K] [IsStrictOrderedRing K] {stod : String → Option K} {L0 : Loader K} {d : Doc}
  {infos : List TransInfo} {joints : List (Cmd × String × UrdfJoint (Dbl K))} {r : Robot K K} {huge : K} {rs : List (Robot K K)}
  {m : Mem K} {ops : List (Whole.Op K)}

variable (nd : Bool) (hops : Proper stod (.exact huge) rs m ops) (k : Nat) (hr : rs[k]? = some r)
  (ha : Assembled stod (.exact huge) L0 d infos joints r)

include hops hr

theorem part_positive : ∀ i ∈ ((Crew.start rs m).run (.exact huge) nd ops).1.map (ownInput rs.length k), 0 < i.period := by
  intro i hi
  obtain ⟨j, hj, e⟩ := (part_run (exact_lawful huge) nd hops k r hr).1 i hi
  rw [e]
  exact of_decide_eq_true (hops.positive j hj)

include ha

/-- **C116, what is measured.** In every cycle the values of a joint of a part are those its transmission computes from what
the part reports for its actuators. -/
theorem c116_measured (x : Seen K) (hx : x ∈ ((Crew.start rs m).run (.exact huge) nd ops).1) (j : TransInfo) (hj : j ∈ infos) :
    ∃ t, loadTransmission stod j = .ok (some t) ∧
      ∀ q, ∃ v, L0.actuatorValues q j.actuatorNames (own rs.length k x.input.sense) = some v ∧
      ∀ (z : Nat) n, j.jointNames[z]? = some n → r.jointValue q n (own rs.length k x.record.measured) = (t.jointsFrom q v)[z]? := by
  obtain ⟨i, hi⟩ := List.getElem?_of_mem hx
  obtain ⟨h1, h2⟩ := (part_run (exact_lawful huge) nd hops k r hr).2.1 i x hi
  exact Described.c111_measured nd huge ha _ (part_positive nd hops k hr) _ i _ _ h1 h2 j hj

/-- **C116, joints without limits.** The actuator commands of a part amount to exactly one value for each of its joints
that is moved with commands of the kind. If the joint is not listed for the kind, this is what the calls of the controllers
left as its command. -/
theorem c116_free (x : Seen K) (hx : x ∈ ((Crew.start rs m).run (.exact huge) nd ops).1) (q : Cmd) (n : String)
    (hd : Driven L0 infos q n) :
    (∃! v, Sends stod L0 infos q (ownRecord rs.length k x.record) n v) ∧
    ((∀ u, (q, n, u) ∉ joints) → ∃ v, r.jointCommand q n (own rs.length k x.record.wished) = some v ∧
      Sends stod L0 infos q (ownRecord rs.length k x.record) n v) := by
  obtain ⟨i, hi⟩ := List.getElem?_of_mem hx
  obtain ⟨h1, h2⟩ := (part_run (exact_lawful huge) nd hops k r hr).2.1 i x hi
  exact Described.c111_free nd huge ha _ (part_positive nd hops k hr) _ i _ _ h1 h2 q n hd

/-- **C116, position limits.** As C111, for every part: whatever the controllers do, the actuator commands of every cycle amount
to a position of a limited joint that is within the range of the URDF of its part, at most `velocity * period` away from
what was sent in the cycle before (in the first cycle and after a reset: from the measured position); and position
saturation passes on what the controllers command if it satisfies both. -/
theorem c116_position (n : String) (u : UrdfJoint (Dbl K)) (l : UrdfLimits K) (hd : Driven L0 infos .position n)
    (hj : (.position, n, u) ∈ joints) (hl : HasLimits u l) (hs : ∀ i, .cycle i ∈ ops → Sane (r.kind .position) u l i.period)
    (hstart : ∀ i x y, ((Crew.start rs m).run (.exact huge) nd ops).1[i]? = some x → i = 0 ∨ x.input.reset = true →
      r.jointValue .position n (own rs.length k x.record.measured) = some y → Allowed huge u l y) :
    ∀ (i : Nat) x, ((Crew.start rs m).run (.exact huge) nd ops).1[i]? = some x →
      ∃ v p, Sends stod L0 infos .position (ownRecord rs.length k x.record) n v ∧ Allowed huge u l v ∧
        |v - p| ≤ l.velocity * x.input.period ∧
        (i = 0 ∨ x.input.reset = true → r.jointValue .position n (own rs.length k x.record.measured) = some p) ∧
        (x.input.reset = false → ∀ i' x', i = i' + 1 → ((Crew.start rs m).run (.exact huge) nd ops).1[i']? = some x' →
          Sends stod L0 infos .position (ownRecord rs.length k x'.record) n p) ∧
        (r.kind .position = .posSat → ∀ c, r.jointCommand .position n (own rs.length k x.record.wished) = some c →
          Allowed huge u l c → |c - p| ≤ l.velocity * x.input.period → v = c) := by
  obtain ⟨hin, hto, hof⟩ := part_run (exact_lawful huge) nd hops k r hr
  intro i x hx
  obtain ⟨h1, h2⟩ := hto i x hx
  obtain ⟨v, p, g1, g2, g3, g4, g5, g6⟩ := Described.c111_position nd huge ha _ (part_positive nd hops k hr) _ n u l hd hj hl
    (fun i hi => by obtain ⟨j, hj, e⟩ := hin i hi; rw [e]; exact hs j hj)
    (fun i j rec y hj hrec hk hy => by
      obtain ⟨x, hx, rfl⟩ := hof i rec hrec
      rw [(hto i x hx).1] at hj
      cases hj
      exact hstart i x y hx hk hy) i _ _ h1 h2
  exact ⟨v, p, g1, g2, g3, g4, fun hr i' x' e hx' => g5 hr i' _ e (hto i' x' hx').2, g6⟩

/-- **C116, velocity limits.** As C111, for every part. -/
theorem c116_velocity (n : String) (u : UrdfJoint (Dbl K)) (l : UrdfLimits K) (s : UrdfSafety K)
    (hd : Driven L0 infos .velocity n) (hj : (.velocity, n, u) ∈ joints) (hl : HasLimits u l) (hV : 0 ≤ l.velocity)
    (hk : r.kind .velocity = .velSat ∨ (r.kind .velocity = .velSoft ∧ HasSoftLimits u s)) :
    ∀ x ∈ ((Crew.start rs m).run (.exact huge) nd ops).1,
      ∃ v p c, Sends stod L0 infos .velocity (ownRecord rs.length k x.record) n v ∧
        r.jointValue .position n (own rs.length k x.record.measured) = some p ∧
        r.jointCommand .velocity n (own rs.length k x.record.wished) = some c ∧ |v| ≤ l.velocity ∧
        (r.kind .velocity = .velSat → |c| ≤ l.velocity → v = c) ∧
        (r.kind .velocity = .velSoft → Ranged u → 0 ≤ s.kPosition → s.softLower ≤ s.softUpper →
          (s.softUpper ≤ p → v ≤ 0) ∧ (p ≤ s.softLower → 0 ≤ v)) := by
  intro x hx
  obtain ⟨i, hi⟩ := List.getElem?_of_mem hx
  obtain ⟨h1, h2⟩ := (part_run (exact_lawful huge) nd hops k r hr).2.1 i x hi
  exact Described.c111_velocity nd huge ha _ (part_positive nd hops k hr) _ n u l s hd hj hl hV hk i _ _ h1 h2

/-- **C116, effort limits.** As C111, for every part. -/
theorem c116_effort (n : String) (u : UrdfJoint (Dbl K)) (l : UrdfLimits K) (s : UrdfSafety K)
    (hd : Driven L0 infos .effort n) (hj : (.effort, n, u) ∈ joints)
    (hl : HasLimits u l) (hE : 0 ≤ l.effort) (hV : 0 ≤ l.velocity) (hP : Ranged u → l.lower ≤ l.upper)
    (hk : r.kind .effort = .effSat ∨ (r.kind .effort = .effSoft ∧ HasSoftLimits u s)) :
    ∀ x ∈ ((Crew.start rs m).run (.exact huge) nd ops).1,
      ∃ e p v c, Sends stod L0 infos .effort (ownRecord rs.length k x.record) n e ∧
        r.jointValue .position n (own rs.length k x.record.measured) = some p ∧
        r.jointValue .velocity n (own rs.length k x.record.measured) = some v ∧
        r.jointCommand .effort n (own rs.length k x.record.wished) = some c ∧
        |e| ≤ l.effort ∧
        (r.kind .effort = .effSat →
          (Ranged u → (p < l.lower → 0 ≤ e) ∧ (l.upper < p → e ≤ 0)) ∧
          (v < -l.velocity → 0 ≤ e) ∧ (l.velocity < v → e ≤ 0) ∧
          (|c| ≤ l.effort → (Ranged u → l.lower ≤ p ∧ p ≤ l.upper) → |v| ≤ l.velocity → e = c)) ∧
        (r.kind .effort = .effSoft → 0 ≤ s.kVelocity →
          (l.velocity ≤ v → e ≤ 0) ∧ (v ≤ -l.velocity → 0 ≤ e) ∧
          (0 ≤ s.kPosition → s.softLower ≤ s.softUpper → Ranged u →
            (s.softUpper ≤ p → 0 ≤ v → e ≤ 0) ∧ (p ≤ s.softLower → v ≤ 0 → 0 ≤ e))) := by
  intro x hx
  obtain ⟨i, hi⟩ := List.getElem?_of_mem hx
  obtain ⟨h1, h2⟩ := (part_run (exact_lawful huge) nd hops k r hr).2.1 i x hi
  exact Described.c111_effort nd huge ha _ (part_positive nd hops k hr) _ n u l s hd hj hl hE hV hP hk i _ _ h1 h2

end

section

variable {A : Machine binary64} {stod : String → Option (Flt A)} {L0 : Loader (Flt A)} {d : Doc} {infos : List TransInfo}
  {joints : List (Cmd × String × UrdfJoint (Dbl (Fl binary64)))} {r : Robot (Flt A) (Fl binary64)}
  {rs : List (Robot (Flt A) (Fl binary64))} {m : Mem (Flt A)} {ops : List (Whole.Op (Flt A))}

variable (nd : Bool) (hops : Proper stod (.double A) rs m ops) (ht : ∀ i, .cycle i ∈ ops → GoodPeriod i.period) (k : Nat)
  (hr : rs[k]? = some r) (ha : Assembled stod (limitsArith A) L0 d infos joints r)

include hops ht hr

theorem part_good : ∀ i ∈ ((Crew.start rs m).run (.double A) nd ops).1.map (ownInput rs.length k), GoodPeriod i.period := by
  intro i hi
  obtain ⟨j, hj, e⟩ := (part_run (double_lawful A) nd hops k r hr).1 i hi
  rw [e]
  exact ht j hj

include ha

/-- **C116, NaN and doubles.** Whatever the limits of a part are and its sensors report, in every cycle the command of a joint
after the limits is NaN exactly if the controllers have left NaN. -/
theorem c116_nan_iff (x : Seen (Flt A)) (hx : x ∈ ((Crew.start rs m).run (.double A) nd ops).1) (q : Cmd) (n : String) :
    (∃ v, r.jointCommand q n (own rs.length k x.record.limited) = some v ∧ IsNaN v) ↔
      ∃ v, r.jointCommand q n (own rs.length k x.record.wished) = some v ∧ IsNaN v := by
  obtain ⟨i, hi⟩ := List.getElem?_of_mem hx
  obtain ⟨h1, h2⟩ := (part_run (double_lawful A) nd hops k r hr).2.1 i x hi
  exact Described.c113_nan_iff nd ha _ (part_good nd hops ht k hr) _ i _ _ h1 h2 q n

/-- **C116, velocity saturation with doubles.** As C113, for every part. -/
theorem c116_velocity_double (n : String) (u : UrdfJoint (Dbl (Fl binary64))) (l : UrdfLimits (Fl binary64))
    (hd : Driven L0 infos .velocity n) (hj : (.velocity, n, u) ∈ joints) (hl : HasLimits u l) (hk : r.kind .velocity = .velSat)
    (hV : 0 ≤ l.velocity.1) (x : Seen (Flt A)) (hx : x ∈ ((Crew.start rs m).run (.double A) nd ops).1) (c : Fl binary64)
    (hc : r.jointCommand .velocity n (own rs.length k x.record.wished) = some (Flt.fl c)) :
    ∃ o : Fl binary64, r.jointCommand .velocity n (own rs.length k x.record.limited) = some (Flt.fl o) ∧ |o.1| ≤ l.velocity.1 ∧
      SendsWithin64 stod L0 infos r .velocity (ownRecord rs.length k x.record) n (-l.velocity.1) l.velocity.1 ∧
      (|c.1| ≤ l.velocity.1 → o = c) := by
  obtain ⟨i, hi⟩ := List.getElem?_of_mem hx
  obtain ⟨h1, h2⟩ := (part_run (double_lawful A) nd hops k r hr).2.1 i x hi
  exact Described.c113_velocity nd ha _ (part_good nd hops ht k hr) _ n u l hd hj hl hk hV i _ _ h1 h2 c hc

/-- **C116, position saturation with doubles.** As C113, for every part: if a joint is measured at a number within the range of
the URDF whenever its limits start over (in the first cycle, when they are reset, and after a command that was NaN), then
whatever numbers the controllers command, the position the limits leave in every cycle is a finite number within that range,
and so is what the actuator commands amount to, up to rounding in the transmission. -/
theorem c116_position_double (n : String) (u : UrdfJoint (Dbl (Fl binary64)))
    (l : UrdfLimits (Fl binary64)) (hd : Driven L0 infos .position n) (hj : (.position, n, u) ∈ joints) (hl : HasLimits u l)
    (hk : r.kind .position = .posSat) (hfin : Ranged u → l.lower.Fin ∧ l.upper.Fin ∧ l.lower.1 ≤ l.upper.1)
    (hv : l.velocity.Fin ∧ 0 ≤ l.velocity.1)
    (hstart : ∀ i x, ((Crew.start rs m).run (.double A) nd ops).1[i]? = some x →
      (i = 0 ∨ x.input.reset = true ∨ ∃ i' x' v, i = i' + 1 ∧ ((Crew.start rs m).run (.double A) nd ops).1[i']? = some x' ∧
        r.jointCommand .position n (own rs.length k x'.record.wished) = some v ∧ IsNaN v) →
      ∃ y : Fl binary64, r.jointValue .position n (own rs.length k x.record.measured) = some (Flt.fl y) ∧ y.Fin ∧
        InUrdfRange u l y)
    (x : Seen (Flt A)) (hx : x ∈ ((Crew.start rs m).run (.double A) nd ops).1) (c : Fl binary64)
    (hc : r.jointCommand .position n (own rs.length k x.record.wished) = some (Flt.fl c)) :
    ∃ o : Fl binary64, r.jointCommand .position n (own rs.length k x.record.limited) = some (Flt.fl o) ∧ o.Fin ∧
      InUrdfRange u l o ∧
      (Ranged u → SendsWithin64 stod L0 infos r .position (ownRecord rs.length k x.record) n l.lower.1 l.upper.1) := by
  obtain ⟨hin, hto, hof⟩ := part_run (double_lawful A) nd hops k r hr
  obtain ⟨i, hi⟩ := List.getElem?_of_mem hx
  obtain ⟨h1, h2⟩ := hto i x hi
  obtain ⟨o, p, t, b, g1, g2, g3, g4, -⟩ := Described.c113_position nd ha _ (part_good nd hops ht k hr) (own rs.length k m) n u l
    hd hj hl hk hfin hv (fun i rec hrec hso => by
      obtain ⟨x, hx, rfl⟩ := hof i rec hrec
      refine hstart i x hx ?_
      rcases hso with h | ⟨j, hj, h⟩ | ⟨i', j, v, e, hj, h3, h4⟩
      · exact Or.inl h
      · rw [(hto i x hx).1] at hj
        cases hj
        exact Or.inr (Or.inl h)
      · rw [List.getElem?_map] at hj
        obtain ⟨x', hx', rfl⟩ := Option.map_eq_some_iff.1 hj
        exact Or.inr (Or.inr ⟨i', x', v, e, hx', h3, h4⟩)) i _ _ h1 h2 c hc
  exact ⟨o, g1, g2, g3, g4⟩

end

section

variable {T K : Type} {rs : List (Robot T K)}

/-- **C116, what controllers find.** At any time, whatever controllers have been loaded and whatever they have done, the
interface of the combined hardware for a kind of commands has, under the name of each joint that takes such commands in some part,
a handle to the command of that joint in the last of these parts, and no others; it claims what is taken from it. The interface
for the states has a handle for every joint of a part, and claims nothing. -/
theorem c116_handles (hne : rs ≠ []) {s : Sys}
    (hs : Sys.Reached stdEnv (combined (rs.map (·.loader))) (interfaces (rs.map (·.loader))) s) :
    (∀ q, ∃ o robot h, s.robot.get stdEnv (Whole.interfaceName q) s.heap = (some o, robot, h) ∧ (h.objs o).claiming = true ∧ ∀ n,
      (∀ (k : Nat) r a, rs[k]? = some r → r.loader.commandCell q n = some a →
        (∀ (k' : Nat) r', k < k' → rs[k']? = some r' → r'.loader.commandCell q n = none) →
        (h.objs o).rmGetHandle n = some ⟨n, a * rs.length + k⟩) ∧
      ((∀ r ∈ rs, r.loader.commandCell q n = none) → (h.objs o).rmGetHandle n = none)) ∧
    ∃ o robot h, s.robot.get stdEnv "hardware_interface::JointStateInterface" s.heap = (some o, robot, h) ∧
      (h.objs o).claiming = false ∧ ∀ n,
      (∀ (k : Nat) r st, rs[k]? = some r → smapFind n r.loader.jointState = some st →
        (∀ (k' : Nat) r', k < k' → rs[k']? = some r' → smapFind n r'.loader.jointState = none) →
        (h.objs o).rmGetHandle n = some ⟨n, st.position * rs.length + k⟩) ∧
      ((∀ r ∈ rs, smapFind n r.loader.jointState = none) → (h.objs o).rmGetHandle n = none) := by
  have ho := offers_reached hs
  have hne' : rs.map (·.loader) ≠ [] := by simpa using hne
  have tr : ∀ {k : Nat} {r : Robot T K}, rs[k]? = some r → (rs.map (·.loader))[k]? = some r.loader := fun h => by
    rw [List.getElem?_map, h]; rfl
  have tr' : ∀ {k : Nat} {L : Loader T}, (rs.map (·.loader))[k]? = some L → ∃ r, rs[k]? = some r ∧ r.loader = L := fun h => by
    rw [List.getElem?_map] at h; exact Option.map_eq_some_iff.1 h
  constructor
  · intro q
    obtain ⟨o, h1, h2, h3⟩ := (ho.get (Whole.interfaceName q)).2.2 (places_command hne' q)
    refine ⟨o, _, _, Prod.ext h1 rfl, h2.trans (by cases q <;> decide), fun n => ?_⟩
    obtain ⟨j1, j2⟩ := joined_command (rs.map (·.loader)) q n
    refine ⟨fun k r a hr ha hl => ?_, fun h => (h3 n).trans (j2 fun L hL => ?_)⟩
    · have := j1 k r.loader a (tr hr) ha fun k' L' hk hL' => by
        obtain ⟨r', hr', rfl⟩ := tr' hL'
        exact hl k' r' hk hr'
      rw [List.length_map] at this
      exact (h3 n).trans this
    · obtain ⟨r, hr, rfl⟩ := List.mem_map.1 hL
      exact h r hr
  · obtain ⟨o, h1, h2, h3⟩ := (ho.get "hardware_interface::JointStateInterface").2.2 (places_state hne')
    refine ⟨o, _, _, Prod.ext h1 rfl, h2.trans (by decide), fun n => ?_⟩
    obtain ⟨j1, j2⟩ := joined_state (rs.map (·.loader)) n
    refine ⟨fun k r a hr ha hl => ?_, fun h => (h3 n).trans (j2 fun L hL => ?_)⟩
    · have := j1 k r.loader a (tr hr) ha fun k' L' hk hL' => by
        obtain ⟨r', hr', rfl⟩ := tr' hL'
        exact hl k' r' hk hr'
      rw [List.length_map] at this
      exact (h3 n).trans this
    · obtain ⟨r, hr, rfl⟩ := List.mem_map.1 hL
      exact h r hr

/-- **C116, loading.** A controller that asks for the handle of a joint is loaded exactly if some part takes such commands for that
joint; it then holds the command of the joint in the last of these parts, and the manager knows that it claims the joint. -/
theorem c116_load {s : Sys} (hs : Sys.Reached stdEnv (combined (rs.map (·.loader))) (interfaces (rs.map (·.loader))) s) (q : Cmd)
    (n name : String) (req : LoadReq) (hne : rs ≠ []) (hr : s.mgr.reachesInit name req = true)
    (hc : req.cls = .single (Whole.interfaceName q) (fun o => .getHandle o n fun h => .done h.isSome) fun _ => .done true) :
    (∀ (k : Nat) r a, rs[k]? = some r → r.loader.commandCell q n = some a →
      (∀ (k' : Nat) r', k < k' → rs[k']? = some r' → r'.loader.commandCell q n = none) →
      ∃ t, (s.step stdEnv checkForConflict (.load name req)).mgr.cur =
        s.mgr.cur ++ [⟨⟨name, t, [⟨Whole.interfaceName q, [n]⟩]⟩, s.mgr.nextId⟩] ∧
      (s.step stdEnv checkForConflict (.load name req)).held s.mgr.nextId = [⟨true, ⟨n, a * rs.length + k⟩⟩] ∧
      Holds rs (s.step stdEnv checkForConflict (.load name req)) s.mgr.nextId k q n) ∧
    ((∀ r ∈ rs, r.loader.commandCell q n = none) → (s.step stdEnv checkForConflict (.load name req)).mgr.cur = s.mgr.cur) := by
  obtain ⟨o, robot, h, h1, h2, h3⟩ := (c116_handles hne hs).1 q
  obtain ⟨i1, i2⟩ := Whole.load_one hr h1 hc
  rw [h2] at i1
  constructor
  · intro k r a hk ha hl
    obtain ⟨-, t, g1, g2⟩ := i1 _ ((h3 n).1 k r a hk ha hl)
    refine ⟨t, g1, g2, r, a, hk, ha, ⟨true, ⟨n, a * rs.length + k⟩⟩, ?_, rfl, rfl⟩
    rw [g2]
    exact List.mem_singleton.2 rfl
  · intro ha
    exact i2 ((h3 n).2 ha)

end

/-! ### A concrete case -/

open Verif.Described (exActuators exThree exListed exKind exUrdf exMoved)
open Verif.Transmission.Loader (exStod exInfos exDoc)
open Verif.Whole (exCycle exCall exLoad exSwitch exHonest exHonest_sound)

/-- The description of a second part: it also has a joint "j1", which is moved by velocities, and a joint "k1", which is moved by
positions. -/
def exOther : Doc := exDoc [exMoved "u1" "j1" "a1" "hardware_interface/VelocityJointInterface",
  exMoved "u2" "k1" "a2" "hardware_interface/PositionJointInterface"]

/-- Both joints of the second part have limits. -/
def exOtherListed : List (Cmd × String × UrdfJoint (Dbl ℚ)) := [(.velocity, "j1", exUrdf), (.position, "k1", exUrdf)]

/-- The two parts. -/
def exParts : Option (List (Robot ℚ ℚ)) :=
  match exActuators.loadDoc exStod exThree, exActuators.loadDoc exStod exOther with
  | .ok (L, true), .ok (L', true) => do
    let r ← Described.init (.exact 1000) L exKind exListed
    let r' ← Described.init (.exact 1000) L' exKind exOtherListed
    return [r, r']
  | _, _ => none

/-- A controller "p" of the position of "j1", "v" of the velocity of "j1", and "k" of the position of "k1". First "p" and "k" run,
then "v" is to run as well, and then instead of "p". -/
def exOps : List (Whole.Op ℚ × List (CId × Nat × ℚ)) :=
  exLoad "p" .position "j1" ++ exLoad "v" .velocity "j1" ++ exLoad "k" .position "k1" ++ exSwitch ["p", "k"] [] ++
    [exCycle (fun _ => 0) [(0, 206, 7), (2, 223, -7)]] ++ exSwitch ["v"] [] ++ exSwitch ["v"] ["p"] ++
    [exCycle (fun _ => 0) [(1, 209, 9), (2, 223, -7)]]

/-- What is sent to the actuators of "j1" in the first part, and of "j1" and "k1" in the second part, and which controllers are
called. -/
def exSeen : Option (List (List ℚ × List Event)) :=
  exParts.map fun rs => ((Crew.start rs fun _ => 0).run (.exact 1000) false (exOps.map (·.1))).1.map fun x =>
    ([3 * 2, 4 * 2 + 1, 13 * 2 + 1].map x.record.sent, x.events.filter fun e => match e with | .cb _ _ => true | _ => false)

/-- The limits allow half a unit of position per cycle, so one unit at the actuator, and one unit of velocity, so two at the actuator. "v"
cannot be started while "p" runs although they are for joints of different parts, since these have the same name. -/
example : exSeen = some [([0, 0, 0], []), ([0, 0, 0], []), ([0, 0, 0], []), ([0, 0, 0], [.cb 0 .starting, .cb 2 .starting]),
    ([1, 0, -1], [.cb 0 .update, .cb 2 .update]), ([1, 0, -1], [.cb 0 .update, .cb 2 .update]),
    ([1, 0, -1], [.cb 0 .update, .cb 2 .update, .cb 0 .stopping, .cb 1 .starting]),
    ([1, 2, -2], [.cb 1 .update, .cb 2 .update])] := by decide +kernel

theorem exOps_cases : ∀ e ∈ exOps, ((∃ o, e.1 = .service o) ∨ ∃ m, e = exCycle m e.2) ∧ e.1.Good := by
  intro e he
  simp only [exOps, exLoad, exSwitch, exCall, List.mem_append, List.mem_cons, List.not_mem_nil, or_false] at he
  have cyc : ∀ m w, ((∃ o, (exCycle m w).1 = .service o) ∨ ∃ m', exCycle m w = exCycle m' (exCycle m w).2) ∧ (exCycle m w).1.Good :=
    fun m w => ⟨Or.inr ⟨m, rfl⟩, trivial⟩
  have ser : ∀ o : SysOp, o.Good → (∀ t r hw, o ≠ .update t r hw) →
      ((∃ o', ((.service o, []) : Whole.Op ℚ × List (CId × Nat × ℚ)).1 = .service o') ∨
        ∃ m, ((.service o, []) : Whole.Op ℚ × List (CId × Nat × ℚ)) = exCycle m []) ∧
      ((.service o, []) : Whole.Op ℚ × List (CId × Nat × ℚ)).1.Good := fun o h1 h2 => ⟨Or.inl ⟨o, rfl⟩, h1, h2⟩
  have poll : SysOp.Good (.poll {} 0) := ⟨rfl, rfl⟩
  have load : ∀ n q j, SysOp.Good (.load n ⟨true, some "T", [⟨["T"], fun _ => .object⟩], sysClass (Whole.interfaceName q) j⟩) :=
    fun _ q j => sysClass_proper (Whole.interfaceName q) j
  rcases he with ((((((h | h) | h) | h) | h) | h) | h) | h
  all_goals
    first
    | (rcases h with rfl | rfl | rfl)
    | (rcases h with rfl)
  all_goals
    first
    | exact cyc _ _
    | exact ser _ (load _ _ _) (by simp)
    | exact ser _ poll (by simp)
    | exact ser _ trivial (by simp)

/-- Once loaded, the description of the second part is the base of a robot. -/
theorem exOther_base {L : Loader ℚ} (hl : exActuators.loadDoc exStod exOther = .ok (L, true)) :
    Described.Base exStod exActuators exOther (exInfos exOther) L := by
  obtain ⟨r, ha, -⟩ := Described.exThree_case
  exact ⟨ha.fresh, ha.noOwn, ha.below, ha.commandsApart, ha.kindsApart, hl, rfl, ⟨by decide, by decide⟩, by decide⟩

/-- The case of C116: the hypotheses hold. -/
theorem exOps_case : ∃ r r', exParts = some [r, r'] ∧
    Assembled exStod (.exact 1000) exActuators exThree (exInfos exThree) exListed r ∧
    Assembled exStod (.exact 1000) exActuators exOther (exInfos exOther) exOtherListed r' ∧
    Proper exStod (.exact 1000) [r, r'] (fun _ => 0) (exOps.map (·.1)) ∧
    Driven (exActuators (T := ℚ)) (exInfos exThree) .position "j1" ∧
    Driven (exActuators (T := ℚ)) (exInfos exOther) .velocity "j1" ∧
    Driven (exActuators (T := ℚ)) (exInfos exOther) .position "k1" ∧
    ∀ i, .cycle i ∈ exOps.map (·.1) → Sane (r'.kind .position) exUrdf ⟨-1, 2, 4, 1⟩ i.period := by
  have hhon : (exParts.map fun rs => exHonest (Crew.start rs fun _ => 0).sys exOps) = some true := by decide +kernel
  obtain ⟨rs, hrs, hhon⟩ := Option.map_eq_some_iff.1 hhon
  have hrs' := hrs
  unfold exParts at hrs'
  split at hrs'
  · rename_i L L' hl hl'
    simp only [bind, Option.bind_eq_some_iff, pure, Option.some.injEq] at hrs'
    obtain ⟨r, hr, r', hr', rfl⟩ := hrs'
    have e : r.loader = L ∧ r.kind = exKind := by
      obtain ⟨s, -, rfl⟩ := Option.map_eq_some_iff.1 hr
      exact ⟨rfl, rfl⟩
    have e' : r'.loader = L' ∧ r'.kind = exKind := by
      obtain ⟨s, -, rfl⟩ := Option.map_eq_some_iff.1 hr'
      exact ⟨rfl, rfl⟩
    have ha : Assembled exStod (.exact 1000) exActuators exThree (exInfos exThree) exListed r :=
      ⟨by rw [e.1]; exact Described.exThree_base hl, by rw [e.1, e.2]; exact hr, by decide⟩
    have ha' : Assembled exStod (.exact 1000) exActuators exOther (exInfos exOther) exOtherListed r' :=
      ⟨by rw [e'.1]; exact exOther_base hl', by rw [e'.1, e'.2]; exact hr', by decide⟩
    have per : ∀ i, .cycle i ∈ exOps.map (·.1) → i.period = 1 / 2 := by
      intro i hi
      obtain ⟨e, he, hei⟩ := List.mem_map.1 hi
      rcases (exOps_cases e he).1 with ⟨o, ho⟩ | ⟨m, hm⟩
      · rw [ho] at hei; cases hei
      · rw [hm] at hei; cases hei; rfl
    refine ⟨r, r', hrs, ha, ha', ⟨fun x hx => ?_, fun op hop => ?_, exHonest_sound _ (fun e he => (exOps_cases e he).1) _ hhon,
      fun i hi => ?_⟩, Described.exThree_driven.1, ?_, ?_, fun i hi => ?_⟩
    · simp only [List.mem_cons, List.not_mem_nil, or_false] at hx
      rcases hx with rfl | rfl
      · exact ⟨_, _, _, _, ha⟩
      · exact ⟨_, _, _, _, ha'⟩
    · obtain ⟨e, he, rfl⟩ := List.mem_map.1 hop
      exact (exOps_cases e he).2
    · rw [per i hi]; exact decide_eq_true (by show (0 : ℚ) < 1 / 2; norm_num)
    · exact ⟨(exInfos exOther)[0]'(by decide), List.getElem_mem _, by decide,
        ⟨_, List.mem_of_mem_head? rfl, false, List.mem_of_mem_head? rfl⟩, _, rfl, by decide⟩
    · exact ⟨(exInfos exOther)[1]'(by decide), List.getElem_mem _, by decide,
        ⟨_, List.mem_of_mem_head? rfl, false, List.mem_of_mem_head? rfl⟩, _, rfl, by decide⟩
    · rw [per i hi, e'.2]
      exact ⟨by norm_num, fun _ => by norm_num, trivial⟩
  · cases hrs'

/-- Two parts with the same description, the second with the given handles for limits of positions. -/
def exTwins (kind : Limits.Kind) : Option (List (Robot ℚ ℚ)) :=
  match exActuators.loadDoc exStod exThree with
  | .ok (L, true) => do
    let r ← Described.init (.exact 1000) L exKind exListed
    let r' ← Described.init (.exact 1000) L (fun c => if c = .position then kind else exKind c) exListed
    return [r, r']
  | _ => none

/-- `c116_periods`: without soft limits for positions, a cycle with a period of zero is completed; with soft limits for a position of
the second part, it is the end of the run after the cycle before. -/
example : [Limits.Kind.posSat, .posSoft].map (fun kind => (exTwins kind).map fun rs =>
    let run := (Crew.start rs fun _ => 0).run (.exact 1000) false ([1, 0, 1].map fun t => .cycle
      ⟨fun _ => 0, 0, false, ⟨.done, .done, fun _ _ => (.done, .done)⟩, fun _ _ m => m, false, t⟩)
    (run.1.length, run.2)) = [some (3, none), some (1, some .limits)] := by decide +kernel

/-- `c116_handles`: the position of "j1" is a variable of the second part (`exOps` has it in the first), "j3" is in both
parts but takes velocities only. -/
example : ((exTwins .posSat).map fun rs =>
    let s := (Crew.start rs fun _ => 0).sys
    let got := s.robot.get stdEnv (Whole.interfaceName .position) s.heap
    got.1.map fun o => (["j1", "j3"].map (got.2.2.objs o).rmGetHandle, (got.2.2.objs o).claiming)) =
    some (some ([some ⟨"j1", 207⟩, none], true)) := by decide +kernel

end Verif.Parted
