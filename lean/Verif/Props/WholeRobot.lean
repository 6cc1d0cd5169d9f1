import Verif.Lemmas.WholeRobotOffers
import Verif.Lemmas.WholeRobotRun
import Verif.Props.DescribedRobot

/-!
Property C112: from the calls of controllers to the commands of the actuators, for a robot whose transmissions and
joint limits come from its description and whose controllers are under the controller manager.
-/

namespace Verif.Whole

open Verif.Spec (observed)
open Verif.Transmission (Mem Loader Cmd Doc TransInfo loadTransmission)
open Verif.Limits (Arith Dbl UrdfJoint UrdfLimits UrdfSafety)
open Verif.Cycle (Record)
open Verif.Described (Robot Setting Assembled exact_lawful Sends Driven HasLimits HasSoftLimits Ranged Allowed Sane Reaches)

section

variable {K : Type} [Field K] [LinearOrder K] [IsStrictOrderedRing K] {stod : String → Option K} {L0 : Loader K} {d : Doc}
  {infos : List TransInfo} {joints : List (Cmd × String × UrdfJoint (Dbl K))} {r : Robot K K} {huge : K}

variable (nd : Bool) (ha : Assembled stod (.exact huge) L0 d infos joints r) (m : Mem K) (ops : List (Op K))
  (hops : Proper r m ops)

include hops in
theorem seen (i : Input K) (hi : .cycle i ∈ ops) :
    Limits.dlt (some (Setting.exact huge).zero) ((Setting.exact huge).see i.period) = true := by
  have := Cycle.positive huge (is := [⟨i.sense, m, i.period, i.reset⟩]) (fun j hj => by
    rw [List.mem_singleton.1 hj]; exact hops.positive i hi) _ (List.mem_singleton.2 rfl)
  exact this

include ha hops

/-- **C112, no cycle is lost.** Whatever services are called and whatever the controllers do, every cycle is completed,
in order; and the manager acts in it as it would without the hardware: its state before a cycle is the one after the
service calls and the updates so far. -/
theorem c112_completes :
    let out := (World.start r m).run (.exact huge) nd ops
    out.2 = none ∧ out.1.map (·.input) = cycles ops ∧ ∀ (k : Nat) x, out.1[k]? = some x →
      ∃ pre post, ops = pre ++ .cycle x.input :: post ∧ (cycles pre).length = k ∧
        x.before = (Sys.start (registered r.loader) (interfaces r.loader)).run stdEnv checkForConflict (pre.map Op.manager) ∧
        x.after = x.before.step stdEnv checkForConflict
          (.update x.input.time x.input.restart x.input.hw) := by
  rw [manager_eq]
  exact run_completes (exact_lawful huge) nd ha m ops hops.good hops.honest (seen m ops hops)

/-- **C112, periods that are not positive.** If a joint is listed for soft position limits, the first cycle with a period that is
not positive ends the run: the assertion of a limit handle fails before anything is sent, and what was before is as if it had
been all. -/
theorem c112_periods (i : Input K) (hi : i.period ≤ 0) (hk : ∃ c n u, (c, n, u) ∈ joints ∧ r.kind c = .posSoft)
    (rest : List (Op K)) :
    (World.start r m).run (.exact huge) nd (ops ++ .cycle i :: rest) = (((World.start r m).run (.exact huge) nd ops).1, some .limits) := by
  refine run_halts (exact_lawful huge) ha.toBase ops _ rfl ha.handles.1 ⟨[], by simp, rfl⟩ hops.good hops.honest (seen m ops hops) i
    (fun hacc => ?_) rest
  rcases (ha.accepts _).1 hacc with h | h
  · exact absurd (of_decide_eq_true h) (not_lt.2 hi)
  · obtain ⟨c, n, u, hj, hk⟩ := hk
    exact h c n u hj hk

/-- **C112, one commander.** Before and after every cycle, no two running controllers hold handles for commands of the
same joint, whatever the kinds of the commands. -/
theorem c112_one_commander (x : Seen K) (hx : x ∈ ((World.start r m).run (.exact huge) nd ops).1) (s : Sys)
    (hs : s = x.before ∨ s = x.after) (n : String) (q q' : Cmd) (c c' : CId) (h : Holds r.loader s c q n)
    (h' : Holds r.loader s c' q' n) (hc : s.mgr.state c = .running) (hc' : s.mgr.state c' = .running) : c = c' :=
  run_one_commander (exact_lawful huge) nd ha m ops hops.good hops.honest (seen m ops hops) x hx s hs n q q' c c' h h' hc hc'

/-- **C112, who changes a command.** What the controllers leave behind in a cycle is what their calls make of the
measured values one after the other. A call changes a command of a joint only if it is one of a controller that holds a handle
for it, and at that moment no other controller with a handle for a command of that joint is running. -/
theorem c112_commands (x : Seen K) (hx : x ∈ ((World.start r m).run (.exact huge) nd ops).1) :
    x.record.wished = replay x.input.act x.events x.record.measured ∧
    ∀ pre e post, x.events = pre ++ e :: post → ∀ q n,
      r.jointCommand q n (replay x.input.act (pre ++ [e]) x.record.measured) ≠
        r.jointCommand q n (replay x.input.act pre x.record.measured) →
      ∃ c k, e = .cb c k ∧ Holds r.loader x.before c q n ∧ ∀ c' q', c' ≠ c → Holds r.loader x.before c' q' n →
        observed c' (x.before.mgr.trace ++ pre) ≠ .running :=
  run_commands (exact_lawful huge) nd ha m ops hops.good hops.honest (seen m ops hops) x hx

/-- **C112, commands that are not changed.** A joint keeps its command unless a controller that holds it is called: reading
the sensors changes no command, a cycle begins with the commands the cycle before left after enforcing the limits, and a
command of which no called controller holds a handle is still there when the limits are enforced. -/
theorem c112_kept (q : Cmd) (n : String) :
    let out := ((World.start r m).run (.exact huge) nd ops).1
    (∀ x ∈ out, (∀ c k, .cb c k ∈ x.events → ¬Holds r.loader x.before c q n) →
      r.jointCommand q n x.record.wished = r.jointCommand q n x.start) ∧
    (∀ x, out[0]? = some x → x.start = m) ∧
    ∀ k x y, out[k]? = some x → out[k + 1]? = some y → r.jointCommand q n y.start = r.jointCommand q n x.record.limited :=
  run_kept (exact_lawful huge) nd ha m ops hops.good hops.honest (seen m ops hops) q n

/-- The run as one of the hardware. -/
theorem hardware_runs :
    (∀ i ∈ ((World.start r m).run (.exact huge) nd ops).1.map Seen.hardware, ∃ j, .cycle j ∈ ops ∧ i.period = j.period) ∧
    (∀ i ∈ ((World.start r m).run (.exact huge) nd ops).1.map Seen.hardware, 0 < i.period) ∧
    (∀ (k : Nat) x, ((World.start r m).run (.exact huge) nd ops).1[k]? = some x →
      (((World.start r m).run (.exact huge) nd ops).1.map Seen.hardware)[k]? = some x.hardware ∧
      (r.run (.exact huge) nd (((World.start r m).run (.exact huge) nd ops).1.map Seen.hardware) m).1[k]? = some x.record) ∧
    ∀ (k : Nat) i rec, (((World.start r m).run (.exact huge) nd ops).1.map Seen.hardware)[k]? = some i →
      (r.run (.exact huge) nd (((World.start r m).run (.exact huge) nd ops).1.map Seen.hardware) m).1[k]? = some rec →
      ∃ x, ((World.start r m).run (.exact huge) nd ops).1[k]? = some x ∧ i = x.hardware ∧ rec = x.record := by
  obtain ⟨h1, -, h3, h4⟩ := Whole.hardware_run (exact_lawful huge) nd ha m ops hops.good hops.honest (seen m ops hops)
  refine ⟨h1, fun i hi => ?_, h3, h4⟩
  obtain ⟨j, hj, e⟩ := h1 i hi
  rw [e]
  exact hops.positive j hj

/-- **C112, what is measured.** In every cycle the values of a joint of the description are those its transmission
computes from what the hardware reports for its actuators. -/
theorem c112_measured (x : Seen K) (hx : x ∈ ((World.start r m).run (.exact huge) nd ops).1) (j : TransInfo) (hj : j ∈ infos) :
    ∃ t, loadTransmission stod j = .ok (some t) ∧ ∀ q, ∃ v, L0.actuatorValues q j.actuatorNames x.input.sense = some v ∧
      ∀ (z : Nat) n, j.jointNames[z]? = some n → r.jointValue q n x.record.measured = (t.jointsFrom q v)[z]? := by
  obtain ⟨-, hpos, hto, -⟩ := hardware_runs nd ha m ops hops
  obtain ⟨k, hk⟩ := List.getElem?_of_mem hx
  obtain ⟨h1, h2⟩ := hto k x hk
  exact Described.c111_measured nd huge ha _ hpos m k x.hardware x.record h1 h2 j hj

/-- **C112, joints without limits.** The actuator commands of every cycle amount to exactly one value for each
joint that is moved with commands of the kind. If the joint is not listed for the kind, this is what the calls of the
controllers left as its command; and if no controller that holds a handle for it is called, it is what was sent in
the cycle before. -/
theorem c112_free (q : Cmd) (n : String) (hd : Driven L0 infos q n) :
    (∀ x ∈ ((World.start r m).run (.exact huge) nd ops).1, (∃! v, Sends stod L0 infos q x.record n v) ∧
      ((∀ u, (q, n, u) ∉ joints) → ∃ v, r.jointCommand q n x.record.wished = some v ∧ Sends stod L0 infos q x.record n v)) ∧
    ∀ k x y, ((World.start r m).run (.exact huge) nd ops).1[k]? = some x →
      ((World.start r m).run (.exact huge) nd ops).1[k + 1]? = some y → (∀ u, (q, n, u) ∉ joints) →
      (∀ c k, .cb c k ∈ y.events → ¬Holds r.loader y.before c q n) →
      ∀ v, Sends stod L0 infos q x.record n v ↔ Sends stod L0 infos q y.record n v := by
  obtain ⟨-, hpos, hto, -⟩ := hardware_runs nd ha m ops hops
  obtain ⟨hk1, -, hk3⟩ := c112_kept nd ha m ops hops q n
  have one : ∀ x ∈ ((World.start r m).run (.exact huge) nd ops).1, (∃! v, Sends stod L0 infos q x.record n v) ∧
      ((∀ u, (q, n, u) ∉ joints) → ∃ v, r.jointCommand q n x.record.wished = some v ∧ Sends stod L0 infos q x.record n v) := by
    intro x hx
    obtain ⟨k, hk⟩ := List.getElem?_of_mem hx
    obtain ⟨h1, h2⟩ := hto k x hk
    exact Described.c111_free nd huge ha _ hpos m k x.hardware x.record h1 h2 q n hd
  refine ⟨one, fun k x y hx hy hfree hno => ?_⟩
  have mx := List.mem_of_getElem? hx
  have my := List.mem_of_getElem? hy
  -- Without limits the command is what the controllers left.
  have hlim : r.jointCommand q n x.record.limited = r.jointCommand q n x.record.wished := by
    obtain ⟨h1, h2⟩ := hto k x hx
    obtain ⟨hmade, -, honly⟩ := ha.handles
    obtain ⟨-, -, h3⟩ := Described.run_transmissions (nd := nd) (exact_lawful huge) ha.toBase rfl hmade _ (Cycle.positive huge hpos) m k _ _ h1 h2
    unfold Robot.jointCommand
    cases hcell : r.loader.commandCell q n with
    | none => rfl
    | some a =>
      refine congrArg some (h3 q n a hcell fun e he hn => ?_)
      obtain ⟨u, hu⟩ := honly q e he
      exact hfree u (hn ▸ hu)
  obtain ⟨vx, ex, sx⟩ := (one x mx).2 hfree
  obtain ⟨vy, ey, sy⟩ := (one y my).2 hfree
  have hv : vx = vy := by
    have := hk1 y my hno
    rw [ey, hk3 k x y hx hy, hlim, ex] at this
    exact (Option.some.inj this).symm
  subst hv
  exact fun v => ⟨fun h => by rw [(one x mx).1.unique h sx]; exact sy, fun h => by rw [(one y my).1.unique h sy]; exact sx⟩

/-- **C112, listed joints without limits.** As C111. -/
theorem c112_unlimited (q : Cmd) (n : String) (u : UrdfJoint (Dbl K)) (hd : Driven L0 infos q n) (hj : (q, n, u) ∈ joints)
    (hl : u.limits = none) (hk : r.kind q = .posSat ∨ r.kind q = .velSoft) :
    ∀ x ∈ ((World.start r m).run (.exact huge) nd ops).1,
      ∃ c, r.jointCommand q n x.record.wished = some c ∧ (|c| ≤ huge → Sends stod L0 infos q x.record n c) := by
  obtain ⟨-, hpos, hto, -⟩ := hardware_runs nd ha m ops hops
  intro x hx
  obtain ⟨k, hx⟩ := List.getElem?_of_mem hx
  obtain ⟨h1, h2⟩ := hto k x hx
  exact Described.c111_unlimited nd huge ha _ hpos m q n u hd hj hl hk k x.hardware x.record h1 h2

/-- **C112, position limits.** As C111: whatever the controllers do and whatever services are called, the actuator commands of
every cycle amount to a position of a limited joint that is within the range of the URDF, at most `velocity * period`
away from what was sent in the cycle before (in the first cycle and after a reset: from the measured position), also
in cycles in which controllers are switched; and position saturation passes on what the controllers command if it
satisfies both. -/
theorem c112_position (n : String) (u : UrdfJoint (Dbl K)) (l : UrdfLimits K) (hd : Driven L0 infos .position n)
    (hj : (.position, n, u) ∈ joints) (hl : HasLimits u l) (hs : ∀ i, .cycle i ∈ ops → Sane (r.kind .position) u l i.period)
    (hstart : ∀ k x y, ((World.start r m).run (.exact huge) nd ops).1[k]? = some x → k = 0 ∨ x.input.reset = true →
      r.jointValue .position n x.record.measured = some y → Allowed huge u l y) :
    ∀ (k : Nat) x, ((World.start r m).run (.exact huge) nd ops).1[k]? = some x →
      ∃ v p, Sends stod L0 infos .position x.record n v ∧ Allowed huge u l v ∧ |v - p| ≤ l.velocity * x.input.period ∧
        (k = 0 ∨ x.input.reset = true → r.jointValue .position n x.record.measured = some p) ∧
        (x.input.reset = false → ∀ k' x', k = k' + 1 → ((World.start r m).run (.exact huge) nd ops).1[k']? = some x' →
          Sends stod L0 infos .position x'.record n p) ∧
        (r.kind .position = .posSat → ∀ c, r.jointCommand .position n x.record.wished = some c → Allowed huge u l c →
          |c - p| ≤ l.velocity * x.input.period → v = c) := by
  obtain ⟨hin, hpos, hto, hof⟩ := hardware_runs nd ha m ops hops
  intro k x hx
  obtain ⟨h1, h2⟩ := hto k x hx
  obtain ⟨v, p, g1, g2, g3, g4, g5, g6⟩ := Described.c111_position nd huge ha _ hpos m n u l hd hj hl
    (fun i hi => by obtain ⟨j, hj, e⟩ := hin i hi; rw [e]; exact hs j hj)
    (fun k i rec y hi hrec hk hy => by
      obtain ⟨x, hx, rfl, rfl⟩ := hof k i rec hi hrec
      exact hstart k x y hx hk hy) k x.hardware x.record h1 h2
  exact ⟨v, p, g1, g2, g3, g4, fun hr k' x' e hx' => g5 hr k' x'.record e (hto k' x' hx').2, g6⟩

/-- **C112, velocity limits.** As C111. -/
theorem c112_velocity (n : String) (u : UrdfJoint (Dbl K)) (l : UrdfLimits K) (s : UrdfSafety K)
    (hd : Driven L0 infos .velocity n) (hj : (.velocity, n, u) ∈ joints) (hl : HasLimits u l) (hV : 0 ≤ l.velocity)
    (hk : r.kind .velocity = .velSat ∨ (r.kind .velocity = .velSoft ∧ HasSoftLimits u s)) :
    ∀ x ∈ ((World.start r m).run (.exact huge) nd ops).1,
      ∃ v p c, Sends stod L0 infos .velocity x.record n v ∧ r.jointValue .position n x.record.measured = some p ∧
        r.jointCommand .velocity n x.record.wished = some c ∧ |v| ≤ l.velocity ∧
        (r.kind .velocity = .velSat → |c| ≤ l.velocity → v = c) ∧
        (r.kind .velocity = .velSoft → Ranged u → 0 ≤ s.kPosition → s.softLower ≤ s.softUpper →
          (s.softUpper ≤ p → v ≤ 0) ∧ (p ≤ s.softLower → 0 ≤ v)) := by
  obtain ⟨-, hpos, hto, -⟩ := hardware_runs nd ha m ops hops
  intro x hx
  obtain ⟨k, hx⟩ := List.getElem?_of_mem hx
  obtain ⟨h1, h2⟩ := hto k x hx
  exact Described.c111_velocity nd huge ha _ hpos m n u l s hd hj hl hV hk k x.hardware x.record h1 h2

/-- **C112, effort limits.** As C111. -/
theorem c112_effort (n : String) (u : UrdfJoint (Dbl K)) (l : UrdfLimits K) (s : UrdfSafety K)
    (hd : Driven L0 infos .effort n) (hj : (.effort, n, u) ∈ joints)
    (hl : HasLimits u l) (hE : 0 ≤ l.effort) (hV : 0 ≤ l.velocity) (hP : Ranged u → l.lower ≤ l.upper)
    (hk : r.kind .effort = .effSat ∨ (r.kind .effort = .effSoft ∧ HasSoftLimits u s)) :
    ∀ x ∈ ((World.start r m).run (.exact huge) nd ops).1,
      ∃ e p v c, Sends stod L0 infos .effort x.record n e ∧ r.jointValue .position n x.record.measured = some p ∧
        r.jointValue .velocity n x.record.measured = some v ∧ r.jointCommand .effort n x.record.wished = some c ∧
        |e| ≤ l.effort ∧
        (r.kind .effort = .effSat →
          (Ranged u → (p < l.lower → 0 ≤ e) ∧ (l.upper < p → e ≤ 0)) ∧
          (v < -l.velocity → 0 ≤ e) ∧ (l.velocity < v → e ≤ 0) ∧
          (|c| ≤ l.effort → (Ranged u → l.lower ≤ p ∧ p ≤ l.upper) → |v| ≤ l.velocity → e = c)) ∧
        (r.kind .effort = .effSoft → 0 ≤ s.kVelocity →
          (l.velocity ≤ v → e ≤ 0) ∧ (v ≤ -l.velocity → 0 ≤ e) ∧
          (0 ≤ s.kPosition → s.softLower ≤ s.softUpper → Ranged u →
            (s.softUpper ≤ p → 0 ≤ v → e ≤ 0) ∧ (p ≤ s.softLower → v ≤ 0 → 0 ≤ e))) := by
  obtain ⟨-, hpos, hto, -⟩ := hardware_runs nd ha m ops hops
  intro x hx
  obtain ⟨k, hx⟩ := List.getElem?_of_mem hx
  obtain ⟨h1, h2⟩ := hto k x hx
  exact Described.c111_effort nd huge ha _ hpos m n u l s hd hj hl hE hV hP hk k x.hardware x.record h1 h2

/-- **C112, closed loop.** As C111: with actuators that reach the commanded positions by the next cycle, a joint that
starts within the range of the URDF is measured within it for ever and moves by at most `velocity * period` per cycle,
whatever controllers are loaded, started, stopped and unloaded, and whatever they command. -/
theorem c112_closed_loop (n : String) (u : UrdfJoint (Dbl K)) (l : UrdfLimits K) (hd : Driven L0 infos .position n)
    (hj : (.position, n, u) ∈ joints) (hl : HasLimits u l) (hs : ∀ i, .cycle i ∈ ops → Sane (r.kind .position) u l i.period)
    (hf : ∀ k x y, ((World.start r m).run (.exact huge) nd ops).1[k]? = some x →
      ((World.start r m).run (.exact huge) nd ops).1[k + 1]? = some y → Reaches L0 infos n x.record.sent y.input.sense)
    (hstart : ∀ x y, ((World.start r m).run (.exact huge) nd ops).1[0]? = some x →
      r.jointValue .position n x.record.measured = some y → Allowed huge u l y) :
    ∀ (k : Nat) x, ((World.start r m).run (.exact huge) nd ops).1[k]? = some x →
      ∃ v, r.jointValue .position n x.record.measured = some v ∧ Allowed huge u l v ∧
        ∀ y, ((World.start r m).run (.exact huge) nd ops).1[k + 1]? = some y →
          ∃ v', r.jointValue .position n y.record.measured = some v' ∧ Sends stod L0 infos .position x.record n v' ∧
            |v' - v| ≤ l.velocity * x.input.period := by
  obtain ⟨hin, hpos, hto, hof⟩ := hardware_runs nd ha m ops hops
  intro k x hx
  obtain ⟨h1, h2⟩ := hto k x hx
  obtain ⟨v, g1, g2, g3⟩ := Described.c111_closed_loop nd huge ha _ hpos m n u l hd hj hl
    (fun i hi => by obtain ⟨j, hj, e⟩ := hin i hi; rw [e]; exact hs j hj)
    (fun k i' rec hi hrec => by
      have hlen := (Described.c111_completes nd huge ha _ hpos m).2
      have hk : k + 1 < (((World.start r m).run (.exact huge) nd ops).1.map Seen.hardware).length :=
        (List.getElem?_eq_some_iff.1 hi).1
      obtain ⟨y, hy, rfl, -⟩ := hof (k + 1) i' _ hi (List.getElem?_eq_getElem (by omega))
      obtain ⟨x, hx, -, rfl⟩ := hof k _ rec (List.getElem?_eq_getElem (by omega)) hrec
      exact hf k x y hx hy)
    (fun rec y hrec hy => by
      have hlen := (Described.c111_completes nd huge ha _ hpos m).2
      have hk := (List.getElem?_eq_some_iff.1 hrec).1
      obtain ⟨x, hx, -, rfl⟩ := hof 0 _ rec (List.getElem?_eq_getElem (by omega)) hrec
      exact hstart x y hx hy) k x.hardware x.record h1 h2
  exact ⟨v, g1, g2, fun y hy => g3 y.record (hto (k + 1) y hy).2⟩

end

section

variable {K : Type} {L : Loader K}

/-- **C112, what controllers find.** At any time, whatever controllers have been loaded and whatever they have done, the
interface for a kind of commands has, under the name of each joint of the robot that takes such commands, a handle to the command of
that joint, and no others; it claims what is taken from it. The interface for the states has a handle for every joint
and claims nothing. -/
theorem c112_handles {s : Sys} (hs : Sys.Reached stdEnv (registered L) (interfaces L) s) :
    (∀ q, ∃ o, (s.robot.get stdEnv (interfaceName q) s.heap).1 = some o ∧ (s.heap.objs o).claiming = true ∧
      ∀ n, (s.heap.objs o).rmGetHandle n = (L.commandCell q n).map fun a => ⟨n, a⟩) ∧
    ∃ o, (s.robot.get stdEnv "hardware_interface::JointStateInterface" s.heap).1 = some o ∧
      (s.heap.objs o).claiming = false ∧
      ∀ n, (s.heap.objs o).rmGetHandle n = (smapFind n L.jointState).map fun st => ⟨n, st.position⟩ := by
  refine ⟨fun q => ?_, ?_⟩
  · obtain ⟨o, h1, h2, h3⟩ := (offers_reached hs).get q
    exact ⟨o, by rw [h1], h2, h3⟩
  · obtain ⟨o, h1, h2, h3⟩ := (offers_reached hs).get_state
    exact ⟨o, by rw [h1], h2, h3⟩

/-- **C112, loading.** A controller that asks for the handle of a joint is loaded exactly if the robot takes such
commands for that joint; it then holds the command of the joint, and the manager knows that it claims the joint. -/
theorem c112_load {s : Sys} (hs : Sys.Reached stdEnv (registered L) (interfaces L) s) (q : Cmd) (n name : String) (r : LoadReq)
    (hr : s.mgr.reachesInit name r = true)
    (hc : r.cls = .single (interfaceName q) (fun o => .getHandle o n fun h => .done h.isSome) fun _ => .done true) :
    (∀ a, L.commandCell q n = some a → ∃ t, (s.step stdEnv checkForConflict (.load name r)).mgr.cur =
        s.mgr.cur ++ [⟨⟨name, t, [⟨interfaceName q, [n]⟩]⟩, s.mgr.nextId⟩] ∧
      (s.step stdEnv checkForConflict (.load name r)).held s.mgr.nextId = [⟨true, ⟨n, a⟩⟩] ∧
      Holds L (s.step stdEnv checkForConflict (.load name r)) s.mgr.nextId q n) ∧
    (L.commandCell q n = none → (s.step stdEnv checkForConflict (.load name r)).mgr.cur = s.mgr.cur) := by
  obtain ⟨o, h1, h2, h3⟩ := (offers_reached hs).get q
  obtain ⟨i1, i2⟩ := load_one hr h1 hc
  rw [h3, h2] at i1
  constructor
  · intro a ha
    obtain ⟨-, t, g1, g2⟩ := i1 ⟨n, a⟩ (by rw [ha]; rfl)
    refine ⟨t, g1, g2, ⟨true, ⟨n, a⟩⟩, ?_, rfl, rfl, ha⟩
    rw [g2]
    exact List.mem_singleton.2 rfl
  · intro ha
    exact i2 (by rw [h3, ha]; rfl)

/-- **C112, loading of observers.** A controller that asks for the state of a joint is loaded exactly if the robot has
the joint; it claims nothing and can change nothing. -/
theorem c112_observer {s : Sys} (hs : Sys.Reached stdEnv (registered L) (interfaces L) s) (n name : String) (r : LoadReq)
    (hr : s.mgr.reachesInit name r = true)
    (hc : r.cls = .single "hardware_interface::JointStateInterface" (fun o => .getHandle o n fun h => .done h.isSome)
      fun _ => .done true) :
    (∀ st, smapFind n L.jointState = some st → (∃ t, (s.step stdEnv checkForConflict (.load name r)).mgr.cur =
        s.mgr.cur ++ [⟨⟨name, t, [⟨"hardware_interface::JointStateInterface", []⟩]⟩, s.mgr.nextId⟩]) ∧
      (s.step stdEnv checkForConflict (.load name r)).held s.mgr.nextId = [⟨false, ⟨n, st.position⟩⟩] ∧
      ∀ a, ¬(s.step stdEnv checkForConflict (.load name r)).CanWrite (fun d => [d]) s.mgr.nextId a) ∧
    (smapFind n L.jointState = none → (s.step stdEnv checkForConflict (.load name r)).mgr.cur = s.mgr.cur) := by
  obtain ⟨o, h1, h2, h3⟩ := (offers_reached hs).get_state
  obtain ⟨i1, i2⟩ := load_one hr h1 hc
  rw [h3, h2] at i1
  constructor
  · intro st hst
    obtain ⟨-, t, g1, g2⟩ := i1 ⟨n, st.position⟩ (by rw [hst]; rfl)
    refine ⟨⟨t, g1⟩, g2, ?_⟩
    rintro a ⟨g, hg, he, -⟩
    rw [g2] at hg
    rw [List.mem_singleton.1 hg] at he
    cases he
  · intro hst
    exact i2 (by rw [h3, hst]; rfl)

end

/-! ### A concrete case -/

open Verif.Described (exActuators exThree exListed exKind exUrdf)
open Verif.Transmission.Loader (exStod exInfos)

/-- A cycle; `w` says which controllers write which value to which variable when they are updated. -/
def exCycle (sense : Mem ℚ) (w : List (CId × Nat × ℚ)) : Op ℚ × List (CId × Nat × ℚ) :=
  (.cycle ⟨sense, 0, false, ⟨.done, .done, fun _ _ => (.done, .done)⟩, fun c k m a =>
    match w.find? fun e => e.1 == c && e.2.1 == a && k == .update with
    | some e => e.2.2
    | none => m a, false, 1 / 2⟩, w)

/-- A service call, followed by a cycle in which no controller writes, and the end of the call. -/
def exCall (op : SysOp) : List (Op ℚ × List (CId × Nat × ℚ)) :=
  [(.service op, []), exCycle (fun _ => 0) [], (.service (.poll {} 0), [])]

/-- A load. -/
def exLoad (name : String) (q : Cmd) (j : String) : List (Op ℚ × List (CId × Nat × ℚ)) :=
  exCall (.load name ⟨true, some "T", [⟨["T"], fun _ => .object⟩], sysClass (interfaceName q) j⟩)

/-- A switch. -/
def exSwitch (start stop : List String) : List (Op ℚ × List (CId × Nat × ℚ)) := exCall (.switch ⟨start, stop, 2, false, 0⟩ 0 true)

/-- Two controllers "p" and "q" of the position of "j1", and a controller "v" of the velocity of "j3". First "p" and "v" run,
then "q" takes over from "p". -/
def exOps : List (Op ℚ × List (CId × Nat × ℚ)) :=
  exLoad "p" .position "j1" ++ exLoad "q" .position "j1" ++ exLoad "v" .velocity "j3" ++ exSwitch ["p", "v"] [] ++
    [exCycle (fun _ => 0) [(0, 103, 7), (2, 120, 3)], exCycle (fun _ => 0) [(0, 103, 7)]] ++ exSwitch ["q"] ["p"] ++
    [exCycle (fun _ => 0) [(1, 103, -7), (2, 120, 1)], exCycle (fun _ => 0) [(1, 103, -7)]] ++ exSwitch [] ["q", "v"] ++
    [exCycle (fun _ => 0) []]

/-- What is sent to the actuators of "j1" and "j3", and which controllers are called. -/
def exSeen : Option (List (List ℚ × List Event)) :=
  match exActuators.loadDoc exStod exThree with
  | .ok (L, true) =>
    (Described.init (.exact 1000) L exKind exListed).map fun r =>
      ((World.start r fun _ => 0).run (.exact 1000) false (exOps.map (·.1))).1.map fun x =>
        ([3, 24].map x.record.sent, x.events.filter fun e => match e with | .cb _ _ => true | _ => false)
  | _ => none

/-- The limit of "j1" allows half a unit per cycle, so one unit at the actuator. "q" starts when "p" has been stopped. The joints
keep their commands when their controllers are stopped. -/
example : exSeen = some [([0, 0], []), ([0, 0], []), ([0, 0], []), ([0, 0], [.cb 0 .starting, .cb 2 .starting]),
    ([1, 6], [.cb 0 .update, .cb 2 .update]), ([2, 6], [.cb 0 .update, .cb 2 .update]),
    ([2, 6], [.cb 0 .update, .cb 2 .update, .cb 0 .stopping, .cb 1 .starting]),
    ([1, 2], [.cb 1 .update, .cb 2 .update]), ([0, 2], [.cb 1 .update, .cb 2 .update]),
    ([0, 2], [.cb 1 .update, .cb 2 .update, .cb 1 .stopping, .cb 2 .stopping]), ([0, 2], [])] := by decide +kernel

/-- The controllers write through their handles only. -/
def exHonest : Sys → List (Op ℚ × List (CId × Nat × ℚ)) → Bool
  | _, [] => true
  | s, (op, w) :: l => (w.all fun e => (s.held e.1).any fun g => g.exclusive && g.handle.data == e.2.1) &&
      exHonest (s.step stdEnv checkForConflict op.sys) l

theorem exHonest_sound (l : List (Op ℚ × List (CId × Nat × ℚ))) (hl : ∀ e ∈ l, (∃ o, e.1 = .service o) ∨ ∃ m, e = exCycle m e.2)
    (s : Sys) (h : exHonest s l = true) : Honest s (l.map (·.1)) := by
  induction l generalizing s with
  | nil => trivial
  | cons e l ih =>
    obtain ⟨op, w⟩ := e
    simp only [exHonest, Bool.and_eq_true, List.all_eq_true] at h
    refine ⟨fun i hi c k m a hno => ?_, ih (fun e he => hl e (by simp [he])) _ h.2⟩
    rcases hl (op, w) (by simp) with ⟨o, ho⟩ | ⟨m', he⟩
    · dsimp only at ho hi
      rw [ho] at hi
      cases hi
    · have : op = (exCycle m' w).1 := congrArg Prod.fst he
      dsimp only at hi
      rw [this] at hi
      cases hi
      dsimp only
      split
      · rename_i e hf
        have he := List.find?_some hf
        simp only [Bool.and_eq_true, beq_iff_eq] at he
        obtain ⟨g, hg, h2⟩ := List.any_eq_true.1 (h.1 e (List.mem_of_find?_eq_some hf))
        simp only [Bool.and_eq_true, beq_iff_eq] at h2
        refine absurd ⟨g, ?_, h2.1, ?_⟩ hno
        · rw [← he.1.1]; exact hg
        · rw [List.mem_singleton, h2.2, he.1.2]
      · rfl

theorem exCycle_positive (sense : Mem ℚ) (w : List (CId × Nat × ℚ)) : ∀ i, (exCycle sense w).1 = .cycle i → 0 < i.period := by
  rintro i ⟨⟩
  norm_num

theorem exOps_cases : ∀ e ∈ exOps, ((∃ o, e.1 = .service o) ∨ ∃ m, e = exCycle m e.2) ∧ e.1.Good := by
  intro e he
  simp only [exOps, exLoad, exSwitch, exCall, List.mem_append, List.mem_cons, List.not_mem_nil, or_false] at he
  have cyc : ∀ m w, ((∃ o, (exCycle m w).1 = .service o) ∨ ∃ m', exCycle m w = exCycle m' (exCycle m w).2) ∧ (exCycle m w).1.Good :=
    fun m w => ⟨Or.inr ⟨m, rfl⟩, trivial⟩
  have ser : ∀ o : SysOp, o.Good → (∀ t r hw, o ≠ .update t r hw) →
      ((∃ o', ((.service o, []) : Op ℚ × List (CId × Nat × ℚ)).1 = .service o') ∨
        ∃ m, ((.service o, []) : Op ℚ × List (CId × Nat × ℚ)) = exCycle m []) ∧
      ((.service o, []) : Op ℚ × List (CId × Nat × ℚ)).1.Good := fun o h1 h2 => ⟨Or.inl ⟨o, rfl⟩, h1, h2⟩
  have poll : SysOp.Good (.poll {} 0) := ⟨rfl, rfl⟩
  have load : ∀ n q j, SysOp.Good (.load n ⟨true, some "T", [⟨["T"], fun _ => .object⟩], sysClass (interfaceName q) j⟩) :=
    fun _ q j => sysClass_proper (interfaceName q) j
  rcases he with (((((((h | h) | h) | h) | h) | h) | h) | h) | h
  all_goals
    first
    | (rcases h with rfl | rfl | rfl)
    | (rcases h with rfl | rfl)
    | (rcases h with rfl)
  all_goals
    first
    | exact cyc _ _
    | exact ser _ (load _ _ _) (by simp)
    | exact ser _ poll (by simp)
    | exact ser _ trivial (by simp)

/-- "p" gets the command of "j1"; it would not be loaded if it asked for efforts. -/
example : (match exActuators.loadDoc exStod exThree with
    | .ok (L, true) =>
      let s : Sys := { robot := registered L, heap := interfaces L }
      let req (q : Cmd) : LoadReq := ⟨true, some "T", [⟨["T"], fun _ => .object⟩], sysClass (interfaceName q) "j1"⟩
      some (s.mgr.reachesInit "p" (req .position), (s.load stdEnv "p" (req .position)).held 0,
        ((s.load stdEnv "p" (req .effort)).mgr.cur.map (·.info.name)))
    | _ => none) = some (true, [⟨true, ⟨"j1", 103⟩⟩], []) := by decide +kernel

/-- "o" only looks at the state of "j1" and claims nothing. -/
example : (match exActuators.loadDoc exStod exThree with
    | .ok (L, true) =>
      let s : Sys := { robot := registered L, heap := interfaces L }
      let o := s.load stdEnv "o" ⟨true, some "T", [⟨["T"], fun _ => .object⟩], sysClass "hardware_interface::JointStateInterface" "j1"⟩
      some (o.mgr.cur.map fun c => c.info.claimed.map (·.resources), o.held 0)
    | _ => none) = some ([[[]]], [⟨false, ⟨"j1", 100⟩⟩]) := by decide +kernel

/-- The case of C112: the hypotheses hold. -/
theorem exOps_case : ∃ r, Assembled exStod (.exact 1000) exActuators exThree (exInfos exThree) exListed r ∧
    Proper r (fun _ => 0) (exOps.map (·.1)) ∧ Driven (exActuators (T := ℚ)) (exInfos exThree) .position "j1" ∧
    Driven (exActuators (T := ℚ)) (exInfos exThree) .velocity "j3" ∧
    ∀ i, .cycle i ∈ exOps.map (·.1) → Sane (r.kind .position) exUrdf ⟨-1, 2, 4, 1⟩ i.period := by
  obtain ⟨r, ha, hk, h1, -, h3⟩ := Described.exThree_case
  have hhon : (match exActuators.loadDoc exStod exThree with
    | .ok (L, true) => exHonest { robot := registered L, heap := interfaces L } exOps
    | _ => false) = true := by decide +kernel
  rw [ha.loaded] at hhon
  have per : ∀ i, .cycle i ∈ exOps.map (·.1) → i.period = 1 / 2 := by
    intro i hi
    obtain ⟨e, he, hei⟩ := List.mem_map.1 hi
    rcases (exOps_cases e he).1 with ⟨o, ho⟩ | ⟨m, hm⟩
    · rw [ho] at hei; cases hei
    · rw [hm] at hei; cases hei; rfl
  refine ⟨r, ha, ⟨fun op hop => ?_, exHonest_sound _ (fun e he => (exOps_cases e he).1) _ hhon, fun i hi => ?_⟩, h1, h3,
    fun i hi => ?_⟩
  · obtain ⟨e, he, rfl⟩ := List.mem_map.1 hop
    exact (exOps_cases e he).2
  · rw [per i hi]; norm_num
  · rw [per i hi, hk]
    exact ⟨by norm_num, fun _ => by norm_num, trivial⟩

end Verif.Whole
