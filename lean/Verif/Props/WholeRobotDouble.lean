import Verif.Lemmas.WholeRobotOffers
import Verif.Lemmas.WholeRobotRun
import Verif.Props.DescribedRobotDouble
import Verif.Spec.WholeRobotDouble

/-!
Property C114: from the calls of controllers to the commands of the actuators, for a robot whose transmissions and
joint limits come from its description, whose controllers are under the controller manager, and which computes with
doubles.
-/

namespace Verif.Whole

open Verif.Spec (observed)
open Verif.Transmission (Mem Loader Cmd Doc TransInfo Trans loadTransmission Is IsNaN MeansAll SameTrans jointScale DependsOn)
open Verif.Limits (Machine Flt Fl Arith Dbl binary64 UrdfJoint UrdfLimits UrdfSafety Within)
open Verif.Cycle (Record GoodPeriod limitsArith)
open Verif.Described (Robot Setting Assembled double_lawful Sends64 SendsWithin64 Terms InUrdfRange Driven HasLimits
  HasSoftLimits Ranged Reaches)

section

variable {A : Machine binary64} {stod : String → Option (Flt A)} {L0 : Loader (Flt A)} {d : Doc} {infos : List TransInfo}
  {joints : List (Cmd × String × UrdfJoint (Dbl (Fl binary64)))} {r : Robot (Flt A) (Fl binary64)}

variable (nd : Bool) (ha : Assembled stod (limitsArith A) L0 d infos joints r) (m : Mem (Flt A)) (ops : List (Op (Flt A)))
  (hops : Proper64 r m ops)

include hops in
theorem seen64 (i : Input (Flt A)) (hi : .cycle i ∈ ops) :
    Limits.dlt (some (Setting.double A).zero) ((Setting.double A).see i.period) = true :=
  Cycle.positive64 (is := [⟨i.sense, m, i.period, i.reset⟩]) (fun j hj => by
    rw [List.mem_singleton.1 hj]; exact hops.positive i hi) _ (List.mem_singleton.2 rfl)

include ha hops

/-- **C114, no cycle is lost.** Whatever services are called, whatever the controllers do and the sensors report, NaN and
infinities included, every cycle is completed, in order; and the manager acts in it as it would without the hardware:
its state before a cycle is the one after the service calls and the updates so far. -/
theorem c114_completes :
    let out := (World.start r m).run (.double A) nd ops
    out.2 = none ∧ out.1.map (·.input) = cycles ops ∧ ∀ (k : Nat) x, out.1[k]? = some x →
      ∃ pre post, ops = pre ++ .cycle x.input :: post ∧ (cycles pre).length = k ∧
        x.before = (Sys.start (registered r.loader) (interfaces r.loader)).run stdEnv checkForConflict (pre.map Op.manager) ∧
        x.after = x.before.step stdEnv checkForConflict
          (.update x.input.time x.input.restart x.input.hw) := by
  rw [manager_eq]
  exact run_completes (double_lawful A) nd ha m ops hops.good hops.honest (seen64 m ops hops)

/-- **C114, bad periods.** If a joint is listed for soft position limits, the first cycle with a period that is NaN or not
positive ends the run: the assertion of a limit handle fails before anything is sent, and what was before is as if it had
been all. -/
theorem c114_periods (i : Input (Flt A)) (hi : ∀ d : Fl binary64, i.period = Flt.fl d → d.1 ≤ 0)
    (hk : ∃ c n u, (c, n, u) ∈ joints ∧ r.kind c = .posSoft) (rest : List (Op (Flt A))) :
    (World.start r m).run (.double A) nd (ops ++ .cycle i :: rest) = (((World.start r m).run (.double A) nd ops).1, some .limits) := by
  refine run_halts (double_lawful A) ha.toBase ops _ rfl ha.handles.1 ⟨[], by simp, rfl⟩ hops.good hops.honest (seen64 m ops hops) i
    (fun hacc => ?_) rest
  rcases (ha.accepts _).1 hacc with h | h
  · rcases he : i.period with _ | d
    · rw [he] at h
      cases h
    · rw [he] at h
      exact absurd (of_decide_eq_true h) (not_lt.2 (hi d he))
  · obtain ⟨c, n, u, hj, hk⟩ := hk
    exact h c n u hj hk

/-- **C114, one commander.** Before and after every cycle, no two running controllers hold handles for commands of the
same joint, whatever the kinds of the commands. -/
theorem c114_one_commander (x : Seen (Flt A)) (hx : x ∈ ((World.start r m).run (.double A) nd ops).1) (s : Sys)
    (hs : s = x.before ∨ s = x.after) (n : String) (q q' : Cmd) (c c' : CId) (h : Holds r.loader s c q n)
    (h' : Holds r.loader s c' q' n) (hc : s.mgr.state c = .running) (hc' : s.mgr.state c' = .running) : c = c' :=
  run_one_commander (double_lawful A) nd ha m ops hops.good hops.honest (seen64 m ops hops) x hx s hs n q q' c c' h h' hc hc'

/-- **C114, who changes a command.** What the controllers leave behind in a cycle is what their calls make of the
measured values one after the other. A call changes a command of a joint only if it is one of a controller that holds a
handle for it, and at that moment no other controller with a handle for a command of that joint is running. -/
theorem c114_commands (x : Seen (Flt A)) (hx : x ∈ ((World.start r m).run (.double A) nd ops).1) :
    x.record.wished = replay x.input.act x.events x.record.measured ∧
    ∀ pre e post, x.events = pre ++ e :: post → ∀ q n,
      r.jointCommand q n (replay x.input.act (pre ++ [e]) x.record.measured) ≠
        r.jointCommand q n (replay x.input.act pre x.record.measured) →
      ∃ c k, e = .cb c k ∧ Holds r.loader x.before c q n ∧ ∀ c' q', c' ≠ c → Holds r.loader x.before c' q' n →
        observed c' (x.before.mgr.trace ++ pre) ≠ .running :=
  run_commands (double_lawful A) nd ha m ops hops.good hops.honest (seen64 m ops hops) x hx

/-- **C114, commands that are not changed.** A joint keeps its command unless a controller that holds it is called: reading
the sensors changes no command, a cycle begins with the commands the cycle before left after enforcing the limits, and a
command of which no called controller holds a handle is still there when the limits are enforced, bit by bit. -/
theorem c114_kept (q : Cmd) (n : String) :
    let out := ((World.start r m).run (.double A) nd ops).1
    (∀ x ∈ out, (∀ c k, .cb c k ∈ x.events → ¬Holds r.loader x.before c q n) →
      r.jointCommand q n x.record.wished = r.jointCommand q n x.start) ∧
    (∀ x, out[0]? = some x → x.start = m) ∧
    ∀ k x y, out[k]? = some x → out[k + 1]? = some y → r.jointCommand q n y.start = r.jointCommand q n x.record.limited :=
  run_kept (double_lawful A) nd ha m ops hops.good hops.honest (seen64 m ops hops) q n

/-- The run as one of the hardware. -/
theorem hardware_runs64 :
    (∀ i ∈ ((World.start r m).run (.double A) nd ops).1.map Seen.hardware, GoodPeriod i.period) ∧
    (∀ (k : Nat) x, ((World.start r m).run (.double A) nd ops).1[k]? = some x →
      (((World.start r m).run (.double A) nd ops).1.map Seen.hardware)[k]? = some x.hardware ∧
      (r.run (.double A) nd (((World.start r m).run (.double A) nd ops).1.map Seen.hardware) m).1[k]? = some x.record) ∧
    ∀ (k : Nat) rec,
      (r.run (.double A) nd (((World.start r m).run (.double A) nd ops).1.map Seen.hardware) m).1[k]? = some rec →
      ∃ x, ((World.start r m).run (.double A) nd ops).1[k]? = some x ∧ rec = x.record := by
  obtain ⟨h1, -, h3, h4⟩ := Whole.hardware_run (double_lawful A) nd ha m ops hops.good hops.honest (seen64 m ops hops)
  have hgood : ∀ i ∈ ((World.start r m).run (.double A) nd ops).1.map Seen.hardware, GoodPeriod i.period := by
    intro i hi
    obtain ⟨j, hj, e⟩ := h1 i hi
    rw [e]
    exact hops.positive j hj
  refine ⟨hgood, h3, fun k rec hrec => ?_⟩
  have hlen := (Described.c113_completes nd ha _ hgood m).2
  have hk := (List.getElem?_eq_some_iff.1 hrec).1
  obtain ⟨x, hx, -, e⟩ := h4 k _ rec (List.getElem?_eq_getElem (by omega)) hrec
  exact ⟨x, hx, e⟩

omit ha hops in
theorem not_number {q : Cmd} {n : String} {m : Mem (Flt A)} :
    ¬Number r q n m ↔ ∃ v, r.jointCommand q n m = some v ∧ IsNaN v := by
  simp only [Number, not_forall, not_not, exists_prop]

omit ha hops in
theorem startsOver64_iff {out : List (Seen (Flt A))} (n : String) (k : Nat) :
    Described.StartsOver r (out.map Seen.hardware) n k ↔ StartsOver r out n k := by
  unfold Described.StartsOver StartsOver
  simp only [List.getElem?_map, Option.map_eq_some_iff, not_number]
  constructor
  · rintro (h | ⟨i, ⟨x, hx, rfl⟩, h⟩ | ⟨k', i, v, rfl, ⟨x, hx, rfl⟩, h⟩)
    · exact Or.inl h
    · exact Or.inr (Or.inl ⟨x, hx, h⟩)
    · exact Or.inr (Or.inr ⟨k', x, rfl, hx, v, h⟩)
  · rintro (h | ⟨x, hx, h⟩ | ⟨k', x, rfl, hx, v, h⟩)
    · exact Or.inl h
    · exact Or.inr (Or.inl ⟨_, ⟨x, hx, rfl⟩, h⟩)
    · exact Or.inr (Or.inr ⟨k', _, v, rfl, ⟨x, hx, rfl⟩, h⟩)

theorem before64_iff (n : String) (k : Nat) (p : Fl binary64) :
    Described.Before r (((World.start r m).run (.double A) nd ops).1.map Seen.hardware)
      (r.run (.double A) nd (((World.start r m).run (.double A) nd ops).1.map Seen.hardware) m).1 n k p ↔
    Before r ((World.start r m).run (.double A) nd ops).1 n k p := by
  obtain ⟨-, hto, hof⟩ := hardware_runs64 nd ha m ops hops
  unfold Described.Before Before
  rw [startsOver64_iff]
  constructor
  · rintro ⟨h1, h2⟩
    exact ⟨fun hs x hx => h1 hs _ (hto k x hx).2, fun hs k' x e hx => h2 hs k' _ e (hto k' x hx).2⟩
  · rintro ⟨h1, h2⟩
    refine ⟨fun hs rec hrec => ?_, fun hs k' rec e hrec => ?_⟩
    · obtain ⟨x, hx, rfl⟩ := hof k rec hrec
      exact h1 hs x hx
    · obtain ⟨x, hx, rfl⟩ := hof k' rec hrec
      exact h2 hs k' x e hx

/-- **C114, what is measured.** In every cycle the values of a joint of the description are those its transmission
computes from what the hardware reports for its actuators; and if the parameters of the transmission and these reports
are moderate numbers, they are numbers, at most 2^-49 of the terms that are added up away from the exact values. -/
theorem c114_measured (x : Seen (Flt A)) (hx : x ∈ ((World.start r m).run (.double A) nd ops).1) (j : TransInfo) (hj : j ∈ infos) :
    ∃ t, loadTransmission stod j = .ok (some t) ∧ ∀ q, ∃ v, L0.actuatorValues q j.actuatorNames x.input.sense = some v ∧
      ∀ (z : Nat) n, j.jointNames[z]? = some n → r.jointValue q n x.record.measured = (t.jointsFrom q v)[z]? ∧
        ∀ t' xs, SameTrans t t' → MeansAll v xs → ∃ a y w s, r.jointValue q n x.record.measured = some a ∧ Is a y ∧
          (t'.jointsFrom q xs)[z]? = some w ∧ (jointScale q t' (xs.map abs))[z]? = some s ∧ |y - w| ≤ (2 ^ 49)⁻¹ * s := by
  obtain ⟨hpos, hto, -⟩ := hardware_runs64 nd ha m ops hops
  obtain ⟨k, hk⟩ := List.getElem?_of_mem hx
  obtain ⟨h1, h2⟩ := hto k x hk
  exact Described.c113_measured nd ha _ hpos m k x.hardware x.record h1 h2 j hj

/-- **C114, what the transmissions add.** In every cycle, if the parameters of a transmission and the commands of its
joints after the limits are moderate numbers, the actuator commands amount to exactly one number for each of these joints
that is moved with commands of the kind, at most 2^-49 of the terms that are added up on the way from its command after
the limits. -/
theorem c114_sent (x : Seen (Flt A)) (hx : x ∈ ((World.start r m).run (.double A) nd ops).1) (q : Cmd) (n : String)
    (hd : Driven L0 infos q n) (s : ℚ) (hs : Terms stod infos r q x.record n s) :
    ∃ v y, (∃ a, r.jointCommand q n x.record.limited = some a ∧ Is a v) ∧ |y - v| ≤ (2 ^ 49)⁻¹ * s ∧
      ∀ z, Sends64 stod L0 infos q x.record n z ↔ z = y := by
  obtain ⟨hpos, hto, -⟩ := hardware_runs64 nd ha m ops hops
  obtain ⟨k, hk⟩ := List.getElem?_of_mem hx
  obtain ⟨h1, h2⟩ := hto k x hk
  exact Described.c113_sent nd ha _ hpos m k x.hardware x.record h1 h2 q n hd s hs

/-- **C114, joints without limits.** If a joint is not listed for the kind of command, then in every cycle its command after
the limits is what the calls of the controllers left, bit by bit. -/
theorem c114_free (x : Seen (Flt A)) (hx : x ∈ ((World.start r m).run (.double A) nd ops).1) (q : Cmd) (n : String)
    (hfree : ∀ u, (q, n, u) ∉ joints) : r.jointCommand q n x.record.limited = r.jointCommand q n x.record.wished := by
  obtain ⟨hpos, hto, -⟩ := hardware_runs64 nd ha m ops hops
  obtain ⟨k, hk⟩ := List.getElem?_of_mem hx
  obtain ⟨h1, h2⟩ := hto k x hk
  exact Described.c113_free nd ha _ hpos m k x.hardware x.record h1 h2 q n hfree

/-- **C114, NaN comes from controllers only.** Whatever the limits are and the sensors report, the limits turn no number into
NaN and no NaN into a number. So if the command of a joint is a number at first and no call of a controller turns it
from a number into NaN, it is a number in every cycle. -/
theorem c114_nan_source (q : Cmd) (n : String) :
    (∀ x ∈ ((World.start r m).run (.double A) nd ops).1, Number r q n x.record.limited ↔ Number r q n x.record.wished) ∧
    (Number r q n m → (∀ i, .cycle i ∈ ops → ∀ c k m', Number r q n m' → Number r q n (i.act c k m')) →
      ∀ x ∈ ((World.start r m).run (.double A) nd ops).1, Number r q n x.record.limited) := by
  obtain ⟨hpos, hto, -⟩ := hardware_runs64 nd ha m ops hops
  have one : ∀ x ∈ ((World.start r m).run (.double A) nd ops).1,
      (Number r q n x.record.limited ↔ Number r q n x.record.wished) := by
    intro x hx
    obtain ⟨k, hk⟩ := List.getElem?_of_mem hx
    obtain ⟨h1, h2⟩ := hto k x hk
    have := Described.c113_nan_iff nd ha _ hpos m k x.hardware x.record h1 h2 q n
    rw [← not_iff_not, not_number, not_number]
    exact this
  refine ⟨one, fun hm hact => ?_⟩
  obtain ⟨-, hin, -, hfacts, h5, -⟩ := start_refines (double_lawful A) nd ha m ops hops.good hops.honest (seen64 m ops hops)
  obtain ⟨-, -, hk3⟩ := c114_kept nd ha m ops hops q n
  have kept : ∀ x ∈ ((World.start r m).run (.double A) nd ops).1, Number r q n x.start → Number r q n x.record.wished := by
    intro x hx hs
    have hcyc : .cycle x.input ∈ ops := by
      have := List.mem_map_of_mem (f := (·.input)) hx
      rw [hin] at this
      obtain ⟨op, hop, e⟩ := List.mem_filterMap.1 this
      cases op with
      | service o => cases e
      | cycle i => cases e; exact hop
    have hms : Number r q n x.record.measured := by
      intro v hv
      refine hs v ?_
      unfold Robot.jointCommand at hv ⊢
      cases hcell : r.loader.commandCell q n with
      | none => rw [hcell] at hv; cases hv
      | some a =>
        rw [hcell, Option.map_some, ((hfacts x hx).commands q n a hcell).1] at hv
        exact hv
    rw [(hfacts x hx).wished]
    generalize x.record.measured = m' at hms
    generalize x.events = es
    induction es generalizing m' with
    | nil => exact hms
    | cons e es ih =>
      refine ih _ ?_
      cases e <;> first | exact hact _ hcyc _ _ _ hms | exact hms
  have all : ∀ (k : Nat) x, ((World.start r m).run (.double A) nd ops).1[k]? = some x → Number r q n x.record.limited := by
    intro k
    induction k with
    | zero =>
      intro x hx
      have hx' := List.mem_of_getElem? hx
      exact (one x hx').2 (kept x hx' (by rw [h5 x hx]; exact hm))
    | succ k ih =>
      intro y hy
      have hy' := List.mem_of_getElem? hy
      have hlt := (List.getElem?_eq_some_iff.1 hy).1
      have hx := List.getElem?_eq_getElem (l := ((World.start r m).run (.double A) nd ops).1) (i := k) (by omega)
      refine (one y hy').2 (kept y hy' fun v hv => ih _ hx v ?_)
      rw [← hk3 k _ y hx hy]
      exact hv
  intro x hx
  obtain ⟨k, hk⟩ := List.getElem?_of_mem hx
  exact all k x hk

/-- **C114, NaN reaches the hardware.** If the calls of the controllers leave NaN as the command of a joint of a transmission
that the description commands, then whatever the limits are, every actuator that moves with this joint gets NaN. -/
theorem c114_nan_sent (x : Seen (Flt A)) (hx : x ∈ ((World.start r m).run (.double A) nd ops).1) (q : Cmd) (j : TransInfo)
    (hj : j ∈ infos) (hc : j.Commanded q) (hcm : L0.HasCommands q j) (t : Trans (Flt A))
    (hlt : loadTransmission stod j = .ok (some t)) (z y : Nat) (n a : String) (hn : j.jointNames[y]? = some n)
    (hact : j.actuatorNames[z]? = some a) (hdep : DependsOn t z y) (hnan : ¬Number r q n x.record.wished) :
    ∃ e, (L0.actuatorCell q a).map x.record.sent = some e ∧ IsNaN e := by
  obtain ⟨hpos, hto, -⟩ := hardware_runs64 nd ha m ops hops
  obtain ⟨k, hk⟩ := List.getElem?_of_mem hx
  obtain ⟨h1, h2⟩ := hto k x hk
  exact Described.c113_nan_sent nd ha _ hpos m k x.hardware x.record h1 h2 q j hj hc hcm t hlt z y n a hn hact hdep
    (not_number.1 hnan)

/-- **C114, NaN stays.** If the command of a joint is NaN after the limits in some cycle and no controller that holds a handle
for it is called in the cycles that follow (for example because the controller that left it has been stopped), it is NaN
in all of them, before and after the limits. -/
theorem c114_nan_stays (q : Cmd) (n : String) (k d : Nat) (x y : Seen (Flt A))
    (hx : ((World.start r m).run (.double A) nd ops).1[k]? = some x)
    (hy : ((World.start r m).run (.double A) nd ops).1[k + 1 + d]? = some y) (hnan : ¬Number r q n x.record.limited)
    (hno : ∀ i z, k < i → i ≤ k + 1 + d → ((World.start r m).run (.double A) nd ops).1[i]? = some z →
      ∀ c k, .cb c k ∈ z.events → ¬Holds r.loader z.before c q n) :
    ¬Number r q n y.record.wished ∧ ¬Number r q n y.record.limited := by
  obtain ⟨hk1, -, hk3⟩ := c114_kept nd ha m ops hops q n
  have one : ∀ (i : Nat) (x y : Seen (Flt A)), ((World.start r m).run (.double A) nd ops).1[i]? = some x →
      ((World.start r m).run (.double A) nd ops).1[i + 1]? = some y → ¬Number r q n x.record.limited →
      (∀ c k, .cb c k ∈ y.events → ¬Holds r.loader y.before c q n) →
      ¬Number r q n y.record.wished ∧ ¬Number r q n y.record.limited := by
    intro i x y hx hy hnan hno
    have hy' := List.mem_of_getElem? hy
    have hw : ¬Number r q n y.record.wished := by
      rw [not_number] at hnan ⊢
      rw [hk1 y hy' hno, hk3 i x y hx hy]
      exact hnan
    exact ⟨hw, fun h => hw (((c114_nan_source nd ha m ops hops q n).1 y hy').1 h)⟩
  induction d generalizing y with
  | zero => exact one k x y hx hy hnan (hno (k + 1) y (by omega) (by omega) hy)
  | succ d ih =>
    have hlt : k + 1 + d < ((World.start r m).run (.double A) nd ops).1.length := by
      have := (List.getElem?_eq_some_iff.1 hy).1
      omega
    have hz := List.getElem?_eq_getElem hlt
    exact one (k + 1 + d) _ y hz hy (ih _ hz fun i z h1 h2 => hno i z h1 (by omega)).2
      (hno (k + 1 + (d + 1)) y (by omega) (by omega) hy)

/-- **C114, position limits.** As C113: provided the measured position of the joint is a number in its range whenever the
limits start from it, then in every cycle in which the controllers leave a number as its command, also in those in
which controllers are switched, the command after the limits is a finite number exactly within the range of the URDF,
at most `velocity * period` away from what the limits started from, as computed; the actuator commands amount to a
position in the range, up to the rounding of the transmissions; and a finite command that satisfies both is left as it
is. -/
theorem c114_position (n : String) (u : UrdfJoint (Dbl (Fl binary64)))
    (l : UrdfLimits (Fl binary64)) (hd : Driven L0 infos .position n) (hj : (.position, n, u) ∈ joints) (hl : HasLimits u l)
    (hk : r.kind .position = .posSat) (hfin : Ranged u → l.lower.Fin ∧ l.upper.Fin ∧ l.lower.1 ≤ l.upper.1)
    (hv : l.velocity.Fin ∧ 0 ≤ l.velocity.1)
    (hstart : ∀ k x, ((World.start r m).run (.double A) nd ops).1[k]? = some x →
      StartsOver r ((World.start r m).run (.double A) nd ops).1 n k →
      ∃ p : Fl binary64, r.jointValue .position n x.record.measured = some (Flt.fl p) ∧ p.Fin ∧ InUrdfRange u l p) :
    ∀ (k : Nat) x, ((World.start r m).run (.double A) nd ops).1[k]? = some x →
      ∀ c, r.jointCommand .position n x.record.wished = some (Flt.fl c) →
      ∃ o p t b : Fl binary64, r.jointCommand .position n x.record.limited = some (Flt.fl o) ∧ o.Fin ∧ InUrdfRange u l o ∧
        (Ranged u → SendsWithin64 stod L0 infos r .position x.record n l.lower.1 l.upper.1) ∧
        Before r ((World.start r m).run (.double A) nd ops).1 n k p ∧ x.input.period = Flt.fl t ∧
        (limitsArith A).mul l.velocity t = some b ∧ Within (limitsArith A) p b o ∧
        (c.Fin → InUrdfRange u l c → Within (limitsArith A) p b c → o = c) := by
  obtain ⟨hpos, hto, hof⟩ := hardware_runs64 nd ha m ops hops
  intro k x hx c hc
  obtain ⟨h1, h2⟩ := hto k x hx
  obtain ⟨o, p, t, b, g1, g2, g3, g4, g5, g6, g7, g8, g9⟩ := Described.c113_position nd ha _ hpos m n u l hd hj hl hk hfin hv
    (fun k rec hrec hs => by
      obtain ⟨x, hx, rfl⟩ := hof k rec hrec
      exact hstart k x hx ((startsOver64_iff n k).1 hs)) k x.hardware x.record h1 h2 c hc
  exact ⟨o, p, t, b, g1, g2, g3, g4, (before64_iff nd ha m ops hops n k p).1 g5, g6, g7, g8, g9⟩

/-- **C114, soft position limits.** As C113. -/
theorem c114_soft_position (n : String) (u : UrdfJoint (Dbl (Fl binary64)))
    (l : UrdfLimits (Fl binary64)) (s : UrdfSafety (Fl binary64)) (hd : Driven L0 infos .position n)
    (hj : (.position, n, u) ∈ joints) (hl : HasLimits u l) (hsl : HasSoftLimits u s) (hk : r.kind .position = .posSoft)
    (hv : l.velocity.Fin ∧ 0 ≤ l.velocity.1)
    (hS : Ranged u → s.softLower.Fin ∧ s.softUpper.Fin ∧ s.kPosition.Fin ∧ 0 < s.kPosition.1)
    (k : Nat) (x : Seen (Flt A)) (hx : ((World.start r m).run (.double A) nd ops).1[k]? = some x) (p c t : Fl binary64)
    (hp : Before r ((World.start r m).run (.double A) nd ops).1 n k p) (hfp : p.Fin) (hmax : Ranged u → p.1 ≤ l.upper.1)
    (hc : r.jointCommand .position n x.record.wished = some (Flt.fl c)) (het : x.input.period = Flt.fl t) :
    ∃ o v w low high, r.jointCommand .position n x.record.limited = some (Flt.fl o) ∧
      (limitsArith A).mul ((limitsArith A).neg l.velocity) t = some v ∧ (limitsArith A).mul l.velocity t = some w ∧
      (limitsArith A).add p v = some low ∧ (limitsArith A).add p w = some high ∧ low.1 ≤ o.1 ∧ o.1 ≤ high.1 ∧
      SendsWithin64 stod L0 infos r .position x.record n low.1 high.1 ∧
      (Ranged u → o.1 ≤ l.upper.1 ∧ SendsWithin64 stod L0 infos r .position x.record n low.1 l.upper.1 ∧
        (s.softUpper.1 ≤ p.1 → o.1 ≤ p.1) ∧ (p.1 ≤ s.softLower.1 → s.softLower.1 ≤ s.softUpper.1 → p.1 ≤ o.1)) := by
  obtain ⟨hpos, hto, -⟩ := hardware_runs64 nd ha m ops hops
  obtain ⟨h1, h2⟩ := hto k x hx
  exact Described.c113_soft_position nd ha _ hpos m n u l s hd hj hl hsl hk hv hS k x.hardware x.record h1 h2 p c t
    ((before64_iff nd ha m ops hops n k p).2 hp) hfp hmax hc het

/-- **C114, velocity limits.** As C113. -/
theorem c114_velocity (n : String) (u : UrdfJoint (Dbl (Fl binary64)))
    (l : UrdfLimits (Fl binary64)) (hd : Driven L0 infos .velocity n) (hj : (.velocity, n, u) ∈ joints) (hl : HasLimits u l)
    (hk : r.kind .velocity = .velSat) (hV : 0 ≤ l.velocity.1)
    (x : Seen (Flt A)) (hx : x ∈ ((World.start r m).run (.double A) nd ops).1) (c : Fl binary64)
    (hc : r.jointCommand .velocity n x.record.wished = some (Flt.fl c)) :
    ∃ o : Fl binary64, r.jointCommand .velocity n x.record.limited = some (Flt.fl o) ∧ |o.1| ≤ l.velocity.1 ∧
      SendsWithin64 stod L0 infos r .velocity x.record n (-l.velocity.1) l.velocity.1 ∧ (|c.1| ≤ l.velocity.1 → o = c) := by
  obtain ⟨hpos, hto, -⟩ := hardware_runs64 nd ha m ops hops
  obtain ⟨k, hk'⟩ := List.getElem?_of_mem hx
  obtain ⟨h1, h2⟩ := hto k x hk'
  exact Described.c113_velocity nd ha _ hpos m n u l hd hj hl hk hV k x.hardware x.record h1 h2 c hc

/-- **C114, soft velocity limits.** As C113. -/
theorem c114_soft_velocity (n : String) (u : UrdfJoint (Dbl (Fl binary64)))
    (l : UrdfLimits (Fl binary64)) (s : UrdfSafety (Fl binary64)) (hd : Driven L0 infos .velocity n)
    (hj : (.velocity, n, u) ∈ joints) (hl : HasLimits u l) (hsl : HasSoftLimits u s) (hk : r.kind .velocity = .velSoft)
    (hV : 0 ≤ l.velocity.1) (hS : Ranged u → s.softLower.Fin ∧ s.softUpper.Fin ∧ s.kPosition.Fin ∧ 0 < s.kPosition.1)
    (x : Seen (Flt A)) (hx : x ∈ ((World.start r m).run (.double A) nd ops).1) (p v c : Fl binary64)
    (hp : r.jointValue .position n x.record.measured = some (Flt.fl p)) (hfp : Ranged u → p.Fin)
    (hv : r.jointValue .velocity n x.record.measured = some (Flt.fl v))
    (hc : r.jointCommand .velocity n x.record.wished = some (Flt.fl c)) :
    ∃ o : Fl binary64, r.jointCommand .velocity n x.record.limited = some (Flt.fl o) ∧ |o.1| ≤ l.velocity.1 ∧
      SendsWithin64 stod L0 infos r .velocity x.record n (-l.velocity.1) l.velocity.1 ∧
      (Ranged u → (s.softUpper.1 ≤ p.1 → o.1 ≤ 0 ∧ SendsWithin64 stod L0 infos r .velocity x.record n (-l.velocity.1) 0) ∧
        (p.1 ≤ s.softLower.1 → s.softLower.1 ≤ s.softUpper.1 →
          0 ≤ o.1 ∧ SendsWithin64 stod L0 infos r .velocity x.record n 0 l.velocity.1)) := by
  obtain ⟨hpos, hto, -⟩ := hardware_runs64 nd ha m ops hops
  obtain ⟨k, hk'⟩ := List.getElem?_of_mem hx
  obtain ⟨h1, h2⟩ := hto k x hk'
  exact Described.c113_soft_velocity nd ha _ hpos m n u l s hd hj hl hsl hk hV hS k x.hardware x.record h1 h2 p v c hp hfp hv hc

/-- **C114, effort limits.** As C113. -/
theorem c114_effort (n : String) (u : UrdfJoint (Dbl (Fl binary64)))
    (l : UrdfLimits (Fl binary64)) (hd : Driven L0 infos .effort n) (hj : (.effort, n, u) ∈ joints) (hl : HasLimits u l)
    (hk : r.kind .effort = .effSat) (hE : 0 ≤ l.effort.1) (hV : 0 ≤ l.velocity.1) (hP : Ranged u → l.lower.1 ≤ l.upper.1)
    (x : Seen (Flt A)) (hx : x ∈ ((World.start r m).run (.double A) nd ops).1) (c : Fl binary64)
    (hc : r.jointCommand .effort n x.record.wished = some (Flt.fl c)) :
    ∃ o : Fl binary64, r.jointCommand .effort n x.record.limited = some (Flt.fl o) ∧ |o.1| ≤ l.effort.1 ∧
      SendsWithin64 stod L0 infos r .effort x.record n (-l.effort.1) l.effort.1 ∧
      (Ranged u → ∀ p : Fl binary64, r.jointValue .position n x.record.measured = some (Flt.fl p) →
        (p.1 < l.lower.1 → 0 ≤ o.1 ∧ SendsWithin64 stod L0 infos r .effort x.record n 0 l.effort.1) ∧
        (l.upper.1 < p.1 → o.1 ≤ 0 ∧ SendsWithin64 stod L0 infos r .effort x.record n (-l.effort.1) 0)) ∧
      (∀ v : Fl binary64, r.jointValue .velocity n x.record.measured = some (Flt.fl v) →
        (v.1 < -l.velocity.1 → 0 ≤ o.1 ∧ SendsWithin64 stod L0 infos r .effort x.record n 0 l.effort.1) ∧
        (l.velocity.1 < v.1 → o.1 ≤ 0 ∧ SendsWithin64 stod L0 infos r .effort x.record n (-l.effort.1) 0)) ∧
      (|c.1| ≤ l.effort.1 →
        (Ranged u → ∀ p : Fl binary64, r.jointValue .position n x.record.measured = some (Flt.fl p) → InUrdfRange u l p) →
        (∀ v : Fl binary64, r.jointValue .velocity n x.record.measured = some (Flt.fl v) → |v.1| ≤ l.velocity.1) → o = c) := by
  obtain ⟨hpos, hto, -⟩ := hardware_runs64 nd ha m ops hops
  obtain ⟨k, hk'⟩ := List.getElem?_of_mem hx
  obtain ⟨h1, h2⟩ := hto k x hk'
  exact Described.c113_effort nd ha _ hpos m n u l hd hj hl hk hE hV hP k x.hardware x.record h1 h2 c hc

/-- **C114, soft effort limits.** As C113. -/
theorem c114_soft_effort (n : String) (u : UrdfJoint (Dbl (Fl binary64)))
    (l : UrdfLimits (Fl binary64)) (s : UrdfSafety (Fl binary64)) (hd : Driven L0 infos .effort n)
    (hj : (.effort, n, u) ∈ joints) (hl : HasLimits u l) (hsl : HasSoftLimits u s) (hk : r.kind .effort = .effSoft)
    (hV : l.velocity.Fin ∧ 0 ≤ l.velocity.1) (hE : 0 ≤ l.effort.1)
    (hS : Ranged u → s.softLower.Fin ∧ s.softUpper.Fin ∧ s.kPosition.Fin ∧ 0 < s.kPosition.1)
    (hkv : s.kVelocity.Fin ∧ 0 < s.kVelocity.1)
    (x : Seen (Flt A)) (hx : x ∈ ((World.start r m).run (.double A) nd ops).1) (p v c : Fl binary64)
    (hp : r.jointValue .position n x.record.measured = some (Flt.fl p)) (hfp : Ranged u → p.Fin)
    (hv : r.jointValue .velocity n x.record.measured = some (Flt.fl v)) (hfv : v.Fin)
    (hc : r.jointCommand .effort n x.record.wished = some (Flt.fl c)) :
    ∃ o : Fl binary64, r.jointCommand .effort n x.record.limited = some (Flt.fl o) ∧ |o.1| ≤ l.effort.1 ∧
      SendsWithin64 stod L0 infos r .effort x.record n (-l.effort.1) l.effort.1 ∧
      (l.velocity.1 ≤ v.1 ∨ (Ranged u ∧ s.softUpper.1 ≤ p.1 ∧ 0 ≤ v.1) →
        o.1 ≤ 0 ∧ SendsWithin64 stod L0 infos r .effort x.record n (-l.effort.1) 0) ∧
      (v.1 ≤ -l.velocity.1 ∨ (Ranged u ∧ p.1 ≤ s.softLower.1 ∧ s.softLower.1 ≤ s.softUpper.1 ∧ v.1 ≤ 0) →
        0 ≤ o.1 ∧ SendsWithin64 stod L0 infos r .effort x.record n 0 l.effort.1) := by
  obtain ⟨hpos, hto, -⟩ := hardware_runs64 nd ha m ops hops
  obtain ⟨k, hk'⟩ := List.getElem?_of_mem hx
  obtain ⟨h1, h2⟩ := hto k x hk'
  exact Described.c113_soft_effort nd ha _ hpos m n u l s hd hj hl hsl hk hV hE hS hkv k x.hardware x.record h1 h2 p v c hp hfp hv
    hfv hc

/-- **C114, closed loop.** As C113. -/
theorem c114_reached (n : String) (hd : Driven L0 infos .position n) (k : Nat) (x y : Seen (Flt A))
    (hx : ((World.start r m).run (.double A) nd ops).1[k]? = some x)
    (hy : ((World.start r m).run (.double A) nd ops).1[k + 1]? = some y) (hf : Reaches L0 infos n x.record.sent y.input.sense)
    (s : ℚ) (hs : Terms stod infos r .position x.record n s) (o : Fl binary64)
    (ho : r.jointCommand .position n x.record.limited = some (Flt.fl o)) :
    ∃ p : Fl binary64, r.jointValue .position n y.record.measured = some (Flt.fl p) ∧ |p.1 - o.1| ≤ (2 ^ 49)⁻¹ * s := by
  obtain ⟨hpos, hto, -⟩ := hardware_runs64 nd ha m ops hops
  obtain ⟨h1, h2⟩ := hto k x hx
  obtain ⟨h3, h4⟩ := hto (k + 1) y hy
  exact Described.c113_reached nd ha _ hpos m n hd k x.hardware y.hardware x.record y.record h1 h2 h3 h4 hf s hs o ho

end

/-! ### A concrete case -/

open Verif.Described (exActuators exThree exKind exThree_driven exStod64 exListed64 exUrdf64 exZero exOne exThree64_case
  exOne_val exUrdf64_limits)
open Verif.Transmission.Loader (exInfos)

section

variable {A : Machine binary64}

/-- Three, as a double. -/
def exThrice : Fl binary64 := .int 3 (by decide)

/-- The controller with identity 0 writes 3 as the velocity of "j3" when it is updated. -/
def exAct (r : Robot (Flt A) (Fl binary64)) : CId → Callback → Mem (Flt A) → Mem (Flt A) := fun c k m a =>
  if c = 0 ∧ k = .update ∧ r.loader.commandCell .velocity "j3" = some a then Flt.fl exThrice else m a

/-- A cycle of one second in which the actuators are at zero. -/
def exCycle64 (r : Robot (Flt A) (Fl binary64)) : Op (Flt A) :=
  .cycle ⟨fun _ => Flt.fl exZero, 0, false, ⟨.done, .done, fun _ _ => (.done, .done)⟩, exAct r, false, Flt.fl exOne⟩

/-- The controller "v" asks for the velocity of "j3". -/
def exReq64 : LoadReq := ⟨true, some "T", [⟨["T"], fun _ => .object⟩], sysClass (interfaceName .velocity) "j3"⟩

/-- "v" is loaded and started, and two more cycles follow. -/
def exOps64 (r : Robot (Flt A) (Fl binary64)) : List (Op (Flt A)) :=
  [.service (.load "v" exReq64), exCycle64 r, .service (.poll {} 0), .service (.switch ⟨["v"], [], 2, false, 0⟩ 0 true),
    exCycle64 r, .service (.poll {} 0), exCycle64 r, exCycle64 r]

/-- What the manager does. -/
theorem exOps64_load (r : Robot (Flt A) (Fl binary64)) (m : Mem (Flt A)) {a : Nat}
    (ha : r.loader.commandCell .velocity "j3" = some a) :
    ((World.start r m).sys.step stdEnv checkForConflict (.load "v" exReq64)).mgr =
      Mgr.init.load "v" (exReq64.env (some [⟨interfaceName .velocity, ["j3"]⟩])) ∧
    ((World.start r m).sys.step stdEnv checkForConflict (.load "v" exReq64)).held 0 = [⟨true, ⟨"j3", a⟩⟩] := by
  obtain ⟨o, h1, h2, h3⟩ := (offers_reached (L := r.loader) (s := (World.start r m).sys) ⟨[], by simp, rfl⟩).get .velocity
  obtain ⟨i1, -⟩ := load_one (s := (World.start r m).sys) (name := "v") (r := exReq64) (by
    show Mgr.init.reachesInit "v" exReq64 = true
    decide) h1 rfl
  rw [h3, h2] at i1
  obtain ⟨g1, t, -, g3⟩ := i1 ⟨"j3", a⟩ (by rw [ha]; rfl)
  exact ⟨g1, g3⟩

theorem exOps64_proper (r : Robot (Flt A) (Fl binary64)) (m : Mem (Flt A)) (ha : r.loader.commandCell .velocity "j3" ≠ none) :
    Proper64 r m (exOps64 r) := by
  obtain ⟨a, ha⟩ := Option.ne_none_iff_exists'.1 ha
  have hheld := (exOps64_load r m ha).2
  have hon : ∀ s : Sys, s.held 0 = [⟨true, ⟨"j3", a⟩⟩] → ∀ i, exCycle64 r = .cycle i →
      ∀ c k m a, ¬s.CanWrite (fun d => [d]) c a → i.act c k m a = m a := by
    rintro s hs i ⟨⟩ c k m b hno
    refine if_neg ?_
    rintro ⟨rfl, -, hb⟩
    refine hno ⟨⟨true, ⟨"j3", a⟩⟩, ?_, rfl, ?_⟩
    · rw [hs]; exact List.mem_singleton.2 rfl
    · rw [ha] at hb; exact List.mem_singleton.2 (Option.some.inj hb).symm
  refine ⟨?_, ?_, ?_⟩
  · have load : SysOp.Good (.load "v" exReq64) := sysClass_proper (interfaceName .velocity) "j3"
    have poll : SysOp.Good (.poll {} 0) := ⟨rfl, rfl⟩
    intro op hop
    simp only [exOps64, List.mem_cons, List.not_mem_nil, or_false] at hop
    rcases hop with rfl | rfl | rfl | rfl | rfl | rfl | rfl | rfl
    · exact ⟨load, by simp⟩
    · trivial
    · exact ⟨poll, by simp⟩
    · exact ⟨trivial, by simp⟩
    · trivial
    · exact ⟨poll, by simp⟩
    · trivial
    · trivial
  · exact ⟨by rintro i ⟨⟩, hon _ hheld, by rintro i ⟨⟩, by rintro i ⟨⟩, hon _ hheld, by rintro i ⟨⟩, hon _ hheld,
      hon _ hheld, trivial⟩
  · intro i hi
    have : i.period = Flt.fl exOne := by
      simp only [exOps64, List.mem_cons, List.not_mem_nil, or_false, reduceCtorEq, false_or] at hi
      rcases hi with h | h | h | h <;> (cases h; rfl)
    exact ⟨_, this, Limits.Fl.int_fin _ _, by rw [exOne_val]; norm_num⟩

/-- The case of C114: the robot can be put together, everything is used properly, the joints are moved by commands of
their kind, and the controller never commands NaN. In the third cycle the controller is updated and commands 3; the
limits leave at most 1. -/
example (nd : Bool) : ∃ (r : Robot (Flt A) (Fl binary64)) (m : Mem (Flt A)),
    Assembled (exStod64 (A := A)) (limitsArith A) exActuators exThree (exInfos exThree) exListed64 r ∧ r.kind = exKind ∧
    Proper64 r m (exOps64 r) ∧ Driven (exActuators (T := Flt A)) (exInfos exThree) .velocity "j3" ∧
    (.velocity, "j3", exUrdf64) ∈ exListed64 ∧
    Number r .velocity "j3" m ∧
    (∀ i, .cycle i ∈ exOps64 r → ∀ c k m', Number r .velocity "j3" m' → Number r .velocity "j3" (i.act c k m')) ∧
    ∃ x, ((World.start r m).run (.double A) nd (exOps64 r)).1[2]? = some x ∧ x.events = [.cb 0 .update] ∧
      r.jointCommand .velocity "j3" x.record.wished = some (Flt.fl exThrice) ∧
      ∃ o : Fl binary64, r.jointCommand .velocity "j3" x.record.limited = some (Flt.fl o) ∧ |o.1| ≤ 1 := by
  obtain ⟨r, ha, hkind⟩ := exThree64_case (A := A) exKind
  obtain ⟨-, -, hd⟩ := exThree_driven (T := Flt A)
  have hcell := (Described.c111_init (joints := exListed64) (limitsArith A) ha.toBase exKind).2.2 _ _ hd
  let m : Mem (Flt A) := fun _ => Flt.fl exZero
  have hops := exOps64_proper r m hcell
  have hmem : (.velocity, "j3", exUrdf64) ∈ exListed64 := by simp [exListed64]
  obtain ⟨a, hcell⟩ := Option.ne_none_iff_exists'.1 hcell
  have hcmd : ∀ m, r.jointCommand .velocity "j3" m = some (m a) := fun m => by
    unfold Robot.jointCommand
    rw [hcell]
    rfl
  refine ⟨r, m, ha, hkind, hops, hd, hmem, ?_, ?_, ?_⟩
  · intro v hv
    rw [hcmd] at hv
    rw [← Option.some.inj hv]
    exact fun h => by cases h
  · intro i hi c k m' hm' v hv
    have : i.act = exAct r := by
      simp only [exOps64, List.mem_cons, List.not_mem_nil, or_false, reduceCtorEq, false_or] at hi
      rcases hi with h | h | h | h <;> (cases h; rfl)
    rw [hcmd, this, exAct] at hv
    split at hv
    · rw [← Option.some.inj hv]
      exact fun h => by cases h
    · exact hm' v (by rw [hcmd]; exact hv)
  · obtain ⟨-, hin, hbefore⟩ := c114_completes nd ha m _ hops
    have hlen : ((World.start r m).run (.double A) nd (exOps64 r)).1.length = 4 := by
      rw [← List.length_map (f := (·.input)), hin]
      rfl
    have hx := List.getElem?_eq_getElem (l := ((World.start r m).run (.double A) nd (exOps64 r)).1) (i := 2) (by omega)
    generalize ((World.start r m).run (.double A) nd (exOps64 r)).1[2] = x at hx
    have hx' := List.mem_of_getElem? hx
    have hinput : some x.input = (cycles (exOps64 r))[2]? := by
      rw [← hin, List.getElem?_map, hx]
      rfl
    have hinput : x.input =
        ⟨fun _ => Flt.fl exZero, 0, false, ⟨.done, .done, fun _ _ => (.done, .done)⟩, exAct r, false, Flt.fl exOne⟩ :=
      Option.some.inj hinput
    obtain ⟨pre, post, e, hc, hb, haft⟩ := hbefore 2 x hx
    have hpre : pre = (exOps64 r).take 6 := by
      have hp : pre = (exOps64 r).take pre.length := by rw [e]; simp
      have : pre.length = 6 := by
        have hle : pre.length < 8 := by
          have : (exOps64 r).length = pre.length + (post.length + 1) := by rw [e]; simp
          have : (exOps64 r).length = 8 := rfl
          omega
        generalize hl : pre.length = l at hp hle
        rw [hp] at hc
        have hnext : (exOps64 r)[l]? = some (.cycle x.input) := by rw [e, ← hl]; simp
        have : l = 0 ∨ l = 1 ∨ l = 2 ∨ l = 3 ∨ l = 4 ∨ l = 5 ∨ l = 6 ∨ l = 7 := by omega
        rcases this with rfl | rfl | rfl | rfl | rfl | rfl | rfl | rfl
        · cases hc
        · cases hc
        · cases hc
        · cases hc
        · cases hc
        · cases hnext
        · rfl
        · cases hc
      rw [this] at hp
      exact hp
    have hev : x.events = [.cb 0 .update] := by
      obtain ⟨hmgr, -⟩ := exOps64_load r m hcell
      have h1 : x.before.mgr = ((((((Mgr.init.load "v" (exReq64.env (some [⟨interfaceName .velocity, ["j3"]⟩]))).update 0 false
          ⟨.done, .done, fun _ _ => (.done, .done)⟩).poll {} 0).switch checkForConflict ⟨["v"], [], 2, false, 0⟩ 0 true).update 0 false
          ⟨.done, .done, fun _ _ => (.done, .done)⟩).poll {} 0) := by
        rw [hb, hpre, ← hmgr]
        rfl
      have h2 : x.after.mgr = x.before.mgr.update 0 false ⟨.done, .done, fun _ _ => (.done, .done)⟩ := by
        rw [haft, hinput]
        rfl
      unfold Seen.events
      rw [h2, h1]
      decide +kernel
    have hw : r.jointCommand .velocity "j3" x.record.wished = some (Flt.fl exThrice) := by
      rw [(c114_commands nd ha m _ hops x hx').1, hev, hinput, hcmd]
      exact congrArg some (if_pos ⟨rfl, rfl, hcell⟩)
    obtain ⟨o, ho, hle, -⟩ := c114_velocity nd ha m _ hops "j3" exUrdf64 _ hd hmem exUrdf64_limits.1 (by rw [hkind]; rfl)
      (by rw [exOne_val]; norm_num) x hx' exThrice hw
    exact ⟨x, hx, hev, hw, o, ho, by rw [exOne_val] at hle; exact hle⟩

end

end Verif.Whole
