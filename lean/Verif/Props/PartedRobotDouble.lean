import Verif.Props.PartedRobot
import Verif.Props.WholeRobotDouble

/-!
Property C116 with doubles: what holds for each part as for a robot of its own (C113). The closed loop with exact numbers is here as
well.
-/

namespace Verif.Parted

open Verif.Transmission (Mem Loader Cmd Doc TransInfo Trans loadTransmission Is IsNaN MeansAll SameTrans jointScale DependsOn)
open Verif.Limits (Machine Flt Fl Arith Dbl binary64 UrdfJoint UrdfLimits UrdfSafety Within)
open Verif.Cycle (Record GoodPeriod limitsArith)
open Verif.Described (Robot Setting Assembled exact_lawful double_lawful Sends Sends64 SendsWithin64 Terms InUrdfRange Driven
  HasLimits HasSoftLimits Ranged Reaches Allowed Sane)
open Verif.Whole (Input Seen)

section

variable {K : Type} [Field K] [LinearOrder K] [IsStrictOrderedRing K] {stod : String → Option K} {L0 : Loader K} {d : Doc}
  {infos : List TransInfo} {joints : List (Cmd × String × UrdfJoint (Dbl K))} {r : Robot K K} {huge : K} {rs : List (Robot K K)}
  {m : Mem K} {ops : List (Whole.Op K)}

variable (nd : Bool) (hops : Proper stod (.exact huge) rs m ops) (k : Nat) (hr : rs[k]? = some r)
  (ha : Assembled stod (.exact huge) L0 d infos joints r)

include hops hr ha

/-- **C116, closed loop.** If the actuators of a part reach the commanded positions by the next cycle, a joint of that part that
starts within the range of its description is measured within it for ever and moves by at most `velocity * period` per cycle,
whatever controllers are loaded, started, stopped and unloaded, whatever they command, and whatever the other parts do. -/
theorem c116_closed_loop (n : String) (u : UrdfJoint (Dbl K)) (l : UrdfLimits K) (hd : Driven L0 infos .position n)
    (hj : (.position, n, u) ∈ joints) (hl : HasLimits u l) (hs : ∀ i, .cycle i ∈ ops → Sane (r.kind .position) u l i.period)
    (hf : ∀ j x y, ((Crew.start rs m).run (.exact huge) nd ops).1[j]? = some x →
      ((Crew.start rs m).run (.exact huge) nd ops).1[j + 1]? = some y →
      Reaches L0 infos n (own rs.length k x.record.sent) (own rs.length k y.input.sense))
    (hstart : ∀ x y, ((Crew.start rs m).run (.exact huge) nd ops).1[0]? = some x →
      r.jointValue .position n (own rs.length k x.record.measured) = some y → Allowed huge u l y) :
    ∀ (j : Nat) x, ((Crew.start rs m).run (.exact huge) nd ops).1[j]? = some x →
      ∃ v, r.jointValue .position n (own rs.length k x.record.measured) = some v ∧ Allowed huge u l v ∧
        ∀ y, ((Crew.start rs m).run (.exact huge) nd ops).1[j + 1]? = some y →
          ∃ v', r.jointValue .position n (own rs.length k y.record.measured) = some v' ∧
            Sends stod L0 infos .position (ownRecord rs.length k x.record) n v' ∧ |v' - v| ≤ l.velocity * x.input.period := by
  obtain ⟨hin, hto, hof⟩ := part_run (exact_lawful huge) nd hops k r hr
  intro j x hx
  obtain ⟨h1, h2⟩ := hto j x hx
  obtain ⟨v, g1, g2, g3⟩ := Described.c111_closed_loop nd huge ha _ (part_positive nd hops k hr) (own rs.length k m) n u l hd hj hl
    (fun i hi => by obtain ⟨j, hj, e⟩ := hin i hi; rw [e]; exact hs j hj)
    (fun j i' rec hi hrec => by
      obtain ⟨x, hx, rfl⟩ := hof j rec hrec
      rw [List.getElem?_map] at hi
      obtain ⟨y, hy, rfl⟩ := Option.map_eq_some_iff.1 hi
      exact hf j x y hx hy)
    (fun rec y hrec hy => by
      obtain ⟨x, hx, rfl⟩ := hof 0 rec hrec
      exact hstart x y hx hy) j _ _ h1 h2
  exact ⟨v, g1, g2, fun y hy => g3 _ (hto (j + 1) y hy).2⟩

end

section

variable {A : Machine binary64} {stod : String → Option (Flt A)} {L0 : Loader (Flt A)} {d : Doc} {infos : List TransInfo}
  {joints : List (Cmd × String × UrdfJoint (Dbl (Fl binary64)))} {r : Robot (Flt A) (Fl binary64)}
  {rs : List (Robot (Flt A) (Fl binary64))} {m : Mem (Flt A)} {ops : List (Whole.Op (Flt A))}

variable (nd : Bool) (hops : Proper stod (.double A) rs m ops) (ht : ∀ i, .cycle i ∈ ops → GoodPeriod i.period) (k : Nat)
  (hr : rs[k]? = some r) (ha : Assembled stod (limitsArith A) L0 d infos joints r)

include hops ht hr ha

/-- **C116, what is measured, with doubles.** As C113, for every part. -/
theorem c116_measured_double (x : Seen (Flt A)) (hx : x ∈ ((Crew.start rs m).run (.double A) nd ops).1) (j : TransInfo)
    (hj : j ∈ infos) :
    ∃ t, loadTransmission stod j = .ok (some t) ∧ ∀ q, ∃ v, L0.actuatorValues q j.actuatorNames (own rs.length k x.input.sense) =
        some v ∧
      ∀ (z : Nat) n, j.jointNames[z]? = some n → r.jointValue q n (own rs.length k x.record.measured) = (t.jointsFrom q v)[z]? ∧
        ∀ t' xs, SameTrans t t' → MeansAll v xs → ∃ a y w s, r.jointValue q n (own rs.length k x.record.measured) = some a ∧
          Is a y ∧ (t'.jointsFrom q xs)[z]? = some w ∧ (jointScale q t' (xs.map abs))[z]? = some s ∧
          |y - w| ≤ (2 ^ 49)⁻¹ * s := by
  obtain ⟨i, hi⟩ := List.getElem?_of_mem hx
  obtain ⟨h1, h2⟩ := (part_run (double_lawful A) nd hops k r hr).2.1 i x hi
  exact Described.c113_measured nd ha _ (part_good nd hops ht k hr) _ i _ _ h1 h2 j hj

/-- **C116, what the transmissions add, with doubles.** As C113, for every part. -/
theorem c116_sent_double (x : Seen (Flt A)) (hx : x ∈ ((Crew.start rs m).run (.double A) nd ops).1) (q : Cmd) (n : String)
    (hd : Driven L0 infos q n) (s : ℚ) (hs : Terms stod infos r q (ownRecord rs.length k x.record) n s) :
    ∃ v y, (∃ a, r.jointCommand q n (own rs.length k x.record.limited) = some a ∧ Is a v) ∧ |y - v| ≤ (2 ^ 49)⁻¹ * s ∧
      ∀ z, Sends64 stod L0 infos q (ownRecord rs.length k x.record) n z ↔ z = y := by
  obtain ⟨i, hi⟩ := List.getElem?_of_mem hx
  obtain ⟨h1, h2⟩ := (part_run (double_lawful A) nd hops k r hr).2.1 i x hi
  exact Described.c113_sent nd ha _ (part_good nd hops ht k hr) _ i _ _ h1 h2 q n hd s hs

/-- **C116, joints without limits, with doubles.** What the limits leave as the command of a joint that is not listed is what the
controllers left, bit by bit. -/
theorem c116_free_double (x : Seen (Flt A)) (hx : x ∈ ((Crew.start rs m).run (.double A) nd ops).1) (q : Cmd) (n : String)
    (hfree : ∀ u, (q, n, u) ∉ joints) :
    r.jointCommand q n (own rs.length k x.record.limited) = r.jointCommand q n (own rs.length k x.record.wished) := by
  obtain ⟨i, hi⟩ := List.getElem?_of_mem hx
  obtain ⟨h1, h2⟩ := (part_run (double_lawful A) nd hops k r hr).2.1 i x hi
  exact Described.c113_free nd ha _ (part_good nd hops ht k hr) _ i _ _ h1 h2 q n hfree

/-- **C116, NaN reaches the hardware.** As C113: if the controllers leave NaN as the command of a joint of a part, every actuator
of that part that moves with the joint gets NaN. -/
theorem c116_nan_sent (x : Seen (Flt A)) (hx : x ∈ ((Crew.start rs m).run (.double A) nd ops).1) (q : Cmd) (j : TransInfo)
    (hj : j ∈ infos) (hc : j.Commanded q) (hcm : L0.HasCommands q j) (t : Trans (Flt A))
    (hlt : loadTransmission stod j = .ok (some t)) (y z : Nat) (n a : String) (hn : j.jointNames[z]? = some n)
    (hact : j.actuatorNames[y]? = some a) (hdep : DependsOn t y z)
    (hnan : ∃ w, r.jointCommand q n (own rs.length k x.record.wished) = some w ∧ IsNaN w) :
    ∃ e, (L0.actuatorCell q a).map (own rs.length k x.record.sent) = some e ∧ IsNaN e := by
  obtain ⟨i, hi⟩ := List.getElem?_of_mem hx
  obtain ⟨h1, h2⟩ := (part_run (double_lawful A) nd hops k r hr).2.1 i x hi
  exact Described.c113_nan_sent nd ha _ (part_good nd hops ht k hr) _ i _ _ h1 h2 q j hj hc hcm t hlt y z n a hn hact hdep hnan

/-- **C116, NaN comes from controllers only.** If the command of a joint of a part is a number at first and no call of a controller
turns it from a number into NaN, it is a number in every cycle, whatever the limits of the parts are and the sensors report. -/
theorem c116_nan_source (q : Cmd) (n : String) (hm : Whole.Number r q n (own rs.length k m))
    (hact : ∀ i, .cycle i ∈ ops → ∀ c cb m', Whole.Number r q n (own rs.length k m') →
      Whole.Number r q n (own rs.length k (i.act c cb m'))) :
    ∀ x ∈ ((Crew.start rs m).run (.double A) nd ops).1, Whole.Number r q n (own rs.length k x.record.limited) := by
  have one : ∀ x ∈ ((Crew.start rs m).run (.double A) nd ops).1, Whole.Number r q n (own rs.length k x.record.wished) →
      Whole.Number r q n (own rs.length k x.record.limited) := by
    intro x hx h
    by_contra hno
    obtain ⟨v, hv, hn⟩ := (c116_nan_iff nd hops ht k hr ha x hx q n).1 (Whole.not_number.1 hno)
    exact h v hv hn
  obtain ⟨-, hin, -, hfacts, h5, -⟩ := refines (double_lawful A) nd hops
  obtain ⟨-, -, hk3⟩ := c116_kept (double_lawful A) nd hops k r hr q n
  have hL : (rs.map (·.loader))[k]? = some r.loader := by rw [List.getElem?_map, hr]; rfl
  have kept : ∀ x ∈ ((Crew.start rs m).run (.double A) nd ops).1, Whole.Number r q n (own rs.length k x.start) →
      Whole.Number r q n (own rs.length k x.record.wished) := by
    intro x hx hs
    have hcyc : .cycle x.input ∈ ops := by
      have := List.mem_map_of_mem (f := (·.input)) hx
      rw [hin] at this
      obtain ⟨op, hop, e⟩ := List.mem_filterMap.1 this
      cases op with
      | service o => cases e
      | cycle i => cases e; exact hop
    have hms : Whole.Number r q n (own rs.length k x.record.measured) := by
      intro v hv
      refine hs v ?_
      unfold Robot.jointCommand at hv ⊢
      cases hcell : r.loader.commandCell q n with
      | none => rw [hcell] at hv; cases hv
      | some a =>
        have := ((hfacts x hx).commands k r.loader q n a hL hcell).1
        rw [List.length_map] at this
        rw [hcell, Option.map_some] at hv
        rw [Option.map_some, ← hv]
        exact congrArg some this.symm
    rw [(hfacts x hx).wished]
    generalize x.record.measured = m' at hms
    generalize x.events = es
    induction es generalizing m' with
    | nil => exact hms
    | cons e es ih =>
      refine ih _ ?_
      cases e <;> first | exact hact _ hcyc _ _ _ hms | exact hms
  have all : ∀ (j : Nat) x, ((Crew.start rs m).run (.double A) nd ops).1[j]? = some x →
      Whole.Number r q n (own rs.length k x.record.limited) := by
    intro j
    induction j with
    | zero =>
      intro x hx
      have hx' := List.mem_of_getElem? hx
      exact one x hx' (kept x hx' (by rw [h5 x hx]; exact hm))
    | succ j ih =>
      intro y hy
      have hy' := List.mem_of_getElem? hy
      have hlt := (List.getElem?_eq_some_iff.1 hy).1
      have hx := List.getElem?_eq_getElem (l := ((Crew.start rs m).run (.double A) nd ops).1) (i := j) (by omega)
      refine one y hy' (kept y hy' fun v hv => ih _ hx v ?_)
      rw [← hk3 j _ y hx hy]
      exact hv
  intro x hx
  obtain ⟨j, hj⟩ := List.getElem?_of_mem hx
  exact all j x hj

/-- **C116, NaN stays.** If the command of a joint of a part is NaN after the limits in some cycle and no controller that holds a
handle for it is called in the cycles that follow, it is NaN in all of them, before and after the limits. -/
theorem c116_nan_stays (q : Cmd) (n : String) (j d : Nat) (x y : Seen (Flt A))
    (hx : ((Crew.start rs m).run (.double A) nd ops).1[j]? = some x)
    (hy : ((Crew.start rs m).run (.double A) nd ops).1[j + 1 + d]? = some y)
    (hnan : ¬Whole.Number r q n (own rs.length k x.record.limited))
    (hno : ∀ (i : Nat) z, j < i → i ≤ j + 1 + d → ((Crew.start rs m).run (.double A) nd ops).1[i]? = some z →
      ∀ c cb, .cb c cb ∈ z.events → ¬Holds rs z.before c k q n) :
    ¬Whole.Number r q n (own rs.length k y.record.wished) ∧ ¬Whole.Number r q n (own rs.length k y.record.limited) := by
  obtain ⟨hk1, -, hk3⟩ := c116_kept (double_lawful A) nd hops k r hr q n
  have one : ∀ (i : Nat) (x y : Seen (Flt A)), ((Crew.start rs m).run (.double A) nd ops).1[i]? = some x →
      ((Crew.start rs m).run (.double A) nd ops).1[i + 1]? = some y → ¬Whole.Number r q n (own rs.length k x.record.limited) →
      (∀ c cb, .cb c cb ∈ y.events → ¬Holds rs y.before c k q n) →
      ¬Whole.Number r q n (own rs.length k y.record.wished) ∧ ¬Whole.Number r q n (own rs.length k y.record.limited) := by
    intro i x y hx hy hnan hno
    have hy' := List.mem_of_getElem? hy
    have hw : ∃ v, r.jointCommand q n (own rs.length k y.record.wished) = some v ∧ IsNaN v := by
      rw [hk1 y hy' hno, hk3 i x y hx hy]
      exact Whole.not_number.1 hnan
    exact ⟨Whole.not_number.2 hw, Whole.not_number.2 ((c116_nan_iff nd hops ht k hr ha y hy' q n).2 hw)⟩
  induction d generalizing y with
  | zero => exact one j x y hx hy hnan (hno (j + 1) y (by omega) (by omega) hy)
  | succ d ih =>
    have hlt : j + 1 + d < ((Crew.start rs m).run (.double A) nd ops).1.length := by
      have := (List.getElem?_eq_some_iff.1 hy).1
      omega
    have hz := List.getElem?_eq_getElem hlt
    exact one (j + 1 + d) _ y hz hy (ih _ hz fun i z h1 h2 => hno i z h1 (by omega)).2
      (hno (j + 1 + (d + 1)) y (by omega) (by omega) hy)

/-- **C116, soft position limits with doubles.** As C113, for every part. -/
theorem c116_soft_position_double (n : String) (u : UrdfJoint (Dbl (Fl binary64)))
    (l : UrdfLimits (Fl binary64)) (s : UrdfSafety (Fl binary64)) (hd : Driven L0 infos .position n)
    (hj : (.position, n, u) ∈ joints) (hl : HasLimits u l) (hsl : HasSoftLimits u s) (hk : r.kind .position = .posSoft)
    (hv : l.velocity.Fin ∧ 0 ≤ l.velocity.1)
    (hS : Ranged u → s.softLower.Fin ∧ s.softUpper.Fin ∧ s.kPosition.Fin ∧ 0 < s.kPosition.1)
    (j : Nat) (x : Seen (Flt A)) (hx : ((Crew.start rs m).run (.double A) nd ops).1[j]? = some x) (p c t : Fl binary64)
    (hp : Described.Before r (((Crew.start rs m).run (.double A) nd ops).1.map (ownInput rs.length k))
      (((Crew.start rs m).run (.double A) nd ops).1.map fun x => (ownRecord rs.length k x.record)) n j p) (hfp : p.Fin)
    (hmax : Ranged u → p.1 ≤ l.upper.1)
    (hc : r.jointCommand .position n (own rs.length k x.record.wished) = some (Flt.fl c)) (het : x.input.period = Flt.fl t) :
    ∃ o v w low high, r.jointCommand .position n (own rs.length k x.record.limited) = some (Flt.fl o) ∧
      (limitsArith A).mul ((limitsArith A).neg l.velocity) t = some v ∧ (limitsArith A).mul l.velocity t = some w ∧
      (limitsArith A).add p v = some low ∧ (limitsArith A).add p w = some high ∧ low.1 ≤ o.1 ∧ o.1 ≤ high.1 ∧
      SendsWithin64 stod L0 infos r .position (ownRecord rs.length k x.record) n low.1 high.1 ∧
      (Ranged u → o.1 ≤ l.upper.1 ∧ SendsWithin64 stod L0 infos r .position (ownRecord rs.length k x.record) n low.1 l.upper.1 ∧
        (s.softUpper.1 ≤ p.1 → o.1 ≤ p.1) ∧ (p.1 ≤ s.softLower.1 → s.softLower.1 ≤ s.softUpper.1 → p.1 ≤ o.1)) := by
  obtain ⟨h1, h2⟩ := (part_run (double_lawful A) nd hops k r hr).2.1 j x hx
  obtain ⟨-, -, h3, -⟩ := refines (double_lawful A) nd hops
  refine Described.c113_soft_position nd ha _ (part_good nd hops ht k hr) _ n u l s hd hj hl hsl hk hv hS j _ _ h1 h2 p c t
    ?_ hfp hmax hc het
  rw [h3 k r hr]
  exact hp

/-- **C116, soft velocity limits with doubles.** As C113, for every part. -/
theorem c116_soft_velocity_double (n : String) (u : UrdfJoint (Dbl (Fl binary64)))
    (l : UrdfLimits (Fl binary64)) (s : UrdfSafety (Fl binary64)) (hd : Driven L0 infos .velocity n)
    (hj : (.velocity, n, u) ∈ joints) (hl : HasLimits u l) (hsl : HasSoftLimits u s) (hk : r.kind .velocity = .velSoft)
    (hV : 0 ≤ l.velocity.1) (hS : Ranged u → s.softLower.Fin ∧ s.softUpper.Fin ∧ s.kPosition.Fin ∧ 0 < s.kPosition.1)
    (x : Seen (Flt A)) (hx : x ∈ ((Crew.start rs m).run (.double A) nd ops).1) (p v c : Fl binary64)
    (hp : r.jointValue .position n (own rs.length k x.record.measured) = some (Flt.fl p)) (hfp : Ranged u → p.Fin)
    (hv : r.jointValue .velocity n (own rs.length k x.record.measured) = some (Flt.fl v))
    (hc : r.jointCommand .velocity n (own rs.length k x.record.wished) = some (Flt.fl c)) :
    ∃ o : Fl binary64, r.jointCommand .velocity n (own rs.length k x.record.limited) = some (Flt.fl o) ∧ |o.1| ≤ l.velocity.1 ∧
      SendsWithin64 stod L0 infos r .velocity (ownRecord rs.length k x.record) n (-l.velocity.1) l.velocity.1 ∧
      (Ranged u → (s.softUpper.1 ≤ p.1 → o.1 ≤ 0 ∧
        SendsWithin64 stod L0 infos r .velocity (ownRecord rs.length k x.record) n (-l.velocity.1) 0) ∧
        (p.1 ≤ s.softLower.1 → s.softLower.1 ≤ s.softUpper.1 →
          0 ≤ o.1 ∧ SendsWithin64 stod L0 infos r .velocity (ownRecord rs.length k x.record) n 0 l.velocity.1)) := by
  obtain ⟨i, hi⟩ := List.getElem?_of_mem hx
  obtain ⟨h1, h2⟩ := (part_run (double_lawful A) nd hops k r hr).2.1 i x hi
  exact Described.c113_soft_velocity nd ha _ (part_good nd hops ht k hr) _ n u l s hd hj hl hsl hk hV hS i _ _ h1 h2 p v c hp hfp hv hc

/-- **C116, effort saturation with doubles.** As C113, for every part. -/
theorem c116_effort_double (n : String) (u : UrdfJoint (Dbl (Fl binary64)))
    (l : UrdfLimits (Fl binary64)) (hd : Driven L0 infos .effort n) (hj : (.effort, n, u) ∈ joints) (hl : HasLimits u l)
    (hk : r.kind .effort = .effSat) (hE : 0 ≤ l.effort.1) (hV : 0 ≤ l.velocity.1) (hP : Ranged u → l.lower.1 ≤ l.upper.1)
    (x : Seen (Flt A)) (hx : x ∈ ((Crew.start rs m).run (.double A) nd ops).1) (c : Fl binary64)
    (hc : r.jointCommand .effort n (own rs.length k x.record.wished) = some (Flt.fl c)) :
    ∃ o : Fl binary64, r.jointCommand .effort n (own rs.length k x.record.limited) = some (Flt.fl o) ∧ |o.1| ≤ l.effort.1 ∧
      SendsWithin64 stod L0 infos r .effort (ownRecord rs.length k x.record) n (-l.effort.1) l.effort.1 ∧
      (Ranged u → ∀ p : Fl binary64, r.jointValue .position n (own rs.length k x.record.measured) = some (Flt.fl p) →
        (p.1 < l.lower.1 → 0 ≤ o.1 ∧ SendsWithin64 stod L0 infos r .effort (ownRecord rs.length k x.record) n 0 l.effort.1) ∧
        (l.upper.1 < p.1 → o.1 ≤ 0 ∧ SendsWithin64 stod L0 infos r .effort (ownRecord rs.length k x.record) n (-l.effort.1) 0)) ∧
      (∀ v : Fl binary64, r.jointValue .velocity n (own rs.length k x.record.measured) = some (Flt.fl v) →
        (v.1 < -l.velocity.1 → 0 ≤ o.1 ∧ SendsWithin64 stod L0 infos r .effort (ownRecord rs.length k x.record) n 0 l.effort.1) ∧
        (l.velocity.1 < v.1 → o.1 ≤ 0 ∧ SendsWithin64 stod L0 infos r .effort (ownRecord rs.length k x.record) n (-l.effort.1) 0)) ∧
      (|c.1| ≤ l.effort.1 →
        (Ranged u → ∀ p : Fl binary64, r.jointValue .position n (own rs.length k x.record.measured) = some (Flt.fl p) →
          InUrdfRange u l p) →
        (∀ v : Fl binary64, r.jointValue .velocity n (own rs.length k x.record.measured) = some (Flt.fl v) →
          |v.1| ≤ l.velocity.1) → o = c) := by
  obtain ⟨i, hi⟩ := List.getElem?_of_mem hx
  obtain ⟨h1, h2⟩ := (part_run (double_lawful A) nd hops k r hr).2.1 i x hi
  exact Described.c113_effort nd ha _ (part_good nd hops ht k hr) _ n u l hd hj hl hk hE hV hP i _ _ h1 h2 c hc

/-- **C116, soft effort limits with doubles.** As C113, for every part. -/
theorem c116_soft_effort_double (n : String) (u : UrdfJoint (Dbl (Fl binary64)))
    (l : UrdfLimits (Fl binary64)) (s : UrdfSafety (Fl binary64)) (hd : Driven L0 infos .effort n)
    (hj : (.effort, n, u) ∈ joints) (hl : HasLimits u l) (hsl : HasSoftLimits u s) (hk : r.kind .effort = .effSoft)
    (hV : l.velocity.Fin ∧ 0 ≤ l.velocity.1) (hE : 0 ≤ l.effort.1)
    (hS : Ranged u → s.softLower.Fin ∧ s.softUpper.Fin ∧ s.kPosition.Fin ∧ 0 < s.kPosition.1)
    (hkv : s.kVelocity.Fin ∧ 0 < s.kVelocity.1)
    (x : Seen (Flt A)) (hx : x ∈ ((Crew.start rs m).run (.double A) nd ops).1) (p v c : Fl binary64)
    (hp : r.jointValue .position n (own rs.length k x.record.measured) = some (Flt.fl p)) (hfp : Ranged u → p.Fin)
    (hv : r.jointValue .velocity n (own rs.length k x.record.measured) = some (Flt.fl v)) (hfv : v.Fin)
    (hc : r.jointCommand .effort n (own rs.length k x.record.wished) = some (Flt.fl c)) :
    ∃ o : Fl binary64, r.jointCommand .effort n (own rs.length k x.record.limited) = some (Flt.fl o) ∧ |o.1| ≤ l.effort.1 ∧
      SendsWithin64 stod L0 infos r .effort (ownRecord rs.length k x.record) n (-l.effort.1) l.effort.1 ∧
      (l.velocity.1 ≤ v.1 ∨ (Ranged u ∧ s.softUpper.1 ≤ p.1 ∧ 0 ≤ v.1) →
        o.1 ≤ 0 ∧ SendsWithin64 stod L0 infos r .effort (ownRecord rs.length k x.record) n (-l.effort.1) 0) ∧
      (v.1 ≤ -l.velocity.1 ∨ (Ranged u ∧ p.1 ≤ s.softLower.1 ∧ s.softLower.1 ≤ s.softUpper.1 ∧ v.1 ≤ 0) →
        0 ≤ o.1 ∧ SendsWithin64 stod L0 infos r .effort (ownRecord rs.length k x.record) n 0 l.effort.1) := by
  obtain ⟨i, hi⟩ := List.getElem?_of_mem hx
  obtain ⟨h1, h2⟩ := (part_run (double_lawful A) nd hops k r hr).2.1 i x hi
  exact Described.c113_soft_effort nd ha _ (part_good nd hops ht k hr) _ n u l s hd hj hl hsl hk hV hE hS hkv i _ _ h1 h2 p v c hp
    hfp hv hfv hc

/-- **C116, closed loop with doubles.** As C113, for every part. -/
theorem c116_reached_double (n : String) (hd : Driven L0 infos .position n) (j : Nat) (x y : Seen (Flt A))
    (hx : ((Crew.start rs m).run (.double A) nd ops).1[j]? = some x) (hy : ((Crew.start rs m).run (.double A) nd ops).1[j + 1]? = some y)
    (hf : Reaches L0 infos n (own rs.length k x.record.sent) (own rs.length k y.input.sense))
    (s : ℚ) (hs : Terms stod infos r .position (ownRecord rs.length k x.record) n s) (o : Fl binary64)
    (ho : r.jointCommand .position n (own rs.length k x.record.limited) = some (Flt.fl o)) :
    ∃ p : Fl binary64, r.jointValue .position n (own rs.length k y.record.measured) = some (Flt.fl p) ∧
      |p.1 - o.1| ≤ (2 ^ 49)⁻¹ * s := by
  obtain ⟨-, hto, -⟩ := part_run (double_lawful A) nd hops k r hr
  obtain ⟨h1, h2⟩ := hto j x hx
  obtain ⟨h3, h4⟩ := hto (j + 1) y hy
  exact Described.c113_reached nd ha _ (part_good nd hops ht k hr) _ n hd j _ _ _ _ h1 h2 h3 h4 hf s hs o ho

end

/-! ### A concrete case -/

open Verif.Described (exActuators exThree exKind exThree_driven exStod64 exListed64 exUrdf64 exZero exOne exThree64_case exOne_val
  exUrdf64_limits)
open Verif.Transmission.Loader (exInfos)
open Verif.Whole (exThrice exReq64 interfaceName)

section

variable {A : Machine binary64}

/-- The controller with identity 0 writes 3 as the velocity of "j3" of the second of two equal parts when it is updated. -/
def exAct (r : Robot (Flt A) (Fl binary64)) : CId → Callback → Mem (Flt A) → Mem (Flt A) := fun c k m x =>
  if c = 0 ∧ k = .update ∧ r.loader.commandCell .velocity "j3" = some (x / 2) ∧ x % 2 = 1 then Flt.fl exThrice else m x

/-- A cycle of one second in which the actuators are at zero. -/
def exCycle64 (r : Robot (Flt A) (Fl binary64)) : Whole.Op (Flt A) :=
  .cycle ⟨fun _ => Flt.fl exZero, 0, false, ⟨.done, .done, fun _ _ => (.done, .done)⟩, exAct r, false, Flt.fl exOne⟩

/-- "v", which asks for the velocity of "j3", is loaded and started, and two more cycles follow. -/
def exOps64 (r : Robot (Flt A) (Fl binary64)) : List (Whole.Op (Flt A)) :=
  [.service (.load "v" exReq64), exCycle64 r, .service (.poll {} 0), .service (.switch ⟨["v"], [], 2, false, 0⟩ 0 true),
    exCycle64 r, .service (.poll {} 0), exCycle64 r, exCycle64 r]

theorem exOps64_load (r : Robot (Flt A) (Fl binary64)) (m : Mem (Flt A)) {a : Nat}
    (ha : r.loader.commandCell .velocity "j3" = some a) :
    ((Crew.start [r, r] m).sys.step stdEnv checkForConflict (.load "v" exReq64)).mgr =
      Mgr.init.load "v" (exReq64.env (some [⟨interfaceName .velocity, ["j3"]⟩])) ∧
    ((Crew.start [r, r] m).sys.step stdEnv checkForConflict (.load "v" exReq64)).held 0 = [⟨true, ⟨"j3", a * 2 + 1⟩⟩] := by
  obtain ⟨o, robot, h, h1, h2, h3⟩ := (c116_handles (rs := [r, r]) (by simp) (s := (Crew.start [r, r] m).sys)
    ⟨[], by simp, rfl⟩).1 .velocity
  obtain ⟨i1, -⟩ := Whole.load_one (s := (Crew.start [r, r] m).sys) (name := "v") (r := exReq64) (by
    show Mgr.init.reachesInit "v" exReq64 = true
    decide) h1 rfl
  rw [h2] at i1
  obtain ⟨g1, t, -, g3⟩ := i1 _ ((h3 "j3").1 1 r a rfl ha fun k' r' hk hr' => by
    have := (List.getElem?_eq_some_iff.1 hr').1
    simp only [List.length_cons, List.length_nil] at this
    omega)
  exact ⟨g1, g3⟩

/-- What the manager does after the load. -/
theorem exOps64_rest (r : Robot (Flt A) (Fl binary64)) (s : Sys) :
    (s.run stdEnv checkForConflict (((exOps64 r).take 6).map Whole.Op.manager)).mgr =
      (((((s.step stdEnv checkForConflict (.load "v" exReq64)).mgr.update 0 false
        ⟨.done, .done, fun _ _ => (.done, .done)⟩).poll {} 0).switch checkForConflict ⟨["v"], [], 2, false, 0⟩ 0 true).update 0
        false
        ⟨.done, .done, fun _ _ => (.done, .done)⟩).poll {} 0 := rfl

theorem exOps64_proper {L0 : Loader (Flt A)} {d : Doc} {infos : List TransInfo} {r : Robot (Flt A) (Fl binary64)}
    (hr : Assembled (exStod64 (A := A)) (limitsArith A) L0 d infos exListed64 r) (m : Mem (Flt A))
    (ha : r.loader.commandCell .velocity "j3" ≠ none) :
    Proper (exStod64 (A := A)) (.double A) [r, r] m (exOps64 r) ∧ ∀ i, .cycle i ∈ exOps64 r → GoodPeriod i.period := by
  obtain ⟨a, ha⟩ := Option.ne_none_iff_exists'.1 ha
  have hheld := (exOps64_load r m ha).2
  have hon : ∀ s : Sys, s.held 0 = [⟨true, ⟨"j3", a * 2 + 1⟩⟩] → ∀ i, exCycle64 r = .cycle i →
      ∀ c k m a, ¬s.CanWrite (fun d => [d]) c a → i.act c k m a = m a := by
    rintro s hs i ⟨⟩ c k m b hno
    refine if_neg ?_
    rintro ⟨rfl, -, hb, hodd⟩
    refine hno ⟨⟨true, ⟨"j3", a * 2 + 1⟩⟩, ?_, rfl, ?_⟩
    · rw [hs]; exact List.mem_singleton.2 rfl
    · rw [ha] at hb
      have : a = b / 2 := Option.some.inj hb
      refine List.mem_singleton.2 ?_
      show b = a * 2 + 1
      omega
  have per : ∀ i, .cycle i ∈ exOps64 r → i.period = Flt.fl exOne := by
    intro i hi
    simp only [exOps64, List.mem_cons, List.not_mem_nil, or_false, reduceCtorEq, false_or] at hi
    rcases hi with h | h | h | h <;> (cases h; rfl)
  refine ⟨⟨fun x hx => ?_, ?_, ?_, ?_⟩, fun i hi => ⟨_, per i hi, Limits.Fl.int_fin _ _, by rw [exOne_val]; norm_num⟩⟩
  · simp only [List.mem_cons, List.not_mem_nil, or_false, or_self] at hx
    subst hx
    exact ⟨_, _, _, _, hr⟩
  · have load : SysOp.Good (.load "v" exReq64) := sysClass_proper (interfaceName .velocity) "j3"
    have poll : SysOp.Good (.poll {} 0) := ⟨rfl, rfl⟩
    intro op hop
    simp only [exOps64, List.mem_cons, List.not_mem_nil, or_false] at hop
    rcases hop with rfl | rfl | rfl | rfl | rfl | rfl | rfl | rfl
    · exact ⟨load, by simp⟩
    · trivial
    · exact ⟨poll, by simp⟩
    · exact ⟨trivial, by simp⟩
    · trivial
    · exact ⟨poll, by simp⟩
    · trivial
    · trivial
  · exact ⟨by rintro i ⟨⟩, hon _ hheld, by rintro i ⟨⟩, by rintro i ⟨⟩, hon _ hheld, by rintro i ⟨⟩, hon _ hheld,
      hon _ hheld, trivial⟩
  · intro i hi
    rw [per i hi]
    exact decide_eq_true (by show (0 : ℚ) < exOne.1; rw [exOne_val]; norm_num)

/-- The case of C116 with doubles: two equal parts can be put together, everything is used properly, and the joints are moved by
commands of their kind. In the third cycle the controller is updated and commands 3 for the joint of the second part; the limits leave
at most 1. -/
example (nd : Bool) : ∃ (r : Robot (Flt A) (Fl binary64)) (m : Mem (Flt A)),
    Assembled (exStod64 (A := A)) (limitsArith A) exActuators exThree (exInfos exThree) exListed64 r ∧ r.kind = exKind ∧
    Proper (exStod64 (A := A)) (.double A) [r, r] m (exOps64 r) ∧ (∀ i, .cycle i ∈ exOps64 r → GoodPeriod i.period) ∧
    Driven (exActuators (T := Flt A)) (exInfos exThree) .velocity "j3" ∧
    (.velocity, "j3", exUrdf64) ∈ exListed64 ∧
    ∃ x, ((Crew.start [r, r] m).run (.double A) nd (exOps64 r)).1[2]? = some x ∧ x.events = [.cb 0 .update] ∧
      r.jointCommand .velocity "j3" (own 2 1 x.record.wished) = some (Flt.fl exThrice) ∧
      ∃ o : Fl binary64, r.jointCommand .velocity "j3" (own 2 1 x.record.limited) = some (Flt.fl o) ∧ |o.1| ≤ 1 := by
  obtain ⟨r, ha, hkind⟩ := exThree64_case (A := A) exKind
  obtain ⟨-, -, hd⟩ := exThree_driven (T := Flt A)
  have hcell := (Described.c111_init (joints := exListed64) (limitsArith A) ha.toBase exKind).2.2 _ _ hd
  let m : Mem (Flt A) := fun _ => Flt.fl exZero
  obtain ⟨hops, hper⟩ := exOps64_proper ha m hcell
  have hmem : (.velocity, "j3", exUrdf64) ∈ exListed64 := by simp [exListed64]
  obtain ⟨a, hcell⟩ := Option.ne_none_iff_exists'.1 hcell
  have hcmd : ∀ m, r.jointCommand .velocity "j3" m = some (m a) := fun m => by
    unfold Robot.jointCommand
    rw [hcell]
    rfl
  refine ⟨r, m, ha, hkind, hops, hper, hd, hmem, ?_⟩
  obtain ⟨-, hin, hbefore⟩ := c116_completes (double_lawful A) nd hops
  have hlen : ((Crew.start [r, r] m).run (.double A) nd (exOps64 r)).1.length = 4 := by
    rw [← List.length_map (f := (·.input)), hin]
    rfl
  have hx := List.getElem?_eq_getElem (l := ((Crew.start [r, r] m).run (.double A) nd (exOps64 r)).1) (i := 2) (by omega)
  generalize ((Crew.start [r, r] m).run (.double A) nd (exOps64 r)).1[2] = x at hx
  have hx' := List.mem_of_getElem? hx
  have hinput : some x.input = (Whole.cycles (exOps64 r))[2]? := by
    rw [← hin, List.getElem?_map, hx]
    rfl
  have hinput : x.input =
      ⟨fun _ => Flt.fl exZero, 0, false, ⟨.done, .done, fun _ _ => (.done, .done)⟩, exAct r, false, Flt.fl exOne⟩ :=
    Option.some.inj hinput
  obtain ⟨pre, post, e, hc, hb, haft⟩ := hbefore 2 x hx
  have hpre : pre = (exOps64 r).take 6 := by
    have hp : pre = (exOps64 r).take pre.length := by rw [e]; simp
    have : pre.length = 6 := by
      have hle : pre.length < 8 := by
        have : (exOps64 r).length = pre.length + (post.length + 1) := by rw [e]; simp
        have : (exOps64 r).length = 8 := rfl
        omega
      generalize hl : pre.length = l at hp hle
      rw [hp] at hc
      have hnext : (exOps64 r)[l]? = some (.cycle x.input) := by rw [e, ← hl]; simp
      have : l = 0 ∨ l = 1 ∨ l = 2 ∨ l = 3 ∨ l = 4 ∨ l = 5 ∨ l = 6 ∨ l = 7 := by omega
      rcases this with rfl | rfl | rfl | rfl | rfl | rfl | rfl | rfl
      · cases hc
      · cases hc
      · cases hc
      · cases hc
      · cases hc
      · cases hnext
      · rfl
      · cases hc
    rw [this] at hp
    exact hp
  have hev : x.events = [.cb 0 .update] := by
    obtain ⟨hmgr, -⟩ := exOps64_load r m hcell
    have h1 : x.before.mgr = ((((((Mgr.init.load "v" (exReq64.env (some [⟨interfaceName .velocity, ["j3"]⟩]))).update 0 false
        ⟨.done, .done, fun _ _ => (.done, .done)⟩).poll {} 0).switch checkForConflict ⟨["v"], [], 2, false, 0⟩ 0 true).update 0
        false
        ⟨.done, .done, fun _ _ => (.done, .done)⟩).poll {} 0) := by
      rw [hb, hpre, exOps64_rest, ← hmgr]
      rfl
    have h2 : x.after.mgr = x.before.mgr.update 0 false ⟨.done, .done, fun _ _ => (.done, .done)⟩ := by
      rw [haft, hinput]
      rfl
    unfold Seen.events
    rw [h2, h1]
    decide +kernel
  have hw : r.jointCommand .velocity "j3" (own 2 1 x.record.wished) = some (Flt.fl exThrice) := by
    rw [(c116_commands (double_lawful A) nd hops x hx').1, hev, hinput, hcmd]
    refine congrArg some (if_pos ⟨rfl, rfl, ?_, ?_⟩)
    · rw [hcell, show (a * 2 + 1) / 2 = a by omega]
    · omega
  obtain ⟨o, ho, hle, -⟩ := c116_velocity_double nd hops hper 1 (r := r) rfl ha "j3" exUrdf64 _ hd hmem exUrdf64_limits.1
    (by rw [hkind]; rfl) (by rw [exOne_val]; norm_num) x hx' exThrice hw
  exact ⟨x, hx, hev, hw, o, ho, by rw [exOne_val] at hle; exact hle⟩

/-- `c116_nan_source`: its hypotheses hold in this case for both parts. -/
example (nd : Bool) (k : Nat) (hk : k < 2) : ∃ (r : Robot (Flt A) (Fl binary64)) (m : Mem (Flt A)),
    Assembled (exStod64 (A := A)) (limitsArith A) exActuators exThree (exInfos exThree) exListed64 r ∧
    Whole.Number r .velocity "j3" (own 2 k m) ∧
    (∀ i, .cycle i ∈ exOps64 r → ∀ c cb m', Whole.Number r .velocity "j3" (own 2 k m') →
      Whole.Number r .velocity "j3" (own 2 k (i.act c cb m'))) ∧
    ∀ x ∈ ((Crew.start [r, r] m).run (.double A) nd (exOps64 r)).1, Whole.Number r .velocity "j3" (own 2 k x.record.limited) := by
  obtain ⟨r, ha, hkind⟩ := exThree64_case (A := A) exKind
  obtain ⟨-, -, hd⟩ := exThree_driven (T := Flt A)
  have hcell := (Described.c111_init (joints := exListed64) (limitsArith A) ha.toBase exKind).2.2 _ _ hd
  let m : Mem (Flt A) := fun _ => Flt.fl exZero
  obtain ⟨hops, hper⟩ := exOps64_proper ha m hcell
  obtain ⟨a, hcell⟩ := Option.ne_none_iff_exists'.1 hcell
  have hcmd : ∀ m, r.jointCommand .velocity "j3" m = some (m a) := fun m => by
    unfold Robot.jointCommand
    rw [hcell]
    rfl
  have fin : ∀ d : Fl binary64, ¬IsNaN (Flt.fl d : Flt A) := fun d h => by cases h
  have hm : Whole.Number r .velocity "j3" (own 2 k m) := by
    intro v hv
    rw [hcmd] at hv
    cases hv
    exact fin _
  have hact : ∀ i, .cycle i ∈ exOps64 r → ∀ c cb m', Whole.Number r .velocity "j3" (own 2 k m') →
      Whole.Number r .velocity "j3" (own 2 k (i.act c cb m')) := by
    intro i hi c cb m' hm' v hv
    have hia : i.act = exAct r := by
      simp only [exOps64, List.mem_cons, List.not_mem_nil, or_false, reduceCtorEq, false_or] at hi
      rcases hi with h | h | h | h <;> (cases h; rfl)
    rw [hcmd, hia] at hv
    cases hv
    unfold own exAct
    split
    · exact fin _
    · exact hm' _ (hcmd _)
  have hr : [r, r][k]? = some r := by
    rcases (by omega : k = 0 ∨ k = 1) with rfl | rfl <;> rfl
  exact ⟨r, m, ha, hm, hact, c116_nan_source nd hops hper k hr ha .velocity "j3" hm hact⟩

/-- `c116_nan_stays`: commands that are NaN at first and that no controller writes are NaN after the limits of every cycle; here of
two cycles of two equal parts without controllers. -/
example (nd : Bool) (k : Nat) (hk : k < 2) : ∃ (r : Robot (Flt A) (Fl binary64)) (ops : List (Whole.Op (Flt A))) (x y : Seen (Flt A)),
    Proper (exStod64 (A := A)) (.double A) [r, r] (fun _ => (none : Option (Fl binary64))) ops ∧
    (∀ i, .cycle i ∈ ops → GoodPeriod i.period) ∧
    ((Crew.start [r, r] fun _ => (none : Option (Fl binary64))).run (.double A) nd ops).1 = [x, y] ∧
    ¬Whole.Number r .velocity "j3" (own 2 k x.record.limited) ∧
    (∀ z ∈ [x, y], ∀ c cb, .cb c cb ∈ z.events → ¬Holds [r, r] z.before c k .velocity "j3") ∧
    ¬Whole.Number r .velocity "j3" (own 2 k y.record.limited) := by
  obtain ⟨r, ha, hkind⟩ := exThree64_case (A := A) exKind
  obtain ⟨-, -, hd⟩ := exThree_driven (T := Flt A)
  have hcell := (Described.c111_init (joints := exListed64) (limitsArith A) ha.toBase exKind).2.2 _ _ hd
  obtain ⟨a, hcell⟩ := Option.ne_none_iff_exists'.1 hcell
  let m : Mem (Flt A) := fun _ => (none : Option (Fl binary64))
  let i : Input (Flt A) := ⟨fun _ => Flt.fl exZero, 0, false, ⟨.done, .done, fun _ _ => (.done, .done)⟩, fun _ _ m => m, false,
    Flt.fl exOne⟩
  have per : ∀ j, Whole.Op.cycle j ∈ [Whole.Op.cycle i, .cycle i] → j.period = Flt.fl exOne := by
    intro j hj
    simp only [List.mem_cons, List.not_mem_nil, or_false, or_self, Whole.Op.cycle.injEq] at hj
    rw [hj]
  have hgood : ∀ j, Whole.Op.cycle j ∈ [Whole.Op.cycle i, .cycle i] → GoodPeriod j.period :=
    fun j hj => ⟨_, per j hj, Limits.Fl.int_fin _ _, by rw [exOne_val]; norm_num⟩
  have hops : Proper (exStod64 (A := A)) (.double A) [r, r] m [.cycle i, .cycle i] := by
    refine ⟨fun x hx => ?_, ?_, ?_, ?_⟩
    · simp only [List.mem_cons, List.not_mem_nil, or_false, or_self] at hx
      subst hx
      exact ⟨_, _, _, _, ha⟩
    · intro op hop
      simp only [List.mem_cons, List.not_mem_nil, or_false, or_self] at hop
      subst hop
      trivial
    · exact ⟨by rintro j ⟨⟩ c cb m a -; rfl, by rintro j ⟨⟩ c cb m a -; rfl, trivial⟩
    · intro j hj
      rw [per j hj]
      exact decide_eq_true (by show (0 : ℚ) < exOne.1; rw [exOne_val]; norm_num)
  have hr : [r, r][k]? = some r := by
    rcases (by omega : k = 0 ∨ k = 1) with rfl | rfl <;> rfl
  obtain ⟨-, hin, hbefore⟩ := c116_completes (double_lawful A) nd hops
  obtain ⟨hk1, hk2, -⟩ := c116_kept (double_lawful A) nd hops k r hr .velocity "j3"
  have hstays := c116_nan_stays nd hops hgood k hr ha .velocity "j3" 0 0
  have hiff := c116_nan_iff nd hops hgood k hr ha
  generalize hout : ((Crew.start [r, r] m).run (.double A) nd [.cycle i, .cycle i]).1 = out at *
  obtain ⟨x, y, rfl⟩ : ∃ x y, out = [x, y] := by
    have : out.length = 2 := by rw [← List.length_map (f := (·.input)), hin]; rfl
    exact List.length_eq_two.1 this
  have hno : ∀ z ∈ [x, y], ∀ c cb, .cb c cb ∈ z.events → ¬Holds [r, r] z.before c k .velocity "j3" := by
    rintro z hz c cb - ⟨-, -, -, -, g, hg, -⟩
    obtain ⟨j, hj⟩ := List.getElem?_of_mem hz
    obtain ⟨pre, post, e, -, hb, -⟩ := hbefore j z hj
    have hpre : ∀ op ∈ pre, op = .cycle i := by
      intro op hop
      have : op ∈ [Whole.Op.cycle i, .cycle i] := by rw [e]; exact List.mem_append_left _ hop
      simpa using this
    have hheld : ∀ (pre : List (Whole.Op (Flt A))) (s : Sys), (∀ op ∈ pre, op = .cycle i) →
        (s.run stdEnv checkForConflict (pre.map Whole.Op.manager)).held = s.held := by
      intro pre
      induction pre with
      | nil => exact fun s _ => rfl
      | cons op pre ih =>
        intro s h
        rw [h op (by simp)]
        exact ih (s.step stdEnv checkForConflict (Whole.Op.manager (.cycle i))) fun o ho => h o (by simp [ho])
    rw [hb, hheld pre _ hpre] at hg
    cases hg
  have hx : ¬Whole.Number r .velocity "j3" (own 2 k x.record.limited) := by
    refine Whole.not_number.2 ((hiff x (by simp) .velocity "j3").2 ?_)
    rw [hk1 x (by simp) (hno x (by simp)), hk2 x rfl]
    exact ⟨(none : Option (Fl binary64)), by unfold Robot.jointCommand; rw [hcell]; rfl, rfl⟩
  refine ⟨r, _, x, y, hops, hgood, hout, hx, hno, (hstays x y rfl rfl hx fun j z h1 h2 hz => ?_).2⟩
  exact hno z (List.mem_of_getElem? hz)

end

end Verif.Parted
