import Verif.Lemmas.DescribedRobotDouble

/-!
Property C113: the limits of the description hold at the actuators of a robot that is loaded from its description and
computes with doubles.
-/

namespace Verif.Described

open Verif.Transmission (Mem Loader Cmd Quantity Doc TransInfo Trans loadTransmission loadTransmission_some rawCommand Is IsNaN
  Means MeansAll SameTrans DependsOn jointScale actuatorScale near_all jointMaps actuatorMaps run_jointsFrom run_actuatorsFrom
  absorbing_nan)
open Verif.Limits (Machine Flt Fl Arith Dbl binary64 UrdfJoint UrdfLimits UrdfSafety JointLimits SoftLimits Within)
open Verif.Cycle (Record Input GoodPeriod Hist limitsArith Restarts Reference positive64 is_unique)

variable {A : Machine binary64} {stod : String → Option (Flt A)} {L0 L : Loader (Flt A)} {d : Doc} {infos : List TransInfo}
  {joints : List (Cmd × String × UrdfJoint (Dbl (Fl binary64)))} {r : Robot (Flt A) (Fl binary64)}

/-- **C113, no cycle is lost.** With finite positive periods every cycle is completed: whatever the description says, the
sensors report and the controllers command, NaN and infinities included, no assertion of a limit handle or a
transmission fails, and no memory fault occurs. -/
theorem c113_completes (nd : Bool) (ha : Assembled stod (limitsArith A) L0 d infos joints r) (is : List (Input (Flt A)))
    (ht : ∀ i ∈ is, GoodPeriod i.period) (m : Mem (Flt A)) :
    (r.run (.double A) nd is m).2 = none ∧ (r.run (.double A) nd is m).1.length = is.length := by
  obtain ⟨_, _, h1, h2, _⟩ := run_cycled (nd := nd) (double_lawful A) ha.toBase rfl ha.handles.1 is (positive64 ht) m
  exact ⟨h1, h2⟩

/-- **C113, bad periods.** If a joint is listed for soft position limits, the first cycle with a period that is NaN or not
positive ends the run: the assertion of a limit handle fails before anything is sent, and the cycles before it are as if
they had been the whole run. If no joint is, no cycle is lost whatever the periods are, NaN and infinities included. -/
theorem c113_periods (nd : Bool) (ha : Assembled stod (limitsArith A) L0 d infos joints r) (is : List (Input (Flt A)))
    (m : Mem (Flt A)) :
    ((∀ c n u, (c, n, u) ∈ joints → r.kind c ≠ .posSoft) →
      (r.run (.double A) nd is m).2 = none ∧ (r.run (.double A) nd is m).1.length = is.length) ∧
    ((∃ c n u, (c, n, u) ∈ joints ∧ r.kind c = .posSoft) →
      (∀ i ∈ is, ∃ d : Fl binary64, i.period = Flt.fl d ∧ 0 < d.1) → ∀ i js, (∀ d : Fl binary64, i.period = Flt.fl d → d.1 ≤ 0) →
      r.run (.double A) nd (is ++ i :: js) m = ((r.run (.double A) nd is m).1, some .limits)) := by
  refine ⟨fun h => ?_, fun h hp i js hi => ?_⟩
  · exact (run_periods (nd := nd) (double_lawful A) ha.toBase rfl ha.handles.1 is
      (fun i _ => (ha.accepts _).2 (Or.inr h)) m).1
  · refine (run_periods (nd := nd) (double_lawful A) ha.toBase rfl ha.handles.1 is (fun i hi => Or.inl ?_) m).2 i js fun hacc => ?_
    · obtain ⟨d, e, hd⟩ := hp i hi
      rw [e]
      exact decide_eq_true hd
    rcases (ha.accepts _).1 hacc with h' | h'
    · rcases he : i.period with _ | d
      · rw [he] at h'
        cases h'
      · rw [he] at h'
        exact absurd (of_decide_eq_true h') (not_lt.2 (hi d he))
    · obtain ⟨c, n, u, hj, hk⟩ := h
      exact h' c n u hj hk

/-- **C113, what is measured.** In every cycle the values of a joint of the description are those its transmission
computes from what the hardware reports for its actuators. If the parameters of the transmission and these reports are
moderate numbers, they are numbers, at most 2^-49 of the terms that are added up away from the exact values. -/
theorem c113_measured (nd : Bool) (ha : Assembled stod (limitsArith A) L0 d infos joints r) (is : List (Input (Flt A)))
    (ht : ∀ i ∈ is, GoodPeriod i.period) (m : Mem (Flt A)) (k : Nat) (i : Input (Flt A)) (rec : Record (Flt A))
    (hi : is[k]? = some i) (hrec : (r.run (.double A) nd is m).1[k]? = some rec) (j : TransInfo) (hj : j ∈ infos) :
    ∃ t, loadTransmission stod j = .ok (some t) ∧ ∀ q, ∃ v, L0.actuatorValues q j.actuatorNames i.sense = some v ∧
      ∀ (x : Nat) n, j.jointNames[x]? = some n → r.jointValue q n rec.measured = (t.jointsFrom q v)[x]? ∧
        ∀ t' xs, SameTrans t t' → MeansAll v xs → ∃ a y z s, r.jointValue q n rec.measured = some a ∧ Is a y ∧
          (t'.jointsFrom q xs)[x]? = some z ∧ (jointScale q t' (xs.map abs))[x]? = some s ∧ |y - z| ≤ (2 ^ 49)⁻¹ * s := by
  obtain ⟨h1, -, -⟩ := run_transmissions (nd := nd) (double_lawful A) ha.toBase rfl ha.handles.1 is (positive64 ht) m k i rec hi hrec
  obtain ⟨t, ht, hv⟩ := h1 j hj
  refine ⟨t, ht, fun q => ?_⟩
  obtain ⟨v, hv1, hv2⟩ := hv q
  refine ⟨v, hv1, fun x n hx => ?_⟩
  obtain ⟨a, hy, e⟩ := (Transmission.mapM_some hv2).2 x n hx
  refine ⟨by rw [hy]; exact e, fun t' xs hs hm => ?_⟩
  obtain ⟨hla, -, hT⟩ := loadTransmission_some ht
  have hl : v.length = t.numActuators := by
    rw [← hla, ← (Transmission.mapM_some hv1).1, TransInfo.actuatorNames, List.length_map]
  have hlx : xs.length = t'.numActuators := by rw [← hs.num.1, ← hl]; exact hm.length_eq.symm
  obtain ⟨hnear, -⟩ := near_all q hT hs hl hm
  rw [run_jointsFrom _ _ _ hl, run_jointsFrom _ _ _ hlx] at hnear
  obtain ⟨ys, hys, hclose⟩ := Cycle.near_close hnear
  have hxl : x < (t.jointsFrom q v).length := (List.getElem?_eq_some_iff.1 hy).1
  have hly := hys.length_eq
  have hzl : (t'.jointsFrom q xs).length = (t.jointsFrom q v).length := by
    rw [← run_jointsFrom _ _ _ hl, ← run_jointsFrom _ _ _ hlx, Transmission.run_length, Transmission.run_length]
    exact hm.length_eq.symm
  have hz := List.getElem?_eq_getElem (l := t'.jointsFrom q xs) (i := x) (by omega)
  obtain ⟨y, s, e1, e2, hb⟩ := hclose.get x hz
  refine ⟨a, y, _, s, e, ?_, hz, e2, hb⟩
  have := hys.get hxl (by omega)
  rw [List.get_eq_getElem, List.get_eq_getElem, (List.getElem?_eq_some_iff.1 hy).2,
    (List.getElem?_eq_some_iff.1 e1).2] at this
  exact this

/-- **C113, what the transmissions add.** In every cycle, if the parameters of a transmission and the commands of its joints
after the limits are moderate numbers: the actuator commands amount to exactly one value for each joint that is moved
with commands of the kind; it differs from the command after the limits by at most 2^-49 of the terms that are added
up on the way. -/
theorem c113_sent (nd : Bool) (ha : Assembled stod (limitsArith A) L0 d infos joints r) (is : List (Input (Flt A)))
    (ht : ∀ i ∈ is, GoodPeriod i.period) (m : Mem (Flt A)) (k : Nat) (i : Input (Flt A)) (rec : Record (Flt A))
    (hi : is[k]? = some i) (hrec : (r.run (.double A) nd is m).1[k]? = some rec) (c : Cmd) (n : String)
    (hd : Driven L0 infos c n) (s : ℚ) (hs : Terms stod infos r c rec n s) :
    ∃ x y, (∃ a, r.jointCommand c n rec.limited = some a ∧ Is a x) ∧ |y - x| ≤ (2 ^ 49)⁻¹ * s ∧
      ∀ z, Sends64 stod L0 infos c rec n z ↔ z = y :=
  sent64 nd ha is ht m k i rec hi hrec hd hs

/-- **C113, joints without limits.** If a joint is not listed for the kind of command, its command after the limits is what
the controllers commanded, bit by bit. -/
theorem c113_free (nd : Bool) (ha : Assembled stod (limitsArith A) L0 d infos joints r) (is : List (Input (Flt A)))
    (ht : ∀ i ∈ is, GoodPeriod i.period) (m : Mem (Flt A)) (k : Nat) (i : Input (Flt A)) (rec : Record (Flt A))
    (hi : is[k]? = some i) (hrec : (r.run (.double A) nd is m).1[k]? = some rec) (c : Cmd) (n : String)
    (hfree : ∀ u, (c, n, u) ∉ joints) : r.jointCommand c n rec.limited = r.jointCommand c n i.wish := by
  obtain ⟨hmade, -, honly⟩ := ha.handles
  obtain ⟨-, -, h3⟩ := run_transmissions (nd := nd) (double_lawful A) ha.toBase rfl hmade is (positive64 ht) m k i rec hi hrec
  unfold Robot.jointCommand
  cases hc : r.loader.commandCell c n with
  | none => rfl
  | some a =>
    refine congrArg some (h3 c n a hc fun e he hn => ?_)
    obtain ⟨u, hu⟩ := honly c e he
    exact hfree u (hn ▸ hu)

/-- **C113, NaN and numbers.** Whatever the limits are and the sensors report, in every cycle the command of a joint after
the limits is NaN if and only if the controllers have commanded NaN. -/
theorem c113_nan_iff (nd : Bool) (ha : Assembled stod (limitsArith A) L0 d infos joints r) (is : List (Input (Flt A)))
    (ht : ∀ i ∈ is, GoodPeriod i.period) (m : Mem (Flt A)) (k : Nat) (i : Input (Flt A)) (rec : Record (Flt A))
    (hi : is[k]? = some i) (hrec : (r.run (.double A) nd is m).1[k]? = some rec) (c : Cmd) (n : String) :
    (∃ x, r.jointCommand c n rec.limited = some x ∧ IsNaN x) ↔ ∃ x, r.jointCommand c n i.wish = some x ∧ IsNaN x := by
  by_cases hfree : ∀ u, (c, n, u) ∉ joints
  · rw [c113_free nd ha is ht m k i rec hi hrec c n hfree]
  · push Not at hfree
    obtain ⟨u, hu⟩ := hfree
    obtain ⟨hmade, hall, -⟩ := ha.handles
    obtain ⟨b, hraw, hcell, hmem⟩ := hall c n u hu
    obtain ⟨p, -, -, hl⟩ := run_joint (nd := nd) (double_lawful A) ha.toBase rfl hmade is (positive64 ht) m c n _ hmem k i rec hi hrec
    have hcmd : ∀ m, r.jointCommand c n m = some (m (rawCommand b c)) := fun m => by
      unfold Robot.jointCommand
      rw [hcell]
      rfl
    simp only [hcmd, Option.some.injEq, exists_eq_left']
    constructor
    · intro hn
      unfold IsNaN at hn ⊢
      cases hwish : (i.wish (rawCommand b c) : Option (Fl binary64)) with
      | none => rfl
      | some x =>
        obtain ⟨o, ho⟩ := Cycle.limit_number (r.kind c) _ _ _ _ x hwish _ hl
        exact absurd (hn.symm.trans ho) (by simp)
    · intro hn
      refine Cycle.limit_nan (r.kind c) _ _ _ _ ?_ _ hl
      exact hn

/-- **C113, NaN reaches the hardware.** If the controllers command NaN for a joint of a transmission that the description
commands, then whatever the limits are, every actuator that moves with this joint gets NaN. -/
theorem c113_nan_sent (nd : Bool) (ha : Assembled stod (limitsArith A) L0 d infos joints r) (is : List (Input (Flt A)))
    (ht : ∀ i ∈ is, GoodPeriod i.period) (m : Mem (Flt A)) (k : Nat) (i : Input (Flt A)) (rec : Record (Flt A))
    (hi : is[k]? = some i) (hrec : (r.run (.double A) nd is m).1[k]? = some rec) (c : Cmd) (j : TransInfo) (hj : j ∈ infos)
    (hc : j.Commanded c) (hcm : L0.HasCommands c j) (t : Trans (Flt A)) (hlt : loadTransmission stod j = .ok (some t))
    (x y : Nat) (n a : String) (hn : j.jointNames[y]? = some n) (hact : j.actuatorNames[x]? = some a)
    (hdep : DependsOn t x y) (hnan : ∃ w, r.jointCommand c n i.wish = some w ∧ IsNaN w) :
    ∃ e, (L0.actuatorCell c a).map rec.sent = some e ∧ IsNaN e := by
  obtain ⟨w, hw, hwn⟩ := (c113_nan_iff nd ha is ht m k i rec hi hrec c n).2 hnan
  obtain ⟨-, hsent, -⟩ := run_transmissions (nd := nd) (double_lawful A) ha.toBase rfl ha.handles.1 is (positive64 ht) m k i rec hi hrec
  obtain ⟨t', v, hlt', hv, hl, hs⟩ := hsent c j hj hc hcm
  rw [hlt] at hlt'; cases hlt'
  obtain ⟨b, hb, e⟩ := (Transmission.mapM_some hv).2 y n hn
  rw [show (r.loader.commandCell c n).map rec.limited = some w from hw] at e
  cases e
  obtain ⟨e, he, e'⟩ := (Transmission.mapM_some hs).2 x a hact
  refine ⟨e, e', ?_⟩
  have hl' : v.length = t.numActuators := by rw [hl, Transmission.num_eq]
  rw [← run_actuatorsFrom _ _ _ hl'] at he
  exact (absorbing_nan.run c.quantity t hl' hdep hb hwn).2 _ he

/-- **C113, position limits.** A joint with limits in the URDF is listed for position commands, and the class of the
position limit handles is position saturation. Whatever the controllers command and the sensors report, and whatever
other joints, limits and transmissions there are: provided the measured position of the joint is a number in its range
whenever the limits start from it (in the first cycle, with a reset, and after a NaN command), every command for it
that is a number becomes a finite number exactly within the range of the URDF, at most `velocity * period` away from
what the limits started from, as computed; the actuator commands amount to a position in the range, up to the rounding
of the transmissions; and a finite command that satisfies both is left as it is. -/
theorem c113_position (nd : Bool) (ha : Assembled stod (limitsArith A) L0 d infos joints r) (is : List (Input (Flt A)))
    (ht : ∀ i ∈ is, GoodPeriod i.period) (m : Mem (Flt A)) (n : String) (u : UrdfJoint (Dbl (Fl binary64)))
    (l : UrdfLimits (Fl binary64)) (hd : Driven L0 infos .position n) (hj : (.position, n, u) ∈ joints) (hl : HasLimits u l)
    (hk : r.kind .position = .posSat) (hfin : Ranged u → l.lower.Fin ∧ l.upper.Fin ∧ l.lower.1 ≤ l.upper.1)
    (hv : l.velocity.Fin ∧ 0 ≤ l.velocity.1)
    (hstart : ∀ k rec, (r.run (.double A) nd is m).1[k]? = some rec → StartsOver r is n k →
      ∃ x : Fl binary64, r.jointValue .position n rec.measured = some (Flt.fl x) ∧ x.Fin ∧ InUrdfRange u l x) :
    ∀ (k : Nat) i rec, is[k]? = some i → (r.run (.double A) nd is m).1[k]? = some rec →
      ∀ c, r.jointCommand .position n i.wish = some (Flt.fl c) →
      ∃ o p t b : Fl binary64, r.jointCommand .position n rec.limited = some (Flt.fl o) ∧ o.Fin ∧ InUrdfRange u l o ∧
        (Ranged u → SendsWithin64 stod L0 infos r .position rec n l.lower.1 l.upper.1) ∧
        Before r is (r.run (.double A) nd is m).1 n k p ∧ i.period = Flt.fl t ∧
        (limitsArith A).mul l.velocity t = some b ∧ Within (limitsArith A) p b o ∧
        (c.Fin → InUrdfRange u l c → Within (limitsArith A) p b c → o = c) := by
  obtain ⟨b, hval, -, hcmd, hist⟩ := listed64 nd ha is ht m hj
  have H := hist l hl
  have inr : ∀ x : Fl binary64, InUrdfRange u l x ↔ ((limits64 A u l).hasPosition = true →
      (limits64 A u l).minPosition.1 ≤ x.1 ∧ x.1 ≤ (limits64 A u l).maxPosition.1) := by
    intro x
    unfold InUrdfRange
    rw [limits64_hasPosition]
    refine forall_congr' fun h => ?_
    rw [(limits64_position l h).1, (limits64_position l h).2]
  intro k i rec hi hrec c hc
  rw [hcmd] at hc
  obtain ⟨o, ho, h1, h2, h3, h4⟩ := H.position hk (fun h => by
      have h := (limits64_hasPosition u l).1 h
      rw [(limits64_position l h).1, (limits64_position l h).2]
      exact hfin h) (fun _ => hv) (fun k rec hrec hr => by
      obtain ⟨x, e, hx, hin⟩ := hstart k rec hrec ((startsOver_iff hcmd is k).2 hr)
      rw [hval] at e
      exact ⟨x, Option.some.inj e, hx, (inr x).1 hin⟩) k i rec hi hrec c (Option.some.inj hc)
  obtain ⟨p, t, b', hp, et, hb, hw⟩ := h3 rfl
  have ho' : r.jointCommand .position n rec.limited = some (Flt.fl o) := by rw [hcmd]; exact congrArg some ho
  have hor := (inr o).2 h2
  refine ⟨o, p, t, b', ho', h1, hor, fun hr => within64 nd ha is ht m k i rec hi hrec hd ho' (hor hr).1 (hor hr).2,
    (before_iff hval hcmd _ _ _ _).2 hp, et, hb, hw, fun hfc hcr hcw => ?_⟩
  refine h4 hfc ((inr c).1 hcr) fun _ p' t' b'' hp' et' hb' => ?_
  have e1 : p' = p := by
    by_cases hs : Restarts is (rawCommand b .position) k
    · exact Option.some.inj ((hp'.1 hs rec hrec).symm.trans (hp.1 hs rec hrec))
    · have hk0 : k ≠ 0 := fun h => hs (Or.inl h)
      obtain ⟨k', rfl⟩ := Nat.exists_eq_succ_of_ne_zero hk0
      have hlt : k' + 1 < (r.run (.double A) nd is m).1.length := (List.getElem?_eq_some_iff.1 hrec).1
      have hrec' := List.getElem?_eq_getElem (l := (r.run (.double A) nd is m).1) (i := k') (by omega)
      exact Option.some.inj ((hp'.2 hs k' _ rfl hrec').symm.trans (hp.2 hs k' _ rfl hrec'))
  have e2 : t' = t := Option.some.inj (et'.symm.trans et)
  subst e1 e2
  rw [hb] at hb'
  cases hb'
  exact hcw

/-- **C113, soft position limits.** A joint with limits and soft limits in the URDF is listed for position commands, and the
class of the position limit handles is soft position limits. In a cycle in which the limits start from a finite
number that does not exceed the maximum, the command after the limits lies between the positions reached with
`-velocity` and `velocity`, as computed, and does not exceed the maximum; it does not lead further out from a start at
or beyond a soft limit; and the actuator commands amount to a position within these bounds, up to the rounding of the
transmissions. -/
theorem c113_soft_position (nd : Bool) (ha : Assembled stod (limitsArith A) L0 d infos joints r) (is : List (Input (Flt A)))
    (ht : ∀ i ∈ is, GoodPeriod i.period) (m : Mem (Flt A)) (n : String) (u : UrdfJoint (Dbl (Fl binary64)))
    (l : UrdfLimits (Fl binary64)) (s : UrdfSafety (Fl binary64)) (hd : Driven L0 infos .position n)
    (hj : (.position, n, u) ∈ joints) (hl : HasLimits u l) (hsl : HasSoftLimits u s) (hk : r.kind .position = .posSoft)
    (hv : l.velocity.Fin ∧ 0 ≤ l.velocity.1)
    (hS : Ranged u → s.softLower.Fin ∧ s.softUpper.Fin ∧ s.kPosition.Fin ∧ 0 < s.kPosition.1)
    (k : Nat) (i : Input (Flt A)) (rec : Record (Flt A)) (hi : is[k]? = some i)
    (hrec : (r.run (.double A) nd is m).1[k]? = some rec) (p c t : Fl binary64)
    (hp : Before r is (r.run (.double A) nd is m).1 n k p) (hfp : p.Fin) (hmax : Ranged u → p.1 ≤ l.upper.1)
    (hc : r.jointCommand .position n i.wish = some (Flt.fl c)) (het : i.period = Flt.fl t) :
    ∃ o x y low high, r.jointCommand .position n rec.limited = some (Flt.fl o) ∧
      (limitsArith A).mul ((limitsArith A).neg l.velocity) t = some x ∧ (limitsArith A).mul l.velocity t = some y ∧
      (limitsArith A).add p x = some low ∧ (limitsArith A).add p y = some high ∧ low.1 ≤ o.1 ∧ o.1 ≤ high.1 ∧
      SendsWithin64 stod L0 infos r .position rec n low.1 high.1 ∧
      (Ranged u → o.1 ≤ l.upper.1 ∧ SendsWithin64 stod L0 infos r .position rec n low.1 l.upper.1 ∧
        (s.softUpper.1 ≤ p.1 → o.1 ≤ p.1) ∧ (p.1 ≤ s.softLower.1 → s.softLower.1 ≤ s.softUpper.1 → p.1 ≤ o.1)) := by
  obtain ⟨b, hval, -, hcmd, hist⟩ := listed64 nd ha is ht m hj
  have H := hist l hl
  rw [urdfSoft64 hsl] at H
  rw [hcmd] at hc
  obtain ⟨prev, hlim, hp'⟩ := H.position_limit (Or.inr hk) hi hrec
  obtain ⟨t', et, ft, ht0⟩ := ht i (List.mem_of_getElem? hi)
  have e : t' = t := Option.some.inj (et.symm.trans het)
  subst e
  obtain ⟨o, x, y, low, high, e, h1, h2, h3, h4, h5, h6, h7⟩ := Limits.c40_double_partial A.toRounding (limits64 A u l)
    ⟨s.softLower, s.softUpper, s.kPosition, s.kVelocity⟩ hv (fun h => hS ((limits64_hasPosition u l).1 h)) prev
    ⟨i.wish (rawCommand b .position), rec.measured b, rec.measured (b + 1), i.period⟩ p t' c
    (hp' p ((before_iff hval hcmd _ _ _ _).1 hp)) hfp (fun h => by
      have h := (limits64_hasPosition u l).1 h
      rw [(limits64_position l h).2]
      exact hmax h) het ft ht0 (Option.some.inj hc)
  rw [hk] at hlim
  have ho : r.jointCommand .position n rec.limited = some (Flt.fl o) := by
    rw [hcmd]
    exact (e.symm.trans hlim).symm
  refine ⟨o, x, y, low, high, ho, h1, h2, h3, h4, h5, h6, within64 nd ha is ht m k i rec hi hrec hd ho h5 h6, fun hP => ?_⟩
  obtain ⟨g1, g2, g3⟩ := h7 ((limits64_hasPosition u l).2 hP)
  rw [(limits64_position l hP).2] at g1
  exact ⟨g1, within64 nd ha is ht m k i rec hi hrec hd ho h5 g1, g2, g3⟩

/-- **C113, velocity limits.** A joint with limits in the URDF is listed for velocity commands, and the class of the
velocity limit handles is velocity saturation. Whatever the sensors report, every command for the joint that is a
number becomes a velocity within `± velocity` exactly; it is left as it is if it is within the limits; and the actuator
commands amount to a velocity within the limits, up to the rounding of the transmissions. -/
theorem c113_velocity (nd : Bool) (ha : Assembled stod (limitsArith A) L0 d infos joints r) (is : List (Input (Flt A)))
    (ht : ∀ i ∈ is, GoodPeriod i.period) (m : Mem (Flt A)) (n : String) (u : UrdfJoint (Dbl (Fl binary64)))
    (l : UrdfLimits (Fl binary64)) (hd : Driven L0 infos .velocity n) (hj : (.velocity, n, u) ∈ joints) (hl : HasLimits u l)
    (hk : r.kind .velocity = .velSat) (hV : 0 ≤ l.velocity.1)
    (k : Nat) (i : Input (Flt A)) (rec : Record (Flt A)) (hi : is[k]? = some i)
    (hrec : (r.run (.double A) nd is m).1[k]? = some rec) (c : Fl binary64)
    (hc : r.jointCommand .velocity n i.wish = some (Flt.fl c)) :
    ∃ o : Fl binary64, r.jointCommand .velocity n rec.limited = some (Flt.fl o) ∧ |o.1| ≤ l.velocity.1 ∧
      SendsWithin64 stod L0 infos r .velocity rec n (-l.velocity.1) l.velocity.1 ∧ (|c.1| ≤ l.velocity.1 → o = c) := by
  obtain ⟨b, -, -, hcmd, hist⟩ := listed64 nd ha is ht m hj
  obtain ⟨p, -, -, hlim⟩ := (hist l hl).step k i rec hi hrec
  rw [hcmd] at hc
  have hc : (i.wish (rawCommand b .velocity) : Option (Fl binary64)) = some c := Option.some.inj hc
  rw [hk] at hlim
  have hlim' : Limits.velSat (limitsArith A) (limits64 A u l).lift (Cycle.effective .velSat i.reset p)
      ⟨i.wish (rawCommand b .velocity), rec.measured b, rec.measured (b + 1), i.period⟩ =
        some (rec.limited (rawCommand b .velocity)) := hlim
  have e1 : Limits.velSat (limitsArith A) (limits64 A u l).lift (Cycle.effective .velSat i.reset p)
      ⟨i.wish (rawCommand b .velocity), rec.measured b, rec.measured (b + 1), i.period⟩ =
        some (Limits.saturate (some c) (some ((limitsArith A).neg l.velocity)) (some l.velocity)) := by
    unfold Limits.velSat
    rw [if_neg (by show ¬(false = true); simp), ← hc]
    rfl
  rw [e1, Limits.saturate_some] at hlim'
  have e2 : rec.limited (rawCommand b .velocity) = Flt.fl (Limits.clamp c ((limitsArith A).neg l.velocity) l.velocity) :=
    (Option.some.inj hlim').symm
  have ho : r.jointCommand .velocity n rec.limited = some (Flt.fl (Limits.clamp c ((limitsArith A).neg l.velocity) l.velocity)) := by
    rw [hcmd, e2]
  have hle : (limitsArith A).neg l.velocity ≤ l.velocity := show -l.velocity.1 ≤ l.velocity.1 by linarith
  have b1 : (limitsArith A).neg l.velocity ≤ Limits.clamp c ((limitsArith A).neg l.velocity) l.velocity :=
    le_min (le_max_right _ _) hle
  have b2 : Limits.clamp c ((limitsArith A).neg l.velocity) l.velocity ≤ l.velocity := min_le_right _ _
  exact ⟨_, ho, abs_le.2 ⟨b1, b2⟩, within64 nd ha is ht m k i rec hi hrec hd ho b1 b2, fun h =>
    Limits.clamp_of_mem (abs_le.1 h).1 (abs_le.1 h).2⟩

/-- **C113, soft velocity limits.** A joint with limits and soft limits in the URDF is listed for velocity commands, and the
class of the velocity limit handles is soft velocity limits. In a cycle in which the measured position (finite, if the
joint has a range) and velocity of the joint and the command for it are numbers, the command after the limits is
within `± velocity`, is not positive at or beyond the upper soft limit, nor negative at or beyond the lower one; and the
actuator commands amount to a velocity within these bounds, up to the rounding of the transmissions. -/
theorem c113_soft_velocity (nd : Bool) (ha : Assembled stod (limitsArith A) L0 d infos joints r) (is : List (Input (Flt A)))
    (ht : ∀ i ∈ is, GoodPeriod i.period) (m : Mem (Flt A)) (n : String) (u : UrdfJoint (Dbl (Fl binary64)))
    (l : UrdfLimits (Fl binary64)) (s : UrdfSafety (Fl binary64)) (hd : Driven L0 infos .velocity n)
    (hj : (.velocity, n, u) ∈ joints) (hl : HasLimits u l) (hsl : HasSoftLimits u s) (hk : r.kind .velocity = .velSoft)
    (hV : 0 ≤ l.velocity.1) (hS : Ranged u → s.softLower.Fin ∧ s.softUpper.Fin ∧ s.kPosition.Fin ∧ 0 < s.kPosition.1)
    (k : Nat) (i : Input (Flt A)) (rec : Record (Flt A)) (hi : is[k]? = some i)
    (hrec : (r.run (.double A) nd is m).1[k]? = some rec) (x v c : Fl binary64)
    (hx : r.jointValue .position n rec.measured = some (Flt.fl x)) (hfx : Ranged u → x.Fin)
    (hv : r.jointValue .velocity n rec.measured = some (Flt.fl v))
    (hc : r.jointCommand .velocity n i.wish = some (Flt.fl c)) :
    ∃ o : Fl binary64, r.jointCommand .velocity n rec.limited = some (Flt.fl o) ∧ |o.1| ≤ l.velocity.1 ∧
      SendsWithin64 stod L0 infos r .velocity rec n (-l.velocity.1) l.velocity.1 ∧
      (Ranged u → (s.softUpper.1 ≤ x.1 → o.1 ≤ 0 ∧ SendsWithin64 stod L0 infos r .velocity rec n (-l.velocity.1) 0) ∧
        (x.1 ≤ s.softLower.1 → s.softLower.1 ≤ s.softUpper.1 →
          0 ≤ o.1 ∧ SendsWithin64 stod L0 infos r .velocity rec n 0 l.velocity.1)) := by
  obtain ⟨b, hval, hvel, hcmd, hist⟩ := listed64 nd ha is ht m hj
  have H := hist l hl
  rw [urdfSoft64 hsl] at H
  obtain ⟨p, -, -, hlim⟩ := H.step k i rec hi hrec
  rw [hk] at hlim
  rw [hval] at hx
  rw [hvel] at hv
  rw [hcmd] at hc
  obtain ⟨t, et, ft, ht0⟩ := ht i (List.mem_of_getElem? hi)
  obtain ⟨o, e, h1, h2, h3, -⟩ := Limits.c44_double_partial A.toRounding (limits64 A u l)
    ⟨s.softLower, s.softUpper, s.kPosition, s.kVelocity⟩ ⟨rfl, hV⟩ (fun h => hS ((limits64_hasPosition u l).1 h))
    ⟨i.wish (rawCommand b .velocity), rec.measured b, rec.measured (b + 1), i.period⟩ x v t c (Option.some.inj hx)
    (fun h => hfx ((limits64_hasPosition u l).1 h)) (Option.some.inj hv) et (Option.some.inj hc) (fun h => (by cases h))
  have hlim' : some (Limits.velSoft (limitsArith A) (limits64 A u l).lift
    (SoftLimits.lift ⟨s.softLower, s.softUpper, s.kPosition, s.kVelocity⟩)
    ⟨i.wish (rawCommand b .velocity), rec.measured b, rec.measured (b + 1), i.period⟩) =
      some (rec.limited (rawCommand b .velocity)) := hlim
  have ho : r.jointCommand .velocity n rec.limited = some (Flt.fl o) := by
    rw [hcmd, ← hlim']
    exact congrArg some e
  have h2 : -l.velocity.1 ≤ o.1 := h2 fun h => (by cases h)
  have h1 : o.1 ≤ l.velocity.1 := h1
  refine ⟨o, ho, abs_le.2 ⟨h2, h1⟩, within64 nd ha is ht m k i rec hi hrec hd ho h2 h1, fun hr => ⟨fun g => ?_, fun g g' => ?_⟩⟩
  · have := (h3 ((limits64_hasPosition u l).2 hr)).1 g
    exact ⟨this, within64 nd ha is ht m k i rec hi hrec hd ho h2 this⟩
  · have := (h3 ((limits64_hasPosition u l).2 hr)).2 g g' fun h => (by cases h)
    exact ⟨this, within64 nd ha is ht m k i rec hi hrec hd ho this h1⟩

/-- **C113, effort limits.** A joint with limits in the URDF is listed for effort commands, and the class of the effort limit
handles is effort saturation. Whatever the sensors report, every command for the joint that is a number becomes an
effort within `± effort` exactly; strictly beyond the range, or strictly above the velocity limit, it does not push
further, and otherwise it is left as it is if it is within the limits; and the actuator commands amount to an effort
within these bounds, up to the rounding of the transmissions. -/
theorem c113_effort (nd : Bool) (ha : Assembled stod (limitsArith A) L0 d infos joints r) (is : List (Input (Flt A)))
    (ht : ∀ i ∈ is, GoodPeriod i.period) (m : Mem (Flt A)) (n : String) (u : UrdfJoint (Dbl (Fl binary64)))
    (l : UrdfLimits (Fl binary64)) (hd : Driven L0 infos .effort n) (hj : (.effort, n, u) ∈ joints) (hl : HasLimits u l)
    (hk : r.kind .effort = .effSat) (hE : 0 ≤ l.effort.1) (hV : 0 ≤ l.velocity.1) (hP : Ranged u → l.lower.1 ≤ l.upper.1)
    (k : Nat) (i : Input (Flt A)) (rec : Record (Flt A)) (hi : is[k]? = some i)
    (hrec : (r.run (.double A) nd is m).1[k]? = some rec) (c : Fl binary64)
    (hc : r.jointCommand .effort n i.wish = some (Flt.fl c)) :
    ∃ o : Fl binary64, r.jointCommand .effort n rec.limited = some (Flt.fl o) ∧ |o.1| ≤ l.effort.1 ∧
      SendsWithin64 stod L0 infos r .effort rec n (-l.effort.1) l.effort.1 ∧
      (Ranged u → ∀ x : Fl binary64, r.jointValue .position n rec.measured = some (Flt.fl x) →
        (x.1 < l.lower.1 → 0 ≤ o.1 ∧ SendsWithin64 stod L0 infos r .effort rec n 0 l.effort.1) ∧
        (l.upper.1 < x.1 → o.1 ≤ 0 ∧ SendsWithin64 stod L0 infos r .effort rec n (-l.effort.1) 0)) ∧
      (∀ v : Fl binary64, r.jointValue .velocity n rec.measured = some (Flt.fl v) →
        (v.1 < -l.velocity.1 → 0 ≤ o.1 ∧ SendsWithin64 stod L0 infos r .effort rec n 0 l.effort.1) ∧
        (l.velocity.1 < v.1 → o.1 ≤ 0 ∧ SendsWithin64 stod L0 infos r .effort rec n (-l.effort.1) 0)) ∧
      (|c.1| ≤ l.effort.1 →
        (Ranged u → ∀ x : Fl binary64, r.jointValue .position n rec.measured = some (Flt.fl x) → InUrdfRange u l x) →
        (∀ v : Fl binary64, r.jointValue .velocity n rec.measured = some (Flt.fl v) → |v.1| ≤ l.velocity.1) → o = c) := by
  obtain ⟨b, hval, hvel, hcmd, hist⟩ := listed64 nd ha is ht m hj
  obtain ⟨p, -, -, hlim⟩ := (hist l hl).step k i rec hi hrec
  rw [hk] at hlim
  rw [hcmd] at hc
  have hc := Option.some.inj hc
  have hneg : (limitsArith A).neg (limits64 A u l).maxEffort ≤ (limitsArith A).zero ∧
      (limitsArith A).zero ≤ (limits64 A u l).maxEffort := ⟨show (-l.effort.1) ≤ 0 by linarith, hE⟩
  obtain ⟨o, e, h1, h2, -, -, h5, h6⟩ := Limits.c41_effort_saturation_partial (limitsArith A) (limits64 A u l)
    ⟨i.wish (rawCommand b .effort), rec.measured b, rec.measured (b + 1), i.period⟩ c hneg
    (limits64_le l hP) (show (-l.velocity.1) ≤ l.velocity.1 by linarith) hc
  have hlim' : some (Limits.effSat (limitsArith A) (limits64 A u l).lift
    ⟨i.wish (rawCommand b .effort), rec.measured b, rec.measured (b + 1), i.period⟩) = some (rec.limited (rawCommand b .effort)) := hlim
  have ho : r.jointCommand .effort n rec.limited = some (Flt.fl o) := by
    rw [hcmd, ← hlim']
    exact congrArg some e
  have up : 0 ≤ o.1 → 0 ≤ o.1 ∧ SendsWithin64 stod L0 infos r .effort rec n 0 l.effort.1 :=
    fun g => ⟨g, within64 nd ha is ht m k i rec hi hrec hd ho g h2⟩
  have dn : o.1 ≤ 0 → o.1 ≤ 0 ∧ SendsWithin64 stod L0 infos r .effort rec n (-l.effort.1) 0 :=
    fun g => ⟨g, within64 nd ha is ht m k i rec hi hrec hd ho h1 g⟩
  refine ⟨o, ho, abs_le.2 ⟨h1, h2⟩, within64 nd ha is ht m k i rec hi hrec hd ho h1 h2, fun hr x hx => ?_, fun v hv => ?_,
    fun hcE hx hv => ?_⟩
  · rw [hval] at hx
    have := h5 ((limits64_hasPosition u l).2 hr) x (Option.some.inj hx)
    rw [(limits64_position l hr).1, (limits64_position l hr).2] at this
    exact ⟨fun g => up (this.1 g), fun g => dn (this.2 g)⟩
  · rw [hvel] at hv
    have := h6 v (Option.some.inj hv)
    exact ⟨fun g => up (this.1 g), fun g => dn (this.2 g)⟩
  · have pass := Limits.c41_only_for_a_reason (limitsArith A) (limits64 A u l)
      ⟨i.wish (rawCommand b .effort), rec.measured b, rec.measured (b + 1), i.period⟩ c hneg hc
      (abs_le.1 hcE).1 (abs_le.1 hcE).2 (fun hr x hx' => ?_) (fun v hv' => ?_)
    · exact Option.some.inj (e.symm.trans pass)
    · have hr := (limits64_hasPosition u l).1 hr
      have := hx hr x (by rw [hval]; exact congrArg some hx') hr
      rw [(limits64_position l hr).1, (limits64_position l hr).2]
      exact ⟨fun h => absurd this.1 (not_le.2 h), fun h => absurd this.2 (not_le.2 h)⟩
    · have := abs_le.1 (hv v (by rw [hvel]; exact congrArg some hv'))
      exact ⟨fun h => absurd this.1 (not_le.2 h), fun h => absurd this.2 (not_le.2 h)⟩

/-- **C113, soft effort limits.** A joint with limits and soft limits in the URDF is listed for effort commands, and the
class of the effort limit handles is soft effort limits. In a cycle in which the measured position and velocity of the
joint are finite and the command for it is a number, the command after the limits is within `± effort` exactly; it does
not accelerate a joint at or above the velocity limit, nor push a joint outward that is at or beyond a soft limit and
not moving back; and the actuator commands amount to an effort within these bounds, up to the rounding of the
transmissions. -/
theorem c113_soft_effort (nd : Bool) (ha : Assembled stod (limitsArith A) L0 d infos joints r) (is : List (Input (Flt A)))
    (ht : ∀ i ∈ is, GoodPeriod i.period) (m : Mem (Flt A)) (n : String) (u : UrdfJoint (Dbl (Fl binary64)))
    (l : UrdfLimits (Fl binary64)) (s : UrdfSafety (Fl binary64)) (hd : Driven L0 infos .effort n)
    (hj : (.effort, n, u) ∈ joints) (hl : HasLimits u l) (hsl : HasSoftLimits u s) (hk : r.kind .effort = .effSoft)
    (hV : l.velocity.Fin ∧ 0 ≤ l.velocity.1) (hE : 0 ≤ l.effort.1)
    (hS : Ranged u → s.softLower.Fin ∧ s.softUpper.Fin ∧ s.kPosition.Fin ∧ 0 < s.kPosition.1)
    (hkv : s.kVelocity.Fin ∧ 0 < s.kVelocity.1)
    (k : Nat) (i : Input (Flt A)) (rec : Record (Flt A)) (hi : is[k]? = some i)
    (hrec : (r.run (.double A) nd is m).1[k]? = some rec) (x v c : Fl binary64)
    (hx : r.jointValue .position n rec.measured = some (Flt.fl x)) (hfx : Ranged u → x.Fin)
    (hv : r.jointValue .velocity n rec.measured = some (Flt.fl v)) (hfv : v.Fin)
    (hc : r.jointCommand .effort n i.wish = some (Flt.fl c)) :
    ∃ o : Fl binary64, r.jointCommand .effort n rec.limited = some (Flt.fl o) ∧ |o.1| ≤ l.effort.1 ∧
      SendsWithin64 stod L0 infos r .effort rec n (-l.effort.1) l.effort.1 ∧
      (l.velocity.1 ≤ v.1 ∨ (Ranged u ∧ s.softUpper.1 ≤ x.1 ∧ 0 ≤ v.1) →
        o.1 ≤ 0 ∧ SendsWithin64 stod L0 infos r .effort rec n (-l.effort.1) 0) ∧
      (v.1 ≤ -l.velocity.1 ∨ (Ranged u ∧ x.1 ≤ s.softLower.1 ∧ s.softLower.1 ≤ s.softUpper.1 ∧ v.1 ≤ 0) →
        0 ≤ o.1 ∧ SendsWithin64 stod L0 infos r .effort rec n 0 l.effort.1) := by
  obtain ⟨b, hval, hvel, hcmd, hist⟩ := listed64 nd ha is ht m hj
  have H := hist l hl
  rw [urdfSoft64 hsl] at H
  obtain ⟨p, -, -, hlim⟩ := H.step k i rec hi hrec
  rw [hk] at hlim
  rw [hval] at hx
  rw [hvel] at hv
  rw [hcmd] at hc
  obtain ⟨o, e, h1, h2, h3, h4⟩ := Limits.c42_double_partial A.toRounding (limits64 A u l)
    ⟨s.softLower, s.softUpper, s.kPosition, s.kVelocity⟩ hV hE (fun h => hS ((limits64_hasPosition u l).1 h)) hkv
    ⟨i.wish (rawCommand b .effort), rec.measured b, rec.measured (b + 1), i.period⟩ x v c (Option.some.inj hx)
    (fun h => hfx ((limits64_hasPosition u l).1 h)) (Option.some.inj hv) hfv (Option.some.inj hc)
  have hlim' : some (Limits.effSoft (limitsArith A) (limits64 A u l).lift
    (SoftLimits.lift ⟨s.softLower, s.softUpper, s.kPosition, s.kVelocity⟩)
    ⟨i.wish (rawCommand b .effort), rec.measured b, rec.measured (b + 1), i.period⟩) = some (rec.limited (rawCommand b .effort)) := hlim
  have ho : r.jointCommand .effort n rec.limited = some (Flt.fl o) := by
    rw [hcmd, ← hlim']
    exact congrArg some e
  have bb := abs_le.1 h1
  have b1 : -l.effort.1 ≤ o.1 := bb.1
  have b2 : o.1 ≤ l.effort.1 := bb.2
  refine ⟨o, ho, abs_le.2 ⟨b1, b2⟩, within64 nd ha is ht m k i rec hi hrec hd ho b1 b2, fun g => ?_, fun g => ?_⟩
  · have : o.1 ≤ 0 := g.elim h2 fun ⟨g1, g2, g3⟩ => (h4 ((limits64_hasPosition u l).2 g1)).1 g2 g3
    exact ⟨this, within64 nd ha is ht m k i rec hi hrec hd ho b1 this⟩
  · have : 0 ≤ o.1 := g.elim h3 fun ⟨g1, g2, g3, g4⟩ => (h4 ((limits64_hasPosition u l).2 g1)).2 g2 g3 g4
    exact ⟨this, within64 nd ha is ht m k i rec hi hrec hd ho this b2⟩

/-- **C113, closed loop.** If the actuators of a joint's transmission have reached the positions they were told by the next
cycle, and the parameters of the transmission and the commands of its joints after the limits were moderate numbers,
then the joint is measured at most 2^-49 of the terms that are added up on the way from its command after the limits;
so a command after the limits between two numbers is measured between them, up to this error. -/
theorem c113_reached (nd : Bool) (ha : Assembled stod (limitsArith A) L0 d infos joints r) (is : List (Input (Flt A)))
    (ht : ∀ i ∈ is, GoodPeriod i.period) (m : Mem (Flt A)) (n : String) (hd : Driven L0 infos .position n)
    (k : Nat) (i i' : Input (Flt A)) (rec rec' : Record (Flt A)) (hi : is[k]? = some i)
    (hrec : (r.run (.double A) nd is m).1[k]? = some rec) (hi' : is[k + 1]? = some i')
    (hrec' : (r.run (.double A) nd is m).1[k + 1]? = some rec') (hf : Reaches L0 infos n rec.sent i'.sense)
    (s : ℚ) (hs : Terms stod infos r .position rec n s) (o : Fl binary64)
    (ho : r.jointCommand .position n rec.limited = some (Flt.fl o)) :
    ∃ y : Fl binary64, r.jointValue .position n rec'.measured = some (Flt.fl y) ∧ |y.1 - o.1| ≤ (2 ^ 49)⁻¹ * s := by
  obtain ⟨-, hsent, -⟩ := run_transmissions (nd := nd) (double_lawful A) ha.toBase rfl ha.handles.1 is (positive64 ht) m k i rec hi hrec
  obtain ⟨j0, hj0, hn0, hcd, hcm⟩ := hd
  obtain ⟨j, hj, t, t', v, xs, q, hlt, hst, hv, hm, hq, hscale⟩ := hs
  have := ha.toBase.transmission hj0 hj hn0 (List.mem_of_getElem? hq)
  subst this
  obtain ⟨t0, v0, hlt0, hv0, hl0, hact⟩ := hsent .position j0 hj hcd hcm
  rw [hlt] at hlt0; cases hlt0
  rw [hv] at hv0; cases hv0
  obtain ⟨-, zs, hzs, hclose⟩ := close64 hlt hst .position hl0 hm
  obtain ⟨a, hva, hcmd⟩ := (Transmission.mapM_some hv).2 q n hq
  rw [show (r.loader.commandCell .position n).map rec.limited = some (Flt.fl o) from ho] at hcmd
  cases hcmd
  have hq' : q < v.length := (List.getElem?_eq_some_iff.1 hva).1
  have hlx := hm.length_eq
  have hax : Is (Flt.fl o : Flt A) (xs[q]'(by omega)) := by
    have := (means_is hm).get hq' (by omega)
    rw [List.get_eq_getElem, List.get_eq_getElem, (List.getElem?_eq_some_iff.1 hva).2] at this
    exact this
  have ex := is_unique hax ⟨o, rfl, rfl⟩
  have hxq : xs[q]? = some o.1 := by rw [List.getElem?_eq_getElem (by omega), ex]
  obtain ⟨z, s', hz, hs', hb⟩ := hclose.get q hxq
  rw [show Cmd.position.quantity = Quantity.position from rfl] at hscale
  rw [hscale] at hs'
  cases hs'
  obtain ⟨t1, hlt1, hmeas⟩ := c113_measured nd ha is ht m (k + 1) i' rec' hi' hrec' j0 hj
  rw [hlt] at hlt1; cases hlt1
  obtain ⟨w, hw, hmeas⟩ := hmeas .position
  rw [hf j0 hj hn0, hact] at hw
  cases hw
  have hval := (hmeas q n hq).1
  have hqz : q < zs.length := (List.getElem?_eq_some_iff.1 hz).1
  have hlz := hzs.length_eq
  rw [List.getElem?_eq_getElem (by
    have : q < (t.jointsFrom .position (t.actuatorsFrom .position v)).length := by omega
    exact this)] at hval
  have hisz := hzs.get (i := q) (by omega) hqz
  rw [List.get_eq_getElem, List.get_eq_getElem, (List.getElem?_eq_some_iff.1 hz).2] at hisz
  obtain ⟨y, ey, hy⟩ := hisz
  refine ⟨y, ?_, by rw [hy]; exact hb⟩
  rw [hval]
  exact congrArg some ey


/-! ### A concrete case -/

open Verif.Transmission (parse)
open Verif.Transmission.Loader (exInfos exDoc)

/-- Reads the number 2, as a double. -/
def exStod64 (s : String) : Option (Flt A) := if s = "2" then some (Flt.fl (.int 2 (by decide))) else none

/-- What is loaded for each of the three joints: a simple transmission with reduction 2. -/
def exTrans64 : Trans (Flt A) := .simple ⟨Flt.fl (.int 2 (by decide)), 0⟩

theorem exTrans64_loaded : ∀ i ∈ exInfos exThree, loadTransmission (exStod64 (A := A)) i = Except.ok (some exTrans64) := by
  have h : exInfos exThree =
    [(exInfos exThree)[0]'(by decide), (exInfos exThree)[1]'(by decide), (exInfos exThree)[2]'(by decide)] := rfl
  rw [h]
  simp only [List.mem_cons, List.not_mem_nil, or_false, forall_eq_or_imp, forall_eq]
  have key : (Except.ok ((Transmission.mkSimple (fun x : Flt A => x == 0) (Flt.fl (.int 2 (by decide))) 0).map
      Transmission.Trans.simple) : Except Transmission.Crash (Option (Trans (Flt A)))) = Except.ok (some exTrans64) := by
    unfold Transmission.mkSimple
    rw [if_neg (Bool.eq_false_iff.1 (Limits.fl_ne_zero (by show ((2 : ℤ) : ℚ) ≠ 0; norm_num)))]
    rfl
  exact ⟨key, key, key⟩

theorem exTrans64_same : SameTrans (exTrans64 (A := A)) (.simple ⟨2, 0⟩) := by
  refine ⟨⟨⟨_, rfl, by show ((2 : ℤ) : ℚ) = 2; norm_num⟩, Or.inr ?_⟩, ⟨⟨_, rfl, by rw [A.rnd_zero (by decide)]; rfl⟩, Or.inl rfl⟩⟩
  rw [abs_of_pos (by norm_num)]
  constructor <;> norm_num

/-- The three transmissions. -/
theorem exThree_each {p : TransInfo → Prop} (h0 : p ((exInfos exThree)[0]'(by decide))) (h1 : p ((exInfos exThree)[1]'(by decide)))
    (h2 : p ((exInfos exThree)[2]'(by decide))) : ∀ i ∈ exInfos exThree, p i := by
  have h : exInfos exThree =
    [(exInfos exThree)[0]'(by decide), (exInfos exThree)[1]'(by decide), (exInfos exThree)[2]'(by decide)] := rfl
  rw [h]
  simp only [List.mem_cons, List.not_mem_nil, or_false, forall_eq_or_imp, forall_eq]
  exact ⟨h0, h1, h2⟩

theorem exThree_texts : ∀ i ∈ exInfos exThree, i.TextsPresent := by
  have one : ∀ i : TransInfo, (i.joints.map (·.xml) ++ i.actuators.map (·.xml)).all (fun e =>
      ["mechanicalReduction", "offset"].all fun tag => (e.child tag).all fun r => r.text.isSome) = true → i.TextsPresent := by
    intro i h e he tag ht r hr
    have := List.all_eq_true.1 (List.all_eq_true.1 h e he) tag (by simpa using ht)
    rw [hr] at this
    exact Option.isSome_iff_ne_none.1 (by simpa using this)
  exact exThree_each (one _ (by decide +kernel)) (one _ (by decide +kernel)) (one _ (by decide +kernel))

theorem exThree_same : ∀ i ∈ exInfos exThree, ∀ j ∈ i.joints, ∀ j' ∈ i.joints, j.hwIfaces.Perm j'.hwIfaces :=
  exThree_each (by decide) (by decide) (by decide)

theorem exThree_offered {T : Type} : ∀ i ∈ exInfos exThree, ∃ j ∈ i.joints, ∃ f ∈ j.hwIfaces,
    (exActuators (T := T)).Offered i f :=
  exThree_each ⟨_, List.mem_of_mem_head? rfl, _, List.mem_of_mem_head? rfl, ⟨_, rfl, by decide⟩,
      Or.inr ⟨.position, false, rfl, _, rfl, by decide⟩⟩
    ⟨_, List.mem_of_mem_head? rfl, _, List.mem_of_mem_head? rfl, ⟨_, rfl, by decide⟩,
      Or.inr ⟨.effort, false, rfl, _, rfl, by decide⟩⟩
    ⟨_, List.mem_of_mem_head? rfl, _, List.mem_of_mem_head? rfl, ⟨_, rfl, by decide⟩,
      Or.inr ⟨.velocity, false, rfl, _, rfl, by decide⟩⟩

/-- A revolute joint with range `[-1, 2]`, maximal velocity 1 and maximal effort 4. -/
def exUrdf64 : UrdfJoint (Dbl (Fl binary64)) :=
  ⟨.revolute, some ⟨some (.int (-1) (by decide)), some (.int 2 (by decide)), some (.int 4 (by decide)), some (.int 1 (by decide))⟩,
    some ⟨some (.int 0 (by decide)), some (.int 1 (by decide)), some (.int 1 (by decide)), some (.int 1 (by decide))⟩⟩

/-- All three joints have limits. -/
def exListed64 : List (Cmd × String × UrdfJoint (Dbl (Fl binary64))) :=
  [(.position, "j1", exUrdf64), (.effort, "j2", exUrdf64), (.velocity, "j3", exUrdf64)]

/-- The robot can be put together, with any classes of limit handles. -/
theorem exThree64_case (kind : Cmd → Limits.Kind) :
    ∃ r, Assembled (exStod64 (A := A)) (limitsArith A) exActuators exThree (exInfos exThree) exListed64 r ∧ r.kind = kind := by
  have hf : (exActuators (T := Flt A)).Fresh := ⟨rfl, fun _ => rfl, rfl, fun _ => rfl, rfl⟩
  have hload : ∃ L, exActuators.loadDoc (exStod64 (A := A)) exThree = .ok (L, true) := by
    have hr : Loader.Reached (exStod64 (A := A)) exActuators exActuators := ⟨hf, [], rfl⟩
    have hp : parse exThree = .ok (exInfos exThree) := rfl
    obtain ⟨L, b, h⟩ := Loader.c64_document_partial hr rfl exThree (by simp [exThree, exDoc]) (by
      intro infos hp' i hi
      have hp' := hp.symm.trans hp'
      cases hp'
      exact exThree_texts i hi)
    cases b with
    | true => exact ⟨L, h⟩
    | false =>
      exfalso
      rcases (Loader.c68_document hr rfl h).2 rfl with ⟨-, h⟩ | ⟨pre, i, post, h1, h2, h3⟩
      · exact absurd (h _ hp) (by decide)
      · have hi : i ∈ exInfos exThree := by
          have h1 := hp.symm.trans h1
          injection h1 with h1
          rw [h1]
          simp
        have hr1 : Loader.Reached (exStod64 (A := A)) exActuators L := ⟨hf, [pre], Loader.loads_one h2⟩
        have := (Loader.c68_returns_true hr1 rfl (Transmission.c50_well_formed _ _ hp i hi) h3).2
          ⟨⟨_, exTrans64_loaded i hi⟩, ?_, ?_⟩
        · cases this
        · exact exThree_same i hi
        · have := (Loader.loaded_inv hf h2).grows
          obtain ⟨j, hj, f, hf', ho⟩ := exThree_offered (T := Flt A) i hi
          refine ⟨j, hj, f, hf', ?_⟩
          unfold Loader.Offered Loader.HasStates Loader.HasCommands at ho ⊢
          rw [this.acts]
          exact ho
  obtain ⟨L, hL⟩ := hload
  have hb := exThree_base hL
  obtain ⟨h1, h2, h3⟩ := c111_init (joints := exListed64) (limitsArith A) hb kind
  obtain ⟨d1, d2, d3⟩ := exThree_driven (T := Flt A)
  obtain ⟨r, hr⟩ := h1.2 (by
    intro c n u hm
    simp only [exListed64, List.mem_cons, Prod.mk.injEq, List.not_mem_nil, or_false] at hm
    rcases hm with ⟨rfl, rfl, rfl⟩ | ⟨rfl, rfl, rfl⟩ | ⟨rfl, rfl, rfl⟩
    · exact ⟨h3 _ _ d1, Or.inl (by simp [exUrdf64])⟩
    · exact ⟨h3 _ _ d2, Or.inl (by simp [exUrdf64])⟩
    · exact ⟨h3 _ _ d3, Or.inl (by simp [exUrdf64])⟩)
  obtain ⟨e1, e2⟩ := h2 r hr
  exact ⟨r, ⟨by rw [e1]; exact hb, by rw [e1, e2]; exact hr, by decide⟩, e2⟩

/-- Zero and one. -/
def exZero : Fl binary64 := .int 0 (by decide)

def exOne : Fl binary64 := .int 1 (by decide)

theorem exOne_val : exOne.1 = 1 := by show ((1 : ℤ) : ℚ) = 1; norm_num

/-- Cycles of one second in which the actuators stay at zero and the controllers command one. -/
def exRest (n : Nat) : List (Input (Flt A)) :=
  List.replicate n ⟨fun _ => Flt.fl exZero, fun _ => Flt.fl exOne, Flt.fl exOne, false⟩

theorem exRest_good (n : Nat) : ∀ i ∈ (exRest n : List (Input (Flt A))), GoodPeriod i.period := by
  intro i hi
  obtain rfl := List.eq_of_mem_replicate hi
  exact ⟨_, rfl, Limits.Fl.int_fin _ _, by rw [exOne_val]; norm_num⟩

/-- In all these cycles the joints are measured at zero, at rest. -/
theorem exRest_measured {r : Robot (Flt A) (Fl binary64)}
    (ha : Assembled (exStod64 (A := A)) (limitsArith A) exActuators exThree (exInfos exThree) exListed64 r) (nd : Bool)
    (m : Mem (Flt A)) (n k : Nat) (rec : Record (Flt A)) (hrec : (r.run (.double A) nd (exRest n) m).1[k]? = some rec)
    (q : Quantity) : ∀ j, j = "j1" ∨ j = "j2" ∨ j = "j3" →
      ∃ x : Fl binary64, r.jointValue q j rec.measured = some (Flt.fl x) ∧ x.1 = 0 := by
  obtain ⟨-, hlen⟩ := c113_completes nd ha _ (exRest_good n) m
  have hi := List.getElem?_eq_getElem (l := (exRest n : List (Input (Flt A)))) (i := k)
    (by rw [← hlen]; exact (List.getElem?_eq_some_iff.1 hrec).1)
  have he : (exRest n : List (Input (Flt A)))[k]'(by rw [← hlen]; exact (List.getElem?_eq_some_iff.1 hrec).1) =
    ⟨fun _ => Flt.fl exZero, fun _ => Flt.fl exOne, Flt.fl exOne, false⟩ := List.getElem_replicate _
  rw [he] at hi
  have each : ∀ i ∈ exInfos exThree, i.actuatorNames.length = 1 → ∀ j, i.jointNames[0]? = some j →
      ∃ x : Fl binary64, r.jointValue q j rec.measured = some (Flt.fl x) ∧ x.1 = 0 := by
    intro i hm hl1 j hj
    obtain ⟨t, h1, h2⟩ := c113_measured nd ha _ (exRest_good n) m k _ rec hi hrec i hm
    obtain ⟨v, hv, h3⟩ := h2 q
    rw [exTrans64_loaded i hm] at h1
    obtain rfl := Option.some.inj (Except.ok.inj h1)
    have hv1 : v = [Flt.fl exZero] := by
      have hlv := (Transmission.mapM_some hv).1
      have hz := (Transmission.mapM_some hv).2
      obtain ⟨w, rfl⟩ := List.length_eq_one_iff.1 (hlv.symm.trans hl1)
      obtain ⟨nm, hnm⟩ := List.length_eq_one_iff.1 hl1
      obtain ⟨w', e1, e2⟩ := hz 0 nm (by rw [hnm]; rfl)
      obtain ⟨s, -, e2⟩ := Option.map_eq_some_iff.1 e2
      obtain rfl : w = w' := Option.some.inj e1
      rw [← e2]
    subst hv1
    obtain ⟨a, y, z, s, g1, ⟨d, rfl, g2⟩, g3, g4, g5⟩ := (h3 0 j hj).2 _ [0] exTrans64_same
      (.cons ⟨⟨_, rfl, by show ((0 : ℤ) : ℚ) = 0; norm_num⟩, Or.inl rfl⟩ .nil)
    refine ⟨d, g1, ?_⟩
    have hz : z = 0 := by
      cases q <;> simpa [Trans.jointsFrom, eq_comm] using g3
    have hs : s = 0 := by
      cases q <;> simpa [jointScale, eq_comm] using g4
    rw [hz, hs, mul_zero, sub_zero] at g5
    rw [g2]
    exact abs_nonpos_iff.1 g5
  have all := exThree_each (p := fun i => i.actuatorNames.length = 1) (by decide) (by decide) (by decide)
  rintro j (rfl | rfl | rfl)
  · exact each _ (List.getElem_mem (n := 0) (by decide)) (all _ (List.getElem_mem _)) _ rfl
  · exact each _ (List.getElem_mem (n := 1) (by decide)) (all _ (List.getElem_mem _)) _ rfl
  · exact each _ (List.getElem_mem (n := 2) (by decide)) (all _ (List.getElem_mem _)) _ rfl

/-- The limits and the soft limits of the URDF are numbers, finite and in order. -/
theorem exUrdf64_limits : HasLimits exUrdf64 ⟨.int (-1) (by decide), .int 2 (by decide), .int 4 (by decide), exOne⟩ ∧
    HasSoftLimits exUrdf64 ⟨exZero, exOne, exOne, exOne⟩ ∧ Ranged exUrdf64 :=
  ⟨rfl, rfl, Or.inl rfl⟩

/-- The case of C113: with any classes of limit handles the robot can be put together; the joints start in their range, are
moved by commands of their kind and listed for them; and with saturation handles the command 1 for the effort of the
second joint passes the limits and reaches the actuator, up to rounding. -/
example (nd : Bool) (m : Mem (Flt A)) (n k : Nat) (hk : k < n) : ∃ (r : Robot (Flt A) (Fl binary64)),
    Assembled (exStod64 (A := A)) (limitsArith A) exActuators exThree (exInfos exThree) exListed64 r ∧ r.kind = exKind ∧
    Driven (exActuators (T := Flt A)) (exInfos exThree) .position "j1" ∧ (.position, "j1", exUrdf64) ∈ exListed64 ∧
    (∀ k rec, (r.run (.double A) nd (exRest n) m).1[k]? = some rec → StartsOver r (exRest n) "j1" k →
      ∃ x : Fl binary64, r.jointValue .position "j1" rec.measured = some (Flt.fl x) ∧ x.Fin ∧
        InUrdfRange exUrdf64 ⟨.int (-1) (by decide), .int 2 (by decide), .int 4 (by decide), exOne⟩ x) ∧
    ∃ rec, (r.run (.double A) nd (exRest n) m).1[k]? = some rec ∧
      r.jointCommand .effort "j2" rec.limited = some (Flt.fl exOne) ∧
      Terms (exStod64 (A := A)) (exInfos exThree) r .effort rec "j2" 1 ∧
      ∃ y, Sends64 (exStod64 (A := A)) exActuators (exInfos exThree) .effort rec "j2" y ∧ |y - 1| ≤ (2 ^ 49)⁻¹ := by
  obtain ⟨r, ha, hkind⟩ := exThree64_case (A := A) exKind
  obtain ⟨d1, d2, d3⟩ := exThree_driven (T := Flt A)
  have ht := exRest_good (A := A) n
  obtain ⟨hl1, -, hr⟩ := exUrdf64_limits
  have fin0 : ∀ x : Fl binary64, x.1 = 0 → x.Fin := fun x hx => by
    have : x = exZero := Subtype.ext (hx.trans (by show 0 = ((0 : ℤ) : ℚ); norm_num))
    rw [this]
    exact Limits.Fl.int_fin _ _
  have inr : ∀ x : Fl binary64, x.1 = 0 →
      InUrdfRange exUrdf64 ⟨.int (-1) (by decide), .int 2 (by decide), .int 4 (by decide), exOne⟩ x := by
    intro x hx _
    rw [hx]
    constructor
    · show ((-1 : ℤ) : ℚ) ≤ 0; norm_num
    · show 0 ≤ ((2 : ℤ) : ℚ); norm_num
  refine ⟨r, ha, hkind, d1, by simp [exListed64], fun k rec hrec _ => ?_, ?_⟩
  · obtain ⟨x, hx, h0⟩ := exRest_measured ha nd m n k rec hrec .position "j1" (Or.inl rfl)
    exact ⟨x, hx, fin0 x h0, inr x h0⟩
  · obtain ⟨-, hlen⟩ := c113_completes nd ha _ ht m
    have hlen : (r.run (.double A) nd (exRest n) m).1.length = n := hlen.trans List.length_replicate
    have hrec := List.getElem?_eq_getElem (l := (r.run (.double A) nd (exRest n) m).1) (i := k) (by omega)
    generalize (r.run (.double A) nd (exRest n) m).1[k] = rec at hrec
    have hi : (exRest n : List (Input (Flt A)))[k]? =
      some ⟨fun _ => Flt.fl exZero, fun _ => Flt.fl exOne, Flt.fl exOne, false⟩ := by
      rw [exRest, List.getElem?_replicate, if_pos hk]
    have hc : r.jointCommand .effort "j2" (fun _ => Flt.fl exOne) = some (Flt.fl exOne) := by
      unfold Robot.jointCommand
      have := (c111_init (joints := exListed64) (limitsArith A) ha.toBase exKind).2.2 _ _ d2
      obtain ⟨a, e⟩ := Option.ne_none_iff_exists'.1 this
      rw [e]
      rfl
    obtain ⟨o, ho, -, -, -, -, hpass⟩ := c113_effort nd ha _ ht m "j2" exUrdf64 _ d2 (by simp [exListed64]) hl1
      (by rw [hkind]; rfl) (by show 0 ≤ ((4 : ℤ) : ℚ); norm_num) (by rw [exOne_val]; norm_num)
      (fun _ => by show ((-1 : ℤ) : ℚ) ≤ ((2 : ℤ) : ℚ); norm_num) k _ rec hi hrec exOne hc
    obtain rfl : o = exOne := by
      refine hpass ?_ (fun _ x hx => ?_) (fun v hv => ?_)
      · rw [exOne_val]; show |(1 : ℚ)| ≤ ((4 : ℤ) : ℚ); norm_num
      · obtain ⟨x', hx', h0⟩ := exRest_measured ha nd m n k rec hrec .position "j2" (Or.inr (Or.inl rfl))
        obtain rfl : x' = x := Option.some.inj (Option.some.inj (hx'.symm.trans hx))
        exact inr _ h0
      · obtain ⟨v', hv', h0⟩ := exRest_measured ha nd m n k rec hrec .velocity "j2" (Or.inr (Or.inl rfl))
        obtain rfl : v' = v := Option.some.inj (Option.some.inj (hv'.symm.trans hv))
        rw [h0, exOne_val]; norm_num
    have hterms : Terms (exStod64 (A := A)) (exInfos exThree) r .effort rec "j2" 1 := by
      refine ⟨(exInfos exThree)[1]'(by decide), List.getElem_mem _, exTrans64, .simple ⟨2, 0⟩, [Flt.fl exOne], [1], 0,
        exTrans64_loaded _ (List.getElem_mem _), exTrans64_same, ?_,
        .cons ⟨⟨_, rfl, exOne_val⟩, Or.inr ?_⟩ .nil, rfl, ?_⟩
      · show ["j2"].mapM (fun n => r.jointCommand .effort n rec.limited) = _
        simp [ho]
      · rw [abs_one]; constructor <;> norm_num
      · simp [jointScale, actuatorScale, Cmd.quantity]
    refine ⟨rec, hrec, ho, hterms, ?_⟩
    obtain ⟨x, y, ⟨a, e, d, rfl, rfl⟩, hb, hs⟩ := c113_sent nd ha _ ht m k _ rec hi hrec .effort "j2" d2 1 hterms
    obtain rfl : exOne = d := Option.some.inj (Option.some.inj (ho.symm.trans e))
    exact ⟨y, (hs y).2 rfl, by rwa [exOne_val, mul_one] at hb⟩

end Verif.Described
