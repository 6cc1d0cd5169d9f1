import Verif.Lemmas.DescribedRobotMade
import Verif.Props.RobotCycle

/-!
Property C111: the limits of the description hold at the actuators of a robot loaded from its description.
-/

namespace Verif.Described

open Verif.Transmission (Mem Loader Cmd Quantity Doc TransInfo parse loadTransmission rawCommand)
open Verif.Limits (Arith Dbl UrdfJoint UrdfLimits UrdfSafety JointLimits SoftLimits Limiter InRange range)
open Verif.Cycle (Record effective positive)

section

variable {T K : Type} [Add T] [Sub T] [Mul T] [Div T] [OfNat T 0] [OfNat T 1] [OfNat T 2] [DecidableEq T]
  {stod : String → Option T} {L0 L : Loader T} {d : Doc} {infos : List TransInfo}
  {joints : List (Cmd × String × UrdfJoint (Dbl K))}

theorem driven_cell (hb : Base stod L0 d infos L) {c : Cmd} {n : String} (hd : Driven L0 infos c n) :
    ∃ b, smapFind n L.raw = some b ∧ L.commandCell c n = some (rawCommand b c) := by
  obtain ⟨i, hi, hn, hc, hcm⟩ := hd
  obtain ⟨m', -, w, -⟩ := Loader.c109_writing hb.fresh hb.noOwn hb.below hb.commandsApart hb.loaded hb.parsed hb.apart
    hb.actuators c false fun _ => 0
  obtain ⟨t, v, -, hv, -⟩ := w i hi hc hcm
  obtain ⟨x, hx⟩ := (Transmission.mapM_mem hv).1 n hn
  obtain ⟨a, ha, -⟩ := Option.map_eq_some_iff.1 hx
  obtain ⟨b, h1, rfl, -⟩ := hb.command_above ha
  exact ⟨b, h1, ha⟩

/-- **C111, `init`.** With the transmissions loaded, `init` of the robot succeeds exactly if every listed joint has
the command it is listed for and either has limits in the URDF or is listed for a class of handles that does not
need any (position saturation, soft velocity limits). Joints of a transmission of the description that asks for the
command do have it. -/
theorem c111_init (A : Arith K) (hb : Base stod L0 d infos L) (kind : Cmd → Limits.Kind) :
    ((∃ r, init A L kind joints = some r) ↔ ∀ c n u, (c, n, u) ∈ joints →
      L.commandCell c n ≠ none ∧ (u.limits ≠ none ∨ kind c = .posSat ∨ kind c = .velSoft)) ∧
    (∀ r, init A L kind joints = some r → r.loader = L ∧ r.kind = kind) ∧
    ∀ c n, Driven L0 infos c n → L.commandCell c n ≠ none := by
  refine ⟨?_, ?_, fun c n hd => ?_⟩
  · have one : ∀ c n u s, (∃ s', addJoint A L kind c n u s = some s') ↔
        (L.commandCell c n ≠ none ∧ (u.limits ≠ none ∨ kind c = .posSat ∨ kind c = .velSoft)) := by
      intro c n u s
      have e : L.commandCell c n = (smapFind n ((L.ownCommand c).getD (L.jointCommand c))).map (·.2) := rfl
      rw [e]
      unfold addJoint
      cases smapFind n ((L.ownCommand c).getD (L.jointCommand c)) with
      | none => simp
      | some p =>
        obtain ⟨st, cell⟩ := p
        have acc : (kind c).accepts (Limits.urdfLimits (some u) (noLimits A)).2.toJointLimits = true ↔
            (u.limits ≠ none ∨ kind c = .posSat ∨ kind c = .velSoft) := by
          obtain ⟨ty, ul, us⟩ := u
          cases ul <;> cases kind c <;>
            simp [Limits.Kind.accepts, Limits.urdfLimits, noLimits, Limits.posSoftOk, Limits.effortOk, Limits.velSatOk]
        simp only [Limits.mkLimiter, Option.map_some, ne_eq, reduceCtorEq, not_false_eq_true, true_and]
        rw [ne_eq] at acc
        rw [← acc]
        cases (kind c).accepts (Limits.urdfLimits (some u) (noLimits A)).2.toJointLimits <;> simp
    have all : ∀ s, (∃ s', addJoints A L kind joints s = some s') ↔ ∀ c n u, (c, n, u) ∈ joints →
        L.commandCell c n ≠ none ∧ (u.limits ≠ none ∨ kind c = .posSat ∨ kind c = .velSoft) := by
      induction joints with
      | nil => exact fun s => ⟨fun _ c n u h => (by cases h), fun _ => ⟨s, rfl⟩⟩
      | cons j rest ih =>
        obtain ⟨c, n, u⟩ := j
        intro s
        constructor
        · rintro ⟨s', h⟩ c' n' u' hm
          unfold addJoints at h
          cases h1 : addJoint A L kind c n u s with
          | none => rw [h1] at h; cases h
          | some s1 =>
            rw [h1] at h
            rcases List.mem_cons.1 hm with e | hm
            · cases e
              exact (one _ _ _ s).1 ⟨s1, h1⟩
            · exact (ih s1).1 ⟨s', h⟩ c' n' u' hm
        · intro h
          obtain ⟨s1, h1⟩ := (one c n u s).2 (h c n u List.mem_cons_self)
          obtain ⟨s', h'⟩ := (ih s1).2 fun c' n' u' hm => h c' n' u' (List.mem_cons_of_mem _ hm)
          exact ⟨s', by unfold addJoints; rw [h1]; exact h'⟩
    rw [← all fun _ => []]
    constructor
    · rintro ⟨r, h⟩
      obtain ⟨s, hs, -⟩ := Option.map_eq_some_iff.1 h
      exact ⟨s, hs⟩
    · rintro ⟨s, hs⟩
      exact ⟨_, Option.map_eq_some_iff.2 ⟨s, hs, rfl⟩⟩
  · intro r h
    obtain ⟨s, -, rfl⟩ := Option.map_eq_some_iff.1 h
    exact ⟨rfl, rfl⟩
  · obtain ⟨b, -, h⟩ := driven_cell hb hd
    rw [h]
    simp

end

section

variable {K : Type} [Field K] [LinearOrder K] {stod : String → Option K} {L0 L : Loader K} {d : Doc}
  {infos : List TransInfo} {joints : List (Cmd × String × UrdfJoint (Dbl K))} {r : Robot K K} {nd : Bool}

/-- The limits that are read for a joint. -/
def limitsOf (u : UrdfJoint (Dbl K)) (l : UrdfLimits K) : JointLimits K :=
  let p := u.type == .revolute || u.type == .prismatic
  { minPosition := if p then l.lower else 0, maxPosition := if p then l.upper else 0, maxVelocity := l.velocity,
    maxAcceleration := 0, maxEffort := l.effort, hasPosition := p, hasVelocity := true, hasAcceleration := false,
    hasEffort := true }

theorem limitsOf_hasPosition (u : UrdfJoint (Dbl K)) (l : UrdfLimits K) : (limitsOf u l).hasPosition = true ↔ Ranged u := by
  simp [limitsOf, Ranged]

theorem limitsOf_position {u : UrdfJoint (Dbl K)} (l : UrdfLimits K) (h : Ranged u) :
    (limitsOf u l).minPosition = l.lower ∧ (limitsOf u l).maxPosition = l.upper := by
  have := (limitsOf_hasPosition u l).2 h
  unfold limitsOf at this ⊢
  dsimp only at this ⊢
  rw [if_pos this, if_pos this]
  exact ⟨rfl, rfl⟩

theorem urdfLimits_eq (huge : K) {u : UrdfJoint (Dbl K)} {l : UrdfLimits K} (h : HasLimits u l) :
    (Limits.urdfLimits (some u) (noLimits (.exact huge))).2.toJointLimits = (limitsOf u l).lift := by
  unfold HasLimits at h
  obtain ⟨ty, ul, us⟩ := u
  dsimp only at h
  subst h
  cases ty <;> rfl

theorem urdfSoft_eq (huge : K) {u : UrdfJoint (Dbl K)} {s : UrdfSafety K} (h : HasSoftLimits u s) :
    (Limits.urdfSoftLimits (some u) (noSoft (.exact huge))).2 =
      SoftLimits.lift ⟨s.softLower, s.softUpper, s.kPosition, s.kVelocity⟩ := by
  unfold HasSoftLimits at h
  obtain ⟨ty, ul, us⟩ := u
  dsimp only at h
  subst h
  rfl

variable [IsStrictOrderedRing K]

/-- **C111, no cycle is lost.** With positive periods every cycle is completed: no assertion of a limit handle or a
transmission fails, no memory fault occurs, and no NaN arises. -/
theorem c111_completes (nd : Bool) (huge : K) (ha : Assembled stod (.exact huge) L0 d infos joints r)
    (is : List (Cycle.Input K)) (ht : ∀ i ∈ is, 0 < i.period) (m : Mem K) :
    (r.run (.exact huge) nd is m).2 = none ∧ (r.run (.exact huge) nd is m).1.length = is.length := by
  obtain ⟨_, _, h1, h2, _⟩ := run_cycled (nd := nd) (exact_lawful huge) ha.toBase rfl ha.handles.1 is (positive huge ht) m
  exact ⟨h1, h2⟩

/-- **C111, periods that are not positive.** If a joint is listed for soft position limits, the first cycle with a period that is
not positive ends the run: the assertion of a limit handle fails before anything is sent, and the cycles before it are as if
they had been the whole run. If no joint is, no cycle is lost whatever the periods are. -/
theorem c111_periods (nd : Bool) (huge : K) (ha : Assembled stod (.exact huge) L0 d infos joints r)
    (is : List (Cycle.Input K)) (m : Mem K) :
    ((∀ c n u, (c, n, u) ∈ joints → r.kind c ≠ .posSoft) →
      (r.run (.exact huge) nd is m).2 = none ∧ (r.run (.exact huge) nd is m).1.length = is.length) ∧
    ((∃ c n u, (c, n, u) ∈ joints ∧ r.kind c = .posSoft) → (∀ i ∈ is, 0 < i.period) → ∀ i js, i.period ≤ 0 →
      r.run (.exact huge) nd (is ++ i :: js) m = ((r.run (.exact huge) nd is m).1, some .limits)) := by
  refine ⟨fun h => ?_, fun h hp i js hi => ?_⟩
  · exact (run_periods (nd := nd) (exact_lawful huge) ha.toBase rfl ha.handles.1 is
      (fun i _ => (ha.accepts _).2 (Or.inr h)) m).1
  · refine (run_periods (nd := nd) (exact_lawful huge) ha.toBase rfl ha.handles.1 is
      (fun i hi => Or.inl (positive huge hp i hi)) m).2 i js fun hacc => ?_
    rcases (ha.accepts _).1 hacc with h' | h'
    · exact absurd (of_decide_eq_true h') (not_lt.2 hi)
    · obtain ⟨c, n, u, hj, hk⟩ := h
      exact h' c n u hj hk

/-- **C111, what is measured.** In every cycle the values of a joint of the description are those its transmission
computes from what the hardware reports for its actuators. -/
theorem c111_measured (nd : Bool) (huge : K) (ha : Assembled stod (.exact huge) L0 d infos joints r)
    (is : List (Cycle.Input K)) (ht : ∀ i ∈ is, 0 < i.period) (m : Mem K) (k : Nat) (i : Cycle.Input K) (rec : Record K)
    (hi : is[k]? = some i) (hrec : (r.run (.exact huge) nd is m).1[k]? = some rec) (j : TransInfo) (hj : j ∈ infos) :
    ∃ t, loadTransmission stod j = .ok (some t) ∧ ∀ q, ∃ v, L0.actuatorValues q j.actuatorNames i.sense = some v ∧
      ∀ (x : Nat) n, j.jointNames[x]? = some n → r.jointValue q n rec.measured = (t.jointsFrom q v)[x]? := by
  obtain ⟨h1, -, -⟩ := run_transmissions (nd := nd) (exact_lawful huge) ha.toBase rfl ha.handles.1 is (positive huge ht) m k i rec hi hrec
  obtain ⟨t, ht, hv⟩ := h1 j hj
  refine ⟨t, ht, fun q => ?_⟩
  obtain ⟨v, hv1, hv2⟩ := hv q
  refine ⟨v, hv1, fun x n hx => ?_⟩
  obtain ⟨y, hy, e⟩ := (Transmission.mapM_some hv2).2 x n hx
  rw [hy]
  exact e

/-- **C111, joints without limits.** The actuator commands of every cycle amount to exactly one value for each
joint that is moved with commands of the kind, and if the joint is not listed for the kind, this is what the
controllers commanded. -/
theorem c111_free (nd : Bool) (huge : K) (ha : Assembled stod (.exact huge) L0 d infos joints r)
    (is : List (Cycle.Input K)) (ht : ∀ i ∈ is, 0 < i.period) (m : Mem K) (k : Nat) (i : Cycle.Input K) (rec : Record K)
    (hi : is[k]? = some i) (hrec : (r.run (.exact huge) nd is m).1[k]? = some rec) (c : Cmd) (n : String)
    (hd : Driven L0 infos c n) :
    (∃! x, Sends stod L0 infos c rec n x) ∧
      ((∀ u, (c, n, u) ∉ joints) → ∃ x, r.jointCommand c n i.wish = some x ∧ Sends stod L0 infos c rec n x) := by
  obtain ⟨hmade, -, honly⟩ := ha.handles
  have h := sends_iff (nd := nd) (exact_lawful huge) ha.toBase rfl hmade is (positive huge ht) m k i rec hi hrec hd
  obtain ⟨b, -, hcell⟩ := driven_cell ha.toBase hd
  have h' : ∀ x, Sends stod L0 infos c rec n x ↔ x = rec.limited (rawCommand b c) := fun x => by
    rw [h x]
    constructor
    · rintro ⟨a, e, rfl⟩
      rw [hcell] at e
      cases e
      rfl
    · exact fun e => ⟨_, hcell, e⟩
  refine ⟨⟨_, (h' _).2 rfl, fun y hy => (h' y).1 hy⟩, fun hfree => ⟨i.wish (rawCommand b c), ?_, (h' _).2 ?_⟩⟩
  · unfold Robot.jointCommand
    rw [hcell]
    rfl
  · obtain ⟨-, -, h3⟩ := run_transmissions (nd := nd) (exact_lawful huge) ha.toBase rfl hmade is (positive huge ht) m k i rec hi hrec
    refine (h3 c n _ hcell fun e he hn => ?_).symm
    obtain ⟨u, hu⟩ := honly c e he
    exact hfree u (hn ▸ hu)

/-- The facts about a listed joint. -/
theorem listed (nd : Bool) (huge : K) (ha : Assembled stod (.exact huge) L0 d infos joints r)
    (is : List (Cycle.Input K)) (ht : ∀ i ∈ is, 0 < i.period) (m : Mem K) {c : Cmd} {n : String} {u : UrdfJoint (Dbl K)}
    (hd : Driven L0 infos c n) (hj : (c, n, u) ∈ joints) :
    ∃ b, (∀ m, r.jointValue .position n m = some (m b)) ∧ (∀ m, r.jointValue .velocity n m = some (m (b + 1))) ∧
      (∀ m, r.jointCommand c n m = some (m (rawCommand b c))) ∧
      ∀ k i rec, is[k]? = some i → (r.run (.exact huge) nd is m).1[k]? = some rec →
        (∀ x, Sends stod L0 infos c rec n x ↔ x = rec.limited (rawCommand b c)) ∧
        ∃ p, (k = 0 → p = (r.kind c).initial (.exact huge)) ∧
          (∀ j rec', k = j + 1 → (r.run (.exact huge) nd is m).1[j]? = some rec' →
            p = some (rec'.limited (rawCommand b c))) ∧
          (r.kind c).limit (.exact huge) (Limits.urdfLimits (some u) (noLimits (.exact huge))).2.toJointLimits
            (Limits.urdfSoftLimits (some u) (noSoft (.exact huge))).2 (effective (r.kind c) i.reset p)
            ⟨some (i.wish (rawCommand b c)), some (rec.measured b), some (rec.measured (b + 1)), some i.period⟩ =
              some (some (rec.limited (rawCommand b c))) := by
  obtain ⟨hmade, hall, -⟩ := ha.handles
  obtain ⟨b, hraw, hcell, hmem⟩ := hall c n u hj
  refine ⟨b, ha.toBase.jointValue rfl hraw .position, ha.toBase.jointValue rfl hraw .velocity, fun m => ?_,
    fun k i rec hi hrec => ⟨fun x => ?_, ?_⟩⟩
  · unfold Robot.jointCommand
    rw [hcell]
    rfl
  · rw [sends_iff (nd := nd) (exact_lawful huge) ha.toBase rfl hmade is (positive huge ht) m k i rec hi hrec hd x]
    constructor
    · rintro ⟨a, e, rfl⟩
      rw [hcell] at e
      cases e
      rfl
    · exact fun e => ⟨_, hcell, e⟩
  · exact run_joint (nd := nd) (exact_lawful huge) ha.toBase rfl hmade is (positive huge ht) m c n _ hmem k i rec hi hrec

/-- **C111, listed joints without limits.** A joint that has no limits in the URDF can be listed for position saturation and for
soft velocity limits. Then the actuator commands of every cycle amount to what the controllers commanded (if that is a double). -/
theorem c111_unlimited (nd : Bool) (huge : K) (ha : Assembled stod (.exact huge) L0 d infos joints r)
    (is : List (Cycle.Input K)) (ht : ∀ i ∈ is, 0 < i.period) (m : Mem K) (q : Cmd) (n : String) (u : UrdfJoint (Dbl K))
    (hd : Driven L0 infos q n) (hj : (q, n, u) ∈ joints) (hl : u.limits = none) (hk : r.kind q = .posSat ∨ r.kind q = .velSoft) :
    ∀ (k : Nat) i rec, is[k]? = some i → (r.run (.exact huge) nd is m).1[k]? = some rec →
      ∃ c, r.jointCommand q n i.wish = some c ∧ (|c| ≤ huge → Sends stod L0 infos q rec n c) := by
  obtain ⟨b, -, -, hcmd, hfacts⟩ := listed nd huge ha is ht m hd hj
  intro k i rec hi hrec
  obtain ⟨hsend, p, -, -, hlim⟩ := hfacts k i rec hi hrec
  refine ⟨_, hcmd _, fun hc => (hsend _).2 ?_⟩
  have e : (Limits.urdfLimits (some u) (noLimits (.exact huge))).2 = noLimits (.exact huge) := by
    obtain ⟨ty, ul, us⟩ := u
    dsimp only at hl
    subst hl
    rfl
  rw [e] at hlim
  have hsat : Limits.saturate (some (i.wish (rawCommand b q))) (some (-huge)) (some huge) = some (rec.limited (rawCommand b q)) := by
    rcases hk with hk | hk <;> rw [hk] at hlim <;> exact Option.some.inj hlim
  rw [Limits.saturate_some, Limits.clamp_of_mem (abs_le.1 hc).1 (abs_le.1 hc).2] at hsat
  exact Option.some.inj hsat

theorem allowed_iff (huge : K) (u : UrdfJoint (Dbl K)) (l : UrdfLimits K) (x : K) :
    Allowed huge u l x ↔ InRange (range (.exact huge) (limitsOf u l)) x := by
  unfold Allowed InRange range
  by_cases h : Ranged u
  · rw [if_pos ((limitsOf_hasPosition u l).2 h), (limitsOf_position l h).1, (limitsOf_position l h).2]
    simp [h]
  · rw [if_neg fun e => h ((limitsOf_hasPosition u l).1 e)]
    simp only [h, false_implies, true_and, not_false_eq_true, forall_const]
    rfl

/-- One enforcement of the position limits of a joint. -/
theorem allowed_step (huge : K) {k : Limits.Kind} {u : UrdfJoint (Dbl K)} {l : UrdfLimits K} (hl : HasLimits u l)
    {prev : Dbl K} {c x v t p o : K} (ht : 0 < t) (hs : Sane k u l t)
    (hp : (if prev.isNone then some x else prev) = some p) (hr : Allowed huge u l p)
    (h : k.limit (.exact huge) (Limits.urdfLimits (some u) (noLimits (.exact huge))).2.toJointLimits
      (Limits.urdfSoftLimits (some u) (noSoft (.exact huge))).2 prev ⟨some c, some x, some v, some t⟩ = some (some o)) :
    Allowed huge u l o ∧ |o - p| ≤ l.velocity * t ∧
      (k = .posSat → Allowed huge u l c → |c - p| ≤ l.velocity * t → o = c) := by
  rw [urdfLimits_eq huge hl] at h
  rw [allowed_iff] at hr ⊢
  obtain ⟨h1, h2, h3⟩ := hs
  have pass : k = .posSat → Allowed huge u l c → |c - p| ≤ l.velocity * t → o = c := by
    rintro rfl hc hd
    have hrr : (range (.exact huge) (limitsOf u l)).1 ≤ (range (.exact huge) (limitsOf u l)).2 := hr.1.trans hr.2
    obtain ⟨_, g⟩ := Limits.posSat_step (Limits.exact_sound huge) (limitsOf u l) hrr (fun _ => ⟨trivial, h1⟩) prev
      ⟨some c, some x, some v, some t⟩ p t hp hr trivial rfl ⟨trivial, ht.le⟩
    obtain ⟨o', e, -, -, gc⟩ := g c rfl
    have : o' = o := by
      simp only [Limits.Kind.limit, e, Option.some.injEq] at h
      exact h
    rw [← this]
    refine gc ((allowed_iff huge u l c).1 hc) fun _ => ⟨_, rfl, _, _, rfl, rfl, ?_, ?_⟩
    · have := (abs_le.1 hd).1
      show p - l.velocity * t ≤ c
      linarith
    · have := (abs_le.1 hd).2
      show c ≤ p + l.velocity * t
      linarith
  cases k with
  | posSat =>
    have h' : Limits.Kind.posSat.limit (.exact huge) (limitsOf u l).lift (SoftLimits.lift ⟨0, 0, 0, 0⟩) prev
        ⟨some c, some x, some v, some t⟩ = some (some o) := h
    have := Cycle.position_step huge .posSat (limitsOf u l) ⟨0, 0, 0, 0⟩ prev c x v t p o ht
      ⟨hr.1.trans hr.2, fun _ => h1⟩ hp hr h'
    exact ⟨this.1, this.2 rfl, pass⟩
  | posSoft =>
    obtain ⟨hran, s, hs, g1, g2, g3⟩ := h3
    rw [urdfSoft_eq huge hs] at h
    have := Cycle.position_step huge .posSoft (limitsOf u l) _ prev c x v t p o ht
      ⟨(limitsOf_hasPosition u l).2 hran, rfl, by
        rw [(limitsOf_position l hran).1, (limitsOf_position l hran).2]; exact h2 hran, h1, by
        rw [(limitsOf_position l hran).1]; exact g1, g2, g3⟩ hp hr h
    exact ⟨this.1, this.2 rfl, pass⟩
  | effSat => cases h3
  | effSoft => cases h3
  | velSat => cases h3
  | velSoft => cases h3

/-- **C111, position limits.** A joint with limits in the URDF is listed for position commands, and the class of the
position limit handles is position saturation or soft position limits. Whatever the controllers command and whatever
other joints, limits and transmissions there are: provided the measured position of the joint is in its range in the
first cycle and in cycles with a reset, the actuator commands of every cycle amount to a joint position within the
range of the URDF, at most `velocity * period` away from what the commands of the cycle before amounted to (in the
first cycle and after a reset: from the measured position); and position saturation passes on what
the controllers command if it satisfies both. -/
theorem c111_position (nd : Bool) (huge : K) (ha : Assembled stod (.exact huge) L0 d infos joints r)
    (is : List (Cycle.Input K)) (ht : ∀ i ∈ is, 0 < i.period) (m : Mem K) (n : String) (u : UrdfJoint (Dbl K))
    (l : UrdfLimits K) (hd : Driven L0 infos .position n) (hj : (.position, n, u) ∈ joints) (hl : HasLimits u l)
    (hs : ∀ i ∈ is, Sane (r.kind .position) u l i.period)
    (hstart : ∀ k i rec y, is[k]? = some i → (r.run (.exact huge) nd is m).1[k]? = some rec → k = 0 ∨ i.reset = true →
      r.jointValue .position n rec.measured = some y → Allowed huge u l y) :
    ∀ (k : Nat) i rec, is[k]? = some i → (r.run (.exact huge) nd is m).1[k]? = some rec →
      ∃ x p, Sends stod L0 infos .position rec n x ∧ Allowed huge u l x ∧ |x - p| ≤ l.velocity * i.period ∧
        (k = 0 ∨ i.reset = true → r.jointValue .position n rec.measured = some p) ∧
        (i.reset = false → ∀ k' rec', k = k' + 1 → (r.run (.exact huge) nd is m).1[k']? = some rec' →
          Sends stod L0 infos .position rec' n p) ∧
        (r.kind .position = .posSat → ∀ c, r.jointCommand .position n i.wish = some c → Allowed huge u l c →
          |c - p| ≤ l.velocity * i.period → x = c) := by
  obtain ⟨b, hval, -, hcmd, hfacts⟩ := listed nd huge ha is ht m hd hj
  have hlen := (c111_completes nd huge ha is ht m).2
  have kinds : ∀ i ∈ is, r.kind .position = .posSat ∨ r.kind .position = .posSoft := fun i hi => by
    have := (hs i hi).2.2
    revert this
    cases r.kind .position <;> simp
  have pass : ∀ {i : Cycle.Input K} {p o : K}, (r.kind .position = .posSat →
      Allowed huge u l (i.wish (rawCommand b .position)) → |i.wish (rawCommand b .position) - p| ≤ l.velocity * i.period →
        o = i.wish (rawCommand b .position)) → r.kind .position = .posSat →
      ∀ c, r.jointCommand .position n i.wish = some c → Allowed huge u l c → |c - p| ≤ l.velocity * i.period → o = c := by
    intro i p o h hk c hc h1 h2
    rw [hcmd] at hc
    cases hc
    exact h hk h1 h2
  intro k
  induction k with
  | zero =>
    intro i rec hi hrec
    have hi' : i ∈ is := List.mem_of_getElem? hi
    obtain ⟨hsend, p, hp0, -, hlim⟩ := hfacts 0 i rec hi hrec
    have hr := hstart 0 i rec _ hi hrec (Or.inl rfl) (hval _)
    have hnone : effective (r.kind .position) i.reset p = none := by
      have : p = none := by
        rw [hp0 rfl]
        rcases kinds i hi' with e | e <;> rw [e] <;> rfl
      unfold effective
      split
      · rfl
      · exact this
    rw [hnone] at hlim
    obtain ⟨g1, g2, g3⟩ := allowed_step huge hl (ht i hi') (hs i hi') rfl hr hlim
    exact ⟨_, _, (hsend _).2 rfl, g1, g2, fun _ => hval _, fun _ k' rec' e => (by cases e), pass g3⟩
  | succ k ih =>
    intro i rec hi hrec
    have hi' : i ∈ is := List.mem_of_getElem? hi
    have hk1 : k + 1 < is.length := (List.getElem?_eq_some_iff.1 hi).1
    obtain ⟨hsend, p, -, hpj, hlim⟩ := hfacts (k + 1) i rec hi hrec
    have hrec' := List.getElem?_eq_getElem (l := (r.run (.exact huge) nd is m).1) (i := k) (by omega)
    set rec' := (r.run (.exact huge) nd is m).1[k]'(by omega) with hre
    have hik := List.getElem?_eq_getElem (l := is) (i := k) (by omega)
    obtain ⟨hsend', -⟩ := hfacts k _ rec' hik hrec'
    obtain ⟨x', -, hx', hr', -⟩ := ih _ rec' hik hrec'
    have hp := hpj k rec' rfl hrec'
    rw [← (hsend' x').1 hx'] at hp
    cases hreset : i.reset with
    | true =>
      have hr := hstart (k + 1) i rec _ hi hrec (Or.inr hreset) (hval _)
      have hnone : effective (r.kind .position) i.reset p = none := by
        unfold effective
        rw [if_pos ⟨hreset, kinds i hi'⟩]
      rw [hnone] at hlim
      obtain ⟨g1, g2, g3⟩ := allowed_step huge hl (ht i hi') (hs i hi') rfl hr hlim
      exact ⟨_, _, (hsend _).2 rfl, g1, g2, fun _ => hval _, fun h => (by cases h), pass g3⟩
    | false =>
      have hsome : effective (r.kind .position) i.reset p = some x' := by
        unfold effective
        rw [if_neg (by simp [hreset]), hp]
      rw [hsome] at hlim
      obtain ⟨g1, g2, g3⟩ := allowed_step huge hl (ht i hi') (hs i hi') (p := x') rfl hr' hlim
      refine ⟨_, x', (hsend _).2 rfl, g1, g2, fun h => ?_, fun _ k'' rec'' e hrec'' => ?_, pass g3⟩
      · rcases h with h | h <;> cases h
      · have : k'' = k := by omega
        subst this
        rw [hrec'] at hrec''
        rw [← Option.some.inj hrec'']
        exact hx'

/-- **C111, velocity limits.** A joint with limits in the URDF is listed for velocity commands. The actuator commands
of every cycle amount to a joint velocity within `± velocity`; with velocity saturation it is the commanded one if
that is within the limits; and with soft limits it is not positive at or beyond the upper soft limit, nor negative at
or beyond the lower one. -/
theorem c111_velocity (nd : Bool) (huge : K) (ha : Assembled stod (.exact huge) L0 d infos joints r)
    (is : List (Cycle.Input K)) (ht : ∀ i ∈ is, 0 < i.period) (m : Mem K) (n : String) (u : UrdfJoint (Dbl K))
    (l : UrdfLimits K) (s : UrdfSafety K) (hd : Driven L0 infos .velocity n) (hj : (.velocity, n, u) ∈ joints)
    (hl : HasLimits u l) (hV : 0 ≤ l.velocity)
    (hk : r.kind .velocity = .velSat ∨ (r.kind .velocity = .velSoft ∧ HasSoftLimits u s)) :
    ∀ (k : Nat) i rec, is[k]? = some i → (r.run (.exact huge) nd is m).1[k]? = some rec →
      ∃ x p c, Sends stod L0 infos .velocity rec n x ∧ r.jointValue .position n rec.measured = some p ∧
        r.jointCommand .velocity n i.wish = some c ∧ |x| ≤ l.velocity ∧
        (r.kind .velocity = .velSat → |c| ≤ l.velocity → x = c) ∧
        (r.kind .velocity = .velSoft → Ranged u → 0 ≤ s.kPosition → s.softLower ≤ s.softUpper →
          (s.softUpper ≤ p → x ≤ 0) ∧ (p ≤ s.softLower → 0 ≤ x)) := by
  obtain ⟨b, hval, -, hcmd, hfacts⟩ := listed nd huge ha is ht m hd hj
  intro k i rec hi hrec
  obtain ⟨hsend, p, -, -, hlim⟩ := hfacts k i rec hi hrec
  refine ⟨_, _, _, (hsend _).2 rfl, hval _, hcmd _, ?_⟩
  rw [urdfLimits_eq huge hl] at hlim
  rcases hk with e | ⟨e, hs⟩
  · rw [e] at hlim
    simp only [Limits.Kind.limit] at hlim
    have e1 : Limits.velSat (.exact huge) (limitsOf u l).lift (effective .velSat i.reset p)
        ⟨some (i.wish (rawCommand b .velocity)), some (rec.measured b), some (rec.measured (b + 1)), some i.period⟩ =
          some (Limits.saturate (some (i.wish (rawCommand b .velocity))) (some (-l.velocity)) (some l.velocity)) := by
      unfold Limits.velSat
      rw [if_neg (by show ¬(limitsOf u l).hasAcceleration = true; simp [limitsOf])]
      rfl
    rw [e1, Limits.saturate_some] at hlim
    have e2 : rec.limited (rawCommand b .velocity) = Limits.clamp (i.wish (rawCommand b .velocity)) (-l.velocity) l.velocity :=
      (Option.some.inj (Option.some.inj hlim)).symm
    refine ⟨?_, fun _ hc => ?_, fun h => (by rw [e] at h; cases h)⟩
    · rw [e2]
      exact abs_le.2 ⟨le_min (le_max_right _ _) (by linarith), min_le_right _ _⟩
    · rw [e2]
      exact Limits.clamp_of_mem (abs_le.1 hc).1 (abs_le.1 hc).2
  · rw [e, urdfSoft_eq huge hs] at hlim
    have hlimit : Limits.velocityLimit huge (limitsOf u l) = l.velocity := by
      rw [Limits.velocityLimit, if_pos (show (limitsOf u l).hasVelocity = true from rfl)]; rfl
    obtain ⟨o, g, b1, b2⟩ := Limits.c44_without_acceleration huge (limitsOf u l) ⟨s.softLower, s.softUpper, s.kPosition, s.kVelocity⟩
      ⟨some (i.wish (rawCommand b .velocity)), some (rec.measured b), some (rec.measured (b + 1)), some i.period⟩ _ _ _ _
      rfl rfl rfl rfl (by rw [hlimit]; exact hV) rfl
    rw [hlimit] at b1
    simp only [Limits.Kind.limit, g, Option.some.injEq] at hlim
    subst hlim
    exact ⟨b1, fun h => (by rw [e] at h; cases h), fun _ hr => b2 ((limitsOf_hasPosition u l).2 hr)⟩

/-- **C111, effort limits.** A joint with limits in the URDF is listed for effort commands. The actuator commands of
every cycle amount to a joint effort within `± effort`. With effort saturation the effort does not push further if
the measured position is beyond the range or the measured velocity beyond the limit, and otherwise it is the commanded
one if that is within the limits. With soft limits the effort does not accelerate a joint at or above its velocity
limit, nor push a joint outward that is at or beyond a soft limit and not moving back. -/
theorem c111_effort (nd : Bool) (huge : K) (ha : Assembled stod (.exact huge) L0 d infos joints r)
    (is : List (Cycle.Input K)) (ht : ∀ i ∈ is, 0 < i.period) (m : Mem K) (n : String) (u : UrdfJoint (Dbl K))
    (l : UrdfLimits K) (s : UrdfSafety K) (hd : Driven L0 infos .effort n) (hj : (.effort, n, u) ∈ joints)
    (hl : HasLimits u l) (hE : 0 ≤ l.effort) (hV : 0 ≤ l.velocity) (hP : Ranged u → l.lower ≤ l.upper)
    (hk : r.kind .effort = .effSat ∨ (r.kind .effort = .effSoft ∧ HasSoftLimits u s)) :
    ∀ (k : Nat) i rec, is[k]? = some i → (r.run (.exact huge) nd is m).1[k]? = some rec →
      ∃ x p v c, Sends stod L0 infos .effort rec n x ∧ r.jointValue .position n rec.measured = some p ∧
        r.jointValue .velocity n rec.measured = some v ∧ r.jointCommand .effort n i.wish = some c ∧ |x| ≤ l.effort ∧
        (r.kind .effort = .effSat →
          (Ranged u → (p < l.lower → 0 ≤ x) ∧ (l.upper < p → x ≤ 0)) ∧
          (v < -l.velocity → 0 ≤ x) ∧ (l.velocity < v → x ≤ 0) ∧
          (|c| ≤ l.effort → (Ranged u → l.lower ≤ p ∧ p ≤ l.upper) → |v| ≤ l.velocity → x = c)) ∧
        (r.kind .effort = .effSoft → 0 ≤ s.kVelocity →
          (l.velocity ≤ v → x ≤ 0) ∧ (v ≤ -l.velocity → 0 ≤ x) ∧
          (0 ≤ s.kPosition → s.softLower ≤ s.softUpper → Ranged u →
            (s.softUpper ≤ p → 0 ≤ v → x ≤ 0) ∧ (p ≤ s.softLower → v ≤ 0 → 0 ≤ x))) := by
  obtain ⟨b, hval, hvel, hcmd, hfacts⟩ := listed nd huge ha is ht m hd hj
  intro k i rec hi hrec
  obtain ⟨hsend, p, -, -, hlim⟩ := hfacts k i rec hi hrec
  refine ⟨_, _, _, _, (hsend _).2 rfl, hval _, hvel _, hcmd _, ?_⟩
  rw [urdfLimits_eq huge hl] at hlim
  rcases hk with e | ⟨e, hs⟩
  · rw [e] at hlim
    have hP' : (limitsOf u l).minPosition ≤ (limitsOf u l).maxPosition := by
      by_cases hr : Ranged u
      · rw [(limitsOf_position l hr).1, (limitsOf_position l hr).2]; exact hP hr
      · have := fun e => hr ((limitsOf_hasPosition u l).1 e)
        unfold limitsOf at this ⊢
        dsimp only at this ⊢
        rw [if_neg this, if_neg this]
    obtain ⟨x, g, b1, b2, _, _, b5, b6⟩ := Limits.c41_effort_saturation_partial (.exact huge) (limitsOf u l)
      ⟨some (i.wish (rawCommand b .effort)), some (rec.measured b), some (rec.measured (b + 1)), some i.period⟩
      (i.wish (rawCommand b .effort)) ⟨neg_nonpos.2 hE, hE⟩ hP' (by show -l.velocity ≤ l.velocity; linarith) rfl
    have pass := Limits.c41_only_for_a_reason (.exact huge) (limitsOf u l)
      ⟨some (i.wish (rawCommand b .effort)), some (rec.measured b), some (rec.measured (b + 1)), some i.period⟩
      (i.wish (rawCommand b .effort)) ⟨neg_nonpos.2 hE, hE⟩ rfl
    rw [g] at pass
    simp only [Limits.Kind.limit, g, Option.some.injEq] at hlim
    subst hlim
    refine ⟨abs_le.2 ⟨b1, b2⟩, fun _ => ⟨fun hr => ?_, (b6 _ rfl).1, (b6 _ rfl).2, fun hc hp hv => ?_⟩,
      fun h => (by rw [e] at h; cases h)⟩
    · have := b5 ((limitsOf_hasPosition u l).2 hr) _ rfl
      rw [(limitsOf_position l hr).1, (limitsOf_position l hr).2] at this
      exact this
    · refine Option.some.inj (pass (abs_le.1 hc).1 (abs_le.1 hc).2 ?_ ?_)
      · rintro hr _ ⟨⟩
        have hr := (limitsOf_hasPosition u l).1 hr
        rw [(limitsOf_position l hr).1, (limitsOf_position l hr).2]
        exact ⟨fun h => absurd (hp hr).1 (not_le.2 h), fun h => absurd (hp hr).2 (not_le.2 h)⟩
      · rintro _ ⟨⟩
        exact ⟨fun h => absurd (abs_le.1 hv).1 (not_le.2 h), fun h => absurd (abs_le.1 hv).2 (not_le.2 h)⟩
  · rw [e, urdfSoft_eq huge hs] at hlim
    obtain ⟨x, g, b0, b1, b2⟩ := Limits.c42_effort_soft_partial huge (limitsOf u l)
      ⟨s.softLower, s.softUpper, s.kPosition, s.kVelocity⟩
      ⟨some (i.wish (rawCommand b .effort)), some (rec.measured b), some (rec.measured (b + 1)), some i.period⟩ _ _
      (i.wish (rawCommand b .effort)) rfl rfl rfl hE hV
    simp only [Limits.Kind.limit, g, Option.some.injEq] at hlim
    subst hlim
    exact ⟨b0, fun h => (by rw [e] at h; cases h), fun _ hv => ⟨(b1 hv).1, (b1 hv).2, fun hk hs hr =>
      b2 hv hk hs ((limitsOf_hasPosition u l).2 hr)⟩⟩

/-- **C111, closed loop.** With actuators that reach the commanded positions by the next cycle, a joint that starts
within the range of the URDF is measured within it for ever, whatever the controllers command and whenever the limits
are reset; it moves by at most `velocity * period` per cycle; and its position is always what the actuator commands of
the cycle before amount to. -/
theorem c111_closed_loop (nd : Bool) (huge : K) (ha : Assembled stod (.exact huge) L0 d infos joints r)
    (is : List (Cycle.Input K)) (ht : ∀ i ∈ is, 0 < i.period) (m : Mem K) (n : String) (u : UrdfJoint (Dbl K))
    (l : UrdfLimits K) (hd : Driven L0 infos .position n) (hj : (.position, n, u) ∈ joints) (hl : HasLimits u l)
    (hs : ∀ i ∈ is, Sane (r.kind .position) u l i.period)
    (hf : ∀ k i' rec, is[k + 1]? = some i' → (r.run (.exact huge) nd is m).1[k]? = some rec →
      Reaches L0 infos n rec.sent i'.sense)
    (hstart : ∀ rec y, (r.run (.exact huge) nd is m).1[0]? = some rec →
      r.jointValue .position n rec.measured = some y → Allowed huge u l y) :
    ∀ (k : Nat) i rec, is[k]? = some i → (r.run (.exact huge) nd is m).1[k]? = some rec →
      ∃ x, r.jointValue .position n rec.measured = some x ∧ Allowed huge u l x ∧
        ∀ rec', (r.run (.exact huge) nd is m).1[k + 1]? = some rec' →
          ∃ x', r.jointValue .position n rec'.measured = some x' ∧ Sends stod L0 infos .position rec n x' ∧
            |x' - x| ≤ l.velocity * i.period := by
  obtain ⟨b, hval, -, hcmd, hfacts⟩ := listed nd huge ha is ht m hd hj
  have hlen := (c111_completes nd huge ha is ht m).2
  have kinds : ∀ i ∈ is, r.kind .position = .posSat ∨ r.kind .position = .posSoft := fun i hi => by
    have := (hs i hi).2.2
    revert this
    cases r.kind .position <;> simp
  -- The measured position is what has been sent.
  have next : ∀ (k : Nat) i rec rec', is[k]? = some i → (r.run (.exact huge) nd is m).1[k]? = some rec →
      (r.run (.exact huge) nd is m).1[k + 1]? = some rec' → rec'.measured b = rec.limited (rawCommand b .position) := by
    intro k i rec rec' hi hrec hrec'
    have hk : k + 1 < (r.run (.exact huge) nd is m).1.length := (List.getElem?_eq_some_iff.1 hrec').1
    have hi' := List.getElem?_eq_getElem (l := is) (i := k + 1) (by omega)
    obtain ⟨j, hj, t, v, q, hlt, hv, hq, hx⟩ := ((hfacts k i rec hi hrec).1 _).2 rfl
    obtain ⟨t', hlt', hm⟩ := c111_measured nd huge ha is ht m (k + 1) _ rec' hi' hrec' j hj
    rw [hlt] at hlt'
    cases hlt'
    obtain ⟨v', hv', hm⟩ := hm .position
    rw [hf k _ rec hi' hrec j hj (List.mem_of_getElem? hq), hv] at hv'
    cases hv'
    have := hm q n hq
    rw [hval] at this
    exact Option.some.inj (this.trans hx)
  have step : ∀ (k : Nat) i rec, is[k]? = some i → (r.run (.exact huge) nd is m).1[k]? = some rec →
      Allowed huge u l (rec.measured b) → Allowed huge u l (rec.limited (rawCommand b .position)) ∧
        |rec.limited (rawCommand b .position) - rec.measured b| ≤ l.velocity * i.period := by
    intro k i rec hi hrec hr
    have hi' : i ∈ is := List.mem_of_getElem? hi
    obtain ⟨-, p, hp0, hpj, hlim⟩ := hfacts k i rec hi hrec
    have hk : k < is.length := (List.getElem?_eq_some_iff.1 hi).1
    have href : (if (effective (r.kind .position) i.reset p).isNone then some (rec.measured b)
        else effective (r.kind .position) i.reset p) = some (rec.measured b) := by
      by_cases hnone : effective (r.kind .position) i.reset p = none
      · rw [hnone]; rfl
      · have he : effective (r.kind .position) i.reset p = p := by
          unfold effective at hnone ⊢
          split
          · rename_i hc; rw [if_pos hc] at hnone; exact absurd rfl hnone
          · rfl
        rw [he] at hnone ⊢
        cases k with
        | zero =>
          refine absurd ?_ hnone
          rw [hp0 rfl]
          rcases kinds i hi' with e | e <;> rw [e] <;> rfl
        | succ k =>
          have hrec' := List.getElem?_eq_getElem (l := (r.run (.exact huge) nd is m).1) (i := k) (by omega)
          have hik := List.getElem?_eq_getElem (l := is) (i := k) (by omega)
          rw [hpj k _ rfl hrec', next k _ _ rec hik hrec' hrec]
          rfl
    obtain ⟨g1, g2, -⟩ := allowed_step huge hl (ht i hi') (hs i hi') href hr hlim
    exact ⟨g1, g2⟩
  have inr : ∀ (k : Nat) i rec, is[k]? = some i → (r.run (.exact huge) nd is m).1[k]? = some rec →
      Allowed huge u l (rec.measured b) := by
    intro k
    induction k with
    | zero => exact fun i rec _ hrec => hstart rec _ hrec (hval _)
    | succ k ih =>
      intro i rec hi hrec
      have hk : k + 1 < is.length := (List.getElem?_eq_some_iff.1 hi).1
      have hrec' := List.getElem?_eq_getElem (l := (r.run (.exact huge) nd is m).1) (i := k) (by omega)
      have hik := List.getElem?_eq_getElem (l := is) (i := k) (by omega)
      rw [next k _ _ rec hik hrec' hrec]
      exact (step k _ _ hik hrec' (ih _ _ hik hrec')).1
  intro k i rec hi hrec
  refine ⟨_, hval _, inr k i rec hi hrec, fun rec' hrec' => ⟨_, hval _, ?_, ?_⟩⟩
  · exact ((hfacts k i rec hi hrec).1 _).2 (next k i rec rec' hi hrec hrec')
  · rw [next k i rec rec' hi hrec hrec']
    exact (step k i rec hi hrec (inr k i rec hi hrec)).2

end

/-! ### A concrete case -/

open Verif.Transmission (Elem exTransmission)
open Verif.Transmission.Loader (exStod exDoc exNumber exInfos)

/-- The element for a simple transmission with reduction 2 whose joint takes commands of some kind. -/
def exMoved (name joint actuator iface : String) : Elem :=
  exTransmission name "transmission_interface/SimpleTransmission"
    [.node "joint" [("name", joint)] none [.node "hardwareInterface" [] (some iface) []]]
    [.node "actuator" [("name", actuator)] none [exNumber "mechanicalReduction" "2"]]

/-- A joint moved by positions, one moved by efforts, and one moved by velocities. -/
def exThree : Doc := exDoc [exMoved "t1" "j1" "a1" "hardware_interface/PositionJointInterface",
  exMoved "t2" "j2" "a2" "hardware_interface/EffortJointInterface",
  exMoved "t3" "j3" "a3" "hardware_interface/VelocityJointInterface"]

/-- Three actuators, each with all kinds of commands. -/
def exActuators {T : Type} : Loader T where
  actuators :=
    { state := some [("a1", ⟨0, 1, 2, none, none⟩), ("a2", ⟨10, 11, 12, none, none⟩), ("a3", ⟨20, 21, 22, none, none⟩)]
      command := fun c => match c with
        | .position => some [("a1", 3), ("a2", 13), ("a3", 23)]
        | .velocity => some [("a1", 4), ("a2", 14), ("a3", 24)]
        | .effort => some [("a1", 5), ("a2", 15), ("a3", 25)] }
  ownState := none
  ownCommand := fun _ => none
  next := 100

/-- A revolute joint with range `[-1, 2]`, maximal velocity 1 and maximal effort 4. -/
def exUrdf : UrdfJoint (Dbl ℚ) := ⟨.revolute, some ⟨some (-1), some 2, some 4, some 1⟩, some ⟨some 0, some 1, some 1, some 1⟩⟩

/-- The first two joints have limits. -/
def exListed : List (Cmd × String × UrdfJoint (Dbl ℚ)) := [(.position, "j1", exUrdf), (.effort, "j2", exUrdf)]

/-- Saturation handles. -/
def exKind : Cmd → Limits.Kind
  | .position => .posSat
  | .velocity => .velSat
  | .effort => .effSat

/-- The robot in operation, and what is seen: the measured values and the commands of the actuators. -/
def exRun (is : List (Cycle.Input ℚ)) : Option (List (List ℚ × List ℚ)) :=
  match exActuators.loadDoc exStod exThree with
  | .ok (L, true) =>
    (init (.exact 1000) L exKind exListed).map fun r =>
      (r.run (.exact 1000) false is fun _ => 0).1.map fun rec =>
        ((["j1", "j2", "j3"].map fun n => (r.jointValue .position n rec.measured).getD 77), [3, 15, 24].map rec.sent)
  | _ => none

/-- The first joint follows its commands (the limit allows half a unit per cycle, later two), the second one is
pushed beyond its range in the third cycle. -/
def exInputs : List (Cycle.Input ℚ) :=
  [⟨fun _ => 0, fun _ => 7, 1 / 2, false⟩, ⟨fun a => if a = 0 then 1 else 0, fun _ => 7, 1 / 2, false⟩,
    ⟨fun a => if a = 0 then 2 else if a = 10 then 6 else 0, fun _ => 7, 2, true⟩]

example : exRun exInputs = some [([0, 0, 0], [1, 2, 14]), ([1 / 2, 0, 0], [2, 2, 14]), ([1, 3, 0], [4, 0, 14])] := by
  decide +kernel

/-- Once loaded, the description of the three joints is the base of a robot, for any kind of numbers. -/
theorem exThree_base {T : Type} [OfNat T 0] [OfNat T 1] [DecidableEq T] {stod : String → Option T} {L : Loader T}
    (hl : exActuators.loadDoc stod exThree = .ok (L, true)) : Base stod exActuators exThree (exInfos exThree) L := by
  have cells : ∀ c n a, (exActuators (T := T)).actuatorCell c n = some a → (c, n, a) ∈ [(Cmd.position, "a1", 3),
      (.position, "a2", 13), (.position, "a3", 23), (.velocity, "a1", 4), (.velocity, "a2", 14), (.velocity, "a3", 24),
      (.effort, "a1", 5), (.effort, "a2", 15), (.effort, "a3", 25)] := by
    intro c n a h
    cases c <;> simp only [Loader.actuatorCell, exActuators, smapFind] at h <;> (repeat' split at h) <;>
      simp_all
  refine ⟨⟨rfl, fun _ => rfl, rfl, fun _ => rfl, rfl⟩, ⟨rfl, fun _ => rfl⟩, ?_, ?_, ?_, hl, rfl, ⟨by decide, by decide⟩,
    by decide⟩
  · rintro a (⟨l, n, s, h1, h2, h3⟩ | ⟨c, l, n, h1, h2⟩)
    · cases h1
      simp only [List.mem_cons, Prod.mk.injEq, List.not_mem_nil, or_false] at h2
      show a < 100
      rcases h2 with ⟨-, rfl⟩ | ⟨-, rfl⟩ | ⟨-, rfl⟩ <;> simp [Transmission.StateCells.Has] at h3 <;> omega
    · show a < 100
      cases c <;> cases h1 <;> simp only [List.mem_cons, Prod.mk.injEq, List.not_mem_nil, or_false] at h2 <;> omega
  · intro c n n' a h h'
    have h := cells c n a h
    have h' := cells c n' a h'
    simp only [List.mem_cons, Prod.mk.injEq, List.not_mem_nil, or_false] at h h'
    rcases h with h | h | h | h | h | h | h | h | h <;> obtain ⟨rfl, rfl, rfl⟩ := h <;>
      exact Eq.symm (by simpa using h')
  · intro c c' n n' a hne h h'
    have h := cells c n a h
    have h' := cells c' n' a h'
    simp only [List.mem_cons, Prod.mk.injEq, List.not_mem_nil, or_false] at h h'
    rcases h with h | h | h | h | h | h | h | h | h <;> obtain ⟨rfl, rfl, rfl⟩ := h <;> simp at h' <;>
      exact hne h'.1.symm

/-- Each of the three joints is moved by commands of its kind. -/
theorem exThree_driven {T : Type} : Driven (exActuators (T := T)) (exInfos exThree) .position "j1" ∧
    Driven (exActuators (T := T)) (exInfos exThree) .effort "j2" ∧
    Driven (exActuators (T := T)) (exInfos exThree) .velocity "j3" :=
  ⟨⟨(exInfos exThree)[0]'(by decide), List.getElem_mem _, by decide,
      ⟨_, List.mem_of_mem_head? rfl, false, List.mem_of_mem_head? rfl⟩, _, rfl, by decide⟩,
    ⟨(exInfos exThree)[1]'(by decide), List.getElem_mem _, by decide,
      ⟨_, List.mem_of_mem_head? rfl, false, List.mem_of_mem_head? rfl⟩, _, rfl, by decide⟩,
    ⟨(exInfos exThree)[2]'(by decide), List.getElem_mem _, by decide,
      ⟨_, List.mem_of_mem_head? rfl, false, List.mem_of_mem_head? rfl⟩, _, rfl, by decide⟩⟩

/-- The case of C111: the hypotheses hold. -/
theorem exThree_case : ∃ r, Assembled exStod (.exact 1000) exActuators exThree (exInfos exThree) exListed r ∧
    r.kind = exKind ∧ Driven (exActuators (T := ℚ)) (exInfos exThree) .position "j1" ∧
    Driven (exActuators (T := ℚ)) (exInfos exThree) .effort "j2" ∧
    Driven (exActuators (T := ℚ)) (exInfos exThree) .velocity "j3" := by
  have hok : (match exActuators.loadDoc exStod exThree with
    | .ok (L, true) => (init (.exact 1000) L exKind exListed).isSome
    | _ => false) = true := by decide +kernel
  split at hok
  · rename_i L hl
    obtain ⟨r, hr⟩ := Option.isSome_iff_exists.1 hok
    have hr' : r.loader = L ∧ r.kind = exKind := by
      obtain ⟨s, -, rfl⟩ := Option.map_eq_some_iff.1 hr
      exact ⟨rfl, rfl⟩
    exact ⟨r, ⟨by rw [hr'.1]; exact exThree_base hl, by rw [hr'.1, hr'.2]; exact hr, by decide⟩, hr'.2, exThree_driven⟩
  · cases hok

/-- The limits make sense in these cycles, and the first joint starts in its range. -/
example : HasLimits exUrdf ⟨-1, 2, 4, 1⟩ ∧ HasSoftLimits exUrdf ⟨0, 1, 1, 1⟩ ∧ Ranged exUrdf ∧
    (∀ i ∈ exInputs, 0 < i.period ∧ Sane .posSat exUrdf ⟨-1, 2, 4, 1⟩ i.period) ∧
    Sane .posSoft exUrdf ⟨-1, 2, 4, 1⟩ (1 / 2) ∧ Allowed 1000 exUrdf ⟨-1, 2, 4, 1⟩ 0 := by
  refine ⟨rfl, rfl, Or.inl rfl, ?_, ?_, fun _ => by norm_num, fun h => absurd (Or.inl rfl) h⟩
  · simp only [exInputs, List.mem_cons, List.not_mem_nil, or_false, forall_eq_or_imp, forall_eq]
    norm_num [Sane]
  · exact ⟨by norm_num, fun _ => by norm_num, Or.inl rfl, ⟨0, 1, 1, 1⟩, rfl, by norm_num, by norm_num, by norm_num⟩

/-- A joint that has no limits in the URDF can be listed for position saturation, and its position is not limited. -/
example : (match exActuators.loadDoc exStod exThree with
    | .ok (L, true) => (init (.exact 1000) L exKind [(.position, "j1", ⟨.continuous, none, none⟩)]).map fun r =>
        (r.run (.exact 1000) false [⟨fun _ => 0, fun _ => 7, 1 / 2, false⟩] fun _ => 0).1.map fun rec => rec.sent 3
    | _ => none) = some [14] := by decide +kernel

/-- With soft position limits the second cycle, whose period is not positive, is the end; with position saturation it is not. -/
example : (match exActuators.loadDoc exStod exThree with
    | .ok (L, true) => [Limits.Kind.posSoft, .posSat].map fun k => (init (.exact 1000) L (fun _ => k) [(.position, "j1", exUrdf)]).map fun r =>
        let out := r.run (.exact 1000) false [⟨fun _ => 0, fun _ => 7, 1 / 2, false⟩, ⟨fun _ => 0, fun _ => 7, 0, false⟩,
          ⟨fun _ => 0, fun _ => 7, 1 / 2, false⟩] fun _ => 0
        (out.1.map fun rec => rec.sent 3, decide (out.2 = some .limits), decide (out.2 = none))
    | _ => []) = [some ([1], true, false), some ([1, 1, 2], false, true)] := by decide +kernel

/-- A joint listed for effort limits that has no limits in the URDF makes
`init` fail. -/
example : ∃ L, exActuators.loadDoc exStod exThree = .ok (L, true) ∧
    init (.exact (1000 : ℚ)) L exKind [(.effort, "j2", ⟨.continuous, none, none⟩)] = none := by
  have hok : (match exActuators.loadDoc exStod exThree with
    | .ok (L, true) => (init (.exact (1000 : ℚ)) L exKind [(.effort, "j2", ⟨.continuous, none, none⟩)]).isNone
    | _ => false) = true := by decide +kernel
  split at hok
  · rename_i L hl
    exact ⟨L, hl, Option.isNone_iff_eq_none.1 hok⟩
  · cases hok

end Verif.Described
