import Verif.Lemmas.DescribedRobotMade
import Verif.Props.DescribedRobot
import Verif.Props.RobotCycleDouble
import Verif.Spec.DescribedRobotDouble

/-!
Robots put together from their descriptions, with doubles.
-/

namespace Verif.Described

open Verif.Transmission (Mem Loader Cmd Quantity Doc TransInfo Trans loadTransmission loadTransmission_some rawCommand Is IsNaN
  Means MeansAll SameTrans jointScale actuatorScale near_all jointMaps actuatorMaps run_jointsFrom run_actuatorsFrom run_inv)
open Verif.Limits (Machine Flt Fl Arith Dbl binary64 UrdfJoint UrdfLimits UrdfSafety JointLimits SoftLimits)
open Verif.Cycle (Record Input GoodPeriod Hist limitsArith Restarts Reference positive64 is_unique CloseAll)

variable {A : Machine binary64}

theorem double_lawful (A : Machine binary64) : Lawful (Setting.double A) :=
  ⟨fun _ => rfl, fun _ _ _ _ _ out _ _ => ⟨out, rfl⟩⟩

/-! ### The limits -/

/-- The limits that are read for a joint. -/
def limits64 (A : Machine binary64) (u : UrdfJoint (Dbl (Fl binary64))) (l : UrdfLimits (Fl binary64)) :
    JointLimits (Fl binary64) :=
  let p := u.type == .revolute || u.type == .prismatic
  let z := (limitsArith A).zero
  { minPosition := if p then l.lower else z, maxPosition := if p then l.upper else z, maxVelocity := l.velocity,
    maxAcceleration := z, maxEffort := l.effort, hasPosition := p, hasVelocity := true, hasAcceleration := false,
    hasEffort := true }

theorem limits64_hasPosition (u : UrdfJoint (Dbl (Fl binary64))) (l : UrdfLimits (Fl binary64)) :
    (limits64 A u l).hasPosition = true ↔ Ranged u := by
  simp [limits64, Ranged]

theorem limits64_position {u : UrdfJoint (Dbl (Fl binary64))} (l : UrdfLimits (Fl binary64)) (h : Ranged u) :
    (limits64 A u l).minPosition = l.lower ∧ (limits64 A u l).maxPosition = l.upper := by
  have := (limits64_hasPosition (A := A) u l).2 h
  unfold limits64 at this ⊢
  dsimp only at this ⊢
  rw [if_pos this, if_pos this]
  exact ⟨rfl, rfl⟩

theorem limits64_le {u : UrdfJoint (Dbl (Fl binary64))} (l : UrdfLimits (Fl binary64))
    (h : Ranged u → l.lower.1 ≤ l.upper.1) : (limits64 A u l).minPosition.1 ≤ (limits64 A u l).maxPosition.1 := by
  by_cases hr : Ranged u
  · rw [(limits64_position l hr).1, (limits64_position l hr).2]; exact h hr
  · have := fun e => hr ((limits64_hasPosition (A := A) u l).1 e)
    unfold limits64 at this ⊢
    dsimp only at this ⊢
    rw [if_neg this, if_neg this]

theorem urdfLimits64 {u : UrdfJoint (Dbl (Fl binary64))} {l : UrdfLimits (Fl binary64)} (h : HasLimits u l) :
    (Limits.urdfLimits (some u) (noLimits (limitsArith A))).2.toJointLimits = (limits64 A u l).lift := by
  unfold HasLimits at h
  obtain ⟨ty, ul, us⟩ := u
  dsimp only at h
  subst h
  cases ty <;> rfl

theorem urdfSoft64 {u : UrdfJoint (Dbl (Fl binary64))} {s : UrdfSafety (Fl binary64)} (h : HasSoftLimits u s) :
    (Limits.urdfSoftLimits (some u) (noSoft (limitsArith A))).2 =
      SoftLimits.lift ⟨s.softLower, s.softUpper, s.kPosition, s.kVelocity⟩ := by
  unfold HasSoftLimits at h
  obtain ⟨ty, ul, us⟩ := u
  dsimp only at h
  subst h
  rfl

variable {stod : String → Option (Flt A)} {L0 L : Loader (Flt A)} {d : Doc} {infos : List TransInfo}
  {joints : List (Cmd × String × UrdfJoint (Dbl (Fl binary64)))} {r : Robot (Flt A) (Fl binary64)}

/-- The facts about a listed joint. -/
theorem listed64 (nd : Bool) (ha : Assembled stod (limitsArith A) L0 d infos joints r) (is : List (Input (Flt A)))
    (ht : ∀ i ∈ is, GoodPeriod i.period) (m : Mem (Flt A)) {c : Cmd} {n : String} {u : UrdfJoint (Dbl (Fl binary64))}
    (hj : (c, n, u) ∈ joints) :
    ∃ b, (∀ m, r.jointValue .position n m = some (m b)) ∧ (∀ m, r.jointValue .velocity n m = some (m (b + 1))) ∧
      (∀ m, r.jointCommand c n m = some (m (rawCommand b c))) ∧
      ∀ l, HasLimits u l → Hist (r.kind c) ⟨n, b, b + 1, rawCommand b c⟩ (limits64 A u l)
        (Limits.urdfSoftLimits (some u) (noSoft (limitsArith A))).2 is (r.run (.double A) nd is m).1 := by
  obtain ⟨hmade, hall, -⟩ := ha.handles
  obtain ⟨b, hraw, hcell, hmem⟩ := hall c n u hj
  refine ⟨b, ha.toBase.jointValue rfl hraw .position, ha.toBase.jointValue rfl hraw .velocity, fun m => ?_, fun l hl => ?_⟩
  · unfold Robot.jointCommand
    rw [hcell]
    rfl
  · refine ⟨?_, ht, fun k i rec hi hrec => ?_⟩
    · obtain ⟨_, _, _, h2, _⟩ := run_cycled (nd := nd) (double_lawful A) ha.toBase rfl hmade is (positive64 ht) m
      exact h2
    · have := run_joint (nd := nd) (double_lawful A) ha.toBase rfl hmade is (positive64 ht) m c n _ hmem k i rec hi hrec
      dsimp only [limiterOf] at this
      rw [urdfLimits64 hl] at this
      exact this

theorem startsOver_iff {n : String} {a : Nat} (hc : ∀ m, r.jointCommand .position n m = some (m a)) (is : List (Input (Flt A)))
    (k : Nat) : StartsOver r is n k ↔ Restarts is a k := by
  unfold StartsOver Restarts
  simp only [hc, Option.some.injEq]
  constructor
  · rintro (h | h | ⟨k', i, x, h1, h2, rfl, h3⟩)
    · exact Or.inl h
    · exact Or.inr (Or.inl h)
    · exact Or.inr (Or.inr ⟨k', i, h1, h2, h3⟩)
  · rintro (h | h | ⟨k', i, h1, h2, h3⟩)
    · exact Or.inl h
    · exact Or.inr (Or.inl h)
    · exact Or.inr (Or.inr ⟨k', i, _, h1, h2, rfl, h3⟩)

theorem before_iff {j : Limits.Joint} {n : String} (hv : ∀ m, r.jointValue .position n m = some (m j.pos))
    (hc : ∀ m, r.jointCommand .position n m = some (m j.cmd)) (is : List (Input (Flt A))) (recs : List (Record (Flt A)))
    (k : Nat) (p : Fl binary64) : Before r is recs n k p ↔ Reference is recs j k p := by
  unfold Before Reference
  simp only [startsOver_iff hc, hv, hc, Option.some.injEq]

/-! ### From the joints to the actuators -/

theorem is_all_unique {l : List (Flt A)} {a b : List ℚ} (h : List.Forall₂ Is l a) (h' : List.Forall₂ Is l b) : a = b := by
  induction l generalizing a b with
  | nil => cases h; cases h'; rfl
  | cons c l ih =>
    cases h with
    | cons h1 h2 => cases h' with
      | cons h3 h4 => rw [is_unique h1 h3, ih h2 h4]

theorem means_is {l : List (Flt A)} {a : List ℚ} (h : MeansAll l a) : List.Forall₂ Is l a := by
  unfold MeansAll at h
  exact h.imp fun _ _ h => h.1

/-- What is sent means something else for the joints only by rounding. -/
theorem close64 {i : TransInfo} {t : Trans (Flt A)} {t' : Trans ℚ} (ht : loadTransmission stod i = .ok (some t))
    (hs : SameTrans t t') (q : Quantity) {v : List (Flt A)} (hl : v.length = t.numJoints) {xs : List ℚ} (hm : MeansAll v xs) :
    (∃ ys, List.Forall₂ Is (t.actuatorsFrom q v) ys ∧
      CloseAll (2 ^ 49)⁻¹ (t'.jointsFrom q ys) xs (jointScale q t' (actuatorScale q t' (xs.map abs)))) ∧
    ∃ zs, List.Forall₂ Is (t.jointsFrom q (t.actuatorsFrom q v)) zs ∧
      CloseAll (2 ^ 49)⁻¹ zs xs (jointScale q t' (actuatorScale q t' (xs.map abs))) := by
  obtain ⟨-, -, hT⟩ := loadTransmission_some ht
  have hl' : v.length = t.numActuators := by rw [hl, Transmission.num_eq]
  obtain ⟨-, hnear, -, hback⟩ := near_all q hT hs hl' hm
  have hla' : ((actuatorMaps q t).run v).length = t.numActuators := by rw [Transmission.run_length, hl']
  rw [run_jointsFrom _ _ _ hla', run_actuatorsFrom _ _ _ hl'] at hback
  rw [run_actuatorsFrom _ _ _ hl'] at hnear
  obtain ⟨ys, hys, hclose⟩ := Cycle.near_close hnear
  refine ⟨⟨ys, hys, ?_⟩, Cycle.near_close hback⟩
  have hlx : xs.length = t'.numActuators := by rw [← hs.num.1, ← hl']; exact hm.length_eq.symm
  have hla : ((actuatorMaps q t').run xs).length = t'.numActuators := by rw [Transmission.run_length, hlx]
  have hly : ys.length = t'.numActuators := by
    rw [← hys.length_eq, ← hs.num.1, ← hla', run_actuatorsFrom _ _ _ hl']
  have := Cycle.closeAll_joint (by positivity) q t' hla hclose
  rw [(run_inv q (hs.regular hT) xs hlx).2, run_jointsFrom _ _ _ hly] at this
  exact this

theorem means_unique {a : Flt A} {x y : ℚ} (h : Means a x) (h' : Means a y) : x = y := is_unique h.1 h'.1

theorem sameTrans_unique {t : Trans (Flt A)} {a b : Trans ℚ} (h : SameTrans t a) (h' : SameTrans t b) (q : Quantity) (ys : List ℚ) :
    a.jointsFrom q ys = b.jointsFrom q ys ∧ jointScale q a ys = jointScale q b ys ∧ actuatorScale q a ys = actuatorScale q b ys := by
  cases t with
  | simple t =>
    cases a <;> cases b <;> try exact h.elim
    all_goals try exact h'.elim
    rename_i a b
    have e1 := means_unique h.1 h'.1
    have e2 := means_unique h.2 h'.2
    obtain ⟨a1, a2⟩ := a
    obtain ⟨b1, b2⟩ := b
    dsimp only at e1 e2
    subst e1 e2
    exact ⟨rfl, rfl, rfl⟩
  | differential t =>
    cases a <;> cases b <;> try exact h.elim
    all_goals try exact h'.elim
    rename_i a b
    obtain ⟨h1, h2, h3, h4, h5, h6⟩ := h
    obtain ⟨g1, g2, g3, g4, g5, g6⟩ := h'
    have e1 := means_unique h1 g1
    have e2 := means_unique h2 g2
    have e3 := means_unique h3 g3
    have e4 := means_unique h4 g4
    have e5 := means_unique h5 g5
    have e6 := means_unique h6 g6
    rcases ys with _ | ⟨x, _ | ⟨y, _ | ⟨z, ys⟩⟩⟩ <;> cases q <;>
      simp only [Trans.jointsFrom, jointScale, actuatorScale, e1, e2, e3, e4, e5, e6, and_self]
  | fourBar t =>
    cases a <;> cases b <;> try exact h.elim
    all_goals try exact h'.elim
    rename_i a b
    obtain ⟨h1, h2, h3, h4, h5, h6⟩ := h
    obtain ⟨g1, g2, g3, g4, g5, g6⟩ := h'
    have e1 := means_unique h1 g1
    have e2 := means_unique h2 g2
    have e3 := means_unique h3 g3
    have e4 := means_unique h4 g4
    have e5 := means_unique h5 g5
    have e6 := means_unique h6 g6
    rcases ys with _ | ⟨x, _ | ⟨y, _ | ⟨z, ys⟩⟩⟩ <;> cases q <;>
      simp only [Trans.jointsFrom, jointScale, actuatorScale, e1, e2, e3, e4, e5, e6, and_self]

/-- Indices of a list without repetitions. -/
theorem index_unique {α : Type} {l : List α} (h : l.Nodup) {q q' : Nat} {n : α} (h1 : l[q]? = some n) (h2 : l[q']? = some n) :
    q = q' := by
  obtain ⟨b1, e1⟩ := List.getElem?_eq_some_iff.1 h1
  obtain ⟨b2, e2⟩ := List.getElem?_eq_some_iff.1 h2
  exact (h.getElem_inj_iff).1 (e1.trans e2.symm)

/-- What the actuator commands of a cycle amount to. -/
theorem sent64 (nd : Bool) (ha : Assembled stod (limitsArith A) L0 d infos joints r) (is : List (Input (Flt A)))
    (ht : ∀ i ∈ is, GoodPeriod i.period) (m : Mem (Flt A)) (k : Nat) (i : Input (Flt A)) (rec : Record (Flt A))
    (hi : is[k]? = some i) (hrec : (r.run (.double A) nd is m).1[k]? = some rec) {c : Cmd} {n : String}
    (hd : Driven L0 infos c n) {s : ℚ} (hterms : Terms stod infos r c rec n s) :
    ∃ x y, (∃ a, r.jointCommand c n rec.limited = some a ∧ Is a x) ∧ |y - x| ≤ (2 ^ 49)⁻¹ * s ∧
      ∀ z, Sends64 stod L0 infos c rec n z ↔ z = y := by
  obtain ⟨-, hsent, -⟩ := run_transmissions (nd := nd) (double_lawful A) ha.toBase rfl ha.handles.1 is (positive64 ht) m k i rec hi hrec
  obtain ⟨j0, hj0, hn0, hcd, hcm⟩ := hd
  obtain ⟨j, hj, t, t', v, xs, q, hlt, hs, hv, hm, hq, hscale⟩ := hterms
  have := ha.toBase.transmission hj0 hj hn0 (List.mem_of_getElem? hq)
  subst this
  obtain ⟨t0, v0, hlt0, hv0, hl0, hact⟩ := hsent c j0 hj hcd hcm
  rw [hlt] at hlt0; cases hlt0
  rw [hv] at hv0; cases hv0
  obtain ⟨⟨ys, hys, hclose⟩, -⟩ := close64 hlt hs c.quantity hl0 hm
  obtain ⟨hlen, hval⟩ := Transmission.mapM_some hv
  obtain ⟨a, hva, hcmd⟩ := hval q n hq
  have hq' : q < v.length := (List.getElem?_eq_some_iff.1 hva).1
  have hlx := hm.length_eq
  have hxq := List.getElem?_eq_getElem (l := xs) (i := q) (by omega)
  have hax : Is a (xs[q]'(by omega)) := by
    have := (means_is hm).get hq' (by omega)
    rw [List.get_eq_getElem, List.get_eq_getElem, (List.getElem?_eq_some_iff.1 hva).2] at this
    exact this
  obtain ⟨y, s', hy, hs', hb⟩ := hclose.get q hxq
  rw [hscale] at hs'
  cases hs'
  refine ⟨_, y, ⟨a, hcmd, hax⟩, hb, fun z => ⟨?_, ?_⟩⟩
  · rintro ⟨j', hj', u, u', w, zs, q', hlu, hsu, hw, hzs, hq', hz⟩
    have := ha.toBase.transmission hj hj' hn0 (List.mem_of_getElem? hq')
    subst this
    rw [hlt] at hlu; cases hlu
    rw [hact] at hw; cases hw
    have e := is_all_unique hys hzs
    subst e
    have hnd : j0.jointNames.Nodup := (List.nodup_flatMap.1 ha.apart.joints).1 j0 hj0
    rw [← index_unique hnd hq hq', ← (sameTrans_unique hs hsu _ _).1, hy] at hz
    exact (Option.some.inj hz).symm
  · rintro rfl
    exact ⟨j0, hj, t, t', _, ys, q, hlt, hs, hact, hys, hq, hy⟩

/-- A joint whose command after the limits is between two numbers. -/
theorem within64 (nd : Bool) (ha : Assembled stod (limitsArith A) L0 d infos joints r) (is : List (Input (Flt A)))
    (ht : ∀ i ∈ is, GoodPeriod i.period) (m : Mem (Flt A)) (k : Nat) (i : Input (Flt A)) (rec : Record (Flt A))
    (hi : is[k]? = some i) (hrec : (r.run (.double A) nd is m).1[k]? = some rec) {c : Cmd} {n : String}
    (hd : Driven L0 infos c n) {o : Fl binary64} (ho : r.jointCommand c n rec.limited = some (Flt.fl o)) {lo hi' : ℚ}
    (h1 : lo ≤ o.1) (h2 : o.1 ≤ hi') : SendsWithin64 stod L0 infos r c rec n lo hi' := by
  intro s hterms
  obtain ⟨x, y, ⟨a, ea, hx⟩, hb, hy⟩ := sent64 nd ha is ht m k i rec hi hrec hd hterms
  rw [ho] at ea
  cases ea
  have := is_unique hx ⟨o, rfl, rfl⟩
  subst this
  refine ⟨y, (hy y).2 rfl, ?_, ?_⟩
  · linarith [(abs_le.1 hb).1]
  · linarith [(abs_le.1 hb).2]

end Verif.Described
