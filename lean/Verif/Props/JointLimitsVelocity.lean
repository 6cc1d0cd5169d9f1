import Verif.Lemmas.JointLimitsVelocity
import Verif.Props.JointLimitsPosition

/-!
Properties C43-C45: the velocity limiters, and transparency of all limiters.
-/

namespace Verif.Limits

section C43

variable {K : Type} [LinearOrder K] {A : Arith K} {Fin : K → Prop}

/-- **C43, for any sound arithmetic.** Consider any history of a velocity saturation handle whose
commands are numbers and whose periods are finite and positive. Every call is carried out; the command
a call counts as previous is what the call before it has written (zero at the start); every written
command is a number within `±max_velocity` and, with acceleration limits, at most
`max_acceleration * period` away from the previous one as computed; and a command that satisfies both is
not changed. -/
theorem c43_history_partial (hA : Sound A Fin) (L : JointLimits K)
    (hV : Fin L.maxVelocity ∧ A.zero ≤ L.maxVelocity)
    (ha : L.hasAcceleration = true → Fin L.maxAcceleration ∧ A.zero ≤ L.maxAcceleration)
    (is : List (Input (Dbl K)))
    (hi : ∀ i ∈ is, (∃ c, i.cmd = some c) ∧ ∃ t, i.dt = some t ∧ Fin t ∧ A.zero < t) :
    let rs := velSatRun A L.lift (some A.zero) is
    rs.map (·.input) = is ∧ (some A.zero :: rs.map (·.out)) = rs.map (·.ref) ++ [(rs.map (·.out)).getLastD (some A.zero)] ∧
    ∀ r ∈ rs, ∃ p c t o, r.ref = some p ∧ r.input.cmd = some c ∧ r.input.dt = some t ∧ r.out = some o ∧
      InRange (A.neg L.maxVelocity, L.maxVelocity) o ∧
      (L.hasAcceleration = true → ∃ d, A.mul L.maxAcceleration t = some d ∧ Within A p d o) ∧
      (InRange (A.neg L.maxVelocity, L.maxVelocity) c →
        (L.hasAcceleration = true → ∃ d, A.mul L.maxAcceleration t = some d ∧ Within A p d c) → o = c) := by
  have gen : ∀ (is : List (Input (Dbl K))) (p : K), InRange (A.neg L.maxVelocity, L.maxVelocity) p →
      (∀ i ∈ is, (∃ c, i.cmd = some c) ∧ ∃ t, i.dt = some t ∧ Fin t ∧ A.zero < t) →
      let rs := velSatRun A L.lift (some p) is
      rs.map (·.input) = is ∧ (some p :: rs.map (·.out)) = rs.map (·.ref) ++ [(rs.map (·.out)).getLastD (some p)] ∧
      ∀ r ∈ rs, ∃ p c t o, r.ref = some p ∧ r.input.cmd = some c ∧ r.input.dt = some t ∧ r.out = some o ∧
        InRange (A.neg L.maxVelocity, L.maxVelocity) o ∧
        (L.hasAcceleration = true → ∃ d, A.mul L.maxAcceleration t = some d ∧ Within A p d o) ∧
        (InRange (A.neg L.maxVelocity, L.maxVelocity) c →
          (L.hasAcceleration = true → ∃ d, A.mul L.maxAcceleration t = some d ∧ Within A p d c) → o = c) := by
    intro is
    induction is with
    | nil => intro p _ _; simp [velSatRun]
    | cons i is ih =>
      intro p hp hi
      obtain ⟨⟨c, hc⟩, t, ht, ht0⟩ := hi i (by simp)
      obtain ⟨o, ho, h1, h2, h3⟩ := velSat_step hA L hV ha p t hp i c hc ht ht0
      obtain ⟨g1, g2, g3⟩ := ih o h1 (fun j hj => hi j (by simp [hj]))
      have e : velSatRun A L.lift (some p) (i :: is) =
          ⟨some p, i, some o⟩ :: velSatRun A L.lift (some o) is := by rw [velSatRun, ho]
      intro rs
      have er : rs = ⟨some p, i, some o⟩ :: velSatRun A L.lift (some o) is := e
      refine ⟨by rw [er]; simp [g1], ?_, ?_⟩
      · rw [er]
        simp only [List.map_cons, List.cons_append, List.getLastD_cons]
        rw [← g2]
      · intro r hr
        rw [er] at hr
        rcases List.mem_cons.1 hr with rfl | hr
        · exact ⟨p, c, t, o, rfl, hc, ht, rfl, h1, h2, h3⟩
        · exact g3 r hr
  exact gen is A.zero ⟨hA.neg_nonpos _ hV.2, hV.2⟩ hi

/-- **C43, without acceleration limits** a NaN command has no lasting effect: every command that is a
number is written as a number within `±max_velocity`, whatever came before. -/
theorem c43_no_acceleration (L : JointLimits K) (hV : A.neg L.maxVelocity ≤ L.maxVelocity)
    (ha : L.hasAcceleration = false) (is : List (Input (Dbl K))) (prev : Dbl K) :
    (velSatRun A L.lift prev is).map (·.input) = is ∧
    ∀ r ∈ velSatRun A L.lift prev is, ∀ c, r.input.cmd = some c →
      ∃ o, r.out = some o ∧ InRange (A.neg L.maxVelocity, L.maxVelocity) o := by
  have step : ∀ p i, velSat A L.lift p i = some (saturate i.cmd (some (A.neg L.maxVelocity)) (some L.maxVelocity)) := by
    intro p i
    have h' : ¬L.lift.hasAcceleration = true := by
      show ¬L.hasAcceleration = true
      simp [ha]
    unfold velSat
    rw [if_neg h']
    rfl
  induction is generalizing prev with
  | nil => simp [velSatRun]
  | cons i is ih =>
    simp only [velSatRun, step]
    refine ⟨by simp [(ih _).1], ?_⟩
    intro r hr
    rcases List.mem_cons.1 hr with rfl | hr
    · intro c hc
      have hc' : i.cmd = some c := hc
      simp only [hc', saturate_some]
      exact ⟨_, rfl, le_min (le_max_right _ _) hV, min_le_right _ _⟩
    · exact (ih _).2 r hr

/-- **C43 does not hold after a NaN command.** With acceleration limits, a NaN command makes the limiter
pass the next command unchanged, here 900 with a velocity limit of 2. -/
theorem c43_nan_negation :
    ∃ (L : JointLimits ℤ) (is : List (Input (Dbl ℤ))), velSatOk L.lift = true ∧ L.hasAcceleration = true ∧
      ∃ r ∈ velSatRun (Arith.exact 1000) L.lift (some 0) is, ∃ o, r.out = some o ∧ L.maxVelocity < o :=
  ⟨⟨-10, 10, 2, 3, 8, true, true, true, true⟩,
    [⟨none, some 0, some 0, some 1⟩, ⟨some 900, some 0, some 0, some 1⟩], rfl, rfl,
    ⟨none, ⟨some 900, some 0, some 0, some 1⟩, some 900⟩, by decide, 900, rfl, by decide⟩

end C43

section C43exact

variable {K : Type} [CommRing K] [LinearOrder K] [IsStrictOrderedRing K]

/-- **C43, exact arithmetic.** -/
theorem c43_exact_partial (huge : K) (L : JointLimits K) (hV : 0 ≤ L.maxVelocity)
    (ha : L.hasAcceleration = true → 0 ≤ L.maxAcceleration) (is : List (Input (Dbl K)))
    (hi : ∀ i ∈ is, (∃ c, i.cmd = some c) ∧ ∃ t, i.dt = some t ∧ 0 < t) :
    ∀ r ∈ velSatRun (Arith.exact huge) L.lift (some 0) is, ∃ p t o, r.ref = some p ∧ r.input.dt = some t ∧
      r.out = some o ∧ |o| ≤ L.maxVelocity ∧ (L.hasAcceleration = true → |o - p| ≤ L.maxAcceleration * t) := by
  intro r hr
  obtain ⟨p, c, t, o, h1, _, h3, h4, h5, h6, _⟩ := (c43_history_partial (exact_sound huge) L ⟨trivial, hV⟩
    (fun h => ⟨trivial, ha h⟩) is (fun i h => by
      obtain ⟨hc, t, ht, ht0⟩ := hi i h
      exact ⟨hc, t, ht, trivial, ht0⟩)).2.2 r hr
  refine ⟨p, t, o, h1, h3, h4, abs_le.2 h5, fun h => ?_⟩
  obtain ⟨d, hd, x, y, hx, hy, h7, h8⟩ := h6 h
  cases hd; cases hx; cases hy
  exact abs_le.2 ⟨by linarith, by linarith⟩

example : (velSatRun (Arith.exact 1000) (JointLimits.mk (-10) 10 5 3 8 true true true true : JointLimits ℤ).lift (some 0)
    [⟨some 50, some 0, some 0, some 1⟩, ⟨some 50, some 0, some 0, some 1⟩, ⟨some (-50), some 0, some 0, some 2⟩]).map
      (·.out) = [some 3, some 5, some (-1)] := by decide

end C43exact

section C44

variable {K : Type} [CommRing K] [LinearOrder K] [IsStrictOrderedRing K]

/-- The velocity limit the soft velocity limiter applies: the joint's, or the largest double. -/
def velocityLimit (huge : K) (L : JointLimits K) : K := if L.hasVelocity then L.maxVelocity else huge

/-- **C44, exact arithmetic.** For states and commands that are numbers, the soft velocity limiter writes
a number not above `max_velocity`; at or beyond the upper soft limit (nonnegative gain) it is not
positive, and leads back with at least the gain times the distance (or full speed). It is not below
`-max_velocity`, and not negative at or beyond the lower soft limit, if there are no acceleration
limits or the acceleration limit allows to reach `-max_velocity`, or zero, in this period. -/
theorem c44_velocity_soft_partial (huge : K) (L : JointLimits K) (S : SoftLimits K) (i : Input (Dbl K))
    (x v t c : K) (hx : i.pos = some x) (hv : i.vel = some v) (ht : i.dt = some t) (hc : i.cmd = some c)
    (hV : 0 ≤ velocityLimit huge L) :
    ∃ o, velSoft (Arith.exact huge) L.lift S.lift i = some o ∧ o ≤ velocityLimit huge L ∧
      ((L.hasAcceleration = true → -velocityLimit huge L ≤ v + L.maxAcceleration * t) → -velocityLimit huge L ≤ o) ∧
      (L.hasPosition = true → 0 ≤ S.kPosition → S.minPosition ≤ S.maxPosition →
        (S.maxPosition ≤ x → o ≤ -min (S.kPosition * (x - S.maxPosition)) (velocityLimit huge L)) ∧
        (x ≤ S.minPosition → (L.hasAcceleration = true → 0 ≤ v + L.maxAcceleration * t) → 0 ≤ o)) := by
  have hV' : 0 ≤ vLimit huge L := hV
  rw [velSoft_exact huge L S i x v t c hx hv ht hc]
  have hb := sVel_bounds L S hV' x
  have hdown : L.hasPosition = true → 0 ≤ S.kPosition → S.maxPosition ≤ x →
      (sVel L S (vLimit huge L) x).2 ≤ -min (S.kPosition * (x - S.maxPosition)) (vLimit huge L) := by
    intro hP hk h
    simp only [sVel, hP, if_true, clamp]
    refine (min_le_left _ _).trans (max_le ?_ ?_)
    · have := min_le_left (S.kPosition * (x - S.maxPosition)) (vLimit huge L)
      linarith
    · have := min_le_right (S.kPosition * (x - S.maxPosition)) (vLimit huge L)
      linarith
  refine ⟨_, rfl, ?_, ?_, fun hP hk hS => ⟨fun h => ?_, fun h ha => ?_⟩⟩
  · split
    · exact (min_le_right _ _).trans ((min_le_right _ _).trans hb.2.2)
    · exact (min_le_right _ _).trans hb.2.2
  · intro h
    split
    · rename_i hA
      exact le_min (hb.1.1.trans ((le_max_right _ _).trans (le_max_right _ _))) (le_min (h hA) hb.2.1)
    · exact le_min (hb.1.1.trans (le_max_right _ _)) hb.2.1
  · split
    · exact (min_le_right _ _).trans ((min_le_right _ _).trans (hdown hP hk h))
    · exact (min_le_right _ _).trans (hdown hP hk h)
  · have hz := (sVel_beyond hV' hk hS hP).2 h
    split
    · rename_i hA
      exact le_min (hz.1.trans ((le_max_right _ _).trans (le_max_right _ _))) (le_min (ha hA) hz.2)
    · exact le_min (hz.1.trans (le_max_right _ _)) hz.2

/-- **C44, full statement without acceleration limits**: size at most `max_velocity`, and no outward motion
at or beyond either soft limit. -/
theorem c44_without_acceleration (huge : K) (L : JointLimits K) (S : SoftLimits K) (i : Input (Dbl K))
    (x v t c : K) (hx : i.pos = some x) (hv : i.vel = some v) (ht : i.dt = some t) (hc : i.cmd = some c)
    (hV : 0 ≤ velocityLimit huge L) (ha : L.hasAcceleration = false) :
    ∃ o, velSoft (Arith.exact huge) L.lift S.lift i = some o ∧ |o| ≤ velocityLimit huge L ∧
      (L.hasPosition = true → 0 ≤ S.kPosition → S.minPosition ≤ S.maxPosition →
        (S.maxPosition ≤ x → o ≤ 0) ∧ (x ≤ S.minPosition → 0 ≤ o)) := by
  obtain ⟨o, h1, h2, h3, h4⟩ := c44_velocity_soft_partial huge L S i x v t c hx hv ht hc hV
  refine ⟨o, h1, abs_le.2 ⟨h3 (by simp [ha]), h2⟩, fun hP hk hS => ⟨fun h => ?_, fun h => (h4 hP hk hS).2 h (by simp [ha])⟩⟩
  have := (h4 hP hk hS).1 h
  have : 0 ≤ min (S.kPosition * (x - S.maxPosition)) (velocityLimit huge L) :=
    le_min (mul_nonneg hk (sub_nonneg.2 h)) hV
  linarith

/-- **C44, acceleration.** With acceleration limits the written velocity never exceeds the measured one by
more than `max_acceleration * period`. -/
theorem c44_acceleration_up (huge : K) (L : JointLimits K) (S : SoftLimits K) (i : Input (Dbl K))
    (x v t c : K) (hx : i.pos = some x) (hv : i.vel = some v) (ht : i.dt = some t) (hc : i.cmd = some c)
    (ha : L.hasAcceleration = true) :
    ∃ o, velSoft (Arith.exact huge) L.lift S.lift i = some o ∧ o ≤ v + L.maxAcceleration * t := by
  rw [velSoft_exact huge L S i x v t c hx hv ht hc]
  refine ⟨_, rfl, ?_⟩
  rw [if_pos ha]
  exact (min_le_right _ _).trans (min_le_left _ _)

/-- **C44 does not hold with acceleration limits.** Below the lower soft limit, with a measured velocity
far below the limit, the command written is negative (outward) and exceeds `max_velocity` in size,
even if the controller commands zero. On the upper side this cannot happen. -/
theorem c44_acceleration_negation :
    ∃ (L : JointLimits ℤ) (S : SoftLimits ℤ) (x v : ℤ), L.hasAcceleration = true ∧ L.hasPosition = true ∧
      L.hasVelocity = true ∧ 0 ≤ S.kPosition ∧ S.minPosition ≤ S.maxPosition ∧ x < S.minPosition ∧
      ∃ o, velSoft (Arith.exact 1000) L.lift S.lift ⟨some 0, some x, some v, some 1⟩ = some o ∧
        o < -L.maxVelocity ∧ o < 0 :=
  ⟨⟨-10, 10, 2, 3, 8, true, true, true, true⟩, ⟨-6, 6, 1, 1⟩, -7, -20, rfl, rfl, rfl, by decide, by decide,
    by decide, -17, by decide, by decide, by decide⟩

example : velSoft (Arith.exact 1000) (JointLimits.mk (-10) 10 2 3 8 true true true true : JointLimits ℤ).lift
    (SoftLimits.mk (-6) 6 1 1 : SoftLimits ℤ).lift ⟨some 50, some 7, some 0, some 1⟩ = some (-1) := by decide
example : velSoft (Arith.exact 1000) (JointLimits.mk (-10) 10 2 3 8 true true true true : JointLimits ℤ).lift
    (SoftLimits.mk (-6) 6 1 1 : SoftLimits ℤ).lift ⟨some 1, some 0, some 0, some 1⟩ = some 1 := by decide

end C44

section C45

variable {K : Type} [LinearOrder K]

/-- **C45, idempotence of the memoryless limiters**, for all doubles including NaN, all limits and all
arithmetics: enforcing again in the same state changes nothing. -/
theorem c45_idempotent (A : Arith K) (L : JointLimits (Dbl K)) (S : SoftLimits (Dbl K)) (i : Input (Dbl K)) :
    effSat A L { i with cmd := effSat A L i } = effSat A L i ∧
    effSoft A L S { i with cmd := effSoft A L S i } = effSoft A L S i ∧
    velSoft A L S { i with cmd := velSoft A L S i } = velSoft A L S i := by
  refine ⟨?_, ?_, ?_⟩
  · exact saturate_idem _ _ _
  · exact saturate_idem _ _ _
  · exact saturate_idem _ _ _

end C45

section C45exact

variable {K : Type} [CommRing K] [LinearOrder K] [IsStrictOrderedRing K]

/-- **C45, position saturation.** A command in the range that differs from the reference by at most
`max_velocity * period` is unchanged. In particular enforcing the written command again changes
nothing. -/
theorem c45_position_saturation (huge : K) (L : JointLimits K) (prev : Dbl K) (i : Input (Dbl K)) (p t c : K)
    (hr : (range (.exact huge) L).1 ≤ (range (.exact huge) L).2) (hv : L.hasVelocity = true → 0 ≤ L.maxVelocity)
    (hp : (if prev.isNone then i.pos else prev) = some p) (hpr : InRange (range (.exact huge) L) p)
    (ht : i.dt = some t) (ht0 : 0 ≤ t) (hc : i.cmd = some c) (hcr : InRange (range (.exact huge) L) c)
    (hcv : L.hasVelocity = true → |c - p| ≤ L.maxVelocity * t) :
    posSat (.exact huge) L.lift prev i = some c := by
  obtain ⟨o, ho, _, _, h⟩ := (posSat_step (exact_sound huge) L hr (fun h => ⟨trivial, hv h⟩) prev i p t hp hpr
    trivial ht ⟨trivial, ht0⟩).2 c hc
  rw [ho, h hcr fun hV => ?_]
  obtain ⟨h1, h2⟩ := abs_le.1 (hcv hV)
  exact ⟨_, rfl, _, _, rfl, rfl, by linarith, by linarith⟩

/-- **C45, soft position limits.** A command within the hard limits, reachable at a velocity within
`±max_velocity` that with position limits is also within the gain times the distances to the soft
limits, is unchanged. -/
theorem c45_position_soft (huge : K) (L : JointLimits K) (S : SoftLimits K) (prev : Dbl K) (i : Input (Dbl K))
    (p t w : K) (hp : (if prev.isNone then i.pos else prev) = some p) (ht : i.dt = some t) (ht0 : 0 < t)
    (hc : i.cmd = some (p + w * t)) (hw : |w| ≤ L.maxVelocity)
    (hP : L.hasPosition = true → InRange (L.minPosition, L.maxPosition) (p + w * t) ∧
      S.kPosition * (S.minPosition - p) ≤ w ∧ w ≤ S.kPosition * (S.maxPosition - p)) :
    posSoft (.exact huge) L.lift S.lift prev i = some (some (p + w * t)) := by
  obtain ⟨hw1, hw2⟩ := abs_le.1 hw
  rw [posSoft_exact huge L S prev i p t hp ht ht0, hc, saturate_some]
  congr 2
  by_cases h : L.hasPosition = true
  · obtain ⟨h1, h2, h3⟩ := hP h
    apply clamp_of_mem
    · simp only [sPos, h, if_true]
      refine max_le ?_ h1.1
      have : (sVel L S L.maxVelocity p).1 ≤ w := by
        simp only [sVel, h, if_true]
        exact (min_le_left _ _).trans (max_le (by linarith) hw1)
      have := mul_le_mul_of_nonneg_right this ht0.le
      linarith
    · simp only [sPos, h, if_true]
      refine le_min ?_ h1.2
      have : w ≤ (sVel L S L.maxVelocity p).2 := by
        simp only [sVel, h, if_true]
        exact le_min (le_trans (by linarith) (le_max_left _ _)) hw2
      have := mul_le_mul_of_nonneg_right this ht0.le
      linarith
  · have h1 := mul_le_mul_of_nonneg_right hw1 ht0.le
    have h2 := mul_le_mul_of_nonneg_right hw2 ht0.le
    apply clamp_of_mem
    · simp only [sPos, h, if_false, Bool.false_eq_true, sVel]
      linarith
    · simp only [sPos, h, if_false, Bool.false_eq_true, sVel]
      linarith

/-- **C45, velocity saturation.** A command within `±max_velocity` that differs from the previous written
one by at most `max_acceleration * period` is unchanged. -/
theorem c45_velocity_saturation (huge : K) (L : JointLimits K) (i : Input (Dbl K)) (p t c : K)
    (hV : 0 ≤ L.maxVelocity) (ha : L.hasAcceleration = true → 0 ≤ L.maxAcceleration) (hp : |p| ≤ L.maxVelocity)
    (ht : i.dt = some t) (ht0 : 0 < t) (hc : i.cmd = some c) (hcv : |c| ≤ L.maxVelocity)
    (hca : L.hasAcceleration = true → |c - p| ≤ L.maxAcceleration * t) :
    velSat (.exact huge) L.lift (some p) i = some (some c) := by
  obtain ⟨o, ho, _, _, h⟩ := velSat_step (exact_sound huge) L ⟨trivial, hV⟩ (fun h => ⟨trivial, ha h⟩) p t
    (abs_le.1 hp) i c hc ht ⟨trivial, ht0⟩
  rw [ho, h (abs_le.1 hcv) fun hA => ?_]
  obtain ⟨h1, h2⟩ := abs_le.1 (hca hA)
  exact ⟨_, rfl, _, _, rfl, rfl, by linarith, by linarith⟩

/-- **C45, soft velocity limits.** A command within `±max_velocity`, within the gain times the distances to
the soft limits, and within `max_acceleration * period` of the measured velocity, is unchanged. -/
theorem c45_velocity_soft (huge : K) (L : JointLimits K) (S : SoftLimits K) (i : Input (Dbl K))
    (x v t c : K) (hx : i.pos = some x) (hv : i.vel = some v) (ht : i.dt = some t) (hc : i.cmd = some c)
    (hV : |c| ≤ velocityLimit huge L)
    (hP : L.hasPosition = true → S.kPosition * (S.minPosition - x) ≤ c ∧ c ≤ S.kPosition * (S.maxPosition - x))
    (hA : L.hasAcceleration = true → |c - v| ≤ L.maxAcceleration * t) :
    velSoft (.exact huge) L.lift S.lift i = some c := by
  obtain ⟨hV1, hV2⟩ := abs_le.1 hV
  have hV1' : -vLimit huge L ≤ c := hV1
  have hV2' : c ≤ vLimit huge L := hV2
  have h1 : (sVel L S (vLimit huge L) x).1 ≤ c := by
    unfold sVel
    split
    · rename_i h
      have := (hP h).1
      exact (min_le_left _ _).trans (max_le (by linarith) hV1')
    · exact hV1'
  have h2 : c ≤ (sVel L S (vLimit huge L) x).2 := by
    unfold sVel
    split
    · rename_i h
      have := (hP h).2
      exact le_min (le_trans (by linarith) (le_max_left _ _)) hV2'
    · exact hV2'
  rw [velSoft_exact huge L S i x v t c hx hv ht hc]
  congr 1
  split
  · rename_i h
    obtain ⟨h3, h4⟩ := abs_le.1 (hA h)
    exact clamp_of_mem (max_le (by linarith) h1) (le_min (by linarith) h2)
  · exact clamp_of_mem h1 h2

example : posSoft (Arith.exact 1000) exLimits.lift (SoftLimits.mk (-6) 6 1 0 : SoftLimits ℤ).lift none
    ⟨some 5, some 4, some 0, some 1⟩ = some (some 5) := by decide

end C45exact

end Verif.Limits
