import Verif.Lemmas.JointLimitsEffort
import Mathlib.Algebra.Order.Ring.Int
import Mathlib.Algebra.Order.Group.Abs

/-!
Properties C41 and C42: the effort limiters.
-/

namespace Verif.Limits

section C41

variable {K : Type} [LinearOrder K]

/-- **C41.** In any arithmetic in which `-max_effort ≤ 0 ≤ max_effort`, for every measured state (NaN
included) and every command that is a number, the written effort is a number in
`[-max_effort, max_effort]`, does not exceed the command in size nor change its sign; strictly beyond
a position limit it does not push outward, and strictly above the velocity limit it does not
accelerate further. -/
theorem c41_effort_saturation_partial (A : Arith K) (L : JointLimits K) (i : Input (Dbl K)) (c : K)
    (hE : A.neg L.maxEffort ≤ A.zero ∧ A.zero ≤ L.maxEffort) (hP : L.minPosition ≤ L.maxPosition)
    (hV : A.neg L.maxVelocity ≤ L.maxVelocity) (hc : i.cmd = some c) :
    ∃ e, effSat A L.lift i = some e ∧ A.neg L.maxEffort ≤ e ∧ e ≤ L.maxEffort ∧
      (A.zero ≤ c → A.zero ≤ e ∧ e ≤ c) ∧ (c ≤ A.zero → c ≤ e ∧ e ≤ A.zero) ∧
      (L.hasPosition = true → ∀ x, i.pos = some x →
        (x < L.minPosition → A.zero ≤ e) ∧ (L.maxPosition < x → e ≤ A.zero)) ∧
      (∀ v, i.vel = some v → (v < A.neg L.maxVelocity → A.zero ≤ e) ∧ (L.maxVelocity < v → e ≤ A.zero)) := by
  obtain ⟨lo, hi, e0, h1, h2, h3, h4⟩ := effSat_bounds A L i hE
  rw [e0, hc, saturate_some]
  have b1 : A.neg L.maxEffort ≤ lo ∧ lo ≤ A.zero := by
    rcases h1 with rfl | rfl
    · exact ⟨le_rfl, hE.1⟩
    · exact ⟨hE.1, le_rfl⟩
  have b2 : A.zero ≤ hi ∧ hi ≤ L.maxEffort := by
    rcases h2 with rfl | rfl
    · exact ⟨hE.2, le_rfl⟩
    · exact ⟨le_rfl, hE.2⟩
  have glo : lo = A.zero → A.zero ≤ min (max c lo) hi := fun h => by
    rw [h]
    exact le_min (le_max_right _ _) b2.1
  have ghi : hi = A.zero → min (max c lo) hi ≤ A.zero := fun h => by
    rw [h]
    exact min_le_right _ _
  refine ⟨_, rfl, le_min (b1.1.trans (le_max_right _ _)) (b1.1.trans (b1.2.trans b2.1)),
    (min_le_right _ _).trans b2.2, fun h => ⟨le_min (h.trans (le_max_left _ _)) b2.1,
      (min_le_left _ _).trans (max_le le_rfl (b1.2.trans h))⟩, fun h => ⟨le_min (le_max_left _ _) (h.trans b2.1),
      (min_le_left _ _).trans (max_le h b1.2)⟩, fun hp x hx => ⟨fun h => glo (h3.2 ?_), fun h => ghi (h4.2 ?_)⟩,
      fun v hv => ⟨fun h => glo (h3.2 ?_), fun h => ghi (h4.2 ?_)⟩⟩
  · exact Or.inr (Or.inl ⟨hp, x, hx, h⟩)
  · exact Or.inr (Or.inl ⟨hp, x, hx, not_lt.2 (hP.trans h.le), h⟩)
  · exact Or.inr (Or.inr ⟨v, hv, h⟩)
  · exact Or.inr (Or.inr ⟨v, hv, not_lt.2 (hV.trans h.le), h⟩)

/-- **C41, exact form of the limiter.** The command is only changed for a reason: if it is within
`[-max_effort, max_effort]` and is not an outward push beyond a position limit nor an acceleration
above the velocity limit, it is written unchanged. -/
theorem c41_only_for_a_reason (A : Arith K) (L : JointLimits K) (i : Input (Dbl K)) (c : K)
    (hE : A.neg L.maxEffort ≤ A.zero ∧ A.zero ≤ L.maxEffort) (hc : i.cmd = some c)
    (h1 : A.neg L.maxEffort ≤ c) (h2 : c ≤ L.maxEffort)
    (h3 : L.hasPosition = true → ∀ x, i.pos = some x →
      (x < L.minPosition → A.zero ≤ c) ∧ (L.maxPosition < x → c ≤ A.zero))
    (h4 : ∀ v, i.vel = some v → (v < A.neg L.maxVelocity → A.zero ≤ c) ∧ (L.maxVelocity < v → c ≤ A.zero)) :
    effSat A L.lift i = some c := by
  obtain ⟨lo, hi, e0, g1, g2, g3, g4⟩ := effSat_bounds A L i hE
  rw [e0, hc, saturate_some, clamp_of_mem]
  · rcases g1 with rfl | rfl
    · exact h1
    · rcases g3.1 rfl with h | ⟨hp, x, hx, h⟩ | ⟨v, hv, h⟩
      · exact h ▸ h1
      · exact (h3 hp x hx).1 h
      · exact (h4 v hv).1 h
  · rcases g2 with rfl | rfl
    · exact h2
    · rcases g4.1 rfl with h | ⟨hp, x, hx, _, h⟩ | ⟨v, hv, _, h⟩
      · exact h ▸ h2
      · exact (h3 hp x hx).2 h
      · exact (h4 v hv).2 h

/-- **C41 does not hold at the limit itself.** With the joint exactly at its maximum position, and at
its maximum velocity, an outward effort is written unchanged. -/
theorem c41_at_the_limit_negation :
    ∃ (L : JointLimits ℤ) (cmd : ℤ), effortOk L.lift = true ∧ L.hasPosition = true ∧ 0 < cmd ∧
      effSat (Arith.exact 1000) L.lift ⟨some cmd, some L.maxPosition, some L.maxVelocity, some 1⟩ = some cmd :=
  ⟨⟨-10, 10, 2, 3, 8, true, true, true, true⟩, 5, rfl, rfl, by decide, by decide⟩

/-- **C41 does not hold for NaN commands**, which are written to the hardware. -/
theorem c41_nan_negation (A : Arith K) (L : JointLimits (Dbl K)) (i : Input (Dbl K)) (h : i.cmd = none) :
    effSat A L i = none := by
  unfold effSat
  simp only [h, saturate_none]

example : effSat (Arith.exact 1000) (JointLimits.mk (-10) 10 2 3 8 true true true true : JointLimits ℤ).lift
    ⟨some 50, some 11, some (-7), some 1⟩ = some 0 := by decide
example : effSat (Arith.exact 1000) (JointLimits.mk (-10) 10 2 3 8 true true true true : JointLimits ℤ).lift
    ⟨some (-50), some 11, some 0, some 1⟩ = some (-8) := by decide

end C41

section C42

variable {K : Type} [CommRing K] [LinearOrder K] [IsStrictOrderedRing K]

/-- **C42, exact arithmetic.** For measured states that are numbers and commands that are numbers, the
soft effort limiter writes a number of size at most `max_effort`. With nonnegative gains it does not
accelerate a joint at or above the velocity limit, and does not push a joint outward that is at or
beyond a soft limit and not moving back. -/
theorem c42_effort_soft_partial (huge : K) (L : JointLimits K) (S : SoftLimits K) (i : Input (Dbl K)) (x v c : K)
    (hx : i.pos = some x) (hv : i.vel = some v) (hc : i.cmd = some c) (hE : 0 ≤ L.maxEffort)
    (hV : 0 ≤ L.maxVelocity) :
    ∃ e, effSoft (Arith.exact huge) L.lift S.lift i = some e ∧ |e| ≤ L.maxEffort ∧
      (0 ≤ S.kVelocity → (L.maxVelocity ≤ v → e ≤ 0) ∧ (v ≤ -L.maxVelocity → 0 ≤ e)) ∧
      (0 ≤ S.kVelocity → 0 ≤ S.kPosition → S.minPosition ≤ S.maxPosition → L.hasPosition = true →
        (S.maxPosition ≤ x → 0 ≤ v → e ≤ 0) ∧ (x ≤ S.minPosition → v ≤ 0 → 0 ≤ e)) := by
  rw [effSoft_exact huge L S i x v hx hv, hc, saturate_some]
  have hb := sVel_bounds L S hV x
  set lo := (sVel L S L.maxVelocity x).1
  set hi := (sVel L S L.maxVelocity x).2
  have c1 := clamp_mem (x := -S.kVelocity * (v - lo)) hE
  have c2 := clamp_mem (x := -S.kVelocity * (v - hi)) hE
  have up : ∀ y, 0 ≤ S.kVelocity → y ≤ v → clamp (-S.kVelocity * (v - y)) (-L.maxEffort) L.maxEffort ≤ 0 :=
    fun y hk hy => (min_le_left _ _).trans (max_le (by nlinarith) (by linarith))
  have dn : ∀ y, 0 ≤ S.kVelocity → v ≤ y → 0 ≤ clamp (-S.kVelocity * (v - y)) (-L.maxEffort) L.maxEffort :=
    fun y hk hy => le_min (le_trans (by nlinarith) (le_max_left _ _)) hE
  refine ⟨_, rfl, abs_le.2 ⟨le_min (c1.1.trans (le_max_right _ _)) c2.1, (min_le_right _ _).trans c2.2⟩,
    fun hk => ⟨fun h => (min_le_right _ _).trans (up _ hk (by linarith [hb.2.2])), fun h =>
      le_min ((dn _ hk (by linarith [hb.1.1])).trans (le_max_right _ _)) (dn _ hk (by linarith [hb.2.1]))⟩,
    fun hk hp hS hP => ⟨fun h1 h2 => (min_le_right _ _).trans (up _ hk ?_), fun h1 h2 =>
      le_min ((dn _ hk ?_).trans (le_max_right _ _)) (dn _ hk ?_)⟩⟩
  · exact ((sVel_beyond hV hp hS hP).1 h1).trans h2
  · exact h2.trans ((sVel_beyond hV hp hS hP).2 h1).1
  · exact h2.trans ((sVel_beyond hV hp hS hP).2 h1).2

/-- **C42, transparency.** Let `[vlo, vhi]` be velocities within `[-max_velocity, max_velocity]` and, with
position limits, within the position gain times the distances to the soft limits. A command that is at
most the velocity gain times the distance to the upper end of that range, at least the gain times the
(negative) distance to its lower end, and at most `max_effort` in size, is written unchanged. -/
theorem c42_transparent (huge : K) (L : JointLimits K) (S : SoftLimits K) (i : Input (Dbl K))
    (x v c vlo vhi : K) (hx : i.pos = some x) (hv : i.vel = some v) (hc : i.cmd = some c)
    (hlo : -L.maxVelocity ≤ vlo ∧ (L.hasPosition = true → S.kPosition * (S.minPosition - x) ≤ vlo))
    (hhi : vhi ≤ L.maxVelocity ∧ (L.hasPosition = true → vhi ≤ S.kPosition * (S.maxPosition - x)))
    (hk : 0 ≤ S.kVelocity) (h1 : S.kVelocity * (vlo - v) ≤ c) (h2 : c ≤ S.kVelocity * (vhi - v))
    (h3 : |c| ≤ L.maxEffort) :
    effSoft (Arith.exact huge) L.lift S.lift i = some c := by
  obtain ⟨h3, h4⟩ := abs_le.1 h3
  have e1 : (sVel L S L.maxVelocity x).1 ≤ vlo := by
    unfold sVel
    split
    · rename_i hP
      have := hlo.2 hP
      exact (min_le_left _ _).trans (max_le (by linarith) hlo.1)
    · exact hlo.1
  have e2 : vhi ≤ (sVel L S L.maxVelocity x).2 := by
    unfold sVel
    split
    · rename_i hP
      have := hhi.2 hP
      exact le_min (le_trans (by linarith) (le_max_left _ _)) hhi.1
    · exact hhi.1
  rw [effSoft_exact huge L S i x v hx hv, hc, saturate_some, clamp_of_mem]
  · refine (min_le_left _ _).trans (max_le ?_ h3)
    nlinarith
  · refine le_min (le_trans ?_ (le_max_left _ _)) h4
    nlinarith

/-- **C42 does not hold for NaN.** If the measured position or velocity is NaN, any command is written
unchanged, however large. -/
theorem c42_nan_negation (A : Arith K) (L : JointLimits K) (S : SoftLimits K) (i : Input (Dbl K)) (c : K)
    (hc : i.cmd = some c) (h : i.vel = none ∨ (L.hasPosition = true ∧ i.pos = none)) :
    effSoft A L.lift S.lift i = some c := by
  have n1 : ∀ y, A.dsub none y = none := fun y => by cases y <;> rfl
  have n2 : ∀ y, A.dsub y none = none := fun y => by cases y <;> rfl
  have n3 : ∀ y, A.dmul y none = none := fun y => by cases y <;> rfl
  have e : effSoftBounds A L.lift S.lift i = (none, none) := by
    unfold effSoftBounds
    rcases h with h | ⟨hP, h⟩
    · rw [h]
      simp only [n1, n3, saturate_none]
    · have hP' : L.lift.hasPosition = true := hP
      simp only [softVel, hP', h, if_true, n1, n2, n3, saturate_none]
  unfold effSoft
  rw [e, hc]
  exact saturate_nan_bounds _

/-- Soft limits ±6, both gains 1: beyond the soft limit the joint is braked. -/
example : effSoft (Arith.exact 1000) (JointLimits.mk (-10) 10 2 3 8 true true true true : JointLimits ℤ).lift
    (SoftLimits.mk (-6) 6 1 1 : SoftLimits ℤ).lift ⟨some 50, some 7, some 1, some 1⟩ = some (-2) := by decide
example : effSoft (Arith.exact 1000) (JointLimits.mk (-10) 10 2 3 8 true true true true : JointLimits ℤ).lift
    (SoftLimits.mk (-6) 6 1 1 : SoftLimits ℤ).lift ⟨some 2, some 0, some 0, some 1⟩ = some 2 := by decide
/-- With a NaN velocity the effort 50 is written although the limit is 8. -/
example : effSoft (Arith.exact 1000) (JointLimits.mk (-10) 10 2 3 8 true true true true : JointLimits ℤ).lift
    (SoftLimits.mk (-6) 6 1 1 : SoftLimits ℤ).lift ⟨some 50, some 0, none, some 1⟩ = some 50 := by decide

end C42

end Verif.Limits
