import Verif.Props.JointLimitsVelocity

/-!
Property C44, continued: when, and how far, the soft velocity limiter with acceleration limits leaves its limits.
-/

namespace Verif.Limits

section

variable {K : Type} [CommRing K] [LinearOrder K] [IsStrictOrderedRing K]

/-- **C44, exactly when the maximal velocity is exceeded.** With acceleration limits the soft velocity limiter writes a velocity below
`-max_velocity` exactly if the measured one, increased by the maximal acceleration, is still below it; then it writes just that,
whatever the command is. It never writes less. (Missing: the maximal velocity itself, see `c44_acceleration_negation`.) -/
theorem c44_exceeds_partial (huge : K) (L : JointLimits K) (S : SoftLimits K) (i : Input (Dbl K))
    (x v t c : K) (hx : i.pos = some x) (hv : i.vel = some v) (ht : i.dt = some t) (hc : i.cmd = some c)
    (hV : 0 ≤ velocityLimit huge L) (ha : L.hasAcceleration = true) :
    ∃ o, velSoft (Arith.exact huge) L.lift S.lift i = some o ∧ o ≤ velocityLimit huge L ∧
      min (-velocityLimit huge L) (v + L.maxAcceleration * t) ≤ o ∧
      (o < -velocityLimit huge L ↔ v + L.maxAcceleration * t < -velocityLimit huge L) ∧
      (v + L.maxAcceleration * t ≤ -velocityLimit huge L → o = v + L.maxAcceleration * t) := by
  have hV' : 0 ≤ vLimit huge L := hV
  have hb := sVel_bounds L S hV' x
  rw [velSoft_exact huge L S i x v t c hx hv ht hc, if_pos ha]
  change ∃ o, _ ∧ o ≤ vLimit huge L ∧ min (-vLimit huge L) _ ≤ o ∧ (o < -vLimit huge L ↔ _ < -vLimit huge L) ∧ (_ ≤ -vLimit huge L → _)
  generalize (sVel L S (vLimit huge L) x).1 = lo at hb
  generalize (sVel L S (vLimit huge L) x).2 = hi at hb
  generalize vLimit huge L = V at hb hV' ⊢
  obtain ⟨⟨h1, h2⟩, h3, h4⟩ := hb
  have hlow : -V ≤ max c (max (v - L.maxAcceleration * t) lo) := h1.trans ((le_max_right _ _).trans (le_max_right _ _))
  have hmin : min (-V) (v + L.maxAcceleration * t) ≤
      clamp c (max (v - L.maxAcceleration * t) lo) (min (v + L.maxAcceleration * t) hi) :=
    le_min ((min_le_left _ _).trans hlow) (le_min (min_le_right _ _) ((min_le_left _ _).trans h3))
  have hle : clamp c (max (v - L.maxAcceleration * t) lo) (min (v + L.maxAcceleration * t) hi) ≤ v + L.maxAcceleration * t :=
    (min_le_right _ _).trans (min_le_left _ _)
  refine ⟨_, rfl, (min_le_right _ _).trans ((min_le_right _ _).trans h4), hmin, ⟨fun h => ?_, fun h => hle.trans_lt h⟩, fun h => ?_⟩
  · by_contra hno
    rw [min_eq_left (not_lt.1 hno)] at hmin
    exact absurd h (not_lt.2 hmin)
  · rw [min_eq_right h] at hmin
    exact le_antisymm hle hmin

/-- **C44, exactly when it brakes too hard.** With acceleration limits the soft velocity limiter decreases the velocity by more than
the maximal acceleration times the period exactly if the measured velocity is so far above the largest one allowed at this position
that it has to; then it writes the latter, whatever the command is. Otherwise the written velocity differs from the measured one by at
most that much. -/
theorem c44_brakes (huge : K) (L : JointLimits K) (S : SoftLimits K) (i : Input (Dbl K))
    (x v t c : K) (hx : i.pos = some x) (hv : i.vel = some v) (ht : i.dt = some t) (hc : i.cmd = some c)
    (ha : L.hasAcceleration = true) (hP : L.hasPosition = true) (h0 : 0 ≤ L.maxAcceleration * t) :
    let top := min (max (-S.kPosition * (x - S.maxPosition)) (-velocityLimit huge L)) (velocityLimit huge L)
    ∃ o, velSoft (Arith.exact huge) L.lift S.lift i = some o ∧
      (o < v - L.maxAcceleration * t ↔ top < v - L.maxAcceleration * t) ∧
      (top ≤ v - L.maxAcceleration * t → o = top) ∧
      (v - L.maxAcceleration * t ≤ top → |o - v| ≤ L.maxAcceleration * t) := by
  intro top
  rw [velSoft_exact huge L S i x v t c hx hv ht hc, if_pos ha]
  have e : (sVel L S (vLimit huge L) x).2 = top := by simp [sVel, hP, top, clamp, vLimit, velocityLimit]
  rw [e]
  generalize (sVel L S (vLimit huge L) x).1 = lo
  generalize top = top
  generalize L.maxAcceleration * t = d at h0 ⊢
  have hge : min (v - d) top ≤ clamp c (max (v - d) lo) (min (v + d) top) :=
    le_min ((min_le_left _ _).trans ((le_max_left _ _).trans (le_max_right _ _)))
      (le_min ((min_le_left _ _).trans (by linarith)) (min_le_right _ _))
  have hle : clamp c (max (v - d) lo) (min (v + d) top) ≤ top := (min_le_right _ _).trans (min_le_right _ _)
  have hle' : clamp c (max (v - d) lo) (min (v + d) top) ≤ v + d := (min_le_right _ _).trans (min_le_left _ _)
  refine ⟨_, rfl, ⟨fun h => ?_, fun h => hle.trans_lt h⟩, fun h => ?_, fun h => ?_⟩
  · by_contra hno
    rw [min_eq_left (not_lt.1 hno)] at hge
    exact absurd h (not_lt.2 hge)
  · rw [min_eq_right h] at hge
    exact le_antisymm hle hge
  · rw [min_eq_left h] at hge
    exact abs_le.2 ⟨by linarith, by linarith⟩

end

/-! ### Concrete cases -/

/-- Maximal velocity 2, maximal acceleration 3. -/
def exFast : JointLimits ℤ := ⟨-10, 10, 2, 3, 8, true, true, true, true⟩

/-- Measured velocity -20: the limiter writes -17, though 0 is commanded. -/
example : ∃ o, velSoft (Arith.exact 1000) exFast.lift (SoftLimits.mk (-6) 6 1 1 : SoftLimits ℤ).lift
    ⟨some 0, some (-7), some (-20), some 1⟩ = some o ∧ o ≤ 2 ∧ min (-2) (-20 + 3 * 1) ≤ o ∧ (o < -2 ↔ (-20 + 3 * 1 : ℤ) < -2) ∧
    ((-20 + 3 * 1 : ℤ) ≤ -2 → o = -20 + 3 * 1) :=
  c44_exceeds_partial 1000 exFast (SoftLimits.mk (-6) 6 1 1) _ (-7) (-20) 1 0 rfl rfl rfl rfl (by decide) rfl

example : velSoft (Arith.exact 1000) exFast.lift (SoftLimits.mk (-6) 6 1 1 : SoftLimits ℤ).lift
    ⟨some 0, some (-7), some (-20), some 1⟩ = some (-17) := by decide

/-- Measured velocity 20 at the upper soft limit: the limiter stops the joint at once. -/
example : ∃ o, velSoft (Arith.exact 1000) exFast.lift (SoftLimits.mk (-6) 6 1 1 : SoftLimits ℤ).lift
    ⟨some 50, some 6, some 20, some 1⟩ = some o ∧ (o < 20 - 3 * 1 ↔ min (max (-1 * (6 - 6)) (-2)) 2 < (20 - 3 * 1 : ℤ)) ∧
    (min (max (-1 * (6 - 6)) (-2)) 2 ≤ (20 - 3 * 1 : ℤ) → o = min (max (-1 * (6 - 6)) (-2)) 2) ∧
    ((20 - 3 * 1 : ℤ) ≤ min (max (-1 * (6 - 6)) (-2)) 2 → |o - 20| ≤ 3 * 1) :=
  c44_brakes 1000 exFast (SoftLimits.mk (-6) 6 1 1) _ 6 20 1 50 rfl rfl rfl rfl rfl rfl (by decide)

example : velSoft (Arith.exact 1000) exFast.lift (SoftLimits.mk (-6) 6 1 1 : SoftLimits ℤ).lift
    ⟨some 50, some 6, some 20, some 1⟩ = some 0 := by decide

end Verif.Limits
