import Verif.Lemmas.JointLimitsEffort

/-!
The velocity limiters.
-/

namespace Verif.Limits

section

variable {K : Type} [LinearOrder K] {A : Arith K} {Fin : K → Prop}

theorem velSat_step (hA : Sound A Fin) (L : JointLimits K) (hV : Fin L.maxVelocity ∧ A.zero ≤ L.maxVelocity)
    (ha : L.hasAcceleration = true → Fin L.maxAcceleration ∧ A.zero ≤ L.maxAcceleration)
    (p t : K) (hp : InRange (A.neg L.maxVelocity, L.maxVelocity) p) (i : Input (Dbl K)) (c : K)
    (hc : i.cmd = some c) (ht : i.dt = some t) (ht0 : Fin t ∧ A.zero < t) :
    ∃ o, velSat A L.lift (some p) i = some (some o) ∧ InRange (A.neg L.maxVelocity, L.maxVelocity) o ∧
      (L.hasAcceleration = true → ∃ d, A.mul L.maxAcceleration t = some d ∧ Within A p d o) ∧
      (InRange (A.neg L.maxVelocity, L.maxVelocity) c →
        (L.hasAcceleration = true → ∃ d, A.mul L.maxAcceleration t = some d ∧ Within A p d c) → o = c) := by
  have hle : A.neg L.maxVelocity ≤ L.maxVelocity := (hA.neg_nonpos _ hV.2).trans hV.2
  have e1 : A.dneg (some L.maxVelocity) = some (A.neg L.maxVelocity) := rfl
  have e2 : L.lift.maxVelocity = some L.maxVelocity := rfl
  unfold velSat
  by_cases h : L.hasAcceleration = true
  · have h' : L.lift.hasAcceleration = true := h
    rw [if_pos h']
    have e0 : dlt (some A.zero) i.dt = true := by
      rw [ht]
      exact decide_eq_true ht0.2
    rw [e0]
    obtain ⟨d, hd, hd0⟩ := hA.mul_nonneg _ _ (ha h).1 ht0.1 (ha h).2 ht0.2.le
    have hfp := hA.fin_between _ _ _ (hA.fin_neg _ hV.1) hV.1 hp.1 hp.2
    obtain ⟨y, hy, hy'⟩ := hA.add_ge p d hfp hd0
    obtain ⟨x, hx, hx'⟩ := hA.sub_le p d hfp hd0
    have e3 : A.dmul L.lift.maxAcceleration i.dt = some d := by rw [ht]; exact hd
    have e4 : A.dadd (some p) (some d) = some y := hy
    have e5 : A.dsub (some p) (some d) = some x := hx
    simp only [Bool.not_true, Bool.false_eq_true, if_false, e1, e2, e3, e4, e5, hc, dmax_some, dmin_some,
      saturate_some]
    have k1 : max x (A.neg L.maxVelocity) ≤ min y L.maxVelocity :=
      max_le (le_min (hx'.trans hy') (hx'.trans hp.2)) (le_min (hp.1.trans hy') hle)
    have k2 : max x (A.neg L.maxVelocity) ≤
        min (max c (max x (A.neg L.maxVelocity))) (min y L.maxVelocity) := le_min (le_max_right _ _) k1
    refine ⟨_, rfl, ⟨(le_max_right _ _).trans k2, (min_le_right _ _).trans (min_le_right _ _)⟩,
      fun _ => ⟨d, hd, x, y, hx, hy, (le_max_left _ _).trans k2, (min_le_right _ _).trans (min_le_left _ _)⟩, ?_⟩
    intro hcr hw
    obtain ⟨d', hd', x', y', hx1, hy1, hx2, hy2⟩ := hw h
    rw [hd] at hd'; cases hd'
    rw [hx] at hx1; cases hx1
    rw [hy] at hy1; cases hy1
    exact clamp_of_mem (max_le hx2 hcr.1) (le_min hy2 hcr.2)
  · have h' : ¬L.lift.hasAcceleration = true := h
    rw [if_neg h', e2, e1, hc, saturate_some]
    exact ⟨_, rfl, ⟨le_min (le_max_right _ _) hle, min_le_right _ _⟩, fun hh => absurd hh h,
      fun hcr _ => clamp_of_mem hcr.1 hcr.2⟩

end

section

variable {K : Type} [CommRing K] [LinearOrder K] [IsStrictOrderedRing K]

/-- The velocity limit of the soft velocity limiter. -/
def vLimit (huge : K) (L : JointLimits K) : K := if L.hasVelocity then L.maxVelocity else huge

theorem velSoft_exact (huge : K) (L : JointLimits K) (S : SoftLimits K) (i : Input (Dbl K)) (x v t c : K)
    (hx : i.pos = some x) (hv : i.vel = some v) (ht : i.dt = some t) (hc : i.cmd = some c) :
    velSoft (Arith.exact huge) L.lift S.lift i = some (
      if L.hasAcceleration then
        clamp c (max (v - L.maxAcceleration * t) (sVel L S (vLimit huge L) x).1)
          (min (v + L.maxAcceleration * t) (sVel L S (vLimit huge L) x).2)
      else clamp c (sVel L S (vLimit huge L) x).1 (sVel L S (vLimit huge L) x).2) := by
  have e1 : velSoftLimit (Arith.exact huge) L.lift = some (vLimit huge L) := by
    unfold velSoftLimit vLimit
    by_cases h : L.hasVelocity = true
    · have h' : L.lift.hasVelocity = true := h
      rw [if_pos h, if_pos h']; rfl
    · have h' : ¬L.lift.hasVelocity = true := h
      rw [if_neg h, if_neg h']; rfl
  have e2 : (Arith.exact huge).dsub (some v) ((Arith.exact huge).dmul L.lift.maxAcceleration (some t)) =
    some (v - L.maxAcceleration * t) := rfl
  have e3 : (Arith.exact huge).dadd (some v) ((Arith.exact huge).dmul L.lift.maxAcceleration (some t)) =
    some (v + L.maxAcceleration * t) := rfl
  unfold velSoft
  simp only [e1, hx, hv, ht, hc, softVel_exact, e2, e3]
  by_cases h : L.hasAcceleration = true
  · have h' : L.lift.hasAcceleration = true := h
    simp only [if_pos h, if_pos h', dmax_some, dmin_some, saturate_some]
    rfl
  · have h' : ¬L.lift.hasAcceleration = true := h
    simp only [if_neg h, if_neg h', saturate_some]
    rfl

end

end Verif.Limits
