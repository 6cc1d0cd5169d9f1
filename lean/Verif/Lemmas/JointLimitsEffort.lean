import Verif.Lemmas.JointLimitsExact

/-!
The effort limiters: the bounds they compute.
-/

namespace Verif.Limits

section

variable {K : Type} [LinearOrder K]

theorem effSat_bounds (A : Arith K) (L : JointLimits K) (i : Input (Dbl K))
    (hE : A.neg L.maxEffort ≤ A.zero ∧ A.zero ≤ L.maxEffort) :
    ∃ lo hi, effSat A L.lift i = saturate i.cmd (some lo) (some hi) ∧
      (lo = A.neg L.maxEffort ∨ lo = A.zero) ∧ (hi = L.maxEffort ∨ hi = A.zero) ∧
      (lo = A.zero ↔ A.neg L.maxEffort = A.zero ∨
        (L.hasPosition = true ∧ ∃ x, i.pos = some x ∧ x < L.minPosition) ∨
        ∃ v, i.vel = some v ∧ v < A.neg L.maxVelocity) ∧
      (hi = A.zero ↔ L.maxEffort = A.zero ∨
        (L.hasPosition = true ∧ ∃ x, i.pos = some x ∧ ¬ x < L.minPosition ∧ L.maxPosition < x) ∨
        ∃ v, i.vel = some v ∧ ¬ v < A.neg L.maxVelocity ∧ L.maxVelocity < v) := by
  have key : ∃ lo hi lo' hi',
      (if L.hasPosition then
        if dlt i.pos (some L.minPosition) then (some A.zero, some L.maxEffort)
        else if dlt (some L.maxPosition) i.pos then (some (A.neg L.maxEffort), some A.zero)
        else (some (A.neg L.maxEffort), some L.maxEffort)
      else (some (A.neg L.maxEffort), some L.maxEffort) : Dbl K × Dbl K) = (some lo, some hi) ∧
      (lo = A.neg L.maxEffort ∨ lo = A.zero) ∧ (hi = L.maxEffort ∨ hi = A.zero) ∧
      (lo = A.zero ↔ A.neg L.maxEffort = A.zero ∨
        (L.hasPosition = true ∧ ∃ x, i.pos = some x ∧ x < L.minPosition)) ∧
      (hi = A.zero ↔ L.maxEffort = A.zero ∨
        (L.hasPosition = true ∧ ∃ x, i.pos = some x ∧ ¬ x < L.minPosition ∧ L.maxPosition < x)) ∧
      (if dlt i.vel (some (A.neg L.maxVelocity)) then (some A.zero, some hi)
        else if dlt (some L.maxVelocity) i.vel then (some lo, some A.zero)
        else (some lo, some hi) : Dbl K × Dbl K) = (some lo', some hi') ∧
      (lo' = if (∃ v, i.vel = some v ∧ v < A.neg L.maxVelocity) then A.zero else lo) ∧
      (hi' = if (∃ v, i.vel = some v ∧ ¬ v < A.neg L.maxVelocity ∧ L.maxVelocity < v) then A.zero else hi) := by
    have first : ∃ lo hi,
      (if L.hasPosition then
        if dlt i.pos (some L.minPosition) then (some A.zero, some L.maxEffort)
        else if dlt (some L.maxPosition) i.pos then (some (A.neg L.maxEffort), some A.zero)
        else (some (A.neg L.maxEffort), some L.maxEffort)
      else (some (A.neg L.maxEffort), some L.maxEffort) : Dbl K × Dbl K) = (some lo, some hi) ∧
      (lo = A.neg L.maxEffort ∨ lo = A.zero) ∧ (hi = L.maxEffort ∨ hi = A.zero) ∧
      (lo = A.zero ↔ A.neg L.maxEffort = A.zero ∨
        (L.hasPosition = true ∧ ∃ x, i.pos = some x ∧ x < L.minPosition)) ∧
      (hi = A.zero ↔ L.maxEffort = A.zero ∨
        (L.hasPosition = true ∧ ∃ x, i.pos = some x ∧ ¬ x < L.minPosition ∧ L.maxPosition < x)) := by
      by_cases hP : L.hasPosition = true
      · rw [if_pos hP]
        cases hx : i.pos with
        | none => exact ⟨_, _, rfl, Or.inl rfl, Or.inl rfl, by simp, by simp⟩
        | some x =>
          simp only [dlt, decide_eq_true_eq]
          by_cases h1 : x < L.minPosition
          · rw [if_pos h1]
            exact ⟨_, _, rfl, Or.inr rfl, Or.inl rfl, by simp [hP, h1], by simp [h1]⟩
          · rw [if_neg h1]
            by_cases h2 : L.maxPosition < x
            · rw [if_pos h2]
              exact ⟨_, _, rfl, Or.inl rfl, Or.inr rfl, by simp [h1],
                by simp [hP, not_lt.1 h1, h2]⟩
            · rw [if_neg h2]
              exact ⟨_, _, rfl, Or.inl rfl, Or.inl rfl, by simp [h1], by simp [h2]⟩
      · rw [if_neg hP]
        exact ⟨_, _, rfl, Or.inl rfl, Or.inl rfl, by simp [hP], by simp [hP]⟩
    obtain ⟨lo, hi, h1, h2, h3, h4, h5⟩ := first
    cases hv : i.vel with
    | none => exact ⟨lo, hi, lo, hi, h1, h2, h3, h4, h5, rfl, by simp, by simp⟩
    | some v =>
      by_cases c1 : v < A.neg L.maxVelocity
      · exact ⟨lo, hi, A.zero, hi, h1, h2, h3, h4, h5, by simp [dlt, c1], by simp [c1], by simp [c1]⟩
      · by_cases c2 : L.maxVelocity < v
        · exact ⟨lo, hi, lo, A.zero, h1, h2, h3, h4, h5, by simp [dlt, c1, c2], by simp [c1], by simp [c1, c2]⟩
        · exact ⟨lo, hi, lo, hi, h1, h2, h3, h4, h5, by simp [dlt, c1, c2], by simp [c1], by simp [c2]⟩
  obtain ⟨lo, hi, lo', hi', e1, h2, h3, h4, h5, e2, h6, h7⟩ := key
  refine ⟨lo', hi', ?_, ?_, ?_, ?_, ?_⟩
  · have : effSat A L.lift i = (fun r : Dbl K × Dbl K => saturate i.cmd r.1 r.2)
        ((fun r : Dbl K × Dbl K => (if dlt i.vel (some (A.neg L.maxVelocity)) then (some A.zero, r.2)
          else if dlt (some L.maxVelocity) i.vel then (r.1, some A.zero) else (r.1, r.2)))
        (if L.hasPosition then
        if dlt i.pos (some L.minPosition) then (some A.zero, some L.maxEffort)
        else if dlt (some L.maxPosition) i.pos then (some (A.neg L.maxEffort), some A.zero)
        else (some (A.neg L.maxEffort), some L.maxEffort)
      else (some (A.neg L.maxEffort), some L.maxEffort))) := rfl
    rw [this, e1]
    simp only
    rw [e2]
  · rw [h6]; split
    · exact Or.inr rfl
    · exact h2
  · rw [h7]; split
    · exact Or.inr rfl
    · exact h3
  · rw [h6]; split
    · simp_all
    · rename_i hn; simp only [h4, hn, or_false]
  · rw [h7]; split
    · rename_i hn; simp only [hn, or_true]
    · rename_i hn; simp only [h5, hn, or_false]

end

section

variable {K : Type} [CommRing K] [LinearOrder K] [IsStrictOrderedRing K]

theorem effSoft_exact (huge : K) (L : JointLimits K) (S : SoftLimits K) (i : Input (Dbl K)) (x v : K)
    (hx : i.pos = some x) (hv : i.vel = some v) :
    effSoft (Arith.exact huge) L.lift S.lift i = saturate i.cmd
      (some (clamp (-S.kVelocity * (v - (sVel L S L.maxVelocity x).1)) (-L.maxEffort) L.maxEffort))
      (some (clamp (-S.kVelocity * (v - (sVel L S L.maxVelocity x).2)) (-L.maxEffort) L.maxEffort)) := by
  have e1 : L.lift.maxVelocity = some L.maxVelocity := rfl
  have e2 : ∀ y, saturate ((Arith.exact huge).dmul ((Arith.exact huge).dneg S.lift.kVelocity)
      ((Arith.exact huge).dsub (some v) (some y))) ((Arith.exact huge).dneg L.lift.maxEffort) L.lift.maxEffort =
      some (clamp (-S.kVelocity * (v - y)) (-L.maxEffort) L.maxEffort) := fun y => saturate_some _ _ _
  unfold effSoft effSoftBounds
  simp only [e1, hx, hv, softVel_exact, e2]

theorem sVel_beyond {L : JointLimits K} {S : SoftLimits K} {v x : K} (hv : 0 ≤ v) (hk : 0 ≤ S.kPosition)
    (hS : S.minPosition ≤ S.maxPosition) (hP : L.hasPosition = true) :
    (S.maxPosition ≤ x → (sVel L S v x).2 ≤ 0) ∧ (x ≤ S.minPosition → 0 ≤ (sVel L S v x).1 ∧ 0 ≤ (sVel L S v x).2) := by
  have hle := sVel_le L S hv hk hS x
  constructor
  · intro h
    simp only [sVel, hP, if_true, clamp]
    refine (min_le_left _ _).trans (max_le ?_ (by linarith))
    nlinarith
  · intro h
    have : 0 ≤ (sVel L S v x).1 := by
      simp only [sVel, hP, if_true, clamp]
      refine le_min (le_trans ?_ (le_max_left _ _)) hv
      nlinarith
    exact ⟨this, this.trans hle⟩

end

end Verif.Limits
