import Verif.Lemmas.JointLimits
import Mathlib.Tactic.Ring

/-!
The joint limit enforcers in exact arithmetic.
-/

namespace Verif.Limits

variable {K : Type} [CommRing K] [LinearOrder K] [IsStrictOrderedRing K]

/-- The values of a saturation without NaN. -/
def clamp (v lo hi : K) : K := min (max v lo) hi

theorem exact_sound (huge : K) : Sound (Arith.exact huge) fun _ => True where
  mul_nonneg a b _ _ ha hb := ⟨a * b, rfl, mul_nonneg ha hb⟩
  add_ge p d _ hd := ⟨p + d, rfl, le_add_of_nonneg_right hd⟩
  sub_le p d _ hd := ⟨p - d, rfl, sub_le_self p hd⟩
  neg_nonpos a ha := neg_nonpos.2 ha
  fin_between _ _ _ _ _ _ _ := trivial
  fin_neg _ _ := trivial
  fin_zero := trivial
  fin_huge := trivial

/-- Velocity bounds from the soft limits, exact. -/
def sVel (L : JointLimits K) (S : SoftLimits K) (v p : K) : K × K :=
  if L.hasPosition then
    (clamp (-S.kPosition * (p - S.minPosition)) (-v) v, clamp (-S.kPosition * (p - S.maxPosition)) (-v) v)
  else (-v, v)

theorem softVel_exact (huge : K) (L : JointLimits K) (S : SoftLimits K) (v p : K) :
    softVel (Arith.exact huge) L.lift S.lift (some v) (some p) =
      (some (sVel L S v p).1, some (sVel L S v p).2) := by
  unfold softVel sVel
  have e1 : ∀ q, (Arith.exact huge).dmul ((Arith.exact huge).dneg S.lift.kPosition)
      ((Arith.exact huge).dsub (some p) (some q)) = some (-S.kPosition * (p - q)) := fun _ => rfl
  have e2 : (Arith.exact huge).dneg (some v) = some (-v) := rfl
  have e3 : S.lift.minPosition = some S.minPosition := rfl
  have e4 : S.lift.maxPosition = some S.maxPosition := rfl
  by_cases h : L.hasPosition = true
  · have h' : L.lift.hasPosition = true := h
    rw [if_pos h, if_pos h', e3, e4, e1, e1, e2, saturate_some, saturate_some]
    rfl
  · have h' : ¬L.lift.hasPosition = true := h
    rw [if_neg h, if_neg h', e2]

theorem clamp_mem {x v : K} (hv : 0 ≤ v) : -v ≤ clamp x (-v) v ∧ clamp x (-v) v ≤ v :=
  ⟨le_min (le_max_right _ _) (by linarith), min_le_right _ _⟩

theorem sVel_bounds (L : JointLimits K) (S : SoftLimits K) {v : K} (hv : 0 ≤ v) (p : K) :
    (-v ≤ (sVel L S v p).1 ∧ (sVel L S v p).1 ≤ v) ∧ (-v ≤ (sVel L S v p).2 ∧ (sVel L S v p).2 ≤ v) := by
  unfold sVel
  split
  · exact ⟨clamp_mem hv, clamp_mem hv⟩
  · exact ⟨⟨le_rfl, by linarith⟩, by linarith, le_rfl⟩

theorem sVel_le (L : JointLimits K) (S : SoftLimits K) {v : K} (hv : 0 ≤ v) (hk : 0 ≤ S.kPosition)
    (hS : S.minPosition ≤ S.maxPosition) (p : K) : (sVel L S v p).1 ≤ (sVel L S v p).2 := by
  unfold sVel
  split
  · have : -S.kPosition * (p - S.minPosition) ≤ -S.kPosition * (p - S.maxPosition) := by nlinarith
    exact min_le_min_right _ (max_le_max_right _ this)
  · simp only
    linarith

/-- Bounds of the soft position limiter, exact. -/
def sPos (L : JointLimits K) (S : SoftLimits K) (p t : K) : K × K :=
  let low := p + (sVel L S L.maxVelocity p).1 * t
  let high := p + (sVel L S L.maxVelocity p).2 * t
  if L.hasPosition then (max low L.minPosition, min high L.maxPosition) else (low, high)

theorem posSoft_exact (huge : K) (L : JointLimits K) (S : SoftLimits K) (prev : Dbl K) (i : Input (Dbl K))
    (p t : K) (hp : (if prev.isNone then i.pos else prev) = some p) (ht : i.dt = some t) (ht0 : 0 < t) :
    posSoft (Arith.exact huge) L.lift S.lift prev i =
      some (saturate i.cmd (some (sPos L S p t).1) (some (sPos L S p t).2)) := by
  unfold posSoft
  have e0 : dlt (some (Arith.exact huge).zero) i.dt = true := by
    rw [ht]
    exact decide_eq_true ht0
  have e1 : L.lift.maxVelocity = some L.maxVelocity := rfl
  have e2 : ∀ x, (Arith.exact huge).dadd (some p) ((Arith.exact huge).dmul (some x) (some t)) = some (p + x * t) :=
    fun _ => rfl
  rw [e0]
  simp only [Bool.not_true, Bool.false_eq_true, if_false, hp, e1, softVel_exact, ht, e2]
  unfold sPos
  by_cases h : L.hasPosition = true
  · have h' : L.lift.hasPosition = true := h
    have e3 : L.lift.minPosition = some L.minPosition := rfl
    have e4 : L.lift.maxPosition = some L.maxPosition := rfl
    simp only [h, h', if_true, e3, e4, dmax_some, dmin_some]
  · have h' : L.lift.hasPosition = false := by
      show L.hasPosition = false
      simpa using h
    simp only [h, h', if_false, Bool.false_eq_true]

/-- The command the soft position limiter writes, exact. -/
def sOut (L : JointLimits K) (S : SoftLimits K) (p t c : K) : K := clamp c (sPos L S p t).1 (sPos L S p t).2

section

variable {L : JointLimits K} {S : SoftLimits K} {p t c : K}

theorem sOut_le (ht : 0 ≤ t) (hv : 0 ≤ L.maxVelocity) :
    sOut L S p t c ≤ p + L.maxVelocity * t ∧ (L.hasPosition = true → sOut L S p t c ≤ L.maxPosition) ∧
    sOut L S p t c ≤ p + (sVel L S L.maxVelocity p).2 * t := by
  have h : sOut L S p t c ≤ (sPos L S p t).2 := min_le_right _ _
  have hb := (sVel_bounds L S hv p).2
  have hm : (sVel L S L.maxVelocity p).2 * t ≤ L.maxVelocity * t := mul_le_mul_of_nonneg_right hb.2 ht
  by_cases hP : L.hasPosition = true
  · have e : (sPos L S p t).2 = min (p + (sVel L S L.maxVelocity p).2 * t) L.maxPosition := by
      simp [sPos, hP]
    rw [e] at h
    have h1 := h.trans (min_le_left _ _)
    exact ⟨by linarith, fun _ => h.trans (min_le_right _ _), h1⟩
  · have e : (sPos L S p t).2 = p + (sVel L S L.maxVelocity p).2 * t := by simp [sPos, hP]
    rw [e] at h
    exact ⟨by linarith, fun h => absurd h hP, h⟩

theorem le_sOut (ht : 0 ≤ t) (hv : 0 ≤ L.maxVelocity) (hp : L.hasPosition = true → p ≤ L.maxPosition) :
    p - L.maxVelocity * t ≤ sOut L S p t c := by
  have h : min (sPos L S p t).1 (sPos L S p t).2 ≤ sOut L S p t c := le_clamp _ _ _
  refine le_trans ?_ h
  have hb := sVel_bounds L S hv p
  have h1 : -(L.maxVelocity * t) ≤ (sVel L S L.maxVelocity p).1 * t := by
    have := mul_le_mul_of_nonneg_right hb.1.1 ht
    linarith
  have h2 : -(L.maxVelocity * t) ≤ (sVel L S L.maxVelocity p).2 * t := by
    have := mul_le_mul_of_nonneg_right hb.2.1 ht
    linarith
  have h3 : 0 ≤ L.maxVelocity * t := mul_nonneg hv ht
  by_cases hP : L.hasPosition = true
  · simp only [sPos, hP, if_true]
    exact le_min ((by linarith : _ ≤ p + _).trans (le_max_left _ _))
      (le_min (by linarith) (by have := hp hP; linarith))
  · simp only [sPos, hP, Bool.false_eq_true, if_false]
    exact le_min (by linarith) (by linarith)

theorem min_le_sOut (ht : 0 ≤ t) (hv : 0 ≤ L.maxVelocity) (hk : 0 ≤ S.kPosition) (hkt : S.kPosition * t ≤ 1)
    (hP : L.hasPosition = true) (hL : L.minPosition ≤ L.maxPosition) (hS : L.minPosition ≤ S.maxPosition)
    (hp : L.minPosition ≤ p) : L.minPosition ≤ sOut L S p t c := by
  have h : min (sPos L S p t).1 (sPos L S p t).2 ≤ sOut L S p t c := le_clamp _ _ _
  refine le_trans ?_ h
  simp only [sPos, hP, if_true]
  refine le_min (le_max_right _ _) (le_min ?_ hL)
  have e : (sVel L S L.maxVelocity p).2 =
      clamp (-S.kPosition * (p - S.maxPosition)) (-L.maxVelocity) L.maxVelocity := by simp [sVel, hP]
  rw [e]
  rcases le_total p S.maxPosition with h1 | h1
  · have : 0 ≤ clamp (-S.kPosition * (p - S.maxPosition)) (-L.maxVelocity) L.maxVelocity :=
      le_min (le_trans (by nlinarith) (le_max_left _ _)) hv
    nlinarith
  · have h2 : -S.kPosition * (p - S.maxPosition) ≤
        clamp (-S.kPosition * (p - S.maxPosition)) (-L.maxVelocity) L.maxVelocity := by
      refine le_min (le_max_left _ _) (le_trans ?_ hv)
      nlinarith
    have h3 := mul_le_mul_of_nonneg_right h2 ht
    have h4 : S.kPosition * t * (p - S.maxPosition) ≤ p - S.maxPosition := by
      have := mul_le_mul_of_nonneg_right hkt (sub_nonneg.2 h1)
      linarith
    have h5 : -S.kPosition * (p - S.maxPosition) * t = -(S.kPosition * t * (p - S.maxPosition)) := by ring
    rw [h5] at h3
    linarith

theorem sOut_pull_down (ht : 0 ≤ t) (hv : 0 ≤ L.maxVelocity) (hP : L.hasPosition = true)
    (hk : 0 ≤ S.kPosition) (h : S.maxPosition ≤ p) :
    sOut L S p t c ≤ p - min (S.kPosition * (p - S.maxPosition)) L.maxVelocity * t := by
  have h1 := (sOut_le (L := L) (S := S) (p := p) (c := c) ht hv).2.2
  have e : (sVel L S L.maxVelocity p).2 = -min (S.kPosition * (p - S.maxPosition)) L.maxVelocity := by
    simp only [sVel, hP, if_true, clamp]
    rw [min_eq_left (max_le (by nlinarith) (by linarith)), neg_mul]
    rcases le_total (S.kPosition * (p - S.maxPosition)) L.maxVelocity with h' | h'
    · rw [min_eq_left h', max_eq_left (by linarith)]
    · rw [min_eq_right h', max_eq_right (by linarith)]
  rw [e] at h1
  linarith

theorem sOut_pull_up (ht : 0 ≤ t) (hv : 0 ≤ L.maxVelocity) (hP : L.hasPosition = true) (hk : 0 ≤ S.kPosition)
    (hS : S.minPosition ≤ S.maxPosition) (h : p ≤ S.minPosition) :
    min (p + min (S.kPosition * (S.minPosition - p)) L.maxVelocity * t) L.maxPosition ≤ sOut L S p t c := by
  have h0 : min (sPos L S p t).1 (sPos L S p t).2 ≤ sOut L S p t c := le_clamp _ _ _
  refine le_trans ?_ h0
  have e : (sVel L S L.maxVelocity p).1 = min (S.kPosition * (S.minPosition - p)) L.maxVelocity := by
    simp only [sVel, hP, if_true, clamp]
    have : -S.kPosition * (p - S.minPosition) = S.kPosition * (S.minPosition - p) := by ring
    rw [this, max_eq_left]
    have := mul_nonneg hk (sub_nonneg.2 h)
    linarith
  have hle := sVel_le L S hv hk hS p
  simp only [sPos, hP, if_true]
  rw [← e]
  refine le_min ((min_le_left _ _).trans (le_max_left _ _)) (min_le_min_right _ ?_)
  have := mul_le_mul_of_nonneg_right hle ht
  linarith

end

end Verif.Limits
