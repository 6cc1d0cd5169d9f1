import Verif.Props.JointLimitsPosition
import Mathlib.Data.Nat.Cast.Order.Ring

/-!
Property C39, continued: position saturation handles whose joint is outside its limits, or not measured, at the beginning.
-/

namespace Verif.Limits

section

variable {K : Type} [CommRing K] [LinearOrder K] [IsStrictOrderedRing K]

/-- One call with velocity limits. -/
theorem posSat_number (huge : K) (L : JointLimits K) (hv : L.hasVelocity = true) (prev : Dbl K) (i : Input (Dbl K)) (p c t : K)
    (hp : (if prev.isNone then i.pos else prev) = some p) (hc : i.cmd = some c) (ht : i.dt = some t) :
    posSat (Arith.exact huge) L.lift prev i = some (min (max c (max (p - L.maxVelocity * t) (range (.exact huge) L).1))
      (min (p + L.maxVelocity * t) (range (.exact huge) L).2)) := by
  have h' : L.lift.hasVelocity = true := hv
  have e1 : (Arith.exact huge).dsub (some p) ((Arith.exact huge).dmul L.lift.maxVelocity i.dt) = some (p - L.maxVelocity * t) := by
    rw [ht]; rfl
  have e2 : (Arith.exact huge).dadd (some p) ((Arith.exact huge).dmul L.lift.maxVelocity i.dt) = some (p + L.maxVelocity * t) := by
    rw [ht]; rfl
  have e3 : posSatRange (Arith.exact huge) L.lift = (some (range (.exact huge) L).1, some (range (.exact huge) L).2) := by
    unfold posSatRange range
    by_cases h : L.hasPosition = true
    · have h2 : L.lift.hasPosition = true := h
      rw [if_pos h, if_pos h2]; rfl
    · have h2 : ¬L.lift.hasPosition = true := h
      rw [if_neg h, if_neg h2]
  unfold posSat
  rw [hp]
  simp only [h', if_true, e1, e2, e3, hc, dmax_some, dmin_some, saturate_some]

/-- **C39, wherever the joint is at the beginning.** In any history of a position saturation handle with velocity limits, with measured
positions anywhere: if the reference is a number, a number is written for a number; it is never above the range, and below it exactly
if the reference, increased by what the maximal velocity allows, still is; then that is written, whatever the command is. If the
reference is NaN the command is written as it is. -/
theorem c39_any_start (huge : K) (L : JointLimits K) (hv : L.hasVelocity = true)
    (hr : (range (.exact huge) L).1 ≤ (range (.exact huge) L).2) (prev : Dbl K) (cs : List (Call (Dbl K))) :
    ∀ r ∈ posSatRun (.exact huge) L.lift prev cs, ∀ c t, r.input.cmd = some c → r.input.dt = some t →
      (r.ref = none → r.out = some c) ∧
      ∀ p, r.ref = some p → ∃ o, r.out = some o ∧ o ≤ (range (.exact huge) L).2 ∧
        (o < (range (.exact huge) L).1 ↔ p + L.maxVelocity * t < (range (.exact huge) L).1) ∧
        (p + L.maxVelocity * t ≤ (range (.exact huge) L).1 → o = p + L.maxVelocity * t) := by
  induction cs generalizing prev with
  | nil => simp [posSatRun]
  | cons x cs ih =>
    cases x with
    | reset => simpa [posSatRun] using ih none
    | enforce i =>
      intro r hrm
      rw [posSatRun] at hrm
      rcases List.mem_cons.1 hrm with rfl | hrm
      · intro c t hc ht
        dsimp only at hc ht ⊢
        refine ⟨fun hn => ?_, fun p hp => ?_⟩
        · have h' : L.lift.hasVelocity = true := hv
          have e1 (y : Dbl K) : (Arith.exact huge).dsub none y = none := rfl
          have e2 (y : Dbl K) : (Arith.exact huge).dadd none y = none := rfl
          have e3 (y : Dbl K) : dmax none y = none := rfl
          have e4 (y : Dbl K) : dmin none y = none := by cases y <;> rfl
          unfold posSat
          rw [hn]
          simp only [h', if_true, e1, e2, e3, e4]
          rw [saturate_nan_bounds, hc]
        · rw [posSat_number huge L hv prev i p c t hp hc ht]
          generalize (range (.exact huge) L).1 = lo at hr ⊢
          generalize (range (.exact huge) L).2 = hi at hr ⊢
          generalize L.maxVelocity * t = d
          have h1 : min (max c (max (p - d) lo)) (min (p + d) hi) ≤ p + d := (min_le_right _ _).trans (min_le_left _ _)
          have h2 : min lo (p + d) ≤ min (max c (max (p - d) lo)) (min (p + d) hi) :=
            le_min ((min_le_left _ _).trans ((le_max_right _ _).trans (le_max_right _ _)))
              (le_min (min_le_right _ _) ((min_le_left _ _).trans hr))
          refine ⟨_, rfl, (min_le_right _ _).trans (min_le_right _ _), ⟨fun h => ?_, fun h => h1.trans_lt h⟩, fun h => ?_⟩
          · by_contra hno
            rw [min_eq_left (not_lt.1 hno)] at h2
            exact absurd h (not_lt.2 h2)
          · rw [min_eq_right h] at h2
            exact le_antisymm h1 h2
      · exact ih _ r hrm

/-- The positions that follow one far below the range. -/
theorem posSatRun_below (huge : K) (L : JointLimits K) (hv : L.hasVelocity = true)
    (hr : (range (.exact huge) L).1 ≤ (range (.exact huge) L).2) (t : K) (h0 : 0 ≤ L.maxVelocity * t)
    (is : List (Input (Dbl K))) (p : K) (hi : ∀ i ∈ is, i.dt = some t ∧ ∃ c, i.cmd = some c)
    (hp : p + is.length * (L.maxVelocity * t) ≤ (range (.exact huge) L).1) :
    (posSatRun (.exact huge) L.lift (some p) (is.map .enforce)).map (·.out) =
      (List.range is.length).map fun k : ℕ => some (p + ((k : K) + 1) * (L.maxVelocity * t)) := by
  induction is generalizing p with
  | nil => simp [posSatRun]
  | cons i is ih =>
    obtain ⟨ht, c, hc⟩ := hi i (by simp)
    have hl : (0 : K) ≤ is.length * (L.maxVelocity * t) := mul_nonneg (Nat.cast_nonneg _) h0
    have hp' : p + L.maxVelocity * t + is.length * (L.maxVelocity * t) ≤ (range (.exact huge) L).1 := by
      have : p + L.maxVelocity * t + is.length * (L.maxVelocity * t) = p + ((i :: is).length : K) * (L.maxVelocity * t) := by
        simp only [List.length_cons, Nat.cast_succ]
        ring
      rw [this]
      exact hp
    have hle : p + L.maxVelocity * t ≤ (range (.exact huge) L).1 := by linarith
    have hstep : posSat (.exact huge) L.lift (some p) i = some (p + L.maxVelocity * t) := by
      rw [posSat_number huge L hv (some p) i p c t rfl hc ht]
      congr 1
      rw [min_eq_left (a := p + L.maxVelocity * t) (hle.trans hr), min_eq_right]
      exact hle.trans ((le_max_right _ _).trans (le_max_right _ _))
    rw [List.map_cons, posSatRun, hstep]
    simp only [List.map_cons, List.length_cons, List.range_succ_eq_map, List.map_map]
    rw [ih _ (fun j hj => hi j (by simp [hj])) hp']
    refine congrArg₂ _ (by simp) (List.map_congr_left fun k _ => ?_)
    simp only [Function.comp, Nat.cast_succ]
    congr 1
    ring

/-- **C39, the premise is needed.** Let a joint be far below its range when the handle takes the measured position as reference. For all
limits, the handle then writes commands below the range in every call, whatever is commanded, until the maximal velocity has brought the
command back. -/
theorem c39_start_needed (huge : K) (L : JointLimits K) (hv : L.hasVelocity = true)
    (hr : (range (.exact huge) L).1 ≤ (range (.exact huge) L).2) (t : K) (h0 : 0 ≤ L.maxVelocity * t)
    (first : Input (Dbl K)) (is : List (Input (Dbl K))) (p : K) (hf : first.pos = some p)
    (hi : ∀ i ∈ first :: is, i.dt = some t ∧ ∃ c, i.cmd = some c)
    (hp : p + (is.length + 1) * (L.maxVelocity * t) < (range (.exact huge) L).1) :
    (posSatRun (.exact huge) L.lift none ((first :: is).map .enforce)).map (·.out) =
        ((List.range (is.length + 1)).map fun k : ℕ => some (p + ((k : K) + 1) * (L.maxVelocity * t))) ∧
      ∀ o ∈ (posSatRun (.exact huge) L.lift none ((first :: is).map .enforce)).map (·.out),
        ∃ x, o = some x ∧ x < (range (.exact huge) L).1 := by
  have e : (posSatRun (.exact huge) L.lift none ((first :: is).map .enforce)).map (·.out) =
      (posSatRun (.exact huge) L.lift (some p) ((first :: is).map .enforce)).map (·.out) := by
    have : posSat (.exact huge) L.lift none first = posSat (.exact huge) L.lift (some p) first := by
      unfold posSat
      simp [hf]
    rw [List.map_cons, posSatRun, posSatRun, this]
    rfl
  have e2 := posSatRun_below huge L hv hr t h0 (first :: is) p hi (by
    simp only [List.length_cons, Nat.cast_succ]
    exact hp.le)
  rw [List.length_cons] at e2
  rw [e, e2]
  refine ⟨rfl, fun o ho => ?_⟩
  obtain ⟨k, hk, rfl⟩ := List.mem_map.1 ho
  refine ⟨_, rfl, ?_⟩
  have hk' : (k : K) + 1 ≤ is.length + 1 := by exact_mod_cast List.mem_range.1 hk
  have := mul_le_mul_of_nonneg_right hk' h0
  linarith

end

/-! ### Concrete cases -/

/-- A joint measured at -20, with the range [-10, 10] and velocity 2, is told to go to 5. -/
example : (posSatRun (Arith.exact 1000) exLimits.lift none
    ((List.replicate 7 ⟨some 5, some (-20), some 0, some 1⟩).map .enforce)).map (·.out) =
    [some (-18), some (-16), some (-14), some (-12), some (-10), some (-8), some (-6)] := by decide

example := c39_start_needed (1000 : ℤ) exLimits rfl (by decide) 1 (by decide) ⟨some 5, some (-20), some 0, some 1⟩
  (List.replicate 3 ⟨some 5, some (-20), some 0, some 1⟩) (-20) rfl
  (by
    intro i hi
    simp only [List.mem_cons, List.mem_replicate] at hi
    rcases hi with rfl | ⟨-, rfl⟩ <;> exact ⟨rfl, 5, rfl⟩) (by decide)

example := c39_any_start (1000 : ℤ) exLimits rfl (by decide) none
  (.reset :: (List.replicate 7 ⟨some 5, some (-20), some 0, some 1⟩).map .enforce)

end Verif.Limits
