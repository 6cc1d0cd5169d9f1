import Verif.Props.JointLimitsVelocity

/-!
Property C43, continued: what a NaN command does to a velocity saturation handle with acceleration limits, and for how long.
-/

namespace Verif.Limits

section

variable {K : Type} [CommRing K] [LinearOrder K] [IsStrictOrderedRing K]

/-- One call after a NaN command. -/
theorem velSat_nan (huge : K) (L : JointLimits K) (ha : L.hasAcceleration = true) (i : Input (Dbl K)) (t : K)
    (ht : i.dt = some t) (h0 : 0 < t) : velSat (Arith.exact huge) L.lift none i = some i.cmd := by
  have h' : L.lift.hasAcceleration = true := ha
  have e0 : dlt (some (Arith.exact huge).zero) i.dt = true := by
    rw [ht]
    exact decide_eq_true h0
  have e1 : (Arith.exact huge).dsub none ((Arith.exact huge).dmul L.lift.maxAcceleration i.dt) = none := rfl
  have e2 : (Arith.exact huge).dadd none ((Arith.exact huge).dmul L.lift.maxAcceleration i.dt) = none := rfl
  have e3 (y : Dbl K) : dmax none y = none := rfl
  have e4 (y : Dbl K) : dmin none y = none := by cases y <;> rfl
  unfold velSat
  rw [if_pos h', e0]
  simp only [Bool.not_true, Bool.false_eq_true, if_false, e1, e2, e3, e4]
  rw [saturate_nan_bounds]

/-- One call after a number. -/
theorem velSat_number (huge : K) (L : JointLimits K) (ha : L.hasAcceleration = true) (i : Input (Dbl K)) (p c t : K)
    (hc : i.cmd = some c) (ht : i.dt = some t) (h0 : 0 < t) :
    velSat (Arith.exact huge) L.lift (some p) i = some (some (clamp c (max (p - L.maxAcceleration * t) (-L.maxVelocity))
      (min (p + L.maxAcceleration * t) L.maxVelocity))) := by
  have h' : L.lift.hasAcceleration = true := ha
  have e0 : dlt (some (Arith.exact huge).zero) i.dt = true := by
    rw [ht]
    exact decide_eq_true h0
  have e1 : (Arith.exact huge).dsub (some p) ((Arith.exact huge).dmul L.lift.maxAcceleration i.dt) =
      some (p - L.maxAcceleration * t) := by rw [ht]; rfl
  have e2 : (Arith.exact huge).dadd (some p) ((Arith.exact huge).dmul L.lift.maxAcceleration i.dt) =
      some (p + L.maxAcceleration * t) := by rw [ht]; rfl
  have e3 : (Arith.exact huge).dneg L.lift.maxVelocity = some (-L.maxVelocity) := rfl
  have e4 : L.lift.maxVelocity = some L.maxVelocity := rfl
  unfold velSat
  rw [if_pos h', e0]
  simp only [Bool.not_true, Bool.false_eq_true, if_false, e1, e2, e3]
  rw [hc, e4, dmax_some, dmin_some, saturate_some]
  rfl

/-- **C43, every history, NaN commands included.** In any history with positive periods every call is carried out, and the command it
counts as previous is the one written before. A NaN command is written. After a NaN the next command is written as it is. After a number
a number is written, never above `max_velocity`, and below `-max_velocity` exactly if the previous one, increased by the maximal
acceleration, still is; then that is written, whatever the command is. (Missing: the limits after a NaN, see
`c43_lasting_negation`.) -/
theorem c43_any_history_partial (huge : K) (L : JointLimits K) (hV : 0 ≤ L.maxVelocity) (ha : L.hasAcceleration = true)
    (prev : Dbl K) (is : List (Input (Dbl K))) (hi : ∀ i ∈ is, ∃ t, i.dt = some t ∧ 0 < t) :
    let rs := velSatRun (Arith.exact huge) L.lift prev is
    rs.map (·.input) = is ∧ (prev :: rs.map (·.out)) = rs.map (·.ref) ++ [(rs.map (·.out)).getLastD prev] ∧
    ∀ r ∈ rs, (r.input.cmd = none → r.out = none) ∧ (r.ref = none → r.out = r.input.cmd) ∧
      ∀ p c t, r.ref = some p → r.input.cmd = some c → r.input.dt = some t →
        ∃ o, r.out = some o ∧ o ≤ L.maxVelocity ∧ (o < -L.maxVelocity ↔ p + L.maxAcceleration * t < -L.maxVelocity) ∧
          (p + L.maxAcceleration * t ≤ -L.maxVelocity → o = p + L.maxAcceleration * t) := by
  induction is generalizing prev with
  | nil => simp [velSatRun]
  | cons i is ih =>
    obtain ⟨t, ht, h0⟩ := hi i (by simp)
    have hstep : ∃ o, velSat (Arith.exact huge) L.lift prev i = some o ∧ (i.cmd = none → o = none) ∧ (prev = none → o = i.cmd) ∧
        ∀ p c, prev = some p → i.cmd = some c → ∃ o', o = some o' ∧ o' ≤ L.maxVelocity ∧
          (o' < -L.maxVelocity ↔ p + L.maxAcceleration * t < -L.maxVelocity) ∧
          (p + L.maxAcceleration * t ≤ -L.maxVelocity → o' = p + L.maxAcceleration * t) := by
      cases prev with
      | none => exact ⟨_, velSat_nan huge L ha i t ht h0, id, fun _ => rfl, by simp⟩
      | some p =>
        cases hc : i.cmd with
        | none =>
          have h' : L.lift.hasAcceleration = true := ha
          have e0 : dlt (some (Arith.exact huge).zero) i.dt = true := by
            rw [ht]
            exact decide_eq_true h0
          refine ⟨none, ?_, fun _ => rfl, by simp, by simp⟩
          unfold velSat
          rw [if_pos h', e0]
          simp [hc, saturate_none]
        | some c =>
          refine ⟨_, velSat_number huge L ha i p c t hc ht h0, by simp, by simp, ?_⟩
          rintro p' c' ⟨⟩ ⟨⟩
          have h1 : clamp c (max (p - L.maxAcceleration * t) (-L.maxVelocity)) (min (p + L.maxAcceleration * t) L.maxVelocity) ≤
              p + L.maxAcceleration * t := (min_le_right _ _).trans (min_le_left _ _)
          have h2 : min (-L.maxVelocity) (p + L.maxAcceleration * t) ≤
              clamp c (max (p - L.maxAcceleration * t) (-L.maxVelocity)) (min (p + L.maxAcceleration * t) L.maxVelocity) :=
            le_min ((min_le_left _ _).trans ((le_max_right _ _).trans (le_max_right _ _)))
              (le_min (min_le_right _ _) ((min_le_left _ _).trans (by linarith)))
          refine ⟨_, rfl, (min_le_right _ _).trans (min_le_right _ _), ⟨fun h => ?_, fun h => h1.trans_lt h⟩, fun h => ?_⟩
          · by_contra hno
            rw [min_eq_left (not_lt.1 hno)] at h2
            exact absurd h (not_lt.2 h2)
          · rw [min_eq_right h] at h2
            exact le_antisymm h1 h2
    obtain ⟨o, ho, s1, s2, s3⟩ := hstep
    obtain ⟨g1, g2, g3⟩ := ih o (fun j hj => hi j (by simp [hj]))
    have e : velSatRun (Arith.exact huge) L.lift prev (i :: is) =
        ⟨prev, i, o⟩ :: velSatRun (Arith.exact huge) L.lift o is := by rw [velSatRun, ho]
    intro rs
    have er : rs = ⟨prev, i, o⟩ :: velSatRun (Arith.exact huge) L.lift o is := e
    refine ⟨by rw [er]; simp [g1], ?_, ?_⟩
    · rw [er]
      simp only [List.map_cons, List.cons_append, List.getLastD_cons]
      rw [← g2]
    · intro r hr
      rw [er] at hr
      rcases List.mem_cons.1 hr with rfl | hr
      · refine ⟨s1, s2, fun p c t' hp hc ht' => ?_⟩
        have : t' = t := by
          have : some t' = some t := ht'.symm.trans ht
          simpa using this
        subst this
        exact s3 p c hp hc
      · exact g3 r hr

/-- The velocities that follow one far below the limit. -/
theorem velSatRun_below (huge : K) (L : JointLimits K) (hV : 0 ≤ L.maxVelocity) (ha : L.hasAcceleration = true)
    (hA : 0 ≤ L.maxAcceleration) (t : K) (h0 : 0 < t) (is : List (Input (Dbl K))) (p : K)
    (hi : ∀ i ∈ is, i.dt = some t ∧ ∃ c, i.cmd = some c)
    (hp : p + is.length * (L.maxAcceleration * t) ≤ -L.maxVelocity) :
    (velSatRun (Arith.exact huge) L.lift (some p) is).map (·.out) =
      (List.range is.length).map fun k : ℕ => some (p + ((k : K) + 1) * (L.maxAcceleration * t)) := by
  induction is generalizing p with
  | nil => simp [velSatRun]
  | cons i is ih =>
    obtain ⟨ht, c, hc⟩ := hi i (by simp)
    have hd : 0 ≤ L.maxAcceleration * t := mul_nonneg hA h0.le
    have hl : (0 : K) ≤ is.length * (L.maxAcceleration * t) := mul_nonneg (Nat.cast_nonneg _) hd
    have hp' : p + L.maxAcceleration * t + is.length * (L.maxAcceleration * t) ≤ -L.maxVelocity := by
      have : p + L.maxAcceleration * t + is.length * (L.maxAcceleration * t) =
          p + ((i :: is).length : K) * (L.maxAcceleration * t) := by
        simp only [List.length_cons, Nat.cast_succ]
        ring
      rw [this]
      exact hp
    have hle : p + L.maxAcceleration * t ≤ -L.maxVelocity := by linarith
    have hstep : velSat (Arith.exact huge) L.lift (some p) i = some (some (p + L.maxAcceleration * t)) := by
      rw [velSat_number huge L ha i p c t hc ht h0]
      congr 2
      unfold clamp
      rw [min_eq_left (a := p + L.maxAcceleration * t) (by linarith), min_eq_right]
      exact hle.trans ((le_max_right _ _).trans (le_max_right _ _))
    rw [velSatRun, hstep]
    simp only [List.map_cons, List.length_cons, List.range_succ_eq_map, List.map_map]
    rw [ih _ (fun j hj => hi j (by simp [hj])) hp']
    refine congrArg₂ _ (by simp) (List.map_congr_left fun k _ => ?_)
    simp only [Function.comp, Nat.cast_succ]
    congr 1
    ring

/-- **C43, a NaN command can do lasting harm.** For all limits with acceleration limits, after one NaN command and one command far below
`-max_velocity` the handle exceeds the maximal velocity in every further call, whatever is commanded, until the maximal acceleration has
brought the velocity back. -/
theorem c43_lasting_negation (huge : K) (L : JointLimits K) (hV : 0 ≤ L.maxVelocity) (ha : L.hasAcceleration = true)
    (hA : 0 ≤ L.maxAcceleration) (t : K) (h0 : 0 < t) (nan first : Input (Dbl K)) (is : List (Input (Dbl K))) (p c : K)
    (hn : nan.cmd = none ∧ nan.dt = some t) (hf : first.cmd = some c ∧ first.dt = some t)
    (hi : ∀ i ∈ is, i.dt = some t ∧ ∃ c, i.cmd = some c)
    (hc : c + is.length * (L.maxAcceleration * t) < -L.maxVelocity) :
    (velSatRun (Arith.exact huge) L.lift (some p) (nan :: first :: is)).map (·.out) =
        none :: some c :: ((List.range is.length).map fun k : ℕ => some (c + ((k : K) + 1) * (L.maxAcceleration * t))) ∧
      ∀ o, some o ∈ (velSatRun (Arith.exact huge) L.lift (some p) (nan :: first :: is)).map (·.out) → o < -L.maxVelocity := by
  have hd : 0 ≤ L.maxAcceleration * t := mul_nonneg hA h0.le
  have h1 : velSat (Arith.exact huge) L.lift (some p) nan = some none := by
    have h' : L.lift.hasAcceleration = true := ha
    have e0 : dlt (some (Arith.exact huge).zero) nan.dt = true := by
      rw [hn.2]
      exact decide_eq_true h0
    unfold velSat
    rw [if_pos h', e0]
    simp [hn.1, saturate_none]
  have e : (velSatRun (Arith.exact huge) L.lift (some p) (nan :: first :: is)).map (·.out) =
      none :: some c :: ((List.range is.length).map fun k : ℕ => some (c + ((k : K) + 1) * (L.maxAcceleration * t))) := by
    rw [velSatRun, h1]
    simp only [List.map_cons]
    rw [velSatRun, velSat_nan huge L ha first t hf.2 h0, hf.1]
    simp only [List.map_cons]
    rw [velSatRun_below huge L hV ha hA t h0 is c hi hc.le]
  refine ⟨e, fun o ho => ?_⟩
  rw [e] at ho
  simp only [List.mem_cons, reduceCtorEq, false_or, Option.some.injEq, List.mem_map, List.mem_range] at ho
  rcases ho with rfl | ⟨k, hk, rfl⟩
  · have : (0 : K) ≤ is.length * (L.maxAcceleration * t) := mul_nonneg (Nat.cast_nonneg _) hd
    linarith
  · have hk' : ((k : K) + 1) ≤ is.length := by exact_mod_cast hk
    have := mul_le_mul_of_nonneg_right hk' hd
    linarith

end

/-! ### Concrete cases -/

/-- Maximal velocity 2, maximal acceleration 3: a NaN, then -20, then stop commands. -/
example : (velSatRun (Arith.exact 1000) (JointLimits.mk (-10) 10 2 3 8 true true true true : JointLimits ℤ).lift (some 0)
    (⟨none, some 0, some 0, some 1⟩ :: ⟨some (-20), some 0, some 0, some 1⟩ ::
      List.replicate 5 ⟨some 0, some 0, some 0, some 1⟩)).map (·.out) =
    [none, some (-20), some (-17), some (-14), some (-11), some (-8), some (-5)] := by decide

example := c43_lasting_negation (1000 : ℤ) ⟨-10, 10, 2, 3, 8, true, true, true, true⟩ (by decide) rfl (by decide) 1 (by decide)
  ⟨none, some 0, some 0, some 1⟩ ⟨some (-20), some 0, some 0, some 1⟩ (List.replicate 5 ⟨some 0, some 0, some 0, some 1⟩) 0 (-20)
  ⟨rfl, rfl⟩ ⟨rfl, rfl⟩ (by intro i hi; rw [List.eq_of_mem_replicate hi]; exact ⟨rfl, 0, rfl⟩) (by decide)

example := c43_any_history_partial (1000 : ℤ) ⟨-10, 10, 2, 3, 8, true, true, true, true⟩ (by decide) rfl (some 0)
  (⟨none, some 0, some 0, some 1⟩ :: ⟨some (-20), some 0, some 0, some 1⟩ :: List.replicate 5 ⟨some 0, some 0, some 0, some 1⟩)
  (by intro i hi; simp only [List.mem_cons, List.mem_replicate] at hi
      rcases hi with rfl | rfl | ⟨-, rfl⟩ <;> exact ⟨1, rfl, by decide⟩)

end Verif.Limits
