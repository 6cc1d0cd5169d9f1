import Verif.Props.JointLimitsPosition

/-!
Property C40, continued: how far the soft position limiter leaves the hard limits if gain times period exceeds one.
-/

namespace Verif.Limits

section

variable {K : Type} [CommRing K] [LinearOrder K] [IsStrictOrderedRing K]

/-- **C40, how far commands leave the hard limits.** Whatever the gain and the periods are, if gain times period is at most `g`, with
`g` at least one, and the references taken from measurement are within the hard limits, then every written command that is a number is
at most the maximum, and at least the minimum or `soft_max - (g - 1) * (max - soft_max)`, whichever is less. With `g = 1` these are
the hard limits as in `c40_hard_limits_partial`. (Missing: the minimum itself, which is not kept, `c40_reached_negation`.) -/
theorem c40_excess_partial (huge : K) (L : JointLimits K) (S : SoftLimits K) (hv : 0 ≤ L.maxVelocity)
    (hP : L.hasPosition = true) (hL : L.minPosition ≤ L.maxPosition) (hk : 0 ≤ S.kPosition) (g : K) (hg : 1 ≤ g)
    (cs : List (Call (Dbl K))) (hs : StartsIn (InRange (L.minPosition, L.maxPosition)) true cs)
    (ht : Periods (fun t => 0 < t ∧ S.kPosition * t ≤ g) cs) :
    ∀ r ∈ posSoftRun (.exact huge) L.lift S.lift none cs, ∀ c, r.input.cmd = some c →
      ∃ o, r.out = some o ∧ o ≤ L.maxPosition ∧
        min L.minPosition (S.maxPosition - (g - 1) * (L.maxPosition - S.maxPosition)) ≤ o := by
  generalize hB : min L.minPosition (S.maxPosition - (g - 1) * (L.maxPosition - S.maxPosition)) = B
  have hB1 : B ≤ L.minPosition := hB ▸ min_le_left _ _
  have hB2 : B ≤ S.maxPosition - (g - 1) * (L.maxPosition - S.maxPosition) := hB ▸ min_le_right _ _
  have hs' : StartsIn (InRange (B, L.maxPosition)) true cs := by
    have key : ∀ (l : List (Call (Dbl K))) (b : Bool), StartsIn (InRange (L.minPosition, L.maxPosition)) b l →
        StartsIn (InRange (B, L.maxPosition)) b l := by
      intro l
      induction l with
      | nil => exact fun _ h => h
      | cons x l ih =>
        intro b h
        cases x with
        | reset => exact ih _ h
        | enforce i =>
          refine ⟨fun hb => ?_, ih _ h.2⟩
          obtain ⟨p, e, h1, h2⟩ := h.1 hb
          exact ⟨p, e, hB1.trans h1, h2⟩
    exact key cs true hs
  rw [posSoftRun_eq]
  intro r hr
  obtain ⟨p, t, h1, _, h2, _, h3⟩ := runWith_inv (T := fun t : K => 0 < t ∧ S.kPosition * t ≤ g)
    (Good := InRange (B, L.maxPosition)) (Post := fun _ _ _ _ => True)
    (by
      intro prev i p t hp hgd hit htt
      refine ⟨_, posSoft_exact huge L S prev i p t hp hit htt.1, fun h => by rw [h, saturate_none], fun c hc => ?_⟩
      rw [hc, saturate_some]
      have h1 := sOut_le (L := L) (S := S) (p := p) (c := c) htt.1.le hv
      have h : min (sPos L S p t).1 (sPos L S p t).2 ≤ sOut L S p t c := le_clamp _ _ _
      refine ⟨sOut L S p t c, rfl, ⟨le_trans ?_ h, h1.2.1 hP⟩, trivial⟩
      simp only [sPos, hP, if_true]
      refine le_min (hB1.trans (le_max_right _ _)) (le_min ?_ (hB1.trans hL))
      have e : (sVel L S L.maxVelocity p).2 =
          clamp (-S.kPosition * (p - S.maxPosition)) (-L.maxVelocity) L.maxVelocity := by simp [sVel, hP]
      rw [e]
      have hp1 : B ≤ p := hgd.1
      have hp2 : p ≤ L.maxPosition := hgd.2
      rcases le_total p S.maxPosition with h1 | h1
      · have : 0 ≤ clamp (-S.kPosition * (p - S.maxPosition)) (-L.maxVelocity) L.maxVelocity :=
          le_min (le_trans (by nlinarith) (le_max_left _ _)) hv
        have := mul_nonneg this htt.1.le
        linarith
      · have h2 : -S.kPosition * (p - S.maxPosition) ≤
            clamp (-S.kPosition * (p - S.maxPosition)) (-L.maxVelocity) L.maxVelocity := by
          refine le_min (le_max_left _ _) (le_trans ?_ hv)
          have := mul_nonneg hk (sub_nonneg.2 h1)
          linarith
        have h3 := mul_le_mul_of_nonneg_right h2 htt.1.le
        have h4 : S.kPosition * t * (p - S.maxPosition) ≤ g * (p - S.maxPosition) :=
          mul_le_mul_of_nonneg_right htt.2 (sub_nonneg.2 h1)
        have h5 : (g - 1) * (p - S.maxPosition) ≤ (g - 1) * (L.maxPosition - S.maxPosition) :=
          mul_le_mul_of_nonneg_left (by linarith) (sub_nonneg.2 hg)
        have h6 : -S.kPosition * (p - S.maxPosition) * t = -(S.kPosition * t * (p - S.maxPosition)) := by ring
        rw [h6] at h3
        linarith)
    cs none (by simp) hs' ht r hr
  intro c hc
  obtain ⟨o, e, h, _⟩ := h3 c hc
  exact ⟨o, e, h.2, h.1⟩

/-- **C40, this far commands do go.** For all limits and gains that make the bound of `c40_excess_partial` less than the minimum with
`g` equal to gain times period, and whose velocity limit does not prevent it: if the joint is at its maximum in the first cycle, the
limiter writes this bound or less, whatever the command is. So the hard limits are left whenever gain times period is more than
`1 + (soft_max - min) / (max - soft_max)`. -/
theorem c40_reached_negation (huge : K) (L : JointLimits K) (S : SoftLimits K) (hv : 0 ≤ L.maxVelocity)
    (hP : L.hasPosition = true) (t : K) (ht : 0 < t)
    (hslow : S.kPosition * (L.maxPosition - S.maxPosition) ≤ L.maxVelocity)
    (hfar : S.maxPosition - (S.kPosition * t - 1) * (L.maxPosition - S.maxPosition) < L.minPosition) (v : Dbl K) (c : K) :
    ∃ o, posSoft (.exact huge) L.lift S.lift none ⟨some c, some L.maxPosition, v, some t⟩ = some (some o) ∧
      o ≤ S.maxPosition - (S.kPosition * t - 1) * (L.maxPosition - S.maxPosition) ∧ o < L.minPosition := by
  have h1 := (sOut_le (L := L) (S := S) (p := L.maxPosition) (c := c) ht.le hv).2.2
  have e : (sVel L S L.maxVelocity L.maxPosition).2 =
      clamp (-S.kPosition * (L.maxPosition - S.maxPosition)) (-L.maxVelocity) L.maxVelocity := by simp [sVel, hP]
  have h2 : (sVel L S L.maxVelocity L.maxPosition).2 ≤ -S.kPosition * (L.maxPosition - S.maxPosition) := by
    rw [e]
    exact (min_le_left _ _).trans (max_le le_rfl (by linarith))
  have h3 := mul_le_mul_of_nonneg_right h2 ht.le
  have h6 : -S.kPosition * (L.maxPosition - S.maxPosition) * t = -(S.kPosition * t * (L.maxPosition - S.maxPosition)) := by ring
  rw [h6] at h3
  have h4 : sOut L S L.maxPosition t c ≤ S.maxPosition - (S.kPosition * t - 1) * (L.maxPosition - S.maxPosition) := by
    linarith
  refine ⟨sOut L S L.maxPosition t c, ?_, h4, h4.trans_lt hfar⟩
  rw [posSoft_exact huge L S none _ L.maxPosition t rfl rfl ht, saturate_some]
  rfl

/-- **C40, exactly when a command is below the hard limits.** In any history, with joints, gains and periods of any kind, a command that
is a number is never written above the maximum, and below the minimum exactly if the velocity that the upper soft limit allows does not
lead the reference up to the minimum; then the position it leads to is written, whatever the command is. (Missing: the minimum itself,
see `c40_hard_limits_negation`.) -/
theorem c40_exactly_when_partial (huge : K) (L : JointLimits K) (S : SoftLimits K)
    (hP : L.hasPosition = true) (hL : L.minPosition ≤ L.maxPosition) (prev : Dbl K) (cs : List (Call (Dbl K))) :
    ∀ r ∈ posSoftRun (.exact huge) L.lift S.lift prev cs, ∀ p t c, r.ref = some p → r.input.dt = some t → r.input.cmd = some c →
      let top := p + min (max (-S.kPosition * (p - S.maxPosition)) (-L.maxVelocity)) L.maxVelocity * t
      ∃ o, r.out = some o ∧ o ≤ L.maxPosition ∧ (o < L.minPosition ↔ top < L.minPosition) ∧ (top ≤ L.minPosition → o = top) := by
  induction cs generalizing prev with
  | nil => simp [posSoftRun]
  | cons x cs ih =>
    cases x with
    | reset => simpa [posSoftRun] using ih none
    | enforce i =>
      intro r hr
      rw [posSoftRun] at hr
      cases ho : posSoft (Arith.exact huge) L.lift S.lift prev i with
      | none =>
        rw [ho] at hr
        simp at hr
      | some out =>
        rw [ho] at hr
        rcases List.mem_cons.1 hr with rfl | hr
        · intro p t c hp ht hc top
          dsimp only at hp ht hc ⊢
          have ht0 : 0 < t := by
            by_contra hno
            have e0 : dlt (some (Arith.exact huge).zero) i.dt = false := by
              rw [ht]
              exact decide_eq_false hno
            unfold posSoft at ho
            rw [e0] at ho
            simp at ho
          rw [posSoft_exact huge L S prev i p t hp ht ht0, hc, saturate_some] at ho
          have e : (sPos L S p t).2 = min top L.maxPosition := by simp [sPos, sVel, hP, top, clamp]
          have e' : L.minPosition ≤ (sPos L S p t).1 := by simp [sPos, hP]
          rw [e] at ho
          generalize top = top at ho ⊢
          have h1 : min (max c (sPos L S p t).1) (min top L.maxPosition) ≤ top := (min_le_right _ _).trans (min_le_left _ _)
          have h2 : min L.minPosition top ≤ min (max c (sPos L S p t).1) (min top L.maxPosition) :=
            le_min ((min_le_left _ _).trans (e'.trans (le_max_right _ _))) (le_min (min_le_right _ _) ((min_le_left _ _).trans hL))
          refine ⟨_, (Option.some.inj ho).symm, (min_le_right _ _).trans (min_le_right _ _), ⟨fun h => ?_, fun h => h1.trans_lt h⟩,
            fun h => ?_⟩
          · by_contra hno
            rw [min_eq_left (not_lt.1 hno)] at h2
            exact absurd h (not_lt.2 h2)
          · rw [min_eq_right h] at h2
            exact le_antisymm h1 h2
        · exact ih _ r hr

end

/-! ### Concrete cases -/

/-- Range 0 to 10, soft limits 1 and 2. -/
def exReach : JointLimits ℤ := ⟨0, 10, 100, 0, 0, true, true, false, false⟩

/-- Gain 2, period 1: the bound is -6, and it is reached. -/
example : (posSoftRun (Arith.exact 1000) exReach.lift (SoftLimits.mk 1 2 2 0 : SoftLimits ℤ).lift none
    [.enforce ⟨some 50, some 10, some 0, some 1⟩, .enforce ⟨some 50, some 9, some 0, some 1⟩]).map (·.out) =
      [some (-6), some 10] := by decide

example : ∀ r ∈ posSoftRun (Arith.exact 1000) exReach.lift (SoftLimits.mk 1 2 2 0 : SoftLimits ℤ).lift none
    [.enforce ⟨some 50, some 10, some 0, some 1⟩, .enforce ⟨some 50, some 9, some 0, some 1⟩], ∀ c, r.input.cmd = some c →
      ∃ o, r.out = some o ∧ o ≤ 10 ∧ min 0 (2 - (2 - 1) * (10 - 2)) ≤ o :=
  c40_excess_partial 1000 exReach (SoftLimits.mk 1 2 2 0) (by decide) rfl (by decide) (by decide) 2 (by decide) _
    (by simp [StartsIn, InRange, exReach]) (by
      intro i hi
      simp only [List.mem_cons, Call.enforce.injEq, List.not_mem_nil, or_false] at hi
      rcases hi with rfl | rfl <;> exact ⟨_, rfl, by decide⟩)

example (v : Dbl ℤ) (c : ℤ) : ∃ o, posSoft (.exact 1000) exReach.lift (SoftLimits.mk 1 2 2 0 : SoftLimits ℤ).lift none
    ⟨some c, some 10, v, some 1⟩ = some (some o) ∧ o ≤ 2 - (2 * 1 - 1) * (10 - 2) ∧ o < 0 :=
  c40_reached_negation 1000 exReach (SoftLimits.mk 1 2 2 0) (by decide) rfl 1 (by decide) (by decide) (by decide) v c

/-- A joint measured at -20 with the range [-10, 10] and velocity 2 is told to go to 5; and the theorem for this history. -/
example : (posSoftRun (Arith.exact 1000) exLimits.lift (SoftLimits.mk (-6) 6 1 1 : SoftLimits ℤ).lift none
    ((List.replicate 7 ⟨some 5, some (-20), some 0, some 1⟩).map .enforce)).map (·.out) =
    [some (-18), some (-16), some (-14), some (-12), some (-10), some (-8), some (-6)] := by decide

example := c40_exactly_when_partial (1000 : ℤ) exLimits ⟨-6, 6, 1, 1⟩ rfl (by decide) none
  ((List.replicate 7 ⟨some 5, some (-20), some 0, some 1⟩).map .enforce)

end Verif.Limits
