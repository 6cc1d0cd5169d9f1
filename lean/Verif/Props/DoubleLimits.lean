import Verif.Lemmas.Double
import Verif.Lemmas.JointLimitsRegular
import Verif.Props.JointLimitsVelocity

/-!
Properties C39, C40 and C42-C44 for the arithmetic of `double`, with rounding, overflow and subnormal numbers.
Limits, measured values and commands are doubles; the position limits hold without any tolerance, the limits on
changes with the bounds as they are computed.
-/

namespace Verif.Limits

/-- The arithmetic of `double`. -/
def double (R : Rounding binary64) : Arith (Fl binary64) := .ieee R (by decide)

theorem double_regular (R : Rounding binary64) : Regular (double R) Fl.Fin := ieee_regular R (by decide)

/-- **C39 for doubles.** As `c39_history_partial`, for every way to round to nearest: commands stay within the position
range exactly, and within the velocity limits as computed. -/
theorem c39_double_partial (R : Rounding binary64) (L : JointLimits (Fl binary64))
    (hfin : L.hasPosition = true → L.minPosition.Fin ∧ L.maxPosition.Fin ∧ L.minPosition ≤ L.maxPosition)
    (hv : L.hasVelocity = true → L.maxVelocity.Fin ∧ 0 ≤ L.maxVelocity.1)
    (cs : List (Call (Dbl (Fl binary64)))) (hs : StartsIn (InRange (range (double R) L)) true cs)
    (ht : Periods (fun t => t.Fin ∧ 0 ≤ t.1) cs) :
    ∀ r ∈ posSatRun (double R) L.lift none cs, ∃ p t, r.ref = some p ∧ r.input.dt = some t ∧
      ∀ c, r.input.cmd = some c → ∃ o, r.out = some o ∧ o.Fin ∧
        (L.hasPosition = true → L.minPosition.1 ≤ o.1 ∧ o.1 ≤ L.maxPosition.1) ∧
        (L.hasVelocity = true → (R.rnd (L.maxVelocity.1 * t.1)).Fin → (R.rnd (p.1 - (R.rnd (L.maxVelocity.1 * t.1)).1)).1 ≤ o.1 ∧
          o.1 ≤ (R.rnd (p.1 + (R.rnd (L.maxVelocity.1 * t.1)).1)).1) := by
  have hA := (double_regular R).toSound
  have hr : Fl.Fin (range (double R) L).1 ∧ Fl.Fin (range (double R) L).2 ∧ (range (double R) L).1 ≤ (range (double R) L).2 := by
    unfold range
    by_cases h : L.hasPosition = true
    · rw [if_pos h]; exact hfin h
    · rw [if_neg h]
      refine ⟨hA.fin_neg _ hA.fin_huge, hA.fin_huge, ?_⟩
      have h0 : (double R).zero ≤ (double R).huge := by
        show (0 : ℚ) ≤ Format.max _
        unfold Format.max
        have : (1 : ℚ) ≤ 2 ^ binary64.prec := one_le_pow₀ (by norm_num)
        have h2 : (0 : ℚ) < 2 ^ binary64.emax := by positivity
        exact mul_nonneg (by linarith) h2.le
      exact (hA.neg_nonpos _ h0).trans h0
  intro r hr'
  obtain ⟨p, t, h1, hp, h2, _, h3⟩ := c39_history_partial hA L ⟨hr.1, hr.2.1⟩ hr.2.2 hv cs hs ht r hr'
  refine ⟨p, t, h1, h2, fun c hc => ?_⟩
  obtain ⟨o, e, ho, hvel, _⟩ := h3 c hc
  have fp : p.Fin := hA.fin_between _ _ _ hr.1 hr.2.1 hp.1 hp.2
  refine ⟨o, e, hA.fin_between _ _ _ hr.1 hr.2.1 ho.1 ho.2, fun hP => ?_, fun hV hdf => ?_⟩
  · have e : range (double R) L = (L.minPosition, L.maxPosition) := by unfold range; rw [if_pos hP]
    rw [e] at ho
    exact ho
  · obtain ⟨d, hd, x, y, hx, hy, h4, h5⟩ := hvel hV
    have ft : t.Fin := by
      have hin : Call.enforce r.input ∈ cs := by
        have := c39_all_calls (A := double R) L.lift cs
        have hm : r.input ∈ inputs cs := by rw [← this]; exact List.mem_map_of_mem hr'
        obtain ⟨cl, hcl, he⟩ := List.mem_filterMap.1 hm
        cases cl with
        | enforce i => cases he; exact hcl
        | reset => cases he
      obtain ⟨t', e', hf, _⟩ := ht r.input hin
      rw [h2] at e'; cases e'
      exact hf
    have ed : d = R.rnd (L.maxVelocity.1 * t.1) := by
      have hd : Fl.mul R L.maxVelocity t = some d := hd
      unfold Fl.mul at hd
      rw [Fl.isInf_false (hv hV).1, Fl.isInf_false ft] at hd
      simpa using hd.symm
    have hx : Fl.add R p (Fl.neg d) = some x := hx
    have hy : Fl.add R p d = some y := hy
    have key : ∀ (q z : Fl binary64), Fl.add R p q = some z → q.isInf = true ∨ z = R.rnd (p.1 + q.1) := by
      intro q z hz
      obtain ⟨z', hz', h⟩ := Fl.add_fin R fp q
      rw [hz] at hz'; cases hz'
      rcases h with ⟨h, _⟩ | ⟨_, h⟩
      · exact Or.inl h
      · exact Or.inr h
    have hi : ¬ d.isInf = true := by rw [ed, Fl.isInf_iff]; exact fun hh => hh hdf
    have hx' := (key _ _ hx).resolve_left (by rw [Fl.isInf_neg]; exact hi)
    have hy' := (key _ _ hy).resolve_left hi
    rw [hx', Fl.neg_val, ← sub_eq_add_neg] at h4
    rw [hy'] at h5
    rw [ed] at h4 h5
    exact ⟨h4, h5⟩

/-- **C40 for doubles.** One call of a soft position limiter with a finite reference (the previous command, or the
measured position) that does not exceed the maximum. The written command lies between the positions reached
with `-max_velocity` and `max_velocity`, as computed, and does not exceed the maximum. It does not lead further
out from a reference at or beyond a soft limit. -/
theorem c40_double_partial (R : Rounding binary64) (L : JointLimits (Fl binary64)) (S : SoftLimits (Fl binary64))
    (hv : L.maxVelocity.Fin ∧ 0 ≤ L.maxVelocity.1)
    (hS : L.hasPosition = true → S.minPosition.Fin ∧ S.maxPosition.Fin ∧ S.kPosition.Fin ∧ 0 < S.kPosition.1)
    (prev : Dbl (Fl binary64)) (i : Input (Dbl (Fl binary64))) (p t c : Fl binary64)
    (hp : (if prev.isNone then i.pos else prev) = some p) (hfp : p.Fin) (hmax : L.hasPosition = true → p ≤ L.maxPosition)
    (ht : i.dt = some t) (hft : t.Fin) (ht0 : 0 < t.1) (hc : i.cmd = some c) :
    ∃ o x y low high, posSoft (double R) L.lift S.lift prev i = some (some o) ∧
      (double R).mul ((double R).neg L.maxVelocity) t = some x ∧ (double R).mul L.maxVelocity t = some y ∧
      (double R).add p x = some low ∧ (double R).add p y = some high ∧ low.1 ≤ o.1 ∧ o.1 ≤ high.1 ∧
      (L.hasPosition = true → o.1 ≤ L.maxPosition.1 ∧ (S.maxPosition.1 ≤ p.1 → o.1 ≤ p.1) ∧
        (p.1 ≤ S.minPosition.1 → S.minPosition.1 ≤ S.maxPosition.1 → p.1 ≤ o.1)) :=
  posSoft_regular (double_regular R) L S hv (fun h => ⟨(hS h).1, (hS h).2.1, (hS h).2.2.1, (hS h).2.2.2⟩) prev i p t c hp hfp hmax
    ht hft ht0 hc

/-- **C42 for doubles.** The effort is at most `max_effort` in size, does not accelerate a joint at or above the velocity
limit, and does not push a joint outward that is at or beyond a soft limit and not moving back. -/
theorem c42_double_partial (R : Rounding binary64) (L : JointLimits (Fl binary64)) (S : SoftLimits (Fl binary64))
    (hv : L.maxVelocity.Fin ∧ 0 ≤ L.maxVelocity.1) (he : 0 ≤ L.maxEffort.1)
    (hS : L.hasPosition = true → S.minPosition.Fin ∧ S.maxPosition.Fin ∧ S.kPosition.Fin ∧ 0 < S.kPosition.1)
    (hk : S.kVelocity.Fin ∧ 0 < S.kVelocity.1) (i : Input (Dbl (Fl binary64))) (x v c : Fl binary64) (hx : i.pos = some x)
    (hfx : L.hasPosition = true → x.Fin) (hvv : i.vel = some v) (hfv : v.Fin) (hc : i.cmd = some c) :
    ∃ e, effSoft (double R) L.lift S.lift i = some e ∧ |e.1| ≤ L.maxEffort.1 ∧
      (L.maxVelocity.1 ≤ v.1 → e.1 ≤ 0) ∧ (v.1 ≤ -L.maxVelocity.1 → 0 ≤ e.1) ∧
      (L.hasPosition = true → (S.maxPosition.1 ≤ x.1 → 0 ≤ v.1 → e.1 ≤ 0) ∧
        (x.1 ≤ S.minPosition.1 → S.minPosition.1 ≤ S.maxPosition.1 → v.1 ≤ 0 → 0 ≤ e.1)) := by
  obtain ⟨e, h1, h2, h3, h4⟩ := effSoft_regular (double_regular R) L S hv he
    (fun h => ⟨(hS h).1, (hS h).2.1, (hS h).2.2.1, (hS h).2.2.2⟩) hk i x v c hx hfx hvv hfv hc
  exact ⟨e, h1, abs_le.2 ⟨h2, h3⟩, h4⟩

/-- **C43 for doubles.** As `c43_history_partial`: all commands written stay within the velocity limits exactly, and within
the acceleration limits as computed. -/
theorem c43_double_partial (R : Rounding binary64) (L : JointLimits (Fl binary64)) (hV : L.maxVelocity.Fin ∧ 0 ≤ L.maxVelocity.1)
    (ha : L.hasAcceleration = true → L.maxAcceleration.Fin ∧ 0 ≤ L.maxAcceleration.1)
    (is : List (Input (Dbl (Fl binary64))))
    (hi : ∀ i ∈ is, (∃ c, i.cmd = some c) ∧ ∃ t, i.dt = some t ∧ t.Fin ∧ 0 < t.1) :
    let rs := velSatRun (double R) L.lift (some (double R).zero) is
    rs.map (·.input) = is ∧ ∀ r ∈ rs, ∃ p t o, r.ref = some p ∧ r.input.dt = some t ∧ r.out = some o ∧
      |o.1| ≤ L.maxVelocity.1 ∧
      (L.hasAcceleration = true → ∃ d, (double R).mul L.maxAcceleration t = some d ∧ Within (double R) p d o) := by
  intro rs
  have h := c43_history_partial (double_regular R).toSound L hV ha is hi
  refine ⟨h.1, fun r hr => ?_⟩
  obtain ⟨p, c, t, o, h1, _, h3, h4, h5, h6, _⟩ := h.2.2 r hr
  exact ⟨p, t, o, h1, h3, h4, abs_le.2 h5, h6⟩

/-- **C44 for doubles.** The velocity does not exceed the limit, is not positive at or beyond the upper soft limit, and with
acceleration limits exceeds the measured velocity by at most `max_acceleration * period` as computed. It is not
below the negative limit (not negative at or beyond the lower soft limit) if there are no acceleration limits or the
measured velocity is not below that limit (not negative) either. -/
theorem c44_double_partial (R : Rounding binary64) (L : JointLimits (Fl binary64)) (S : SoftLimits (Fl binary64))
    (hV : L.hasVelocity = true ∧ 0 ≤ L.maxVelocity.1)
    (hS : L.hasPosition = true → S.minPosition.Fin ∧ S.maxPosition.Fin ∧ S.kPosition.Fin ∧ 0 < S.kPosition.1)
    (i : Input (Dbl (Fl binary64))) (x v t c : Fl binary64) (hx : i.pos = some x) (hfx : L.hasPosition = true → x.Fin)
    (hvv : i.vel = some v) (ht : i.dt = some t) (hc : i.cmd = some c)
    (ha : L.hasAcceleration = true → v.Fin ∧ L.maxAcceleration.Fin ∧ t.Fin ∧ 0 ≤ L.maxAcceleration.1 ∧ 0 ≤ t.1) :
    ∃ o, velSoft (double R) L.lift S.lift i = some o ∧ o.1 ≤ L.maxVelocity.1 ∧
      ((L.hasAcceleration = true → -L.maxVelocity.1 ≤ v.1) → -L.maxVelocity.1 ≤ o.1) ∧
      (L.hasPosition = true → (S.maxPosition.1 ≤ x.1 → o.1 ≤ 0) ∧
        (x.1 ≤ S.minPosition.1 → S.minPosition.1 ≤ S.maxPosition.1 → (L.hasAcceleration = true → 0 ≤ v.1) → 0 ≤ o.1)) ∧
      (L.hasAcceleration = true → ∃ d y, (double R).mul L.maxAcceleration t = some d ∧ (double R).add v d = some y ∧ o.1 ≤ y.1) :=
  velSoft_regular (double_regular R) L S (V := L.maxVelocity) (by rw [hV.1]; rfl) hV.2
    (fun h => ⟨(hS h).1, (hS h).2.1, (hS h).2.2.1, (hS h).2.2.2⟩) i x v t c hx hfx hvv ht hc ha

/-! ### Examples -/

/-- An integer as a double. -/
def Fl.int (m : ℤ) (h : |m| < 2 ^ 53) : Fl binary64 := ⟨m, Or.inl ⟨m, 0, h, by decide, by decide, by simp⟩⟩

theorem Fl.int_fin (m : ℤ) (h : |m| < 2 ^ 53) : (Fl.int m h).Fin :=
  (Fl.fin_iff _).2 ⟨m, 0, h, by decide, by decide, by simp [Fl.int]⟩

/-- Limits: position in [-10, 10], velocity at most 2, acceleration at most 3, effort at most 8. -/
def exDouble : JointLimits (Fl binary64) :=
  ⟨.int (-10) (by decide), .int 10 (by decide), .int 2 (by decide), .int 3 (by decide), .int 8 (by decide), true, true, true, true⟩

/-- Soft limits inside. -/
def exDoubleSoft : SoftLimits (Fl binary64) :=
  ⟨.int (-6) (by decide), .int 6 (by decide), .int 1 (by decide), .int 1 (by decide)⟩

/-- Two calls, the second with NaN, then a reset and another call. -/
def exDoubleCalls : List (Call (Dbl (Fl binary64))) :=
  [.enforce ⟨some (.int 50 (by decide)), some (.int 7 (by decide)), some (.int 0 (by decide)), some (.int 1 (by decide))⟩,
    .enforce ⟨none, some (.int 8 (by decide)), some (.int 0 (by decide)), some (.int 1 (by decide))⟩, .reset,
    .enforce ⟨some (.int (-50) (by decide)), some (.int 9 (by decide)), some (.int 0 (by decide)), some (.int 1 (by decide))⟩]

theorem int_val {m : ℤ} {h : |m| < 2 ^ 53} : (Fl.int m h).1 = (m : ℚ) := rfl

/-- There is a way to round, and the history meets the conditions of C39. -/
example : ∃ R : Rounding binary64, StartsIn (InRange (range (double R) exDouble)) true exDoubleCalls ∧
    Periods (fun t => t.Fin ∧ 0 ≤ t.1) exDoubleCalls ∧ exDouble.minPosition.Fin ∧ exDouble.maxPosition.Fin ∧
    exDouble.minPosition ≤ exDouble.maxPosition ∧ exDouble.maxVelocity.Fin ∧ 0 ≤ exDouble.maxVelocity.1 := by
  obtain ⟨R⟩ := exists_rounding binary64 (by decide)
  have cmp : ∀ {a b : ℤ} (ha : |a| < 2 ^ 53) (hb : |b| < 2 ^ 53), a ≤ b → Fl.int a ha ≤ Fl.int b hb := by
    intro a b ha hb h
    show ((a : ℤ) : ℚ) ≤ (b : ℚ)
    exact_mod_cast h
  refine ⟨R, ?_, ?_, Fl.int_fin _ (by decide), Fl.int_fin _ (by decide), cmp (by decide) (by decide) (by decide), Fl.int_fin _ (by decide), ?_⟩
  · have r1 : ∀ m (h : |m| < 2 ^ 53), -10 ≤ m → m ≤ 10 → InRange (range (double R) exDouble) (Fl.int m h) :=
      fun m h h1 h2 => ⟨cmp (by decide) h h1, cmp h (by decide) h2⟩
    have r2 := r1 7 (by decide) (by decide) (by decide)
    have r3 := r1 9 (by decide) (by decide) (by decide)
    simp [exDoubleCalls, StartsIn, r2, r3]
  · intro i hi
    simp only [exDoubleCalls, List.mem_cons, Call.enforce.injEq, List.not_mem_nil, or_false, reduceCtorEq, false_or] at hi
    rcases hi with rfl | rfl | rfl <;> exact ⟨_, rfl, Fl.int_fin _ (by decide), by rw [int_val]; norm_num⟩
  · show (0 : ℚ) ≤ ((2 : ℤ) : ℚ)
    norm_num

/-- The soft limits meet the conditions of C40, C42 and C44. -/
example : exDoubleSoft.minPosition.Fin ∧ exDoubleSoft.maxPosition.Fin ∧ exDoubleSoft.kPosition.Fin ∧ 0 < exDoubleSoft.kPosition.1 ∧
    exDoubleSoft.kVelocity.Fin ∧ 0 < exDoubleSoft.kVelocity.1 := by
  have h : (0 : ℚ) < ((1 : ℤ) : ℚ) := by norm_num
  exact ⟨Fl.int_fin _ (by decide), Fl.int_fin _ (by decide), Fl.int_fin _ (by decide), h, Fl.int_fin _ (by decide), h⟩

end Verif.Limits
