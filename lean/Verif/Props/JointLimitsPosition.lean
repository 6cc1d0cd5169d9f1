import Verif.Lemmas.JointLimitsExact
import Mathlib.Algebra.Order.Ring.Int
import Mathlib.Algebra.Order.Group.Abs

/-!
Properties C38-C40: saturation and the position limiters.
-/

namespace Verif.Limits

section C38

variable {K : Type} [LinearOrder K]

/-- **C38.** For bounds `lo ≤ hi`, saturating gives a value of `[lo, hi]`; it is the nearest one, in
the sense that it lies between the value and every point of the range; values in the range are
unchanged. -/
theorem c38_saturate (v lo hi : K) (h : lo ≤ hi) :
    ∃ s, saturate (some v) (some lo) (some hi) = some s ∧ lo ≤ s ∧ s ≤ hi ∧
      (∀ x, lo ≤ x → x ≤ hi → (v ≤ s ∧ s ≤ x) ∨ (x ≤ s ∧ s ≤ v)) ∧
      (lo ≤ v → v ≤ hi → s = v) := by
  refine ⟨_, saturate_some v lo hi, le_min (le_max_right _ _) h, min_le_right _ _, ?_,
    fun h1 h2 => clamp_of_mem h1 h2⟩
  intro x h1 h2
  rcases le_total v lo with h3 | h3
  · rw [max_eq_right h3, min_eq_left h]
    exact Or.inl ⟨h3, h1⟩
  · rw [max_eq_left h3]
    rcases le_total v hi with h4 | h4
    · rw [min_eq_left h4]
      rcases le_total v x with h5 | h5
      · exact Or.inl ⟨le_rfl, h5⟩
      · exact Or.inr ⟨h5, le_rfl⟩
    · rw [min_eq_right h4]
      exact Or.inr ⟨h2, h4⟩

/-- **C38, idempotence**, for all doubles, also if a bound is NaN or the bounds are swapped. -/
theorem c38_idempotent (v lo hi : Dbl K) : saturate (saturate v lo hi) lo hi = saturate v lo hi :=
  saturate_idem v lo hi

/-- **C38, monotone** in the value and in both bounds. -/
theorem c38_monotone (v v' lo lo' hi hi' : K) (h1 : v ≤ v') (h2 : lo ≤ lo') (h3 : hi ≤ hi') :
    ∃ s s', saturate (some v) (some lo) (some hi) = some s ∧
      saturate (some v') (some lo') (some hi') = some s' ∧ s ≤ s' :=
  ⟨_, _, saturate_some _ _ _, saturate_some _ _ _, min_le_min (max_le_max h1 h2) h3⟩

/-- **C38, outside its range of validity.** If the bounds are swapped the result is the upper
bound; NaN is passed on; NaN bounds do not bound. -/
theorem c38_degenerate (v lo hi : K) (h : hi < lo) (w lo' hi' : Dbl K) :
    saturate (some v) (some lo) (some hi) = some hi ∧ saturate none lo' hi' = (none : Dbl K) ∧
      saturate w none none = w := by
  refine ⟨?_, saturate_none _ _, saturate_nan_bounds _⟩
  rw [saturate_some, min_eq_right (h.le.trans (le_max_right _ _))]

example : saturate (some (7 : ℤ)) (some 2) (some 5) = some 5 ∧ saturate (some (3 : ℤ)) (some 2) (some 5) = some 3 ∧
    saturate (some (3 : ℤ)) (some 5) (some 2) = some 2 := by decide

end C38

section C39

variable {K : Type} [LinearOrder K] {A : Arith K} {Fin : K → Prop}

/-- **C39, for any sound arithmetic.** Consider any history of a position saturation handle: commands
(NaN or numbers), finite nonnegative periods, measured positions and resets. The limits are
consistent, and whenever the handle takes the measured position as reference (first call, after a
reset, after a NaN command) that position is a finite number in the range. Then at every call the
reference is in the range, and a command that is a number is replaced by a number that is in the range
and, with velocity limits, at most `max_velocity * period` away from the reference as computed. A
command that satisfies both already is not changed. -/
theorem c39_history_partial (hA : Sound A Fin) (L : JointLimits K)
    (hfin : Fin (range A L).1 ∧ Fin (range A L).2) (hr : (range A L).1 ≤ (range A L).2)
    (hv : L.hasVelocity = true → Fin L.maxVelocity ∧ A.zero ≤ L.maxVelocity)
    (cs : List (Call (Dbl K))) (hs : StartsIn (InRange (range A L)) true cs)
    (ht : Periods (fun t => Fin t ∧ A.zero ≤ t) cs) :
    ∀ r ∈ posSatRun A L.lift none cs, ∃ p t, r.ref = some p ∧ InRange (range A L) p ∧ r.input.dt = some t ∧
      (r.input.cmd = none → r.out = none) ∧
      ∀ c, r.input.cmd = some c → ∃ o, r.out = some o ∧ InRange (range A L) o ∧
        (L.hasVelocity = true → ∃ d, A.mul L.maxVelocity t = some d ∧ Within A p d o) ∧
        (InRange (range A L) c → (L.hasVelocity = true → ∃ d, A.mul L.maxVelocity t = some d ∧ Within A p d c) →
          o = c) := by
  rw [posSatRun_eq]
  apply runWith_inv (T := fun t => Fin t ∧ A.zero ≤ t) (Post := fun p t c o =>
      (L.hasVelocity = true → ∃ d, A.mul L.maxVelocity t = some d ∧ Within A p d o) ∧
        (InRange (range A L) c → (L.hasVelocity = true → ∃ d, A.mul L.maxVelocity t = some d ∧ Within A p d c) →
          o = c)) _ cs none (by simp) hs ht
  intro prev i p t hp hg hit htt
  exact ⟨_, rfl, posSat_step hA L hr hv prev i p t hp hg (hA.fin_between _ _ _ hfin.1 hfin.2 hg.1 hg.2) hit htt⟩

/-- **C39, every call counts**: a history has one record for each enforcement, in order. -/
theorem c39_all_calls (L : JointLimits (Dbl K)) (cs : List (Call (Dbl K))) :
    (posSatRun A L none cs).map (·.input) = inputs cs := by
  rw [posSatRun_eq]
  exact runWith_inputs cs none fun _ _ _ => by simp

/-- **C39, what the reference is.** For two calls directly after each other the reference of the
second is the command the first has written, or the measured position if that was NaN. -/
theorem c39_reference (L : JointLimits (Dbl K)) (l1 l2 : List (Call (Dbl K))) (i j : Input (Dbl K)) :
    ∃ r1 r2 m1 m2, posSatRun A L none (l1 ++ .enforce i :: .enforce j :: l2) = m1 ++ r1 :: r2 :: m2 ∧
      r1.input = i ∧ r2.input = j ∧ r2.ref = if r1.out.isNone then j.pos else r1.out := by
  rw [posSatRun_eq]
  exact runWith_pair _ none l1 l2 i j rfl fun _ _ _ => by simp

/-- **C39 does not hold for NaN.** A NaN command is written to the hardware; and if the measured
position is NaN when the handle needs it, a command outside the position limits is written. -/
theorem c39_nan_negation :
    ∃ (L : JointLimits ℤ) (pos cmd : ℤ), L.hasPosition = true ∧ L.hasVelocity = true ∧
      InRange (L.minPosition, L.maxPosition) pos ∧ ¬ InRange (L.minPosition, L.maxPosition) cmd ∧
      posSat (Arith.exact 1000) L.lift none ⟨none, some pos, some 0, some 1⟩ = none ∧
      posSat (Arith.exact 1000) L.lift none ⟨some cmd, none, some 0, some 1⟩ = some cmd := by
  refine ⟨⟨-5, 5, 2, 0, 0, true, true, false, false⟩, 3, 100, rfl, rfl, ?_, ?_, ?_, ?_⟩
  · unfold InRange; decide
  · unfold InRange; decide
  · decide
  · decide

end C39

section C39exact

variable {K : Type} [CommRing K] [LinearOrder K] [IsStrictOrderedRing K]

/-- **C39, exact arithmetic.** As above: the written command is in the range and differs from the
reference by at most `max_velocity * period`. -/
theorem c39_exact_partial (huge : K) (L : JointLimits K)
    (hr : (range (.exact huge) L).1 ≤ (range (.exact huge) L).2) (hv : L.hasVelocity = true → 0 ≤ L.maxVelocity)
    (cs : List (Call (Dbl K))) (hs : StartsIn (InRange (range (.exact huge) L)) true cs)
    (ht : Periods (fun t => 0 ≤ t) cs) :
    ∀ r ∈ posSatRun (.exact huge) L.lift none cs, ∃ p t, r.ref = some p ∧ r.input.dt = some t ∧
      ∀ c, r.input.cmd = some c → ∃ o, r.out = some o ∧ InRange (range (.exact huge) L) o ∧
        (L.hasVelocity = true → |o - p| ≤ L.maxVelocity * t) := by
  intro r hr'
  obtain ⟨p, t, h1, _, h2, _, h3⟩ := c39_history_partial (exact_sound huge) L ⟨trivial, trivial⟩ hr
    (fun h => ⟨trivial, hv h⟩) cs hs (fun i hi => by
      obtain ⟨t, e, h⟩ := ht i hi
      exact ⟨t, e, trivial, h⟩) r hr'
  refine ⟨p, t, h1, h2, fun c hc => ?_⟩
  obtain ⟨o, e, ho, hvel, _⟩ := h3 c hc
  refine ⟨o, e, ho, fun hV => ?_⟩
  obtain ⟨d, hd, x, y, hx, hy, h4, h5⟩ := hvel hV
  cases hd; cases hx; cases hy
  exact abs_le.2 ⟨by linarith, by linarith⟩

/-- The examples' limits: position in [-10, 10], velocity at most 2. -/
def exLimits : JointLimits ℤ := ⟨-10, 10, 2, 3, 8, true, true, true, true⟩

/-- A history with a reset and a NaN command. -/
def exCalls : List (Call (Dbl ℤ)) :=
  [.enforce ⟨some 50, some 7, some 0, some 1⟩, .enforce ⟨some 50, some 8, some 0, some 2⟩,
    .enforce ⟨none, some 9, some 0, some 1⟩, .enforce ⟨some (-50), some 9, some 0, some 1⟩, .reset,
    .enforce ⟨some 0, some 1, some 0, some 1⟩]

example : (posSatRun (Arith.exact 1000) exLimits.lift none exCalls).map (·.out) =
    [some 9, some 10, none, some 7, some 0] := by decide

example : StartsIn (InRange (range (Arith.exact 1000) exLimits)) true exCalls ∧
    Periods (fun t => 0 ≤ t) exCalls := by
  constructor
  · simp [exCalls, StartsIn, InRange, range, exLimits]
  · intro i hi
    simp only [exCalls, List.mem_cons, Call.enforce.injEq, List.not_mem_nil, or_false, reduceCtorEq,
      false_or] at hi
    rcases hi with rfl | rfl | rfl | rfl | rfl <;> exact ⟨_, rfl, by decide⟩

/-- Rounded arithmetic with a monotone, idempotent rounding function that keeps zero and commutes
with negation is sound; the numbers are the representable ones. -/
def Arith.rounded (rnd : K → K) (hi : ∀ x, rnd (rnd x) = rnd x) (h0 : rnd 0 = 0)
    (hneg : ∀ x, rnd (-x) = -rnd x) (huge : K) : Arith {x : K // rnd x = x} where
  add a b := some ⟨rnd (a.1 + b.1), hi _⟩
  sub a b := some ⟨rnd (a.1 - b.1), hi _⟩
  mul a b := some ⟨rnd (a.1 * b.1), hi _⟩
  neg a := ⟨-a.1, by rw [hneg, a.2]⟩
  zero := ⟨0, h0⟩
  huge := ⟨rnd huge, hi _⟩

theorem rounded_sound (rnd : K → K) (hi : ∀ x, rnd (rnd x) = rnd x) (h0 : rnd 0 = 0)
    (hneg : ∀ x, rnd (-x) = -rnd x) (hm : Monotone rnd) (huge : K) :
    Sound (Arith.rounded rnd hi h0 hneg huge) fun _ => True where
  mul_nonneg a b _ _ ha hb := by
    refine ⟨_, rfl, ?_⟩
    have ha' : (0 : K) ≤ a.1 := ha
    have hb' : (0 : K) ≤ b.1 := hb
    have := hm (mul_nonneg ha' hb')
    rw [h0] at this
    exact this
  add_ge p d _ hd := by
    refine ⟨_, rfl, ?_⟩
    have hd' : (0 : K) ≤ d.1 := hd
    have := hm (le_add_of_nonneg_right hd' : p.1 ≤ p.1 + d.1)
    rw [p.2] at this
    exact this
  sub_le p d _ hd := by
    refine ⟨_, rfl, ?_⟩
    have hd' : (0 : K) ≤ d.1 := hd
    have := hm (sub_le_self p.1 hd')
    rw [p.2] at this
    exact this
  neg_nonpos a ha := by
    have ha' : (0 : K) ≤ a.1 := ha
    exact (neg_nonpos.2 ha' : -a.1 ≤ 0)
  fin_between _ _ _ _ _ _ _ := trivial
  fin_neg _ _ := trivial
  fin_zero := trivial
  fin_huge := trivial

/-- A rounding function on the integers: multiples of ten, towards zero. -/
example : Sound (Arith.rounded (fun x : ℤ => x.tdiv 10 * 10) (by intro x; simp)
    (by decide) (by intro x; simp) 1000) fun _ => True :=
  rounded_sound _ _ _ _ (by
    intro a b h
    have : a.tdiv 10 ≤ b.tdiv 10 := Int.tdiv_le_tdiv (by decide) h
    show a.tdiv 10 * 10 ≤ b.tdiv 10 * 10
    omega) _

end C39exact

section C40

variable {K : Type} [CommRing K] [LinearOrder K] [IsStrictOrderedRing K]

/-- **C40, velocity and upper limit.** In every history of a soft position limiter (exact arithmetic,
positive periods, `max_velocity ≥ 0`) whose references taken from measurement do not exceed the
maximum, every written command that is a number is at most `max_velocity * period` away from the
reference, and does not exceed the maximum. -/
theorem c40_velocity_partial (huge : K) (L : JointLimits K) (S : SoftLimits K) (hv : 0 ≤ L.maxVelocity)
    (cs : List (Call (Dbl K)))
    (hs : StartsIn (fun p => L.hasPosition = true → p ≤ L.maxPosition) true cs)
    (ht : Periods (fun t => 0 < t) cs) :
    ∀ r ∈ posSoftRun (.exact huge) L.lift S.lift none cs, ∃ p t, r.ref = some p ∧ r.input.dt = some t ∧
      ∀ c, r.input.cmd = some c → ∃ o, r.out = some o ∧ |o - p| ≤ L.maxVelocity * t ∧
        (L.hasPosition = true → o ≤ L.maxPosition) := by
  rw [posSoftRun_eq]
  intro r hr
  obtain ⟨p, t, h1, _, h2, _, h3⟩ := runWith_inv (T := fun t : K => 0 < t)
    (Good := fun p => L.hasPosition = true → p ≤ L.maxPosition)
    (Post := fun p t _ o => |o - p| ≤ L.maxVelocity * t ∧ (L.hasPosition = true → o ≤ L.maxPosition))
    (by
      intro prev i p t hp hg hit htt
      refine ⟨_, posSoft_exact huge L S prev i p t hp hit htt, fun h => by rw [h, saturate_none], fun c hc => ?_⟩
      rw [hc, saturate_some]
      have h1 := sOut_le (L := L) (S := S) (p := p) (c := c) htt.le hv
      have h2 := le_sOut (L := L) (S := S) (p := p) (c := c) htt.le hv hg
      exact ⟨sOut L S p t c, rfl, h1.2.1, abs_le.2 ⟨by linarith, by linarith [h1.1]⟩, h1.2.1⟩)
    cs none (by simp) hs ht r hr
  refine ⟨p, t, h1, h2, fun c hc => ?_⟩
  obtain ⟨o, e, _, h⟩ := h3 c hc
  exact ⟨o, e, h⟩

/-- **C40, every call counts**: with positive periods no assertion fails, and a history has one record for
each enforcement, in order; the reference of a call directly after another is what that one has
written, or the measured position if that was NaN. -/
theorem c40_all_calls (huge : K) (L : JointLimits (Dbl K)) (S : SoftLimits (Dbl K)) (cs : List (Call (Dbl K)))
    (ht : Periods (fun t => 0 < t) cs) :
    (posSoftRun (.exact huge) L S none cs).map (·.input) = inputs cs ∧
    ∀ l1 l2 i j, cs = l1 ++ .enforce i :: .enforce j :: l2 →
      ∃ r1 r2 m1 m2, posSoftRun (.exact huge) L S none cs = m1 ++ r1 :: r2 :: m2 ∧ r1.input = i ∧ r2.input = j ∧
        r2.ref = if r1.out.isNone then j.pos else r1.out := by
  rw [posSoftRun_eq]
  have h : ∀ prev i, Call.enforce i ∈ cs → posSoft (.exact huge) L S prev i ≠ none := by
    intro prev i hi
    obtain ⟨t, e, ht0⟩ := ht i hi
    have e0 : dlt (some (Arith.exact huge).zero) i.dt = true := by
      rw [e]
      exact decide_eq_true ht0
    unfold posSoft
    rw [e0]
    simp
  exact ⟨runWith_inputs cs none h, fun l1 l2 i j e => runWith_pair cs none l1 l2 i j e h⟩

/-- **C40, hard limits.** If in addition the gain satisfies `0 ≤ k` and `k * period ≤ 1`, the soft
range is not below the hard one (`min ≤ soft_max`), and the references taken from measurement are
within the hard limits, then every written command that is a number is within the hard limits. -/
theorem c40_hard_limits_partial (huge : K) (L : JointLimits K) (S : SoftLimits K) (hv : 0 ≤ L.maxVelocity)
    (hP : L.hasPosition = true) (hL : L.minPosition ≤ L.maxPosition) (hS : L.minPosition ≤ S.maxPosition)
    (hk : 0 ≤ S.kPosition) (cs : List (Call (Dbl K)))
    (hs : StartsIn (InRange (L.minPosition, L.maxPosition)) true cs)
    (ht : Periods (fun t => 0 < t ∧ S.kPosition * t ≤ 1) cs) :
    ∀ r ∈ posSoftRun (.exact huge) L.lift S.lift none cs, ∀ c, r.input.cmd = some c →
      ∃ o, r.out = some o ∧ InRange (L.minPosition, L.maxPosition) o := by
  rw [posSoftRun_eq]
  intro r hr
  obtain ⟨p, t, h1, _, h2, _, h3⟩ := runWith_inv (T := fun t : K => 0 < t ∧ S.kPosition * t ≤ 1)
    (Good := InRange (L.minPosition, L.maxPosition)) (Post := fun _ _ _ _ => True)
    (by
      intro prev i p t hp hg hit htt
      refine ⟨_, posSoft_exact huge L S prev i p t hp hit htt.1, fun h => by rw [h, saturate_none], fun c hc => ?_⟩
      rw [hc, saturate_some]
      have h1 := sOut_le (L := L) (S := S) (p := p) (c := c) htt.1.le hv
      have h2 := min_le_sOut (L := L) (S := S) (p := p) (c := c) htt.1.le hv hk htt.2 hP hL hS hg.1
      exact ⟨sOut L S p t c, rfl, ⟨h2, h1.2.1 hP⟩, trivial⟩)
    cs none (by simp) hs ht r hr
  intro c hc
  obtain ⟨o, e, h, _⟩ := h3 c hc
  exact ⟨o, e, h⟩

/-- **C40, pulling back.** Beyond a soft limit the written command is nearer to the soft range than
the reference by at least the speed `min (k * distance) max_velocity` (below the soft range: unless
the hard maximum is in the way). -/
theorem c40_pulls_back (huge : K) (L : JointLimits K) (S : SoftLimits K) (hv : 0 ≤ L.maxVelocity)
    (hP : L.hasPosition = true) (hk : 0 ≤ S.kPosition) (hS : S.minPosition ≤ S.maxPosition)
    (prev : Dbl K) (i : Input (Dbl K)) (p t c : K) (hp : (if prev.isNone then i.pos else prev) = some p)
    (ht : i.dt = some t) (ht0 : 0 < t) (hc : i.cmd = some c) :
    ∃ o, posSoft (.exact huge) L.lift S.lift prev i = some (some o) ∧
      (S.maxPosition ≤ p → o ≤ p - min (S.kPosition * (p - S.maxPosition)) L.maxVelocity * t) ∧
      (p ≤ S.minPosition →
        min (p + min (S.kPosition * (S.minPosition - p)) L.maxVelocity * t) L.maxPosition ≤ o) := by
  refine ⟨sOut L S p t c, ?_, fun h => sOut_pull_down ht0.le hv hP hk h,
    fun h => sOut_pull_up ht0.le hv hP hk hS h⟩
  rw [posSoft_exact huge L S prev i p t hp ht ht0, hc, saturate_some]
  rfl

/-- **C40 does not hold in full.** With consistent limits (soft range inside the hard one, nonnegative
gain) and a reference within the hard limits, a large product of gain and period makes the limiter
write a command below the hard minimum, whatever the command was. -/
theorem c40_hard_limits_negation :
    ∃ (L : JointLimits ℤ) (S : SoftLimits ℤ) (pos dt : ℤ), L.hasPosition = true ∧ posSoftOk L.lift = true ∧
      0 < dt ∧ 0 ≤ S.kPosition ∧ 0 ≤ L.maxVelocity ∧ L.minPosition ≤ S.minPosition ∧
      S.minPosition ≤ S.maxPosition ∧ S.maxPosition ≤ L.maxPosition ∧
      InRange (L.minPosition, L.maxPosition) pos ∧
      ∀ cmd : ℤ, ∃ o, posSoft (Arith.exact 1000) L.lift S.lift none ⟨some cmd, some pos, some 0, some dt⟩ =
        some (some o) ∧ o < L.minPosition := by
  refine ⟨⟨0, 10, 100, 0, 0, true, true, false, false⟩, ⟨1, 2, 2, 0⟩, 10, 1, rfl, rfl, by decide, by decide,
    by decide, by decide, by decide, by decide, ⟨by decide, by decide⟩, fun cmd => ?_⟩
  refine ⟨_, (posSoft_exact 1000 _ _ none _ 10 1 rfl rfl (by decide)).trans
    (congrArg some (saturate_some _ _ _)), (min_le_right _ _).trans_lt (by decide)⟩

example : StartsIn (InRange ((-10 : ℤ), 10)) true exCalls ∧ Periods (fun t => 0 < t ∧ (0 : ℤ) * t ≤ 1) exCalls := by
  constructor
  · simp [exCalls, StartsIn, InRange]
  · intro i hi
    simp only [exCalls, List.mem_cons, Call.enforce.injEq, List.not_mem_nil, or_false, reduceCtorEq,
      false_or] at hi
    rcases hi with rfl | rfl | rfl | rfl | rfl <;> exact ⟨_, rfl, by decide⟩

/-- Gain 1, period 1: the command is kept in range and led back below the soft limit 6. -/
example : (posSoftRun (Arith.exact 1000) exLimits.lift (SoftLimits.mk (-6) 6 1 0 : SoftLimits ℤ).lift none
    [.enforce ⟨some 50, some 9, some 0, some 1⟩, .enforce ⟨some 50, some 9, some 0, some 1⟩,
      .enforce ⟨some 50, some 9, some 0, some 1⟩]).map (·.out) = [some 7, some 6, some 6] := by decide

end C40

end Verif.Limits
