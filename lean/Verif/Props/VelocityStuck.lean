import Verif.Lemmas.DoubleError
import Verif.Props.DoubleLimits

/-!
Property C43, continued, for doubles: after a NaN command and a command of large absolute value a velocity saturation handle can be
stuck for ever, because the maximal acceleration is lost in rounding.
-/

namespace Verif.Limits

theorem inf_eq : binary64.inf = 2 ^ (1024 : ℤ) := by
  rw [show (1024 : ℤ) = 53 + 971 by norm_num, zpow_add₀ (by norm_num)]
  rfl

/-- Adding a number to one more than `2 ^ 54` times as large does not change the latter. -/
theorem add_absorbed (R : Rounding binary64) (p d : Fl binary64) (hp : p.Fin) (hd : d.Fin) (lo : ℤ)
    (h1 : 2 ^ (lo + 1) ≤ |p.1|) (h2 : |d.1| ≤ 2 ^ (lo - 54)) : (double R).add p d = some p := by
  have hadd : (double R).add p d = some (R.rnd (p.1 + d.1)) := by
    show Fl.add R p d = _
    unfold Fl.add
    rw [Fl.isInf_false hp, Fl.isInf_false hd]
    simp
  rw [hadd]
  congr 1
  generalize hr : R.rnd (p.1 + d.1) = r
  have hn := R.nearest (p.1 + d.1) p
  rw [hr, show p.1 + d.1 - p.1 = d.1 by ring] at hn
  have hq : (0 : ℚ) < 2 ^ (lo - 54) := by positivity
  have e53 : (2 : ℚ) ^ (lo - 52) = 4 * 2 ^ (lo - 54) := by
    rw [show lo - 52 = 2 + (lo - 54) by ring, zpow_add₀ (by norm_num)]
    norm_num
  have elo : (2 : ℚ) ^ lo = 2 ^ 54 * 2 ^ (lo - 54) := by
    rw [← zpow_natCast, ← zpow_add₀ (by norm_num)]
    congr 1
    push_cast
    ring
  have elo1 : (2 : ℚ) ^ (lo + 1) = 2 * 2 ^ lo := by rw [zpow_add₀ (by norm_num)]; norm_num; ring
  have hdist : |r.1 - p.1| ≤ 2 * 2 ^ (lo - 54) := by
    have : r.1 - p.1 = d.1 - (p.1 + d.1 - r.1) := by ring
    rw [this]
    refine (abs_sub _ _).trans ?_
    linarith
  have hrl : (2 : ℚ) ^ lo ≤ |r.1| := by
    have := abs_sub_abs_le_abs_sub p.1 r.1
    rw [abs_sub_comm] at this
    nlinarith
  have hpl : (2 : ℚ) ^ lo ≤ |p.1| := by nlinarith
  obtain ⟨n, hn'⟩ : ∃ n : ℤ, p.1 = n * 2 ^ (lo - 52) := by
    obtain ⟨n, h⟩ := Format.multiple ((Fl.fin_iff p).1 hp) hpl
    exact ⟨n, by rw [h, show lo - ((binary64.prec : ℕ) : ℤ) + 1 = lo - 52 by simp only [binary64]; push_cast; ring]⟩
  have hlo : lo ≤ 1023 := by
    have h3 : (2 : ℚ) ^ lo < 2 ^ (1024 : ℤ) := by
      refine hpl.trans_lt (lt_of_lt_of_le hp ?_)
      rw [inf_eq]
    have := (zpow_lt_zpow_iff_right₀ (by norm_num : (1 : ℚ) < 2)).1 h3
    omega
  obtain ⟨m, hm⟩ : ∃ m : ℤ, r.1 = m * 2 ^ (lo - 52) := by
    rcases r.2 with h | h
    · obtain ⟨n, h⟩ := Format.multiple h hrl
      exact ⟨n, by rw [h, show lo - ((binary64.prec : ℕ) : ℤ) + 1 = lo - 52 by simp only [binary64]; push_cast; ring]⟩
    · obtain ⟨k, hk⟩ := Int.eq_ofNat_of_zero_le (show 0 ≤ 1024 - (lo - 52) by omega)
      have hinf : binary64.inf = ((2 ^ k : ℤ) : ℚ) * 2 ^ (lo - 52) := by
        push_cast
        rw [← zpow_natCast, ← zpow_add₀ (by norm_num), show ((k : ℕ) : ℤ) + (lo - 52) = 1024 by
          have : ((k : ℕ) : ℤ) = 1024 - (lo - 52) := hk.symm
          omega]
        exact inf_eq
      rcases abs_choice r.1 with e | e
      · exact ⟨2 ^ k, by rw [← hinf, ← h, e]⟩
      · refine ⟨-(2 ^ k), ?_⟩
        rw [e] at h
        rw [Int.cast_neg, neg_mul, ← hinf, ← h, neg_neg]
  have hmn : m = n := by
    rw [hm, hn', ← sub_mul, abs_mul, abs_of_pos (by positivity : (0 : ℚ) < 2 ^ (lo - 52)), e53] at hdist
    have h3 : |((m - n : ℤ) : ℚ)| < 1 := by
      push_cast
      by_contra hno
      have : (1 : ℚ) * (4 * 2 ^ (lo - 54)) ≤ |(m : ℚ) - n| * (4 * 2 ^ (lo - 54)) :=
        mul_le_mul_of_nonneg_right (not_lt.1 hno) (by positivity)
      linarith
    have h4 : |m - n| < 1 := by exact_mod_cast h3
    have := Int.abs_lt_one_iff.1 h4
    omega
  exact Subtype.ext (by rw [hm, hn', hmn])

/-- One call that does not change a velocity below the limit. -/
theorem velSat_stuck (R : Rounding binary64) (L : JointLimits (Fl binary64)) (hV : 0 ≤ L.maxVelocity.1)
    (ha : L.hasAcceleration = true) (i : Input (Dbl (Fl binary64))) (p c t d : Fl binary64) (hp : p.Fin)
    (hpV : p.1 ≤ -L.maxVelocity.1) (hc : i.cmd = some c) (ht : i.dt = some t) (h0 : 0 < t.1)
    (hd : (double R).mul L.maxAcceleration t = some d) (hpd : (double R).add p d = some p) :
    velSat (double R) L.lift (some p) i = some (some p) := by
  have h' : L.lift.hasAcceleration = true := ha
  have e0 : dlt (some (double R).zero) i.dt = true := by
    rw [ht]
    exact decide_eq_true h0
  obtain ⟨x, hx, -⟩ := Fl.add_fin R hp (Fl.neg d)
  have e1 : (double R).dmul L.lift.maxAcceleration i.dt = some d := by rw [ht]; exact hd
  have e2 : (double R).dsub (some p) (some d) = some x := hx
  have e3 : (double R).dadd (some p) (some d) = some p := hpd
  have e4 : (double R).dneg L.lift.maxVelocity = some (Fl.neg L.maxVelocity) := rfl
  have e5 : L.lift.maxVelocity = some L.maxVelocity := rfl
  unfold velSat
  rw [if_pos h', e0]
  simp only [Bool.not_true, Bool.false_eq_true, if_false, e1, e2, e3, e4]
  rw [hc, e5, dmax_some, dmin_some, saturate_some]
  have k1 : p ≤ Fl.neg L.maxVelocity := hpV
  have k2 : p ≤ L.maxVelocity := show p.1 ≤ L.maxVelocity.1 by linarith
  rw [min_eq_left k2, min_eq_right (k1.trans ((le_max_right _ _).trans (le_max_right _ _)))]

/-- **C43, in doubles a NaN command can do harm for ever.** For all limits with acceleration limits: after one NaN command and one
command `c` below `-max_velocity` that is more than `2 ^ 54` times as large as the change the maximal acceleration allows, the handle
writes `c` in every further call, whatever is commanded and however often. -/
theorem c43_forever_negation (R : Rounding binary64) (L : JointLimits (Fl binary64)) (hV : 0 ≤ L.maxVelocity.1)
    (ha : L.hasAcceleration = true) (lo : ℤ) (p c : Fl binary64) (hc : c.Fin) (hcV : c.1 < -L.maxVelocity.1)
    (hlo : 2 ^ (lo + 1) ≤ |c.1|) (nan first : Input (Dbl (Fl binary64))) (is : List (Input (Dbl (Fl binary64))))
    (hn : nan.cmd = none ∧ ∃ t, nan.dt = some t ∧ 0 < t.1) (hf : first.cmd = some c ∧ ∃ t, first.dt = some t ∧ 0 < t.1)
    (hi : ∀ i ∈ is, (∃ c', i.cmd = some c') ∧ ∃ t d, i.dt = some t ∧ 0 < t.1 ∧
      (double R).mul L.maxAcceleration t = some d ∧ d.Fin ∧ |d.1| ≤ 2 ^ (lo - 54)) :
    (velSatRun (double R) L.lift (some p) (nan :: first :: is)).map (·.out) = none :: some c :: List.replicate is.length (some c) := by
  have h' : L.lift.hasAcceleration = true := ha
  have h1 : velSat (double R) L.lift (some p) nan = some none := by
    obtain ⟨t, ht, h0⟩ := hn.2
    have e0 : dlt (some (double R).zero) nan.dt = true := by
      rw [ht]
      exact decide_eq_true h0
    unfold velSat
    rw [if_pos h', e0]
    simp [hn.1, saturate_none]
  have h2 : velSat (double R) L.lift none first = some (some c) := by
    obtain ⟨t, ht, h0⟩ := hf.2
    have e0 : dlt (some (double R).zero) first.dt = true := by
      rw [ht]
      exact decide_eq_true h0
    have e1 : (double R).dsub none ((double R).dmul L.lift.maxAcceleration first.dt) = none := rfl
    have e2 : (double R).dadd none ((double R).dmul L.lift.maxAcceleration first.dt) = none := rfl
    have e3 (y : Dbl (Fl binary64)) : dmax none y = none := rfl
    have e4 (y : Dbl (Fl binary64)) : dmin none y = none := by cases y <;> rfl
    unfold velSat
    rw [if_pos h', e0]
    simp only [Bool.not_true, Bool.false_eq_true, if_false, e1, e2, e3, e4]
    rw [saturate_nan_bounds, hf.1]
  have h3 : ∀ is : List (Input (Dbl (Fl binary64))), (∀ i ∈ is, (∃ c', i.cmd = some c') ∧ ∃ t d, i.dt = some t ∧ 0 < t.1 ∧
      (double R).mul L.maxAcceleration t = some d ∧ d.Fin ∧ |d.1| ≤ 2 ^ (lo - 54)) →
      (velSatRun (double R) L.lift (some c) is).map (·.out) = List.replicate is.length (some c) := by
    intro is
    induction is with
    | nil => intro _; simp [velSatRun]
    | cons i is ih =>
      intro hi
      obtain ⟨⟨c', hc'⟩, t, d, ht, h0, hd, hdf, hd2⟩ := hi i (by simp)
      rw [velSatRun, velSat_stuck R L hV ha i c c' t d hc hcV.le hc' ht h0 hd (add_absorbed R c d hc hdf lo hlo hd2)]
      simp only [List.map_cons, List.length_cons, List.replicate_succ]
      rw [ih fun j hj => hi j (by simp [hj])]
  rw [velSatRun, h1]
  simp only [List.map_cons]
  rw [velSatRun, h2]
  simp only [List.map_cons]
  rw [h3 is hi]

/-! ### A concrete case -/

/-- `-2 ^ 70` as a double. -/
def exFar : Fl binary64 := ⟨-2 ^ 70, Or.inl ⟨-1, 70, by decide, by decide, by decide, by norm_num⟩⟩

theorem exFar_fin : exFar.Fin := (Fl.fin_iff _).2 ⟨-1, 70, by decide, by decide, by decide, by simp [exFar]⟩

/-- Maximal velocity 2 and acceleration 3, periods of one second: after NaN and `-2 ^ 70` a million commands to stop are ignored. -/
example (R : Rounding binary64) : (velSatRun (double R) exDouble.lift (some (double R).zero)
    (⟨none, none, none, some (.int 1 (by decide))⟩ :: ⟨some exFar, none, none, some (.int 1 (by decide))⟩ ::
      List.replicate 1000000 ⟨some (.int 0 (by decide)), none, none, some (.int 1 (by decide))⟩)).map (·.out) =
    none :: some exFar :: List.replicate 1000000 (some exFar) := by
  have hd : (double R).mul exDouble.maxAcceleration (.int 1 (by decide)) = some (.int 3 (by decide)) := by
    show Fl.mul R (.int 3 (by decide)) (.int 1 (by decide)) = _
    unfold Fl.mul
    rw [Fl.isInf_false (Fl.int_fin _ _), Fl.isInf_false (Fl.int_fin _ _)]
    have : (Fl.int 3 (by decide)).1 * (Fl.int 1 (by decide)).1 = (Fl.int 3 (by decide)).1 := by simp [Fl.int]
    rw [this, R.id]
    rfl
  have h := c43_forever_negation R exDouble (by show (0 : ℚ) ≤ ((2 : ℤ) : ℚ); norm_num) rfl 69 (double R).zero exFar exFar_fin
    (by show (-2 ^ 70 : ℚ) < -((2 : ℤ) : ℚ); norm_num) (by simp [exFar])
    ⟨none, none, none, some (.int 1 (by decide))⟩ ⟨some exFar, none, none, some (.int 1 (by decide))⟩
    (List.replicate 1000000 ⟨some (.int 0 (by decide)), none, none, some (.int 1 (by decide))⟩)
    ⟨rfl, _, rfl, by simp [Fl.int]⟩ ⟨rfl, _, rfl, by simp [Fl.int]⟩ (by
      intro i hi
      rw [List.eq_of_mem_replicate hi]
      refine ⟨⟨_, rfl⟩, _, _, rfl, by simp [Fl.int], hd, Fl.int_fin _ _, ?_⟩
      simp [Fl.int]
      norm_num)
  rwa [List.length_replicate] at h

end Verif.Limits
