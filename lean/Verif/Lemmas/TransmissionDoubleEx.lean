import Verif.Lemmas.TransmissionDouble

/-!
Results of roundings that are determined.
-/

namespace Verif.Limits

variable {A : Machine binary64}

/-- A number with a small significand. -/
def dyadic (m e : ℤ) (h1 : |m| < 2 ^ 53) (h2 : -1074 ≤ e ∧ e ≤ 971) : Fl binary64 :=
  ⟨m * 2 ^ e, Or.inl ⟨m, e, h1, h2.1, h2.2, rfl⟩⟩

/-- A result nearer to a number than half the distance of the numbers there is rounded to that number. -/
theorem rnd_unique (R : Rounding binary64) {x : ℚ} {lo hi n : ℤ} (h1 : -1022 ≤ lo) (h2 : hi ≤ 1023) (hl : 2 ^ lo ≤ |x|)
    (hh : |x| ≤ 2 ^ hi) {y : Fl binary64} (hy : y.1 = n * 2 ^ (lo - 52)) (hd : |x - y.1| < 2 ^ (lo - 53)) :
    R.rnd x = y := by
  have hx : Ranged lo hi x := Or.inr ⟨hl, hh⟩
  obtain ⟨_, _, g⟩ := rnd_rel R h1 h2 hx
  have g : Ranged lo hi (R.rnd x).1 := g
  obtain ⟨k, hk⟩ := g.multiple (g.fin h2) (le_refl lo)
  have h3 := R.nearest x y
  have h4 : |(R.rnd x).1 - y.1| < 2 ^ (lo - 52) := by
    have e : (2 : ℚ) ^ (lo - 52) = 2 ^ (lo - 53) * 2 := by
      rw [← zpow_add_one₀ (by norm_num)]
      congr 1; omega
    have := abs_sub_le (R.rnd x).1 x y.1
    rw [abs_sub_comm (R.rnd x).1 x] at this
    rw [e]; linarith
  have hp : (0 : ℚ) < 2 ^ (lo - 52) := by positivity
  rw [hk, hy, ← sub_mul, abs_mul, abs_of_pos hp] at h4
  have h5 : |(k : ℚ) - n| < 1 := by
    by_contra hc
    push Not at hc
    nlinarith
  have h6 : |k - n| < 1 := by exact_mod_cast h5
  have h7 : k = n := by have := Int.abs_lt_one_iff.1 h6; omega
  exact Subtype.ext (by rw [hk, hy, h7])

/-- What is much smaller than the smallest number becomes zero. -/
theorem rnd_tiny (R : Rounding binary64) {x : ℚ} (h : |x| < 2 ^ (-1075 : ℤ)) : (R.rnd x).1 = 0 := by
  have h1 := R.nearest x (Fl.zero (by decide))
  have h2 : |x - (R.rnd x).1| ≤ |x| := by
    have e : (Fl.zero (f := binary64) (by decide)).1 = 0 := rfl
    rwa [e, sub_zero] at h1
  have h3 : |(R.rnd x).1| < 2 ^ (-1074 : ℤ) := by
    have := abs_sub_abs_le_abs_sub (R.rnd x).1 x
    rw [abs_sub_comm] at this
    have e : (2 : ℚ) ^ (-1074 : ℤ) = 2 ^ (-1075 : ℤ) * 2 := by
      rw [← zpow_add_one₀ (by norm_num)]; congr 1
    rw [e]; linarith
  have hfin : (R.rnd x).Fin := by
    refine h3.trans ?_
    show (2 : ℚ) ^ (-1074 : ℤ) < 2 ^ 53 * 2 ^ (971 : ℤ)
    rw [← zpow_natCast, ← zpow_add₀ (by norm_num)]
    exact zpow_lt_zpow_right₀ (by norm_num) (by norm_num)
  obtain ⟨m, e, _, h5, _, h6⟩ := (Fl.fin_iff _).1 hfin
  by_cases hm : m = 0
  · rw [h6, hm]; simp
  · exfalso
    rw [h6, abs_mul, abs_of_pos (by positivity : (0 : ℚ) < 2 ^ e)] at h3
    have h7 : (1 : ℚ) ≤ |(m : ℚ)| := by exact_mod_cast Int.one_le_abs hm
    have h8 : (2 : ℚ) ^ (-1074 : ℤ) ≤ 2 ^ e := zpow_le_zpow_right₀ (by norm_num) h5
    nlinarith [(by positivity : (0 : ℚ) < 2 ^ e)]

theorem fl_ne_zero {d : Fl binary64} (h : d.1 ≠ 0) : ((Flt.fl d : Flt A) == 0) = false := by
  rw [beq_eq_false_iff_ne]
  intro e
  have e : d = A.rnd 0 := Option.some.inj e
  rw [e, A.rnd_zero (by decide)] at h
  exact h rfl

theorem dyadic_val {m e : ℤ} (h1 h2) : (dyadic m e h1 h2).1 = m * 2 ^ e := rfl

theorem dyadic_fin {m e : ℤ} (h1 h2) : (dyadic m e h1 h2).Fin := (Fl.fin_iff _).2 ⟨m, e, h1, h2.1, h2.2, rfl⟩

theorem rnd_49 (A : Machine binary64) :
    A.rnd (1 / 49) = dyadic 5882252574524729 (-58) (by decide) (by decide) := by
  refine rnd_unique A.toRounding (lo := -6) (hi := 0) (n := 5882252574524729) (by decide) (by decide) ?_ ?_ ?_ ?_
  · norm_num
  · norm_num
  · rw [dyadic_val]; norm_num
  · rw [dyadic_val, abs_lt]; norm_num

theorem rnd_49_back (A : Machine binary64) :
    A.rnd (5882252574524729 * 2 ^ (-58 : ℤ) * 49) = dyadic 9007199254740991 (-53) (by decide) (by decide) := by
  refine rnd_unique A.toRounding (lo := -1) (hi := 0) (n := 9007199254740991) (by decide) (by decide) ?_ ?_ ?_ ?_
  · norm_num
  · norm_num
  · rw [dyadic_val]; norm_num
  · rw [dyadic_val, abs_lt]; norm_num

theorem rnd_one_more (A : Machine binary64) :
    A.rnd (2 ^ (-60 : ℤ) + 1) = dyadic 1 0 (by decide) (by decide) := by
  refine rnd_unique A.toRounding (lo := 0) (hi := 1) (n := 2 ^ 52) (by decide) (by decide) ?_ ?_ ?_ ?_
  · norm_num
  · norm_num
  · rw [dyadic_val]; norm_num
  · rw [dyadic_val, abs_lt]; norm_num

end Verif.Limits

namespace Verif.Transmission

open Limits

variable {A : Machine binary64}

theorem means_dyadic {m e : ℤ} (h1 h2) {x : ℚ} (hx : (m : ℚ) * 2 ^ e = x) (h : Moderate x) :
    Means (Flt.fl (dyadic m e h1 h2) : Flt A) x := ⟨⟨_, rfl, hx⟩, h⟩

end Verif.Transmission
