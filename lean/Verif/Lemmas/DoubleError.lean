import Verif.Lemmas.Double
import Verif.Model.TransmissionDouble
import Mathlib.Algebra.Order.Archimedean.Basic
import Mathlib.Algebra.Order.Round
import Mathlib.Tactic.FieldSimp
import Mathlib.Tactic.NormNum

/-!
Error bounds for floating point arithmetic.
-/

namespace Verif.Limits

variable {f : Format}

/-- Powers of two are numbers. -/
theorem Format.finite_pow (hp : 1 ≤ f.prec) {e : ℤ} (h1 : f.emin ≤ e) (h2 : e ≤ f.emax + f.prec - 1) (hm : f.emin ≤ f.emax) :
    f.Finite (2 ^ e) := by
  by_cases h : e ≤ f.emax
  · refine ⟨1, e, ?_, h1, h, by simp⟩
    rw [abs_one]
    exact one_lt_pow₀ (by norm_num) (by omega)
  · push Not at h
    obtain ⟨n, hn⟩ := Int.eq_ofNat_of_zero_le (show 0 ≤ e - f.emax by omega)
    refine ⟨2 ^ n, f.emax, ?_, hm, le_refl _, ?_⟩
    · rw [abs_of_nonneg (by positivity)]
      exact pow_lt_pow_right₀ (by norm_num) (by omega)
    · push_cast
      rw [← zpow_natCast, ← zpow_add₀ (by norm_num)]
      congr 1
      omega

/-- In the normal range the relative error of rounding is small. -/
theorem Rounding.rel (R : Rounding f) (hp : 1 ≤ f.prec) {x : ℚ} (h1 : 2 ^ (f.emin + f.prec - 1) ≤ |x|)
    (h2 : |x| ≤ 2 ^ (f.emax + f.prec - 1)) (hm : f.emin ≤ f.emax) : |(R.rnd x).1 - x| ≤ (2 ^ f.prec)⁻¹ * |x| := by
  have hx : 0 < |x| := lt_of_lt_of_le (by positivity) h1
  obtain ⟨n, hn1, hn2⟩ := exists_mem_Ico_zpow hx (by norm_num : (1 : ℚ) < 2)
  have hn3 : f.emin + f.prec - 1 ≤ n := by
    by_contra hc
    push Not at hc
    have := h1.trans_lt hn2
    have := (zpow_lt_zpow_iff_right₀ (by norm_num : (1 : ℚ) < 2)).1 this
    omega
  have hn4 : n ≤ f.emax + f.prec - 1 := (zpow_le_zpow_iff_right₀ (by norm_num : (1 : ℚ) < 2)).1 (hn1.trans h2)
  set e : ℤ := n - f.prec + 1 with he
  have h2e : (0 : ℚ) < 2 ^ e := by positivity
  set m : ℤ := round (x / 2 ^ e) with hmdef
  have hr : |x / 2 ^ e - m| ≤ 1 / 2 := abs_sub_round _
  have hxe : |x / 2 ^ e| < 2 ^ f.prec := by
    rw [abs_div, abs_of_pos h2e, div_lt_iff₀ h2e, ← zpow_natCast, ← zpow_add₀ (by norm_num)]
    have : (f.prec : ℤ) + e = n + 1 := by omega
    rw [this]; exact hn2
  have hmle : |m| ≤ 2 ^ f.prec := by
    have hb : |(m : ℚ)| < 2 ^ f.prec + 1 := by
      have h3 : |(m : ℚ)| ≤ |x / 2 ^ e| + |x / 2 ^ e - m| := by
        have := abs_sub_abs_le_abs_sub (m : ℚ) (x / 2 ^ e)
        rw [abs_sub_comm] at this
        linarith
      linarith
    have : ((|m| : ℤ) : ℚ) < ((2 ^ f.prec + 1 : ℤ) : ℚ) := by push_cast; exact hb
    have := Int.cast_lt.1 this
    omega
  have hnum : f.Number (m * 2 ^ e) := by
    rcases hmle.lt_or_eq with h | h
    · exact Or.inl ⟨m, e, h, by omega, by omega, rfl⟩
    · have habs : |(m : ℚ) * 2 ^ e| = 2 ^ (n + 1) := by
        have : |(m : ℚ)| = 2 ^ f.prec := by
          have : ((|m| : ℤ) : ℚ) = ((2 ^ f.prec : ℤ) : ℚ) := by rw [h]
          push_cast at this; exact this
        rw [abs_mul, this, abs_of_pos h2e, ← zpow_natCast, ← zpow_add₀ (by norm_num)]
        congr 1; omega
      rcases hn4.lt_or_eq with h4 | h4
      · have hf : f.Finite (2 ^ (n + 1)) := Format.finite_pow hp (by omega) (by omega) hm
        rcases eq_or_eq_neg_of_abs_eq habs with h5 | h5
        · rw [h5]; exact Or.inl hf
        · rw [h5]; exact Fl.number_neg (Or.inl hf)
      · right
        rw [habs]
        unfold Format.inf
        rw [← zpow_natCast, ← zpow_add₀ (by norm_num)]
        congr 1; omega
  have h3 := R.nearest x ⟨m * 2 ^ e, hnum⟩
  have h4 : |x - m * 2 ^ e| ≤ 1 / 2 * 2 ^ e := by
    have : x - m * 2 ^ e = (x / 2 ^ e - m) * 2 ^ e := by field_simp
    rw [this, abs_mul, abs_of_pos h2e]
    exact mul_le_mul_of_nonneg_right hr h2e.le
  have h5 : (1 : ℚ) / 2 * 2 ^ e = (2 ^ f.prec)⁻¹ * 2 ^ n := by
    have : (2 : ℚ) ^ n = 2 ^ f.prec * 2 ^ e / 2 := by
      rw [← zpow_natCast, ← zpow_add₀ (by norm_num), eq_div_iff (by norm_num), ← zpow_add_one₀ (by norm_num)]
      congr 1; omega
    rw [this]; field_simp
  rw [abs_sub_comm]
  calc |x - (R.rnd x).1| ≤ |x - m * 2 ^ e| := h3
    _ ≤ (2 ^ f.prec)⁻¹ * 2 ^ n := h5 ▸ h4
    _ ≤ (2 ^ f.prec)⁻¹ * |x| := mul_le_mul_of_nonneg_left hn1 (by positivity)

/-- Rounding does not leave an interval between powers of two. -/
theorem Rounding.range (R : Rounding f) (hp : 1 ≤ f.prec) (hm : f.emin ≤ f.emax) {lo hi : ℤ} (h1 : f.emin ≤ lo)
    (h2 : hi ≤ f.emax + f.prec - 1) {x : ℚ} (hl : 2 ^ lo ≤ |x|) (hh : |x| ≤ 2 ^ hi) :
    2 ^ lo ≤ |(R.rnd x).1| ∧ |(R.rnd x).1| ≤ 2 ^ hi := by
  have hlh : lo ≤ hi := (zpow_le_zpow_iff_right₀ (by norm_num : (1 : ℚ) < 2)).1 (hl.trans hh)
  have f1 : f.Finite (2 ^ lo) := Format.finite_pow hp h1 (by omega) hm
  have f2 : f.Finite (2 ^ hi) := Format.finite_pow hp (by omega) h2 hm
  have p1 : (0 : ℚ) < 2 ^ lo := by positivity
  rcases abs_cases x with ⟨e, _⟩ | ⟨e, _⟩ <;> rw [e] at hl hh
  · have g1 : (2 : ℚ) ^ lo ≤ (R.rnd x).1 := by
      have := R.mono hl
      rw [R.id ⟨2 ^ lo, Or.inl f1⟩] at this
      exact this
    have g2 : (R.rnd x).1 ≤ (2 : ℚ) ^ hi := by
      have := R.mono hh
      rw [R.id ⟨2 ^ hi, Or.inl f2⟩] at this
      exact this
    rw [abs_of_pos (p1.trans_le g1)]
    exact ⟨g1, g2⟩
  · have g1 : (R.rnd x).1 ≤ -(2 : ℚ) ^ lo := by
      have := R.mono (show x ≤ -(2 : ℚ) ^ lo by linarith)
      rw [R.id ⟨-2 ^ lo, Fl.number_neg (Or.inl f1)⟩] at this
      exact this
    have g2 : -(2 : ℚ) ^ hi ≤ (R.rnd x).1 := by
      have := R.mono (show -(2 : ℚ) ^ hi ≤ x by linarith)
      rw [R.id ⟨-2 ^ hi, Fl.number_neg (Or.inl f2)⟩] at this
      exact this
    rw [abs_of_neg (by linarith)]
    constructor <;> linarith

/-- A number that is not too small is a multiple of a power of two. -/
theorem Format.multiple {x : ℚ} (h : f.Finite x) {lo : ℤ} (hl : 2 ^ lo ≤ |x|) :
    ∃ n : ℤ, x = n * 2 ^ (lo - f.prec + 1) := by
  obtain ⟨m, e, h1, _, _, rfl⟩ := h
  have h2 : (2 : ℚ) ^ lo < 2 ^ (f.prec + e) := by
    refine hl.trans_lt ?_
    rw [abs_mul, abs_of_pos (by positivity : (0 : ℚ) < 2 ^ e), zpow_add₀ (by norm_num), zpow_natCast]
    have : |(m : ℚ)| < 2 ^ f.prec := by
      have : ((|m| : ℤ) : ℚ) < ((2 ^ f.prec : ℤ) : ℚ) := by exact_mod_cast h1
      simpa using this
    exact mul_lt_mul_of_pos_right this (by positivity)
  have h3 := (zpow_lt_zpow_iff_right₀ (by norm_num : (1 : ℚ) < 2)).1 h2
  obtain ⟨n, hn⟩ := Int.eq_ofNat_of_zero_le (show 0 ≤ e - (lo - f.prec + 1) by omega)
  refine ⟨m * 2 ^ n, ?_⟩
  push_cast
  rw [mul_assoc, ← zpow_natCast, ← zpow_add₀ (by norm_num)]
  congr 2
  omega

/-! ### Binary64 -/

/-- The unit roundoff of `double`. -/
def ulp : ℚ := (2 ^ 53)⁻¹

/-- The relative error of a number of roundings. -/
def G (k : ℕ) : ℚ := ((1 - ulp) ^ k)⁻¹ - 1

theorem ulp_pos : 0 < ulp := by unfold ulp; positivity
theorem ulp_lt : ulp < 1 := by unfold ulp; norm_num

theorem one_sub_pos (k : ℕ) : 0 < (1 - ulp) ^ k := pow_pos (by linarith [ulp_lt]) _

theorem G_add (k l : ℕ) : (1 + G k) * (1 + G l) = 1 + G (k + l) := by
  have h := one_sub_pos
  unfold G
  rw [pow_add, mul_inv]; ring

theorem G_nonneg (k : ℕ) : 0 ≤ G k := by
  unfold G
  have : (1 - ulp) ^ k ≤ 1 := pow_le_one₀ (by linarith [ulp_lt]) (by linarith [ulp_pos])
  have := (one_le_inv₀ (one_sub_pos k)).2 this
  linarith

theorem G_mono {k l : ℕ} (h : k ≤ l) : G k ≤ G l := by
  obtain ⟨n, rfl⟩ := Nat.exists_eq_add_of_le h
  have := G_add k n
  have h1 := G_nonneg k
  have h2 := G_nonneg n
  nlinarith

theorem ulp_le_G : ulp ≤ G 1 := by
  unfold G
  rw [pow_one]
  have h : 0 < 1 - ulp := by linarith [ulp_lt]
  rw [le_sub_iff_add_le, le_inv_comm₀ (by linarith [ulp_pos]) h, inv_eq_one_div, le_div_iff₀ (by linarith [ulp_pos])]
  nlinarith [ulp_pos]

theorem rnd_rel (R : Rounding binary64) {x : ℚ} {lo hi : ℤ} (h1 : -1022 ≤ lo) (h2 : hi ≤ 1023)
    (h : x = 0 ∨ 2 ^ lo ≤ |x| ∧ |x| ≤ 2 ^ hi) :
    |(R.rnd x).1 - x| ≤ ulp * |x| ∧ ((R.rnd x).1 = 0 ↔ x = 0) ∧
      ((R.rnd x).1 = 0 ∨ 2 ^ lo ≤ |(R.rnd x).1| ∧ |(R.rnd x).1| ≤ 2 ^ hi) := by
  rcases h with rfl | ⟨h3, h4⟩
  · have e : (R.rnd 0).1 = 0 := by rw [R.rnd_zero (by decide)]; rfl
    rw [e]
    simp
  · have hp : (0 : ℚ) < 2 ^ lo := by positivity
    have hx : x ≠ 0 := fun h => by rw [h, abs_zero] at h3; linarith
    have g := R.range (by decide) (by decide) (show binary64.emin ≤ lo from le_trans (by decide) h1)
      (show hi ≤ binary64.emax + binary64.prec - 1 from h2.trans (by decide)) h3 h4
    refine ⟨?_, iff_of_false (fun h => ?_) hx, Or.inr g⟩
    · refine R.rel (by decide) (le_trans ?_ h3) (h4.trans ?_) (by decide)
      · exact zpow_le_zpow_right₀ (by norm_num) (le_trans (by decide) h1)
      · exact zpow_le_zpow_right₀ (by norm_num) (h2.trans (by decide))
    · rw [h, abs_zero] at g; linarith [g.1]

end Verif.Limits
