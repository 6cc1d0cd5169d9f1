import Verif.Model.Double
import Verif.Spec.JointLimits
import Mathlib.Data.Set.Finite.Lattice
import Mathlib.Data.Finite.Prod
import Mathlib.Data.Set.Finite.Lemmas
import Mathlib.Tactic.Linarith
import Mathlib.Order.Interval.Finset.Fin
import Mathlib.Data.Int.Interval
import Mathlib.Algebra.Order.Ring.Int

/-!
Floating point arithmetic is regular.
-/

namespace Verif.Limits

variable {f : Format}

theorem Format.inf_pos (f : Format) : 0 < f.inf := by unfold Format.inf; positivity

theorem Format.finite_lt {x : ℚ} (h : f.Finite x) : |x| < f.inf := by
  obtain ⟨m, e, h1, _, h3, rfl⟩ := h
  rw [abs_mul, abs_of_pos (by positivity : (0 : ℚ) < 2 ^ e)]
  have h4 : (2 : ℚ) ^ e ≤ 2 ^ f.emax := zpow_le_zpow_right₀ (by norm_num) h3
  have h5 : |(m : ℚ)| < 2 ^ f.prec := by
    have : ((|m| : ℤ) : ℚ) < ((2 ^ f.prec : ℤ) : ℚ) := by exact_mod_cast h1
    simpa using this
  unfold Format.inf
  calc |(m : ℚ)| * 2 ^ e < 2 ^ f.prec * 2 ^ e := mul_lt_mul_of_pos_right h5 (by positivity)
    _ ≤ 2 ^ f.prec * 2 ^ f.emax := mul_le_mul_of_nonneg_left h4 (by positivity)

theorem Fl.abs_le (a : Fl f) : |a.1| ≤ f.inf := by
  rcases a.2 with h | h
  · exact (Format.finite_lt h).le
  · exact h.le

/-- A number is finite. -/
def Fl.Fin (a : Fl f) : Prop := |a.1| < f.inf

theorem Fl.fin_iff (a : Fl f) : a.Fin ↔ f.Finite a.1 :=
  ⟨fun h => a.2.resolve_right h.ne, Format.finite_lt⟩

theorem Fl.isInf_iff (a : Fl f) : a.isInf = true ↔ ¬ a.Fin := by
  unfold Fl.isInf Fl.Fin
  rw [decide_eq_true_eq, not_lt]
  exact ⟨fun h => h.ge, fun h => le_antisymm a.abs_le h⟩

theorem Fl.isInf_false {a : Fl f} (h : a.Fin) : a.isInf = false := by
  cases e : a.isInf with
  | false => rfl
  | true => exact absurd h ((isInf_iff a).1 e)

theorem Fl.bounds (a : Fl f) : -f.inf ≤ a.1 ∧ a.1 ≤ f.inf := _root_.abs_le.1 a.abs_le

theorem Fl.inf_cases {a : Fl f} (h : a.isInf = true) : a.1 = f.inf ∨ a.1 = -f.inf := by
  have : |a.1| = f.inf := by simpa [Fl.isInf] using h
  exact eq_or_eq_neg_of_abs_eq this

namespace Rounding

variable (R : Rounding f)

theorem mono {x y : ℚ} (h : x ≤ y) : R.rnd x ≤ R.rnd y := by
  rcases h.eq_or_lt with rfl | h
  · exact le_refl _
  by_contra hc
  have hc : (R.rnd y).1 < (R.rnd x).1 := not_le.1 hc
  have h1 := R.nearest x (R.rnd y)
  have h2 := R.nearest y (R.rnd x)
  have h3 := sq_le_sq.2 h1
  have h4 := sq_le_sq.2 h2
  nlinarith

theorem id (a : Fl f) : R.rnd a.1 = a := by
  have h := R.nearest a.1 a
  rw [sub_self, abs_zero] at h
  have := abs_nonpos_iff.1 h
  exact Subtype.ext (by linarith)

theorem rnd_zero (h : f.emin ≤ f.emax) : R.rnd 0 = Fl.zero h := R.id (Fl.zero h)

theorem nonneg (h : f.emin ≤ f.emax) {x : ℚ} (hx : 0 ≤ x) : Fl.zero h ≤ R.rnd x := by
  rw [← R.rnd_zero h]; exact R.mono hx

theorem nonpos (h : f.emin ≤ f.emax) {x : ℚ} (hx : x ≤ 0) : R.rnd x ≤ Fl.zero h := by
  rw [← R.rnd_zero h]; exact R.mono hx

end Rounding

theorem Fl.add_fin (R : Rounding f) {p : Fl f} (hp : p.Fin) (d : Fl f) :
    ∃ y, Fl.add R p d = some y ∧ ((d.isInf = true ∧ y = d) ∨ (d.isInf = false ∧ y = R.rnd (p.1 + d.1))) := by
  unfold Fl.add
  rw [Fl.isInf_false hp]
  cases e : d.isInf with
  | true => exact ⟨d, by simp, Or.inl ⟨rfl, rfl⟩⟩
  | false => exact ⟨_, by simp, Or.inr ⟨rfl, rfl⟩⟩

theorem Fl.neg_val (a : Fl f) : (Fl.neg a).1 = -a.1 := rfl

theorem Fl.neg_fin {a : Fl f} : (Fl.neg a).Fin ↔ a.Fin := by
  unfold Fl.Fin
  rw [Fl.neg_val, abs_neg]

theorem Fl.isInf_neg (a : Fl f) : (Fl.neg a).isInf = a.isInf := by
  unfold Fl.isInf
  rw [Fl.neg_val, abs_neg]

theorem Fl.add_mono (R : Rounding f) {p a b : Fl f} (hp : p.Fin) (hab : a ≤ b) :
    ∃ x y, Fl.add R p a = some x ∧ Fl.add R p b = some y ∧ x ≤ y := by
  obtain ⟨x, hx, h1⟩ := Fl.add_fin R hp a
  obtain ⟨y, hy, h2⟩ := Fl.add_fin R hp b
  refine ⟨x, y, hx, hy, ?_⟩
  rcases h1 with ⟨e1, rfl⟩ | ⟨e1, rfl⟩ <;> rcases h2 with ⟨e2, rfl⟩ | ⟨e2, rfl⟩
  · exact hab
  · rcases Fl.inf_cases e1 with h | h
    · have h3 : x.1 ≤ b.1 := hab
      have : b.1 = f.inf := le_antisymm b.bounds.2 (h ▸ h3)
      have : b.isInf = true := by
        unfold Fl.isInf
        rw [this, decide_eq_true_eq]
        exact abs_of_pos f.inf_pos
      rw [e2] at this; cases this
    · show x.1 ≤ _
      rw [h]
      exact (Fl.bounds _).1
  · rcases Fl.inf_cases e2 with h | h
    · show _ ≤ y.1
      rw [h]
      exact (Fl.bounds _).2
    · have h3 : a.1 ≤ y.1 := hab
      have : a.1 = -f.inf := le_antisymm (h ▸ h3) a.bounds.1
      have : a.isInf = true := by
        unfold Fl.isInf
        rw [this, decide_eq_true_eq, abs_neg]
        exact abs_of_pos f.inf_pos
      rw [e1] at this; cases this
  · exact R.mono (by have : a.1 ≤ b.1 := hab; linarith)

theorem Fl.add_zero (R : Rounding f) (h : f.emin ≤ f.emax) {p : Fl f} (hp : p.Fin) : Fl.add R p (Fl.zero h) = some p := by
  have e : (Fl.zero h).isInf = false := Fl.isInf_false (by
    show |(0 : ℚ)| < _
    rw [abs_zero]; exact f.inf_pos)
  unfold Fl.add
  rw [Fl.isInf_false hp, e]
  simp only [Bool.false_eq_true, if_false]
  rw [show p.1 + (Fl.zero h).1 = p.1 from _root_.add_zero _, R.id]

theorem Fl.huge_fin (h : f.emin ≤ f.emax) : (Fl.huge h).Fin := by
  rw [Fl.fin_iff]
  rcases (Fl.huge h).2 with hh | hh
  · exact hh
  · have h1 : (Fl.huge h).1 = f.max := rfl
    rw [h1] at hh
    exfalso
    have h2 : (0 : ℚ) < 2 ^ f.emax := by positivity
    have h3 : (1 : ℚ) ≤ 2 ^ f.prec := one_le_pow₀ (by norm_num)
    unfold Format.max Format.inf at hh
    rw [abs_of_nonneg (mul_nonneg (by linarith) h2.le)] at hh
    nlinarith

theorem ieee_regular {f : Format} (R : Rounding f) (h : f.emin ≤ f.emax) :
    Regular (Arith.ieee R h) Fl.Fin where
  mul_nonneg a b ha hb h1 h2 := by
    have h1 : 0 ≤ a.1 := h1
    have h2 : 0 ≤ b.1 := h2
    refine ⟨R.rnd (a.1 * b.1), ?_, R.nonneg h (mul_nonneg h1 h2)⟩
    show Fl.mul R a b = _
    unfold Fl.mul
    rw [Fl.isInf_false ha, Fl.isInf_false hb]; simp
  add_ge p d hp hd := by
    obtain ⟨x, y, hx, hy, hxy⟩ := Fl.add_mono R (a := Fl.zero h) (b := d) hp hd
    rw [Fl.add_zero R h hp] at hx
    cases hx
    exact ⟨y, hy, hxy⟩
  sub_le p d hp hd := by
    obtain ⟨x, y, hx, hy, hxy⟩ := Fl.add_mono R (a := Fl.neg d) (b := Fl.zero h) hp (by
      have : (0 : ℚ) ≤ d.1 := hd
      show -d.1 ≤ 0
      linarith)
    rw [Fl.add_zero R h hp] at hy
    cases hy
    exact ⟨x, hx, hxy⟩
  neg_nonpos a ha := by
    have : (0 : ℚ) ≤ a.1 := ha
    show -a.1 ≤ 0
    linarith
  fin_between a b x ha hb h1 h2 := by
    have h1 : a.1 ≤ x.1 := h1
    have h2 : x.1 ≤ b.1 := h2
    exact abs_lt.2 ⟨(abs_lt.1 ha).1.trans_le h1, h2.trans_lt (abs_lt.1 hb).2⟩
  fin_neg a ha := Fl.neg_fin.2 ha
  fin_zero := by
    show |(0 : ℚ)| < _
    rw [abs_zero]; exact f.inf_pos
  fin_huge := Fl.huge_fin h
  neg_anti a b hab := by
    have : a.1 ≤ b.1 := hab
    show -b.1 ≤ -a.1
    linarith
  neg_zero := Subtype.ext (neg_zero (G := ℚ))
  sub_sign a b ha hb := by
    obtain ⟨y, hy, h2⟩ := Fl.add_fin R ha (Fl.neg b)
    rw [Fl.isInf_neg, Fl.isInf_false hb] at h2
    rcases h2 with ⟨h2, _⟩ | ⟨_, rfl⟩
    · cases h2
    refine ⟨_, hy, fun hh => R.nonneg h ?_, fun hh => R.nonpos h ?_⟩
    · have : b.1 ≤ a.1 := hh
      show 0 ≤ a.1 + -b.1
      linarith
    · have : a.1 ≤ b.1 := hh
      show a.1 + -b.1 ≤ 0
      linarith
  mul_sign k d hk h0 := by
    have h0 : (0 : ℚ) < k.1 := h0
    have hm : (Fl.neg k).1 * d.1 = -(k.1 * d.1) := by rw [Fl.neg_val]; ring
    show ∃ c, Fl.mul R (Fl.neg k) d = some c ∧ _
    unfold Fl.mul
    rw [Fl.isInf_neg, Fl.isInf_false hk, Bool.false_or]
    cases e : d.isInf with
    | true =>
      have hd : d.1 ≠ 0 := by
        rcases Fl.inf_cases e with hh | hh
        · rw [hh]; exact f.inf_pos.ne'
        · rw [hh]; exact neg_ne_zero.2 f.inf_pos.ne'
      rw [if_pos rfl, if_neg (by rw [hm]; exact neg_ne_zero.2 (mul_ne_zero h0.ne' hd))]
      split
      · rename_i hp
        rw [hm] at hp
        refine ⟨_, rfl, fun hh => ?_, fun _ => ?_⟩
        · have hh : (0 : ℚ) ≤ d.1 := hh
          nlinarith
        · exact f.inf_pos.le
      · rename_i hp
        rw [hm] at hp
        refine ⟨_, rfl, fun _ => ?_, fun hh => ?_⟩
        · show -f.inf ≤ 0
          linarith [f.inf_pos]
        · have hh : d.1 ≤ 0 := hh
          have : d.1 < 0 := lt_of_le_of_ne hh hd
          nlinarith
    | false =>
      simp only [Bool.false_eq_true, if_false]
      refine ⟨_, rfl, fun hh => R.nonpos h ?_, fun hh => R.nonneg h ?_⟩
      · have hh : (0 : ℚ) ≤ d.1 := hh
        rw [hm]; nlinarith
      · have hh : d.1 ≤ 0 := hh
        rw [hm]; nlinarith
  mul_nonpos a t ha ht h1 h2 := by
    have h1 : a.1 ≤ 0 := h1
    have h2 : 0 ≤ t.1 := h2
    refine ⟨R.rnd (a.1 * t.1), ?_, R.nonpos h (mul_nonpos_of_nonpos_of_nonneg h1 h2)⟩
    show Fl.mul R a t = _
    unfold Fl.mul
    rw [Fl.isInf_false ha, Fl.isInf_false ht]; simp
  add_le p d hp hd := by
    obtain ⟨x, y, hx, hy, hxy⟩ := Fl.add_mono R (a := d) (b := Fl.zero h) hp hd
    rw [Fl.add_zero R h hp] at hy
    cases hy
    exact ⟨x, hx, hxy⟩
  mul_mono a b t ha hb ht h0 hab := by
    have h0 : (0 : ℚ) ≤ t.1 := h0
    have hab : a.1 ≤ b.1 := hab
    refine ⟨R.rnd (a.1 * t.1), R.rnd (b.1 * t.1), ?_, ?_, R.mono (mul_le_mul_of_nonneg_right hab h0)⟩
    · show Fl.mul R a t = _
      unfold Fl.mul
      rw [Fl.isInf_false ha, Fl.isInf_false ht]; simp
    · show Fl.mul R b t = _
      unfold Fl.mul
      rw [Fl.isInf_false hb, Fl.isInf_false ht]; simp
  add_mono p a b hp hab := Fl.add_mono R hp hab

/-- There is a rounding to nearest. -/
theorem exists_rounding (f : Format) (h : f.emin ≤ f.emax) : Nonempty (Rounding f) := by
  have hfin : {x : ℚ | f.Number x}.Finite := by
    have h1 : ((Set.Ioo (-(2 : ℤ) ^ f.prec) (2 ^ f.prec)) ×ˢ (Set.Icc f.emin f.emax)).Finite :=
      Set.Finite.prod (Set.toFinite _) (Set.toFinite _)
    refine ((h1.image fun p : ℤ × ℤ => (p.1 : ℚ) * 2 ^ p.2).union ((Set.finite_singleton f.inf).union
      (Set.finite_singleton (-f.inf)))).subset ?_
    rintro x (⟨m, e, h2, h3, h4, rfl⟩ | h2)
    · exact Or.inl ⟨(m, e), ⟨abs_lt.1 h2, h3, h4⟩, rfl⟩
    · rcases eq_or_eq_neg_of_abs_eq h2 with rfl | rfl
      · exact Or.inr (Or.inl rfl)
      · exact Or.inr (Or.inr rfl)
  have key : ∀ x : ℚ, ∃ y : Fl f, ∀ z : Fl f, |x - y.1| ≤ |x - z.1| := by
    intro x
    obtain ⟨y, hy, hm⟩ := Set.exists_min_image _ (fun y => |x - y|) hfin ⟨0, (Fl.zero h).2⟩
    exact ⟨⟨y, hy⟩, fun z => hm z.1 z.2⟩
  choose r hr using key
  exact ⟨⟨r, hr⟩⟩

end Verif.Limits
