import Verif.Lemmas.DoubleError

/-!
A calculus of error bounds for expressions of doubles: `Val` for values, `Coef` for products of constants.
-/

namespace Verif.Limits

variable {A : Machine binary64}

/-- Zero, or between two powers of two. -/
def Ranged (lo hi : ℤ) (x : ℚ) : Prop := x = 0 ∨ 2 ^ lo ≤ |x| ∧ |x| ≤ 2 ^ hi

/-- The double is finite and near `x`; `B` bounds the absolute value of what `x` is computed from. -/
def Val (a : Flt A) (x B : ℚ) (k : ℕ) (lo hi : ℤ) : Prop :=
  -1022 ≤ lo ∧ hi ≤ 1023 ∧ |x| ≤ B ∧ ∃ d : Fl binary64, a = Flt.fl d ∧ Ranged lo hi d.1 ∧ |d.1 - x| ≤ G k * B

/-- The double is a finite number different from zero, and its quotient with `c` is near one. -/
def Coef (a : Flt A) (c : ℚ) (k : ℕ) (lo hi : ℤ) : Prop :=
  -1022 ≤ lo ∧ hi ≤ 1023 ∧ c ≠ 0 ∧ ∃ d : Fl binary64, a = Flt.fl d ∧ d.1 ≠ 0 ∧ Ranged lo hi d.1 ∧
    (1 - ulp) ^ k ≤ d.1 / c ∧ d.1 / c ≤ ((1 - ulp) ^ k)⁻¹

theorem Ranged.neg {lo hi : ℤ} {x : ℚ} (h : Ranged lo hi x) : Ranged lo hi (-x) := by
  rcases h with rfl | h
  · exact Or.inl neg_zero
  · exact Or.inr (by rwa [abs_neg])

theorem Ranged.mul {lo hi lo' hi' : ℤ} {x y : ℚ} (h : Ranged lo hi x) (h' : Ranged lo' hi' y) :
    Ranged (lo + lo') (hi + hi') (x * y) := by
  rcases h with rfl | ⟨h1, h2⟩
  · exact Or.inl (zero_mul _)
  rcases h' with rfl | ⟨h3, h4⟩
  · exact Or.inl (mul_zero _)
  refine Or.inr ?_
  rw [abs_mul, zpow_add₀ (by norm_num), zpow_add₀ (by norm_num)]
  exact ⟨mul_le_mul h1 h3 (by positivity) (by positivity), mul_le_mul h2 h4 (by positivity) (by positivity)⟩

theorem Ranged.div {lo hi lo' hi' : ℤ} {x y : ℚ} (h : Ranged lo hi x) (h' : Ranged lo' hi' y) :
    Ranged (lo - hi') (hi - lo') (x / y) := by
  rcases h' with rfl | ⟨h3, h4⟩
  · exact Or.inl (div_zero _)
  rcases h with rfl | ⟨h1, h2⟩
  · exact Or.inl (zero_div _)
  refine Or.inr ?_
  have h5 : 0 < |y| := lt_of_lt_of_le (by positivity) h3
  rw [abs_div, zpow_sub₀ (by norm_num), zpow_sub₀ (by norm_num)]
  exact ⟨div_le_div₀ (by positivity) h1 h5 h4, div_le_div₀ (by positivity) h2 (by positivity) h3⟩

theorem Ranged.multiple {lo hi : ℤ} {d : Fl binary64} (hf : d.Fin) (h : Ranged lo hi d.1) {l : ℤ} (hl : l ≤ lo) :
    ∃ n : ℤ, d.1 = n * 2 ^ (l - 52) := by
  rcases h with h | ⟨h, _⟩
  · exact ⟨0, by rw [h]; simp⟩
  · obtain ⟨n, hn⟩ := Format.multiple ((Fl.fin_iff d).1 hf) ((zpow_le_zpow_right₀ (by norm_num) hl).trans h)
    refine ⟨n, hn.trans ?_⟩
    congr 2
    show l - (53 : ℕ) + 1 = _
    omega

theorem Ranged.fin {lo hi : ℤ} {d : Fl binary64} (h : Ranged lo hi d.1) (h2 : hi ≤ 1023) : d.Fin := by
  unfold Fl.Fin
  rcases h with h | ⟨_, h⟩
  · rw [h, abs_zero]; exact binary64.inf_pos
  · refine h.trans_lt ?_
    refine lt_of_le_of_lt (zpow_le_zpow_right₀ (by norm_num) h2) ?_
    show (2 : ℚ) ^ (1023 : ℤ) < 2 ^ 53 * 2 ^ (971 : ℤ)
    rw [← zpow_natCast, ← zpow_add₀ (by norm_num)]
    exact zpow_lt_zpow_right₀ (by norm_num) (by norm_num)

theorem Ranged.add {lo hi lo' hi' : ℤ} {a b : Fl binary64} (fa : a.Fin) (fb : b.Fin) (h : Ranged lo hi a.1)
    (h' : Ranged lo' hi' b.1) : Ranged (min lo lo' - 52) (max hi hi' + 1) (a.1 + b.1) := by
  obtain ⟨n, hn⟩ := h.multiple fa (min_le_left lo lo')
  obtain ⟨m, hm⟩ := h'.multiple fb (min_le_right lo lo')
  have e : a.1 + b.1 = ((n + m : ℤ) : ℚ) * 2 ^ (min lo lo' - 52) := by rw [hn, hm]; push_cast; ring
  have bnd : ∀ {l u : ℤ} {x : ℚ}, Ranged l u x → u ≤ max hi hi' → |x| ≤ 2 ^ max hi hi' := by
    intro l u x hx hu
    rcases hx with rfl | ⟨_, hx⟩
    · rw [abs_zero]; positivity
    · exact hx.trans (zpow_le_zpow_right₀ (by norm_num) hu)
  by_cases h0 : n + m = 0
  · left; rw [e, h0]; simp
  · right
    constructor
    · rw [e, abs_mul, abs_of_pos (by positivity : (0 : ℚ) < 2 ^ (min lo lo' - 52))]
      have h1 : (1 : ℤ) ≤ |n + m| := Int.one_le_abs h0
      have : (1 : ℚ) ≤ |((n + m : ℤ) : ℚ)| := by exact_mod_cast h1
      nlinarith [(by positivity : (0 : ℚ) < 2 ^ (min lo lo' - 52))]
    · refine (abs_add_le _ _).trans ?_
      rw [zpow_add_one₀ (by norm_num)]
      linarith [bnd h (le_max_left _ _), bnd h' (le_max_right _ _)]

/-- Rounding adds one rounding error. -/
theorem Val.round {z x B : ℚ} {k : ℕ} {lo hi : ℤ} (h1 : -1022 ≤ lo) (h2 : hi ≤ 1023) (hB : |x| ≤ B)
    (hz : Ranged lo hi z) (he : |z - x| ≤ G k * B) : Val (A := A) (Flt.fl (A.rnd z)) x B (k + 1) lo hi := by
  obtain ⟨g1, _, g3⟩ := rnd_rel A.toRounding h1 h2 hz
  refine ⟨h1, h2, hB, _, rfl, g3, ?_⟩
  have hB0 : 0 ≤ B := (abs_nonneg x).trans hB
  have hz' : |z| ≤ B + G k * B := by
    have := abs_sub_abs_le_abs_sub z x
    linarith
  have h3 : |(A.rnd z).1 - x| ≤ ulp * |z| + G k * B := by
    have := abs_sub_le (A.rnd z).1 z x
    linarith
  have h4 := G_add k 1
  have h5 := ulp_le_G
  have h6 : ulp * |z| ≤ G 1 * (B + G k * B) :=
    mul_le_mul h5 hz' (abs_nonneg _) (G_nonneg 1)
  calc |(A.rnd z).1 - x| ≤ G 1 * (B + G k * B) + G k * B := by linarith
    _ = ((1 + G k) * (1 + G 1) - 1) * B := by ring
    _ = G (k + 1) * B := by rw [h4]; ring

theorem flt_add {d e : Fl binary64} (hd : d.Fin) (he : e.Fin) :
    ((Flt.fl d : Flt A) + (Flt.fl e : Flt A) : Flt A) = Flt.fl (A.rnd (d.1 + e.1)) := by
  show Fl.add A.toRounding d e = _
  unfold Fl.add
  rw [Fl.isInf_false hd, Fl.isInf_false he]; rfl

theorem flt_sub {d e : Fl binary64} (hd : d.Fin) (he : e.Fin) :
    ((Flt.fl d : Flt A) - (Flt.fl e : Flt A) : Flt A) = Flt.fl (A.rnd (d.1 - e.1)) := by
  show Fl.add A.toRounding d (Fl.neg e) = _
  unfold Fl.add
  rw [Fl.isInf_false hd, Fl.isInf_neg, Fl.isInf_false he, sub_eq_add_neg]; rfl

theorem flt_mul {d e : Fl binary64} (hd : d.Fin) (he : e.Fin) :
    ((Flt.fl d : Flt A) * (Flt.fl e : Flt A) : Flt A) = Flt.fl (A.rnd (d.1 * e.1)) := by
  show Fl.mul A.toRounding d e = _
  unfold Fl.mul
  rw [Fl.isInf_false hd, Fl.isInf_false he]; rfl

theorem flt_div {d e : Fl binary64} (hd : d.Fin) (he : e.Fin) (h0 : e.1 ≠ 0) :
    ((Flt.fl d : Flt A) / (Flt.fl e : Flt A) : Flt A) = Flt.fl (A.rnd (d.1 / e.1)) := by
  show Fl.div A d e = _
  unfold Fl.div
  rw [Fl.isInf_false hd, Fl.isInf_false he, if_neg (by simp), if_neg (by simp), if_neg h0, if_neg (by simp)]
  rfl

theorem Val.add {a b : Flt A} {x y B C : ℚ} {k l : ℕ} {lo hi lo' hi' : ℤ} (ha : Val a x B k lo hi)
    (hb : Val b y C l lo' hi') (h1 : -1022 ≤ min lo lo' - 52 := by decide) (h2 : max hi hi' + 1 ≤ 1023 := by decide) :
    Val (a + b) (x + y) (B + C) (max k l + 1) (min lo lo' - 52) (max hi hi' + 1) := by
  obtain ⟨_, u1, b1, d, rfl, w1, e1⟩ := ha
  obtain ⟨_, u2, b2, e, rfl, w2, e2⟩ := hb
  have f1 := w1.fin u1
  have f2 := w2.fin u2
  rw [flt_add f1 f2]
  refine Val.round h1 h2 ((abs_add_le _ _).trans (add_le_add b1 b2)) (Ranged.add f1 f2 w1 w2) ?_
  have hB : 0 ≤ B := (abs_nonneg x).trans b1
  have hC : 0 ≤ C := (abs_nonneg y).trans b2
  have g1 := mul_le_mul_of_nonneg_right (G_mono (le_max_left k l)) hB
  have g2 := mul_le_mul_of_nonneg_right (G_mono (le_max_right k l)) hC
  calc |d.1 + e.1 - (x + y)| = |(d.1 - x) + (e.1 - y)| := by congr 1; ring
    _ ≤ |d.1 - x| + |e.1 - y| := abs_add_le _ _
    _ ≤ G (max k l) * (B + C) := by linarith

theorem Val.neg {d : Fl binary64} {x B : ℚ} {k : ℕ} {lo hi : ℤ} (h : Val (A := A) (Flt.fl d) x B k lo hi) :
    Val (A := A) (Flt.fl (Fl.neg d)) (-x) B k lo hi := by
  obtain ⟨u1, u2, b1, d', e, w1, e1⟩ := h
  cases e
  refine ⟨u1, u2, by rwa [abs_neg], _, rfl, w1.neg, ?_⟩
  rw [Fl.neg_val, show -d.1 - -x = -(d.1 - x) by ring, abs_neg]
  exact e1

theorem Val.sub {a b : Flt A} {x y B C : ℚ} {k l : ℕ} {lo hi lo' hi' : ℤ} (ha : Val a x B k lo hi)
    (hb : Val b y C l lo' hi') (h1 : -1022 ≤ min lo lo' - 52 := by decide) (h2 : max hi hi' + 1 ≤ 1023 := by decide) :
    Val (a - b) (x - y) (B + C) (max k l + 1) (min lo lo' - 52) (max hi hi' + 1) := by
  have ha' := ha
  have hb' := hb
  obtain ⟨_, u1, b1, d, rfl, w1, e1⟩ := ha'
  obtain ⟨_, u2, b2, e, rfl, w2, e2⟩ := hb'
  have := ha.add hb.neg h1 h2
  rw [flt_add (w1.fin u1) (Fl.neg_fin.2 (w2.fin u2)), ← sub_eq_add_neg x y] at this
  rw [flt_sub (w1.fin u1) (w2.fin u2), sub_eq_add_neg d.1]
  exact this

/-- Multiplication with a factor near `c`. -/
theorem err_mul {d x B r : ℚ} {k l : ℕ} (c : ℚ) (hB : |x| ≤ B) (he : |d - x| ≤ G k * B)
    (hr : (1 - ulp) ^ l ≤ r) (hr' : r ≤ ((1 - ulp) ^ l)⁻¹) :
    |d * (c * r) - x * c| ≤ G (k + l) * (B * |c|) := by
  have hB0 : 0 ≤ B := (abs_nonneg x).trans hB
  have hq := one_sub_pos l
  have hG := G_nonneg k
  have hr1 : r ≤ 1 + G l := by unfold G; linarith
  have hr2 : |r - 1| ≤ G l := by
    rw [abs_le]
    constructor
    · have : 2 - ((1 - ulp) ^ l)⁻¹ ≤ (1 - ulp) ^ l := by
        have h3 : (1 - ulp) ^ l * ((1 - ulp) ^ l)⁻¹ = 1 := mul_inv_cancel₀ hq.ne'
        nlinarith [sq_nonneg ((1 - ulp) ^ l - 1), hq, inv_pos.2 hq, sq_nonneg (((1 - ulp) ^ l)⁻¹ - 1)]
      unfold G; linarith
    · linarith
  have hr0 : 0 ≤ r := hq.le.trans hr
  have e : d * (c * r) - x * c = c * ((d - x) * r + x * (r - 1)) := by ring
  have h1 : |(d - x) * r + x * (r - 1)| ≤ G k * B * (1 + G l) + B * G l := by
    refine (abs_add_le _ _).trans ?_
    rw [abs_mul, abs_mul, abs_of_nonneg hr0]
    exact add_le_add (mul_le_mul he hr1 hr0 (mul_nonneg hG hB0)) (mul_le_mul hB hr2 (abs_nonneg _) hB0)
  rw [e, abs_mul]
  calc |c| * |(d - x) * r + x * (r - 1)| ≤ |c| * (G k * B * (1 + G l) + B * G l) :=
        mul_le_mul_of_nonneg_left h1 (abs_nonneg _)
    _ = ((1 + G k) * (1 + G l) - 1) * (B * |c|) := by ring
    _ = G (k + l) * (B * |c|) := by rw [G_add]; ring

theorem Val.mul {a b : Flt A} {x c B : ℚ} {k l : ℕ} {lo hi lo' hi' : ℤ} (ha : Val a x B k lo hi)
    (hb : Coef b c l lo' hi') (h1 : -1022 ≤ lo + lo' := by decide) (h2 : hi + hi' ≤ 1023 := by decide) :
    Val (a * b) (x * c) (B * |c|) (k + l + 1) (lo + lo') (hi + hi') := by
  obtain ⟨_, u1, b1, d, rfl, w1, e1⟩ := ha
  obtain ⟨_, u2, c0, e, rfl, _, w2, r1, r2⟩ := hb
  rw [flt_mul (w1.fin u1) (w2.fin u2)]
  refine Val.round h1 h2 ?_ (w1.mul w2) ?_
  · rw [abs_mul]; exact mul_le_mul_of_nonneg_right b1 (abs_nonneg _)
  · have := err_mul c b1 e1 r1 r2
    rwa [mul_div_cancel₀ _ c0] at this

theorem Val.coefMul {a b : Flt A} {x c B : ℚ} {k l : ℕ} {lo hi lo' hi' : ℤ} (hb : Coef b c l lo' hi')
    (ha : Val a x B k lo hi) (h1 : -1022 ≤ lo + lo' := by decide) (h2 : hi + hi' ≤ 1023 := by decide) :
    Val (b * a) (c * x) (B * |c|) (k + l + 1) (lo + lo') (hi + hi') := by
  have := ha.mul hb h1 h2
  obtain ⟨_, u1, b1, d, rfl, w1, e1⟩ := ha
  obtain ⟨_, u2, c0, e, rfl, _, w2, r1, r2⟩ := hb
  rw [flt_mul (w1.fin u1) (w2.fin u2), mul_comm d.1, mul_comm x] at this
  rw [flt_mul (w2.fin u2) (w1.fin u1)]
  exact this

theorem Val.div {a b : Flt A} {x c B : ℚ} {k l : ℕ} {lo hi lo' hi' : ℤ} (ha : Val a x B k lo hi)
    (hb : Coef b c l lo' hi') (h1 : -1022 ≤ lo - hi' := by decide) (h2 : hi - lo' ≤ 1023 := by decide) :
    Val (a / b) (x / c) (B / |c|) (k + l + 1) (lo - hi') (hi - lo') := by
  obtain ⟨_, u1, b1, d, rfl, w1, e1⟩ := ha
  obtain ⟨_, u2, c0, e, rfl, e0, w2, r1, r2⟩ := hb
  rw [flt_div (w1.fin u1) (w2.fin u2) e0]
  refine Val.round h1 h2 ?_ (w1.div w2) ?_
  · rw [abs_div]; exact div_le_div_of_nonneg_right b1 (abs_nonneg _)
  · have hq := one_sub_pos l
    have hp : 0 < e.1 / c := hq.trans_le r1
    have s1 : (1 - ulp) ^ l ≤ (e.1 / c)⁻¹ := by rwa [le_inv_comm₀ hq hp]
    have s2 : (e.1 / c)⁻¹ ≤ ((1 - ulp) ^ l)⁻¹ := inv_anti₀ hq r1
    have := err_mul c⁻¹ b1 e1 s1 s2
    have e2 : d.1 * (c⁻¹ * (e.1 / c)⁻¹) = d.1 / e.1 := by field_simp
    rw [e2, abs_inv, ← div_eq_mul_inv, ← div_eq_mul_inv] at this
    exact this

theorem Coef.mul {a b : Flt A} {c c' : ℚ} {k l : ℕ} {lo hi lo' hi' : ℤ} (ha : Coef a c k lo hi)
    (hb : Coef b c' l lo' hi') (h1 : -1022 ≤ lo + lo' := by decide) (h2 : hi + hi' ≤ 1023 := by decide) :
    Coef (a * b) (c * c') (k + l + 1) (lo + lo') (hi + hi') := by
  obtain ⟨_, u1, c0, d, rfl, d0, w1, r1, r2⟩ := ha
  obtain ⟨_, u2, c0', e, rfl, e0, w2, s1, s2⟩ := hb
  rw [flt_mul (w1.fin u1) (w2.fin u2)]
  obtain ⟨g1, g2, g3⟩ := rnd_rel A.toRounding h1 h2 (w1.mul w2)
  have h0 : d.1 * e.1 ≠ 0 := mul_ne_zero d0 e0
  refine ⟨h1, h2, mul_ne_zero c0 c0', _, rfl, fun h => h0 (g2.1 h), g3, ?_⟩
  set z := d.1 * e.1 with hz
  set y := (A.rnd z).1 with hy
  have hu : |y / z - 1| ≤ ulp := by
    have : y / z - 1 = (y - z) / z := by field_simp
    rw [this, abs_div, div_le_iff₀ (abs_pos.2 h0)]
    exact g1
  obtain ⟨v1, v2⟩ := abs_le.1 hu
  have q1 : 0 < 1 - ulp := by linarith [ulp_lt]
  have v3 : y / z ≤ (1 - ulp)⁻¹ := by
    have := ulp_le_G
    unfold G at this
    rw [pow_one] at this
    linarith
  have v4 : 1 - ulp ≤ y / z := by linarith
  have e1 : y / (c * c') = d.1 / c * (e.1 / c') * (y / z) := by rw [hz]; field_simp
  have p1 := one_sub_pos k
  have p2 := one_sub_pos l
  rw [e1, pow_succ, pow_add]
  constructor
  · exact mul_le_mul (mul_le_mul r1 s1 p2.le (p1.le.trans r1)) v4 q1.le
      (mul_nonneg (p1.le.trans r1) (p2.le.trans s1))
  · rw [mul_inv, mul_inv]
    exact mul_le_mul (mul_le_mul r2 s2 (p2.le.trans s1) (inv_pos.2 p1).le) v3 (q1.le.trans v4)
      (mul_nonneg (inv_pos.2 p1).le (inv_pos.2 p2).le)

/-- The constant 2. -/
theorem Coef.two : Coef (A := A) 2 2 0 1 1 := by
  have h : (A.rnd 2).1 = 2 := by
    have := A.id ⟨2, Or.inl ⟨2, 0, by decide, by decide, by decide, by norm_num⟩⟩
    rw [this]
  refine ⟨by norm_num, by norm_num, by norm_num, _, rfl, by rw [h]; norm_num, Or.inr ?_, ?_⟩
  · rw [h]; norm_num
  · rw [h]; norm_num

end Verif.Limits
