import Verif.Spec.TransmissionDouble
import Verif.Lemmas.DoubleCalc
import Verif.Lemmas.Transmission
import Mathlib.Tactic.NormNum

/-!
Error bounds for the maps of the transmissions.
-/

namespace Verif.Transmission

open Limits

variable {A : Machine binary64}

theorem val_of {a : Flt A} {x : ℚ} (h : Means a x) : Val a x |x| 0 (-100) 100 := by
  obtain ⟨⟨d, rfl, rfl⟩, h⟩ := h
  refine ⟨by decide, by decide, le_refl _, d, rfl, h, ?_⟩
  simp [G]

theorem coef_of {a : Flt A} {x : ℚ} (h : Means a x) (h0 : x ≠ 0) : Coef a x 0 (-100) 100 := by
  obtain ⟨⟨d, rfl, rfl⟩, h⟩ := h
  refine ⟨by decide, by decide, h0, d, rfl, h0, h, ?_⟩
  simp [div_self h0]

/-- A value after at most nine roundings. -/
def Acc (a : Flt A) (x B : ℚ) : Prop := ∃ k lo hi, k ≤ 9 ∧ Val a x B k lo hi

theorem G_nine : G 9 ≤ (2 ^ 49)⁻¹ := by
  unfold G ulp
  norm_num

theorem Acc.near {a : Flt A} {x B : ℚ} (h : Acc a x B) : ∃ y, Is a y ∧ |y - x| ≤ (2 ^ 49)⁻¹ * B := by
  obtain ⟨k, lo, hi, hk, _, _, hB, d, rfl, _, he⟩ := h
  refine ⟨d.1, ⟨d, rfl, rfl⟩, he.trans ?_⟩
  exact mul_le_mul_of_nonneg_right ((G_mono hk).trans G_nine) ((abs_nonneg x).trans hB)

/-- The results of both directions, and of one after the other. -/
def AccOne (q : Quantity) (T : Trans (Flt A)) (t : Trans ℚ) (a : Flt A) (x : ℚ) : Prop :=
  Acc ((jointMaps q T).f1 a) ((jointMaps q t).f1 x) ((jointScale q t [|x|])[0]!) ∧
  Acc ((actuatorMaps q T).f1 a) ((actuatorMaps q t).f1 x) ((actuatorScale q t [|x|])[0]!) ∧
  Acc ((actuatorMaps q T).f1 ((jointMaps q T).f1 a)) ((actuatorMaps q t).f1 ((jointMaps q t).f1 x))
    ((actuatorScale q t (jointScale q t [|x|]))[0]!) ∧
  Acc ((jointMaps q T).f1 ((actuatorMaps q T).f1 a)) ((jointMaps q t).f1 ((actuatorMaps q t).f1 x))
    ((jointScale q t (actuatorScale q t [|x|]))[0]!)

theorem acc_simple (q : Quantity) {T : Simple (Flt A)} {t : Simple ℚ} (hr : Means T.reduction t.reduction)
    (ho : Means T.offset t.offset) (h0 : t.reduction ≠ 0) {a : Flt A} {x : ℚ} (ha : Means a x) :
    AccOne q (.simple T) (.simple t) a x := by
  have hx := val_of ha
  have r := coef_of hr h0
  have o := val_of ho
  cases q
  · have j := (hx.div r).add o
    have k := (hx.sub o).mul r
    exact ⟨⟨_, _, _, by decide, j⟩, ⟨_, _, _, by decide, k⟩, ⟨_, _, _, by decide, (j.sub o).mul r⟩,
      ⟨_, _, _, by decide, (k.div r).add o⟩⟩
  · have j := hx.div r
    have k := hx.mul r
    exact ⟨⟨_, _, _, by decide, j⟩, ⟨_, _, _, by decide, k⟩, ⟨_, _, _, by decide, j.mul r⟩,
      ⟨_, _, _, by decide, k.div r⟩⟩
  · have j := hx.mul r
    have k := hx.div r
    exact ⟨⟨_, _, _, by decide, j⟩, ⟨_, _, _, by decide, k⟩, ⟨_, _, _, by decide, j.div r⟩,
      ⟨_, _, _, by decide, k.mul r⟩⟩

/-- The same for two actuators and two joints. -/
def AccTwo (q : Quantity) (T : Trans (Flt A)) (t : Trans ℚ) (a b : Flt A) (x y : ℚ) : Prop :=
  let J := jointMaps q T
  let j := jointMaps q t
  let P := actuatorMaps q T
  let p := actuatorMaps q t
  let s := jointScale q t [|x|, |y|]
  let r := actuatorScale q t [|x|, |y|]
  let s' := actuatorScale q t s
  let r' := jointScale q t r
  (Acc (J.f2 a b) (j.f2 x y) s[0]! ∧ Acc (J.g2 a b) (j.g2 x y) s[1]!) ∧
  (Acc (P.f2 a b) (p.f2 x y) r[0]! ∧ Acc (P.g2 a b) (p.g2 x y) r[1]!) ∧
  (Acc (P.f2 (J.f2 a b) (J.g2 a b)) (p.f2 (j.f2 x y) (j.g2 x y)) s'[0]! ∧
    Acc (P.g2 (J.f2 a b) (J.g2 a b)) (p.g2 (j.f2 x y) (j.g2 x y)) s'[1]!) ∧
  (Acc (J.f2 (P.f2 a b) (P.g2 a b)) (j.f2 (p.f2 x y) (p.g2 x y)) r'[0]! ∧
    Acc (J.g2 (P.f2 a b) (P.g2 a b)) (j.g2 (p.f2 x y) (p.g2 x y)) r'[1]!)

theorem acc_differential (q : Quantity) {T : Two (Flt A)} {t : Two ℚ} (h : SameTrans (.differential T) (.differential t))
    (h0 : (Trans.differential t).Regular) {a b : Flt A} {x y : ℚ} (ha : Means a x) (hb : Means b y) :
    AccTwo q (.differential T) (.differential t) a b x y := by
  obtain ⟨h1, h2, h3, h4, h5, h6⟩ := h
  obtain ⟨n1, n2, n3, n4⟩ := h0
  have hx := val_of ha
  have hy := val_of hb
  have a1 := coef_of h1 n1
  have a2 := coef_of h2 n2
  have j1 := coef_of h3 n3
  have j2 := coef_of h4 n4
  have o1 := val_of h5
  have o2 := val_of h6
  have tj1 := Coef.two.mul j1
  have tj2 := Coef.two.mul j2
  have ta1 := Coef.two.mul a1
  have ta2 := Coef.two.mul a2
  cases q
  · have u := (((hx.div a1).add (hy.div a2)).div tj1).add o1
    have v := (((hx.div a1).sub (hy.div a2)).div tj2).add o2
    have w := (((hx.sub o1).mul j1).add ((hy.sub o2).mul j2)).mul a1
    have z := (((hx.sub o1).mul j1).sub ((hy.sub o2).mul j2)).mul a2
    have u' := (((u.sub o1).mul j1).add ((v.sub o2).mul j2)).mul a1
    have v' := (((u.sub o1).mul j1).sub ((v.sub o2).mul j2)).mul a2
    have w' := (((w.div a1).add (z.div a2)).div tj1).add o1
    have z' := (((w.div a1).sub (z.div a2)).div tj2).add o2
    exact ⟨⟨⟨_, _, _, by decide, u⟩, ⟨_, _, _, by decide, v⟩⟩, ⟨⟨_, _, _, by decide, w⟩, ⟨_, _, _, by decide, z⟩⟩,
      ⟨⟨_, _, _, by decide, u'⟩, ⟨_, _, _, by decide, v'⟩⟩, ⟨⟨_, _, _, by decide, w'⟩, ⟨_, _, _, by decide, z'⟩⟩⟩
  · have u := (((hx.div a1).add (hy.div a2)).div tj1)
    have v := (((hx.div a1).sub (hy.div a2)).div tj2)
    have w := ((hx.mul j1).add (hy.mul j2)).mul a1
    have z := ((hx.mul j1).sub (hy.mul j2)).mul a2
    have u' := ((u.mul j1).add (v.mul j2)).mul a1
    have v' := ((u.mul j1).sub (v.mul j2)).mul a2
    have w' := (((w.div a1).add (z.div a2)).div tj1)
    have z' := (((w.div a1).sub (z.div a2)).div tj2)
    exact ⟨⟨⟨_, _, _, by decide, u⟩, ⟨_, _, _, by decide, v⟩⟩, ⟨⟨_, _, _, by decide, w⟩, ⟨_, _, _, by decide, z⟩⟩,
      ⟨⟨_, _, _, by decide, u'⟩, ⟨_, _, _, by decide, v'⟩⟩, ⟨⟨_, _, _, by decide, w'⟩, ⟨_, _, _, by decide, z'⟩⟩⟩
  · have u := Val.coefMul j1 ((hx.mul a1).add (hy.mul a2))
    have v := Val.coefMul j2 ((hx.mul a1).sub (hy.mul a2))
    have w := ((hx.div j1).add (hy.div j2)).div ta1
    have z := ((hx.div j1).sub (hy.div j2)).div ta2
    have u' := ((u.div j1).add (v.div j2)).div ta1
    have v' := ((u.div j1).sub (v.div j2)).div ta2
    have w' := Val.coefMul j1 ((w.mul a1).add (z.mul a2))
    have z' := Val.coefMul j2 ((w.mul a1).sub (z.mul a2))
    exact ⟨⟨⟨_, _, _, by decide, u⟩, ⟨_, _, _, by decide, v⟩⟩, ⟨⟨_, _, _, by decide, w⟩, ⟨_, _, _, by decide, z⟩⟩,
      ⟨⟨_, _, _, by decide, u'⟩, ⟨_, _, _, by decide, v'⟩⟩, ⟨⟨_, _, _, by decide, w'⟩, ⟨_, _, _, by decide, z'⟩⟩⟩

theorem acc_fourBar (q : Quantity) {T : Two (Flt A)} {t : Two ℚ} (h : SameTrans (.fourBar T) (.fourBar t))
    (h0 : (Trans.fourBar t).Regular) {a b : Flt A} {x y : ℚ} (ha : Means a x) (hb : Means b y) :
    AccTwo q (.fourBar T) (.fourBar t) a b x y := by
  obtain ⟨h1, h2, h3, h4, h5, h6⟩ := h
  obtain ⟨n1, n2, n3, n4⟩ := h0
  have hx := val_of ha
  have hy := val_of hb
  have a1 := coef_of h1 n1
  have a2 := coef_of h2 n2
  have j1 := coef_of h3 n3
  have j2 := coef_of h4 n4
  have o1 := val_of h5
  have o2 := val_of h6
  have ja := j1.mul a1
  have aj := a1.mul j1
  cases q
  · have u := (hx.div ja).add o1
    have v := (((hy.div a2).sub (hx.div ja)).div j2).add o2
    have w := ((hx.sub o1).mul j1).mul a1
    have z := ((hx.sub o1).add ((hy.sub o2).mul j2)).mul a2
    have u' := ((u.sub o1).mul j1).mul a1
    have v' := ((u.sub o1).add ((v.sub o2).mul j2)).mul a2
    have w' := (w.div ja).add o1
    have z' := (((z.div a2).sub (w.div ja)).div j2).add o2
    exact ⟨⟨⟨_, _, _, by decide, u⟩, ⟨_, _, _, by decide, v⟩⟩, ⟨⟨_, _, _, by decide, w⟩, ⟨_, _, _, by decide, z⟩⟩,
      ⟨⟨_, _, _, by decide, u'⟩, ⟨_, _, _, by decide, v'⟩⟩, ⟨⟨_, _, _, by decide, w'⟩, ⟨_, _, _, by decide, z'⟩⟩⟩
  · have u := hx.div ja
    have v := (((hy.div a2).sub (hx.div ja)).div j2)
    have w := (hx.mul j1).mul a1
    have z := (hx.add (hy.mul j2)).mul a2
    have u' := (u.mul j1).mul a1
    have v' := (u.add (v.mul j2)).mul a2
    have w' := w.div ja
    have z' := (((z.div a2).sub (w.div ja)).div j2)
    exact ⟨⟨⟨_, _, _, by decide, u⟩, ⟨_, _, _, by decide, v⟩⟩, ⟨⟨_, _, _, by decide, w⟩, ⟨_, _, _, by decide, z⟩⟩,
      ⟨⟨_, _, _, by decide, u'⟩, ⟨_, _, _, by decide, v'⟩⟩, ⟨⟨_, _, _, by decide, w'⟩, ⟨_, _, _, by decide, z'⟩⟩⟩
  · have u := Val.coefMul j1 (hx.mul a1)
    have v := Val.coefMul j2 ((hy.mul a2).sub ((hx.mul a1).mul j1))
    have w := hx.div aj
    have z := (hx.add (hy.div j2)).div a2
    have u' := u.div aj
    have v' := (u.add (v.div j2)).div a2
    have w' := Val.coefMul j1 (w.mul a1)
    have z' := Val.coefMul j2 ((z.mul a2).sub ((w.mul a1).mul j1))
    exact ⟨⟨⟨_, _, _, by decide, u⟩, ⟨_, _, _, by decide, v⟩⟩, ⟨⟨_, _, _, by decide, w⟩, ⟨_, _, _, by decide, z⟩⟩,
      ⟨⟨_, _, _, by decide, u'⟩, ⟨_, _, _, by decide, v'⟩⟩, ⟨⟨_, _, _, by decide, w'⟩, ⟨_, _, _, by decide, z'⟩⟩⟩

theorem SameTrans.num {T : Trans (Flt A)} {t : Trans ℚ} (h : SameTrans T t) :
    T.numActuators = t.numActuators ∧ T.numJoints = t.numJoints := by
  cases T <;> cases t <;> first | exact ⟨rfl, rfl⟩ | exact h.elim

theorem Means.ne_zero {a : Flt A} {x : ℚ} (h : Means a x) (h0 : a ≠ 0) : x ≠ 0 := by
  obtain ⟨⟨d, rfl, rfl⟩, _⟩ := h
  intro h
  refine h0 ?_
  show Flt.fl d = Flt.fl (A.rnd 0)
  congr 1
  rw [← h]
  exact (A.id d).symm

theorem SameTrans.regular {T : Trans (Flt A)} {t : Trans ℚ} (h : SameTrans T t) (hT : Constructed T) : t.Regular := by
  cases hT with
  | simple r o T hc =>
    cases t with
    | simple t =>
      unfold mkSimple at hc
      split at hc
      · cases hc
      · rename_i h0
        cases hc
        exact h.1.ne_zero (by simpa using h0)
    | differential t => exact h.elim
    | fourBar t => exact h.elim
  | differential ar jr off ign T hc =>
    cases t with
    | simple t => exact h.elim
    | differential t =>
      obtain ⟨_, _, _, _, h1, h2, h3, h4⟩ := mkTwo_some.1 hc
      exact ⟨h.1.ne_zero (by simpa using h1), h.2.1.ne_zero (by simpa using h2), h.2.2.1.ne_zero (by simpa using h3),
        h.2.2.2.1.ne_zero (by simpa using h4)⟩
    | fourBar t => exact h.elim
  | fourBar ar jr off T hc =>
    cases t with
    | simple t => exact h.elim
    | differential t => exact h.elim
    | fourBar t =>
      obtain ⟨_, _, _, _, h1, h2, h3, h4⟩ := mkTwo_some.1 hc
      exact ⟨h.1.ne_zero (by simpa using h1), h.2.1.ne_zero (by simpa using h2), h.2.2.1.ne_zero (by simpa using h3),
        h.2.2.2.1.ne_zero (by simpa using h4)⟩

/-- All four bounds at once. -/
theorem near_all (q : Quantity) {T : Trans (Flt A)} (hT : Constructed T) {t : Trans ℚ} (hs : SameTrans T t)
    {l : List (Flt A)} (hl : l.length = T.numActuators) {xs : List ℚ} (hm : MeansAll l xs) :
    Near (2 ^ 49)⁻¹ ((jointMaps q T).run l) ((jointMaps q t).run xs) (jointScale q t (xs.map abs)) ∧
    Near (2 ^ 49)⁻¹ ((actuatorMaps q T).run l) ((actuatorMaps q t).run xs) (actuatorScale q t (xs.map abs)) ∧
    Near (2 ^ 49)⁻¹ ((actuatorMaps q T).run ((jointMaps q T).run l)) xs
      (actuatorScale q t (jointScale q t (xs.map abs))) ∧
    Near (2 ^ 49)⁻¹ ((jointMaps q T).run ((actuatorMaps q T).run l)) xs
      (jointScale q t (actuatorScale q t (xs.map abs))) := by
  have hr := hs.regular hT
  have hlx : xs.length = t.numActuators := by rw [← hs.num.1, ← hl]; exact hm.length_eq.symm
  obtain ⟨i1, i2⟩ := run_inv q hr xs hlx
  cases T with
  | simple T =>
    cases t with
    | simple t =>
      obtain ⟨a, rfl⟩ := List.length_eq_one_iff.1 hl
      obtain ⟨x, rfl⟩ := List.length_eq_one_iff.1 hlx
      have hx : Means a x := by simpa [MeansAll] using hm
      obtain ⟨r1, r2, r3, r4⟩ := acc_simple q hs.1 hs.2 hr hx
      simp only [Maps.run, List.cons.injEq, and_true] at i1 i2
      rw [i1] at r3
      rw [i2] at r4
      cases q <;> exact ⟨⟨r1.near, trivial⟩, ⟨r2.near, trivial⟩, ⟨r3.near, trivial⟩, ⟨r4.near, trivial⟩⟩
    | differential t => exact hs.elim
    | fourBar t => exact hs.elim
  | differential T =>
    cases t with
    | simple t => exact hs.elim
    | differential t =>
      obtain ⟨a, b, rfl⟩ := List.length_eq_two.1 hl
      obtain ⟨x, y, rfl⟩ := List.length_eq_two.1 hlx
      have hx : Means a x ∧ Means b y := by simpa [MeansAll] using hm
      obtain ⟨⟨r1, s1⟩, ⟨r2, s2⟩, ⟨r3, s3⟩, ⟨r4, s4⟩⟩ := acc_differential q hs hr hx.1 hx.2
      simp only [Maps.run, List.cons.injEq, and_true] at i1 i2
      rw [i1.1] at r3
      rw [i1.2] at s3
      rw [i2.1] at r4
      rw [i2.2] at s4
      cases q <;> exact ⟨⟨r1.near, s1.near, trivial⟩, ⟨r2.near, s2.near, trivial⟩, ⟨r3.near, s3.near, trivial⟩,
        ⟨r4.near, s4.near, trivial⟩⟩
    | fourBar t => exact hs.elim
  | fourBar T =>
    cases t with
    | simple t => exact hs.elim
    | differential t => exact hs.elim
    | fourBar t =>
      obtain ⟨a, b, rfl⟩ := List.length_eq_two.1 hl
      obtain ⟨x, y, rfl⟩ := List.length_eq_two.1 hlx
      have hx : Means a x ∧ Means b y := by simpa [MeansAll] using hm
      obtain ⟨⟨r1, s1⟩, ⟨r2, s2⟩, ⟨r3, s3⟩, ⟨r4, s4⟩⟩ := acc_fourBar q hs hr hx.1 hx.2
      simp only [Maps.run, List.cons.injEq, and_true] at i1 i2
      rw [i1.1] at r3
      rw [i1.2] at s3
      rw [i2.1] at r4
      rw [i2.2] at s4
      cases q <;> exact ⟨⟨r1.near, s1.near, trivial⟩, ⟨r2.near, s2.near, trivial⟩, ⟨r3.near, s3.near, trivial⟩,
        ⟨r4.near, s4.near, trivial⟩⟩

end Verif.Transmission
