import Verif.Lemmas.TransmissionDoubleEx

/-!
Lemmas about NaN and infinities.
-/

namespace Verif.Limits

/-- What is larger than all numbers becomes infinite. -/
theorem rnd_huge (R : Rounding binary64) {x : ℚ} (h : binary64.inf ≤ x) : (R.rnd x).isInf = true := by
  have h1 := R.nearest x Fl.infinity
  have e : (Fl.infinity (f := binary64)).1 = binary64.inf := rfl
  have h2 := (R.rnd x).abs_le
  have h3 : (R.rnd x).1 ≤ binary64.inf := (le_abs_self _).trans h2
  rw [e, abs_of_nonneg (by linarith), abs_of_nonneg (by linarith)] at h1
  unfold Fl.isInf
  rw [decide_eq_true_eq, le_antisymm h3 (by linarith)]
  exact abs_of_pos binary64.inf_pos

end Verif.Limits

namespace Verif.Transmission

open Limits

variable {A : Machine binary64}

theorem NotFinite.fl {d : Fl binary64} (h : d.isInf = true) : NotFinite (Flt.fl d : Flt A) := Or.inr ⟨d, rfl, h⟩

theorem nan_left (op : Fl binary64 → Fl binary64 → Option (Fl binary64)) {a : Flt A} (b : Flt A) (h : IsNaN a) :
    IsNaN (Flt.lift op a b) := by
  unfold IsNaN at h ⊢
  subst h
  rfl

theorem nan_right (op : Fl binary64 → Fl binary64 → Option (Fl binary64)) (a : Flt A) {b : Flt A} (h : IsNaN b) :
    IsNaN (Flt.lift op a b) := by
  unfold IsNaN at h ⊢
  subst h
  unfold Flt.lift
  cases a <;> rfl

theorem infinity_isInf : (Fl.infinity (f := binary64)).isInf = true := by
  unfold Fl.isInf
  rw [decide_eq_true_eq]
  exact abs_of_pos binary64.inf_pos

theorem not_finite_left {op : Fl binary64 → Fl binary64 → Option (Fl binary64)}
    (hop : ∀ a b, a.isInf = true → op a b = none ∨ ∃ d, op a b = some d ∧ d.isInf = true)
    {a : Flt A} (b : Flt A) (h : NotFinite a) : NotFinite (Flt.lift op a b) := by
  rcases h with h | ⟨d, rfl, hd⟩
  · exact Or.inl (nan_left op b h)
  · cases b with
    | none => exact Or.inl rfl
    | some b =>
      rcases hop d b hd with e | ⟨d', e, h⟩
      · exact Or.inl e
      · exact Or.inr ⟨d', e, h⟩

theorem not_finite_right {op : Fl binary64 → Fl binary64 → Option (Fl binary64)}
    (hop : ∀ a b, b.isInf = true → op a b = none ∨ ∃ d, op a b = some d ∧ d.isInf = true)
    (a : Flt A) {b : Flt A} (h : NotFinite b) : NotFinite (Flt.lift op a b) := by
  rcases h with h | ⟨d, rfl, hd⟩
  · exact Or.inl (nan_right op a h)
  · cases a with
    | none => exact Or.inl rfl
    | some a =>
      rcases hop a d hd with e | ⟨d', e, h⟩
      · exact Or.inl e
      · exact Or.inr ⟨d', e, h⟩

theorem add_inf_left (R : Rounding binary64) (a b : Fl binary64) (h : a.isInf = true) :
    Fl.add R a b = none ∨ ∃ d, Fl.add R a b = some d ∧ d.isInf = true := by
  unfold Fl.add
  rw [if_pos h]
  split
  · exact Or.inl rfl
  · exact Or.inr ⟨a, rfl, h⟩

theorem add_inf_right (R : Rounding binary64) (a b : Fl binary64) (h : b.isInf = true) :
    Fl.add R a b = none ∨ ∃ d, Fl.add R a b = some d ∧ d.isInf = true := by
  unfold Fl.add
  split
  · rename_i ha
    split
    · exact Or.inl rfl
    · exact Or.inr ⟨a, rfl, ha⟩
  · exact Or.inr ⟨b, rfl, h⟩

theorem mul_inf (R : Rounding binary64) (a b : Fl binary64) (h : a.isInf = true ∨ b.isInf = true) :
    Fl.mul R a b = none ∨ ∃ d, Fl.mul R a b = some d ∧ d.isInf = true := by
  unfold Fl.mul
  rw [if_pos (by simpa using h)]
  split
  · exact Or.inl rfl
  · split
    · exact Or.inr ⟨_, rfl, infinity_isInf⟩
    · exact Or.inr ⟨_, rfl, by rw [Fl.isInf_neg]; exact infinity_isInf⟩

theorem div_inf (a b : Fl binary64) (h : a.isInf = true) :
    Fl.div A a b = none ∨ ∃ d, Fl.div A a b = some d ∧ d.isInf = true := by
  unfold Fl.div
  have hi : ∀ (c : Prop) [Decidable c], (if c then Fl.infinity else Fl.neg (Fl.infinity (f := binary64))).isInf = true := by
    intro c _
    split
    · exact infinity_isInf
    · rw [Fl.isInf_neg]; exact infinity_isInf
  have hi' : ∀ (c : Prop) [Decidable c], (if c then Fl.neg Fl.infinity else (Fl.infinity (f := binary64))).isInf = true := by
    intro c _
    split
    · rw [Fl.isInf_neg]; exact infinity_isInf
    · exact infinity_isInf
  by_cases hb : b.isInf = true
  · rw [if_pos (by simp [h, hb])]; exact Or.inl rfl
  · rw [if_neg (by simp [hb]), if_neg hb]
    split
    · split
      · exact Or.inl rfl
      · exact Or.inr ⟨_, rfl, hi' _⟩
    · exact Or.inr ⟨_, rfl, hi _⟩

theorem NotFinite.add_left {a : Flt A} (b : Flt A) (h : NotFinite a) : NotFinite (a + b) :=
  not_finite_left (add_inf_left _) b h

theorem NotFinite.add_right (a : Flt A) {b : Flt A} (h : NotFinite b) : NotFinite (a + b) :=
  not_finite_right (add_inf_right _) a h

theorem NotFinite.sub_left {a : Flt A} (b : Flt A) (h : NotFinite a) : NotFinite (a - b) :=
  not_finite_left (fun _ _ h => add_inf_left _ _ _ h) b h

theorem NotFinite.sub_right (a : Flt A) {b : Flt A} (h : NotFinite b) : NotFinite (a - b) :=
  not_finite_right (fun _ b h => add_inf_right _ _ _ (by rw [Fl.isInf_neg]; exact h)) a h

theorem NotFinite.mul_left {a : Flt A} (b : Flt A) (h : NotFinite a) : NotFinite (a * b) :=
  not_finite_left (fun a b h => mul_inf _ a b (Or.inl h)) b h

theorem NotFinite.mul_right (a : Flt A) {b : Flt A} (h : NotFinite b) : NotFinite (a * b) :=
  not_finite_right (fun a b h => mul_inf _ a b (Or.inr h)) a h

theorem NotFinite.div_left {a : Flt A} (b : Flt A) (h : NotFinite a) : NotFinite (a / b) :=
  not_finite_left (fun a b h => div_inf a b h) b h

theorem IsNaN.add_left {a : Flt A} (b : Flt A) (h : IsNaN a) : IsNaN (a + b) := nan_left _ b h
theorem IsNaN.add_right (a : Flt A) {b : Flt A} (h : IsNaN b) : IsNaN (a + b) := nan_right _ a h
theorem IsNaN.sub_left {a : Flt A} (b : Flt A) (h : IsNaN a) : IsNaN (a - b) := nan_left _ b h
theorem IsNaN.sub_right (a : Flt A) {b : Flt A} (h : IsNaN b) : IsNaN (a - b) := nan_right _ a h
theorem IsNaN.mul_left {a : Flt A} (b : Flt A) (h : IsNaN a) : IsNaN (a * b) := nan_left _ b h
theorem IsNaN.mul_right (a : Flt A) {b : Flt A} (h : IsNaN b) : IsNaN (a * b) := nan_right _ a h
theorem IsNaN.div_left {a : Flt A} (b : Flt A) (h : IsNaN a) : IsNaN (a / b) := nan_left _ b h

/-- What holds of the results if it holds of one of the operands, except for divisors. -/
structure Absorbing (P : Flt A → Prop) : Prop where
  add_left : ∀ a b, P a → P (a + b)
  add_right : ∀ a b, P b → P (a + b)
  sub_left : ∀ a b, P a → P (a - b)
  sub_right : ∀ a b, P b → P (a - b)
  mul_left : ∀ a b, P a → P (a * b)
  mul_right : ∀ a b, P b → P (a * b)
  div_left : ∀ a b, P a → P (a / b)

theorem absorbing_not_finite : Absorbing (NotFinite (A := A)) :=
  ⟨fun _ b h => h.add_left b, fun a _ h => h.add_right a, fun _ b h => h.sub_left b, fun a _ h => h.sub_right a,
    fun _ b h => h.mul_left b, fun a _ h => h.mul_right a, fun _ b h => h.div_left b⟩

theorem absorbing_nan : Absorbing (IsNaN (A := A)) :=
  ⟨fun _ b h => h.add_left b, fun a _ h => h.add_right a, fun _ b h => h.sub_left b, fun a _ h => h.sub_right a,
    fun _ b h => h.mul_left b, fun a _ h => h.mul_right a, fun _ b h => h.div_left b⟩

section

variable {P : Flt A → Prop} (hP : Absorbing P)
include hP

/-- The maps of one value. -/
theorem Absorbing.one (q : Quantity) (t : Simple (Flt A)) (x : Flt A) (h : P x) :
    P ((jointMaps q (.simple t)).f1 x) ∧ P ((actuatorMaps q (.simple t)).f1 x) := by
  obtain ⟨h1, h2, h3, h4, h5, h6, h7⟩ := hP
  cases q <;> simp only [jointMaps, actuatorMaps]
  · exact ⟨h1 _ _ (h7 _ _ h), h5 _ _ (h3 _ _ h)⟩
  · exact ⟨h7 _ _ h, h5 _ _ h⟩
  · exact ⟨h5 _ _ h, h7 _ _ h⟩

/-- The maps of a differential transmission. -/
theorem Absorbing.differential (q : Quantity) (t : Two (Flt A)) (x y : Flt A) (h : P x ∨ P y) :
    P ((jointMaps q (.differential t)).f2 x y) ∧ P ((jointMaps q (.differential t)).g2 x y) ∧
    P ((actuatorMaps q (.differential t)).f2 x y) ∧ P ((actuatorMaps q (.differential t)).g2 x y) := by
  obtain ⟨h1, h2, h3, h4, h5, h6, h7⟩ := hP
  have s1 : ∀ c d, P (x / c + y / d) := fun c d => h.elim (fun h => h1 _ _ (h7 _ _ h)) fun h => h2 _ _ (h7 _ _ h)
  have s2 : ∀ c d, P (x / c - y / d) := fun c d => h.elim (fun h => h3 _ _ (h7 _ _ h)) fun h => h4 _ _ (h7 _ _ h)
  have s3 : ∀ c d, P (x * c + y * d) := fun c d => h.elim (fun h => h1 _ _ (h5 _ _ h)) fun h => h2 _ _ (h5 _ _ h)
  have s4 : ∀ c d, P (x * c - y * d) := fun c d => h.elim (fun h => h3 _ _ (h5 _ _ h)) fun h => h4 _ _ (h5 _ _ h)
  have s5 : ∀ b b' c d, P ((x - b) * c + (y - b') * d) := fun b b' c d =>
    h.elim (fun h => h1 _ _ (h5 _ _ (h3 _ _ h))) fun h => h2 _ _ (h5 _ _ (h3 _ _ h))
  have s6 : ∀ b b' c d, P ((x - b) * c - (y - b') * d) := fun b b' c d =>
    h.elim (fun h => h3 _ _ (h5 _ _ (h3 _ _ h))) fun h => h4 _ _ (h5 _ _ (h3 _ _ h))
  cases q <;> simp only [jointMaps, actuatorMaps]
  · exact ⟨h1 _ _ (h7 _ _ (s1 _ _)), h1 _ _ (h7 _ _ (s2 _ _)), h5 _ _ (s5 _ _ _ _), h5 _ _ (s6 _ _ _ _)⟩
  · exact ⟨h7 _ _ (s1 _ _), h7 _ _ (s2 _ _), h5 _ _ (s3 _ _), h5 _ _ (s4 _ _)⟩
  · exact ⟨h6 _ _ (s3 _ _), h6 _ _ (s4 _ _), h7 _ _ (s1 _ _), h7 _ _ (s2 _ _)⟩

/-- The maps of a four-bar linkage. -/
theorem Absorbing.fourBar (q : Quantity) (t : Two (Flt A)) (x y : Flt A) :
    (P x → P ((jointMaps q (.fourBar t)).f2 x y) ∧ P ((actuatorMaps q (.fourBar t)).f2 x y)) ∧
    (P x ∨ P y → P ((jointMaps q (.fourBar t)).g2 x y) ∧ P ((actuatorMaps q (.fourBar t)).g2 x y)) := by
  obtain ⟨h1, h2, h3, h4, h5, h6, h7⟩ := hP
  cases q <;> simp only [jointMaps, actuatorMaps]
  · refine ⟨fun h => ⟨h1 _ _ (h7 _ _ h), h5 _ _ (h5 _ _ (h3 _ _ h))⟩, fun h => ⟨h1 _ _ (h7 _ _ ?_), h5 _ _ ?_⟩⟩
    · exact h.elim (fun h => h4 _ _ (h7 _ _ h)) fun h => h3 _ _ (h7 _ _ h)
    · exact h.elim (fun h => h1 _ _ (h3 _ _ h)) fun h => h2 _ _ (h5 _ _ (h3 _ _ h))
  · refine ⟨fun h => ⟨h7 _ _ h, h5 _ _ (h5 _ _ h)⟩, fun h => ⟨h7 _ _ ?_, h5 _ _ ?_⟩⟩
    · exact h.elim (fun h => h4 _ _ (h7 _ _ h)) fun h => h3 _ _ (h7 _ _ h)
    · exact h.elim (fun h => h1 _ _ h) fun h => h2 _ _ (h5 _ _ h)
  · refine ⟨fun h => ⟨h6 _ _ (h5 _ _ h), h7 _ _ h⟩, fun h => ⟨h6 _ _ ?_, h7 _ _ ?_⟩⟩
    · exact h.elim (fun h => h4 _ _ (h5 _ _ (h5 _ _ h))) fun h => h3 _ _ (h5 _ _ h)
    · exact h.elim (fun h => h1 _ _ h) fun h => h2 _ _ (h7 _ _ h)

/-- The results of a map. -/
theorem Absorbing.run (q : Quantity) (T : Trans (Flt A)) {xs : List (Flt A)} (hl : xs.length = T.numActuators) {i j : Nat}
    (hd : DependsOn T i j) {x : Flt A} (hj : xs[j]? = some x) (hx : P x) :
    (∀ y, ((jointMaps q T).run xs)[i]? = some y → P y) ∧ ∀ y, ((actuatorMaps q T).run xs)[i]? = some y → P y := by
  cases T with
  | simple t =>
    obtain ⟨x0, rfl⟩ := List.length_eq_one_iff.1 hl
    have : x0 = x := by cases j <;> simp at hj; exact hj
    subst this
    obtain ⟨h1, h2⟩ := hP.one q t x0 hx
    constructor
    · intro y hy; cases i <;> simp [Maps.run] at hy; subst hy; exact h1
    · intro y hy; cases i <;> simp [Maps.run] at hy; subst hy; exact h2
  | differential t =>
    obtain ⟨x0, x1, rfl⟩ := List.length_eq_two.1 hl
    have h : P x0 ∨ P x1 := by
      rcases j with _ | _ | j <;> simp at hj
      · exact Or.inl (hj ▸ hx)
      · exact Or.inr (hj ▸ hx)
    obtain ⟨h1, h2, h3, h4⟩ := hP.differential q t x0 x1 h
    constructor
    · intro y hy
      rcases i with _ | _ | i <;> simp [Maps.run] at hy <;> subst hy
      · exact h1
      · exact h2
    · intro y hy
      rcases i with _ | _ | i <;> simp [Maps.run] at hy <;> subst hy
      · exact h3
      · exact h4
  | fourBar t =>
    obtain ⟨x0, x1, rfl⟩ := List.length_eq_two.1 hl
    have h : P x0 ∨ P x1 ∧ i ≠ 0 := by
      rcases j with _ | _ | j <;> simp at hj
      · exact Or.inl (hj ▸ hx)
      · exact Or.inr ⟨hj ▸ hx, fun e => hd ⟨e, rfl⟩⟩
    obtain ⟨h1, h2⟩ := hP.fourBar q t x0 x1
    constructor
    · intro y hy
      rcases i with _ | _ | i <;> simp [Maps.run] at hy <;> subst hy
      · exact (h1 (h.resolve_right fun h => h.2 rfl)).1
      · exact (h2 (h.imp_right And.left)).1
    · intro y hy
      rcases i with _ | _ | i <;> simp [Maps.run] at hy <;> subst hy
      · exact (h1 (h.resolve_right fun h => h.2 rfl)).2
      · exact (h2 (h.imp_right And.left)).2

end

end Verif.Transmission
