import Verif.Spec.LimitsConfig

/-!
Lemmas on reading limits.
-/

namespace Verif.Limits

variable {F : Type} {ofInt : Int → F} {p : Params F}

theorem getBool_eq {key : String} {b : Bool} : getBool p key = some b ↔ p key = some (.bool b) := by
  unfold getBool
  split
  · rename_i c h; rw [h]; simp
  · rename_i h
    constructor
    · intro h'; cases h'
    · intro h'; exact absurd h' (h b)

theorem getDouble_eq {key : String} {x : F} : getDouble ofInt p key = some x ↔ IsNumber ofInt p key x := by
  unfold getDouble IsNumber
  split
  · rename_i c h; rw [h]; simp
  · rename_i n h; rw [h]; simp [eq_comm]
  · rename_i h1 h2
    constructor
    · intro h; cases h
    · rintro (h | ⟨n, h, -⟩)
      · exact absurd h (h1 _)
      · exact absurd h (h2 _)

/-- One of the functions that read a group: what it does to each group, and to the wraparound flag. -/
structure Reads (ofInt : Int → F) (p : Params F) (g : Group) (f : FullLimits F → FullLimits F) : Prop where
  specified : ∀ L xs, Specifies ofInt p g xs → (f L).has g = true ∧ (f L).values g = xs
  disabled : ∀ L, Disables p g → (f L).has g = false ∧ (f L).values g = L.values g
  otherwise : ∀ L, (¬∃ xs, Specifies ofInt p g xs) → ¬Disables p g → (f L).has g = L.has g ∧ (f L).values g = L.values g
  others : ∀ L h, h ≠ g → (f L).has h = L.has h ∧ (f L).values h = L.values h

theorem readPosition_reads : Reads ofInt p .position (readPosition ofInt p) := by
  constructor
  · rintro L xs ⟨hf, hx⟩
    rcases hx with _ | ⟨h1, hx⟩
    rcases hx with _ | ⟨h2, hx⟩
    cases hx
    have hf : getBool p "has_position_limits" = some true := getBool_eq.2 hf
    simp [readPosition, hf, getDouble_eq.2 h1, getDouble_eq.2 h2, FullLimits.has, FullLimits.values]
  · intro L hf
    have hf : getBool p "has_position_limits" = some false := getBool_eq.2 hf
    simp only [readPosition, hf]
    cases getBool p "angle_wraparound" <;> simp [FullLimits.has, FullLimits.values]
  · intro L h1 h2
    unfold readPosition
    cases hf : getBool p "has_position_limits" with
    | none => exact ⟨rfl, rfl⟩
    | some b =>
      cases b with
      | false => exact absurd (getBool_eq.1 hf) h2
      | true =>
        cases ha : getDouble ofInt p "min_position" with
        | none => simp
        | some lo =>
          cases hb : getDouble ofInt p "max_position" with
          | none => simp
          | some hi =>
            refine absurd ⟨[lo, hi], getBool_eq.1 hf, ?_⟩ h1
            exact .cons (getDouble_eq.1 ha) (.cons (getDouble_eq.1 hb) .nil)
  · intro L h hne
    unfold readPosition
    cases hf : getBool p "has_position_limits" with
    | none => exact ⟨rfl, rfl⟩
    | some b =>
      cases b <;> cases getDouble ofInt p "min_position" <;> cases getDouble ofInt p "max_position" <;>
        cases getBool p "angle_wraparound" <;> cases h <;> first | exact absurd rfl hne | exact ⟨rfl, rfl⟩

/-- The four other functions have the same shape. -/
theorem reads_of {g : Group} {key : String} {f : FullLimits F → FullLimits F} (hk : g.keys = [key])
    (h0 : getBool p g.flag = none → ∀ L, f L = L)
    (h1 : getBool p g.flag = some false → ∀ L, (f L).has g = false ∧ (f L).values g = L.values g)
    (h2 : getBool p g.flag = some true → getDouble ofInt p key = none → ∀ L, f L = L)
    (h3 : getBool p g.flag = some true → ∀ x, getDouble ofInt p key = some x → ∀ L, (f L).has g = true ∧ (f L).values g = [x])
    (ho : ∀ L h, h ≠ g → (f L).has h = L.has h ∧ (f L).values h = L.values h) : Reads ofInt p g f := by
  refine ⟨?_, ?_, ?_, ho⟩
  · rintro L xs ⟨hf, hx⟩
    rw [hk] at hx
    rcases hx with _ | ⟨hx1, hx⟩
    cases hx
    exact h3 (getBool_eq.2 hf) _ (getDouble_eq.2 hx1) L
  · intro L hf; exact h1 (getBool_eq.2 hf) L
  · intro L hs hd
    cases hf : getBool p g.flag with
    | none => rw [h0 hf]; exact ⟨rfl, rfl⟩
    | some b =>
      cases b with
      | false => exact absurd (getBool_eq.1 hf) hd
      | true =>
        cases hx : getDouble ofInt p key with
        | none => rw [h2 hf hx]; exact ⟨rfl, rfl⟩
        | some x => exact absurd ⟨[x], getBool_eq.1 hf, by rw [hk]; exact .cons (getDouble_eq.1 hx) .nil⟩ hs

theorem readVelocity_reads : Reads ofInt p .velocity (readVelocity ofInt p) := by
  refine reads_of (key := "max_velocity") rfl ?_ ?_ ?_ ?_ ?_
  · intro h L; unfold readVelocity; rw [show getBool p "has_velocity_limits" = _ from h]
  · intro h L; unfold readVelocity; rw [show getBool p "has_velocity_limits" = _ from h]; exact ⟨rfl, rfl⟩
  · intro h hx L; unfold readVelocity; rw [show getBool p "has_velocity_limits" = _ from h]; dsimp only; rw [hx]
  · intro h x hx L; unfold readVelocity; rw [show getBool p "has_velocity_limits" = _ from h]; dsimp only; rw [hx]
    exact ⟨rfl, rfl⟩
  · intro L h hne
    unfold readVelocity
    cases h <;> first | exact absurd rfl hne | (split <;> first | exact ⟨rfl, rfl⟩ | (split <;> exact ⟨rfl, rfl⟩))

theorem readAcceleration_reads : Reads ofInt p .acceleration (readAcceleration ofInt p) := by
  refine reads_of (key := "max_acceleration") rfl ?_ ?_ ?_ ?_ ?_
  · intro h L; unfold readAcceleration; rw [show getBool p "has_acceleration_limits" = _ from h]
  · intro h L; unfold readAcceleration; rw [show getBool p "has_acceleration_limits" = _ from h]; exact ⟨rfl, rfl⟩
  · intro h hx L; unfold readAcceleration; rw [show getBool p "has_acceleration_limits" = _ from h]; dsimp only; rw [hx]
  · intro h x hx L; unfold readAcceleration; rw [show getBool p "has_acceleration_limits" = _ from h]; dsimp only
    rw [hx]; exact ⟨rfl, rfl⟩
  · intro L h hne
    unfold readAcceleration
    cases h <;> first | exact absurd rfl hne | (split <;> first | exact ⟨rfl, rfl⟩ | (split <;> exact ⟨rfl, rfl⟩))

theorem readJerk_reads : Reads ofInt p .jerk (readJerk ofInt p) := by
  refine reads_of (key := "max_jerk") rfl ?_ ?_ ?_ ?_ ?_
  · intro h L; unfold readJerk; rw [show getBool p "has_jerk_limits" = _ from h]
  · intro h L; unfold readJerk; rw [show getBool p "has_jerk_limits" = _ from h]; exact ⟨rfl, rfl⟩
  · intro h hx L; unfold readJerk; rw [show getBool p "has_jerk_limits" = _ from h]; dsimp only; rw [hx]
  · intro h x hx L; unfold readJerk; rw [show getBool p "has_jerk_limits" = _ from h]; dsimp only; rw [hx]
    exact ⟨rfl, rfl⟩
  · intro L h hne
    unfold readJerk
    cases h <;> first | exact absurd rfl hne | (split <;> first | exact ⟨rfl, rfl⟩ | (split <;> exact ⟨rfl, rfl⟩))

theorem readEffort_reads : Reads ofInt p .effort (readEffort ofInt p) := by
  refine reads_of (key := "max_effort") rfl ?_ ?_ ?_ ?_ ?_
  · intro h L; unfold readEffort; rw [show getBool p "has_effort_limits" = _ from h]
  · intro h L; unfold readEffort; rw [show getBool p "has_effort_limits" = _ from h]; exact ⟨rfl, rfl⟩
  · intro h hx L; unfold readEffort; rw [show getBool p "has_effort_limits" = _ from h]; dsimp only; rw [hx]
  · intro h x hx L; unfold readEffort; rw [show getBool p "has_effort_limits" = _ from h]; dsimp only; rw [hx]
    exact ⟨rfl, rfl⟩
  · intro L h hne
    unfold readEffort
    cases h <;> first | exact absurd rfl hne | (split <;> first | exact ⟨rfl, rfl⟩ | (split <;> exact ⟨rfl, rfl⟩))

/-- Reading a group, after and before reading others. -/
theorem Reads.comp {g : Group} {f a b : FullLimits F → FullLimits F} (h : Reads ofInt p g f)
    (ha : ∀ L, (a L).has g = L.has g ∧ (a L).values g = L.values g)
    (hb : ∀ L, (b L).has g = L.has g ∧ (b L).values g = L.values g) (L : FullLimits F) :
    (∀ xs, Specifies ofInt p g xs → (b (f (a L))).has g = true ∧ (b (f (a L))).values g = xs) ∧
    (Disables p g → (b (f (a L))).has g = false ∧ (b (f (a L))).values g = L.values g) ∧
    ((¬∃ xs, Specifies ofInt p g xs) → ¬Disables p g →
      (b (f (a L))).has g = L.has g ∧ (b (f (a L))).values g = L.values g) := by
  rw [(hb _).1, (hb _).2, ← (ha L).1, ← (ha L).2]
  exact ⟨h.specified _, h.disabled _, h.otherwise _⟩

theorem paramLimits_reads (g : Group) (L : FullLimits F) :
    (∀ xs, Specifies ofInt p g xs → (paramLimits ofInt (some p) L).2.has g = true ∧ (paramLimits ofInt (some p) L).2.values g = xs) ∧
    (Disables p g → (paramLimits ofInt (some p) L).2.has g = false ∧ (paramLimits ofInt (some p) L).2.values g = L.values g) ∧
    ((¬∃ xs, Specifies ofInt p g xs) → ¬Disables p g →
      (paramLimits ofInt (some p) L).2.has g = L.has g ∧ (paramLimits ofInt (some p) L).2.values g = L.values g) := by
  have hP := readPosition_reads (ofInt := ofInt) (p := p)
  have hV := readVelocity_reads (ofInt := ofInt) (p := p)
  have hA := readAcceleration_reads (ofInt := ofInt) (p := p)
  have hJ := readJerk_reads (ofInt := ofInt) (p := p)
  have hE := readEffort_reads (ofInt := ofInt) (p := p)
  have tr : ∀ {g : Group} {a b : FullLimits F → FullLimits F},
      (∀ L, (a L).has g = L.has g ∧ (a L).values g = L.values g) →
      (∀ L, (b L).has g = L.has g ∧ (b L).values g = L.values g) →
      ∀ L, (b (a L)).has g = L.has g ∧ (b (a L)).values g = L.values g := fun ha hb L =>
    ⟨(hb _).1.trans (ha _).1, (hb _).2.trans (ha _).2⟩
  cases g
  · exact hP.comp (a := id) (fun _ => ⟨rfl, rfl⟩) (tr (tr (tr (fun L => hV.others L _ (by decide))
      (fun L => hA.others L _ (by decide))) (fun L => hJ.others L _ (by decide))) (fun L => hE.others L _ (by decide))) L
  · exact hV.comp (fun L => hP.others L _ (by decide)) (tr (tr (fun L => hA.others L _ (by decide))
      (fun L => hJ.others L _ (by decide))) (fun L => hE.others L _ (by decide))) L
  · exact hA.comp (tr (fun L => hP.others L _ (by decide)) (fun L => hV.others L _ (by decide)))
      (tr (fun L => hJ.others L _ (by decide)) (fun L => hE.others L _ (by decide))) L
  · exact hJ.comp (tr (tr (fun L => hP.others L _ (by decide)) (fun L => hV.others L _ (by decide)))
      (fun L => hA.others L _ (by decide))) (fun L => hE.others L _ (by decide)) L
  · exact hE.comp (b := id) (tr (tr (tr (fun L => hP.others L _ (by decide)) (fun L => hV.others L _ (by decide)))
      (fun L => hA.others L _ (by decide))) (fun L => hJ.others L _ (by decide))) (fun _ => ⟨rfl, rfl⟩) L

theorem wraparound_eq (L : FullLimits F) : (paramLimits ofInt (some p) L).2.angleWraparound =
    (readPosition ofInt p L).angleWraparound := by
  have hV : ∀ L : FullLimits F, (readVelocity ofInt p L).angleWraparound = L.angleWraparound := by
    intro L; unfold readVelocity; split <;> first | rfl | (split <;> rfl)
  have hA : ∀ L : FullLimits F, (readAcceleration ofInt p L).angleWraparound = L.angleWraparound := by
    intro L; unfold readAcceleration; split <;> first | rfl | (split <;> rfl)
  have hJ : ∀ L : FullLimits F, (readJerk ofInt p L).angleWraparound = L.angleWraparound := by
    intro L; unfold readJerk; split <;> first | rfl | (split <;> rfl)
  have hE : ∀ L : FullLimits F, (readEffort ofInt p L).angleWraparound = L.angleWraparound := by
    intro L; unfold readEffort; split <;> first | rfl | (split <;> rfl)
  simp only [paramLimits, hE, hJ, hA, hV]

/-- Limits are determined by their groups and the wraparound flag. -/
theorem FullLimits.ext_groups {L L' : FullLimits F} (h : ∀ g, L.has g = L'.has g ∧ L.values g = L'.values g)
    (hw : L.angleWraparound = L'.angleWraparound) : L = L' := by
  obtain ⟨⟨a1, a2, a3, a4, a5, a6, a7, a8, a9⟩, a10, a11, a12⟩ := L
  obtain ⟨⟨b1, b2, b3, b4, b5, b6, b7, b8, b9⟩, b10, b11, b12⟩ := L'
  have h1 := h .position
  have h2 := h .velocity
  have h3 := h .acceleration
  have h4 := h .jerk
  have h5 := h .effort
  simp only [FullLimits.has, FullLimits.values, List.cons.injEq, and_true] at h1 h2 h3 h4 h5 hw
  obtain ⟨rfl, rfl, rfl⟩ := h1
  obtain ⟨rfl, rfl⟩ := h2
  obtain ⟨rfl, rfl⟩ := h3
  obtain ⟨rfl, rfl⟩ := h4
  obtain ⟨rfl, rfl⟩ := h5
  subst hw
  rfl

end Verif.Limits
