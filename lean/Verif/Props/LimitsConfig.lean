import Verif.Lemmas.LimitsConfig

/-!
Properties C52 and C69: limits from parameters and from the URDF.
-/

namespace Verif.Limits

variable {F : Type} {ofInt : Int → F} {p : Params F}

/-! ### C52: parameters -/

/-- **C52.** A group that is completely specified takes exactly the values specified. -/
theorem c52_specified (L : FullLimits F) (g : Group) (xs : List F) (h : Specifies ofInt p g xs) :
    (paramLimits ofInt (some p) L).2.has g = true ∧ (paramLimits ofInt (some p) L).2.values g = xs :=
  (paramLimits_reads g L).1 xs h

/-- **C52.** A group that is explicitly disabled is disabled; its values stay. -/
theorem c52_disabled (L : FullLimits F) (g : Group) (h : Disables p g) :
    (paramLimits ofInt (some p) L).2.has g = false ∧ (paramLimits ofInt (some p) L).2.values g = L.values g :=
  (paramLimits_reads g L).2.1 h

/-- **C52.** All other groups stay as they were: groups without flag, with a flag of another type, or whose
values are missing or no numbers. -/
theorem c52_untouched (L : FullLimits F) (g : Group) (h1 : ¬∃ xs, Specifies ofInt p g xs) (h2 : ¬Disables p g) :
    (paramLimits ofInt (some p) L).2.has g = L.has g ∧ (paramLimits ofInt (some p) L).2.values g = L.values g :=
  (paramLimits_reads g L).2.2 h1 h2

/-- **C52.** The wraparound flag is set if it is specified and position limits are disabled, and stays
otherwise. -/
theorem c52_wraparound (L : FullLimits F) :
    (∀ w, Disables p .position → p "angle_wraparound" = some (.bool w) →
      (paramLimits ofInt (some p) L).2.angleWraparound = w) ∧
    ((¬Disables p .position ∨ ∀ w, p "angle_wraparound" ≠ some (.bool w)) →
      (paramLimits ofInt (some p) L).2.angleWraparound = L.angleWraparound) := by
  rw [wraparound_eq]
  constructor
  · intro w hd hw
    have hf : getBool p "has_position_limits" = some false := getBool_eq.2 hd
    simp [readPosition, hf, getBool_eq.2 hw]
  · intro h
    unfold readPosition
    cases hf : getBool p "has_position_limits" with
    | none => rfl
    | some b =>
      cases b with
      | true =>
        simp only [Bool.not_true, Bool.false_eq_true, if_false, if_true]
        cases getDouble ofInt p "min_position" with
        | none => rfl
        | some lo => cases getDouble ofInt p "max_position" <;> rfl
      | false =>
        cases hw : getBool p "angle_wraparound" with
        | none => simp
        | some w =>
          rcases h with h | h
          · exact absurd (getBool_eq.1 hf) h
          · exact absurd (getBool_eq.1 hw) (h w)

/-- **C52.** The result tells whether there are parameters for the joint; without them nothing changes. -/
theorem c52_result (q : Option (Params F)) (L : FullLimits F) :
    ((paramLimits ofInt q L).1 = true ↔ q ≠ none) ∧ (q = none → (paramLimits ofInt q L).2 = L) := by
  cases q <;> simp [paramLimits]

/-- **C52.** Loading the same parameters again changes nothing. -/
theorem c52_again (q : Option (Params F)) (L : FullLimits F) :
    (paramLimits ofInt q (paramLimits ofInt q L).2).2 = (paramLimits ofInt q L).2 := by
  cases q with
  | none => rfl
  | some p =>
    refine FullLimits.ext_groups (fun g => ?_) ?_
    · by_cases h1 : ∃ xs, Specifies ofInt p g xs
      · obtain ⟨xs, h⟩ := h1
        rw [(c52_specified _ g xs h).1, (c52_specified _ g xs h).2, (c52_specified _ g xs h).1,
          (c52_specified _ g xs h).2]
        exact ⟨rfl, rfl⟩
      · by_cases h2 : Disables p g
        · rw [(c52_disabled _ g h2).1, (c52_disabled _ g h2).2, (c52_disabled L g h2).1]
          exact ⟨rfl, rfl⟩
        · exact c52_untouched _ g h1 h2
    · by_cases hd : Disables p .position
      · by_cases hw : ∃ w, p "angle_wraparound" = some (.bool w)
        · obtain ⟨w, hw⟩ := hw
          rw [(c52_wraparound _).1 w hd hw, (c52_wraparound _).1 w hd hw]
        · exact (c52_wraparound _).2 (.inr fun w h => hw ⟨w, h⟩)
      · exact (c52_wraparound _).2 (.inl hd)

/-- **C52** for soft limits (missing: values that are no numbers, `c52_soft_type_negation`). If all four values
are numbers and the flag is set, they are taken and the result is true. -/
theorem c52_soft_partial (S : SoftLimits F) {kp kv lo hi : F} (h0 : p "has_soft_limits" = some (.bool true))
    (h1 : IsNumber ofInt p "k_position" kp) (h2 : IsNumber ofInt p "k_velocity" kv)
    (h3 : IsNumber ofInt p "soft_lower_limit" lo) (h4 : IsNumber ofInt p "soft_upper_limit" hi) :
    paramSoftLimits ofInt (some p) S = (true, ⟨lo, hi, kp, kv⟩) := by
  have some_of : ∀ {k x}, IsNumber ofInt p k x → (p k).isSome = true := by
    rintro k x (h | ⟨n, h, -⟩) <;> simp [h]
  simp [paramSoftLimits, getBool_eq.2 h0, some_of h1, some_of h2, some_of h3, some_of h4, getDouble_eq.2 h1,
    getDouble_eq.2 h2, getDouble_eq.2 h3, getDouble_eq.2 h4]

/-- **C52** for soft limits. The result is true exactly if the flag is set and all four parameters exist;
otherwise nothing changes. -/
theorem c52_soft_result (q : Option (Params F)) (S : SoftLimits F) :
    ((paramSoftLimits ofInt q S).1 = true ↔ ∃ p, q = some p ∧ p "has_soft_limits" = some (.bool true) ∧
      ∀ k ∈ ["k_position", "k_velocity", "soft_lower_limit", "soft_upper_limit"], p k ≠ none) ∧
    ((paramSoftLimits ofInt q S).1 = false → (paramSoftLimits ofInt q S).2 = S) := by
  cases q with
  | none => simp [paramSoftLimits]
  | some p =>
    have key : paramSoftLimits ofInt (some p) S = (false, S) ∨ (paramSoftLimits ofInt (some p) S).1 = true := by
      unfold paramSoftLimits
      dsimp only
      split
      · exact .inl rfl
      · split
        · exact .inr rfl
        · exact .inl rfl
    refine ⟨⟨fun h => ⟨p, rfl, ?_⟩, ?_⟩, ?_⟩
    · unfold paramSoftLimits at h
      dsimp only at h
      split at h
      · cases h
      · rename_i b hf
        split at h
        · rename_i hc
          simp only [Bool.and_eq_true, Option.isSome_iff_ne_none] at hc
          obtain ⟨⟨⟨⟨rfl, h1⟩, h2⟩, h3⟩, h4⟩ := hc
          exact ⟨getBool_eq.1 hf, by simp [h1, h2, h3, h4]⟩
        · cases h
    · rintro ⟨p', hp, hb, hk⟩
      cases hp
      have k1 := hk "k_position" (by simp)
      have k2 := hk "k_velocity" (by simp)
      have k3 := hk "soft_lower_limit" (by simp)
      have k4 := hk "soft_upper_limit" (by simp)
      simp only [← Option.isSome_iff_ne_none] at k1 k2 k3 k4
      simp [paramSoftLimits, getBool_eq.2 hb, k1, k2, k3, k4]
    · intro h
      rcases key with e | e
      · rw [e]
      · rw [h] at e; cases e

/-- Parameters from a list. -/
def exParams (l : List (String × Value Int)) : Params Int := fun k => (l.find? (·.1 = k)).map (·.2)

/-- Limits of all groups. -/
def exFullLimits : FullLimits Int := ⟨⟨-1, 1, 2, 3, 4, true, true, true, true⟩, 5, true, false⟩

/-- Position limits are disabled, velocity limits specified, acceleration limits incomplete, effort limits
have no flag. -/
def exJointParams : Params Int := exParams [("has_position_limits", .bool false), ("angle_wraparound", .bool true),
  ("has_velocity_limits", .bool true), ("max_velocity", .int 7), ("has_acceleration_limits", .bool true),
  ("max_effort", .double 9)]

example : Specifies id exJointParams .velocity [7] :=
  ⟨by decide, .cons (.inr ⟨7, by decide, rfl⟩) .nil⟩

example : Disables exJointParams .position := by unfold Disables; decide

example : paramLimits id (some exJointParams) exFullLimits =
    (true, ⟨⟨-1, 1, 7, 3, 4, false, true, true, true⟩, 5, true, true⟩) := by decide

/-- **C52**, a negation for soft limits: a value of the wrong type is passed over, though the result says
that the limits have been read. -/
theorem c52_soft_type_negation : ∃ (p : Params Int) (S : SoftLimits Int), p "k_position" = some .other ∧
    (paramSoftLimits id (some p) S).1 = true ∧ (paramSoftLimits id (some p) S).2.kPosition = S.kPosition ∧
    (paramSoftLimits id (some p) S).2.minPosition ≠ S.minPosition :=
  ⟨exParams [("has_soft_limits", .bool true), ("k_position", .other), ("k_velocity", .int 1),
    ("soft_lower_limit", .int (-2)), ("soft_upper_limit", .int 2)], ⟨0, 0, 0, 0⟩, by decide, by decide, by decide,
    by decide⟩

/-- **C52**, a negation for soft limits: the documentation (joint_limits_rosparam.h 172-193) promises that the
four parameters suffice, but without the undocumented parameter `has_soft_limits` they are ignored. -/
theorem c52_soft_flag_negation : ∃ (p : Params Int) (S : SoftLimits Int),
    (∀ k ∈ ["k_position", "k_velocity", "soft_lower_limit", "soft_upper_limit"], ∃ x, IsNumber id p k x) ∧
    paramSoftLimits id (some p) S = (false, S) := by
  refine ⟨exParams [("k_position", .int 1), ("k_velocity", .int 1), ("soft_lower_limit", .int (-2)),
    ("soft_upper_limit", .int 2)], ⟨0, 0, 0, 0⟩, ?_, by decide⟩
  intro k hk
  simp only [List.mem_cons, List.not_mem_nil, or_false] at hk
  rcases hk with rfl | rfl | rfl | rfl
  · exact ⟨1, .inr ⟨1, by decide, rfl⟩⟩
  · exact ⟨1, .inr ⟨1, by decide, rfl⟩⟩
  · exact ⟨-2, .inr ⟨-2, by decide, rfl⟩⟩
  · exact ⟨2, .inr ⟨2, by decide, rfl⟩⟩

/-! ### C69: the URDF -/

/-- **C69** (missing: the acceleration limits, which the URDF does not specify but which are dropped,
`c69_acceleration_negation`). Limits of a URDF joint are taken: velocity and effort limits always, position
limits if the joint is revolute or prismatic; otherwise there are none. Everything else stays. -/
theorem c69_urdf_partial (j : UrdfJoint F) (u : UrdfLimits F) (hu : j.limits = some u) (L : FullLimits F) :
    let r := urdfLimits (some j) L
    r.1 = true ∧
    (r.2.has .velocity = true ∧ r.2.values .velocity = [u.velocity]) ∧
    (r.2.has .effort = true ∧ r.2.values .effort = [u.effort]) ∧
    (j.type = .revolute ∨ j.type = .prismatic → r.2.has .position = true ∧ r.2.values .position = [u.lower, u.upper]) ∧
    (¬(j.type = .revolute ∨ j.type = .prismatic) →
      r.2.has .position = false ∧ r.2.values .position = L.values .position) ∧
    (r.2.has .jerk = L.has .jerk ∧ r.2.values .jerk = L.values .jerk) ∧
    r.2.values .acceleration = L.values .acceleration ∧
    (j.type = .continuous → r.2.angleWraparound = true) ∧
    (j.type ≠ .continuous → r.2.angleWraparound = L.angleWraparound) := by
  obtain ⟨ty, lim, saf⟩ := j
  dsimp only at hu
  subst hu
  cases ty <;> simp [urdfLimits, FullLimits.has, FullLimits.values]

/-- **C69.** Without limits in the URDF, or without the joint, the result is false and nothing changes. -/
theorem c69_no_limits (j : Option (UrdfJoint F)) (h : ∀ k, j = some k → k.limits = none) (L : FullLimits F) :
    urdfLimits j L = (false, L) := by
  cases j with
  | none => rfl
  | some k => simp [urdfLimits, h k rfl]

/-- **C69** for soft limits: they are those of the safety controller, and stay if there is none. -/
theorem c69_soft (j : Option (UrdfJoint F)) (S : SoftLimits F) :
    (∀ k s, j = some k → k.safety = some s →
      urdfSoftLimits j S = (true, ⟨s.softLower, s.softUpper, s.kPosition, s.kVelocity⟩)) ∧
    ((∀ k, j = some k → k.safety = none) → urdfSoftLimits j S = (false, S)) := by
  cases j with
  | none => simp [urdfSoftLimits]
  | some k =>
    constructor
    · rintro _ s ⟨⟩ hs
      simp [urdfSoftLimits, hs]
    · intro h
      simp [urdfSoftLimits, h k rfl]

/-- **C69.** If the URDF has limits for the joint, all handles that enforce limits can be constructed from
them, whatever the limits were before; and also after the parameters have been loaded, unless they disable
velocity or effort limits. -/
theorem c69_handles {K : Type} {ofInt : Int → Dbl K} (j : Option (UrdfJoint (Dbl K))) (L : FullLimits (Dbl K))
    (h : (urdfLimits j L).1 = true) (q : Option (Params (Dbl K)))
    (hq : ∀ p, q = some p → ¬Disables p .velocity ∧ ¬Disables p .effort) :
    (∀ r, r = (urdfLimits j L).2 ∨ r = (paramLimits ofInt q (urdfLimits j L).2).2 →
      posSoftOk r.toJointLimits = true ∧ effortOk r.toJointLimits = true ∧ velSatOk r.toJointLimits = true) := by
  have base : (urdfLimits j L).2.has .velocity = true ∧ (urdfLimits j L).2.has .effort = true := by
    cases j with
    | none => cases h
    | some k =>
      cases hl : k.limits with
      | none => simp [urdfLimits, hl] at h
      | some u =>
        obtain ⟨-, hv, he, -⟩ := c69_urdf_partial k u hl L
        exact ⟨hv.1, he.1⟩
  have after : (paramLimits ofInt q (urdfLimits j L).2).2.has .velocity = true ∧
      (paramLimits ofInt q (urdfLimits j L).2).2.has .effort = true := by
    cases q with
    | none => exact base
    | some p =>
      obtain ⟨n1, n2⟩ := hq p rfl
      constructor
      · by_cases hs : ∃ xs, Specifies ofInt p .velocity xs
        · obtain ⟨xs, hs⟩ := hs; exact (c52_specified _ _ xs hs).1
        · rw [(c52_untouched _ _ hs n1).1]; exact base.1
      · by_cases hs : ∃ xs, Specifies ofInt p .effort xs
        · obtain ⟨xs, hs⟩ := hs; exact (c52_specified _ _ xs hs).1
        · rw [(c52_untouched _ _ hs n2).1]; exact base.2
  have conv : ∀ r : FullLimits (Dbl K), r.has .velocity = true ∧ r.has .effort = true →
      posSoftOk r.toJointLimits = true ∧ effortOk r.toJointLimits = true ∧ velSatOk r.toJointLimits = true := by
    rintro r ⟨h1, h2⟩
    simp only [FullLimits.has] at h1 h2
    simp [posSoftOk, effortOk, velSatOk, h1, h2]
  rintro r (rfl | rfl)
  · exact conv _ base
  · exact conv _ after

/-- A prismatic joint. -/
def exUrdfJoint : UrdfJoint Int := ⟨.prismatic, some ⟨-3, 3, 10, 20⟩, some ⟨-2, 2, 5, 6⟩⟩

example : urdfLimits (some exUrdfJoint) exFullLimits = (true, ⟨⟨-3, 3, 20, 3, 10, true, true, false, true⟩, 5, true, false⟩) ∧
    urdfLimits (some { exUrdfJoint with type := .continuous }) exFullLimits =
      (true, ⟨⟨-1, 1, 20, 3, 10, false, true, false, true⟩, 5, true, true⟩) ∧
    urdfSoftLimits (some exUrdfJoint) ⟨0, 0, 0, 0⟩ = (true, ⟨-2, 2, 5, 6⟩) := by decide

/-- **C69**, the negation: the documentation (joint_limits_urdf.h 44-45) says that values not present in the
URDF stay, but loading a URDF joint with limits always drops the acceleration limits. -/
theorem c69_acceleration_negation (j : UrdfJoint F) (u : UrdfLimits F) (hu : j.limits = some u) (L : FullLimits F) :
    (urdfLimits (some j) L).2.has .acceleration = false := by
  obtain ⟨ty, lim, saf⟩ := j
  dsimp only at hu
  subst hu
  cases ty <;> simp [urdfLimits, FullLimits.has]

/-- So the order matters: acceleration limits from parameters are kept only if the parameters are loaded
after the URDF. -/
theorem c69_order (j : UrdfJoint F) (u : UrdfLimits F) (hu : j.limits = some u) (L : FullLimits F) (xs : List F)
    (h : Specifies ofInt p .acceleration xs) :
    ((paramLimits ofInt (some p) (urdfLimits (some j) L).2).2.has .acceleration = true ∧
      (paramLimits ofInt (some p) (urdfLimits (some j) L).2).2.values .acceleration = xs) ∧
    (urdfLimits (some j) (paramLimits ofInt (some p) L).2).2.has .acceleration = false :=
  ⟨c52_specified _ _ xs h, c69_acceleration_negation j u hu _⟩

end Verif.Limits
