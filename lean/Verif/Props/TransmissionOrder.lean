import Verif.Props.TransmissionLoad
import Mathlib.Data.List.Perm.Basic

/-!
Property C51: the order of joints and actuators in a transmission description.
-/

namespace Verif.Transmission

variable {K : Type} [OfNat K 0] [OfNat K 1] [DecidableEq K] {stod : String → Option K}

theorem perm_pair {A : Type} {a b : A} {l : List A} (h : [a, b].Perm l) : l = [a, b] ∨ l = [b, a] := by
  match l, h.length_eq with
  | [c, d], _ =>
    have hc : a = c ∨ a = d := by simpa using h.mem_iff.1 (show a ∈ [a, b] by simp)
    rcases hc with rfl | rfl
    · have := (List.perm_cons a).1 h
      rw [List.singleton_perm_singleton] at this
      subst this; exact .inl rfl
    · have h' := h.trans (List.Perm.swap a c [])
      have := (List.perm_cons a).1 h'
      rw [List.singleton_perm_singleton] at this
      subst this; exact .inr rfl

theorem byRole_symm (r1 r2 : String) (e0 e1 : Elem) : byRole r1 r2 e0 e1 = byRole r1 r2 e1 e0 := by
  unfold byRole
  cases h0 : getRole e0 with
  | none => cases h1 : getRole e1 with
    | none => rfl
    | some s1 => simp
  | some s0 => cases h1 : getRole e1 with
    | none => simp
    | some s1 =>
      dsimp only
      by_cases a0 : s0 = r1 <;> by_cases b0 : s0 = r2 <;> by_cases a1 : s1 = r1 <;> by_cases b1 : s1 = r2 <;>
        simp_all

theorem ignoreFlag_symm (e0 e1 : Elem) : ignoreFlag e0 e1 = ignoreFlag e1 e0 := Bool.and_comm _ _

theorem actuatorConfig_symm (e0 e1 : Elem) : actuatorConfig stod e0 e1 = actuatorConfig stod e1 e0 := by
  unfold actuatorConfig; rw [byRole_symm]

theorem jointConfig_symm (e0 e1 : Elem) : jointConfig stod e0 e1 = jointConfig stod e1 e0 := by
  unfold jointConfig; rw [byRole_symm]

/-- **C51** (the part about parameters; missing: the connection with the named joints and actuators,
`c51_negation`). The transmission constructed from a description does not depend on the order in which joints
and actuators are listed. -/
theorem c51_parameters_partial {i i' : TransInfo} (ht : i.type = i'.type) (hj : i.joints.Perm i'.joints)
    (ha : i.actuators.Perm i'.actuators) : loadTransmission stod i = loadTransmission stod i' := by
  have hs : loadSimple stod i = loadSimple stod i' := by
    unfold loadSimple
    split
    · rename_i a j h1 h2
      rw [h1] at ha
      rw [h2] at hj
      rw [List.perm_singleton.1 ha.symm, List.perm_singleton.1 hj.symm]
    · rename_i h
      split
      · rename_i a j h1 h2
        rw [h1] at ha
        rw [h2] at hj
        exact absurd (List.perm_singleton.1 hj) (h a j (List.perm_singleton.1 ha))
      · rfl
  have two : ∀ f : List K → List K → List K → Bool → Option (Trans K), ∀ i i' : TransInfo,
      i.joints.Perm i'.joints → i.actuators.Perm i'.actuators →
      (match i.actuators, i.joints with
      | [a0, a1], [j0, j1] => do
        match ← actuatorConfig stod a0.xml a1.xml with
        | none => return none
        | some ar =>
          match ← jointConfig stod j0.xml j1.xml with
          | none => return none
          | some (jr, off) => return f ar jr off (ignoreFlag j0.xml j1.xml)
      | _, _ => .ok none : Except Crash (Option (Trans K))) =
      (match i'.actuators, i'.joints with
      | [a0, a1], [j0, j1] => do
        match ← actuatorConfig stod a0.xml a1.xml with
        | none => return none
        | some ar =>
          match ← jointConfig stod j0.xml j1.xml with
          | none => return none
          | some (jr, off) => return f ar jr off (ignoreFlag j0.xml j1.xml)
      | _, _ => .ok none) := by
    intro f i i' hj ha
    split
    · rename_i a0 a1 j0 j1 h1 h2
      rw [h1] at ha
      rw [h2] at hj
      rcases perm_pair ha with e | e <;> rcases perm_pair hj with e' | e' <;> rw [e, e'] <;>
        simp only [actuatorConfig_symm (stod := stod) a1.xml a0.xml, jointConfig_symm (stod := stod) j1.xml j0.xml, ignoreFlag_symm j1.xml j0.xml]
    · rename_i h
      split
      · rename_i a0 a1 j0 j1 h1 h2
        rw [h1] at ha
        rw [h2] at hj
        rcases perm_pair ha.symm with e | e <;> rcases perm_pair hj.symm with e' | e' <;>
          exact absurd e' (h _ _ _ _ e)
      · rfl
  unfold loadTransmission
  rw [ht, hs]
  have hd : loadDifferential stod i = loadDifferential stod i' :=
    two (fun ar jr off ign => (mkTwo (· == 0) ar jr ign off).map .differential) i i' hj ha
  have hf : loadFourBar stod i = loadFourBar stod i' :=
    two (fun ar jr off _ => (mkTwo (· == 0) ar jr false off).map .fourBar) i i' hj ha
  rw [hd, hf]

/-- The element has this role. -/
def Elem.HasRole (e : Elem) (role : String) : Prop := ∃ x, e.child "role" = some x ∧ x.text = some role

/-- The number in the first child element with the tag is `v`; without such an element it is the default. -/
def Elem.Number (stod : String → Option K) (tag : String) (dflt : Option K) (e : Elem) (v : K) : Prop :=
  match e.child tag with
  | none => dflt = some v
  | some r => ∃ s, r.text = some s ∧ stod s = some v

theorem getRole_eq {e : Elem} {r : String} (h : getRole e = some r) : e.HasRole r := by
  unfold getRole at h
  split at h
  · cases h
  · rename_i x hx; exact ⟨x, by rw [← first_eq_child]; exact hx, h⟩

theorem HasRole.getRole {e : Elem} {r : String} (h : e.HasRole r) : getRole e = some r := by
  obtain ⟨x, hx, ht⟩ := h
  rw [← first_eq_child] at hx
  simp [Transmission.getRole, hx, ht]

theorem byRole_roles {r1 r2 : String} {e0 e1 x0 x1 : Elem} (h : byRole r1 r2 e0 e1 = some (x0, x1)) :
    x0.HasRole r1 ∧ x1.HasRole r2 := by
  unfold byRole at h
  split at h
  · cases h
  · rename_i s0 h0
    split at h
    · cases h
    · rename_i n0
      split at h
      · cases h
      · rename_i s1 h1
        split at h
        · cases h
        · rename_i n1
          split at h
          · cases h
          · rename_i hne
            have a0 := getRole_eq h0
            have a1 := getRole_eq h1
            split at h
            · rename_i e
              cases h
              subst e
              refine ⟨a0, ?_⟩
              have : s1 = r2 := by tauto
              rwa [this] at a1
            · cases h
              have e0 : s0 = r2 := by tauto
              have e1 : s1 = r1 := by
                subst e0; by_contra hh; exact n1 ⟨hh, fun h => hne h.symm⟩
              subst e0 e1
              exact ⟨a1, a0⟩

theorem getNumber_ok {tag : String} {req : Bool} {old v : K} {e : Elem} (h : getNumber stod tag req old e = .ok (some v)) :
    e.Number stod tag (if req then none else some old) v := by
  unfold getNumber at h
  unfold Elem.Number
  rw [← first_eq_child]
  split at h
  · rename_i hn
    rw [hn]
    cases req <;> simpa using h
  · rename_i r hr
    rw [hr]
    split at h
    · cases h
    · rename_i s hs
      exact ⟨s, hs, by simpa using h⟩

theorem actuatorConfig_ok {e0 e1 : Elem} {ar : List K} (h : actuatorConfig stod e0 e1 = .ok (some ar)) :
    ∃ x0 x1 r0 r1, byRole "actuator1" "actuator2" e0 e1 = some (x0, x1) ∧ ar = [r0, r1] ∧
      x0.Number stod "mechanicalReduction" none r0 ∧ x1.Number stod "mechanicalReduction" none r1 := by
  unfold actuatorConfig at h
  split at h
  · cases h
  · rename_i x0 x1 hb
    cases h0 : getNumber stod "mechanicalReduction" true 0 x0 with
    | error c' => rw [h0] at h; cases h
    | ok v =>
      rw [h0] at h
      cases v with
      | none => cases h
      | some v =>
        cases h1 : getNumber stod "mechanicalReduction" true 0 x1 with
        | error c' => simp only [bind, Except.bind, h1] at h; cases h
        | ok w =>
          simp only [bind, Except.bind, h1] at h
          cases w with
          | none => cases h
          | some w => cases h; exact ⟨x0, x1, v, w, hb, rfl, getNumber_ok h0, getNumber_ok h1⟩

theorem jointConfig_ok {e0 e1 : Elem} {c : List K × List K} (h : jointConfig stod e0 e1 = .ok (some c)) :
    ∃ x0 x1 r0 r1 o0 o1, byRole "joint1" "joint2" e0 e1 = some (x0, x1) ∧ c = ([r0, r1], [o0, o1]) ∧
      x0.Number stod "mechanicalReduction" (some 1) r0 ∧ x1.Number stod "mechanicalReduction" (some 1) r1 ∧
      x0.Number stod "offset" (some 0) o0 ∧ x1.Number stod "offset" (some 0) o1 := by
  unfold jointConfig at h
  split at h
  · cases h
  · rename_i x0 x1 hb
    cases h0 : getNumber stod "mechanicalReduction" false 1 x0 with
    | error c' => rw [h0] at h; cases h
    | ok v0 =>
      rw [h0] at h
      cases v0 with
      | none => cases h
      | some v0 =>
        cases h1 : getNumber stod "offset" false 0 x0 with
        | error c' => simp only [bind, Except.bind, h1] at h; cases h
        | ok v1 =>
          simp only [bind, Except.bind, h1] at h
          cases v1 with
          | none => cases h
          | some v1 =>
            cases h2 : getNumber stod "mechanicalReduction" false 1 x1 with
            | error c' => simp only [h2] at h; cases h
            | ok v2 =>
              simp only [h2] at h
              cases v2 with
              | none => cases h
              | some v2 =>
                cases h3 : getNumber stod "offset" false 0 x1 with
                | error c' => simp only [h3] at h; cases h
                | ok v3 =>
                  simp only [h3] at h
                  cases v3 with
                  | none => cases h
                  | some v3 =>
                    cases h
                    exact ⟨x0, x1, v0, v2, v1, v3, hb, rfl, getNumber_ok h0, getNumber_ok h2, getNumber_ok h1,
                      getNumber_ok h3⟩

/-- The numbers of the transmission are those of these elements: the reductions of the actuators, and the
reductions (one if absent) and offsets (zero if absent) of the joints. -/
structure Two.NumbersOf (T : Two K) (stod : String → Option K) (a0 a1 j0 j1 : Elem) : Prop where
  act0 : a0.Number stod "mechanicalReduction" none T.ar.1
  act1 : a1.Number stod "mechanicalReduction" none T.ar.2
  red0 : j0.Number stod "mechanicalReduction" (some 1) T.jr.1
  red1 : j1.Number stod "mechanicalReduction" (some 1) T.jr.2
  off0 : j0.Number stod "offset" (some 0) T.off.1
  off1 : j1.Number stod "offset" (some 0) T.off.2

theorem two_numbers {e0 e1 f0 f1 : Elem} {ar jr off : List K} {ign : Bool} {T : Two K}
    (h0 : actuatorConfig stod e0 e1 = .ok (some ar)) (h1 : jointConfig stod f0 f1 = .ok (some (jr, off)))
    (hT : mkTwo (· == 0) ar jr ign off = some T) :
    ∃ a0 a1 j0 j1, byRole "actuator1" "actuator2" e0 e1 = some (a0, a1) ∧
      byRole "joint1" "joint2" f0 f1 = some (j0, j1) ∧ T.NumbersOf stod a0 a1 j0 j1 ∧ T.ignore = ign := by
  obtain ⟨x0, x1, r0, r1, hb, rfl, n0, n1⟩ := actuatorConfig_ok h0
  obtain ⟨y0, y1, q0, q1, o0, o1, hb', e, m0, m1, m2, m3⟩ := jointConfig_ok h1
  cases e
  simp only [mkTwo] at hT
  split at hT
  · cases hT
  · cases hT
    exact ⟨x0, x1, y0, y1, hb, hb', ⟨n0, n1, m0, m1, m2, m3⟩, rfl⟩

theorem loadTransmission_two {i : TransInfo} {t : Trans K} {T : Two K} (h : loadTransmission stod i = .ok (some t))
    (ht : t = .differential T ∨ t = .fourBar T) :
    ∃ a b c d a0 a1 j0 j1, i.actuators = [a, b] ∧ i.joints = [c, d] ∧
      byRole "actuator1" "actuator2" a.xml b.xml = some (a0, a1) ∧
      byRole "joint1" "joint2" c.xml d.xml = some (j0, j1) ∧ T.NumbersOf stod a0 a1 j0 j1 := by
  have main : ∀ f : List K → List K → List K → Bool → Option (Two K), ∀ g : Two K → Trans K,
      (∀ ar jr off ign x, f ar jr off ign = some x → ∃ b, mkTwo (· == 0) ar jr b off = some x) →
      (∀ x, g x = .differential T ∨ g x = .fourBar T → x = T) →
      (match i.actuators, i.joints with
      | [a0, a1], [j0, j1] => do
        match ← actuatorConfig stod a0.xml a1.xml with
        | none => return none
        | some ar =>
          match ← jointConfig stod j0.xml j1.xml with
          | none => return none
          | some (jr, off) => return (f ar jr off (ignoreFlag j0.xml j1.xml)).map g
      | _, _ => .ok none : Except Crash (Option (Trans K))) = .ok (some t) →
      ∃ a b c d a0 a1 j0 j1, i.actuators = [a, b] ∧ i.joints = [c, d] ∧
        byRole "actuator1" "actuator2" a.xml b.xml = some (a0, a1) ∧
        byRole "joint1" "joint2" c.xml d.xml = some (j0, j1) ∧ T.NumbersOf stod a0 a1 j0 j1 := by
    intro f g hfg hg h
    split at h
    · rename_i a b c d ha hj
      cases h0 : actuatorConfig stod a.xml b.xml with
      | error e => rw [h0] at h; cases h
      | ok v =>
        rw [h0] at h
        cases v with
        | none => cases h
        | some ar =>
          cases h1 : jointConfig stod c.xml d.xml with
          | error e => simp only [bind, Except.bind, h1] at h; cases h
          | ok w =>
            simp only [bind, Except.bind, h1] at h
            cases w with
            | none => cases h
            | some w =>
              obtain ⟨jr, off⟩ := w
              simp only [pure, Except.pure, Except.ok.injEq, Option.map_eq_some_iff] at h
              obtain ⟨x, hx, rfl⟩ := h
              obtain ⟨bb, hx⟩ := hfg _ _ _ _ _ hx
              cases hg x ht
              obtain ⟨a0, a1, j0, j1, hb, hb', hn, -⟩ := two_numbers h0 h1 hx
              exact ⟨a, b, c, d, a0, a1, j0, j1, ha, hj, hb, hb', hn⟩
    · cases h
  unfold loadTransmission at h
  split at h
  · exfalso
    unfold loadSimple at h
    split at h
    · rename_i a j _ _
      cases h0 : getNumber stod "mechanicalReduction" true 0 a.xml with
      | error e => rw [h0] at h; cases h
      | ok v =>
        rw [h0] at h
        cases v with
        | none => cases h
        | some v =>
          cases h1 : getNumber stod "offset" false 0 j.xml with
          | error e => simp only [bind, Except.bind, h1] at h; cases h
          | ok w =>
            simp only [bind, Except.bind, h1] at h
            cases w with
            | none => cases h
            | some w =>
              simp only [pure, Except.pure, Except.ok.injEq, Option.map_eq_some_iff] at h
              obtain ⟨x, -, rfl⟩ := h
              rcases ht with ht | ht <;> cases ht
    · cases h
  · split at h
    · exact main (fun ar jr off ign => mkTwo (· == 0) ar jr ign off) .differential (fun _ _ _ ign x hx => ⟨ign, hx⟩)
        (by rintro x (h | h) <;> cases h; rfl) h
    · split at h
      · exact main (fun ar jr off _ => mkTwo (· == 0) ar jr false off) .fourBar (fun _ _ _ _ x hx => ⟨false, hx⟩)
          (by rintro x (h | h) <;> cases h; rfl) h
      · cases h

/-- **C51** (the part about parameters). The numbers of a differential or four-bar-linkage transmission are
those of the elements sorted by their roles. -/
theorem c51_numbers_by_role_partial {i : TransInfo} {t : Trans K} {T : Two K}
    (h : loadTransmission stod i = .ok (some t)) (ht : t = .differential T ∨ t = .fourBar T) :
    ∃ a0 a1 j0 j1 : Elem, (i.actuators.map (·.xml)).Perm [a0, a1] ∧ (i.joints.map (·.xml)).Perm [j0, j1] ∧
      a0.HasRole "actuator1" ∧ a1.HasRole "actuator2" ∧ j0.HasRole "joint1" ∧ j1.HasRole "joint2" ∧
      T.NumbersOf stod a0 a1 j0 j1 := by
  obtain ⟨a, b, c, d, a0, a1, j0, j1, ha, hj, hb, hb', hn⟩ := loadTransmission_two h ht
  obtain ⟨p1, p2⟩ := byRole_roles hb
  obtain ⟨q1, q2⟩ := byRole_roles hb'
  refine ⟨a0, a1, j0, j1, ?_, ?_, p1, p2, q1, q2, hn⟩
  · rw [ha]
    rcases byRole_mem hb with ⟨rfl, rfl⟩ | ⟨rfl, rfl⟩
    · exact .refl _
    · exact .swap _ _ _
  · rw [hj]
    rcases byRole_mem hb' with ⟨rfl, rfl⟩ | ⟨rfl, rfl⟩
    · exact .refl _
    · exact .swap _ _ _

/-- **C51** (for descriptions that list joints and actuators in the order of their roles; missing: other
orders, `c51_negation`). The first and second number are then those of the first and second element listed,
whose data also come first and second in the handles (`c66_connected_partial`). -/
theorem c51_role_order_partial {i : TransInfo} {t : Trans K} {T : Two K}
    (h : loadTransmission stod i = .ok (some t)) (ht : t = .differential T ∨ t = .fourBar T)
    (ha : ∀ a, i.actuators[0]? = some a → a.xml.HasRole "actuator1")
    (hj : ∀ j, i.joints[0]? = some j → j.xml.HasRole "joint1") :
    ∃ a b c d, i.actuators = [a, b] ∧ i.joints = [c, d] ∧ T.NumbersOf stod a.xml b.xml c.xml d.xml := by
  obtain ⟨a, b, c, d, a0, a1, j0, j1, ea, ej, hb, hb', hn⟩ := loadTransmission_two h ht
  have ra := ha a (by rw [ea]; rfl)
  have rj := hj c (by rw [ej]; rfl)
  have uniq : ∀ {e : Elem} {r r' : String}, e.HasRole r → e.HasRole r' → r = r' := by
    intro e r r' h1 h2
    have := HasRole.getRole h1
    rw [HasRole.getRole h2] at this
    cases this; rfl
  refine ⟨a, b, c, d, ea, ej, ?_⟩
  obtain ⟨p1, p2⟩ := byRole_roles hb
  obtain ⟨q1, q2⟩ := byRole_roles hb'
  rcases byRole_mem hb with ⟨rfl, rfl⟩ | ⟨rfl, rfl⟩
  · rcases byRole_mem hb' with ⟨rfl, rfl⟩ | ⟨rfl, rfl⟩
    · exact hn
    · exact absurd (uniq rj q2) (by decide)
  · exact absurd (uniq ra p2) (by decide)

open Loader

/-- An actuator with a role. -/
def exActuatorInfo (name role reduction : String) : ActuatorInfo :=
  ⟨name, [], .node "actuator" [("name", name)] none
    [.node "role" [] (some role) [], exNumber "mechanicalReduction" reduction]⟩

/-- A joint with a role. -/
def exJointInfo (name role : String) : JointInfo :=
  ⟨name, ["hardware_interface/EffortJointInterface"], role, .node "joint" [("name", name)] none
    [.node "role" [] (some role) []]⟩

/-- A four-bar-linkage transmission; the actuators in this order. -/
def exFourBar (actuators : List ActuatorInfo) : TransInfo :=
  ⟨"t", "transmission_interface/FourBarLinkageTransmission", [exJointInfo "j1" "joint1", exJointInfo "j2" "joint2"],
    actuators⟩

/-- The cases of the theorems above. -/
example : loadTransmission exStod (exFourBar [exActuatorInfo "a1" "actuator1" "2", exActuatorInfo "a2" "actuator2" "3"]) =
    .ok (some (.fourBar ⟨(2, 3), (1, 1), (0, 0), false⟩)) ∧
    loadTransmission exStod (exFourBar [exActuatorInfo "a2" "actuator2" "3", exActuatorInfo "a1" "actuator1" "2"]) =
    .ok (some (.fourBar ⟨(2, 3), (1, 1), (0, 0), false⟩)) := ⟨rfl, rfl⟩

/-- **C51**, the negation. Two descriptions that differ only in the order of the two actuators, and the robot
with these transmissions after the same actuator positions have been propagated: the joint `j1` is at half
the position of the actuator `a1`, or at half the position of the actuator `a2`. -/
theorem c51_negation : ∃ (a1 a2 : ActuatorInfo) (L L' : Loader ℚ) (g g' : Handle ℚ),
    exRobot.load exStod (exFourBar [a1, a2]) = .ok (L, true) ∧
    exRobot.load exStod (exFourBar [a2, a1]) = .ok (L', true) ∧
    (smapFind "j1" L.robotState).map (·.position) = some 100 ∧
    (smapFind "j1" L'.robotState).map (·.position) = some 100 ∧
    L.handles .actuatorToJointState = [("t", g)] ∧ L'.handles .actuatorToJointState = [("t", g')] ∧
    ∀ nd m, ∃ r r', g.propagate nd .actuatorToJointState m = .ok r ∧ g'.propagate nd .actuatorToJointState m = .ok r' ∧
      r 100 = m 0 / 2 ∧ r' 100 = m 4 / 2 := by
  refine ⟨exActuatorInfo "a1" "actuator1" "2", exActuatorInfo "a2" "actuator2" "3", _, _,
    ⟨.fourBar ⟨(2, 3), (1, 1), (0, 0), false⟩,
      { position := [some 0, some 4], velocity := [some 1, some 5], effort := [some 2, some 6] },
      { position := [some 100, some 108], velocity := [some 101, some 109], effort := [some 102, some 110],
        absolutePosition := [some 106, some 114], torqueSensor := [some 107, some 115] }⟩,
    ⟨.fourBar ⟨(2, 3), (1, 1), (0, 0), false⟩,
      { position := [some 4, some 0], velocity := [some 5, some 1], effort := [some 6, some 2] },
      { position := [some 100, some 108], velocity := [some 101, some 109], effort := [some 102, some 110],
        absolutePosition := [some 106, some 114], torqueSensor := [some 107, some 115] }⟩,
    rfl, rfl, rfl, rfl, rfl, rfl, ?_⟩
  intro nd m
  cases nd <;>
  · refine ⟨_, _, rfl, rfl, ?_, ?_⟩
    · exact (show (m 0 / (1 * 2) + 0 : ℚ) = m 0 / 2 by rw [one_mul, add_zero])
    · exact (show (m 4 / (1 * 2) + 0 : ℚ) = m 4 / 2 by rw [one_mul, add_zero])

end Verif.Transmission
