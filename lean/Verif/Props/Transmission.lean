import Verif.Lemmas.Transmission
import Mathlib.Algebra.Field.Rat
import Mathlib.Data.Rat.Cast.Order
import Mathlib.Tactic.NormNum

/-!
Properties C46-C49: transmissions and transmission handles.
-/

namespace Verif.Transmission

section

variable {K : Type} [Field K] [NeZero (2 : K)] [DecidableEq K]

/-- **C46.** For every transmission that can be constructed and each of position, velocity and effort:
mapping from the actuators to the joints changes nothing but the joint values, and mapping back then
restores all actuator values (and leaves everything else as it was). -/
theorem c46_actuator_round_trip (nd : Bool) (q : Quantity) {T : Trans K} (hT : Constructed T) {act jnt : Data}
    {as js : List Nat} (ha : act.get q = cells as) (hj : jnt.get q = cells js)
    (la : as.length = T.numActuators) (lj : js.length = T.numJoints) (hn : (as ++ js).Nodup) (m : Mem K) :
    ∃ m1 m2, toJoint nd q T act jnt m = .ok m1 ∧ (∀ c, c ∉ js → m1 c = m c) ∧
      toActuator nd q T jnt act m1 = .ok m2 ∧ ∀ c, c ∉ js → m2 c = m c := by
  obtain ⟨m1, e1, v1, f1⟩ := toJoint_run nd q T ha hj la lj hn m
  obtain ⟨m2, e2, v2, f2⟩ := toActuator_run nd q T ha hj la lj hn m1
  refine ⟨m1, m2, e1, f1, e2, fun c hc => ?_⟩
  by_cases hca : c ∈ as
  · rw [v1, (run_inv q (regular hT) _ (by rw [List.length_map]; exact la)).1] at v2
    exact List.map_inj_left.1 v2 c hca
  · rw [f2 c hca, f1 c hc]

/-- **C46.** The same in the other direction. -/
theorem c46_joint_round_trip (nd : Bool) (q : Quantity) {T : Trans K} (hT : Constructed T) {act jnt : Data}
    {as js : List Nat} (ha : act.get q = cells as) (hj : jnt.get q = cells js)
    (la : as.length = T.numActuators) (lj : js.length = T.numJoints) (hn : (as ++ js).Nodup) (m : Mem K) :
    ∃ m1 m2, toActuator nd q T jnt act m = .ok m1 ∧ (∀ c, c ∉ as → m1 c = m c) ∧
      toJoint nd q T act jnt m1 = .ok m2 ∧ ∀ c, c ∉ as → m2 c = m c := by
  obtain ⟨m1, e1, v1, f1⟩ := toActuator_run nd q T ha hj la lj hn m
  obtain ⟨m2, e2, v2, f2⟩ := toJoint_run nd q T ha hj la lj hn m1
  refine ⟨m1, m2, e1, f1, e2, fun c hc => ?_⟩
  by_cases hcj : c ∈ js
  · rw [v1, (run_inv q (regular hT) _ (by rw [List.length_map, lj, num_eq])).2] at v2
    exact List.map_inj_left.1 v2 c hcj
  · rw [f2 c hcj, f1 c hc]

end

/-- A differential transmission, its actuators in cells 0 and 1 and its joints in cells 2 and 3. -/
def exDiff : Two ℚ := ⟨(10, -20), (2, 5), (1, 3), false⟩

example : Constructed (Trans.differential exDiff) :=
  .differential [10, -20] [2, 5] [1, 3] false _ rfl

example : ((toJoint false .position (.differential exDiff) { position := cells [0, 1] }
    { position := cells [2, 3] } (fun c => if c = 0 then 40 else 100)).toOption.map
    fun m => (m 2, m 3)) = some (3/4, 39/10) := by
  simp [toJoint, actuatorToJointPosition, assert2_cells, assign2_cells, bind, Except.bind, Except.toOption, upd, exDiff]
  norm_num

/-- The cells of the actuators have to be different from those of the joints: with the first joint in
the cell of the first actuator, the transmission reads the value it has just written. -/
theorem c46_aliasing_negation :
    ∃ (T : Trans ℚ) (act jnt : Data) (m m1 m2 : Mem ℚ), Constructed T ∧ act.effort = cells [0, 1] ∧
      jnt.effort = cells [0, 2] ∧ toJoint false .effort T act jnt m = .ok m1 ∧
      toActuator false .effort T jnt act m1 = .ok m2 ∧ m2 1 ≠ m 1 :=
  ⟨.differential ⟨(2, 2), (1, 1), (0, 0), false⟩, { effort := cells [0, 1] }, { effort := cells [0, 2] },
    fun _ => 1, _, _, .differential [2, 2] [1, 1] [0, 0] false _ rfl, rfl, rfl, rfl, rfl, by norm_num⟩

/-! ### Power -/

section

variable {K : Type} [Field K]

theorem power_two (m : Mem K) (e f v w : Nat) : power m [e, f] [v, w] = m e * m v + m f * m w := by
  simp [power]

theorem power_one (m : Mem K) (e v : Nat) : power m [e] [v] = m e * m v := by
  simp [power]

variable [NeZero (2 : K)] [DecidableEq K]

/-- **C47** (missing: the four-bar linkage, for which it is false, see `c47_four_bar_negation`). A simple
or differential transmission maps velocities and efforts of the actuators to velocities and efforts of
the joints with the same power. -/
theorem c47_power_partial (nd : Bool) {T : Trans K} (hT : Constructed T) (h4 : ∀ t, T ≠ .fourBar t)
    {act jnt : Data} {ea va ej vj : List Nat} (h1 : act.effort = cells ea) (h2 : act.velocity = cells va)
    (h3 : jnt.effort = cells ej) (h5 : jnt.velocity = cells vj)
    (l1 : ea.length = T.numActuators) (l2 : va.length = T.numActuators)
    (l3 : ej.length = T.numJoints) (l5 : vj.length = T.numJoints)
    (hn : (ea ++ va ++ ej ++ vj).Nodup) (m : Mem K) :
    ∃ m1 m2, toJoint nd .velocity T act jnt m = .ok m1 ∧ toJoint nd .effort T act jnt m1 = .ok m2 ∧
      power m2 ea va = power m ea va ∧ power m2 ej vj = power m ea va := by
  have hr := regular hT
  have h20 : (2 : K) ≠ 0 := NeZero.ne 2
  have n1 : (va ++ vj).Nodup := hn.sublist
    (List.Sublist.append ((List.sublist_append_right ea va).trans (List.sublist_append_left _ ej)) (List.Sublist.refl vj))
  have n2 : (ea ++ ej).Nodup := hn.sublist
    ((List.Sublist.append (List.sublist_append_left ea va) (List.Sublist.refl ej)).trans (List.sublist_append_left _ vj))
  obtain ⟨m1, e1, v1, f1⟩ := toJoint_run nd .velocity T (act := act) (jnt := jnt) h2 h5 l2 l5 n1 m
  obtain ⟨m2, e2, v2, f2⟩ := toJoint_run nd .effort T (act := act) (jnt := jnt) h1 h3 l1 l3 n2 m1
  refine ⟨m1, m2, e1, e2, ?_⟩
  cases T with
  | fourBar t => exact absurd rfl (h4 t)
  | simple t =>
    simp only [Trans.numActuators, Trans.numJoints, List.length_eq_one_iff] at l1 l2 l3 l5
    obtain ⟨e, rfl⟩ := l1
    obtain ⟨v, rfl⟩ := l2
    obtain ⟨je, rfl⟩ := l3
    obtain ⟨jv, rfl⟩ := l5
    simp only [List.cons_append, List.nil_append, List.nodup_cons, List.mem_cons, List.not_mem_nil, or_false,
      not_or] at hn
    simp only [List.map_cons, List.map_nil, Maps.run, jointMaps, List.cons.injEq, and_true] at v1 v2
    have g1 : m2 e = m e := by rw [f2 _ (by simp [hn.1.2.1]), f1 _ (by simp [hn.1.2.2])]
    have g1' : m1 e = m e := by rw [f1 _ (by simp [hn.1.2.2])]
    have g2 : m2 v = m v := by rw [f2 _ (by simp [hn.2.1.1]), f1 _ (by simp [hn.2.1.2])]
    have g3 : m2 jv = m1 jv := f2 _ (by simpa using Ne.symm hn.2.2.1)
    have r0 : t.reduction ≠ 0 := hr
    rw [power_one, power_one, power_one, g1, g2, g3, v1, v2, g1']
    refine ⟨rfl, ?_⟩
    field_simp
  | differential t =>
    simp only [Trans.numActuators, Trans.numJoints, List.length_eq_two] at l1 l2 l3 l5
    obtain ⟨e, e', rfl⟩ := l1
    obtain ⟨v, v', rfl⟩ := l2
    obtain ⟨je, je', rfl⟩ := l3
    obtain ⟨jv, jv', rfl⟩ := l5
    simp only [List.cons_append, List.nil_append, List.nodup_cons, List.mem_cons, List.not_mem_nil, or_false,
      not_or] at hn
    obtain ⟨⟨_, a1, a2, a3, a4, a5, a6⟩, ⟨b1, b2, b3, b4, b5, b6⟩, ⟨_, c3, c4, c5, c6⟩, ⟨d3, d4, d5, d6⟩,
      ⟨_, p5, p6⟩, ⟨q5, q6⟩, _⟩ := hn
    simp only [List.map_cons, List.map_nil, Maps.run, jointMaps, List.cons.injEq, and_true] at v1 v2
    have g1' : m1 e = m e := f1 _ (by simp [a5, a6])
    have g2' : m1 e' = m e' := f1 _ (by simp [b5, b6])
    have g1 : m2 e = m e := by rw [f2 _ (by simp [a3, a4]), g1']
    have g2 : m2 e' = m e' := by rw [f2 _ (by simp [b3, b4]), g2']
    have g3 : m2 v = m v := by rw [f2 _ (by simp [c3, c4]), f1 _ (by simp [c5, c6])]
    have g4 : m2 v' = m v' := by rw [f2 _ (by simp [d3, d4]), f1 _ (by simp [d5, d6])]
    have g5 : m2 jv = m1 jv := f2 _ (by simp [Ne.symm p5, Ne.symm q5])
    have g6 : m2 jv' = m1 jv' := f2 _ (by simp [Ne.symm p6, Ne.symm q6])
    obtain ⟨r1, r2, r3, r4⟩ := hr
    rw [power_two, power_two, power_two, g1, g2, g3, g4, g5, g6, v1.1, v1.2, v2.1, v2.2, g1', g2']
    refine ⟨rfl, ?_⟩
    field_simp
    ring

/-- **C47**, what holds for the four-bar linkage: the power of the joints is that of the actuators plus
a term that does not vanish in general. -/
theorem c47_four_bar_partial (nd : Bool) {t : Two K} (hT : Constructed (Trans.fourBar t))
    {act jnt : Data} {e1 e2 v1 v2 je1 je2 jv1 jv2 : Nat} (h1 : act.effort = cells [e1, e2])
    (h2 : act.velocity = cells [v1, v2]) (h3 : jnt.effort = cells [je1, je2]) (h5 : jnt.velocity = cells [jv1, jv2])
    (hn : [e1, e2, v1, v2, je1, je2, jv1, jv2].Nodup) (m : Mem K) :
    ∃ m1 m2, toJoint nd .velocity (.fourBar t) act jnt m = .ok m1 ∧ toJoint nd .effort (.fourBar t) act jnt m1 = .ok m2 ∧
      power m2 [je1, je2] [jv1, jv2] = power m [e1, e2] [v1, v2] + (m e1 * m v1
        - m e2 * t.ar.2 * (m v1 / (t.jr.1 * t.ar.1)) - m e1 * t.ar.1 * t.jr.1 * (m v2 / t.ar.2)) := by
  obtain ⟨r1, r2, r3, r4⟩ := regular hT
  simp only [List.nodup_cons, List.mem_cons, List.not_mem_nil, or_false, not_or] at hn
  obtain ⟨⟨_, a1, a2, a3, a4, a5, a6⟩, ⟨b1, b2, b3, b4, b5, b6⟩, ⟨c1, c3, c4, c5, c6⟩, ⟨d3, d4, d5, d6⟩,
    ⟨p1, p5, p6⟩, ⟨q5, q6⟩, s1, _⟩ := hn
  obtain ⟨m1, k1, w1, f1⟩ := toJoint_run nd .velocity (.fourBar t) (act := act) (jnt := jnt) h2 h5 rfl rfl
    (by simp [*]) m
  obtain ⟨m2, k2, w2, f2⟩ := toJoint_run nd .effort (.fourBar t) (act := act) (jnt := jnt) h1 h3 rfl rfl
    (by simp [*]) m1
  refine ⟨m1, m2, k1, k2, ?_⟩
  simp only [List.map_cons, List.map_nil, Maps.run, jointMaps, List.cons.injEq, and_true] at w1 w2
  have g1' : m1 e1 = m e1 := f1 _ (by simp [a5, a6])
  have g2' : m1 e2 = m e2 := f1 _ (by simp [b5, b6])
  have g5 : m2 jv1 = m1 jv1 := f2 _ (by simp [Ne.symm p5, Ne.symm q5])
  have g6 : m2 jv2 = m1 jv2 := f2 _ (by simp [Ne.symm p6, Ne.symm q6])
  rw [power_two, power_two, g5, g6, w1.1, w1.2, w2.1, w2.2, g1', g2']
  field_simp
  ring

end

/-- The power of a four-bar linkage is not conserved: all reductions 1, and every value 1. -/
theorem c47_four_bar_negation :
    ∃ (T : Trans ℚ) (act jnt : Data) (m m1 m2 : Mem ℚ), Constructed T ∧ act.effort = cells [0, 1] ∧
      act.velocity = cells [2, 3] ∧ jnt.effort = cells [4, 5] ∧ jnt.velocity = cells [6, 7] ∧
      toJoint false .velocity T act jnt m = .ok m1 ∧ toJoint false .effort T act jnt m1 = .ok m2 ∧
      power m2 [0, 1] [2, 3] = 2 ∧ power m2 [4, 5] [6, 7] = 1 :=
  ⟨.fourBar ⟨(1, 1), (1, 1), (0, 0), false⟩, { effort := cells [0, 1], velocity := cells [2, 3] },
    { effort := cells [4, 5], velocity := cells [6, 7] }, fun _ => 1, _, _,
    .fourBar [1, 1] [1, 1] [0, 0] _ rfl, rfl, rfl, rfl, rfl, rfl, rfl, by norm_num [power],
    by norm_num [power]⟩

/-! ### Constructors -/

/-- **C48.** A simple transmission can be constructed if and only if its reduction is not zero. `isZero`
is the comparison with zero, whatever the representation of numbers. -/
theorem c48_simple {F : Type} (isZero : F → Bool) (r o : F) :
    (∃ t, mkSimple isZero r o = some t) ↔ isZero r = false := by
  unfold mkSimple
  cases isZero r <;> simp

/-- **C48.** A differential transmission or four-bar linkage can be constructed if and only if there are
two reductions for the actuators, two for the joints and two offsets, and no reduction is zero. -/
theorem c48_two {F : Type} (isZero : F → Bool) (ar jr off : List F) (ign : Bool) :
    (∃ t, mkTwo isZero ar jr ign off = some t) ↔
      ar.length = 2 ∧ jr.length = 2 ∧ off.length = 2 ∧ ∀ r ∈ ar ++ jr, isZero r = false := by
  constructor
  · rintro ⟨t, h⟩
    obtain ⟨rfl, rfl, rfl, _, h1, h2, h3, h4⟩ := mkTwo_some.1 h
    refine ⟨rfl, rfl, rfl, ?_⟩
    simp [h1, h2, h3, h4]
  · rintro ⟨h1, h2, h3, h⟩
    obtain ⟨a, b, rfl⟩ := List.length_eq_two.1 h1
    obtain ⟨c, d, rfl⟩ := List.length_eq_two.1 h2
    obtain ⟨e, f, rfl⟩ := List.length_eq_two.1 h3
    simp only [List.cons_append, List.nil_append, List.forall_mem_cons] at h
    exact ⟨⟨(a, b), (c, d), (e, f), ign⟩, mkTwo_some.2 ⟨rfl, rfl, rfl, rfl, h.1, h.2.1, h.2.2.1, h.2.2.2.1⟩⟩

/-- **C48, default.** The constructor without the flag accepts the same vectors. -/
theorem c48_default {F : Type} (isZero : F → Bool) (ar jr off : List F) :
    (∃ t, mkTwoDefault isZero ar jr off = some t) ↔
      ar.length = 2 ∧ jr.length = 2 ∧ off.length = 2 ∧ ∀ r ∈ ar ++ jr, isZero r = false := c48_two isZero ar jr off _

/-- A constructed transmission has the parameters it was given. -/
theorem c48_parameters {F : Type} (isZero : F → Bool) (ar jr off : List F) (ign : Bool) (t : Two F)
    (h : mkTwo isZero ar jr ign off = some t) :
    ar = [t.ar.1, t.ar.2] ∧ jr = [t.jr.1, t.jr.2] ∧ off = [t.off.1, t.off.2] ∧ t.ignore = ign := by
  obtain ⟨h1, h2, h3, h4, _⟩ := mkTwo_some.1 h
  exact ⟨h1, h2, h3, h4⟩

example : (mkTwo (F := ℚ) (· == 0) [1, 0] [1, 1] false [0, 0]).isNone = true := by decide
example : (mkTwo (F := ℚ) (· == 0) [1, 2] [1] false [0, 0]).isNone = true := by decide
/-- With NaN as `none`: not equal to zero, so a reduction of NaN is accepted. -/
example : (mkTwo (F := Option ℚ) (· == some 0) [some 1, none] [some 1, some 1] false [some 0, some 0]).isSome = true := by
  decide

/-! ### Handles -/

section

variable {K : Type} [Add K] [Sub K] [Mul K] [Div K] [OfNat K 2]

/-- **C49, what the constructor accepts.** A handle is constructed exactly if there is a transmission, at
least one of the positions, velocities and efforts of actuators and joints is given, no pointer given is
null, and each vector given is empty or has one pointer for each actuator (joint); but the number of
actuator torque sensors is not looked at. -/
theorem c49_constructor {F : Type} (t : Option (Trans F)) (act jnt : Data) (h : Handle F) :
    mkHandle t act jnt = some h ↔ t = some h.trans ∧ h.act = act ∧ h.jnt = jnt ∧
      (∃ v ∈ [act.position, act.velocity, act.effort, jnt.position, jnt.velocity, jnt.effort], v ≠ []) ∧
      (∀ v ∈ [act.position, act.velocity, act.effort, act.absolutePosition],
        v = [] ∨ v.length = h.trans.numActuators) ∧
      (∀ v ∈ [jnt.position, jnt.velocity, jnt.effort, jnt.absolutePosition, jnt.torqueSensor],
        v = [] ∨ v.length = h.trans.numJoints) ∧
      ∀ d ∈ [act, jnt], ∀ v ∈ [d.position, d.velocity, d.effort, d.absolutePosition, d.torqueSensor], none ∉ v := by
  have hs : ∀ v n, sizeOk v n = true ↔ v = [] ∨ v.length = n := by
    intro v n; simp [sizeOk]
  have hv : ∀ v : List Ptr, validPtrs v = true ↔ none ∉ v := by
    intro v
    simp only [validPtrs, List.all_eq_true]
    exact ⟨fun h hn => by simpa using h none hn, fun h x hx => by cases x with | none => exact absurd hx h | some _ => rfl⟩
  have hn : ∀ b : Bool, b = true → ¬(!b) = true := by decide
  constructor
  · intro hm
    obtain ⟨e1, e2, e3, ⟨a1, a2, a3, a4⟩, ⟨j1, j2, j3, j4, j5⟩, ⟨p1, p2, p3, p4, p5⟩, p6, p7, p8, p9, p10⟩ :=
      mkHandle_some hm
    subst e1 e2 e3
    rw [hs] at a1 a2 a3 a4 j1 j2 j3 j4 j5
    rw [hv] at p1 p2 p3 p4 p5 p6 p7 p8 p9 p10
    refine ⟨rfl, rfl, rfl, ?_, ?_, ?_, ?_⟩
    · by_contra hc
      simp only [List.mem_cons, List.not_mem_nil, or_false, exists_eq_or_imp, exists_eq_left, not_or, not_not] at hc
      obtain ⟨c1, c2, c3, c4, c5, c6⟩ := hc
      simp [mkHandle, c1, c2, c3, c4, c5, c6] at hm
    · simp only [List.mem_cons, List.not_mem_nil, or_false, forall_eq_or_imp, forall_eq]
      exact ⟨a1, a2, a3, a4⟩
    · simp only [List.mem_cons, List.not_mem_nil, or_false, forall_eq_or_imp, forall_eq]
      exact ⟨j1, j2, j3, j4, j5⟩
    · simp only [List.mem_cons, List.not_mem_nil, or_false, forall_eq_or_imp, forall_eq]
      exact ⟨⟨p1, p2, p3, p4, p5⟩, p6, p7, p8, p9, p10⟩
  · obtain ⟨T, A, J⟩ := h
    rintro ⟨rfl, rfl, rfl, hne, ha, hj, hp⟩
    simp only [List.mem_cons, List.not_mem_nil, or_false, forall_eq_or_imp, forall_eq, ← hs, ← hv] at ha hj hp
    obtain ⟨a1, a2, a3, a4⟩ := ha
    obtain ⟨j1, j2, j3, j4, j5⟩ := hj
    obtain ⟨⟨p1, p2, p3, p4, p5⟩, p6, p7, p8, p9, p10⟩ := hp
    simp only [mkHandle]
    rw [if_neg, if_neg, if_neg, if_neg, if_neg]
    · exact hn _ (by rw [p6, p7, p8, p9, p10]; rfl)
    · exact hn _ (by rw [p1, p2, p3, p4, p5]; rfl)
    · exact hn _ (by rw [j1, j2, j3, j4, j5]; rfl)
    · exact hn _ (by rw [a1, a2, a3, a4]; rfl)
    · simp only [Bool.and_eq_true, List.isEmpty_iff]
      rintro ⟨⟨⟨⟨⟨c1, c2⟩, c3⟩, c4⟩, c5⟩, c6⟩
      simp [c1, c2, c3, c4, c5, c6] at hne

/-- Positions only; no data; two joint velocities for one joint; a null pointer. -/
example :
    (mkHandle (some (Trans.simple (⟨2, 0⟩ : Simple ℚ))) { position := [some 0] } { position := [some 1] }).isSome = true ∧
    (mkHandle (some (Trans.simple (⟨2, 0⟩ : Simple ℚ))) { absolutePosition := [some 0] } {}).isSome = false ∧
    (mkHandle (some (Trans.simple (⟨2, 0⟩ : Simple ℚ))) { position := [some 0] } { velocity := [some 1, some 2] }).isSome
      = false ∧
    (mkHandle (some (Trans.simple (⟨2, 0⟩ : Simple ℚ))) { position := [some 0] } { velocity := [none] }).isSome
      = false := by decide

/-- **C49** (missing: that the data are complete; the constructor does not ensure it, see
`c49_missing_negation` and `c49_torque_negation`). A constructed handle propagates without touching
missing data if and only if the data its kind needs are there. -/
theorem c49_propagate_partial (nd : Bool) {t : Option (Trans K)} {act jnt : Data} {h : Handle K}
    (hm : mkHandle t act jnt = some h) (k : Kind) (m : Mem K) :
    (∃ m', h.propagate nd k m = .ok m') ↔ Complete nd k h := by
  obtain ⟨-, -, -, ⟨s1, s2, s3, s4⟩, ⟨s5, s6, s7, s8, s9⟩, ⟨p1, p2, p3, p4, p5⟩, p6, p7, p8, p9, p10⟩ :=
    mkHandle_some hm
  rw [num_eq] at s5 s6 s7 s8 s9
  have hp := num_pos h.trans
  have j1 := fun m => (toJoint_ok (nd := nd) (q := .position) (T := h.trans) p1 p6 m).trans (enough_iff hp s1 s5)
  have j2 := fun m => (toJoint_ok (nd := nd) (q := .velocity) (T := h.trans) p2 p7 m).trans (enough_iff hp s2 s6)
  have j3 := fun m => (toJoint_ok (nd := nd) (q := .effort) (T := h.trans) p3 p8 m).trans (enough_iff hp s3 s7)
  have a1 := fun m => (toActuator_ok (nd := nd) (q := .position) (T := h.trans) p1 p6 m).trans (enough_iff hp s1 s5)
  have a2 := fun m => (toActuator_ok (nd := nd) (q := .velocity) (T := h.trans) p2 p7 m).trans (enough_iff hp s2 s6)
  have a3 := fun m => (toActuator_ok (nd := nd) (q := .effort) (T := h.trans) p3 p8 m).trans (enough_iff hp s3 s7)
  cases k with
  | actuatorToJointPosition => exact j1 m
  | actuatorToJointVelocity => exact j2 m
  | actuatorToJointEffort => exact j3 m
  | jointToActuatorPosition => exact a1 m
  | jointToActuatorVelocity => exact a2 m
  | jointToActuatorEffort => exact a3 m
  | jointToActuatorState => exact bind_ok (a1 m) fun m => bind_ok (a2 m) fun m => a3 m
  | actuatorToJointState =>
    by_cases h0 : h.act.position = []
    · constructor
      · rintro ⟨m', he⟩
        exfalso
        have : ¬∃ m', toJoint nd .position h.trans h.act h.jnt m = .ok m' := by
          rw [j1]; exact fun hh => hh.1 h0
        apply this
        unfold Handle.propagate at he
        dsimp only at he
        cases hc : actuatorToJointPosition nd h.trans h.act h.jnt m with
        | ok m' => exact ⟨m', hc⟩
        | error e => rw [hc] at he; cases he
      · intro hc
        exact absurd h0 hc.1.1
    · have tq : ∀ m, (∃ m', (if h.act.torqueSensor.isEmpty then pure m
          else actuatorToJointTorqueSensor nd h.trans h.act h.jnt m : Except Fault (Mem K)) = .ok m') ↔
          (h.act.torqueSensor ≠ [] → h.jnt.torqueSensor ≠ [] ∧ Fits nd h.trans.numActuators h.act.torqueSensor) := by
        intro m
        split
        · rename_i he
          have he : h.act.torqueSensor = [] := by simpa using he
          simp [he, pure, Except.pure]
        · rename_i he
          have he : h.act.torqueSensor ≠ [] := by simpa using he
          rw [torque_ok p5 p10]
          simp only [he, ne_eq, not_false_eq_true, forall_const]
          simp only [sizeOk, Bool.or_eq_true, List.isEmpty_iff, beq_iff_eq] at s9
          rw [← ne_eq, ← List.length_pos_iff, Enough, Fits]
          rcases s9 with s9 | s9 <;> cases nd <;> simp [s9] <;> omega
      have ab : ∀ m, (∃ m', (if h.act.absolutePosition.isEmpty then pure m
          else actuatorToJointAbsolutePosition nd h.trans h.act h.jnt m : Except Fault (Mem K)) = .ok m') ↔
          (h.act.absolutePosition ≠ [] → h.jnt.absolutePosition ≠ []) := by
        intro m
        split
        · rename_i he
          have he : h.act.absolutePosition = [] := by simpa using he
          simp [he, pure, Except.pure]
        · rename_i he
          have he : h.act.absolutePosition ≠ [] := by simpa using he
          rw [absolute_ok p4 p9 p1 h0, enough_iff hp s4 s8]
          simp [he]
      rw [propagate_state]
      exact bind_ok (j1 m) fun m => bind_ok (j2 m) fun m => bind_ok (j3 m) fun m => bind_ok (ab m) fun m => tq m

end

/-- A handle with complete data. -/
example : ∃ h, mkHandle (some (Trans.simple (⟨2, 0⟩ : Simple ℚ)))
    { position := cells [0], velocity := cells [1], effort := cells [2] }
    { position := cells [3], velocity := cells [4], effort := cells [5] } = some h ∧
    Complete false .actuatorToJointState h ∧ Complete true .jointToActuatorState h :=
  ⟨_, rfl, by simp [Complete, cells], by simp [Complete, cells]⟩

/-- A handle with only positions can be constructed; its state is propagated by reading past the end of
the empty velocity vectors, or stops at an assertion. -/
theorem c49_missing_negation :
    ∃ h : Handle ℚ, mkHandle (some (Trans.simple ⟨2, 0⟩)) { position := cells [0] } { position := cells [1] } = some h ∧
      (∀ m, h.propagate true .actuatorToJointState m = .error .outOfRange) ∧
      ∀ m, h.propagate false .actuatorToJointState m = .error .assertion :=
  ⟨_, rfl, fun _ => rfl, fun _ => rfl⟩

/-- The size of the torque sensor data of the actuators is not checked: one pointer instead of two is
accepted, and read past the end. -/
theorem c49_torque_negation :
    ∃ (act jnt : Data) (h : Handle ℚ), act.torqueSensor = cells [6] ∧
      mkHandle (some (Trans.differential exDiff)) act jnt = some h ∧
      ∀ m, h.propagate true .actuatorToJointState m = .error .outOfRange :=
  ⟨{ position := cells [0, 1], velocity := cells [2, 3], effort := cells [4, 5], torqueSensor := cells [6] },
    { position := cells [10, 11], velocity := cells [12, 13], effort := cells [14, 15],
      torqueSensor := cells [16, 17] }, _, rfl, rfl, fun _ => rfl⟩

end Verif.Transmission
