import Verif.Lemmas.TransmissionLocal
import Mathlib.Algebra.Field.Rat
import Mathlib.Data.Rat.Cast.Order
import Mathlib.Tactic.NormNum

/-!
Properties C62 and C63: how the maps of a transmission belong together, and propagating all handles of
an interface.
-/

namespace Verif.Transmission

section

variable {K : Type} [Field K]

/-- **C62.** Joint positions move as the joint velocities say: if the actuator velocities are the
differences of two sets of actuator positions, then the joint velocities are the differences of the
joint positions. -/
theorem c62_velocity_of_position (nd : Bool) {T : Trans K} {act jnt : Data}
    {ap av jp jv : List Nat} (h1 : act.position = cells ap) (h2 : act.velocity = cells av)
    (h3 : jnt.position = cells jp) (h4 : jnt.velocity = cells jv)
    (l1 : ap.length = T.numActuators) (l2 : av.length = T.numActuators)
    (l3 : jp.length = T.numJoints) (l4 : jv.length = T.numJoints)
    (n1 : (ap ++ jp).Nodup) (n2 : (av ++ jv).Nodup) (m m' mv : Mem K)
    (hv : av.map mv = List.zipWith (· - ·) (ap.map m') (ap.map m)) :
    ∃ r r' rv, toJoint nd .position T act jnt m = .ok r ∧ toJoint nd .position T act jnt m' = .ok r' ∧
      toJoint nd .velocity T act jnt mv = .ok rv ∧
      jv.map rv = List.zipWith (· - ·) (jp.map r') (jp.map r) := by
  obtain ⟨r, e1, w1, -⟩ := toJoint_run nd .position T (act := act) (jnt := jnt) h1 h3 l1 l3 n1 m
  obtain ⟨r', e2, w2, -⟩ := toJoint_run nd .position T (act := act) (jnt := jnt) h1 h3 l1 l3 n1 m'
  obtain ⟨rv, e3, w3, -⟩ := toJoint_run nd .velocity T (act := act) (jnt := jnt) h2 h4 l2 l4 n2 mv
  refine ⟨r, r', rv, e1, e2, e3, ?_⟩
  rw [w1, w2, w3, hv]
  cases T with
  | simple t =>
    obtain ⟨a, rfl⟩ := List.length_eq_one_iff.1 l1
    simp only [List.map_cons, List.map_nil, List.zipWith_cons_cons, List.zipWith_nil_left, Maps.run, jointMaps,
      List.cons.injEq, and_true]
    ring
  | differential t =>
    obtain ⟨a, b, rfl⟩ := List.length_eq_two.1 l1
    simp only [List.map_cons, List.map_nil, List.zipWith_cons_cons, List.zipWith_nil_left, Maps.run, jointMaps,
      List.cons.injEq, and_true]
    constructor <;> ring
  | fourBar t =>
    obtain ⟨a, b, rfl⟩ := List.length_eq_two.1 l1
    simp only [List.map_cons, List.map_nil, List.zipWith_cons_cons, List.zipWith_nil_left, Maps.run, jointMaps,
      List.cons.injEq, and_true]
    constructor <;> ring

/-- **C62.** With all actuator positions zero the joints are at their offsets. -/
theorem c62_offset (nd : Bool) {T : Trans K} {act jnt : Data} {ap jp : List Nat} (h1 : act.position = cells ap)
    (h3 : jnt.position = cells jp) (l1 : ap.length = T.numActuators) (l3 : jp.length = T.numJoints)
    (n1 : (ap ++ jp).Nodup) (m : Mem K) (h0 : ∀ a ∈ ap, m a = 0) :
    ∃ r, toJoint nd .position T act jnt m = .ok r ∧ jp.map r = T.offsets := by
  obtain ⟨r, e1, w1, -⟩ := toJoint_run nd .position T (act := act) (jnt := jnt) h1 h3 l1 l3 n1 m
  refine ⟨r, e1, ?_⟩
  rw [w1]
  cases T with
  | simple t =>
    obtain ⟨a, rfl⟩ := List.length_eq_one_iff.1 l1
    simp [Maps.run, jointMaps, h0 a (by simp), Trans.offsets]
  | differential t =>
    obtain ⟨a, b, rfl⟩ := List.length_eq_two.1 l1
    simp [Maps.run, jointMaps, h0 a (by simp), h0 b (by simp), Trans.offsets]
  | fourBar t =>
    obtain ⟨a, b, rfl⟩ := List.length_eq_two.1 l1
    simp [Maps.run, jointMaps, h0 a (by simp), h0 b (by simp), Trans.offsets]

end

section

variable {K : Type} [Add K] [Sub K] [Mul K] [Div K] [OfNat K 2]

/-- **C62.** Torque sensors are mapped as efforts are. -/
theorem c62_torque_sensor (nd : Bool) (T : Trans K) (act jnt : Data) (m : Mem K) :
    actuatorToJointTorqueSensor nd T act jnt m = toJoint nd .effort T act.torqueAsEffort jnt.torqueAsEffort m := by
  cases T <;> rfl

/-- **C62.** Absolute positions are mapped as positions are, unless the transmission ignores the
reductions for absolute encoders. (The pointers have to be there: a differential transmission looks at
`position[0]` of the actuators as well.) -/
theorem c62_absolute_position (nd : Bool) (T : Trans K) (hT : T.ignores = false) {act jnt : Data} {as js : List Nat}
    {p : Nat} {ps : List Ptr} (hp : act.position = some p :: ps) (ha : act.absolutePosition = cells as)
    (hj : jnt.absolutePosition = cells js) (la : as.length = T.numActuators) (lj : js.length = T.numJoints)
    (m : Mem K) :
    actuatorToJointAbsolutePosition nd T act jnt m =
      toJoint nd .position T act.absoluteAsPosition jnt.absoluteAsPosition m := by
  cases T with
  | simple t => rfl
  | fourBar t => rfl
  | differential t =>
    obtain ⟨a, b, rfl⟩ := List.length_eq_two.1 la
    obtain ⟨i, j, rfl⟩ := List.length_eq_two.1 lj
    have hT : t.ignore = false := hT
    simp only [actuatorToJointAbsolutePosition, toJoint, actuatorToJointPosition, Data.absoluteAsPosition, ha, hj,
      assert2_cells, hT, Bool.not_false, if_true]
    cases nd
    · simp [asserts, hp, cells, assertPtrs, nonNull, bind, Except.bind]
    · simp [asserts, bind, Except.bind]

/-- **C62, default.** A differential transmission constructed without the flag maps absolute positions as positions. -/
theorem c62_default (isZero : K → Bool) {ar jr off : List K} {t : Two K} (h : mkTwoDefault isZero ar jr off = some t) (nd : Bool)
    {act jnt : Data} {a b i j : Nat} {p : Nat} {ps : List Ptr} (hp : act.position = some p :: ps)
    (ha : act.absolutePosition = cells [a, b]) (hj : jnt.absolutePosition = cells [i, j]) (m : Mem K) :
    actuatorToJointAbsolutePosition nd (.differential t) act jnt m =
      toJoint nd .position (.differential t) act.absoluteAsPosition jnt.absoluteAsPosition m :=
  c62_absolute_position nd (.differential t) (mkTwo_some.1 h).2.2.2.1 hp ha hj rfl rfl m

example : ∃ t, mkTwoDefault (F := ℚ) (· == 0) [2, 3] [4, 5] [0, 0] = some t := ⟨_, rfl⟩

end

/-- A differential transmission that ignores the reductions for absolute encoders passes the absolute
positions on, the second actuator to the first joint and the first actuator to the second joint. -/
theorem c62_ignore_swaps {K : Type} [Add K] [Sub K] [Mul K] [Div K] [OfNat K 2] (nd : Bool) (t : Two K) (ht : t.ignore = true) (a b i j p : Nat)
    (act jnt : Data) (ps : List Ptr) (hp : act.position = some p :: ps) (ha : act.absolutePosition = cells [a, b])
    (hj : jnt.absolutePosition = cells [i, j]) (hn : [a, b, i, j].Nodup) (m : Mem K) :
    ∃ m', actuatorToJointAbsolutePosition nd (.differential t) act jnt m = .ok m' ∧ m' i = m b ∧ m' j = m a := by
  simp only [List.nodup_cons, List.mem_cons, List.not_mem_nil, or_false, not_or] at hn
  refine ⟨upd (upd m i (m b)) j (m a), ?_, ?_, ?_⟩
  · simp only [actuatorToJointAbsolutePosition, ha, hj, ht, Bool.not_true, Bool.false_eq_true, if_false]
    rw [assign2_disjoint hn.1.2.1 hn.2.1.1]
    cases nd
    · simp [asserts, hp, cells, assertPtrs, nonNull, bind, Except.bind]
    · simp [asserts, bind, Except.bind]
  · rw [upd_ne _ _ hn.2.2.1]; simp
  · simp

/-- A four-bar linkage, moved by one unit of its first actuator. -/
example : let T : Trans ℚ := .fourBar ⟨(10, 20), (2, 5), (1, 3), false⟩
    (toJoint false .position T { position := cells [0, 1] } { position := cells [2, 3] }
      (fun c => if c = 0 then 40 else 0)).toOption.map (fun m => (m 2, m 3)) = some (3, 13/5) := by
  simp [toJoint, actuatorToJointPosition, assert2_cells, assign2_cells, bind, Except.bind, Except.toOption, upd]
  norm_num

section

variable {K : Type} [Add K] [Sub K] [Mul K] [Div K] [OfNat K 2]

/-- **C63.** Propagating a transmission interface propagates each of its handles: if no handle writes what
another one reads or writes, and each can be propagated from the given values, then propagating all
succeeds, leaves in the cells each one writes what that handle alone would have left there, and changes no
other cell. -/
theorem c63_each_handle (nd : Bool) (k : Kind) (hs : List (Handle K)) (hsep : Separate k hs) (m : Mem K)
    (hok : ∀ h ∈ hs, ∃ m', h.propagate nd k m = .ok m') :
    ∃ m', propagateAll nd k hs m = .ok m' ∧
      (∀ h ∈ hs, ∀ m1, h.propagate nd k m = .ok m1 → ∀ c, h.Target k c → m' c = m1 c) ∧
      ∀ c, (∀ h ∈ hs, ¬h.Target k c) → m' c = m c := by
  obtain ⟨m', e, h1, h2⟩ := propagateAll_local nd k hs hsep m hok
  exact ⟨m', e, fun h hh m1 e1 c hc => h1 h hh m1 e1 c (target_has k h c hc) (Or.inl hc), h2⟩

/-- **C63.** The order of the handles does not matter. -/
theorem c63_order (nd : Bool) (k : Kind) (hs hs' : List (Handle K)) (hperm : hs.Perm hs') (hsep : Separate k hs)
    (m : Mem K) (hok : ∀ h ∈ hs, ∃ m', h.propagate nd k m = .ok m') :
    ∃ m', propagateAll nd k hs m = .ok m' ∧ propagateAll nd k hs' m = .ok m' := by
  have hsep' : Separate k hs' := (hperm.pairwise_iff fun h => ⟨h.2, h.1⟩).1 hsep
  obtain ⟨m1, e1, a1, b1⟩ := c63_each_handle nd k hs hsep m hok
  obtain ⟨m2, e2, a2, b2⟩ := c63_each_handle nd k hs' hsep' m fun h hh => hok h (hperm.mem_iff.2 hh)
  refine ⟨m1, e1, ?_⟩
  rw [e2]
  congr 1
  funext c
  by_cases hc : ∃ h ∈ hs, h.Target k c
  · obtain ⟨h, hh, ht⟩ := hc
    obtain ⟨n, en⟩ := hok h hh
    rw [a1 h hh n en c ht, a2 h (hperm.mem_iff.1 hh) n en c ht]
  · have hc : ∀ h ∈ hs, ¬h.Target k c := fun h hh ht => hc ⟨h, hh, ht⟩
    rw [b1 c hc, b2 c fun h hh => hc h (hperm.mem_iff.2 hh)]

/-- **C63.** Propagating a handle changes nothing but the joint data, or but the actuator data, as its
kind says. -/
theorem c63_frame (nd : Bool) (k : Kind) (h : Handle K) (m m' : Mem K) (he : h.propagate nd k m = .ok m') (c : Nat)
    (hc : ¬h.Target k c) : m' c = m c :=
  (local_propagate nd k h).frame m m' he c hc

end

/-- Two simple transmissions. -/
def exTwoHandles : List (Handle ℚ) :=
  [⟨.simple ⟨2, 0⟩, { effort := cells [0] }, { effort := cells [1] }⟩,
   ⟨.simple ⟨3, 0⟩, { effort := cells [2] }, { effort := cells [3] }⟩]

example : Separate .jointToActuatorEffort exTwoHandles := by
  simp [Separate, exTwoHandles, Handle.Target, Handle.Has, Data.Has, cells]

example : (propagateAll false .jointToActuatorEffort exTwoHandles (fun _ => 6)).toOption.map
    (fun m => (m 0, m 1, m 2, m 3)) = some (3, 6, 2, 6) := by
  simp [exTwoHandles, propagateAll, Handle.propagate, jointToActuatorEffort, assert1_cells, assign1_cells, bind,
    Except.bind, Except.toOption, upd]
  norm_num

end Verif.Transmission
