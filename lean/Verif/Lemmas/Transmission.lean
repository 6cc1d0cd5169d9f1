import Verif.Spec.Transmission
import Mathlib.Algebra.Field.Basic
import Mathlib.Algebra.CharZero.Defs
import Mathlib.Tactic.FieldSimp
import Mathlib.Tactic.Ring
import Mathlib.Tactic.Tauto

/-!
Lemmas about transmissions.
-/

namespace Verif.Transmission

section

variable {K : Type}

/-- Memory with one cell changed. -/
def upd (m : Mem K) (a : Nat) (x : K) : Mem K := fun b => if b = a then x else m b

@[simp] theorem upd_same (m : Mem K) (a : Nat) (x : K) : upd m a x a = x := by simp [upd]
theorem upd_ne (m : Mem K) {a b : Nat} (x : K) (h : b ≠ a) : upd m a x b = m b := by simp [upd, h]

theorem deref_cells {l : List Nat} {i a : Nat} (h : l[i]? = some a) : deref (cells l) i = .ok a := by
  simp [deref, cells, h]

theorem load_cells {l : List Nat} {i a : Nat} (h : l[i]? = some a) (m : Mem K) :
    load (cells l) i m = .ok (m a) := by
  simp [load, deref_cells h, bind, Except.bind, pure, Except.pure]

theorem store_cells {l : List Nat} {i a : Nat} (h : l[i]? = some a) (x : K) (m : Mem K) :
    store (cells l) i x m = .ok (upd m a x) := by
  simp only [store, deref_cells h, bind, Except.bind, pure, Except.pure]
  rfl

theorem assert1_cells (nd : Bool) (a j : Nat) : assert1 nd (cells [a]) (cells [j]) = .ok () := by
  cases nd <;> simp [assert1, asserts, cells, assertPtrs, nonNull, bind, Except.bind]

theorem assert2_cells (nd : Bool) (a b i j : Nat) : assert2 nd (cells [a, b]) (cells [i, j]) = .ok () := by
  cases nd <;> simp [assert2, asserts, cells, assertPtrs, nonNull, bind, Except.bind]

theorem assign1_cells (d s : Nat) (f : K → K) (m : Mem K) :
    assign1 (cells [d]) (cells [s]) f m = .ok (upd m d (f (m s))) := by
  simp only [assign1, load_cells (l := [s]) (i := 0) rfl, store_cells (l := [d]) (i := 0) rfl, bind, Except.bind]

theorem assign2_cells (d e s t : Nat) (f g : K → K → K) (m : Mem K) :
    assign2 (cells [d, e]) (cells [s, t]) f g m = .ok (upd (upd m d (f (m s) (m t))) e
      (g (upd m d (f (m s) (m t)) s) (upd m d (f (m s) (m t)) t))) := by
  simp only [assign2, load_cells (l := [s, t]) (i := 0) rfl, load_cells (l := [s, t]) (i := 1) rfl,
    store_cells (l := [d, e]) (i := 0) rfl, store_cells (l := [d, e]) (i := 1) rfl, bind, Except.bind]

theorem assign2Once_cells (d e s t : Nat) (f g : K → K → K) (m : Mem K) :
    assign2Once (cells [d, e]) (cells [s, t]) f g m =
      .ok (upd (upd m d (f (m s) (m t))) e (g (m s) (m t))) := by
  simp only [assign2Once, load_cells (l := [s, t]) (i := 0) rfl, load_cells (l := [s, t]) (i := 1) rfl,
    store_cells (l := [d, e]) (i := 0) rfl, store_cells (l := [d, e]) (i := 1) rfl, bind, Except.bind]

/-- With the destinations different from the sources. -/
theorem assign2_disjoint {d e s t : Nat} (h1 : s ≠ d) (h2 : t ≠ d) (f g : K → K → K) (m : Mem K) :
    assign2 (cells [d, e]) (cells [s, t]) f g m = .ok (upd (upd m d (f (m s) (m t))) e (g (m s) (m t))) := by
  rw [assign2_cells, upd_ne _ _ h1, upd_ne _ _ h2]

end

/-- The value a one-to-one map gives, and the values a two-to-two map gives. -/
structure Maps (K : Type) where
  f1 : K → K
  f2 : K → K → K
  g2 : K → K → K

section

variable {K : Type} [Add K] [Sub K] [Mul K] [Div K] [OfNat K 2]

/-- The map to the joints as functions of values. -/
def jointMaps : Quantity → Trans K → Maps K
  | .effort, .simple t => ⟨fun x => x * t.reduction, fun x _ => x, fun _ y => y⟩
  | .velocity, .simple t => ⟨fun x => x / t.reduction, fun x _ => x, fun _ y => y⟩
  | .position, .simple t => ⟨fun x => x / t.reduction + t.offset, fun x _ => x, fun _ y => y⟩
  | .effort, .differential t => ⟨id, fun x y => t.jr.1 * (x * t.ar.1 + y * t.ar.2),
      fun x y => t.jr.2 * (x * t.ar.1 - y * t.ar.2)⟩
  | .velocity, .differential t => ⟨id, fun x y => (x / t.ar.1 + y / t.ar.2) / (2 * t.jr.1),
      fun x y => (x / t.ar.1 - y / t.ar.2) / (2 * t.jr.2)⟩
  | .position, .differential t => ⟨id, fun x y => (x / t.ar.1 + y / t.ar.2) / (2 * t.jr.1) + t.off.1,
      fun x y => (x / t.ar.1 - y / t.ar.2) / (2 * t.jr.2) + t.off.2⟩
  | .effort, .fourBar t => ⟨id, fun x _ => t.jr.1 * (x * t.ar.1),
      fun x y => t.jr.2 * (y * t.ar.2 - x * t.ar.1 * t.jr.1)⟩
  | .velocity, .fourBar t => ⟨id, fun x _ => x / (t.jr.1 * t.ar.1),
      fun x y => (y / t.ar.2 - x / (t.jr.1 * t.ar.1)) / t.jr.2⟩
  | .position, .fourBar t => ⟨id, fun x _ => x / (t.jr.1 * t.ar.1) + t.off.1,
      fun x y => (y / t.ar.2 - x / (t.jr.1 * t.ar.1)) / t.jr.2 + t.off.2⟩

/-- The map to the actuators as functions of values. -/
def actuatorMaps : Quantity → Trans K → Maps K
  | .effort, .simple t => ⟨fun x => x / t.reduction, fun x _ => x, fun _ y => y⟩
  | .velocity, .simple t => ⟨fun x => x * t.reduction, fun x _ => x, fun _ y => y⟩
  | .position, .simple t => ⟨fun x => (x - t.offset) * t.reduction, fun x _ => x, fun _ y => y⟩
  | .effort, .differential t => ⟨id, fun x y => (x / t.jr.1 + y / t.jr.2) / (2 * t.ar.1),
      fun x y => (x / t.jr.1 - y / t.jr.2) / (2 * t.ar.2)⟩
  | .velocity, .differential t => ⟨id, fun x y => (x * t.jr.1 + y * t.jr.2) * t.ar.1,
      fun x y => (x * t.jr.1 - y * t.jr.2) * t.ar.2⟩
  | .position, .differential t => ⟨id, fun x y => ((x - t.off.1) * t.jr.1 + (y - t.off.2) * t.jr.2) * t.ar.1,
      fun x y => ((x - t.off.1) * t.jr.1 - (y - t.off.2) * t.jr.2) * t.ar.2⟩
  | .effort, .fourBar t => ⟨id, fun x _ => x / (t.ar.1 * t.jr.1), fun x y => (x + y / t.jr.2) / t.ar.2⟩
  | .velocity, .fourBar t => ⟨id, fun x _ => x * t.jr.1 * t.ar.1, fun x y => (x + y * t.jr.2) * t.ar.2⟩
  | .position, .fourBar t => ⟨id, fun x _ => (x - t.off.1) * t.jr.1 * t.ar.1,
      fun x y => ((x - t.off.1) + (y - t.off.2) * t.jr.2) * t.ar.2⟩

/-- Whether the transmission has one actuator and one joint. -/
def Trans.one : Trans K → Bool
  | .simple _ => true
  | _ => false

theorem toJoint_one (nd : Bool) (q : Quantity) (T : Trans K) (h1 : T.one = true) (act jnt : Data) (a j : Nat)
    (ha : act.get q = cells [a]) (hj : jnt.get q = cells [j]) (m : Mem K) :
    toJoint nd q T act jnt m = .ok (upd m j ((jointMaps q T).f1 (m a))) := by
  cases T with
  | simple t =>
    cases q <;> simp only [Data.get] at ha hj <;>
    simp only [toJoint, actuatorToJointPosition, actuatorToJointVelocity, actuatorToJointEffort, ha, hj,
      assert1_cells, assign1_cells, bind, Except.bind, jointMaps]
  | differential t => cases h1
  | fourBar t => cases h1

theorem toActuator_one (nd : Bool) (q : Quantity) (T : Trans K) (h1 : T.one = true) (act jnt : Data) (a j : Nat)
    (ha : act.get q = cells [a]) (hj : jnt.get q = cells [j]) (m : Mem K) :
    toActuator nd q T jnt act m = .ok (upd m a ((actuatorMaps q T).f1 (m j))) := by
  cases T with
  | simple t =>
    cases q <;> simp only [Data.get] at ha hj <;>
    simp only [toActuator, jointToActuatorPosition, jointToActuatorVelocity, jointToActuatorEffort, ha, hj,
      assert1_cells, assign1_cells, bind, Except.bind, actuatorMaps]
  | differential t => cases h1
  | fourBar t => cases h1

theorem toJoint_two (nd : Bool) (q : Quantity) (T : Trans K) (h1 : T.one = false) (act jnt : Data) {a b i j : Nat}
    (ha : act.get q = cells [a, b]) (hj : jnt.get q = cells [i, j]) (n1 : a ≠ i) (n2 : b ≠ i) (m : Mem K) :
    toJoint nd q T act jnt m =
      .ok (upd (upd m i ((jointMaps q T).f2 (m a) (m b))) j ((jointMaps q T).g2 (m a) (m b))) := by
  cases T with
  | simple t => cases h1
  | differential t =>
    cases q <;> simp only [Data.get] at ha hj <;>
    simp only [toJoint, actuatorToJointPosition, actuatorToJointVelocity, actuatorToJointEffort, ha, hj,
      assert2_cells, assign2_disjoint n1 n2, bind, Except.bind, jointMaps]
  | fourBar t =>
    cases q <;> simp only [Data.get] at ha hj <;>
    simp only [toJoint, actuatorToJointPosition, actuatorToJointVelocity, actuatorToJointEffort, ha, hj,
      assert2_cells, assign2_disjoint n1 n2, bind, Except.bind, jointMaps]

theorem toActuator_two (nd : Bool) (q : Quantity) (T : Trans K) (h1 : T.one = false) (act jnt : Data) {a b i j : Nat}
    (ha : act.get q = cells [a, b]) (hj : jnt.get q = cells [i, j]) (n1 : i ≠ a) (n2 : j ≠ a) (m : Mem K) :
    toActuator nd q T jnt act m =
      .ok (upd (upd m a ((actuatorMaps q T).f2 (m i) (m j))) b ((actuatorMaps q T).g2 (m i) (m j))) := by
  cases T with
  | simple t => cases h1
  | differential t =>
    cases q <;> simp only [Data.get] at ha hj <;>
    simp only [toActuator, jointToActuatorPosition, jointToActuatorVelocity, jointToActuatorEffort, ha, hj,
      assert2_cells, assign2_disjoint n1 n2, assign2Once_cells, bind, Except.bind, actuatorMaps]
  | fourBar t =>
    cases q <;> simp only [Data.get] at ha hj <;>
    simp only [toActuator, jointToActuatorPosition, jointToActuatorVelocity, jointToActuatorEffort, ha, hj,
      assert2_cells, assign2_disjoint n1 n2, assign2Once_cells, bind, Except.bind, actuatorMaps]

/-- A transmission with one actuator and one joint has these lengths. -/
theorem Trans.one_num (T : Trans K) :
    (T.one = true ∧ T.numActuators = 1 ∧ T.numJoints = 1) ∨ (T.one = false ∧ T.numActuators = 2 ∧ T.numJoints = 2) := by
  cases T <;> simp [Trans.one, Trans.numActuators, Trans.numJoints]

/-- The maps as functions from values to values. -/
def Maps.run (M : Maps K) : List K → List K
  | [x] => [M.f1 x]
  | [x, y] => [M.f2 x y, M.g2 x y]
  | l => l

theorem toJoint_run (nd : Bool) (q : Quantity) (T : Trans K) {act jnt : Data} {as js : List Nat}
    (ha : act.get q = cells as) (hj : jnt.get q = cells js) (la : as.length = T.numActuators)
    (lj : js.length = T.numJoints) (hn : (as ++ js).Nodup) (m : Mem K) :
    ∃ m', toJoint nd q T act jnt m = .ok m' ∧ js.map m' = (jointMaps q T).run (as.map m) ∧
      ∀ c, c ∉ js → m' c = m c := by
  rcases T.one_num with ⟨h1, e1, e2⟩ | ⟨h1, e1, e2⟩ <;> rw [e1] at la <;> rw [e2] at lj
  · obtain ⟨a, rfl⟩ := List.length_eq_one_iff.1 la
    obtain ⟨j, rfl⟩ := List.length_eq_one_iff.1 lj
    refine ⟨_, toJoint_one nd q T h1 act jnt a j ha hj m, by simp [Maps.run], fun c hc => upd_ne _ _ (by simpa using hc)⟩
  · obtain ⟨a, b, rfl⟩ := List.length_eq_two.1 la
    obtain ⟨i, j, rfl⟩ := List.length_eq_two.1 lj
    simp only [List.cons_append, List.nil_append, List.nodup_cons, List.mem_cons, List.not_mem_nil, or_false,
      not_or] at hn
    refine ⟨_, toJoint_two nd q T h1 act jnt ha hj hn.1.2.1 hn.2.1.1 m, ?_, fun c hc => ?_⟩
    · simp [Maps.run, upd_ne _ _ hn.2.2.1]
    · simp only [List.mem_cons, List.not_mem_nil, or_false, not_or] at hc
      rw [upd_ne _ _ hc.2, upd_ne _ _ hc.1]

theorem toActuator_run (nd : Bool) (q : Quantity) (T : Trans K) {act jnt : Data} {as js : List Nat}
    (ha : act.get q = cells as) (hj : jnt.get q = cells js) (la : as.length = T.numActuators)
    (lj : js.length = T.numJoints) (hn : (as ++ js).Nodup) (m : Mem K) :
    ∃ m', toActuator nd q T jnt act m = .ok m' ∧ as.map m' = (actuatorMaps q T).run (js.map m) ∧
      ∀ c, c ∉ as → m' c = m c := by
  rcases T.one_num with ⟨h1, e1, e2⟩ | ⟨h1, e1, e2⟩ <;> rw [e1] at la <;> rw [e2] at lj
  · obtain ⟨a, rfl⟩ := List.length_eq_one_iff.1 la
    obtain ⟨j, rfl⟩ := List.length_eq_one_iff.1 lj
    refine ⟨_, toActuator_one nd q T h1 act jnt a j ha hj m, by simp [Maps.run],
      fun c hc => upd_ne _ _ (by simpa using hc)⟩
  · obtain ⟨a, b, rfl⟩ := List.length_eq_two.1 la
    obtain ⟨i, j, rfl⟩ := List.length_eq_two.1 lj
    simp only [List.cons_append, List.nil_append, List.nodup_cons, List.mem_cons, List.not_mem_nil, or_false,
      not_or] at hn
    refine ⟨_, toActuator_two nd q T h1 act jnt ha hj (Ne.symm hn.1.2.1) (Ne.symm hn.1.2.2) m, ?_, fun c hc => ?_⟩
    · simp [Maps.run, upd_ne _ _ hn.1.1]
    · simp only [List.mem_cons, List.not_mem_nil, or_false, not_or] at hc
      rw [upd_ne _ _ hc.2, upd_ne _ _ hc.1]

theorem run_length (M : Maps K) (l : List K) : (M.run l).length = l.length := by
  rcases l with _ | ⟨x, _ | ⟨y, _ | _⟩⟩ <;> rfl

end

section

variable {K : Type} [Field K]

/-- The reductions are not zero. -/
def Trans.Regular : Trans K → Prop
  | .simple t => t.reduction ≠ 0
  | .differential t => t.ar.1 ≠ 0 ∧ t.ar.2 ≠ 0 ∧ t.jr.1 ≠ 0 ∧ t.jr.2 ≠ 0
  | .fourBar t => t.ar.1 ≠ 0 ∧ t.ar.2 ≠ 0 ∧ t.jr.1 ≠ 0 ∧ t.jr.2 ≠ 0

theorem mkTwo_some {F : Type} {isZero : F → Bool} {ar jr off : List F} {ign : Bool} {t : Two F} :
    mkTwo isZero ar jr ign off = some t ↔ ar = [t.ar.1, t.ar.2] ∧ jr = [t.jr.1, t.jr.2] ∧ off = [t.off.1, t.off.2] ∧
      t.ignore = ign ∧ isZero t.ar.1 = false ∧ isZero t.ar.2 = false ∧ isZero t.jr.1 = false ∧
      isZero t.jr.2 = false := by
  unfold mkTwo
  split
  · split
    · rename_i h
      simp only [reduceCtorEq, List.cons.injEq, and_true, false_iff]
      rintro ⟨⟨rfl, rfl⟩, ⟨rfl, rfl⟩, _, _, h1, h2, h3, h4⟩
      simp [h1, h2, h3, h4] at h
    · rename_i h
      simp only [Bool.or_eq_true, not_or, Bool.not_eq_true] at h
      obtain ⟨⟨⟨h1, h2⟩, h3⟩, h4⟩ := h
      constructor
      · intro h
        cases h
        exact ⟨rfl, rfl, rfl, rfl, h1, h2, h3, h4⟩
      · rintro ⟨e1, e2, e3, e4, _⟩
        obtain ⟨⟨_, _⟩, ⟨_, _⟩, ⟨_, _⟩, _⟩ := t
        simp_all
  · rename_i h
    simp only [reduceCtorEq, false_iff]
    rintro ⟨h1, h2, h3, _⟩
    exact h _ _ _ _ _ _ h1 h2 h3

theorem regular [DecidableEq K] {T : Trans K} (h : Constructed T) : T.Regular := by
  cases h with
  | simple r o t h =>
    unfold mkSimple at h
    split at h
    · cases h
    · cases h
      rename_i h
      simpa [Trans.Regular] using h
  | differential ar jr off ign t h =>
    obtain ⟨_, _, _, _, h1, h2, h3, h4⟩ := mkTwo_some.1 h
    exact ⟨by simpa using h1, by simpa using h2, by simpa using h3, by simpa using h4⟩
  | fourBar ar jr off t h =>
    obtain ⟨_, _, _, _, h1, h2, h3, h4⟩ := mkTwo_some.1 h
    exact ⟨by simpa using h1, by simpa using h2, by simpa using h3, by simpa using h4⟩

theorem maps_one_inv (q : Quantity) {T : Trans K} (hT : T.Regular) (h1 : T.one = true) (x : K) :
    (actuatorMaps q T).f1 ((jointMaps q T).f1 x) = x ∧ (jointMaps q T).f1 ((actuatorMaps q T).f1 x) = x := by
  cases T with
  | simple t =>
    have h : t.reduction ≠ 0 := hT
    cases q <;> constructor <;> simp only [actuatorMaps, jointMaps] <;> field_simp <;> ring
  | differential t => cases h1
  | fourBar t => cases h1

theorem maps_two_inv [NeZero (2 : K)] (q : Quantity) {T : Trans K} (hT : T.Regular) (h1 : T.one = false) (x y : K) :
    (actuatorMaps q T).f2 ((jointMaps q T).f2 x y) ((jointMaps q T).g2 x y) = x ∧
    (actuatorMaps q T).g2 ((jointMaps q T).f2 x y) ((jointMaps q T).g2 x y) = y ∧
    (jointMaps q T).f2 ((actuatorMaps q T).f2 x y) ((actuatorMaps q T).g2 x y) = x ∧
    (jointMaps q T).g2 ((actuatorMaps q T).f2 x y) ((actuatorMaps q T).g2 x y) = y := by
  have h2 : (2 : K) ≠ 0 := NeZero.ne 2
  cases T with
  | simple t => cases h1
  | differential t =>
    obtain ⟨a1, a2, a3, a4⟩ := hT
    cases q <;> refine ⟨?_, ?_, ?_, ?_⟩ <;> simp only [actuatorMaps, jointMaps] <;> field_simp <;> ring
  | fourBar t =>
    obtain ⟨a1, a2, a3, a4⟩ := hT
    cases q <;> refine ⟨?_, ?_, ?_, ?_⟩ <;> simp only [actuatorMaps, jointMaps] <;> field_simp <;> ring

theorem run_inv [NeZero (2 : K)] (q : Quantity) {T : Trans K} (hT : T.Regular) (l : List K)
    (hl : l.length = T.numActuators) :
    (actuatorMaps q T).run ((jointMaps q T).run l) = l ∧ (jointMaps q T).run ((actuatorMaps q T).run l) = l := by
  rcases T.one_num with ⟨h1, e1, e2⟩ | ⟨h1, e1, e2⟩ <;> rw [e1] at hl
  · obtain ⟨x, rfl⟩ := List.length_eq_one_iff.1 hl
    have := maps_one_inv q hT h1 x
    simp [Maps.run, this.1, this.2]
  · obtain ⟨x, y, rfl⟩ := List.length_eq_two.1 hl
    obtain ⟨h1, h2, h3, h4⟩ := maps_two_inv q hT h1 x y
    simp [Maps.run, h1, h2, h3, h4]

end

/-! ### When the maps succeed -/

section

variable {K : Type} [Add K] [Sub K] [Mul K] [Div K] [OfNat K 2]

/-- The element exists and is not null. -/
def Good (v : List Ptr) (i : Nat) : Prop := ∃ a, deref v i = .ok a

theorem good_iff {v : List Ptr} (h : validPtrs v = true) (i : Nat) : Good v i ↔ i < v.length := by
  constructor
  · rintro ⟨a, ha⟩
    by_contra hi
    simp [deref, List.getElem?_eq_none (not_lt.1 hi)] at ha
  · intro hi
    have := List.all_eq_true.1 h _ (List.getElem_mem hi)
    obtain ⟨a, ha⟩ := Option.isSome_iff_exists.1 this
    exact ⟨a, by simp [deref, List.getElem?_eq_getElem hi, ha]⟩

theorem load_ok {v : List Ptr} {i : Nat} {m : Mem K} : (∃ x, load v i m = .ok x) ↔ Good v i := by
  unfold load Good
  cases h : deref v i <;> simp [bind, Except.bind, pure, Except.pure]

theorem store_ok {v : List Ptr} {i : Nat} {x : K} {m : Mem K} : (∃ m', store v i x m = .ok m') ↔ Good v i := by
  unfold store Good
  cases h : deref v i <;> simp [bind, Except.bind, pure, Except.pure]

/-- A computation followed by another one, both succeeding under conditions independent of the memory. -/
theorem bind_ok {A B : Type} {e : Except Fault A} {f : A → Except Fault B} {P Q : Prop}
    (h1 : (∃ a, e = .ok a) ↔ P) (h2 : ∀ a, (∃ b, f a = .ok b) ↔ Q) :
    (∃ b, (e >>= f) = .ok b) ↔ P ∧ Q := by
  cases e with
  | error x =>
    have hP : ¬P := by
      rw [← h1]; rintro ⟨a, h⟩; cases h
    constructor
    · rintro ⟨b, h⟩; cases h
    · rintro ⟨h, _⟩; exact absurd h hP
  | ok a =>
    have hP : P := h1.1 ⟨a, rfl⟩
    show (∃ b, f a = .ok b) ↔ _
    rw [h2 a]
    exact ⟨fun h => ⟨hP, h⟩, fun h => h.2⟩

theorem assign1_ok {d s : List Ptr} {f : K → K} {m : Mem K} :
    (∃ m', assign1 d s f m = .ok m') ↔ Good s 0 ∧ Good d 0 :=
  bind_ok load_ok fun _ => store_ok

theorem assign2_ok {d s : List Ptr} {f g : K → K → K} {m : Mem K} :
    (∃ m', assign2 d s f g m = .ok m') ↔ (Good s 0 ∧ Good s 1) ∧ Good d 0 ∧ Good d 1 := by
  have := bind_ok (load_ok (v := s) (i := 0) (m := m)) fun x => bind_ok (load_ok (v := s) (i := 1) (m := m)) fun y =>
    bind_ok (store_ok (v := d) (i := 0) (x := f x y) (m := m)) fun m1 =>
    bind_ok (load_ok (v := s) (i := 0) (m := m1)) fun x => bind_ok (load_ok (v := s) (i := 1) (m := m1)) fun y =>
    store_ok (v := d) (i := 1) (x := g x y) (m := m1)
  refine this.trans ⟨fun ⟨h1, h2, h3, _, _, h4⟩ => ⟨⟨h1, h2⟩, h3, h4⟩, fun ⟨⟨h1, h2⟩, h3, h4⟩ => ⟨h1, h2, h3, h1, h2, h4⟩⟩

theorem assign2Once_ok {d s : List Ptr} {f g : K → K → K} {m : Mem K} :
    (∃ m', assign2Once d s f g m = .ok m') ↔ (Good s 0 ∧ Good s 1) ∧ Good d 0 ∧ Good d 1 := by
  have := bind_ok (load_ok (v := s) (i := 0) (m := m)) fun x => bind_ok (load_ok (v := s) (i := 1) (m := m)) fun y =>
    bind_ok (store_ok (v := d) (i := 0) (x := f x y) (m := m)) fun m1 =>
    store_ok (v := d) (i := 1) (x := g x y) (m := m1)
  exact this.trans ⟨fun ⟨h1, h2, h3, h4⟩ => ⟨⟨h1, h2⟩, h3, h4⟩, fun ⟨⟨h1, h2⟩, h3, h4⟩ => ⟨h1, h2, h3, h4⟩⟩

theorem assertPtrs_ok : ∀ l : List (List Ptr × Nat), (∃ u, assertPtrs l = .ok u) ↔ ∀ p ∈ l, Good p.1 p.2
  | [] => by simp [assertPtrs]
  | (v, i) :: l => by
    have ih := assertPtrs_ok l
    simp only [List.forall_mem_cons]
    rw [assertPtrs]
    unfold nonNull
    rcases h : v[i]? with _ | _ | a
    · have : ¬Good v i := by rintro ⟨a, ha⟩; simp [deref, h] at ha
      simp [bind, Except.bind, this]
    · have : ¬Good v i := by rintro ⟨a, ha⟩; simp [deref, h] at ha
      simp [bind, Except.bind, this]
    · have : Good v i := ⟨a, by simp [deref, h]⟩
      simp only [bind, Except.bind, Option.isSome_some, if_true, this, true_and]
      exact ih

theorem asserts_ok {nd sizes : Bool} {l : List (List Ptr × Nat)} :
    (∃ u, asserts nd sizes l = .ok u) ↔ nd = true ∨ (sizes = true ∧ ∀ p ∈ l, Good p.1 p.2) := by
  unfold asserts
  cases nd
  · cases sizes
    · simp
    · simp [assertPtrs_ok]
  · simp

theorem assert1_ok {nd : Bool} {a j : List Ptr} : (∃ u, assert1 nd a j = .ok u) ↔
    nd = true ∨ ((a.length = 1 ∧ j.length = 1) ∧ Good a 0 ∧ Good j 0) := by
  simp [assert1, asserts_ok]

theorem assert2_ok {nd : Bool} {a j : List Ptr} : (∃ u, assert2 nd a j = .ok u) ↔
    nd = true ∨ ((a.length = 2 ∧ j.length = 2) ∧ Good a 0 ∧ Good a 1 ∧ Good j 0 ∧ Good j 1) := by
  simp [assert2, asserts_ok]

/-- A map succeeds for vectors of valid pointers if they are long enough; with assertions, if they
have exactly the right length. -/
def Enough (nd : Bool) (n : Nat) (a j : List Ptr) : Prop :=
  n ≤ a.length ∧ n ≤ j.length ∧ (nd = true ∨ (a.length = n ∧ j.length = n))

section

variable {nd : Bool} {a j : List Ptr} (ha : validPtrs a = true) (hj : validPtrs j = true)

include ha hj

theorem one_ok {f : K → K} {m : Mem K} {d s : List Ptr} (hd : (d = a ∧ s = j) ∨ (d = j ∧ s = a)) :
    (∃ m', (assert1 nd a j >>= fun _ => assign1 d s f m) = .ok m') ↔ Enough nd 1 a j := by
  rw [bind_ok assert1_ok fun _ => assign1_ok]
  rcases hd with ⟨rfl, rfl⟩ | ⟨rfl, rfl⟩ <;>
  · simp only [good_iff ha, good_iff hj, Enough]
    cases nd <;> simp <;> omega

theorem two_ok {f g : K → K → K} {m : Mem K} {d s : List Ptr} (hd : (d = a ∧ s = j) ∨ (d = j ∧ s = a)) :
    (∃ m', (assert2 nd a j >>= fun _ => assign2 d s f g m) = .ok m') ↔ Enough nd 2 a j := by
  rw [bind_ok assert2_ok fun _ => assign2_ok]
  rcases hd with ⟨rfl, rfl⟩ | ⟨rfl, rfl⟩ <;>
  · simp only [good_iff ha, good_iff hj, Enough]
    cases nd <;> simp <;> omega

theorem twoOnce_ok {f g : K → K → K} {m : Mem K} {d s : List Ptr} (hd : (d = a ∧ s = j) ∨ (d = j ∧ s = a)) :
    (∃ m', (assert2 nd a j >>= fun _ => assign2Once d s f g m) = .ok m') ↔ Enough nd 2 a j := by
  rw [bind_ok assert2_ok fun _ => assign2Once_ok]
  rcases hd with ⟨rfl, rfl⟩ | ⟨rfl, rfl⟩ <;>
  · simp only [good_iff ha, good_iff hj, Enough]
    cases nd <;> simp <;> omega

end

theorem toJoint_ok {nd : Bool} {q : Quantity} {T : Trans K} {act jnt : Data} (ha : validPtrs (act.get q) = true)
    (hj : validPtrs (jnt.get q) = true) (m : Mem K) :
    (∃ m', toJoint nd q T act jnt m = .ok m') ↔ Enough nd T.numActuators (act.get q) (jnt.get q) := by
  cases T <;> cases q
  all_goals first
    | exact one_ok ha hj (Or.inr ⟨rfl, rfl⟩)
    | exact two_ok ha hj (Or.inr ⟨rfl, rfl⟩)

theorem toActuator_ok {nd : Bool} {q : Quantity} {T : Trans K} {act jnt : Data} (ha : validPtrs (act.get q) = true)
    (hj : validPtrs (jnt.get q) = true) (m : Mem K) :
    (∃ m', toActuator nd q T jnt act m = .ok m') ↔ Enough nd T.numActuators (act.get q) (jnt.get q) := by
  cases T <;> cases q
  all_goals first
    | exact one_ok ha hj (Or.inl ⟨rfl, rfl⟩)
    | exact two_ok ha hj (Or.inl ⟨rfl, rfl⟩)
    | exact twoOnce_ok ha hj (Or.inl ⟨rfl, rfl⟩)

theorem torque_ok {nd : Bool} {T : Trans K} {act jnt : Data} (ha : validPtrs act.torqueSensor = true)
    (hj : validPtrs jnt.torqueSensor = true) (m : Mem K) :
    (∃ m', actuatorToJointTorqueSensor nd T act jnt m = .ok m') ↔
      Enough nd T.numActuators act.torqueSensor jnt.torqueSensor := by
  cases T
  all_goals first
    | exact one_ok ha hj (Or.inr ⟨rfl, rfl⟩)
    | exact two_ok ha hj (Or.inr ⟨rfl, rfl⟩)

/-- The absolute positions; the positions are there as well. -/
theorem absolute_ok {nd : Bool} {T : Trans K} {act jnt : Data} (ha : validPtrs act.absolutePosition = true)
    (hj : validPtrs jnt.absolutePosition = true) (hp : validPtrs act.position = true) (h0 : act.position ≠ [])
    (m : Mem K) :
    (∃ m', actuatorToJointAbsolutePosition nd T act jnt m = .ok m') ↔
      Enough nd T.numActuators act.absolutePosition jnt.absolutePosition := by
  have h0' : 0 < act.position.length := List.length_pos_of_ne_nil h0
  cases T with
  | simple t => exact one_ok ha hj (Or.inr ⟨rfl, rfl⟩)
  | fourBar t => exact two_ok ha hj (Or.inr ⟨rfl, rfl⟩)
  | differential t =>
    show (∃ m', (asserts _ _ _ >>= fun _ => _) = .ok m') ↔ _
    refine (bind_ok (Q := (Good act.absolutePosition 0 ∧ Good act.absolutePosition 1) ∧
      Good jnt.absolutePosition 0 ∧ Good jnt.absolutePosition 1) asserts_ok fun _ => ?_).trans ?_
    · split
      · exact assign2_ok
      · exact assign2_ok
    · simp only [List.forall_mem_cons, List.forall_mem_nil, and_true, good_iff ha, good_iff hj, good_iff hp, Enough,
        Trans.numActuators, Bool.and_eq_true, beq_iff_eq]
      cases nd <;> simp <;> omega

end

/-! ### Handles -/

theorem mkHandle_some {F : Type} {t : Option (Trans F)} {act jnt : Data} {h : Handle F}
    (hm : mkHandle t act jnt = some h) :
    t = some h.trans ∧ act = h.act ∧ jnt = h.jnt ∧
    (sizeOk h.act.position h.trans.numActuators ∧ sizeOk h.act.velocity h.trans.numActuators ∧
      sizeOk h.act.effort h.trans.numActuators ∧ sizeOk h.act.absolutePosition h.trans.numActuators) ∧
    (sizeOk h.jnt.position h.trans.numJoints ∧ sizeOk h.jnt.velocity h.trans.numJoints ∧
      sizeOk h.jnt.effort h.trans.numJoints ∧ sizeOk h.jnt.absolutePosition h.trans.numJoints ∧
      sizeOk h.jnt.torqueSensor h.trans.numJoints) ∧
    (validPtrs h.act.position ∧ validPtrs h.act.velocity ∧ validPtrs h.act.effort ∧
      validPtrs h.act.absolutePosition ∧ validPtrs h.act.torqueSensor) ∧
    (validPtrs h.jnt.position ∧ validPtrs h.jnt.velocity ∧ validPtrs h.jnt.effort ∧
      validPtrs h.jnt.absolutePosition ∧ validPtrs h.jnt.torqueSensor) := by
  cases t with
  | none => cases hm
  | some t =>
    simp only [mkHandle] at hm
    repeat' split at hm
    all_goals try exact (Option.some_ne_none _ hm.symm).elim
    rename_i h1 h2 h3 h4 h5
    cases hm
    simp only [Bool.not_eq_true', Bool.not_eq_false, Bool.and_eq_true] at h2 h3 h4 h5
    refine ⟨rfl, rfl, rfl, ?_, ?_, ?_, ?_⟩
    · tauto
    · tauto
    · tauto
    · tauto

theorem num_eq {F : Type} (T : Trans F) : T.numJoints = T.numActuators := by cases T <;> rfl

theorem num_pos {F : Type} (T : Trans F) : 0 < T.numActuators := by cases T <;> simp [Trans.numActuators]

theorem enough_iff {nd : Bool} {n : Nat} (hn : 0 < n) {a j : List Ptr} (ha : sizeOk a n) (hj : sizeOk j n) :
    Enough nd n a j ↔ a ≠ [] ∧ j ≠ [] := by
  simp only [sizeOk, Bool.or_eq_true, List.isEmpty_iff, beq_iff_eq] at ha hj
  rw [← List.length_pos_iff, ← List.length_pos_iff, Enough]
  rcases ha with rfl | ha <;> rcases hj with rfl | hj <;> simp_all
  all_goals omega

theorem propagate_state {K : Type} [Add K] [Sub K] [Mul K] [Div K] [OfNat K 2] (nd : Bool) (h : Handle K) (m : Mem K) :
    h.propagate nd .actuatorToJointState m =
      (actuatorToJointPosition nd h.trans h.act h.jnt m >>= fun m =>
      actuatorToJointVelocity nd h.trans h.act h.jnt m >>= fun m =>
      actuatorToJointEffort nd h.trans h.act h.jnt m >>= fun m =>
      (if h.act.absolutePosition.isEmpty then pure m
        else actuatorToJointAbsolutePosition nd h.trans h.act h.jnt m) >>= fun m =>
      if h.act.torqueSensor.isEmpty then pure m
        else actuatorToJointTorqueSensor nd h.trans h.act h.jnt m) := by
  unfold Handle.propagate
  dsimp only
  cases h.act.absolutePosition.isEmpty <;> simp only [if_true, Bool.false_eq_true, if_false]

end Verif.Transmission
