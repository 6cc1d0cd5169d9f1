import Mathlib.Algebra.Field.Defs

/-!
Transmissions and transmission handles (transmission_interface).

The type of doubles is a parameter, with the operations the maps use. Most properties are about a field:
arithmetic is exact, there is no NaN, infinity or rounding in the maps (the constructors are modelled for NaN
as well). See TransmissionDouble.lean for the arithmetic of IEEE 754. Pointers to doubles are optional addresses of
a memory; the vectors of pointers are lists. Indexing a vector out of range and dereferencing a null
pointer (undefined behaviour in C++) and a failed assertion are distinct faults. Pointers to memory
that is no longer alive are not modelled.
-/

namespace Verif.Transmission

/-- What can go wrong: C++ undefined behaviour (`outOfRange`, `null`) or a failed `assert`. -/
inductive Fault
  | outOfRange
  | null
  | assertion
  deriving DecidableEq, Repr

/-- A `double*`; `none` is the null pointer. -/
abbrev Ptr := Option Nat

/-- The memory pointers point to. -/
abbrev Mem (K : Type) := Nat → K

/-- transmission.h 50-57 (`ActuatorData`) and 63-70 (`JointData`), which have the same fields. -/
structure Data where
  position : List Ptr := []
  velocity : List Ptr := []
  effort : List Ptr := []
  absolutePosition : List Ptr := []
  torqueSensor : List Ptr := []
  deriving DecidableEq, Repr

/-- `*v[i]` as an lvalue: `std::vector::operator[]` and the dereference. -/
def deref (v : List Ptr) (i : Nat) : Except Fault Nat :=
  match v[i]? with
  | none => .error .outOfRange
  | some none => .error .null
  | some (some a) => .ok a

/-- The value of `*v[i]`. -/
def load {K : Type} (v : List Ptr) (i : Nat) (m : Mem K) : Except Fault K := do
  let a ← deref v i
  return m a

/-- `*v[i] = x`. -/
def store {K : Type} (v : List Ptr) (i : Nat) (x : K) (m : Mem K) : Except Fault (Mem K) := do
  let a ← deref v i
  return fun b => if b = a then x else m b

/-- The value of `v[i]` as a truth value, in the assertions. -/
def nonNull (v : List Ptr) (i : Nat) : Except Fault Bool :=
  match v[i]? with
  | none => .error .outOfRange
  | some p => .ok p.isSome

/-- `assert(v[i] && w[j] && ...)`, evaluated from left to right. -/
def assertPtrs : List (List Ptr × Nat) → Except Fault Unit
  | [] => .ok ()
  | (v, i) :: rest => do
    if ← nonNull v i then assertPtrs rest else .error .assertion

/-- The two assertions at the beginning of every map, e.g. simple_transmission.h 199-200: the sizes,
then the pointers. They are compiled away if `NDEBUG` is defined. -/
def asserts (ndebug : Bool) (sizes : Bool) (ptrs : List (List Ptr × Nat)) : Except Fault Unit :=
  if ndebug then .ok ()
  else if sizes then assertPtrs ptrs
  else .error .assertion

/-- simple_transmission.h 181-183. -/
structure Simple (F : Type) where
  reduction : F
  offset : F

/-- differential_transmission.h 232-235 (with `ignore`), four_bar_linkage_transmission.h 219-221
(`ignore` not used). The constructor has checked that the vectors have two elements, and they do
not change after that. -/
structure Two (F : Type) where
  ar : F × F
  jr : F × F
  off : F × F
  ignore : Bool

/-- The three transmission classes. -/
inductive Trans (F : Type)
  | simple (t : Simple F)
  | differential (t : Two F)
  | fourBar (t : Two F)

/-! ### Constructors -/

/-- simple_transmission.h 186-195. `isZero` is the comparison `0.0 == x`; `none`: exception. -/
def mkSimple {F : Type} (isZero : F → Bool) (reduction offset : F) : Option (Simple F) :=
  if isZero reduction then none else some ⟨reduction, offset⟩

/-- differential_transmission.h 244-267 and four_bar_linkage_transmission.h 224-244. -/
def mkTwo {F : Type} (isZero : F → Bool) (ar jr : List F) (ignore : Bool) (off : List F) : Option (Two F) :=
  match ar, jr, off with
  | [a0, a1], [j0, j1], [o0, o1] =>
    if isZero a0 || isZero a1 || isZero j0 || isZero j1 then none else some ⟨(a0, a1), (j0, j1), (o0, o1), ignore⟩
  | _, _, _ => none

/-- differential_transmission.h 238-242: the constructor without the flag. -/
def mkTwoDefault {F : Type} (isZero : F → Bool) (ar jr off : List F) : Option (Two F) :=
  mkTwo isZero ar jr false off

section

variable {F : Type}

/-- `numActuators()` (simple_transmission.h 172, differential_transmission.h 222,
four_bar_linkage_transmission.h 209). -/
def Trans.numActuators : Trans F → Nat
  | .simple _ => 1
  | .differential _ => 2
  | .fourBar _ => 2

/-- `numJoints()`, the lines after. -/
def Trans.numJoints : Trans F → Nat
  | .simple _ => 1
  | .differential _ => 2
  | .fourBar _ => 2

end

/-! ### Maps -/

section

variable {K : Type} [Add K] [Sub K] [Mul K] [Div K] [OfNat K 2] (nd : Bool)

/-- The statements `*dst[0] = f(*src[0], *src[1]); *dst[1] = g(*src[0], *src[1]);`, the shape of the
maps of the two-joint transmissions. The sources are read again for the second statement. (A first
statement that uses only one source is modelled as reading both; a fault of that read would occur
in the second statement.) -/
def assign2 (dst src : List Ptr) (f g : K → K → K) (m : Mem K) : Except Fault (Mem K) := do
  let x ← load src 0 m
  let y ← load src 1 m
  let m ← store dst 0 (f x y) m
  let x ← load src 0 m
  let y ← load src 1 m
  store dst 1 (g x y) m

/-- The same, but with the sources read only once, before the first statement. -/
def assign2Once (dst src : List Ptr) (f g : K → K → K) (m : Mem K) : Except Fault (Mem K) := do
  let x ← load src 0 m
  let y ← load src 1 m
  let m ← store dst 0 (f x y) m
  store dst 1 (g x y) m

/-- `*dst[0] = f(*src[0]);`. -/
def assign1 (dst src : List Ptr) (f : K → K) (m : Mem K) : Except Fault (Mem K) := do
  let x ← load src 0 m
  store dst 0 (f x) m

/-- The assertions of a map of a transmission with one actuator and one joint. -/
def assert1 (a j : List Ptr) : Except Fault Unit :=
  asserts nd (a.length == 1 && j.length == 1) [(a, 0), (j, 0)]

/-- The assertions of a map of a transmission with two actuators and two joints. -/
def assert2 (a j : List Ptr) : Except Fault Unit :=
  asserts nd (a.length == 2 && j.length == 2) [(a, 0), (a, 1), (j, 0), (j, 1)]

/-- simple_transmission.h 197-204, differential_transmission.h 269-280,
four_bar_linkage_transmission.h 246-257. -/
def actuatorToJointEffort (T : Trans K) (act jnt : Data) (m : Mem K) : Except Fault (Mem K) :=
  match T with
  | .simple t => do
    assert1 nd act.effort jnt.effort
    assign1 jnt.effort act.effort (fun x => x * t.reduction) m
  | .differential t => do
    assert2 nd act.effort jnt.effort
    assign2 jnt.effort act.effort (fun x y => t.jr.1 * (x * t.ar.1 + y * t.ar.2))
      (fun x y => t.jr.2 * (x * t.ar.1 - y * t.ar.2)) m
  | .fourBar t => do
    assert2 nd act.effort jnt.effort
    assign2 jnt.effort act.effort (fun x _ => t.jr.1 * (x * t.ar.1))
      (fun x y => t.jr.2 * (y * t.ar.2 - x * t.ar.1 * t.jr.1)) m

/-- simple_transmission.h 206-213, differential_transmission.h 282-293,
four_bar_linkage_transmission.h 259-270. -/
def actuatorToJointVelocity (T : Trans K) (act jnt : Data) (m : Mem K) : Except Fault (Mem K) :=
  match T with
  | .simple t => do
    assert1 nd act.velocity jnt.velocity
    assign1 jnt.velocity act.velocity (fun x => x / t.reduction) m
  | .differential t => do
    assert2 nd act.velocity jnt.velocity
    assign2 jnt.velocity act.velocity (fun x y => (x / t.ar.1 + y / t.ar.2) / (2 * t.jr.1))
      (fun x y => (x / t.ar.1 - y / t.ar.2) / (2 * t.jr.2)) m
  | .fourBar t => do
    assert2 nd act.velocity jnt.velocity
    assign2 jnt.velocity act.velocity (fun x _ => x / (t.jr.1 * t.ar.1))
      (fun x y => (y / t.ar.2 - x / (t.jr.1 * t.ar.1)) / t.jr.2) m

/-- simple_transmission.h 215-222, differential_transmission.h 295-306,
four_bar_linkage_transmission.h 272-284. -/
def actuatorToJointPosition (T : Trans K) (act jnt : Data) (m : Mem K) : Except Fault (Mem K) :=
  match T with
  | .simple t => do
    assert1 nd act.position jnt.position
    assign1 jnt.position act.position (fun x => x / t.reduction + t.offset) m
  | .differential t => do
    assert2 nd act.position jnt.position
    assign2 jnt.position act.position (fun x y => (x / t.ar.1 + y / t.ar.2) / (2 * t.jr.1) + t.off.1)
      (fun x y => (x / t.ar.1 - y / t.ar.2) / (2 * t.jr.2) + t.off.2) m
  | .fourBar t => do
    assert2 nd act.position jnt.position
    assign2 jnt.position act.position (fun x _ => x / (t.jr.1 * t.ar.1) + t.off.1)
      (fun x y => (y / t.ar.2 - x / (t.jr.1 * t.ar.1)) / t.jr.2 + t.off.2) m

/-- simple_transmission.h 224-232, differential_transmission.h 308-327 (the assertion of line 312 looks
at `position[0]` of the actuators), four_bar_linkage_transmission.h 286-299. -/
def actuatorToJointAbsolutePosition (T : Trans K) (act jnt : Data) (m : Mem K) : Except Fault (Mem K) :=
  match T with
  | .simple t => do
    assert1 nd act.absolutePosition jnt.absolutePosition
    assign1 jnt.absolutePosition act.absolutePosition (fun x => x / t.reduction + t.offset) m
  | .differential t => do
    asserts nd (act.absolutePosition.length == 2 && jnt.absolutePosition.length == 2)
      [(act.position, 0), (act.absolutePosition, 1), (jnt.absolutePosition, 0), (jnt.absolutePosition, 1)]
    if !t.ignore then
      assign2 jnt.absolutePosition act.absolutePosition
        (fun x y => (x / t.ar.1 + y / t.ar.2) / (2 * t.jr.1) + t.off.1)
        (fun x y => (x / t.ar.1 - y / t.ar.2) / (2 * t.jr.2) + t.off.2) m
    else
      assign2 jnt.absolutePosition act.absolutePosition (fun _ y => y) (fun x _ => x) m
  | .fourBar t => do
    assert2 nd act.absolutePosition jnt.absolutePosition
    assign2 jnt.absolutePosition act.absolutePosition (fun x _ => x / (t.jr.1 * t.ar.1) + t.off.1)
      (fun x y => (y / t.ar.2 - x / (t.jr.1 * t.ar.1)) / t.jr.2 + t.off.2) m

/-- simple_transmission.h 234-242, differential_transmission.h 329-340,
four_bar_linkage_transmission.h 301-313. -/
def actuatorToJointTorqueSensor (T : Trans K) (act jnt : Data) (m : Mem K) : Except Fault (Mem K) :=
  match T with
  | .simple t => do
    assert1 nd act.torqueSensor jnt.torqueSensor
    assign1 jnt.torqueSensor act.torqueSensor (fun x => x * t.reduction) m
  | .differential t => do
    assert2 nd act.torqueSensor jnt.torqueSensor
    assign2 jnt.torqueSensor act.torqueSensor (fun x y => t.jr.1 * (x * t.ar.1 + y * t.ar.2))
      (fun x y => t.jr.2 * (x * t.ar.1 - y * t.ar.2)) m
  | .fourBar t => do
    assert2 nd act.torqueSensor jnt.torqueSensor
    assign2 jnt.torqueSensor act.torqueSensor (fun x _ => t.jr.1 * (x * t.ar.1))
      (fun x y => t.jr.2 * (y * t.ar.2 - x * t.ar.1 * t.jr.1)) m

/-- simple_transmission.h 245-252, differential_transmission.h 342-353,
four_bar_linkage_transmission.h 316-327. -/
def jointToActuatorEffort (T : Trans K) (jnt act : Data) (m : Mem K) : Except Fault (Mem K) :=
  match T with
  | .simple t => do
    assert1 nd act.effort jnt.effort
    assign1 act.effort jnt.effort (fun x => x / t.reduction) m
  | .differential t => do
    assert2 nd act.effort jnt.effort
    assign2 act.effort jnt.effort (fun x y => (x / t.jr.1 + y / t.jr.2) / (2 * t.ar.1))
      (fun x y => (x / t.jr.1 - y / t.jr.2) / (2 * t.ar.2)) m
  | .fourBar t => do
    assert2 nd act.effort jnt.effort
    assign2 act.effort jnt.effort (fun x _ => x / (t.ar.1 * t.jr.1)) (fun x y => (x + y / t.jr.2) / t.ar.2) m

/-- simple_transmission.h 254-261, differential_transmission.h 355-366,
four_bar_linkage_transmission.h 329-340. -/
def jointToActuatorVelocity (T : Trans K) (jnt act : Data) (m : Mem K) : Except Fault (Mem K) :=
  match T with
  | .simple t => do
    assert1 nd act.velocity jnt.velocity
    assign1 act.velocity jnt.velocity (fun x => x * t.reduction) m
  | .differential t => do
    assert2 nd act.velocity jnt.velocity
    assign2 act.velocity jnt.velocity (fun x y => (x * t.jr.1 + y * t.jr.2) * t.ar.1)
      (fun x y => (x * t.jr.1 - y * t.jr.2) * t.ar.2) m
  | .fourBar t => do
    assert2 nd act.velocity jnt.velocity
    assign2 act.velocity jnt.velocity (fun x _ => x * t.jr.1 * t.ar.1) (fun x y => (x + y * t.jr.2) * t.ar.2) m

/-- simple_transmission.h 263-270, differential_transmission.h 368-381,
four_bar_linkage_transmission.h 342-355. -/
def jointToActuatorPosition (T : Trans K) (jnt act : Data) (m : Mem K) : Except Fault (Mem K) :=
  match T with
  | .simple t => do
    assert1 nd act.position jnt.position
    assign1 act.position jnt.position (fun x => (x - t.offset) * t.reduction) m
  | .differential t => do
    assert2 nd act.position jnt.position
    assign2Once act.position jnt.position
      (fun x y => ((x - t.off.1) * t.jr.1 + (y - t.off.2) * t.jr.2) * t.ar.1)
      (fun x y => ((x - t.off.1) * t.jr.1 - (y - t.off.2) * t.jr.2) * t.ar.2) m
  | .fourBar t => do
    assert2 nd act.position jnt.position
    assign2Once act.position jnt.position (fun x _ => (x - t.off.1) * t.jr.1 * t.ar.1)
      (fun x y => ((x - t.off.1) + (y - t.off.2) * t.jr.2) * t.ar.2) m

end

/-! ### Handles -/

/-- The handle types, transmission_interface.h 191-364. -/
inductive Kind
  | actuatorToJointState | actuatorToJointPosition | actuatorToJointVelocity | actuatorToJointEffort
  | jointToActuatorState | jointToActuatorPosition | jointToActuatorVelocity | jointToActuatorEffort
  deriving DecidableEq, Repr

/-- transmission_interface.h 54-57. The name is not modelled; see `Kind` for the subclass. -/
structure Handle (F : Type) where
  trans : Trans F
  act : Data
  jnt : Data

/-- transmission_interface.h 92-133: a vector is empty or has the size of the transmission. -/
def sizeOk (v : List Ptr) (n : Nat) : Bool := v.isEmpty || v.length == n

/-- transmission_interface.h 181-188: `hasValidPointers`. -/
def validPtrs (v : List Ptr) : Bool := v.all (·.isSome)

/-- transmission_interface.h 70-178: the constructor; `none`: exception. Lines 109-112, meant for the
torque sensor data of the actuators, check the absolute position data a second time. -/
def mkHandle {F : Type} (trans : Option (Trans F)) (act jnt : Data) : Option (Handle F) :=
  match trans with
  -- 79-83
  | none => none
  | some t =>
    -- 85-90
    if act.position.isEmpty && act.velocity.isEmpty && act.effort.isEmpty && jnt.position.isEmpty &&
        jnt.velocity.isEmpty && jnt.effort.isEmpty then none
    -- 92-112
    else if !(sizeOk act.position t.numActuators && sizeOk act.velocity t.numActuators &&
        sizeOk act.effort t.numActuators && sizeOk act.absolutePosition t.numActuators &&
        sizeOk act.absolutePosition t.numActuators) then none
    -- 114-133
    else if !(sizeOk jnt.position t.numJoints && sizeOk jnt.velocity t.numJoints &&
        sizeOk jnt.effort t.numJoints && sizeOk jnt.absolutePosition t.numJoints &&
        sizeOk jnt.torqueSensor t.numJoints) then none
    -- 135-155
    else if !(validPtrs act.position && validPtrs act.velocity && validPtrs act.effort &&
        validPtrs act.absolutePosition && validPtrs act.torqueSensor) then none
    -- 157-176
    else if !(validPtrs jnt.position && validPtrs jnt.velocity && validPtrs jnt.effort &&
        validPtrs jnt.absolutePosition && validPtrs jnt.torqueSensor) then none
    else some ⟨t, act, jnt⟩

section

variable {K : Type} [Add K] [Sub K] [Mul K] [Div K] [OfNat K 2] (nd : Bool)

/-- `propagate()` of the handle types: transmission_interface.h 207-222, 241, 260, 279, 300-305, 324,
343, 362. All three transmissions report that they support absolute positions and torque sensors
(simple_transmission.h 174-175, differential_transmission.h 224-225,
four_bar_linkage_transmission.h 211-212). -/
def Handle.propagate (k : Kind) (h : Handle K) (m : Mem K) : Except Fault (Mem K) :=
  match k with
  | .actuatorToJointState => do
    let m ← actuatorToJointPosition nd h.trans h.act h.jnt m
    let m ← actuatorToJointVelocity nd h.trans h.act h.jnt m
    let m ← actuatorToJointEffort nd h.trans h.act h.jnt m
    let m ← if h.act.absolutePosition.isEmpty then pure m
      else actuatorToJointAbsolutePosition nd h.trans h.act h.jnt m
    if h.act.torqueSensor.isEmpty then pure m
    else actuatorToJointTorqueSensor nd h.trans h.act h.jnt m
  | .actuatorToJointPosition => actuatorToJointPosition nd h.trans h.act h.jnt m
  | .actuatorToJointVelocity => actuatorToJointVelocity nd h.trans h.act h.jnt m
  | .actuatorToJointEffort => actuatorToJointEffort nd h.trans h.act h.jnt m
  | .jointToActuatorState => do
    let m ← jointToActuatorPosition nd h.trans h.jnt h.act m
    let m ← jointToActuatorVelocity nd h.trans h.jnt h.act m
    jointToActuatorEffort nd h.trans h.jnt h.act m
  | .jointToActuatorPosition => jointToActuatorPosition nd h.trans h.jnt h.act m
  | .jointToActuatorVelocity => jointToActuatorVelocity nd h.trans h.jnt h.act m
  | .jointToActuatorEffort => jointToActuatorEffort nd h.trans h.jnt h.act m

/-- transmission_interface.h 404-410: `TransmissionInterface::propagate`, the handles in name order. -/
def propagateAll (k : Kind) : List (Handle K) → Mem K → Except Fault (Mem K)
  | [], m => .ok m
  | h :: hs, m => do
    let m ← h.propagate nd k m
    propagateAll k hs m

end

end Verif.Transmission
