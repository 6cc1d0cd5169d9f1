import Verif.Model.Transmission

/-!
Vocabulary for the properties of transmissions.
-/

namespace Verif.Transmission

/-- The quantities a transmission maps in both directions. -/
inductive Quantity
  | position | velocity | effort
  deriving DecidableEq, Repr

/-- The pointers for a quantity. -/
def Data.get : Quantity → Data → List Ptr
  | .position, d => d.position
  | .velocity, d => d.velocity
  | .effort, d => d.effort

section

variable {K : Type} [Add K] [Sub K] [Mul K] [Div K] [OfNat K 2]

/-- The map of the transmission from actuators to joints for a quantity. -/
def toJoint (nd : Bool) : Quantity → Trans K → (act jnt : Data) → Mem K → Except Fault (Mem K)
  | .position => actuatorToJointPosition nd
  | .velocity => actuatorToJointVelocity nd
  | .effort => actuatorToJointEffort nd

/-- The map of the transmission from joints to actuators for a quantity. -/
def toActuator (nd : Bool) : Quantity → Trans K → (jnt act : Data) → Mem K → Except Fault (Mem K)
  | .position => jointToActuatorPosition nd
  | .velocity => jointToActuatorVelocity nd
  | .effort => jointToActuatorEffort nd

end

section

variable {K : Type} [OfNat K 0] [DecidableEq K]

/-- The transmission is the result of one of the constructors. -/
inductive Constructed : Trans K → Prop
  | simple (r o : K) (t : Simple K) : mkSimple (· == 0) r o = some t → Constructed (.simple t)
  | differential (ar jr off : List K) (ign : Bool) (t : Two K) :
    mkTwo (· == 0) ar jr ign off = some t → Constructed (.differential t)
  | fourBar (ar jr off : List K) (t : Two K) :
    mkTwo (· == 0) ar jr false off = some t → Constructed (.fourBar t)

end

/-- The cells of the list, as pointers. -/
def cells (l : List Nat) : List Ptr := l.map some

/-- Power: the sum of the products of the values of two lists of cells. -/
def power {K : Type} [Field K] (m : Mem K) : List Nat → List Nat → K
  | e :: es, v :: vs => m e * m v + power m es vs
  | _, _ => 0

/-- A vector holds enough elements for `n` accesses; with assertions on, exactly as many. -/
def Fits (nd : Bool) (n : Nat) (v : List Ptr) : Prop := if nd then n ≤ v.length else v.length = n

/-- The data a handle of this kind needs. -/
def Complete (nd : Bool) {F : Type} (k : Kind) (h : Handle F) : Prop :=
  match k with
  | .actuatorToJointState =>
    (h.act.position ≠ [] ∧ h.jnt.position ≠ []) ∧ (h.act.velocity ≠ [] ∧ h.jnt.velocity ≠ []) ∧
    (h.act.effort ≠ [] ∧ h.jnt.effort ≠ []) ∧
    (h.act.absolutePosition ≠ [] → h.jnt.absolutePosition ≠ []) ∧
    (h.act.torqueSensor ≠ [] → h.jnt.torqueSensor ≠ [] ∧ Fits nd h.trans.numActuators h.act.torqueSensor)
  | .actuatorToJointPosition => h.act.position ≠ [] ∧ h.jnt.position ≠ []
  | .actuatorToJointVelocity => h.act.velocity ≠ [] ∧ h.jnt.velocity ≠ []
  | .actuatorToJointEffort => h.act.effort ≠ [] ∧ h.jnt.effort ≠ []
  | .jointToActuatorState =>
    (h.act.position ≠ [] ∧ h.jnt.position ≠ []) ∧ (h.act.velocity ≠ [] ∧ h.jnt.velocity ≠ []) ∧
    (h.act.effort ≠ [] ∧ h.jnt.effort ≠ [])
  | .jointToActuatorPosition => h.act.position ≠ [] ∧ h.jnt.position ≠ []
  | .jointToActuatorVelocity => h.act.velocity ≠ [] ∧ h.jnt.velocity ≠ []
  | .jointToActuatorEffort => h.act.effort ≠ [] ∧ h.jnt.effort ≠ []

/-- A cell some pointer of the data points to. -/
def Data.Has (d : Data) (c : Nat) : Prop :=
  some c ∈ d.position ∨ some c ∈ d.velocity ∨ some c ∈ d.effort ∨ some c ∈ d.absolutePosition ∨
    some c ∈ d.torqueSensor

/-- The cells a handle has pointers to. -/
def Handle.Has {F : Type} (h : Handle F) (c : Nat) : Prop := h.act.Has c ∨ h.jnt.Has c

/-- The cells a handle of the kind may write: the joint data or the actuator data. -/
def Handle.Target {F : Type} (k : Kind) (h : Handle F) (c : Nat) : Prop :=
  match k with
  | .actuatorToJointState | .actuatorToJointPosition | .actuatorToJointVelocity | .actuatorToJointEffort => h.jnt.Has c
  | .jointToActuatorState | .jointToActuatorPosition | .jointToActuatorVelocity | .jointToActuatorEffort => h.act.Has c

/-- No handle writes a cell another one of the list has a pointer to. -/
def Separate (k : Kind) {F : Type} (hs : List (Handle F)) : Prop :=
  hs.Pairwise fun h g => (∀ c, h.Target k c → ¬g.Has c) ∧ ∀ c, g.Target k c → ¬h.Has c

/-- The offsets of the joints. -/
def Trans.offsets {F : Type} : Trans F → List F
  | .simple t => [t.offset]
  | .differential t => [t.off.1, t.off.2]
  | .fourBar t => [t.off.1, t.off.2]

/-- The transmission ignores the reductions for absolute encoders. -/
def Trans.ignores {F : Type} : Trans F → Bool
  | .differential t => t.ignore
  | _ => false

/-- The data with the absolute positions in the place of the positions. -/
def Data.absoluteAsPosition (d : Data) : Data := { d with position := d.absolutePosition }

/-- The data with the torque sensors in the place of the efforts. -/
def Data.torqueAsEffort (d : Data) : Data := { d with effort := d.torqueSensor }

end Verif.Transmission
