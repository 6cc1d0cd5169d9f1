import Verif.Model.TransmissionLoader
import Verif.Spec.Transmission
import Verif.Spec.TransmissionParser

/-!
Vocabulary for the properties of the transmission loader.
-/

namespace Verif.Transmission

/-- A cell of the values of an actuator or a joint. -/
def StateCells.Has (s : StateCells) (a : Nat) : Prop :=
  a = s.position ∨ a = s.velocity ∨ a = s.effort ∨ some a = s.absolutePosition ∨ some a = s.torqueSensor

namespace Loader

variable {K : Type}

/-- The joint state interface controllers get from the robot. -/
def robotState (L : Loader K) : List (String × StateCells) := L.ownState.getD L.jointState

/-- The joint command interface controllers get from the robot. -/
def robotCommand (L : Loader K) (c : Cmd) : List (String × (StateCells × Nat)) := (L.ownCommand c).getD (L.jointCommand c)

/-- Nothing has been loaded. -/
structure Fresh (L : Loader K) : Prop where
  jointState : L.jointState = []
  jointCommand : ∀ c, L.jointCommand c = []
  raw : L.raw = []
  handles : ∀ k, L.handles k = []
  transmissions : L.transmissions = []

/-- The robot has no joint interfaces of its own. -/
def NoOwn (L : Loader K) : Prop := L.ownState = none ∧ ∀ c, L.ownCommand c = none

/-- A cell of an actuator of the robot. -/
def ActuatorCell (L : Loader K) (a : Nat) : Prop :=
  (∃ l n s, L.actuators.state = some l ∧ (n, s) ∈ l ∧ s.Has a) ∨
    ∃ c l n, L.actuators.command c = some l ∧ (n, a) ∈ l

/-- `L` is the loader after some calls of `load`, starting from `L0` with nothing loaded. -/
def Reached [OfNat K 0] [OfNat K 1] [DecidableEq K] (stod : String → Option K) (L0 L : Loader K) : Prop :=
  L0.Fresh ∧ ∃ calls, loads stod calls L0 = .ok L

end Loader

/-- The text of each number in the elements of the joints and actuators is present. -/
def TransInfo.TextsPresent (i : TransInfo) : Prop :=
  ∀ e ∈ i.joints.map (·.xml) ++ i.actuators.map (·.xml), ∀ tag, tag = "mechanicalReduction" ∨ tag = "offset" →
    ∀ r, e.child tag = some r → r.text ≠ none

/-- The command of a kind of handle, if it is not one for states. -/
def Kind.cmd : Kind → Option Cmd
  | .actuatorToJointState | .jointToActuatorState => none
  | .actuatorToJointPosition | .jointToActuatorPosition => some .position
  | .actuatorToJointVelocity | .jointToActuatorVelocity => some .velocity
  | .actuatorToJointEffort | .jointToActuatorEffort => some .effort

/-- The pointers for a command. -/
def Data.cmd : Cmd → Data → List Ptr
  | .position, d => d.position
  | .velocity, d => d.velocity
  | .effort, d => d.effort

/-- The plain and the bidirectional hardware interface for a command. -/
def Cmd.iface : Cmd → Bool → String
  | .position, false => "hardware_interface/PositionJointInterface"
  | .velocity, false => "hardware_interface/VelocityJointInterface"
  | .effort, false => "hardware_interface/EffortJointInterface"
  | .position, true => "hardware_interface/BiDirectionalPositionJointInterface"
  | .velocity, true => "hardware_interface/BiDirectionalVelocityJointInterface"
  | .effort, true => "hardware_interface/BiDirectionalEffortJointInterface"

/-- The pointers of the data are those of the resources of these names, in the same order. Absolute
positions and torque sensors are there if all resources have them. -/
structure StatePtrs (m : List (String × StateCells)) (names : List String) (d : Data) : Prop where
  values : ∀ (x : Nat) (n : String), names[x]? = some n → ∃ s, smapFind n m = some s ∧ d.position[x]? = some (some s.position) ∧
    d.velocity[x]? = some (some s.velocity) ∧ d.effort[x]? = some (some s.effort)
  absolute : (∀ n ∈ names, ∀ s, smapFind n m = some s → s.absolutePosition ≠ none) →
    ∀ (x : Nat) (n : String), names[x]? = some n → ∃ s, smapFind n m = some s ∧ d.absolutePosition[x]? = some s.absolutePosition
  torque : (∀ n ∈ names, ∀ s, smapFind n m = some s → s.torqueSensor ≠ none) →
    ∀ (x : Nat) (n : String), names[x]? = some n → ∃ s, smapFind n m = some s ∧ d.torqueSensor[x]? = some s.torqueSensor
  noAbsolute : (∃ n ∈ names, ∃ s, smapFind n m = some s ∧ s.absolutePosition = none) → d.absolutePosition = []
  noTorque : (∃ n ∈ names, ∃ s, smapFind n m = some s ∧ s.torqueSensor = none) → d.torqueSensor = []

/-- The command pointers of the data are those of the resources of these names, in the same order. -/
def CommandPtrs (c : Cmd) (cell : String → Option Nat) (names : List String) (d : Data) : Prop :=
  ∀ (x : Nat) (n : String), names[x]? = some n → ∃ a, cell n = some a ∧ (d.cmd c)[x]? = some (some a)

namespace Loader

variable {K : Type}

/-- The robot has state data of the actuators of the transmission. -/
def HasStates (L : Loader K) (i : TransInfo) : Prop :=
  ∃ m, L.actuators.state = some m ∧ ∀ a ∈ i.actuators, a.name ∈ smapKeys m

/-- The robot has commands of this kind for the actuators of the transmission. -/
def HasCommands (L : Loader K) (c : Cmd) (i : TransInfo) : Prop :=
  ∃ m, L.actuators.command c = some m ∧ ∀ a ∈ i.actuators, a.name ∈ smapKeys m

/-- The robot offers what the hardware interface needs. -/
def Offered (L : Loader K) (i : TransInfo) (iface : String) : Prop :=
  L.HasStates i ∧ (iface = "hardware_interface/JointStateInterface" ∨
    ∃ c x, iface = Cmd.iface c x ∧ L.HasCommands c i)

/-- The cell of the robot's joint command. -/
def commandCell (L : Loader K) (c : Cmd) (n : String) : Option Nat := (smapFind n (L.robotCommand c)).map (·.2)

/-- The cell of the robot's actuator command. -/
def actuatorCell (L : Loader K) (c : Cmd) (n : String) : Option Nat :=
  match L.actuators.command c with
  | none => none
  | some m => smapFind n m

/-- A state handle of the kind for the transmission, connecting the robot's actuators with its joints. -/
def StateConnected (L : Loader K) (k : Kind) (i : TransInfo) (t : Trans K) : Prop :=
  ∃ g, smapFind i.name (L.handles k) = some g ∧ g.trans = t ∧
    (∃ m, L.actuators.state = some m ∧ StatePtrs m (i.actuators.map (·.name)) g.act) ∧
    StatePtrs L.robotState (i.joints.map (·.name)) g.jnt

/-- A command handle of the kind for the transmission, connecting the robot's actuators with its joints. -/
def CommandConnected (L : Loader K) (k : Kind) (c : Cmd) (i : TransInfo) (t : Trans K) : Prop :=
  ∃ g, smapFind i.name (L.handles k) = some g ∧ g.trans = t ∧
    CommandPtrs c (L.actuatorCell c) (i.actuators.map (·.name)) g.act ∧
    CommandPtrs c (L.commandCell c) (i.joints.map (·.name)) g.jnt

end Loader

end Verif.Transmission
