import Verif.Spec.TransmissionLoader

/-!
Vocabulary for robots whose transmissions come from a description: values by the names of joints and
actuators, and what the three kinds of transmissions make of them.
-/

namespace Verif.Transmission

/-- The cell of a quantity. -/
def StateCells.get : Quantity → StateCells → Nat
  | .position, s => s.position
  | .velocity, s => s.velocity
  | .effort, s => s.effort

/-- The quantity that is commanded. -/
def Cmd.quantity : Cmd → Quantity
  | .position => .position
  | .velocity => .velocity
  | .effort => .effort

section

variable {K : Type} [Add K] [Sub K] [Mul K] [Div K] [OfNat K 2]

/-- The values of the joints, given those of the actuators. -/
def Trans.jointsFrom : Quantity → Trans K → List K → List K
  | .position, .simple t, [x] => [x / t.reduction + t.offset]
  | .velocity, .simple t, [x] => [x / t.reduction]
  | .effort, .simple t, [x] => [x * t.reduction]
  | .position, .differential t, [x, y] =>
    [(x / t.ar.1 + y / t.ar.2) / (2 * t.jr.1) + t.off.1, (x / t.ar.1 - y / t.ar.2) / (2 * t.jr.2) + t.off.2]
  | .velocity, .differential t, [x, y] =>
    [(x / t.ar.1 + y / t.ar.2) / (2 * t.jr.1), (x / t.ar.1 - y / t.ar.2) / (2 * t.jr.2)]
  | .effort, .differential t, [x, y] =>
    [t.jr.1 * (x * t.ar.1 + y * t.ar.2), t.jr.2 * (x * t.ar.1 - y * t.ar.2)]
  | .position, .fourBar t, [x, y] =>
    [x / (t.jr.1 * t.ar.1) + t.off.1, (y / t.ar.2 - x / (t.jr.1 * t.ar.1)) / t.jr.2 + t.off.2]
  | .velocity, .fourBar t, [x, y] =>
    [x / (t.jr.1 * t.ar.1), (y / t.ar.2 - x / (t.jr.1 * t.ar.1)) / t.jr.2]
  | .effort, .fourBar t, [x, y] => [t.jr.1 * (x * t.ar.1), t.jr.2 * (y * t.ar.2 - x * t.ar.1 * t.jr.1)]
  | _, _, _ => []

/-- The values of the actuators, given those of the joints. -/
def Trans.actuatorsFrom : Quantity → Trans K → List K → List K
  | .position, .simple t, [x] => [(x - t.offset) * t.reduction]
  | .velocity, .simple t, [x] => [x * t.reduction]
  | .effort, .simple t, [x] => [x / t.reduction]
  | .position, .differential t, [x, y] =>
    [((x - t.off.1) * t.jr.1 + (y - t.off.2) * t.jr.2) * t.ar.1,
      ((x - t.off.1) * t.jr.1 - (y - t.off.2) * t.jr.2) * t.ar.2]
  | .velocity, .differential t, [x, y] => [(x * t.jr.1 + y * t.jr.2) * t.ar.1, (x * t.jr.1 - y * t.jr.2) * t.ar.2]
  | .effort, .differential t, [x, y] =>
    [(x / t.jr.1 + y / t.jr.2) / (2 * t.ar.1), (x / t.jr.1 - y / t.jr.2) / (2 * t.ar.2)]
  | .position, .fourBar t, [x, y] =>
    [(x - t.off.1) * t.jr.1 * t.ar.1, ((x - t.off.1) + (y - t.off.2) * t.jr.2) * t.ar.2]
  | .velocity, .fourBar t, [x, y] => [x * t.jr.1 * t.ar.1, (x + y * t.jr.2) * t.ar.2]
  | .effort, .fourBar t, [x, y] => [x / (t.ar.1 * t.jr.1), (x + y / t.jr.2) / t.ar.2]
  | _, _, _ => []

/-- The absolute positions of the joints, given those of the actuators: as for positions, but a differential
transmission that ignores the reductions passes them on, exchanged. -/
def Trans.absoluteFrom (t : Trans K) (l : List K) : List K :=
  match t.ignores, l with
  | true, [x, y] => [y, x]
  | _, l => t.jointsFrom .position l

end

/-- The names of the joints, in the order of the description. -/
def TransInfo.jointNames (i : TransInfo) : List String := i.joints.map (·.name)

/-- The names of the actuators, in the order of the description. -/
def TransInfo.actuatorNames (i : TransInfo) : List String := i.actuators.map (·.name)

/-- One of the joints lists the plain or the bidirectional hardware interface for the command. -/
def TransInfo.Commanded (i : TransInfo) (c : Cmd) : Prop := ∃ j ∈ i.joints, ∃ x, Cmd.iface c x ∈ j.hwIfaces

/-- One of the joints lists the bidirectional hardware interface for the command. -/
def TransInfo.BothWays (i : TransInfo) (c : Cmd) : Prop := ∃ j ∈ i.joints, Cmd.iface c true ∈ j.hwIfaces

/-- All the cells of an actuator's state. -/
def StateCells.all (s : StateCells) : List Nat :=
  [s.position, s.velocity, s.effort] ++ s.absolutePosition.toList ++ s.torqueSensor.toList

namespace Loader

variable {K : Type}

/-- What controllers read: a quantity of the joints of these names; `none` if there is no such joint. -/
def jointValues (L : Loader K) (q : Quantity) (names : List String) (m : Mem K) : Option (List K) :=
  names.mapM fun n => (smapFind n L.robotState).map fun s => m (s.get q)

/-- The joints' absolute positions. -/
def jointAbsolute (L : Loader K) (names : List String) (m : Mem K) : Option (List K) :=
  names.mapM fun n => (smapFind n L.robotState).bind fun s => s.absolutePosition.map m

/-- The joints' torque sensors. -/
def jointTorque (L : Loader K) (names : List String) (m : Mem K) : Option (List K) :=
  names.mapM fun n => (smapFind n L.robotState).bind fun s => s.torqueSensor.map m

/-- What controllers write: the commands of the joints of these names. -/
def jointCommands (L : Loader K) (c : Cmd) (names : List String) (m : Mem K) : Option (List K) :=
  names.mapM fun n => (L.commandCell c n).map m

/-- What the robot measures: a quantity of the actuators of these names. -/
def actuatorValues (L : Loader K) (q : Quantity) (names : List String) (m : Mem K) : Option (List K) :=
  names.mapM fun n => (L.actuators.state.bind (smapFind n)).map fun s => m (s.get q)

/-- The actuators' absolute positions; `none` if one of them has no absolute encoder. -/
def actuatorAbsolute (L : Loader K) (names : List String) (m : Mem K) : Option (List K) :=
  names.mapM fun n => (L.actuators.state.bind (smapFind n)).bind fun s => s.absolutePosition.map m

/-- The actuators' torque sensors; `none` if one of them has no torque sensor. -/
def actuatorTorque (L : Loader K) (names : List String) (m : Mem K) : Option (List K) :=
  names.mapM fun n => (L.actuators.state.bind (smapFind n)).bind fun s => s.torqueSensor.map m

/-- What the robot gets: the commands of the actuators of these names. -/
def actuatorCommands (L : Loader K) (c : Cmd) (names : List String) (m : Mem K) : Option (List K) :=
  names.mapM fun n => (L.actuatorCell c n).map m

/-- The transmissions have names of their own, and no joint appears twice. -/
structure JointsApart (infos : List TransInfo) : Prop where
  names : (infos.map (·.name)).Nodup
  joints : (infos.flatMap TransInfo.jointNames).Nodup

/-- The robot's actuator data lie below the memory the loader allocates. -/
def ActuatorsBelow (L : Loader K) : Prop := ∀ a, L.ActuatorCell a → a < L.next

/-- Different actuators of the robot have different commands. -/
def CommandsApart (L : Loader K) : Prop := ∀ c n n' a, L.actuatorCell c n = some a → L.actuatorCell c n' = some a → n = n'

/-- The values of the robot's actuators are different variables. -/
structure StatesApart (L : Loader K) : Prop where
  one : ∀ r n s, L.actuators.state = some r → smapFind n r = some s → s.all.Nodup
  two : ∀ r n n' s s', L.actuators.state = some r → smapFind n r = some s → smapFind n' r = some s' → n ≠ n' →
    ∀ a ∈ s.all, a ∉ s'.all

/-- The variable of a value of the actuator. -/
def actuatorStateCell (L : Loader K) (q : Quantity) (n : String) : Option Nat :=
  (L.actuators.state.bind (smapFind n)).map (·.get q)

end Loader

end Verif.Transmission
