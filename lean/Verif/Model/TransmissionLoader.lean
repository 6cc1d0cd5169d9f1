import Verif.Model.Transmission
import Verif.Model.TransmissionParser
import Verif.Model.Containers
import Mathlib.Data.String.Basic

/-!
Loading transmissions from a description (transmission_loader.cpp, the three transmission loaders,
transmission_interface_loader.cpp and the providers of hardware interfaces).

Loading works on numbers, which `stod` reads from text. The memory model is that of `Transmission`: a
robot's actuator data have addresses, and so have the raw joint data the loader allocates.
-/

namespace Verif.Transmission

/-- Ways in which `load` ends without returning: a `std::string` made from a null pointer (undefined
behaviour; with libstdc++ an exception that is caught and makes `load` return false), a failed assertion,
and exceptions that no one catches: `getHandle` of a joint state interface without that joint, and the
constructor of a transmission handle. Also the null pointer dereference of the parser. -/
inductive Crash
  | nullText
  | assertion
  | jointStateMissing
  | handleRejected
  | noRoot
  deriving DecidableEq, Repr

/-- Three kinds of commands. -/
inductive Cmd
  | position | velocity | effort
  deriving DecidableEq, Repr

section

variable {K : Type} [OfNat K 0] [OfNat K 1] [DecidableEq K] (stod : String → Option K)

/-- transmission_loader.cpp 36-69 (`getActuatorReduction`), 71-105 (`getJointReduction`) and 107-141
(`getJointOffset`), which differ in the tag only; `none`: returns false. `old` is the value the number
has before and keeps if it is optional and absent. `stod` is `none` if `std::stod` throws. -/
def getNumber (tag : String) (required : Bool) (old : K) (e : Elem) : Except Crash (Option K) :=
  match e.first tag with
  | none => .ok (if required then none else some old)
  | some r =>
    match r.text with
    | none => .error .nullText
    | some s => .ok (stod s)

/-- transmission_loader.cpp 143-187 (`getActuatorRole`) and 189-233 (`getJointRole`), required; `none`:
returns false. -/
def getRole (e : Elem) : Option String :=
  match e.first "role" with
  | none => none
  | some r => r.text

/-- simple_transmission_loader.cpp 42-84; `none`: null. -/
def loadSimple (i : TransInfo) : Except Crash (Option (Trans K)) :=
  match i.actuators, i.joints with
  | [a], [j] => do
    match ← getNumber stod "mechanicalReduction" true 0 a.xml with
    | none => return none
    | some r =>
      match ← getNumber stod "offset" false 0 j.xml with
      | none => return none
      | some o => return (mkSimple (· == 0) r o).map .simple
  | _, _ => .ok none

/-- differential_transmission_loader.cpp 85-140 and 163-218, four_bar_linkage_transmission_loader.cpp 82-137
and 159-214: the elements sorted by role; `none`: returns false. -/
def byRole (role1 role2 : String) (e0 e1 : Elem) : Option (Elem × Elem) :=
  match getRole e0 with
  | none => none
  | some r0 =>
    if r0 ≠ role1 ∧ r0 ≠ role2 then none
    else
      match getRole e1 with
      | none => none
      | some r1 =>
        if r1 ≠ role1 ∧ r1 ≠ role2 then none
        else if r0 = r1 then none
        else if r0 = role1 then some (e0, e1)
        else some (e1, e0)

/-- differential_transmission_loader.cpp 82-156, four_bar_linkage_transmission_loader.cpp 79-153:
`getActuatorConfig`. -/
def actuatorConfig (e0 e1 : Elem) : Except Crash (Option (List K)) :=
  match byRole "actuator1" "actuator2" e0 e1 with
  | none => .ok none
  | some (x0, x1) => do
    match ← getNumber stod "mechanicalReduction" true 0 x0 with
    | none => return none
    | some r0 =>
      match ← getNumber stod "mechanicalReduction" true 0 x1 with
      | none => return none
      | some r1 => return some [r0, r1]

/-- differential_transmission_loader.cpp 158-244, four_bar_linkage_transmission_loader.cpp 155-243:
`getJointConfig`, reductions and offsets. -/
def jointConfig (e0 e1 : Elem) : Except Crash (Option (List K × List K)) :=
  match byRole "joint1" "joint2" e0 e1 with
  | none => .ok none
  | some (x0, x1) => do
    match ← getNumber stod "mechanicalReduction" false 1 x0 with
    | none => return none
    | some r0 =>
      match ← getNumber stod "offset" false 0 x0 with
      | none => return none
      | some o0 =>
        match ← getNumber stod "mechanicalReduction" false 1 x1 with
        | none => return none
        | some r1 =>
          match ← getNumber stod "offset" false 0 x1 with
          | none => return none
          | some o1 => return some ([r0, r1], [o0, o1])

/-- differential_transmission_loader.cpp 246-252. -/
def ignoreFlag (e0 e1 : Elem) : Bool :=
  (e0.first "ignoreTransmissionAbsoluteEncoder").isSome && (e1.first "ignoreTransmissionAbsoluteEncoder").isSome

/-- differential_transmission_loader.cpp 42-80. -/
def loadDifferential (i : TransInfo) : Except Crash (Option (Trans K)) :=
  match i.actuators, i.joints with
  | [a0, a1], [j0, j1] => do
    match ← actuatorConfig stod a0.xml a1.xml with
    | none => return none
    | some ar =>
      match ← jointConfig stod j0.xml j1.xml with
      | none => return none
      | some (jr, off) => return (mkTwo (· == 0) ar jr (ignoreFlag j0.xml j1.xml) off).map .differential
  | _, _ => .ok none

/-- four_bar_linkage_transmission_loader.cpp 42-77. -/
def loadFourBar (i : TransInfo) : Except Crash (Option (Trans K)) :=
  match i.actuators, i.joints with
  | [a0, a1], [j0, j1] => do
    match ← actuatorConfig stod a0.xml a1.xml with
    | none => return none
    | some ar =>
      match ← jointConfig stod j0.xml j1.xml with
      | none => return none
      | some (jr, off) => return (mkTwo (· == 0) ar jr false off).map .fourBar
  | _, _ => .ok none

/-- transmission_interface_loader.cpp 137-149 with the plugins of ros_control_plugins.xml 4-26; other plugins
are not modelled. `none`: `load` returns false. -/
def loadTransmission (i : TransInfo) : Except Crash (Option (Trans K)) :=
  if i.type = "transmission_interface/SimpleTransmission" then loadSimple stod i
  else if i.type = "transmission_interface/DifferentialTransmission" then loadDifferential stod i
  else if i.type = "transmission_interface/FourBarLinkageTransmission" then loadFourBar stod i
  else .ok none

end

/-! ### The robot and the loader's data -/

/-- actuator_state_interface.h 45-230: the addresses of an actuator's values. The constructors make sure
that the first three are not null. Also joint_state_interface.h 45-230, for joints. -/
structure StateCells where
  position : Nat
  velocity : Nat
  effort : Nat
  absolutePosition : Option Nat
  torqueSensor : Option Nat
  deriving DecidableEq, Repr

/-- The actuator interfaces of the robot (`ActuatorStateInterface` and the three command interfaces with the
address of the command), if they exist. They do not change during loading. -/
structure Actuators where
  state : Option (List (String × StateCells))
  command : Cmd → Option (List (String × Nat))

/-- transmission_interface_loader.h 117-126 (`TransmissionLoaderData`) and the joint interfaces the robot had
before (`own...`). The robot's transmissions have no interfaces except those the loader registers there. -/
structure Loader (K : Type) where
  actuators : Actuators
  /-- the robot's own `JointStateInterface`, if any -/
  ownState : Option (List (String × StateCells))
  /-- the robot's own joint command interfaces, if any, with the joint state and the address of the command -/
  ownCommand : Cmd → Option (List (String × (StateCells × Nat)))
  /-- `joint_interfaces.joint_state_interface` -/
  jointState : List (String × StateCells) := []
  /-- the other `joint_interfaces` -/
  jointCommand : Cmd → List (String × (StateCells × Nat)) := fun _ => []
  /-- `raw_joint_data_map`: the address of the eight values of each joint -/
  raw : List (String × Nat) := []
  /-- the first free address -/
  next : Nat
  /-- the handles of `transmission_interfaces` and `inverse_transmission_interfaces`, eight interfaces of
  different kinds: `act_to_jnt_state`, `jnt_to_act_{pos,vel,eff}_cmd`, `jnt_to_act_state`,
  `act_to_jnt_{pos,vel,eff}_cmd` -/
  handles : Kind → List (String × Handle K) := fun _ => []
  /-- `transmission_data` -/
  transmissions : List (Trans K) := []

/-- A function changed at one argument. -/
def setAt {I A : Type} [DecidableEq I] (f : I → A) (c : I) (x : A) : I → A := fun d => if d = c then x else f d

/-- The kind of the handles that propagate commands to the actuators. -/
def Cmd.toActuator : Cmd → Kind
  | .position => .jointToActuatorPosition
  | .velocity => .jointToActuatorVelocity
  | .effort => .jointToActuatorEffort

/-- The kind of the handles that propagate commands to the joints. -/
def Cmd.toJoint : Cmd → Kind
  | .position => .actuatorToJointPosition
  | .velocity => .actuatorToJointVelocity
  | .effort => .actuatorToJointEffort

/-- transmission_interface_loader.h 73-86: the addresses of the fields of `RawJointData`, in order.
`hasAbsolutePosition` and `hasTorqueSensor` are true initially and never changed in this code base. -/
def rawState (b : Nat) : StateCells := ⟨b, b + 1, b + 2, some (b + 6), some (b + 7)⟩

/-- The address of the command field, transmission_interface_loader.h 78-80. -/
def rawCommand (b : Nat) : Cmd → Nat
  | .position => b + 3
  | .velocity => b + 4
  | .effort => b + 5

namespace Loader

variable {K : Type}

/-- `raw_joint_data_map[name]`: the address; a new entry is allocated if there is none. -/
def rawData (L : Loader K) (name : String) : Loader K × Nat :=
  match smapFind name L.raw with
  | some b => (L, b)
  | none => ({ L with raw := smapInsert name L.next L.raw, next := L.next + 8 }, L.next)

/-- joint_state_interface_provider.cpp 38-101, `updateJointInterfaces`, on the joint names. The interface is
the robot's own one if there is one, otherwise the loader's, which is then registered (45-49). -/
def updateState : List String → Loader K → Loader K
  | [], L => L
  | name :: rest, L =>
    -- 57
    if name ∈ smapKeys (L.ownState.getD L.jointState) then updateState rest L
    else
      let (L, b) := L.rawData name
      updateState rest (match L.ownState with
        | some own => { L with ownState := some (smapInsert name (rawState b) own) }
        | none => { L with jointState := smapInsert name (rawState b) L.jointState })

/-- effort_joint_interface_provider.cpp 49-72 (and the same in position_joint_interface_provider.cpp and
velocity_joint_interface_provider.cpp): the loop of `updateJointInterfaces`. The joint state handle is looked
up in the loader's own interface (68). -/
def updateCommandLoop (c : Cmd) : List String → Loader K → Except Crash (Loader K)
  | [], L => .ok L
  | name :: rest, L =>
    -- 63
    if name ∈ smapKeys ((L.ownCommand c).getD (L.jointCommand c)) then updateCommandLoop c rest L
    else
      let (L, b) := L.rawData name
      match smapFind name L.jointState with
      | none => .error .jointStateMissing
      | some s =>
        updateCommandLoop c rest (match L.ownCommand c with
          | some own => { L with ownCommand := setAt L.ownCommand c (some (smapInsert name (s, rawCommand b c) own)) }
          | none => { L with
              jointCommand := setAt L.jointCommand c (smapInsert name (s, rawCommand b c) (L.jointCommand c)) })

/-- joint_state_interface_provider.cpp 103-158: `getJointStateData`; `none`: false. -/
def jointStateData (L : Loader K) (names : List String) : Option Data :=
  match names.mapM (fun n => smapFind n L.raw) with
  | none => none
  | some bs => some
      { position := bs.map fun b => some (rawState b).position
        velocity := bs.map fun b => some (rawState b).velocity
        effort := bs.map fun b => some (rawState b).effort
        absolutePosition := bs.map fun b => (rawState b).absolutePosition
        torqueSensor := bs.map fun b => (rawState b).torqueSensor }

/-- Data with pointers for one quantity. -/
def cmdData (c : Cmd) (l : List Ptr) : Data :=
  match c with
  | .position => { position := l }
  | .velocity => { velocity := l }
  | .effort => { effort := l }

/-- effort_joint_interface_provider.cpp 75-94 (and the other two): `getJointCommandData`. -/
def jointCommandData (L : Loader K) (c : Cmd) (names : List String) : Option Data :=
  match names.mapM (fun n => smapFind n L.raw) with
  | none => none
  | some bs => some (cmdData c (bs.map fun b => some (rawCommand b c)))

/-- joint_state_interface_provider.cpp 160-214: `getActuatorStateData`, with `getActuatorHandles`
(transmission_interface_loader.h 206-241). Absolute positions and torque sensors are used if all actuators
have them. -/
def actuatorStateData (L : Loader K) (names : List String) : Option Data :=
  match L.actuators.state with
  | none => none
  | some m =>
    match names.mapM (fun n => smapFind n m) with
    | none => none
    | some hs => some
        { position := hs.map fun h => some h.position
          velocity := hs.map fun h => some h.velocity
          effort := hs.map fun h => some h.effort
          absolutePosition := if hs.all (·.absolutePosition.isSome) then hs.map (·.absolutePosition) else []
          torqueSensor := if hs.all (·.torqueSensor.isSome) then hs.map (·.torqueSensor) else [] }

/-- effort_joint_interface_provider.cpp 96-119 (and the other two): `getActuatorCommandData`. -/
def actuatorCommandData (L : Loader K) (c : Cmd) (names : List String) : Option Data :=
  match L.actuators.command c with
  | none => none
  | some m =>
    match names.mapM (fun n => smapFind n m) with
    | none => none
    | some hs => some (cmdData c (hs.map some))

end Loader

/-- The providers of ros_control_plugins.xml 29-90: for joint states, and for the three kinds of commands,
each plain or bidirectional. Other plugins are not modelled. -/
inductive Provider
  | state
  | command (c : Cmd) (bidirectional : Bool)
  deriving DecidableEq, Repr

/-- ros_control_plugins.xml 29-90; `none`: no such plugin. -/
def providerOf (iface : String) : Option Provider :=
  if iface = "hardware_interface/JointStateInterface" then some .state
  else if iface = "hardware_interface/PositionJointInterface" then some (.command .position false)
  else if iface = "hardware_interface/VelocityJointInterface" then some (.command .velocity false)
  else if iface = "hardware_interface/EffortJointInterface" then some (.command .effort false)
  else if iface = "hardware_interface/BiDirectionalPositionJointInterface" then some (.command .position true)
  else if iface = "hardware_interface/BiDirectionalVelocityJointInterface" then some (.command .velocity true)
  else if iface = "hardware_interface/BiDirectionalEffortJointInterface" then some (.command .effort true)
  else none

namespace Loader

variable {K : Type}

/-- The data collected by `loadTransmissionMaps`, transmission_interface_loader.h 156-164. -/
structure HandleData (K : Type) where
  name : String
  actState : Data
  actCmd : Data
  jntState : Data
  jntCmd : Data
  trans : Trans K

/-- The construction of a handle; an exception is not caught. -/
def newHandle (t : Trans K) (act jnt : Data) : Except Crash (Handle K) :=
  match mkHandle (some t) act jnt with
  | none => .error .handleRejected
  | some h => .ok h

/-- `registerHandle` on one of the transmission interfaces: a handle of the same name is replaced. -/
def put (L : Loader K) (k : Kind) (name : String) (h : Handle K) : Loader K :=
  { L with handles := setAt L.handles k (smapInsert name h (L.handles k)) }

/-- joint_state_interface_provider.cpp 216-233: `registerTransmission`. -/
def registerState (L : Loader K) (d : HandleData K) : Except Crash (Loader K) := do
  let h ← newHandle d.trans d.actState d.jntState
  return L.put .actuatorToJointState d.name h

/-- effort_joint_interface_provider.cpp 121-144 (and the other two): `registerTransmission`. -/
def registerCommand (L : Loader K) (c : Cmd) (d : HandleData K) : Except Crash (Loader K) :=
  -- 125-128
  (if d.name ∈ smapKeys (L.handles .actuatorToJointState) then .ok L else L.registerState d) >>= fun L => do
    let h ← newHandle d.trans d.actCmd d.jntCmd
    return L.put c.toActuator d.name h

/-- bidirectional_effort_joint_interface_provider.cpp 37-75 (and the other two): `registerTransmission`. -/
def registerBidirectional (L : Loader K) (c : Cmd) (d : HandleData K) : Except Crash (Loader K) :=
  L.registerCommand c d >>= fun L =>
  -- 45-60
  (if d.name ∈ smapKeys (L.handles .jointToActuatorState) then .ok L
    else do
      let h ← newHandle d.trans d.actState d.jntState
      return L.put .jointToActuatorState d.name h) >>= fun L => do
    let h ← newHandle d.trans d.actCmd d.jntCmd
    return L.put c.toJoint d.name h

/-- `getActuatorCommandData` of a provider; joint_state_interface_provider.h 61-63 for states. -/
def provActuatorCommand (L : Loader K) (p : Provider) (names : List String) : Option Data :=
  match p with
  | .state => some {}
  | .command c _ => L.actuatorCommandData c names

/-- `getJointCommandData` of a provider; joint_state_interface_provider.h 53-55 for states. -/
def provJointCommand (L : Loader K) (p : Provider) (names : List String) : Option Data :=
  match p with
  | .state => some {}
  | .command c _ => L.jointCommandData c names

/-- `updateJointInterfaces` of a provider (effort_joint_interface_provider.cpp 38-73). -/
def provUpdate (L : Loader K) (p : Provider) (names : List String) : Except Crash (Loader K) :=
  match p with
  | .state => .ok (updateState names L)
  | .command c _ => updateCommandLoop c names (updateState names L)

/-- `registerTransmission` of a provider. -/
def provRegister (L : Loader K) (p : Provider) (d : HandleData K) : Except Crash (Loader K) :=
  match p with
  | .state => L.registerState d
  | .command c false => L.registerCommand c d
  | .command c true => L.registerBidirectional c d

/-- transmission_interface_loader.cpp 40-87: `loadTransmissionMaps`; the second component is the result. -/
def loadMaps (L : Loader K) (p : Provider) (i : TransInfo) (t : Trans K) : Except Crash (Loader K × Bool) :=
  let acts := i.actuators.map (·.name)
  let jnts := i.joints.map (·.name)
  match L.actuatorStateData acts with
  | none => .ok (L, false)
  | some actState =>
    match L.provActuatorCommand p acts with
    | none => .ok (L, false)
    | some actCmd => do
      let L ← L.provUpdate p jnts
      match L.jointStateData jnts with
      | none => return (L, false)
      | some jntState =>
        match L.provJointCommand p jnts with
        | none => return (L, false)
        | some jntCmd =>
          let L := { L with transmissions := L.transmissions ++ [t] }
          let L ← L.provRegister p ⟨i.name, actState, actCmd, jntState, jntCmd, t⟩
          return (L, true)

/-- transmission_interface_loader.cpp 168-189: the loop over the hardware interfaces; the second component
is `has_at_least_one_hw_iface`. -/
def loadIfaces (i : TransInfo) (t : Trans K) : List String → Loader K × Bool → Except Crash (Loader K × Bool)
  | [], r => .ok r
  | iface :: rest, (L, any) =>
    match providerOf iface with
    | none => loadIfaces i t rest (L, any)
    | some p => do
      let (L, ok) ← L.loadMaps p i t
      loadIfaces i t rest (L, any || ok)

variable [OfNat K 0] [OfNat K 1] [DecidableEq K] (stod : String → Option K)

/-- transmission_interface_loader.cpp 134-199: `load` of one transmission. -/
def load (L : Loader K) (i : TransInfo) : Except Crash (Loader K × Bool) := do
  match ← loadTransmission stod i with
  | none => return (L, false)
  | some t =>
    match i.joints with
    | [] => .error .assertion
    | j :: _ =>
      -- 152
      if j.hwIfaces.isEmpty then .error .assertion
      -- 154-166
      else if i.joints.all (fun k => k.hwIfaces.isPerm j.hwIfaces) then
        -- 169-198
        loadIfaces i t j.hwIfaces (L, false)
      else return (L, false)

/-- transmission_interface_loader.cpp 125-132: `load` of a vector. -/
def loadAll : List TransInfo → Loader K → Except Crash (Loader K × Bool)
  | [], L => .ok (L, true)
  | i :: rest, L => do
    let (L, ok) ← L.load stod i
    if ok then loadAll rest L else return (L, false)

/-- transmission_interface_loader.cpp 110-123: `load` of a robot description. -/
def loadDoc (L : Loader K) (d : Doc) : Except Crash (Loader K × Bool) :=
  match parse d with
  | .failed => .ok (L, false)
  | .nullDereference => .error .noRoot
  | .ok infos => if infos.isEmpty then .ok (L, false) else loadAll stod infos L

/-- Calls of `load`, one after the other; the loader keeps its data. -/
def loads : List (List TransInfo) → Loader K → Except Crash (Loader K)
  | [], L => .ok L
  | l :: rest, L => do
    let (L, _) ← loadAll stod l L
    loads rest L

end Loader

end Verif.Transmission
