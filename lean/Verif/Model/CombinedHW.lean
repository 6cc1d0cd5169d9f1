import Verif.Model.InterfaceManager
import Verif.Model.Basic

/-!
`CombinedRobotHW`: combined_robot_hw/src/combined_robot_hw.cpp,
combined_robot_hw/include/combined_robot_hw/combined_robot_hw.h.

A sub-hardware is represented by its interface manager; what its virtual functions answer is
given per call. Simplifications: time arguments are dropped, virtual functions return
normally (exceptions of `init` are modelled), node handles are names.
-/

namespace Verif.Combined

/-- A call of a virtual function of the `i`-th sub-hardware. -/
inductive Event
  | prepareSwitch (i : Nat) (start stop : List ControllerInfo) (ok : Bool)
  | doSwitch (i : Nat) (start stop : List ControllerInfo)
  | read (i : Nat)
  | write (i : Nat)
deriving DecidableEq

/-- combined_robot_hw.cpp 226-235: the resources found by `std::find` in `owned`, inserted one by
one into a `std::set`. -/
def filterResources (owned : List String) (resources : List String) : List String :=
  resources.foldl (fun out r => if owned.contains r then ssetInsert r out else out) []

/-- combined_robot_hw.cpp 211-241: the loop over the claimed interfaces of one controller. -/
def filterClaims (hw : IMan) (claimed : List InterfaceResources) : List InterfaceResources :=
  claimed.foldl
    (fun out c =>
      -- 217-221
      if hw.getNames.contains c.hardwareInterface then
        -- 223-235
        let rs := filterResources (hw.getInterfaceResources c.hardwareInterface) c.resources
        -- 236-240
        if !rs.isEmpty then out ++ [⟨c.hardwareInterface, rs⟩] else out
      else out)
    []

/-- combined_robot_hw.cpp 198-247: `filterControllerList`. -/
def filterControllerList (hw : IMan) (list : List ControllerInfo) : List ControllerInfo :=
  list.foldl
    (fun out c =>
      -- 209-213
      if c.claimed.isEmpty then out ++ [⟨c.name, c.type, []⟩]
      else
        let cl := filterClaims hw c.claimed
        -- 242-245
        if !cl.isEmpty then out ++ [⟨c.name, c.type, cl⟩] else out)
    []

/-- combined_robot_hw.cpp 60-72: the loop of `prepareSwitch`, from the `i`-th sub-hardware on.
`reply` is what each sub-hardware answers. -/
def prepareFrom (reply : Nat → List ControllerInfo → List ControllerInfo → Bool)
    (start stop : List ControllerInfo) : Nat → List IMan → Bool × List Event
  | _, [] => (true, [])
  | i, hw :: hws =>
    let a := filterControllerList hw start
    let b := filterControllerList hw stop
    if !reply i a b then (false, [.prepareSwitch i a b false])
    else
      let (ok, es) := prepareFrom reply start stop (i + 1) hws
      (ok, .prepareSwitch i a b true :: es)

/-- combined_robot_hw.cpp 56-73: `prepareSwitch`. -/
def prepareSwitch (hws : List IMan) (reply : Nat → List ControllerInfo → List ControllerInfo → Bool)
    (start stop : List ControllerInfo) : Bool × List Event := prepareFrom reply start stop 0 hws

/-- combined_robot_hw.cpp 79-89: the loop of `doSwitch`. -/
def doSwitchFrom (start stop : List ControllerInfo) : Nat → List IMan → List Event
  | _, [] => []
  | i, hw :: hws =>
    .doSwitch i (filterControllerList hw start) (filterControllerList hw stop) ::
      doSwitchFrom start stop (i + 1) hws

/-- combined_robot_hw.cpp 75-90: `doSwitch`. -/
def doSwitch (hws : List IMan) (start stop : List ControllerInfo) : List Event :=
  doSwitchFrom start stop 0 hws

/-- The loops of `read` and `write`. -/
def eachFrom (e : Nat → Event) : Nat → List IMan → List Event
  | _, [] => []
  | i, _ :: hws => e i :: eachFrom e (i + 1) hws

/-- combined_robot_hw.cpp 179-186: `read`. -/
def read (hws : List IMan) : List Event := eachFrom .read 0 hws

/-- combined_robot_hw.cpp 189-196: `write`. -/
def write (hws : List IMan) : List Event := eachFrom .write 0 hws

/-- `switchResult()` is not overridden in combined_robot_hw.h, so robot_hw.h 175-178 applies.
`parts` is what the sub-hardwares would answer; they are not asked. -/
def switchResult (_parts : List SwitchState) : SwitchState := .done

/-- `switchResult(info)` is not overridden either, robot_hw.h 181-184. -/
def switchResultFor (_info : ControllerInfo) (_parts : List SwitchState) : SwitchState := .done

/-- Outcome of `robot_hw->init(root_nh_, c_nh)`: the sub-hardware with its interfaces, `false`, or
an exception. -/
inductive InitResult
  | ok (hw : IMan)
  | failed
  | threw

/-- What `loadRobotHW` finds for one name. -/
structure SubEnv where
  /-- the node handle can be constructed -/
  nodeOk : Bool
  /-- the parameter "type" -/
  type : Option String
  /-- `robot_hw_loader_.getDeclaredClasses()` -/
  declared : List String
  /-- whether the k-th call of `createUniqueInstance` succeeds (else it throws) -/
  create : Nat → Bool
  init : InitResult

/-- combined_robot_hw.cpp 120-132: the loop over the declared classes, which stops at an exception.
`k` counts the instances created; the result says whether `robot_hw` is set. -/
def construct (type : String) (create : Nat → Bool) : Nat → Bool → List String → Bool
  | _, made, [] => made
  | k, made, d :: ds =>
    if type = d then
      if create k then construct type create (k + 1) true ds else made
    else construct type create k made ds

/-- The members of the combined hardware: `robot_hw_list_` and the interface manager it is. -/
structure St where
  hws : List IMan := []
  man : IMan := .empty

/-- combined_robot_hw.cpp 92-177: `loadRobotHW`. -/
def loadRobotHW (s : St) (env : SubEnv) : Bool × St :=
  -- 98-111
  if !env.nodeOk then (false, s)
  else
    match env.type with
    -- 134-138
    | none => (false, s)
    | some type =>
      -- 141-145
      if !construct type env.create 0 false env.declared then (false, s)
      else
        -- 148-168
        match env.init with
        | .failed => (false, s)
        | .threw => (false, s)
        -- 171-173
        | .ok hw => (true, ⟨s.hws ++ [hw], IMan.registerInterfaceManager hw s.man⟩)

/-- combined_robot_hw.cpp 46-52: the loop of `init`. -/
def loadAll (envs : String → SubEnv) : List String → St → Bool × St
  | [], s => (true, s)
  | r :: rs, s =>
    let (ok, s) := loadRobotHW s (envs r)
    if !ok then (false, s) else loadAll envs rs s

/-- combined_robot_hw.cpp 33-54: `init`; `robots` is the parameter "robot_hardware". -/
def init (s : St) (robots : Option (List String)) (envs : String → SubEnv) : Bool × St :=
  match robots with
  | none => (false, s)
  | some rs => loadAll envs rs s

end Verif.Combined
