import Verif.Model.Basic
import Verif.Model.ControllerBase
import Verif.Model.InterfaceManager

/-!
Initialisation of a controller and the resources it claims:
controller_interface/include/controller_interface/controller.h 70-138,
.../multi_interface_controller.h 225-330, .../internal/robothw_interfaces.h 66-143.
-/

namespace Verif

/-- User code of an `init` function (controller.h 70-87, multi_interface_controller.h 190-224):
an arbitrary interaction with hardware interfaces. `getHandle o name k` looks up a handle
through interface object `o` and continues with the handle, or with `none` if the lookup threw
and the user code caught it; `throws` is an exception leaving `init`. Simplification: user code
only looks up handles; it does not call `claim`/`clearClaims` or register handles itself. -/
inductive InitProg
  | done (ok : Bool)
  | throws
  | getHandle (o : ObjId) (name : String) (k : Option Handle → InitProg)

/-- Outcome of running user code: return value (`none` = exception), memory afterwards, and the
handles obtained as (interface object, resource name), oldest first. -/
structure ProgOut where
  ret : Option Bool
  heap : Heap
  log : List (ObjId × String)

/-- Execution of user code; every lookup is `HardwareResourceManager::getHandle`
(hardware_resource_manager.h 96-111). -/
def InitProg.run : InitProg → Heap → ProgOut
  | .done ok, h => ⟨some ok, h, []⟩
  | .throws, h => ⟨none, h, []⟩
  | .getHandle o name k, h =>
    let (r, v) := (h.objs o).getHandle name
    let out := (k r).run (h.set o v)
    if r.isSome then { out with log := (o, name) :: out.log } else out

/-- `!init(hw, controller_nh) || !init(hw, root_nh, controller_nh)` (controller.h 119,
multi_interface_controller.h 264): the second function is only called if the first returned
true. `ret` is `some true` iff both did. -/
def runInits (p1 p2 : InitProg) (h : Heap) : ProgOut :=
  let a := p1.run h
  match a.ret with
  | some true =>
    let b := p2.run a.heap
    { b with log := a.log ++ b.log }
  | r => { a with ret := r }

/-- Outcome of `initRequest`: return value (`none` = exception propagated to the caller),
`state_`, the robot, memory, the out-parameter `claimed_resources`, and the handles obtained by
the user code. `bound` records which interface object the user code reaches under each type
(an observation only; the code does not return it). -/
structure InitOut where
  ret : Option Bool
  state : CState
  robot : IMan
  heap : Heap
  claimed : List InterfaceResources
  log : List (ObjId × String)
  bound : String → Option ObjId

/-- controller.h 96-131: `Controller<T>::initRequest`. -/
def controllerInit (env : TypeEnv) (T : String) (p1 p2 : ObjId → InitProg)
    (s : CState) (robot : IMan) (h : Heap) (claimed : List InterfaceResources) : InitOut :=
  if s ≠ .constructed then ⟨some false, s, robot, h, claimed, [], fun _ => none⟩
  else
    match robot.get env T h with
    | (none, robot, h) => ⟨some false, s, robot, h, claimed, [], fun _ => none⟩
    | (some hw, robot, h) =>
      let h := h.set hw (h.objs hw).clearClaims
      let out := runInits (p1 hw) (p2 hw) h
      let bound := fun T' => if T' = T then some hw else none
      match out.ret with
      | none => ⟨none, s, robot, out.heap, claimed, out.log, bound⟩
      | some false => ⟨some false, s, robot, out.heap, claimed, out.log, bound⟩
      | some true =>
        let ifaceRes : InterfaceResources := ⟨T, (out.heap.objs hw).getClaims⟩
        let h := out.heap.set hw (out.heap.objs hw).clearClaims
        ⟨some true, .initialized, robot, h, [ifaceRes], out.log, bound⟩

/-- robothw_interfaces.h 66-85: `hasInterfaces<T...>`, left to right with short circuit. -/
def hasInterfaces (env : TypeEnv) : List String → IMan → Heap → Bool × IMan × Heap
  | [], robot, h => (true, robot, h)
  | T :: Ts, robot, h =>
    match robot.get env T h with
    | (none, robot, h) => (false, robot, h)
    | (some _, robot, h) => hasInterfaces env Ts robot h

/-- robothw_interfaces.h 106-120: `extractInterfaceResources<T...>`. -/
def extractInterfaceResources (env : TypeEnv) : List String → IMan → IMan → Heap → IMan × IMan × Heap
  | [], robot, ctrl, h => (robot, ctrl, h)
  | T :: Ts, robot, ctrl, h =>
    match robot.get env T h with
    | (none, robot, h) => extractInterfaceResources env Ts robot ctrl h
    | (some hw, robot, h) =>
      extractInterfaceResources env Ts robot (ctrl.registerInterface env T hw h) h

/-- `robot_hw_ctrl_.get<T>()`. `robot_hw_ctrl_` has no sub-managers, hence the pointer is just
the registered one and nothing is cached (interface_manager.h 183-213). -/
def ctrlGet (env : TypeEnv) (ctrl : IMan) (h : Heap) (T : String) : Option ObjId :=
  (ctrl.get env T h).1

/-- robothw_interfaces.h 88-103: `clearClaims<T...>`. -/
def clearClaimsAll (get : String → Option ObjId) : List String → Heap → Heap
  | [], h => h
  | T :: Ts, h =>
    match get T with
    | none => clearClaimsAll get Ts h
    | some o => clearClaimsAll get Ts (h.set o (h.objs o).clearClaims)

/-- robothw_interfaces.h 123-143: `populateClaimedResources<T...>`. -/
def populateClaimed (get : String → Option ObjId) (h : Heap) :
    List String → List InterfaceResources → List InterfaceResources
  | [], acc => acc
  | T :: Ts, acc =>
    match get T with
    | none => populateClaimed get h Ts acc
    | some o => populateClaimed get h Ts (acc ++ [⟨T, (h.objs o).getClaims⟩])

/-- multi_interface_controller.h 245-282: `MultiInterfaceController<T...>::initRequest`.
`allowOptional` is `allow_optional_interfaces_`; `p1`, `p2` are the user's `init` functions, who
reach interfaces through `robot_hw_ctrl_.get<T>()`. The object is freshly constructed, so
`robot_hw_ctrl_` is empty. -/
def multiInit (env : TypeEnv) (Ts : List String) (allowOptional : Bool)
    (p1 p2 : (String → Option ObjId) → InitProg)
    (s : CState) (robot : IMan) (h : Heap) (claimed : List InterfaceResources) : InitOut :=
  if s ≠ .constructed then ⟨some false, s, robot, h, claimed, [], fun _ => none⟩
  else
    let (has, robot, h) := if allowOptional then (true, robot, h) else hasInterfaces env Ts robot h
    if !has then ⟨some false, s, robot, h, claimed, [], fun _ => none⟩
    else
      let (robot, ctrl, h) := extractInterfaceResources env Ts robot .empty h
      let bound := ctrlGet env ctrl h
      let h := clearClaimsAll bound Ts h
      let out := runInits (p1 bound) (p2 bound) h
      match out.ret with
      | none => ⟨none, s, robot, out.heap, claimed, out.log, bound⟩
      | some false => ⟨some false, s, robot, out.heap, claimed, out.log, bound⟩
      | some true =>
        let claimed := populateClaimed bound out.heap Ts []
        let h := clearClaimsAll bound Ts out.heap
        ⟨some true, .initialized, robot, h, claimed, out.log, bound⟩

end Verif
