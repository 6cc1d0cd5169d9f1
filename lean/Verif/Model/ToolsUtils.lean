import Verif.Model.Manager
import Mathlib.Data.List.Sort

/-!
The Python helpers of controller_manager_msgs/src/controller_manager_msgs/utils.py: filters on the answer
of `list_controllers`, and searches for controller managers and controller configurations.

What comes from ROS (list of parameters, list of services and their types) is an argument. Exceptions of the
Python interpreter are distinct outcomes.
-/

namespace Verif.Tools

open Mgr

/-- Exceptions of the Python interpreter. -/
inductive PyError
  /-- a local variable is read before it was assigned -/
  | unboundLocal
  /-- a list index is out of range -/
  | index
deriving DecidableEq, Repr

/-! ### Filters -/

/-- The Python operator `in` on strings (built into the language): `a in b`. -/
def strIn (a b : List Char) : Bool := b.tails.any a.isPrefixOf

/-- utils.py 385-397: `_filter_by_attr`, the attribute given as a function. -/
def filterByAttr (list : List Entry) (attr : Entry → String) (val : String) (sub : Bool) : List Entry :=
  list.foldl (fun out e =>
    if sub then
      if strIn val.toList (attr e).toList then out ++ [e] else out
    else
      if attr e = val then out ++ [e] else out) []

/-- utils.py 256-269: `filter_by_name`. -/
def filterByName (list : List Entry) (val : String) (sub : Bool) : List Entry := filterByAttr list (·.name) val sub

/-- utils.py 272-285: `filter_by_type`. -/
def filterByType (list : List Entry) (val : String) (sub : Bool) : List Entry := filterByAttr list (·.type) val sub

/-- utils.py 288-301: `filter_by_state`. -/
def filterByState (list : List Entry) (val : String) (sub : Bool) : List Entry :=
  filterByAttr list (·.state) val sub

/-- utils.py 321-329: the loop over the claims of one controller in `filter_by_hardware_interface`; true if it is
left by `break` after the controller has been appended. -/
def interfaceLoop (iface : String) (sub : Bool) : List InterfaceResources → Bool
  | [] => false
  | s :: ss =>
    if sub then
      if strIn iface.toList s.hardwareInterface.toList then true else interfaceLoop iface sub ss
    else
      if s.hardwareInterface = iface then true else interfaceLoop iface sub ss

/-- utils.py 304-330: `filter_by_hardware_interface`. -/
def filterByHardwareInterface (list : List Entry) (iface : String) (sub : Bool) : List Entry :=
  list.foldl (fun out e => if interfaceLoop iface sub e.claimed then out ++ [e] else out) []

/-- utils.py 369-378: the loop over the requested resources for one claim; the argument and result `add` is the
variable `add_ctrl`, `none` if it is not assigned. -/
def resourceLoop (claimed : List String) (any : Bool) : List String → Option Bool → Option Bool
  | [], add => add
  | r :: rs, _ =>
    if r ∈ claimed then
      if any then some true else resourceLoop claimed any rs (some (!any))
    else
      if !any then some false else resourceLoop claimed any rs (some (!any))

/-- utils.py 366-381: the loop over the claims of one controller; the first component of the result tells whether
the controller was appended, the second is `add_ctrl` afterwards. -/
def claimLoop (resources : List String) (iface : Option String) (any : Bool) :
    List InterfaceResources → Option Bool → Except PyError (Bool × Option Bool)
  | [], add => .ok (false, add)
  | s :: ss, add =>
    if iface = none ∨ iface = some s.hardwareInterface then
      match resourceLoop s.resources any resources add with
      | none => .error .unboundLocal
      | some true => .ok (true, some true)
      | some false => claimLoop resources iface any ss (some false)
    else claimLoop resources iface any ss add

/-- utils.py 365-381: the loop over the controllers. -/
def resourcesLoop (resources : List String) (iface : Option String) (any : Bool) :
    List Entry → Option Bool → List Entry → Except PyError (List Entry)
  | [], _, out => .ok out
  | e :: es, add, out =>
    match claimLoop resources iface any e.claimed add with
    | .error x => .error x
    | .ok (hit, add) => resourcesLoop resources iface any es add (if hit then out ++ [e] else out)

/-- utils.py 333-382: `filter_by_resources`. -/
def filterByResources (list : List Entry) (resources : List String) (iface : Option String) (any : Bool) :
    Except PyError (List Entry) :=
  resourcesLoop resources iface any list none []

/-! ### Searches

Python strings as lists of characters. -/

/-- The Python method `s.split(sep, 1)` (built into the language), as a pair; `none` if there is only one part. -/
def splitFirst (sep : List Char) : List Char → Option (List Char × List Char)
  | [] => if sep = [] then some ([], []) else none
  | c :: s =>
    if sep.isPrefixOf (c :: s) then some ([], (c :: s).drop sep.length)
    else (splitFirst sep s).map fun p => (c :: p.1, p.2)

/-- The Python function `sorted` on strings (built into the language): by code points. -/
def sortedStr (l : List (List Char)) : List (List Char) := l.insertionSort (· ≤ ·)

/-- utils.py 117-118 and 432-433: add a slash at the end unless there is one. -/
def withSlash (ns : List Char) : List Char := if ns.getLast? = some '/' then ns else ns ++ ['/']

/-- rosgraph.names.make_global_ns (not in the repository): add the missing slashes at both ends. -/
def globalNs (ns : List Char) : List Char := withSlash (if ns.head? = some '/' then ns else '/' :: ns)

/-- rosparam.list_params (not in the repository): the names of all parameters below a namespace. -/
def listParams (params : List (List Char)) (ns : List Char) : List (List Char) :=
  params.filter (globalNs ns).isPrefixOf

/-- utils.py 430-439: the loop over the parameters. -/
def paramLoop : List (List Char) → List Char → List (List Char) → Except PyError (List (List Char))
  | [], _, out => .ok out
  | p :: ps, ns, out =>
    let ns := withSlash ns
    match splitFirst ns p with
    | none => .error .index
    | some (_, rest) =>
      match rest.splitOn '/' with
      | [a, b] => paramLoop ps ns (if b = "type".toList then out ++ [a] else out)
      | _ => paramLoop ps ns out

/-- utils.py 405-440: `get_rosparam_controller_names`; `params` are all parameters on the server. -/
def controllerNames (params : List (List Char)) (ns : List Char) : Except PyError (List (List Char)) :=
  match paramLoop (listParams params ns) ns [] with
  | .error e => .error e
  | .ok l => .ok (sortedStr l)

/-- utils.py 43-66: the services of a controller manager and their types. -/
def cmServices : List (List Char × List Char) :=
  [("list_controllers".toList, "controller_manager_msgs/ListControllers".toList),
   ("list_controller_types".toList, "controller_manager_msgs/ListControllerTypes".toList),
   ("load_controller".toList, "controller_manager_msgs/LoadController".toList),
   ("unload_controller".toList, "controller_manager_msgs/UnloadController".toList),
   ("switch_controller".toList, "controller_manager_msgs/SwitchController".toList),
   ("reload_controller_libraries".toList, "controller_manager_msgs/ReloadControllerLibraries".toList)]

/-- utils.py 160-173: `_srv_exists`; `typeOf` is `rosservice.get_service_type`. -/
def srvExists (typeOf : List Char → Option (List Char)) (name type : List Char) : Bool :=
  if name = [] ∨ type = [] then false else typeOf name = some type

/-- utils.py 104-122: `is_controller_manager`. -/
def isControllerManager (typeOf : List Char → Option (List Char)) (ns : List Char) : Bool :=
  cmServices.all fun s => srvExists typeOf (withSlash ns ++ s.1) s.2

/-- utils.py 148-156: the part of a service name before `/list_controllers`, if any. -/
def namespaceOf (srv : List Char) : Option (List Char) :=
  match splitFirst "/list_controllers".toList srv with
  | none => none
  | some (ns, _) => if ns = [] then some ['/'] else some ns

/-- utils.py 125-157: `_sloppy_get_controller_managers`; `services` is the answer of
`rosservice.get_service_list`, `none` if it raises `ROSServiceIOException`. -/
def sloppyManagers (services : Option (List (List Char))) : List (List Char) :=
  match services with
  | none => []
  | some l => l.filterMap namespaceOf

/-- utils.py 69-101: `get_controller_managers`. -/
def controllerManagers (services : Option (List (List Char))) (typeOf : List Char → Option (List Char))
    (guess : List (List Char)) : List (List Char) :=
  let curr := sloppyManagers services
  let kept := guess.filter (· ∈ curr)
  sortedStr (kept ++ curr.filter fun ns => decide (ns ∉ kept) && isControllerManager typeOf ns)

end Verif.Tools
