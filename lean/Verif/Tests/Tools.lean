import Verif.Model.ToolsUtils

/-!
controller_manager_tests/test/cm_msgs_utils_test.py and cm_msgs_utils_rostest.py (with multi_cm_dummy.py and
controller_params.yaml) against the model.
-/

namespace Verif.Tests.Tools

open Verif.Tools Mgr

/-! ### Filters -/

/-- cm_msgs_utils_test.py 33-68: `ctrl_list`. -/
def ctrlList : List Entry :=
  [⟨"foo_controller", "foo_base/foo", "running", [⟨"hardware_interface::FooInterface", ["one", "two", "three"]⟩]⟩,
    ⟨"bar_controller", "bar_base/bar", "running", [⟨"hardware_interface::BarInterface", ["four"]⟩]⟩,
    ⟨"foobar_controller", "foobar_base/foobar", "stopped", [⟨"hardware_interface::FooBarInterface", ["one"]⟩]⟩,
    ⟨"foobaz_controller", "foobaz_base/foobaz", "running",
      [⟨"hardware_interface::FooInterface", ["one"]⟩, ⟨"hardware_interface::BazInterface", ["one", "two"]⟩]⟩]

/-- The names of the controllers found. -/
def names (l : List Entry) : List String := l.map (·.name)

/-- cm_msgs_utils_test.py 71-90 `filter_by_name_test`. -/
example : names (filterByName ctrlList "null" false) = [] ∧ names (filterByName ctrlList "null" true) = [] ∧
    names (filterByName ctrlList "foo_controller" false) = ["foo_controller"] ∧
    names (filterByName ctrlList "foo_controller" true) = ["foo_controller"] ∧
    names (filterByName ctrlList "foo" true) = ["foo_controller", "foobar_controller", "foobaz_controller"] := by
  decide +kernel

/-- cm_msgs_utils_test.py 93-112 `filter_by_state_test`. -/
example : names (filterByState ctrlList "null" false) = [] ∧ names (filterByState ctrlList "null" true) = [] ∧
    names (filterByState ctrlList "stopped" false) = ["foobar_controller"] ∧
    names (filterByState ctrlList "stopped" true) = ["foobar_controller"] ∧
    names (filterByState ctrlList "run" true) = ["foo_controller", "bar_controller", "foobaz_controller"] := by
  decide +kernel

/-- cm_msgs_utils_test.py 115-134 `filter_by_type_test`. -/
example : names (filterByType ctrlList "null" false) = [] ∧ names (filterByType ctrlList "null" true) = [] ∧
    names (filterByType ctrlList "foo_base/foo" false) = ["foo_controller"] ∧
    names (filterByType ctrlList "foo_base/foo" true) = ["foo_controller"] ∧
    names (filterByType ctrlList "foo" true) = ["foo_controller", "foobar_controller", "foobaz_controller"] := by
  decide +kernel

/-- cm_msgs_utils_test.py 137-164 `filter_by_hardware_interface_test`. -/
example : names (filterByHardwareInterface ctrlList "null" false) = [] ∧
    names (filterByHardwareInterface ctrlList "null" true) = [] ∧
    names (filterByHardwareInterface ctrlList "hardware_interface::FooInterface" false) =
      ["foo_controller", "foobaz_controller"] ∧
    names (filterByHardwareInterface ctrlList "hardware_interface::BazInterface" true) = ["foobaz_controller"] ∧
    names (filterByHardwareInterface ctrlList "BazInterface" true) = ["foobaz_controller"] := by decide +kernel

/-- The names found by `filter_by_resources`; `none` for an exception. -/
def byRes (rs : List String) (iface : Option String) (any : Bool) : Option (List String) :=
  ((filterByResources ctrlList rs iface any).toOption).map names

/-- cm_msgs_utils_test.py 167-235 `filter_by_resources_test`. -/
example : let Foo := some "hardware_interface::FooInterface"
    let res := ["one", "two", "three"]
    [byRes ["null"] none false, byRes ["null"] none true, byRes ["null"] Foo false, byRes ["null"] Foo true,
      byRes ["four"] Foo false, byRes ["four"] Foo true] = List.replicate 6 (some []) ∧
    byRes res none false = some ["foo_controller"] ∧ byRes res Foo false = some ["foo_controller"] ∧
    byRes ["one"] Foo false = some ["foo_controller", "foobaz_controller"] ∧
    byRes res none true = some ["foo_controller", "foobar_controller", "foobaz_controller"] ∧
    byRes ["one"] (some "hardware_interface::BazInterface") true = some ["foobaz_controller"] := by decide +kernel

/-! ### Controller managers -/

/-- cm_msgs_utils_rostest.py 32-37: `valid_cm`. -/
def validCm : List String :=
  ["/", "/controller_manager", "/foo/robot/controller_manager1", "/foo/robot/controller_manager2"]

/-- cm_msgs_utils_rostest.py 39-43: `invalid_cm`. -/
def invalidCm : List String := ["non_existent", "/incomplete", "/bad_type"]

/-- controller_manager_dummy.py 52-68: the services of a namespace, with their types. -/
def services (ns : String) : List (List Char × List Char) :=
  cmServices.map fun s => (withSlash ns.toList ++ s.1, s.2)

/-- multi_cm_dummy.py 34-77: all services (and one of a logger). -/
def running : List (List Char × List Char) :=
  validCm.flatMap services ++
    (services "/incomplete").filter (fun s => s.1 ≠ "/incomplete/reload_controller_libraries".toList) ++
    (services "/bad_type").map (fun s => if s.1 = "/bad_type/unload_controller".toList then
      (s.1, "controller_manager_msgs/LoadController".toList) else s) ++
    [("/multi_cm_dummy/get_loggers".toList, "roscpp/GetLoggers".toList)]

/-- `rosservice.get_service_type`. -/
def typeOf (name : List Char) : Option (List Char) := running.lookup name

/-- `rosservice.get_service_list(namespace=ns)`: the services below a namespace. -/
def below (ns : String) : List (List Char) := (running.map (·.1)).filter (globalNs ns.toList).isPrefixOf

/-- `get_controller_managers`. -/
def managers (ns : String) (guess : List String := []) : List String :=
  (controllerManagers (some (below ns)) typeOf (guess.map String.toList)).map String.ofList

/-- cm_msgs_utils_rostest.py 54-60 `test_is_controller_manager`. -/
example : (validCm.all fun cm => isControllerManager typeOf cm.toList) = true ∧
    (invalidCm.all fun cm => !isControllerManager typeOf cm.toList) = true := by decide +kernel

/-- cm_msgs_utils_rostest.py 62-93 `test_get_controller_managers`. -/
example : managers "/" = validCm ∧ managers "/foo" = validCm.drop 2 ∧ managers "/foo/robot" = validCm.drop 2 ∧
    managers "/controller_manager" = ["/controller_manager"] ∧ managers "/" validCm = validCm ∧
    managers "/" (validCm.drop 2) = validCm ∧
    (managers "/" invalidCm).filter (· ∉ validCm) = ["/bad_type", "/incomplete"] := by decide +kernel

/-! ### Parameters -/

/-- controller_params.yaml 1-29, the names of the parameters. -/
def params : List (List Char) :=
  ["/foo_controller/type", "/bar_controller/type", "/non_controller_1/type/extra_ns", "/type/non_controller_2",
    "/ns/baz_controller/type", "/ns/qux_controller/type", "/ns/non_controller_3/type/extra_ns",
    "/ns/type/non_controller_4"].map String.toList

/-- cm_msgs_utils_rostest.py 121-150 `test_rosparam_controller_names`. -/
example : let get := fun ns : String => ((controllerNames params ns.toList).toOption).map fun l => l.map String.ofList
    get "/" = some ["bar_controller", "foo_controller"] ∧ get "" = some ["bar_controller", "foo_controller"] ∧
    get "/ns" = some ["baz_controller", "qux_controller"] ∧ get "/ns/" = some ["baz_controller", "qux_controller"] := by
  decide +kernel

end Verif.Tests.Tools
