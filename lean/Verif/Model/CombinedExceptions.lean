import Verif.Model.CombinedHW

/-!
`CombinedRobotHW` with sub-hardwares whose virtual functions throw exceptions
(combined_robot_hw/src/combined_robot_hw.cpp 56-90, 179-196). There is no handler in these functions: the loop over the
sub-hardwares is left at once and the exception reaches the caller.

A call that throws is recorded like one that returns.
-/

namespace Verif.Combined

/-- What a call of `prepareSwitch` of a sub-hardware does. -/
inductive Answer
  | yes
  | no
  | threw
deriving DecidableEq, Repr

/-- combined_robot_hw.cpp 60-72: the loop of `prepareSwitch`, from the `i`-th sub-hardware on. -/
def prepareFromX (reply : Nat → List ControllerInfo → List ControllerInfo → Answer)
    (start stop : List ControllerInfo) : Nat → List IMan → Answer × List Event
  | _, [] => (.yes, [])
  | i, hw :: hws =>
    let a := filterControllerList hw start
    let b := filterControllerList hw stop
    match reply i a b with
    | .threw => (.threw, [.prepareSwitch i a b false])
    | .no => (.no, [.prepareSwitch i a b false])
    | .yes =>
      let (r, es) := prepareFromX reply start stop (i + 1) hws
      (r, .prepareSwitch i a b true :: es)

/-- combined_robot_hw.cpp 56-73: `prepareSwitch`. -/
def prepareSwitchX (hws : List IMan) (reply : Nat → List ControllerInfo → List ControllerInfo → Answer)
    (start stop : List ControllerInfo) : Answer × List Event := prepareFromX reply start stop 0 hws

/-- combined_robot_hw.cpp 79-89: the loop of `doSwitch`. `throws i`: the call on the `i`-th sub-hardware throws. The
Boolean says whether the loop was left by an exception. -/
def doSwitchFromX (throws : Nat → Bool) (start stop : List ControllerInfo) : Nat → List IMan → Bool × List Event
  | _, [] => (false, [])
  | i, hw :: hws =>
    let e := Event.doSwitch i (filterControllerList hw start) (filterControllerList hw stop)
    if throws i then (true, [e])
    else
      let (t, es) := doSwitchFromX throws start stop (i + 1) hws
      (t, e :: es)

/-- combined_robot_hw.cpp 75-90: `doSwitch`. -/
def doSwitchX (hws : List IMan) (throws : Nat → Bool) (start stop : List ControllerInfo) : Bool × List Event :=
  doSwitchFromX throws start stop 0 hws

/-- The loops of `read` and `write`. -/
def eachFromX (throws : Nat → Bool) (e : Nat → Event) : Nat → List IMan → Bool × List Event
  | _, [] => (false, [])
  | i, _ :: hws =>
    if throws i then (true, [e i])
    else
      let (t, es) := eachFromX throws e (i + 1) hws
      (t, e i :: es)

/-- combined_robot_hw.cpp 179-186: `read`. -/
def readX (hws : List IMan) (throws : Nat → Bool) : Bool × List Event := eachFromX throws .read 0 hws

/-- combined_robot_hw.cpp 189-196: `write`. -/
def writeX (hws : List IMan) (throws : Nat → Bool) : Bool × List Event := eachFromX throws .write 0 hws

/-- A switch of the manager on a combined hardware: `doSwitch` is called in every update until it returns
(controller_manager.cpp 118-122: `started` is set only after the call). `attempts` tells for each update which
sub-hardwares throw; the result says whether the last call has returned. -/
def switchAttempts (hws : List IMan) (start stop : List ControllerInfo) : List (Nat → Bool) → Bool × List Event
  | [] => (false, [])
  | throws :: rest =>
    match doSwitchX hws throws start stop with
    | (false, es) => (true, es)
    | (true, es) =>
      let (ok, es') := switchAttempts hws start stop rest
      (ok, es ++ es')

end Verif.Combined
