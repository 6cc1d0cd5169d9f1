import Verif.Model.WholeRobot
import Verif.Model.CombinedHW

/-!
A whole robot as in `Verif.Model.WholeRobot` whose hardware is a `CombinedRobotHW` (combined_robot_hw/src/combined_robot_hw.cpp)
of parts, each of which is a robot hardware with transmissions and joint limits from its own description
(`Verif.Model.DescribedRobot`).

Simplifications. As in `Verif.Model.WholeRobot`. The limits interfaces of all parts are reset together. If the assertion of a limit
handle of a part fails, the run ends, and it is not said what the parts before it have sent in that cycle.
-/

namespace Verif.Parted

open Verif.Transmission (Mem Loader Cmd)
open Verif.Cycle (Halt Record)
open Verif.Described (Robot Setting)
open Verif.Whole (Input Seen typeOf)

variable {T K : Type}

/-- The parts live in one memory (combined_robot_hw.h 104: the list of pointers to the parts): this is where the variable `a` of
part `k` of `n` parts is. -/
def place (n k a : Nat) : Nat := a * n + k

/-- The variables of a part (combined_robot_hw.h 104, with `place`). -/
def view (n k : Nat) (m : Mem T) : Mem T := fun a => m (place n k a)

/-- New values for the variables of a part (combined_robot_hw.h 104, with `place`). -/
def put (n k : Nat) (v m : Mem T) : Mem T := fun x => if x % n = k then v (x / n) else m x

/-- The joint interfaces of the parts as objects (`Verif.Whole.interfaces`, four for each part; joint_state_interface_provider.cpp
45-49 and the three providers for commands). -/
def interfaces (ls : List (Loader T)) : Heap where
  objs o :=
    match ls[o / 4]? with
    | none => {}
    | some L =>
      let i := (Whole.interfaces L).objs (o % 4)
      { i with handles := i.handles.map fun e => (e.1, ⟨e.2.name, place ls.length (o / 4) e.2.data⟩) }
  next := 4 * ls.length

/-- What a part is as an interface manager (`Verif.Whole.registered`, effort_joint_interface_provider.cpp 48-53). -/
def part (h : Heap) (k : Nat) : IMan :=
  IMan.registerInterface stdEnv (typeOf .effort) (4 * k + 2) h
    (IMan.registerInterface stdEnv (typeOf .velocity) (4 * k + 1) h
      (IMan.registerInterface stdEnv (typeOf .position) (4 * k) h
        (IMan.registerInterface stdEnv "hardware_interface::JointStateInterface" (4 * k + 3) h .empty)))

/-- combined_robot_hw.cpp 46-52, 171-173: the combined hardware after all parts are there; see `c116_init`, by which this is
what `init` (`Verif.Combined.init`) leaves. -/
def combined (ls : List (Loader T)) : IMan :=
  (List.range ls.length).foldl (fun m k => IMan.registerInterfaceManager (part (interfaces ls) k) m) .empty

/-- The manager with its controllers, the parts of the hardware, and the variables (dummy_app.cpp 41-44). -/
structure Crew (T K : Type) where
  sys : Sys
  robots : List (Robot T K)
  mem : Mem T

/-- The start: the hardware is there, no controller is loaded (controller_manager_tests/src/dummy_app.cpp 41-44 with a
combined hardware). -/
def Crew.start (rs : List (Robot T K)) (m : Mem T) : Crew T K :=
  ⟨{ robot := combined (rs.map (·.loader)), heap := interfaces (rs.map (·.loader)) }, rs, m⟩

section

variable [Add T] [Sub T] [Mul T] [Div T] [OfNat T 2] [LinearOrder K] (S : Setting T K) (nd : Bool)

/-- combined_robot_hw.cpp 179-186: `read` of the parts, one after the other, from the `k`-th one of `n` on. -/
def readAll (n : Nat) (sense : Mem T) : Nat → List (Robot T K) → Mem T → Except Halt (Mem T)
  | _, [], m => .ok m
  | k, r :: rs, m =>
    match r.read nd (view n k sense) (view n k m) with
    | .error h => .error h
    | .ok v => readAll n sense (k + 1) rs (put n k v m)

/-- combined_robot_hw.cpp 189-196: `write` of the parts, one after the other, from the `k`-th one of `n` on. The results
are the parts, the variables of each part after its `enforceLimits`, and the variables in the end. -/
def writeAll (n : Nat) (reset : Bool) (dt : T) :
    Nat → List (Robot T K) → Mem T → Mem T → Except Halt (List (Robot T K) × Mem T × Mem T)
  | _, [], lim, m => .ok ([], lim, m)
  | k, r :: rs, lim, m =>
    let r := if reset then { r with limits := fun c => Limits.resetAll (r.kind c) (r.limits c) } else r
    match r.write S nd dt (view n k m) with
    | .error h => .error h
    | .ok (r, m3, m4) =>
      match writeAll n reset dt (k + 1) rs (put n k m3 lim) (put n k m4 m) with
      | .error h => .error h
      | .ok (rs, lim, m) => .ok (r :: rs, lim, m)

/-- A cycle, controller_manager_tests/src/dummy_app.cpp 49-51 with a combined hardware. -/
def Crew.cycle (w : Crew T K) (i : Input T) : Except Halt (Crew T K × Record T) := do
  let n := w.robots.length
  let m1 ← readAll nd n i.sense 0 w.robots w.mem
  let sys := w.sys.step stdEnv checkForConflict i.update
  -- the callbacks made by this update
  let m2 := replay i.act (sys.mgr.trace.drop w.sys.mgr.trace.length) m1
  let (rs, m3, m4) ← writeAll S nd n i.reset i.period 0 w.robots m2 m2
  return (⟨sys, rs, m4⟩, ⟨m1, m2, m3, m4⟩)

/-- The robot in operation (dummy_app.cpp 46-54): the completed cycles, and why it halted, if it did. -/
def Crew.run : List (Whole.Op T) → Crew T K → List (Seen T) × Option Halt
  | [], _ => ([], none)
  | .service op :: ops, w => Crew.run ops { w with sys := w.sys.step stdEnv checkForConflict op }
  | .cycle i :: ops, w =>
    match w.cycle S nd i with
    | .error h => ([], some h)
    | .ok (w', rec) =>
      let (l, h) := Crew.run ops w'
      (⟨w.sys, w.mem, i, w'.sys, rec⟩ :: l, h)

end

end Verif.Parted
