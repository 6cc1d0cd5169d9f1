import Verif.Model.PartedRobot
import Verif.Spec.WholeRobot

/-!
Vocabulary for whole robots with a combined hardware.
-/

namespace Verif.Parted

open Verif.Transmission (Mem Loader Cmd Doc TransInfo)
open Verif.Limits (Arith Dbl UrdfJoint)
open Verif.Cycle (Record)
open Verif.Described (Robot Setting Assembled)
open Verif.Whole (Seen)

variable {T K : Type}

/-- A controller holds a handle for commands of the kind of a joint of part `k`: the handle has the name of the joint and is for the
variable that is the command of that joint in that part. -/
def Holds (rs : List (Robot T K)) (s : Sys) (c : CId) (k : Nat) (q : Cmd) (n : String) : Prop :=
  ∃ r a, rs[k]? = some r ∧ r.loader.commandCell q n = some a ∧
    ∃ g ∈ s.held c, g.exclusive = true ∧ g.handle = ⟨n, a * rs.length + k⟩

/-- What part `k` of `n` parts sees of the variables. -/
def own (n k : Nat) (m : Mem T) : Mem T := fun a => m (a * n + k)

/-- What part `k` of `n` parts sees of a record. -/
def ownRecord (n k : Nat) (r : Record T) : Record T :=
  ⟨own n k r.measured, own n k r.wished, own n k r.limited, own n k r.sent⟩

/-- What part `k` of `n` parts sees of the input of a cycle, as a hardware of its own. -/
def ownInput (n k : Nat) (x : Seen T) : Cycle.Input T :=
  ⟨own n k x.input.sense, own n k x.record.wished, x.input.period, x.input.reset⟩

section

variable [Add T] [Sub T] [Mul T] [Div T] [OfNat T 0] [OfNat T 1] [OfNat T 2] [DecidableEq T] [LinearOrder K]

/-- All parts have been put together from their descriptions, services are used properly, controllers write through their
handles only, and the periods are positive. -/
structure Proper (stod : String → Option T) (S : Setting T K) (rs : List (Robot T K)) (m : Mem T) (ops : List (Whole.Op T)) :
    Prop where
  assembled : ∀ r ∈ rs, ∃ L0 d infos joints, Assembled stod S.toArith L0 d infos joints r
  good : ∀ op ∈ ops, op.Good
  honest : Whole.Honest (Crew.start rs m).sys ops
  positive : ∀ i, .cycle i ∈ ops → Limits.dlt (some S.zero) (S.see i.period) = true

end

end Verif.Parted
