import Verif.Spec.DescribedRobotDouble
import Verif.Spec.WholeRobot

/-!
Vocabulary for whole robots that compute with doubles.
-/

namespace Verif.Whole

open Verif.Transmission (Mem Cmd IsNaN)
open Verif.Limits (Machine Flt Fl binary64)
open Verif.Described (Robot)
open Verif.Cycle (GoodPeriod)

variable {A : Machine binary64}

/-- Services are used properly, controllers write through their handles only, and the periods are finite and
positive. -/
structure Proper64 (r : Robot (Flt A) (Fl binary64)) (m : Mem (Flt A)) (ops : List (Op (Flt A))) : Prop where
  good : ∀ op ∈ ops, op.Good
  honest : Honest (World.start r m).sys ops
  positive : ∀ i, .cycle i ∈ ops → GoodPeriod i.period

/-- The command of the joint is a number, and not NaN. -/
def Number (r : Robot (Flt A) (Fl binary64)) (q : Cmd) (n : String) (m : Mem (Flt A)) : Prop :=
  ∀ v, r.jointCommand q n m = some v → ¬IsNaN v

/-- The position limits of a joint start from its measured position in the `k`-th cycle: it is the first one, the limits
are reset in it, or the controllers have left NaN as the command of the joint in the cycle before. -/
def StartsOver (r : Robot (Flt A) (Fl binary64)) (out : List (Seen (Flt A))) (n : String) (k : Nat) : Prop :=
  k = 0 ∨ (∃ x, out[k]? = some x ∧ x.input.reset = true) ∨
    ∃ k' x, k = k' + 1 ∧ out[k']? = some x ∧ ¬Number r .position n x.record.wished

/-- What the position limits start from in the `k`-th cycle: the measured position, or else the command after the limits
in the cycle before. -/
def Before (r : Robot (Flt A) (Fl binary64)) (out : List (Seen (Flt A))) (n : String) (k : Nat) (p : Fl binary64) : Prop :=
  (StartsOver r out n k → ∀ x, out[k]? = some x → r.jointValue .position n x.record.measured = some (Flt.fl p)) ∧
  (¬StartsOver r out n k → ∀ k' x, k = k' + 1 → out[k']? = some x →
    r.jointCommand .position n x.record.limited = some (Flt.fl p))

end Verif.Whole
