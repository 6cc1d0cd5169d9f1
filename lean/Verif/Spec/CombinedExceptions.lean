import Verif.Spec.CombinedHW
import Verif.Model.CombinedExceptions

/-!
Vocabulary for C101: sub-hardwares that throw exceptions.
-/

namespace Verif.Combined

/-- The calls of `doSwitch` on the `i`-th sub-hardware. -/
def callsOn (i : Nat) (es : List Event) : List Event :=
  es.filter fun e => match e with
    | .doSwitch j _ _ => j = i
    | _ => false

/-- The `k`-th of `n` sub-hardwares is the first that throws; `k = n` if none does. -/
def FirstThrow (throws : Nat → Bool) (n k : Nat) : Prop :=
  k ≤ n ∧ (∀ j < k, throws j = false) ∧ (k < n → throws k = true)

/-- C101 in full: a switch of a combined hardware reaches every sub-hardware exactly once. -/
def SwitchesOnce : Prop :=
  ∀ (hws : List IMan) (start stop : List ControllerInfo) (attempts : List (Nat → Bool)),
    (switchAttempts hws start stop attempts).1 = true → ∀ i < hws.length,
      (callsOn i (switchAttempts hws start stop attempts).2).length = 1

end Verif.Combined
