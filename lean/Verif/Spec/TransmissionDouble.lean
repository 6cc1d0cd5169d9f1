import Verif.Model.TransmissionDouble
import Verif.Spec.Transmission

/-!
Vocabulary for the accuracy of transmissions that compute with doubles.
-/

namespace Verif.Transmission

open Limits

variable {A : Machine binary64}

/-- The double is this number. -/
def Is (a : Flt A) (x : ℚ) : Prop := ∃ d : Fl binary64, a = Flt.fl d ∧ d.1 = x

/-- Zero, or neither tiny nor huge. -/
def Moderate (x : ℚ) : Prop := x = 0 ∨ 2 ^ (-100 : ℤ) ≤ |x| ∧ |x| ≤ 2 ^ (100 : ℤ)

/-- The double is this number, and it is moderate. -/
def Means (a : Flt A) (x : ℚ) : Prop := Is a x ∧ Moderate x

/-- The doubles are these numbers, and moderate. -/
def MeansAll : List (Flt A) → List ℚ → Prop := List.Forall₂ Means

/-- The transmissions have the same parameters: doubles on one side, rational numbers on the other. The parameters are
moderate. -/
def SameTrans : Trans (Flt A) → Trans ℚ → Prop
  | .simple T, .simple t => Means T.reduction t.reduction ∧ Means T.offset t.offset
  | .differential T, .differential t | .fourBar T, .fourBar t =>
    Means T.ar.1 t.ar.1 ∧ Means T.ar.2 t.ar.2 ∧ Means T.jr.1 t.jr.1 ∧ Means T.jr.2 t.jr.2 ∧
      Means T.off.1 t.off.1 ∧ Means T.off.2 t.off.2
  | _, _ => False

/-- The doubles are numbers near the given ones: the error is at most `ε` times the scale. -/
def Near (ε : ℚ) : List (Flt A) → List ℚ → List ℚ → Prop
  | a :: as, x :: xs, s :: ss => (∃ y, Is a y ∧ |y - x| ≤ ε * s) ∧ Near ε as xs ss
  | [], [], [] => True
  | _, _, _ => False

/-- How large the terms are that are added up for the joint values: absolute values throughout, and nothing cancels.
The arguments are (bounds for) the absolute values of the actuator values. -/
def jointScale : Quantity → Trans ℚ → List ℚ → List ℚ
  | .effort, .simple t, [x] => [x * |t.reduction|]
  | .velocity, .simple t, [x] => [x / |t.reduction|]
  | .position, .simple t, [x] => [x / |t.reduction| + |t.offset|]
  | .effort, .differential t, [x, y] =>
    [(x * |t.ar.1| + y * |t.ar.2|) * |t.jr.1|, (x * |t.ar.1| + y * |t.ar.2|) * |t.jr.2|]
  | .velocity, .differential t, [x, y] =>
    [(x / |t.ar.1| + y / |t.ar.2|) / |2 * t.jr.1|, (x / |t.ar.1| + y / |t.ar.2|) / |2 * t.jr.2|]
  | .position, .differential t, [x, y] =>
    [(x / |t.ar.1| + y / |t.ar.2|) / |2 * t.jr.1| + |t.off.1|, (x / |t.ar.1| + y / |t.ar.2|) / |2 * t.jr.2| + |t.off.2|]
  | .effort, .fourBar t, [x, y] =>
    [x * |t.ar.1| * |t.jr.1|, (y * |t.ar.2| + x * |t.ar.1| * |t.jr.1|) * |t.jr.2|]
  | .velocity, .fourBar t, [x, y] =>
    [x / |t.jr.1 * t.ar.1|, (y / |t.ar.2| + x / |t.jr.1 * t.ar.1|) / |t.jr.2|]
  | .position, .fourBar t, [x, y] =>
    [x / |t.jr.1 * t.ar.1| + |t.off.1|, (y / |t.ar.2| + x / |t.jr.1 * t.ar.1|) / |t.jr.2| + |t.off.2|]
  | _, _, _ => []

/-- The same for the actuator values. -/
def actuatorScale : Quantity → Trans ℚ → List ℚ → List ℚ
  | .effort, .simple t, [x] => [x / |t.reduction|]
  | .velocity, .simple t, [x] => [x * |t.reduction|]
  | .position, .simple t, [x] => [(x + |t.offset|) * |t.reduction|]
  | .effort, .differential t, [x, y] =>
    [(x / |t.jr.1| + y / |t.jr.2|) / |2 * t.ar.1|, (x / |t.jr.1| + y / |t.jr.2|) / |2 * t.ar.2|]
  | .velocity, .differential t, [x, y] =>
    [(x * |t.jr.1| + y * |t.jr.2|) * |t.ar.1|, (x * |t.jr.1| + y * |t.jr.2|) * |t.ar.2|]
  | .position, .differential t, [x, y] =>
    [((x + |t.off.1|) * |t.jr.1| + (y + |t.off.2|) * |t.jr.2|) * |t.ar.1|,
      ((x + |t.off.1|) * |t.jr.1| + (y + |t.off.2|) * |t.jr.2|) * |t.ar.2|]
  | .effort, .fourBar t, [x, y] => [x / |t.ar.1 * t.jr.1|, (x + y / |t.jr.2|) / |t.ar.2|]
  | .velocity, .fourBar t, [x, y] => [x * |t.jr.1| * |t.ar.1|, (x + y * |t.jr.2|) * |t.ar.2|]
  | .position, .fourBar t, [x, y] =>
    [(x + |t.off.1|) * |t.jr.1| * |t.ar.1|, ((x + |t.off.1|) + (y + |t.off.2|) * |t.jr.2|) * |t.ar.2|]
  | _, _, _ => []

/-- The double is NaN. -/
def IsNaN (a : Flt A) : Prop := a = (none : Option (Fl binary64))

/-- The double is NaN or infinite. -/
def NotFinite (a : Flt A) : Prop := IsNaN a ∨ ∃ d : Fl binary64, a = Flt.fl d ∧ d.isInf = true

/-- The `i`-th result of the maps of a transmission depends on the `j`-th value: always, but the first joint of a four-bar
linkage does not depend on the second actuator, nor the first actuator on the second joint. -/
def DependsOn {K : Type} : Trans K → Nat → Nat → Prop
  | .fourBar _, i, j => ¬ (i = 0 ∧ j = 1)
  | _, _, _ => True

end Verif.Transmission
