import Verif.Model.Transmission
import Mathlib.Algebra.Field.Rat

/-!
simple_transmission_test.cpp, differential_transmission_test.cpp, four_bar_linkage_transmission_test.cpp and
transmission_interface_test.cpp (transmission_interface/test) against the model, with exact arithmetic on rationals (the
tests compare with a tolerance). The round trips for random transmissions (`IdentityMap`) are C45 for all of them.
-/

namespace Verif.Tests.Transmission

open Verif.Transmission

/-- The comparison of the constructors. -/
def isZero (x : ℚ) : Bool := x == 0

/-! ### Constructors -/

/-- simple_transmission_test.cpp 42-55 `ExceptionThrowing`. -/
example : [(0, 0), (0, 1), (0, -1)].all (fun p : ℚ × ℚ => (mkSimple isZero p.1 p.2).isNone) = true ∧
    [(1, 0), (1, 1), (-1, 1), (1, -1), (-1, -1)].all (fun p : ℚ × ℚ => (mkSimple isZero p.1 p.2).isSome) = true := by
  decide +kernel

/-- differential_transmission_test.cpp 41-76 and four_bar_linkage_transmission_test.cpp 41-76 `ExceptionThrowing`. -/
example : let good : List ℚ := [1, 1]
    let bad : List (List ℚ) := [[0, 0], [1, 0], [0, 1]]
    let mk := mkTwoDefault isZero
    bad.all (fun b => [[0, 0], [1, 1]].all fun off => (mk b good off).isNone && (mk good b off).isNone) = true ∧
    (mk [1] good [0, 0]).isNone = true ∧ (mk good [1] [0, 0]).isNone = true ∧ (mk good good [1]).isNone = true ∧
    (mk good good [0, 0]).isSome = true ∧ (mk good good [1, 1]).isSome = true := by decide +kernel

/-! ### Assertions -/

/-- A map from data of actuators and joints. -/
abbrev Map := Trans ℚ → Data → Data → Mem ℚ → Except Fault (Mem ℚ)

/-- The maps the tests call. -/
def maps : List Map :=
  [actuatorToJointEffort false, actuatorToJointVelocity false, actuatorToJointPosition false,
    fun T a j => jointToActuatorEffort false T j a, fun T a j => jointToActuatorVelocity false T j a,
    fun T a j => jointToActuatorPosition false T j a]

/-- The same vector for positions, velocities and efforts. -/
def data (v : List Ptr) : Data := ⟨v, v, v, [], []⟩

/-- The process dies from an assertion. -/
def dies (r : Except Fault (Mem ℚ)) : Bool :=
  match r with
  | .error .assertion => true
  | _ => false

/-- The pairs of data of the tests: null pointers, then wrong sizes, for `n` actuators and joints. -/
def badPairs (n : Nat) : List (Data × Data) :=
  let ga := data ((List.range n).map some)
  let gj := data ((List.range n).map fun i => some (i + 2))
  let bad := data (List.replicate n none)
  [(bad, bad), (ga, bad), (bad, gj), ({}, {}), (ga, {}), ({}, gj)]

/-- simple_transmission_test.cpp 58-139, differential_transmission_test.cpp 79-169,
four_bar_linkage_transmission_test.cpp 79-169 `AssertionTriggering`. -/
example : maps.all (fun f => (badPairs 1).all fun p => dies (f (.simple ⟨1, 0⟩) p.1 p.2 fun _ => 0)) = true ∧
    maps.all (fun f => (badPairs 2).all fun p =>
      dies (f (.differential ⟨(1, 1), (1, 1), (0, 0), false⟩) p.1 p.2 fun _ => 0) &&
      dies (f (.fourBar ⟨(1, 1), (1, 1), (0, 0), false⟩) p.1 p.2 fun _ => 0)) = true := by decide +kernel

/-! ### Maps -/

/-- The first actuator or joint, for transmissions with one of each: the actuator is cell 0, the joint cell 2. -/
def act1 : Data := data [some 0]
/-- See `act1`. -/
def jnt1 : Data := data [some 2]
/-- The actuators are cells 0 and 1, the joints cells 2 and 3. -/
def act2 : Data := data [some 0, some 1]
/-- See `act2`. -/
def jnt2 : Data := data [some 2, some 3]

/-- The values of cells afterwards. -/
def cells (l : List Nat) (r : Except Fault (Mem ℚ)) : Option (List ℚ) := (r.toOption).map fun m => l.map m

/-- Effort, velocity and position of the joints from values of the actuators. -/
def toJoints (T : Trans ℚ) (a : Data) (j : Data) (x y : ℚ) (l : List Nat) : List (Option (List ℚ)) :=
  [actuatorToJointEffort false, actuatorToJointVelocity false, actuatorToJointPosition false].map fun f =>
    cells l (f T a j fun c => if c = 0 then x else if c = 1 then y else 7)

/-- A map to the joints and back, then the values of the actuators. -/
def roundTrips (T : Trans ℚ) (x : ℚ) : List (Option (List ℚ)) :=
  [((actuatorToJointEffort false : Map), (jointToActuatorEffort false : Map)),
    (actuatorToJointVelocity false, jointToActuatorVelocity false),
    (actuatorToJointPosition false, jointToActuatorPosition false)].map fun (p : Map × Map) =>
    cells [0] (do
      let m ← p.1 T act1 jnt1 fun c => if c = 0 then x else 7
      p.2 T jnt1 act1 m)

/-- simple_transmission_test.cpp 142-150, differential_transmission_test.cpp 172-198, four_bar_linkage_transmission_test.cpp 172-198
`AccessorValidation` (the number of actuators and joints). -/
example : Trans.numActuators (.simple ⟨(2 : ℚ), -1⟩) = 1 ∧ Trans.numJoints (.simple ⟨(2 : ℚ), -1⟩) = 1 ∧
    Trans.numActuators (.differential (F := ℚ) ⟨(2, -2), (4, -4), (1, -1), false⟩) = 2 ∧
    Trans.numJoints (.fourBar (F := ℚ) ⟨(2, -2), (4, -4), (1, -1), false⟩) = 2 := by decide

/-- simple_transmission_test.cpp 221-241 `IdentityMap`. -/
example : [(10, 0), (-10, 0), (10, 1), (10, -1), (-10, 1), (-10, -1)].all (fun p : ℚ × ℚ =>
    [1, 0, -1].all fun x => roundTrips (.simple ⟨p.1, p.2⟩) x = List.replicate 3 (some [x])) = true := by decide +kernel

/-- simple_transmission_test.cpp 244-288 `MoveJoint`. -/
example : toJoints (.simple ⟨10, 1⟩) act1 jnt1 1 0 [2] = [some [10], some [1/10], some [11/10]] := by decide +kernel

/-- differential_transmission_test.cpp 318-368 `DontMoveJoints`, 370-419 `MoveFirstJointOnly`, 421-470
`MoveSecondJointOnly`. -/
example :
    toJoints (.differential ⟨(10, 10), (2, 2), (1, 1), false⟩) act2 jnt2 0 0 [2, 3] =
      [some [0, 0], some [0, 0], some [1, 1]] ∧
    toJoints (.differential ⟨(10, 10), (2, 2), (0, 0), false⟩) act2 jnt2 10 10 [2, 3] =
      [some [400, 0], some [1/2, 0], some [1/2, 0]] ∧
    toJoints (.differential ⟨(10, 10), (2, 2), (0, 0), false⟩) act2 jnt2 10 (-10) [2, 3] =
      [some [0, 400], some [0, 1/2], some [0, 1/2]] := by decide +kernel

/-- differential_transmission_test.cpp 472-533 `MoveBothJoints`. -/
example : toJoints (.differential ⟨(10, -20), (-2, 4), (-2, 4), false⟩) act2 jnt2 3 5 [2, 3] =
    [some [140, 520], some [-1/80, 11/160], some [-161/80, 651/160]] := by decide +kernel

/-- four_bar_linkage_transmission_test.cpp 318-368 `DontMoveJoints`, 370-423 `MoveFirstJointOnly` (efforts 5 and 10,
otherwise 10 and 5), 425-473 `MoveSecondJointOnly`. -/
example :
    toJoints (.fourBar ⟨(10, 10), (2, 2), (1, 1), false⟩) act2 jnt2 0 0 [2, 3] =
      [some [0, 0], some [0, 0], some [1, 1]] ∧
    (toJoints (.fourBar ⟨(10, 10), (2, 2), (0, 0), false⟩) act2 jnt2 5 10 [2, 3]).take 1 = [some [100, 0]] ∧
    (toJoints (.fourBar ⟨(10, 10), (2, 2), (0, 0), false⟩) act2 jnt2 10 5 [2, 3]).drop 1 =
      [some [1/2, 0], some [1/2, 0]] ∧
    toJoints (.fourBar ⟨(10, 10), (2, 2), (0, 0), false⟩) act2 jnt2 0 10 [2, 3] =
      [some [0, 200], some [0, 1/2], some [0, 1/2]] := by decide +kernel

/-- four_bar_linkage_transmission_test.cpp 475-536 `MoveBothJoints`. -/
example : toJoints (.fourBar ⟨(10, -20), (-2, 4), (-2, 4), false⟩) act2 jnt2 3 5 [2, 3] =
    [some [-60, -160], some [-3/20, -1/40], some [-43/20, 159/40]] := by decide +kernel

/-! ### Handles -/

/-- The constructor of a handle for `SimpleTransmission(1.0)` throws. -/
def throws (a j : Data) : Bool := (mkHandle (some (.simple ⟨(1 : ℚ), 0⟩)) a j).isNone

/-- Data with one vector, for the six places. -/
def places (v : List Ptr) : List (Data × Data) :=
  [({ position := v }, {}), ({ velocity := v }, {}), ({ effort := v }, {}), ({}, { position := v }),
    ({}, { velocity := v }), ({}, { effort := v })]

/-- transmission_interface_test.cpp 55-108 `ValidHandle`, 110-152 `BadSize`, 154-159 `EmptyData`, 161-171
`BadTransmissionPointer`, 173-214 `BadDataPointer`. -/
example : (places [some 0]).all (fun p => !throws p.1 p.2) = true ∧ throws (data [some 0]) (data [some 0]) = false ∧
    (places [some 0, some 0]).all (fun p => throws p.1 p.2) = true ∧ throws {} {} = true ∧
    (mkHandle (none : Option (Trans ℚ)) { position := [some 0] } { position := [some 0] }).isNone = true ∧
    (places [none]).all (fun p => throws p.1 p.2) = true := by decide +kernel

/-- transmission_interface_test.cpp 226: `trans1`. -/
def trans1 : Trans ℚ := .simple ⟨10, 1⟩
/-- transmission_interface_test.cpp 227: `trans2`. -/
def trans2 : Trans ℚ := .simple ⟨-10, 1⟩

/-- The data of actuator or joint `i`: positions are cells `b` and `b + 1`, then velocities, then efforts. -/
def at_ (b i : Nat) : Data := ⟨[some (b + i)], [some (b + 2 + i)], [some (b + 4 + i)], [], []⟩

/-- The handles of an interface; actuators from cell 0 (12 for commands), joints from cell 6 (18). -/
def handles (b : Nat) : List (Handle ℚ) := [⟨trans1, at_ b 0, at_ (b + 6) 0⟩, ⟨trans2, at_ b 1, at_ (b + 6) 1⟩]

/-- The state of the joints is copied to the commands. -/
def copy (m : Mem ℚ) : Mem ℚ := fun c => if 18 ≤ c then m (c - 12) else m c

/-- To the joints, copied, to the actuators; the values of the joints and of the actuators' commands. -/
def there (k k' : Kind) (hs : Nat → List (Handle ℚ)) (js as : List Nat) : Option (List ℚ × List ℚ) :=
  (do
    let m ← propagateAll false k (hs 0) fun c => if c < 6 then 1 else 7
    let m' ← propagateAll false k' (hs 12) (copy m)
    return (js.map m, as.map m') : Except Fault (List ℚ × List ℚ)).toOption

/-- transmission_interface_test.cpp 232-376: the maps of one handle. -/
example : let one := fun b => (handles b).take 1
    there .actuatorToJointPosition .jointToActuatorPosition one [6] [12] = some ([11/10], [1]) ∧
    there .actuatorToJointVelocity .jointToActuatorVelocity one [8] [14] = some ([1/10], [1]) ∧
    there .actuatorToJointEffort .jointToActuatorEffort one [10] [16] = some ([10], [1]) ∧
    there .actuatorToJointState .jointToActuatorState one [6, 8, 10] [12, 14, 16] =
      some ([11/10, 1/10, 10], [1, 1, 1]) := by decide +kernel

/-- transmission_interface_test.cpp 380-584: the maps of an interface. -/
example : there .actuatorToJointPosition .jointToActuatorPosition handles [6, 7] [12, 13] = some ([11/10, 9/10], [1, 1]) ∧
    there .actuatorToJointVelocity .jointToActuatorVelocity handles [8, 9] [14, 15] = some ([1/10, -1/10], [1, 1]) ∧
    there .actuatorToJointEffort .jointToActuatorEffort handles [10, 11] [16, 17] = some ([10, -10], [1, 1]) ∧
    there .actuatorToJointState .jointToActuatorState handles [6, 8, 10, 7, 9, 11] [12, 14, 16, 13, 15, 17] =
      some ([11/10, 1/10, 10, 9/10, -1/10, -10], [1, 1, 1, 1, 1, 1]) := by decide +kernel

end Verif.Tests.Transmission
