import Mathlib.Order.Defs.LinearOrder
import Mathlib.Algebra.Ring.Defs

/-!
The joint limit enforcers:
joint_limits_interface/include/joint_limits_interface/joint_limits_interface.h and joint_limits.h.

A `double` is NaN (`none`) or a value of a linear order `K` (which may contain infinities). The
arithmetic operations are parameters, so nothing is assumed here about rounding or overflow;
`Arith.exact` is arithmetic without rounding. Comparisons are exact, and false if an operand is NaN.
The sign of zero is not represented. Exceptions thrown by constructors are `none`.
-/

namespace Verif.Limits

/-- A `double`: `none` is NaN. -/
abbrev Dbl (K : Type) := Option K

/-- The arithmetic operations. A result of `none` is NaN (for example the product of zero and an
infinity). `huge` is `std::numeric_limits<double>::max()`. -/
structure Arith (K : Type) where
  add : K → K → Option K
  sub : K → K → Option K
  mul : K → K → Option K
  neg : K → K
  zero : K
  huge : K

/-- Arithmetic without rounding and overflow (not in the code). -/
def Arith.exact {K : Type} [Ring K] (huge : K) : Arith K where
  add a b := some (a + b)
  sub a b := some (a - b)
  mul a b := some (a * b)
  neg a := -a
  zero := 0
  huge := huge

namespace Arith

variable {K : Type} (A : Arith K)

/-- `a + b` (plumbing: NaN is passed on). -/
def dadd (x y : Dbl K) : Dbl K := x.bind fun a => y.bind fun b => A.add a b

/-- `a - b` (plumbing). -/
def dsub (x y : Dbl K) : Dbl K := x.bind fun a => y.bind fun b => A.sub a b

/-- `a * b` (plumbing). -/
def dmul (x y : Dbl K) : Dbl K := x.bind fun a => y.bind fun b => A.mul a b

/-- `-a` (plumbing). -/
def dneg (x : Dbl K) : Dbl K := x.map A.neg

end Arith

variable {K : Type} [LinearOrder K]

/-- `a < b` on doubles. -/
def dlt (x y : Dbl K) : Bool :=
  match x, y with
  | some a, some b => decide (a < b)
  | _, _ => false

/-- `std::max(a, b)`: `(a < b) ? b : a`. -/
def dmax (a b : Dbl K) : Dbl K := if dlt a b then b else a

/-- `std::min(a, b)`: `(b < a) ? b : a`. -/
def dmin (a b : Dbl K) : Dbl K := if dlt b a then b else a

/-- joint_limits_interface.h 53-57: `saturate`. -/
def saturate (val lo hi : Dbl K) : Dbl K := dmin (dmax val lo) hi

/-- joint_limits.h 36-51: `JointLimits` (jerk limits and the wraparound flag are not used by the
enforcers and left out). -/
structure JointLimits (F : Type) where
  minPosition : F
  maxPosition : F
  maxVelocity : F
  maxAcceleration : F
  maxEffort : F
  hasPosition : Bool
  hasVelocity : Bool
  hasAcceleration : Bool
  hasEffort : Bool
  deriving DecidableEq, Repr

/-- joint_limits.h 53-59: `SoftJointLimits`. -/
structure SoftLimits (F : Type) where
  minPosition : F
  maxPosition : F
  kPosition : F
  kVelocity : F
  deriving DecidableEq, Repr

/-- What an enforcer finds when it is called: the command in the handle, the measured position and
velocity, and the period in seconds (joint_command_interface.h, joint_state_interface.h getters). -/
structure Input (F : Type) where
  cmd : F
  pos : F
  vel : F
  dt : F
  deriving DecidableEq

variable (A : Arith K)

/-! ### Position -/

/-- joint_limits_interface.h 71-80: the constructor's position range. -/
def posSatRange (L : JointLimits (Dbl K)) : Dbl K × Dbl K :=
  if L.hasPosition then (L.minPosition, L.maxPosition) else (some (A.neg A.huge), some A.huge)

/-- joint_limits_interface.h 91-114: `PositionJointSaturationHandle::enforceLimits`. `prev` is
`prev_cmd_`, the result the new command, which also becomes `prev_cmd_`. -/
def posSat (L : JointLimits (Dbl K)) (prev : Dbl K) (i : Input (Dbl K)) : Dbl K :=
  -- 93-94
  let prev := if prev.isNone then i.pos else prev
  -- 96-107
  let (minPos, maxPos) :=
    if L.hasVelocity then
      let delta := A.dmul L.maxVelocity i.dt
      (dmax (A.dsub prev delta) (posSatRange A L).1, dmin (A.dadd prev delta) (posSatRange A L).2)
    else posSatRange A L
  -- 109-111
  saturate i.cmd minPos maxPos

/-- The velocity bounds computed from the distance to the soft limits, joint_limits_interface.h
199-218, 356-376 and 492-506 (the same text three times, with `maxVel` as the velocity limit). -/
def softVel (L : JointLimits (Dbl K)) (S : SoftLimits (Dbl K)) (maxVel pos : Dbl K) : Dbl K × Dbl K :=
  if L.hasPosition then
    (saturate (A.dmul (A.dneg S.kPosition) (A.dsub pos S.minPosition)) (A.dneg maxVel) maxVel,
      saturate (A.dmul (A.dneg S.kPosition) (A.dsub pos S.maxPosition)) (A.dneg maxVel) maxVel)
  else (A.dneg maxVel, maxVel)

/-- joint_limits_interface.h 165-178: the constructor of `PositionJointSoftLimitsHandle` does not
throw. -/
def posSoftOk (L : JointLimits (Dbl K)) : Bool := L.hasVelocity

/-- joint_limits_interface.h 188-241: `PositionJointSoftLimitsHandle::enforceLimits`. `none` is the
failed assertion of line 190. -/
def posSoft (L : JointLimits (Dbl K)) (S : SoftLimits (Dbl K)) (prev : Dbl K) (i : Input (Dbl K)) :
    Option (Dbl K) :=
  -- 190
  if !dlt (some A.zero) i.dt then none
  else
    -- 196-197
    let pos := if prev.isNone then i.pos else prev
    -- 199-218
    let (minVel, maxVel) := softVel A L S L.maxVelocity pos
    -- 221-223
    let low := A.dadd pos (A.dmul minVel i.dt)
    let high := A.dadd pos (A.dmul maxVel i.dt)
    -- 225-230
    let (low, high) :=
      if L.hasPosition then (dmax low L.minPosition, dmin high L.maxPosition) else (low, high)
    -- 233-240
    some (saturate i.cmd low high)

/-! ### Effort -/

/-- joint_limits_interface.h 263-277 and 321-338: the constructors of the effort handles do not
throw. -/
def effortOk (L : JointLimits (Dbl K)) : Bool := L.hasVelocity && L.hasEffort

/-- joint_limits_interface.h 285-307: `EffortJointSaturationHandle::enforceLimits`. -/
def effSat (L : JointLimits (Dbl K)) (i : Input (Dbl K)) : Dbl K :=
  -- 287-288
  let minEff := A.dneg L.maxEffort
  let maxEff := L.maxEffort
  -- 290-297
  let (minEff, maxEff) :=
    if L.hasPosition then
      if dlt i.pos L.minPosition then (some A.zero, maxEff)
      else if dlt L.maxPosition i.pos then (minEff, some A.zero)
      else (minEff, maxEff)
    else (minEff, maxEff)
  -- 299-303
  let (minEff, maxEff) :=
    if dlt i.vel (A.dneg L.maxVelocity) then (some A.zero, maxEff)
    else if dlt L.maxVelocity i.vel then (minEff, some A.zero)
    else (minEff, maxEff)
  -- 305
  saturate i.cmd minEff maxEff

/-- joint_limits_interface.h 378-385: the effort bounds of the soft limits handle. -/
def effSoftBounds (L : JointLimits (Dbl K)) (S : SoftLimits (Dbl K)) (i : Input (Dbl K)) : Dbl K × Dbl K :=
  let (minVel, maxVel) := softVel A L S L.maxVelocity i.pos
  (saturate (A.dmul (A.dneg S.kVelocity) (A.dsub i.vel minVel)) (A.dneg L.maxEffort) L.maxEffort,
    saturate (A.dmul (A.dneg S.kVelocity) (A.dsub i.vel maxVel)) (A.dneg L.maxEffort) L.maxEffort)

/-- joint_limits_interface.h 348-392: `EffortJointSoftLimitsHandle::enforceLimits`. -/
def effSoft (L : JointLimits (Dbl K)) (S : SoftLimits (Dbl K)) (i : Input (Dbl K)) : Dbl K :=
  let (minEff, maxEff) := effSoftBounds A L S i
  saturate i.cmd minEff maxEff

/-! ### Velocity -/

/-- joint_limits_interface.h 407-416: the constructor of `VelocityJointSaturationHandle` does not
throw. -/
def velSatOk (L : JointLimits (Dbl K)) : Bool := L.hasVelocity

/-- joint_limits_interface.h 425-455: `VelocityJointSaturationHandle::enforceLimits`. `prev` is
`prev_cmd_` (initially zero), the result the new command, which also becomes `prev_cmd_`. `none` is
the failed assertion of line 435. -/
def velSat (L : JointLimits (Dbl K)) (prev : Dbl K) (i : Input (Dbl K)) : Option (Dbl K) :=
  if L.hasAcceleration then
    -- 435
    if !dlt (some A.zero) i.dt then none
    else
      -- 438-439
      let low := dmax (A.dsub prev (A.dmul L.maxAcceleration i.dt)) (A.dneg L.maxVelocity)
      let high := dmin (A.dadd prev (A.dmul L.maxAcceleration i.dt)) L.maxVelocity
      some (saturate i.cmd low high)
  else
    -- 443-444
    some (saturate i.cmd (A.dneg L.maxVelocity) L.maxVelocity)

/-- joint_limits_interface.h 474-477: the velocity limit of the soft limits handle. -/
def velSoftLimit (L : JointLimits (Dbl K)) : Dbl K := if L.hasVelocity then L.maxVelocity else some A.huge

/-- joint_limits_interface.h 488-517: `VelocityJointSoftLimitsHandle::enforceLimits`. -/
def velSoft (L : JointLimits (Dbl K)) (S : SoftLimits (Dbl K)) (i : Input (Dbl K)) : Dbl K :=
  -- 492-506
  let (minVel, maxVel) := softVel A L S (velSoftLimit A L) i.pos
  -- 508-514
  let (minVel, maxVel) :=
    if L.hasAcceleration then
      (dmax (A.dsub i.vel (A.dmul L.maxAcceleration i.dt)) minVel,
        dmin (A.dadd i.vel (A.dmul L.maxAcceleration i.dt)) maxVel)
    else (minVel, maxVel)
  -- 516
  saturate i.cmd minVel maxVel

/-! ### Histories -/

/-- Calls on a handle: enforce, or reset (joint_limits_interface.h 117-119, 246-248). -/
inductive Call (F : Type)
  | enforce (i : Input F)
  | reset

/-- One enforcement as an observer sees it: what the previous command counts as (the measured
position at the first call and after a reset), the input, and the command written. -/
structure Record (F : Type) where
  ref : F
  input : Input F
  out : F
  deriving DecidableEq

/-- A history of a `PositionJointSaturationHandle`; `prev` is `prev_cmd_`. -/
def posSatRun (L : JointLimits (Dbl K)) : Dbl K → List (Call (Dbl K)) → List (Record (Dbl K))
  | _, [] => []
  | _, .reset :: cs => posSatRun L none cs
  | prev, .enforce i :: cs =>
    ⟨if prev.isNone then i.pos else prev, i, posSat A L prev i⟩ :: posSatRun L (posSat A L prev i) cs

/-- A history of a `PositionJointSoftLimitsHandle`, up to a failed assertion. -/
def posSoftRun (L : JointLimits (Dbl K)) (S : SoftLimits (Dbl K)) :
    Dbl K → List (Call (Dbl K)) → List (Record (Dbl K))
  | _, [] => []
  | _, .reset :: cs => posSoftRun L S none cs
  | prev, .enforce i :: cs =>
    match posSoft A L S prev i with
    | none => []
    | some out => ⟨if prev.isNone then i.pos else prev, i, out⟩ :: posSoftRun L S out cs

/-- A history of a `VelocityJointSaturationHandle`, up to a failed assertion. -/
def velSatRun (L : JointLimits (Dbl K)) : Dbl K → List (Input (Dbl K)) → List (Record (Dbl K))
  | _, [] => []
  | prev, i :: is =>
    match velSat A L prev i with
    | none => []
    | some out => ⟨prev, i, out⟩ :: velSatRun L out is

end Verif.Limits
