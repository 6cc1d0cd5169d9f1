import Verif.Model.JointLimits
import Verif.Model.Containers
import Mathlib.Data.String.Basic

/-!
The joint limit handles as objects, and the interfaces that hold them:
joint_limits_interface/include/joint_limits_interface/joint_limits_interface.h.

The handles read and write variables of the robot hardware through pointers
(hardware_interface/joint_state_interface.h 167-168, joint_command_interface.h 60-61). Here these
variables are cells numbered by their addresses, so that two handles may share a variable. Null
pointers are left out: the constructors of joint handles reject them (joint_command_interface.h
50-58). Default constructed handles are left out as well.
-/

namespace Verif.Limits

/-- The six handle classes, joint_limits_interface.h 63, 160, 260, 316, 402 and 465. -/
inductive Kind
  | posSat | posSoft | effSat | effSoft | velSat | velSoft
  deriving DecidableEq, Repr

/-- The variables the handles point to, by address. -/
abbrev Cells (K : Type) := Nat → Dbl K

/-- A `JointHandle`: its name and the addresses of the position, the velocity and the command,
hardware_interface/joint_state_interface.h 215-217 and joint_command_interface.h 65. -/
structure Joint where
  name : String
  pos : Nat
  vel : Nat
  cmd : Nat
  deriving DecidableEq, Repr

/-- A handle object: the joint handle, the limits, the soft limits (ignored by the saturation
handles), and `prev_cmd_` (ignored by the handles that have none). -/
structure Limiter (K : Type) where
  joint : Joint
  limits : JointLimits (Dbl K)
  soft : SoftLimits (Dbl K)
  prev : Dbl K

variable {K : Type} [LinearOrder K] (A : Arith K)

/-- Whether the constructor returns: joint_limits_interface.h 66-80 (never throws), 165-178, 263-277,
321-338, 407-416, 466-478 (never throws). -/
def Kind.accepts (k : Kind) (L : JointLimits (Dbl K)) : Bool :=
  match k with
  | .posSat => true
  | .posSoft => posSoftOk L
  | .effSat => effortOk L
  | .effSoft => effortOk L
  | .velSat => velSatOk L
  | .velSoft => true

/-- The initializer of `prev_cmd_`: joint_limits_interface.h 126 and 255 (NaN), 461 (zero). -/
def Kind.initial (k : Kind) : Dbl K :=
  match k with
  | .velSat => some A.zero
  | _ => none

/-- The constructors. `none` is the thrown `JointLimitsInterfaceException`. -/
def mkLimiter (k : Kind) (j : Joint) (L : JointLimits (Dbl K)) (S : SoftLimits (Dbl K)) : Option (Limiter K) :=
  if k.accepts L then some ⟨j, L, S, k.initial A⟩ else none

/-- The command each class computes; `none` is a failed assertion. -/
def Kind.limit (k : Kind) (L : JointLimits (Dbl K)) (S : SoftLimits (Dbl K)) (prev : Dbl K) (i : Input (Dbl K)) :
    Option (Dbl K) :=
  match k with
  | .posSat => some (Verif.Limits.posSat A L prev i)
  | .posSoft => Verif.Limits.posSoft A L S prev i
  | .effSat => some (Verif.Limits.effSat A L i)
  | .effSoft => some (Verif.Limits.effSoft A L S i)
  | .velSat => Verif.Limits.velSat A L prev i
  | .velSoft => some (Verif.Limits.velSoft A L S i)

/-- What the getters of the joint handle give: hardware_interface/joint_state_interface.h 167-168,
joint_command_interface.h 61. -/
def Limiter.input (h : Limiter K) (m : Cells K) (dt : Dbl K) : Input (Dbl K) :=
  ⟨m h.joint.cmd, m h.joint.pos, m h.joint.vel, dt⟩

/-- `enforceLimits` of a handle: the command is written through the pointer
(joint_command_interface.h 60), and kept as `prev_cmd_` by the classes that have one
(joint_limits_interface.h 109-111, 233-240, 447-454). -/
def Limiter.enforce (k : Kind) (h : Limiter K) (dt : Dbl K) (m : Cells K) : Option (Limiter K × Cells K) :=
  match k.limit A h.limits h.soft h.prev (h.input m dt) with
  | none => none
  | some out => some ({ h with prev := out }, fun a => if a = h.joint.cmd then out else m a)

/-- joint_limits_interface.h 117-119 and 246-248: `reset` of the position handles. -/
def Limiter.reset (h : Limiter K) : Limiter K := { h with prev := none }

/-- A `JointLimitsInterface`: its `resource_map_`
(hardware_interface/internal/resource_manager.h 147-148). -/
abbrev LimitsIface (K : Type) := List (String × Limiter K)

/-- hardware_interface/internal/resource_manager.h 93-106: `registerHandle`; a handle of the same name
is replaced. The handle is copied. -/
def registerLimiter (h : Limiter K) (s : LimitsIface K) : LimitsIface K := smapInsert h.joint.name h s

/-- joint_limits_interface.h 539-550: `getHandle`. The handle is returned by value; `none` is the
`JointLimitsInterfaceException`. -/
def getLimiter (n : String) (s : LimitsIface K) : Option (Limiter K) := smapFind n s

/-- joint_limits_interface.h 555-561: `enforceLimits` of an interface, in the order of the map. `none`
is a failed assertion, which ends the program. -/
def enforceAll (k : Kind) (dt : Dbl K) : LimitsIface K → Cells K → Option (LimitsIface K × Cells K)
  | [], m => some ([], m)
  | (n, h) :: t, m =>
    match h.enforce A k dt m with
    | none => none
    | some (h', m') =>
      match enforceAll k dt t m' with
      | none => none
      | some (t', m'') => some ((n, h') :: t', m'')

/-- joint_limits_interface.h 571-577 and 587-593: `reset` of the two position interfaces. The other
interfaces have no such method: there the call does not compile, and is taken to do nothing. -/
def resetAll (k : Kind) (s : LimitsIface K) : LimitsIface K :=
  match k with
  | .posSat | .posSoft => s.map fun (n, h) => (n, h.reset)
  | _ => s

/-- What a program does with an interface, and what happens to the variables in between (`world`: the
hardware writes measurements, the controllers write commands). `resetHandle n` is
`interface.getHandle(n).reset()`. -/
inductive IfCall (K : Type)
  | register (h : Limiter K)
  | enforce (dt : Dbl K)
  | reset
  | resetHandle (n : String)
  | world (m : Cells K)

/-- What an observer sees: resets of the interface, and enforcements with the period and the variables
before and after. -/
inductive IfEvent (K : Type)
  | reset
  | enforced (dt : Dbl K) (before after : Cells K)

/-- A history of an interface, up to a failed assertion or an uncaught exception. -/
def ifRun (k : Kind) : List (IfCall K) → LimitsIface K → Cells K → List (IfEvent K)
  | [], _, _ => []
  | .register h :: cs, s, m => ifRun k cs (registerLimiter h s) m
  | .reset :: cs, s, m => .reset :: ifRun k cs (resetAll k s) m
  | .resetHandle n :: cs, s, m =>
    match getLimiter n s with
    | none => []
    | some h =>
      -- The copy is reset, and dropped.
      let _copy := h.reset
      ifRun k cs s m
  | .world m :: cs, s, _ => ifRun k cs s m
  | .enforce dt :: cs, s, m =>
    match enforceAll A k dt s m with
    | none => []
    | some (s', m') => .enforced dt m m' :: ifRun k cs s' m'

end Verif.Limits
