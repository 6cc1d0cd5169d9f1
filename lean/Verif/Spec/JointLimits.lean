import Verif.Model.JointLimits
import Mathlib.Algebra.Order.Ring.Defs

/-!
Vocabulary for the properties of the joint limit enforcers.
-/

namespace Verif.Limits

variable {K : Type} [LinearOrder K]

/-- Limits none of which is NaN. -/
def JointLimits.lift (L : JointLimits K) : JointLimits (Dbl K) :=
  { minPosition := some L.minPosition, maxPosition := some L.maxPosition
    maxVelocity := some L.maxVelocity, maxAcceleration := some L.maxAcceleration
    maxEffort := some L.maxEffort
    hasPosition := L.hasPosition, hasVelocity := L.hasVelocity
    hasAcceleration := L.hasAcceleration, hasEffort := L.hasEffort }

/-- Soft limits none of which is NaN. -/
def SoftLimits.lift (S : SoftLimits K) : SoftLimits (Dbl K) :=
  ⟨some S.minPosition, some S.maxPosition, some S.kPosition, some S.kVelocity⟩

/-- An input without NaN. -/
def Input.lift (i : Input K) : Input (Dbl K) := ⟨some i.cmd, some i.pos, some i.vel, some i.dt⟩

/-- What is needed of floating point arithmetic. `Fin` are the finite numbers. Rounding and overflow
to infinity are allowed; adding something nonnegative must not make a number smaller, and so on.
Rounded arithmetic with a monotone rounding function has these properties. -/
structure Sound (A : Arith K) (Fin : K → Prop) : Prop where
  mul_nonneg : ∀ a b, Fin a → Fin b → A.zero ≤ a → A.zero ≤ b → ∃ c, A.mul a b = some c ∧ A.zero ≤ c
  add_ge : ∀ p d, Fin p → A.zero ≤ d → ∃ y, A.add p d = some y ∧ p ≤ y
  sub_le : ∀ p d, Fin p → A.zero ≤ d → ∃ y, A.sub p d = some y ∧ y ≤ p
  neg_nonpos : ∀ a, A.zero ≤ a → A.neg a ≤ A.zero
  fin_between : ∀ a b x, Fin a → Fin b → a ≤ x → x ≤ b → Fin x
  fin_neg : ∀ a, Fin a → Fin (A.neg a)
  fin_zero : Fin A.zero
  fin_huge : Fin A.huge

/-- More of what floating point arithmetic satisfies: operations are monotone and keep signs, and give NaN only for infinite
operands. -/
structure Regular (A : Arith K) (Fin : K → Prop) : Prop extends Sound A Fin where
  neg_anti : ∀ a b, a ≤ b → A.neg b ≤ A.neg a
  neg_zero : A.neg A.zero = A.zero
  sub_sign : ∀ a b, Fin a → Fin b → ∃ c, A.sub a b = some c ∧ (b ≤ a → A.zero ≤ c) ∧ (a ≤ b → c ≤ A.zero)
  mul_sign : ∀ k d, Fin k → A.zero < k → ∃ c, A.mul (A.neg k) d = some c ∧ (A.zero ≤ d → c ≤ A.zero) ∧ (d ≤ A.zero → A.zero ≤ c)
  mul_nonpos : ∀ a t, Fin a → Fin t → a ≤ A.zero → A.zero ≤ t → ∃ c, A.mul a t = some c ∧ c ≤ A.zero
  add_le : ∀ p d, Fin p → d ≤ A.zero → ∃ y, A.add p d = some y ∧ y ≤ p
  mul_mono : ∀ a b t, Fin a → Fin b → Fin t → A.zero ≤ t → a ≤ b →
    ∃ x y, A.mul a t = some x ∧ A.mul b t = some y ∧ x ≤ y
  add_mono : ∀ p a b, Fin p → a ≤ b → ∃ x y, A.add p a = some x ∧ A.add p b = some y ∧ x ≤ y

/-- The position range in force: the limits, or everything. -/
def range (A : Arith K) (L : JointLimits K) : K × K :=
  if L.hasPosition then (L.minPosition, L.maxPosition) else (A.neg A.huge, A.huge)

/-- The number lies in the range. -/
def InRange (r : K × K) (x : K) : Prop := r.1 ≤ x ∧ x ≤ r.2

/-- Whenever the enforcer takes the measured position as its reference, that position satisfies `P`.
This happens at the first call, after a reset, and after a NaN command. `fresh` says that the next
call is such a call. -/
def StartsIn (P : K → Prop) : Bool → List (Call (Dbl K)) → Prop
  | _, [] => True
  | _, .reset :: cs => StartsIn P true cs
  | fresh, .enforce i :: cs => (fresh = true → ∃ p, i.pos = some p ∧ P p) ∧ StartsIn P i.cmd.isNone cs

/-- Every period of the history satisfies `P`. -/
def Periods (P : K → Prop) (cs : List (Call (Dbl K))) : Prop :=
  ∀ i, Call.enforce i ∈ cs → ∃ t, i.dt = some t ∧ P t

/-- The inputs of the enforcements of a history. -/
def inputs (cs : List (Call (Dbl K))) : List (Input (Dbl K)) :=
  cs.filterMap fun | .enforce i => some i | .reset => none

/-- The order part of "at most `x` away from `p`", with the bounds as the arithmetic computes
them. -/
def Within (A : Arith K) (p d o : K) : Prop :=
  ∃ x y, A.sub p d = some x ∧ A.add p d = some y ∧ x ≤ o ∧ o ≤ y

end Verif.Limits
