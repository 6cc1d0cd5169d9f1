import Verif.Model.JointLimits
import Mathlib.Data.Rat.Defs
import Mathlib.Algebra.Order.Field.Rat
import Mathlib.Algebra.Order.Group.Abs
import Mathlib.Algebra.Order.Field.Power
import Mathlib.Tactic.Ring
import Mathlib.Tactic.Positivity

/-!
The arithmetic of `double` on which joint_limits_interface/include/joint_limits_interface/joint_limits_interface.h 53-517
computes: binary floating point as in IEEE 754, rounded to nearest, with subnormal numbers, overflow, infinities and NaN.

An infinity is represented by the first power of two that is too large. This is how IEEE 754 defines overflow: a
result is rounded as if there were one more exponent, and becomes infinite if it does not fit. What happens with a
result exactly between two numbers is left open. The sign of zero is not represented.
-/

namespace Verif.Limits

/-- A binary format: `prec` bits, and the least and greatest exponent of the last bit. -/
structure Format where
  prec : ℕ
  emin : ℤ
  emax : ℤ

/-- IEEE 754 binary64, the C++ type `double`. -/
def binary64 : Format := ⟨53, -1074, 971⟩

namespace Format

variable (f : Format)

/-- The finite numbers. -/
def Finite (x : ℚ) : Prop := ∃ m e : ℤ, |m| < 2 ^ f.prec ∧ f.emin ≤ e ∧ e ≤ f.emax ∧ x = m * 2 ^ e

/-- What stands for infinity. -/
def inf : ℚ := 2 ^ f.prec * 2 ^ f.emax

/-- `std::numeric_limits<double>::max()`. -/
def max : ℚ := (2 ^ f.prec - 1) * 2 ^ f.emax

/-- The numbers including the infinities. -/
def Number (x : ℚ) : Prop := f.Finite x ∨ |x| = f.inf

end Format

/-- A floating point number that is not NaN. -/
abbrev Fl (f : Format) := {x : ℚ // f.Number x}

/-- Rounding to nearest. -/
structure Rounding (f : Format) where
  rnd : ℚ → Fl f
  nearest : ∀ x (y : Fl f), |x - (rnd x).1| ≤ |x - y.1|

namespace Fl

variable {f : Format}

/-- The number is infinite. -/
def isInf (a : Fl f) : Bool := |a.1| = f.inf

theorem number_neg {x : ℚ} (h : f.Number x) : f.Number (-x) := by
  rcases h with ⟨m, e, h1, h2, h3, rfl⟩ | h
  · exact Or.inl ⟨-m, e, by rwa [abs_neg], h2, h3, by push_cast; ring⟩
  · exact Or.inr (by rwa [abs_neg])

/-- `-a`: the sign is changed. -/
def neg (a : Fl f) : Fl f := ⟨-a.1, number_neg a.2⟩

/-- Zero. -/
def zero (h : f.emin ≤ f.emax) : Fl f := ⟨0, Or.inl ⟨0, f.emin, by simp, le_refl _, h, by simp⟩⟩

/-- `std::numeric_limits<double>::max()`. -/
def huge (h : f.emin ≤ f.emax) : Fl f :=
  ⟨f.max, Or.inl ⟨2 ^ f.prec - 1, f.emax, by
    have : (0 : ℤ) < 2 ^ f.prec := by positivity
    rw [abs_of_nonneg (by omega)]
    omega, h, le_refl _, by simp [Format.max]⟩⟩

/-- `a + b`: the difference of two infinities is NaN. -/
def add (R : Rounding f) (a b : Fl f) : Option (Fl f) :=
  if a.isInf then (if b.isInf && decide (b ≠ a) then none else some a)
  else if b.isInf then some b
  else some (R.rnd (a.1 + b.1))

/-- Infinity. -/
def infinity : Fl f := ⟨f.inf, Or.inr (abs_of_nonneg (by unfold Format.inf; positivity))⟩

/-- `a * b`: zero times infinity is NaN. -/
def mul (R : Rounding f) (a b : Fl f) : Option (Fl f) :=
  if a.isInf || b.isInf then
    (if a.1 * b.1 = 0 then none else if 0 < a.1 * b.1 then some infinity else some (neg infinity))
  else some (R.rnd (a.1 * b.1))

end Fl

/-- The arithmetic of a floating point format. -/
def Arith.ieee {f : Format} (R : Rounding f) (h : f.emin ≤ f.emax) : Arith (Fl f) where
  add := Fl.add R
  sub a b := Fl.add R a (Fl.neg b)
  mul := Fl.mul R
  neg := Fl.neg
  zero := Fl.zero h
  huge := Fl.huge h

end Verif.Limits
