import Verif.Model.Transmission
import Verif.Model.Double

/-!
The arithmetic of `double` for the maps of the transmissions (transmission_interface/include/transmission_interface:
simple_transmission.h 197-270, differential_transmission.h 269-381, four_bar_linkage_transmission.h 246-355).

Numbers and rounding are those of Double.lean; here the division is added, and the operations are extended to NaN, so
that the maps of Transmission.lean can be run on doubles. Every operation is rounded on its own: a compiler that
contracts a product and a sum to one operation (on processors that have one), or that evaluates with excess precision,
is not modelled.
-/

namespace Verif.Limits

/-- Rounding, and the sign of the infinity that the division of a number by zero gives. The sign of zero is not
represented, so it is left open. -/
structure Machine (f : Format) extends Rounding f where
  sign : Fl f → Bool

namespace Fl

variable {f : Format}

/-- `a / b` of IEEE 754, as the maps of simple_transmission.h 197-270 use it: NaN for `0 / 0` and for two infinities, an
infinity for another division by zero or of an infinity, zero for the division by an infinity. -/
def div (A : Machine f) (a b : Fl f) : Option (Fl f) :=
  if a.isInf && b.isInf then none
  else if b.isInf then some (A.rnd 0)
  else if b.1 = 0 then
    (if a.1 = 0 then none else some (if A.sign a then neg infinity else infinity))
  else if a.isInf then some (if 0 < a.1 / b.1 then infinity else neg infinity)
  else some (A.rnd (a.1 / b.1))

end Fl

/-- The values of type `double` of simple_transmission.h 182-183 and the other members: a number, or NaN (`none`). -/
def Flt {f : Format} (_ : Machine f) := Option (Fl f)

namespace Flt

variable {f : Format} {A : Machine f}

/-- A number as a value of type `double`, e.g. the member of simple_transmission.h 182. -/
def fl (d : Fl f) : Flt A := some d

/-- An operation gives NaN if one of the operands is NaN (IEEE 754; e.g. simple_transmission.h 221). -/
def lift (op : Fl f → Fl f → Option (Fl f)) (a b : Flt A) : Flt A :=
  match a, b with
  | some a, some b => op a b
  | _, _ => none

/-- `a + b`, e.g. simple_transmission.h 221. -/
instance : Add (Flt A) := ⟨lift (Fl.add A.toRounding)⟩

/-- `a - b`, e.g. simple_transmission.h 269. -/
instance : Sub (Flt A) := ⟨lift fun a b => Fl.add A.toRounding a (Fl.neg b)⟩

/-- `a * b`, e.g. simple_transmission.h 203. -/
instance : Mul (Flt A) := ⟨lift (Fl.mul A.toRounding)⟩

/-- `a / b`, e.g. simple_transmission.h 212. -/
instance : Div (Flt A) := ⟨lift (Fl.div A)⟩

/-- The constant `2.0` of differential_transmission.h 291. -/
instance : OfNat (Flt A) 2 := ⟨fl (A.rnd 2)⟩

/-- The constant `0.0` of simple_transmission.h 190. -/
instance : OfNat (Flt A) 0 := ⟨fl (A.rnd 0)⟩

/-- The constant `1.0`: the reduction of a joint that has none, differential_transmission_loader.cpp 221, four_bar_linkage_transmission_loader.cpp 217. -/
instance : OfNat (Flt A) 1 := ⟨fl (A.rnd 1)⟩

/-- The comparison `0.0 == x` of simple_transmission.h 190; NaN is different from zero. -/
instance : DecidableEq (Flt A) := inferInstanceAs (DecidableEq (Option (Fl f)))

end Flt

end Verif.Limits
