import Verif.Spec.Arith
import Verif.Spec.Native

/-
Rounding doubles to single precision, by its meaning.
-/
namespace Dart.Spec

/-- Half a unit beyond the largest finite `float` (in units of 2^-1074): from here on rounding overflows. -/
def floatOverflow : Nat := 2 ^ 925 * ((2 ^ 25 - 1) * 2 ^ 252)

/-- The sign bit of a `float`. -/
def floatNegBit (f : Nat) : Bool := f / 2 ^ 31 % 2 == 1

/-- The `float` with bits `f` is the double with bits `d`, rounded as IEEE 754 says: to the nearest `float`, of two equally
near ones to the one with an even last bit, and to infinity beyond the range. The sign is kept, also that of zero. -/
def IsFloatOf (d f : Nat) : Prop :=
  match doubleVal d with
  | .nan => floatVal f = .nan
  | .inf s => floatVal f = .inf s
  | .finite x => floatNegBit f = negBit d ∧
    (x.natAbs < floatOverflow → ∃ y, floatVal f = .finite y ∧ ∀ f' y', floatVal f' = .finite y' →
      dist y x ≤ dist y' x ∧ (dist y x = dist y' x → y' = y ∨ f % 2 = 0)) ∧
    (floatOverflow ≤ x.natAbs → floatVal f = .inf (negBit d))

/-- A packet holds the number that the `float` with bits `f` is. -/
def SameAsFloat : Val → Nat → Prop
  | .int i, f => floatVal f = .finite (i.toInt * 2 ^ 1074)
  | .dec d, f => doubleVal d.toNat = floatVal f ∧ floatVal f ≠ .nan
  | _, _ => False

end Dart.Spec
