import Verif.Model.Native
import Verif.Spec.Arith
import Verif.Spec.Equal

/-
Native types by their meaning.
-/
namespace Dart.Spec

/-- `x` is a value of the integral type `t`. -/
def InRange (t : IntTy) (x : Int) : Prop :=
  if t.sgn then -2 ^ (t.bits - 1) ≤ x ∧ x < 2 ^ (t.bits - 1) else 0 ≤ x ∧ x < 2 ^ t.bits

/-- A native value that can exist: integers have between 1 and 64 bits and are in range. -/
def Possible : Native → Prop
  | .int t x => 1 ≤ t.bits ∧ t.bits ≤ 64 ∧ InRange t x
  | _ => True

/-- The type of a native value. -/
def typeOf : Native → NativeTy
  | .null => .null
  | .bool _ => .bool
  | .int t _ => .int t
  | .dbl _ => .dbl
  | .str _ => .str

/-- A number packet and a native number are the same number. -/
def SameNumber : Val → Native → Prop
  | .int i, .int _ x => i.toInt = x
  | .int i, .dbl e => IsInt e.toNat i.toInt
  | .dec d, .int _ x => IsInt d.toNat x
  | .dec d, .dbl e => NumEq d e
  | _, _ => False

/-- The integers, on either side, are at most 2^53 in magnitude. -/
def Moderate : Val → Native → Prop
  | .int i, .int _ x => i.toInt.natAbs ≤ 2 ^ 53 ∧ x.natAbs ≤ 2 ^ 53
  | .int i, _ => i.toInt.natAbs ≤ 2 ^ 53
  | _, .int _ x => x.natAbs ≤ 2 ^ 53
  | _, _ => True

end Dart.Spec
