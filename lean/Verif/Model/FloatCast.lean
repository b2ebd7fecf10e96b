import Verif.Model.Float
import Verif.Model.Container

/-
The type `float` (IEEE 754 binary32) in conversions and comparisons: include/dart/conversion_traits.h 840-847, 971-980,
1088-1096. Bit patterns; which NaN it is (payload, signalling or quiet) is not modelled.

The standard leaves the conversion of a `double` beyond the range of `float` undefined; this is what implementations with
IEEE 754 arithmetic do.
-/
namespace Dart.F32

/-- The bits of the non-negative `float` nearest to `num / den` units of 2^-149: as `Dart.roundPos` with 24 bits. -/
def roundPos (num den : Nat) : Nat :=
  let s := Nat.log2 (num / den) - 23
  min (s * 2 ^ 23 + halfEven num (den * 2 ^ s)) (255 * 2 ^ 23)

/-- `static_cast<float>` of a double. Its units are 2^-1074. -/
def ofDouble (d : BitVec 64) : BitVec 32 :=
  match classify d with
  | .nan => 0x7fc00000#32
  | .inf s => if s then 0xff800000#32 else 0x7f800000#32
  | .fin s mag => BitVec.ofNat 32 ((if s then 2 ^ 31 else 0) + roundPos mag (2 ^ 925))

/-- The implicit conversion of a `float` to `double`. -/
def toDouble (f : BitVec 32) : BitVec 64 := BitVec.ofNat 64 (widenBits f.toNat)

/-- A packet from a `float`: `incoming_caster<decimal_tag>`, include/dart/conversion_traits.h 840-847. The parameter is a
`double`. -/
def toDart (f : BitVec 32) : Val := .dec (toDouble f)

/-- `as<float>()`: `outgoing_caster<decimal_tag>`, include/dart/conversion_traits.h 971-980. -/
def fromDart (p : Pkt) : Res (BitVec 32) :=
  if p.getType = .decimal then p.decimal.bind fun d => .ok (ofDouble d) else .throw .typeError

/-- `packet == float`: `compare_impl<decimal_tag>`, include/dart/conversion_traits.h 1088-1096. The parameter is a
`double`. -/
def compare (p : Pkt) (f : BitVec 32) : Res Bool := p.eqNative (.dbl (toDouble f))

end Dart.F32
