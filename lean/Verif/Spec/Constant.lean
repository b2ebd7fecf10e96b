import Verif.Spec.Native

namespace Dart.Spec

/-- The value of an integral constant: a boolean, or an integer of an integral type. -/
def Constant (c : Native) : Prop := ((∃ b, c = .bool b) ∨ ∃ t x, c = .int t x) ∧ Possible c

/-- What a packet has to hold to be the constant: that boolean, or that integer (modulo 2^64, which matters for
`uint64_t` only: larger numbers than 2^63 - 1 are stored as negative ones). -/
def Holds : Val → Native → Prop
  | .bool a, .bool b => a = b
  | .int i, .int _ x => i.toInt = x.bmod (2 ^ 64)
  | _, _ => False

/-- The packet is the decimal with the value of the constant. -/
def HoldsAsDecimal : Val → Native → Prop
  | .dec d, .int _ x => IsInt d.toNat x
  | _, _ => False

end Dart.Spec
