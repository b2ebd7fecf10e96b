import Verif.Model.Value

/-
How much room values take in a buffer.
-/
namespace Dart

/-- The unit a value is stored in multiples of: 2, 4 or 8 bytes for an integer, whichever is the least it fits in, 4 for
a number that is a `float`, 8 for other numbers, 4 for strings above 65535 bytes, 2 for other strings. -/
def Val.unit : Val → Nat
  | .null => 1
  | .bool _ => 1
  | .int i =>
    if -2 ^ 15 ≤ i.toInt ∧ i.toInt < 2 ^ 15 then 2 else if -2 ^ 31 ≤ i.toInt ∧ i.toInt < 2 ^ 31 then 4 else 8
  | .dec d => if (narrowBits d.toNat).isSome then 4 else 8
  | .str s => if s.length < 2 ^ 16 then 2 else 4
  | .arr _ => 8
  | .obj _ => 8

/-- The first multiple of `u` from `n` on. -/
def upTo (n u : Nat) : Nat := if n % u = 0 then n else n + (u - n % u)

mutual
/-- The room a value takes: a null none, a boolean and a number its unit, a string its length, its characters and a NUL,
an array two words and one for each element and the elements, an object the same with the keys, filled up to a word. -/
def Val.room : Val → Nat
  | .null => 0
  | .str s => (Val.str s).unit + s.length + 1
  | .arr es => roomElems (8 + 8 * es.length) es
  | .obj fs => upTo (roomFields (8 + 8 * fs.length) fs) 8
  | v => v.unit
/-- Where the elements end that begin at `off` or later. -/
def roomElems : Nat → List Val → Nat
  | off, [] => off
  | off, v :: es => roomElems (upTo off v.unit + v.room) es
/-- Where the fields end. -/
def roomFields : Nat → List (Bytes × Val) → Nat
  | off, [] => off
  | off, (k, v) :: fs => roomFields (upTo (upTo off 2 + (2 + k.length + 1)) v.unit + v.room) fs
end

end Dart
