/-
What IEEE 754 bit patterns mean, independent of the model.
-/
namespace Dart.Spec

/-- The mathematical value of a floating point number; finite values are integers in units of
2^-1074, so both zeros are the same value. -/
inductive FVal
  | nan
  | inf (negative : Bool)
  | finite (units : Int)

/-- Apply a sign bit. -/
def signed (s : Nat) (n : Nat) : Int := if s = 0 then (n : Int) else -(n : Int)

/-- Value of a binary64 bit pattern. -/
def doubleVal (d : Nat) : FVal :=
  let s := d / 2 ^ 63
  let e := d / 2 ^ 52 % 2 ^ 11
  let m := d % 2 ^ 52
  if e = 2047 then (if m = 0 then .inf (s != 0) else .nan)
  else .finite (signed s (if e = 0 then m else (2 ^ 52 + m) * 2 ^ (e - 1)))

/-- Value of a binary32 bit pattern (units of 2^-149, hence the factor 2^925). -/
def floatVal (f : Nat) : FVal :=
  let s := f / 2 ^ 31
  let e := f / 2 ^ 23 % 2 ^ 8
  let m := f % 2 ^ 23
  if e = 255 then (if m = 0 then .inf (s != 0) else .nan)
  else .finite (signed s ((if e = 0 then m else (2 ^ 23 + m) * 2 ^ (e - 1)) * 2 ^ 925))

end Dart.Spec
