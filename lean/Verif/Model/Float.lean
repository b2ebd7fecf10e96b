import Verif.Model.Value

/-
Arithmetic on `double` as the compiled code performs it (IEEE 754 binary64, round to nearest, ties to even), on bit
patterns. The payload and sign of a NaN result are not modelled: it is always the same NaN.
-/
namespace Dart

/-- `num / d` rounded to a whole number, halves to even. -/
def halfEven (num d : Nat) : Nat :=
  if 2 * (num % d) < d then num / d
  else if d < 2 * (num % d) then num / d + 1
  else num / d + num / d % 2

/-- The bits of the non-negative double nearest to `num / den` units of 2^-1074: shift right until 53
bits are left, round. A carry out of the significand increments the exponent; beyond the largest finite
number the result is infinity. -/
def roundPos (num den : Nat) : Nat :=
  let s := Nat.log2 (num / den) - 52
  min (s * 2 ^ 52 + halfEven num (den * 2 ^ s)) (2047 * 2 ^ 52)

/-- Rounding with a sign. -/
def roundTo (neg : Bool) (num den : Nat) : BitVec 64 :=
  BitVec.ofNat 64 ((if neg then 2 ^ 63 else 0) + roundPos num den)

/-- The NaN that stands for all NaN results. -/
def nanBits : BitVec 64 := 0x7ff8000000000000#64

/-- Infinity. -/
def infBits (neg : Bool) : BitVec 64 := if neg then 0xfff0000000000000#64 else 0x7ff0000000000000#64

/-- A double taken apart. -/
inductive FClass
  | nan
  | inf (neg : Bool)
  /-- sign and magnitude in units of 2^-1074 -/
  | fin (neg : Bool) (mag : Nat)
  deriving DecidableEq, Repr

/-- Take a bit pattern apart. -/
def classify (d : BitVec 64) : FClass :=
  let e := d.toNat / 2 ^ 52 % 2 ^ 11
  let m := d.toNat % 2 ^ 52
  let neg := decide (2 ^ 63 ≤ d.toNat)
  if e = 2047 then (if m = 0 then .inf neg else .nan)
  else .fin neg (if e = 0 then m else (2 ^ 52 + m) * 2 ^ (e - 1))

/-- The signed magnitude. -/
def signedMag (neg : Bool) (mag : Nat) : Int := if neg then -(mag : Int) else mag

/-- `a + b`. An exact zero is negative only if both operands are negative. -/
def fadd (a b : BitVec 64) : BitVec 64 :=
  match classify a, classify b with
  | .nan, _ => nanBits
  | _, .nan => nanBits
  | .inf s, .inf t => if s = t then infBits s else nanBits
  | .inf s, _ => infBits s
  | _, .inf t => infBits t
  | .fin s x, .fin t y =>
    let z := signedMag s x + signedMag t y
    if z = 0 then roundTo (s && t) 0 1 else roundTo (decide (z < 0)) z.natAbs 1

/-- `-a`: the sign bit flipped (adding it does that, the carry is lost). -/
def fneg (a : BitVec 64) : BitVec 64 := a + 0x8000000000000000#64

/-- `a - b`. -/
def fsub (a b : BitVec 64) : BitVec 64 := fadd a (fneg b)

/-- `a * b`. -/
def fmul (a b : BitVec 64) : BitVec 64 :=
  match classify a, classify b with
  | .nan, _ => nanBits
  | _, .nan => nanBits
  | .inf s, .inf t => infBits (s != t)
  | .inf s, .fin t y => if y = 0 then nanBits else infBits (s != t)
  | .fin s x, .inf t => if x = 0 then nanBits else infBits (s != t)
  | .fin s x, .fin t y => roundTo (s != t) (x * y) (2 ^ 1074)

/-- `a / b`. -/
def fdiv (a b : BitVec 64) : BitVec 64 :=
  match classify a, classify b with
  | .nan, _ => nanBits
  | _, .nan => nanBits
  | .inf _, .inf _ => nanBits
  | .inf s, .fin t _ => infBits (s != t)
  | .fin s _, .inf t => roundTo (s != t) 0 1
  | .fin s x, .fin t y =>
    if y = 0 then (if x = 0 then nanBits else infBits (s != t)) else roundTo (s != t) (x * 2 ^ 1074) y

/-- `static_cast<double>` of an integer (of any integral type). -/
def intToDouble (i : Int) : BitVec 64 := roundTo (decide (i < 0)) (i.natAbs * 2 ^ 1074) 1

end Dart
