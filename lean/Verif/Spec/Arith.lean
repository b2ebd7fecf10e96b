import Verif.Spec.Float

/-
Arithmetic on floating point numbers, by its meaning.
-/
namespace Dart.Spec

/-- The distance of two integers. -/
def dist (a b : Int) : Nat := (a - b).natAbs

/-- The double with bits `d` is finite, and none is nearer to the rational number `num / den` (in units of
2^-1074). -/
def Nearest (num : Int) (den : Nat) (d : Nat) : Prop :=
  ∃ y, doubleVal d = .finite y ∧
    ∀ d' y', doubleVal d' = .finite y' → dist (den * y) num ≤ dist (den * y') num

/-- The double with bits `d` is the whole number `n`. -/
def IsInt (d : Nat) (n : Int) : Prop := doubleVal d = .finite (n * 2 ^ 1074)

/-- The four operations. -/
inductive Operation
  | plus | minus | times | over
  deriving DecidableEq

/-- `x op y` exactly, as a fraction; all in units of 2^-1074. Nothing for a division by zero. -/
def exact : Operation → Int → Int → Option (Int × Nat)
  | .plus, x, y => some (x + y, 1)
  | .minus, x, y => some (x - y, 1)
  | .times, x, y => some (x * y, 2 ^ 1074)
  | .over, x, y => if y = 0 then none else some (x * 2 ^ 1074 * y.sign, y.natAbs)

/-- The magnitude of the largest finite double. -/
def largest : Nat := (2 ^ 53 - 1) * 2 ^ 2045

/-- The double with bits `r` is what `x op y` should be: a double nearest to the exact result, if that is
within the range of finite doubles. -/
def Correct (op : Operation) (x y : Int) (r : Nat) : Prop :=
  ∀ num den, exact op x y = some (num, den) → num.natAbs ≤ den * largest → Nearest num den r

/-- Half a unit beyond the largest finite double: from here on results overflow. -/
def overflow : Nat := (2 ^ 54 - 1) * 2 ^ 2044

/-- The sign bit. -/
def negBit (d : Nat) : Bool := d / 2 ^ 63 % 2 == 1

/-- The double with bits `r` is the number with magnitude `num / den` and the given sign, rounded as IEEE 754 says: to the
nearest double, of two equally near ones to the one with an even last bit, and to infinity beyond the range. -/
structure Rounded (neg : Bool) (num den : Nat) (r : Nat) : Prop where
  sign : negBit r = neg
  finite : num < den * overflow → ∃ y, doubleVal r = .finite y ∧ ∀ d' y', doubleVal d' = .finite y' →
    dist (den * y) (if neg then -num else num) ≤ dist (den * y') (if neg then -num else num) ∧
    (dist (den * y) (if neg then -num else num) = dist (den * y') (if neg then -num else num) → y' = y ∨ r % 2 = 0)
  infinite : den * overflow ≤ num → doubleVal r = .inf neg

/-- The double with bits `r` is `a + b` for the doubles with bits `a` and `b`. A sum of zero is negative only if both
operands are (the sign matters for `1 / r`). -/
def IsSum (a b r : Nat) : Prop :=
  match doubleVal a, doubleVal b with
  | .nan, _ | _, .nan => doubleVal r = .nan
  | .inf s, .inf t => doubleVal r = if s = t then .inf s else .nan
  | .inf s, .finite _ => doubleVal r = .inf s
  | .finite _, .inf t => doubleVal r = .inf t
  | .finite x, .finite y => Rounded (if x + y = 0 then negBit a && negBit b else decide (x + y < 0)) (x + y).natAbs 1 r

/-- `a - b`: the sum with the negative of `b`. -/
def IsDifference (a b r : Nat) : Prop :=
  match doubleVal a, doubleVal b with
  | .nan, _ | _, .nan => doubleVal r = .nan
  | .inf s, .inf t => doubleVal r = if s = t then .nan else .inf s
  | .inf s, .finite _ => doubleVal r = .inf s
  | .finite _, .inf t => doubleVal r = .inf !t
  | .finite x, .finite y => Rounded (if x - y = 0 then negBit a && !negBit b else decide (x - y < 0)) (x - y).natAbs 1 r

/-- `a * b`. -/
def IsProduct (a b r : Nat) : Prop :=
  match doubleVal a, doubleVal b with
  | .nan, _ | _, .nan => doubleVal r = .nan
  | .inf s, .inf t => doubleVal r = .inf (s != t)
  | .inf s, .finite y => doubleVal r = if y = 0 then .nan else .inf (s != negBit b)
  | .finite x, .inf t => doubleVal r = if x = 0 then .nan else .inf (negBit a != t)
  | .finite x, .finite y => Rounded (negBit a != negBit b) (x.natAbs * y.natAbs) (2 ^ 1074) r

/-- `a / b`. -/
def IsQuotient (a b r : Nat) : Prop :=
  match doubleVal a, doubleVal b with
  | .nan, _ | _, .nan => doubleVal r = .nan
  | .inf _, .inf _ => doubleVal r = .nan
  | .inf s, .finite _ => doubleVal r = .inf (s != negBit b)
  | .finite _, .inf t => Rounded (negBit a != t) 0 1 r
  | .finite x, .finite y =>
    if y = 0 then doubleVal r = if x = 0 then .nan else .inf (negBit a != negBit b)
    else Rounded (negBit a != negBit b) (x.natAbs * 2 ^ 1074) y.natAbs r

/-- What IEEE 754 says about the four operations. -/
def Ieee : Operation → Nat → Nat → Nat → Prop
  | .plus => IsSum
  | .minus => IsDifference
  | .times => IsProduct
  | .over => IsQuotient

end Dart.Spec
