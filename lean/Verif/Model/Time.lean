import Verif.Model.Native
import Verif.Model.Yaml

/-
Time points as packets, include/dart/conversions.h 1494-1564. A time point is a number of ticks of its `Duration`; the
clock counts `clock` units per second (10^9 with libstdc++, 10^6 with libc++), and a tick is `tick` such units (only
durations that convert to the clock's without loss can be passed). Both counts are `int64_t`.
-/
namespace Dart.Time

/-- `std::tm`, the members that are used. -/
structure Tm where
  year : Int
  mon : Int
  mday : Int
  hour : Int
  min : Int
  sec : Int
  deriving DecidableEq, Repr

/-- Whether a number fits `int`. -/
def fitsInt (x : Int) : Bool := decide (-2 ^ 31 ≤ x ∧ x < 2 ^ 31)

/-- Whether a number fits `int64_t`. -/
def fits64 (x : Int) : Bool := decide (-2 ^ 63 ≤ x ∧ x < 2 ^ 63)

/-! ### The C library: `gmtime_r`, `timegm` (include/dart/shim.h 145-167) -/

/-- A leap year of the Gregorian calendar. -/
def isLeap (y : Int) : Bool := y % 4 = 0 && (y % 100 ≠ 0 || y % 400 = 0)

/-- Days before month `m` (0 for January) of a year. -/
def daysBefore (leap : Bool) (m : Nat) : Int :=
  ([0, 31, 59, 90, 120, 151, 181, 212, 243, 273, 304, 334].getD m 365 : Int) + if leap && 2 ≤ m then 1 else 0

/-- Days from 1 January 1970 to 1 January of year `y`. -/
def yearStart (y : Int) : Int := 365 * (y - 1970) + ((y - 1) / 4 - (y - 1) / 100 + (y - 1) / 400) - 477

/-- `timegm`: the members may be out of range; -1 if the year does not fit. -/
def timegm (t : Tm) : Int :=
  let y := t.year + t.mon / 12
  if fitsInt y then
    (yearStart (y + 1900) + daysBefore (isLeap (y + 1900)) (t.mon % 12).toNat + (t.mday - 1)) * 86400 +
      t.hour * 3600 + t.min * 60 + t.sec
  else -1

/-- The year in which day `n` (after 1 January 1970) falls: within cycles of 400, 100, 4 and 1 years. -/
def yearOf (n : Int) : Int :=
  let d := n + 719162
  let r400 := d % 146097
  let c := min (r400 / 36524) 3
  let r100 := r400 - c * 36524
  let q := r100 / 1461
  let r4 := r100 - q * 1461
  let r := min (r4 / 365) 3
  d / 146097 * 400 + c * 100 + q * 4 + r + 1

/-- The month in which day `r` of a year falls. -/
def monthOf (leap : Bool) (r : Int) : Nat :=
  ((List.range 12).filter fun m => decide (daysBefore leap m ≤ r)).length - 1

/-- `gmtime_r`: fails if the year does not fit. -/
def gmtime (t : Int) : Option Tm :=
  let n := t / 86400
  let s := t % 86400
  let y := yearOf n
  let r := n - yearStart y
  let m := monthOf (isLeap y) r
  if fitsInt (y - 1900) then
    some ⟨y - 1900, m, r - daysBefore (isLeap y) m + 1, s / 3600, s / 60 % 60, s % 60⟩
  else none

/-! ### `snprintf` and `sscanf` -/

/-- Decimal digits. -/
def decimals (n : Nat) : Bytes :=
  if n < 10 then [UInt8.ofNat (0x30 + n)] else decimals (n / 10) ++ [UInt8.ofNat (0x30 + n % 10)]

/-- `%0wd` -/
def padInt (w : Nat) (x : Int) : Bytes :=
  let ds := decimals x.natAbs
  if x < 0 then 0x2d :: (List.replicate (w - 1 - ds.length) 0x30 ++ ds) else List.replicate (w - ds.length) 0x30 ++ ds

/-- `isspace` -/
def isSpace (c : UInt8) : Bool := c = 0x20 || (0x09 ≤ c && c ≤ 0x0d)

/-- `%d`: the number and what follows, or nothing. -/
def scanInt (s : Bytes) : Option (Int × Bytes) :=
  let s := s.dropWhile isSpace
  let (neg, u) := match s with
    | 0x2d :: u => (true, u)
    | 0x2b :: u => (false, u)
    | u => (false, u)
  let (n, k) := readDigits 10 0 u
  if k = 0 then none else some (if neg then -(n : Int) else n, u.drop k)

/-- A character of the format that stands for itself. -/
def scanChar (c : UInt8) (s : Bytes) : Option Bytes := if s.head? = some c then some (s.drop 1) else none

/-- `%f` into a `float`, and `static_cast<int>` of it: nothing if there is no number; `some none` if the number does not
fit an `int` or is not a number. -/
abbrev ScanFloat := Bytes → Option (Option Int)

/-- One `%d` and the character after it; the result of a conversion must fit an `int`. -/
def scanField (c : UInt8) (s : Bytes) : Res (Int × Bytes) :=
  match scanInt s with
  | none => .throw .typeError
  | some (n, r) => if fitsInt n then
      match scanChar c r with
      | none => .throw .typeError
      | some r => .ok (n, r)
    else .ub

/-! ### The conversions -/

/-- `convert(tp)` up to the text, include/dart/conversions.h 1498-1508: conversion to the clock's duration and
`to_time_t`, which drops the fraction, then `gmtime_r`, whose failure is not noticed. -/
def broken (clock tick : Nat) (count : Int) : Res Tm :=
  if fits64 (count * tick) then
    match gmtime ((count * tick).tdiv clock) with
    | some t => if fitsInt (t.year + 1900) then .ok t else .ub
    | none => .ub
  else .ub

/-- The format, include/dart/conversions.h 1508-1512. -/
def textOf (t : Tm) : Bytes :=
  padInt 4 (t.year + 1900) ++ 0x2d :: (padInt 2 (t.mon + 1) ++ 0x2d :: (padInt 2 t.mday ++ 0x54 :: (padInt 2 t.hour ++
    0x3a :: (padInt 2 t.min ++ 0x3a :: (padInt 2 t.sec ++ [0x2e, 0x30, 0x30, 0x30, 0x5a])))))

/-- `convert(tp)`, include/dart/conversions.h 1498-1520. -/
def text (clock tick : Nat) (count : Int) : Res Bytes := (broken clock tick count).bind fun t => .ok (textOf t)

/-- `sscanf`, include/dart/conversions.h 1524-1529: the six numbers, the last one cut to an `int` (line 1538). -/
def scan (sf : ScanFloat) (s : Bytes) : Res (Int × Int × Int × Int × Int × Int) :=
  (scanField 0x2d s).bind fun (y, s) => (scanField 0x2d s).bind fun (mo, s) => (scanField 0x54 s).bind fun (d, s) =>
  (scanField 0x3a s).bind fun (h, s) => (scanField 0x3a s).bind fun (mi, s) =>
    match sf s with
    | none => .throw .typeError
    | some none => .ub
    | some (some sec) => .ok (y, mo, d, h, mi, sec)

/-- `convert(str)`, include/dart/conversions.h 1522-1544. `from_time_t` multiplies. -/
def count (sf : ScanFloat) (clock tick : Nat) (s : Bytes) : Res Int :=
  (scan sf (cstr s)).bind fun (y, mo, d, h, mi, sec) =>
    if fitsInt (y - 1900) && fitsInt (mo - 1) then
      let t := timegm ⟨y - 1900, mo - 1, d, h, mi, sec⟩
      if fits64 (t * clock) then .ok ((t * clock).tdiv tick) else .ub
    else .ub

/-- `to_dart`, include/dart/conversions.h 1547-1550. -/
def toDart (clock tick : Nat) (n : Int) : Res Pkt := (text clock tick n).bind fun s => .ok (.heap (.str s))

/-- `from_dart`, include/dart/conversions.h 1551-1557. -/
def fromDart (sf : ScanFloat) (clock tick : Nat) (p : Pkt) : Res Int :=
  if p.getType = .string then p.strv.bind fun s => count sf clock tick s else .throw .typeError

/-- `compare`, include/dart/conversions.h 1560-1563. -/
def compare (clock tick : Nat) (p : Pkt) (n : Int) : Res Bool :=
  (text clock tick n).bind fun s =>
    match p with
    | .heap v => v.eqNative (.str s)
    | .buf b => b.eqNative (.str s)

end Dart.Time
