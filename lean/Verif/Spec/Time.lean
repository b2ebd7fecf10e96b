import Verif.Model.Time
import Verif.Spec.JsonText

/-
The Gregorian calendar day by day, the text form of a date and time, and what `sscanf` is relied on for.
-/
namespace Dart.Spec.Time
open Dart.Time

/-- A date. -/
structure Date where
  year : Int
  month : Nat
  day : Nat
  deriving DecidableEq, Repr

/-- Every fourth year is a leap year, except full centuries not divisible by 400. -/
def LeapYear (y : Int) : Prop := 4 ∣ y ∧ (100 ∣ y → 400 ∣ y)

instance (y : Int) : Decidable (LeapYear y) := by unfold LeapYear; infer_instance

/-- Thirty days hath September. -/
def monthLength (y : Int) (m : Nat) : Nat :=
  if m = 2 then (if LeapYear y then 29 else 28) else if m = 4 ∨ m = 6 ∨ m = 9 ∨ m = 11 then 30 else 31

/-- A date of the calendar. -/
def Date.Valid (d : Date) : Prop := 1 ≤ d.month ∧ d.month ≤ 12 ∧ 1 ≤ d.day ∧ d.day ≤ monthLength d.year d.month

/-- The next day. -/
def Date.next (d : Date) : Date :=
  if d.day < monthLength d.year d.month then ⟨d.year, d.month, d.day + 1⟩
  else if d.month < 12 then ⟨d.year, d.month + 1, 1⟩ else ⟨d.year + 1, 1, 1⟩

/-- The date `n` days after 1 January 1970 (before it if negative). -/
inductive DayOf : Int → Date → Prop
  | epoch : DayOf 0 ⟨1970, 1, 1⟩
  | after {n : Int} {d : Date} : DayOf n d → DayOf (n + 1) d.next
  | before {n : Int} {d : Date} : DayOf (n + 1) d.next → d.Valid → DayOf n d

/-- A digit. -/
def digit (n : Nat) : UInt8 := UInt8.ofNat (0x30 + n % 10)

/-- A number below 100 with two digits, one below 10000 with four. -/
def two (n : Nat) : Bytes := [digit (n / 10), digit n]
@[inherit_doc two] def four (n : Nat) : Bytes := [digit (n / 1000), digit (n / 100), digit (n / 10), digit n]

/-- Four digits, or a minus sign and three digits. -/
def yearText (y : Int) : Bytes :=
  if 0 ≤ y then four y.toNat
  else 0x2d :: [digit (y.natAbs / 100), digit (y.natAbs / 10), digit y.natAbs]

/-- `YYYY-MM-DDThh:mm:ss.000Z` -/
def stamp (d : Date) (h m s : Nat) : Bytes :=
  yearText d.year ++ [0x2d] ++ two d.month ++ [0x2d] ++ two d.day ++ [0x54] ++ two h ++ [0x3a] ++ two m ++ [0x3a] ++
    two s ++ [0x2e, 0x30, 0x30, 0x30, 0x5a]

/-- A number written with any number of digits. -/
def Written (t : Bytes) (n : Nat) : Prop := Digits t ∧ digitsValue t = n

/-- The whole part of the `float` nearest to `num / den` (which is less than 2^24): 24 binary digits, halves to even. -/
def truncFloat (num den : Nat) : Nat :=
  let s := 24 - (if num / den = 0 then 0 else Nat.log2 (num / den) + 1)
  halfEven (num * 2 ^ s) den / 2 ^ s

/-- What cannot be taken for part of a number with a decimal point. -/
def EndsNumber (rest : Bytes) : Prop := ∀ c, rest.head? = some c → ¬(0x30 ≤ c ∧ c ≤ 0x39) ∧ c ≠ 0x65 ∧ c ≠ 0x45

/-- What the standard says of `%f` and of the conversion to `int`, as far as it is relied on. -/
structure Standard (sf : ScanFloat) : Prop where
  decimal {i f rest : Bytes} : Digits i → Digits f → digitsValue i < 2 ^ 24 → EndsNumber rest →
    sf (i ++ 0x2e :: (f ++ rest)) = some (some (truncFloat (digitsValue (i ++ f)) (10 ^ f.length) : Int))
  whole {i rest : Bytes} : Digits i → digitsValue i < 2 ^ 24 → EndsNumber rest →
    (∀ c, rest.head? = some c → c ≠ 0x2e ∧ c ≠ 0x78 ∧ c ≠ 0x58) → sf (i ++ rest) = some (some (digitsValue i : Int))
  nan (rest : Bytes) : sf (0x6e :: 0x61 :: 0x6e :: rest) = some none

end Dart.Spec.Time
