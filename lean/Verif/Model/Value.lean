import Verif.Model.Key

/-
Dynamic values and the selection of storage types.
-/
namespace Dart

/-- The value of a `basic_heap` (include/dart.h, `basic_heap::data`): null, flag, 64-bit integer,
double (as its bit pattern), string (as bytes), array (`std::vector`), object (`std::map` ordered by
`dart_comparator`, here the list of its entries in iteration order). -/
inductive Val
  | null
  | bool (b : Bool)
  | int (i : BitVec 64)
  | dec (d : BitVec 64)
  | str (s : Bytes)
  | arr (l : List Val)
  | obj (l : List (Bytes × Val))

/-! ### IEEE widening and exact narrowing, on bit patterns -/

/-- Assemble a double from sign, exponent and mantissa fields. -/
def mkDouble (s e m : Nat) : Nat := s * 2 ^ 63 + e * 2 ^ 52 + m
/-- Assemble a float from sign, exponent and mantissa fields. -/
def mkFloat (s e m : Nat) : Nat := s * 2 ^ 31 + e * 2 ^ 23 + m

/-- `static_cast<double>(float)` on bit patterns (exact in IEEE 754). A subnormal float with highest
mantissa bit `k` becomes a normal double. NaN payloads are shifted (signalling NaNs are not quietened). -/
def widenBits (f : Nat) : Nat :=
  let s := f / 2 ^ 31
  let e := f / 2 ^ 23 % 2 ^ 8
  let m := f % 2 ^ 23
  if e = 255 then mkDouble s 2047 (m * 2 ^ 29)
  else if e = 0 then
    if m = 0 then mkDouble s 0 0
    else
      let k := Nat.log2 m
      mkDouble s (k + 874) ((m - 2 ^ k) * 2 ^ (52 - k))
  else mkDouble s (e + 896) (m * 2 ^ 29)

/-- The float that has exactly the value of a double, if there is one. `static_cast<float>(val)`
rounds to nearest, so it returns this float whenever it exists; NaN has none since NaN compares
unequal to itself. Models the test `val != static_cast<float>(val)`, include/dart/common.h 1332-1337. -/
def narrowBits (d : Nat) : Option Nat :=
  let s := d / 2 ^ 63
  let e := d / 2 ^ 52 % 2 ^ 11
  let m := d % 2 ^ 52
  if e = 2047 then (if m = 0 then some (mkFloat s 255 0) else none)
  else if e = 0 then (if m = 0 then some (mkFloat s 0 0) else none)
  else if 897 ≤ e ∧ e ≤ 1150 then
    if m % 2 ^ 29 = 0 then some (mkFloat s (e - 896) (m / 2 ^ 29)) else none
  else if 874 ≤ e ∧ e ≤ 896 then
    if (2 ^ 52 + m) % 2 ^ (52 - (e - 874)) = 0 then
      some (mkFloat s 0 ((2 ^ 52 + m) / 2 ^ (52 - (e - 874))))
    else none
  else none

/-! ### Selection of the storage type -/

/-- `sso_bytes` for 64-bit targets: `sizeof(dynamic_string_layout) - sizeof(uint8_t)`,
include/dart.h 7777, include/dart/common.h 316-329. -/
def ssoBytes : Nat := 23

/-- `identify_string`, include/dart/common.h 1312-1322. -/
def identifyString (s : Bytes) : RawType :=
  if s.length > 65535 then .bigString
  else if s.length > ssoBytes then .string
  else .smallString

/-- `identify_integer`, include/dart/common.h 1324-1328. -/
def identifyInteger (i : BitVec 64) : RawType :=
  if i.toInt > 2147483647 ∨ i.toInt < -2147483648 then .longInteger
  else if i.toInt > 32767 ∨ i.toInt < -32768 then .integer
  else .shortInteger

/-- `identify_decimal`, include/dart/common.h 1332-1337. -/
def identifyDecimal (d : BitVec 64) : RawType :=
  match narrowBits d.toNat with
  | none => .longDecimal
  | some _ => .decimal

/-- `basic_heap::get_raw_type`, include/dart/heap/detail.tcc 193-212. -/
def Val.rawType : Val → RawType
  | .null => .null
  | .bool _ => .boolean
  | .int i => identifyInteger i
  | .dec d => identifyDecimal d
  | .str s => identifyString s
  | .arr _ => .array
  | .obj _ => .object

/-- Bytes of an integer stored with type `t`: `static_cast` to the width, little endian.
include/dart/heap/detail.tcc 168-176. -/
def intBytes (t : RawType) (i : BitVec 64) : Bytes :=
  match t with
  | .shortInteger => leBytes 2 i.toNat
  | .integer => leBytes 4 i.toNat
  | _ => leBytes 8 i.toNat

/-- Bytes of a decimal stored with type `t`: as `float` when that is exact.
include/dart/heap/detail.tcc 177-182. -/
def decBytes (d : BitVec 64) : Bytes :=
  match narrowBits d.toNat with
  | some f => leBytes 4 f
  | none => leBytes 8 d.toNat

/-- Sign extension of a `w`-bit stored integer to 64 bits (`primitive<intN_t>::get_data` converted
to `int64_t`, include/dart/common.h 1144-1162). -/
def signExt (w : Nat) (n : Nat) : BitVec 64 := (BitVec.ofNat w n).signExtend 64

end Dart
