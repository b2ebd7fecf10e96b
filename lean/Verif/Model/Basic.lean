/-
Bytes, checked memory accesses, raw types and alignment arithmetic.
-/
namespace Dart

/-- A byte string / a block of memory. Positions in it stand for addresses relative to an
8-byte aligned allocation base. -/
abbrev Bytes := List UInt8

/-- `w`-byte little endian representation of `n`, truncated to `w` bytes.
Models stores through `little_order<uintN_t>` (include/dart/support/ordered.tcc 59-301), used for
every length, offset and primitive in the serialized form (include/dart/common.h 345-363, 690-893). -/
def leBytes : Nat → Nat → Bytes
  | 0, _ => []
  | w + 1, n => UInt8.ofNat (n % 256) :: leBytes w (n / 256)

/-- The number stored by a little endian byte string (load through `little_order`). -/
def leNat : Bytes → Nat
  | [] => 0
  | b :: bs => b.toNat + 256 * leNat bs

/-- `n` zero bytes. -/
def zeros (n : Nat) : Bytes := List.replicate n 0

/-- Checked read of `n` bytes at position `p`; `none` is an out-of-bounds read. -/
def readBytes (m : Bytes) (p n : Nat) : Option Bytes :=
  if p + n ≤ m.length then some ((m.drop p).take n) else none

/-- Checked read of a `w`-byte little endian unsigned number. -/
def readU (m : Bytes) (w p : Nat) : Option Nat := (readBytes m p w).map leNat

/-- Checked write; `none` is an out-of-bounds write. -/
def writeBytes (m : Bytes) (p : Nat) (bs : Bytes) : Option Bytes :=
  if p + bs.length ≤ m.length then some (m.take p ++ bs ++ m.drop (p + bs.length)) else none

/-- `detail::raw_type`, include/dart/common.h 200-213. -/
inductive RawType
  | object | array | string | smallString | bigString
  | shortInteger | integer | longInteger | decimal | longDecimal | boolean | null
  deriving DecidableEq, Repr

/-- The numeric value of the enumerator, include/dart/common.h 200-213. -/
def RawType.code : RawType → Nat
  | .object => 0 | .array => 1 | .string => 2 | .smallString => 3 | .bigString => 4
  | .shortInteger => 5 | .integer => 6 | .longInteger => 7 | .decimal => 8
  | .longDecimal => 9 | .boolean => 10 | .null => 11

/-- `valid_type`, include/dart/common.h 995-1013: a type byte is an enumerator or invalid (`none`). -/
def RawType.ofCode : Nat → Option RawType
  | 0 => some .object | 1 => some .array | 2 => some .string | 3 => some .smallString
  | 4 => some .bigString | 5 => some .shortInteger | 6 => some .integer
  | 7 => some .longInteger | 8 => some .decimal | 9 => some .longDecimal
  | 10 => some .boolean | 11 => some .null | _ => none

/-- `alignment_of`, include/dart/common.h 1259-1262 with the tag alignments of lines 915-958
(objects and arrays 8, strings the size of their length field, primitives their size, null 1). -/
def RawType.align : RawType → Nat
  | .object => 8 | .array => 8 | .string => 2 | .smallString => 2 | .bigString => 4
  | .shortInteger => 2 | .integer => 4 | .longInteger => 8 | .decimal => 4
  | .longDecimal => 8 | .boolean => 1 | .null => 1

/-- `align_pointer` / `pad_bytes`, include/dart/common.h 1267-1284, as arithmetic on naturals: the
least multiple of `a` that is at least `n`. `Verif.Props.C34` ties it to the bit-mask formula. -/
def alignUp (n a : Nat) : Nat := (n + (a - 1)) / a * a

end Dart
