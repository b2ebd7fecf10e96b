import Verif.Model.Basic

/-
Object keys: the ordering of keys, and the two-byte prefix cached in an object's table.
-/
namespace Dart

/-- `string_view::compare` / `operator <` on the character data (unsigned bytes, as
`std::char_traits<char>::compare`): three-way lexicographic comparison, a proper prefix is less.
include/dart/support/string_view.tcc 147-156. -/
def bytesCmp : Bytes → Bytes → Int
  | [], [] => 0
  | [], _ :: _ => -1
  | _ :: _, [] => 1
  | a :: as, b :: bs => if a < b then -1 else if b < a then 1 else bytesCmp as bs

/-- `dart_comparator::operator ()`, include/dart/common.tcc 26-119 (all overloads have this body):
shorter keys first, then unsigned lexicographic order. -/
def keyLt (a b : Bytes) : Bool :=
  if a.length ≠ b.length then decide (a.length < b.length) else decide (bytesCmp a b < 0)

/-- Conversion of a `char const*` to a `string_view` (strlen): the bytes before the first NUL.
Used by the constructors that pass `key.str()` / `get_strv().data()` to `object_entry`
(include/dart/object.tcc 320-322, 359-361, 411-413, 460-462). -/
def cstr (k : Bytes) : Bytes := k.takeWhile (· != 0)

/-- The length byte of a table entry: saturates at 255. include/dart/common.tcc 180-183. -/
def entryLen (prefixStr : Bytes) : Nat := if prefixStr.length < 255 then prefixStr.length else 255

/-- First prefix byte (zero if the string is empty). include/dart/common.tcc 176-178, 188-191. -/
def entryP0 (prefixStr : Bytes) : UInt8 := prefixStr.getD 0 0

/-- Second prefix byte (zero if the string is shorter). include/dart/common.tcc 176-178, 188-191. -/
def entryP1 (prefixStr : Bytes) : UInt8 := prefixStr.getD 1 0

/-- Truncation of `small_string` to `string` in table entries. include/dart/common.tcc 146-147. -/
def RawType.forTable : RawType → RawType
  | .smallString => .string
  | t => t

/-- The 8 bytes of an object table entry: offset (4), type (1), length (1), prefix (2).
`vtable_entry` and `prefix_entry` constructors, include/dart/common.tcc 144-152, 173-192; layout
include/dart/common.h 353-363. -/
def objEntry (t : RawType) (off : Nat) (prefixStr : Bytes) : Bytes :=
  leBytes 4 off ++ leBytes 1 t.forTable.code ++ leBytes 1 (entryLen prefixStr)
    ++ [entryP0 prefixStr, entryP1 prefixStr]

/-- A `char` converted to `int`; `signed` says whether the target's `char` is signed. -/
def charVal (signed : Bool) (b : UInt8) : Int :=
  if signed && decide (128 ≤ b.toNat) then (b.toNat : Int) - 256 else b.toNat

/-- `prefix_compare_impl`, include/dart/common.tcc 14-24. First list: the remaining prefix bytes
(the template parameter counts them), second list: the remaining string. -/
def prefixCmpImpl (signed : Bool) : Bytes → Bytes → Int
  | [], [] => 0
  | [], c :: _ => - charVal signed c
  | p :: _, [] => charVal signed p
  | p :: ps, c :: cs =>
    if p ≠ c then charVal signed p - charVal signed c else prefixCmpImpl signed ps cs

/-- `prefix_entry::compare_impl`, include/dart/common.tcc 208-224. -/
def entryCmpImpl (signed : Bool) (p0 p1 : UInt8) (str : Bytes) : Int :=
  if 2 ≤ str.length ∧ str.take 2 = [p0, p1] then 0 else prefixCmpImpl signed [p0, p1] str

/-- `prefix_entry::prefix_compare`, include/dart/common.tcc 194-206. -/
def prefixCompare (signed : Bool) (len : Nat) (p0 p1 : UInt8) (str : Bytes) : Int :=
  if len < str.length then (if len = 255 then 0 else -1)
  else if len = str.length then entryCmpImpl signed p0 p1 str
  else 1

end Dart
