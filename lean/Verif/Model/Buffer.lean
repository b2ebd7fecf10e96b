import Verif.Model.Read

/-
The read-only public interface of finalized buffers (`basic_buffer`), over the checked reads of
`Verif.Model.Read`. An out-of-bounds read is the outcome `Res.ub`.
-/
namespace Dart

/-- Sequencing of C++ calls: exceptions and undefined behaviour end the computation. -/
def Res.bind {α β : Type} : Res α → (α → Res β) → Res β
  | .ok a, f => f a
  | .throw e, _ => .throw e
  | .ub, _ => .ub

/-- A checked read used as a C++ expression: failing is undefined behaviour. -/
def Res.ofRead {α : Type} : Option α → Res α
  | some a => .ok a
  | none => .ub

/-- `type`, include/dart/common.h 185-193. -/
inductive Ty
  | object | array | string | integer | decimal | boolean | null
  deriving DecidableEq, Repr

/-- `simplify_type`, include/dart/common.h 970-993. -/
def RawType.simplify : RawType → Ty
  | .object => .object
  | .array => .array
  | .string => .string
  | .smallString => .string
  | .bigString => .string
  | .shortInteger => .integer
  | .integer => .integer
  | .longInteger => .integer
  | .decimal => .decimal
  | .longDecimal => .decimal
  | .boolean => .boolean
  | .null => .null

/-- A `basic_buffer`: the memory it keeps alive and its `raw` element, include/dart.h (`raw`,
`buffer_ref`). `none` as address is the null pointer. -/
structure Buf where
  mem : Bytes
  type : RawType
  addr : Option Nat
  deriving DecidableEq, Repr

/-- The buffer owning a freshly finalized object, include/dart/conversion_traits.h 122-139. -/
def Buf.ofBytes (m : Bytes) : Buf := ⟨m, .object, some 0⟩

/-- `basic_buffer(raw_element, buffer_ref)`, include/dart/buffer/detail.tcc 12-18. -/
def Buf.sub (b : Buf) (e : RawElem) : Buf := ⟨b.mem, e.1, e.2⟩

/-- `get_type`, include/dart/buffer/api.tcc 364-367. -/
def Buf.getType (b : Buf) : Ty := b.type.simplify

/-- `get_object(raw)`, include/dart/common.h 1024-1032; a null pointer is undefined behaviour. -/
def Buf.object (b : Buf) : Res Nat :=
  match b.type with
  | .object => Res.ofRead b.addr
  | _ => .throw .typeError

/-- `get_array(raw)`, include/dart/common.h 1042-1050. -/
def Buf.array (b : Buf) : Res Nat :=
  match b.type with
  | .array => Res.ofRead b.addr
  | _ => .throw .typeError

/-- `basic_buffer::get(string_view) const&`, include/dart/buffer/object.tcc 130-133, with
`object::get_value`, include/dart/object.tcc 694-697: a missing key gives null. -/
def Buf.get (signed : Bool) (b : Buf) (key : Bytes) : Res Buf :=
  b.object.bind fun p => (Res.ofRead (getValueImpl signed b.mem p key)).bind fun r =>
    match r with
    | none => .ok (b.sub (.null, none))
    | some e => .ok (b.sub e)

/-- `basic_buffer::at(string_view) const&`, include/dart/buffer/object.tcc 160-163, with
`object::at_value`, include/dart/object.tcc 699-703: a missing key throws. -/
def Buf.at (signed : Bool) (b : Buf) (key : Bytes) : Res Buf :=
  b.object.bind fun p => (Res.ofRead (getValueImpl signed b.mem p key)).bind fun r =>
    match r with
    | none => .throw .outOfRange
    | some e => .ok (b.sub e)

/-- `basic_buffer::has_key(string_view)`, include/dart/buffer/object.tcc 206-210. -/
def Buf.hasKey (signed : Bool) (b : Buf) (key : Bytes) : Res Bool :=
  b.object.bind fun p => (Res.ofRead (getKey signed b.mem p key)).bind fun r => .ok r.isSome

/-- `basic_buffer::get(size_type) const&`, include/dart/buffer/array.tcc 39-42, and
`array::get_elem_impl`, include/dart/array.tcc 381-392: null when out of range. -/
def Buf.getIdx (b : Buf) (i : Nat) : Res Buf :=
  b.array.bind fun p => (Res.ofRead (numElems b.mem p)).bind fun n =>
    if i < n then (Res.ofRead (loadElem b.mem p i)).bind fun e => .ok (b.sub (e.1, some e.2))
    else .ok (b.sub (.null, none))

/-- `basic_buffer::at(size_type) const&`, include/dart/buffer/array.tcc 72-75. -/
def Buf.atIdx (b : Buf) (i : Nat) : Res Buf :=
  b.array.bind fun p => (Res.ofRead (numElems b.mem p)).bind fun n =>
    if i < n then (Res.ofRead (loadElem b.mem p i)).bind fun e => .ok (b.sub (e.1, some e.2))
    else .throw .outOfRange

/-- `basic_buffer::strv`, include/dart/buffer/string.tcc 19-22, `string_deref`,
include/dart/common.h 1126-1142. -/
def Buf.strv (b : Buf) : Res Bytes :=
  match b.type with
  | .string => (Res.ofRead b.addr).bind fun p => Res.ofRead (Dart.strv b.mem b.type p)
  | .smallString => (Res.ofRead b.addr).bind fun p => Res.ofRead (Dart.strv b.mem b.type p)
  | .bigString => (Res.ofRead b.addr).bind fun p => Res.ofRead (Dart.strv b.mem b.type p)
  | _ => .throw .typeError

/-- `basic_buffer::integer`, include/dart/buffer/primitive.tcc 12-15, `integer_deref`,
include/dart/common.h 1144-1162. -/
def Buf.integer (b : Buf) : Res (BitVec 64) :=
  match b.type with
  | .shortInteger => (Res.ofRead b.addr).bind fun p => Res.ofRead (readInt b.mem b.type p)
  | .integer => (Res.ofRead b.addr).bind fun p => Res.ofRead (readInt b.mem b.type p)
  | .longInteger => (Res.ofRead b.addr).bind fun p => Res.ofRead (readInt b.mem b.type p)
  | _ => .throw .typeError

/-- `basic_buffer::decimal`, include/dart/buffer/primitive.tcc 17-20, `decimal_deref`,
include/dart/common.h 1164-1179. The result is the bit pattern of the double. -/
def Buf.decimal (b : Buf) : Res (BitVec 64) :=
  match b.type with
  | .decimal => (Res.ofRead b.addr).bind fun p => Res.ofRead (readDec b.mem b.type p)
  | .longDecimal => (Res.ofRead b.addr).bind fun p => Res.ofRead (readDec b.mem b.type p)
  | _ => .throw .typeError

/-- `basic_buffer::boolean`, include/dart/buffer/primitive.tcc 34-37, `get_primitive`,
include/dart/common.h 1097-1107: integers and decimals are accepted too, and their first byte is read
as the flag. -/
def Buf.boolean (b : Buf) : Res Bool :=
  match b.type.simplify with
  | .integer => (Res.ofRead b.addr).bind fun p => Res.ofRead (readBool b.mem p)
  | .decimal => (Res.ofRead b.addr).bind fun p => Res.ofRead (readBool b.mem p)
  | .boolean => (Res.ofRead b.addr).bind fun p => Res.ofRead (readBool b.mem p)
  | _ => .throw .typeError

/-- `basic_buffer::size`, include/dart/buffer/api.tcc 284-297. -/
def Buf.size (b : Buf) : Res Nat :=
  match b.type with
  | .object => (Res.ofRead b.addr).bind fun p => Res.ofRead (numElems b.mem p)
  | .array => (Res.ofRead b.addr).bind fun p => Res.ofRead (numElems b.mem p)
  | .string => (Res.ofRead b.addr).bind fun p => Res.ofRead (readU b.mem 2 p)
  | .smallString => (Res.ofRead b.addr).bind fun p => Res.ofRead (readU b.mem 2 p)
  | .bigString => (Res.ofRead b.addr).bind fun p => Res.ofRead (readU b.mem 4 p)
  | _ => .throw .typeError

/-- `basic_buffer::front() const&`, include/dart/buffer/array.tcc 112-116. -/
def Buf.front (b : Buf) : Res Buf :=
  b.array.bind fun _ => b.size.bind fun n =>
    if n = 0 then .ok (b.sub (.null, none)) else b.getIdx 0

/-- `basic_buffer::back() const&`, include/dart/buffer/array.tcc 128-132. -/
def Buf.back (b : Buf) : Res Buf :=
  b.array.bind fun _ => b.size.bind fun n =>
    if n = 0 then .ok (b.sub (.null, none)) else b.getIdx (n - 1)

/-- `basic_buffer::at_front() const&`, include/dart/buffer/array.tcc 84-88; `empty()` is
`size() == 0`, include/dart/buffer/api.tcc 299-302. -/
def Buf.atFront (b : Buf) : Res Buf :=
  b.size.bind fun n => if n = 0 then .throw .outOfRange else b.front

/-- `basic_buffer::at_back() const&`, include/dart/buffer/array.tcc 97-101. -/
def Buf.atBack (b : Buf) : Res Buf :=
  b.size.bind fun n => if n = 0 then .throw .outOfRange else b.back

/-- Dereferencing a value iterator at index `i` (`*(begin() + i)` with `i < size()`),
include/dart/buffer/api.tcc 379-383, include/dart/object.tcc 612-622, include/dart/array.tcc 354-376,
`ll_iterator::operator *`, include/dart/iterator.tcc 58-61. -/
def Buf.valueAt (b : Buf) (i : Nat) : Res Buf :=
  match b.type with
  | .object => (Res.ofRead b.addr).bind fun p =>
    (Res.ofRead (loadValue b.mem p i)).bind fun e => .ok (b.sub (e.1, some e.2))
  | .array => b.getIdx i
  | _ => .throw .typeError

/-- Dereferencing a key iterator at index `i`, include/dart/buffer/api.tcc 413-416,
include/dart/object.tcc 624-631, 705-712. -/
def Buf.keyAt (b : Buf) (i : Nat) : Res Buf :=
  b.object.bind fun p => (Res.ofRead (loadKey b.mem p i)).bind fun kp =>
    .ok (b.sub (.string, some kp))

/-- Run a call for each of the indices `0 … n-1`, collecting the results in order. -/
def Res.collect {α : Type} (f : Nat → Res α) : Nat → Res (List α)
  | 0 => .ok []
  | n + 1 => (Res.collect f n).bind fun l => (f n).bind fun a => .ok (l ++ [a])

/-- `aggregate_deref` as used by `begin()` and `end()`, include/dart/common.h 1109-1124,
include/dart/buffer/api.tcc 368-386. -/
def Buf.aggregate (b : Buf) : Res Nat :=
  match b.type with
  | .object => Res.ofRead b.addr
  | .array => Res.ofRead b.addr
  | _ => .throw .typeError

/-- `basic_buffer::values`, include/dart/buffer/api.tcc 242-245, `values_impl`,
include/dart/common.h 1604-1610. -/
def Buf.values (b : Buf) : Res (List Buf) :=
  b.size.bind fun n => b.aggregate.bind fun _ => Res.collect b.valueAt n

/-- `basic_buffer::keys`, include/dart/buffer/object.tcc 195-198, `keys_impl`,
include/dart/common.h 1594-1602. -/
def Buf.keys (b : Buf) : Res (List Buf) := b.size.bind fun n => b.object.bind fun _ => Res.collect b.keyAt n

/-- Everything the buffer contains, as a dynamic value: conversion to `basic_heap`,
include/dart/conversion_traits.h 84-115. -/
def Buf.value (b : Buf) : Option Val :=
  match b.type, b.addr with
  | .null, _ => some .null
  | t, some p => decode (b.mem.length + 1) b.mem t p
  | _, none => none

end Dart
