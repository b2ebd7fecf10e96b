import Verif.Model.Layout

/-
Reading a finalized buffer: table entries, iteration, binary search, scalars, conversion back to a
dynamic value. All reads are checked; `none` is an out-of-bounds read (or an unknown type byte).
-/
namespace Dart

/-- `object::size` / `array::size`, include/dart/object.tcc 602-605, include/dart/array.tcc 345-348. -/
def numElems (m : Bytes) (base : Nat) : Option Nat := readU m 4 (base + 4)

/-- `vtable()[idx].get_offset()`, include/dart/common.tcc 154-157, include/dart/object.tcc 776-786. -/
def entOff (m : Bytes) (base idx : Nat) : Option Nat := readU m 4 (base + 8 + 8 * idx)

/-- `vtable()[idx].get_type()`, include/dart/common.tcc 159-162. -/
def entType (m : Bytes) (base idx : Nat) : Option RawType :=
  (readU m 1 (base + 8 + 8 * idx + 4)).bind RawType.ofCode

/-- Width of the length field of strings stored with type `t`, include/dart/common.h 1057-1075. -/
def strWidth : RawType → Nat
  | .bigString => 4
  | _ => 2

/-- `basic_string::get_strv`, include/dart/string.tcc 111-114, through `string_deref`,
include/dart/common.h 1128-1144. -/
def strv (m : Bytes) (t : RawType) (p : Nat) : Option Bytes := do
  let n ← readU m (strWidth t) p
  readBytes m (p + strWidth t) n

/-- `object::load_key`, include/dart/object.tcc 705-712: address of key `idx`. -/
def loadKey (m : Bytes) (base idx : Nat) : Option Nat := do
  let off ← entOff m base idx
  some (base + off)

/-- Jump over the key at `kp` and align for type `t`; include/dart/object.tcc 720-724, 771-773. -/
def afterKey (m : Bytes) (t : RawType) (kp : Nat) : Option Nat := do
  let sz ← findSizeof m .string kp
  some (alignUp (kp + sz) t.align)

/-- `object::load_value`, include/dart/object.tcc 714-725: type and address of value `idx`. -/
def loadValue (m : Bytes) (base idx : Nat) : Option (RawType × Nat) := do
  let off ← entOff m base idx
  let t ← entType m base idx
  let p ← afterKey m t (base + off)
  some (t, p)

/-- `array::get_elem` within bounds, include/dart/array.tcc 381-385. -/
def loadElem (m : Bytes) (base idx : Nat) : Option (RawType × Nat) := do
  let t ← entType m base idx
  let off ← entOff m base idx
  some (t, base + off)

/-- `static_cast<int32_t>` of a size. -/
def toInt32 (n : Nat) : Int := (BitVec.ofNat 32 n).toInt

/-- The comparison of the search key with entry `idx`, include/dart/object.tcc 650-657: first on the
length and prefix in the table, then, if undecided, on the whole key. -/
def searchCompare (signed : Bool) (m : Bytes) (base : Nat) (key : Bytes) (idx : Nat) : Option Int := do
  let len ← readU m 1 (base + 8 + 8 * idx + 5)
  let p0 ← readU m 1 (base + 8 + 8 * idx + 6)
  let p1 ← readU m 1 (base + 8 + 8 * idx + 7)
  let c := - prefixCompare signed len (UInt8.ofNat p0) (UInt8.ofNat p1) key
  if c ≠ 0 then some c
  else do
    let off ← entOff m base idx
    let curr ← strv m .string (base + off)
    some (if curr.length = key.length then bytesCmp key curr
          else (key.length : Int) - curr.length)

/-- The binary search loop of `object::get_key`, include/dart/object.tcc 645-676. The first argument
bounds the number of rounds (never exhausted when started with `size() + 1`). Result: index, type
and key address of the match, or nothing. -/
def searchKey (signed : Bool) (m : Bytes) (base : Nat) (key : Bytes) :
    Nat → Int → Int → Option (Option (Nat × RawType × Nat))
  | 0, _, _ => none
  | fuel + 1, low, high =>
    if high < low then some none
    else do
      let mid := (low + high).tdiv 2
      let c ← searchCompare signed m base key mid.toNat
      if c = 0 then do
        let t ← entType m base mid.toNat
        let off ← entOff m base mid.toNat
        some (some (mid.toNat, t, base + off))
      else if c > 0 then searchKey signed m base key fuel (mid + 1) high
      else searchKey signed m base key fuel low (mid - 1)

/-- `object::get_key`, include/dart/object.tcc 633-678. -/
def getKey (signed : Bool) (m : Bytes) (base : Nat) (key : Bytes) :
    Option (Option (Nat × RawType × Nat)) := do
  let n ← numElems m base
  searchKey signed m base key (n + 1) 0 (toInt32 n - 1)

/-- A `raw_element`: type and address (`none` is the null pointer). -/
abbrev RawElem := RawType × Option Nat

/-- `object::get_value_impl` without the callback, include/dart/object.tcc 751-774; the inner
`none` is the case of a missing key, in which `get_value` returns `{null, nullptr}` and `at_value`
throws `std::out_of_range` (lines 694-703). -/
def getValueImpl (signed : Bool) (m : Bytes) (base : Nat) (key : Bytes) :
    Option (Option RawElem) := do
  match ← getKey signed m base key with
  | none => some none
  | some (_, t, kp) =>
    if t = .null then some (some (.null, none))
    else do
      let p ← afterKey m t kp
      some (some (t, some p))

/-- `primitive<T>::get_data` for integers through `integer_deref`, include/dart/common.h 1146-1162,
include/dart/primitive.tcc 140-143; converted to `int64_t`. -/
def readInt (m : Bytes) (t : RawType) (p : Nat) : Option (BitVec 64) :=
  match t with
  | .shortInteger => (readU m 2 p).map (signExt 16)
  | .integer => (readU m 4 p).map (signExt 32)
  | .longInteger => (readU m 8 p).map (signExt 64)
  | _ => none

/-- `decimal_deref` / `get_data`, include/dart/common.h 1164-1179; a `float` is widened. -/
def readDec (m : Bytes) (t : RawType) (p : Nat) : Option (BitVec 64) :=
  match t with
  | .decimal => (readU m 4 p).map fun n => BitVec.ofNat 64 (widenBits n)
  | .longDecimal => (readU m 8 p).map (BitVec.ofNat 64)
  | _ => none

/-- `primitive<bool>::get_data`, include/dart/buffer/primitive.tcc 33-37. Any non-zero byte counts
as true (C++ leaves bytes other than 0 and 1 undefined). -/
def readBool (m : Bytes) (p : Nat) : Option Bool := (readU m 1 p).map (· != 0)

/-- `std::map<..., dart_comparator>` insert-or-assign on the list of entries
(`basic_heap::insert`, include/dart/heap/api.tcc 118-154). -/
def mapInsert {α : Type} (k : Bytes) (v : α) : List (Bytes × α) → List (Bytes × α)
  | [] => [(k, v)]
  | (k', v') :: r =>
    if keyLt k k' then (k, v) :: (k', v') :: r
    else if keyLt k' k then (k', v') :: mapInsert k v r
    else (k', v) :: r

/-- `api_converter<basic_buffer, basic_heap>::convert`, include/dart/conversion_traits.h 84-115.
The first argument bounds the nesting depth (exhausting it is `none`). -/
def decode : Nat → Bytes → RawType → Nat → Option Val
  | 0, _, _, _ => none
  | fuel + 1, m, t, p =>
    match t with
    | .object => do
      let n ← numElems m p
      let fs ← (List.range n).foldlM (fun acc idx => do
        let kp ← loadKey m p idx
        let k ← strv m .string kp
        let (vt, vp) ← loadValue m p idx
        let v ← decode fuel m vt vp
        some (mapInsert k v acc)) []
      some (.obj fs)
    | .array => do
      let n ← numElems m p
      let es ← (List.range n).foldlM (fun acc idx => do
        let (vt, vp) ← loadElem m p idx
        let v ← decode fuel m vt vp
        some (acc ++ [v])) []
      some (.arr es)
    | .string => (strv m t p).map .str
    | .smallString => (strv m t p).map .str
    | .bigString => (strv m t p).map .str
    | .shortInteger => (readInt m t p).map .int
    | .integer => (readInt m t p).map .int
    | .longInteger => (readInt m t p).map .int
    | .decimal => (readDec m t p).map .dec
    | .longDecimal => (readDec m t p).map .dec
    | .boolean => (readBool m p).map .bool
    | .null => some .null

/-- `basic_buffer::definalize` / `heap(buffer)` on a root object,
include/dart/conversion_traits.h 84-115. -/
def definalize (m : Bytes) : Option Val := decode (m.length + 1) m .object 0

end Dart
