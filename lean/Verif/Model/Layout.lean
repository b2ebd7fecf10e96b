import Verif.Model.Value

/-
Finalizing a dynamic value: size bound, allocation, and the writer, as checked writes to memory.
-/
namespace Dart

/-- Exceptions thrown by the library (include/dart/common.h 110-180 and the standard ones). -/
inductive Exc
  | typeError | stateError | validationError
  | outOfRange | invalidArgument | lengthError | logicError | parseError
  deriving DecidableEq, Repr

/-- Outcome of a C++ call: a value, an exception, or undefined behaviour. -/
inductive Res (α : Type)
  | ok (a : α)
  | throw (e : Exc)
  | ub
  deriving DecidableEq, Repr

/-- The value of a successful call. -/
def Res.toOption {α : Type} : Res α → Option α
  | .ok a => some a
  | _ => none

/-- `basic_string::static_sizeof` with the length cast to the size type of the string,
include/dart/string.tcc 121-124, include/dart/heap/detail.tcc 116-124. -/
def stringUB (s : Bytes) : Nat :=
  match identifyString s with
  | .bigString => 4 + s.length % 2 ^ 32 + 1
  | _ => 2 + s.length % 2 ^ 16 + 1

mutual
/-- `basic_heap::upper_bound`, include/dart/heap/detail.tcc 63-141; `none` is `std::length_error`. -/
def upperBound : Val → Option Nat
  | .obj fs => do
    let s ← fieldsUB fs
    let max := alignUp (8 + 8 * (fs.length + 1) + s) 8
    if max > 2 ^ 32 - 1 then none else some max
  | .arr es => do
    let s ← elemsUB es
    let max := 8 + 8 * (es.length + 1) + s
    if max > 2 ^ 32 - 1 then none else some max
  | .str s => some (stringUB s)
  | .int i => some (match identifyInteger i with | .shortInteger => 2 | .integer => 4 | _ => 8)
  | .dec d => some (match identifyDecimal d with | .decimal => 4 | _ => 8)
  | .bool _ => some 1
  | .null => some 0
/-- The loop over the fields, include/dart/heap/detail.tcc 75-84. -/
def fieldsUB : List (Bytes × Val) → Option Nat
  | [] => some 0
  | (k, v) :: fs => do
    let vu ← upperBound v
    let rest ← fieldsUB fs
    some (stringUB k + (v.rawType.align - 1) + (vu + (RawType.string.align - 1)) + rest)
/-- The loop over the elements, include/dart/heap/detail.tcc 106-108. -/
def elemsUB : List Val → Option Nat
  | [] => some 0
  | v :: es => do
    let vu ← upperBound v
    let rest ← elemsUB es
    some (vu + (v.rawType.align - 1) + rest)
end

/-- `find_sizeof`, include/dart/common.h 1286-1293: the size of the element of type `t` at `p` as
recorded in memory (`object/array::get_sizeof`, `basic_string::get_sizeof`, `primitive::get_sizeof`). -/
def findSizeof (m : Bytes) (t : RawType) (p : Nat) : Option Nat :=
  match t with
  | .object => readU m 4 p
  | .array => readU m 4 p
  | .string => (readU m 2 p).map fun n => 2 + n + 1
  | .smallString => (readU m 2 p).map fun n => 2 + n + 1
  | .bigString => (readU m 4 p).map fun n => 4 + n + 1
  | .shortInteger => some 2
  | .integer => some 4
  | .longInteger => some 8
  | .decimal => some 4
  | .longDecimal => some 8
  | .boolean => some 1
  | .null => some 0

/-- `basic_string(char const*, size_t)`, include/dart/string.tcc 53-60: length (truncated to the
size type), the characters, the terminator. `lw` is the width of the length field. -/
def layoutString (lw : Nat) (s : Bytes) (p : Nat) (m : Bytes) : Option Bytes := do
  let m ← writeBytes m p (leBytes lw s.length)
  let m ← writeBytes m (p + lw) s
  writeBytes m (p + lw + s.length) [0]

/-- `basic_heap::layout` for a string value, include/dart/heap/detail.tcc 155-167, 190. -/
def layoutStr (s : Bytes) (p : Nat) (m : Bytes) : Option (Bytes × Nat) := do
  let t := identifyString s
  let m ← layoutString (match t with | .bigString => 4 | _ => 2) s p m
  let sz ← findSizeof m t p
  some (m, sz)

/-- The 8 bytes of an array table entry with the three padding bytes left as they were (`old`).
include/dart/common.h 345-352, include/dart/common.tcc 144-152. Here: the 5 bytes that are written. -/
def arrEntry (t : RawType) (off : Nat) : Bytes := leBytes 4 off ++ leBytes 1 t.forTable.code

mutual
/-- `basic_heap::layout`, include/dart/heap/detail.tcc 143-191: construct the element at address `p`
and return the memory and the size read back. -/
def layoutVal : Val → Nat → Bytes → Option (Bytes × Nat)
  | .obj fs, p, m => do
    -- object(packet_fields const*), include/dart/object.tcc 345-381
    let m ← writeBytes m (p + 4) (leBytes 4 fs.length)
    let (m, off) ← layoutFields fs p 0 (8 + 8 * fs.length) m
    let off := alignUp off 8
    let m ← writeBytes m p (leBytes 4 off)
    let sz ← findSizeof m .object p
    some (m, sz)
  | .arr es, p, m => do
    -- array(packet_elements const*), include/dart/array.tcc 240-262
    let m ← writeBytes m (p + 4) (leBytes 4 es.length)
    let (m, off) ← layoutElems es p 0 (8 + 8 * es.length) m
    let m ← writeBytes m p (leBytes 4 off)
    let sz ← findSizeof m .array p
    some (m, sz)
  | .str s, p, m => layoutStr s p m
  | .int i, p, m => do
    let m ← writeBytes m p (intBytes (identifyInteger i) i)
    let sz ← findSizeof m (identifyInteger i) p
    some (m, sz)
  | .dec d, p, m => do
    let m ← writeBytes m p (decBytes d)
    let sz ← findSizeof m (identifyDecimal d) p
    some (m, sz)
  | .bool b, p, m => do
    let m ← writeBytes m p [if b then 1 else 0]
    let sz ← findSizeof m .boolean p
    some (m, sz)
  | .null, _, m => some (m, 0)
/-- The field loop, include/dart/object.tcc 352-373: `base` is `this`, `idx` the entry index. -/
def layoutFields : List (Bytes × Val) → Nat → Nat → Nat → Bytes → Option (Bytes × Nat)
  | [], _, _, off, m => some (m, off)
  | (k, v) :: fs, base, idx, off, m => do
    let aligned := alignUp (base + off) RawType.string.align
    let off := off + (aligned - (base + off))
    let m ← writeBytes m (base + 8 + 8 * idx) (objEntry v.rawType off (cstr k))
    let (m, sz) ← layoutStr k aligned m
    let off := off + sz
    let aligned := alignUp (base + off) v.rawType.align
    let off := off + (aligned - (base + off))
    let (m, sz) ← layoutVal v aligned m
    layoutFields fs base (idx + 1) (off + sz) m
/-- The element loop, include/dart/array.tcc 247-258. -/
def layoutElems : List Val → Nat → Nat → Nat → Bytes → Option (Bytes × Nat)
  | [], _, _, off, m => some (m, off)
  | v :: es, base, idx, off, m => do
    let aligned := alignUp (base + off) v.rawType.align
    let off := off + (aligned - (base + off))
    let m ← writeBytes m (base + 8 + 8 * idx) (arrEntry v.rawType off)
    let (m, sz) ← layoutVal v aligned m
    layoutElems es base (idx + 1) (off + sz) m
end

/-- `api_converter<basic_heap, basic_buffer>::convert`, include/dart/conversion_traits.h 122-139
(`basic_heap::finalize`, include/dart/heap/api.tcc 311-315): only objects, allocate the bound,
zero-fill, lay out. The result is the whole allocation. -/
def finalize (v : Val) : Res Bytes :=
  match v with
  | .obj _ =>
    match upperBound v with
    | none => .throw .lengthError
    | some n =>
      match layoutVal v 0 (zeros n) with
      | some (m, _) => .ok m
      | none => .ub
  | _ => .throw .typeError

/-- `basic_buffer::get_bytes` of a root object, include/dart/buffer/api.tcc 248-253: the first
`get_sizeof()` bytes of the allocation. -/
def getBytes (m : Bytes) : Option Bytes := do
  let sz ← findSizeof m .object 0
  readBytes m 0 sz

end Dart
