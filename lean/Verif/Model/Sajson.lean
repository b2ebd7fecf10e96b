import Verif.Model.Lower

/-
JSON with sajson as the parser (`DART_USE_SAJSON`). sajson itself is not modelled: `SDoc` stands for the document that it
hands over.
-/
namespace Dart

/-- A `sajson::value`: `TYPE_INTEGER` has 32 bits (`get_integer_value` returns an `int`), all other numbers are
`TYPE_DOUBLE`; members in the order in which `get_object_key` numbers them. -/
inductive SDoc
  | null
  | bool (b : Bool)
  | int (i : BitVec 32)
  | dbl (d : BitVec 64)
  | str (s : Bytes)
  | arr (es : List SDoc)
  | obj (fs : List (Bytes × SDoc))

mutual
/-- `sajson_lower`, include/dart/connector/json.tcc 480-530: the calls of the handlers of `heap_parser`. -/
def SDoc.drive : SDoc → Parser → Res Parser
  | .obj fs, s => (driveFields fs (s.startAggregate (.obj []))).bind fun s => s.endAggregate
  | .arr es, s => (driveElems es (s.startAggregate (.arr []))).bind fun s => s.endAggregate
  | .str t, s => s.step (.string t)
  | .int i, s => s.step (.int64 (i.signExtend 64))
  | .dbl d, s => s.step (.double d)
  | .bool b, s => s.step (.bool b)
  | .null, s => s.step .null
def driveFields : List (Bytes × SDoc) → Parser → Res Parser
  | [], s => .ok s
  | (k, v) :: fs, s => (s.step (.key k)).bind fun s => (v.drive s).bind fun s => driveFields fs s
def driveElems : List SDoc → Parser → Res Parser
  | [], s => .ok s
  | v :: es, s => (v.drive s).bind fun s => driveElems es s
end

/-- `basic_heap::from_json`, include/dart/connector/json.tcc 75-89, of a text that parses to the given document. -/
def SDoc.toHeap (d : SDoc) : Res Val := (d.drive Parser.start).bind fun s => .ok s.currObj

/-- `json_identify`, include/dart/common.h 1426-1447. -/
def SDoc.identify : SDoc → RawType
  | .obj _ => .object
  | .arr _ => .array
  | .str s => identifyString s
  | .int i => identifyInteger (i.signExtend 64)
  | .dbl d => identifyDecimal d
  | .bool _ => .boolean
  | .null => .null

mutual
/-- `json_lower`, include/dart/common.h 1449-1489: construct the element at address `p`, return the memory and the size
read back. -/
def SDoc.lower : SDoc → Nat → Bytes → Option (Bytes × Nat)
  | .obj fs, p, m => do
    -- object(sajson::value), include/dart/object.tcc 201-241
    let m ← writeBytes m (p + 4) (leBytes 4 fs.length)
    let (m, off) ← slowerFields fs p 0 (8 + 8 * fs.length) m
    let m ← writeBytes m p (leBytes 4 (alignUp off 8))
    let sz ← findSizeof m .object p
    some (m, sz)
  | .arr es, p, m => do
    -- array(sajson::value), include/dart/array.tcc 180-206
    let m ← writeBytes m (p + 4) (leBytes 4 es.length)
    let (m, off) ← slowerElems es p 0 (8 + 8 * es.length) m
    let m ← writeBytes m p (leBytes 4 off)
    let sz ← findSizeof m .array p
    some (m, sz)
  | .str s, p, m => layoutStr s p m
  | .int i, p, m => do
    let m ← writeBytes m p (intBytes (identifyInteger (i.signExtend 64)) (i.signExtend 64))
    let sz ← findSizeof m (identifyInteger (i.signExtend 64)) p
    some (m, sz)
  | .dbl d, p, m => do
    let m ← writeBytes m p (decBytes d)
    let sz ← findSizeof m (identifyDecimal d) p
    some (m, sz)
  | .bool b, p, m => do
    let m ← writeBytes m p [if b then 1 else 0]
    let sz ← findSizeof m .boolean p
    some (m, sz)
  | .null, _, m => some (m, 0)
/-- The loop over the members, include/dart/object.tcc 207-234: in the order in which sajson has them. Unlike
the other constructors, this one hands the whole name to the table entry, and lays it out as a string with 16 bits for
the length, however long it is. -/
def slowerFields : List (Bytes × SDoc) → Nat → Nat → Nat → Bytes → Option (Bytes × Nat)
  | [], _, _, off, m => some (m, off)
  | (k, v) :: fs, base, idx, off, m => do
    let aligned := alignUp (base + off) RawType.string.align
    let off := off + (aligned - (base + off))
    let m ← writeBytes m (base + 8 + 8 * idx) (objEntry v.identify off k)
    let m ← layoutString 2 k aligned m
    let sz ← findSizeof m .string aligned
    let off := off + sz
    let aligned := alignUp (base + off) v.identify.align
    let off := off + (aligned - (base + off))
    let (m, sz) ← v.lower aligned m
    slowerFields fs base (idx + 1) (off + sz) m
/-- The loop over the elements, include/dart/array.tcc 186-202. -/
def slowerElems : List SDoc → Nat → Nat → Nat → Bytes → Option (Bytes × Nat)
  | [], _, _, off, m => some (m, off)
  | v :: es, base, idx, off, m => do
    let aligned := alignUp (base + off) v.identify.align
    let off := off + (aligned - (base + off))
    let m ← writeBytes m (base + 8 + 8 * idx) (arrEntry v.identify off)
    let (m, sz) ← v.lower aligned m
    slowerElems es base (idx + 1) (off + sz) m
end

/-- `basic_buffer::from_json`, include/dart/connector/json.tcc 91-110, of a text of `size` bytes that parses to the
document. Unlike the version for RapidJSON (`Buf.fromJson`), it does not ask whether the root is an object; the buffer
takes it for one (include/dart.h 8043-8046). -/
def Buf.fromSajson (fill : Nat → Bytes) (size : Nat) (d : SDoc) : Res Buf :=
  match d.lower 0 (fill (size * 8)) with
  | some (m, _) => .ok (Buf.ofBytes m)
  | none => .ub

end Dart
