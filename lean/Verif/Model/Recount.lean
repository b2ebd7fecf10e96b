import Verif.Model.Packet

/-
Changing the kind of reference counter of a packet (`transmogrify`).
The counter itself is not part of the model: two packets that differ only in their counter have the same `Pkt`.
-/
namespace Dart

mutual
/-- `basic_heap::transmogrify`, include/dart/heap/api.tcc 323-356. The loops of iterators (329-335, 341) visit the entries
in the order of the map or the vector (C31). Simplified: the order in which the arguments of `add_field` are made is
unspecified; making the key (a string) cannot fail. -/
def Val.transmogrify : Val → Res Val
  | .obj fs => transFields (.obj []) fs
  | .arr es => transElems (.arr []) es
  | .str s => .ok (.str s)
  | .int i => .ok (.int i)
  | .dec d => .ok (.dec d)
  | .bool b => .ok (.bool b)
  | .null => .ok .null
/-- The loop over the fields, include/dart/heap/api.tcc 332-335; `add_field`, include/dart/heap/object.tcc 48-53. -/
def transFields (obj : Val) : List (Bytes × Val) → Res Val
  | [] => .ok obj
  | (k, v) :: r => v.transmogrify.bind fun w => (obj.insert (.str k) w).bind fun obj => transFields obj r
/-- The loop over the elements, include/dart/heap/api.tcc 341. -/
def transElems (arr : Val) : List Val → Res Val
  | [] => .ok arr
  | v :: r => v.transmogrify.bind fun w => (arr.pushBack w).bind fun arr => transElems arr r
end

/-- `dup_bytes`, include/dart/buffer/api.tcc 266-281. -/
def Buf.dupBytes (b : Buf) : Res Bytes := b.getBytes

/-- `basic_buffer::transmogrify`, include/dart/buffer/api.tcc 185-189; the constructor for a pointer that is owned,
include/dart.h 8064-8068: the copy is neither null nor misaligned (`aligned_alloc`). -/
def Buf.transmogrify (b : Buf) : Res Buf := b.dupBytes.bind fun m => .ok (Buf.ofBytes m)

/-- `basic_packet::transmogrify`, include/dart/packet/api.tcc 235-242. -/
def Pkt.transmogrify (p : Pkt) : Res Pkt := p.visit Val.transmogrify Buf.transmogrify .heap .buf

/-- Changing the counter several times in a row. -/
def Pkt.transmogrifyN : Nat → Pkt → Res Pkt
  | 0, p => .ok p
  | n + 1, p => p.transmogrify.bind (Pkt.transmogrifyN n)

end Dart
