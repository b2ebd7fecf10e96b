import Verif.Model.Arith
import Verif.Model.Container
import Verif.Model.Packet
import Verif.Model.Typed

/-
Optional access (`integer_or` and so on, `maybe_as`) and access by keys that are packets themselves.
Simplified: `maybe_as` only for native types and containers of the standard library (for packet classes it returns a null
value instead of an empty `optional`, include/dart/common.h 156-173). `at` with a packet as key calls a function that does
not exist (`at_type`, include/dart/heap/api.tcc 388, include/dart/buffer/api.tcc 220, 233) and cannot be instantiated.
-/
namespace Dart

/-- `safe_optional_access`, include/dart/common.h 1352-1363. The functions that use it are `noexcept`. -/
def optionalAccess {α : Type} (guard : Bool) (accessor : Res α) (opt : α) : Res α :=
  if !guard then .ok opt
  else match accessor with
    | .ok x => .ok x
    | .throw _ => .ok opt
    | .ub => .ub

namespace Pkt

/-- `str_or`, as far as the bytes go, and `strv_or`: include/dart/packet/string.tcc 23-26, 33-36. -/
def strvOr (p : Pkt) (opt : Bytes) : Res Bytes := optionalAccess (p.getType == .string) p.strv opt

/-- `integer_or`, include/dart/packet/primitive.tcc 35-38. -/
def integerOr (p : Pkt) (opt : BitVec 64) : Res (BitVec 64) := optionalAccess (p.getType == .integer) p.integer opt

/-- `decimal_or`, include/dart/packet/primitive.tcc 45-48. -/
def decimalOr (p : Pkt) (opt : BitVec 64) : Res (BitVec 64) := optionalAccess (p.getType == .decimal) p.decimal opt

/-- `is_numeric`, include/dart/packet/api.tcc 353-356. -/
def isNumeric (p : Pkt) : Bool := p.getType == .integer || p.getType == .decimal

/-- `numeric_or`, include/dart/packet/primitive.tcc 55-58. -/
def numericOr (p : Pkt) (opt : BitVec 64) : Res (BitVec 64) := optionalAccess p.isNumeric (Typed.numeric p) opt

/-- `boolean_or`, include/dart/packet/primitive.tcc 65-68. -/
def booleanOr (p : Pkt) (opt : Bool) : Res Bool := optionalAccess (p.getType == .boolean) p.boolean opt

end Pkt

/-- `static_cast<size_type>` of an `int64_t`, implicit in `get(identifier.integer())`. -/
def asIndex (i : BitVec 64) : Nat := i.toNat

/-- `basic_heap::get(KeyType)`, include/dart/heap/api.tcc 358-368. -/
def Val.getBy (v : Val) (k : Pkt) : Res Val :=
  match k.getType with
  | .string => k.strv.bind fun s => v.get s
  | .integer => k.integer.bind fun i => v.getIdx (asIndex i)
  | _ => .throw .typeError

/-- `basic_buffer::get(KeyType)`, include/dart/buffer/api.tcc 191-202. -/
def Buf.getBy (signed : Bool) (b : Buf) (k : Pkt) : Res Buf :=
  match k.getType with
  | .string => k.strv.bind fun s => b.get signed s
  | .integer => k.integer.bind fun i => b.getIdx (asIndex i)
  | _ => .throw .typeError

namespace Pkt

/-- `get(KeyType)`, include/dart/packet/api.tcc 244-248. -/
def getBy (signed : Bool) (p k : Pkt) : Res Pkt := p.visit (·.getBy k) (·.getBy signed k) .heap .buf

/-- `has_key(KeyType)`, include/dart/packet/object.tcc 264-269. -/
def hasKeyBy (signed : Bool) (p k : Pkt) : Res Bool :=
  if k.getType = .string then k.strv.bind fun s => p.hasKey signed s else .ok false

/-- `get_or(KeyType, T)`, include/dart/packet/api.tcc 257-267. `cast<basic_packet>` of a packet is a copy. -/
def getOrBy (signed : Bool) (p k d : Pkt) : Res Pkt :=
  (if p.getType = .object then p.hasKeyBy signed k else .ok false).bind fun h =>
    if h then p.getBy signed k
    else (if p.getType = .array then p.size.bind fun n => k.integer.bind fun i => .ok (decide (n > asIndex i))
      else .ok false).bind fun h =>
        if h then p.getBy signed k else .ok d

end Pkt

/-- `maybe_as`, include/dart/packet/api.tcc 91-103: an exception of the conversion makes it empty. -/
def CTy.maybeAs (t : CTy) (p : Pkt) : Res (Option t.type) :=
  match t.fromDart p with
  | .ok x => .ok (some x)
  | .throw _ => .ok none
  | .ub => .ub

end Dart
