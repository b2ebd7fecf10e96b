import Verif.Model.Json
import Verif.Model.Float
import Verif.Model.Buffer

/-
JSON straight into a finalized buffer: `basic_buffer::from_json` and the constructors of `object` and `array` from
a RapidJSON document.
-/
namespace Dart

/-- `json_identify`, include/dart/common.h 1490-1515. `IsInt64` says no to numbers of 2^63 and more, which are
converted to `double` (`GetDouble`). -/
def Json.identify : Json → RawType
  | .obj _ => .object
  | .arr _ => .array
  | .str s => identifyString s
  | .num n => if n < 2 ^ 63 then identifyInteger (BitVec.ofInt 64 n) else identifyDecimal (intToDouble n)
  | .dbl d => identifyDecimal d
  | .bool _ => .boolean
  | .null => .null

mutual
/-- `json_lower`, include/dart/common.h 1517-1556, for a document whose members are already in order: construct the
element at address `p`, return the memory and the size read back. -/
def Json.lower : Json → Nat → Bytes → Option (Bytes × Nat)
  | .obj fs, p, m => do
    -- object(rapidjson::Value const&), include/dart/object.tcc 246-303
    let m ← writeBytes m (p + 4) (leBytes 4 fs.length)
    let (m, off) ← lowerFields fs p 0 (8 + 8 * fs.length) m
    let m ← writeBytes m p (leBytes 4 (alignUp off 8))
    let sz ← findSizeof m .object p
    some (m, sz)
  | .arr es, p, m => do
    -- array(rapidjson::Value const&), include/dart/array.tcc 210-235
    let m ← writeBytes m (p + 4) (leBytes 4 es.length)
    let (m, off) ← lowerElems es p 0 (8 + 8 * es.length) m
    let m ← writeBytes m p (leBytes 4 off)
    let sz ← findSizeof m .array p
    some (m, sz)
  | .str s, p, m => layoutStr s p m
  | .num n, p, m =>
    if n < 2 ^ 63 then do
      let m ← writeBytes m p (intBytes (identifyInteger (BitVec.ofInt 64 n)) (BitVec.ofInt 64 n))
      let sz ← findSizeof m (identifyInteger (BitVec.ofInt 64 n)) p
      some (m, sz)
    else do
      let m ← writeBytes m p (decBytes (intToDouble n))
      let sz ← findSizeof m (identifyDecimal (intToDouble n)) p
      some (m, sz)
  | .dbl d, p, m => do
    let m ← writeBytes m p (decBytes d)
    let sz ← findSizeof m (identifyDecimal d) p
    some (m, sz)
  | .bool b, p, m => do
    let m ← writeBytes m p [if b then 1 else 0]
    let sz ← findSizeof m .boolean p
    some (m, sz)
  | .null, _, m => some (m, 0)
/-- The loop over the sorted members, include/dart/object.tcc 272-295. The name in the table entry is taken as a C
string; the name itself is laid out as the string value it is. -/
def lowerFields : List (Bytes × Json) → Nat → Nat → Nat → Bytes → Option (Bytes × Nat)
  | [], _, _, off, m => some (m, off)
  | (k, v) :: fs, base, idx, off, m => do
    let aligned := alignUp (base + off) RawType.string.align
    let off := off + (aligned - (base + off))
    let m ← writeBytes m (base + 8 + 8 * idx) (objEntry v.identify off (cstr k))
    let (m, sz) ← layoutStr k aligned m
    let off := off + sz
    let aligned := alignUp (base + off) v.identify.align
    let off := off + (aligned - (base + off))
    let (m, sz) ← v.lower aligned m
    lowerFields fs base (idx + 1) (off + sz) m
/-- The loop over the elements, include/dart/array.tcc 217-231. -/
def lowerElems : List Json → Nat → Nat → Nat → Bytes → Option (Bytes × Nat)
  | [], _, _, off, m => some (m, off)
  | v :: es, base, idx, off, m => do
    let aligned := alignUp (base + off) v.identify.align
    let off := off + (aligned - (base + off))
    let m ← writeBytes m (base + 8 + 8 * idx) (arrEntry v.identify off)
    let (m, sz) ← v.lower aligned m
    lowerElems es base (idx + 1) (off + sz) m
end

mutual
/-- `std::sort` of the members of every object, include/dart/object.tcc 251-270; `sort` is what `std::sort` with that
comparison does. (The code sorts pointers to the members when it comes to the object.) -/
def Json.arrange (sort : List (Bytes × Json) → List (Bytes × Json)) : Json → Json
  | .obj fs => .obj (sort (arrangeFields sort fs))
  | .arr es => .arr (arrangeElems sort es)
  | j => j
def arrangeFields (sort : List (Bytes × Json) → List (Bytes × Json)) : List (Bytes × Json) → List (Bytes × Json)
  | [] => []
  | (k, v) :: fs => (k, v.arrange sort) :: arrangeFields sort fs
def arrangeElems (sort : List (Bytes × Json) → List (Bytes × Json)) : List Json → List Json
  | [] => []
  | v :: es => v.arrange sort :: arrangeElems sort es
end

/-- `basic_buffer::from_json`, include/dart/connector/json.tcc 160-199, of a text of `size` bytes that parses to the
document. `fill n` are the `n` bytes that `aligned_alloc` returns, which nobody initialises. -/
def Buf.fromJson (sort : List (Bytes × Json) → List (Bytes × Json)) (fill : Nat → Bytes) (size : Nat) (j : Json) :
    Res Buf :=
  match j with
  | .obj _ =>
    match (j.arrange sort).lower 0 (fill (size * 8)) with
    | some (m, _) => .ok (Buf.ofBytes m)
    | none => .ub
  | _ => .throw .typeError

end Dart
