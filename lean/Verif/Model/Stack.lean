import Verif.Model.Layout
import Verif.Model.Json
import Verif.Model.Equal

/-
The recursive functions over dynamic values run on a stack that holds a limited number of nested calls. Nothing in the code limits or
counts the nesting; a stack that is too small is undefined behaviour in C++. In this file the outer `none` is the overflow of the
stack. `stack` is the number of nested calls there is room for, the call itself included.
-/
namespace Dart

/-- Go on after a call that came back (`some`), and leave if it failed (`some none`). -/
def unlessFailed {α β : Type} (x : Option (Option α)) (f : α → Option (Option β)) : Option (Option β) :=
  match x with
  | none => none
  | some none => some none
  | some (some a) => f a

mutual
/-- `basic_heap::upper_bound`, include/dart/heap/detail.tcc 63-141, with room for `stack` nested calls; `some none` is
`std::length_error`. The call for a key (78) is as deep as the one for its value, so it is not counted apart. -/
def upperBoundWithin : Nat → Val → Option (Option Nat)
  | 0, _ => none
  | stack + 1, .obj fs => unlessFailed (fieldsUBWithin stack fs) fun s =>
      let max := alignUp (8 + 8 * (fs.length + 1) + s) 8
      if max > 2 ^ 32 - 1 then some none else some (some max)
  | stack + 1, .arr es => unlessFailed (elemsUBWithin stack es) fun s =>
      let max := 8 + 8 * (es.length + 1) + s
      if max > 2 ^ 32 - 1 then some none else some (some max)
  | _ + 1, .str s => some (some (stringUB s))
  | _ + 1, .int i => some (some (match identifyInteger i with | .shortInteger => 2 | .integer => 4 | _ => 8))
  | _ + 1, .dec d => some (some (match identifyDecimal d with | .decimal => 4 | _ => 8))
  | _ + 1, .bool _ => some (some 1)
  | _ + 1, .null => some (some 0)
/-- The loop over the fields, include/dart/heap/detail.tcc 75-84. -/
def fieldsUBWithin : Nat → List (Bytes × Val) → Option (Option Nat)
  | _, [] => some (some 0)
  | stack, (k, v) :: fs => unlessFailed (upperBoundWithin stack v) fun vu => unlessFailed (fieldsUBWithin stack fs) fun rest =>
      some (some (stringUB k + (v.rawType.align - 1) + (vu + (RawType.string.align - 1)) + rest))
/-- The loop over the elements, include/dart/heap/detail.tcc 106-108. -/
def elemsUBWithin : Nat → List Val → Option (Option Nat)
  | _, [] => some (some 0)
  | stack, v :: es => unlessFailed (upperBoundWithin stack v) fun vu => unlessFailed (elemsUBWithin stack es) fun rest =>
      some (some (vu + (v.rawType.align - 1) + rest))
end

mutual
/-- `basic_heap::layout`, include/dart/heap/detail.tcc 143-191, with room for `stack` nested calls (through the constructors of
`detail::object`, include/dart/object.tcc 345-381, and `detail::array`, include/dart/array.tcc 240-262); `some none` is a write
outside the memory. -/
def layoutWithin : Nat → Val → Nat → Bytes → Option (Option (Bytes × Nat))
  | 0, _, _, _ => none
  | stack + 1, .obj fs, p, m =>
      unlessFailed (some (writeBytes m (p + 4) (leBytes 4 fs.length))) fun m =>
      unlessFailed (fieldsWithin stack fs p 0 (8 + 8 * fs.length) m) fun r =>
      some (do
        let off := alignUp r.2 8
        let m ← writeBytes r.1 p (leBytes 4 off)
        let sz ← findSizeof m .object p
        some (m, sz))
  | stack + 1, .arr es, p, m =>
      unlessFailed (some (writeBytes m (p + 4) (leBytes 4 es.length))) fun m =>
      unlessFailed (elemsWithin stack es p 0 (8 + 8 * es.length) m) fun r =>
      some (do
        let m ← writeBytes r.1 p (leBytes 4 r.2)
        let sz ← findSizeof m .array p
        some (m, sz))
  | _ + 1, .str s, p, m => some (layoutStr s p m)
  | _ + 1, .int i, p, m => some (do
      let m ← writeBytes m p (intBytes (identifyInteger i) i)
      let sz ← findSizeof m (identifyInteger i) p
      some (m, sz))
  | _ + 1, .dec d, p, m => some (do
      let m ← writeBytes m p (decBytes d)
      let sz ← findSizeof m (identifyDecimal d) p
      some (m, sz))
  | _ + 1, .bool b, p, m => some (do
      let m ← writeBytes m p [if b then 1 else 0]
      let sz ← findSizeof m .boolean p
      some (m, sz))
  | _ + 1, .null, _, m => some (some (m, 0))
/-- The field loop, include/dart/object.tcc 352-373. -/
def fieldsWithin : Nat → List (Bytes × Val) → Nat → Nat → Nat → Bytes → Option (Option (Bytes × Nat))
  | _, [], _, _, off, m => some (some (m, off))
  | stack, (k, v) :: fs, base, idx, off, m =>
    let aligned := alignUp (base + off) RawType.string.align
    let off := off + (aligned - (base + off))
    unlessFailed (some (writeBytes m (base + 8 + 8 * idx) (objEntry v.rawType off (cstr k)))) fun m =>
    unlessFailed (some (layoutStr k aligned m)) fun r =>
    let off := off + r.2
    let aligned := alignUp (base + off) v.rawType.align
    let off := off + (aligned - (base + off))
    unlessFailed (layoutWithin stack v aligned r.1) fun r =>
    fieldsWithin stack fs base (idx + 1) (off + r.2) r.1
/-- The element loop, include/dart/array.tcc 247-258. -/
def elemsWithin : Nat → List Val → Nat → Nat → Nat → Bytes → Option (Option (Bytes × Nat))
  | _, [], _, _, off, m => some (some (m, off))
  | stack, v :: es, base, idx, off, m =>
    let aligned := alignUp (base + off) v.rawType.align
    let off := off + (aligned - (base + off))
    unlessFailed (some (writeBytes m (base + 8 + 8 * idx) (arrEntry v.rawType off))) fun m =>
    unlessFailed (layoutWithin stack v aligned m) fun r =>
    elemsWithin stack es base (idx + 1) (off + r.2) r.1
end

/-- `basic_heap::finalize` (include/dart/heap/api.tcc 311-315, include/dart/conversion_traits.h 122-139) with room for `stack` nested
calls of `upper_bound` and afterwards of `layout`. -/
def finalizeWithin (stack : Nat) (v : Val) : Option (Res Bytes) :=
  match v with
  | .obj _ =>
    match upperBoundWithin stack v with
    | none => none
    | some none => some (.throw .lengthError)
    | some (some n) =>
      match layoutWithin stack v 0 (zeros n) with
      | none => none
      | some none => some .ub
      | some (some (m, _)) => some (.ok m)
  | _ => some (.throw .typeError)

mutual
/-- `json_serialize`, include/dart/connector/json.tcc 418-455, with room for `stack` nested calls. -/
def serializeWithin : Nat → Val → Option (List Event)
  | 0, _ => none
  | stack + 1, .obj fs => (serializeFieldsWithin stack fs).map fun l => .startObject :: (l ++ [.endObject])
  | stack + 1, .arr es => (serializeElemsWithin stack es).map fun l => .startArray :: (l ++ [.endArray])
  | _ + 1, .str s => some [.string (cut32 s)]
  | _ + 1, .int i => some [.int64 i]
  | _ + 1, .dec d => some [.double d]
  | _ + 1, .bool b => some [.bool b]
  | _ + 1, .null => some [.null]
/-- The loop over the fields, json.tcc 424-432. -/
def serializeFieldsWithin : Nat → List (Bytes × Val) → Option (List Event)
  | _, [] => some []
  | stack, (k, v) :: fs => (serializeWithin stack v).bind fun l =>
      (serializeFieldsWithin stack fs).map fun r => .key (cut32 k) :: (l ++ r)
/-- The loop over the elements, json.tcc 436. -/
def serializeElemsWithin : Nat → List Val → Option (List Event)
  | _, [] => some []
  | stack, v :: es => (serializeWithin stack v).bind fun l => (serializeElemsWithin stack es).map fun r => l ++ r
end

mutual
/-- `typed_compare<basic_heap>::compare`, include/dart/conversion_traits.h 218-243, with room for `stack` nested calls (through
`std::equal` over `std::map` or `std::vector`); `same` as in `heapEq`. The call for a key is as deep as the one for its value. -/
def eqWithin (same : List Nat → Val → Val → Bool) : Nat → Val → List Nat → Val → Option Bool
  | 0, _, _, _ => none
  | _ + 1, .null, p, w => some (same p .null w || match w with | .null => true | _ => false)
  | _ + 1, .bool b, p, w => some (same p (.bool b) w || match w with | .bool c => b == c | _ => false)
  | _ + 1, .int i, p, w => some (same p (.int i) w || match w with | .int j => i == j | _ => false)
  | _ + 1, .dec d, p, w => some (same p (.dec d) w || match w with | .dec e => decEq d e | _ => false)
  | _ + 1, .str s, p, w => some (same p (.str s) w || match w with | .str t => strEq s t | _ => false)
  | stack + 1, .arr es, p, w =>
      if same p (.arr es) w then some true
      else match w with
        | .arr gs => if es.length = gs.length then elemsEqWithin same stack es p 0 gs else some false
        | _ => some false
  | stack + 1, .obj fs, p, w =>
      if same p (.obj fs) w then some true
      else match w with
        | .obj gs => if fs.length = gs.length then fieldsEqWithin same stack fs p 0 gs else some false
        | _ => some false
/-- `std::equal` over the elements of two arrays: the first difference ends it. -/
def elemsEqWithin (same : List Nat → Val → Val → Bool) : Nat → List Val → List Nat → Nat → List Val → Option Bool
  | _, [], _, _, _ => some true
  | stack, v :: es, p, i, w :: gs =>
      match eqWithin same stack v (i :: p) w with
      | none => none
      | some false => some false
      | some true => elemsEqWithin same stack es p (i + 1) gs
  | _, _ :: _, _, _, [] => some false
/-- `std::equal` over the pairs of two maps: the key of a pair, then the value. -/
def fieldsEqWithin (same : List Nat → Val → Val → Bool) : Nat → List (Bytes × Val) → List Nat → Nat → List (Bytes × Val) →
    Option Bool
  | _, [], _, _, _ => some true
  | 0, _ :: _, _, _, _ :: _ => none
  | stack + 1, (k, v) :: fs, p, i, (l, w) :: gs =>
      if same (2 * i :: p) (.str k) (.str l) || strEq k l then
        match eqWithin same (stack + 1) v ((2 * i + 1) :: p) w with
        | none => none
        | some false => some false
        | some true => fieldsEqWithin same (stack + 1) fs p (i + 1) gs
      else some false
  | _, _ :: _, _, _, [] => some false
end

mutual
/-- `~basic_heap`, include/dart.h 5244: the variant (7715-7723) gives up its share of the map or the vector, and the last share
destroys it, and with it the keys and values or the elements (include/dart/common.h 462-468), each by the same destructor.
`kept p` says that something else still has a share of the object or array at the position `p` (innermost index first). The answer
is how many values (keys among them) were destroyed. -/
def destroyWithin (kept : List Nat → Bool) : Nat → Val → List Nat → Option Nat
  | 0, _, _ => none
  | stack + 1, .obj fs, p => if kept p then some 1 else (destroyFieldsWithin kept stack fs p 0).map (· + 1)
  | stack + 1, .arr es, p => if kept p then some 1 else (destroyElemsWithin kept stack es p 0).map (· + 1)
  | _ + 1, _, _ => some 1
/-- The pairs of the map; the destructor of a key is as deep as the one of its value. -/
def destroyFieldsWithin (kept : List Nat → Bool) : Nat → List (Bytes × Val) → List Nat → Nat → Option Nat
  | _, [], _, _ => some 0
  | stack, (_, v) :: fs, p, i => (destroyWithin kept stack v (i :: p)).bind fun n =>
      (destroyFieldsWithin kept stack fs p (i + 1)).map fun r => 1 + n + r
/-- The elements of the vector. -/
def destroyElemsWithin (kept : List Nat → Bool) : Nat → List Val → List Nat → Nat → Option Nat
  | _, [], _, _ => some 0
  | stack, v :: es, p, i => (destroyWithin kept stack v (i :: p)).bind fun n =>
      (destroyElemsWithin kept stack es p (i + 1)).map fun r => n + r
end

end Dart
