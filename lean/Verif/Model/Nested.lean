import Verif.Model.Heap

/-
`get_nested`: following a separated path of keys.
-/
namespace Dart

/-- The loop and the final test of `get_nested_impl`, include/dart/common.h 1576-1592, for any
representation: `isObject` and `get` are `is_object` and `operator []`, `null` is `make_null()`.
`rest` is the part of the path from `start` to the end. -/
def nestedLoop {α : Type} (isObject : α → Bool) (get : α → Bytes → Res α) (null : α) (sep : UInt8)
    (curr : α) (rest : Bytes) : Res α :=
  match rest with
  | [] => .ok curr
  | c :: cs =>
    if isObject curr then
      -- stop = std::find(start, end, separator)
      let token := (c :: cs).takeWhile (· != sep)
      (get curr token).bind fun next =>
        -- skip the separator unless stop == end
        nestedLoop isObject get null sep next ((c :: cs).drop (token.length + 1))
    else .ok null
  termination_by rest.length
  decreasing_by simp only [List.length_drop, List.length_cons]; omega

/-- `is_object`, include/dart/heap/api.tcc 423-426. -/
def Val.isObject : Val → Bool
  | .obj _ => true
  | _ => false

/-- `basic_heap::get_nested`, include/dart/heap/object.tcc 197-200. -/
def Val.getNested (v : Val) (path : Bytes) (sep : UInt8) : Res Val :=
  nestedLoop Val.isObject Val.get .null sep v path

/-- `basic_buffer::get_nested`, include/dart/buffer/object.tcc 143-146. -/
def Buf.getNested (signed : Bool) (b : Buf) (path : Bytes) (sep : UInt8) : Res Buf :=
  nestedLoop (fun b => b.type == .object) (fun b => b.get signed) (b.sub (.null, none)) sep b path

end Dart
