import Verif.Model.Validate

/-
The recursive functions over finalized bytes run on a stack that holds a limited number of nested calls. Nothing in the code limits
or counts the nesting; a stack that is too small is undefined behaviour in C++.
-/
namespace Dart

/-- `dart::is_valid` (include/dart.h 13697-13722) with room for `stack` nested calls of `valid_buffer` (include/dart/common.h
1294-1305, include/dart/object.tcc 564-593, include/dart/array.tcc 330-334); `error fuel` is the overflow of the stack. -/
def isValidWithin (stack : Nat) (m : Bytes) : Verdict := validBuffer m stack .object 0 m.length

/-- `basic_buffer::definalize` / `heap(buffer)` of a root object (include/dart/conversion_traits.h 84-115) with room for `stack`
nested calls of `convert`; `none` is the overflow of the stack or a read outside the bytes. -/
def definalizeWithin (stack : Nat) (m : Bytes) : Option Val := decode stack m .object 0

end Dart
