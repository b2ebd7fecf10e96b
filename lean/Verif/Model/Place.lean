import Verif.Model.Validate
import Verif.Model.Buffer

/-
The validator looks at the addresses of the elements, so that where the bytes lie matters. In the other modules they begin at a multiple
of eight, as in all memory the library allocates; here they are anywhere.
-/
namespace Dart

/-- `dart::is_valid` / `dart::validate` (include/dart.h 13697-13830, 13848-13981) and `dart_buffer_is_valid` (src/generic.cc 1589-1591)
on the bytes `m` of a memory in which `before` and `after` surround them: the address of the first is the number of bytes before it.
No overload looks at that address; `object::is_valid` compares absolute addresses with their aligned form (include/dart/object.tcc
558, 581, include/dart/common.h 1267-1276), and values of objects are found by aligning the absolute address behind their key
(include/dart/object.tcc 714-725). Reading a four byte number at an odd address is undefined in C++, which is not modelled: it is taken
to work, as it does on x86-64. -/
def isValidIn (before m after : Bytes) : Verdict := validBuffer (before ++ m ++ after) (m.length + 1) .object before.length m.length

/-- `basic_buffer(gsl::span<gsl::byte const>)`, include/dart.h 7995-8012, on the bytes `m` of such a memory: "given buffer pointer need not
be well aligned". It makes an aligned copy of the bytes and owns it, but reads the memory it was given (disagreement 20). -/
def spanBuffer (before m after : Bytes) : Buf := ⟨before ++ m ++ after, .object, some before.length⟩

end Dart
