import Verif.Model.Basic

namespace Dart

/-- `align_pointer` and `pad_bytes` as the code computes them, include/dart/common.h 1267-1284: on
64-bit words with wrap-around, `(x + (alignment - 1)) & ~(alignment - 1)`. -/
def alignMask (x : BitVec 64) (alignment : Nat) : BitVec 64 :=
  let a := BitVec.ofNat 64 alignment
  (x + (a - 1)) &&& ~~~(a - 1)

end Dart
