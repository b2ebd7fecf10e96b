import Verif.Model.Float
import Verif.Model.Equal

/-
The number wrapper `basic_number` with its operators.
-/
namespace Dart

/-- The four operators for which `DART_DEFINE_ARITHMETIC_OPERATORS` is expanded,
include/dart/operators.tcc 92-95. -/
inductive ArithOp
  | add | sub | mul | div
  deriving DecidableEq, Repr

/-- The built-in operator on `double`. -/
def ArithOp.builtin : ArithOp → BitVec 64 → BitVec 64 → BitVec 64
  | .add => fadd
  | .sub => fsub
  | .mul => fmul
  | .div => fdiv

/-- A native operand `T`: an integer (of any integral type) or a double (a `float` is widened, which is
exact; `long double` is not modelled). -/
inductive NativeNum
  | int (i : Int)
  | dbl (d : BitVec 64)
  deriving DecidableEq, Repr

/-- The usual arithmetic conversions of a native operand when the other one is a `double`. -/
def NativeNum.toDouble : NativeNum → BitVec 64
  | .int i => intToDouble i
  | .dbl d => d

/-- `basic_heap::numeric`, include/dart/heap/primitive.tcc 51-61 (the same in
include/dart/buffer/primitive.tcc 22-32 and include/dart/packet/primitive.tcc 50-53). -/
def Val.numeric : Val → Res (BitVec 64)
  | .int i => .ok (intToDouble i.toInt)
  | .dec d => .ok d
  | _ => .throw .typeError

/-- `double operator op(basic_number const& lhs, T rhs)`, include/dart/operators.tcc 71-81. -/
def numberOp (op : ArithOp) (lhs : Val) (rhs : NativeNum) : Res (BitVec 64) :=
  lhs.numeric.bind fun x => .ok (op.builtin x rhs.toDouble)

/-- `double operator op(T lhs, basic_number const& rhs)`, include/dart/operators.tcc 82-91: the body is
`return rhs op lhs;`, which calls the operator above with the operands exchanged. -/
def nativeOp (op : ArithOp) (lhs : NativeNum) (rhs : Val) : Res (BitVec 64) := numberOp op rhs lhs

/-- `basic_number::operator +=` and its relatives, include/dart/primitive.tcc 30-56: the new value of the
wrapped packet. Assigning a double makes it a decimal, include/dart/conversion_traits.h 843-850. -/
def numberAssign (op : ArithOp) (lhs : Val) (rhs : NativeNum) : Res Val :=
  lhs.numeric.bind fun x => .ok (.dec (op.builtin x rhs.toDouble))

/-- `basic_number::operator ++`, include/dart/primitive.tcc 58-63 (and 72-78 for the postfix form). -/
def numberIncr (n : Val) : Res Val := n.numeric.bind fun x => .ok (.dec (fadd x (intToDouble 1)))

/-- `basic_number::operator --`, include/dart/primitive.tcc 65-70 (and 80-86 for the postfix form). -/
def numberDecr (n : Val) : Res Val := n.numeric.bind fun x => .ok (.dec (fsub x (intToDouble 1)))

end Dart
