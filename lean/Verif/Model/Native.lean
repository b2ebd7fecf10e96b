import Verif.Model.Arith
import Verif.Model.Packet

/-
Conversion between packets and values of native C++ types, and comparison of packets with them
(include/dart/conversion_traits.h). `float` (rounded on the way out) and user types are not modelled.
-/
namespace Dart

/-- A native integral type: its width and whether it is signed. -/
structure IntTy where
  bits : Nat
  sgn : Bool
  deriving DecidableEq, Repr

/-- Conversion of an integer to the type: modulo `2 ^ bits` (as all compilers do, and as the standard
demands since C++20). -/
def IntTy.wrap (t : IntTy) (x : Int) : Int :=
  if t.sgn then (BitVec.ofInt t.bits x).toInt else (BitVec.ofInt t.bits x).toNat

/-- A value of a native type. -/
inductive Native
  | null
  | bool (b : Bool)
  | int (t : IntTy) (x : Int)
  | dbl (d : BitVec 64)
  | str (s : Bytes)
  deriving DecidableEq

/-- `incoming_caster`, include/dart/conversion_traits.h 813-860: integers of any type are passed as
`int64_t`. -/
def Native.toDart : Native → Val
  | .null => .null
  | .bool b => .bool b
  | .int _ x => .int (BitVec.ofInt 64 x)
  | .dbl d => .dec d
  | .str s => .str s

/-- The type asked for in `cast<T>`. -/
inductive NativeTy
  | null | bool | int (t : IntTy) | dbl | str
  deriving DecidableEq

/-- `outgoing_caster`, include/dart/conversion_traits.h 938-1010. -/
def Val.toNative : NativeTy → Val → Res Native
  | .null, v => if v.getType = .null then .ok .null else .throw .typeError
  | .bool, v => if v.getType = .boolean then v.boolean.bind fun b => .ok (.bool b)
      else .ok (.bool (decide (v.getType ≠ .null)))
  | .int t, v => if v.getType = .integer then v.integer.bind fun i => .ok (.int t (t.wrap i.toInt))
      else .throw .typeError
  | .dbl, v => if v.getType = .decimal then v.decimal.bind fun d => .ok (.dbl d) else .throw .typeError
  | .str, v => v.strv.bind fun s => .ok (.str s)

/-- The same on finalized values. -/
def Buf.toNative : NativeTy → Buf → Res Native
  | .null, b => if b.getType = .null then .ok .null else .throw .typeError
  | .bool, b => if b.getType = .boolean then b.boolean.bind fun b => .ok (.bool b)
      else .ok (.bool (decide (b.getType ≠ .null)))
  | .int t, b => if b.getType = .integer then b.integer.bind fun i => .ok (.int t (t.wrap i.toInt))
      else .throw .typeError
  | .dbl, b => if b.getType = .decimal then b.decimal.bind fun d => .ok (.dbl d) else .throw .typeError
  | .str, b => b.strv.bind fun s => .ok (.str s)

/-- `compare_impl`, include/dart/conversion_traits.h 1062-1103: `pkt == native`. A native integer is passed
as `int64_t`; comparing a `double` with an `int64_t` converts the latter. -/
def Val.eqNative (v : Val) : Native → Res Bool
  | .null => .ok (decide (v.getType = .null))
  | .bool b => if v.getType = .boolean then v.boolean.bind fun c => .ok (c == b) else .ok false
  | .int _ x =>
    let val := BitVec.ofInt 64 x
    if v.getType = .integer then v.integer.bind fun i => .ok (i == val)
    else if v.getType = .decimal then v.decimal.bind fun d => .ok (decEq d (intToDouble val.toInt))
    else .ok false
  | .dbl e =>
    if v.getType = .integer then v.integer.bind fun i => .ok (decEq (intToDouble i.toInt) e)
    else if v.getType = .decimal then v.decimal.bind fun d => .ok (decEq d e)
    else .ok false
  | .str s => if v.getType = .string then v.strv.bind fun t => .ok (t == s) else .ok false

/-- The same on finalized values. -/
def Buf.eqNative (b : Buf) : Native → Res Bool
  | .null => .ok (decide (b.getType = .null))
  | .bool c => if b.getType = .boolean then b.boolean.bind fun d => .ok (d == c) else .ok false
  | .int _ x =>
    let val := BitVec.ofInt 64 x
    if b.getType = .integer then b.integer.bind fun i => .ok (i == val)
    else if b.getType = .decimal then b.decimal.bind fun d => .ok (decEq d (intToDouble val.toInt))
    else .ok false
  | .dbl e =>
    if b.getType = .integer then b.integer.bind fun i => .ok (decEq (intToDouble i.toInt) e)
    else if b.getType = .decimal then b.decimal.bind fun d => .ok (decEq d e)
    else .ok false
  | .str s => if b.getType = .string then b.strv.bind fun t => .ok (t == s) else .ok false

end Dart
