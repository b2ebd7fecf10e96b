import Verif.Model.AbiCalls
import Verif.Model.Equal

/-
Comparing objects of different classes and with different reference counters: `dart_equal` of the C interface, which ends up in
`operator ==` of the C++ classes.
-/
namespace Dart

mutual
/-- How deep a value is nested. -/
def Val.nesting : Val → Nat
  | .arr es => nestingElems es + 1
  | .obj fs => nestingFields fs + 1
  | _ => 0
/-- The same for elements. -/
def nestingElems : List Val → Nat
  | [] => 0
  | v :: es => max v.nesting (nestingElems es)
/-- The same for fields. -/
def nestingFields : List (Bytes × Val) → Nat
  | [] => 0
  | (_, v) :: fs => max v.nesting (nestingFields fs)
end

/-- How deep what the packet holds is nested. -/
def Pkt.nesting (p : Pkt) : Nat := match p.toHeap with | .ok v => v.nesting | _ => 0

/-- The loop over the pairs of `rhs`, include/dart/conversion_traits.h 298-303: `*v != lhs[*k]`, where `cmp` is `==`. `lhs[*k]` is
`get`, which is null for a missing key. -/
def cmpFields (signed : Bool) (cmp : Pkt → Pkt → Res Bool) (lhs : Pkt) : List Pkt → List Pkt → Res Bool
  | k :: ks, v :: vs => k.strv.bind fun s => (PRead.run signed lhs (.get s)).bind fun x => (cmp v x).bind fun r =>
      if !r then .ok false else cmpFields signed cmp lhs ks vs
  | _, _ => .ok true

/-- The loop over the elements, include/dart/conversion_traits.h 311-313: `lhs[i] != rhs[i]`, for `n` elements from `i`. -/
def cmpElems (signed : Bool) (cmp : Pkt → Pkt → Res Bool) (lhs rhs : Pkt) : Nat → Nat → Res Bool
  | 0, _ => .ok true
  | n + 1, i => (PRead.run signed lhs (.getIdx i)).bind fun x => (PRead.run signed rhs (.getIdx i)).bind fun y =>
      (cmp x y).bind fun r => if !r then .ok false else cmpElems signed cmp lhs rhs n (i + 1)

/-- `generic_compare(lhs, rhs)`, include/dart/conversion_traits.h 284-330, with `cmp` for `==` on the elements. The iterators of
`rhs` are the lists of its keys and values. -/
def genericCompare (signed : Bool) (cmp : Pkt → Pkt → Res Bool) (lhs rhs : Pkt) : Res Bool :=
  if lhs.getType ≠ rhs.getType then .ok false
  else match lhs.getType with
    | .object => lhs.size.bind fun n => rhs.size.bind fun m => if n ≠ m then .ok false else
        rhs.keys.bind fun ks => rhs.values.bind fun vs => cmpFields signed cmp lhs ks vs
    | .array => lhs.size.bind fun n => rhs.size.bind fun m => if n ≠ m then .ok false else cmpElems signed cmp lhs rhs n 0
    | .string => lhs.strv.bind fun s => rhs.strv.bind fun t => .ok (s == t)
    | .integer => lhs.integer.bind fun i => rhs.integer.bind fun j => .ok (i == j)
    | .decimal => lhs.decimal.bind fun d => rhs.decimal.bind fun e => .ok (decEq d e)
    | .boolean => lhs.boolean.bind fun b => rhs.boolean.bind fun c => .ok (b == c)
    | .null => .ok true

/-- `compare_impl<dart_tag>::compare` for objects of different classes, include/dart/conversion_traits.h 1130-1141: the one that is
finalized goes first. Elements of objects of different classes are of different classes again. The first argument bounds the
depth of the recursion. -/
def Pkt.cmp (signed : Bool) : Nat → Pkt → Pkt → Res Bool
  | 0, _, _ => .ub
  | n + 1, lhs, rhs =>
    if lhs.isFinalized then genericCompare signed (Pkt.cmp signed n) lhs rhs
    else genericCompare signed (Pkt.cmp signed n) rhs lhs

/-- The same, with a bound that is never reached (C66). -/
def Pkt.eqAcross (signed : Bool) (lhs rhs : Pkt) : Res Bool := Pkt.cmp signed (lhs.nesting + rhs.nesting + 1) lhs rhs

/-- `typed_compare<basic_heap>::compare` for heaps with different reference counters, include/dart/conversion_traits.h 218-243: the
containers are of different types then and not comparable, which `typeless_comparator` turns into `false`
(include/dart/common.tcc 127-138). -/
def mixedEq : Val → Val → Bool
  | .null, .null => true
  | .bool b, .bool c => b == c
  | .int i, .int j => i == j
  | .dec d, .dec e => decEq d e
  | .str s, .str t => strEq s t
  | _, _ => false

/-- What memory two different objects share. `ptr`: both are finalized and point to the same bytes. `inside`: as for `heapEq`. -/
structure Sharing where
  ptr : Bool
  inside : List Nat → Val → Val → Bool

/-- `typed_compare`, include/dart/conversion_traits.h 214-280, for two different objects of the same class. Packets
compare what they hold, 277. -/
def Pkt.eqTyped (signed sameRc : Bool) (sh : Sharing) : Pkt → Pkt → Res Bool
  | .heap v, .heap w => .ok (if sameRc then v.eqOp sh.inside w else mixedEq v w)
  | .buf b, .buf c => b.eq false sh.ptr c
  | .heap v, .buf c => c.eqVal signed v
  | .buf b, .heap w => b.eqVal signed w

namespace Abi

/-- `==` on two different objects, include/dart/operators.tcc 31-33, include/dart/conversion_traits.h 1105-1143. -/
def Obj.eqOp (signed : Bool) (sh : Sharing) (a b : Obj) : Res Bool :=
  if a.rep = b.rep then Pkt.eqTyped signed (decide (a.rc = b.rc)) sh a.pkt b.pkt else Pkt.eqAcross signed a.pkt b.pkt

/-- The answer of a `noexcept` comparison: an exception would end the program. -/
def answer : Res Bool → Option Bool
  | .ok r => some r
  | _ => none

/-- `dart_equal`, src/generic.cc 396-405, on the objects in two variables. An object is equal to itself
(include/dart/conversion_traits.h 223, 252, 276). -/
def dartEqual (signed : Bool) (sh : Sharing) (s : CState) (x y : Nat) : Option Bool :=
  match s.objs x, s.objs y with
  | some a, some b => if x = y then some true else answer (a.eqOp signed sh b)
  | _, _ => none

/-- `dart_heap_equal` and `dart_buffer_equal`, src/heap.cc 478-495, src/buffer.cc 85-102, on two heaps or two buffers. With different
counters the inner access fails, and the error is dropped. The left side is copied (`[check, lhs]`), so the two are never the same
object, but the copy shares what is inside. -/
def typedEqual (signed : Bool) (sh : Sharing) (s : CState) (x y : Nat) : Option Bool :=
  match s.objs x, s.objs y with
  | some a, some b =>
    if a.rep = .packet ∨ b.rep ≠ a.rep then none
    else if a.rc ≠ b.rc then some false
    else answer (Pkt.eqTyped signed true sh a.pkt b.pkt)
  | _, _ => none

end Abi

end Dart
