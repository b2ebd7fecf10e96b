import Verif.Model.Packet
import Verif.Model.Str

/-
Comparing values with `==`.
-/
namespace Dart

/-- What of a string `strcmp` looks at. -/
def cstring (s : Bytes) : Bytes := s.takeWhile (· ≠ 0)

/-- `==` on the string alternatives, as a function of the strings: `StrRep.eq` on how they are stored
(they are proved to agree in C21). include/dart/common.h 308-311, 320-323. -/
def strEq (s t : Bytes) : Bool := s.length == t.length && cstring s == cstring t

/-- `==` on `double`, on bit patterns: false if either is NaN, otherwise true for the same pattern and for
two zeros. -/
def decEq (a b : BitVec 64) : Bool :=
  let nan (d : BitVec 64) : Bool := d.toNat / 2 ^ 52 % 2 ^ 11 == 2047 && d.toNat % 2 ^ 52 != 0
  !nan a && !nan b && (a == b || (a.toNat % 2 ^ 63 == 0 && b.toNat % 2 ^ 63 == 0))

mutual
/-- `typed_compare<basic_heap>::compare`, include/dart/conversion_traits.h 218-243. The code first asks
whether both sides are the same object in memory; `same` answers that question, for the position `p`
in the two values reached by the recursion (innermost index first; keys have even, values odd indices).
Objects are compared by `std::map`'s and arrays by `std::vector`'s `==`. -/
def heapEq (same : List Nat → Val → Val → Bool) : Val → List Nat → Val → Bool
  | .null, p, w => same p .null w || match w with | .null => true | _ => false
  | .bool b, p, w => same p (.bool b) w || match w with | .bool c => b == c | _ => false
  | .int i, p, w => same p (.int i) w || match w with | .int j => i == j | _ => false
  | .dec d, p, w => same p (.dec d) w || match w with | .dec e => decEq d e | _ => false
  | .str s, p, w => same p (.str s) w || match w with | .str t => strEq s t | _ => false
  | .arr es, p, w => same p (.arr es) w ||
      match w with | .arr gs => es.length == gs.length && elemsEq same es p 0 gs | _ => false
  | .obj fs, p, w => same p (.obj fs) w ||
      match w with | .obj gs => fs.length == gs.length && fieldsEq same fs p 0 gs | _ => false
/-- `std::equal` over the elements of two arrays. -/
def elemsEq (same : List Nat → Val → Val → Bool) : List Val → List Nat → Nat → List Val → Bool
  | [], _, _, _ => true
  | v :: es, p, i, w :: gs => heapEq same v (i :: p) w && elemsEq same es p (i + 1) gs
  | _ :: _, _, _, [] => false
/-- `std::equal` over the pairs of two maps; the keys are dynamic strings. -/
def fieldsEq (same : List Nat → Val → Val → Bool) : List (Bytes × Val) → List Nat → Nat → List (Bytes × Val) → Bool
  | [], _, _, _ => true
  | (k, v) :: fs, p, i, (l, w) :: gs =>
      (same (2 * i :: p) (.str k) (.str l) || strEq k l) && heapEq same v ((2 * i + 1) :: p) w &&
        fieldsEq same fs p (i + 1) gs
  | _ :: _, _, _, [] => false
end

/-- `operator ==` on two dynamic values, include/dart/operators.tcc 31-33. -/
def Val.eqOp (same : List Nat → Val → Val → Bool) (v w : Val) : Bool := heapEq same v [] w

/-- `operator !=`, include/dart/operators.tcc 40-42. -/
def Val.neOp (same : List Nat → Val → Val → Bool) (v w : Val) : Bool := !v.eqOp same w

/-- `typed_compare<basic_buffer>::compare`, include/dart/conversion_traits.h 246-268. `sameObj`: both sides
are the same C++ object; `samePtr`: both point to the same memory. -/
def Buf.eq (sameObj samePtr : Bool) (b c : Buf) : Res Bool :=
  if sameObj then .ok true
  else if b.getType = .null ∧ c.getType = .null then .ok true
  else if b.getType ≠ c.getType then .ok false
  else if samePtr then .ok true
  else (Res.ofRead b.sizeof).bind fun n => (Res.ofRead c.sizeof).bind fun n' =>
    if n = n' then
      (Res.ofRead b.addr).bind fun p => (Res.ofRead (readBytes b.mem p n)).bind fun x =>
      (Res.ofRead c.addr).bind fun q => (Res.ofRead (readBytes c.mem q n)).bind fun y => .ok (x == y)
    else .ok false

mutual
/-- `generic_compare(lhs, rhs)` with the finalized value on the left, include/dart/conversion_traits.h
284-330 (`compare_impl<dart_tag>` puts it there, 1130-1141). `lhs[*k]` is `get`, which is null for a
missing key. An exception would leave a `noexcept` function; none is thrown (C23). -/
def Buf.eqVal (signed : Bool) (b : Buf) (w : Val) : Res Bool :=
  if b.getType ≠ w.getType then .ok false
  else match w with
    | .obj gs => b.size.bind fun n => if n ≠ gs.length then .ok false else b.eqFields signed gs
    | .arr gs => b.size.bind fun n => if n ≠ gs.length then .ok false else b.eqElems signed 0 gs
    | .str t => b.strv.bind fun s => .ok (s == t)
    | .int j => b.integer.bind fun i => .ok (i == j)
    | .dec e => b.decimal.bind fun d => .ok (decEq d e)
    | .bool c => b.boolean.bind fun d => .ok (d == c)
    | .null => .ok true
/-- The loop over the pairs of the dynamic object, include/dart/conversion_traits.h 298-303. -/
def Buf.eqFields (signed : Bool) (b : Buf) (gs : List (Bytes × Val)) : Res Bool :=
  match gs with
  | [] => .ok true
  | (k, w) :: gs => (b.get signed k).bind fun x => (x.eqVal signed w).bind fun r =>
      if !r then .ok false else b.eqFields signed gs
/-- The loop over the elements, include/dart/conversion_traits.h 311-313. -/
def Buf.eqElems (signed : Bool) (b : Buf) (i : Nat) (gs : List Val) : Res Bool :=
  match gs with
  | [] => .ok true
  | w :: gs => (b.getIdx i).bind fun x => (x.eqVal signed w).bind fun r =>
      if !r then .ok false else b.eqElems signed (i + 1) gs
end

end Dart
