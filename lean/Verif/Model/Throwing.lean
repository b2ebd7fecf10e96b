import Verif.Model.Validate

/-
The throwing flavour of the validator, `valid_buffer<false>`, behind `dart::validate`.
-/
namespace Dart

/-- How a call of the throwing flavour ends. -/
inductive VEnd
  | returns (b : Bool)
  | throws (message : String)
  deriving DecidableEq

/-- As `Verdict`, with exceptions (`validation_error`). -/
abbrev TVerdict := Except VErr VEnd

/-- The next check runs if the one before neither threw nor returned false (`if (!valid_key) return false`, include/dart/object.tcc 568,
591, include/dart/array.tcc 333). -/
def TVerdict.and (a : TVerdict) (b : Unit → TVerdict) : TVerdict :=
  match a with
  | .ok (.returns true) => b ()
  | .ok (.returns false) => .ok (.returns false)
  | .ok (.throws e) => .ok (.throws e)
  | .error e => .error e

/-- `if (!c) throw validation_error(message)` -/
def require (c : Prop) [Decidable c] (message : String) : TVerdict := .ok (if c then .returns true else .throws message)

/-- `basic_string::is_valid<false>`, include/dart/string.tcc 73-98. -/
def validStringT (m : Bytes) (t : RawType) (p bytes : Nat) : TVerdict :=
  (require (strWidth t ≤ bytes) "Serialized string is truncated").and fun _ => do
    let len ← rd (readU m (strWidth t) p)
    (require (strWidth t + len + 1 ≤ bytes) "Serialized string length is out of bounds").and fun _ => do
      let z ← rd (readU m 1 (p + strWidth t + len))
      require (z = 0) "Serialized string is corrupted, internal consistency checks failed"

/-- The loop over the types, include/dart/object.tcc 530-537, include/dart/array.tcc 301-308 (both messages speak of objects). -/
def typesValidT (m : Bytes) (p : Nat) : Nat → TVerdict
  | 0 => .ok (.returns true)
  | n + 1 => (typesValidT m p n).and fun _ => do
    let c ← rd (readU m 1 (p + 8 + 8 * n + 4))
    require ((RawType.ofCode c).isSome = true) "Serialized object value is of no known type"

/-- The checks on the address of a child, include/dart/object.tcc 548-560, 573-585, include/dart/array.tcc 314-326; `what` is the
beginning of the messages. -/
def childAddrT (what : String) (p total prev q : Nat) (t : RawType) : TVerdict :=
  (require (q - p ≤ total) (what ++ " offset is out of bounds")).and fun _ =>
  (require (prev < q) (what ++ " contained a negative or cyclic offset")).and fun _ =>
  require (alignUp q t.align = q) (what ++ " offset does not meet alignment requirements")

/-- The loop over the fields, include/dart/object.tcc 541-593. -/
def validFieldsT (rec : RawType → Nat → Nat → TVerdict) (m : Bytes) (p total : Nat) : Nat → Nat → Nat → TVerdict
  | 0, _, _ => .ok (.returns true)
  | k + 1, idx, prev => do
    let kp ← rd (loadKey m p idx)
    (childAddrT "Serialized object key" p total prev kp .string).and fun _ =>
      (rec .string kp (total - (kp - p))).and fun _ => do
        let (vt, vp) ← rd (loadValue m p idx)
        (childAddrT "Serialized object value" p total kp vp vt).and fun _ =>
          (rec vt vp (total - (vp - p))).and fun _ => validFieldsT rec m p total k (idx + 1) vp

/-- The loop over the elements, include/dart/array.tcc 310-334. -/
def validElemsT (rec : RawType → Nat → Nat → TVerdict) (m : Bytes) (p total : Nat) : Nat → Nat → Nat → TVerdict
  | 0, _, _ => .ok (.returns true)
  | k + 1, idx, prev => do
    let (vt, vp) ← rd (loadElem m p idx)
    (childAddrT "Serialized array value" p total prev vp vt).and fun _ =>
      (rec vt vp (total - (vp - p))).and fun _ => validElemsT rec m p total k (idx + 1) vp

/-- The part shared by objects and arrays, include/dart/object.tcc 506-537, include/dart/array.tcc 277-308. -/
def validTableT (what : String) (m : Bytes) (p bytes : Nat) (loop : Nat → Nat → TVerdict) : TVerdict :=
  (require (8 ≤ bytes) (what ++ " is truncated")).and fun _ => do
    let total ← rd (readU m 4 p)
    (require (total ≤ bytes) (what ++ " length is out of bounds")).and fun _ => do
      let n ← rd (numElems m p)
      (require (8 + 8 * n ≤ total) (what ++ " vtable length is out of bounds")).and fun _ =>
        (typesValidT m p n).and fun _ => loop total n

/-- `valid_buffer<false>`, include/dart/common.h 1294-1305, and the `is_valid<false>` members (include/dart/object.tcc 504-595,
include/dart/array.tcc 275-336, include/dart/string.tcc 73-98, include/dart/primitive.tcc 118-128). An element of no known type would
make it return false without throwing; it is not called on one, since the loops over the types come first. -/
def validBufferT (m : Bytes) : Nat → RawType → Nat → Nat → TVerdict
  | 0, _, _, _ => .error .fuel
  | fuel + 1, t, p, bytes =>
    match t with
    | .null => .ok (.returns true)
    | .object => validTableT "Serialized object" m p bytes fun total n => validFieldsT (validBufferT m fuel) m p total n 0 p
    | .array => validTableT "Serialized array" m p bytes fun total n => validElemsT (validBufferT m fuel) m p total n 0 p
    | .string => validStringT m .string p bytes
    | .smallString => validStringT m .smallString p bytes
    | .bigString => validStringT m .bigString p bytes
    | .shortInteger => require (2 ≤ bytes) "Serialized primitive value is truncated"
    | .integer => require (4 ≤ bytes) "Serialized primitive value is truncated"
    | .longInteger => require (8 ≤ bytes) "Serialized primitive value is truncated"
    | .decimal => require (4 ≤ bytes) "Serialized primitive value is truncated"
    | .longDecimal => require (8 ≤ bytes) "Serialized primitive value is truncated"
    | .boolean => require (1 ≤ bytes) "Serialized primitive value is truncated"

/-- How a call of a function without result ends. -/
inductive Ended
  | returned
  | threw (message : String)
  deriving DecidableEq

/-- `dart::validate`, include/dart.h 13848-13981: what `valid_buffer<false>` returns is ignored. `error` is a read outside of the bytes or a
recursion without end. -/
def validate (m : Bytes) : Except VErr Ended :=
  match validBufferT m (m.length + 1) .object 0 m.length with
  | .ok (.returns _) => .ok .returned
  | .ok (.throws e) => .ok (.threw e)
  | .error e => .error e

end Dart
