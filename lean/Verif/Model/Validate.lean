import Verif.Model.Read

/-
Validation of untrusted bytes: `is_valid`, `valid_buffer`. The silent flavour is modelled (the other
one throws `validation_error` where this one returns false).
-/
namespace Dart

/-- How the validator can fail to return: an out-of-bounds read, or recursion deeper than allowed. -/
inductive VErr
  | oob | fuel
  deriving DecidableEq, Repr

/-- A checked read inside the validator. -/
def rd {α : Type} : Option α → Except VErr α
  | some a => .ok a
  | none => .error .oob

deriving instance DecidableEq for Except

/-- What the validator returns. -/
abbrev Verdict := Except VErr Bool

/-- Sequencing of two checks: the second one runs only if the first one holds. -/
def Verdict.and (a : Verdict) (b : Unit → Verdict) : Verdict :=
  match a with
  | .ok true => b ()
  | .ok false => .ok false
  | .error e => .error e

/-- A check that needs no memory access. -/
def check (c : Prop) [Decidable c] : Verdict := .ok (decide c)

/-- `basic_string::is_valid`, include/dart/string.tcc 73-98: room for the length field, room for the
whole string, a NUL at the end. -/
def validString (m : Bytes) (t : RawType) (p bytes : Nat) : Verdict :=
  (check (strWidth t ≤ bytes)).and fun _ => do
    let len ← rd (readU m (strWidth t) p)
    (check (strWidth t + len + 1 ≤ bytes)).and fun _ => do
      let z ← rd (readU m 1 (p + strWidth t + len))
      check (z = 0)

/-- The loop over the table checking the type bytes, include/dart/object.tcc 530-537,
include/dart/array.tcc 301-308. -/
def typesValid (m : Bytes) (p : Nat) : Nat → Verdict
  | 0 => .ok true
  | n + 1 => (typesValid m p n).and fun _ => do
    let c ← rd (readU m 1 (p + 8 + 8 * n + 4))
    check ((RawType.ofCode c).isSome = true)

/-- The checks on the address `q` of a child of the aggregate at `p`,
include/dart/object.tcc 548-560, 573-585, include/dart/array.tcc 314-326: inside the aggregate, beyond
the previous child, aligned. -/
def childAddr (p total prev q : Nat) (t : RawType) : Verdict :=
  (check (q - p ≤ total)).and fun _ =>
  (check (prev < q)).and fun _ => check (alignUp q t.align = q)

/-- The loop over the fields of an object, include/dart/object.tcc 541-593, from field `idx` on with
`k` fields to go; `rec` is the recursive `valid_buffer`. -/
def validFields (rec : RawType → Nat → Nat → Verdict) (m : Bytes) (p total : Nat) :
    Nat → Nat → Nat → Verdict
  | 0, _, _ => .ok true
  | k + 1, idx, prev => do
    let kp ← rd (loadKey m p idx)
    (childAddr p total prev kp .string).and fun _ =>
      (rec .string kp (total - (kp - p))).and fun _ => do
        let (vt, vp) ← rd (loadValue m p idx)
        (childAddr p total kp vp vt).and fun _ =>
          (rec vt vp (total - (vp - p))).and fun _ =>
            validFields rec m p total k (idx + 1) vp

/-- The loop over the elements of an array, include/dart/array.tcc 310-334. -/
def validElems (rec : RawType → Nat → Nat → Verdict) (m : Bytes) (p total : Nat) :
    Nat → Nat → Nat → Verdict
  | 0, _, _ => .ok true
  | k + 1, idx, prev => do
    let (vt, vp) ← rd (loadElem m p idx)
    (childAddr p total prev vp vt).and fun _ =>
      (rec vt vp (total - (vp - p))).and fun _ =>
        validElems rec m p total k (idx + 1) vp

/-- The part shared by `object::is_valid` and `array::is_valid`, include/dart/object.tcc 506-537,
include/dart/array.tcc 277-308; `loop total n` is the loop over the children. -/
def validTable (m : Bytes) (p bytes : Nat) (loop : Nat → Nat → Verdict) : Verdict :=
  (check (8 ≤ bytes)).and fun _ => do
    let total ← rd (readU m 4 p)
    (check (total ≤ bytes)).and fun _ => do
      let n ← rd (numElems m p)
      (check (8 + 8 * n ≤ total)).and fun _ =>
        (typesValid m p n).and fun _ => loop total n

/-- `valid_buffer`, include/dart/common.h 1294-1305, with `generic_deref`, 1225-1256, and the
`is_valid` members (include/dart/object.tcc 504-595, include/dart/array.tcc 275-336,
include/dart/string.tcc 73-98, include/dart/primitive.tcc 118-128). The first argument bounds the
recursion depth. -/
def validBuffer (m : Bytes) : Nat → RawType → Nat → Nat → Verdict
  | 0, _, _, _ => .error .fuel
  | fuel + 1, t, p, bytes =>
    match t with
    | .null => .ok true
    | .object => validTable m p bytes fun total n =>
        validFields (validBuffer m fuel) m p total n 0 p
    | .array => validTable m p bytes fun total n =>
        validElems (validBuffer m fuel) m p total n 0 p
    | .string => validString m .string p bytes
    | .smallString => validString m .smallString p bytes
    | .bigString => validString m .bigString p bytes
    | .shortInteger => check (2 ≤ bytes)
    | .integer => check (4 ≤ bytes)
    | .longInteger => check (8 ≤ bytes)
    | .decimal => check (4 ≤ bytes)
    | .longDecimal => check (8 ≤ bytes)
    | .boolean => check (1 ≤ bytes)

/-- `dart::is_valid(gsl::span)` / `dart::is_valid(ptr, len)`, include/dart.h 13697-13722. The bytes of
the span are `m`; reading beyond them is an out-of-bounds read. -/
def isValid (m : Bytes) : Verdict := validBuffer m (m.length + 1) .object 0 m.length

/-- The validator returns true. -/
def accepts (m : Bytes) : Prop := isValid m = .ok true

instance (m : Bytes) : Decidable (accepts m) := inferInstanceAs (Decidable (_ = _))

end Dart
