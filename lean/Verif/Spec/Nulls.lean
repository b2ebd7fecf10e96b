import Verif.Spec.Room

/-
Values whose nulls do not confuse the validator.
-/
namespace Dart

mutual
/-- At every depth, an array holds a null at most in last place, and an object holds a null at most
under its last key or under keys of even length. -/
def Val.NullsHarmless : Val → Prop
  | .obj fs => NullsHarmlessFields fs
  | .arr es => NullsHarmlessElems es
  | _ => True
/-- The same for the fields of an object. -/
def NullsHarmlessFields : List (Bytes × Val) → Prop
  | [] => True
  | (k, v) :: fs => (v = .null → fs ≠ [] → k.length % 2 = 0) ∧ v.NullsHarmless ∧ NullsHarmlessFields fs
/-- The same for the elements of an array. -/
def NullsHarmlessElems : List Val → Prop
  | [] => True
  | v :: es => (v = .null → es = []) ∧ v.NullsHarmless ∧ NullsHarmlessElems es
end

mutual
/-- No null lies at the same place as what follows it: in an object what follows is a key, in an array an element. -/
def Val.NullsApart : Val → Prop
  | .obj fs => NullsApartFields fs
  | .arr es => NullsApartElems (8 + 8 * es.length) es
  | _ => True
/-- The same for the fields of an object: a null under a key of odd length is right before the next key. -/
def NullsApartFields : List (Bytes × Val) → Prop
  | [] => True
  | (k, v) :: fs => (v = .null → fs ≠ [] → k.length % 2 = 0) ∧ v.NullsApart ∧ NullsApartFields fs
/-- The same for the elements of an array from `off` on. -/
def NullsApartElems : Nat → List Val → Prop
  | _, [] => True
  | off, v :: es =>
    (v = .null → ∀ w ∈ es.head?, off % w.unit ≠ 0) ∧ v.NullsApart ∧ NullsApartElems (upTo off v.unit + v.room) es
end

end Dart
