import Verif.Spec.Weight

/-
The number of characters in a document.
-/
namespace Dart.Spec

mutual
/-- The bytes of all keys and strings in `v`. -/
def textLength : Val → Nat
  | .obj fs => textFields fs
  | .arr es => textElems es
  | .str s => s.length
  | _ => 0
/-- The same for the fields of an object. -/
def textFields : List (Bytes × Val) → Nat
  | [] => 0
  | (k, v) :: fs => k.length + textLength v + textFields fs
/-- The same for the elements of an array. -/
def textElems : List Val → Nat
  | [] => 0
  | v :: es => textLength v + textElems es
end

end Dart.Spec
