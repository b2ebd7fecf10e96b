import Verif.Spec.Value

/-
The number of values in a document, counting the document itself.
-/
namespace Dart.Spec

mutual
/-- The number of values in `v`: itself and everything inside it. -/
def weight : Val → Nat
  | .obj fs => 1 + weightFields fs
  | .arr es => 1 + weightElems es
  | _ => 1
/-- The same for the values of an object. -/
def weightFields : List (Bytes × Val) → Nat
  | [] => 0
  | (_, v) :: fs => weight v + weightFields fs
/-- The same for the elements of an array. -/
def weightElems : List Val → Nat
  | [] => 0
  | v :: es => weight v + weightElems es
end

end Dart.Spec
