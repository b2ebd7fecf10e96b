import Verif.Spec.Value

/-
How deep a value is nested.
-/
namespace Dart.Spec

mutual
/-- The longest way down: a scalar or an empty object or array is one level, every object or array around it one more. -/
def levels : Val → Nat
  | .obj fs => 1 + levelsFields fs
  | .arr es => 1 + levelsElems es
  | _ => 1
/-- The deepest of the values of an object. -/
def levelsFields : List (Bytes × Val) → Nat
  | [] => 0
  | (_, v) :: fs => max (levels v) (levelsFields fs)
/-- The deepest of the elements of an array. -/
def levelsElems : List Val → Nat
  | [] => 0
  | v :: es => max (levels v) (levelsElems es)
end

/-- `[[…[]…]]`, with `n` arrays around the empty one. -/
def nest : Nat → Val
  | 0 => .arr []
  | n + 1 => .arr [nest n]

/-- `{"": [[…[]…]]}`. -/
def nested (n : Nat) : Val := .obj [([], nest n)]

end Dart.Spec
