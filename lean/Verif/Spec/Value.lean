import Verif.Model.Value
import Verif.Spec.KeyOrder

/-
Which dynamic values can exist, stated without reference to the library's algorithms.
-/
namespace Dart

mutual
/-- A dynamic value as the API can build it: the fields of every object are listed in key order
without duplicates, keys are at most 65535 bytes, and every string is shorter than 4 GiB. -/
def Val.WF : Val → Prop
  | .obj fs => List.Pairwise (fun a b => Spec.KeyBefore a.1 b.1) fs ∧ WFFields fs
  | .arr es => WFElems es
  | .str s => s.length < 2 ^ 32
  | _ => True
/-- `Val.WF` for the fields of an object. -/
def WFFields : List (Bytes × Val) → Prop
  | [] => True
  | (k, v) :: fs => k.length ≤ 65535 ∧ v.WF ∧ WFFields fs
/-- `Val.WF` for the elements of an array. -/
def WFElems : List Val → Prop
  | [] => True
  | v :: es => v.WF ∧ WFElems es
end

end Dart
