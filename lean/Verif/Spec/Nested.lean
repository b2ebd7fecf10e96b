import Verif.Spec.Heap

/-
Following keys from value to value, and which keys finalized lookups can be relied on to find.
-/
namespace Dart.Spec

/-- Follow the keys one by one; null as soon as a key is missing or the value is not an object. -/
def follow : Val → List Bytes → Val
  | v, [] => v
  | .obj fs, k :: ks => match lookup fs k with
    | some w => follow w ks
    | none => .null
  | _, _ :: _ => .null

/-- A path: components each ended by the separator, then a last one that is ended by the end of the
path (no last component if the path is empty or ends with a separator). -/
def path (sep : UInt8) (ks : List Bytes) (k : Bytes) : Bytes := ks.flatMap (· ++ [sep]) ++ k

/-- The components of `path sep ks k`. -/
def components (ks : List Bytes) (k : Bytes) : List Bytes := if k = [] then ks else ks ++ [k]

/-- A key the lookup in finalized objects handles correctly (see C02). -/
def PlainKey (signed : Bool) (k : Bytes) : Prop :=
  (0 : UInt8) ∉ k ∧ k.length ≤ 255 ∧ (signed = true → ∀ c ∈ k.take 2, c.toNat < 128)

end Dart.Spec

namespace Dart
open Spec

mutual
/-- All keys, at every depth, are plain. -/
def Val.PlainKeys (signed : Bool) : Val → Prop
  | .obj fs => PlainFields signed fs
  | .arr es => PlainElems signed es
  | _ => True
/-- `Val.PlainKeys` for fields. -/
def PlainFields (signed : Bool) : List (Bytes × Val) → Prop
  | [] => True
  | (k, v) :: fs => PlainKey signed k ∧ v.PlainKeys signed ∧ PlainFields signed fs
/-- `Val.PlainKeys` for elements. -/
def PlainElems (signed : Bool) : List Val → Prop
  | [] => True
  | v :: es => v.PlainKeys signed ∧ PlainElems signed es
end

end Dart
