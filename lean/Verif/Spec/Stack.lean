import Verif.Spec.Depth
import Verif.Spec.Packet

/-
What the properties of nested calls speak about: how many values there are in a value, and a program that builds deep values.
-/
namespace Dart.Spec

mutual
/-- How many values a value consists of: itself, and the keys and values or the elements in it. -/
def valuesIn : Val → Nat
  | .obj fs => 1 + valuesInFields fs
  | .arr es => 1 + valuesInElems es
  | _ => 1
/-- Each field has a key and a value. -/
def valuesInFields : List (Bytes × Val) → Nat
  | [] => 0
  | (_, v) :: fs => 1 + valuesIn v + valuesInFields fs
/-- All elements. -/
def valuesInElems : List Val → Nat
  | [] => 0
  | v :: es => valuesIn v + valuesInElems es
end

/-- Nothing in one of the compared values is the same object in memory as what it is compared with. -/
def apart : List Nat → Val → Val → Bool := fun _ _ _ => false

/-- Nothing else has a share of any object or array in the value. -/
def soleOwner : List Nat → Bool := fun _ => false

/-- `packet x = make_array();` -/
def emptyArray : POp := .create (.const (.arr []))

/-- `x0 = make_array(); x1 = make_array(); x1.push_back(x0); x2 = make_array(); x2.push_back(x1); …` up to `xn`. -/
def climb : Nat → List POp
  | 0 => [emptyArray]
  | n + 1 => climb n ++ [emptyArray, .mutate (n + 1) (.pushBack (.var n))]

/-- And at last `y = make_object(); y.insert("", xn);`. -/
def climbUp (n : Nat) : List POp :=
  climb n ++ [.create (.const (.obj [])), .mutate (n + 1) (.insert (.const (.str [])) (.var n))]

end Dart.Spec
