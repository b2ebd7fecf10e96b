import Verif.Model.Recount
import Verif.Spec.Packet

namespace Dart.Spec

mutual
/-- Every array in the value fits a `std::vector` of 32-byte elements. -/
def Storable : Val → Prop
  | .arr es => es.length ≤ 2 ^ 58 ∧ StorableElems es
  | .obj fs => StorableFields fs
  | _ => True
/-- `Storable` for all elements. -/
def StorableElems : List Val → Prop
  | [] => True
  | v :: es => Storable v ∧ StorableElems es
/-- `Storable` for all fields. -/
def StorableFields : List (Bytes × Val) → Prop
  | [] => True
  | (_, v) :: fs => Storable v ∧ StorableFields fs
end

end Dart.Spec
