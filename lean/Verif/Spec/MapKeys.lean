import Verif.Model.MapKeys
import Verif.Spec.Container

/-
Key types of maps.
-/
namespace Dart.Spec

/-- A key type that is not a string: `bool`, an integer type or `double`. -/
def Plain (s : NativeTy) : Prop := s ≠ .str ∧ s ≠ .null

end Dart.Spec
