import Verif.Model.Value

/-
Values stored in at most two-byte aligned form.
-/
namespace Dart.Spec

/-- Null, a boolean, an integer of at most 16 bits, or a string of at most 65535 bytes. -/
def Small : Val → Prop
  | .null => True
  | .bool _ => True
  | .int i => -32768 ≤ i.toInt ∧ i.toInt ≤ 32767
  | .str s => s.length ≤ 65535
  | _ => False

end Dart.Spec
